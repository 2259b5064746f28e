import Verif.Spec.Reuse
import Verif.Lemmas.DeMono
/-!
# Reading data without dates: `reuse_instances` makes no difference
-/

namespace Verif
open Spec

theorem Spec.NoDate.str {s} : NoDate (.str s) := .scalar .str

theorem noDate_strElems {s x} (h : x ∈ strElems s) : NoDate x := by
  unfold strElems at h
  rw [List.mem_map] at h
  obtain ⟨c, _, rfl⟩ := h
  exact .str

theorem Spec.NoDate.iter {v xs} (h : NoDate v) (hi : pyIter v = .ok xs) : ∀ x ∈ xs, NoDate x := by
  cases h with
  | scalar h =>
    cases h <;> cases hi
    intro x hx; exact noDate_strElems hx
  | enum => cases hi
  | list h => cases hi; exact h
  | tuple h => cases hi; exact h
  | deque h => cases hi; exact h
  | set h => cases hi; exact h
  | dict h _ =>
    cases hi
    intro x hx
    rw [List.mem_map] at hx
    obtain ⟨e, he, rfl⟩ := hx
    exact h e he

theorem Spec.NoDate.items {v kvs} (h : NoDate v) (hi : pyItems v = .ok kvs) : ∀ e ∈ kvs, NoDate e.1 ∧ NoDate e.2 := by
  cases h with
  | scalar h => cases h <;> cases hi
  | dict h h' => cases hi; exact fun e he => ⟨h e he, h' e he⟩
  | _ => cases hi

theorem getStr_mem' {k : String} : ∀ {kvs : List (Val × Val)} {v}, getStr k kvs = some v → ∃ e ∈ kvs, e.2 = v := by
  intro kvs
  induction kvs with
  | nil => intro v h; cases h
  | cons e r ih =>
    intro v h
    obtain ⟨k', x⟩ := e
    unfold getStr at h
    split at h
    · cases h
    · rename_i heq
      cases heq
      split at h
      · cases h; exact ⟨_, List.mem_cons_self, rfl⟩
      · obtain ⟨e, he, hv⟩ := ih h; exact ⟨e, by simp [he], hv⟩
    · rename_i heq
      cases heq
      obtain ⟨e, he, hv⟩ := ih h; exact ⟨e, by simp [he], hv⟩

theorem getVal_mem' {k : Val} : ∀ {kvs : List (Val × Val)} {v}, getVal k kvs = some v → ∃ e ∈ kvs, e.2 = v := by
  intro kvs
  induction kvs with
  | nil => intro v h; cases h
  | cons e r ih =>
    intro v h
    obtain ⟨k', x⟩ := e
    unfold getVal at h
    split at h
    · cases h; exact ⟨_, List.mem_cons_self, rfl⟩
    · obtain ⟨e, he, hv⟩ := ih h; exact ⟨e, by simp [he], hv⟩

theorem Spec.NoDate.getItem {v k w} (h : NoDate v) (hg : pyGetItem v k = .ok w) : NoDate w := by
  cases h with
  | scalar h => cases h <;> cases hg
  | dict h h' =>
    unfold pyGetItem at hg
    dsimp only at hg
    split at hg
    · rename_i hs; cases hg
      obtain ⟨e, he, rfl⟩ := getStr_mem' hs
      exact h' e he
    · cases hg
  | _ => cases hg

theorem Spec.NoDate.get {v k w} (h : NoDate v) (hg : pyGet v k = .ok w) : NoDate w := by
  cases h with
  | scalar h => cases h <;> cases hg
  | dict h h' =>
    unfold pyGet at hg
    dsimp only at hg
    cases hg
    rename_i kvs
    cases hs : getStr k kvs with
    | none => exact .scalar .none
    | some w =>
      obtain ⟨e, he, rfl⟩ := getStr_mem' hs
      exact h' e he
  | _ => cases hg

theorem Spec.NoDate.index {v i w} (h : NoDate v) (hg : pyIndex v i = .ok w) : NoDate w := by
  have aux : ∀ {xs : List Val}, (∀ x ∈ xs, NoDate x) → (match xs[i]? with
      | some v => (Except.ok v : Res Val)
      | none => .error (.py .index)) = .ok w → NoDate w := by
    intro xs hx h
    split at h
    · rename_i he; cases h; exact hx _ (List.mem_of_getElem? he)
    · cases h
  unfold pyIndex at hg
  cases h with
  | scalar h =>
    cases h <;> dsimp only at hg <;> first | cases hg | exact aux (fun x hx => noDate_strElems hx) hg
  | list h => exact aux h hg
  | tuple h => exact aux h hg
  | deque h => exact aux h hg
  | set h => cases hg
  | enum => cases hg
  | dict h h' =>
    dsimp only at hg
    split at hg
    · rename_i hs; cases hg
      obtain ⟨e, he, rfl⟩ := getVal_mem' hs
      exact h' e he
    · cases hg

theorem Spec.NoDate.slice {v i w} (h : NoDate v) (hg : pySlice v i = .ok w) : NoDate w := by
  unfold pySlice at hg
  cases h with
  | scalar h => cases h <;> cases hg; exact .str
  | list h => cases hg; exact .list (fun x hx => h x (List.mem_of_mem_drop hx))
  | tuple h => cases hg; exact .tuple (fun x hx => h x (List.mem_of_mem_drop hx))
  | _ => cases hg

theorem Spec.NoDate.project {env : Env} {v w ck pk b b'} (h : NoDate v) (hg : Verif.project env v ck pk b b' = .ok w) : NoDate w := by
  unfold Verif.project at hg
  split at hg
  · cases hg; exact .dict (by simp) (by simp)
  · split at hg
    · cases hg
    · rename_i kvs hk
      cases hg
      have := h.items hk
      exact .dict (fun e he => (this e (List.mem_filter.1 he).1).1) (fun e he => (this e (List.mem_filter.1 he).1).2)

theorem Spec.NoDate.payload {env : Env} {tg t v w} (h : NoDate v) (hg : unionPayload env tg t v = .ok w) : NoDate w := by
  unfold unionPayload at hg
  dsimp only at hg
  repeat' split at hg
  all_goals first | cases hg <;> exact h | cases hg | exact h.getItem hg

/-- The data an argument reads from holds no date. -/
inductive Undated : Src → Prop
  | key {d} : NoDate d → Undated (.key d)
  | idx {d i} : NoDate d → Undated (.idx d i)
  | val {v} : NoDate v → Undated (.val (.ok v))
  | err {e} : Undated (.val (.error e))

theorem Undated.data {a : DeArg} (h : Undated a.src) {v} (hd : a.data = .ok v) : NoDate v := by
  unfold DeArg.data at hd
  cases hs : a.src with
  | key d =>
    rw [hs] at hd h; dsimp only at hd; cases h with
    | key h => split at hd; exact h.get hd; exact h.getItem hd
  | idx d i => rw [hs] at hd h; cases h with | idx h => exact h.index hd
  | val r => rw [hs] at hd h; dsimp only at hd; cases h with
    | val h => cases hd; exact h
    | err => cases hd

/-- The three entry points do not look at `reuse_instances` when the data holds no date. -/
structure Blind (r : DeRec) : Prop where
  render : ∀ cx a b, Undated a.src → r.render { cx with reuse := b } a = r.render cx a
  cls : ∀ nm c (o : DeCall) b d, NoDate d → r.cls nm c { o with reuse := b } d = r.cls nm c o d
  fromObj : ∀ nm b b' nu tg t d, NoDate d → r.fromObj nm b nu tg t d = r.fromObj nm b' nu tg t d

theorem mapR_same {α β : Type} {f g : α → Res β} : ∀ {xs : List α}, (∀ x ∈ xs, f x = g x) → mapR f xs = mapR g xs := by
  intro xs
  induction xs with
  | nil => intro _; rfl
  | cons x xs ih => intro h; simp only [mapR]; rw [h x (by simp), ih (fun x hx => h x (by simp [hx]))]

section
variable {env : Env} {r : DeRec} (hr : Blind r)
include hr

theorem blind_member {cx : DeCx} {b t d} (hd : NoDate d) : deMember env r { cx with reuse := b } t d = deMember env r cx t d := by
  unfold deMember
  dsimp only
  cases hp : unionPayload env cx.tagging t d with
  | error e => rfl
  | ok p =>
    dsimp only
    rw [hr.render _ _ _ (.key (.dict (by simp; exact .str) (by simp; exact hd.payload hp)))]

theorem blind_union {cx : DeCx} {b d} (hd : NoDate d) : ∀ {ts}, deUnion env r { cx with reuse := b } d ts = deUnion env r cx d ts := by
  intro ts
  induction ts with
  | nil => rfl
  | cons t ts ih => unfold deUnion; rw [blind_member hr hd, ih]

theorem blind_body {cx : DeCx} {a : DeArg} {b} (ha : Undated a.src) : deBody env r { cx with reuse := b } a = deBody env r cx a := by
  have helem : ∀ (t : Ty) (nm : String) (x : Res Val), (∀ v, x = .ok v → NoDate v) →
      r.render { cx with reuse := b } { ty := t, name := nm, conv := nm, src := .val x, alias := a.alias, deser := a.deser } =
      r.render cx { ty := t, name := nm, conv := nm, src := .val x, alias := a.alias, deser := a.deser } := by
    intro t nm x hx
    refine hr.render _ _ _ ?_
    cases x with
    | error e => exact .err
    | ok v => exact .val (hx v rfl)
  have helems : ∀ (t : Ty) (nm : String) (xs : List Val), (∀ x ∈ xs, NoDate x) →
      mapR (fun x => r.render { cx with reuse := b } { ty := t, name := nm, conv := nm, src := .val (.ok x), alias := a.alias, deser := a.deser }) xs =
      mapR (fun x => r.render cx { ty := t, name := nm, conv := nm, src := .val (.ok x), alias := a.alias, deser := a.deser }) xs :=
    fun t nm xs hx => mapR_same (fun x h => helem t nm (.ok x) (fun v e => by cases e; exact hx x h))
  have hdat : ∀ {v}, a.data = .ok v → NoDate v := fun h => ha.data h
  unfold deBody
  dsimp only
  cases pickDe cx.des a with
  | some s => rfl
  | none =>
  dsimp only
  split
  · rfl
  · cases a.ty with
    | gen c args => exact hr.render _ _ _ ha
    | alias n t => exact hr.render _ _ _ ha
    | cls c =>
      dsimp only
      split
      · rename_i d hd
        refine hr.cls cx.named c { mg := cx.mg, mgVars := cx.mgVars, vta := a.tyArgs, reuse := some cx.reuse, numbers := cx.numbers } _ d ?_
        split at hd
        · split at hd
          · rename_i hs; cases hd; rw [hs] at ha; cases ha; assumption
          · rename_i hs; rw [hs] at ha; cases ha with | idx h => exact h.slice hd
          · rename_i hs; rw [hs] at ha; cases ha with
            | val h => cases hd; exact h
            | err => cases hd
        · exact hdat hd
      · rfl
    | union ts =>
      dsimp only
      have ho : ∀ t, optExists env { cx with reuse := b } a t = optExists env cx a t := fun t => rfl
      split
      · split
        · rw [ho]
          split
          · exact hr.render _ _ _ ha
          · rfl
          · rfl
        · rfl
      · split
        · rfl
        · split
          · rename_i d hd
            exact blind_union hr (cx := cx.inUnion env d) (hdat hd)
          · rfl
    | list k t =>
      dsimp only
      cases hd : a.data with
      | error e => rfl
      | ok d =>
        dsimp only
        cases hi : pyIter d with
        | error e => rfl
        | ok xs => dsimp only; rw [helems t "v" xs ((hdat hd).iter hi)]
    | set k t =>
      dsimp only
      cases hd : a.data with
      | error e => rfl
      | ok d =>
        dsimp only
        cases hi : pyIter d with
        | error e => rfl
        | ok xs => dsimp only; rw [helems t "v" xs ((hdat hd).iter hi)]
    | deque t =>
      dsimp only
      cases hd : a.data with
      | error e => rfl
      | ok d =>
        dsimp only
        cases hi : pyIter d with
        | error e => rfl
        | ok xs => dsimp only; rw [helems t "v" xs ((hdat hd).iter hi)]
    | tupleV t =>
      dsimp only
      cases hd : a.data with
      | error e => rfl
      | ok d =>
        dsimp only
        cases hi : pyIter d with
        | error e => rfl
        | ok xs => dsimp only; rw [helems t "v" xs ((hdat hd).iter hi)]
    | counter t =>
      dsimp only
      cases hd : a.data with
      | error e => rfl
      | ok d =>
        dsimp only
        cases hi : pyItems d with
        | error e => rfl
        | ok kvs =>
          dsimp only
          rw [mapR_same (fun kv hkv => by rw [helem t "k" (.ok kv.1) (fun v e => by cases e; exact ((hdat hd).items hi kv hkv).1)])]
    | dict k kt vt =>
      dsimp only
      cases hd : a.data with
      | error e => rfl
      | ok d =>
        dsimp only
        cases hi : pyItems d with
        | error e => rfl
        | ok kvs =>
          dsimp only
          rw [mapR_same (fun kv hkv => by
            rw [helem kt "k" (.ok kv.1) (fun v e => by cases e; exact ((hdat hd).items hi kv hkv).1),
                helem vt "v" (.ok kv.2) (fun v e => by cases e; exact ((hdat hd).items hi kv hkv).2)])]
    | tuple ts =>
      cases ts with
      | nil => rfl
      | cons t ts =>
        dsimp only
        rw [mapR_same (fun it _ => helem it.1 "data[..]" _ (fun v e => by
          split at e
          · rename_i d hd; exact (hdat hd).index e
          · cases e))]
    | std k =>
      dsimp only
      cases hd : a.data with
      | error e => rfl
      | ok d =>
        have : isStdInst env k d = false := by
          cases hdat hd with
          | scalar h => cases h <;> rfl
          | _ => rfl
        dsimp only
        rw [this, Bool.and_false, Bool.and_false]
    | dt k =>
      dsimp only
      cases hd : a.data with
      | error e => rfl
      | ok d =>
        have : isDtInst k d = false := by
          cases hdat hd with
          | scalar h => cases h <;> rfl
          | _ => rfl
        dsimp only
        rw [this, Bool.and_false, Bool.and_false]
    | tvar x =>
      dsimp only
      split
      · rfl
      · split
        · rfl
        · split
          · rfl
          · rename_i hd; exact hr.fromObj _ _ _ _ _ _ _ (hdat hd)
    | dictB k => cases k <;> rfl
    | _ => rfl

theorem blind_render {cx : DeCx} {a : DeArg} {b} (ha : Undated a.src) : deRenderF env r { cx with reuse := b } a = deRenderF env r cx a := by
  unfold deRenderF
  rw [blind_body hr ha]

theorem blind_field {cx : DeCx} {b c cd ex d f} (hd : NoDate d) :
    deField env r { cx with reuse := b } c cd ex d f = deField env r cx c cd ex d f := by
  unfold deField
  split
  · rfl
  · dsimp only
    split
    · rfl
    · rename_i x hx
      have : NoDate x := by
        split at hx
        · exact hd.project hx
        · cases hx; exact hd
      rw [hr.render _ _ _ (.key this)]

theorem blind_cls {nm c} {o : DeCall} {b d} (hd : NoDate d) : deClsF env r nm c { o with reuse := b } d = deClsF env r nm c o d := by
  unfold deClsF
  split
  · rfl
  · rename_i cd _
    have hcx : clsDeCx env c cd nm { o with reuse := b } d = { clsDeCx env c cd nm o d with reuse := b.getD cd.reuseDflt } := rfl
    have : deArgs env r nm c cd { o with reuse := b } d = deArgs env r nm c cd o d := by
      unfold deArgs
      dsimp only
      rw [hcx]
      split
      · split
        · rfl
        · rename_i f _ _
          rw [hr.render]
          unfold transpArg
          cases nm
          · exact .idx (.tuple (by simp; exact hd))
          · exact .key (.dict (by simp; exact .str) (by simp; exact hd))
      · split
        · unfold deNamedArgs
          split
          · rfl
          · rfl
          · split
            · rfl
            · rw [mapR_same (fun f _ => blind_field hr hd)]
        · unfold deTupleArgs
          rw [mapR_same (fun f _ => hr.render _ _ _ (.idx hd))]
    rw [this]

theorem blind_objBody {nm b b' nu mg c d} (hd : NoDate d) : fromObjBody env r nm b nu mg c d = fromObjBody env r nm b' nu mg c d := by
  have helem : ∀ (t : Ty) (x : Val), NoDate x → r.fromObj nm b nu .external t x = r.fromObj nm b' nu .external t x :=
    fun t x hx => hr.fromObj _ _ _ _ _ _ _ hx
  have helems : ∀ (t : Ty) (xs : List Val), (∀ x ∈ xs, NoDate x) → mapR (r.fromObj nm b nu .external t) xs = mapR (r.fromObj nm b' nu .external t) xs :=
    fun t xs hx => mapR_same (fun x h => helem t x (hx x h))
  unfold fromObjBody
  dsimp only
  split
  · rfl
  · cases c with
    | cls k => exact (hr.cls nm k { mg := keepGen mg, reuse := b', numbers := nu } b d hd)
    | union ts =>
      dsimp only
      split
      · split
        · rfl
        · exact helem _ _ hd
      · rfl
    | list k t =>
      dsimp only
      cases hi : pyIter d with
      | error e => rfl
      | ok xs => dsimp only; rw [helems t xs (hd.iter hi)]
    | set k t =>
      dsimp only
      cases hi : pyIter d with
      | error e => rfl
      | ok xs => dsimp only; rw [helems t xs (hd.iter hi)]
    | deque t =>
      dsimp only
      cases hi : pyIter d with
      | error e => rfl
      | ok xs => dsimp only; rw [helems t xs (hd.iter hi)]
    | counter t =>
      dsimp only
      cases hi : pyItems d with
      | error e => rfl
      | ok kvs => dsimp only; rw [mapR_same (fun kv hkv => by rw [helem t kv.1 (hd.items hi kv hkv).1])]
    | tuple ts =>
      dsimp only
      cases hi : pyIter d with
      | error e => rfl
      | ok xs =>
        dsimp only
        congr 1
        refine mapR_same (fun xi hxi => ?_)
        have : NoDate xi.1 := hd.iter hi _ (by
          obtain ⟨x, i⟩ := xi
          exact List.fst_mem_of_mem_zipIdx hxi)
        split
        · exact helem _ _ this
        · rfl
    | dict k kt vt =>
      dsimp only
      cases hi : pyItems d with
      | error e => rfl
      | ok kvs =>
        dsimp only
        rw [mapR_same (fun kv hkv => by rw [helem kt kv.1 (hd.items hi kv hkv).1, helem vt kv.2 (hd.items hi kv hkv).2])]
    | dictB k => cases k <;> rfl
    | prim p => cases p <;> rfl
    | _ => rfl

theorem blind_obj {nm b b' nu tg t d} (hd : NoDate d) : fromObjF env r nm b nu tg t d = fromObjF env r nm b' nu tg t d := by
  have hb : ∀ mg c, fromObjBody env r nm b nu mg c d = fromObjBody env r nm b' nu mg c d := fun mg c => blind_objBody hr hd
  unfold fromObjF
  simp only [hb]

end

theorem blind_at {env : Env} (n : Nat) : Blind (deAt env n) := by
  induction n with
  | zero => exact ⟨fun _ _ _ _ => rfl, fun _ _ _ _ _ _ => rfl, fun _ _ _ _ _ _ _ _ => rfl⟩
  | succ n ih =>
    refine ⟨fun cx a b ha => ?_, fun nm c o b d hd => ?_, fun nm b b' nu tg t d hd => ?_⟩
    · rw [deAt_render]; exact blind_render ih ha
    · rw [deAt_cls]; exact blind_cls ih hd
    · rw [deAt_fromObj, deAt_fromObj]
      exact blind_obj ih hd

end Verif
