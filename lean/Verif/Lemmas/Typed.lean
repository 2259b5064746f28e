import Verif.Spec.Typed
import Verif.Lemmas.Shape
import Verif.Lemmas.RTCls
/-!
# What is read from plain data is exactly of the annotated type
-/

namespace Verif
open Spec Props

/-! ## Plain data -/

section
variable {bo : Bool}

theorem pure_strElems {s x} (h : x ∈ strElems s) : PureData bo x := by
  unfold strElems at h
  rw [List.mem_map] at h
  obtain ⟨c, _, rfl⟩ := h
  exact .str

theorem Spec.PureData.iter {v xs} (h : PureData bo v) (hi : pyIter v = .ok xs) : ∀ x ∈ xs, PureData bo x := by
  cases h with
  | str => cases hi; intro x hx; exact pure_strElems hx
  | list h => cases hi; exact h
  | tuple h => cases hi; exact h
  | deque h => cases hi; exact h
  | set h => cases hi; exact h
  | dict h _ =>
    cases hi
    intro x hx
    rw [List.mem_map] at hx
    obtain ⟨e, he, rfl⟩ := hx
    exact h e he
  | _ => cases hi

theorem Spec.PureData.items {v kvs} (h : PureData bo v) (hi : pyItems v = .ok kvs) : ∀ e ∈ kvs, PureData bo e.1 ∧ PureData bo e.2 := by
  cases h with
  | dict h h' => cases hi; exact fun e he => ⟨h e he, h' e he⟩
  | _ => cases hi

theorem Spec.PureData.getItem {v k w} (h : PureData bo v) (hg : pyGetItem v k = .ok w) : PureData bo w := by
  cases h with
  | dict h h' =>
    unfold pyGetItem at hg
    dsimp only at hg
    split at hg
    · rename_i hs; cases hg
      obtain ⟨e, he, rfl⟩ := getStr_mem' hs
      exact h' e he
    · cases hg
  | _ => cases hg

theorem Spec.PureData.get {v k w} (h : PureData bo v) (hg : pyGet v k = .ok w) : PureData bo w := by
  cases h with
  | dict h h' =>
    unfold pyGet at hg
    dsimp only at hg
    cases hg
    rename_i kvs
    cases hs : getStr k kvs with
    | none => exact PureData.none
    | some w =>
      obtain ⟨e, he, rfl⟩ := getStr_mem' hs
      exact h' e he
  | _ => cases hg

theorem Spec.PureData.index {v i w} (h : PureData bo v) (hg : pyIndex v i = .ok w) : PureData bo w := by
  have aux : ∀ {xs : List Val}, (∀ x ∈ xs, PureData bo x) → (match xs[i]? with
      | some v => (Except.ok v : Res Val)
      | Option.none => .error (.py .index)) = .ok w → PureData bo w := by
    intro xs hx h
    split at h
    · rename_i he; cases h; exact hx _ (List.mem_of_getElem? he)
    · cases h
  unfold pyIndex at hg
  cases h with
  | str => exact aux (fun x hx => pure_strElems hx) hg
  | list h => exact aux h hg
  | tuple h => exact aux h hg
  | deque h => exact aux h hg
  | dict h h' =>
    dsimp only at hg
    split at hg
    · rename_i hs; cases hg
      obtain ⟨e, he, rfl⟩ := getVal_mem' hs
      exact h' e he
    · cases hg
  | _ => cases hg

theorem Spec.PureData.slice {v i w} (h : PureData bo v) (hg : pySlice v i = .ok w) : PureData bo w := by
  unfold pySlice at hg
  cases h with
  | str => cases hg; exact .str
  | list h => cases hg; exact .list (fun x hx => h x (List.mem_of_mem_drop hx))
  | tuple h => cases hg; exact .tuple (fun x hx => h x (List.mem_of_mem_drop hx))
  | _ => cases hg

theorem Spec.PureData.project {env : Env} {v w ck pk b b'} (h : PureData bo v) (hg : Verif.project env v ck pk b b' = .ok w) : PureData bo w := by
  unfold Verif.project at hg
  split at hg
  · cases hg; exact .dict (by simp) (by simp)
  · split at hg
    · cases hg
    · rename_i kvs hk
      cases hg
      have := h.items hk
      exact .dict (fun e he => (this e (List.mem_filter.1 he).1).1) (fun e he => (this e (List.mem_filter.1 he).1).2)

theorem Spec.PureData.payload {env : Env} {tg t v w} (h : PureData bo v) (hg : unionPayload env tg t v = .ok w) : PureData bo w := by
  unfold unionPayload at hg
  dsimp only at hg
  repeat' split at hg
  all_goals first | cases hg <;> exact h | cases hg | exact h.getItem hg

theorem Spec.PureData.aliases {v} (h : PureData bo v) : ∀ {ns w}, getByAliases v ns = .ok (some w) → PureData bo w := by
  intro ns
  induction ns with
  | nil => intro w hg; cases hg
  | cons n ns ih =>
    intro w hg
    unfold getByAliases at hg
    split at hg
    · cases hg
    · split at hg
      · rename_i hx; cases hg; exact h.getItem hx
      · cases hg
    · exact ih hg

/-- An argument reads from plain data. -/
inductive PureSrc (bo : Bool) : Src → Prop
  | key {d} : PureData bo d → PureSrc bo (.key d)
  | idx {d i} : PureData bo d → PureSrc bo (.idx d i)
  | val {v} : PureData bo v → PureSrc bo (.val (.ok v))
  | err {e} : PureSrc bo (.val (.error e))

theorem PureSrc.data {a : DeArg} (h : PureSrc bo a.src) {v} (hd : a.data = .ok v) : PureData bo v := by
  unfold DeArg.data at hd
  cases hs : a.src with
  | key d =>
    rw [hs] at hd h; dsimp only at hd; cases h with
    | key h => split at hd; exact h.get hd; exact h.getItem hd
  | idx d i => rw [hs] at hd h; cases h with | idx h => exact h.index hd
  | val r => rw [hs] at hd h; dsimp only at hd; cases h with
    | val h => cases hd; exact h
    | err => cases hd

theorem pure_primData {cx : DeCx} {a : DeArg} (hc : PureData bo cx.data) (h : PureSrc bo a.src) {v} (hd : primData cx a = .ok v) : PureData bo v := by
  unfold primData at hd
  split at hd
  · exact h.data hd
  · split at hd
    · rename_i hx; cases hd; exact hc.aliases hx
    · cases hd
    · cases hd

end

/-! ## Types -/

theorem hasTy_prim {env : Env} {p w} (h : OfPrim p w) : HasTy env (.prim p) w := by
  cases h
  · exact .int
  · exact .float
  · exact .bool
  · exact .str

theorem Spec.Canonical.ctors {env : Env} {nu} (h : Canonical env nu) : CtorsOk env nu where
  prim := h.prim
  std := fun k x w hx => by
    obtain ⟨s, rfl, -⟩ := h.std k x w hx
    exact .std
  dt := fun k x w hx => by
    obtain ⟨s, rfl, -⟩ := h.dt k x w hx
    exact .dt
  number := h.number

theorem isA_ofPrim {env : Env} {bo p w} (hi : p = .int → bo = false) (hp : PureData bo w) (h : IsA env (.prim p) w) : OfPrim p w := by
  cases h with
  | int => exact .int
  | boolInt => cases hp with | bool hb => rw [hi rfl] at hb; cases hb
  | bool => exact .bool
  | float => exact .float
  | str => exact .str
  | mixin => cases hp

theorem isA_int {env : Env} {bo w} (hp : PureData bo w) (h : IsA env (.prim .int) w) : HasTy env (.prim .int) w ∨ HasTy env (.prim .bool) w := by
  cases h with
  | int => exact .inl .int
  | boolInt => exact .inr .bool
  | mixin => cases hp

theorem selfEqual_of {env : Env} {t w} (h : SelfEqual t) (hw : HasTy env t w) : pyEq w w = true := by
  cases h with
  | prim hp => cases hw <;> first | exact absurd rfl hp | simp [pyEq, Val.num, Flt.eqv]
  | newType hp => cases hw with | newType hw => cases hw <;> first | exact absurd rfl hp | simp [pyEq, Val.num, Flt.eqv]
  | enum => cases hw; simp [pyEq]
  | std => cases hw; simp [pyEq]
  | dt => cases hw; simp [pyEq]

theorem allDistinct_of {xs : List Val} (h : xs.Pairwise (fun a b => pyEq a b = false)) (hs : ∀ x ∈ xs, pyEq x x = true) : AllDistinct xs := by
  refine List.Pairwise.imp_of_mem ?_ h
  intro a b ha _ hab
  refine ⟨hab, ?_⟩
  rintro rfl
  rw [hs a ha] at hab
  cases hab

theorem mkSet_typed {env : Env} {k t ys w} (hs : SelfEqual t) (hy : ∀ y ∈ ys, HasTy env t y) (h : mkSet env.hash (k == .frozen) ys = .ok w) :
    HasTy env (.set k t) w := by
  unfold mkSet at h
  split at h
  · rename_i hh
    cases h
    have hm : ∀ z ∈ dedup ys, HasTy env t z := fun z hz => hy z (dedup_mem hz)
    exact .set hm (hashableL_iff.2 fun z hz => hashableL_iff.1 hh z (dedup_mem hz)) (allDistinct_of dedup_distinct fun z hz => selfEqual_of hs (hm z hz))
  · cases h

theorem mkDict_typed {env : Env} {k kt vt es w} (hs : SelfEqual kt) (hy : ∀ e ∈ es, HasTy env kt e.1 ∧ HasTy env vt e.2)
    (h : mkDict env.hash (if k == .deflt then .deflt (factoryOf env vt) else .plain) es = .ok w) : HasTy env (.dict k kt vt) w := by
  unfold mkDict at h
  split at h
  · rename_i hh
    cases h
    have hk : ∀ z ∈ dictOf es, HasTy env kt z.1 := fun z hz => by
      obtain ⟨e, he, h1⟩ := List.mem_map.1 (dictOf_parts hz).1
      rw [← h1]; exact (hy e he).1
    have hv : ∀ z ∈ dictOf es, HasTy env vt z.2 := fun z hz => by
      obtain ⟨e, he, h1⟩ := List.mem_map.1 (dictOf_parts hz).2
      rw [← h1]; exact (hy e he).2
    have hdk : (if k == .deflt then DictK.deflt (factoryOf env vt) else .plain) = (if k = .deflt then .deflt (typename env vt) else .plain) := by
      cases k <;> rfl
    rw [hdk]
    refine .dict hk hv (hashableL_iff.2 fun z hz => ?_) (allDistinct_of dictOf_distinct fun z hz => ?_)
    · obtain ⟨e, he, rfl⟩ := List.mem_map.1 hz
      exact hashableL_iff.1 hh _ (dictOf_parts he).1
    · obtain ⟨e, he, rfl⟩ := List.mem_map.1 hz
      exact selfEqual_of hs (hk e he)
  · cases h

theorem enum_typed {env : Env} {nu bo e x w} (hw : Canonical env nu) (hx : PureData bo x) (h : EnumTo env e x w) : HasTy env (.enum e) w := by
  cases h with
  | self => cases hx
  | value h1 h2 => exact .enum h1 h2
  | items h1 h2 => exact .enum h1 h2
  | made h1 _ _ h2 => exact .enum h1 h2
  | madeSelf _ _ h3 =>
    cases h3 with
    | std h => obtain ⟨s, h4, -⟩ := hw.std _ _ _ h; cases h4

theorem lit_typed {env : Env} {vs l x} (hl : l ∈ vs) (hv : l = .none ∨ ∃ s, l = .str s) (hp : ∀ e m, x ≠ .enum e m) (h : pyEq l x = true) : HasTy env (.lit vs) x := by
  rcases hv with rfl | ⟨s, rfl⟩
  · cases x <;> first | exact .lit hl | simp [pyEq] at h
  · cases x <;> first | (simp [pyEq] at h; subst h; exact .lit hl) | simp [pyEq] at h

theorem litVal_eq {l x} (hv : LitVal l) (h1 : sameKind l x = true) (h2 : pyEq l x = true) : l = x := by
  cases hv <;> cases x <;> simp_all [sameKind, pyEq, Val.num, Flt.eqv]
  rename_i a b
  cases a <;> cases b <;> simp_all

/-! ## Passing the type check -/

/-- The value passes the check of the class or of the union function. -/
def Passes (env : Env) (t : Ty) (w : Val) : Prop := bearable env t w = true ∨ ∃ t', erase t = some t' ∧ bearable env t' w = true

theorem Passes.prim {env : Env} {p w} (h : Passes env (.prim p) w) : IsA env (.prim p) w := by
  rcases h with h | ⟨t', h1, h⟩
  · unfold bearable at h; exact isPrimInst_iff.1 h
  · cases h1; unfold bearable at h; exact isPrimInst_iff.1 h

theorem Passes.newType {env : Env} {nm p w} (h : Passes env (.newType nm p) w) : IsA env (.prim p) w := by
  rcases h with h | ⟨t', h1, h⟩
  · unfold bearable at h; exact isPrimInst_iff.1 h
  · cases h1; unfold bearable at h; exact isPrimInst_iff.1 h

theorem Passes.lit {env : Env} {vs w} (h : Passes env (.lit vs) w) : ∃ l ∈ vs, sameKind l w = true ∧ pyEq l w = true := by
  have h : bearable env (.lit vs) w = true := by
    rcases h with h | ⟨t', h1, h⟩
    · exact h
    · cases h1; exact h
  unfold bearable at h
  obtain ⟨l, h1, h2⟩ := List.any_eq_true.1 h
  rw [Bool.and_eq_true] at h2
  exact ⟨l, h1, h2.1, h2.2⟩

theorem Passes.alias {env : Env} {nm t w} (h : Passes env (.alias nm t) w) : Passes env t w := by
  rcases h with h | ⟨t', h1, h⟩
  · unfold bearable at h; exact .inl h
  · cases h1

theorem bearable_none {env : Env} {w} (h : bearable env .none w = true) : w = .none := by
  unfold bearable at h
  split at h
  · rfl
  · cases h

theorem Passes.opt {env : Env} {t w} (h : Passes env (.union [t, .none]) w) : w = .none ∨ Passes env t w := by
  rcases h with h | ⟨t', h1, h⟩
  · unfold bearable at h
    obtain ⟨s, hs, h'⟩ := bearableAny_iff.1 h
    simp only [List.mem_cons, List.not_mem_nil, or_false] at hs
    rcases hs with rfl | rfl
    · exact .inr (.inl h')
    · exact .inl (bearable_none h')
  · unfold erase at h1
    cases ht : erase t with
    | none => simp [eraseL, ht] at h1
    | some t₁ =>
      have h2 : Ty.union [t₁, .none] = t' := by simpa [eraseL, ht, erase] using h1
      subst h2
      unfold bearable at h
      obtain ⟨s, hs, h'⟩ := bearableAny_iff.1 h
      simp only [List.mem_cons, List.not_mem_nil, or_false] at hs
      rcases hs with rfl | rfl
      · exact .inr (.inr ⟨_, ht, h'⟩)
      · exact .inl (bearable_none h')

theorem bearableZip_get {env : Env} : ∀ {ts : List Ty} {xs : List Val}, bearableZip env ts xs = true →
    ∀ (i : Nat) t x, ts[i]? = some t → xs[i]? = some x → bearable env t x = true := by
  intro ts
  induction ts with
  | nil => intro xs _ i t x h; simp at h
  | cons t0 ts ih =>
    intro xs h i t x h1 h2
    cases xs with
    | nil => simp at h2
    | cons x0 xs =>
      unfold bearableZip at h
      rw [Bool.and_eq_true] at h
      cases i with
      | zero => simp at h1 h2; subst h1; subst h2; exact h.1
      | succ i => simp at h1 h2; exact ih h.2 i t x h1 h2

theorem eraseL_get : ∀ {ts ts' : List Ty}, eraseL ts = some ts' → ∀ (i : Nat) t, ts[i]? = some t → ∃ t', ts'[i]? = some t' ∧ erase t = some t' := by
  intro ts
  induction ts with
  | nil => intro ts' _ i t h; simp at h
  | cons t0 ts ih =>
    intro ts' h i t h1
    unfold eraseL at h
    split at h
    · rename_i a as ha has
      cases h
      cases i with
      | zero => simp at h1; subst h1; exact ⟨a, by simp, ha⟩
      | succ i => simp at h1; simpa using ih has i t h1
    · cases h

theorem Passes.tuple {env : Env} {ts xs} (h : Passes env (.tuple ts) (.tuple xs)) : ∀ (i : Nat) t x, ts[i]? = some t → xs[i]? = some x → Passes env t x := by
  intro i t x h1 h2
  rcases h with h | ⟨t', h3, h⟩
  · unfold bearable at h
    exact .inl (bearableZip_get h i t x h1 h2)
  · unfold erase at h3
    cases hts : eraseL ts with
    | none => rw [hts] at h3; cases h3
    | some ts' =>
      rw [hts] at h3
      cases h3
      obtain ⟨t', h4, h5⟩ := eraseL_get hts i t h1
      unfold bearable at h
      exact .inr ⟨t', h5, bearableZip_get h i t' x h4 h2⟩

/-! ## The evaluator -/

/-- The context of a function that reads plain data. -/
structure TypedCx (env : Env) (nu : Option (Val → Except PErr Val)) (bo : Bool) (cx : DeCx) : Prop where
  numbers : cx.numbers = nu
  reuse : cx.reuse = false
  des : cx.des = []
  data : PureData bo cx.data
  aligned : cx.named = false → ∀ c cd, env.cls c = some cd → Aligned cd

structure TypedRec (env : Env) (nu : Option (Val → Except PErr Val)) (bo : Bool) (r : DeRec) : Prop where
  render : ∀ g cx a w, TypedCx env nu bo cx → OwnCx env cx a.ty → (∀ f, a.deser ≠ some (.fn f)) → PureSrc bo a.src → Firm env bo nu.isSome g a.ty →
    (g = .coerced → cx.coerce = true) → (g = .checked → a.dflt ≠ some w → Passes env a.ty w) → r.render cx a = .ok w → a.dflt = some w ∨ HasTy env a.ty w
  cls : ∀ named c (o : DeCall) x w, (named = false → ∀ c cd, env.cls c = some cd → Aligned cd) → o.numbers = nu → o.reuse = some false → PureData bo x →
    r.cls named c o x = .ok w → HasTy env (.cls c) w
  int : ∀ cx a w, TypedCx env nu bo cx → (∀ f, a.deser ≠ some (.fn f)) → PureSrc bo a.src → a.ty = .prim .int → r.render cx a = .ok w →
    a.dflt = some w ∨ PureData bo w

theorem elem_coerced {g : Guard} (h : g.elem = .coerced) : g = .coerced := by
  cases g <;> first | rfl | cases h

theorem elem_checked {g : Guard} (h : g.elem = .checked) : False := by
  cases g <;> cases h

theorem numKey_of {kt} (hs : SelfEqual kt) {p} (h : numKey kt = some p) : kt = .prim p := by
  unfold numKey at h
  split at h
  · cases h; rfl
  · cases h; rfl
  · cases h

theorem body_typed {env : Env} {nu bo} {r : DeRec} (hr : TypedRec env nu bo r) (hw : Canonical env nu) (hg0 : env.gde = []) {g cx a w}
    (hc : TypedCx env nu bo cx) (hown : OwnCx env cx a.ty) (ha : ∀ f, a.deser ≠ some (.fn f)) (hsrc : PureSrc bo a.src)
    (hf : Firm env bo nu.isSome g a.ty) (hco : g = .coerced → cx.coerce = true) (hck : g = .checked → Passes env a.ty w)
    (hdn : a.dflt = some w → False) (h : deBody env r cx a = .ok w) : HasTy env a.ty w := by
  have hel : ∀ t nm x y, OwnCx env cx t → Firm env bo nu.isSome g.elem t → (∀ v, x = .ok v → PureData bo v) →
      r.render cx { ty := t, name := nm, conv := nm, src := .val x, alias := a.alias, deser := a.deser } = .ok y →
      HasTy env t y := fun t nm x y ho hft hx hy => by
    have hs : PureSrc bo (.val x) := by
      cases x with
      | error e => exact .err
      | ok v => exact .val (hx v rfl)
    rcases hr.render g.elem cx { ty := t, name := nm, conv := nm, src := .val x, alias := a.alias, deser := a.deser } y hc ho ha hs hft
      (fun hg => hco (elem_coerced hg)) (fun hg => (elem_checked hg).elim) hy with h | h
    · cases h
    · exact h
  have hels : ∀ {t nm xs ys}, OwnCx env cx t → Firm env bo nu.isSome g.elem t → (∀ x ∈ xs, PureData bo x) →
      mapR (fun x => r.render cx { ty := t, name := nm, conv := nm, src := .val (.ok x), alias := a.alias, deser := a.deser }) xs = .ok ys →
      ∀ y ∈ ys, HasTy env t y := fun ho hft hx h y hy => by
    obtain ⟨x, hxm, hxy⟩ := mapR_ok_mem h hy
    exact hel _ _ _ _ ho hft (fun v e => by cases e; exact hx x hxm) hxy
  have hdat : ∀ {v}, a.data = .ok v → PureData bo v := fun h => hsrc.data h
  have hpd : ∀ {v}, primData cx a = .ok v → PureData bo v := fun h => pure_primData hc.data hsrc h
  unfold deBody at h
  rw [hc.des] at h
  rw [pickDe_nil] at h
  dsimp only at h
  split at h
  · rename_i f hf'; exact absurd hf' (ha f)
  · generalize hty : a.ty = ty at h hown hf hck ⊢
    cases hf with
    | none => cases h; exact .none
    | prim =>
      dsimp only at h
      split at h
      · cases h
      · split at h
        · rename_i num hnum; exact hasTy_prim (hw.number num _ _ (hc.numbers ▸ hnum) (liftP_ok h))
        · rw [hco rfl, if_pos rfl] at h
          exact hasTy_prim (coerceObj_of hw.ctors h)
    | primChecked hi =>
      dsimp only at h
      split at h
      · cases h
      · rename_i d hd
        split at h
        · rename_i num hnum; exact hasTy_prim (hw.number num _ _ (hc.numbers ▸ hnum) (liftP_ok h))
        · split at h
          · exact hasTy_prim (coerceObj_of hw.ctors h)
          · cases h
            exact hasTy_prim (isA_ofPrim hi (hpd hd) (hck rfl).prim)
    | float hfl =>
      dsimp only at h
      split at h
      · cases h
      · split at h
        · rename_i num _ hnum; exact hasTy_prim (hw.number num _ _ (hc.numbers ▸ hnum) (liftP_ok h))
        · rename_i hnn
          cases hcn : nu with
          | none => rw [hcn] at hfl; cases hfl
          | some num => exact (hnn num rfl (hc.numbers.trans hcn)).elim
    | newType =>
      dsimp only at h
      split at h
      · cases h
      · rw [hco rfl, if_pos rfl] at h
        exact .newType (hasTy_prim (coerceObj_of hw.ctors h))
    | newTypeChecked hi =>
      dsimp only at h
      split at h
      · cases h
      · rename_i d hd
        split at h
        · exact .newType (hasTy_prim (coerceObj_of hw.ctors h))
        · cases h
          exact .newType (hasTy_prim (isA_ofPrim hi (hpd hd) (hck rfl).newType))
    | enum =>
      dsimp only at h
      split at h
      · rename_i d hd; exact enum_typed hw (hpd hd) (deEnum_to (liftP_ok h))
      · cases h
    | std =>
      dsimp only at h
      split at h
      · rw [hc.reuse, Bool.false_and, if_neg (by simp)] at h
        obtain ⟨s, rfl, hs⟩ := hw.std _ _ _ (liftP_ok h)
        exact .std hs
      · cases h
    | dt =>
      dsimp only at h
      split at h
      · rw [hc.reuse, Bool.false_and, if_neg (by simp)] at h
        obtain ⟨s, rfl, hs⟩ := hw.dt _ _ _ (liftP_ok h)
        exact .dt hs
      · cases h
    | litStr hv =>
      dsimp only at h
      split at h
      · cases h
      · rename_i us hus
        cases hown.lits _ .refl _ hus
        split at h
        · rename_i d hd
          unfold deLit at h
          split at h
          · rename_i hl
            cases h
            obtain ⟨l, hl1, hl2⟩ := List.any_eq_true.1 hl
            exact lit_typed hl1 (hv l hl1) (fun e m he => by have := hdat hd; rw [he] at this; cases this) hl2
          · cases h
        · cases h
    | litChecked hv =>
      obtain ⟨l, h1, h2, h3⟩ := (hck rfl).lit
      rw [← litVal_eq (hv l h1) h2 h3]
      exact .lit h1
    | alias hf =>
      rcases hr.render g cx { a with ty := _ } w hc (hown.part (.alias .refl)) ha hsrc hf hco (fun hg _ => (hck hg).alias) h with h | h
      · exact (hdn h).elim
      · exact .alias h
    | cls =>
      dsimp only at h
      split at h
      · rename_i d hd
        refine hr.cls _ _ _ _ _ hc.aligned hc.numbers (by rw [hc.reuse]) ?_ h
        split at hd
        · split at hd
          · rename_i hs; cases hd; rw [hs] at hsrc; cases hsrc; assumption
          · rename_i hs; rw [hs] at hsrc; cases hsrc with | idx h => exact h.slice hd
          · rename_i hs; rw [hs] at hsrc; cases hsrc with
            | val h => cases hd; exact h
            | err => cases hd
        · exact hdat hd
      · cases h
    | opt ht hf =>
      dsimp only at h
      rw [isOpt_pair ht, if_pos rfl] at h
      split at h
      · rename_i t _ _ _ _
        by_cases hwn : w = .none
        · subst hwn; exact .union (t := .none) (by simp) .none
        · rcases hr.render g cx { a with ty := _, dflt := Option.none, tyArgs := Option.none } w hc (hown.part (.union (by simp) .refl)) ha hsrc hf hco
            (fun hg _ => ((hck hg).opt).resolve_left hwn) h with h | h
          · cases h
          · exact .union (by simp) h
      · cases h; exact .union (t := .none) (by simp) .none
      · cases h
    | @union _ us ho hts =>
      dsimp only at h
      rw [ho, if_neg (by simp)] at h
      split at h
      · cases h
      · rename_i us' hus
        cases hown.unions _ .refl _ hus
        split at h
        · rename_i v hv
          obtain ⟨t, ht, hm⟩ := deUnion_member h
          obtain ⟨p, h1, h2, h3, h4⟩ := deMember_ok.1 hm
          have hpp : PureData bo p := (hdat hv).payload h1
          have hcx : TypedCx env nu bo (cx.inUnion env v) := ⟨hc.numbers, hc.reuse, hg0, hdat hv, fun h => by cases h⟩
          by_cases hib : t = .prim .int ∧ Ty.prim .bool ∈ us
          · obtain ⟨rfl, hb⟩ := hib
            rcases hr.int (cx.inUnion env v) (memberArg (.prim .int) p) w hcx (fun g h => by cases h)
              (.key (.dict (by simp; exact .str) (by simp; exact hpp))) rfl h3 with h | h
            · cases h
            · rcases isA_int h (Passes.prim (.inr h4)) with h | h
              · exact .union ht h
              · exact .union hb h
          · rcases hr.render .checked (cx.inUnion env v) (memberArg t p) w hcx (hown.part (.union ht .refl)).inUnion (fun g h => by cases h)
              (.key (.dict (by simp; exact .str) (by simp; exact hpp))) (hts t ht hib) (fun h => by cases h) (fun _ _ => .inr h4) h3 with h | h
            · cases h
            · exact .union ht h
        · cases h
    | list hf =>
      dsimp only at h
      split at h
      · rename_i d hd
        split at h
        · rename_i xs hxs
          split at h
          · rename_i ys hys
            cases h
            exact .list (hels (hown.part (.list .refl)) hf ((hdat hd).iter hxs) hys)
          · cases h
        · cases h
      · cases h
    | deque hf =>
      dsimp only at h
      split at h
      · rename_i d hd
        split at h
        · rename_i xs hxs
          split at h
          · rename_i ys hys
            cases h
            exact .deque (hels (hown.part (.deque .refl)) hf ((hdat hd).iter hxs) hys)
          · cases h
        · cases h
      · cases h
    | tupleV hf =>
      dsimp only at h
      split at h
      · rename_i d hd
        split at h
        · rename_i xs hxs
          split at h
          · rename_i ys hys
            cases h
            exact .tupleV (hels (hown.part (.tupleV .refl)) hf ((hdat hd).iter hxs) hys)
          · cases h
        · cases h
      · cases h
    | set hse hf =>
      dsimp only at h
      split at h
      · rename_i d hd
        split at h
        · rename_i xs hxs
          split at h
          · rename_i ys hys
            exact mkSet_typed hse (hels (hown.part (.set .refl)) hf ((hdat hd).iter hxs) hys) h
          · cases h
        · cases h
      · cases h
    | @tuple _ ts hf =>
      cases ts with
      | nil => cases h
      | cons t0 ts =>
      dsimp only at h
      split at h
      · rename_i ys hys
        cases h
        have hl : (t0 :: ts).length = ys.length := by rw [mapR_ok_length hys]; simp
        refine .tuple hl (fun p hp => ?_)
        obtain ⟨i, hi, hpi⟩ := List.getElem_of_mem hp
        have hi1 : i < (t0 :: ts).length := by simp at hi ⊢; omega
        have hi2 : i < ys.length := by omega
        have h1 : (t0 :: ts)[i]? = some (t0 :: ts)[i] := List.getElem?_eq_getElem hi1
        have h3 : ys[i]? = some ys[i] := List.getElem?_eq_getElem hi2
        have hpe : p = ((t0 :: ts)[i], ys[i]) := by rw [← hpi]; simp
        have := mapR_ok_get hys _ (zip_get' (zipIdx_get h1) h3)
        dsimp only at this
        rw [hpe]
        dsimp only
        generalize (t0 :: ts)[i] = t at h1 this
        generalize ys[i] = y at h3 this
        have hm : t ∈ t0 :: ts := List.mem_of_getElem? h1
        rcases hr.render g cx { ty := t, name := "data[..]", conv := "data[..]", src := .val (match a.data with | .ok d => pyIndex d i | .error e => .error e), alias := a.alias, deser := a.deser } y hc (hown.part (.tuple hm .refl)) ha (by
          dsimp only
          cases hx : (match a.data with | .ok d => pyIndex d i | .error e => .error e : Res Val) with
          | error e => exact .err
          | ok v =>
            refine .val ?_
            split at hx
            · rename_i d hd; exact (hdat hd).index hx
            · cases hx) (hf t hm) hco (fun hg _ => (hck hg).tuple i t y h1 h3) this with h | h
        · cases h
        · exact h
      · cases h
    | intKeys hf =>
      dsimp only at h
      split at h
      · rename_i d hd
        split at h
        · rename_i kvs hkvs
          split at h
          · rename_i es hes
            refine mkDict_typed (.prim (by simp)) (fun e he => ?_) h
            obtain ⟨kv, hkv, h3⟩ := mapR_ok_mem hes he
            split at h3
            · cases h3
            · rename_i k' hk
              split at h3
              · rename_i w' hw'
                cases h3
                exact ⟨hasTy_prim (coerceObj_of hw.ctors hk), hel _ _ _ _ (hown.part (.value .refl)) hf (fun v e => by cases e; exact ((hdat hd).items hkvs kv hkv).2) hw'⟩
              · cases h3
          · cases h
        · cases h
      · cases h
    | @dict _ k kt vt hse hfk hf =>
      dsimp only at h
      split at h
      · rename_i d hd
        split at h
        · rename_i kvs hkvs
          split at h
          · rename_i es hes
            refine mkDict_typed hse (fun e he => ?_) h
            obtain ⟨kv, hkv, h3⟩ := mapR_ok_mem hes he
            split at h3
            · cases h3
            · rename_i k' hk
              split at h3
              · rename_i w' hw'
                cases h3
                refine ⟨?_, hel _ _ _ _ (hown.part (.value .refl)) hf (fun v e => by cases e; exact ((hdat hd).items hkvs kv hkv).2) hw'⟩
                split at hk
                · rename_i p hp
                  rw [numKey_of hse hp]
                  exact hasTy_prim (coerceObj_of hw.ctors hk)
                · exact hel _ _ _ _ (hown.part (.key .refl)) hfk (fun v e => by cases e; exact ((hdat hd).items hkvs kv hkv).1) hk
              · cases h3
          · cases h
        · cases h
      · cases h

theorem int_pure {env : Env} {nu bo} {r : DeRec} (hw : Canonical env nu) {cx a w} (hc : TypedCx env nu bo cx) (ha : ∀ f, a.deser ≠ some (.fn f))
    (hsrc : PureSrc bo a.src) (hty : a.ty = .prim .int) (h : deBody env r cx a = .ok w) : PureData bo w := by
  unfold deBody at h
  rw [hc.des] at h
  rw [pickDe_nil] at h
  dsimp only at h
  split at h
  · rename_i f hf'; exact absurd hf' (ha f)
  · rw [hty] at h
    dsimp only at h
    split at h
    · cases h
    · rename_i d hd
      split at h
      · cases coerceObj_of hw.ctors h; exact .int
      · cases h; exact pure_primData hc.data hsrc hd

theorem initAttrs_names {bound : List (String × Val)} {fs : List FieldDef} {attrs} (hi : ∀ f ∈ fs, f.init = true) (h : initAttrs bound fs = .ok attrs) :
    attrs.map (·.1) = fs.map (·.name) := by
  induction fs generalizing attrs with
  | nil => cases h; rfl
  | cons f fs ih =>
    unfold initAttrs at h
    rw [hi f (by simp), if_pos rfl] at h
    dsimp only at h
    split at h
    · rename_i v r hv hr
      cases h
      rw [List.map_cons, List.map_cons, ih (fun g hg => hi g (by simp [hg])) hr]
    · rename_i hv _
      split at hv
      · cases hv
      · split at hv <;> cases hv
    · cases h
    · cases h

theorem lookup_zip_attr : ∀ {fs : List FieldDef} {attrs : List (String × Val)}, attrs.map (·.1) = fs.map (·.name) → (fs.map (·.name)).Nodup →
    ∀ p ∈ fs.zip attrs, attrs.lookup p.1.name = some p.2.2 := by
  intro fs
  induction fs with
  | nil => intro attrs _ _ p hp; simp at hp
  | cons f fs ih =>
    intro attrs h hn p hp
    cases attrs with
    | nil => cases h
    | cons e attrs =>
      obtain ⟨k, v⟩ := e
      rw [List.map_cons, List.map_cons, List.cons.injEq] at h
      rw [List.map_cons, List.nodup_cons] at hn
      rw [List.zip_cons_cons, List.mem_cons] at hp
      rcases hp with rfl | hp
      · simp only at h; rw [← h.1]; simp [List.lookup]
      · have hm : p.1.name ∈ fs.map (·.name) := List.mem_map.2 ⟨p.1, (List.of_mem_zip hp).1, rfl⟩
        have hne : (p.1.name == k) = false := by
          simp only at h
          rw [h.1]
          cases he : p.1.name == f.name with
          | false => rfl
          | true => rw [beq_iff_eq.1 he] at hm; exact (hn.1 hm).elim
        rw [List.lookup, hne]
        exact ih h.2 hn.2 p hp

theorem cls_typed {env : Env} {nu bo} {r : DeRec} (hr : TypedRec env nu bo r) (hU : DistinctUnions env) (hL : DistinctLits env) (hg0 : env.gde = [])
    (hC : ∀ c cd, env.cls c = some cd → FirmClass env bo nu.isSome cd) {named c} {o : DeCall} {x w}
    (hA : named = false → ∀ c cd, env.cls c = some cd → Aligned cd) (hnu : o.numbers = nu) (hre : o.reuse = some false) (hx : PureData bo x)
    (h : deClsF env r named c o x = .ok w) : HasTy env (.cls c) w := by
  obtain ⟨cd, hc⟩ : ∃ cd, env.cls c = some cd := by
    cases hc : env.cls c with
    | none => unfold deClsF at h; rw [hc] at h; cases h
    | some cd => exact ⟨cd, rfl⟩
  obtain ⟨attrs, rfl⟩ := deClsF_inst h
  have hcd := hC c cd hc
  have hb : AsBuilt cd := ⟨hcd.post, hcd.names, fun ht => by rw [hcd.plain] at ht; cases ht⟩
  have hnames : attrs.map (·.1) = cd.fields.map (·.name) := by
    have h' := h
    unfold deClsF at h'
    rw [hc] at h'
    dsimp only at h'
    split at h'
    · cases h'
    · unfold construct at h'
      dsimp only at h'
      rw [hcd.post] at h'
      split at h'
      · cases h'
      · split at h'
        · cases h'
        · split at h'
          · cases h'
          · rename_i as has
            cases h'
            exact initAttrs_names (fun f hf => (hcd.read f hf).init) has
  refine .inst hc hnames (fun p hp => ?_)
  have hpm := (List.of_mem_zip hp).1
  have hpl := lookup_zip_attr hnames hcd.names p hp
  obtain ⟨y, a, h1, h2, h3, h4, h5, h6⟩ := cls_attrs (fun hn => hA hn c cd hc) hc hb h (hcd.read p.1 hpm)
  rw [hpl] at h1
  cases h1
  by_cases hd : p.1.dflt = some p.2.2
  · exact hcd.dflt _ hpm _ hd
  · have hcx : TypedCx env nu bo (clsDeCx env c cd named o x) := by
      refine ⟨hnu, ?_, ?_, hx, hA⟩
      · show o.reuse.getD cd.reuseDflt = false
        rw [hre]; rfl
      · show env.gde ++ cd.classDe.toList = []
        rw [hg0, hcd.classDe]; rfl
    have hsrc : PureSrc bo a.src := by
      generalize a.src = s at h6
      cases h6 with
      | key => exact .key hx
      | part h => exact .key (hx.project h)
      | idx => exact .idx hx
      | wrapKey => exact .key (.dict (by simp; exact .str) (by simp; exact hx))
      | wrapIdx => exact .idx (.tuple (by simp; exact hx))
    have hcoe : guardOf cd = .coerced → (clsDeCx env c cd named o x).coerce = true := by
      intro hg
      show (cd.typeCheck == .coerce) = true
      unfold guardOf at hg
      split at hg
      · rename_i ht; rw [ht]; rfl
      · cases hg
      · cases hg
    have hchk : guardOf cd = .checked → a.dflt ≠ some p.2.2 → Passes env a.ty p.2.2 := by
      intro hg _
      have hs : cd.typeCheck = .strict := by
        unfold guardOf at hg
        split at hg
        · cases hg
        · assumption
        · cases hg
      have h' := h
      unfold deClsF at h'
      rw [hc] at h'
      dsimp only at h'
      split at h'
      · cases h'
      · rcases construct_checked hs hb.post hb.names h' hpm hpl with h | h
        · rw [h3]; exact .inl h
        · exact (hd h).elim
    rcases hr.render (guardOf cd) _ a _ hcx (by rw [h3]; exact ownCx_class hU hL ⟨c, cd, p.1, hc, hpm, .refl⟩) (by rw [h4]; exact (hcd.read p.1 hpm).deser)
      hsrc (by rw [h3]; exact hcd.firm p.1 hpm) hcoe hchk h2 with h7 | h7
    · rcases h5 with h5 | h5
      · rw [h5] at h7; cases h7
      · exact (hd (h5 ▸ h7)).elim
    · rw [h3] at h7; exact h7

theorem typed_at {env : Env} {nu bo} (hw : Canonical env nu) (hU : DistinctUnions env) (hL : DistinctLits env) (hg0 : env.gde = [])
    (hC : ∀ c cd, env.cls c = some cd → FirmClass env bo nu.isSome cd) : ∀ n, TypedRec env nu bo (deAt env n)
  | 0 => ⟨fun _ _ _ _ _ _ _ _ _ _ _ h => (by cases h), fun _ _ _ _ _ _ _ _ _ h => (by cases h), fun _ _ _ _ _ _ _ h => (by cases h)⟩
  | n + 1 => by
    have ih := typed_at hw hU hL hg0 hC n
    refine ⟨fun g cx a w hc ho ha hs hf hco hck h => ?_, fun named c o x w hA hnu hre hx h => ?_, fun cx a w hc ha hs hty h => ?_⟩
    · rw [deAt_render] at h
      by_cases hd : a.dflt = some w
      · exact .inl hd
      · refine .inr ?_
        unfold deRenderF at h
        split at h
        · rename_i hdv _
          split at h
          · exact body_typed ih hw hg0 hc ho ha hs hf hco (fun hg => hck hg hd) hd h
          · cases h; exact (hd hdv).elim
          · cases h
        · exact body_typed ih hw hg0 hc ho ha hs hf hco (fun hg => hck hg hd) hd h
    · rw [deAt_cls] at h
      exact cls_typed ih hU hL hg0 hC hA hnu hre hx h
    · rw [deAt_render] at h
      by_cases hd : a.dflt = some w
      · exact .inl hd
      · refine .inr ?_
        unfold deRenderF at h
        split at h
        · rename_i hdv _
          split at h
          · exact int_pure hw hc ha hs hty h
          · cases h; exact (hd hdv).elim
          · cases h
        · exact int_pure hw hc ha hs hty h

end Verif
