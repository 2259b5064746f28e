import Verif.Spec.Presence
import Verif.Lemmas.Scopes
import Verif.Lemmas.Collect
import Verif.Lemmas.DeMono
import Verif.Lemmas.Agree
import Verif.Lemmas.Numbers
import Verif.Lemmas.Globals
import Verif.Lemmas.SeTotal
/-!
# Reading and writing when no needed function is missing
-/

namespace Verif
open Spec

/-- The annotation needs no missing function. -/
def Clear (env : Env) (miss : ClassId → Option Exc) (t : Ty) : Prop := ∀ d, Uses env t d → miss d = Option.none

/-- Nor do the union functions and type arguments at hand. -/
structure CxClear (env : Env) (miss : ClassId → Option Exc) (cx : DeCx) : Prop where
  unions : ∀ us ∈ cx.unions, Clear env miss (.union us)
  mg : ∀ t, cx.mg = some t → Clear env miss t

/-- Two sets of entry points that agree where nothing is missing. -/
structure DeClear (env : Env) (miss : ClassId → Option Exc) (r' r : DeRec) : Prop where
  render : ∀ cx a, CxClear env miss cx → Clear env miss a.ty → r'.render cx a = r.render cx a
  cls : ∀ named c o d, Clear env miss (.cls c) → (∀ t, o.mg = some t → Clear env miss t) → r'.cls named c o d = r.cls named c o d
  fromObj : ∀ named re num tg t d, Clear env miss t → r'.fromObj named re num tg t d = r.fromObj named re num tg t d

section
variable {env : Env} {miss : ClassId → Option Exc} {r' r : DeRec}

theorem Clear.part {t s} (h : Clear env miss t) (hp : Part env true t s) : Clear env miss s := fun d hd => h d (.part hp hd)

theorem Clear.reach {t s} (h : Clear env miss t) (hp : Reach env true t s) : Clear env miss s := by
  induction hp with
  | refl => exact h
  | step hp _ ih => exact ih (h.part hp)

theorem clear_any : Clear env miss .any := by
  intro d hd
  cases hd with
  | part hp _ => cases hp

theorem DeClear.guard (h : DeClear env miss r' r) : DeClear env miss (r'.guard miss) r where
  render := h.render
  cls named c o d hc hm := by
    show (match miss c with
      | some e => (.error e : Res Val)
      | Option.none => r'.cls named c o d) = _
    rw [hc c .here]
    exact h.cls named c o d hc hm
  fromObj := h.fromObj

theorem deUnion_clear (h : DeClear env miss r' r) {cx d} (hcx : CxClear env miss cx) :
    ∀ ts, (∀ t ∈ ts, Clear env miss t) → deUnion env r' cx d ts = deUnion env r cx d ts
  | [], _ => rfl
  | t :: ts, ht => by
    have hm : deMember env r' cx t d = deMember env r cx t d := by
      unfold deMember
      simp only [fun a (ha : a.ty = t) => h.render cx a hcx (by rw [ha]; exact ht t (by simp))]
    unfold deUnion
    rw [hm, deUnion_clear h hcx ts (fun t h => ht t (by simp [h]))]

theorem CxClear.inUnion {cx : DeCx} (h : CxClear env miss cx) (d) : CxClear env miss (cx.inUnion env d) :=
  ⟨h.unions, fun t ht => by cases ht⟩

theorem generic_clear {mg mgVars vta ix t} (hm : ∀ t, mg = some t → Clear env miss t) (h : getGenericArg mg mgVars vta ix = .ok t) :
    Clear env miss t := by
  unfold getGenericArg at h
  split at h
  · next c args vars names =>
    split at h
    · cases h
    · split at h
      · cases h
      · split at h
        · next t' ht =>
          cases h
          exact fun d hd => hm _ rfl d (.arg (List.mem_of_getElem? ht) hd)
        · cases h; exact clear_any
  · cases h; exact clear_any

theorem deBody_clear (h : DeClear env miss r' r) (cx : DeCx) (a : DeArg) (hcx : CxClear env miss cx) (ha : Clear env miss a.ty) :
    deBody env r' cx a = deBody env r cx a := by
  have hel : ∀ (t : Ty), Part env true a.ty t → ∀ (nm : String) (y : Res Val),
      r'.render cx { ty := t, name := nm, conv := nm, src := .val y, alias := a.alias, deser := a.deser } =
      r.render cx { ty := t, name := nm, conv := nm, src := .val y, alias := a.alias, deser := a.deser } :=
    fun t ht nm y => h.render cx _ hcx (ha.part ht)
  have hty : ∀ (t : Ty) d ta, Clear env miss t → r'.render cx { a with ty := t, dflt := d, tyArgs := ta } =
      r.render cx { a with ty := t, dflt := d, tyArgs := ta } := fun t d ta ht => h.render cx _ hcx ht
  obtain ⟨ty, name, conv, src, al, deser, fl, dflt, ta⟩ := a
  unfold deBody
  dsimp only at ha hel hty ⊢
  cases ty with
  | gen c args => simp only [hty (.cls c) _ _ (fun d hd => ha d (.generic hd))]
  | alias nm t => simp only [hty t _ _ (ha.part (.alias rfl))]
  | cls c =>
    have : ∀ named o d, o.mg = cx.mg → r'.cls named c o d = r.cls named c o d := fun named o d ho => h.cls named c o d ha (by rw [ho]; exact hcx.mg)
    simp only [this]
  | union ts =>
    have hun : ∀ us, findUnion env cx.unions (unionFuncName env ts) = some us → ∀ d,
        deUnion env r' (cx.inUnion env d) d us = deUnion env r (cx.inUnion env d) d us := fun us hus d =>
      deUnion_clear h (hcx.inUnion d) us (fun t ht => (hcx.unions us (findUnion_mem hus)).part (.union ht))
    split
    · rfl
    · split
      · rfl
      · dsimp only
        split
        · cases ts with
          | nil => rfl
          | cons t ts => simp only [hty t _ _ (ha.part (.union (by simp)))]
        · cases hus : findUnion env cx.unions (unionFuncName env ts) with
          | none => rfl
          | some us => simp only [hun us hus]
  | list k t => simp only [hel t .list]
  | set k t => simp only [hel t .set]
  | deque t => simp only [hel t .deque]
  | counter t => simp only [hel t .counter]
  | dict k kt vt => simp only [hel kt .key, hel vt .value]
  | tupleV t => simp only [hel t .tupleV]
  | tuple ts =>
    have : ∀ F : Ty × Nat → Res Val, mapR (fun it : Ty × Nat => r'.render cx
          { ty := it.1, name := "data[..]", conv := "data[..]", src := .val (F it), alias := al, deser := deser }) ts.zipIdx =
        mapR (fun it : Ty × Nat => r.render cx
          { ty := it.1, name := "data[..]", conv := "data[..]", src := .val (F it), alias := al, deser := deser }) ts.zipIdx := by
      intro F
      refine mapR_congr (fun it hit => hel _ (.tuple ?_) _ _)
      have := List.mem_map_of_mem (f := Prod.fst) hit
      simpa using this
    cases ts with
    | nil => rfl
    | cons t ts => dsimp only; simp only [this]
  | tvar x =>
    have : ∀ vars t, getGenericArg cx.mg cx.mgVars cx.vta (findGenericArg vars x) = .ok t → ∀ named re num tg d,
        r'.fromObj named re num tg t d = r.fromObj named re num tg t d :=
      fun vars t ht named re num tg d => h.fromObj named re num tg t d (generic_clear hcx.mg ht)
    cases cx.tvars with
    | none => rfl
    | some vars =>
      dsimp only
      cases ht : getGenericArg cx.mg cx.mgVars cx.vta (findGenericArg vars x) with
      | error e => rfl
      | ok t => simp only [this vars t ht]
  | dictB k => cases k <;> rfl
  | _ => rfl

theorem deRenderF_clear (h : DeClear env miss r' r) (cx : DeCx) (a : DeArg) (hcx : CxClear env miss cx) (ha : Clear env miss a.ty) :
    deRenderF env r' cx a = deRenderF env r cx a := by
  unfold deRenderF
  rw [deBody_clear h cx a hcx ha]

theorem field_clear {c cd} {f : FieldDef} (hc : env.cls c = some cd) (h : Clear env miss (.cls c)) (hf : f ∈ cd.fields.filter (·.renderable)) :
    Clear env miss f.ty := by
  obtain ⟨hf, hr⟩ := List.mem_filter.1 hf
  refine h.part (.field hc hf ?_)
  simp only [FieldDef.renderable, Bool.and_eq_true, Bool.not_eq_true', Bool.or_eq_false_iff] at hr
  exact hr.2.1

theorem deClsF_clear (h : DeClear env miss r' r) (named c o d) (hc : Clear env miss (.cls c)) (hm : ∀ t, o.mg = some t → Clear env miss t) :
    deClsF env r' named c o d = deClsF env r named c o d := by
  unfold deClsF
  cases he : env.cls c with
  | none => rfl
  | some cd =>
    have hcx : CxClear env miss (clsDeCx env c cd named o d) := ⟨fun us hus => hc.reach (unionsOf_iff.1 hus), hm⟩
    have hargs : deArgs env r' named c cd o d = deArgs env r named c cd o d := by
      unfold deArgs
      dsimp only
      have hna : deNamedArgs env r' (clsDeCx env c cd named o d) c cd d = deNamedArgs env r (clsDeCx env c cd named o d) c cd d := by
        unfold deNamedArgs
        have : ∀ ex, mapR (deField env r' (clsDeCx env c cd named o d) c cd ex d) (cd.fields.filter (·.renderable)) =
            mapR (deField env r (clsDeCx env c cd named o d) c cd ex d) (cd.fields.filter (·.renderable)) := by
          intro ex
          refine mapR_congr (fun f hf => ?_)
          unfold deField
          simp only [fun a (ha : a.ty = f.ty) => h.render (clsDeCx env c cd named o d) a hcx (by rw [ha]; exact field_clear he hc hf)]
        simp only [this]
      have hta : deTupleArgs r' (clsDeCx env c cd named o d) cd d = deTupleArgs r (clsDeCx env c cd named o d) cd d := by
        unfold deTupleArgs
        refine mapR_congr (fun fi hfi => h.render _ _ hcx (field_clear he hc ?_))
        have := List.mem_map_of_mem (f := Prod.fst) hfi
        rwa [List.zipIdx_map_fst] at this
      rw [hna, hta]
      cases hfs : cd.fields.filter (·.renderable) with
      | nil => rfl
      | cons f fs =>
        have := h.render (clsDeCx env c cd named o d) (transpArg named f d) hcx (field_clear (f := f) he hc (by rw [hfs]; simp))
        simp only [this]
    dsimp only
    rw [hargs]

theorem cacheDeUnion_clear (h : DeClear env miss r' r) {ts tg num d} (ht : Clear env miss (.union ts)) :
    cacheDeUnion env r' ts tg num d = cacheDeUnion env r ts tg num d := by
  unfold cacheDeUnion
  cases hus : findUnion env (env.unionsOfTy (.union ts)) (unionFuncName env ts) with
  | none => rfl
  | some us =>
    have hall : ∀ us ∈ env.unionsOfTy (.union ts), Clear env miss (.union us) := fun us hus => ht.reach (unionsOfTy_iff.1 hus)
    exact deUnion_clear h ⟨hall, fun t ht => by cases ht⟩ us (fun t ht => (hall us (findUnion_mem hus)).part (.union ht))

theorem fromObjBody_clear (h : DeClear env miss r' r) {named re num mg t d} (ht : Clear env miss t) (hm : Clear env miss mg) :
    fromObjBody env r' named re num mg t d = fromObjBody env r named re num mg t d := by
  have hth : ∀ s, Part env true t s → ∀ tg, r'.fromObj named re num tg s = r.fromObj named re num tg s :=
    fun s hs tg => funext (fun x => h.fromObj named re num tg s x (ht.part hs))
  unfold fromObjBody
  cases t with
  | cls c =>
    have hk : ∀ t, keepGen mg = some t → Clear env miss t := by
      intro t hk
      unfold keepGen at hk
      split at hk
      · cases hk; exact hm
      · cases hk
    simp only [h.cls named c { mg := keepGen mg, reuse := re, numbers := num } d ht hk]
  | union ts =>
    cases ts with
    | nil => rfl
    | cons s ts => simp only [hth s (.union (by simp))]
  | list k s => simp only [hth s .list]
  | set k s => simp only [hth s .set]
  | deque s => simp only [hth s .deque]
  | counter s => simp only [hth s .counter]
  | dict k kt vt => simp only [hth kt .key, hth vt .value]
  | tuple ts =>
    split
    · rfl
    · dsimp only
      cases pyIter d with
      | error e => rfl
      | ok xs =>
        dsimp only
        congr 1
        refine mapR_congr (fun xi _ => ?_)
        cases hx : ts[xi.2]? with
        | none => rfl
        | some s => dsimp only; rw [hth s (.tuple (List.mem_of_getElem? hx))]
  | dictB k => cases k <;> rfl
  | prim p => cases p <;> rfl
  | _ => rfl

theorem fromObjF_clear (h : DeClear env miss r' r) {named re num tg t d} (ht : Clear env miss t) :
    fromObjF env r' named re num tg t d = fromObjF env r named re num tg t d := by
  unfold fromObjF
  cases t with
  | alias nm t =>
    have ht := ht.part (.alias rfl)
    cases t with
    | gen k args => dsimp only; rw [fromObjBody_clear h (fun d hd => ht d (.generic hd)) ht]
    | union ts => dsimp only; rw [fromObjBody_clear h ht ht, cacheDeUnion_clear h ht]
    | _ => dsimp only; rw [fromObjBody_clear h ht ht]
  | gen k args => dsimp only; rw [fromObjBody_clear h (fun d hd => ht d (.generic hd)) ht]
  | union ts => dsimp only; rw [fromObjBody_clear h ht ht, cacheDeUnion_clear h ht]
  | _ => dsimp only; rw [fromObjBody_clear h ht ht]

theorem deHAt_clear : ∀ n, DeClear env miss (deHAt env miss n) (deAt env n)
  | 0 => ⟨fun _ _ _ _ => rfl, fun _ _ _ _ _ _ => rfl, fun _ _ _ _ _ _ _ => rfl⟩
  | n + 1 =>
    have ih := deHAt_clear n
    ⟨fun cx a hcx ha => deRenderF_clear ih.guard cx a hcx ha, fun named c o d hc hm => deClsF_clear ih named c o d hc hm,
      fun _ _ _ _ _ _ ht => fromObjF_clear ih ht⟩

end

/-! ## Writing -/

/-- The value holds no instance of a class whose function is missing. -/
def ValClear (miss : ClassId → Option Exc) (v : Val) : Prop := ∀ d, HoldsInst d v → miss d = Option.none

/-- Two sets of entry points that agree on such values. -/
structure SeClear (miss : ClassId → Option Exc) (r' r : SeRec) : Prop where
  render : ∀ cx a, (∀ v, a.v = .ok v → ValClear miss v) → r'.render cx a = r.render cx a
  flat : ∀ cx a, (∀ v, a.v = .ok v → ValClear miss v) → r'.flat cx a = r.flat cx a
  cls : ∀ named re cv sn v, ValClear miss v → r'.cls named re cv sn v = r.cls named re cv sn v
  toObj : ∀ named re cv sn c tg v, ValClear miss v → r'.toObj named re cv sn c tg v = r.toObj named re cv sn c tg v

section
variable {env : Env} {miss : ClassId → Option Exc} {r' r : SeRec}

theorem SeClear.guard (h : SeClear miss r' r) : SeClear miss (r'.guard miss) r where
  render := h.render
  flat := h.flat
  cls named re cv sn v hv := by
    cases v with
    | inst c as =>
      show (match miss c with
        | some e => (.error e : Res Val)
        | Option.none => r'.cls named re cv sn (.inst c as)) = _
      rw [hv c .here]
      exact h.cls named re cv sn _ hv
    | _ => exact h.cls named re cv sn _ hv
  toObj := h.toObj

theorem clear_str {s} : ValClear miss (.str s) := by
  intro d hd
  cases hd

theorem iter_clear {v xs} (hv : ValClear miss v) (h : pyIter v = .ok xs) : ∀ x ∈ xs, ValClear miss x := by
  intro x hx
  cases v <;> simp only [pyIter, Except.ok.injEq, reduceCtorEq] at h
  · subst h
    unfold strElems at hx
    obtain ⟨c, -, rfl⟩ := List.mem_map.1 hx
    exact clear_str
  · subst h; exact fun d hd => hv d (.list hx hd)
  · subst h; exact fun d hd => hv d (.tuple hx hd)
  · subst h; exact fun d hd => hv d (.deque hx hd)
  · subst h; exact fun d hd => hv d (.set hx hd)
  · subst h
    obtain ⟨p, hp, rfl⟩ := List.mem_map.1 hx
    exact fun d hd => hv d (.key hp hd)

theorem items_clear {v es} (hv : ValClear miss v) (h : pyItems v = .ok es) : ∀ p ∈ es, ValClear miss p.1 ∧ ValClear miss p.2 := by
  intro p hp
  cases v <;> simp only [pyItems, Except.ok.injEq, reduceCtorEq] at h
  subst h
  exact ⟨fun d hd => hv d (.key hp hd), fun d hd => hv d (.value hp hd)⟩

theorem index_clear {v i x} (hv : ValClear miss v) (h : pyIndex v i = .ok x) : ValClear miss x := by
  have at' : ∀ xs : List Val, (∀ x ∈ xs, ValClear miss x) →
      (match xs[i]? with
        | some v => (.ok v : Res Val)
        | Option.none => .error (.py .index)) = .ok x → ValClear miss x := by
    intro xs hxs h
    cases hx : xs[i]? with
    | none => rw [hx] at h; cases h
    | some y => rw [hx] at h; cases h; exact hxs _ (List.mem_of_getElem? hx)
  cases v with
  | list xs => exact at' xs (iter_clear hv rfl) h
  | tuple xs => exact at' xs (iter_clear hv rfl) h
  | deque xs => exact at' xs (iter_clear hv rfl) h
  | str s => exact at' (strElems s) (iter_clear hv rfl) h
  | dict k es =>
    unfold pyIndex at h
    dsimp only at h
    cases hg : getVal (.int i) es with
    | none => rw [hg] at h; cases h
    | some w =>
      rw [hg] at h
      cases h
      obtain ⟨p, hp, rfl⟩ := getVal_mem hg
      exact fun d hd => hv d (.value hp hd)
  | _ => cases h

theorem attr_clear {v n x} (hv : ValClear miss v) (h : getAttr v n = .ok x) : ValClear miss x := by
  unfold getAttr at h
  split at h
  · next c as =>
    split at h
    · next w hw =>
      cases h
      exact fun d hd => hv d (.attr (lookup_mem hw) hd)
    · cases h
  · cases h

theorem fieldArg_clear {f : FieldDef} {v : Res Val} (hv : ∀ x, v = .ok x → ValClear miss x) :
    ∀ x, (seFieldArg f v).v = .ok x → ValClear miss x := by
  intro x hx
  unfold seFieldArg at hx
  dsimp only at hx
  cases v with
  | error e => cases hx
  | ok o => exact attr_clear (hv o rfl) hx

theorem seUnion_clear (h : SeClear miss r' r) {cx v} (hv : ValClear miss v) : ∀ ts, seUnion env r' cx v ts = seUnion env r cx v ts
  | [] => rfl
  | t :: ts => by
    unfold seUnion
    rw [seUnion_clear h hv ts, h.render cx { ty := t, v := .ok v } (fun x hx => by cases hx; exact hv)]

theorem renderF_clear (h : SeClear miss r' r) (cx : SeCx) (a : SeArg) (ha : ∀ v, a.v = .ok v → ValClear miss v) :
    renderF env r' cx a = renderF env r cx a := by
  have hty : ∀ (t : Ty), r'.render cx { a with ty := t } = r.render cx { a with ty := t } := fun t => h.render cx _ ha
  have hel : ∀ (t : Ty) (x : Val), ValClear miss x → r'.render cx { ty := t, ser := a.ser, v := .ok x } =
      r.render cx { ty := t, ser := a.ser, v := .ok x } := fun t x hx => h.render cx _ (fun y hy => by cases hy; exact hx)
  obtain ⟨ty, ser, fl, v⟩ := a
  dsimp only at ha hty hel
  cases v with
  | error e =>
    unfold renderF
    dsimp only
    cases ty <;> simp only [hty]
  | ok v =>
    have hv : ValClear miss v := ha v rfl
    have hit : ∀ t xs, pyIter v = .ok xs → mapR (fun x => r'.render cx { ty := t, ser := ser, v := .ok x }) xs =
        mapR (fun x => r.render cx { ty := t, ser := ser, v := .ok x }) xs :=
      fun t xs hxs => mapR_congr (fun x hx => hel t x (iter_clear hv hxs x hx))
    unfold renderF
    dsimp only
    cases ty with
    | alias nm t => simp only [hty]
    | gen c args => simp only [hty]
    | cls c => simp only [h.cls _ _ _ _ v hv]
    | union ts =>
      simp only [seUnion_clear h hv]
      split
      · rfl
      · split
        · rfl
        · split
          · split
            · rfl
            · split
              · exact hel _ _ hv
              · rfl
          · rfl
    | list k t =>
      cases hxs : pyIter v with
      | error e => rfl
      | ok xs => simp only [hit t xs hxs]
    | set k t =>
      cases hxs : pyIter v with
      | error e => rfl
      | ok xs => simp only [hit t xs hxs]
    | deque t =>
      cases hxs : pyIter v with
      | error e => rfl
      | ok xs => simp only [hit t xs hxs]
    | tupleV t =>
      cases hxs : pyIter v with
      | error e => rfl
      | ok xs => simp only [hit t xs hxs]
    | counter t =>
      cases hes : pyItems v with
      | error e => rfl
      | ok es =>
        dsimp only
        split
        · rfl
        · split
          · rfl
          · congr 1
            exact mapR_congr (fun p hp => by rw [hel t _ (items_clear hv hes p hp).1])
    | dict k kt vt =>
      cases hes : pyItems v with
      | error e => rfl
      | ok es =>
        dsimp only
        split
        · rfl
        · split
          · rfl
          · congr 1
            exact mapR_congr (fun p hp => by rw [hel kt _ (items_clear hv hes p hp).1, hel vt _ (items_clear hv hes p hp).2])
    | tuple ts =>
      have : ∀ it : Ty × Nat, r'.render cx { ty := it.1, ser := ser, v := pyIndex v it.2 } =
          r.render cx { ty := it.1, ser := ser, v := pyIndex v it.2 } :=
        fun it => h.render cx _ (fun x hx => index_clear hv hx)
      cases ts with
      | nil => rfl
      | cons t ts => simp only [this]
    | any => simp only [h.toObj _ _ _ _ _ _ v hv]
    | tvar x => simp only [h.toObj _ _ _ _ _ _ v hv]
    | dictB k => cases k <;> rfl
    | listB k => cases k <;> rfl
    | _ => rfl

theorem flatF_clear (h : SeClear miss r' r) (cx : SeCx) (a : SeArg) (ha : ∀ v, a.v = .ok v → ValClear miss v) :
    flatF env r' cx a = flatF env r cx a := by
  unfold flatF
  simp only [h.render cx a ha, fun f => h.flat cx (seFieldArg f a.v) (fieldArg_clear ha), fun t => h.flat cx { a with ty := t } ha]

/-- Nor do the defaults that fields are compared with. -/
def DfltClear (env : Env) (miss : ClassId → Option Exc) : Prop :=
  ∀ c cd f d, env.cls c = some cd → f ∈ cd.fields → f.skipRule cd = .ifDefault (some d) → ValClear miss d

theorem clsF_clear (h : SeClear miss r' r) (hd : DfltClear env miss) (named re cv sn v) (hv : ValClear miss v) :
    clsF env r' named re cv sn v = clsF env r named re cv sn v := by
  unfold clsF
  cases v with
  | inst c as =>
    dsimp only
    cases hc : env.cls c with
    | none => rfl
    | some cd =>
      have hfl : ∀ cx f, r'.flat cx (seFieldArg f (.ok (.inst c as))) = r.flat cx (seFieldArg f (.ok (.inst c as))) :=
        fun cx f => h.flat cx _ (fieldArg_clear (fun x hx => by cases hx; exact hv))
      have hf : ∀ cx res f, f ∈ cd.fields → seField env r' cx cd (.inst c as) res f = seField env r cx cd (.inst c as) res f := by
        intro cx res f hfm
        have hs : ∀ sub, skips env r' cx (f.skipRule cd) sub = skips env r cx (f.skipRule cd) sub := by
          intro sub
          cases hr : f.skipRule cd with
          | ifDefault o =>
            cases o with
            | none => rfl
            | some dv =>
              unfold skips
              cases dv <;> simp only [h.toObj _ _ _ _ _ _ _ (hd c cd f _ hc hfm hr)]
          | _ => rfl
        unfold seField
        simp only [hfl, hs]
      have hfs : ∀ cx fs res, (∀ f ∈ fs, f ∈ cd.fields) → seFields env r' cx cd (.inst c as) res fs = seFields env r cx cd (.inst c as) res fs := by
        intro cx fs
        induction fs with
        | nil => intro res _; rfl
        | cons f fs ih =>
          intro res hall
          unfold seFields
          rw [hf cx res f (hall f (by simp))]
          cases seField env r cx cd (.inst c as) res f with
          | error e => rfl
          | ok res' => exact ih res' (fun f h => hall f (by simp [h]))
      dsimp only
      simp only [hfl, hfs _ cd.seFieldsOf [] (fun f hf => (List.mem_filter.1 hf).1)]
  | _ => rfl

theorem cacheSe_clear (h : SeClear miss r' r) {t re cv sn v} (hv : ValClear miss v) : cacheSe env r' t re cv sn v = cacheSe env r t re cv sn v := by
  unfold cacheSe
  simp only [fun cx => h.render cx { ty := t, v := .ok v } (fun x hx => by cases hx; exact hv)]

theorem toObjF_clear (h : SeClear miss r' r) {named re cv sn c tg v} (hv : ValClear miss v) :
    toObjF env r' named re cv sn c tg v = toObjF env r named re cv sn c tg v := by
  have hu : ∀ ts, cacheSeUnion env r' ts tg v = cacheSeUnion env r ts tg v := by
    intro ts
    unfold cacheSeUnion
    simp only [seUnion_clear h hv]
  have hm : ∀ xs : List Val, (∀ x ∈ xs, ValClear miss x) → mapR (fun x => r'.toObj named re cv sn Option.none .external x) xs =
      mapR (fun x => r.toObj named re cv sn Option.none .external x) xs :=
    fun xs hxs => mapR_congr (fun x hx => h.toObj _ _ _ _ _ _ x (hxs x hx))
  unfold toObjF
  congr 1
  unfold toObjBody
  simp only [hu]
  cases v with
  | inst c as => simp only [h.cls _ _ _ _ _ hv]
  | list xs => simp only [hm xs (iter_clear hv rfl)]
  | tuple xs => simp only [hm xs (iter_clear hv rfl)]
  | set k xs => simp only [hm xs (iter_clear hv rfl)]
  | deque xs => simp only [hm xs (iter_clear hv rfl)]
  | dict k es =>
    have hp : (match env.gser.find? (fun s => s.handles (typeOf (.dict k es))) with
        | some s => liftP (s.run (.dict k es))
        | Option.none => match mapR (fun kv : Val × Val => match r'.toObj named re cv sn Option.none .external kv.2 with
          | .ok w => .ok (kv.1, w)
          | .error e => .error e) es with
          | .ok es => .ok (.dict .plain es)
          | .error e => .error e) = (match env.gser.find? (fun s => s.handles (typeOf (.dict k es))) with
        | some s => liftP (s.run (.dict k es))
        | Option.none => match mapR (fun kv : Val × Val => match r.toObj named re cv sn Option.none .external kv.2 with
          | .ok w => .ok (kv.1, w)
          | .error e => .error e) es with
          | .ok es => .ok (.dict .plain es)
          | .error e => .error e) := by
      have : mapR (fun kv : Val × Val => match r'.toObj named re cv sn Option.none .external kv.2 with
            | .ok w => (.ok (kv.1, w) : Res (Val × Val))
            | .error e => .error e) es = mapR (fun kv : Val × Val => match r.toObj named re cv sn Option.none .external kv.2 with
            | .ok w => .ok (kv.1, w)
            | .error e => .error e) es :=
        mapR_congr (fun p hp => by rw [h.toObj _ _ _ _ _ _ _ (items_clear hv rfl p hp).2])
      rw [this]
    split
    · split
      · exact hp
      · rfl
    · exact hp
  | std k s => simp only [cacheSe_clear h hv]
  | dt k s => simp only [cacheSe_clear h hv]
  | _ => rfl

theorem seHAt_clear (hd : DfltClear env miss) : ∀ n, SeClear miss (seHAt env miss n) (seAt env n)
  | 0 => ⟨fun _ _ _ => rfl, fun _ _ _ => rfl, fun _ _ _ _ _ _ => rfl, fun _ _ _ _ _ _ _ _ => rfl⟩
  | n + 1 =>
    have ih := seHAt_clear hd n
    ⟨fun cx a ha => renderF_clear ih.guard cx a ha, fun cx a ha => flatF_clear ih cx a ha,
      fun named re cv sn v hv => clsF_clear ih hd named re cv sn v hv, fun _ _ _ _ _ _ _ hv => toObjF_clear ih hv⟩

end

/-! ## Which functions there are -/

section
variable {env : Env} {order : ClassId → List ClassId}

theorem Spec.HasOwn.mono {st st' : Gen} {side c} (hg : Grows st st') (h : HasOwn st side c) : HasOwn st' side c := by
  obtain ⟨s, hs, hh⟩ := h
  obtain ⟨s', hs', -, he, hd⟩ := hg.scope c s hs
  refine ⟨s', hs', ?_⟩
  cases side
  · exact he hh
  · exact hd hh

theorem get_own (hb : NoBases env) {st : Gen} {c cd} (hc : env.cls c = some cd) : st.get env c = st.scope c := by
  unfold Gen.get
  rw [hc]
  dsimp only
  rw [hb c cd hc, List.findSome?_cons, List.findSome?_nil]
  cases st.scope c <;> rfl

theorem without_own (hb : NoBases env) {st : Gen} {side c cd} (hc : env.cls c = some cd) : st.without env side c = false ↔ HasOwn st side c := by
  unfold Gen.without
  rw [get_own hb hc]
  constructor
  · intro h
    cases hs : st.scope c with
    | none => rw [hs] at h; cases h
    | some s =>
      rw [hs] at h
      exact ⟨s, hs, by simpa using h⟩
  · rintro ⟨s, hs, hh⟩
    rw [hs]
    dsimp only
    rw [hh]
    rfl

theorem missing_own (hb : NoBases env) {st : Gen} {side c cd} (hc : env.cls c = some cd) (h : HasOwn st side c) :
    st.missing env side c = Option.none := by
  obtain ⟨s, hs, hh⟩ := h
  unfold Gen.missing
  rw [get_own hb hc, hs]
  dsimp only
  rw [if_pos hh]

theorem hasOwn_enter {st : Gen} {re sr c side e} (h : HasOwn (st.enter re sr c) side e) : HasOwn st side e := by
  obtain ⟨s, hs, hh⟩ := h
  unfold Gen.enter at hs
  dsimp only at hs
  split at hs
  · next he =>
    subst he
    cases hc : st.scope e with
    | none =>
      rw [hc] at hs
      cases hs
      cases side <;> cases hh
    | some s' =>
      rw [hc] at hs
      cases hs
      exact ⟨_, hc, hh⟩
  · exact ⟨s, hs, hh⟩

theorem hasOwn_put {st : Gen} {side c side' e} (h : HasOwn (st.put side c) side' e) : HasOwn st side' e ∨ (side' = side ∧ e = c) := by
  obtain ⟨s, hs, hh⟩ := h
  unfold Gen.put at hs
  dsimp only at hs
  split at hs
  · next he =>
    subst he
    cases hc : st.scope e with
    | none => rw [hc] at hs; cases hs
    | some s' =>
      rw [hc] at hs
      cases hs
      by_cases hsd : side' = side
      · exact .inr ⟨hsd, rfl⟩
      · refine .inl ⟨s', hc, ?_⟩
        cases side <;> cases side' <;> first
          | exact absurd rfl hsd
          | exact hh
  · exact .inl ⟨s, hs, hh⟩

theorem genAll_only {side side' : Side} {sub : ClassId → Gen → Gen} {c e} {P : Prop}
    (hsub : ∀ d st, d ∈ order c → HasOwn (sub d st) side' e → HasOwn st side' e ∨ P) :
    ∀ ds, (∀ d ∈ ds, d ∈ order c) → ∀ st, HasOwn (genAll env side sub c ds st) side' e → HasOwn st side' e ∨ P
  | [], _, _, h => .inl h
  | d :: ds, hds, st, h => by
    unfold genAll at h
    rcases genAll_only hsub ds (fun d h => hds d (by simp [h])) _ h with h | h
    · split at h
      · exact hsub d st (hds d (by simp)) h
      · exact .inl h
    · exact .inr h

/-- Generating for class `c` adds functions of one side, to `c` and the classes it refers to. -/
theorem gen_only (ht : ∀ c d e, d ∈ order c → e ∈ order d → e ∈ order c) {side side' : Side} {e} :
    ∀ n stack re sr c st, HasOwn (gen env order side n stack re sr c st) side' e →
      HasOwn st side' e ∨ (side' = side ∧ (e = c ∨ e ∈ order c))
  | 0, _, _, _, _, _, h => .inl h
  | n + 1, stack, re, sr, c, st, h => by
    unfold gen at h
    split at h
    · exact .inl h
    · rcases hasOwn_put h with h | ⟨h1, h2⟩
      · have := genAll_only (order := order) (P := side' = side ∧ (e = c ∨ e ∈ order c)) (fun d st hd h => by
          rcases gen_only ht n _ _ _ d st h with h | ⟨h1, h2 | h2⟩
          · exact .inl h
          · subst h2; exact .inr ⟨h1, .inr hd⟩
          · exact .inr ⟨h1, .inr (ht _ _ _ hd h2)⟩) (order c) (fun _ h => h) _ h
        rcases this with h | h
        · exact .inl (hasOwn_enter h)
        · exact .inr h
      · exact .inr ⟨h1, .inl h2⟩

theorem gen_own {side : Side} {n stack re sr c} {cd : ClassDef} (hc : env.cls c = some cd) (hs : c ∉ stack) (st : Gen) :
    HasOwn (gen env order side (n + 1) stack re sr c st) side c := by
  unfold gen
  have : (stack.contains c || (env.cls c).isNone) = false := by simp [hc, hs]
  rw [this]
  simp only [Bool.false_eq_true, if_false]
  generalize hg : genAll env side _ c (order c) (st.enter re sr c) = st'
  have hgr : Grows (st.enter re sr c) st' := hg ▸ Grows.genAll (fun d st => Grows.gen ..) _ _
  obtain ⟨s, hs, -⟩ := hgr.scope c ((st.scope c).getD { reuse := re }) (by simp [Gen.enter])
  refine ⟨s.put side, by simp [Gen.put, hs], ?_⟩
  cases side <;> rfl

theorem genAll_all (hb : NoBases env) {side : Side} {sub : ClassId → Gen → Gen} {c} (hg : ∀ d st, Grows st (sub d st))
    (hsub : ∀ d cd st, env.cls d = some cd → d ≠ c → HasOwn (sub d st) side d) :
    ∀ ds st, ∀ d ∈ ds, d ≠ c → ∀ cd, env.cls d = some cd → HasOwn (genAll env side sub c ds st) side d
  | [], _, _, h, _, _, _ => by cases h
  | x :: ds, st, d, h, hdc, cd, hcd => by
    unfold genAll
    rcases List.mem_cons.1 h with h | h
    · subst h
      refine Spec.HasOwn.mono (Grows.genAll hg ds _) ?_
      split
      · exact hsub d cd st hcd hdc
      · next hw =>
        have : st.without env side d = false := by
          cases hw' : st.without env side d with
          | false => rfl
          | true => exact absurd (by simp [hw', hdc]) hw
        exact (without_own hb hcd).1 this
    · exact genAll_all hb hg hsub ds _ d h hdc cd hcd

/-- Generating for class `c` leaves no class it refers to without functions. -/
theorem gen_all (hb : NoBases env) {side : Side} {re sr c} {cd : ClassDef} (hc : env.cls c = some cd) (st : Gen) {d dd}
    (hd : d ∈ order c) (hdd : env.cls d = some dd) :
    HasOwn (gen env order side (env.classes.length + 1) [] re sr c st) side d := by
  by_cases hdc : d = c
  · subst hdc; exact gen_own hc (by simp) st
  · unfold gen
    simp only [List.contains_nil, hc, Option.isNone_some, Bool.or_self, Bool.false_eq_true, if_false]
    refine Spec.HasOwn.mono .put (genAll_all hb (fun d st => Grows.gen ..) (fun d dd st hdd hne => ?_) _ _ d hd hdc dd hdd)
    have hl : ∃ m, env.classes.length = m + 1 := by
      cases hcl : env.classes with
      | nil => unfold Env.cls at hc; rw [hcl] at hc; cases hc
      | cons p ps => exact ⟨ps.length, rfl⟩
    obtain ⟨m, hm⟩ := hl
    rw [hm]
    exact gen_own hdd (by simp [hne]) st

/-- What has been generated is complete. -/
def GenClosed (env : Env) (order : ClassId → List ClassId) (st : Gen) (side : Side) : Prop :=
  ∀ c, HasOwn st side c → ∀ d ∈ order c, ∀ dd, env.cls d = some dd → HasOwn st side d

theorem gen_closed (hb : NoBases env) (ht : ∀ c d e, d ∈ order c → e ∈ order d → e ∈ order c) {side side' : Side} {re sr c} {st : Gen}
    (h : GenClosed env order st side') : GenClosed env order (gen env order side (env.classes.length + 1) [] re sr c st) side' := by
  cases hc : env.cls c with
  | none => rw [gen_none hc]; exact h
  | some cd =>
    intro e he d hd dd hdd
    rcases gen_only ht _ _ _ _ _ _ he with ho | ⟨h1, hec⟩
    · exact (h e ho d hd dd hdd).mono (Grows.gen ..)
    · subst h1
      clear he
      rcases hec with he | he
      · subst he; exact gen_all hb hc st hd hdd
      · exact gen_all hb hc st (ht _ _ _ he hd) hdd

theorem meet_closed (hb : NoBases env) (ht : ∀ c d e, d ∈ order c → e ∈ order d → e ∈ order c) {side side' : Side} {c} {st : Gen}
    (h : GenClosed env order st side') : GenClosed env order (st.meet env order side c) side' := by
  unfold Gen.meet
  split
  · exact gen_closed hb ht h
  · exact h

theorem step_closed (hb : NoBases env) (ht : ∀ c d e, d ∈ order c → e ∈ order d → e ∈ order c) {side : Side} {st : Gen}
    (h : GenClosed env order st side) : ∀ e, GenClosed env order (st.step env order e) side
  | .decorate c => by
    unfold Gen.step
    dsimp only
    split
    · exact gen_closed hb ht (gen_closed hb ht h)
    · exact h
  | .write c => meet_closed hb ht h
  | .read c => meet_closed hb ht h

theorem run_closed (hb : NoBases env) (ht : ∀ c d e, d ∈ order c → e ∈ order d → e ∈ order c) {side : Side} :
    ∀ (h : List GenEvent) {st : Gen}, GenClosed env order st side → GenClosed env order (st.run env order h) side
  | [], _, hs => hs
  | e :: h, _, hs => run_closed hb ht h (step_closed hb ht hs e)

theorem closed_init {side : Side} : GenClosed env order {} side := by
  intro c h
  obtain ⟨s, hs, -⟩ := h
  cases hs

theorem meet_own (hb : NoBases env) {side c cd} (hc : env.cls c = some cd) {st : Gen} : HasOwn (st.meet env order side c) side c := by
  unfold Gen.meet
  split
  · exact gen_own hc (by simp) st
  · next h => exact (without_own hb hc).1 (by simpa using h)

theorem step_own (hb : NoBases env) {side c cd} (hc : env.cls c = some cd) {st : Gen} : ∀ {e : GenEvent}, GenEvent.On e side c →
    HasOwn (st.step env order e) side c
  | .decorate _, h => by
    cases h
    obtain ⟨s, hs, h1, h2⟩ := (full_decorate (order := order) (st := st) hc).scope
    exact ⟨s, hs, by cases side <;> simp [GenScope.has, h1, h2]⟩
  | .write _, h => by
    cases side
    · cases h; exact meet_own hb hc
    · cases h
  | .read _, h => by
    cases side
    · cases h
    · cases h; exact meet_own hb hc

theorem run_own (hb : NoBases env) {side c cd} (hc : env.cls c = some cd) : ∀ {h : List GenEvent} {st : Gen} {e}, e ∈ h → GenEvent.On e side c →
    HasOwn (st.run env order h) side c
  | e' :: h, st, e, hm, ho => by
    rcases List.mem_cons.1 hm with he | hm
    · subst he
      exact (step_own hb hc ho).mono (Grows.run h _)
    · exact run_own hb hc (h := h) hm ho

end

end Verif
