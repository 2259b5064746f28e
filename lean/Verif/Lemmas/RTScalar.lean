import Verif.Lemmas.RTBase
/-!
# Round trip: scalars and mapping keys
-/

namespace Verif

open Spec

/-- Serialized form of a scalar. -/
def scalarWire (env : Env) (F : Fmt env) : Val → Val
  | .enum e m => match env.enm e with
    | some d => (d.members.lookup m).getD .none
    | Option.none => .none
  | .std k s => if F.reuse then .std k s else .str s
  | .dt k s => if F.reuse then .dt k s else .str s
  | v => v

theorem scalarWire_std {env : Env} {F : Fmt env} {k s} : scalarWire env F (.std k s) = if F.reuse then .std k s else .str s := rfl
theorem scalarWire_dt {env : Env} {F : Fmt env} {k s} : scalarWire env F (.dt k s) = if F.reuse then .dt k s else .str s := rfl

theorem lookup_of_mem {ms : List (String × Val)} (hn : (ms.map (·.1)).Nodup) {m w} (h : (m, w) ∈ ms) : ms.lookup m = some w := by
  induction ms with
  | nil => cases h
  | cons a ms ih =>
    obtain ⟨k, u⟩ := a
    rw [List.map_cons, List.nodup_cons] at hn
    rcases List.mem_cons.1 h with h | h0
    · cases h; simp
    · have : (m == k) = false := by
        rw [beq_eq_false_iff_ne]
        rintro rfl
        exact hn.1 (List.mem_map.2 ⟨(m, w), h0, rfl⟩)
      rw [List.lookup_cons, this]
      exact ih hn.2 h0

theorem pyEq_refl_enumVal {v : Val} (h : EnumVal v) : pyEq v v = true := by
  cases h <;> simp [pyEq, Val.num, Flt.eqv]

theorem pyEq_refl_litVal {v : Val} (h : LitVal v) : pyEq v v = true := by
  cases h <;> simp [pyEq, Val.num, Flt.eqv]

theorem pyEq_symm_enumVal {v w : Val} (h : EnumVal v) (h' : EnumVal w) : pyEq v w = pyEq w v := by
  cases h <;> cases h' <;> simp [pyEq, Val.num, Flt.eqv] <;> exact BEq.comm

theorem find_member {ms : List (String × Val)} (hd : ms.Pairwise (fun a b => pyEq a.2 b.2 = false)) (hv : ∀ m ∈ ms, EnumVal m.2) {m w}
    (h : (m, w) ∈ ms) : ms.find? (fun x => pyEq x.2 w) = some (m, w) := by
  induction ms with
  | nil => cases h
  | cons a ms ih =>
    rw [List.pairwise_cons] at hd
    rcases List.mem_cons.1 h with rfl | h
    · rw [List.find?_cons]
      rw [pyEq_refl_enumVal (hv _ (by simp))]
    · rw [List.find?_cons, hd.1 _ h]
      exact ih hd.2 (fun x hx => hv x (by simp [hx])) h

theorem enumCall_value {d : EnumDef} (hd : EnumOk d) {e m w} (h : (m, w) ∈ d.members) : enumCall d e w = .ok (.enum e m) := by
  have hf := find_member hd.distinct hd.vals h
  have hw := hd.vals _ h
  unfold enumCall
  dsimp only
  rw [hf]
  have hne : d.members ≠ [] := by intro hh; rw [hh] at h; cases h
  cases hm : d.members with
  | nil => exact absurd hm hne
  | cons a as =>
    dsimp only at hw
    cases hw <;> rfl

theorem deEnum_value {env : Env} {d : EnumDef} {e} (he : env.enm e = some d) (hd : EnumOk d) {m w} (h : (m, w) ∈ d.members) :
    deEnum env e w = .ok (.enum e m) := by
  unfold deEnum
  rw [he]; dsimp only
  rw [enumCall_value hd h]

theorem enumValue_member {env : Env} {d : EnumDef} {e n} (he : env.enm e = some d) (hd : EnumOk d) {m w} (h : (m, w) ∈ d.members) :
    enumValue env e (n + 1) (.enum e m) = .ok w := by
  have hl := lookup_of_mem hd.names h
  have hw := hd.vals _ h
  unfold enumValue
  simp only [hashable, Bool.not_true, Bool.false_eq_true, if_false, he, hl]
  dsimp only at hw
  cases hw <;> simp [hashable]

theorem scalarWire_enum {env : Env} {F : Fmt env} {d : EnumDef} {e} (he : env.enm e = some d) (hd : EnumOk d) {m w}
    (h : (m, w) ∈ d.members) : scalarWire env F (.enum e m) = w := by
  show (match env.enm e with
    | some d => (d.members.lookup m).getD .none
    | Option.none => Val.none) = w
  rw [he]; dsimp only
  rw [lookup_of_mem hd.names h]; rfl

theorem wire_enumVal {env : Env} (F : Fmt env) {v} (h : EnumVal v) : F.wire v = v := by
  cases h
  · exact F.wire_int _
  · exact F.wire_str _
  · exact F.wire_bool _
  · exact F.wire_float _
  · exact F.wire_float _

theorem wire_litVal {env : Env} (F : Fmt env) {v} (h : LitVal v) : F.wire v = v := by
  cases h
  · exact F.wire_str _
  · exact F.wire_int _
  · exact F.wire_bool _
  · exact F.wire_none

/-- The value of a primitive annotation. -/
theorem coerceObj_prim {env : Env} {p v} (h : HasTy env (.prim p) v) : coerceObj env p v = .ok v := by
  cases h <;> simp [coerceObj, primCall, truthy, pyStr]

theorem wire_prim {env : Env} (F : Fmt env) {p v} (h : HasTy env (.prim p) v) : F.wire v = v ∧ scalarWire env F v = v ∧ v ≠ .none := by
  cases h
  · exact ⟨F.wire_int _, rfl, by simp⟩
  · exact ⟨F.wire_float _, rfl, by simp⟩
  · exact ⟨F.wire_bool _, rfl, by simp⟩
  · exact ⟨F.wire_str _, rfl, by simp⟩

theorem scalarWire_lit {env : Env} {F : Fmt env} {v} (h : LitVal v) : scalarWire env F v = v := by
  cases h <;> rfl

theorem wire_scalar {env : Env} {F : Fmt env} {S t v} (ht : ScalarTy env S t) (hv : HasTy env t v) :
    F.wire (scalarWire env F v) = scalarWire env F v := by
  cases ht with
  | prim => rw [(wire_prim F hv).2.1, (wire_prim F hv).1]
  | newType => cases hv with | newType hv => rw [(wire_prim F hv).2.1, (wire_prim F hv).1]
  | none => cases hv; exact F.wire_none
  | enum he hd =>
    cases hv with
    | enum he' hm =>
      rw [he] at he'; cases he'
      rw [scalarWire_enum he hd hm]
      exact wire_enumVal F (hd.vals _ hm)
  | std =>
    cases hv with
    | std hs =>
      rw [scalarWire_std]
      cases hr : F.reuse with
      | true => exact F.raw_wire (F.reuse_raw hr).1 _
      | false => exact F.wire_str _
  | dt =>
    cases hv with
    | dt hs =>
      rw [scalarWire_dt]
      cases hr : F.reuse with
      | true => exact F.raw_wire (F.reuse_raw hr).1 _
      | false => exact F.wire_str _
  | lit hl =>
    cases hv with
    | lit hm =>
      rw [scalarWire_lit (hl _ hm)]
      exact wire_litVal F (hl _ hm)

theorem Reads.cast {a x y} (h : Reads a x) (e : x = y) : Reads a y := e ▸ h

/-- Deserialization of a scalar from its serialized form. -/
theorem scalar_de {env : Env} {F : Fmt env} {S t v} (ht : ScalarTy env S t) (hv : HasTy env t v) {n cx a}
    (hcx : DeM F S cx) (hr : Reads a (scalarWire env F v)) (hty : a.ty = t) : (deAt env (n + 1)).render cx a = .ok v := by
  rw [render_reads hr]
  unfold deBody
  rw [hcx.des, pickDe_nil]
  dsimp only
  rw [hr.2.1]
  dsimp only
  rw [hty]
  cases ht with
  | @prim p =>
    dsimp only
    rw [hr.primData]
    dsimp only
    rw [hcx.numbers, hcx.coerce, (wire_prim F hv).2.1]
    split
    · rename_i num hnum
      cases hv
      rw [F.numbers_float num hnum]; rfl
    · split
      · exact coerceObj_prim hv
      · rfl
  | newType =>
    cases hv with
    | newType hv =>
      dsimp only
      rw [hr.primData]
      dsimp only
      rw [(wire_prim F hv).2.1]
      split
      · exact coerceObj_prim hv
      · rfl
  | none => cases hv; rfl
  | enum he hd =>
    cases hv with
    | enum he' hm =>
      rw [he] at he'; cases he'
      dsimp only
      rw [hr.primData]
      dsimp only
      rw [scalarWire_enum he hd hm, deEnum_value he hd hm]; rfl
  | std =>
    cases hv with
    | std hs =>
      dsimp only
      rw [hr.data]
      dsimp only
      rw [hcx.reuse]
      rw [scalarWire_std]
      cases hre : F.reuse with
      | true => simp [(F.reuse_raw hre).2, isStdInst]
      | false => simp [isStdInst, stdCall, hs, liftP]
  | dt =>
    cases hv with
    | dt hs =>
      dsimp only
      rw [hr.data]
      dsimp only
      rw [hcx.reuse]
      rw [scalarWire_dt]
      cases hre : F.reuse with
      | true => simp [(F.reuse_raw hre).2, isDtInst]
      | false => simp [isDtInst, hs, liftP]
  | lit hl hf =>
    cases hv with
    | lit hm =>
      dsimp only
      rw [hcx.lits, hf]
      dsimp only
      rw [hr.data]
      dsimp only
      rw [scalarWire_lit (hl _ hm)]
      unfold deLit
      have : List.any _ (fun l => pyEq l v) = true := List.any_eq_true.2 ⟨v, hm, pyEq_refl_litVal (hl _ hm)⟩
      rw [this]; rfl

theorem scalar_se {env : Env} {F : Fmt env} {S t v} (ht : ScalarTy env S t) (hv : HasTy env t v) (n) :
    (seAt env (n + 1)).render (seCxOf F S) { ty := t, v := .ok v } = .ok (scalarWire env F v) := by
  rw [seAt_render]
  unfold renderF
  have h0 : (seCxOf F S).sers = [] := rfl
  rw [h0, pickSer_nil]
  dsimp only
  cases ht with
  | @prim p =>
    dsimp only
    rw [(wire_prim F hv).2.1]
    split
    · exact coerceObj_prim hv
    · rfl
  | newType =>
    cases hv with
    | newType hv =>
      dsimp only
      rw [(wire_prim F hv).2.1]
      split
      · exact coerceObj_prim hv
      · rfl
  | none => cases hv; rfl
  | enum he hd =>
    cases hv with
    | enum he' hm =>
      rw [he] at he'; cases he'
      dsimp only
      rw [enumValue_member he hd hm, scalarWire_enum he hd hm]; rfl
  | std =>
    cases hv with
    | std hs => rw [scalarWire_std]; cases hre : F.reuse <;> simp [seCxOf, hre, pyStr]
  | dt =>
    cases hv with
    | dt hs => rw [scalarWire_dt]; cases hre : F.reuse <;> simp [seCxOf, hre]
  | lit hl hf =>
    cases hv with
    | lit hm => rw [scalarWire_lit (hl _ hm)]

theorem scalarWire_none {env : Env} {F : Fmt env} {S t v} (ht : ScalarTy env S t) (hv : HasTy env t v)
    (h : scalarWire env F v = .none) : v = .none := by
  cases ht with
  | prim => exact absurd ((wire_prim F hv).2.1.symm.trans h) (wire_prim F hv).2.2
  | newType => cases hv with | newType hv => exact absurd ((wire_prim F hv).2.1.symm.trans h) (wire_prim F hv).2.2
  | none => cases hv; rfl
  | enum he hd =>
    cases hv with
    | enum he' hm =>
      rw [he] at he'; cases he'
      rw [scalarWire_enum he hd hm] at h
      have := hd.vals _ hm
      rw [h] at this; cases this
  | std => cases hv with | std hs => rw [scalarWire_std] at h; split at h <;> cases h
  | dt => cases hv with | dt hs => rw [scalarWire_dt] at h; split at h <;> cases h
  | lit hl hf => cases hv with | lit hm => rw [scalarWire_lit (hl _ hm)] at h; exact h

theorem scalarWire_inst {env : Env} {F : Fmt env} {S t v} (ht : ScalarTy env S t) (hv : HasTy env t v) (c as) :
    scalarWire env F v ≠ .inst c as := by
  intro h
  cases ht with
  | prim => cases hv <;> cases h
  | newType => cases hv with | newType hv => cases hv <;> cases h
  | none => cases hv; cases h
  | enum he hd =>
    cases hv with
    | enum he' hm =>
      rw [he] at he'; cases he'
      rw [scalarWire_enum he hd hm] at h
      have := hd.vals _ hm
      rw [h] at this; cases this
  | std => cases hv with | std hs => rw [scalarWire_std] at h; split at h <;> cases h
  | dt => cases hv with | dt hs => rw [scalarWire_dt] at h; split at h <;> cases h
  | lit hl hf =>
    cases hv with
    | lit hm =>
      have := hl _ hm
      rw [scalarWire_lit this] at h
      rw [h] at this; cases this

theorem enc_scalar {env : Env} {F : Fmt env} {S t v} (ht : ScalarTy env S t) (hv : HasTy env t v) :
    Enc env F S t v (scalarWire env F v) := by
  refine ⟨Ev.pos.mono ?_, Ev.pos.mono ?_, ?_⟩
  · rintro n ⟨m, rfl⟩; exact scalar_se ht hv m
  · rintro n ⟨m, rfl⟩ cx a hcx hr hty
    exact scalar_de ht hv hcx (hr.cast (wire_scalar ht hv)) hty
  · rw [wire_scalar ht hv]
    exact ⟨scalarWire_none ht hv, scalarWire_inst ht hv⟩

theorem hashable_scalarWire {env : Env} {F : Fmt env} {S t v} (ht : ScalarTy env S t) (hv : HasTy env t v) :
    hashable env.hash (scalarWire env F v) = true := by
  cases ht with
  | prim => cases hv <;> rfl
  | newType => cases hv with | newType hv => cases hv <;> rfl
  | none => cases hv; rfl
  | enum he hd =>
    cases hv with
    | enum he' hm =>
      rw [he] at he'; cases he'
      rw [scalarWire_enum he hd hm]
      have := hd.vals _ hm
      dsimp only at this
      cases this <;> rfl
  | std => cases hv with | std hs => rw [scalarWire_std]; split <;> rfl
  | dt => cases hv with | dt hs => rw [scalarWire_dt]; split <;> rfl
  | lit hl hf =>
    cases hv with
    | lit hm =>
      rw [scalarWire_lit (hl _ hm)]
      cases hl _ hm <;> rfl

theorem enum_same {d : EnumDef} (hd : EnumOk d) {m w m' w'} (h : (m, w) ∈ d.members) (h' : (m', w') ∈ d.members)
    (hp : pyEq w w' = true) : m = m' := by
  have h1 := find_member hd.distinct hd.vals h
  have h2 := find_member hd.distinct hd.vals h'
  have h3 : ∀ ms : List (String × Val), ms.Pairwise (fun a b => pyEq a.2 b.2 = false) → (∀ m ∈ ms, EnumVal m.2) →
      (m, w) ∈ ms → (m', w') ∈ ms → m = m' := by
    intro ms
    induction ms with
    | nil => intro _ _ h; cases h
    | cons a ms ih =>
      intro hd hv h h'
      rw [List.pairwise_cons] at hd
      rcases List.mem_cons.1 h with rfl | h0 <;> rcases List.mem_cons.1 h' with h'e | h'
      · cases h'e; rfl
      · have := hd.1 _ h'; rw [hp] at this; cases this
      · subst h'e
        have := hd.1 _ h0
        rw [pyEq_symm_enumVal (hv _ (by simp)) (hv _ (List.mem_cons_of_mem _ h0)), hp] at this; cases this
      · exact ih hd.2 (fun x hx => hv x (by simp [hx])) h0 h'
  exact h3 _ hd.distinct hd.vals h h'

/-- Distinct scalars of one type have distinct serialized forms. -/
theorem scalarWire_distinct {env : Env} {F : Fmt env} {S t v v'} (ht : ScalarTy env S t) (hv : HasTy env t v) (hv' : HasTy env t v')
    (h : pyEq (scalarWire env F v) (scalarWire env F v') = true) : pyEq v v' = true ∨ v = v' := by
  cases ht with
  | prim => rw [(wire_prim F hv).2.1, (wire_prim F hv').2.1] at h; exact .inl h
  | newType =>
    cases hv with
    | newType hv => cases hv' with
      | newType hv' => rw [(wire_prim F hv).2.1, (wire_prim F hv').2.1] at h; exact .inl h
  | none => cases hv; cases hv'; exact .inr rfl
  | enum he hd =>
    cases hv with
    | enum he' hm => cases hv' with
      | enum he'' hm' =>
        rw [he] at he' he''; cases he'; cases he''
        rw [scalarWire_enum he hd hm, scalarWire_enum he hd hm'] at h
        rw [enum_same hd hm hm' h]; exact .inr rfl
  | std =>
    cases hv with
    | std hs => cases hv' with
      | std hs' =>
        rw [scalarWire_std, scalarWire_std] at h
        cases hr : F.reuse with
        | true => rw [hr] at h; exact .inl h
        | false => rw [hr] at h; simp [pyEq] at h; rw [h]; exact .inr rfl
  | dt =>
    cases hv with
    | dt hs => cases hv' with
      | dt hs' =>
        rw [scalarWire_dt, scalarWire_dt] at h
        cases hr : F.reuse with
        | true => rw [hr] at h; exact .inl h
        | false => rw [hr] at h; simp [pyEq] at h; rw [h]; exact .inr rfl
  | lit hl hf =>
    cases hv with
    | lit hm => cases hv' with
      | lit hm' => rw [scalarWire_lit (hl _ hm), scalarWire_lit (hl _ hm')] at h; exact .inl h

/-! ## Mapping keys -/

theorem Spec.KeyTy.scalar {env : Env} {F : Fmt env} {t} (h : KeyTy env F t) (S) : ScalarTy env S t := by
  cases h with
  | str => exact .prim
  | int => exact .prim
  | float => exact .prim
  | bool _ => exact .prim
  | newStr => exact .newType
  | newType _ => exact .newType
  | enumRaw _ he hd => exact .enum he hd
  | enumStr he hd _ => exact .enum he hd
  | enumInt he hd _ => exact .enum he hd
  | enumFloat he hd _ => exact .enum he hd
  | std => exact .std
  | dt => exact .dt

/-- The wire form of a serialized key. -/
def keyWire (env : Env) (F : Fmt env) (v : Val) : Val := F.key (scalarWire env F v)

theorem keyWire_raw {env : Env} {F : Fmt env} (h : F.raw = true) (v) : keyWire env F v = scalarWire env F v := F.raw_key h _

theorem deEnum_int {env : Env} {d : EnumDef} {e} (he : env.enm e = some d) (hd : EnumOk d) (hi : ∀ m ∈ d.members, ∃ i, m.2 = .int i)
    {m i s} (h : (m, .int i) ∈ d.members) (hs : env.W.intOfStr s = some i) : deEnum env e (.str s) = .ok (.enum e m) := by
  unfold deEnum
  rw [he]; dsimp only
  have h1 : enumCall d e (.str s) = .error .value := by
    unfold enumCall; dsimp only
    cases hm : d.members with
    | nil => rw [hm] at h; cases h
    | cons a as =>
      dsimp only
      rw [← hm]
      have : d.members.find? (fun m => pyEq m.2 (.str s)) = none := by
        rw [List.find?_eq_none]
        intro x hx
        obtain ⟨j, hj⟩ := hi x hx
        rw [hj]; simp [pyEq, Val.num]
      rw [this]
  rw [h1]; dsimp only
  have h2 := enumCall_value (e := e) hd h
  cases hm : d.members with
  | nil => rw [hm] at h; cases h
  | cons a as =>
    obtain ⟨nm, proto⟩ := a
    obtain ⟨j, hj⟩ := hi (nm, proto) (by rw [hm]; simp)
    dsimp only at hj
    subst hj
    simp only [ctorLike, hs]
    exact h2

theorem deEnum_float {env : Env} {d : EnumDef} {e} (he : env.enm e = some d) (hd : EnumOk d) (hi : ∀ m ∈ d.members, ∃ x, m.2 = .float x)
    {m x s} (h : (m, .float x) ∈ d.members) (hs : env.W.floatOfStr s = some x) : deEnum env e (.str s) = .ok (.enum e m) := by
  unfold deEnum
  rw [he]; dsimp only
  have h1 : enumCall d e (.str s) = .error .value := by
    unfold enumCall; dsimp only
    cases hm : d.members with
    | nil => rw [hm] at h; cases h
    | cons a as =>
      dsimp only
      rw [← hm]
      have : d.members.find? (fun m => pyEq m.2 (.str s)) = none := by
        rw [List.find?_eq_none]
        intro x hx
        obtain ⟨j, hj⟩ := hi x hx
        rw [hj]; simp [pyEq, Val.num]
      rw [this]
  rw [h1]; dsimp only
  have h2 := enumCall_value (e := e) hd h
  cases hm : d.members with
  | nil => rw [hm] at h; cases h
  | cons a as =>
    obtain ⟨nm, proto⟩ := a
    obtain ⟨j, hj⟩ := hi (nm, proto) (by rw [hm]; simp)
    dsimp only at hj
    subst hj
    simp only [ctorLike, hs]
    exact h2

/-- A key type that is not coerced deserializes from its wire form. -/
theorem key_de {env : Env} {F : Fmt env} {S t v} (ht : KeyTy env F t) (hnum : F.raw = true ∨ t ≠ .prim .int ∧ t ≠ .prim .float)
    (hv : HasTy env t v) {n cx a} (hcx : DeM F S cx) (hr : Reads a (keyWire env F v)) (hty : a.ty = t) :
    (deAt env (n + 1)).render cx a = .ok v := by
  by_cases hraw : F.raw = true
  · exact scalar_de (ht.scalar S) hv hcx (hr.cast (keyWire_raw hraw v)) hty
  · have hre : F.reuse = false := by
      cases h : F.reuse with
      | false => rfl
      | true => exact absurd (F.reuse_raw h).1 hraw
    have hstr : ∀ s, scalarWire env F v = .str s → (deAt env (n + 1)).render cx a = .ok v := by
      intro s hs
      refine scalar_de (ht.scalar S) hv hcx (hr.cast ?_) hty
      unfold keyWire; rw [hs]; exact F.key_str s
    cases ht with
    | str => cases hv with | str => exact hstr _ rfl
    | int => rcases hnum with h | h
             · exact absurd h hraw
             · exact absurd rfl h.1
    | float => rcases hnum with h | h
               · exact absurd h hraw
               · exact absurd rfl h.2
    | bool h => exact absurd h hraw
    | newStr => cases hv with | newType hv => cases hv with | str => exact hstr _ rfl
    | newType h => exact absurd h hraw
    | enumRaw h _ _ => exact absurd h hraw
    | enumStr he hd hs =>
      cases hv with
      | enum he' hm =>
        rw [he] at he'; cases he'
        obtain ⟨s, hs⟩ := hs _ hm
        exact hstr s ((scalarWire_enum he hd hm).trans hs)
    | @enumInt e _ he hd hi =>
      cases hv with
      | @enum _ _ m w he' hm =>
        rw [he] at he'; cases he'
        obtain ⟨i, hwi⟩ := hi _ hm
        dsimp only at hwi; subst hwi
        have hk : keyWire env F (.enum e m) = F.key (.int i) := by
          unfold keyWire; rw [scalarWire_enum he hd hm]
        rcases F.key_int i with h | ⟨s, h, hs⟩
        · refine scalar_de (.enum he hd) (.enum he hm) hcx (hr.cast ?_) hty
          rw [hk, h, scalarWire_enum he hd hm]
        · have hr' := hr.cast (hk.trans h)
          rw [render_reads hr']
          unfold deBody
          rw [hcx.des, pickDe_nil]; dsimp only
          rw [hr.2.1]; dsimp only
          rw [hty]; dsimp only
          rw [hr'.primData]; dsimp only
          rw [deEnum_int he hd hi hm hs]; rfl
    | @enumFloat e _ he hd hi =>
      cases hv with
      | @enum _ _ m w he' hm =>
        rw [he] at he'; cases he'
        obtain ⟨i, hwi⟩ := hi _ hm
        dsimp only at hwi; subst hwi
        have hk : keyWire env F (.enum e m) = F.key (.float i) := by
          unfold keyWire; rw [scalarWire_enum he hd hm]
        rcases F.key_float i with h | ⟨s, h, hs⟩
        · refine scalar_de (.enum he hd) (.enum he hm) hcx (hr.cast ?_) hty
          rw [hk, h, scalarWire_enum he hd hm]
        · have hr' := hr.cast (hk.trans h)
          rw [render_reads hr']
          unfold deBody
          rw [hcx.des, pickDe_nil]; dsimp only
          rw [hr.2.1]; dsimp only
          rw [hty]; dsimp only
          rw [hr'.primData]; dsimp only
          rw [deEnum_float he hd hi hm hs]; rfl
    | std =>
      cases hv with
      | std hs => exact hstr _ (by rw [scalarWire_std]; rw [hre]; rfl)
    | dt =>
      cases hv with
      | dt hs => exact hstr _ (by rw [scalarWire_dt]; rw [hre]; rfl)

/-- Numeric keys are coerced back. -/
theorem key_num {env : Env} {F : Fmt env} {t p v} (hn : numKey t = some p) (hv : HasTy env t v) :
    coerceObj env p (keyWire env F v) = .ok v := by
  unfold numKey at hn
  split at hn
  · cases hn
    cases hv with
    | @int i =>
      show coerceObj env .int (F.key (.int i)) = _
      rcases F.key_int i with h | ⟨s, h, hs⟩
      · rw [h]; rfl
      · rw [h]; simp [coerceObj, primCall, hs]
  · cases hn
    cases hv with
    | @float i =>
      show coerceObj env .float (F.key (.float i)) = _
      rcases F.key_float i with h | ⟨s, h, hs⟩
      · rw [h]; rfl
      · rw [h]; simp [coerceObj, primCall, hs]
  · cases hn

theorem keyWire_distinct {env : Env} {F : Fmt env} {t v v'} (ht : KeyTy env F t) (hv : HasTy env t v) (hv' : HasTy env t v')
    (h : pyEq (keyWire env F v) (keyWire env F v') = true) : pyEq v v' = true ∨ v = v' := by
  by_cases hraw : F.raw = true
  · rw [keyWire_raw hraw, keyWire_raw hraw] at h
    exact scalarWire_distinct (F := F) (ht.scalar ⟨true, [], [], .external, false⟩) hv hv' h
  · have hre : F.reuse = false := by
      cases h : F.reuse with
      | false => rfl
      | true => exact absurd (F.reuse_raw h).1 hraw
    have hstr : ∀ s s', scalarWire env F v = .str s → scalarWire env F v' = .str s' → pyEq v v' = true ∨ v = v' := by
      intro s s' hs hs'
      refine scalarWire_distinct (F := F) (ht.scalar ⟨true, [], [], .external, false⟩) hv hv' ?_
      unfold keyWire at h
      rw [hs, hs', F.key_str, F.key_str] at h
      rw [hs, hs']; exact h
    have hint : ∀ i j, pyEq (F.key (.int i)) (F.key (.int j)) = true → i = j := by
      intro i j hij
      rcases F.key_int i with h | ⟨s, h, hs⟩ <;> rcases F.key_int j with h' | ⟨s', h', hs'⟩ <;> rw [h, h'] at hij
      · simpa [pyEq, Val.num, Flt.eqv] using hij
      · simp [pyEq, Val.num] at hij
      · simp [pyEq] at hij
      · simp [pyEq] at hij
        rw [hij, hs'] at hs; cases hs; rfl
    cases ht with
    | str => cases hv with | str => cases hv' with | str => exact hstr _ _ rfl rfl
    | int => cases hv with | int => cases hv' with | int => rw [hint _ _ h]; exact .inr rfl
    | float =>
      cases hv with
      | @float x => cases hv' with
        | @float y =>
          have hij : pyEq (F.key (.float x)) (F.key (.float y)) = true := h
          rcases F.key_float x with h | ⟨s, h, hs⟩ <;> rcases F.key_float y with h' | ⟨s', h', hs'⟩ <;> rw [h, h'] at hij
          · exact .inl hij
          · simp [pyEq, Val.num] at hij
          · simp [pyEq] at hij
          · simp [pyEq] at hij
            rw [hij, hs'] at hs; cases hs; exact .inr rfl
    | bool h => exact absurd h hraw
    | newStr =>
      cases hv with
      | newType hv => cases hv with
        | str => cases hv' with
          | newType hv' => cases hv' with
            | str => exact hstr _ _ rfl rfl
    | newType h => exact absurd h hraw
    | enumRaw h _ _ => exact absurd h hraw
    | enumStr he hd hs =>
      cases hv with
      | enum he' hm => cases hv' with
        | enum he'' hm' =>
          rw [he] at he' he''; cases he'; cases he''
          obtain ⟨s, hs1⟩ := hs _ hm
          obtain ⟨s', hs2⟩ := hs _ hm'
          exact hstr s s' ((scalarWire_enum he hd hm).trans hs1) ((scalarWire_enum he hd hm').trans hs2)
    | enumInt he hd hi =>
      cases hv with
      | @enum _ _ m w he' hm => cases hv' with
        | @enum _ _ m' w' he'' hm' =>
          rw [he] at he' he''; cases he'; cases he''
          obtain ⟨i, hi1⟩ := hi _ hm
          obtain ⟨j, hi2⟩ := hi _ hm'
          dsimp only at hi1 hi2
          subst hi1; subst hi2
          unfold keyWire at h
          rw [scalarWire_enum he hd hm, scalarWire_enum he hd hm'] at h
          have := hint _ _ h
          subst this
          rw [enum_same hd hm hm' (pyEq_refl_enumVal .int)]; exact .inr rfl
    | enumFloat he hd hi =>
      cases hv with
      | @enum _ _ m w he' hm => cases hv' with
        | @enum _ _ m' w' he'' hm' =>
          rw [he] at he' he''; cases he'; cases he''
          obtain ⟨x, hi1⟩ := hi _ hm
          obtain ⟨y, hi2⟩ := hi _ hm'
          dsimp only at hi1 hi2
          subst hi1; subst hi2
          unfold keyWire at h
          rw [scalarWire_enum he hd hm, scalarWire_enum he hd hm'] at h
          have hxy : pyEq (.float x) (.float y) = true := by
            rcases F.key_float x with h1 | ⟨s, h1, hs⟩ <;> rcases F.key_float y with h' | ⟨s', h', hs'⟩ <;> rw [h1, h'] at h
            · exact h
            · simp [pyEq, Val.num] at h
            · simp [pyEq] at h
            · simp [pyEq] at h
              rw [h, hs'] at hs; cases hs
              exact pyEq_refl_enumVal (hd.vals _ hm)
          rw [enum_same hd hm hm' hxy]; exact .inr rfl
    | std =>
      cases hv with
      | std hs => cases hv' with
        | std hs' => exact hstr _ _ (by rw [scalarWire_std]; rw [hre]; rfl) (by rw [scalarWire_std]; rw [hre]; rfl)
    | dt =>
      cases hv with
      | dt hs => cases hv' with
        | dt hs' => exact hstr _ _ (by rw [scalarWire_dt]; rw [hre]; rfl) (by rw [scalarWire_dt]; rw [hre]; rfl)

end Verif
