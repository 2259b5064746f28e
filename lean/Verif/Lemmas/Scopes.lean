import Verif.Spec.Scopes
import Verif.Lemmas.CfgDe
/-!
# The state of generation only grows
-/

namespace Verif
open Spec

/-- `st'` has everything `st` has. -/
structure Grows (st st' : Gen) : Prop where
  scope : ∀ c s, st.scope c = some s → ∃ s', st'.scope c = some s' ∧ s'.reuse = s.reuse ∧ (s.se = true → s'.se = true) ∧
    (s.de = true → s'.de = true)
  strict : ∀ c, st.strict c = true → st'.strict c = true

theorem Grows.refl (st : Gen) : Grows st st := ⟨fun c s h => ⟨s, h, rfl, id, id⟩, fun _ h => h⟩

theorem Grows.trans {a b c : Gen} (h : Grows a b) (h' : Grows b c) : Grows a c := by
  refine ⟨fun x s hs => ?_, fun x hx => h'.strict x (h.strict x hx)⟩
  obtain ⟨s1, h1, r1, e1, d1⟩ := h.scope x s hs
  obtain ⟨s2, h2, r2, e2, d2⟩ := h'.scope x s1 h1
  exact ⟨s2, h2, r2.trans r1, fun k => e2 (e1 k), fun k => d2 (d1 k)⟩

theorem Grows.enter {st : Gen} {re sr c} : Grows st (st.enter re sr c) := by
  refine ⟨fun x s hs => ?_, fun x hx => by simp [Gen.enter, hx]⟩
  by_cases hx : x = c
  · subst hx
    exact ⟨s, by simp [Gen.enter, hs], rfl, id, id⟩
  · exact ⟨s, by simp [Gen.enter, hx, hs], rfl, id, id⟩

theorem Grows.put {st : Gen} {side c} : Grows st (st.put side c) := by
  refine ⟨fun x s hs => ?_, fun x hx => hx⟩
  by_cases hx : x = c
  · subst hx
    refine ⟨s.put side, by simp [Gen.put, hs], ?_, ?_, ?_⟩ <;> cases side <;> simp [GenScope.put]
  · exact ⟨s, by simp [Gen.put, hx, hs], rfl, id, id⟩

theorem Grows.genAll {env side sub c} (hsub : ∀ d st, Grows st (sub d st)) : ∀ ds st, Grows st (genAll env side sub c ds st)
  | [], st => .refl st
  | d :: ds, st => by
    unfold Verif.genAll
    refine Grows.trans ?_ (Grows.genAll hsub ds _)
    cases st.without env side d && d != c with
    | true => exact hsub d st
    | false => exact .refl st

theorem Grows.gen {env order side} : ∀ n stack re sr c st, Grows st (gen env order side n stack re sr c st)
  | 0, _, _, _, _, st => .refl st
  | n + 1, stack, re, sr, c, st => by
    unfold Verif.gen
    cases stack.contains c || (env.cls c).isNone with
    | true => exact .refl st
    | false => exact .trans .enter (.trans (Grows.genAll (fun d st => Grows.gen n _ _ _ d st) _ _) .put)

theorem Grows.meet {env order side c} {st : Gen} : Grows st (st.meet env order side c) := by
  unfold Gen.meet
  cases st.without env side c with
  | true => exact Grows.gen ..
  | false => exact .refl st

theorem Grows.step {env order} {st : Gen} : ∀ e, Grows st (st.step env order e)
  | .decorate c => by
    unfold Gen.step
    dsimp only
    cases env.cls c with
    | none => exact .refl st
    | some cd => exact .trans (Grows.gen ..) (Grows.gen ..)
  | .write c => Grows.meet
  | .read c => Grows.meet

theorem Grows.run {env order} : ∀ (h : List GenEvent) (st : Gen), Grows st (st.run env order h)
  | [], st => .refl st
  | e :: h, st => .trans (Grows.step e) (Grows.run h _)

/-! ## After decorating -/

theorem gen_has {env : Env} {order side n re sr c} {cd : ClassDef} (hc : env.cls c = some cd) (st : Gen) :
    ∃ s, (gen env order side (n + 1) [] re sr c st).scope c = some s ∧ s.has side = true ∧
      (sr = true → (gen env order side (n + 1) [] re sr c st).strict c = true) := by
  unfold gen
  simp only [List.contains_nil, hc, Option.isNone_some, Bool.or_self, Bool.false_eq_true, if_false]
  generalize hg : genAll env side _ c (order c) (st.enter re sr c) = st'
  have hgr : Grows (st.enter re sr c) st' := hg ▸ Grows.genAll (fun d st => Grows.gen ..) _ _
  obtain ⟨s, hs, -⟩ := hgr.scope c ((st.scope c).getD { reuse := re }) (by simp [Gen.enter])
  refine ⟨s.put side, by simp [Gen.put, hs], ?_, fun h => ?_⟩
  · cases side <;> rfl
  · exact hgr.strict c (by simp [Gen.enter, h])

/-- Everything there is to generate for class `c` has been generated. -/
structure Full (st : Gen) (c : ClassId) (cd : ClassDef) : Prop where
  scope : ∃ s, st.scope c = some s ∧ s.se = true ∧ s.de = true
  strict : cd.typeCheck = .strict → st.strict c = true

theorem Full.mono {st st' : Gen} {c cd} (h : Full st c cd) (hg : Grows st st') : Full st' c cd := by
  obtain ⟨s, hs, h1, h2⟩ := h.scope
  obtain ⟨s', hs', -, e, d⟩ := hg.scope c s hs
  exact ⟨⟨s', hs', e h1, d h2⟩, fun k => hg.strict c (h.strict k)⟩

theorem full_decorate {env : Env} {order} {st : Gen} {c cd} (hc : env.cls c = some cd) : Full (st.step env order (.decorate c)) c cd := by
  unfold Gen.step
  simp only [hc]
  generalize h1 : gen env order .se _ [] _ _ c st = st1
  obtain ⟨s, hs, hse, -⟩ := gen_has (order := order) (side := .se) (n := env.classes.length) (re := cd.reuseDflt)
    (sr := cd.typeCheck == TypeCheck.strict) hc st
  rw [h1] at hs
  obtain ⟨s', hs', hde, hst'⟩ := gen_has (order := order) (side := .de) (n := env.classes.length) (re := cd.reuseDflt)
    (sr := cd.typeCheck == TypeCheck.strict) hc st1
  obtain ⟨s2, hs2, -, he, -⟩ := (Grows.gen (env := env) (order := order) (side := .de) (env.classes.length + 1) [] cd.reuseDflt
    (cd.typeCheck == .strict) c st1).scope c s hs
  rw [hs'] at hs2
  cases hs2
  refine ⟨⟨s', hs', he ?_, hde⟩, fun k => hst' (by simp [k])⟩
  exact hse

theorem full_run {env : Env} {order} {c cd} (hc : env.cls c = some cd) :
    ∀ {h : List GenEvent} {st : Gen}, .decorate c ∈ h → Full (st.run env order h) c cd
  | e :: h, st, hm => by
    rcases List.mem_cons.1 hm with he | hm
    · subst he
      exact (full_decorate hc).mono (Grows.run h _)
    · exact full_run hc (h := h) (st := st.step env order e) hm

/-! ## Nothing left to generate -/

theorem without_full {env : Env} (hself : SelfFirst env) {st : Gen} {side c cd} (hc : env.cls c = some cd) (hf : Full st c cd) :
    st.without env side c = false := by
  obtain ⟨bs, hb⟩ := hself c cd hc
  obtain ⟨s, hs, h1, h2⟩ := hf.scope
  unfold Gen.without Gen.get
  simp only [hc, hb, List.findSome?_cons, hs]
  cases side <;> simp [GenScope.has, h1, h2]

theorem gen_none {env : Env} {order side n stack re sr c st} (hc : env.cls c = Option.none) : gen env order side n stack re sr c st = st := by
  cases n with
  | zero => rfl
  | succ n => unfold gen; simp [hc]

theorem genAll_full {env : Env} (hself : SelfFirst env) {order : ClassId → List ClassId} {side n stack re sr c} {st : Gen}
    (hf : ∀ c cd, env.cls c = some cd → Full st c cd) :
    ∀ ds, genAll env side (gen env order side n stack re sr) c ds st = st
  | [] => rfl
  | d :: ds => by
    unfold genAll
    have : (if st.without env side d && d != c then gen env order side n stack re sr d st else st) = st := by
      cases hd : env.cls d with
      | none => rw [gen_none hd, ite_self]
      | some cd => rw [without_full hself hd (hf d cd hd)]; rfl
    rw [this]
    exact genAll_full hself hf ds

theorem enter_full {st : Gen} {c} {s : GenScope} {re sr} (hs : st.scope c = some s) (hst : sr = true → st.strict c = true) :
    st.enter re sr c = st := by
  unfold Gen.enter
  cases st with
  | mk scope strict =>
    dsimp only at hs hst ⊢
    congr
    · funext d
      by_cases hd : d = c
      · subst hd; simp [hs]
      · simp [hd]
    · funext d
      cases hsd : strict d with
      | true => rfl
      | false =>
        cases sr with
        | false => rfl
        | true =>
          have : d ≠ c := by intro h; subst h; rw [hst rfl] at hsd; cases hsd
          simp [this]

theorem put_full {st : Gen} {side c} {s : GenScope} (hs : st.scope c = some s) (hh : s.has side = true) : st.put side c = st := by
  have hp : s.put side = s := by
    cases s
    cases side
    · simp only [GenScope.has] at hh; simp [GenScope.put, hh]
    · simp only [GenScope.has] at hh; simp [GenScope.put, hh]
  unfold Gen.put
  cases st with
  | mk scope strict =>
    dsimp only at hs ⊢
    congr
    funext d
    by_cases hd : d = c
    · subst hd; simp [hs, hp]
    · simp [hd]

theorem gen_full {env : Env} (hself : SelfFirst env) {order : ClassId → List ClassId} {side n stack re sr c} {st : Gen}
    (hf : ∀ c cd, env.cls c = some cd → Full st c cd) (hst : ∀ cd, env.cls c = some cd → sr = true → cd.typeCheck = .strict) :
    gen env order side n stack re sr c st = st := by
  cases n with
  | zero => rfl
  | succ n =>
    unfold gen
    cases hc : env.cls c with
    | none => simp
    | some cd =>
      obtain ⟨s, hs, h1, h2⟩ := (hf c cd hc).scope
      rw [enter_full hs (fun h => (hf c cd hc).strict (hst cd hc h)), genAll_full hself hf,
        put_full hs (by cases side <;> simp [GenScope.has, h1, h2]), ite_self]

theorem meet_full {env : Env} (hself : SelfFirst env) {order : ClassId → List ClassId} {side c} {st : Gen}
    (hf : ∀ c cd, env.cls c = some cd → Full st c cd) : st.meet env order side c = st := by
  unfold Gen.meet
  cases hc : env.cls c with
  | none => rw [gen_none hc, ite_self]
  | some cd => rw [without_full hself hc (hf c cd hc)]; rfl

theorem step_full {env : Env} (hself : SelfFirst env) {order : ClassId → List ClassId} {st : Gen}
    (hf : ∀ c cd, env.cls c = some cd → Full st c cd) : ∀ e, st.step env order e = st
  | .decorate c => by
    unfold Gen.step
    dsimp only
    cases hc : env.cls c with
    | none => rfl
    | some cd =>
      have hst : ∀ cd', env.cls c = some cd' → (cd.typeCheck == .strict) = true → cd'.typeCheck = .strict := by
        intro cd' h k
        rw [hc] at h
        cases h
        cases hk : cd.typeCheck <;> simp [hk] at k ⊢
      dsimp only
      rw [gen_full hself (side := .se) hf hst, gen_full hself (side := .de) hf hst]
  | .write c => meet_full hself hf
  | .read c => meet_full hself hf

theorem run_full {env : Env} (hself : SelfFirst env) {order : ClassId → List ClassId} {st : Gen}
    (hf : ∀ c cd, env.cls c = some cd → Full st c cd) : ∀ h, st.run env order h = st
  | [] => rfl
  | e :: h => by
    have : Gen.run env order st (e :: h) = Gen.run env order (st.step env order e) h := rfl
    rw [this, step_full hself hf e, run_full hself hf h]

/-! ## The class tables in two states -/

theorem lookup_mapSnd {α : Type} {f : String → α → α} {c : String} : ∀ (l : List (String × α)),
    (l.map (fun p => (p.1, f p.1 p.2))).lookup c = (l.lookup c).map (f c)
  | [] => rfl
  | (k, a) :: l => by
    rw [List.map_cons, List.lookup_cons, List.lookup_cons]
    by_cases hk : c = k
    · subst hk; simp
    · have : (c == k) = false := by simp [hk]
      simp only [this]
      exact lookup_mapSnd l

theorem gen_env_cls {env : Env} {st : Gen} {side c} : (st.env env side).cls c = (env.cls c).map (st.classDef env side c) := by
  unfold Gen.env Env.cls
  exact lookup_mapSnd _

theorem classDef_self {env : Env} {st : Gen} {side c cd} (hc : env.cls c = some cd) (ho : st.owner env c = c) :
    st.classDef env side c cd = { cd with reuseDflt := ((st.scope c).map (·.reuse)).getD side.reuseDflt
                                          typeCheck := if cd.typeCheck = .coerce then .coerce else if st.strict c then .strict else .disabled } := by
  unfold Gen.classDef
  simp only [ho, hc, Option.getD_some]

theorem owner_noBases {env : Env} (hb : NoBases env) {st : Gen} {c} : st.owner env c = c := by
  unfold Gen.owner
  cases hc : env.cls c with
  | none => rfl
  | some cd =>
    dsimp only
    rw [hb c cd hc, List.find?_cons]
    cases (st.scope c).isSome <;> rfl

theorem cfgSim_states {env : Env} (hb : NoBases env) {st st' : Gen} {side : Side} : CfgSim (st.env env side) (st'.env env side) := by
  refine ⟨rfl, rfl, rfl, rfl, rfl, by simp [Gen.env], fun c => ?_⟩
  rw [gen_env_cls, gen_env_cls]
  cases hc : env.cls c with
  | none => exact ⟨false, .strict, rfl⟩
  | some cd =>
    rw [Option.map_some, Option.map_some, classDef_self hc (owner_noBases hb), classDef_self hc (owner_noBases hb)]
    exact ⟨_, _, rfl⟩

theorem skipRule_cfgs {f : FieldDef} {cd : ClassDef} {ru tc} : f.skipRule { cd with reuseDflt := ru, typeCheck := tc } = f.skipRule cd := rfl

theorem cfgSe_states {env : Env} (hb : NoBases env) (hd : NoInstDefaults env) {st st' : Gen} :
    CfgSe False (st.env env .se) (st'.env env .se) := by
  refine ⟨cfgSim_states hb, ?_, False.elim, .inr ?_⟩
  · intro c cd cd' h h'
    rw [gen_env_cls] at h h'
    cases hc : env.cls c with
    | none => rw [hc] at h; cases h
    | some cd0 =>
      rw [hc, Option.map_some, classDef_self hc (owner_noBases hb)] at h h'
      cases h
      cases h'
      dsimp only
      cases cd0.typeCheck <;> cases st.strict c <;> cases st'.strict c <;> rfl
  · intro c cd h f hf
    rw [gen_env_cls] at h
    cases hc : env.cls c with
    | none => rw [hc] at h; cases h
    | some cd0 =>
      rw [hc, Option.map_some, classDef_self hc (owner_noBases hb)] at h
      cases h
      intro d as
      rw [skipRule_cfgs]
      exact hd c cd0 hc f hf d as

theorem cfgDe_states {env : Env} (hb : NoBases env) {st st' : Gen} (hs : ∀ c, st'.strict c = st.strict c) :
    CfgDe False (st.env env .de) (st'.env env .de) := by
  refine ⟨cfgSim_states hb, ?_, False.elim⟩
  intro c cd cd' h h'
  rw [gen_env_cls] at h h'
  cases hc : env.cls c with
  | none => rw [hc] at h; cases h
  | some cd0 =>
    rw [hc, Option.map_some, classDef_self hc (owner_noBases hb)] at h h'
    cases h
    cases h'
    dsimp only
    rw [hs]

/-! ## Everything decorated where it is defined -/

/-- The state in which exactly the classes `done` have been decorated. -/
structure DecoInv (env : Env) (done : List ClassId) (st : Gen) : Prop where
  dn : ∀ c cd, env.cls c = some cd → c ∈ done → st.scope c = some ⟨cd.reuseDflt, true, true⟩ ∧ st.strict c = (cd.typeCheck == .strict)
  not : ∀ c, c ∉ done → st.scope c = Option.none ∧ st.strict c = false

theorem DecoInv.full {env : Env} {done st} (h : DecoInv env done st) {c cd} (hc : env.cls c = some cd) (hd : c ∈ done) : Full st c cd :=
  ⟨⟨_, (h.dn c cd hc hd).1, rfl, rfl⟩, fun k => by rw [(h.dn c cd hc hd).2, k]; rfl⟩

theorem genAll_done {env : Env} (hself : SelfFirst env) {order : ClassId → List ClassId} {side n stack re sr c} {st : Gen} :
    ∀ ds, (∀ d ∈ ds, d = c ∨ ∀ cd, env.cls d = some cd → Full st d cd) →
      genAll env side (gen env order side n stack re sr) c ds st = st
  | [], _ => rfl
  | d :: ds, hds => by
    unfold genAll
    have : (if st.without env side d && d != c then gen env order side n stack re sr d st else st) = st := by
      rcases hds d (by simp) with hd | hd
      · subst hd; simp
      · cases hc : env.cls d with
        | none => rw [gen_none hc, ite_self]
        | some cd => rw [without_full hself hc (hd cd hc)]; rfl
    rw [this]
    exact genAll_done hself ds (fun d hd => hds d (by simp [hd]))

theorem full_enter {st : Gen} {c d : ClassId} {cd : ClassDef} {re sr} (h : Full st d cd) : Full (st.enter re sr c) d cd :=
  h.mono .enter

theorem gen_deco {env : Env} (hself : SelfFirst env) {order : ClassId → List ClassId} {side n re sr c} {cd : ClassDef} {st : Gen}
    (hc : env.cls c = some cd) (hds : ∀ d ∈ order c, d = c ∨ ∀ cd, env.cls d = some cd → Full st d cd) :
    gen env order side (n + 1) [] re sr c st = (st.enter re sr c).put side c := by
  unfold gen
  simp only [List.contains_nil, hc, Option.isNone_some, Bool.or_self, Bool.false_eq_true, if_false]
  rw [genAll_done hself]
  intro d hd
  rcases hds d hd with h | h
  · exact .inl h
  · exact .inr (fun cd hcd => full_enter (h cd hcd))

theorem deco_inv_iff {env : Env} (hself : SelfFirst env) {order : ClassId → List ClassId} :
    ∀ {h : List GenEvent} {done : List ClassId} {st : Gen}, DecoInv env done st → Ordered order done h →
      (∀ c, .decorate c ∈ h → (env.cls c).isSome) →
      ∃ done', DecoInv env done' (st.run env order h) ∧ (∀ c ∈ done, c ∈ done') ∧ (∀ c, .decorate c ∈ h → c ∈ done') ∧ ∀ c ∈ done', c ∈ done ∨ .decorate c ∈ h
  | [], done, st, hi, _, _ => ⟨done, hi, fun _ h => h, fun c h => by (cases h), fun _ h => .inl h⟩
  | .decorate c :: h, done, st, hi, ho, hk => by
    obtain ⟨hds, ho⟩ := ho
    obtain ⟨cd, hc⟩ := Option.isSome_iff_exists.1 (hk c (by simp))
    have hi' : DecoInv env (c :: done) (st.step env order (.decorate c)) := by
      have hfull : ∀ d ∈ order c, d = c ∨ ∀ cd, env.cls d = some cd → Full st d cd := by
        intro d hd
        rcases hds d hd with h | h
        · exact .inl h
        · exact .inr (fun cd hcd => hi.full hcd h)
      unfold Gen.step
      simp only [hc]
      rw [gen_deco hself hc hfull]
      rw [gen_deco hself hc]
      · by_cases hd : c ∈ done
        · -- decorated a second time
          obtain ⟨hsc, hst⟩ := hi.dn c cd hc hd
          have e1 : st.enter cd.reuseDflt (cd.typeCheck == .strict) c = st := enter_full hsc (fun k => by rw [hst, k])
          rw [e1, put_full hsc rfl, e1, put_full hsc rfl]
          refine ⟨fun x xd hx hm => ?_, fun x hm => hi.not x (fun k => hm (by simp [k]))⟩
          rcases List.mem_cons.1 hm with hm | hm
          · subst hm; exact hi.dn x xd hx hd
          · exact hi.dn x xd hx hm
        · obtain ⟨hsc, hst⟩ := hi.not c hd
          refine ⟨fun x xd hx hm => ?_, fun x hm => ?_⟩
          · by_cases hxc : x = c
            · subst hxc
              rw [hc] at hx
              cases hx
              simp [Gen.enter, Gen.put, hsc, hst, GenScope.put]
            · have hm : x ∈ done := (List.mem_cons.1 hm).resolve_left hxc
              have := hi.dn x xd hx hm
              simp [Gen.enter, Gen.put, hxc, this]
          · have hxc : x ≠ c := fun k => hm (by simp [k])
            have := hi.not x (fun k => hm (by simp [k]))
            simp [Gen.enter, Gen.put, hxc, this]
      · intro d hd
        rcases hfull d hd with h | h
        · exact .inl h
        · exact .inr (fun cd hcd => (full_enter (h cd hcd)).mono .put)
    obtain ⟨done', hinv, hsub, hdec, honly⟩ := deco_inv_iff hself (h := h) hi' ho (fun c hm => hk c (by simp [hm]))
    refine ⟨done', hinv, fun x hx => hsub x (by simp [hx]), fun x hx => ?_, fun x hx => ?_⟩
    · rcases List.mem_cons.1 hx with hx | hx
      · cases hx; exact hsub c (by simp)
      · exact hdec x hx
    · rcases honly x hx with h | h
      · rcases List.mem_cons.1 h with rfl | h
        · exact .inr (by simp)
        · exact .inl h
      · exact .inr (by simp [h])
  | .write c :: h, done, st, hi, ho, hk => by
    have hst : st.step env order (.write c) = st := by
      show st.meet env order .se c = st
      unfold Gen.meet
      cases hc : env.cls c with
      | none => rw [gen_none hc, ite_self]
      | some cd => rw [without_full hself hc (hi.full hc ho.1)]; rfl
    obtain ⟨done', hinv, hsub, hdec, honly⟩ := deco_inv_iff hself (h := h) hi ho.2 (fun c hm => hk c (by simp [hm]))
    refine ⟨done', ?_, hsub, fun x hx => ?_, fun x hx => (honly x hx).imp_right (by simp)⟩
    · show DecoInv env done' (Gen.run env order (st.step env order (.write c)) h)
      rw [hst]
      exact hinv
    · rcases List.mem_cons.1 hx with hx | hx
      · cases hx
      · exact hdec x hx
  | .read c :: h, done, st, hi, ho, hk => by
    have hst : st.step env order (.read c) = st := by
      show st.meet env order .de c = st
      unfold Gen.meet
      cases hc : env.cls c with
      | none => rw [gen_none hc, ite_self]
      | some cd => rw [without_full hself hc (hi.full hc ho.1)]; rfl
    obtain ⟨done', hinv, hsub, hdec, honly⟩ := deco_inv_iff hself (h := h) hi ho.2 (fun c hm => hk c (by simp [hm]))
    refine ⟨done', ?_, hsub, fun x hx => ?_, fun x hx => (honly x hx).imp_right (by simp)⟩
    · show DecoInv env done' (Gen.run env order (st.step env order (.read c)) h)
      rw [hst]
      exact hinv
    · rcases List.mem_cons.1 hx with hx | hx
      · cases hx
      · exact hdec x hx

theorem deco_inv {env : Env} (hself : SelfFirst env) {order : ClassId → List ClassId} {h : List GenEvent} {done : List ClassId} {st : Gen} (hi : DecoInv env done st)
    (ho : Ordered order done h) (hk : ∀ c, .decorate c ∈ h → (env.cls c).isSome) :
    ∃ done', DecoInv env done' (st.run env order h) ∧ (∀ c ∈ done, c ∈ done') ∧ ∀ c, .decorate c ∈ h → c ∈ done' := by
  obtain ⟨done', h1, h2, h3, _⟩ := deco_inv_iff hself hi ho hk
  exact ⟨done', h1, h2, h3⟩

theorem decoInv_init {env : Env} : DecoInv env [] {} := ⟨fun c cd _ h => by (cases h), fun _ _ => ⟨rfl, rfl⟩⟩

theorem owner_self {env : Env} (hself : SelfFirst env) {st : Gen} {c} (hs : (st.scope c).isSome) : st.owner env c = c := by
  unfold Gen.owner
  cases hc : env.cls c with
  | none => rfl
  | some cd =>
    obtain ⟨bs, hb⟩ := hself c cd hc
    dsimp only
    rw [hb, List.find?_cons, hs]
    rfl

theorem decoInv_env {env : Env} (hself : SelfFirst env) {done : List ClassId} {st : Gen} (hi : DecoInv env done st)
    (hall : ∀ c cd, env.cls c = some cd → c ∈ done) {side : Side} {c : ClassId} : (st.env env side).cls c = env.cls c := by
  rw [gen_env_cls]
  cases hc : env.cls c with
  | none => rfl
  | some cd =>
    obtain ⟨hs, hst⟩ := hi.dn c cd hc (hall c cd hc)
    rw [Option.map_some, classDef_self hc (owner_self hself (by rw [hs]; rfl)), hs, hst]
    dsimp only [Option.map_some, Option.getD_some]
    congr
    cases h : cd.typeCheck <;> simp

theorem cfg_same {env env' : Env} (hW : env'.W = env.W) (hP : env'.P = env.P) (he : env'.enums = env.enums) (hs : env'.gser = env.gser)
    (hd : env'.gde = env.gde) (hl : env'.classes.length = env.classes.length) (hc : ∀ c, env'.cls c = env.cls c) :
    CfgSe True env env' ∧ CfgDe True env env' := by
  have hsim : CfgSim env env' := by
    refine ⟨hW, hP, he, hs, hd, hl, fun c => ?_⟩
    rw [hc]
    cases env.cls c with
    | none => exact ⟨false, .strict, rfl⟩
    | some cd => exact ⟨cd.reuseDflt, cd.typeCheck, rfl⟩
  have key : ∀ c cd cd', env.cls c = some cd → env'.cls c = some cd' → cd' = cd := by
    intro c cd cd' h h'
    rw [hc, h] at h'
    cases h'
    rfl
  exact ⟨⟨hsim, fun c cd cd' h h' => by rw [key c cd cd' h h'], fun _ c cd cd' h h' => by rw [key c cd cd' h h'], .inl trivial⟩,
    ⟨hsim, fun c cd cd' h h' => by rw [key c cd cd' h h'], fun _ c cd cd' h h' => by rw [key c cd cd' h h']⟩⟩

theorem decoInv_cfg {env : Env} (hself : SelfFirst env) {done : List ClassId} {st : Gen} (hi : DecoInv env done st)
    (hall : ∀ c cd, env.cls c = some cd → c ∈ done) {side : Side} : CfgSe True env (st.env env side) ∧ CfgDe True env (st.env env side) :=
  cfg_same rfl rfl rfl rfl rfl (by simp [Gen.env]) (fun _ => decoInv_env hself hi hall)

/-! ## Everything used -/

/-- Both functions of class `c` are there. -/
def HasBoth (st : Gen) (c : ClassId) : Prop := ∃ s, st.scope c = some s ∧ s.se = true ∧ s.de = true

theorem has_meet {env : Env} (hb : NoBases env) {order side c} {cd : ClassDef} (hc : env.cls c = some cd) (st : Gen) :
    ∃ s, (st.meet env order side c).scope c = some s ∧ s.has side = true := by
  unfold Gen.meet
  cases hw : st.without env side c with
  | true =>
    obtain ⟨s, hs, hh, -⟩ := gen_has (order := order) (side := side) (n := env.classes.length) (re := side.reuseDflt) (sr := false) hc st
    exact ⟨s, hs, hh⟩
  | false =>
    unfold Gen.without Gen.get at hw
    simp only [hc, hb c cd hc, List.findSome?_cons, List.findSome?_nil] at hw
    cases hs : st.scope c with
    | none => rw [hs] at hw; cases hw
    | some s =>
      rw [hs] at hw
      exact ⟨s, hs, by simpa using hw⟩

theorem has_mono {st st' : Gen} (hg : Grows st st') {side c s} (hs : st.scope c = some s) (hh : s.has side = true) :
    ∃ s', st'.scope c = some s' ∧ s'.has side = true := by
  obtain ⟨s', hs', -, e, d⟩ := hg.scope c s hs
  refine ⟨s', hs', ?_⟩
  cases side
  · exact e hh
  · exact d hh

theorem has_run {env : Env} (hb : NoBases env) {order c} {cd : ClassDef} (hc : env.cls c = some cd) :
    ∀ {h : List GenEvent} {st : Gen},
      (.write c ∈ h → ∃ s, (st.run env order h).scope c = some s ∧ s.has .se = true) ∧
      (.read c ∈ h → ∃ s, (st.run env order h).scope c = some s ∧ s.has .de = true)
  | [], st => ⟨fun h => by (cases h), fun h => by (cases h)⟩
  | e :: h, st => by
    have ih := has_run hb (order := order) hc (h := h) (st := st.step env order e)
    refine ⟨fun hm => ?_, fun hm => ?_⟩
    · rcases List.mem_cons.1 hm with he | hm
      · subst he
        obtain ⟨s, hs, hh⟩ := has_meet hb (order := order) (side := .se) hc st
        exact has_mono (Grows.run h _) hs hh
      · exact ih.1 hm
    · rcases List.mem_cons.1 hm with he | hm
      · subst he
        obtain ⟨s, hs, hh⟩ := has_meet hb (order := order) (side := .de) hc st
        exact has_mono (Grows.run h _) hs hh
      · exact ih.2 hm

theorem hasBoth_used {env : Env} (hb : NoBases env) {order h} {st : Gen} (hu : AllUsed env h) {c cd} (hc : env.cls c = some cd) :
    HasBoth (st.run env order h) c := by
  obtain ⟨s, hs, h1⟩ := (has_run hb (order := order) hc (h := h) (st := st)).1 (hu c cd hc).1
  obtain ⟨s', hs', h2⟩ := (has_run hb (order := order) hc (h := h) (st := st)).2 (hu c cd hc).2
  rw [hs] at hs'
  cases hs'
  exact ⟨s, hs, h1, h2⟩

theorem meet_used {env : Env} (hb : NoBases env) {order side c} {st : Gen} (hall : ∀ c cd, env.cls c = some cd → HasBoth st c) :
    st.meet env order side c = st := by
  unfold Gen.meet
  cases hc : env.cls c with
  | none => rw [gen_none hc, ite_self]
  | some cd =>
    obtain ⟨s, hs, h1, h2⟩ := hall c cd hc
    have : st.without env side c = false := by
      unfold Gen.without Gen.get
      simp only [hc, hb c cd hc, List.findSome?_cons, hs]
      cases side <;> simp [GenScope.has, h1, h2]
    rw [this]
    rfl

theorem run_used {env : Env} (hb : NoBases env) {order} {st : Gen} (hall : ∀ c cd, env.cls c = some cd → HasBoth st c) :
    ∀ (h : List GenEvent), (∀ e ∈ h, GenEvent.IsCall e) → st.run env order h = st
  | [], _ => rfl
  | .decorate c :: h, hh => (hh (.decorate c) (by simp)).elim
  | .write c :: h, hh => by
    show Gen.run env order (st.meet env order .se c) h = st
    rw [meet_used hb hall, run_used hb hall h (fun e he => hh e (by simp [he]))]
  | .read c :: h, hh => by
    show Gen.run env order (st.meet env order .de c) h = st
    rw [meet_used hb hall, run_used hb hall h (fun e he => hh e (by simp [he]))]

theorem run_append {env : Env} {order} {st : Gen} {h h' : List GenEvent} : st.run env order (h ++ h') = (st.run env order h).run env order h' :=
  List.foldl_append

end Verif
