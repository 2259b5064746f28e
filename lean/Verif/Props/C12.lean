import Verif.Props.C05
import Verif.Lemmas.RTCont
import Verif.Lemmas.Truth
/-!
# C12, C13, C14: skip rules
-/

namespace Verif.Props
open Spec

/-- Erase the skip rules of the field called `nm`. -/
def withoutRulesOf (nm : String) (g : FieldDef) : FieldDef := if g.name = nm then withoutRules g else g

/-- The predicate of the field's skip rule, applied to the serialized value `w`, gives `b`.
`skip_if_default` compares with the default, or with its `to_dict` form if the default is a dataclass instance, or with its
`dataclasses.asdict` form if that raises. -/
inductive RuleGives (env : Env) (cd : ClassDef) (f : FieldDef) (w : Val) : Bool → Prop
  | user {p b} : f.skipIf = some p → p w = .ok b → RuleGives env cd f w b
  | ifFalse {b} : f.skipIf = none → f.skipIfFalse = true → (b = true ↔ IsFalse env w) → RuleGives env cd f w b
  | ifDefault {d} : f.skipIf = none → f.skipIfFalse = false → skipsDefault cd f = true → f.dflt = some d →
      (∀ c attrs, d ≠ .inst c attrs) → RuleGives env cd f w (pyEq w d)
  | ifDefaultObj {c attrs s n} : f.skipIf = none → f.skipIfFalse = false → skipsDefault cd f = true → f.dflt = some (.inst c attrs) →
      toDict env {} n (.inst c attrs) = .ok s → RuleGives env cd f w (pyEq w s)
  | ifDefaultRaw {c attrs e n} : f.skipIf = none → f.skipIfFalse = false → skipsDefault cd f = true → f.dflt = some (.inst c attrs) →
      toDict env {} n (.inst c attrs) = .error e → e ≠ .fuel → RuleGives env cd f w (pyEq w (asdict (.inst c attrs)))
  | noDefault : f.skipIf = none → f.skipIfFalse = false → skipsDefault cd f = true → f.dflt = none → RuleGives env cd f w false
  | ifNone : f.skipIf = none → f.skipIfFalse = false → skipsDefault cd f = false → skipsNone cd f = true →
      RuleGives env cd f w (match w with | .none => true | _ => false)

theorem skipsDefault_eq (cd : ClassDef) (f : FieldDef) : f.skipIfDefault.getD cd.skipIfDefaultDflt = skipsDefault cd f := by
  unfold skipsDefault; cases f.skipIfDefault <;> rfl

theorem skipsNone_eq (cd : ClassDef) (f : FieldDef) : f.skipIfNone.getD cd.skipIfNoneDflt = skipsNone cd f := by
  unfold skipsNone; cases f.skipIfNone <;> rfl

/-- The model agrees with the rule, given enough fuel. -/
theorem skips_rule {env : Env} {cd : ClassDef} {f : FieldDef} {w b} (h : RuleGives env cd f w b) :
    ∃ N, ∀ m, N ≤ m → ∀ cx, skips env (seAt env m) cx (f.skipRule cd) w = .ok b := by
  unfold FieldDef.skipRule
  rw [skipsDefault_eq, skipsNone_eq]
  cases h with
  | user h1 h2 => refine ⟨0, fun m _ cx => ?_⟩; rw [h1]; simp [skips, liftP, h2]
  | ifFalse h1 h2 h3 =>
    refine ⟨0, fun m _ cx => ?_⟩
    rw [h1, h2]
    show Except.ok (!truthy env w) = _
    rw [← truthy_false_iff] at h3
    cases b <;> cases ht : truthy env w <;> simp_all
  | @ifDefault d h1 h2 h3 h4 h5 =>
    refine ⟨0, fun m _ cx => ?_⟩
    rw [h1, h2, h3, h4]
    cases d <;> first | rfl | exact absurd rfl (h5 _ _)
  | @ifDefaultObj c attrs s n h1 h2 h3 h4 h5 =>
    refine ⟨n, fun m hm cx => ?_⟩
    rw [h1, h2, h3, h4]
    have := toDict_mono hm h5
    unfold toDict at this
    simp only [Bool.false_eq_true, if_false, if_true, skips]
    rw [this]
  | @ifDefaultRaw c attrs e n h1 h2 h3 h4 h5 h6 =>
    refine ⟨n, fun m hm cx => ?_⟩
    rw [h1, h2, h3, h4]
    have := ((seAt_mono env hm).toObj true none none false none .external (.inst c attrs)).err h5 h6
    simp only [Bool.false_eq_true, if_false, if_true, skips]
    rw [this]
    cases e <;> first | rfl | exact absurd rfl h6
  | noDefault h1 h2 h3 h4 => refine ⟨0, fun m _ cx => ?_⟩; rw [h1, h2, h3, h4]; rfl
  | ifNone h1 h2 h3 h4 => refine ⟨0, fun m _ cx => ?_⟩; rw [h1, h2, h3, h4]; cases w <;> rfl

theorem conv_withoutRulesOf (nm : String) (g : FieldDef) (case) : (withoutRulesOf nm g).conv case = g.conv case := by
  unfold withoutRulesOf; split <;> rfl

theorem seFieldArg_withoutRulesOf (nm : String) (g : FieldDef) (c c' attrs) :
    seFieldArg (withoutRulesOf nm g) (.ok (.inst c' attrs)) = seFieldArg g (.ok (.inst c attrs)) := by
  unfold withoutRulesOf; split <;> rfl

theorem mapR_mem {α β : Type} {f : α → Res β} {as : List α} {bs b} (h : mapR f as = .ok bs) (hb : b ∈ bs) : ∃ a ∈ as, f a = .ok b := by
  induction as generalizing bs with
  | nil => cases h; cases hb
  | cons a as ih =>
    simp only [mapR] at h
    split at h
    · cases h
    · rename_i b' hb'
      split at h
      · cases h
      · rename_i bs' hbs
        cases h
        rcases List.mem_cons.1 hb with rfl | hb
        · exact ⟨a, by simp, hb'⟩
        · obtain ⟨x, hx, he⟩ := ih hbs hb
          exact ⟨x, by simp [hx], he⟩

/-- Entries other than the one called `k`, if `b`. -/
def dropKey (b : Bool) (k : String) (kvs : List (Val × Val)) : List (Val × Val) := kvs.filter (fun e => !(b && pyEq e.1 (.str k)))

/-- **C12** Compare the class with its copy `c'` in which the field has no skip rule, where it is written as `w`. If the predicate gives
true on `w` the class writes the same dict without that entry, otherwise exactly the same dict; the other fields are unaffected.
The predicate sees the serialized value (see `Findings.Skip.C12_false_on_raw_value` for what this means for the raw value). -/
theorem C12_skip_rule_partial {env : Env} {so : SeOpts} {n c c'} {cd : ClassDef} {f : FieldDef} {attrs kvs w b} (hc : env.cls c = some cd)
    (hc' : env.cls c' = some { cd with fields := cd.fields.map (withoutRulesOf f.name) }) (ht : SameTables env c c')
    (htr : cd.transparent = false) (hfl : ∀ f ∈ cd.fields, f.flatten = false) (hren : ∀ f ∈ cd.fields, RenameOk f)
    (hu : NotUnion so.c) (hg : NoGlobal env c) (hg' : NoGlobal env c')
    (hn : (cd.fields.map (·.name)).Nodup) (hw : ((cd.fields.filter serializable).map (fun f => wireName f.rename cd.seCase f.name)).Nodup)
    (hf : f ∈ cd.fields) (hfs : serializable f = true)
    (h : toDict env so n (.inst c' attrs) = .ok (.dict .plain kvs))
    (hmem : (.str (wireName f.rename cd.seCase f.name), w) ∈ kvs) (hrule : RuleGives env cd f w b) :
    Ev (fun n => toDict env so n (.inst c attrs) = .ok (.dict .plain (dropKey b (wireName f.rename cd.seCase f.name) kvs))) := by
  have hsub : ∀ f ∈ cd.seFieldsOf, f ∈ cd.fields := by rw [seFieldsOf_eq]; intro f hf; exact (List.mem_filter.1 hf).1
  have hconv : ∀ f ∈ cd.seFieldsOf, f.conv cd.seCase = wireName f.rename cd.seCase f.name := fun f hf => conv_eq_wireName (hren f (hsub f hf)) _
  have hw' : (cd.seFieldsOf.map (fun f => f.conv cd.seCase)).Nodup := by
    rw [List.map_congr_left hconv, seFieldsOf_eq]; exact hw
  have hff : f ∈ cd.seFieldsOf := by rw [seFieldsOf_eq]; exact List.mem_filter.2 ⟨hf, hfs⟩
  rw [← hconv f hff] at hmem ⊢
  have hs : ({ cd with fields := cd.fields.map (withoutRulesOf f.name) } : ClassDef).seFieldsOf = cd.seFieldsOf.map (withoutRulesOf f.name) := by
    unfold ClassDef.seFieldsOf
    rw [List.filter_map]
    congr 1
    refine List.filter_congr (fun g _ => ?_)
    unfold withoutRulesOf
    simp only [Function.comp]
    split <;> rfl
  have hcx : topSeCx env c' { cd with fields := cd.fields.map (withoutRulesOf f.name) } true so = topSeCx env c cd true so := by
    unfold topSeCx clsSeCx; dsimp only; rw [ht.unions]
  obtain ⟨N, hN⟩ := skips_rule hrule
  refine ⟨max n N + 3, fun k hk => ?_⟩
  obtain ⟨m, rfl⟩ : ∃ m, k = m + 3 := ⟨k - 3, by omega⟩
  have h1 : toDict env so (m + 3) (.inst c' attrs) = .ok (.dict .plain kvs) := toDict_mono (by omega) h
  obtain ⟨os, hos, he⟩ := (toDict_emit hc' htr (by
      rw [hs]
      intro g hg
      obtain ⟨g', hg', rfl⟩ := List.mem_map.1 hg
      unfold withoutRulesOf
      split <;> exact hfl g' (hsub g' hg')) hu hg'.ser (by
      rw [hs, List.map_map]
      have : (fun g => FieldDef.conv g cd.seCase) ∘ withoutRulesOf f.name = fun g => g.conv cd.seCase := by
        funext g; exact conv_withoutRulesOf _ _ _
      dsimp only
      rw [this]; exact hw')).1 h1
  injection he with _ he
  subst he
  rw [hs, hcx] at hos
  refine (toDict_emit hc htr (fun g hg => hfl g (hsub g hg)) hu hg.ser hw').2 ?_
  -- the entry of `f` in the copy is `w`
  have hskip : ∀ cx, skips env (seAt env (m + 1)) cx (f.skipRule cd) w = .ok b := fun cx => hN _ (by omega) cx
  have hfe : emitAt env m (topSeCx env c cd true so) { cd with fields := cd.fields.map (withoutRulesOf f.name) } (.inst c' attrs) (withoutRulesOf f.name f) =
      .ok (some (.str (f.conv cd.seCase), w)) := by
    obtain ⟨o, ho, hoe⟩ := List.mem_filterMap.1 hmem
    dsimp only [id] at hoe
    subst hoe
    obtain ⟨g', hg', he⟩ := mapR_mem hos ho
    obtain ⟨g, hgm, rfl⟩ := List.mem_map.1 hg'
    have hk := emitAt_key he
    rw [conv_withoutRulesOf] at hk
    have : g = f := inj_of_nodup_map hw' hgm hff (Val.str.inj hk).symm
    rw [← this]
    rw [← this] at he
    exact he
  have hwf : (seAt env m).render (topSeCx env c cd true so) (seFieldArg f (.ok (.inst c attrs))) = .ok w := by
    have := (emitAt_some hfe).1
    rw [seFieldArg_withoutRulesOf f.name f c c'] at this
    exact this
  have key : ∀ {fs : List FieldDef} {os}, (∀ g ∈ fs, g ∈ cd.seFieldsOf) →
      mapR (emitAt env m (topSeCx env c cd true so) { cd with fields := cd.fields.map (withoutRulesOf f.name) } (.inst c' attrs)) (fs.map (withoutRulesOf f.name)) = .ok os →
      ∃ os', mapR (emitAt env m (topSeCx env c cd true so) cd (.inst c attrs)) fs = .ok os' ∧ os'.filterMap id = dropKey b (f.conv cd.seCase) (os.filterMap id) := by
    intro fs
    induction fs with
    | nil => intro os _ h; cases h; exact ⟨[], rfl, rfl⟩
    | cons g fs ih =>
      intro os hsubs h
      simp only [List.map_cons, mapR] at h
      split at h
      · cases h
      · rename_i o ho
        split at h
        · cases h
        · rename_i os1 hos1
          cases h
          obtain ⟨os', hos', hfm⟩ := ih (fun g hg => hsubs g (by simp [hg])) hos1
          have hgm := hsubs g (by simp)
          by_cases hgf : g.name = f.name
          · have : g = f := inj_of_nodup_map hn (hsub g hgm) hf hgf
            subst this
            have hem : emitAt env m (topSeCx env c cd true so) cd (.inst c attrs) g = .ok (if b then none else some (.str (g.conv cd.seCase), w)) := by
              unfold emitAt
              rw [hwf]
              dsimp only
              rw [hskip]
              cases b <;> rfl
            refine ⟨(if b then none else some (.str (g.conv cd.seCase), w)) :: os', mapR_cons_ok hem hos', ?_⟩
            rw [hfe] at ho
            cases ho
            have hpe : pyEq (.str (g.conv cd.seCase)) (.str (g.conv cd.seCase)) = true := pyEq_str_right.2 rfl
            cases b with
            | true => simp [hfm, dropKey, hpe]
            | false => simp [hfm, dropKey]
          · have hwr : withoutRulesOf f.name g = g := by unfold withoutRulesOf; rw [if_neg hgf]
            rw [hwr] at ho
            have hem : emitAt env m (topSeCx env c cd true so) cd (.inst c attrs) g = .ok o := by
              rw [← ho]; rfl
            refine ⟨o :: os', mapR_cons_ok hem hos', ?_⟩
            cases o with
            | none => simpa using hfm
            | some e =>
              have hek := emitAt_key hem
              have hne : pyEq e.1 (.str (f.conv cd.seCase)) = false := by
                rw [Bool.eq_false_iff]
                intro hp
                rw [pyEq_str_right] at hp
                rw [hek] at hp
                exact hgf (by rw [inj_of_nodup_map hw' hgm hff (Val.str.inj hp)])
              simp [hfm, dropKey, hne]
  obtain ⟨os', h1, h2⟩ := key (fun g hg => hg) hos
  exact ⟨os', h1, by rw [h2]⟩

/-- `x: int = field(default=7, skip_if_default=True)`, `y: Optional[int]`, `z: list[int] = field(skip_if=not)`. -/
def C12ex : ClassDef :=
  { name := "A", mro := ["A"], fields := [{ name := "x", ty := .prim .int, dflt := some (.int 7), skipIfDefault := some true },
    { name := "y", ty := .union [.prim .int, .none] }, { name := "z", ty := .list .list (.prim .int), skipIf := some (fun v => match v with | .list [] => .ok true | _ => .ok false) }] }

/-- The copy without the rule on `x`. -/
def C12exX : ClassDef := { C12ex with fields := C12ex.fields.map (withoutRulesOf "x") }

/-- The copy without the rule on `z`. -/
def C12exZ : ClassDef := { C12ex with fields := C12ex.fields.map (withoutRulesOf "z") }

def C12env : Env := Ex.mk [("A", C12ex), ("X", C12exX), ("Z", C12exZ)]

example : Ev (fun n => toDict C12env {} n (.inst "A" [("x", .int 7), ("y", .none), ("z", .list [.int 1])]) =
    .ok (.dict .plain [(.str "y", .none), (.str "z", .list [.int 1])])) :=
  C12_skip_rule_partial (n := 9) (c' := "X") (cd := C12ex) (f := { name := "x", ty := .prim .int, dflt := some (.int 7), skipIfDefault := some true })
    (kvs := [(.str "x", .int 7), (.str "y", .none), (.str "z", .list [.int 1])]) (w := .int 7) (b := true) rfl rfl ⟨rfl, rfl⟩ rfl
    (by simp [C12ex]) (by simp [C12ex, RenameOk]) (.inl rfl) ⟨by simp [C12env, Ex.mk], by simp [C12env, Ex.mk]⟩
    ⟨by simp [C12env, Ex.mk], by simp [C12env, Ex.mk]⟩ (by decide) (by decide) (by simp [C12ex]) rfl rfl (by simp [wireName, C12ex])
    (.ifDefault (d := .int 7) rfl rfl rfl rfl (by simp))

example : Ev (fun n => toDict C12env {} n (.inst "A" [("x", .int 8), ("y", .none), ("z", .list [])]) =
    .ok (.dict .plain [(.str "x", .int 8), (.str "y", .none)])) :=
  C12_skip_rule_partial (n := 9) (c' := "Z") (cd := C12ex) (f := { name := "z", ty := .list .list (.prim .int), skipIf := some (fun v => match v with | .list [] => .ok true | _ => .ok false) })
    (kvs := [(.str "x", .int 8), (.str "y", .none), (.str "z", .list [])]) (w := .list []) (b := true) rfl rfl ⟨rfl, rfl⟩ rfl
    (by simp [C12ex]) (by simp [C12ex, RenameOk]) (.inl rfl) ⟨by simp [C12env, Ex.mk], by simp [C12env, Ex.mk]⟩
    ⟨by simp [C12env, Ex.mk], by simp [C12env, Ex.mk]⟩ (by decide) (by decide) (by simp [C12ex]) rfl rfl (by simp [wireName, C12ex])
    (.user rfl rfl)

/-- `class R: x: Any = field(default=U(1), skip_if_default=True)`, `U` a class whose field serializer raises. -/
def C12raw : ClassDef := { name := "R", mro := ["R"], fields := [{ name := "x", ty := .any, dflt := some (.inst "U" [("a", .int 1)]), skipIfDefault := some true }] }
def C12rawEnv : Env := Ex.mk [("U", { name := "U", mro := ["U"], fields := [{ name := "a", ty := .prim .int, serializer := some (.fn (fun _ => .error .value)) }] }), ("R", C12raw), ("X", { C12raw with fields := C12raw.fields.map (withoutRulesOf "x") })]

example : Ev (fun n => toDict C12rawEnv {} n (.inst "R" [("x", .dict .plain [(.str "a", .int 1)])]) = .ok (.dict .plain [])) :=
  C12_skip_rule_partial (n := 9) (c' := "X") (cd := C12raw) (f := { name := "x", ty := .any, dflt := some (.inst "U" [("a", .int 1)]), skipIfDefault := some true })
    (kvs := [(.str "x", .dict .plain [(.str "a", .int 1)])]) (w := .dict .plain [(.str "a", .int 1)]) (b := true) rfl rfl ⟨rfl, rfl⟩ rfl
    (by simp [C12raw]) (by simp [C12raw, RenameOk]) (.inl rfl) ⟨by simp [C12rawEnv, Ex.mk], by simp [C12rawEnv, Ex.mk]⟩
    ⟨by simp [C12rawEnv, Ex.mk], by simp [C12rawEnv, Ex.mk]⟩ (by decide) (by decide) (by simp [C12raw]) rfl rfl (by simp [wireName, C12raw])
    (.ifDefaultRaw (c := "U") (attrs := [("a", .int 1)]) (n := 9) (e := .wrap (.py .value)) rfl rfl rfl rfl rfl (by intro h; cases h))

/-! ## C13 -/

/-- The field with its effective flags written out. -/
def explicitFlags (cd : ClassDef) (f : FieldDef) : FieldDef :=
  { f with skipIfDefault := some (skipsDefault cd f), skipIfNone := some (skipsNone cd f) }

/-- The class with every field's effective flags written on the field and, at class level, any flags at all. -/
def withFlags (cd : ClassDef) (d n : Bool) : ClassDef :=
  { cd with fields := cd.fields.map (explicitFlags cd), skipIfDefaultDflt := d, skipIfNoneDflt := n }

/-- **C13** Class-level flags act as field-level flags on the fields that do not set their own, and a field's own flag wins: the
class serializes like its copy in which every field sets its effective flag itself, whatever that copy's class-level flags. -/
theorem C13_class_flags {env : Env} {so : SeOpts} {n c c'} {cd : ClassDef} {attrs d nn} (hc : env.cls c = some cd)
    (hc' : env.cls c' = some (withFlags cd d nn)) (ht : SameTables env c c')
    (hu : NotUnion so.c) (hg : NoGlobal env c) (hg' : NoGlobal env c') :
    toDict env so n (.inst c attrs) = toDict env so n (.inst c' attrs) := by
  match n with
  | 0 => rfl
  | 1 => rw [toDict_cls hu hg.ser, toDict_cls hu hg'.ser]; rfl
  | n + 2 =>
    rw [toDict_cls hu hg.ser, toDict_cls hu hg'.ser, seAt_cls, seAt_cls]
    unfold clsF
    dsimp only
    rw [hc, hc']
    have hs : (withFlags cd d nn).seFieldsOf = cd.seFieldsOf.map (explicitFlags cd) := by
      unfold ClassDef.seFieldsOf withFlags
      rw [List.filter_map]
      rfl
    have hcx : clsSeCx env c' (withFlags cd d nn) true so.reuse so.conv so.skipNone =
        clsSeCx env c cd true so.reuse so.conv so.skipNone := by
      unfold clsSeCx withFlags; dsimp only; rw [ht.unions]
    have harg : ∀ f, seFieldArg (explicitFlags cd f) (.ok (.inst c' attrs)) = seFieldArg f (.ok (.inst c attrs)) := fun f => rfl
    have hlv : ∀ f k, lvals env (withFlags cd d nn).seCase (k + 1) (explicitFlags cd f) = lvals env cd.seCase (k + 1) f := fun f k => rfl
    have hrule : ∀ f, (explicitFlags cd f).skipRule (withFlags cd d nn) = f.skipRule cd := by
      intro f
      unfold FieldDef.skipRule explicitFlags withFlags
      simp only [Option.getD_some, skipsDefault_eq, skipsNone_eq]
    have hfs : ∀ (cx : SeCx) (fs : List FieldDef) res, seFields env (seAt env n) cx (withFlags cd d nn) (.inst c' attrs) res (fs.map (explicitFlags cd)) =
        seFields env (seAt env n) cx cd (.inst c attrs) res fs := by
      intro cx fs
      induction fs with
      | nil => intro res; rfl
      | cons f fs ih =>
        intro res
        rw [List.map_cons]
        unfold seFields
        have : seField env (seAt env n) cx (withFlags cd d nn) (.inst c' attrs) res (explicitFlags cd f) =
            seField env (seAt env n) cx cd (.inst c attrs) res f := by
          unfold seField
          rw [harg, hlv, hrule]
        rw [this]
        cases seField env (seAt env n) cx cd (.inst c attrs) res f with
        | error e => rfl
        | ok res' => exact ih res'
    dsimp only
    rw [hs, hcx]
    show wrapAll _ = wrapAll (if cd.transparent = true then _ else _)
    cases htr : cd.transparent with
    | false =>
      simp only [Bool.false_eq_true, if_false, if_true]
      rw [hfs]
    | true =>
      simp only [if_true]
      cases cd.seFieldsOf with
      | nil => rfl
      | cons f fs => rfl

/-- Class-level `skip_if_none`; `x` overrides it. -/
def C13ex : ClassDef :=
  { name := "A", mro := ["A"], skipIfNoneDflt := true,
    fields := [{ name := "x", ty := .union [.prim .int, .none], skipIfNone := some false }, { name := "y", ty := .union [.prim .int, .none] }] }

example : toDict (Ex.mk [("A", C13ex), ("B", withFlags C13ex true false)]) {} 9 (.inst "A" [("x", .none), ("y", .none)]) =
    .ok (.dict .plain [(.str "x", .none)]) := rfl

example : toDict (Ex.mk [("A", C13ex), ("B", withFlags C13ex true false)]) {} 9 (.inst "A" [("x", .none), ("y", .none)]) =
    toDict (Ex.mk [("A", C13ex), ("B", withFlags C13ex true false)]) {} 9 (.inst "B" [("x", .none), ("y", .none)]) :=
  C13_class_flags (cd := C13ex) rfl rfl ⟨rfl, rfl⟩ (.inl rfl) ⟨by simp [Ex.mk], by simp [Ex.mk]⟩ ⟨by simp [Ex.mk], by simp [Ex.mk]⟩

/-! ## C14 -/

/-- Types a well-typed `None` can have: Optional, None, Any, an alias of such a type, or a union with None whose other members are
primitives, enums, dates, str-convertible types and dataclasses. -/
inductive AdmitsNone (env : Env) (unions : List (List Ty)) : Ty → Prop
  | none : AdmitsNone env unions .none
  | any : AdmitsNone env unions .any
  | opt {t} : t ≠ .none → AdmitsNone env unions (.union [t, .none])
  | alias {n t} : AdmitsNone env unions t → AdmitsNone env unions (.alias n t)
  | union {ts} : (Ty.union ts).isOpt = false → findUnion env unions (unionFuncName env ts) = some ts →
      (∀ t ∈ ts, t = .none ∨ (∃ p, t = .prim p) ∨ (∃ e, t = .enum e) ∨ (∃ k, t = .std k) ∨ (∃ k, t = .dt k) ∨ ∃ c, t = .cls c) →
      AdmitsNone env unions (.union ts)

theorem seUnion_none {env : Env} {n} {cx : SeCx} (hs : cx.sers = []) {ts : List Ty} {w}
    (h : ∀ t ∈ ts, t = .none ∨ (∃ p, t = .prim p) ∨ (∃ e, t = .enum e) ∨ (∃ k, t = .std k) ∨ (∃ k, t = .dt k) ∨ ∃ c, t = .cls c)
    (he : seUnion env (seAt env n) cx .none ts = .ok w) : w = .none := by
  induction ts with
  | nil => cases he
  | cons t ts ih =>
    have ih' := ih (fun t ht => h t (by simp [ht]))
    rcases h t (by simp) with rfl | ⟨p, rfl⟩ | ⟨p, rfl⟩ | ⟨p, rfl⟩ | ⟨p, rfl⟩ | ⟨p, rfl⟩
    · cases n with
      | zero => cases he
      | succ n =>
        unfold seUnion at he
        rw [seAt_render] at he
        unfold renderF at he
        rw [hs] at he
        cases he; rfl
    · cases p <;> exact ih' he
    · exact ih' he
    · exact ih' he
    · exact ih' he
    · exact ih' he

theorem render_none {env : Env} {unions t} (h : AdmitsNone env unions t) (hg : env.gser = []) : ∀ {n} {cx : SeCx} {w}, cx.sers = [] → cx.unions = unions →
    (seAt env n).render cx { ty := t, v := .ok .none } = .ok w → w = .none := by
  induction h with
  | none =>
    intro n cx w hs hu he
    cases n with
    | zero => cases he
    | succ n => rw [seAt_render] at he; unfold renderF at he; rw [hs] at he; cases he; rfl
  | any =>
    intro n cx w hs hu he
    match n with
    | 0 => cases he
    | 1 => rw [seAt_render] at he; unfold renderF at he; rw [hs] at he; cases he
    | n + 2 => rw [seAt_render] at he; unfold renderF at he; rw [hs] at he; cases he; rfl
  | opt hne =>
    intro n cx w hs hu he
    cases n with
    | zero => cases he
    | succ n =>
      rw [seAt_render] at he; unfold renderF at he; rw [hs, pickSer_nil] at he
      simp only [isOpt_pair hne, if_true] at he
      cases he; rfl
  | alias _ ih =>
    intro n cx w hs hu he
    cases n with
    | zero => cases he
    | succ n => rw [seAt_render] at he; unfold renderF at he; rw [hs] at he; exact ih hs hu he
  | union h1 h2 h3 =>
    intro n cx w hs hu he
    cases n with
    | zero => cases he
    | succ n =>
      rw [seAt_render] at he; unfold renderF at he; rw [hs, pickSer_nil] at he
      dsimp only at he
      rw [if_neg (by simp [h1]), hu, h2] at he
      exact seUnion_none hg h3 he

/-- **C14** With `skip_none=True` a field whose value is None is not in the dict, unless it has a `skip_if` or an effective
`skip_if_default` (either makes the code ignore `skip_none`, see `Findings.Skip.C14_false_with_skip_if`). Without custom serializers. -/
theorem C14_skip_none_partial {env : Env} {so : SeOpts} {n c} {cd : ClassDef} {f : FieldDef} {attrs kvs w} (hc : env.cls c = some cd)
    (htr : cd.transparent = false) (hfl : ∀ f ∈ cd.fields, f.flatten = false) (hren : ∀ f ∈ cd.fields, RenameOk f)
    (hu : NotUnion so.c) (hg : env.gser = []) (hcs : cd.classSer = none)
    (hw : ((cd.fields.filter serializable).map (fun f => wireName f.rename cd.seCase f.name)).Nodup)
    (hf : f ∈ cd.fields) (hfs : serializable f = true) (hser : f.serializer = none) (hty : AdmitsNone env (env.unionsOf c) f.ty)
    (hrule : f.skipIf = none ∧ (f.skipIfFalse = true ∨ skipsDefault cd f = false))
    (hsn : so.skipNone = true) (hv : attrs.lookup f.name = some .none)
    (h : toDict env so n (.inst c attrs) = .ok (.dict .plain kvs)) : (.str (wireName f.rename cd.seCase f.name), w) ∉ kvs := by
  have hsub : ∀ f ∈ cd.seFieldsOf, f ∈ cd.fields := by rw [seFieldsOf_eq]; intro f hf; exact (List.mem_filter.1 hf).1
  have hconv : ∀ f ∈ cd.seFieldsOf, f.conv cd.seCase = wireName f.rename cd.seCase f.name := fun f hf => conv_eq_wireName (hren f (hsub f hf)) _
  have hw' : (cd.seFieldsOf.map (fun f => f.conv cd.seCase)).Nodup := by
    rw [List.map_congr_left hconv, seFieldsOf_eq]; exact hw
  have hff : f ∈ cd.seFieldsOf := by rw [seFieldsOf_eq]; exact List.mem_filter.2 ⟨hf, hfs⟩
  rw [← hconv f hff]
  intro hmem
  have hgs : ∀ s ∈ env.gser, s.handles (.cls c) = false := by simp [hg]
  have h1 : toDict env so (n + 3) (.inst c attrs) = .ok (.dict .plain kvs) := toDict_mono (by omega) h
  obtain ⟨os, hos, he⟩ := (toDict_emit hc htr (fun g hg => hfl g (hsub g hg)) hu hgs hw').1 h1
  injection he with _ he
  subst he
  obtain ⟨o, ho, hoe⟩ := List.mem_filterMap.1 hmem
  dsimp only [id] at hoe
  subst hoe
  obtain ⟨g, hgm, he⟩ := mapR_mem hos ho
  have : g = f := inj_of_nodup_map hw' hgm hff (Val.str.inj (emitAt_key he)).symm
  subst this
  have harg : seFieldArg g (.ok (.inst c attrs)) = { ty := g.ty, v := .ok .none } := by
    unfold seFieldArg getAttr
    dsimp only
    rw [hser, hv, hfl g hf]
  have hr := (emitAt_some he).1
  rw [harg] at hr
  have hwn : w = .none := render_none hty hg (cx := topSeCx env c cd true so) (by unfold topSeCx clsSeCx; dsimp only; rw [hg, hcs]; rfl) rfl hr
  subst hwn
  unfold emitAt at he
  rw [harg, hr] at he
  dsimp only at he
  have hsk : skips env (seAt env (n + 1)) (topSeCx env c cd true so) (g.skipRule cd) .none = .ok true := by
    unfold FieldDef.skipRule
    rw [skipsDefault_eq, skipsNone_eq, hrule.1]
    dsimp only
    rcases hrule.2 with h | h
    · rw [h]; rfl
    · rw [h]
      cases g.skipIfFalse with
      | true => rfl
      | false =>
        cases skipsNone cd g with
        | true => rfl
        | false => simp [skips, topSeCx, clsSeCx, hsn]
  rw [hsk] at he
  cases he

example {w} : (Val.str "y", w) ∉ [(Val.str "x", Val.int 1)] :=
  C14_skip_none_partial (env := Ex.mk [("A", { C12ex with fields := C12ex.fields.take 2 })]) (so := { skipNone := true }) (n := 9) (c := "A") (cd := { C12ex with fields := C12ex.fields.take 2 })
    (f := { name := "y", ty := .union [.prim .int, .none] }) (attrs := [("x", .int 1), ("y", .none)]) rfl rfl (by simp [C12ex]) (by simp [C12ex, RenameOk])
    (.inl rfl) rfl rfl (by decide) (by simp [C12ex]) rfl rfl (.opt (by simp)) ⟨rfl, .inr rfl⟩ rfl rfl rfl

end Verif.Props
