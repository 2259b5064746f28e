import Verif.Spec.Reasons
import Verif.Props.C12
/-!
# C69 Conditions for leaving a field out add up

Full statement: a field for which several of `skip_if`, `skip_if_false`, `skip_if_default` and `skip_if_none` are asked for, at the field or at its
class, is left out of the dict exactly when one of them holds of the written value.

The code keeps one condition per field, the first in the order above (/repo/serde/core.py:785), so the statement is false:
`C69_false_class_flags`, `C69_false_skip_if`, `C69_false_if_false`. Proved (`_partial`): the statement for fields whose first condition covers the
others, in particular for fields with one condition.
-/

namespace Verif.Props
open Verif Spec

theorem toDict_err {env : Env} {so n m v e w} (h : toDict env so n v = .error e) (he : e ≠ .fuel) : toDict env so m v ≠ .ok w := by
  intro h'
  have h1 := ((seAt_mono env (Nat.le_max_left n m)).toObj true so.reuse so.conv so.skipNone so.c so.tagging v).err h he
  have h2 := ((seAt_mono env (Nat.le_max_right n m)).toObj true so.reuse so.conv so.skipNone so.c so.tagging v).ok h'
  rw [h1] at h2
  cases h2

theorem compared_det {env : Env} {d s s'} (h : Compared env d s) (h' : Compared env d s') : s = s' := by
  cases h with
  | plain hp => cases h' with
    | plain _ => rfl
    | obj _ => exact absurd rfl (hp _ _)
    | raw _ _ => exact absurd rfl (hp _ _)
  | obj ho => cases h' with
    | plain hp => exact absurd rfl (hp _ _)
    | obj ho' => exact toDict_det ho ho'
    | raw he hf => exact absurd ho (toDict_err he hf)
  | raw he hf => cases h' with
    | plain hp => exact absurd rfl (hp _ _)
    | obj ho => exact absurd ho (toDict_err he hf)
    | raw _ _ => rfl

theorem ruleGives_default {env : Env} {cd : ClassDef} {f : FieldDef} {w d s} (h1 : f.skipIf = none) (h2 : f.skipIfFalse = false) (h3 : skipsDefault cd f = true)
    (hd : f.dflt = some d) (hc : Compared env d s) : RuleGives env cd f w (pyEq w s) := by
  cases hc with
  | plain hp => exact .ifDefault h1 h2 h3 hd hp
  | obj ho => exact .ifDefaultObj h1 h2 h3 hd ho
  | raw he hf => exact .ifDefaultRaw h1 h2 h3 hd he hf

/-- When the first condition covers the others, the rule in force says whether there is a reason. -/
theorem reason_rule {env : Env} {cd : ClassDef} {f : FieldDef} {w} (hF : FirstCovers env cd f) (hE : Evaluates env f w) :
    ∃ b, RuleGives env cd f w b ∧ (b = true ↔ Reason env cd f w) := by
  cases hF with
  | skipIf h1 h2 h3 h4 =>
    obtain ⟨b, hb⟩ := hE.skipIf _ h1
    refine ⟨b, .user h1 hb, ?_, ?_⟩
    · rintro rfl; exact .skipIf h1 hb
    · intro h
      cases h with
      | skipIf hp ht => rw [h1] at hp; cases hp; rw [hb] at ht; cases ht; rfl
      | ifFalse hf _ => rw [h2] at hf; cases hf
      | ifDefault hd _ _ _ => rw [h3] at hd; cases hd
      | ifNone hn _ => rw [h4] at hn; cases hn
  | ifFalse h1 h2 h3 =>
    refine ⟨!truthy env w, .ifFalse h1 h2 (by rw [← truthy_false_iff]; simp), ?_, ?_⟩
    · intro h; exact .ifFalse h2 (truthy_false_iff.1 (by simpa using h))
    · intro h
      cases h with
      | skipIf hp _ => rw [h1] at hp; cases hp
      | ifFalse _ ht => simp [truthy_false_iff.2 ht]
      | ifDefault hd he hc hq => simp [truthy_false_iff.2 (h3 hd _ _ w he hc hq)]
      | ifNone _ hw => subst hw; rfl
  | ifDefault h1 h2 h3 h4 =>
    cases hd : f.dflt with
    | none =>
      refine ⟨_, .noDefault h1 h2 h3 hd, by simp, ?_⟩
      intro h
      cases h with
      | skipIf hp _ => rw [h1] at hp; cases hp
      | ifFalse hf _ => rw [h2] at hf; cases hf
      | ifDefault _ he _ _ => rw [hd] at he; cases he
      | ifNone hn _ => have := h4 hn; rw [hd] at this; cases this
    | some d =>
      obtain ⟨s, hs⟩ := hE.default d hd
      refine ⟨_, ruleGives_default h1 h2 h3 hd hs, fun h => .ifDefault h3 hd hs h, ?_⟩
      intro h
      cases h with
      | skipIf hp _ => rw [h1] at hp; cases hp
      | ifFalse hf _ => rw [h2] at hf; cases hf
      | ifDefault _ he hc hq => rw [hd] at he; cases he; rw [compared_det hs hc]; exact hq
      | ifNone hn hw =>
        have := h4 hn
        rw [hd] at this
        cases this
        cases hs with
        | plain _ => rw [hw]; rfl
  | ifNone h1 h2 h3 h4 =>
    refine ⟨_, .ifNone h1 h2 h3 h4, ?_, ?_⟩
    · intro h
      refine .ifNone h4 ?_
      cases w <;> first | rfl | cases h
    · intro h
      cases h with
      | skipIf hp _ => rw [h1] at hp; cases hp
      | ifFalse hf _ => rw [h2] at hf; cases hf
      | ifDefault hd _ _ _ => rw [h3] at hd; cases hd
      | ifNone _ hw => rw [hw]

/-- **C69** (partial) Compare the class with its copy `c'` in which the field has no condition, where it is written as `w`. If one of the conditions
asked for holds of `w`, the class writes the same dict without that entry, otherwise exactly the same dict. Missing: fields whose first condition
does not cover the others. -/
theorem C69_adds_up_partial {env : Env} {so : SeOpts} {n c c'} {cd : ClassDef} {f : FieldDef} {attrs kvs w} (hc : env.cls c = some cd)
    (hc' : env.cls c' = some { cd with fields := cd.fields.map (withoutRulesOf f.name) }) (ht : SameTables env c c')
    (htr : cd.transparent = false) (hfl : ∀ f ∈ cd.fields, f.flatten = false) (hren : ∀ f ∈ cd.fields, RenameOk f)
    (hu : NotUnion so.c) (hg : NoGlobal env c) (hg' : NoGlobal env c')
    (hn : (cd.fields.map (·.name)).Nodup) (hw : ((cd.fields.filter serializable).map (fun f => wireName f.rename cd.seCase f.name)).Nodup)
    (hf : f ∈ cd.fields) (hfs : serializable f = true)
    (h : toDict env so n (.inst c' attrs) = .ok (.dict .plain kvs))
    (hmem : (.str (wireName f.rename cd.seCase f.name), w) ∈ kvs) (hF : FirstCovers env cd f) (hE : Evaluates env f w) :
    (Reason env cd f w → Ev fun n => toDict env so n (.inst c attrs) = .ok (.dict .plain (dropKey true (wireName f.rename cd.seCase f.name) kvs))) ∧
      (¬ Reason env cd f w → Ev fun n => toDict env so n (.inst c attrs) = .ok (.dict .plain kvs)) := by
  obtain ⟨b, hb, hiff⟩ := reason_rule hF hE
  have key := C12_skip_rule_partial hc hc' ht htr hfl hren hu hg hg' hn hw hf hfs h hmem hb
  constructor
  · intro hr; rw [hiff.2 hr] at key; exact key
  · intro hr
    have : b = false := by cases b with | false => rfl | true => exact absurd (hiff.1 rfl) hr
    rw [this] at key
    have hd : ∀ k, dropKey false k kvs = kvs := fun k => List.filter_eq_self.2 (fun _ _ => rfl)
    rw [hd] at key
    exact key

/-! ## Examples and witnesses -/

namespace C69Ex
def opt : Ty := .union [.prim .int, .none]

/-- Class-level `skip_if_default` and `skip_if_none`: `x: Optional[int] = None`, `y: list[int] = field(default_factory=list, skip_if_false=True)`. -/
def fx : FieldDef := { name := "x", ty := opt, dflt := some .none }
def fy : FieldDef := { name := "y", ty := .list .list (.prim .int), dflt := some (.list []), skipIfFalse := true }
def cdA : ClassDef := { name := "A", mro := ["A"], skipIfDefaultDflt := true, skipIfNoneDflt := true, fields := [fx, fy] }
def cdX : ClassDef := { cdA with fields := cdA.fields.map (withoutRulesOf "x") }
def cdY : ClassDef := { cdA with fields := cdA.fields.map (withoutRulesOf "y") }
/-- Class-level `skip_if_default` and `skip_if_none`: `x: Optional[int] = 3`. -/
def cdB : ClassDef := { name := "B", mro := ["B"], skipIfDefaultDflt := true, skipIfNoneDflt := true, fields := [{ name := "x", ty := opt, dflt := some (.int 3) }] }
/-- `x: Optional[int] = field(skip_if=lambda v: v == 0)` in a class with `skip_if_none`. -/
def cdC : ClassDef := { name := "C", mro := ["C"], skipIfNoneDflt := true,
                        fields := [{ name := "x", ty := opt, skipIf := some fun v => .ok (pyEq v (.int 0)) }] }
/-- `x: int = field(default=3, skip_if_false=True)` in a class with `skip_if_default`. -/
def cdD : ClassDef := { name := "D", mro := ["D"], skipIfDefaultDflt := true,
                        fields := [{ name := "x", ty := .prim .int, dflt := some (.int 3), skipIfFalse := true }] }
def env : Env := Ex.mk [("A", cdA), ("X", cdX), ("Y", cdY), ("B", cdB), ("C", cdC), ("D", cdD)]

theorem covers_x : FirstCovers env cdA fx := .ifDefault rfl rfl rfl (fun _ => rfl)

theorem covers_y : FirstCovers env cdA fy := by
  refine .ifFalse rfl rfl ?_
  intro _ d s w hd hc hq
  cases hd
  cases hc
  cases w with
  | list xs =>
    cases xs with
    | nil => exact .list
    | cons x xs => simp [pyEq, pyEqL] at hq
  | _ => simp [pyEq, Val.num] at hq

theorem evaluates_x {w} : Evaluates env fx w :=
  ⟨fun _ h => by simp [fx] at h, fun d h => by cases h; exact ⟨_, .plain (by simp)⟩⟩

theorem evaluates_y {w} : Evaluates env fy w :=
  ⟨fun _ h => by simp [fy] at h, fun d h => by cases h; exact ⟨_, .plain (by simp)⟩⟩

/-- Both conditions of `x` hold. -/
example : Ev fun n => toDict env {} n (.inst "A" [("x", .none), ("y", .list [.int 1])]) = .ok (.dict .plain [(.str "y", .list [.int 1])]) :=
  (C69_adds_up_partial (env := env) (so := {}) (c := "A") (attrs := [("x", .none), ("y", .list [.int 1])]) (n := 9) (c' := "X") (cd := cdA) (f := fx) (kvs := [(.str "x", .none), (.str "y", .list [.int 1])]) (w := .none) rfl rfl ⟨rfl, rfl⟩ rfl
    (by simp [cdA, fx, fy]) (by simp [cdA, fx, fy, RenameOk]) (.inl rfl) ⟨by simp [env, Ex.mk], by simp [env, Ex.mk]⟩
    ⟨by simp [env, Ex.mk], by simp [env, Ex.mk]⟩ (by decide) (by decide) (by simp [cdA]) rfl rfl (by simp [wireName, fx, cdA]) covers_x evaluates_x).1 (.ifNone rfl rfl)

/-- No condition of `y` holds. -/
example : Ev fun n => toDict env {} n (.inst "A" [("x", .int 2), ("y", .list [.int 1])]) = .ok (.dict .plain [(.str "x", .int 2), (.str "y", .list [.int 1])]) :=
  (C69_adds_up_partial (env := env) (so := {}) (c := "A") (attrs := [("x", .int 2), ("y", .list [.int 1])]) (n := 9) (c' := "Y") (cd := cdA) (f := fy) (kvs := [(.str "x", .int 2), (.str "y", .list [.int 1])]) (w := .list [.int 1]) rfl rfl ⟨rfl, rfl⟩ rfl
    (by simp [cdA, fx, fy]) (by simp [cdA, fx, fy, RenameOk]) (.inl rfl) ⟨by simp [env, Ex.mk], by simp [env, Ex.mk]⟩
    ⟨by simp [env, Ex.mk], by simp [env, Ex.mk]⟩ (by decide) (by decide) (by simp [cdA]) rfl rfl (by simp [wireName, fy, cdA]) covers_y evaluates_y).2 (by
      intro h
      cases h with
      | skipIf h _ => simp [fy] at h
      | ifFalse _ h => cases h with | zero h => cases h
      | ifDefault _ hd hc hq => cases hd; cases hc; simp [pyEq, pyEqL] at hq
      | ifNone _ h => simp at h)
end C69Ex

/-- **C69 is false**: a class with `skip_if_default` and `skip_if_none` writes `None` for a field that has another default. -/
theorem C69_false_class_flags : ¬ ∀ (env : Env) (c : ClassId) (cd : ClassDef) (f : FieldDef) (attrs : List (String × Val)) (kvs : List (Val × Val)) (w : Val) (n : Nat),
    env.cls c = some cd → f ∈ cd.fields → cd.skipIfDefaultDflt = true → cd.skipIfNoneDflt = true → f.skipIf = none → f.skipIfFalse = false →
    toDict env {} n (.inst c attrs) = .ok (.dict .plain kvs) → (.str (f.conv cd.seCase), w) ∈ kvs → ¬ Reason env cd f w := by
  intro h
  exact h C69Ex.env "B" C69Ex.cdB _ [("x", .none)] [(.str "x", .none)] .none 9 rfl (List.mem_singleton.2 rfl) rfl rfl rfl rfl rfl List.mem_cons_self (.ifNone rfl rfl)

/-- **C69 is false**: in a class with `skip_if_none` a field with a function of its own is written although it is None. -/
theorem C69_false_skip_if : ¬ ∀ (env : Env) (c : ClassId) (cd : ClassDef) (f : FieldDef) (attrs : List (String × Val)) (kvs : List (Val × Val)) (w : Val) (n : Nat),
    env.cls c = some cd → f ∈ cd.fields → f.skipIf.isSome → f.skipIfFalse = false → skipsDefault cd f = false →
    toDict env {} n (.inst c attrs) = .ok (.dict .plain kvs) → (.str (f.conv cd.seCase), w) ∈ kvs → ¬ Reason env cd f w := by
  intro h
  exact h C69Ex.env "C" C69Ex.cdC _ [("x", .none)] [(.str "x", .none)] .none 9 rfl (List.mem_singleton.2 rfl) rfl rfl rfl rfl List.mem_cons_self (.ifNone rfl rfl)

/-- **C69 is false**: in a class with `skip_if_default` a field with `skip_if_false` is written although it is the default. -/
theorem C69_false_if_false : ¬ ∀ (env : Env) (c : ClassId) (cd : ClassDef) (f : FieldDef) (attrs : List (String × Val)) (kvs : List (Val × Val)) (w : Val) (n : Nat),
    env.cls c = some cd → f ∈ cd.fields → f.skipIf = none → f.skipIfFalse = true → skipsNone cd f = false →
    toDict env {} n (.inst c attrs) = .ok (.dict .plain kvs) → (.str (f.conv cd.seCase), w) ∈ kvs → ¬ Reason env cd f w := by
  intro h
  exact h C69Ex.env "D" C69Ex.cdD _ [("x", .int 3)] [(.str "x", .int 3)] (.int 3) 9 rfl (List.mem_singleton.2 rfl) rfl rfl rfl rfl List.mem_cons_self
    (.ifDefault rfl rfl (.plain (by simp)) rfl)

end Verif.Props
