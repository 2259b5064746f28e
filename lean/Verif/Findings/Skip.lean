import Verif.Props.C12
/-!
# Findings about skip rules: C10, C12, C14
-/

namespace Verif.Findings.Skip
open Spec

/-- `d: date = field(default=date(2024, 1, 1), skip_if_default=True)`. -/
def D : ClassDef :=
  { name := "D", mro := ["D"], reuseDflt := false,
    fields := [{ name := "d", ty := .dt .date, dflt := some (.dt .date "2024-01-01"), skipIfDefault := some true }] }
/-- The predicate of `N.x`: never. -/
def never : Val → Except PErr Bool := fun _ => .ok false
/-- `x: Optional[int] = field(skip_if=lambda v: False)`. -/
def N : ClassDef := { name := "N", mro := ["N"], fields := [{ name := "x", ty := .union [.prim .int, .none], skipIf := some never }] }
/-- `x: Optional[int] = field(default=5, skip_if_default=True)`. -/
def M : ClassDef :=
  { name := "M", mro := ["M"], fields := [{ name := "x", ty := .union [.prim .int, .none], dflt := some (.int 5), skipIfDefault := some true }] }
/-- `secret: int = field(skip=True)`, `y: int`. -/
def Child : ClassDef :=
  { name := "Child", mro := ["Child"], fields := [{ name := "secret", ty := .prim .int, skip := true, dflt := some (.int 0) }, { name := "y", ty := .prim .int }] }
/-- `child: Child = field(flatten=True)`. -/
def Parent : ClassDef := { name := "Parent", mro := ["Parent"], fields := [{ name := "child", ty := .cls "Child", flatten := true }] }

def env : Env := Ex.mk [("D", D), ("N", N), ("M", M), ("Child", Child), ("Parent", Parent)]

/-- C12 fails for the attribute value: a date field that equals its default is written although `skip_if_default` is set, because
the rule compares the serialized string with the date. -/
theorem C12_false_on_raw_value : ¬ ∀ (env : Env) (c : ClassId) (cd : ClassDef) (f : FieldDef) (attrs : List (String × Val)) (d : Val) (n : Nat) (kvs : List (Val × Val)) (w : Val),
    env.cls c = some cd → cd.fields = [f] → f.flatten = false → f.skipIfDefault = some true → f.dflt = some d → attrs.lookup f.name = some d →
    toDict env {} n (.inst c attrs) = .ok (.dict .plain kvs) → (.str f.name, w) ∉ kvs := by
  intro h
  exact h env "D" D _ [("d", .dt .date "2024-01-01")] (.dt .date "2024-01-01") 9 [(.str "d", .str "2024-01-01")] (.str "2024-01-01")
    rfl rfl rfl rfl rfl rfl rfl (by simp)

/-- C14 fails for a field with its own `skip_if`: `skip_none=True` is then ignored for it. -/
theorem C14_false_with_skip_if : ¬ ∀ (env : Env) (c : ClassId) (cd : ClassDef) (f : FieldDef) (attrs : List (String × Val)) (n : Nat) (kvs : List (Val × Val)) (w : Val),
    env.cls c = some cd → f ∈ cd.fields → (∀ f ∈ cd.fields, f.flatten = false) → attrs.lookup f.name = some .none →
    toDict env { skipNone := true } n (.inst c attrs) = .ok (.dict .plain kvs) → (.str f.name, w) ∉ kvs := by
  intro h
  exact h env "N" N { name := "x", ty := .union [.prim .int, .none], skipIf := some never } [("x", .none)] 9 [(.str "x", .none)] .none
    rfl (by simp [N]) (by simp [N]) rfl rfl (by simp)

/-- C14 fails for a field with `skip_if_default` as well. -/
theorem C14_false_with_skip_if_default : ¬ ∀ (env : Env) (c : ClassId) (cd : ClassDef) (f : FieldDef) (attrs : List (String × Val)) (n : Nat) (kvs : List (Val × Val)) (w : Val),
    env.cls c = some cd → f ∈ cd.fields → (∀ f ∈ cd.fields, f.flatten = false) → f.skipIf = none → attrs.lookup f.name = some .none →
    toDict env { skipNone := true } n (.inst c attrs) = .ok (.dict .plain kvs) → (.str f.name, w) ∉ kvs := by
  intro h
  exact h env "M" M { name := "x", ty := .union [.prim .int, .none], dflt := some (.int 5), skipIfDefault := some true } [("x", .none)] 9 [(.str "x", .none)] .none
    rfl (by simp [M]) (by simp [M]) rfl rfl rfl (by simp)

/-- C10 fails for a class that is flattened into another one: the parent's code writes the child's skipped field. -/
theorem C10_false_flattened : ¬ ∀ (env : Env) (c : ClassId) (cd : ClassDef) (pc : ClassId) (x : String) (attrs attrs' : List (String × Val)) (n : Nat),
    env.cls c = some cd → (∀ f ∈ cd.fields, serializable f = true → attrs.lookup f.name = attrs'.lookup f.name) →
    toDict env {} n (.inst pc [(x, .inst c attrs)]) = toDict env {} n (.inst pc [(x, .inst c attrs')]) := by
  intro h
  have := h env "Child" Child "Parent" "child" [("secret", .int 1), ("y", .int 3)] [("secret", .int 2), ("y", .int 3)] 9 rfl
    (by intro f hf hs; simp [Child] at hf; rcases hf with rfl | rfl
        · simp [serializable] at hs
        · rfl)
  have h1 : toDict env {} 9 (.inst "Parent" [("child", .inst "Child" [("secret", .int 1), ("y", .int 3)])]) = .ok (.dict .plain [(.str "secret", .int 1), (.str "y", .int 3)]) := rfl
  have h2 : toDict env {} 9 (.inst "Parent" [("child", .inst "Child" [("secret", .int 2), ("y", .int 3)])]) = .ok (.dict .plain [(.str "secret", .int 2), (.str "y", .int 3)]) := rfl
  rw [h1, h2] at this
  injection this with this
  injection this with _ this
  injection this with this _
  injection this with _ this
  injection this with this
  exact absurd this (by decide)

end Verif.Findings.Skip
