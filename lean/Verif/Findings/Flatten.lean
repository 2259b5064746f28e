import Verif.Props.C20
/-!
# Findings: flattened fields, departures from C07, C21 and C22
-/

namespace Verif.Findings.Flatten
open Spec

/-- A case conversion as `rename_all="camelcase"` would do it on the names used here. -/
def camel (s : String) : String := if s = "a_b" then "aB" else s

/-- `a_b: int`. -/
def Child : ClassDef := { name := "Child", mro := ["Child"], fields := [{ name := "a_b", ty := .prim .int }] }
/-- `@serde(rename_all="camelcase")`, `child: Child = field(flatten=True)`. -/
def Parent : ClassDef :=
  { name := "Parent", mro := ["Parent"], seCase := some camel, deCase := some camel, fields := [{ name := "child", ty := .cls "Child", flatten := true }] }
/-- `child: Child | None = field(flatten=True)`. -/
def OptParent : ClassDef :=
  { name := "OptParent", mro := ["OptParent"], fields := [{ name := "child", ty := .union [.cls "Child", .none], flatten := true }] }
/-- `x: int = field(default=0, skip_if_default=True)`, `rest: dict = field(flatten=True)`. -/
def S : ClassDef :=
  { name := "S", mro := ["S"], fields := [{ name := "x", ty := .prim .int, dflt := some (.int 0), skipIfDefault := some true },
    { name := "rest", ty := .dictB .dict, flatten := true }] }

def env : Env := Ex.mk [("Child", Child), ("Parent", Parent), ("OptParent", OptParent), ("S", S)]

/-- C07 fails for the fields of a flattened dataclass: serialization names them with the *enclosing* class's `rename_all`, so they are not
written under the child's own wire names, which are what deserialization reads. -/
theorem C07_false_flattened : ¬ ∀ (env : Env) (c ch : ClassId) (cd chd : ClassDef) (f g : FieldDef) (attrs : List (String × Val)) (out : List (Val × Val)) (n : Nat),
    env.cls c = some cd → env.cls ch = some chd → f ∈ cd.fields → inlined f = some ch → g ∈ chd.fields →
    toDict env {} n (.inst c attrs) = .ok (.dict .plain out) → getStr (wireName g.rename chd.deCase g.name) out ≠ none := by
  intro h
  exact h env "Parent" "Child" Parent Child { name := "child", ty := .cls "Child", flatten := true } { name := "a_b", ty := .prim .int }
    [("child", .inst "Child" [("a_b", .int 1)])] [(.str "aB", .int 1)] 9 rfl rfl (by simp [Parent]) rfl (by simp [Child]) rfl rfl

/-- C22 fails when the enclosing class has a `rename_all`: what was written cannot be read back. -/
theorem C22_false_rename_all : ¬ ∀ (env : Env) (c : ClassId) (cd : ClassDef) (attrs : List (String × Val)) (out : Val) (n m : Nat),
    env.cls c = some cd → cd.transparent = false → toDict env {} n (.inst c attrs) = .ok out →
    ∀ e, fromDict env {} m (.cls c) out ≠ .error (.wrap e) := by
  intro h
  exact h env "Parent" Parent [("child", .inst "Child" [("a_b", .int 1)])] (.dict .plain [(.str "aB", .int 1)]) 9 9 rfl rfl rfl (.missing "a_b") rfl

/-- C22 fails for an Optional flattened dataclass: `None` cannot be serialized at all. -/
theorem C22_false_optional_none : ¬ ∀ (env : Env) (c : ClassId) (cd : ClassDef) (f : FieldDef) (attrs : List (String × Val)) (n : Nat),
    env.cls c = some cd → cd.fields = [f] → (∃ ch, f.ty = .union [.cls ch, .none]) → attrs = [(f.name, .none)] →
    ∀ e, toDict env {} n (.inst c attrs) ≠ .error (.wrap e) := by
  intro h
  exact h env "OptParent" OptParent _ _ 9 rfl rfl ⟨"Child", rfl⟩ rfl (.py .attr) rfl

/-- C21 fails when the declared field is left out by a skip rule: the clashing entry of the flattened dict is written under its name ... -/
theorem C21_false_skipped : ¬ ∀ (env : Env) (c : ClassId) (cd : ClassDef) (f : FieldDef) (v w : Val) (attrs : List (String × Val)) (out : List (Val × Val)) (n : Nat),
    env.cls c = some cd → f ∈ cd.fields → f.flatten = false → serializable f = true → attrs.lookup f.name = some v → (∃ i, v = .int i) →
    f.ty = .prim .int → toDict env {} n (.inst c attrs) = .ok (.dict .plain out) → getStr f.name out = some w → w = v := by
  intro h
  have := h env "S" S { name := "x", ty := .prim .int, dflt := some (.int 0), skipIfDefault := some true } (.int 0) (.int 7)
    [("x", .int 0), ("rest", .dict .plain [(.str "x", .int 7)])] [(.str "x", .int 7)] 9 rfl (by simp [S]) rfl rfl rfl ⟨0, rfl⟩ rfl rfl rfl
  injection this with this
  cases this

/-- ... and is read back as the declared field's value. -/
example : fromDict env {} 9 (.cls "S") (.dict .plain [(.str "x", .int 7)]) = .ok (.inst "S" [("x", .int 7), ("rest", .dict .plain [])]) := rfl

end Verif.Findings.Flatten
