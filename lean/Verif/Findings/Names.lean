import Verif.Props.C15
/-!
# Findings: inputs on which the code departs from the stated properties C08, C09, C11, C15, C16, C17, C18

Every theorem here refutes the unrestricted form of a property by a concrete class and input; the corresponding theorem in
`Props` states under which restriction the property does hold.
-/

namespace Verif.Findings
open Spec

/-- `xs: list[int] = field(alias=["ys"])` and `v: int = field(default=0, skip_deserializing=True)`. -/
def A : ClassDef :=
  { name := "A", mro := ["A"], fields := [{ name := "xs", ty := .list .list (.prim .int), alias := ["ys"] }] }
/-- The same with a skipped field called `v`. -/
def A2 : ClassDef :=
  { name := "A2", mro := ["A2"], fields := [{ name := "xs", ty := .list .list (.prim .int), alias := ["ys"] },
      { name := "v", ty := .prim .int, dflt := some (.int 0), skipDe := true }] }
/-- `x: int = field(rename="X", alias=["a"])`. -/
def R : ClassDef := { name := "R", mro := ["R"], fields := [{ name := "x", ty := .prim .int, rename := some "X", alias := ["a"] }] }
/-- `x: int = field(default=5, rename="X", alias=["a"])`. -/
def RD : ClassDef :=
  { name := "RD", mro := ["RD"], fields := [{ name := "x", ty := .prim .int, rename := some "X", alias := ["a"], dflt := some (.int 5) }] }
/-- `t: tuple[None, None]`. -/
def T : ClassDef := { name := "T", mro := ["T"], fields := [{ name := "t", ty := .tuple [.none, .none] }] }
/-- A class without fields. -/
def E : ClassDef := { name := "E", mro := ["E"], fields := [] }
/-- `u: E | int | None` with `tagging=Untagged`. -/
def U : ClassDef :=
  { name := "U", mro := ["U"], tagging := .untagged, fields := [{ name := "u", ty := .union [.cls "E", .prim .int, .none] }] }

def env : Env := Ex.mk [("A", A), ("A2", A2), ("R", R), ("RD", RD), ("T", T), ("E", E), ("U", U)]

theorem not_recognised_A : ¬ Recognised env "A" "v" := by
  suffices H : ∀ k, Recognised env "A" k → k ≠ "v" from fun h => H _ h rfl
  rintro k h rfl
  generalize hk : "v" = k at h
  cases h with
  | own h1 h2 h3 h4 h5 h6 => cases h1; simp [A] at h3; subst h3; simp [FieldDef.conv, A, ← hk] at h6
  | child h1 h2 h3 h4 h5 h6 => cases h1; simp [A] at h3; subst h3; simp [inlined] at h5
  | transparent h1 h2 => cases h1; cases h2

theorem not_recognised_R : ¬ Recognised env "R" "x" := by
  suffices H : ∀ k, Recognised env "R" k → k ≠ "x" from fun h => H _ h rfl
  rintro k h rfl
  generalize hk : "x" = k at h
  cases h with
  | own h1 h2 h3 h4 h5 h6 => cases h1; simp [R] at h3; subst h3; simp [FieldDef.conv, ← hk] at h6
  | child h1 h2 h3 h4 h5 h6 => cases h1; simp [R] at h3; subst h3; simp [inlined] at h5
  | transparent h1 h2 => cases h1; cases h2

/-- C18 fails when a list field has an alias: the element code looks up the loop variable's name `"v"` in the input, so the
unknown key `"v"` is read. -/
theorem C18_false_alias_on_list : ¬ ∀ (env : Env) (c : ClassId) (cd : ClassDef) (k : String) (w : Val) (kvs : List (Val × Val)) (n : Nat),
    env.cls c = some cd → cd.transparent = false → cd.denyUnknown = false → (∀ f ∈ cd.fields, f.flatten = false) → ¬ Recognised env c k →
    fromDict env {} n (.cls c) (.dict .plain (kvs ++ [(.str k, w)])) = fromDict env {} n (.cls c) (.dict .plain kvs) := by
  intro h
  have := h env "A" A "v" (.int 9) [(.str "xs", .list [.int 1, .int 2])] 9 rfl rfl rfl (by intro f hf; simp [A] at hf; subst hf; rfl) not_recognised_A
  have h1 : fromDict env {} 9 (.cls "A") (.dict .plain ([(.str "xs", .list [.int 1, .int 2])] ++ [(.str "v", .int 9)])) =
    .ok (.inst "A" [("xs", .list [.int 9, .int 9])]) := rfl
  have h2 : fromDict env {} 9 (.cls "A") (.dict .plain [(.str "xs", .list [.int 1, .int 2])]) = .error (.wrap (.missing "xs")) := rfl
  rw [h1, h2] at this
  cases this

/-- C18 fails when a field has both a rename and an alias: the declared name is looked up although it is no key of the class. -/
theorem C18_false_alias_and_rename : ¬ ∀ (env : Env) (c : ClassId) (cd : ClassDef) (k : String) (w : Val) (kvs : List (Val × Val)) (n : Nat),
    env.cls c = some cd → cd.transparent = false → cd.denyUnknown = false → (∀ f ∈ cd.fields, f.flatten = false) →
    (∀ f ∈ cd.fields, f.alias = [] ∨ AliasTy f.ty) → ¬ Recognised env c k →
    fromDict env {} n (.cls c) (.dict .plain (kvs ++ [(.str k, w)])) = fromDict env {} n (.cls c) (.dict .plain kvs) := by
  intro h
  have := h env "R" R "x" (.int 9) [] 9 rfl rfl rfl (by intro f hf; simp [R] at hf; subst hf; rfl)
    (by intro f hf; simp [R] at hf; subst hf; exact .inr trivial) not_recognised_R
  have h1 : fromDict env {} 9 (.cls "R") (.dict .plain ([] ++ [(.str "x", .int 9)])) = .ok (.inst "R" [("x", .int 9)]) := rfl
  have h2 : fromDict env {} 9 (.cls "R") (.dict .plain []) = .error (.wrap (.missing "X")) := rfl
  rw [h1, h2] at this
  cases this

/-- C11 fails for the same reason: the value under a skipped field `v` ends up in the list. -/
theorem C11_false_alias_on_list : ¬ ∀ (env : Env) (c : ClassId) (cd : ClassDef) (f : FieldDef) (kvs kvs' : List (Val × Val)) (n : Nat),
    env.cls c = some cd → cd.transparent = false → f ∈ cd.fields → f.skipDe = true →
    (∀ g ∈ cd.fields, g.renderable = true → ∀ k ∈ g.name :: g.conv cd.deCase :: g.alias, k ≠ f.conv cd.deCase ∧ k ∉ f.alias) →
    kvs.filter (fun kv => !keyKnown (f.conv cd.deCase :: f.alias) kv.1) = kvs'.filter (fun kv => !keyKnown (f.conv cd.deCase :: f.alias) kv.1) →
    fromDict env {} n (.cls c) (.dict .plain kvs') = fromDict env {} n (.cls c) (.dict .plain kvs) := by
  intro h
  have := h env "A2" A2 { name := "v", ty := .prim .int, dflt := some (.int 0), skipDe := true }
    [(.str "xs", .list [.int 1]), (.str "v", .int 7)] [(.str "xs", .list [.int 1]), (.str "v", .int 9)] 9 rfl rfl (by simp [A2]) rfl
    (by intro g hg hr k hk
        simp [A2] at hg
        rcases hg with rfl | rfl
        · simp [FieldDef.conv, A2] at hk ⊢; rcases hk with rfl | rfl <;> simp
        · simp [FieldDef.renderable] at hr) rfl
  have h1 : fromDict env {} 9 (.cls "A2") (.dict .plain [(.str "xs", .list [.int 1]), (.str "v", .int 9)]) =
    .ok (.inst "A2" [("xs", .list [.int 9]), ("v", .int 0)]) := rfl
  have h2 : fromDict env {} 9 (.cls "A2") (.dict .plain [(.str "xs", .list [.int 1]), (.str "v", .int 7)]) =
    .ok (.inst "A2" [("xs", .list [.int 7]), ("v", .int 0)]) := rfl
  rw [h1, h2] at this
  cases this

/-- C08 fails for container fields: the alias of a list field is never looked up. -/
theorem C08_false_alias_on_list : ¬ ∀ (env : Env) (c : ClassId) (cd : ClassDef) (f : FieldDef) (k : String) (w : Val) (n : Nat),
    env.cls c = some cd → cd.fields = [f] → k ∈ f.alias →
    fromDict env {} n (.cls c) (.dict .plain [(.str k, w)]) ≠ .error (.wrap (.missing (f.conv cd.deCase))) := by
  intro h
  exact h env "A" A { name := "xs", ty := .list .list (.prim .int), alias := ["ys"] } "ys" (.list [.int 1]) 9 rfl rfl (by simp) rfl

/-- C15 fails when a field with a default has both a rename and an alias: its wire name is present, yet the default is used,
so the value is silently dropped. Likewise C09: `to_dict` writes exactly that key. -/
theorem C15_false_alias_and_rename : ∃ (obj : Val),
    toDict env {} 9 obj = .ok (.dict .plain [(.str "X", .int 3)]) ∧ obj = .inst "RD" [("x", .int 3)] ∧
    fromDict env {} 9 (.cls "RD") (.dict .plain [(.str "X", .int 3)]) = .ok (.inst "RD" [("x", .int 5)]) :=
  ⟨_, rfl, rfl, rfl⟩

/-- C09 fails without a default as well: the serialized form is rejected. -/
theorem C09_false_alias_and_rename :
    toDict env {} 9 (.inst "R" [("x", .int 3)]) = .ok (.dict .plain [(.str "X", .int 3)]) ∧
    fromDict env {} 9 (.cls "R") (.dict .plain [(.str "X", .int 3)]) = .error (.wrap (.missing "X")) :=
  ⟨rfl, rfl⟩

/-- C16, corner: a required field of type `tuple[None, None]` may be missing. -/
theorem C16_false_tuple_of_none :
    fromDict env {} 9 (.cls "T") (.dict .plain []) = .ok (.inst "T" [("t", .tuple [.none, .none])]) := rfl

/-- C17, corner: with an untagged class without fields as first member, an absent key gives that class, not None. -/
theorem C17_false_untagged_empty :
    fromDict env {} 9 (.cls "U") (.dict .plain []) = .ok (.inst "U" [("u", .inst "E" [])]) := rfl

end Verif.Findings
