import Verif.Spec.Lookup
import Verif.Props.C46
import Verif.Examples.World
/-!
# C65: classes with the same name

Full statement: "from_dict reads the data of a field with the dataclass in its annotation. Another dataclass that happens to have the same name (in another
module) and is used in the same class, or in a class it uses, has no influence."

The generated code finds nested dataclasses by their bare names. Proved (partial): the statement holds when the dataclasses that a class uses, directly or
through other classes, have different names. It is false otherwise: an object of the other class is returned (`C65_false_object`), valid data is refused
(`C65_false_refused`), and which class is found depends on the order of a set (`C65_false_order`).
-/

namespace Verif.Props
open Verif Spec

theorem lookup_unique {env : Env} {ρ : Lookup} (hn : UniqueNames env) (hρ : ρ.Ok env) (c d : ClassId) : ρ c d = d := by
  rcases hρ c d with h | ⟨R, cd, cd', hR, h1, h2, h3, h4, h5⟩
  · exact h
  · obtain ⟨R', hR', -, hall⟩ := C46_types (env := env) (c := c)
    rw [hR] at hR'
    cases hR'
    have reach : ∀ k, TypeItem.cls k ∈ R → Reach env true (.cls c) (.cls k) := by
      intro k hk
      rcases hall _ hk with h | ⟨u, hu, hi⟩
      · cases h
      · cases u <;> simp only [itemOf, Option.some.injEq, TypeItem.cls.injEq, reduceCtorEq] at hi
        rw [← hi]
        exact hu
    exact hn c (ρ c d) d cd' cd (reach _ h2) (reach _ h1) h4 h3 h5

theorem deNAt_unique {env : Env} {ρ : Lookup} (h : ∀ c d, ρ c d = d) : ∀ n c, (deNAt env ρ n).at ρ c = deAt env n
  | 0, _ => rfl
  | n + 1, c => by
    have hi : ∀ c d, ρ.inside c d = d := by
      intro c d
      cases c with
      | none => rfl
      | some c => exact h c d
    show ({ render := deRenderF env ((deNAt env ρ n).at ρ c),
            cls := fun named d o x => deClsF env ((deNAt env ρ n).at ρ (some (ρ.inside c d))) named (ρ.inside c d) o x,
            fromObj := fromObjF env ((deNAt env ρ n).at ρ Option.none) } : DeRec) = _
    simp only [deNAt_unique h n, hi]
    rfl

/-- **C65** When the classes used by a class have different names, finding them by name makes no difference. -/
theorem C65_unique_partial {env : Env} {ρ : Lookup} (hn : UniqueNames env) (hρ : ρ.Ok env) (o : DeOpts) (n : Nat) (t : Ty) (d : Val) :
    fromDictN env ρ o n t d = fromDict env o n t d ∧ fromTupleN env ρ o n t d = fromTuple env o n t d := by
  have h := deNAt_unique (env := env) (lookup_unique hn hρ) n none
  exact ⟨congrArg (fun r : DeRec => r.fromObj true o.reuse o.numbers o.tagging t d) h,
    congrArg (fun r : DeRec => r.fromObj false o.reuse o.numbers o.tagging t d) h⟩

/-! ## Examples -/

namespace C65Ex

/-- `a.Config` has `x: int`; `b.Config` has `x: int`, `y: int = 0`. -/
def cfgA (nm : String) : ClassDef := { name := nm, mro := ["a.Config"], fields := [{ name := "x", ty := .prim .int }] }
def cfgB (nm : String) : ClassDef := { name := nm, mro := ["b.Config"], fields := [{ name := "x", ty := .prim .int }, { name := "y", ty := .prim .int, dflt := some (.int 0) }] }
/-- `class Root: cfg: a.Config; child: Child` and `class Child: cfg: b.Config`. -/
def child : ClassDef := { name := "Child", mro := ["Child"], fields := [{ name := "cfg", ty := .cls "b.Config" }] }
def root (tc : TypeCheck) : ClassDef :=
  { name := "Root", mro := ["Root"], fields := [{ name := "cfg", ty := .cls "a.Config" }, { name := "child", ty := .cls "Child" }], typeCheck := tc }
def env (tc : TypeCheck) (na nb : String) : Env := Ex.mk [("Root", root tc), ("Child", child), ("a.Config", cfgA na), ("b.Config", cfgB nb)]

/-- Of the two classes named `Config` the functions of `Root` find `b.Config`. -/
def ρ : Lookup := fun c d => if c == "Root" && d == "a.Config" then "b.Config" else d

theorem ρ_ok (tc : TypeCheck) : ρ.Ok (env tc "Config" "Config") := by
  intro c d
  by_cases h : (c == "Root" && d == "a.Config") = true
  · rw [Bool.and_eq_true, beq_iff_eq, beq_iff_eq] at h
    obtain ⟨rfl, rfl⟩ := h
    refine .inr ⟨_, cfgA "Config", cfgB "Config", rfl, ?_, ?_, rfl, rfl, rfl⟩
    · exact .tail _ (.tail _ (.tail _ (.tail _ (.tail _ (.head _)))))
    · exact .tail _ (.tail _ (.head _))
  · left
    unfold ρ
    rw [if_neg h]

theorem id_ok (env : Env) : Lookup.Ok env (fun _ d => d) := fun _ _ => .inl rfl

/-- `{"cfg": {"x": 1}, "child": {"cfg": {"x": 2}}}`. -/
def dat : Val := .dict .plain [(.str "cfg", .dict .plain [(.str "x", .int 1)]), (.str "child", .dict .plain [(.str "cfg", .dict .plain [(.str "x", .int 2)])])]
def cfgObjA : Val := .inst "a.Config" [("x", .int 1)]
def cfgObjB (i : Int) : Val := .inst "b.Config" [("x", .int i), ("y", .int 0)]
def good : Val := .inst "Root" [("cfg", cfgObjA), ("child", .inst "Child" [("cfg", cfgObjB 2)])]
def bad : Val := .inst "Root" [("cfg", cfgObjB 1), ("child", .inst "Child" [("cfg", cfgObjB 2)])]

theorem cls_cases {tc na nb c cd} (h : (env tc na nb).cls c = some cd) :
    (c = "Root" ∧ cd = root tc) ∨ (c = "Child" ∧ cd = child) ∨ (c = "a.Config" ∧ cd = cfgA na) ∨ (c = "b.Config" ∧ cd = cfgB nb) := by
  simp only [Env.cls, env, Ex.mk, List.lookup_cons, List.lookup_nil] at h
  split at h
  · next hc => rw [beq_iff_eq] at hc; cases h; exact .inl ⟨hc, rfl⟩
  · split at h
    · next hc => rw [beq_iff_eq] at hc; cases h; exact .inr (.inl ⟨hc, rfl⟩)
    · split at h
      · next hc => rw [beq_iff_eq] at hc; cases h; exact .inr (.inr (.inl ⟨hc, rfl⟩))
      · split at h
        · next hc => rw [beq_iff_eq] at hc; cases h; exact .inr (.inr (.inr ⟨hc, rfl⟩))
        · cases h

/-- With different names the classes are told apart. -/
theorem unique : UniqueNames (env .strict "ConfigA" "ConfigB") := by
  intro c d e cd ce _ _ hd he hn
  rcases cls_cases hd with ⟨rfl, rfl⟩ | ⟨rfl, rfl⟩ | ⟨rfl, rfl⟩ | ⟨rfl, rfl⟩ <;>
    rcases cls_cases he with ⟨rfl, rfl⟩ | ⟨rfl, rfl⟩ | ⟨rfl, rfl⟩ | ⟨rfl, rfl⟩ <;> first
    | rfl
    | exact absurd hn (by decide)

example {ρ : Lookup} (hρ : ρ.Ok (env .strict "ConfigA" "ConfigB")) : fromDictN (env .strict "ConfigA" "ConfigB") ρ {} 12 (.cls "Root") dat = .ok good :=
  (C65_unique_partial unique hρ {} 12 (.cls "Root") dat).1.trans rfl

end C65Ex

open C65Ex in
/-- The statement is false: the field annotated with one class gets an object of the other one. -/
theorem C65_false_object : ∃ (env : Env) (ρ : Lookup) (cd : ClassDef) (f : FieldDef) (d v : Val), ρ.Ok env ∧ env.cls "Root" = some cd ∧ f ∈ cd.fields ∧
    f.ty = .cls "a.Config" ∧ fromDictN env ρ {} 12 (.cls "Root") d = .ok v ∧ getAttr v f.name = .ok (.inst "b.Config" [("x", .int 1), ("y", .int 0)]) ∧
    ∃ u, fromDict env {} 12 (.cls "Root") d = .ok u ∧ getAttr u f.name = .ok (.inst "a.Config" [("x", .int 1)]) :=
  ⟨env .disabled "Config" "Config", ρ, root .disabled, { name := "cfg", ty := .cls "a.Config" }, dat, bad, ρ_ok .disabled, rfl, .head _, rfl, rfl, rfl, good, rfl, rfl⟩

open C65Ex in
/-- In a strict class valid data is refused: what to_dict gives cannot be read back. -/
theorem C65_false_refused : ∃ (env : Env) (ρ : Lookup) (v d : Val), ρ.Ok env ∧ toDict env {} 12 v = .ok d ∧ fromDict env {} 12 (.cls "Root") d = .ok v ∧
    ∀ n w, fromDictN env ρ {} n (.cls "Root") d ≠ .ok w := by
  refine ⟨env .strict "Config" "Config", ρ, good, _, ρ_ok .strict, rfl, rfl, ?_⟩
  intro n w h
  match n, h with
  | 0, h => cases h
  | 1, h => cases h
  | 2, h => cases h
  | 3, h => cases h
  | 4, h => cases h
  | 5, h => cases h
  | 6, h => cases h
  | n + 7, h => cases h

open C65Ex in
/-- Which class is found depends on the order of a set: two runs of the same program read the same data differently. -/
theorem C65_false_order : ∃ (env : Env) (ρ ρ' : Lookup) (d v v' : Val), ρ.Ok env ∧ ρ'.Ok env ∧ fromDictN env ρ {} 12 (.cls "Root") d = .ok v ∧
    fromDictN env ρ' {} 12 (.cls "Root") d = .ok v' ∧ v ≠ v' := by
  refine ⟨env .disabled "Config" "Config", ρ, fun _ d => d, dat, bad, good, ρ_ok .disabled, id_ok _, rfl, rfl, ?_⟩
  intro h
  simp [bad, good, cfgObjA, cfgObjB] at h

end Verif.Props
