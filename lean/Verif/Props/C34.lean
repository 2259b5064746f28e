import Verif.Lemmas.FromDict
import Verif.Examples.World
/-!
# C34, C35: error discipline
-/

namespace Verif.Props
open Spec

/-- Common part of C34 for both modes. -/
theorem fromObj_cls_errors {env : Env} {named : Bool} {re nu tg n c d e}
    (h : (deAt env n).fromObj named re nu tg (.cls c) d = .error e) :
    e = .fuel ∨ e.isSerde = true ∨ PostInitRaises env e ∨ BadCall named env e := by
  cases n with
  | zero => cases h; exact .inl rfl
  | succ n =>
    rw [deAt_fromObj] at h
    unfold fromObjF at h
    dsimp only at h
    split at h
    · cases h
    · have hb := fromObjBody_errIn (userOk_base named env) (deAt_errOk (userOk_base named env) n) named re nu (.cls c) (.cls c) d
        (.inr rfl)
      unfold wrapUser at h
      split at h
      · cases h
      · cases h; exact .inl rfl
      · rename_i x hx
        cases h
        rcases hb _ hx _ rfl with h | h | h
        · exact .inr (.inl h)
        · exact .inr (.inr (.inl h))
        · exact .inr (.inr (.inr h))
      · cases h; exact .inr (.inl rfl)

/-- **C34** (`from_dict`). Whatever the class and the input, `from_dict` returns an object or raises a `SerdeError`, or the
exception that some class's own `__post_init__` raised, or the `TypeError` with which a class's own `__init__` rejects a call because it
has a parameter without default that the user told pyserde not to fill. (`fuel` is the model's recursion budget.) -/
theorem C34_from_dict {env : Env} {o : DeOpts} {n c d e} (h : fromDict env o n (.cls c) d = .error e) :
    e = .fuel ∨ e.isSerde = true ∨ PostInitRaises env e ∨ BadCall true env e :=
  fromObj_cls_errors h

/-- **C34** (`from_tuple`). -/
theorem C34_from_tuple {env : Env} {o : DeOpts} {n c d e} (h : fromTuple env o n (.cls c) d = .error e) :
    e = .fuel ∨ e.isSerde = true ∨ PostInitRaises env e ∨ BadCall false env e :=
  fromObj_cls_errors h

/-- **C34**, the case without user code: if no class has a `__post_init__` and every `__init__` parameter is either read from
the input or has a default, `from_dict` raises nothing but `SerdeError`: no KeyError, TypeError, AttributeError, ... escapes. -/
theorem C34_only_serde {env : Env} {o : DeOpts} {n c d e} (hp : ∀ c cd, env.cls c = some cd → cd.postInit = none)
    (hs : ∀ c cd, env.cls c = some cd → SigOk true cd) (h : fromDict env o n (.cls c) d = .error e) :
    e = .fuel ∨ e.isSerde = true := by
  rcases C34_from_dict h with h | h | ⟨c', cd, p, _, _, hc, hpp, _⟩ | ⟨_, c', cd, hc, hns⟩
  · exact .inl h
  · exact .inr h
  · rw [hp c' cd hc] at hpp; cases hpp
  · exact absurd (hs c' cd hc) hns

/-- **C35**: `to_dict` returns a value or raises `SerdeError`. -/
theorem C35_to_dict {env : Env} {o : SeOpts} {n v e} (h : toDict env o n v = .error e) : e = .fuel ∨ e.isSerde = true := by
  cases n with
  | zero => cases h; exact .inl rfl
  | succ n =>
    unfold toDict at h
    rw [seAt_toObj] at h
    unfold toObjF wrapAll at h
    split at h <;> cases h
    · exact .inl rfl
    · exact .inr rfl

/-- **C35** for `to_tuple`. -/
theorem C35_to_tuple {env : Env} {o : SeOpts} {n v e} (h : toTuple env o n v = .error e) : e = .fuel ∨ e.isSerde = true := by
  cases n with
  | zero => cases h; exact .inl rfl
  | succ n =>
    unfold toTuple at h
    rw [seAt_toObj] at h
    unfold toObjF wrapAll at h
    split at h <;> cases h
    · exact .inl rfl
    · exact .inr rfl

/-! ## Examples: the theorems' hypotheses are met -/

namespace C34Ex

/-- `class P: x: int; l: list[int]` with strict checking. -/
def P : ClassDef := { name := "P", mro := ["P"], fields := [{ name := "x", ty := .prim .int }, { name := "l", ty := .list .list (.prim .int) }] }
/-- `class Q: x: int` whose `__post_init__` rejects everything with ValueError. -/
def Q : ClassDef := { name := "Q", mro := ["Q"], fields := [{ name := "x", ty := .prim .int }], postInit := some (fun _ => .error .value) }
def env : Env := Ex.mk [("P", P), ("Q", Q)]

/-- A malformed input: the field `l` is a number, `for v in 3` raises TypeError inside, SerdeError comes out. -/
example : fromDict env {} 6 (.cls "P") (.dict .plain [(.str "x", .int 1), (.str "l", .int 3)]) = .error (.wrap (.py .type)) := rfl
/-- The input is not even a dict. -/
example : fromDict env {} 6 (.cls "P") (.int 3) = .error (.wrap (.py .type)) := rfl
/-- The user's exception. -/
example : fromDict env {} 6 (.cls "Q") (.dict .plain [(.str "x", .int 1)]) = .error (.py .value) := rfl
example : fromTuple env {} 6 (.cls "P") (.list [.int 3]) = .error (.wrap (.py .index)) := rfl
example : toDict env {} 6 (.inst "P" [("x", .int 3)]) = .error (.wrap (.py .attr)) := rfl
example : toTuple env {} 6 (.inst "P" [("x", .int 3), ("l", .int 4)]) = .error (.wrap (.py .type)) := rfl

example : (Exc.wrap (.py .type)) = .fuel ∨ (Exc.wrap (.py .type)).isSerde = true :=
  C35_to_tuple (env := env) (o := {}) (n := 6) (v := .inst "P" [("x", .int 3), ("l", .int 4)]) rfl

/-- The hypotheses of `C34_only_serde` hold of a concrete table. -/
example : let env := Ex.mk [("P", P)]
    (∀ c cd, env.cls c = some cd → cd.postInit = none) ∧ (∀ c cd, env.cls c = some cd → SigOk true cd) := by
  have key : ∀ c cd, (Ex.mk [("P", P)]).cls c = some cd → cd = P := by
    intro c cd h
    simp only [Ex.mk, Env.cls, List.lookup] at h
    split at h
    · simpa using h.symm
    · cases h
  refine ⟨fun c cd h => by rw [key c cd h]; rfl, fun c cd h => ?_⟩
  rw [key c cd h]
  refine ⟨fun f hf _ => ?_, fun h => by cases h⟩
  simp [P] at hf
  rcases hf with rfl | rfl <;> simp

end C34Ex
end Verif.Props
