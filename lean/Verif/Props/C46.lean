import Verif.Lemmas.CollectTypes
import Verif.Examples.World
/-!
# C46 Collection of types terminates and is complete

`Reach` (Spec/Collect) is reachability through union members, containers, fields without `skip=True` and PEP 695 aliases; the class
graph may be cyclic. `iter_unions` and `iter_types` find exactly what is reachable. `iter_literals` does not look through PEP 695
aliases: a literal behind one is missed (`C46_false_literal_alias`), so that part is proved for reachability without aliases.
-/

namespace Verif.Props
open Verif Verif.Spec

/-- **C46** (unions) `iter_unions` lists exactly the unions reachable from the class, and no bound on the nesting of classes is
ever reached: any larger bound gives the same list. -/
theorem C46_unions {env : Env} {c : ClassId} :
    (∀ us, us ∈ env.unionsOf c ↔ Reach env true (.cls c) (.union us)) ∧
    ∀ n, env.classes.length < n → unionsCls env n [] c = env.unionsOf c :=
  ⟨fun _ => unionsOf_iff, fun n hn => congrFun (unionsCls_fuel n _ [] (Nat.lt_of_le_of_lt freeClasses_le hn) (Nat.lt_succ_of_le freeClasses_le)) c⟩

/-- **C46** (literals) `iter_literals` lists exactly the literals reachable without passing through a PEP 695 alias. -/
theorem C46_literals_partial {env : Env} {c : ClassId} :
    (∀ vs, vs ∈ env.litsOf c ↔ Reach env false (.cls c) (.lit vs)) ∧
    ∀ n, env.classes.length < n → litsCls env n [] c = env.litsOf c :=
  ⟨fun _ => litsOf_iff, fun n hn => congrFun (litsCls_fuel n _ [] (Nat.lt_of_le_of_lt freeClasses_le hn) (Nat.lt_succ_of_le freeClasses_le)) c⟩

/-- **C46** (types) `iter_types` finishes on every family of classes, and its set holds the item of everything reachable and nothing
else (`NoneType` is listed only when it is not the `None` of an Optional). -/
theorem C46_types {env : Env} {c : ClassId} :
    ∃ R, iterTypes env c = some R ∧ (∀ u i, Reach env true (.cls c) u → itemOf u = some i → i ∈ R) ∧
      ∀ i ∈ R, i = .leaf .none ∨ ∃ u, Reach env true (.cls c) u ∧ itemOf u = some i := by
  obtain ⟨R, h⟩ := typesCls_total (env := env) (env.classes.length + 1) c [] (Nat.lt_succ_of_le freeClasses_le)
  obtain ⟨hg, hc⟩ := typesCls_good _ _ _ _ h
  refine ⟨R, h, fun u i hr hi => ?_, fun i hi => ?_⟩
  · refine reach_closed (fun d hd => ?_) hr hc u i .refl hi
    rcases hg.closed d hd with h | h
    · cases h
    · exact h
  · rcases typesCls_sound _ _ _ _ h i hi with h | ⟨u, hu, h | ⟨_, h⟩⟩
    · cases h
    · exact .inr ⟨u, hu, h⟩
    · exact .inl h

/-! ## Examples -/

namespace C46Ex

/-- Two classes referring to each other, with a union behind the cycle. -/
def env : Env := Ex.mk [
  ("A", { name := "A", mro := ["A"], fields := [{ name := "b", ty := .list .list (.cls "B") }] }),
  ("B", { name := "B", mro := ["B"], fields := [{ name := "a", ty := .union [.cls "A", .none] },
    { name := "u", ty := .dict .dict (.prim .str) (.union [.prim .int, .prim .str]) },
    { name := "l", ty := .alias "L" (.lit [.str "x"]) }] }),
  ("C", { name := "C", mro := ["C"], fields := [{ name := "k", ty := .list .list (.lit [.str "y"]) }, { name := "a", ty := .cls "A" }] })]

example : [Ty.prim .int, .prim .str] ∈ env.unionsOf "A" :=
  C46_unions.1 _ |>.2 (.step (.field (f := { name := "b", ty := .list .list (.cls "B") }) rfl (by simp) rfl)
    (.step .list (.step (.field (f := { name := "u", ty := .dict .dict (.prim .str) (.union [.prim .int, .prim .str]) }) rfl (by simp) rfl)
      (.step .value .refl))))

/-- A literal in a list. -/
example : [Val.str "y"] ∈ env.litsOf "C" :=
  C46_literals_partial.1 _ |>.2 (.step (.field (f := { name := "k", ty := .list .list (.lit [.str "y"]) }) rfl (by simp) rfl) (.step .list .refl))

end C46Ex

/-- **C46 fails for literals behind a PEP 695 alias** (`type L = Literal["x"]`): such a literal is reachable but not collected. -/
theorem C46_false_literal_alias :
    ∃ env c vs, Reach env true (.cls c) (.lit vs) ∧ vs ∉ env.litsOf c := by
  refine ⟨C46Ex.env, "B", [.str "x"], ?_, ?_⟩
  · exact .step (.field (f := { name := "l", ty := .alias "L" (.lit [.str "x"]) }) rfl (by simp) rfl) (.step (.alias rfl) .refl)
  · have : C46Ex.env.litsOf "B" = [] := rfl
    rw [this]; simp

end Verif.Props
