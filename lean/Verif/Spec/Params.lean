import Verif.Model.Params
/-!
# Specification vocabulary: the parameters of a generic class
-/

namespace Verif.Spec

/-- Each name where it occurs first. -/
def firsts : List String → List String
  | [] => []
  | x :: xs => x :: (firsts xs).filter (fun y => y != x)

/-- The parameters of a class, as Python defines them (PEP 484): those of `Generic[...]` if it is among the bases, otherwise all type variables
in the arguments of the bases, each where it occurs first. -/
def parameters (bases : List OrigBase) : List String :=
  match bases.find? (·.generic) with
  | some b => b.args.flatMap (·.vars)
  | none => firsts (bases.flatMap (fun b => b.args.flatMap (·.vars)))

/-- A base that has been given type variables, all different. -/
structure VarBase (b : OrigBase) (xs : List String) : Prop where
  args : b.args = xs.map (fun x => { name := some x, vars := [x], isVar := true })
  distinct : xs.Nodup

/-- The class has one base with arguments, which are its parameters; the other bases are ordinary classes. -/
structure OneBase (bases : List OrigBase) (xs : List String) : Prop where
  split : ∃ pre b post, bases = pre ++ b :: post ∧ VarBase b xs ∧ (∀ a ∈ pre ++ post, a.args = [] ∧ a.generic = false)

end Verif.Spec
