import Verif.Model.De
/-!
# Type variables of generic classes

Models `get_type_var_names`, `find_generic_arg` and `get_generic_arg` on the bases of a class as Python records them. The reader
(`Model/De.lean`) works with one list of variables per class; `Props/C78.lean` shows for which classes that is the same.
-/

namespace Verif

/-- An argument of a subscripted base class: its `__name__`, if it has one (`int | str` has none), and the type variables in it, in order.
A type variable has its own name and is its only variable. The builtin attributes used at /repo/serde/compat.py:1101, 1129. -/
structure BaseArg where
  name : Option String
  vars : List String
  isVar : Bool := false

/-- One entry of `__orig_bases__`, as `get_args` (/repo/serde/compat.py:1101, 1128) sees it. `generic` says that it is `Generic[...]` itself. -/
structure OrigBase where
  generic : Bool := false
  args : List BaseArg := []

/-- `get_type_var_names`, /repo/serde/compat.py:1083-1103. -/
def typeVarNames (bases : List OrigBase) : Option (List String) :=
  if bases.isEmpty then none else some (bases.flatMap (fun b => b.args.filterMap (·.name)))

/-- The inner loop of `find_generic_arg`, /repo/serde/compat.py:1128-1130: the position of the argument with that name. An argument without
`__name__` raises AttributeError. -/
def findInArgs (x : String) : Nat → List BaseArg → Except PErr (Option Nat)
  | _, [] => .ok none
  | i, a :: as => match a.name with
    | none => .error .attr
    | some n => if n == x then .ok (some i) else findInArgs x (i + 1) as

/-- The outer loop of `find_generic_arg`, /repo/serde/compat.py:1127-1130. Positions are counted from 0 again in every base. -/
def findInBases (x : String) : List OrigBase → Except PErr (Option Nat)
  | [] => .ok none
  | b :: bs => match findInArgs x 0 b.args with
    | .error e => .error e
    | .ok (some i) => .ok (some i)
    | .ok none => findInBases x bs

/-- `find_generic_arg`, /repo/serde/compat.py:1106-1135; `none` is `-1`. -/
def findArg (bases : List OrigBase) (x : String) : Except PErr (Option Nat) :=
  if bases.isEmpty then .error (.raised "Exception") else findInBases x bases

/-- How a type variable was declared; decides how it prints. -/
inductive Variance where
  | invariant | covariant | contravariant

/-- `str(t).lstrip("~")` of a type variable, /repo/serde/de.py:1048. Python prints a variable with the sign of its variance in front, and only
`~` is removed. -/
def varStr : Variance → String → String
  | .invariant, x => x
  | .covariant, x => "+" ++ x
  | .contravariant, x => "-" ++ x

/-- A generic class as these functions see it: its name and its bases. -/
structure GenericClass where
  name : ClassId
  bases : List OrigBase

/-- The annotation that a field is read with which is annotated by the variable `x` in the class with the bases `inner`. `top` is the class that
`from_dict` was given, subscripted with `args`; its field is annotated with the inner class, subscripted with the variables `passed`.
`from_obj(get_generic_arg(maybe_generic, maybe_generic_type_vars, variable_type_args, index), …)`, /repo/serde/de.py:986-992, 1048-1053,
1375, /repo/serde/compat.py:1137-1177. -/
def argAt (top : GenericClass) (args : List Ty) (passed : List (Variance × String)) (inner : List OrigBase) (x : String) : Res Ty :=
  match findArg inner x with
  | .error e => .error (.py e)
  | .ok i => getGenericArg (some (.gen top.name args)) (typeVarNames top.bases) (some (passed.map (fun p => varStr p.1 p.2))) i

end Verif
