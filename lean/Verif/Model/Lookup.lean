import Verif.Model.De
import Verif.Model.Collect
/-!
# Classes in generated code are found by name

A generated `from_dict`/`from_iter` calls the function of a nested dataclass as `Foo.__serde__.funcs[..](..)`, and `Foo` is looked up in
the globals of the function.  Every class collected by `iter_types` is put there under its bare name, from a set, so that of several classes
with one name an arbitrary one is found.  `Model/De.lean` calls the class itself; the layer below takes the lookup as a parameter.
-/

namespace Verif

/-- In the functions of a class, the class that is found for (the name of) a class. /repo/serde/de.py:343-357, 1055-1060. -/
abbrev Lookup := ClassId → ClassId → ClassId

/-- A lookup finds a class that was collected and has this name; which one is not determined. It is not used for anything but collected classes.
Simplified: a class that is a field of itself is called as `cls`, so that in that place the lookup does not apply.
/repo/serde/de.py:343-357, 1055-1060. -/
def Lookup.Ok (env : Env) (ρ : Lookup) : Prop :=
  ∀ c d, ρ c d = d ∨ ∃ R cd cd', iterTypes env c = some R ∧ TypeItem.cls d ∈ R ∧ TypeItem.cls (ρ c d) ∈ R ∧ env.cls d = some cd ∧
    env.cls (ρ c d) = some cd' ∧ cd'.name = cd.name

/-- In the functions of a class; `from_obj` is given classes, not names. Simplified: so are the wrapper classes of `Cache`. -/
def Lookup.inside (ρ : Lookup) : Option ClassId → ClassId → ClassId
  | some c, d => ρ c d
  | Option.none, d => d

/-- The recursive entry points, `render` with the class in whose function the code stands. -/
structure NDeRec where
  render : Option ClassId → DeCx → DeArg → Res Val
  cls : Bool → ClassId → DeCall → Val → Res Val
  fromObj : Bool → Option Bool → Option (Val → Except PErr Val) → Tagging → Ty → Val → Res Val

/-- The entry points as they are called in the functions of a class. Simplified: enums, and the check of the value in union functions, are not
looked up by name. /repo/serde/de.py:1060. -/
def NDeRec.at (R : NDeRec) (ρ : Lookup) (c : Option ClassId) : DeRec :=
  { render := R.render c, cls := fun named d o x => R.cls named (ρ.inside c d) o x, fromObj := R.fromObj }

/-- Deserialization with `n` units of fuel, nested classes found by name. /repo/serde/de.py:1060. -/
def deNAt (env : Env) (ρ : Lookup) : Nat → NDeRec
  | 0 => { render := fun _ _ _ => .error .fuel, cls := fun _ _ _ _ => .error .fuel, fromObj := fun _ _ _ _ _ _ => .error .fuel }
  | n + 1 => { render := fun c => deRenderF env ((deNAt env ρ n).at ρ c),
               cls := fun named c o d => deClsF env ((deNAt env ρ n).at ρ (some c)) named c o d,
               fromObj := fromObjF env ((deNAt env ρ n).at ρ Option.none) }

/-- `from_dict`, nested classes found by name. -/
def fromDictN (env : Env) (ρ : Lookup) (o : DeOpts) (n : Nat) (c : Ty) (d : Val) : Res Val :=
  (deNAt env ρ n).fromObj true o.reuse o.numbers o.tagging c d

/-- `from_tuple`, nested classes found by name. -/
def fromTupleN (env : Env) (ρ : Lookup) (o : DeOpts) (n : Nat) (c : Ty) (d : Val) : Res Val :=
  (deNAt env ρ n).fromObj false o.reuse o.numbers o.tagging c d

end Verif
