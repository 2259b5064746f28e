import Verif.Spec.Emit
/-!
# Specification vocabulary: flattening
-/

namespace Verif.Spec

/-- The field is a flattened dict, or inlines (at some depth) a dataclass that has one. -/
inductive HasRest (env : Env) : FieldDef → Prop
  | own {f} : takesRest f = true → HasRest env f
  | child {f ch chd g} : inlined f = some ch → env.cls ch = some chd → g ∈ chd.fields → HasRest env g → HasRest env f

/-- The same class without the field called `nm`. -/
def withoutField (nm : String) (cd : ClassDef) : ClassDef := { cd with fields := cd.fields.filter (fun g => g.name != nm) }

/-- The same class with `f` as its only field, not flattened and without skip rules. -/
def onlyField (f : FieldDef) (cd : ClassDef) : ClassDef := { cd with fields := [withoutRules { f with flatten := false }] }

/-- No two keys of the entries are equal. -/
def KeysDiffer (kvs : List (Val × Val)) : Prop := kvs.Pairwise (fun a b => pyEq a.1 b.1 = false)

/-- Data as produced by a JSON-like parser: null, booleans, numbers, strings, lists and dicts of such data. -/
inductive PlainData : Val → Prop
  | none : PlainData .none
  | bool b : PlainData (.bool b)
  | int i : PlainData (.int i)
  | float x : PlainData (.float x)
  | str s : PlainData (.str s)
  | list {xs} : (∀ x ∈ xs, PlainData x) → PlainData (.list xs)
  | dict {kvs} : (∀ e ∈ kvs, PlainData e.2) → PlainData (.dict .plain kvs)

end Verif.Spec
