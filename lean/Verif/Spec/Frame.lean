import Verif.Spec.Names
/-!
# Specification vocabulary: which keys of the input a class looks at
-/

namespace Verif.Spec

/-- The types for which aliases are implemented: primitives, NewTypes of them and enums, possibly Optional. -/
def AliasTy : Ty → Prop
  | .prim _ => True
  | .newType _ _ => True
  | .enum _ => True
  | .union [.prim _, .none] => True
  | .union [.newType _ _, .none] => True
  | .union [.enum _, .none] => True
  | _ => False

/-- Keys of the input that may influence `from_dict` of class `c`: the wire names of its deserialized fields; for a field
with aliases also its declared name and the aliases; the keys of dataclasses flattened into it; and for an Optional or
defaulted flattened dataclass also the declared names and aliases of that class's fields. -/
inductive Reads (env : Env) : ClassId → String → Prop
  | wire {c cd f} : env.cls c = some cd → f ∈ cd.fields → f.renderable = true → inlined f = none →
      Reads env c (f.conv cd.deCase)
  | alias {c cd f k} : env.cls c = some cd → f ∈ cd.fields → f.renderable = true → f.alias ≠ [] →
      (k = f.name ∨ k ∈ f.alias) → Reads env c k
  | child {c cd f ch k} : env.cls c = some cd → f ∈ cd.fields → f.renderable = true → inlined f = some ch →
      Reads env ch k → Reads env c k
  | probe {c cd f ch chd g k} : env.cls c = some cd → f ∈ cd.fields → f.renderable = true → inlined f = some ch →
      env.cls ch = some chd → g ∈ chd.fields → (k = g.name ∨ k ∈ g.alias) → Reads env c k

/-- Field options for which the dict template reads nothing but the keys of `Reads`: aliases only on types that implement
them, `flatten` only on dataclasses, no custom deserializer on a flattened dataclass. -/
structure FieldReadsOk (env : Env) (cd : ClassDef) (f : FieldDef) : Prop where
  alias : f.alias = [] ∨ AliasTy f.ty
  rest : takesRest f = false
  flat : f.flatten = true → (inlined f).isSome
  plain : ∀ ch, inlined f = some ch → f.deserializer = none ∧ f.alias = [] ∧
    ∀ s ∈ env.gde ++ cd.classDe.toList, s.handles f.ty = false ∧ s.handles (.cls ch) = false

end Verif.Spec
