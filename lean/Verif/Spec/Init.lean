import Verif.Model.Init
/-!
# Parameters of `__init__` that fit the fields
-/

namespace Verif.Spec

/-- The parameter that belongs to a field. -/
def paramOf (f : FieldDef) : Param := { name := f.name, ty := f.ty, kwOnly := f.kwOnly, dflt := f.dflt }

/-- The parameters `ps` fit the fields: every field that is set by `__init__` has its parameter, and what is left over (init variables) has a default and
comes after the positional fields. -/
structure InitFits (fields : List FieldDef) (ps : List Param) : Prop where
  fieldNames : (fields.map FieldDef.name).Nodup
  paramNames : (ps.map Param.name).Nodup
  /-- the positional fields come first, in their order -/
  positional : ∃ xs, (ps.filter fun p => !p.kwOnly) = (fields.filter fun f => f.init && !f.kwOnly).map paramOf ++ xs ∧
    (xs = [] ∨ ∀ f ∈ fields, f.renderable = true → f.kwOnly = false)
  own : ∀ f ∈ fields, f.init = true → paramOf f ∈ ps
  extra : ∀ p ∈ ps, (∃ f ∈ fields, f.init = true ∧ p = paramOf f) ∨ (p.dflt.isSome = true ∧ p.name ∉ fields.map FieldDef.name)

/-- The values `vs` given for the fields `fs` go where they belong: each to the parameter with the name of its field; all other parameters get
their default. -/
structure BoundRight (fs : List FieldDef) (vs : List Val) (ps : List Param) (bound : List (String × Val)) : Prop where
  own : ∀ f v, (f, v) ∈ fs.zip vs → bound.lookup f.name = some v
  other : ∀ p ∈ ps, p.name ∉ fs.map FieldDef.name → bound.lookup p.name = p.dflt

end Verif.Spec
