import Verif.Spec.Emit
/-!
# Specification vocabulary: transparent classes
-/

namespace Verif.Spec

/-- `f` is the one field of a transparent class: a constructor parameter that is both serialized and deserialized, while all other
fields are no constructor parameters and take part in neither. -/
structure SoleField (fs : List FieldDef) (f : FieldDef) : Prop where
  mem : f ∈ fs
  init : f.init = true
  skip : f.skip = false
  skipSer : f.skipSer = false
  skipDe : f.skipDe = false
  others : ∀ g ∈ fs, g.name ≠ f.name → g.init = false ∧ (g.skip = true ∨ g.skipSer = true ∧ g.skipDe = true)

/-- The same field without skip rules and aliases, not flattened. -/
def bareField (f : FieldDef) : FieldDef := { withoutRules f with alias := [], flatten := false }

/-- The same class, not transparent, with bare fields. -/
def opaqueCopy (cd : ClassDef) : ClassDef :=
  { cd with transparent := false, denyUnknown := false, fields := cd.fields.map bareField }

end Verif.Spec
