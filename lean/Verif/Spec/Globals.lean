import Verif.Model.Globals
/-!
# Which functions of fields can be mistaken for each other
-/

namespace Verif.Spec

/-- An annotation whose dataclass is spliced by flatten: the dataclass or an Optional of it. -/
inductive Splices : Ty → ClassId → Prop
  | cls {c} : Splices (.cls c) c
  | opt {c} : Splices (.union [.cls c, .none]) c

/-- The fields of `d` are written by the functions of `c`: `d` is `c`, or the dataclass of a flattened field of such a class. -/
inductive WrittenBy (env : Env) (c : ClassId) : ClassId → Prop
  | self : WrittenBy env c c
  | child {d cd f e} : WrittenBy env c d → env.cls d = some cd → f ∈ cd.fields → f.flatten = true → Splices f.ty e → WrittenBy env c e

/-- Two fields have functions of the same kind that differ: serializers, skip_if predicates, or default values to be left out. -/
inductive Differ (cd : ClassDef) (f : FieldDef) (cd' : ClassDef) (f' : FieldDef) : Prop
  | serializer {s s'} : f.serializer = some s → f'.serializer = some s' → s ≠ s' → Differ cd f cd' f'
  | skipIf {p q} : f.skipIf = some p → f'.skipIf = some q → p ≠ q → Differ cd f cd' f'
  | skipDefault : f.skipRule cd = .ifDefault f.dflt → f'.skipRule cd' = .ifDefault f'.dflt → f.dflt ≠ f'.dflt → Differ cd f cd' f'

/-- No two fields written by the functions of a class have the same name and functions that differ. -/
def OwnFunctions (env : Env) : Prop :=
  ∀ c d e cd ce f f', WrittenBy env c d → WrittenBy env c e → (d, cd) ∈ env.classes → (e, ce) ∈ env.classes → f ∈ cd.fields → f' ∈ ce.fields →
    f.name = f'.name → ¬ Differ cd f ce f'

end Verif.Spec
