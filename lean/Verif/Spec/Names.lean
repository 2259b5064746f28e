import Verif.Model.De
/-!
# Specification vocabulary: names
-/

namespace Verif.Spec

/-- The wire name of a field: `rename` if given, else the class's case conversion of the field name, else the field name. -/
def wireName (rename : Option String) (case : Option (String → String)) (name : String) : String :=
  match rename, case with
  | some r, _ => r
  | none, some k => k name
  | none, none => name

/-- An empty `rename=""` counts as no rename (a quirk of the code, see DESIGN.md). -/
def RenameOk (f : FieldDef) : Prop := f.rename ≠ some ""

/-- The dataclass whose fields a flattened field inlines, if any. -/
def inlined (f : FieldDef) : Option ClassId :=
  match f.flatten, f.ty with
  | true, .cls ch => some ch
  | true, .union [.cls ch, .none] => some ch
  | _, _ => none

/-- The field is a flattened dict that takes whatever keys are left. -/
def takesRest (f : FieldDef) : Bool := f.flatten && f.ty.isFlattenDict

/-- `k` is the wire name or an alias of a field of class `c`, or of a dataclass flattened into it. -/
inductive Recognised (env : Env) : ClassId → String → Prop
  | own {c cd f k} : env.cls c = some cd → cd.transparent = false → f ∈ cd.fields → takesRest f = false → inlined f = none →
      (k = f.conv cd.deCase ∨ k ∈ f.alias) → Recognised env c k
  | child {c cd f ch k} : env.cls c = some cd → cd.transparent = false → f ∈ cd.fields → takesRest f = false →
      inlined f = some ch → Recognised env ch k → Recognised env c k
  | transparent {c cd} : env.cls c = some cd → cd.transparent = true → Recognised env c "__serde_transparent__"

/-- Dataclasses are not flattened into each other in a cycle. -/
def FlattenAcyclic (env : Env) : Prop :=
  ∃ rank : ClassId → Nat, (∀ c, rank c ≤ env.classes.length) ∧
    ∀ c cd f ch, env.cls c = some cd → f ∈ cd.fields → inlined f = some ch → rank ch < rank c

end Verif.Spec
