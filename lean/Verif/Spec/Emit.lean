import Verif.Spec.Names
/-!
# Specification vocabulary: which fields are written
-/

namespace Verif.Spec

/-- The field takes part in serialization. -/
def serializable (f : FieldDef) : Bool := !f.skip && !f.skipSer

/-- The effective `skip_if_default` setting: the field's own, else the class's. -/
def skipsDefault (cd : ClassDef) (f : FieldDef) : Bool :=
  match f.skipIfDefault with
  | some b => b
  | none => cd.skipIfDefaultDflt

/-- The effective `skip_if_none` setting. -/
def skipsNone (cd : ClassDef) (f : FieldDef) : Bool :=
  match f.skipIfNone with
  | some b => b
  | none => cd.skipIfNoneDflt

/-- The field has some skip rule. -/
def HasRule (cd : ClassDef) (f : FieldDef) : Prop :=
  f.skipIf.isSome = true ∨ f.skipIfFalse = true ∨ skipsDefault cd f = true ∨ skipsNone cd f = true

/-- The same field without any skip rule, whatever the class says. -/
def withoutRules (f : FieldDef) : FieldDef :=
  { f with skipIf := none, skipIfFalse := false, skipIfDefault := some false, skipIfNone := some false }

end Verif.Spec
