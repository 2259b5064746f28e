import Verif.Spec.Shape
/-!
# Rows: what from_tuple reads
-/

namespace Verif.Spec

/-- A tuple or a list with these elements. -/
def Row (x : Val) (xs : List Val) : Prop := x = .tuple xs ∨ x = .list xs

/-- The fields that take a position of a row: constructor parameters that are not skipped, in order. -/
def rowFields (cd : ClassDef) : List FieldDef := cd.fields.filter (fun f => f.init && !(f.skip || f.skipDe))

/-- An annotation whose data is looked at. `None` is read without looking. -/
inductive Looks : Ty → Prop
  | alias {nm t} : Looks t → Looks (.alias nm t)
  | tuple {ts t} : t ∈ ts → Looks t → Looks (.tuple ts)
  | other {t} : t ≠ .none → (∀ nm s, t ≠ .alias nm s) → (∀ ts, t ≠ .tuple ts) → Looks t

end Verif.Spec
