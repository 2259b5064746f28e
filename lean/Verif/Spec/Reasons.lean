import Verif.Spec.Emit
import Verif.Spec.Truth
/-!
# Specification vocabulary: the conditions under which a field is left out
-/

namespace Verif.Spec

/-- What `skip_if_default` compares with: the default, for a dataclass object its dict. -/
inductive Compared (env : Env) : Val → Val → Prop
  | plain {d} : (∀ c as, d ≠ .inst c as) → Compared env d d
  | obj {c as n s} : toDict env {} n (.inst c as) = .ok s → Compared env (.inst c as) s
  | raw {c as n e} : toDict env {} n (.inst c as) = .error e → e ≠ .fuel → Compared env (.inst c as) (asdict (.inst c as))

/-- One of the conditions asked for at the field, or at the class and not revoked at the field, holds of the written value. -/
inductive Reason (env : Env) (cd : ClassDef) (f : FieldDef) (w : Val) : Prop
  | skipIf {p} : f.skipIf = some p → p w = .ok true → Reason env cd f w
  | ifFalse : f.skipIfFalse = true → IsFalse env w → Reason env cd f w
  | ifDefault {d s} : skipsDefault cd f = true → f.dflt = some d → Compared env d s → pyEq w s = true → Reason env cd f w
  | ifNone : skipsNone cd f = true → w = .none → Reason env cd f w

/-- The conditions can be evaluated: the function does not raise, a default object can be written. -/
structure Evaluates (env : Env) (f : FieldDef) (w : Val) : Prop where
  skipIf : ∀ p, f.skipIf = some p → ∃ b, p w = .ok b
  default : ∀ d, f.dflt = some d → ∃ s, Compared env d s

/-- The condition that comes first (`skip_if`, `skip_if_false`, `skip_if_default`, `skip_if_none`) covers the others that are asked for. -/
inductive FirstCovers (env : Env) (cd : ClassDef) (f : FieldDef) : Prop
  | skipIf {p} : f.skipIf = some p → f.skipIfFalse = false → skipsDefault cd f = false → skipsNone cd f = false → FirstCovers env cd f
  | ifFalse : f.skipIf = none → f.skipIfFalse = true →
      (skipsDefault cd f = true → ∀ d s w, f.dflt = some d → Compared env d s → pyEq w s = true → IsFalse env w) → FirstCovers env cd f
  | ifDefault : f.skipIf = none → f.skipIfFalse = false → skipsDefault cd f = true → (skipsNone cd f = true → f.dflt = some .none) → FirstCovers env cd f
  | ifNone : f.skipIf = none → f.skipIfFalse = false → skipsDefault cd f = false → skipsNone cd f = true → FirstCovers env cd f

end Verif.Spec
