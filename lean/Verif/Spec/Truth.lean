import Verif.Model.Types
/-!
# Values that Python counts as false

Stated for the properties that speak of `skip_if_false` and of `x or y`; `truthy_false_iff` in `Lemmas/Truth.lean` relates it to the model.
-/

namespace Verif.Spec

/-- Zero, the empty string and False. -/
inductive Zero : Val → Prop
  | false : Zero (.bool false)
  | int : Zero (.int 0)
  | float : Zero (.float (.fin 0))
  | str : Zero (.str "")

/-- `bool(v)` is False: None, zeros, empty containers, members of enums that are also numbers or strings and have such a value, and the
standard objects of which their type says so (`timedelta(0)`, `Decimal(0)`). -/
inductive IsFalse (env : Env) : Val → Prop
  | none : IsFalse env .none
  | zero {v} : Zero v → IsFalse env v
  | list : IsFalse env (.list [])
  | tuple : IsFalse env (.tuple [])
  | deque : IsFalse env (.deque [])
  | set {k} : IsFalse env (.set k [])
  | dict {k} : IsFalse env (.dict k [])
  | enum {e m d p w} : env.enm e = some d → d.mixin = some p → d.members.lookup m = some w → Zero w → IsFalse env (.enum e m)
  | std {k s} : env.W.stdTruthy k s = false → IsFalse env (.std k s)

end Verif.Spec
