import Verif.Model.Lookup
import Verif.Spec.Collect
/-!
# Classes that share a name
-/

namespace Verif.Spec

/-- No two classes used by a class, directly or through other classes, have the same name. -/
def UniqueNames (env : Env) : Prop :=
  ∀ c d e cd ce, Reach env true (.cls c) (.cls d) → Reach env true (.cls c) (.cls e) → env.cls d = some cd → env.cls e = some ce → cd.name = ce.name → d = e

end Verif.Spec
