import Verif.Spec.Names
/-!
# Specification vocabulary: inputs that differ only in the order of entries
-/

namespace Verif.Spec

/-- The dataclass a flattened annotation refers to. -/
inductive FlatTarget : Ty → ClassId → Prop
  | cls {c} : FlatTarget (.cls c) c
  | gen {c args} : FlatTarget (.gen c args) c
  | alias {n t c} : FlatTarget t c → FlatTarget (.alias n t) c
  | opt {t ts c} : FlatTarget t c → FlatTarget (.union (t :: ts)) c

/-- The classes whose fields are inlined, directly or not, in the dict of `c` (including `c`). -/
inductive Inlines (env : Env) : ClassId → ClassId → Prop
  | refl {c} : Inlines env c c
  | step {c c' cd f ch} : Inlines env c c' → env.cls c' = some cd → f ∈ cd.fields → f.flatten = true → FlatTarget f.ty ch →
      Inlines env c ch

end Verif.Spec
