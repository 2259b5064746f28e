import Verif.Model.De
/-!
# Specification vocabulary: exceptions that user code raises
-/

namespace Verif.Spec

/-- `e` is raised by the `__post_init__` of some class, on some attribute values. -/
def PostInitRaises (env : Env) (e : Exc) : Prop :=
  ∃ c cd p attrs x, env.cls c = some cd ∧ cd.postInit = some p ∧ p attrs = .error x ∧ e = .py x

/-- The dataclass-generated `__init__` of `cd` can be called with the decoded fields.
Dict based (`named`): every parameter that is not read from the input has a default.
Tuple based: every parameter is read from the input, and none is keyword-only.
A transparent class has exactly one `__init__` parameter. -/
def SigOk (named : Bool) (cd : ClassDef) : Prop :=
  (∀ f ∈ cd.fields, f.init = true →
    if named then f.dflt = none → (f.skip || f.skipDe) = false
    else (f.skip || f.skipDe) = false ∧ f.kwOnly = false) ∧
  (cd.transparent = true → ∃ f, cd.fields.filter (·.init) = [f])

/-- `TypeError` because the arguments do not fit some class's `__init__` (only possible when some class has an `__init__`
parameter that pyserde was told not to fill and that has no default, or in tuple form a skipped or keyword-only one). -/
def BadCall (named : Bool) (env : Env) (e : Exc) : Prop :=
  e = .py .type ∧ ∃ c cd, env.cls c = some cd ∧ ¬ SigOk named cd

end Verif.Spec
