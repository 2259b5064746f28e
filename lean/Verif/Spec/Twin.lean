import Verif.Model.De
/-!
# Specification vocabulary: comparing a class with a copy of it that differs in one option
-/

namespace Verif.Spec

/-- Two classes for which pyserde collects the same unions and literals. This holds in particular of two classes with the same
field list that do not contain themselves (collecting stops when it meets the class it started from). -/
structure SameTables (env : Env) (c c' : ClassId) : Prop where
  unions : env.unionsOf c' = env.unionsOf c
  lits : env.litsOf c' = env.litsOf c

/-- No globally registered class (de)serializer claims class `c`. -/
structure NoGlobal (env : Env) (c : ClassId) : Prop where
  ser : ∀ s ∈ env.gser, s.handles (.cls c) = false
  de : ∀ s ∈ env.gde, s.handles (.cls c) = false

/-- `d` is input data, not already an instance of class `c` (which `from_dict` would return unchanged). -/
def IsData (c : ClassId) (d : Val) : Prop := ∀ attrs, d ≠ .inst c attrs

/-- The same result, with the returned object taken to be an instance of `c'`: used to compare a class with a differently
configured copy `c'` of it. Exceptions are unchanged. -/
def asInstOf (c' : ClassId) : Res Val → Res Val
  | .ok (.inst _ attrs) => .ok (.inst c' attrs)
  | r => r

end Verif.Spec
