import Verif.Model.ClassVars
import Verif.Spec.Write
/-!
# What is written of class variables
-/

namespace Verif.Spec

/-- No object of a class with serialize_class_var occurs in the value. -/
def FreeOfVars (vs : Vars) (v : Val) : Prop := ∀ c, Occurs c v → vs.on c = false

/-- The name of a class variable in the output. -/
def varKey (cd : ClassDef) (x : VarDef) : String :=
  match cd.seCase with
  | some g => g x.name
  | none => x.name

/-- The entries written for class variables: one for each, in order, with the form the annotation makes of the value; with skip_none those that are
written as `None` are left out. -/
inductive VarEntries (env : Env) (m : OutMode) (cd : ClassDef) : List VarDef → List (Val × Val) → Prop
  | nil : VarEntries env m cd [] []
  | out {x xs zs} : m.skipNone = true → OutTo env m x.ty x.val .none → VarEntries env m cd xs zs → VarEntries env m cd (x :: xs) zs
  | entry {x xs w zs} : OutTo env m x.ty x.val w → (m.skipNone = true → w ≠ .none) → VarEntries env m cd xs zs →
      VarEntries env m cd (x :: xs) ((.str (varKey cd x), w) :: zs)

/-- The class with its variables is of the kind covered: no flattened field, every name used once, the unions in the annotations of the variables are not
confused with others. -/
structure VarsOk (env : Env) (vs : Vars) (c : ClassId) (cd : ClassDef) : Prop where
  found : env.cls c = some cd
  notThrough : cd.transparent = false
  unflat : ∀ f ∈ cd.fields, f.flatten = false
  once : ((vs.vars c).map (·.name)).Nodup
  wires : ((vs.vars c).map (varKey cd)).Nodup
  apart : ∀ f ∈ cd.fields, serializable f = true → ∀ x ∈ vs.vars c, f.conv cd.seCase ≠ varKey cd x
  unions : ∀ x ∈ vs.vars c, ∀ ts, PartOf (.union ts) x.ty → OwnUnionName env c ts
  vals : ∀ x ∈ vs.vars c, FreeOfVars vs x.val
  handler : NoneFor env.gser (.cls c)

/-- Default values do not contain objects of classes with serialize_class_var. -/
def PlainDefaults (env : Env) (vs : Vars) : Prop :=
  ∀ c cd, env.cls c = some cd → ∀ f ∈ cd.fields, ∀ d, f.dflt = some d → FreeOfVars vs d

end Verif.Spec
