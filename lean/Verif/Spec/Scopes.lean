import Verif.Model.Scopes
/-!
# Specification vocabulary: programs with undecorated dataclasses
-/

namespace Verif.Spec

/-- No dataclass inherits from another one. -/
def NoBases (env : Env) : Prop := ∀ c cd, env.cls c = some cd → cd.mro = [c]

/-- A class comes first among its own ancestors. -/
def SelfFirst (env : Env) : Prop := ∀ c cd, env.cls c = some cd → ∃ bs, cd.mro = c :: bs

/-- No field that is skipped when it has its default value has a dataclass instance as its default. -/
def NoInstDefaults (env : Env) : Prop :=
  ∀ c cd, env.cls c = some cd → ∀ f ∈ cd.fields, ∀ d as, f.skipRule cd ≠ .ifDefault (some (.inst d as))

/-- Every class of the program has been decorated at some point of the history. -/
def AllDecorated (env : Env) (h : List GenEvent) : Prop := ∀ c cd, env.cls c = some cd → .decorate c ∈ h

/-- A program in which every class is decorated where it is defined: when a class is decorated, so have been the dataclasses it
refers to (`order c`, see `gen`); and only decorated classes are written and read. `done` lists the classes decorated so far. -/
def Ordered (order : ClassId → List ClassId) : List ClassId → List GenEvent → Prop
  | _, [] => True
  | done, .decorate c :: h => (∀ d ∈ order c, d = c ∨ d ∈ done) ∧ Ordered order (c :: done) h
  | done, .write c :: h => c ∈ done ∧ Ordered order done h
  | done, .read c :: h => c ∈ done ∧ Ordered order done h

/-- Every class of the program has been both written and read at some point of the history. -/
def AllUsed (env : Env) (h : List GenEvent) : Prop := ∀ c cd, env.cls c = some cd → .write c ∈ h ∧ .read c ∈ h

/-- The event is a call, not a decorator. -/
def GenEvent.IsCall : GenEvent → Prop
  | .decorate _ => False
  | _ => True

end Verif.Spec
