import Verif.Model.Presence
import Verif.Spec.Collect
import Verif.Spec.Scopes
/-!
# Specification vocabulary: classes whose functions are needed
-/

namespace Verif.Spec

/-- Data for the annotation may hold an object of class `d`: the class is part of the annotation, directly or through other classes (fields with
`skip=True` do not count), type arguments of subscripted generics included. -/
inductive Uses (env : Env) : Ty → ClassId → Prop
  | here {c} : Uses env (.cls c) c
  | part {t s d} : Part env true t s → Uses env s d → Uses env t d
  | generic {c args d} : Uses env (.cls c) d → Uses env (.gen c args) d
  | arg {c args t d} : t ∈ args → Uses env t d → Uses env (.gen c args) d

/-- The value holds an instance of class `d`, itself or anywhere inside. -/
inductive HoldsInst (d : ClassId) : Val → Prop
  | here {as} : HoldsInst d (.inst d as)
  | attr {c as k v} : (k, v) ∈ as → HoldsInst d v → HoldsInst d (.inst c as)
  | list {xs x} : x ∈ xs → HoldsInst d x → HoldsInst d (.list xs)
  | tuple {xs x} : x ∈ xs → HoldsInst d x → HoldsInst d (.tuple xs)
  | deque {xs x} : x ∈ xs → HoldsInst d x → HoldsInst d (.deque xs)
  | set {k xs x} : x ∈ xs → HoldsInst d x → HoldsInst d (.set k xs)
  | key {k es p} : p ∈ es → HoldsInst d p.1 → HoldsInst d (.dict k es)
  | value {k es p} : p ∈ es → HoldsInst d p.2 → HoldsInst d (.dict k es)

/-- `order` lists the dataclasses that `iter_types` collects, in any order. -/
def OrderOk (env : Env) (order : ClassId → List ClassId) : Prop :=
  ∀ c d, d ∈ order c ↔ ∃ R, iterTypes env c = some R ∧ TypeItem.cls d ∈ R

/-- The event, or an earlier one, was about this class on this side. -/
def GenEvent.On : GenEvent → Side → ClassId → Prop
  | .decorate c, _, d => c = d
  | .write c, .se, d => c = d
  | .read c, .de, d => c = d
  | _, _, _ => False

/-- The generated function for this side is in the class's own scope. -/
def HasOwn (st : Gen) (side : Side) (c : ClassId) : Prop := ∃ s, st.scope c = some s ∧ s.has side = true

end Verif.Spec
