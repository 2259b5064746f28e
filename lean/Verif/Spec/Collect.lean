import Verif.Model.Collect
/-!
# Specification vocabulary: annotations reachable from a class
-/

namespace Verif.Spec

/-- `s` is an immediate part of the annotation `t`: a union member, the element, key or value type of a container, or the type
of a field (without `skip=True`) of a dataclass. With `al`, also the value of a PEP 695 alias. -/
inductive Part (env : Env) (al : Bool) : Ty → Ty → Prop
  | union {ts s} : s ∈ ts → Part env al (.union ts) s
  | list {k t} : Part env al (.list k t) t
  | set {k t} : Part env al (.set k t) t
  | deque {t} : Part env al (.deque t) t
  | counter {t} : Part env al (.counter t) t
  | tuple {ts s} : s ∈ ts → Part env al (.tuple ts) s
  | tupleV {t} : Part env al (.tupleV t) t
  | key {k kt vt} : Part env al (.dict k kt vt) kt
  | value {k kt vt} : Part env al (.dict k kt vt) vt
  | alias {nm t} : al = true → Part env al (.alias nm t) t
  | field {c cd f} : env.cls c = some cd → f ∈ cd.fields → f.skip = false → Part env al (.cls c) f.ty

/-- `u` is reached from `t` in any number of steps, through any number of classes. -/
inductive Reach (env : Env) (al : Bool) : Ty → Ty → Prop
  | refl {t} : Reach env al t t
  | step {t s u} : Part env al t s → Reach env al s u → Reach env al t u

theorem Reach.trans {env : Env} {al t s u} (h : Reach env al t s) (h' : Reach env al s u) : Reach env al t u := by
  induction h with
  | refl => exact h'
  | step hp _ ih => exact .step hp (ih h')

/-- What an annotation contributes to the set by itself. `None` contributes nothing on its own: the code does not list the
`NoneType` of an Optional. -/
def itemOf : Ty → Option TypeItem
  | .cls c => some (.cls c)
  | .union ts => some (.head (if (Ty.union ts).isOpt then "Optional" else "Union"))
  | .list _ _ | .listB _ => some (.head "list")
  | .set _ _ | .setB _ => some (.head "set")
  | .deque _ | .dequeB => some (.head "deque")
  | .counter _ | .counterB => some (.head "Counter")
  | .tuple _ | .tupleV _ | .tupleB => some (.head "tuple")
  | .dict _ _ _ | .dictB _ => some (.head "dict")
  | .alias _ _ | .none => Option.none
  | t => some (.leaf t)


/-- The name of the function generated for this literal is not also the name of another literal's function in the class (C44). -/
def OwnLitName (env : Env) (c : ClassId) (vs : List Val) : Prop :=
  ∀ us, Reach env false (.cls c) (.lit us) → litFuncName env us = litFuncName env vs → us = vs

/-- The name of the function generated for this union is not also the name of another union's function in the class (C44). -/
def OwnUnionName (env : Env) (c : ClassId) (ts : List Ty) : Prop :=
  ∀ us, Reach env true (.cls c) (.union us) → unionFuncName env us = unionFuncName env ts → us = ts

/-- Neither float nor a type parameter is reached from the annotation. -/
def FloatFree (env : Env) (t : Ty) : Prop :=
  ∀ u, Reach env true t u → u ≠ .prim .float ∧ (∀ x, u ≠ .tvar x) ∧ ∀ c args, u ≠ .gen c args

end Verif.Spec
