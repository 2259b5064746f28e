import Verif.Model.Compat
/-!
# Specification vocabulary: annotations for which a missing key is no error
-/

namespace Verif.Spec

/-- Annotations that are decoded without looking at the input: `None`, aliases of it and tuples made of it. -/
inductive Unread : Ty → Prop
  | none : Unread .none
  | alias {n t} : Unread t → Unread (.alias n t)
  | tuple {ts} : (∀ t ∈ ts, Unread t) → Unread (.tuple ts)

/-- Annotations that turn a missing key into a value. -/
inductive AbsentOk : Ty → Prop
  | unread {t} : Unread t → AbsentOk t
  | union {ts} : .none ∈ ts → AbsentOk (.union ts)
  | alias {n t} : AbsentOk t → AbsentOk (.alias n t)

/-- Union members that do not accept null: primitives, containers with element types, and dataclasses under a tag. -/
inductive RejectsNull (tg : Tagging) : Ty → Prop
  | prim {p} : RejectsNull tg (.prim p)
  | newType {n p} : RejectsNull tg (.newType n p)
  | list {k t} : RejectsNull tg (.list k t)
  | set {k t} : RejectsNull tg (.set k t)
  | deque {t} : RejectsNull tg (.deque t)
  | counter {t} : RejectsNull tg (.counter t)
  | tupleV {t} : RejectsNull tg (.tupleV t)
  | dict {k kt vt} : RejectsNull tg (.dict k kt vt)
  | cls {c} : tg ≠ .untagged → RejectsNull tg (.cls c)

/-- The generated function that class `c` uses for the union of `ts` is the one generated for `ts`, not one for another union
with the same function name (see C44). -/
def OwnUnion (env : Env) (c : ClassId) (ts : List Ty) : Prop :=
  findUnion env (env.unionsOf c) (unionFuncName env ts) = some ts

end Verif.Spec
