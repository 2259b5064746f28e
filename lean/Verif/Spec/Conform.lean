import Verif.Spec.Unions
/-!
# Specification vocabulary: values conforming to annotations
-/

namespace Verif.Spec

/-- The elements of an instance of `list`, `MutableSequence` or `Sequence`. -/
inductive SeqOf : SeqK → Val → List Val → Prop
  | list {k xs} : SeqOf k (.list xs) xs
  | deque {k xs} : k ≠ .list → SeqOf k (.deque xs) xs
  | tuple {xs} : SeqOf .seq (.tuple xs) xs
  | str {s} : SeqOf .seq (.str s) (strElems s)

/-- The elements of an instance of `set`, `frozenset`, `Set` or `MutableSet`. -/
inductive SetOf : SetK → Val → List Val → Prop
  | set {k xs} : k ≠ .frozen → SetOf k (.set false xs) xs
  | frozen {xs} : SetOf .frozen (.set true xs) xs
  | abstract {xs} : SetOf .absSet (.set true xs) xs

/-- The entries of an instance of `dict`, `Mapping`, `MutableMapping` or `defaultdict`. -/
inductive MapOf : MapK → Val → List (Val × Val) → Prop
  | dict {k d kvs} : k ≠ .deflt → MapOf k (.dict d kvs) kvs
  | deflt {g kvs} : MapOf .deflt (.dict (.deflt g) kvs) kvs

/-- The value is an instance of the annotation, as far as a check can tell that looks at one element of each container, the one `env.P`
chooses. Fixed-length tuples are checked completely. -/
inductive Conforms (env : Env) : Ty → Val → Prop
  | prim {p v} : IsA env (.prim p) v → Conforms env (.prim p) v
  | newType {n p v} : IsA env (.prim p) v → Conforms env (.newType n p) v
  | none : Conforms env .none .none
  | any {v} : Conforms env .any v
  | list {k t v xs} : SeqOf k v xs → (∀ x, env.P.pick xs = some x → Conforms env t x) → Conforms env (.list k t) v
  | listB {k v xs} : SeqOf k v xs → Conforms env (.listB k) v
  | set {k t v xs} : SetOf k v xs → (∀ x, env.P.pick xs = some x → Conforms env t x) → Conforms env (.set k t) v
  | setB {k v xs} : SetOf k v xs → Conforms env (.setB k) v
  | deque {t xs} : (∀ x, env.P.pick xs = some x → Conforms env t x) → Conforms env (.deque t) (.deque xs)
  | dequeB {xs} : Conforms env .dequeB (.deque xs)
  | counter {t kvs} : (∀ kv, env.P.pickKV kvs = some kv → Conforms env t kv.1) → Conforms env (.counter t) (.dict .counter kvs)
  | counterB {kvs} : Conforms env .counterB (.dict .counter kvs)
  | tuple {ts xs} : ts.length = xs.length → (∀ p ∈ ts.zip xs, Conforms env p.1 p.2) → Conforms env (.tuple ts) (.tuple xs)
  | tupleV {t xs} : (∀ x, env.P.pick xs = some x → Conforms env t x) → Conforms env (.tupleV t) (.tuple xs)
  | tupleB {xs} : Conforms env .tupleB (.tuple xs)
  | dict {k kt vt v kvs} : MapOf k v kvs → (∀ kv, env.P.pickKV kvs = some kv → Conforms env kt kv.1) →
      (∀ kv, env.P.pickKV kvs = some kv → Conforms env vt kv.2) → Conforms env (.dict k kt vt) v
  | dictB {k v kvs} : MapOf k v kvs → Conforms env (.dictB k) v
  | enum {e m} : Conforms env (.enum e) (.enum e m)
  | std {k v} : IsA env (.std k) v → Conforms env (.std k) v
  | dt {k v} : IsA env (.dt k) v → Conforms env (.dt k) v
  | lit {vs v} : v ∈ vs → Conforms env (.lit vs) v
  | union {ts t v} : t ∈ ts → Conforms env t v → Conforms env (.union ts) v
  | cls {c v} : IsA env (.cls c) v → Conforms env (.cls c) v
  | gen {c args v} : IsA env (.cls c) v → Conforms env (.gen c args) v
  | self {c attrs} : Conforms env (.cls c) (.inst c attrs)
  | genSelf {c args attrs} : Conforms env (.gen c args) (.inst c attrs)
  | tvar {x v} : Conforms env (.tvar x) v
  | alias {n t v} : Conforms env t v → Conforms env (.alias n t) v
  | other {s v} : Conforms env (.other s) v

end Verif.Spec
