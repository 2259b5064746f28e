import Verif.Spec.Conform
/-!
# Specification vocabulary: instances of subscripted annotations
-/

namespace Verif.Spec

/-- The elements of a container that are asked about: all of them, or the first. -/
def seen {α : Type} (deep : Bool) (xs : List α) : List α := if deep then xs else xs.take 1

/-- The value is of the annotated type, its containers included: with `deep`, every element of them, else the first one. Tuples are looked at completely. A string does not
count as a sequence of strings. Objects count by their class alone. -/
inductive Of (env : Env) (deep : Bool) : Ty → Val → Prop
  | nominal {t v} : Nominal env t → IsA env t v → Of env deep t v
  | unknown {c attrs} : env.cls c = none → Of env deep (.cls c) (.inst c attrs)
  | newType {n p v} : IsA env (.prim p) v → Of env deep (.newType n p) v
  | any {v} : Of env deep .any v
  | list {k t v xs} : (∀ s, v ≠ .str s) → SeqOf k v xs → (∀ x ∈ seen deep xs, Of env deep t x) → Of env deep (.list k t) v
  | listB {k v xs} : (∀ s, v ≠ .str s) → SeqOf k v xs → Of env deep (.listB k) v
  | set {k t v xs} : SetOf k v xs → (∀ x ∈ seen deep xs, Of env deep t x) → Of env deep (.set k t) v
  | setB {k v xs} : SetOf k v xs → Of env deep (.setB k) v
  | deque {t xs} : (∀ x ∈ seen deep xs, Of env deep t x) → Of env deep (.deque t) (.deque xs)
  | dequeB {xs} : Of env deep .dequeB (.deque xs)
  | counter {t kvs} : (∀ kv ∈ seen deep kvs, Of env deep t kv.1) → Of env deep (.counter t) (.dict .counter kvs)
  | counterB {kvs} : Of env deep .counterB (.dict .counter kvs)
  | tuple {ts xs} : ts.length = xs.length → (∀ p ∈ ts.zip xs, Of env deep p.1 p.2) → Of env deep (.tuple ts) (.tuple xs)
  | tupleV {t xs} : (∀ x ∈ xs, Of env deep t x) → Of env deep (.tupleV t) (.tuple xs)
  | tupleB {xs} : Of env deep .tupleB (.tuple xs)
  | dict {k kt vt v kvs} : MapOf k v kvs → (∀ kv ∈ seen deep kvs, Of env deep kt kv.1) → (∀ kv ∈ seen deep kvs, Of env deep vt kv.2) → Of env deep (.dict k kt vt) v
  | dictB {k v kvs} : MapOf k v kvs → Of env deep (.dictB k) v
  | lit {vs v} : v ∈ vs → Of env deep (.lit vs) v
  | union {ts t v} : t ∈ ts → Of env deep t v → Of env deep (.union ts) v
  | gen {c args v} : Of env deep (.cls c) v → Of env deep (.gen c args) v

/-- Annotations in which no element is a `Literal`, no set is asked to be a `set`, `frozenset` or `MutableSet` rather than a `Set`, no dict to be a `defaultdict`, and no
type variable, alias or foreign class occurs. -/
inductive Told (env : Env) : Ty → Prop
  | nominal {t} : Nominal env t → Told env t
  | newType {n p} : Told env (.newType n p)
  | any : Told env .any
  | list {k t} : Told env t → Told env (.list k t)
  | listB {k} : Told env (.listB k)
  | set {t} : Told env t → Told env (.set .absSet t)
  | setB : Told env (.setB .absSet)
  | deque {t} : Told env t → Told env (.deque t)
  | dequeB : Told env .dequeB
  | counter {t} : Told env t → Told env (.counter t)
  | counterB : Told env .counterB
  | tuple {ts} : (∀ t ∈ ts, Told env t) → Told env (.tuple ts)
  | tupleV {t} : Told env t → Told env (.tupleV t)
  | tupleB : Told env .tupleB
  | dict {k kt vt} : k ≠ .deflt → Told env kt → Told env vt → Told env (.dict k kt vt)
  | dictB {k} : k ≠ .deflt → Told env (.dictB k)
  | union {ts} : (∀ t ∈ ts, Told env t) → Told env (.union ts)
  | gen {c args} : Told env (.gen c args)

/-- Every container inside the value (outside of objects), tuples included, has at most one element. -/
inductive AtMostOne : Val → Prop
  | scalar {v} : (∀ xs, v ≠ .list xs) → (∀ xs, v ≠ .deque xs) → (∀ xs, v ≠ .tuple xs) → (∀ f xs, v ≠ .set f xs) → (∀ d kvs, v ≠ .dict d kvs) → AtMostOne v
  | list {xs} : xs.length ≤ 1 → (∀ x ∈ xs, AtMostOne x) → AtMostOne (.list xs)
  | deque {xs} : xs.length ≤ 1 → (∀ x ∈ xs, AtMostOne x) → AtMostOne (.deque xs)
  | tuple {xs} : xs.length ≤ 1 → (∀ x ∈ xs, AtMostOne x) → AtMostOne (.tuple xs)
  | set {f xs} : xs.length ≤ 1 → (∀ x ∈ xs, AtMostOne x) → AtMostOne (.set f xs)
  | dict {d kvs} : kvs.length ≤ 1 → (∀ kv ∈ kvs, AtMostOne kv.1) → (∀ kv ∈ kvs, AtMostOne kv.2) → AtMostOne (.dict d kvs)

end Verif.Spec
