import Verif.Spec.Unions
import Verif.Spec.Collect
/-!
# Specification vocabulary: what may occur in serialized data
-/

namespace Verif.Spec

/-- None, bools, numbers, strings. -/
inductive Scalar : Val → Prop
  | none : Scalar .none
  | bool {b} : Scalar (.bool b)
  | int {i} : Scalar (.int i)
  | float {x} : Scalar (.float x)
  | str {s} : Scalar (.str s)

/-- None, bools, numbers, strings, and lists, tuples and dicts of those. -/
inductive JsonSafe : Val → Prop
  | scalar {v} : Scalar v → JsonSafe v
  | list {xs} : (∀ x ∈ xs, JsonSafe x) → JsonSafe (.list xs)
  | tuple {xs} : (∀ x ∈ xs, JsonSafe x) → JsonSafe (.tuple xs)
  | dict {k kvs} : (∀ e ∈ kvs, JsonSafe e.1) → (∀ e ∈ kvs, JsonSafe e.2) → JsonSafe (.dict k kvs)

/-- No set or frozenset (and no dataclass instance, which could hold one) anywhere. -/
inductive NoSet : Val → Prop
  | scalar {v} : Scalar v → NoSet v
  | enum {e m} : NoSet (.enum e m)
  | std {k s} : NoSet (.std k s)
  | dt {k s} : NoSet (.dt k s)
  | list {xs} : (∀ x ∈ xs, NoSet x) → NoSet (.list xs)
  | tuple {xs} : (∀ x ∈ xs, NoSet x) → NoSet (.tuple xs)
  | deque {xs} : (∀ x ∈ xs, NoSet x) → NoSet (.deque xs)
  | dict {k kvs} : (∀ e ∈ kvs, NoSet e.1) → (∀ e ∈ kvs, NoSet e.2) → NoSet (.dict k kvs)

/-- Container annotations and container values of another kind. -/
inductive OtherKind : Ty → Val → Prop
  | list {k t v} : (∀ xs, v ≠ .list xs) → (∀ xs, v ≠ .tuple xs) → (∀ xs, v ≠ .deque xs) → OtherKind (.list k t) v
  | listB {k v} : (∀ xs, v ≠ .list xs) → (∀ xs, v ≠ .tuple xs) → (∀ xs, v ≠ .deque xs) → OtherKind (.listB k) v
  | set {k t v} : (∀ b xs, v ≠ .set b xs) → OtherKind (.set k t) v
  | setB {k v} : (∀ b xs, v ≠ .set b xs) → OtherKind (.setB k) v
  | tuple {ts v} : (∀ xs, v ≠ .tuple xs) → OtherKind (.tuple ts) v
  | tupleV {t v} : (∀ xs, v ≠ .tuple xs) → OtherKind (.tupleV t) v
  | tupleB {v} : (∀ xs, v ≠ .tuple xs) → OtherKind .tupleB v
  | dict {k kt vt v} : (∀ d kvs, v ≠ .dict d kvs) → OtherKind (.dict k kt vt) v
  | dictB {k v} : (∀ d kvs, v ≠ .dict d kvs) → OtherKind (.dictB k) v

/-- The value evidently does not belong to the union member: it is not an instance of the scalar type or dataclass, or it is not a
container of that kind. -/
def Foreign (env : Env) (t : Ty) (v : Val) : Prop := (Nominal env t ∧ ¬ IsA env t v) ∨ OtherKind t v

/-- Values iterated over. -/
inductive Items : Val → List Val → Prop
  | list {xs} : Items (.list xs) xs
  | tuple {xs} : Items (.tuple xs) xs
  | deque {xs} : Items (.deque xs) xs
  | set {b xs} : Items (.set b xs) xs

mutual
/-- The value conforms to the annotation, where `G` says which values may occur in the output and `reuse`, `conv` are the options in
force. Positions pyserde copies without looking inside (bare containers, literals, values of a Counter) have to hold values in `G`;
a position declared as set needs `conv`; dates and str-convertible values need `reuse` to be off unless they are in `G`.
`S` are the unions of the class being serialized. -/
inductive Fits (env : Env) (G : Val → Prop) : (List Ty → Prop) → Bool → Bool → Ty → Val → Prop
  | prim {S re cv p v} : Scalar v → Fits env G S re cv (.prim p) v
  | newType {S re cv nm p v} : Scalar v → Fits env G S re cv (.newType nm p) v
  | none {S re cv v} : Fits env G S re cv .none v
  | any {S re cv v} : Free env G (some false) (some false) v → Fits env G S re cv .any v
  | tvar {S re cv x v} : Free env G (some false) (some false) v → Fits env G S re cv (.tvar x) v
  | list {S re cv k t v xs} : Items v xs → (∀ x ∈ xs, Fits env G S re cv t x) → Fits env G S re cv (.list k t) v
  | listB {S re cv k v} : G v → Fits env G S re cv (.listB k) v
  | set {S re cv k t v xs} : cv = true → Items v xs → (∀ x ∈ xs, Fits env G S re cv t x) → Fits env G S re cv (.set k t) v
  | setB {S re cv k v xs} : cv = true → Items v xs → (∀ x ∈ xs, G x) → Fits env G S re cv (.setB k) v
  | deque {S re cv t v xs} : Items v xs → (∀ x ∈ xs, Fits env G S re cv t x) → Fits env G S re cv (.deque t) v
  | dequeB {S re cv v xs} : Items v xs → (∀ x ∈ xs, G x) → Fits env G S re cv .dequeB v
  | counter {S re cv t d kvs} : (∀ e ∈ kvs, Fits env G S re cv t e.1) → (∀ e ∈ kvs, G e.2) → Fits env G S re cv (.counter t) (.dict d kvs)
  | counterB {S re cv d kvs} : (∀ e ∈ kvs, G e.1) → (∀ e ∈ kvs, G e.2) → Fits env G S re cv .counterB (.dict d kvs)
  | tuple {S re cv ts xs} : (∀ (i : Nat) t x, ts[i]? = some t → xs[i]? = some x → Fits env G S re cv t x) → Fits env G S re cv (.tuple ts) (.tuple xs)
  | tupleV {S re cv t v xs} : Items v xs → (∀ x ∈ xs, Fits env G S re cv t x) → Fits env G S re cv (.tupleV t) v
  | tupleB {S re cv v} : G v → Fits env G S re cv .tupleB v
  | dict {S re cv k kt vt d kvs} : (∀ e ∈ kvs, Fits env G S re cv kt e.1) → (∀ e ∈ kvs, Fits env G S re cv vt e.2) →
      Fits env G S re cv (.dict k kt vt) (.dict d kvs)
  | dictB {S re cv k v} : G v → Fits env G S re cv (.dictB k) v
  | enum {S re cv e e' m} : Fits env G S re cv (.enum e) (.enum e' m)
  | std {S re cv k v} : (re = true → G v) → Fits env G S re cv (.std k) v
  | dt {S re cv k v} : (re = true → G v) → Fits env G S re cv (.dt k) v
  | lit {S re cv vs v} : G v → Fits env G S re cv (.lit vs) v
  | optNone {S re cv t} : t ≠ .none → Fits env G S re cv (.union [t, .none]) .none
  | optSome {S re cv t v} : t ≠ .none → Fits env G S re cv t v → Fits env G S re cv (.union [t, .none]) v
  | union {S re cv ts v} : (Ty.union ts).isOpt = false → (∀ c attrs, v = .inst c attrs → (env.cls c).isSome) → (∀ us, S us → unionFuncName env us = unionFuncName env ts → us = ts) →
      (∀ t ∈ ts, ¬ Foreign env t v → Fits env G S re cv t v) → Fits env G S re cv (.union ts) v
  | cls {S re cv c v} : FitsObj env G (some re) (some cv) v → Fits env G S re cv (.cls c) v
  | gen {S re cv c args v} : FitsObj env G (some re) (some cv) v → Fits env G S re cv (.gen c args) v
  | alias {S re cv nm t v} : Fits env G S re cv t v → Fits env G S re cv (.alias nm t) v

/-- A field's value conforms, with its `flatten` option: a flattened dataclass is written field by field by the enclosing class. -/
inductive FitsField (env : Env) (G : Val → Prop) : (List Ty → Prop) → Bool → Bool → Bool → Ty → Val → Prop
  | plain {S re cv t v} : Fits env G S re cv t v → FitsField env G S re cv false t v
  | flatDict {S re cv t v} : t.isFlattenDict = true → Fits env G S re cv t v → FitsField env G S re cv true t v
  | flatCls {S re cv c cd c' attrs} : env.cls c = some cd →
      (∀ f ∈ cd.fields, (∀ g, f.serializer ≠ some (.fn g)) → ∀ x, attrs.lookup f.name = some x → FitsField env G S re cv f.flatten f.ty x) →
      FitsField env G S re cv true (.cls c) (.inst c' attrs)
  | flatOpt {S re cv t v} : FitsField env G S re cv true t v → FitsField env G S re cv true (.union [t, .none]) v

/-- An instance whose serialized attributes conform to the declared types of its class, except those with a serializer of their own. -/
inductive FitsObj (env : Env) (G : Val → Prop) : Option Bool → Option Bool → Val → Prop
  | mk {re cv c cd attrs} : env.cls c = some cd →
      (∀ f ∈ cd.fields, f.skip = false → f.skipSer = false → (∀ g, f.serializer ≠ some (.fn g)) → ∀ x, attrs.lookup f.name = some x →
        FitsField env G (fun us => Reach env true (.cls c) (.union us)) (re.getD cd.reuseDflt) (cv.getD cd.convDflt) f.flatten f.ty x) →
      FitsObj env G re cv (.inst c attrs)

/-- A value handed to `to_dict` without annotation (the argument itself, or the value of an `Any` field). -/
inductive Free (env : Env) (G : Val → Prop) : Option Bool → Option Bool → Val → Prop
  | scalar {re cv v} : Scalar v → Free env G re cv v
  | enum {re cv e m} : G (.enum e m) → Free env G re cv (.enum e m)
  | items {re cv v xs} : Items v xs → (∀ x ∈ xs, Free env G re cv x) → Free env G re cv v
  | dict {re cv d kvs} : (∀ e ∈ kvs, G e.1) → (∀ e ∈ kvs, Free env G re cv e.2) → Free env G re cv (.dict d kvs)
  | std {re cv k s} : (re ≠ some false → G (.std k s)) → Free env G re cv (.std k s)
  | dt {re cv k s} : (re ≠ some false → G (.dt k s)) → Free env G re cv (.dt k s)
  | obj {re cv v} : FitsObj env G re cv v → Free env G re cv v
end

/-- Registered serializers return values in `G`. -/
structure SersOk (env : Env) (G : Val → Prop) : Prop where
  global : ∀ s ∈ env.gser, ∀ v w, s.run v = .ok w → G w
  cls : ∀ c cd s, env.cls c = some cd → cd.classSer = some s → ∀ v w, s.run v = .ok w → G w
  field : ∀ c cd f g, env.cls c = some cd → f ∈ cd.fields → f.serializer = some (.fn g) → ∀ v w, g v = .ok w → G w

/-- Enum values (other than members of another enum, which are followed) are in `G`. -/
def EnumsOk (env : Env) (G : Val → Prop) : Prop :=
  ∀ e d m w, env.enm e = some d → (m, w) ∈ d.members → (∀ e' m', w ≠ .enum e' m') → G w

/-- `G` is decided by the parts of a value. -/
structure Shape (G : Val → Prop) : Prop where
  scalar : ∀ v, Scalar v → G v
  list : ∀ xs, G (.list xs) ↔ ∀ x ∈ xs, G x
  tuple : ∀ xs, G (.tuple xs) ↔ ∀ x ∈ xs, G x
  dict : ∀ k kvs, G (.dict k kvs) ↔ (∀ e ∈ kvs, G e.1) ∧ ∀ e ∈ kvs, G e.2
  deque : ∀ xs, G (.deque xs) → ∀ x ∈ xs, G x
  set : ∀ b xs, G (.set b xs) → ∀ x ∈ xs, G x

end Verif.Spec
