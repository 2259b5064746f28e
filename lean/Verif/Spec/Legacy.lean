import Verif.Spec.Read
import Verif.Model.Legacy
/-!
# Specification vocabulary: class-level `serializer=` and `deserializer=` functions
-/

namespace Verif.Spec

/-- The type a class-level function is told. -/
def shown (env : Env) : Ty → String
  | .gen c _ => typename env (.cls c)
  | t => typename env t

/-- How values are written at some position of a class: the options, whether primitives are coerced, the class-level function and the
custom serializers. -/
structure WriteMode where
  reuse : Bool
  conv : Bool
  coerce : Bool
  asks : Option LegFn
  sers : List ClsSer

/-- Inside an object of a class: the options are handed on, the rest is the class's own. -/
def WriteMode.enter (env : Env) (leg : Legacy) (c : ClassId) (cd : ClassDef) (m : WriteMode) : WriteMode :=
  { m with coerce := cd.typeCheck == .coerce, asks := leg.ser c, sers := env.gser ++ cd.classSer.toList }

/-- Inside a field with `serializer=default_serializer` nothing custom counts. -/
def WriteMode.plain (m : WriteMode) : WriteMode := { m with asks := none, sers := [] }

/-- Nothing custom is responsible: no serializer is registered for the type, and the function, if there is one, skips. -/
def Unclaimed (env : Env) (m : WriteMode) (t : Ty) (v : Val) : Prop :=
  NoneFor m.sers t ∧ ∀ f, m.asks = some f → f (shown env t) v = none

/-- What a value is written as at an annotation without components. -/
inductive LeafOut (env : Env) (m : WriteMode) : Ty → Val → Val → Prop
  | none {v} : LeafOut env m .none v .none
  | prim {p v} : m.coerce = false → LeafOut env m (.prim p) v v
  | newType {nm p v} : m.coerce = false → LeafOut env m (.newType nm p) v v
  | stdKept {k v} : m.reuse = true → LeafOut env m (.std k) v v
  | stdText {k v} : m.reuse = false → LeafOut env m (.std k) v (.str (pyStr env.W v))
  | dtKept {k v} : m.reuse = true → LeafOut env m (.dt k) v v
  | dtText {k k' s} : m.reuse = false → LeafOut env m (.dt k) (.dt k' s) (.str s)
  | lit {vs v} : LeafOut env m (.lit vs) v v
  | listB {v} : LeafOut env m (.listB .list) v v
  | listLike {k v xs} : k ≠ .list → pyIter v = .ok xs → LeafOut env m (.listB k) v (.list xs)
  | setB {k v} : m.conv = false → LeafOut env m (.setB k) v v
  | setList {k v xs} : m.conv = true → pyIter v = .ok xs → LeafOut env m (.setB k) v (.list xs)
  | dequeB {v xs} : pyIter v = .ok xs → LeafOut env m .dequeB v (.list xs)
  | counterB {d kvs} : LeafOut env m .counterB (.dict d kvs) (.dict .plain kvs)
  | dictB {k v} : LeafOut env m (.dictB k) v v
  | tupleB {v} : LeafOut env m .tupleB v v

/-- Annotations about which nothing is claimed once nothing custom is responsible. -/
inductive Unsaid (m : WriteMode) : Ty → Prop
  | enum {e} : Unsaid m (.enum e)
  | any : Unsaid m .any
  | tvar {x} : Unsaid m (.tvar x)
  | prim {p} : m.coerce = true → Unsaid m (.prim p)
  | newType {nm p} : m.coerce = true → Unsaid m (.newType nm p)
  | union {ts} : (∀ t, ts ≠ [t, .none]) → Unsaid m (.union ts)
  | optNone : Unsaid m (.union [.none, .none])

/-- `w` is what a value `v` annotated as `t` is written as. Nothing is claimed about values that are not containers of the annotated
kind, nor about objects of classes that are not `SimpleSe`. -/
inductive WriteTo (env : Env) (leg : Legacy) : WriteMode → Ty → Val → Val → Prop
  | chosen {m t s v w} : Chosen m.sers t s → s.run v = .ok w → WriteTo env leg m t v w
  | asked {m t f v w} : NoneFor m.sers t → m.asks = some f → f (shown env t) v = some (.ok w) → WriteTo env leg m t v w
  | leaf {m t v w} : Unclaimed env m t v → LeafOut env m t v w → WriteTo env leg m t v w
  | list {m k t v xs ys} : Unclaimed env m (.list k t) v → pyIter v = .ok xs → xs.length = ys.length →
      (∀ (i : Nat) a b, xs[i]? = some a → ys[i]? = some b → WriteTo env leg m t a b) → WriteTo env leg m (.list k t) v (.list ys)
  | deque {m t v xs ys} : Unclaimed env m (.deque t) v → pyIter v = .ok xs → xs.length = ys.length →
      (∀ (i : Nat) a b, xs[i]? = some a → ys[i]? = some b → WriteTo env leg m t a b) → WriteTo env leg m (.deque t) v (.list ys)
  | tupleV {m t v xs ys} : Unclaimed env m (.tupleV t) v → pyIter v = .ok xs → xs.length = ys.length →
      (∀ (i : Nat) a b, xs[i]? = some a → ys[i]? = some b → WriteTo env leg m t a b) → WriteTo env leg m (.tupleV t) v (.tuple ys)
  | tuple {m ts v ys} : Unclaimed env m (.tuple ts) v → ts.length = ys.length →
      (∀ (i : Nat) t a b, ts[i]? = some t → pyIndex v i = .ok a → ys[i]? = some b → WriteTo env leg m t a b) →
      WriteTo env leg m (.tuple ts) v (.tuple ys)
  | setList {m k t v xs ys} : Unclaimed env m (.set k t) v → m.conv = true → pyIter v = .ok xs → xs.length = ys.length →
      (∀ (i : Nat) a b, xs[i]? = some a → ys[i]? = some b → WriteTo env leg m t a b) → WriteTo env leg m (.set k t) v (.list ys)
  | set {m k t v xs ys w} : Unclaimed env m (.set k t) v → m.conv = false → pyIter v = .ok xs → xs.length = ys.length →
      (∀ (i : Nat) a b, xs[i]? = some a → ys[i]? = some b → WriteTo env leg m t a b) → SetFrom false ys w → WriteTo env leg m (.set k t) v w
  | counter {m t v kvs es w} : Unclaimed env m (.counter t) v → pyItems v = .ok kvs → kvs.map (·.2) = es.map (·.2) →
      (∀ (i : Nat) a b, kvs[i]? = some a → es[i]? = some b → WriteTo env leg m t a.1 b.1) → MapFrom .plain es w →
      WriteTo env leg m (.counter t) v w
  | dict {m k kt vt v kvs es w} : Unclaimed env m (.dict k kt vt) v → pyItems v = .ok kvs → kvs.length = es.length →
      (∀ (i : Nat) a b, kvs[i]? = some a → es[i]? = some b → WriteTo env leg m kt a.1 b.1) →
      (∀ (i : Nat) a b, kvs[i]? = some a → es[i]? = some b → WriteTo env leg m vt a.2 b.2) → MapFrom .plain es w →
      WriteTo env leg m (.dict k kt vt) v w
  | optNone {m t} : Unclaimed env m (.union [t, .none]) .none → WriteTo env leg m (.union [t, .none]) .none .none
  | opt {m t v w} : Unclaimed env m (.union [t, .none]) v → v ≠ .none → WriteTo env leg m t v w → WriteTo env leg m (.union [t, .none]) v w
  | alias {m n t v w} : Unclaimed env m (.alias n t) v → WriteTo env leg m t v w → WriteTo env leg m (.alias n t) v w
  | gen {m c as v w} : Unclaimed env m (.gen c as) v → WriteTo env leg m (.cls c) v w → WriteTo env leg m (.gen c as) v w
  | obj {m c c' cd attrs w} : Unclaimed env m (.cls c) (.inst c' attrs) → env.cls c' = some cd →
      (∀ f a x, SimpleSe cd → Slot cd w f x → attrs.lookup f.name = some a → ∀ g, f.serializer = some (.fn g) → g a = .ok x) →
      (∀ f a x, SimpleSe cd → Slot cd w f x → attrs.lookup f.name = some a → f.serializer = some .marker →
        WriteTo env leg (m.enter env leg c' cd).plain f.ty a x) →
      (∀ f a x, SimpleSe cd → Slot cd w f x → attrs.lookup f.name = some a → f.serializer = none →
        WriteTo env leg (m.enter env leg c' cd) f.ty a x) →
      WriteTo env leg m (.cls c) (.inst c' attrs) w
  | unsaid {m t v w} : Unclaimed env m t v → Unsaid m t → WriteTo env leg m t v w

/-- Annotations without dataclasses and without type variables, whose only unions are Optional. -/
def Inert (t : Ty) : Prop := ∀ s, PartOf s t → (∀ c, s ≠ .cls c) ∧ (∀ c as, s ≠ .gen c as) ∧ (∀ x, s ≠ .tvar x) ∧ (∀ ts, s = .union ts → ∃ t, ts = [t, .none] ∧ t ≠ .none)

/-- The mode in which the fields of a class with `deserializer=` are read where the function skips: its `class_deserializer` no longer counts. -/
def ReadMode.afterSkip (env : Env) (o : DeOpts) (cd : ClassDef) : ReadMode :=
  { reuse := o.reuse.getD cd.reuseDflt, numbers := o.numbers, coerce := cd.typeCheck == .coerce, tagging := cd.tagging, des := env.gde }

/-- A field that is read from the entry under its wire name, or its aliases. -/
structure PlainRead (cd : ClassDef) (f : FieldDef) : Prop where
  mem : f ∈ cd.fields
  init : f.init = true
  skip : f.skip = false
  skipDe : f.skipDe = false
  flat : f.flatten = false

/-- The pair handles this value of this field: the one function writes it as something the other reads back. -/
def Handled (env : Env) (s g : LegFn) (t : Ty) (v : Val) : Prop :=
  ∃ w, s (shown env t) v = some (.ok w) ∧ g (shown env t) w = some (.ok v)

/-- The pair leaves fields of this type alone: the one function skips every component (none of which is `Any`), the other the field. -/
def LeftAlone (env : Env) (s g : LegFn) (t : Ty) : Prop :=
  Inert t ∧ (∀ u, PartOf u t → u ≠ .any ∧ ∀ v, s (shown env u) v = none) ∧ ∀ v, g (shown env t) v = none

end Verif.Spec
