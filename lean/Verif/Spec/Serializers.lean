import Verif.Spec.Safe
import Verif.Spec.Field
/-!
# Specification vocabulary: which custom (de)serializer is responsible
-/

namespace Verif.Spec

/-- Of these serializers, in order of registration, `s` is the last that is registered for the type. -/
def Chosen (S : List ClsSer) (t : Ty) (s : ClsSer) : Prop :=
  ∃ pre post, S = pre ++ s :: post ∧ s.handles t = true ∧ ∀ s' ∈ post, s'.handles t = false

/-- None of these serializers is registered for the type. -/
def NoneFor (S : List ClsSer) (t : Ty) : Prop := ∀ s ∈ S, s.handles t = false

/-- Of these deserializers, in order of registration, `s` is the last that is registered for the type. -/
def ChosenDe (S : List ClsDe) (t : Ty) (s : ClsDe) : Prop :=
  ∃ pre post, S = pre ++ s :: post ∧ s.handles t = true ∧ ∀ s' ∈ post, s'.handles t = false

/-- None of these deserializers is registered for the type. -/
def NoneForDe (S : List ClsDe) (t : Ty) : Prop := ∀ s ∈ S, s.handles t = false

/-- A type without component types. A union that is not `Optional` is counted among them. -/
inductive Atom : Ty → Prop
  | none : Atom .none
  | prim {p} : Atom (.prim p)
  | newType {n p} : Atom (.newType n p)
  | any : Atom .any
  | tvar {x} : Atom (.tvar x)
  | enum {e} : Atom (.enum e)
  | std {k} : Atom (.std k)
  | dt {k} : Atom (.dt k)
  | lit {vs} : Atom (.lit vs)
  | listB {k} : Atom (.listB k)
  | setB {k} : Atom (.setB k)
  | dequeB : Atom .dequeB
  | counterB : Atom .counterB
  | dictB {k} : Atom (.dictB k)
  | tupleB : Atom .tupleB
  | union {ts} : (∀ t, ts ≠ [t, .none]) → Atom (.union ts)
  | optNone : Atom (.union [.none, .none])
  | other {s} : Atom (.other s)

/-- The value is not a container, or instance, of the kind the type asks for. -/
inductive Odd : Ty → Val → Prop
  | list {k t v} : (∀ xs, ¬ Items v xs) → Odd (.list k t) v
  | deque {t v} : (∀ xs, ¬ Items v xs) → Odd (.deque t) v
  | tupleV {t v} : (∀ xs, ¬ Items v xs) → Odd (.tupleV t) v
  | set {k t v} : (∀ xs, ¬ Items v xs) → Odd (.set k t) v
  | tuple {ts v} : (∀ xs, v ≠ .tuple xs) → (∀ xs, v ≠ .list xs) → Odd (.tuple ts) v
  | counter {t v} : (∀ d kvs, v ≠ .dict d kvs) → Odd (.counter t) v
  | dict {k kt vt v} : (∀ d kvs, v ≠ .dict d kvs) → Odd (.dict k kt vt) v
  | cls {c v} : (∀ c' attrs, v ≠ .inst c' attrs) → Odd (.cls c) v

/-- Objects of this class become a dict with one entry per field. -/
structure SimpleSe (cd : ClassDef) : Prop where
  dict : cd.transparent = false
  entries : OneEntryEach cd

/-- The serialized object `w` of a `SimpleSe` class holds `x` for the field: under its wire name in a dict, at its position in a tuple. -/
def Slot (cd : ClassDef) (w : Val) (f : FieldDef) (x : Val) : Prop :=
  (∃ kvs, w = .dict .plain kvs ∧ f ∈ cd.fields.filter serializable ∧ (.str (f.conv cd.seCase), x) ∈ kvs) ∨
  ∃ (ws : List Val) (i : Nat), w = .tuple ws ∧ (cd.fields.filter serializable)[i]? = some f ∧ ws[i]? = some x

/-- `w` is what a value `v` annotated as `t` is serialized to, as far as custom serializers are concerned: `S` are the serializers in
force in order of priority, the last one first. Positions with an `Atom` type and no serializer are left open, as are values that do not
have the annotated kind and objects of classes that are not `SimpleSe`. -/
inductive Served (env : Env) : List ClsSer → Ty → Val → Val → Prop
  | chosen {S t s v w} : Chosen S t s → s.run v = .ok w → Served env S t v w
  | list {S k t v xs ys} : NoneFor S (.list k t) → Items v xs → xs.length = ys.length → (∀ p ∈ xs.zip ys, Served env S t p.1 p.2) →
      Served env S (.list k t) v (.list ys)
  | deque {S t v xs ys} : NoneFor S (.deque t) → Items v xs → xs.length = ys.length → (∀ p ∈ xs.zip ys, Served env S t p.1 p.2) →
      Served env S (.deque t) v (.list ys)
  | tupleV {S t v xs ys} : NoneFor S (.tupleV t) → Items v xs → xs.length = ys.length → (∀ p ∈ xs.zip ys, Served env S t p.1 p.2) →
      Served env S (.tupleV t) v (.tuple ys)
  | tuple {S ts v xs ys} : NoneFor S (.tuple ts) → (v = .tuple xs ∨ v = .list xs) → ys.length = ts.length →
      (∀ (i : Nat) t x y, ts[i]? = some t → xs[i]? = some x → ys[i]? = some y → Served env S t x y) → Served env S (.tuple ts) v (.tuple ys)
  | set {S k t v xs w ys} (src : Val → Val) : NoneFor S (.set k t) → Items v xs → Items w ys → (∀ y ∈ ys, src y ∈ xs) →
      (∀ y ∈ ys, Served env S t (src y) y) → Served env S (.set k t) v w
  | counter {S t d kvs d' es} (src : Val → Val) : NoneFor S (.counter t) → (∀ e ∈ es, src e.1 ∈ kvs.map (·.1)) →
      (∀ e ∈ es, Served env S t (src e.1) e.1) → Served env S (.counter t) (.dict d kvs) (.dict d' es)
  | dict {S k kt vt d kvs d' es} (ksrc vsrc : Val → Val) : NoneFor S (.dict k kt vt) →
      (∀ e ∈ es, ksrc e.1 ∈ kvs.map (·.1)) → (∀ e ∈ es, vsrc e.2 ∈ kvs.map (·.2)) →
      (∀ e ∈ es, Served env S kt (ksrc e.1) e.1) → (∀ e ∈ es, Served env S vt (vsrc e.2) e.2) →
      Served env S (.dict k kt vt) (.dict d kvs) (.dict d' es)
  | optNone {S t} : NoneFor S (.union [t, .none]) → Served env S (.union [t, .none]) .none .none
  | opt {S t v w} : NoneFor S (.union [t, .none]) → v ≠ .none → Served env S t v w → Served env S (.union [t, .none]) v w
  | alias {S n t v w} : NoneFor S (.alias n t) → Served env S t v w → Served env S (.alias n t) v w
  | gen {S c as v w} : NoneFor S (.gen c as) → Served env S (.cls c) v w → Served env S (.gen c as) v w
  | obj {S c c' cd attrs w} : NoneFor S (.cls c) → env.cls c' = some cd →
      (∀ f a x, SimpleSe cd → Slot cd w f x → attrs.lookup f.name = some a → ∀ g, f.serializer = some (.fn g) → g a = .ok x) →
      (∀ f a x, SimpleSe cd → Slot cd w f x → attrs.lookup f.name = some a → f.serializer = some .marker → Served env [] f.ty a x) →
      (∀ f a x, SimpleSe cd → Slot cd w f x → attrs.lookup f.name = some a → f.serializer = none →
        Served env (env.gser ++ cd.classSer.toList) f.ty a x) →
      Served env S (.cls c) (.inst c' attrs) w
  | atom {S t v w} : NoneFor S t → Atom t → Served env S t v w
  | odd {S t v w} : NoneFor S t → Odd t v → Served env S t v w

/-- Objects of this class are built from a dict field by field. -/
structure SimpleDe (cd : ClassDef) : Prop where
  dict : cd.transparent = false
  post : cd.postInit = none
  names : (cd.fields.map (·.name)).Nodup

/-- A field read from the entry under its wire name only. -/
structure ReadField (cd : ClassDef) (f : FieldDef) : Prop where
  mem : f ∈ cd.fields
  init : f.init = true
  skip : f.skip = false
  skipDe : f.skipDe = false
  flat : f.flatten = false
  alias : f.alias = []

/-- The object has this attribute for the field. -/
def HasAttr (w : Val) (f : FieldDef) (y : Val) : Prop := ∃ c attrs, w = .inst c attrs ∧ attrs.lookup f.name = some y

/-- A dict key that deserialization does not convert to a number. -/
def PlainKey (t : Ty) : Prop := t ≠ .prim .int ∧ t ≠ .prim .float

/-- `w` is what the input `d` is deserialized to where `t` is asked for, as far as custom deserializers are concerned; like `Served`. -/
inductive Gotten (env : Env) : List ClsDe → Ty → Val → Val → Prop
  | chosen {S t s v w} : ChosenDe S t s → s.run t v = .ok w → Gotten env S t v w
  | list {S k t v xs ys} : NoneForDe S (.list k t) → Items v xs → xs.length = ys.length → (∀ p ∈ xs.zip ys, Gotten env S t p.1 p.2) →
      Gotten env S (.list k t) v (.list ys)
  | deque {S t v xs ys} : NoneForDe S (.deque t) → Items v xs → xs.length = ys.length → (∀ p ∈ xs.zip ys, Gotten env S t p.1 p.2) →
      Gotten env S (.deque t) v (.deque ys)
  | tupleV {S t v xs ys} : NoneForDe S (.tupleV t) → Items v xs → xs.length = ys.length → (∀ p ∈ xs.zip ys, Gotten env S t p.1 p.2) →
      Gotten env S (.tupleV t) v (.tuple ys)
  | tuple {S ts v xs ys} : NoneForDe S (.tuple ts) → (v = .tuple xs ∨ v = .list xs) → ys.length = ts.length →
      (∀ (i : Nat) t x y, ts[i]? = some t → xs[i]? = some x → ys[i]? = some y → Gotten env S t x y) → Gotten env S (.tuple ts) v (.tuple ys)
  | set {S k t v xs w ys} (src : Val → Val) : NoneForDe S (.set k t) → Items v xs → Items w ys → (∀ y ∈ ys, src y ∈ xs) →
      (∀ y ∈ ys, Gotten env S t (src y) y) → Gotten env S (.set k t) v w
  | counter {S t d kvs d' es} (src : Val → Val) : NoneForDe S (.counter t) → (∀ e ∈ es, src e.1 ∈ kvs.map (·.1)) →
      (∀ e ∈ es, Gotten env S t (src e.1) e.1) → Gotten env S (.counter t) (.dict d kvs) (.dict d' es)
  | dict {S k kt vt d kvs d' es} (ksrc vsrc : Val → Val) : NoneForDe S (.dict k kt vt) →
      (∀ e ∈ es, ksrc e.1 ∈ kvs.map (·.1)) → (∀ e ∈ es, vsrc e.2 ∈ kvs.map (·.2)) →
      (∀ e ∈ es, PlainKey kt → Gotten env S kt (ksrc e.1) e.1) → (∀ e ∈ es, Gotten env S vt (vsrc e.2) e.2) →
      Gotten env S (.dict k kt vt) (.dict d kvs) (.dict d' es)
  | optNone {S t} : NoneForDe S (.union [t, .none]) → Gotten env S (.union [t, .none]) .none .none
  | opt {S t v w} : NoneForDe S (.union [t, .none]) → v ≠ .none → Gotten env S t v w → Gotten env S (.union [t, .none]) v w
  | alias {S n t v w} : NoneForDe S (.alias n t) → Gotten env S t v w → Gotten env S (.alias n t) v w
  | gen {S c as v w} : NoneForDe S (.gen c as) → Gotten env S (.cls c) v w → Gotten env S (.gen c as) v w
  | obj {S c cd dk kvs w} : NoneForDe S (.cls c) → env.cls c = some cd →
      (∀ f x y, SimpleDe cd → ReadField cd f → getStr (f.conv cd.deCase) kvs = some x → HasAttr w f y →
        ∀ g, f.deserializer = some (.fn g) → g x = .ok y) →
      (∀ f x y, SimpleDe cd → ReadField cd f → getStr (f.conv cd.deCase) kvs = some x → HasAttr w f y →
        f.deserializer = some .marker → Gotten env [] f.ty x y) →
      (∀ f x y, SimpleDe cd → ReadField cd f → getStr (f.conv cd.deCase) kvs = some x → HasAttr w f y →
        f.deserializer = none → Gotten env (env.gde ++ cd.classDe.toList) f.ty x y) →
      Gotten env S (.cls c) (.dict dk kvs) w
  | notDict {S c v w} : NoneForDe S (.cls c) → (∀ d kvs, v ≠ .dict d kvs) → Gotten env S (.cls c) v w
  | atom {S t v w} : NoneForDe S t → Atom t → Gotten env S t v w
  | odd {S t v w} : NoneForDe S t → (∀ c, t ≠ .cls c) → Odd t v → Gotten env S t v w

end Verif.Spec
