import Verif.Spec.Write
/-!
# Specification vocabulary: output without None
-/

namespace Verif.Spec

/-- No None (and no dataclass instance, which could hold one) anywhere. -/
inductive NullFree : Val → Prop
  | bool {b} : NullFree (.bool b)
  | int {i} : NullFree (.int i)
  | float {x} : NullFree (.float x)
  | str {s} : NullFree (.str s)
  | enum {e m} : NullFree (.enum e m)
  | std {k s} : NullFree (.std k s)
  | dt {k s} : NullFree (.dt k s)
  | list {xs} : (∀ x ∈ xs, NullFree x) → NullFree (.list xs)
  | tuple {xs} : (∀ x ∈ xs, NullFree x) → NullFree (.tuple xs)
  | deque {xs} : (∀ x ∈ xs, NullFree x) → NullFree (.deque xs)
  | set {b xs} : (∀ x ∈ xs, NullFree x) → NullFree (.set b xs)
  | dict {k kvs} : (∀ e ∈ kvs, NullFree e.1) → (∀ e ∈ kvs, NullFree e.2) → NullFree (.dict k kvs)

/-- No enum member has None in its value. -/
def EnumsSolid (env : Env) : Prop := ∀ e d m u, env.enm e = some d → (m, u) ∈ d.members → NullFree u

/-- A field whose form is None is left out where `skip_none` is on: its own rules, if it has any, are no obstacle. -/
def DropsNone (cd : ClassDef) (f : FieldDef) : Prop :=
  f.skipIf = none ∧ (f.skipIfFalse = true ∨ skipsDefault cd f = false ∨ f.dflt = some .none)

mutual
/-- Wherever the annotation leads inside the value, None is met in fields at most, and only in fields that are left out for it. Of the members of a union
only those count that the value may be an instance of. -/
inductive Solid (env : Env) : Ty → Val → Prop
  | prim {p v} : Scalar v → NullFree v → Solid env (.prim p) v
  | newType {n p v} : Scalar v → NullFree v → Solid env (.newType n p) v
  | enum {e v} : Solid env (.enum e) v
  | std {k v} : NullFree v → Solid env (.std k) v
  | dt {k v} : NullFree v → Solid env (.dt k) v
  | lit {vs v} : NullFree v → Solid env (.lit vs) v
  | listB {k v} : NullFree v → Solid env (.listB k) v
  | setB {k v} : NullFree v → Solid env (.setB k) v
  | dequeB {v} : NullFree v → Solid env .dequeB v
  | counterB {v} : NullFree v → Solid env .counterB v
  | dictB {k v} : NullFree v → Solid env (.dictB k) v
  | tupleB {v} : NullFree v → Solid env .tupleB v
  | list {k t v} : (∀ xs, pyIter v = .ok xs → ∀ x ∈ xs, Solid env t x) → Solid env (.list k t) v
  | deque {t v} : (∀ xs, pyIter v = .ok xs → ∀ x ∈ xs, Solid env t x) → Solid env (.deque t) v
  | tupleV {t v} : (∀ xs, pyIter v = .ok xs → ∀ x ∈ xs, Solid env t x) → Solid env (.tupleV t) v
  | set {k t v} : (∀ xs, pyIter v = .ok xs → ∀ x ∈ xs, Solid env t x) → Solid env (.set k t) v
  | tuple {ts v} : (∀ (i : Nat) t, ts[i]? = some t → ∃ a, pyIndex v i = .ok a) →
      (∀ (i : Nat) t a, ts[i]? = some t → pyIndex v i = .ok a → Solid env t a) → Solid env (.tuple ts) v
  | counter {t v} : (∀ kvs, pyItems v = .ok kvs → ∀ e ∈ kvs, NullFree e.2) → (∀ kvs, pyItems v = .ok kvs → ∀ e ∈ kvs, Solid env t e.1) →
      Solid env (.counter t) v
  | dict {k kt vt v} : (∀ kvs, pyItems v = .ok kvs → ∀ e ∈ kvs, Solid env kt e.1) → (∀ kvs, pyItems v = .ok kvs → ∀ e ∈ kvs, Solid env vt e.2) →
      Solid env (.dict k kt vt) v
  | opt {t v} : t ≠ .none → v ≠ .none → Solid env t v → Solid env (.union [t, .none]) v
  | union {ts v} : (∀ t, ts ≠ [t, .none]) → KnownObj env v → (∀ t ∈ ts, (Nominal env t → IsA env t v) → Solid env t v) → Solid env (.union ts) v
  | alias {n t v} : Solid env t v → Solid env (.alias n t) v
  | gen {c as v} : Solid env (.cls c) v → Solid env (.gen c as) v
  | cls {c v} : SolidObj env v → Solid env (.cls c) v
  | any {v} : SolidAny env v → Solid env .any v
  | tvar {x v} : SolidAny env v → Solid env (.tvar x) v

/-- The same where the form may be None as a whole. -/
inductive Lax (env : Env) : Ty → Val → Prop
  | solid {t v} : Solid env t v → Lax env t v
  | none {v} : Lax env .none v
  | opt {t} : t ≠ .none → Lax env (.union [t, .none]) .none
  | union {ts} : (∀ t, ts ≠ [t, .none]) → (∀ t ∈ ts, (Nominal env t → IsA env t .none) → t = .none) → Lax env (.union ts) .none
  | alias {n t v} : Lax env t v → Lax env (.alias n t) v

/-- The same for an object. A custom serializer must not return None, nor may the one field of a transparent class be None. -/
inductive SolidObj (env : Env) : Val → Prop
  | dict {c cd attrs} : env.cls c = some cd → cd.classSer = none → SimpleSe cd → PlainSkips cd →
      (∀ f ∈ cd.fields.filter serializable, attrs.lookup f.name = none → DropsNone cd f) →
      (∀ f ∈ cd.fields.filter serializable, ∀ g x y, f.serializer = some (.fn g) → attrs.lookup f.name = some x → g x = .ok y → NullFree y) →
      (∀ f ∈ cd.fields.filter serializable, ∀ x, (∀ g, f.serializer ≠ some (.fn g)) → attrs.lookup f.name = some x → ¬ DropsNone cd f →
        Solid env f.ty x) →
      (∀ f ∈ cd.fields.filter serializable, ∀ x, (∀ g, f.serializer ≠ some (.fn g)) → attrs.lookup f.name = some x → DropsNone cd f →
        Lax env f.ty x) → SolidObj env (.inst c attrs)
  | through {c cd f rest attrs x} : env.cls c = some cd → cd.classSer = none → cd.transparent = true → cd.fields.filter serializable = f :: rest →
      f.flatten = false → (∀ g, f.serializer ≠ some (.fn g)) → attrs.lookup f.name = some x → Solid env f.ty x → SolidObj env (.inst c attrs)

/-- The same for a value without annotation. -/
inductive SolidAny (env : Env) : Val → Prop
  | obj {c attrs} : SolidObj env (.inst c attrs) → SolidAny env (.inst c attrs)
  | list {xs} : (∀ x ∈ xs, SolidAny env x) → SolidAny env (.list xs)
  | tuple {xs} : (∀ x ∈ xs, SolidAny env x) → SolidAny env (.tuple xs)
  | set {b xs} : (∀ x ∈ xs, SolidAny env x) → SolidAny env (.set b xs)
  | deque {xs} : (∀ x ∈ xs, SolidAny env x) → SolidAny env (.deque xs)
  | dict {k kvs} : (∀ e ∈ kvs, NullFree e.1) → (∀ e ∈ kvs, SolidAny env e.2) → SolidAny env (.dict k kvs)
  | enum {e m} : SolidAny env (.enum e m)
  | std {k s} : SolidAny env (.std k s)
  | dt {k s} : SolidAny env (.dt k s)
  | scalar {v} : Scalar v → v ≠ .none → SolidAny env v
end

end Verif.Spec
