import Verif.Spec.Safe
import Verif.Spec.Field
import Verif.Spec.Unions
/-!
# Specification vocabulary: reuse_instances
-/

namespace Verif.Spec

mutual
/-- The second value is the first with some dates and str-convertible values, none of them a mapping key or set element, replaced by their
strings. -/
inductive Strung : Val → Val → Prop
  | same {v} : Strung v v
  | std {k s} : Strung (.std k s) (.str s)
  | dt {k s} : Strung (.dt k s) (.str s)
  | list {xs ys} : StrungL xs ys → Strung (.list xs) (.list ys)
  | tuple {xs ys} : StrungL xs ys → Strung (.tuple xs) (.tuple ys)
  | dict {k xs ys} : StrungD xs ys → Strung (.dict k xs) (.dict k ys)
/-- Elementwise. -/
inductive StrungL : List Val → List Val → Prop
  | nil : StrungL [] []
  | cons {x y xs ys} : Strung x y → StrungL xs ys → StrungL (x :: xs) (y :: ys)
/-- Entry by entry, with the same keys. -/
inductive StrungD : List (Val × Val) → List (Val × Val) → Prop
  | nil : StrungD [] []
  | cons {k x y xs ys} : Strung x y → StrungD xs ys → StrungD ((k, x) :: xs) ((k, y) :: ys)
end

/-- Two results: the same error, or related values; `same` asks for equal values. -/
def StrungR (same : Bool) (x y : Res Val) : Prop :=
  (∃ e, x = .error e ∧ y = .error e) ∨ ∃ v w, x = .ok v ∧ y = .ok w ∧ Strung v w ∧ (same = true → v = w)

/-- Annotations at which the value is written without regard to `reuse_instances`, whatever it is. -/
inductive Indifferent : Ty → Prop
  | prim {p} : Indifferent (.prim p)
  | newType {nm p} : Indifferent (.newType nm p)
  | none : Indifferent .none
  | any : Indifferent .any
  | tvar {x} : Indifferent (.tvar x)
  | listB {k} : Indifferent (.listB k)
  | setB {k} : Indifferent (.setB k)
  | dequeB : Indifferent .dequeB
  | counterB : Indifferent .counterB
  | tupleB : Indifferent .tupleB
  | dictB {k} : Indifferent (.dictB k)
  | enum {e} : Indifferent (.enum e)
  | lit {vs} : Indifferent (.lit vs)

/-- The field is left out depending on its serialized value, by a rule other than `skip_if_none`. -/
def ValueRule (cd : ClassDef) (f : FieldDef) : Prop :=
  f.skipIf ≠ none ∨ f.skipIfFalse = true ∨ f.skipIfDefault.getD cd.skipIfDefaultDflt = true

mutual
/-- The value conforms to the annotation, and no date or str-convertible value occurs in a mapping key or a set that stays a set.
With `same` none occurs at all. `S` are the unions of the class being serialized, `cv` is `convert_sets`. -/
inductive Clean (env : Env) : (List Ty → Prop) → Bool → Bool → Ty → Val → Prop
  | leaf {S cv same t v} : Indifferent t → Clean env S cv same t v
  | std {S cv k k' s} : Clean env S cv false (.std k) (.std k' s)
  | dt {S cv k k' s} : Clean env S cv false (.dt k) (.dt k' s)
  | list {S cv same k t v xs} : Items v xs → (∀ x ∈ xs, Clean env S cv same t x) → Clean env S cv same (.list k t) v
  | deque {S cv same t v xs} : Items v xs → (∀ x ∈ xs, Clean env S cv same t x) → Clean env S cv same (.deque t) v
  | tupleV {S cv same t v xs} : Items v xs → (∀ x ∈ xs, Clean env S cv same t x) → Clean env S cv same (.tupleV t) v
  | set {S cv same k t v xs} : cv = false → Items v xs → (∀ x ∈ xs, Clean env S cv true t x) → Clean env S cv same (.set k t) v
  | setConv {S cv same k t v xs} : cv = true → Items v xs → (∀ x ∈ xs, Clean env S cv same t x) → Clean env S cv same (.set k t) v
  | counter {S cv same t d kvs} : (∀ e ∈ kvs, Clean env S cv true t e.1) → Clean env S cv same (.counter t) (.dict d kvs)
  | dict {S cv same k kt vt d kvs} : (∀ e ∈ kvs, Clean env S cv true kt e.1) → (∀ e ∈ kvs, Clean env S cv same vt e.2) →
      Clean env S cv same (.dict k kt vt) (.dict d kvs)
  | tuple {S cv same ts xs} : (∀ (i : Nat) t x, ts[i]? = some t → xs[i]? = some x → Clean env S cv same t x) → Clean env S cv same (.tuple ts) (.tuple xs)
  | optNone {S cv same t} : t ≠ .none → Clean env S cv same (.union [t, .none]) .none
  | optSome {S cv same t v} : t ≠ .none → Clean env S cv same t v → Clean env S cv same (.union [t, .none]) v
  | union {S cv same ts v} : (Ty.union ts).isOpt = false → (∀ c attrs, v = .inst c attrs → (env.cls c).isSome) →
      (∀ us, S us → unionFuncName env us = unionFuncName env ts → us = ts) →
      (∀ t ∈ ts, ¬ Foreign env t v → Clean env S cv same t v) → Clean env S cv same (.union ts) v
  | cls {S cv same c v} : CleanObj env (some cv) same v → Clean env S cv same (.cls c) v
  | gen {S cv same c args v} : CleanObj env (some cv) same v → Clean env S cv same (.gen c args) v
  | alias {S cv same nm t v} : Clean env S cv same t v → Clean env S cv same (.alias nm t) v

/-- An instance whose written attributes are clean; no dataclass is flattened into it, and where leaving out a field depends on the written
value, no date or str-convertible value occurs in it. -/
inductive CleanObj (env : Env) : Option Bool → Bool → Val → Prop
  | mk {cv same c cd attrs} : env.cls c = some cd →
      (∀ f ∈ cd.fields, f.skip = false → f.skipSer = false → f.flatten = true → f.ty.isFlattenDict = true) →
      (∀ f ∈ cd.fields, f.skip = false → f.skipSer = false → (∀ g, f.serializer ≠ some (.fn g)) → ∀ x, attrs.lookup f.name = some x →
        ∀ b, (b = same ∨ ValueRule cd f ∧ b = true) → Clean env (fun us => Reach env true (.cls c) (.union us)) (cv.getD cd.convDflt) b f.ty x) →
      CleanObj env cv same (.inst c attrs)
end

/-- A value handed to `to_dict` without annotation. -/
inductive CleanTop (env : Env) : Option Bool → Val → Prop
  | scalar {cv v} : Scalar v → CleanTop env cv v
  | enum {cv e m} : CleanTop env cv (.enum e m)
  | std {cv k s} : CleanTop env cv (.std k s)
  | dt {cv k s} : CleanTop env cv (.dt k s)
  | items {cv v xs} : Items v xs → (∀ x ∈ xs, CleanTop env cv x) → CleanTop env cv v
  | dict {cv d kvs} : (∀ e ∈ kvs, CleanTop env cv e.2) → CleanTop env cv (.dict d kvs)
  | obj {cv v} : CleanObj env cv false v → CleanTop env cv v

/-! ## Positions that hold a date or str-convertible value -/

/-- Annotations built from primitives, dates and str-convertible types by list, deque, tuple, Optional and dict with primitive keys. -/
inductive Dated : Ty → Prop
  | prim {p} : Dated (.prim p)
  | std {k} : Dated (.std k)
  | dt {k} : Dated (.dt k)
  | list {k t} : Dated t → Dated (.list k t)
  | deque {t} : Dated t → Dated (.deque t)
  | tupleV {t} : Dated t → Dated (.tupleV t)
  | opt {t} : t ≠ .none → Dated t → Dated (.union [t, .none])
  | dict {k p vt} : Dated vt → Dated (.dict k (.prim p) vt)

mutual
/-- What is written for the value: dates and str-convertible values themselves if `keep`, else their strings; containers are rebuilt. -/
inductive Written (keep : Bool) : Val → Val → Prop
  | scalar {v} : Scalar v → Written keep v v
  | std {k s} : Written keep (.std k s) (if keep then .std k s else .str s)
  | dt {k s} : Written keep (.dt k s) (if keep then .dt k s else .str s)
  | list {xs ys} : WrittenL keep xs ys → Written keep (.list xs) (.list ys)
  | deque {xs ys} : WrittenL keep xs ys → Written keep (.deque xs) (.list ys)
  | tuple {xs ys} : WrittenL keep xs ys → Written keep (.tuple xs) (.tuple ys)
  | dict {d kvs es} : WrittenD keep kvs es → Written keep (.dict d kvs) (.dict .plain es)
inductive WrittenL (keep : Bool) : List Val → List Val → Prop
  | nil : WrittenL keep [] []
  | cons {x y xs ys} : Written keep x y → WrittenL keep xs ys → WrittenL keep (x :: xs) (y :: ys)
inductive WrittenD (keep : Bool) : List (Val × Val) → List (Val × Val) → Prop
  | nil : WrittenD keep [] []
  | cons {k x y xs ys} : Written keep x y → WrittenD keep xs ys → WrittenD keep ((k, x) :: xs) ((k, y) :: ys)
end

/-! ## Values without dates -/

/-- No date or str-convertible value (and no dataclass instance, which could hold one) anywhere. -/
inductive NoDate : Val → Prop
  | scalar {v} : Scalar v → NoDate v
  | enum {e m} : NoDate (.enum e m)
  | list {xs} : (∀ x ∈ xs, NoDate x) → NoDate (.list xs)
  | tuple {xs} : (∀ x ∈ xs, NoDate x) → NoDate (.tuple xs)
  | deque {xs} : (∀ x ∈ xs, NoDate x) → NoDate (.deque xs)
  | set {b xs} : (∀ x ∈ xs, NoDate x) → NoDate (.set b xs)
  | dict {k kvs} : (∀ e ∈ kvs, NoDate e.1) → (∀ e ∈ kvs, NoDate e.2) → NoDate (.dict k kvs)

/-! ## Reading -/

/-- A dataclass read field by field, without class-level or global deserializers. -/
structure BareClass (env : Env) (c : ClassId) (cd : ClassDef) : Prop where
  plain : PlainClass env c cd
  noDe : ∀ s ∈ env.gde ++ cd.classDe.toList, ∀ t, s.handles t = false

/-- Annotations built from dates, str-convertible types and dataclasses by list, deque, tuple, Optional and dict values. -/
inductive Dates (env : Env) : Ty → Prop
  | std {k} : Dates env (.std k)
  | dt {k} : Dates env (.dt k)
  | list {k t} : Dates env t → Dates env (.list k t)
  | deque {t} : Dates env t → Dates env (.deque t)
  | tupleV {t} : Dates env t → Dates env (.tupleV t)
  | opt {t} : Dates env t → Dates env (.union [t, .none])
  | dict {k kt vt} : Dates env vt → Dates env (.dict k kt vt)
  | cls {c cd} : BareClass env c cd → Dates env (.cls c)

/-- `d` is read as `w`: where a date or str-convertible value is expected, an instance is kept if `keep`; everything else goes through the
parser (constructor) of the class. Nothing is claimed about mapping keys, nor about a dataclass read from something else than a
dict (`notDict`). -/
inductive ReadDates (env : Env) (keep : Bool) : Ty → Val → Val → Prop
  | stdKept {k d} : keep = true → IsA env (.std k) d → ReadDates env keep (.std k) d d
  | stdMade {k d w} : ¬ (keep = true ∧ IsA env (.std k) d) → env.W.stdCtor k d = .ok w → ReadDates env keep (.std k) d w
  | dtKept {k d} : keep = true → IsA env (.dt k) d → ReadDates env keep (.dt k) d d
  | dtMade {k d w} : ¬ (keep = true ∧ IsA env (.dt k) d) → env.W.dtParse k d = .ok w → ReadDates env keep (.dt k) d w
  | list {k t d xs ys} : pyIter d = .ok xs → xs.length = ys.length →
      (∀ (i : Nat) x y, xs[i]? = some x → ys[i]? = some y → ReadDates env keep t x y) → ReadDates env keep (.list k t) d (.list ys)
  | deque {t d xs ys} : pyIter d = .ok xs → xs.length = ys.length →
      (∀ (i : Nat) x y, xs[i]? = some x → ys[i]? = some y → ReadDates env keep t x y) → ReadDates env keep (.deque t) d (.deque ys)
  | tupleV {t d xs ys} : pyIter d = .ok xs → xs.length = ys.length →
      (∀ (i : Nat) x y, xs[i]? = some x → ys[i]? = some y → ReadDates env keep t x y) → ReadDates env keep (.tupleV t) d (.tuple ys)
  | dict {k kt vt d kvs dk es} (src : Val × Val → Val × Val) : pyItems d = .ok kvs → (∀ e ∈ es, src e ∈ kvs) →
      (∀ e ∈ es, ReadDates env keep vt (src e).2 e.2) → ReadDates env keep (.dict k kt vt) d (.dict dk es)
  | optNone {t} : ReadDates env keep (.union [t, .none]) .none .none
  | optSome {t d w} : d ≠ .none → ReadDates env keep t d w → ReadDates env keep (.union [t, .none]) d w
  | cls {c cd dk kvs attrs} (val : FieldDef → Val) : BareClass env c cd →
      (∀ f x, PlainField env cd f → getStr (f.conv cd.deCase) kvs = some x → attrs.lookup f.name = some (val f)) →
      (∀ f x, PlainField env cd f → getStr (f.conv cd.deCase) kvs = some x → Dates env f.ty → ReadDates env keep f.ty x (val f)) →
      ReadDates env keep (.cls c) (.dict dk kvs) (.inst c attrs)
  | notDict {c d w} : (∀ dk kvs, d ≠ .dict dk kvs) → ReadDates env keep (.cls c) d w

end Verif.Spec
