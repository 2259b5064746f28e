import Verif.Spec.Read
import Verif.Spec.Conform
/-!
# Specification vocabulary: values of the shape an annotation asks for
-/

namespace Verif.Spec

/-- An instance of exactly this primitive class. -/
inductive OfPrim : Prim → Val → Prop
  | int {i} : OfPrim .int (.int i)
  | float {x} : OfPrim .float (.float x)
  | bool {b} : OfPrim .bool (.bool b)
  | str {s} : OfPrim .str (.str s)

/-- What Python's own constructors and parsers are relied on for: they return instances of their class. The function for numbers of the format
returns floats. -/
structure CtorsOk (env : Env) (numbers : Option (Val → Except PErr Val)) : Prop where
  prim : ∀ p x w, env.W.primOther p x = .ok w → OfPrim p w
  std : ∀ k x w, env.W.stdCtor k x = .ok w → IsA env (.std k) w
  dt : ∀ k x w, env.W.dtParse k x = .ok w → IsA env (.dt k) w
  number : ∀ num x w, numbers = some num → num x = .ok w → OfPrim .float w

/-- A custom deserializer, global or of some class, takes care of the annotation. -/
def Customised (env : Env) (t : Ty) : Prop :=
  (∃ s ∈ env.gde, s.handles t = true) ∨ ∃ c cd s, env.cls c = some cd ∧ cd.classDe = some s ∧ s.handles t = true

/-- The attributes are what the constructor was called with: there is no `__post_init__`. A transparent class has its one field. -/
structure AsBuilt (cd : ClassDef) : Prop where
  post : cd.postInit = none
  names : (cd.fields.map (·.name)).Nodup
  sole : cd.transparent = true → ∃ f, SoleField cd.fields f

/-- A field that is read, without a deserializer function of its own, and is no flattened dict. -/
structure ReadIn (cd : ClassDef) (f : FieldDef) : Prop where
  mem : f ∈ cd.fields
  init : f.init = true
  skip : f.skip = false
  skipDe : f.skipDe = false
  deser : ∀ g, f.deserializer ≠ some (.fn g)
  rest : takesRest f = false

/-- No two of the values are equal. -/
def Distinct (xs : List Val) : Prop := xs.Pairwise (fun a b => pyEq a b = false)

/-- The value has the shape that the annotation asks for, at every position. `floats` says that the format has a function for numbers, the other flag
that the class around the position coerces primitives; where neither is the case a primitive may be anything. Nothing is said
about type variables, about what custom deserializers give, and about bare `dict`s. Attributes may also be the declared defaults. -/
inductive Shaped (env : Env) (floats : Bool) : Bool → Ty → Val → Prop
  | custom {b t w} : Customised env t → Shaped env floats b t w
  | prim {b p w} : OfPrim p w → Shaped env floats b (.prim p) w
  | primAsIs {p w} : (p = .float → floats = false) → Shaped env floats false (.prim p) w
  | newType {b nm p w} : OfPrim p w → Shaped env floats b (.newType nm p) w
  | newTypeAsIs {nm p w} : Shaped env floats false (.newType nm p) w
  | none {b} : Shaped env floats b .none .none
  | any {b w} : Shaped env floats b .any w
  | tvar {b nm w} : Shaped env floats b (.tvar nm) w
  | enum {b e m} : Shaped env floats b (.enum e) (.enum e m)
  | std {b k w} : IsA env (.std k) w → Shaped env floats b (.std k) w
  | dt {b k w} : IsA env (.dt k) w → Shaped env floats b (.dt k) w
  | lit {b vs l w} : l ∈ vs → pyEq l w = true → Shaped env floats b (.lit vs) w
  | listB {b k xs} : Shaped env floats b (.listB k) (.list xs)
  | setB {b k xs} : Distinct xs → Shaped env floats b (.setB k) (.set false xs)
  | dequeB {b xs} : Shaped env floats b .dequeB (.deque xs)
  | tupleB {b xs} : Shaped env floats b .tupleB (.tuple xs)
  | counterB {b kvs} : Shaped env floats b .counterB (.dict .counter kvs)
  | dictB {b k w} : Shaped env floats b (.dictB k) w
  | list {b k t ys} : (∀ y ∈ ys, Shaped env floats b t y) → Shaped env floats b (.list k t) (.list ys)
  | deque {b t ys} : (∀ y ∈ ys, Shaped env floats b t y) → Shaped env floats b (.deque t) (.deque ys)
  | tupleV {b t ys} : (∀ y ∈ ys, Shaped env floats b t y) → Shaped env floats b (.tupleV t) (.tuple ys)
  | tuple {b ts ys} : ts.length = ys.length → (∀ (i : Nat) t y, ts[i]? = some t → ys[i]? = some y → Shaped env floats b t y) →
      Shaped env floats b (.tuple ts) (.tuple ys)
  | set {b k t ys} : Distinct ys → (∀ y ∈ ys, Shaped env floats b t y) → Shaped env floats b (.set k t) (.set (k == .frozen) ys)
  | counter {b t kvs} : Distinct (kvs.map (·.1)) → (∀ e ∈ kvs, Shaped env floats b t e.1) → Shaped env floats b (.counter t) (.dict .counter kvs)
  | dict {b k kt vt dk kvs} : Distinct (kvs.map (·.1)) → (dk = .plain ↔ k ≠ .deflt) → (∀ e ∈ kvs, PlainKey kt → Shaped env floats b kt e.1) →
      (∀ e ∈ kvs, ∀ p, kt = .prim p → ¬ PlainKey kt → OfPrim p e.1) → (∀ e ∈ kvs, Shaped env floats b vt e.2) →
      Shaped env floats b (.dict k kt vt) (.dict dk kvs)
  | optNone {b t} : t ≠ .none → Shaped env floats b (.union [t, .none]) .none
  | opt {b t w} : t ≠ .none → Shaped env floats b t w → Shaped env floats b (.union [t, .none]) w
  | union {b ts t w} : (Ty.union ts).isOpt = false → t ∈ ts → Shaped env floats false t w → Checked env t w → Shaped env floats b (.union ts) w
  | alias {b nm t w} : Shaped env floats b t w → Shaped env floats b (.alias nm t) w
  | gen {b c as w} : Shaped env floats b (.cls c) w → Shaped env floats b (.gen c as) w
  | cls {b c cd attrs} : env.cls c = some cd →
      (AsBuilt cd → ∀ f y, ReadIn cd f → attrs.lookup f.name = some y → f.dflt ≠ some y → Shaped env floats (cd.typeCheck == .coerce) f.ty y) →
      (AsBuilt cd → ∀ f, ReadIn cd f → ∃ y, attrs.lookup f.name = some y) →
      (AsBuilt cd → cd.typeCheck = .strict → ∀ f ∈ cd.fields, ∀ y, attrs.lookup f.name = some y → f.dflt ≠ some y → Conforms env f.ty y) →
      Shaped env floats b (.cls c) (.inst c attrs)

/-- The tuple based functions pass arguments by position: every constructor parameter is read and can be passed by position. -/
def Aligned (cd : ClassDef) : Prop := ∀ f ∈ cd.fields, f.init = true → f.skip = false ∧ f.skipDe = false ∧ f.kwOnly = false

/-- The same for the value given to from_dict, where primitives are always converted, the elements of a `tuple[T, ...]` are left as they are, and a
tuple may be too short. -/
inductive TopShaped (env : Env) (floats : Bool) : Ty → Val → Prop
  | custom {t w} : (∃ s ∈ env.gde, s.handles t = true) → TopShaped env floats t w
  | customGen {c as w} : (∃ s ∈ env.gde, s.handles (.cls c) = true) → TopShaped env floats (.gen c as) w
  | prim {p w} : OfPrim p w → TopShaped env floats (.prim p) w
  | newType {nm p w} : TopShaped env floats (.newType nm p) w
  | none : TopShaped env floats .none .none
  | any {w} : TopShaped env floats .any w
  | enum {e m} : TopShaped env floats (.enum e) (.enum e m)
  | std {k w} : IsA env (.std k) w → TopShaped env floats (.std k) w
  | dt {k w} : IsA env (.dt k) w → TopShaped env floats (.dt k) w
  | listB {k xs} : TopShaped env floats (.listB k) (.list xs)
  | setB {k b xs} : TopShaped env floats (.setB k) (.set b xs)
  | dequeB {xs} : TopShaped env floats .dequeB (.deque xs)
  | tupleB {xs} : TopShaped env floats .tupleB (.tuple xs)
  | tupleV {t xs} : TopShaped env floats (.tupleV t) (.tuple xs)
  | counterB {kvs} : TopShaped env floats .counterB (.dict .counter kvs)
  | dictB {k w} : TopShaped env floats (.dictB k) w
  | obj {c w} : Shaped env floats false (.cls c) w → TopShaped env floats (.cls c) w
  | gen {c as w} : Shaped env floats false (.cls c) w → TopShaped env floats (.gen c as) w
  | list {k t ys} : (∀ y ∈ ys, TopShaped env floats t y) → TopShaped env floats (.list k t) (.list ys)
  | deque {t ys} : (∀ y ∈ ys, TopShaped env floats t y) → TopShaped env floats (.deque t) (.deque ys)
  | set {k t ys} : Distinct ys → (∀ y ∈ ys, TopShaped env floats t y) → TopShaped env floats (.set k t) (.set (k == .frozen) ys)
  | tuple {ts ys} : ys.length ≤ ts.length → (∀ (i : Nat) t y, ts[i]? = some t → ys[i]? = some y → TopShaped env floats t y) →
      TopShaped env floats (.tuple ts) (.tuple ys)
  | counter {t kvs} : Distinct (kvs.map (·.1)) → (∀ e ∈ kvs, TopShaped env floats t e.1) → TopShaped env floats (.counter t) (.dict .counter kvs)
  | dict {k kt vt dk kvs} : Distinct (kvs.map (·.1)) → (dk = .plain ↔ k ≠ .deflt) → (∀ e ∈ kvs, TopShaped env floats kt e.1) → (∀ e ∈ kvs, TopShaped env floats vt e.2) →
      TopShaped env floats (.dict k kt vt) (.dict dk kvs)
  | optNone {t} : TopShaped env floats (.union [t, .none]) .none
  | opt {t w} : TopShaped env floats t w → TopShaped env floats (.union [t, .none]) w
  | union {ts t w} : (Ty.union ts).isOpt = false → t ∈ ts → Shaped env floats false t w → Checked env t w → TopShaped env floats (.union ts) w
  | alias {nm t w} : TopShaped env floats t w → TopShaped env floats (.alias nm t) w

end Verif.Spec
