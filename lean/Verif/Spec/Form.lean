import Verif.Spec.Write
import Verif.Spec.Accept
/-!
# Specification vocabulary: values that can be written, and their written form
-/

namespace Verif.Spec

/-- The mode in which the value of a field is written. -/
def OutMode.atField (m : OutMode) (f : FieldDef) : OutMode := if f.serializer.isSome then m.plain else m

/-- The form of a value at an annotation without components. Nothing is asked of primitives where there is no coercion, nor of literals. -/
inductive FormLeaf (env : Env) (m : OutMode) : Ty → Val → Val → Prop
  | none {v} : FormLeaf env m .none v .none
  | prim {p v} : m.coerce = false → FormLeaf env m (.prim p) v v
  | coerced {p v w} : m.coerce = true → Converts env p v w → FormLeaf env m (.prim p) v w
  | newType {nm p v} : m.coerce = false → FormLeaf env m (.newType nm p) v v
  | newTypeCoerced {nm p v w} : m.coerce = true → Converts env p v w → FormLeaf env m (.newType nm p) v w
  | enum {e e' d mem w} : env.enm e' = some d → d.members.lookup mem = some w → (∀ e'' m', w ≠ .enum e'' m') →
      hashable env.hash w = true → FormLeaf env m (.enum e) (.enum e' mem) w
  | stdKept {k v} : m.reuse = true → FormLeaf env m (.std k) v v
  | stdText {k k' s} : m.reuse = false → FormLeaf env m (.std k) (.std k' s) (.str s)
  | dtKept {k v} : m.reuse = true → FormLeaf env m (.dt k) v v
  | dtText {k k' s} : m.reuse = false → FormLeaf env m (.dt k) (.dt k' s) (.str s)
  | lit {vs v} : FormLeaf env m (.lit vs) v v
  | list {v} : FormLeaf env m (.listB .list) v v
  | listLike {k v xs} : k ≠ .list → Items v xs → FormLeaf env m (.listB k) v (.list xs)
  | set {k v} : m.conv = false → FormLeaf env m (.setB k) v v
  | setList {k v xs} : m.conv = true → Items v xs → FormLeaf env m (.setB k) v (.list xs)
  | deque {v xs} : Items v xs → FormLeaf env m .dequeB v (.list xs)
  | counter {d kvs} : FormLeaf env m .counterB (.dict d kvs) (.dict .plain kvs)
  | dict {k v} : k ≠ .deflt → FormLeaf env m (.dictB k) v v
  | tuple {v} : FormLeaf env m .tupleB v v

/-- Where a value is written: at an annotation inside the class `c`; as a field, whose form is given as the entries it stands for, with names
converted by `case`; as an object; or by its own class. -/
inductive WPos where
  | at (c : ClassId) (m : OutMode) (t : Ty)
  | field (c : ClassId) (m : OutMode) (case : Option (String → String)) (f : FieldDef)
  | obj (g : OutGiven)
  | any (g : OutGiven)

/-- The fields of the class that are written. -/
abbrev outFields (cd : ClassDef) : List FieldDef := cd.fields.filter serializable

/-- The value `v` can be written at this position, and `w` is its form. Elements of sets that stay sets and keys of mappings need forms that are hashable
and different; a member of a union has to be recognised by its class; a predicate of the user must not raise; the entries of a dict form need different names. -/
inductive FormOf (env : Env) : WPos → Val → Val → Prop
  | chosen {c m t s v w} : Chosen m.sers t s → s.run v = .ok w → FormOf env (.at c m t) v w
  | leaf {c m t v w} : NoneFor m.sers t → FormLeaf env m t v w → FormOf env (.at c m t) v w
  | list {c m k t v xs ys} : NoneFor m.sers (.list k t) → Items v xs → xs.length = ys.length →
      (∀ p ∈ xs.zip ys, FormOf env (.at c m t) p.1 p.2) → FormOf env (.at c m (.list k t)) v (.list ys)
  | deque {c m t v xs ys} : NoneFor m.sers (.deque t) → Items v xs → xs.length = ys.length →
      (∀ p ∈ xs.zip ys, FormOf env (.at c m t) p.1 p.2) → FormOf env (.at c m (.deque t)) v (.list ys)
  | tupleV {c m t v xs ys} : NoneFor m.sers (.tupleV t) → Items v xs → xs.length = ys.length →
      (∀ p ∈ xs.zip ys, FormOf env (.at c m t) p.1 p.2) → FormOf env (.at c m (.tupleV t)) v (.tuple ys)
  | tuple {c m ts v xs ys} : NoneFor m.sers (.tuple ts) → ts ≠ [] → (v = .list xs ∨ v = .tuple xs) → ts.length = xs.length → ts.length = ys.length →
      (∀ p ∈ ts.zip (xs.zip ys), FormOf env (.at c m p.1) p.2.1 p.2.2) → FormOf env (.at c m (.tuple ts)) v (.tuple ys)
  | setList {c m k t v xs ys} : NoneFor m.sers (.set k t) → m.conv = true → Items v xs → xs.length = ys.length →
      (∀ p ∈ xs.zip ys, FormOf env (.at c m t) p.1 p.2) → FormOf env (.at c m (.set k t)) v (.list ys)
  | set {c m k t v xs ys} : NoneFor m.sers (.set k t) → m.conv = false → Items v xs → xs.length = ys.length →
      (∀ p ∈ xs.zip ys, FormOf env (.at c m t) p.1 p.2) → hashableL env.hash ys = true → AllDistinct ys → FormOf env (.at c m (.set k t)) v (.set false ys)
  | counter {c m t dk} {kvs es : List (Val × Val)} : NoneFor m.sers (.counter t) → kvs.length = es.length →
      (∀ p ∈ kvs.zip es, FormOf env (.at c m t) p.1.1 p.2.1) → (∀ p ∈ kvs.zip es, p.2.2 = p.1.2) →
      hashableL env.hash (es.map (·.1)) = true → AllDistinct (es.map (·.1)) → FormOf env (.at c m (.counter t)) (.dict dk kvs) (.dict .plain es)
  | dict {c m k kt vt dk} {kvs es : List (Val × Val)} : NoneFor m.sers (.dict k kt vt) → kvs.length = es.length →
      (∀ p ∈ kvs.zip es, FormOf env (.at c m kt) p.1.1 p.2.1) → (∀ p ∈ kvs.zip es, FormOf env (.at c m vt) p.1.2 p.2.2) →
      hashableL env.hash (es.map (·.1)) = true → AllDistinct (es.map (·.1)) → FormOf env (.at c m (.dict k kt vt)) (.dict dk kvs) (.dict .plain es)
  | optNone {c m t} : NoneFor m.sers (.union [t, .none]) → t ≠ .none → FormOf env (.at c m (.union [t, .none])) .none .none
  | opt {c m t v w} : NoneFor m.sers (.union [t, .none]) → t ≠ .none → v ≠ .none → FormOf env (.at c m t) v w → FormOf env (.at c m (.union [t, .none])) v w
  | union {c m ts pre t post v r w} : NoneFor m.sers (.union ts) → (Ty.union ts).isOpt = false → HasUnion env c ts → ts = pre ++ t :: post → KnownObj env v →
      (∀ s ∈ pre, Nominal env s ∧ ¬ IsA env s v) → Nominal env t → IsA env t v → FormOf env (.at c (m.member env) t) v r → TaggedAs env m.tagging t r w →
      FormOf env (.at c m (.union ts)) v w
  | alias {c m n t v w} : NoneFor m.sers (.alias n t) → FormOf env (.at c m t) v w → FormOf env (.at c m (.alias n t)) v w
  | gen {c m d as v w} : NoneFor m.sers (.gen d as) → FormOf env (.at c m (.cls d)) v w → FormOf env (.at c m (.gen d as)) v w
  | cls {c m d v w} : NoneFor m.sers (.cls d) → FormOf env (.obj m.given) v w → FormOf env (.at c m (.cls d)) v w
  | any {c m v w} : NoneFor m.sers .any → FormOf env (.any m.anything) v w → FormOf env (.at c m .any) v w
  | tvar {c m x v w} : NoneFor m.sers (.tvar x) → FormOf env (.any m.anything) v w → FormOf env (.at c m (.tvar x)) v w
  | fieldFn {c m case f g x y} : f.flatten = false → f.serializer = some (.fn g) → g x = .ok y →
      FormOf env (.field c m case f) x (.dict .plain [(.str (f.conv case), y)])
  | field {c m case f x y} : f.flatten = false → (∀ g, f.serializer ≠ some (.fn g)) → FormOf env (.at c (m.atField f) f.ty) x y →
      FormOf env (.field c m case f) x (.dict .plain [(.str (f.conv case), y)])
  | inner {c m case f ch cd d attrs} {val : FieldDef → Val} {es : FieldDef → List (Val × Val)} : inlined f = some ch → SplicedField m.sers f →
      env.cls ch = some cd → (∀ g ∈ cd.fields, attrs.lookup g.name = some (val g)) →
      (∀ g ∈ cd.fields, FormOf env (.field c m case g) (val g) (.dict .plain (es g))) →
      FormOf env (.field c m case f) (.inst d attrs) (.dict .plain (cd.fields.flatMap es))
  | object {g c cd attrs} {val : FieldDef → Val} {dk : FieldDef → DictK} {es : FieldDef → List (Val × Val)} {kept : FieldDef → Bool} : env.cls c = some cd →
      g.named = true → cd.transparent = false → PlainSkips cd → (∀ f ∈ outFields cd, attrs.lookup f.name = some (val f)) →
      (∀ f ∈ outFields cd, takesRest f = false → FormOf env (.field c (g.inside env cd) cd.seCase f) (val f) (.dict .plain (es f))) →
      (∀ f ∈ outFields cd, takesRest f = false → es f ≠ []) →
      (∀ f ∈ outFields cd, takesRest f = false → ∀ p, f.skipIf = some p → ∃ b, p (together ((es f).map (·.2))) = .ok b) →
      (∀ f ∈ outFields cd, takesRest f = false → (kept f = false ↔ LeftOut env g.skipNone cd f (together ((es f).map (·.2))))) →
      (∀ f ∈ outFields cd, takesRest f = true → kept f = true ∧ ∀ h, f.serializer ≠ some (.fn h)) →
      (∀ f ∈ outFields cd, takesRest f = true → FormOf env (.at c ((g.inside env cd).atField f) f.ty) (val f) (.dict (dk f) (es f))) →
      ((((outFields cd).filter kept).flatMap es).map (·.1)).Pairwise (fun a b => pyEq a b = false) →
      FormOf env (.obj g) (.inst c attrs) (.dict .plain (((outFields cd).filter kept).flatMap es))
  | row {g c cd attrs} {val : FieldDef → Val} {es : FieldDef → List (Val × Val)} : env.cls c = some cd → g.named = false → cd.transparent = false →
      (∀ f ∈ outFields cd, attrs.lookup f.name = some (val f)) →
      (∀ f ∈ outFields cd, FormOf env (.field c (g.inside env cd) cd.seCase f) (val f) (.dict .plain (es f))) →
      FormOf env (.obj g) (.inst c attrs) (.tuple (((outFields cd).flatMap es).map (·.2)))
  | through {g c cd attrs f rest x k w} : env.cls c = some cd → cd.transparent = true → outFields cd = f :: rest → f.flatten = false →
      attrs.lookup f.name = some x → FormOf env (.field c (g.inside env cd) cd.seCase f) x (.dict .plain [(k, w)]) → FormOf env (.obj g) (.inst c attrs) w
  | anyNone {g} : FormOf env (.any g) .none .none
  | anyChosen {g v t s w} : v ≠ .none → SameClass v t → FirstFor env.gser t s → s.run v = .ok w → FormOf env (.any g) v w
  | anyObj {g c attrs w} : NoneFor env.gser (.cls c) → FormOf env (.obj g) (.inst c attrs) w → FormOf env (.any g) (.inst c attrs) w
  | anyList {g} {xs ys : List Val} : NoneFor env.gser (.listB .list) → xs.length = ys.length → (∀ p ∈ xs.zip ys, FormOf env (.any g) p.1 p.2) →
      FormOf env (.any g) (.list xs) (.list ys)
  | anyTuple {g} {xs ys : List Val} : NoneFor env.gser .tupleB → xs.length = ys.length → (∀ p ∈ xs.zip ys, FormOf env (.any g) p.1 p.2) →
      FormOf env (.any g) (.tuple xs) (.tuple ys)
  | anySet {g b} {xs ys : List Val} : (∀ t, SameClass (.set b xs) t → NoneFor env.gser t) → xs.length = ys.length →
      (∀ p ∈ xs.zip ys, FormOf env (.any g) p.1 p.2) → FormOf env (.any g) (.set b xs) (.list ys)
  | anyDeque {g} {xs ys : List Val} : NoneFor env.gser .dequeB → xs.length = ys.length → (∀ p ∈ xs.zip ys, FormOf env (.any g) p.1 p.2) →
      FormOf env (.any g) (.deque xs) (.list ys)
  | anyDict {g k} {kvs es : List (Val × Val)} : (∀ t, SameClass (.dict k kvs) t → NoneFor env.gser t) → kvs.map (·.1) = es.map (·.1) →
      (∀ p ∈ kvs.zip es, FormOf env (.any g) p.1.2 p.2.2) → FormOf env (.any g) (.dict k kvs) (.dict .plain es)
  | anyStd {g k s} : NoneFor env.gser (.std k) → FormOf env (.any g) (.std k s) (if g.reuse = some false then .str s else .std k s)
  | anyDt {g k s} : NoneFor env.gser (.dt k) → FormOf env (.any g) (.dt k s) (if g.reuse = some false then .str s else .dt k s)
  | anyEnum {g e m} : NoneFor env.gser (.enum e) → FormOf env (.any g) (.enum e m) (.enum e m)
  | anyScalar {g v} : (∀ t, SameClass v t → NoneFor env.gser t) → Scalar v → FormOf env (.any g) v v

end Verif.Spec
