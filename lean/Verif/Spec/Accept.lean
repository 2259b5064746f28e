import Verif.Spec.Read
import Verif.Spec.Shape
import Verif.Spec.RoundTrip
/-!
# Specification vocabulary: data that is valid for an annotation, and the value it stands for

`ReadTo` (Spec/Read) says what an input has been read as, once reading has succeeded. `Valid` says which data can be relied on to be
accepted, and what it stands for.
-/

namespace Verif.Spec

/-- Where data is read: in which class, with which `reuse_instances` and function for numbers, whether primitives are coerced, how unions
are tagged, and whether objects are written as dicts (or as rows, one item per field). -/
structure Place where
  cls : ClassId
  reuse : Bool
  numbers : Option (Val → Except PErr Val)
  coerce : Bool
  tagging : Tagging
  named : Bool := true

/-- In the class `c`. -/
def Place.enter (c : ClassId) (cd : ClassDef) (m : Place) : Place :=
  { m with cls := c, coerce := cd.typeCheck == .coerce, tagging := cd.tagging }

/-- In a union there is no coercion, and objects are dicts. -/
def Place.member (m : Place) : Place := { m with coerce := false, named := true }

/-- The class has a function of its own for this literal (see C44 and C46). -/
def HasLit (env : Env) (c : ClassId) (vs : List Val) : Prop := Reach env false (.cls c) (.lit vs) ∧ OwnLitName env c vs

/-- The class has a function of its own for this union. -/
def HasUnion (env : Env) (c : ClassId) (ts : List Ty) : Prop := Reach env true (.cls c) (.union ts) ∧ OwnUnionName env c ts

/-- Valid data for an annotation without components: a primitive of the annotated class, or one that can be converted to it where there is
coercion; the value of an enum member; a string from which the class makes an instance; an instance, with `reuse_instances`; a literal. -/
inductive ValidLeaf (env : Env) (m : Place) : Ty → Val → Val → Prop
  | prim {p x} : (p = .float → m.numbers = none) → OfPrim p x → ValidLeaf env m (.prim p) x x
  | number {num x y} : m.numbers = some num → num x = .ok (.float y) → ValidLeaf env m (.prim .float) x (.float y)
  | coerced {p x w} : (p = .float → m.numbers = none) → m.coerce = true → Converts env p x w → ValidLeaf env m (.prim p) x w
  | newType {nm p x} : OfPrim p x → ValidLeaf env m (.newType nm p) x x
  | newTypeCoerced {nm p x w} : m.coerce = true → Converts env p x w → ValidLeaf env m (.newType nm p) x w
  | none : ValidLeaf env m .none .none .none
  | any {x} : ValidLeaf env m .any x x
  | enum {e d mem x} : env.enm e = some d → EnumOk d → (mem, x) ∈ d.members → ValidLeaf env m (.enum e) x (.enum e mem)
  | member {e mem} : env.enm e ≠ none → ValidLeaf env m (.enum e) (.enum e mem) (.enum e mem)
  | std {k s w} : env.W.stdCtor k (.str s) = .ok w → IsA env (.std k) w → ValidLeaf env m (.std k) (.str s) w
  | stdKept {k x} : m.reuse = true → IsA env (.std k) x → ValidLeaf env m (.std k) x x
  | dt {k s w} : env.W.dtParse k (.str s) = .ok w → IsA env (.dt k) w → ValidLeaf env m (.dt k) (.str s) w
  | dtKept {k x} : m.reuse = true → IsA env (.dt k) x → ValidLeaf env m (.dt k) x x
  | lit {vs v} : HasLit env m.cls vs → LitVal v → v ∈ vs → ValidLeaf env m (.lit vs) v v
  | listB {k x xs} : Items x xs → ValidLeaf env m (.listB k) x (.list xs)
  | dequeB {x xs} : Items x xs → ValidLeaf env m .dequeB x (.deque xs)
  | tupleB {x xs} : Items x xs → ValidLeaf env m .tupleB x (.tuple xs)
  | setB {k x xs} : k ≠ .frozen → Items x xs → hashableL env.hash xs = true → AllDistinct xs → ValidLeaf env m (.setB k) x (.set false xs)
  | counterB {dk kvs} : ValidLeaf env m .counterB (.dict dk kvs) (.dict .counter kvs)
  | dictB {k dk kvs} : k ≠ .deflt → ValidLeaf env m (.dictB k) (.dict dk kvs) (.dict dk kvs)

/-- The member `u` of a union, tried before the right one, refuses the input. -/
inductive TurnedDown (env : Env) (m : Place) : Ty → Val → Prop
  | prim {p x} : ¬ IsA env (.prim p) x → TurnedDown env m (.prim p) x
  | newType {nm p x} : ¬ IsA env (.prim p) x → TurnedDown env m (.newType nm p) x
  | none {x} : x ≠ .none → TurnedDown env m .none x
  | tagged {c x} : (∀ p, ¬ PayloadOf env m.tagging (.cls c) x p) → TurnedDown env m (.cls c) x
  | lit {vs x} : HasLit env m.cls vs → (∀ l ∈ vs, pyEq l x = false) → TurnedDown env m (.lit vs) x
  | list {k t x} : (∀ xs, pyIter x ≠ .ok xs) → TurnedDown env m (.list k t) x
  | set {k t x} : (∀ xs, pyIter x ≠ .ok xs) → TurnedDown env m (.set k t) x
  | tupleV {t x} : (∀ xs, pyIter x ≠ .ok xs) → TurnedDown env m (.tupleV t) x
  | dict {k kt vt x} : (∀ dk kvs, x ≠ .dict dk kvs) → TurnedDown env m (.dict k kt vt) x

/-- The entry for the field: under the wire name, or under the first alias that is there. -/
def Entry (cd : ClassDef) (f : FieldDef) (kvs : List (Val × Val)) (x : Val) : Prop :=
  ∃ pre k post, f.conv cd.deCase :: f.alias = pre ++ k :: post ∧ (∀ k' ∈ pre, getStr k' kvs = none) ∧ getStr k kvs = some x

/-- There is no entry for the field. -/
def NoEntry (cd : ClassDef) (f : FieldDef) (kvs : List (Val × Val)) : Prop := ∀ k ∈ f.conv cd.deCase :: f.alias, getStr k kvs = none

/-- What a field without entry gets: its default (which has to pass the type check of a strict class), or None if the annotation allows it. -/
inductive Filled (env : Env) (cd : ClassDef) (f : FieldDef) : Val → Prop
  | dflt {v} : f.dflt = some v → (cd.typeCheck = .strict → bearable env f.ty v = true) → Filled env cd f v
  | none : f.dflt = none → f.alias = [] → f.ty = .none → Filled env cd f .none
  | opt {t} : f.dflt = none → f.alias = [] → f.ty = .union [t, .none] → t ≠ .none → Filled env cd f .none

/-- The field is a parameter of the constructor that is read from the input. -/
def IsRead (f : FieldDef) : Prop := f.init = true ∧ f.skip = false ∧ f.skipDe = false

/-- A field read from its own entry. Aliases only work on some annotations, and not together with renaming (see C08). -/
structure OwnEntry (cd : ClassDef) (f : FieldDef) : Prop where
  flat : f.flatten = false
  noCustom : f.deserializer = none
  alias : f.alias = [] ∨ AliasTy f.ty ∧ f.conv cd.deCase = f.name

/-- A field that takes the entries of the dataclass `ch` out of the same dict. -/
structure Inlined (f : FieldDef) (ch : ClassId) : Prop where
  flat : f.flatten = true
  ty : f.ty = .cls ch
  noCustom : f.deserializer = none
  dflt : f.dflt = none

/-- The entries among which a dataclass flattened into `c` is looked for: at least those with names it recognises, and those with names that
`c` does not recognise (they are passed on, and a child that denies unknown keys turns them down). -/
structure ChildPart (env : Env) (c ch : ClassId) (kvs sub : List (Val × Val)) : Prop where
  same : ∀ k, Recognised env ch k → getStr k sub = getStr k kvs
  all : ∀ kv ∈ kvs, (∃ k, Recognised env ch k ∧ kv.1 = .str k) ∨ (¬ ∃ k, Recognised env c k ∧ kv.1 = .str k) → kv ∈ sub

/-- What `__post_init__`, if there is one, makes of the attributes. -/
def Made (cd : ClassDef) (attrs attrs' : List (String × Val)) : Prop :=
  match cd.postInit with
  | none => attrs' = attrs
  | some p => p attrs = .ok attrs'

/-- A class whose objects are read from dicts, without class deserializer; keyword-only fields are last. -/
structure Readable (c : ClassId) (cd : ClassDef) : Prop where
  dict : cd.transparent = false
  names : (cd.fields.map (·.name)).Nodup
  noDe : cd.classDe = none
  kwLast : cd.fields.Pairwise (fun f g => f.kwOnly = true → g.kwOnly = true)
  self : c ∈ cd.mro

/-- The entries of a dict under names that the class `c` does not recognise, in order. -/
inductive RestOf (env : Env) (c : ClassId) : List (Val × Val) → List (Val × Val) → Prop
  | nil : RestOf env c [] []
  | known {kv kvs rest} : (∃ k, Recognised env c k ∧ kv.1 = .str k) → RestOf env c kvs rest → RestOf env c (kv :: kvs) rest
  | other {kv kvs rest} : (¬ ∃ k, Recognised env c k ∧ kv.1 = .str k) → RestOf env c kvs rest → RestOf env c (kv :: kvs) (kv :: rest)

/-- The field does not go by its annotation: a flattened dict takes the remaining entries as they are, a field with a function of its own is what that
function returns. In a strict class the value has to pass the check of the constructor. -/
inductive Special (env : Env) (c : ClassId) (cd : ClassDef) (kvs : List (Val × Val)) (f : FieldDef) : Val → Prop
  | rest {r} : takesRest f = true → RestOf env c kvs r → (cd.typeCheck = .strict → bearable env f.ty (.dict .plain r) = true) →
      Special env c cd kvs f (.dict .plain r)
  | own {h x v} : f.flatten = false → f.deserializer = some (.fn h) → f.alias = [] → getStr (f.conv cd.deCase) kvs = some x → h x = .ok v →
      (cd.typeCheck = .strict → bearable env f.ty v = true) → Special env c cd kvs f v
  | dflt {h v} : f.flatten = false → f.deserializer = some (.fn h) → f.alias = [] → getStr (f.conv cd.deCase) kvs = none → f.dflt = some v →
      (cd.typeCheck = .strict → bearable env f.ty v = true) → Special env c cd kvs f v

/-- No entry is denied: the class does not deny unknown keys, or it takes the rest, or there are none. -/
def NotDenied (env : Env) (c : ClassId) (cd : ClassDef) (kvs : List (Val × Val)) : Prop :=
  cd.denyUnknown = true → (∃ f ∈ cd.fields, IsRead f ∧ takesRest f = true) ∨ ∀ kv ∈ kvs, ∃ k, Recognised env c k ∧ kv.1 = .str k

/-- A dataclass that can be flattened: it is not transparent and does not take the rest itself. -/
def Flattenable (env : Env) (ch : ClassId) : Prop := ∀ chd, env.cls ch = some chd → chd.transparent = false ∧ ∀ g ∈ chd.fields, takesRest g = false

/-- A class whose objects are read from rows: the parameters of its constructor are the fields that are read, none of them keyword-only. -/
structure RowClass (cd : ClassDef) : Prop where
  dict : cd.transparent = false
  names : (cd.fields.map (·.name)).Nodup
  noDe : cd.classDe = none
  params : ∀ f ∈ cd.fields, f.init = true → IsRead f ∧ f.kwOnly = false

/-- The field is the `i`-th parameter of the constructor. -/
def Param (cd : ClassDef) (i : Nat) (f : FieldDef) : Prop := (cd.fields.filter (·.init))[i]? = some f

/-- The field is what its own function makes of the item. -/
def OwnItem (env : Env) (cd : ClassDef) (f : FieldDef) (x v : Val) : Prop :=
  ∃ h, f.deserializer = some (.fn h) ∧ h x = .ok v ∧ (cd.typeCheck = .strict → bearable env f.ty v = true)

/-- The field has an item in the row; it is read as annotated, or by the function of the field. -/
def HasItem (env : Env) (cd : ClassDef) (xs : List Val) (i : Nat) (f : FieldDef) (v : Val) : Prop :=
  f.flatten = false ∧ f.alias = [] ∧ ∃ x, xs[i]? = some x ∧ (f.deserializer = none ∨ OwnItem env cd f x v)

/-- `x` is valid data where `t` is asked for, and stands for `v`. -/
inductive Valid (env : Env) : Place → Ty → Val → Val → Prop
  | leaf {m t x v} : ValidLeaf env m t x v → Valid env m t x v
  | list {m k t x xs vs} : Items x xs → xs.length = vs.length → (∀ p ∈ xs.zip vs, Valid env m t p.1 p.2) → Valid env m (.list k t) x (.list vs)
  | deque {m t x xs vs} : Items x xs → xs.length = vs.length → (∀ p ∈ xs.zip vs, Valid env m t p.1 p.2) → Valid env m (.deque t) x (.deque vs)
  | tupleV {m t x xs vs} : Items x xs → xs.length = vs.length → (∀ p ∈ xs.zip vs, Valid env m t p.1 p.2) → Valid env m (.tupleV t) x (.tuple vs)
  | tuple {m ts x xs vs} : ts ≠ [] → (x = .list xs ∨ x = .tuple xs) → ts.length = xs.length → ts.length = vs.length →
      (∀ p ∈ ts.zip (xs.zip vs), Valid env m p.1 p.2.1 p.2.2) → Valid env m (.tuple ts) x (.tuple vs)
  | set {m k t x xs vs} : Items x xs → xs.length = vs.length → (∀ p ∈ xs.zip vs, Valid env m t p.1 p.2) →
      hashableL env.hash vs = true → AllDistinct vs → Valid env m (.set k t) x (.set (k == .frozen) vs)
  | dict {m k kt vt dk kvs es} : kvs.length = es.length →
      (∀ p ∈ kvs.zip es, PlainKey kt → Valid env m kt p.1.1 p.2.1) →
      (∀ p ∈ kvs.zip es, ∀ q, kt = .prim q → ¬ PlainKey kt → Converts env q p.1.1 p.2.1) →
      (∀ p ∈ kvs.zip es, Valid env m vt p.1.2 p.2.2) →
      hashableL env.hash (es.map (·.1)) = true → AllDistinct (es.map (·.1)) →
      Valid env m (.dict k kt vt) (.dict dk kvs) (.dict (if k = .deflt then .deflt (typename env vt) else .plain) es)
  | counter {m t dk kvs es} : kvs.length = es.length → (∀ p ∈ kvs.zip es, Valid env m t p.1.1 p.2.1) →
      (∀ p ∈ kvs.zip es, p.2.2 = p.1.2) → hashableL env.hash (es.map (·.1)) = true → AllDistinct (es.map (·.1)) →
      Valid env m (.counter t) (.dict dk kvs) (.dict .counter es)
  | optNone {m t} : t ≠ .none → Valid env m (.union [t, .none]) .none .none
  | opt {m t x v} : t ≠ .none → x ≠ .none → Valid env m t x v → Valid env m (.union [t, .none]) x v
  | union {m ts pre t post x p v} : (Ty.union ts).isOpt = false → HasUnion env m.cls ts → ts = pre ++ t :: post → (∀ u ∈ pre, TurnedDown env m.member u x) →
      PayloadOf env m.tagging t x p → InputOk env t p → Valid env m.member t p v → Checked env t v → Valid env m (.union ts) x v
  | alias {m nm t x v} : Valid env m t x v → Valid env m (.alias nm t) x v
  | gen {m c as x v} : Valid env m (.cls c) x v → Valid env m (.gen c as) x v
  | object {m c cd dk kvs attrs} {val : FieldDef → Val} {sub : FieldDef → List (Val × Val)} : m.named = true → env.cls c = some cd → Readable c cd →
      Made cd (cd.fields.map (fun f => (f.name, val f))) attrs → NotDenied env c cd kvs →
      (∀ f ∈ cd.fields, ¬ IsRead f → f.dflt = some (val f)) →
      (∀ f ∈ cd.fields, IsRead f → OwnEntry cd f ∨ (∃ ch, Inlined f ch) ∨ Special env c cd kvs f (val f)) →
      (∀ f ∈ cd.fields, IsRead f → OwnEntry cd f → (∃ x, Entry cd f kvs x) ∨ NoEntry cd f kvs ∧ Filled env cd f (val f)) →
      (∀ f ∈ cd.fields, IsRead f → OwnEntry cd f → ∀ x, Entry cd f kvs x → Valid env (m.enter c cd) f.ty x (val f)) →
      (∀ f ∈ cd.fields, IsRead f → ∀ ch, Inlined f ch → ChildPart env c ch kvs (sub f) ∧ Flattenable env ch) →
      (∀ f ∈ cd.fields, IsRead f → ∀ ch, Inlined f ch → Valid env (m.enter c cd) (.cls ch) (.dict dk (sub f)) (val f)) →
      Valid env m (.cls c) (.dict dk kvs) (.inst c attrs)
  | row {m c cd x xs attrs} {val : FieldDef → Val} : m.named = false → env.cls c = some cd → RowClass cd → c ∈ cd.mro → (x = .list xs ∨ x = .tuple xs) →
      Made cd (cd.fields.map (fun f => (f.name, val f))) attrs → (∀ f ∈ cd.fields, f.init = false → f.dflt = some (val f)) →
      (∀ i f, Param cd i f → HasItem env cd xs i f (val f)) →
      (∀ i f y, Param cd i f → f.deserializer = none → xs[i]? = some y → Valid env (m.enter c cd) f.ty y (val f)) →
      Valid env m (.cls c) x (.inst c attrs)
  | through {m c cd f x v attrs} : env.cls c = some cd → cd.transparent = true → (cd.fields.map (·.name)).Nodup → cd.classDe = none →
      c ∈ cd.mro → cd.fields = [f] → SoleField cd.fields f → f.flatten = false → f.deserializer = none → Valid env (m.enter c cd) f.ty x v →
      Made cd [(f.name, v)] attrs → Valid env m (.cls c) x (.inst c attrs)

end Verif.Spec
