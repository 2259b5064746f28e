import Verif.Spec.Read
import Verif.Spec.Truth
/-!
# Specification vocabulary: what a value is written as
-/

namespace Verif.Spec

/-- What is handed to the functions of a class: dict or tuple form, the options if given, and `skip_none`. -/
structure OutGiven where
  named : Bool
  reuse : Option Bool
  conv : Option Bool
  skipNone : Bool

/-- How values are written at some position of a class: dict or tuple form, the options, whether primitives are coerced, the tagging of unions and the
custom serializers. -/
structure OutMode where
  named : Bool
  reuse : Bool
  conv : Bool
  skipNone : Bool
  coerce : Bool
  tagging : Tagging
  sers : List ClsSer

/-- Inside an object of a class: options that are not given are those of the class, the rest is the class's own. -/
def OutGiven.inside (env : Env) (cd : ClassDef) (g : OutGiven) : OutMode :=
  { named := g.named, reuse := g.reuse.getD cd.reuseDflt, conv := g.conv.getD cd.convDflt, skipNone := g.skipNone,
    coerce := cd.typeCheck == .coerce, tagging := cd.tagging, sers := env.gser ++ cd.classSer.toList }

/-- All options are handed on to nested objects. -/
def OutMode.given (m : OutMode) : OutGiven := { named := m.named, reuse := some m.reuse, conv := some m.conv, skipNone := m.skipNone }

/-- Inside a field with `serializer=default_serializer` no custom serializers count. -/
def OutMode.plain (m : OutMode) : OutMode := { m with sers := [] }

/-- Inside a union everything is written in dict form, there is no coercion, and only global serializers count. -/
def OutMode.member (env : Env) (m : OutMode) : OutMode := { m with named := true, coerce := false, sers := env.gser }

/-- A value annotated as `Any` is written in dict form, without dates and sets being kept or converted. -/
def OutMode.anything (m : OutMode) : OutGiven := { named := true, reuse := some false, conv := some false, skipNone := m.skipNone }

/-- What an enum field is written as: the value of the member, of the member that this value is, and so on; a value that is not a member is taken for
the member it is the value of. -/
inductive EnumOut (env : Env) : EnumId → Val → Val → Prop
  | value {e e' d m w} : env.enm e' = some d → d.members.lookup m = some w → (∀ e'' m', w ≠ .enum e'' m') → EnumOut env e (.enum e' m) w
  | again {e e' d m e'' m' w} : env.enm e' = some d → d.members.lookup m = some (.enum e'' m') → EnumOut env e'' (.enum e'' m') w →
      EnumOut env e (.enum e' m) w
  | called {e d m u v w} : (∀ e' m', v ≠ .enum e' m') → env.enm e = some d → (m, u) ∈ d.members → pyEq u v = true → d.members.lookup m = some w →
      EnumOut env e v w

/-- What a value is written as at an annotation without components. -/
inductive OutLeaf (env : Env) (m : OutMode) : Ty → Val → Val → Prop
  | none {v} : OutLeaf env m .none v .none
  | coerced {p v w} : m.coerce = true → v ≠ .none → (Scalar v → Converts env p v w) → OutLeaf env m (.prim p) v w
  | same {p v} : m.coerce = false → OutLeaf env m (.prim p) v v
  | newTypeCoerced {nm p v w} : m.coerce = true → v ≠ .none → (Scalar v → Converts env p v w) → OutLeaf env m (.newType nm p) v w
  | newType {nm p v} : m.coerce = false → OutLeaf env m (.newType nm p) v v
  | enum {e v w} : EnumOut env e v w → OutLeaf env m (.enum e) v w
  | stdKept {k v} : m.reuse = true → OutLeaf env m (.std k) v v
  | stdText {k k' s} : m.reuse = false → OutLeaf env m (.std k) (.std k' s) (.str s)
  | stdOther {k v s} : m.reuse = false → (∀ k' s, v ≠ .std k' s) → OutLeaf env m (.std k) v (.str s)
  | dtKept {k v} : m.reuse = true → OutLeaf env m (.dt k) v v
  | dtText {k k' s} : m.reuse = false → OutLeaf env m (.dt k) (.dt k' s) (.str s)
  | lit {vs v} : OutLeaf env m (.lit vs) v v
  | list {v} : OutLeaf env m (.listB .list) v v
  | listLike {k v xs} : k ≠ .list → pyIter v = .ok xs → OutLeaf env m (.listB k) v (.list xs)
  | set {k v} : m.conv = false → OutLeaf env m (.setB k) v v
  | setList {k v xs} : m.conv = true → pyIter v = .ok xs → OutLeaf env m (.setB k) v (.list xs)
  | deque {v xs} : pyIter v = .ok xs → OutLeaf env m .dequeB v (.list xs)
  | counter {d kvs} : OutLeaf env m .counterB (.dict d kvs) (.dict .plain kvs)
  | dict {k v} : OutLeaf env m (.dictB k) v v
  | tuple {v} : OutLeaf env m .tupleB v v

/-- How the form of a member of a union is marked: only dataclasses are. -/
inductive TaggedAs (env : Env) : Tagging → Ty → Val → Val → Prop
  | plain {tg t r} : (∀ c, t ≠ .cls c) → TaggedAs env tg t r r
  | untagged {t r} : TaggedAs env .untagged t r r
  | external {c r} : TaggedAs env .external (.cls c) r (.dict .plain [(.str (env.clsName c), r)])
  | internal {tag c dk kvs} : TaggedAs env (.internal tag) (.cls c) (.dict dk kvs) (.dict dk (dictSet (.str tag) (.str (env.clsName c)) kvs))
  | adjacent {tag content c r} : tag ≠ content →
      TaggedAs env (.adjacent tag content) (.cls c) r (.dict .plain [(.str content, r), (.str tag, .str (env.clsName c))])
  | clash {tag c r} : TaggedAs env (.adjacent tag tag) (.cls c) r (.dict .plain [(.str tag, .str (env.clsName c))])

/-- Whether the field is left out of the dict form, given the form of its value: the first of its rules decides alone; without a rule `skip_none`
does. -/
inductive LeftOut (env : Env) (skipNone : Bool) (cd : ClassDef) (f : FieldDef) : Val → Prop
  | user {p y} : f.skipIf = some p → p y = .ok true → LeftOut env skipNone cd f y
  | ifFalse {y} : f.skipIf = none → f.skipIfFalse = true → IsFalse env y → LeftOut env skipNone cd f y
  | ifDefault {d y} : f.skipIf = none → f.skipIfFalse = false → skipsDefault cd f = true → f.dflt = some d → pyEq y d = true → LeftOut env skipNone cd f y
  | ifNone : f.skipIf = none → f.skipIfFalse = false → skipsDefault cd f = false → skipsNone cd f = true → LeftOut env skipNone cd f .none
  | absent : ¬ HasRule cd f → skipNone = true → LeftOut env skipNone cd f .none

/-- No field is compared with a dataclass object to decide whether it is left out. -/
def PlainSkips (cd : ClassDef) : Prop :=
  ∀ f ∈ cd.fields, f.skipIf = none → f.skipIfFalse = false → skipsDefault cd f = true → ∀ c as, f.dflt ≠ some (.inst c as)

/-- The class of a dataclass object is known. -/
def KnownObj (env : Env) (v : Val) : Prop := ∀ c as, v = .inst c as → (env.cls c).isSome

/-- `d` is the class `c` or a dataclass flattened into it, directly or through other flattened ones. -/
inductive InlinesTo (env : Env) : ClassId → ClassId → Prop
  | refl {c} : InlinesTo env c c
  | step {c cd f ch d} : env.cls c = some cd → f ∈ cd.fields → inlined f = some ch → InlinesTo env ch d → InlinesTo env c d

/-- What is flattened are dataclasses, and no custom serializer takes their place. -/
structure SplicedField (S : List ClsSer) (f : FieldDef) : Prop where
  dataclass : f.flatten = true → ∃ ch, inlined f = some ch
  noFn : f.flatten = true → ∀ g, f.serializer ≠ some (.fn g)
  noSer : f.flatten = true → f.serializer = none → NoneFor S f.ty ∧ ∀ ch, inlined f = some ch → NoneFor S (.cls ch)

/-- The class writes the fields of its flattened dataclasses among its own. It may have flattened dicts, the dataclasses may not. -/
structure SplicesAll (env : Env) (S : List ClsSer) (c : ClassId) : Prop where
  acyclic : FlattenAcyclic env
  own : ∀ cd f, env.cls c = some cd → f ∈ cd.fields → takesRest f = true ∨ SplicedField S f
  inner : ∀ cd f ch d dd g, env.cls c = some cd → f ∈ cd.fields → inlined f = some ch → InlinesTo env ch d → env.cls d = some dd → g ∈ dd.fields →
    SplicedField S g

/-- The attributes of an object. -/
def held : Option Val → List (String × Val)
  | some (.inst _ attrs) => attrs
  | _ => []

/-- What the skip rule of a flattened field is asked about: the form of the only field of the dataclass, or the tuple of all forms. -/
def together : List Val → Val
  | [y] => y
  | ys => .tuple ys

/-- The first of the serializers that handles the type. -/
def FirstFor (S : List ClsSer) (t : Ty) (s : ClsSer) : Prop := ∃ pre post, S = pre ++ s :: post ∧ s.handles t = true ∧ NoneFor pre t

mutual
/-- `w` is what the value `v` is written as where it is annotated as `t`. -/
inductive OutTo (env : Env) : OutMode → Ty → Val → Val → Prop
  | chosen {m t s v w} : Chosen m.sers t s → s.run v = .ok w → OutTo env m t v w
  | leaf {m t v w} : NoneFor m.sers t → OutLeaf env m t v w → OutTo env m t v w
  | list {m k t v xs ys} : NoneFor m.sers (.list k t) → pyIter v = .ok xs → xs.length = ys.length →
      (∀ (i : Nat) a b, xs[i]? = some a → ys[i]? = some b → OutTo env m t a b) → OutTo env m (.list k t) v (.list ys)
  | deque {m t v xs ys} : NoneFor m.sers (.deque t) → pyIter v = .ok xs → xs.length = ys.length →
      (∀ (i : Nat) a b, xs[i]? = some a → ys[i]? = some b → OutTo env m t a b) → OutTo env m (.deque t) v (.list ys)
  | tupleV {m t v xs ys} : NoneFor m.sers (.tupleV t) → pyIter v = .ok xs → xs.length = ys.length →
      (∀ (i : Nat) a b, xs[i]? = some a → ys[i]? = some b → OutTo env m t a b) → OutTo env m (.tupleV t) v (.tuple ys)
  | tuple {m ts v ys} : NoneFor m.sers (.tuple ts) → ts.length = ys.length →
      (∀ (i : Nat) t a b, ts[i]? = some t → pyIndex v i = .ok a → ys[i]? = some b → OutTo env m t a b) → OutTo env m (.tuple ts) v (.tuple ys)
  | setList {m k t v xs ys} : NoneFor m.sers (.set k t) → m.conv = true → pyIter v = .ok xs → xs.length = ys.length →
      (∀ (i : Nat) a b, xs[i]? = some a → ys[i]? = some b → OutTo env m t a b) → OutTo env m (.set k t) v (.list ys)
  | set {m k t v xs ys w} : NoneFor m.sers (.set k t) → m.conv = false → pyIter v = .ok xs → xs.length = ys.length →
      (∀ (i : Nat) a b, xs[i]? = some a → ys[i]? = some b → OutTo env m t a b) → SetFrom false ys w → OutTo env m (.set k t) v w
  | counter {m t v kvs es w} : NoneFor m.sers (.counter t) → pyItems v = .ok kvs → kvs.map (·.2) = es.map (·.2) →
      (∀ (i : Nat) a b, kvs[i]? = some a → es[i]? = some b → OutTo env m t a.1 b.1) → MapFrom .plain es w → OutTo env m (.counter t) v w
  | dict {m k kt vt v kvs es w} : NoneFor m.sers (.dict k kt vt) → pyItems v = .ok kvs → kvs.length = es.length →
      (∀ (i : Nat) a b, kvs[i]? = some a → es[i]? = some b → OutTo env m kt a.1 b.1) →
      (∀ (i : Nat) a b, kvs[i]? = some a → es[i]? = some b → OutTo env m vt a.2 b.2) → MapFrom .plain es w → OutTo env m (.dict k kt vt) v w
  | optNone {m t} : NoneFor m.sers (.union [t, .none]) → OutTo env m (.union [t, .none]) .none .none
  | opt {m t v w} : NoneFor m.sers (.union [t, .none]) → v ≠ .none → OutTo env m t v w → OutTo env m (.union [t, .none]) v w
  | union {m pre t post v r w} : NoneFor m.sers (.union (pre ++ t :: post)) → (Ty.union (pre ++ t :: post)).isOpt = false →
      (Nominal env t → KnownObj env v → IsA env t v) → (∀ s ∈ pre, Nominal env s → KnownObj env v → ¬ IsA env s v) →
      OutTo env (m.member env) t v r → TaggedAs env m.tagging t r w → OutTo env m (.union (pre ++ t :: post)) v w
  | alias {m n t v w} : NoneFor m.sers (.alias n t) → OutTo env m t v w → OutTo env m (.alias n t) v w
  | gen {m c as v w} : NoneFor m.sers (.gen c as) → OutTo env m (.cls c) v w → OutTo env m (.gen c as) v w
  | cls {m c v w} : NoneFor m.sers (.cls c) → OutObj env m.given v w → OutTo env m (.cls c) v w
  | any {m v w} : NoneFor m.sers .any → OutAny env m.anything v w → OutTo env m .any v w
  | tvar {m x v w} : NoneFor m.sers (.tvar x) → OutAny env m.anything v w → OutTo env m (.tvar x) v w

/-- `w` is what a dataclass object is written as, according to its own class: a dict with an entry for every field that is not left out, in order, a
tuple of all fields, or the form of the one field of a transparent class. The fields of flattened dataclasses stand among those of the class. Nothing is
claimed about classes with custom serializers for what they flatten, dataclasses with flattened dicts that are flattened themselves, transparent classes that
flatten, and classes that compare with a dataclass object to skip. -/
inductive OutObj (env : Env) : OutGiven → Val → Val → Prop
  | dict {g c cd attrs es} : env.cls c = some cd → g.named = true → SimpleSe cd → PlainSkips cd →
      OutFields env (g.inside env cd) cd attrs (cd.fields.filter serializable) es → OutObj env g (.inst c attrs) (.dict .plain es)
  | tuple {g c cd attrs ys} : env.cls c = some cd → g.named = false → SimpleSe cd → (cd.fields.filter serializable).length = ys.length →
      (∀ (i : Nat) f y, (cd.fields.filter serializable)[i]? = some f → ys[i]? = some y →
        OutField env (g.inside env cd) f (attrs.lookup f.name) y) → OutObj env g (.inst c attrs) (.tuple ys)
  | through {g c cd attrs f rest w} : env.cls c = some cd → cd.transparent = true → cd.fields.filter serializable = f :: rest → f.flatten = false →
      OutField env (g.inside env cd) f (attrs.lookup f.name) w → OutObj env g (.inst c attrs) w
  | spliced {g c cd attrs es w} : env.cls c = some cd → g.named = true → ¬ SimpleSe cd → cd.transparent = false →
      SplicesAll env (g.inside env cd).sers c → PlainSkips cd → OutEntries env (g.inside env cd) cd attrs (cd.fields.filter serializable) es →
      MapFrom .plain es w → OutObj env g (.inst c attrs) w
  | row {g c cd attrs ps} : env.cls c = some cd → g.named = false → ¬ SimpleSe cd → cd.transparent = false → SplicesAll env (g.inside env cd).sers c →
      OutParts env (g.inside env cd) (cd.fields.filter serializable) attrs ps → OutObj env g (.inst c attrs) (.tuple (ps.map (·.2)))
  | other {g c cd attrs w} : env.cls c = some cd → (cd.transparent = false → g.named = true → ¬ (SimpleSe cd ∧ PlainSkips cd)) →
      (cd.transparent = false → g.named = false → ¬ SimpleSe cd) →
      (cd.transparent = false → SplicesAll env (g.inside env cd).sers c → g.named = true ∧ ¬ PlainSkips cd) →
      (cd.transparent = true → ∀ f rest, cd.fields.filter serializable = f :: rest → f.flatten = true) → OutObj env g (.inst c attrs) w

/-- The entries of the dict form of an object. -/
inductive OutFields (env : Env) : OutMode → ClassDef → List (String × Val) → List FieldDef → List (Val × Val) → Prop
  | nil {m cd attrs} : OutFields env m cd attrs [] []
  | out {m cd attrs f fs y es} : OutField env m f (attrs.lookup f.name) y → LeftOut env m.skipNone cd f y → OutFields env m cd attrs fs es →
      OutFields env m cd attrs (f :: fs) es
  | entry {m cd attrs f fs y es} : OutField env m f (attrs.lookup f.name) y → ¬ LeftOut env m.skipNone cd f y → OutFields env m cd attrs fs es →
      OutFields env m cd attrs (f :: fs) ((.str (f.conv cd.seCase), y) :: es)

/-- What one field is written as. An object may lack the attribute only if the field is annotated as `None`. -/
inductive OutField (env : Env) : OutMode → FieldDef → Option Val → Val → Prop
  | fn {m f g x y} : f.serializer = some (.fn g) → g x = .ok y → OutField env m f (some x) y
  | marker {m f x y} : f.serializer = some .marker → OutTo env m.plain f.ty x y → OutField env m f (some x) y
  | field {m f x y} : f.serializer = none → OutTo env m f.ty x y → OutField env m f (some x) y
  | missing {m f} : OutField env m f none .none

/-- The fields that stand for these fields, with their forms: a flattened dataclass is replaced by all its fields, also those it would skip itself, written
as if they belonged to the enclosing class. -/
inductive OutParts (env : Env) : OutMode → List FieldDef → List (String × Val) → List (FieldDef × Val) → Prop
  | nil {m attrs} : OutParts env m [] attrs []
  | plain {m f fs attrs y ps} : (f.flatten = false ∨ takesRest f = true) → OutField env m f (attrs.lookup f.name) y → OutParts env m fs attrs ps →
      OutParts env m (f :: fs) attrs ((f, y) :: ps)
  | inner {m f fs attrs ch cd qs ps} : inlined f = some ch → env.cls ch = some cd → OutParts env m cd.fields (held (attrs.lookup f.name)) qs →
      OutParts env m fs attrs ps → OutParts env m (f :: fs) attrs (qs ++ ps)

/-- The entries of the dict form of an object that flattens dataclasses or dicts. The names are converted by the enclosing class, and the skip rule of the
flattened field decides about all its entries at once. A flattened dict contributes its entries; it has no skip rule. -/
inductive OutEntries (env : Env) : OutMode → ClassDef → List (String × Val) → List FieldDef → List (Val × Val) → Prop
  | nil {m cd attrs} : OutEntries env m cd attrs [] []
  | rest {m cd attrs f fs y kvs es} : takesRest f = true → OutField env m f (attrs.lookup f.name) y → (¬ IsFalse env y → ∃ k, y = .dict k kvs) →
      (IsFalse env y → kvs = []) → OutEntries env m cd attrs fs es → OutEntries env m cd attrs (f :: fs) (kvs ++ es)
  | out {m cd attrs f fs ps es} : takesRest f = false → OutParts env m [f] attrs ps → LeftOut env m.skipNone cd f (together (ps.map (·.2))) → OutEntries env m cd attrs fs es →
      OutEntries env m cd attrs (f :: fs) es
  | entries {m cd attrs f fs ps es} : takesRest f = false → OutParts env m [f] attrs ps → ¬ LeftOut env m.skipNone cd f (together (ps.map (·.2))) →
      OutEntries env m cd attrs fs es →
      OutEntries env m cd attrs (f :: fs) (ps.map (fun p => (.str (p.1.conv cd.seCase), p.2)) ++ es)

/-- `w` is what a value is written as according to its own class. -/
inductive OutAny (env : Env) : OutGiven → Val → Val → Prop
  | none {g} : OutAny env g .none .none
  | chosen {g v t s w} : v ≠ .none → SameClass v t → FirstFor env.gser t s → s.run v = .ok w → OutAny env g v w
  | obj {g c attrs w} : NoneFor env.gser (.cls c) → OutObj env g (.inst c attrs) w → OutAny env g (.inst c attrs) w
  | list {g xs ys} : NoneFor env.gser (.listB .list) → xs.length = ys.length →
      (∀ (i : Nat) a b, xs[i]? = some a → ys[i]? = some b → OutAny env g a b) → OutAny env g (.list xs) (.list ys)
  | tuple {g xs ys} : NoneFor env.gser .tupleB → xs.length = ys.length →
      (∀ (i : Nat) a b, xs[i]? = some a → ys[i]? = some b → OutAny env g a b) → OutAny env g (.tuple xs) (.tuple ys)
  | set {g b xs ys} : (∀ t, SameClass (.set b xs) t → NoneFor env.gser t) → xs.length = ys.length →
      (∀ (i : Nat) a b, xs[i]? = some a → ys[i]? = some b → OutAny env g a b) → OutAny env g (.set b xs) (.list ys)
  | deque {g xs ys} : NoneFor env.gser .dequeB → xs.length = ys.length →
      (∀ (i : Nat) a b, xs[i]? = some a → ys[i]? = some b → OutAny env g a b) → OutAny env g (.deque xs) (.list ys)
  | dict {g k kvs es} : (∀ t, SameClass (.dict k kvs) t → NoneFor env.gser t) → kvs.map (·.1) = es.map (·.1) →
      (∀ (i : Nat) a b, kvs[i]? = some a → es[i]? = some b → OutAny env g a.2 b.2) → OutAny env g (.dict k kvs) (.dict .plain es)
  | stdKept {g k s} : NoneFor env.gser (.std k) → g.reuse ≠ some false → OutAny env g (.std k s) (.std k s)
  | stdText {g k s} : NoneFor env.gser (.std k) → g.reuse = some false → OutAny env g (.std k s) (.str s)
  | dtKept {g k s} : NoneFor env.gser (.dt k) → g.reuse ≠ some false → OutAny env g (.dt k s) (.dt k s)
  | dtText {g k s} : NoneFor env.gser (.dt k) → g.reuse = some false → OutAny env g (.dt k s) (.str s)
  | enum {g e m} : NoneFor env.gser (.enum e) → OutAny env g (.enum e m) (.enum e m)
  | scalar {g v} : (∀ t, SameClass v t → NoneFor env.gser t) → Scalar v → OutAny env g v v
end

/-! ## The value given to to_dict or to_tuple -/

/-- How a date or another standard type is written under an annotation given to to_dict: always in dict form and without coercion. -/
def OutGiven.annotated (env : Env) (g : OutGiven) : OutMode :=
  { named := true, reuse := g.reuse.getD true, conv := g.conv.getD false, skipNone := g.skipNone, coerce := false, tagging := .external, sers := env.gser }

/-- How a union given to to_dict is written: the options are ignored. -/
def OutMode.ofUnion (env : Env) (tg : Tagging) : OutMode :=
  { named := true, reuse := false, conv := false, skipNone := false, coerce := false, tagging := tg, sers := env.gser }

/-- The annotation behind an alias. -/
def behind : Option Ty → Option Ty
  | some (.alias _ t) => some t
  | c => c

/-- The annotation is a union other than `Optional`. -/
def ProperUnion (t : Ty) : Prop := ∃ ts, t = .union ts ∧ (Ty.union ts).isOpt = false

/-- A date, time or another standard type that is written as text. -/
inductive Texty : Val → Prop
  | std {k s} : Texty (.std k s)
  | dt {k s} : Texty (.dt k s)

/-- `w` is what `to_dict(v, c=…)`, or to_tuple, gives: the annotation only counts if it is a union, or the value is a date or another standard type. -/
inductive OutTop (env : Env) (g : OutGiven) (tg : Tagging) : Option Ty → Val → Val → Prop
  | plain {c v w} : (∀ t, c = some t → ¬ ProperUnion t ∧ (t ≠ .any → ¬ Texty v)) → OutAny env g v w → OutTop env g tg c v w
  | union {pre t post v r w} : ProperUnion (.union (pre ++ t :: post)) → (Nominal env t → KnownObj env v → IsA env t v) →
      (∀ s ∈ pre, Nominal env s → KnownObj env v → ¬ IsA env s v) → OutTo env ((OutMode.ofUnion env tg).member env) t v r → TaggedAs env tg t r w →
      OutTop env g tg (some (.union (pre ++ t :: post))) v w
  | handled {t t' s v w} : ¬ ProperUnion t → Texty v → SameClass v t' → FirstFor env.gser t' s → s.run v = .ok w → OutTop env g tg (some t) v w
  | text {t v w} : ¬ ProperUnion t → t ≠ .any → Texty v → (∀ t', SameClass v t' → NoneFor env.gser t') → OutTo env (g.annotated env) t v w →
      OutTop env g tg (some t) v w

/-! ## Positions -/

/-- A class without custom serializers that is written field by field. -/
structure DirectSe (env : Env) (c : ClassId) (cd : ClassDef) : Prop where
  cls : env.cls c = some cd
  simple : SimpleSe cd
  skips : PlainSkips cd
  noSer : cd.classSer = none

/-- The mode inside the class `cd` when there are no custom serializers. -/
def OutMode.within (named reuse conv skipNone : Bool) (cd : ClassDef) : OutMode :=
  { named := named, reuse := reuse, conv := conv, skipNone := skipNone, coerce := cd.typeCheck == .coerce, tagging := cd.tagging, sers := [] }

/-- In the form `w` of an object that is a member of a union, `r` stands where the form of the object itself belongs. Internal tagging has no such place. -/
inductive Unmarks : Tagging → Val → Val → Prop
  | untagged {r} : Unmarks .untagged r r
  | external {k r} : Unmarks .external r (.dict .plain [(k, r)])
  | adjacent {tag content e r} : tag ≠ content → Unmarks (.adjacent tag content) r (.dict .plain [(.str content, r), e])

/-- Starting in the class `cd` from the annotation `t`, the value `v` and its form `w`, the same steps lead to `t'`, `v'` and `w'` in the class `cd'`.
Steps go to elements, to the values of a mapping with string keys, to the fields of objects and of transparent objects, to objects that are members of
unions, and to what an Optional, an alias or a generic class stands for. -/
inductive Goes (env : Env) (named : Bool) (cd' : ClassDef) (t' : Ty) (v' w' : Val) : ClassDef → Ty → Val → Val → Prop
  | here : Goes env named cd' t' v' w' cd' t' v' w'
  | list {cd k t v xs ys a b} {i : Nat} : pyIter v = .ok xs → xs[i]? = some a → ys[i]? = some b → Goes env named cd' t' v' w' cd t a b →
      Goes env named cd' t' v' w' cd (.list k t) v (.list ys)
  | deque {cd t v xs ys a b} {i : Nat} : pyIter v = .ok xs → xs[i]? = some a → ys[i]? = some b → Goes env named cd' t' v' w' cd t a b →
      Goes env named cd' t' v' w' cd (.deque t) v (.list ys)
  | tupleV {cd t v xs ys a b} {i : Nat} : pyIter v = .ok xs → xs[i]? = some a → ys[i]? = some b → Goes env named cd' t' v' w' cd t a b →
      Goes env named cd' t' v' w' cd (.tupleV t) v (.tuple ys)
  | tuple {cd ts t v ys a b} {i : Nat} : ts[i]? = some t → pyIndex v i = .ok a → ys[i]? = some b → Goes env named cd' t' v' w' cd t a b →
      Goes env named cd' t' v' w' cd (.tuple ts) v (.tuple ys)
  | set {cd k t v xs ys a b} {i : Nat} : pyIter v = .ok xs → xs[i]? = some a → ys[i]? = some b → Goes env named cd' t' v' w' cd t a b →
      Goes env named cd' t' v' w' cd (.set k t) v (.list ys)
  | value {cd k vt dk kvs es s a b} {ks : List String} : kvs.map (·.1) = ks.map Val.str → ks.Nodup → getStr s kvs = some a → getStr s es = some b →
      Goes env named cd' t' v' w' cd vt a b → Goes env named cd' t' v' w' cd (.dict k (.prim .str) vt) (.dict dk kvs) (.dict .plain es)
  | opt {cd t v w} : t ≠ .none → v ≠ .none → Goes env named cd' t' v' w' cd t v w → Goes env named cd' t' v' w' cd (.union [t, .none]) v w
  | alias {cd nm t v w} : Goes env named cd' t' v' w' cd t v w → Goes env named cd' t' v' w' cd (.alias nm t) v w
  | gen {cd c as v w} : Goes env named cd' t' v' w' cd (.cls c) v w → Goes env named cd' t' v' w' cd (.gen c as) v w
  | member {cd ts d attrs r w} : named = true → (∀ s, ts ≠ [s, .none]) → (∀ s ∈ ts, Nominal env s) → (env.cls d).isSome → Unmarks cd.tagging r w →
      Goes env named cd' t' v' w' cd (.cls d) (.inst d attrs) r → Goes env named cd' t' v' w' cd (.union ts) (.inst d attrs) w
  | field {cd₀ c₀ c cd f attrs es a b} : named = true → DirectSe env c cd → f ∈ cd.fields.filter serializable → (∀ g, f.serializer ≠ some (.fn g)) →
      attrs.lookup f.name = some a → (.str (f.conv cd.seCase), b) ∈ es → Goes env named cd' t' v' w' cd f.ty a b →
      Goes env named cd' t' v' w' cd₀ (.cls c₀) (.inst c attrs) (.dict .plain es)
  | row {cd₀ c₀ c cd f attrs ys a b} {i : Nat} : named = false → DirectSe env c cd → (cd.fields.filter serializable)[i]? = some f →
      (∀ g, f.serializer ≠ some (.fn g)) → attrs.lookup f.name = some a → ys[i]? = some b → Goes env named cd' t' v' w' cd f.ty a b →
      Goes env named cd' t' v' w' cd₀ (.cls c₀) (.inst c attrs) (.tuple ys)
  | through {cd₀ c₀ c cd f rest attrs a w} : env.cls c = some cd → cd.classSer = none → cd.transparent = true → cd.fields.filter serializable = f :: rest →
      f.flatten = false → (∀ g, f.serializer ≠ some (.fn g)) → attrs.lookup f.name = some a → Goes env named cd' t' v' w' cd f.ty a w →
      Goes env named cd' t' v' w' cd₀ (.cls c₀) (.inst c attrs) w

/-- The same for the value given to to_dict or to_tuple; `top` is the class of the first object met. -/
inductive TopGoes (env : Env) (named : Bool) (top cd' : ClassDef) (t' : Ty) (v' w' : Val) : Val → Val → Prop
  | obj {c attrs w} : env.cls c = some top → Goes env named cd' t' v' w' top (.cls c) (.inst c attrs) w →
      TopGoes env named top cd' t' v' w' (.inst c attrs) w
  | list {xs ys a b} {i : Nat} : xs[i]? = some a → ys[i]? = some b → TopGoes env named top cd' t' v' w' a b →
      TopGoes env named top cd' t' v' w' (.list xs) (.list ys)
  | tuple {xs ys a b} {i : Nat} : xs[i]? = some a → ys[i]? = some b → TopGoes env named top cd' t' v' w' a b →
      TopGoes env named top cd' t' v' w' (.tuple xs) (.tuple ys)
  | value {dk kvs es a b} {i : Nat} : kvs[i]? = some a → es[i]? = some b → TopGoes env named top cd' t' v' w' a.2 b.2 →
      TopGoes env named top cd' t' v' w' (.dict dk kvs) (.dict .plain es)

end Verif.Spec
