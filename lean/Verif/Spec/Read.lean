import Verif.Spec.Serializers
import Verif.Spec.Coerce
import Verif.Spec.Reuse
import Verif.Spec.Names
import Verif.Spec.Total
import Verif.Spec.Transparent
import Verif.Spec.Frame
/-!
# Specification vocabulary: what an input is read as
-/

namespace Verif.Spec

/-- How inputs are read at some position of a class: `reuse_instances`, the function for numbers of the format, whether primitives are
coerced, the tagging of unions, the custom deserializers, and whether objects are read from dicts (from_dict) or from sequences (from_tuple). -/
structure ReadMode where
  reuse : Bool
  numbers : Option (Val → Except PErr Val)
  coerce : Bool
  tagging : Tagging
  des : List ClsDe
  named : Bool := true

/-- Inside a nested class: `reuse_instances`, the function for numbers and the kind of reading are handed on, the rest is the class's own. -/
def ReadMode.enter (env : Env) (cd : ClassDef) (m : ReadMode) : ReadMode :=
  { m with coerce := cd.typeCheck == .coerce, tagging := cd.tagging, des := env.gde ++ cd.classDe.toList }

/-- Inside a field with `deserializer=default_deserializer` no custom deserializers count. -/
def ReadMode.plain (m : ReadMode) : ReadMode := { m with des := [] }

/-- Inside a union there is no coercion, only global deserializers count, and objects are read from dicts. -/
def ReadMode.member (env : Env) (m : ReadMode) : ReadMode := { m with coerce := false, des := env.gde, named := true }

/-- What the class of the value `v` makes of the string. -/
inductive MadeLike (env : Env) : Val → String → Val → Prop
  | int {i s j} : env.W.intOfStr s = some j → MadeLike env (.int i) s (.int j)
  | float {x s y} : env.W.floatOfStr s = some y → MadeLike env (.float x) s (.float y)
  | bool {b s} : MadeLike env (.bool b) s (.bool (s != ""))
  | tuple {xs s ys} : pyIter (.str s) = .ok ys → MadeLike env (.tuple xs) s (.tuple ys)
  | list {xs s ys} : pyIter (.str s) = .ok ys → MadeLike env (.list xs) s (.list ys)
  | std {k s' s w} : env.W.stdCtor k (.str s) = .ok w → MadeLike env (.std k s') s w

/-- The member of the enum that the input stands for: the member itself, or one whose value equals the input, the tuple made of a list,
or what the class of the first member's value makes of a string. -/
inductive EnumTo (env : Env) (e : EnumId) : Val → Val → Prop
  | self {m} : EnumTo env e (.enum e m) (.enum e m)
  | value {d m v x} : env.enm e = some d → (m, v) ∈ d.members → pyEq v x = true → EnumTo env e x (.enum e m)
  | items {d m v xs} : env.enm e = some d → (m, v) ∈ d.members → pyEq v (.tuple xs) = true → EnumTo env e (.list xs) (.enum e m)
  | made {d m v s m₀ v₀ rest u} : env.enm e = some d → d.members = (m₀, v₀) :: rest → MadeLike env v₀ s u → (m, v) ∈ d.members → pyEq v u = true →
      EnumTo env e (.str s) (.enum e m)
  | madeSelf {d m s m₀ v₀ rest} : env.enm e = some d → d.members = (m₀, v₀) :: rest → MadeLike env v₀ s (.enum e m) → EnumTo env e (.str s) (.enum e m)

/-- A set of these elements, without duplicates. -/
inductive SetFrom (b : Bool) (ys : List Val) : Val → Prop
  | mk {zs} : (∀ z ∈ zs, z ∈ ys) → (∀ y ∈ ys, y ∈ zs ∨ ∃ z ∈ zs, pyEq z y = true) → zs.Pairwise (fun a b => pyEq a b = false) → SetFrom b ys (.set b zs)

/-- The entries count the elements: an element equal to a key seen before adds one to its count, another one is a new key. -/
inductive Tally : List Val → List (Val × Val) → Prop
  | none : Tally [] []
  | again {xs x pre k n post} : Tally xs (pre ++ (k, .int n) :: post) → (∀ e ∈ pre, pyEq e.1 x = false) → pyEq k x = true →
      Tally (xs ++ [x]) (pre ++ (k, .int (n + 1)) :: post)
  | new {xs x kvs} : Tally xs kvs → (∀ e ∈ kvs, pyEq e.1 x = false) → Tally (xs ++ [x]) (kvs ++ [(x, .int 1)])

/-- A mapping of these entries, without duplicate keys: its entries are among them, except that where keys are equal the key of one goes with the value
of another. -/
inductive MapFrom (k : DictK) (es : List (Val × Val)) : Val → Prop
  | mk {zs} : (∀ z ∈ zs, ∃ e ∈ es, ∃ e' ∈ es, z = (e.1, e'.2) ∧ (e.1 = e'.1 ∨ pyEq e.1 e'.1 = true)) →
      (∀ e ∈ es, ∃ z ∈ zs, e.1 = z.1 ∨ pyEq z.1 e.1 = true) → (zs.map (·.1)).Pairwise (fun a b => pyEq a b = false) →
      ((es.map (·.1)).Pairwise (fun a b => pyEq a b = false) → zs = es) → MapFrom k es (.dict k zs)

/-- What is written in the input for a value of a union: for dataclasses according to the tagging. -/
inductive PayloadOf (env : Env) : Tagging → Ty → Val → Val → Prop
  | plain {tg t x} : (∀ c, t ≠ .cls c) → PayloadOf env tg t x x
  | untagged {t x} : PayloadOf env .untagged t x x
  | external {c dk kvs p} : getStr (env.clsName c) kvs = some p → PayloadOf env .external (.cls c) (.dict dk kvs) p
  | internal {tag c dk kvs y} : getStr tag kvs = some y → pyEq (.str (env.clsName c)) y = true →
      PayloadOf env (.internal tag) (.cls c) (.dict dk kvs) (.dict dk kvs)
  | adjacent {tag content c dk kvs y p} : getStr tag kvs = some y → pyEq (.str (env.clsName c)) y = true → getStr content kvs = some p →
      PayloadOf env (.adjacent tag content) (.cls c) (.dict dk kvs) p

/-- What an input is read as at an annotation without components. -/
inductive LeafTo (env : Env) (m : ReadMode) : Ty → Val → Val → Prop
  | none {x} : LeafTo env m .none x .none
  | any {x} : LeafTo env m .any x x
  | number {num x w} : m.numbers = some num → num x = .ok w → LeafTo env m (.prim .float) x w
  | coerced {p x w} : (p = .float → m.numbers = .none) → m.coerce = true → (Scalar x → Converts env p x w) → LeafTo env m (.prim p) x w
  | same {p x} : (p = .float → m.numbers = .none) → m.coerce = false → LeafTo env m (.prim p) x x
  | newTypeCoerced {nm p x w} : m.coerce = true → (Scalar x → Converts env p x w) → LeafTo env m (.newType nm p) x w
  | newType {nm p x} : m.coerce = false → LeafTo env m (.newType nm p) x x
  | enum {e x w} : EnumTo env e x w → LeafTo env m (.enum e) x w
  | stdKept {k x} : m.reuse = true → IsA env (.std k) x → LeafTo env m (.std k) x x
  | stdMade {k x w} : ¬ (m.reuse = true ∧ IsA env (.std k) x) → env.W.stdCtor k x = .ok w → LeafTo env m (.std k) x w
  | dtKept {k x} : m.reuse = true → IsA env (.dt k) x → LeafTo env m (.dt k) x x
  | dtMade {k x w} : ¬ (m.reuse = true ∧ IsA env (.dt k) x) → env.W.dtParse k x = .ok w → LeafTo env m (.dt k) x w
  | lit {vs l x} : l ∈ vs → pyEq l x = true → LeafTo env m (.lit vs) x x
  | listB {k x xs} : pyIter x = .ok xs → LeafTo env m (.listB k) x (.list xs)
  | setB {k x xs w} : pyIter x = .ok xs → SetFrom false xs w → LeafTo env m (.setB k) x w
  | dequeB {x xs} : pyIter x = .ok xs → LeafTo env m .dequeB x (.deque xs)
  | tupleB {x xs} : pyIter x = .ok xs → LeafTo env m .tupleB x (.tuple xs)
  | counterB {dk kvs} : LeafTo env m .counterB (.dict dk kvs) (.dict .counter kvs)
  | counted {x xs kvs} : (∀ dk es, x ≠ .dict dk es) → pyIter x = .ok xs → Tally xs kvs → LeafTo env m .counterB x (.dict .counter kvs)
  | dictB {k x} : LeafTo env m (.dictB k) x x

/-- A flattened dataclass field, not claimed by a custom deserializer. -/
structure FlatField (env : Env) (cd : ClassDef) (f : FieldDef) (ch : ClassId) : Prop where
  acyclic : FlattenAcyclic env
  mem : f ∈ cd.fields
  init : f.init = true
  skip : f.skip = false
  skipDe : f.skipDe = false
  flat : f.flatten = true
  ty : f.ty = .cls ch
  deser : f.deserializer = none
  dflt : f.dflt = none
  noCls : NoneForDe (env.gde ++ cd.classDe.toList) (.cls ch)
  child : ∀ chd, env.cls ch = some chd → chd.transparent = false

/-- A transparent class with this field. -/
structure Through (cd : ClassDef) (f : FieldDef) : Prop where
  transparent : cd.transparent = true
  post : cd.postInit = none
  names : (cd.fields.map (·.name)).Nodup
  sole : SoleField cd.fields f
  flat : f.flatten = false
  deser : f.deserializer = none

/-- A field with aliases, of a type for which they are implemented, not renamed and not claimed by a custom deserializer. -/
structure AliasedField (env : Env) (cd : ClassDef) (f : FieldDef) : Prop where
  mem : f ∈ cd.fields
  init : f.init = true
  skip : f.skip = false
  skipDe : f.skipDe = false
  flat : f.flatten = false
  alias : f.alias ≠ []
  ty : AliasTy f.ty
  wire : f.conv cd.deCase = f.name
  deser : f.deserializer = none
  noDe : ∀ t, PartOf t f.ty → NoneForDe (env.gde ++ cd.classDe.toList) t

/-- The entry under the first of the field's names that is present. -/
def FirstEntry (f : FieldDef) (kvs : List (Val × Val)) : Option Val := (f.name :: f.alias).findSome? fun s => getStr s kvs

/-- The parameters of the constructor are the fields that are read, in their order. -/
structure Positional (cd : ClassDef) : Prop where
  dict : cd.transparent = false
  post : cd.postInit = none
  names : (cd.fields.map (·.name)).Nodup
  params : ∀ f ∈ cd.fields, f.init = true → f.skip = false ∧ f.skipDe = false ∧ f.kwOnly = false

/-- The field is the `i`-th parameter, neither flattened nor with aliases. -/
structure ItemField (cd : ClassDef) (i : Nat) (f : FieldDef) : Prop where
  nth : (cd.fields.filter (·.init))[i]? = some f
  flat : f.flatten = false
  alias : f.alias = []

/-- An annotation whose values are not read without looking at the input: any but `None`, or made of it. -/
inductive NeedsItem : Ty → Prop
  | alias {nm t} : NeedsItem t → NeedsItem (.alias nm t)
  | tuple {t ts} : t ∈ ts → NeedsItem t → NeedsItem (.tuple ts)
  | other {t} : t ≠ .none → (∀ nm s, t ≠ .alias nm s) → (∀ ts, t ≠ .tuple ts) → NeedsItem t

mutual
/-- `w` is what the input `x` is read as where `t` is asked for. Nothing is claimed about type variables. -/
inductive ReadTo (env : Env) : ReadMode → Ty → Val → Val → Prop
  | chosen {m t s x w} : ChosenDe m.des t s → s.run t x = .ok w → ReadTo env m t x w
  | leaf {m t x w} : NoneForDe m.des t → LeafTo env m t x w → ReadTo env m t x w
  | list {m k t x xs ys} : NoneForDe m.des (.list k t) → pyIter x = .ok xs → xs.length = ys.length →
      (∀ (i : Nat) a b, xs[i]? = some a → ys[i]? = some b → ReadTo env m t a b) → ReadTo env m (.list k t) x (.list ys)
  | deque {m t x xs ys} : NoneForDe m.des (.deque t) → pyIter x = .ok xs → xs.length = ys.length →
      (∀ (i : Nat) a b, xs[i]? = some a → ys[i]? = some b → ReadTo env m t a b) → ReadTo env m (.deque t) x (.deque ys)
  | tupleV {m t x xs ys} : NoneForDe m.des (.tupleV t) → pyIter x = .ok xs → xs.length = ys.length →
      (∀ (i : Nat) a b, xs[i]? = some a → ys[i]? = some b → ReadTo env m t a b) → ReadTo env m (.tupleV t) x (.tuple ys)
  | tuple {m ts x ys} : NoneForDe m.des (.tuple ts) → ts.length = ys.length →
      (∀ (i : Nat) t a b, ts[i]? = some t → pyIndex x i = .ok a → ys[i]? = some b → ReadTo env m t a b) → ReadTo env m (.tuple ts) x (.tuple ys)
  | set {m k t x xs ys w} : NoneForDe m.des (.set k t) → pyIter x = .ok xs → xs.length = ys.length →
      (∀ (i : Nat) a b, xs[i]? = some a → ys[i]? = some b → ReadTo env m t a b) → SetFrom (k == .frozen) ys w → ReadTo env m (.set k t) x w
  | counter {m t x kvs es w} : NoneForDe m.des (.counter t) → pyItems x = .ok kvs → kvs.map (·.2) = es.map (·.2) →
      (∀ (i : Nat) a b, kvs[i]? = some a → es[i]? = some b → ReadTo env m t a.1 b.1) → MapFrom .counter es w → ReadTo env m (.counter t) x w
  | dict {m k kt vt x kvs es dk w} : NoneForDe m.des (.dict k kt vt) → pyItems x = .ok kvs → kvs.length = es.length →
      (∀ (i : Nat) a b, kvs[i]? = some a → es[i]? = some b → PlainKey kt → ReadTo env m kt a.1 b.1) →
      (∀ (i : Nat) a b, kvs[i]? = some a → es[i]? = some b → ∀ p, kt = .prim p → ¬ PlainKey kt → Scalar a.1 → Converts env p a.1 b.1) →
      (∀ (i : Nat) a b, kvs[i]? = some a → es[i]? = some b → ReadTo env m vt a.2 b.2) →
      (dk = .plain ↔ k ≠ .deflt) → MapFrom dk es w → ReadTo env m (.dict k kt vt) x w
  | optNone {m t} : NoneForDe m.des (.union [t, .none]) → ReadTo env m (.union [t, .none]) .none .none
  | opt {m t x w} : NoneForDe m.des (.union [t, .none]) → x ≠ .none → ReadTo env m t x w → ReadTo env m (.union [t, .none]) x w
  | union {m ts t x p w} : NoneForDe m.des (.union ts) → (Ty.union ts).isOpt = false → t ∈ ts → PayloadOf env m.tagging t x p → InputOk env t p →
      ReadTo env (m.member env) t p w → Checked env t w → ReadTo env m (.union ts) x w
  | alias {m nm t x w} : NoneForDe m.des (.alias nm t) → ReadTo env m t x w → ReadTo env m (.alias nm t) x w
  | gen {m c as x w} : NoneForDe m.des (.gen c as) → ReadTo env m (.cls c) x w → ReadTo env m (.gen c as) x w
  | cls {m c x w} : NoneForDe m.des (.cls c) → ObjTo env m c x w → ReadTo env m (.cls c) x w
  | tvar {m nm x w} : NoneForDe m.des (.tvar nm) → ReadTo env m (.tvar nm) x w

/-- `w` is the object of class `c` read from `x`; a flattened dataclass is read from the same dict, and from a sequence the fields are read by position. Nothing
but its class is claimed if the class has a `__post_init__`, or is not transparent and read from something else than a dict in from_dict, or is not transparent
and its parameters are not the fields that are read in from_tuple, or is transparent and its field is flattened or has a deserializer. -/
inductive ObjTo (env : Env) : ReadMode → ClassId → Val → Val → Prop
  | dict {m c cd dk kvs attrs} : m.named = true → env.cls c = some cd → SimpleDe cd →
      (∀ f x y, ReadField cd f → getStr (f.conv cd.deCase) kvs = some x → attrs.lookup f.name = some y →
        ∀ g, f.deserializer = some (.fn g) → g x = .ok y) →
      (∀ f x y, ReadField cd f → getStr (f.conv cd.deCase) kvs = some x → attrs.lookup f.name = some y →
        f.deserializer = some .marker → ReadTo env (m.enter env cd).plain f.ty x y) →
      (∀ f x y, ReadField cd f → getStr (f.conv cd.deCase) kvs = some x → attrs.lookup f.name = some y →
        f.deserializer = none → ReadTo env (m.enter env cd) f.ty x y) →
      (∀ f d y, ReadField cd f → getStr (f.conv cd.deCase) kvs = none → f.dflt = some d → attrs.lookup f.name = some y → y = d) →
      (∀ f ch y, FlatField env cd f ch → attrs.lookup f.name = some y → ObjTo env (m.enter env cd) ch (.dict dk kvs) y) →
      (∀ f ∈ cd.fields, f.init = true → f.skip = false → f.skipDe = false → ∃ y, attrs.lookup f.name = some y) →
      (∀ f x y, AliasedField env cd f → FirstEntry f kvs = some x → attrs.lookup f.name = some y → ReadTo env (m.enter env cd) f.ty x y) →
      (∀ f d y, AliasedField env cd f → FirstEntry f kvs = none → f.dflt = some d → attrs.lookup f.name = some y → y = d) →
      (∀ f t y, ReadField cd f → getStr (f.conv cd.deCase) kvs = none → f.dflt = none → f.ty = .union [t, .none] → t ≠ .none → f.deserializer = none →
        NoneForDe (env.gde ++ cd.classDe.toList) f.ty → attrs.lookup f.name = some y → y = .none) →
      (∀ f ∈ cd.fields, f.init = false ∨ f.skip = true ∨ f.skipDe = true → attrs.lookup f.name = f.dflt) →
      ObjTo env m c (.dict dk kvs) (.inst c attrs)
  | through {m c cd f x y attrs} : env.cls c = some cd → Through cd f → attrs.lookup f.name = some y → ReadTo env (m.enter env cd) f.ty x y →
      ObjTo env m c x (.inst c attrs)
  | other {m c cd x attrs} : env.cls c = some cd → ¬ SimpleDe cd → (∀ f, ¬ Through cd f) → ObjTo env m c x (.inst c attrs)
  | seq {m c cd x attrs} : m.named = false → env.cls c = some cd → Positional cd →
      (∀ i f a y, ItemField cd i f → pyIndex x i = .ok a → attrs.lookup f.name = some y → ∀ g, f.deserializer = some (.fn g) → g a = .ok y) →
      (∀ i f a y, ItemField cd i f → pyIndex x i = .ok a → attrs.lookup f.name = some y → f.deserializer = some .marker → ReadTo env (m.enter env cd).plain f.ty a y) →
      (∀ i f a y, ItemField cd i f → pyIndex x i = .ok a → attrs.lookup f.name = some y → f.deserializer = none → ReadTo env (m.enter env cd) f.ty a y) →
      (∀ i f, ItemField cd i f → NeedsItem f.ty → ∃ a, pyIndex x i = .ok a) →
      (∀ f ∈ cd.fields, f.init = true → ∃ y, attrs.lookup f.name = some y) →
      (∀ f ∈ cd.fields, f.init = false → attrs.lookup f.name = f.dflt) → ObjTo env m c x (.inst c attrs)
  | unaligned {m c cd x attrs} : m.named = false → env.cls c = some cd → cd.transparent = false → ¬ Positional cd → ObjTo env m c x (.inst c attrs)
  | notDict {m c cd x attrs} : m.named = true → env.cls c = some cd → cd.transparent = false → (∀ dk kvs, x ≠ .dict dk kvs) → ObjTo env m c x (.inst c attrs)
end

/-! ## The value given to from_dict -/

/-- `type(x) is t`. -/
inductive SameClass : Val → Ty → Prop
  | int {i} : SameClass (.int i) (.prim .int)
  | bool {b} : SameClass (.bool b) (.prim .bool)
  | float {x} : SameClass (.float x) (.prim .float)
  | str {s} : SameClass (.str s) (.prim .str)
  | none : SameClass .none .none
  | list {xs} : SameClass (.list xs) (.listB .list)
  | tuple {xs} : SameClass (.tuple xs) .tupleB
  | deque {xs} : SameClass (.deque xs) .dequeB
  | set {xs} : SameClass (.set false xs) (.setB .set)
  | frozen {xs} : SameClass (.set true xs) (.setB .frozen)
  | dict {kvs} : SameClass (.dict .plain kvs) (.dictB .dict)
  | deflt {g kvs} : SameClass (.dict (.deflt g) kvs) (.dictB .deflt)
  | counter {kvs} : SameClass (.dict .counter kvs) .counterB
  | enum {e m} : SameClass (.enum e m) (.enum e)
  | std {k s} : SameClass (.std k s) (.std k)
  | dt {k s} : SameClass (.dt k s) (.dt k)
  | inst {c attrs} : SameClass (.inst c attrs) (.cls c)

/-- The first of the deserializers that handles the annotation. -/
def FirstDe (S : List ClsDe) (t : Ty) (s : ClsDe) : Prop := ∃ pre post, S = pre ++ s :: post ∧ s.handles t = true ∧ NoneForDe pre t

/-- What from_dict makes of an input for an annotation without components. -/
inductive TopLeaf (env : Env) (numbers : Option (Val → Except PErr Val)) : Ty → Val → Val → Prop
  | number {num x w} : numbers = some num → num x = .ok w → TopLeaf env numbers (.prim .float) x w
  | prim {p x w} : (p = .float → numbers = .none) → (Scalar x → x ≠ .none → Converts env p x w) → TopLeaf env numbers (.prim p) x w
  | newType {nm p x} : TopLeaf env numbers (.newType nm p) x x
  | any {x} : TopLeaf env numbers .any x x
  | enum {e d m v x} : env.enm e = some d → (m, v) ∈ d.members → pyEq v x = true → TopLeaf env numbers (.enum e) x (.enum e m)
  | std {k x w} : env.W.stdCtor k x = .ok w → TopLeaf env numbers (.std k) x w
  | dt {k x w} : env.W.dtParse k x = .ok w → TopLeaf env numbers (.dt k) x w
  | listB {k x xs} : pyIter x = .ok xs → TopLeaf env numbers (.listB k) x (.list xs)
  | setB {k x xs w} : pyIter x = .ok xs → SetFrom false xs w → TopLeaf env numbers (.setB k) x w
  | dequeB {x xs} : pyIter x = .ok xs → TopLeaf env numbers .dequeB x (.deque xs)
  | tupleB {x xs} : pyIter x = .ok xs → TopLeaf env numbers .tupleB x (.tuple xs)
  | tupleV {t x xs} : pyIter x = .ok xs → TopLeaf env numbers (.tupleV t) x (.tuple xs)
  | counterB {dk kvs} : TopLeaf env numbers .counterB (.dict dk kvs) (.dict .counter kvs)
  | counted {x xs kvs} : (∀ dk es, x ≠ .dict dk es) → pyIter x = .ok xs → Tally xs kvs → TopLeaf env numbers .counterB x (.dict .counter kvs)
  | dictB {k x} : k ≠ .deflt → TopLeaf env numbers (.dictB k) x x

/-- The mode for a union given to from_dict. -/
def ReadMode.ofUnion (env : Env) (numbers : Option (Val → Except PErr Val)) (tg : Tagging) : ReadMode :=
  { reuse := true, numbers := numbers, coerce := false, tagging := tg, des := env.gde }

/-- `w` is what `from_dict(t, x)` gives, or `from_tuple(t, x)` if `nm` is false. An instance of the class asked for is returned as it is; the elements of a `tuple[T, ...]` too. -/
inductive TopTo (env : Env) (nm : Bool) (reuse : Option Bool) (numbers : Option (Val → Except PErr Val)) : Tagging → Ty → Val → Val → Prop
  | alias {tg s t x w} : TopTo env nm reuse numbers tg t x w → TopTo env nm reuse numbers tg (.alias s t) x w
  | same {tg t x} : SameClass x t → TopTo env nm reuse numbers tg t x x
  | handled {tg t s x w} : ¬ SameClass x t → FirstDe env.gde t s → s.run t x = .ok w → TopTo env nm reuse numbers tg t x w
  | handledGen {tg c as s x w} : FirstDe env.gde (.cls c) s → s.run (.cls c) x = .ok w → TopTo env nm reuse numbers tg (.gen c as) x w
  | leaf {tg t x w} : ¬ SameClass x t → NoneForDe env.gde t → TopLeaf env numbers t x w → TopTo env nm reuse numbers tg t x w
  | cls {tg c cd x w} {m : ReadMode} : ¬ SameClass x (.cls c) → NoneForDe env.gde (.cls c) → env.cls c = some cd → m.named = nm → m.reuse = reuse.getD cd.reuseDflt →
      m.numbers = numbers → ObjTo env m c x w → TopTo env nm reuse numbers tg (.cls c) x w
  | gen {tg c as cd x w} {m : ReadMode} : NoneForDe env.gde (.cls c) → env.cls c = some cd → m.named = nm → m.reuse = reuse.getD cd.reuseDflt → m.numbers = numbers →
      ObjTo env m c x w → TopTo env nm reuse numbers tg (.gen c as) x w
  | list {tg k t x xs ys} : NoneForDe env.gde (.list k t) → pyIter x = .ok xs → xs.length = ys.length →
      (∀ (i : Nat) a b, xs[i]? = some a → ys[i]? = some b → TopTo env nm reuse numbers .external t a b) → TopTo env nm reuse numbers tg (.list k t) x (.list ys)
  | deque {tg t x xs ys} : NoneForDe env.gde (.deque t) → pyIter x = .ok xs → xs.length = ys.length →
      (∀ (i : Nat) a b, xs[i]? = some a → ys[i]? = some b → TopTo env nm reuse numbers .external t a b) → TopTo env nm reuse numbers tg (.deque t) x (.deque ys)
  | set {tg k t x xs ys w} : NoneForDe env.gde (.set k t) → pyIter x = .ok xs → xs.length = ys.length →
      (∀ (i : Nat) a b, xs[i]? = some a → ys[i]? = some b → TopTo env nm reuse numbers .external t a b) → SetFrom (k == .frozen) ys w →
      TopTo env nm reuse numbers tg (.set k t) x w
  | tuple {tg ts x xs ys} : NoneForDe env.gde (.tuple ts) → pyIter x = .ok xs → xs.length = ys.length → xs.length ≤ ts.length →
      (∀ (i : Nat) t a b, ts[i]? = some t → xs[i]? = some a → ys[i]? = some b → TopTo env nm reuse numbers .external t a b) →
      TopTo env nm reuse numbers tg (.tuple ts) x (.tuple ys)
  | counter {tg t x kvs es w} : NoneForDe env.gde (.counter t) → pyItems x = .ok kvs → kvs.map (·.2) = es.map (·.2) →
      (∀ (i : Nat) a b, kvs[i]? = some a → es[i]? = some b → TopTo env nm reuse numbers .external t a.1 b.1) → MapFrom .counter es w →
      TopTo env nm reuse numbers tg (.counter t) x w
  | dict {tg k kt vt x kvs es dk w} : NoneForDe env.gde (.dict k kt vt) → pyItems x = .ok kvs → kvs.length = es.length →
      (∀ (i : Nat) a b, kvs[i]? = some a → es[i]? = some b → TopTo env nm reuse numbers .external kt a.1 b.1) →
      (∀ (i : Nat) a b, kvs[i]? = some a → es[i]? = some b → TopTo env nm reuse numbers .external vt a.2 b.2) →
      (dk = .plain ↔ k ≠ .deflt) → MapFrom dk es w → TopTo env nm reuse numbers tg (.dict k kt vt) x w
  | optNone {tg t} : NoneForDe env.gde (.union [t, .none]) → TopTo env nm reuse numbers tg (.union [t, .none]) .none .none
  | opt {tg t x w} : NoneForDe env.gde (.union [t, .none]) → x ≠ .none → TopTo env nm reuse numbers .external t x w →
      TopTo env nm reuse numbers tg (.union [t, .none]) x w
  | union {tg ts t x p w} : (Ty.union ts).isOpt = false → t ∈ ts → PayloadOf env tg t x p → InputOk env t p →
      ReadTo env (.ofUnion env numbers tg) t p w → Checked env t w → TopTo env nm reuse numbers tg (.union ts) x w

/-- No two literals that occur in the annotation, or are reached from it, get functions of the same name. -/
def DistinctLitsIn (env : Env) (t : Ty) : Prop :=
  ∀ vs us, PartOf (.lit vs) t → Reach env false t (.lit us) → litFuncName env us = litFuncName env vs → us = vs

/-- The unions in the annotation given to from_dict, and the unions and literals in them, have functions of their own. -/
def DistinctTop (env : Env) (t : Ty) : Prop := ∀ ts, PartOf (.union ts) t → DistinctUnionsIn env (.union ts) ∧ DistinctLitsIn env (.union ts)

/-- No two literals get functions of the same name in a class (C44 is about this condition). -/
def DistinctLits (env : Env) : Prop := ∀ c vs, Annotated env (.lit vs) → OwnLitName env c vs

/-! ## Positions -/

/-- A class without custom deserializers that is read from a dict field by field. -/
structure Direct (env : Env) (c : ClassId) (cd : ClassDef) : Prop where
  cls : env.cls c = some cd
  simple : SimpleDe cd
  noDe : cd.classDe = none

/-- The mode inside the class `cd` when there are no custom deserializers. -/
def ReadMode.inside (named reuse : Bool) (numbers : Option (Val → Except PErr Val)) (cd : ClassDef) : ReadMode :=
  { reuse := reuse, numbers := numbers, coerce := cd.typeCheck == .coerce, tagging := cd.tagging, des := [], named := named }

/-- Starting in the class `cd` from the annotation `t`, the input `x` and the value `w` read from it, the same steps lead to `t'`, `x'` and `w'` in
the class `cd'`. Steps go to elements, to the values of a mapping with string keys, to fields (by position in
from_tuple, otherwise by name and also to flattened dataclasses; and to the field of a transparent class), to objects that are members of unions, and to what an
Optional, an alias or a generic class stands for. -/
inductive Leads (env : Env) (nm : Bool) (cd' : ClassDef) (t' : Ty) (x' w' : Val) : ClassDef → Ty → Val → Val → Prop
  | here : Leads env nm cd' t' x' w' cd' t' x' w'
  | list {cd k t x xs ys a b} {i : Nat} : pyIter x = .ok xs → xs[i]? = some a → ys[i]? = some b → Leads env nm cd' t' x' w' cd t a b →
      Leads env nm cd' t' x' w' cd (.list k t) x (.list ys)
  | deque {cd t x xs ys a b} {i : Nat} : pyIter x = .ok xs → xs[i]? = some a → ys[i]? = some b → Leads env nm cd' t' x' w' cd t a b →
      Leads env nm cd' t' x' w' cd (.deque t) x (.deque ys)
  | tupleV {cd t x xs ys a b} {i : Nat} : pyIter x = .ok xs → xs[i]? = some a → ys[i]? = some b → Leads env nm cd' t' x' w' cd t a b →
      Leads env nm cd' t' x' w' cd (.tupleV t) x (.tuple ys)
  | tuple {cd ts t x ys a b} {i : Nat} : ts[i]? = some t → pyIndex x i = .ok a → ys[i]? = some b → Leads env nm cd' t' x' w' cd t a b →
      Leads env nm cd' t' x' w' cd (.tuple ts) x (.tuple ys)
  | value {cd k vt dk kvs dk' es s a b} {ks : List String} : kvs.map (·.1) = ks.map Val.str → ks.Nodup → getStr s kvs = some a → getStr s es = some b →
      Leads env nm cd' t' x' w' cd vt a b → Leads env nm cd' t' x' w' cd (.dict k (.prim .str) vt) (.dict dk kvs) (.dict dk' es)
  | opt {cd t x w} : t ≠ .none → x ≠ .none → Leads env nm cd' t' x' w' cd t x w → Leads env nm cd' t' x' w' cd (.union [t, .none]) x w
  | alias {cd s t x w} : Leads env nm cd' t' x' w' cd t x w → Leads env nm cd' t' x' w' cd (.alias s t) x w
  | gen {cd c as x w} : Leads env nm cd' t' x' w' cd (.cls c) x w → Leads env nm cd' t' x' w' cd (.gen c as) x w
  | member {cd ts d attrs x p} : nm = true → (∀ s, ts ≠ [s, .none]) → (∀ s ∈ ts, Nominal env s) → PayloadOf env cd.tagging (.cls d) x p →
      Leads env nm cd' t' x' w' cd (.cls d) p (.inst d attrs) → Leads env nm cd' t' x' w' cd (.union ts) x (.inst d attrs)
  | field {cd₀ c cd f dk kvs attrs a b} : nm = true → Direct env c cd → ReadField cd f → (∀ g, f.deserializer ≠ some (.fn g)) → getStr (f.conv cd.deCase) kvs = some a →
      attrs.lookup f.name = some b → Leads env nm cd' t' x' w' cd f.ty a b → Leads env nm cd' t' x' w' cd₀ (.cls c) (.dict dk kvs) (.inst c attrs)
  | aliased {cd₀ c cd f dk kvs attrs a b} : nm = true → Direct env c cd → AliasedField env cd f → FirstEntry f kvs = some a → attrs.lookup f.name = some b →
      Leads env nm cd' t' x' w' cd f.ty a b → Leads env nm cd' t' x' w' cd₀ (.cls c) (.dict dk kvs) (.inst c attrs)
  | flat {cd₀ c cd f ch dk kvs attrs b} : nm = true → Direct env c cd → FlatField env cd f ch → attrs.lookup f.name = some b →
      Leads env nm cd' t' x' w' cd (.cls ch) (.dict dk kvs) b → Leads env nm cd' t' x' w' cd₀ (.cls c) (.dict dk kvs) (.inst c attrs)
  | item {cd₀ c cd f x attrs a b} {i : Nat} : nm = false → env.cls c = some cd → cd.classDe = none → Positional cd → ItemField cd i f →
      (∀ g, f.deserializer ≠ some (.fn g)) → pyIndex x i = .ok a → attrs.lookup f.name = some b → Leads env nm cd' t' x' w' cd f.ty a b →
      Leads env nm cd' t' x' w' cd₀ (.cls c) x (.inst c attrs)
  | through {cd₀ c cd f x attrs b} : env.cls c = some cd → cd.classDe = none → Through cd f → attrs.lookup f.name = some b → Leads env nm cd' t' x' w' cd f.ty x b →
      Leads env nm cd' t' x' w' cd₀ (.cls c) x (.inst c attrs)

/-- The same for the value given to from_dict, or to from_tuple if `nm` is false; `top` is the class in which it arrives first. -/
inductive TopLeads (env : Env) (nm : Bool) (top cd' : ClassDef) (t' : Ty) (x' w' : Val) : Ty → Val → Val → Prop
  | cls {c x w} : env.cls c = some top → (∀ attrs, x ≠ .inst c attrs) → Leads env nm cd' t' x' w' top (.cls c) x w → TopLeads env nm top cd' t' x' w' (.cls c) x w
  | gen {c as x w} : env.cls c = some top → Leads env nm cd' t' x' w' top (.cls c) x w → TopLeads env nm top cd' t' x' w' (.gen c as) x w
  | list {k t x xs ys a b} {i : Nat} : pyIter x = .ok xs → xs[i]? = some a → ys[i]? = some b → TopLeads env nm top cd' t' x' w' t a b →
      TopLeads env nm top cd' t' x' w' (.list k t) x (.list ys)
  | deque {t x xs ys a b} {i : Nat} : pyIter x = .ok xs → xs[i]? = some a → ys[i]? = some b → TopLeads env nm top cd' t' x' w' t a b →
      TopLeads env nm top cd' t' x' w' (.deque t) x (.deque ys)
  | value {k vt dk kvs dk' es s a b} {ks : List String} : kvs.map (·.1) = ks.map Val.str → ks.Nodup → getStr s kvs = some a → getStr s es = some b →
      TopLeads env nm top cd' t' x' w' vt a b → TopLeads env nm top cd' t' x' w' (.dict k (.prim .str) vt) (.dict dk kvs) (.dict dk' es)
  | opt {t x w} : t ≠ .none → x ≠ .none → TopLeads env nm top cd' t' x' w' t x w → TopLeads env nm top cd' t' x' w' (.union [t, .none]) x w
  | alias {s t x w} : TopLeads env nm top cd' t' x' w' t x w → TopLeads env nm top cd' t' x' w' (.alias s t) x w

end Verif.Spec
