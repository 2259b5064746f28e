import Verif.Spec.Frame
import Verif.Spec.Unions
/-!
# Specification vocabulary: well-typed values, supported types and classes, wire formats
-/

namespace Verif.Spec

/-! ## Well-typed values -/

/-- No two entries are equal (as Python values, or identical). True of the elements of any set and the keys of any dict. -/
def AllDistinct (xs : List Val) : Prop := xs.Pairwise (fun a b => pyEq a b = false ∧ a ≠ b)

/-- Data as JSON has it: None, bools, numbers, text, lists, and dicts with text keys, no two of them equal. -/
inductive JsonVal : Val → Prop
  | none : JsonVal .none
  | bool {b} : JsonVal (.bool b)
  | int {i} : JsonVal (.int i)
  | float {x} : JsonVal (.float x)
  | str {s} : JsonVal (.str s)
  | list {xs} : (∀ x ∈ xs, JsonVal x) → JsonVal (.list xs)
  | dict {kvs} : (∀ kv ∈ kvs, ∃ s, kv.1 = .str s) → (kvs.map (·.1)).Nodup → (∀ kv ∈ kvs, JsonVal kv.2) → JsonVal (.dict .plain kvs)

/-- The value has exactly the annotated type, all the way down. Of the values of `Any`, bare `list` and bare `dict` only JSON data count.
Primitive fields hold exactly that primitive (a bool is not an int); `std`/`dt` values are ones that their class parses back
from their string form; a defaultdict has the factory that deserialization would give it. -/
inductive HasTy (env : Env) : Ty → Val → Prop
  | int {i} : HasTy env (.prim .int) (.int i)
  | float {x} : HasTy env (.prim .float) (.float x)
  | bool {b} : HasTy env (.prim .bool) (.bool b)
  | str {s} : HasTy env (.prim .str) (.str s)
  | newType {n p v} : HasTy env (.prim p) v → HasTy env (.newType n p) v
  | none : HasTy env .none .none
  | list {k t xs} : (∀ x ∈ xs, HasTy env t x) → HasTy env (.list k t) (.list xs)
  | deque {t xs} : (∀ x ∈ xs, HasTy env t x) → HasTy env (.deque t) (.deque xs)
  | set {k t xs} : (∀ x ∈ xs, HasTy env t x) → hashableL env.hash xs = true → AllDistinct xs →
      HasTy env (.set k t) (.set (k == .frozen) xs)
  | tupleV {t xs} : (∀ x ∈ xs, HasTy env t x) → HasTy env (.tupleV t) (.tuple xs)
  | tuple {ts xs} : ts.length = xs.length → (∀ p ∈ ts.zip xs, HasTy env p.1 p.2) → HasTy env (.tuple ts) (.tuple xs)
  | dict {k kt vt kvs} : (∀ kv ∈ kvs, HasTy env kt kv.1) → (∀ kv ∈ kvs, HasTy env vt kv.2) →
      hashableL env.hash (kvs.map (·.1)) = true → AllDistinct (kvs.map (·.1)) →
      HasTy env (.dict k kt vt) (.dict (if k = .deflt then .deflt (typename env vt) else .plain) kvs)
  | counter {t} {kvs : List (Val × Val)} : (∀ kv ∈ kvs, HasTy env t kv.1) → (∀ kv ∈ kvs, ∃ i, kv.2 = .int i) →
      hashableL env.hash (kvs.map (·.1)) = true → AllDistinct (kvs.map (·.1)) → HasTy env (.counter t) (.dict .counter kvs)
  | enum {e d m w} : env.enm e = some d → (m, w) ∈ d.members → HasTy env (.enum e) (.enum e m)
  | std {k s} : env.W.stdCtor k (.str s) = .ok (.std k s) → HasTy env (.std k) (.std k s)
  | dt {k s} : env.W.dtParse k (.str s) = .ok (.dt k s) → HasTy env (.dt k) (.dt k s)
  | lit {vs v} : v ∈ vs → HasTy env (.lit vs) v
  | union {ts t v} : t ∈ ts → HasTy env t v → HasTy env (.union ts) v
  | alias {n t v} : HasTy env t v → HasTy env (.alias n t) v
  | any {v} : JsonVal v → HasTy env .any v
  | listB {k xs} : JsonVal (.list xs) → HasTy env (.listB k) (.list xs)
  | dictB {kvs} : JsonVal (.dict .plain kvs) → HasTy env (.dictB .dict) (.dict .plain kvs)
  | inst {c cd} {attrs : List (String × Val)} : env.cls c = some cd → attrs.map (·.1) = cd.fields.map (·.name) →
      (∀ p ∈ cd.fields.zip attrs, HasTy env p.1.ty p.2.2) → HasTy env (.cls c) (.inst c attrs)

/-! ## Wire formats -/

/-- A way of serializing and deserializing: the options passed on both sides, and what the format does to a value between
them. `wire` is the effect of encoding and decoding (JSON turns tuples into lists, msgpack lists into tuples), `key` its effect
on mapping keys (JSON makes them strings). -/
structure Fmt (env : Env) where
  /-- `from_dict`/`to_dict` rather than `from_tuple`/`to_tuple` -/
  named : Bool
  /-- `reuse_instances` when serializing -/
  reuse : Bool
  /-- `convert_sets` when serializing -/
  conv : Bool
  /-- `skip_none` when serializing -/
  skipNone : Bool := false
  /-- `reuse_instances` when deserializing -/
  deReuse : Bool
  /-- `deserialize_numbers` -/
  numbers : Option (Val → Except PErr Val)
  /-- values are handed over as they are -/
  raw : Bool
  wire : Val → Val
  key : Val → Val
  raw_wire : raw = true → ∀ v, wire v = v
  raw_key : raw = true → ∀ v, key v = v
  reuse_raw : reuse = true → raw = true ∧ deReuse = true
  numbers_float : ∀ num, numbers = some num → ∀ x, num (.float x) = .ok (.float x)
  wire_none : wire .none = .none
  wire_bool : ∀ b, wire (.bool b) = .bool b
  wire_int : ∀ i, wire (.int i) = .int i
  wire_float : ∀ x, wire (.float x) = .float x
  wire_str : ∀ s, wire (.str s) = .str s
  wire_list : ∀ xs, wire (.list xs) = .list (xs.map wire) ∨ wire (.list xs) = .tuple (xs.map wire)
  wire_tuple : ∀ xs, wire (.tuple xs) = .list (xs.map wire) ∨ wire (.tuple xs) = .tuple (xs.map wire)
  /-- a dict whose keys stay distinct -/
  wire_dict : ∀ kvs, (kvs.map (fun kv => key kv.1)).Pairwise (fun a b => pyEq a b = false) →
    wire (.dict .plain kvs) = .dict .plain (kvs.map (fun kv => (key kv.1, wire kv.2)))
  key_str : ∀ s, key (.str s) = .str s
  key_int : ∀ i, key (.int i) = .int i ∨ ∃ s, key (.int i) = .str s ∧ env.W.intOfStr s = some i
  key_float : ∀ x, key (.float x) = .float x ∨ ∃ s, key (.float x) = .str s ∧ env.W.floatOfStr s = some x

/-- The format does not make tuples of lists. -/
def Fmt.keepsLists {env : Env} (F : Fmt env) : Prop := ∀ xs, F.wire (.list xs) = .list (xs.map F.wire)

/-! ## Supported types -/

/-- What a generated function knows besides its arguments: dict or tuple based, the union and literal functions of its class,
the class's tagging, and whether it coerces. -/
structure Scope where
  named : Bool
  unions : List (List Ty)
  lits : List (List Val)
  tagging : Tagging
  coerce : Bool

/-- The scope of class `c`. -/
def scopeOf (env : Env) (named : Bool) (c : ClassId) (cd : ClassDef) : Scope :=
  { named := named, unions := env.unionsOf c, lits := env.litsOf c, tagging := cd.tagging, coerce := cd.typeCheck == .coerce }

/-- Union functions are always dict based and never coerce. -/
def Scope.inUnion (S : Scope) : Scope := { S with named := true, coerce := false }

/-- Values an enum member may have: int, str, bool, and floats other than NaN. -/
inductive EnumVal : Val → Prop
  | int {i} : EnumVal (.int i)
  | str {s} : EnumVal (.str s)
  | bool {b} : EnumVal (.bool b)
  | fin {q} : EnumVal (.float (.fin q))
  | inf {b} : EnumVal (.float (.inf b))

/-- An enum with int, str, bool or float values, no two of them equal. -/
structure EnumOk (d : EnumDef) : Prop where
  vals : ∀ m ∈ d.members, EnumVal m.2
  names : (d.members.map (·.1)).Nodup
  distinct : d.members.Pairwise (fun a b => pyEq a.2 b.2 = false)

/-- Literal arguments: str, int, bool, None. -/
inductive LitVal : Val → Prop
  | str {s} : LitVal (.str s)
  | int {i} : LitVal (.int i)
  | bool {b} : LitVal (.bool b)
  | none : LitVal .none

/-- Non-container types. A literal type must find its own function in the scope (see C44). -/
inductive ScalarTy (env : Env) (S : Scope) : Ty → Prop
  | prim {p} : ScalarTy env S (.prim p)
  | newType {n p} : ScalarTy env S (.newType n p)
  | none : ScalarTy env S .none
  | enum {e d} : env.enm e = some d → EnumOk d → ScalarTy env S (.enum e)
  | std {k} : ScalarTy env S (.std k)
  | dt {k} : ScalarTy env S (.dt k)
  | lit {vs} : (∀ v ∈ vs, LitVal v) → findLit env S.lits (litFuncName env vs) = some vs → ScalarTy env S (.lit vs)

/-- Types of mapping keys that survive the format. -/
inductive KeyTy (env : Env) (F : Fmt env) : Ty → Prop
  | str : KeyTy env F (.prim .str)
  | int : KeyTy env F (.prim .int)
  | float : KeyTy env F (.prim .float)
  | bool : F.raw = true → KeyTy env F (.prim .bool)
  | newStr {n} : KeyTy env F (.newType n .str)
  | newType {n p} : F.raw = true → KeyTy env F (.newType n p)
  | enumRaw {e d} : F.raw = true → env.enm e = some d → EnumOk d → KeyTy env F (.enum e)
  | enumStr {e d} : env.enm e = some d → EnumOk d → (∀ m ∈ d.members, ∃ s, m.2 = .str s) → KeyTy env F (.enum e)
  | enumInt {e d} : env.enm e = some d → EnumOk d → (∀ m ∈ d.members, ∃ i, m.2 = .int i) → KeyTy env F (.enum e)
  | enumFloat {e d} : env.enm e = some d → EnumOk d → (∀ m ∈ d.members, ∃ x, m.2 = .float x) → KeyTy env F (.enum e)
  | std {k} : KeyTy env F (.std k)
  | dt {k} : KeyTy env F (.dt k)

/-- Types whose *name*, evaluated as an annotation, accepts their values: union functions check results against the name, in which
a frozenset becomes a set, and a PEP 695 alias is not bound. -/
inductive NameOk : Ty → Prop
  | prim {p} : NameOk (.prim p)
  | newType {n p} : NameOk (.newType n p)
  | none : NameOk .none
  | enum {e} : NameOk (.enum e)
  | std {k} : NameOk (.std k)
  | dt {k} : NameOk (.dt k)
  | lit {vs} : NameOk (.lit vs)
  | cls {c} : NameOk (.cls c)
  | list {k t} : NameOk t → NameOk (.list k t)
  | deque {t} : NameOk t → NameOk (.deque t)
  | tupleV {t} : NameOk t → NameOk (.tupleV t)
  | tuple {ts} : (∀ t ∈ ts, NameOk t) → NameOk (.tuple ts)
  | set {k t} : k ≠ .frozen → NameOk t → NameOk (.set k t)
  | dict {k kt vt} : NameOk kt → NameOk vt → NameOk (.dict k kt vt)
  | counter {t} : NameOk (.counter t)
  | any : NameOk .any
  | listB {k} : NameOk (.listB k)
  | dictB : NameOk (.dictB .dict)
  | union {ts} : (∀ t ∈ ts, NameOk t) → NameOk (.union ts)

/-- Members of a union other than Optional. An enum must not be an IntEnum or StrEnum, a dataclass not transparent. -/
inductive UnionMember (env : Env) : Ty → Prop
  | prim {p} : UnionMember env (.prim p)
  | none : UnionMember env .none
  | lit {vs} : UnionMember env (.lit vs)
  | enum {e d} : env.enm e = some d → d.mixin = none → UnionMember env (.enum e)
  | std {k} : UnionMember env (.std k)
  | dt {k} : UnionMember env (.dt k)
  | list {k t} : NameOk t → UnionMember env (.list k t)
  | deque {t} : NameOk t → UnionMember env (.deque t)
  | tupleV {t} : NameOk t → UnionMember env (.tupleV t)
  | tuple {ts} : (∀ t ∈ ts, NameOk t) → UnionMember env (.tuple ts)
  | set {k t} : k ≠ .frozen → NameOk t → UnionMember env (.set k t)
  | dict {k kt vt} : NameOk kt → NameOk vt → UnionMember env (.dict k kt vt)
  | counter {t} : UnionMember env (.counter t)
  | cls {c cd} : env.cls c = some cd → cd.transparent = false → UnionMember env (.cls c)

/-- Kinds of data, as far as a union can tell them apart. `text` is an instance of a str-convertible or date/time class. -/
inductive Kind
  | none | bool | int | float | str | seq | set | dict | text | enum | inst
  deriving DecidableEq

/-- The kind of a value. -/
def kind : Val → Kind
  | .none => .none
  | .bool _ => .bool
  | .int _ => .int
  | .float _ => .float
  | .str _ => .str
  | .list _ => .seq
  | .tuple _ => .seq
  | .deque _ => .seq
  | .set _ _ => .set
  | .dict _ _ => .dict
  | .enum _ _ => .enum
  | .std _ _ => .text
  | .dt _ _ => .text
  | .inst _ _ => .inst

/-- None, a bool or a number. -/
def Kind.atom : Kind → Bool
  | .none => true
  | .bool => true
  | .int => true
  | .float => true
  | _ => false

/-- A bool or a number. -/
def Kind.numeric : Kind → Bool
  | .bool => true
  | .int => true
  | .float => true
  | _ => false

/-- The kinds of data as which the values of a union member are written. -/
def writes (env : Env) (F : Fmt env) : Ty → List Kind
  | .prim .int => [.int]
  | .prim .float => [.float]
  | .prim .bool => [.bool]
  | .prim .str => [.str]
  | .none => [.none]
  | .lit vs => vs.map kind
  | .enum e => match env.enm e with
    | some d => d.members.map (fun m => kind m.2)
    | Option.none => []
  | .std _ => if F.reuse then [.text] else [.str]
  | .dt _ => if F.reuse then [.text] else [.str]
  | .set _ _ => if F.conv then [.seq] else [.set]
  | .dict _ _ _ => [.dict]
  | .counter _ => [.dict]
  | .cls _ => [.dict]
  | _ => [.seq]

/-- Types that cannot be read without data (`None` can). -/
def needsData : Ty → Bool
  | .none => false
  | .alias _ _ => false
  | .tuple _ => false
  | .any => false
  | .gen _ _ => false
  | _ => true

/-- Whether a union member might accept data of this kind. Sequences and sets are built from anything that can be iterated over,
enums look up strings after converting them, str-convertible classes decide themselves. -/
def takes (env : Env) : Ty → Kind → Bool
  | .prim .int, k => k == .int || k == .bool
  | .prim .float, k => k == .float
  | .prim .bool, k => k == .bool
  | .prim .str, k => k == .str
  | .none, k => k == .none
  | .enum e, k => k == .str || k == .enum || match env.enm e with
    | some d => k.numeric && d.members.any (fun m => (kind m.2).numeric)
    | Option.none => true
  | .list _ _, k => !k.atom
  | .deque _, k => !k.atom
  | .tupleV _, k => !k.atom
  | .set _ _, k => !k.atom
  | .tuple (t :: _), k => !needsData t || !k.atom
  | .dict _ _ _, k => k == .dict
  | .counter _, k => k == .dict
  | .cls _, k => k == .dict
  | _, _ => true

/-- Members whose values are written and read as they are. -/
def asIs : Ty → Bool
  | .prim _ => true
  | .none => true
  | .lit _ => true
  | _ => false

/-- `t` comes before `u` in a union, and leaves the values of `u` alone: it does not accept the data as which they are written. (If both
write and read values as they are, it does not matter which of them accepts.) Dataclasses are told apart by their tags (or, without
tags, as in `KeyApart`). -/
def apart (env : Env) (F : Fmt env) (t u : Ty) : Bool :=
  asIs t && asIs u || t.isCls && u.isCls || (writes env F u).all (fun k => !takes env t k)

/-- The class accepts neither None, bools, numbers, sequences, sets nor mappings. -/
def TextOnly (env : Env) : Ty → Prop
  | .std k => ∀ v, kind v ≠ .str → kind v ≠ .text → ∃ e, env.W.stdCtor k v = .error e
  | .dt k => ∀ v, kind v ≠ .str → kind v ≠ .text → ∃ e, env.W.dtParse k v = .error e
  | _ => False

/-- `t` may come before `u` in a union. -/
def Apart (env : Env) (F : Fmt env) (t u : Ty) : Prop :=
  apart env F t u = true ∨ TextOnly env t ∧ .str ∉ writes env F u ∧ .text ∉ writes env F u

/-- The keys a field stands for: its wire name, or those of the fields of the dataclass flattened into it. -/
def wiresOf (env : Env) (cd : ClassDef) (f : FieldDef) : List String :=
  match inlined f with
  | none => [f.conv cd.deCase]
  | some ch => match env.cls ch with
    | some chd => chd.fields.map (fun g => g.conv chd.deCase)
    | none => []

/-- The keys of a class, in order. -/
def wires (env : Env) (cd : ClassDef) : List String := cd.fields.flatMap (wiresOf env cd)

/-- A field that is read from its own key and that cannot be read without data. -/
structure Needed (f : FieldDef) : Prop where
  read : f.init = true ∧ f.skip = false ∧ f.skipDe = false
  noFlatten : f.flatten = false
  noCustom : f.deserializer = none
  alias : f.alias = []
  dflt : f.dflt = none
  data : needsData f.ty = true
  notOpt : ∀ ts, f.ty = .union ts → .none ∉ ts

/-- The class cannot be read from a dict with keys among `ks`: it needs a field with another key, and the fields before that have other keys
and defaults. -/
def Lacks (cd : ClassDef) (ks : List String) : Prop :=
  ∃ pre f post, cd.fields = pre ++ f :: post ∧ Needed f ∧ f.conv cd.deCase ∉ ks ∧
    ∀ g ∈ pre, g.flatten = false ∧ g.alias = [] ∧ g.dflt ≠ none ∧ g.conv cd.deCase ∉ ks

/-- Without tags: the dataclass `t` comes before `u` in a union and cannot be read from what is written for `u`. For another dataclass that is
because of the keys; otherwise it is enough that the first field of `t` needs data. -/
def KeyApart (env : Env) (t u : Ty) : Prop :=
  ∀ c cd, t = .cls c → env.cls c = some cd →
    (∀ c' cd', u = .cls c' → env.cls c' = some cd' → c' = c ∨ Lacks cd (wires env cd')) ∧
    (u.isCls = false → ∃ f post, cd.fields = f :: post ∧ Needed f)

/-- A variant `cd` of the union `ts` keeps its fields: under internal tagging the tag is not one of the keys of the class and the class accepts
the additional key; the two keys of adjacent tagging differ; without tags the members of the union are told apart by their keys. -/
def TagOk (env : Env) (tg : Tagging) (ts : List Ty) (cd : ClassDef) : Prop :=
  match tg with
  | .external => True
  | .internal tag => cd.denyUnknown = false ∧ tag ∉ wires env cd
  | .adjacent tag content => tag ≠ content
  | .untagged => ts.Pairwise (KeyApart env)

/-- Types covered by the round-trip theorems. -/
inductive TyOk (env : Env) (F : Fmt env) : Scope → Ty → Prop
  | scalar {S t} : ScalarTy env S t → TyOk env F S t
  | list {S k t} : TyOk env F S t → TyOk env F S (.list k t)
  | deque {S t} : TyOk env F S t → TyOk env F S (.deque t)
  | tupleV {S t} : TyOk env F S t → TyOk env F S (.tupleV t)
  | tuple {S ts} : ts ≠ [] → (∀ t ∈ ts, TyOk env F S t) → TyOk env F S (.tuple ts)
  | setConv {S k t} : F.conv = true → TyOk env F S t → TyOk env F S (.set k t)
  | setRaw {S k t} : F.conv = false → F.raw = true → ScalarTy env S t → TyOk env F S (.set k t)
  | dict {S k kt vt} : KeyTy env F kt → TyOk env F S vt → TyOk env F S (.dict k kt vt)
  | counter {S t} : KeyTy env F t → (F.raw = true ∨ t ≠ .prim .int ∧ t ≠ .prim .float) → TyOk env F S (.counter t)
  | opt {S t} : t ≠ .none → TyOk env F S t → TyOk env F S (.union [t, .none])
  | union {S ts} : (Ty.union ts).isOpt = false → (∀ t ∈ ts, UnionMember env t) → (∀ t ∈ ts, TyOk env F S t) → ts.Pairwise (Apart env F) →
      (∀ c cd c' cd', .cls c ∈ ts → .cls c' ∈ ts → env.cls c = some cd → env.cls c' = some cd' →
        cd.name = cd'.name ∨ c' ∈ cd.mro → c = c') →
      (∀ c cd, .cls c ∈ ts → env.cls c = some cd → TagOk env S.tagging ts cd) →
      findUnion env S.unions (unionFuncName env ts) = some ts → TyOk env F S (.union ts)
  | cls {S c cd} : env.cls c = some cd → TyOk env F S (.cls c)
  | alias {S n t} : TyOk env F S t → TyOk env F S (.alias n t)
  | any {S} : F.keepsLists → TyOk env F S .any
  | listB {S k} : F.keepsLists → TyOk env F S (.listB k)
  | dictB {S} : F.keepsLists → TyOk env F S (.dictB .dict)

/-- A plain field: (de)serialized under one name, without options that hide, rename or transform it differently on the two
sides. Defaults, `rename` and keyword-only are allowed; so are aliases on a field that is not renamed, on the types for which they
are implemented. -/
structure FieldPlain (cd : ClassDef) (f : FieldDef) : Prop where
  init : f.init = true
  noSkip : f.skip = false ∧ f.skipSer = false ∧ f.skipDe = false
  alias : f.alias = [] ∨ AliasTy f.ty ∧ f.conv cd.deCase = f.name
  noFlatten : f.flatten = false
  noCustom : f.serializer = none ∧ f.deserializer = none
  sameName : f.conv cd.seCase = f.conv cd.deCase

/-- No rule of the field or the class leaves the field out. -/
def NoRule (cd : ClassDef) (f : FieldDef) : Prop :=
  f.skipIf = none ∧ f.skipIfFalse = false ∧ f.skipIfDefault.getD cd.skipIfDefaultDflt = false ∧ f.skipIfNone.getD cd.skipIfNoneDflt = false

/-- If the field can hold None, then a missing key stands for None: because of its default or its type. -/
def NoneRestored (env : Env) (f : FieldDef) : Prop :=
  HasTy env f.ty .none → f.alias = [] ∧ (f.dflt = some .none ∨ f.dflt = none ∧ (f.ty = .none ∨ ∃ ts, f.ty = .union ts ∧ .none ∈ ts))

/-- The one falsy value of a type. -/
inductive Falsy (env : Env) : Ty → Val → Prop
  | int : Falsy env (.prim .int) (.int 0)
  | float : Falsy env (.prim .float) (.float (.fin 0))
  | bool : Falsy env (.prim .bool) (.bool false)
  | str : Falsy env (.prim .str) (.str "")
  | list {k t} : Falsy env (.list k t) (.list [])
  | deque {t} : Falsy env (.deque t) (.deque [])
  | tupleV {t} : Falsy env (.tupleV t) (.tuple [])
  | set {k t} : Falsy env (.set k t) (.set (k == .frozen) [])
  | dict {k kt vt} : Falsy env (.dict k kt vt) (.dict (if k = .deflt then .deflt (typename env vt) else .plain) [])

/-- Types whose values are written as they are. -/
inductive AsIs : Ty → Prop
  | prim {p} : AsIs (.prim p)
  | optPrim {p} : AsIs (.union [.prim p, .none])

/-- A field that a rule leaves out is restored by its default (or, for None, by its type). Only the first rule counts; without any,
the `skip_none` of the call does. -/
inductive RuleOk (env : Env) (F : Fmt env) (cd : ClassDef) (f : FieldDef) : Prop
  | never : NoRule cd f → (F.skipNone = true → NoneRestored env f) → RuleOk env F cd f
  | ifNone : f.skipIf = none → f.skipIfFalse = false → f.skipIfDefault.getD cd.skipIfDefaultDflt = false → NoneRestored env f → RuleOk env F cd f
  | ifFalse {d} : f.skipIf = none → f.skipIfFalse = true → f.alias = [] → f.dflt = some d → Falsy env f.ty d → RuleOk env F cd f
  | ifDefault {d} : f.skipIf = none → f.skipIfFalse = false → f.skipIfDefault.getD cd.skipIfDefaultDflt = true → f.alias = [] → f.dflt = some d →
      Falsy env f.ty d ∨ AsIs f.ty ∧ HasTy env f.ty d → RuleOk env F cd f

/-- A field that flattens the dataclass `ch`. The fields of `ch` are plain, have the same wire names for the enclosing class. With the tuple based functions it has to be the last field: `from_tuple` reads the child from
the position of the field to the end. -/
structure FlatShape (env : Env) (F : Fmt env) (cd : ClassDef) (f : FieldDef) (ch : ClassId) (chd : ClassDef) : Prop where
  init : f.init = true
  noSkip : f.skip = false ∧ f.skipSer = false ∧ f.skipDe = false
  noRule : NoRule cd f
  plain : f.alias = [] ∧ f.dflt = none ∧ f.serializer = none ∧ f.deserializer = none
  flatten : f.flatten = true
  ty : f.ty = .cls ch
  child : env.cls ch = some chd
  opaqueChild : chd.transparent = false
  last : F.named = true ∨ ∃ fs, cd.fields = fs ++ [f]
  inner : ∀ g ∈ chd.fields, FieldPlain chd g
  names : ∀ g ∈ chd.fields, g.conv cd.seCase = g.conv chd.deCase
  coerce : (cd.typeCheck == .coerce) = (chd.typeCheck == .coerce)
  deny : chd.denyUnknown = true → cd.denyUnknown = true
  nonempty : chd.fields ≠ []
  skipNone : F.skipNone = true → 2 ≤ chd.fields.length

/-- The types of the flattened fields are handled alike by both classes. -/
structure FieldFlat (env : Env) (F : Fmt env) (c : ClassId) (cd : ClassDef) (f : FieldDef) (ch : ClassId) (chd : ClassDef) : Prop
    extends FlatShape env F cd f ch chd where
  types : ∀ g ∈ chd.fields, TyOk env F (scopeOf env true c cd) g.ty ∧ (ScopeFree g.ty ∨ cd.tagging = chd.tagging)

/-- A field covered by the round-trip theorems. -/
inductive FieldOk (env : Env) (F : Fmt env) (c : ClassId) (cd : ClassDef) (f : FieldDef) : Prop
  | plain : FieldPlain cd f → RuleOk env F cd f → FieldOk env F c cd f
  | flat {ch chd} : FieldFlat env F c cd f ch chd → FieldOk env F c cd f

/-- What the round-trip theorems ask of a class, its field types apart. -/
structure ClassShape (env : Env) (F : Fmt env) (c : ClassId) (cd : ClassDef) : Prop where
  names : (cd.fields.map (·.name)).Nodup
  wires : (wires env cd).Nodup
  notTransparent : cd.transparent = false
  noHook : ∀ p, cd.postInit = some p → ∀ attrs, p attrs = .ok attrs
  noClassCustom : cd.classSer = none ∧ cd.classDe = none
  mroSelf : c ∈ cd.mro
  kwLast : cd.fields.Pairwise (fun f g => f.kwOnly = true → g.kwOnly = true)
  kwTuple : F.named = false → ∀ f ∈ cd.fields, f.kwOnly = false ∧ f.alias = []

/-- A class covered by the round-trip theorems. -/
structure ClassOk (env : Env) (F : Fmt env) (c : ClassId) (cd : ClassDef) : Prop extends ClassShape env F c cd where
  fields : ∀ f ∈ cd.fields, FieldOk env F c cd f
  types : ∀ f ∈ cd.fields, ∀ named, named = F.named ∨ named = true → TyOk env F (scopeOf env named c cd) f.ty

/-- A transparent class covered by the round-trip theorems: its only field is written and read in place of the instance. The field cannot
hold None, because an instance written as None is taken for an absent one. Skip rules, names, aliases and defaults of the field play
no role. -/
structure WrapShape (env : Env) (c : ClassId) (cd : ClassDef) (f : FieldDef) : Prop where
  only : cd.fields = [f]
  init : f.init = true
  noSkip : f.skip = false ∧ f.skipSer = false ∧ f.skipDe = false
  noFlatten : f.flatten = false
  noCustom : f.serializer = none ∧ f.deserializer = none
  notNone : ¬ HasTy env f.ty .none
  noHook : ∀ p, cd.postInit = some p → ∀ attrs, p attrs = .ok attrs
  noClassCustom : cd.classSer = none ∧ cd.classDe = none
  mroSelf : c ∈ cd.mro

/-- The type of the only field is covered as well. -/
structure WrapOk (env : Env) (F : Fmt env) (c : ClassId) (cd : ClassDef) (f : FieldDef) : Prop extends WrapShape env c cd f where
  type : ∀ named, named = F.named ∨ named = true → TyOk env F (scopeOf env named c cd) f.ty

/-- Every class is covered, and no global (de)serializers are registered. -/
structure EnvOk (env : Env) (F : Fmt env) : Prop where
  classes : ∀ c cd, env.cls c = some cd → cd.transparent = false → ClassOk env F c cd
  wrappers : ∀ c cd, env.cls c = some cd → cd.transparent = true → ∃ f, WrapOk env F c cd f
  noGlobal : env.gser = [] ∧ env.gde = []

end Verif.Spec
