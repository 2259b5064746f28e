import Verif.Py.Value
/-!
# Type annotations, class definitions and the environment
-/

namespace Verif

/-- List-like annotations: `list`, `Sequence`, `MutableSequence`. /repo/serde/compat.py:598-618. -/
inductive SeqK where | list | seq | mutSeq
deriving DecidableEq
/-- Set-like annotations: `set`, `frozenset`, `Set`, `MutableSet`. /repo/serde/compat.py:688-711. -/
inductive SetK where | set | frozen | absSet | mutSet
deriving DecidableEq
/-- Dict-like annotations: `dict`, `Mapping`, `MutableMapping`, `defaultdict`. /repo/serde/compat.py:752-777. -/
inductive MapK where | dict | mapping | mutMapping | deflt
deriving DecidableEq

/-- Annotations, as classified by the predicates of /repo/serde/compat.py:498-1080.
`...B` constructors are the bare forms (no type argument). `Optional[T]` is `union [T, none]`.
`gen c args` is a subscripted generic dataclass, `alias` a PEP 695 alias.
Simplified: no ClassVar, InitVar, numpy types, primitive subclasses; `other` stands for an unsupported type. -/
inductive Ty where
  | prim (p : Prim)
  | newType (name : String) (p : Prim)
  | none
  | any
  | list (k : SeqK) (t : Ty)
  | listB (k : SeqK)
  | set (k : SetK) (t : Ty)
  | setB (k : SetK)
  | deque (t : Ty)
  | dequeB
  | counter (t : Ty)
  | counterB
  | tuple (ts : List Ty)
  | tupleV (t : Ty)
  | tupleB
  | dict (k : MapK) (kt vt : Ty)
  | dictB (k : MapK)
  | enum (e : EnumId)
  | std (k : String)
  | dt (k : DtK)
  | lit (vs : List Val)
  | union (ts : List Ty)
  | cls (c : ClassId)
  | gen (c : ClassId) (args : List Ty)
  | tvar (x : String)
  | alias (n : String) (t : Ty)
  | other (s : String)

instance : Inhabited Ty := ⟨.any⟩

/-- `is_none`, /repo/serde/compat.py:913-923. -/
def Ty.isNone : Ty → Bool
  | .none => true
  | _ => false

/-- `is_union`, /repo/serde/compat.py:497-521. -/
def Ty.isUnion : Ty → Bool
  | .union _ => true
  | _ => false

/-- `is_opt`, /repo/serde/compat.py:528-560: exactly two arguments, the first not None, the second None. -/
def Ty.isOpt : Ty → Bool
  | .union [a, .none] => !a.isNone
  | _ => false

/-- `is_union(t) and type(None) in get_args(t)`, /repo/serde/de.py:845. -/
def Ty.hasNone : Ty → Bool
  | .union ts => ts.any Ty.isNone
  | _ => false

/-- `dataclasses.is_dataclass(t)` for a type; subscripted generics are not. /repo/serde/core.py:988-990. -/
def Ty.isCls : Ty → Bool
  | .cls _ => true
  | _ => false

/-- `is_any`, /repo/serde/compat.py:1037-1042. -/
def Ty.isAny : Ty → Bool
  | .any => true
  | _ => false

/-- `is_flatten_dict`, /repo/serde/compat.py:780-804: bare `dict`/`Mapping`/`MutableMapping`, or a mapping from `str` to `Any`. -/
def Ty.isFlattenDict : Ty → Bool
  | .dictB .deflt => false
  | .dictB _ => true
  | .dict _ (.prim .str) .any => true
  | _ => false

/-- `TypeCheck.Kind`, /repo/serde/core.py:1112-1144. -/
inductive TypeCheck where | disabled | coerce | strict
deriving DecidableEq

/-- `Tagging`, /repo/serde/core.py:959-1057. -/
inductive Tagging where
  | external
  | internal (tag : String)
  | adjacent (tag content : String)
  | untagged
deriving DecidableEq

/-- A field's `serializer=`: the marker `default_serializer` or a user function. /repo/serde/se.py:924-928. -/
inductive SerFn where
  | marker
  | fn (f : Val → Except PErr Val)

/-- A (global or class-level) class serializer: the types its `serialize` methods are registered for, and the
dispatching call. /repo/serde/se.py:916-926. Simplified: multiple dispatch inside is opaque. -/
structure ClsSer where
  handles : Ty → Bool
  run : Val → Except PErr Val

/-- A (global or class-level) class deserializer. /repo/serde/de.py:911-924. -/
structure ClsDe where
  handles : Ty → Bool
  run : Ty → Val → Except PErr Val

/-- Options of a dataclass field. /repo/serde/core.py:596-646 (`field()`), 649-685 (`Field`).
`dflt` is the value of `default`, or what `default_factory()` returns (simplified: factories are constant);
`skipIf` returns the truth value of the predicate. -/
structure FieldDef where
  name : String
  ty : Ty
  dflt : Option Val := Option.none
  init : Bool := true
  kwOnly : Bool := false
  rename : Option String := Option.none
  alias : List String := []
  skip : Bool := false
  skipSer : Bool := false
  skipDe : Bool := false
  skipIf : Option (Val → Except PErr Bool) := Option.none
  skipIfFalse : Bool := false
  skipIfNone : Option Bool := Option.none
  skipIfDefault : Option Bool := Option.none
  serializer : Option SerFn := Option.none
  deserializer : Option SerFn := Option.none
  flatten : Bool := false

/-- A decorated dataclass: options of `serialize` (/repo/serde/se.py:200-214), `deserialize` (/repo/serde/de.py:235-249) and its
`Scope` (/repo/serde/core.py:245-284).
`mro` lists the class and its ancestors; `tvars` the type-variable names of its generic bases;
`postInit` models `__post_init__` (may raise, may change attributes).
Simplified: one `type_check`, `tagging`, for both directions, as `@serde` passes. -/
structure ClassDef where
  name : String
  mro : List ClassId
  fields : List FieldDef
  seCase : Option (String → String) := Option.none
  deCase : Option (String → String) := Option.none
  typeCheck : TypeCheck := .strict
  tagging : Tagging := .external
  denyUnknown : Bool := false
  transparent : Bool := false
  reuseDflt : Bool := true
  convDflt : Bool := false
  skipIfDefaultDflt : Bool := false
  skipIfNoneDflt : Bool := false
  tvars : Option (List String) := Option.none
  hashable : Bool := false
  postInit : Option (List (String × Val) → Except PErr (List (String × Val))) := Option.none
  classSer : Option ClsSer := Option.none
  classDe : Option ClsDe := Option.none

/-- An enum class: members in definition order with their values; `mixin` is the primitive base class of
`IntEnum`, `StrEnum`, `class E(str, Enum)`. /repo/serde/compat.py:930-970, /repo/serde/core.py:1147-1168. -/
structure EnumDef where
  name : String
  members : List (String × Val)
  mixin : Option Prim := Option.none

/-- Behaviour of Python and third-party code pyserde calls, as parameters.
* `intOfStr`, `floatOfStr`: `int("..")`, `float("..")`;
* `floatOfInt`: `float(n)` (may overflow);
* `strOf`: `str(x)`;
* `primOther p v`: `p(v)` for the remaining argument types;
* `stdCtor k v`: calling a str-convertible class on a value;
* `dtParse k v`: `k.fromisoformat(v)`;
* `stdSub k k'`: class `k` is a subclass of `k'`; `stdTruthy`: `bool(x)` of such a value.
Used at /repo/serde/core.py:1178, /repo/serde/de.py:970-973, 1229, /repo/serde/se.py:968-970. -/
structure World where
  intOfStr : String → Option Int
  floatOfStr : String → Option Flt
  floatOfInt : Int → Option Flt
  strOf : Val → String
  primOther : Prim → Val → Except PErr Val
  stdCtor : String → Val → Except PErr Val
  dtParse : DtK → Val → Except PErr Val
  stdSub : String → String → Bool
  stdTruthy : String → String → Bool

/-- beartype checks containers on one sampled element (or none): an arbitrary choice function.
Used by `is_bearable` and the decorated `__init__`, /repo/serde/de.py:284-286, 1483; /repo/serde/core.py:413. -/
structure Picker where
  pick : List Val → Option Val
  pickKV : List (Val × Val) → Option (Val × Val)
  pick_mem : ∀ xs x, pick xs = some x → x ∈ xs
  pickKV_mem : ∀ xs x, pickKV xs = some x → x ∈ xs

/-- Everything in the process that (de)serialization consults: external behaviour, the class and enum tables,
globally registered class (de)serializers (/repo/serde/core.py:1255-1271) and beartype's sampling. -/
structure Env where
  W : World
  P : Picker
  classes : List (ClassId × ClassDef) := []
  enums : List (EnumId × EnumDef) := []
  gser : List ClsSer := []
  gde : List ClsDe := []

/-- Class table lookup. -/
def Env.cls (env : Env) (c : ClassId) : Option ClassDef := env.classes.lookup c
/-- Enum table lookup. -/
def Env.enm (env : Env) (e : EnumId) : Option EnumDef := env.enums.lookup e

/-- `hash(instance)` works for frozen dataclasses. -/
def Env.hash (env : Env) (c : ClassId) : Bool :=
  match env.cls c with
  | some cd => cd.hashable
  | Option.none => false

end Verif
