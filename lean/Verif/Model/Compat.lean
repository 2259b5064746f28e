import Verif.Model.Types
/-!
# compat.py and the run-time type tests of core.py
-/

namespace Verif

/-- Name of a primitive type. -/
def Prim.name : Prim → String
  | .int => "int" | .float => "float" | .bool => "bool" | .str => "str"

/-- Name of a date/time class. -/
def DtK.name : DtK → String
  | .date => "date" | .datetime => "datetime" | .time => "time"

/-- `__name__` of a dataclass. -/
def Env.clsName (env : Env) (c : ClassId) : String :=
  match env.cls c with
  | some cd => cd.name
  | Option.none => c

/-- `__name__` of an enum. -/
def Env.enmName (env : Env) (e : EnumId) : String :=
  match env.enm e with
  | some d => d.name
  | Option.none => e

/-- `stringify_literal`, /repo/serde/compat.py:270-274. -/
def stringifyLit (W : World) : Val → String
  | .str s => "'" ++ s ++ "'"
  | v => W.strOf v

mutual
/-- `typename`, /repo/serde/compat.py:154-267.  Note the erasures: every list-like annotation is `list`, every set-like one
`set`, `Counter[T]` is `dict` (it is tested as a dict with one argument before `is_counter`), a subscripted generic is
its origin, a NewType its supertype.
Members of a nested `Union` are listed as `union_args` (/repo/serde/compat.py:293-308) folds them.
Simplified: `with_typing_module` is not modelled. -/
def typename (env : Env) : Ty → String
  | .prim p => p.name
  | .newType _ p => p.name
  | .none => "NoneType"
  | .any => "Any"
  | .list _ t => "list[" ++ typename env t ++ "]"
  | .listB _ => "list"
  | .set _ t => "set[" ++ typename env t ++ "]"
  | .setB _ => "set"
  | .deque t => "deque[" ++ typename env t ++ "]"
  | .dequeB => "deque"
  | .counter _ => "dict"
  | .counterB => "Counter"
  | .tuple ts => "tuple[" ++ ", ".intercalate (typenames env ts) ++ "]"
  | .tupleV t => "tuple[" ++ typename env t ++ ", ...]"
  | .tupleB => "tuple"
  | .dict _ kt vt => "dict[" ++ typename env kt ++ ", " ++ typename env vt ++ "]"
  | .dictB _ => "dict"
  | .enum e => env.enmName e
  | .std k => k
  | .dt k => k.name
  | .lit vs => "Literal[" ++ ", ".intercalate (vs.map (stringifyLit env.W)) ++ "]"
  | .union [a, .none] => "Optional[" ++ typename env a ++ "]"
  | .union ts => "Union[" ++ ", ".intercalate (typenamesU env ts) ++ "]"
  | .cls c => env.clsName c
  | .gen c _ => env.clsName c
  | .tvar x => x
  | .alias n _ => n
  | .other s => s
/-- `[typename(e) for e in args]`. -/
def typenames (env : Env) : List Ty → List String
  | [] => []
  | t :: ts => typename env t :: typenames env ts
/-- `[typename(e) for e in union_args(typ)]`: taken two at a time, a pair `(T, None)` becomes `Optional[T]`. -/
def typenamesU (env : Env) : List Ty → List String
  | [] => []
  | [a] => [typename env a]
  | a :: .none :: r => ("Optional[" ++ typename env a ++ "]") :: typenamesU env r
  | a :: b :: r => typename env a :: typename env b :: typenamesU env r
end

/-- `re.sub(r"[^A-Za-z0-9]", "_", s)`, /repo/serde/core.py:939, 952. -/
def sanitize (s : String) : String :=
  String.ofList (s.toList.map (fun c => if c.isAlphanum then c else '_'))

/-- `union_func_name` without the constant prefix, /repo/serde/core.py:928-939. -/
def unionFuncName (env : Env) (ts : List Ty) : String :=
  sanitize ("_".intercalate (typenames env ts))

/-- `typename(type(a))` of a literal argument, /repo/serde/core.py:955. -/
def litTypeName (env : Env) : Val → String
  | .none => "NoneType"
  | .bool _ => "bool"
  | .int _ => "int"
  | .str _ => "str"
  | .enum e _ => env.enmName e
  | _ => "other"

/-- `f"{a}"` for a literal argument, /repo/serde/core.py:955. -/
def litStr (W : World) : Val → String
  | .str s => s
  | v => W.strOf v

/-- `literal_func_name` without the constant prefix, /repo/serde/core.py:942-956. -/
def litFuncName (env : Env) (vs : List Val) : String :=
  sanitize ("_".intercalate (vs.map (fun a => litStr env.W a ++ "_" ++ litTypeName env a)))

/-! ## Run-time type tests -/

/-- `isinstance(v, p)` for a primitive class; `bool` is a subclass of `int`, mixin enum members are instances of their base. -/
def isPrimInst (env : Env) (p : Prim) : Val → Bool
  | .int _ => p == .int
  | .bool _ => p == .bool || p == .int
  | .float _ => p == .float
  | .str _ => p == .str
  | .enum e _ => match env.enm e with
    | some d => d.mixin == some p
    | Option.none => false
  | _ => false

/-- `isinstance(v, cls)` for a dataclass. /repo/serde/core.py:377-380. -/
def isClsInst (env : Env) (c : ClassId) : Val → Bool
  | .inst d _ => match env.cls d with
    | some cd => cd.mro.contains c
    | Option.none => d == c
  | _ => false

/-- `isinstance(v, k)` for a date/time class. -/
def isDtInst (k : DtK) : Val → Bool
  | .dt k' _ => k' == k || (k' == .datetime && k == .date)
  | _ => false

/-- `isinstance(v, k)` for a str-convertible class. -/
def isStdInst (env : Env) (k : String) : Val → Bool
  | .std k' _ => k' == k || env.W.stdSub k' k
  | _ => false

/-- Constructor-level `type(l) == type(v)` for literal arguments (beartype compares type and value). -/
def sameKind : Val → Val → Bool
  | .none, .none => true
  | .bool _, .bool _ => true
  | .int _, .int _ => true
  | .str _, .str _ => true
  | .enum a _, .enum b _ => a == b
  | _, _ => false

/-- Elements of a value that is an instance of the list-like class `k` (`list`, `collections.abc.Sequence`, `MutableSequence`). -/
def seqInst (k : SeqK) : Val → Option (List Val)
  | .list xs => some xs
  | .deque xs => match k with
    | .list => Option.none
    | _ => some xs
  | .tuple xs => match k with
    | .seq => some xs
    | _ => Option.none
  | .str s => match k with
    | .seq => some (strElems s)
    | _ => Option.none
  | _ => Option.none

/-- Elements of a value that is an instance of the set-like class `k`. -/
def setInst (k : SetK) : Val → Option (List Val)
  | .set frozen xs => match k with
    | .set => if frozen then Option.none else some xs
    | .frozen => if frozen then some xs else Option.none
    | .absSet => some xs
    | .mutSet => if frozen then Option.none else some xs
  | _ => Option.none

/-- Entries of a value that is an instance of the dict-like class `k`. -/
def mapInst (k : MapK) : Val → Option (List (Val × Val))
  | .dict d kvs => match k with
    | .deflt => match d with
      | .deflt _ => some kvs
      | _ => Option.none
    | _ => some kvs
  | _ => Option.none

mutual
/-- beartype's run-time check of a value against an annotation: `is_bearable` (/repo/serde/de.py:1483, /repo/serde/core.py:413) and the
checks of the decorated `__init__` (/repo/serde/de.py:284-286).  Containers are checked on the element `env.P` picks.
Models beartype, not /repo code; generic and unsupported annotations are checked shallowly. -/
def bearable (env : Env) : Ty → Val → Bool
  | .prim p, v => isPrimInst env p v
  | .newType _ p, v => isPrimInst env p v
  | .none, v => match v with
    | .none => true
    | _ => false
  | .any, _ => true
  | .list k t, v => match seqInst k v with
    | some xs => match env.P.pick xs with
      | some x => bearable env t x
      | Option.none => true
    | Option.none => false
  | .listB k, v => (seqInst k v).isSome
  | .set k t, v => match setInst k v with
    | some xs => match env.P.pick xs with
      | some x => bearable env t x
      | Option.none => true
    | Option.none => false
  | .setB k, v => (setInst k v).isSome
  | .deque t, v => match v with
    | .deque xs => match env.P.pick xs with
      | some x => bearable env t x
      | Option.none => true
    | _ => false
  | .dequeB, v => match v with
    | .deque _ => true
    | _ => false
  | .counter t, v => match v with
    | .dict .counter kvs => match env.P.pickKV kvs with
      | some kv => bearable env t kv.1
      | Option.none => true
    | _ => false
  | .counterB, v => match v with
    | .dict .counter _ => true
    | _ => false
  | .tuple ts, v => match v with
    | .tuple xs => bearableZip env ts xs
    | _ => false
  | .tupleV t, v => match v with
    | .tuple xs => match env.P.pick xs with
      | some x => bearable env t x
      | Option.none => true
    | _ => false
  | .tupleB, v => match v with
    | .tuple _ => true
    | _ => false
  | .dict k kt vt, v => match mapInst k v with
    | some kvs => match env.P.pickKV kvs with
      | some kv => bearable env kt kv.1 && bearable env vt kv.2
      | Option.none => true
    | Option.none => false
  | .dictB k, v => (mapInst k v).isSome
  | .enum e, v => match v with
    | .enum e' _ => e' == e
    | _ => false
  | .std k, v => isStdInst env k v
  | .dt k, v => isDtInst k v
  | .lit vs, v => vs.any (fun l => sameKind l v && pyEq l v)
  | .union ts, v => bearableAny env ts v
  | .cls c, v => isClsInst env c v
  | .gen c _, v => isClsInst env c v
  | .tvar _, _ => true
  | .alias _ t, v => bearable env t v
  | .other _, _ => true
/-- Element-wise check of a fixed-length tuple. -/
def bearableZip (env : Env) : List Ty → List Val → Bool
  | [], [] => true
  | t :: ts, v :: vs => bearable env t v && bearableZip env ts vs
  | _, _ => false
/-- Check against a union: some member accepts. -/
def bearableAny (env : Env) : List Ty → Val → Bool
  | [], _ => false
  | t :: ts, v => bearable env t v || bearableAny env ts v
end

/-- `isinstance(v, Sequence)` etc. as tested by `is_list_instance`, /repo/serde/core.py:430-449: strings are excluded. -/
def listInst (k : SeqK) : Val → Option (List Val)
  | .str _ => Option.none
  | v => seqInst k v

mutual
/-- `is_instance`, /repo/serde/core.py:372-528.  Containers are checked on their first element, literals always match.
Simplified: a bare `defaultdict` annotation (which makes the code fail) is treated as a bare dict. -/
def isInst (env : Env) : Ty → Val → Bool
  | .cls c, v => isClsInst env c v
  | .union ts, v => isInstAny env ts v
  | .list k t, v => match listInst k v with
    | some (x :: _) => isInst env t x
    | some [] => true
    | Option.none => false
  | .listB k, v => (listInst k v).isSome
  | .set _ t, v => match v with
    | .set _ (x :: _) => isInst env t x
    | .set _ [] => true
    | _ => false
  | .setB _, v => match v with
    | .set _ _ => true
    | _ => false
  | .tuple ts, v => match v with
    | .tuple xs => isInstZip env ts xs
    | _ => false
  | .tupleV t, v => match v with
    | .tuple xs => xs.all (fun x => isInst env t x)
    | _ => false
  | .tupleB, v => match v with
    | .tuple _ => true
    | _ => false
  | .counter t, v => match v with
    | .dict .counter ((k, _) :: _) => isInst env t k
    | .dict .counter [] => true
    | _ => false
  | .counterB, v => match v with
    | .dict .counter _ => true
    | _ => false
  | .dict _ kt vt, v => match v with
    | .dict _ ((k, w) :: _) => isInst env kt k && isInst env vt w
    | .dict _ [] => true
    | _ => false
  | .dictB _, v => match v with
    | .dict _ _ => true
    | _ => false
  | .deque t, v => match v with
    | .deque (x :: _) => isInst env t x
    | .deque [] => true
    | _ => false
  | .dequeB, v => match v with
    | .deque _ => true
    | _ => false
  | .gen c _, v => isClsInst env c v
  | .lit _, _ => true
  | .newType _ p, v => isPrimInst env p v
  | .any, _ => true
  | .prim p, v => bearable env (.prim p) v
  | .none, v => bearable env .none v
  | .enum e, v => bearable env (.enum e) v
  | .std k, v => bearable env (.std k) v
  | .dt k, v => bearable env (.dt k) v
  | .tvar x, v => bearable env (.tvar x) v
  | .alias n t, v => bearable env (.alias n t) v
  | .other s, v => bearable env (.other s) v
/-- `is_union_instance`, /repo/serde/core.py:423-427 (and `is_opt_instance`, 416-420, which agrees with it). -/
def isInstAny (env : Env) : List Ty → Val → Bool
  | [], _ => false
  | t :: ts, v => isInst env t v || isInstAny env ts v
/-- Fixed-length tuples, /repo/serde/core.py:487-494. -/
def isInstZip (env : Env) : List Ty → List Val → Bool
  | [], [] => true
  | t :: ts, v :: vs => isInst env t v && isInstZip env ts vs
  | _, _ => false
end

/-- `type(o) is c`, /repo/serde/de.py:520. -/
def typeIs (v : Val) : Ty → Bool
  | .prim .int => match v with
    | .int _ => true
    | _ => false
  | .prim .bool => match v with
    | .bool _ => true
    | _ => false
  | .prim .float => match v with
    | .float _ => true
    | _ => false
  | .prim .str => match v with
    | .str _ => true
    | _ => false
  | .none => match v with
    | .none => true
    | _ => false
  | .listB .list => match v with
    | .list _ => true
    | _ => false
  | .tupleB => match v with
    | .tuple _ => true
    | _ => false
  | .dequeB => match v with
    | .deque _ => true
    | _ => false
  | .setB .set => match v with
    | .set false _ => true
    | _ => false
  | .setB .frozen => match v with
    | .set true _ => true
    | _ => false
  | .dictB .dict => match v with
    | .dict .plain _ => true
    | _ => false
  | .dictB .deflt => match v with
    | .dict (.deflt _) _ => true
    | _ => false
  | .counterB => match v with
    | .dict .counter _ => true
    | _ => false
  | .enum e => match v with
    | .enum e' _ => e' == e
    | _ => false
  | .std k => match v with
    | .std k' _ => k' == k
    | _ => false
  | .dt k => match v with
    | .dt k' _ => k' == k
    | _ => false
  | .cls c => match v with
    | .inst d _ => d == c
    | _ => false
  | _ => false

/-- `is_primitive(t)`, /repo/serde/compat.py:955-982, as used by the union template (/repo/serde/de.py:1478): primitives, NewTypes of
primitives, and mixin enums (they subclass a primitive). -/
def isPrimitive (env : Env) : Ty → Bool
  | .prim _ => true
  | .newType _ _ => true
  | .enum e => match env.enm e with
    | some d => d.mixin.isSome
    | Option.none => false
  | _ => false

mutual
/-- The annotation that the *text* `typename(t)` denotes when it is evaluated in generated code
(`is_bearable(res, {{typename(t)}})`, /repo/serde/de.py:1483): list-likes become `list`, set-likes `set`, `Counter[T]` `dict`,
subscripted generics their origin.  `none` when the name is not bound there (PEP 695 aliases: `iter_types` adds the aliased
type, not the alias, /repo/serde/compat.py:399-400). -/
def erase : Ty → Option Ty
  | .list _ t => (erase t).map (.list .list)
  | .listB _ => some (.listB .list)
  | .set _ t => (erase t).map (.set .set)
  | .setB _ => some (.setB .set)
  | .deque t => (erase t).map .deque
  | .counter _ => some (.dictB .dict)
  | .tuple ts => (eraseL ts).map .tuple
  | .tupleV t => (erase t).map .tupleV
  | .dict _ kt vt => match erase kt, erase vt with
    | some k, some v => some (.dict .dict k v)
    | _, _ => Option.none
  | .dictB _ => some (.dictB .dict)
  | .union ts => (eraseL ts).map .union
  | .gen c _ => some (.cls c)
  | .newType _ p => some (.prim p)
  | .alias _ _ => Option.none
  | .prim p => some (.prim p)
  | .none => some .none
  | .any => some .any
  | .dequeB => some .dequeB
  | .counterB => some .counterB
  | .tupleB => some .tupleB
  | .enum e => some (.enum e)
  | .std k => some (.std k)
  | .dt k => some (.dt k)
  | .lit vs => some (.lit vs)
  | .cls c => some (.cls c)
  | .tvar x => some (.tvar x)
  | .other s => some (.other s)
/-- Element-wise `erase`. -/
def eraseL : List Ty → Option (List Ty)
  | [] => some []
  | t :: ts => match erase t, eraseL ts with
    | some a, some as => some (a :: as)
    | _, _ => Option.none
end

/-! ## Collecting unions and literals -/

/-- Fields visited by the collectors: all but those with `skip=True`. /repo/serde/compat.py:429, 473. -/
def ClassDef.walkTypes (cd : ClassDef) : List Ty :=
  (cd.fields.filter (fun f => !f.skip)).map (·.ty)

mutual
/-- `iter_unions`'s inner `recursive`, /repo/serde/compat.py:415-447; `into c` is the result of entering dataclass `c`. A union is
listed before the unions inside its members; an Optional's argument is visited twice, as in the code. -/
def unionsIn (into : ClassId → List (List Ty)) : Ty → List (List Ty)
  | .union ts => [ts] ++ unionsInL into ts ++ (if (Ty.union ts).isOpt then unionsInHd into ts else [])
  | .alias _ t => unionsIn into t
  | .cls c => into c
  | .list _ t => unionsIn into t
  | .set _ t => unionsIn into t
  | .deque t => unionsIn into t
  | .counter t => unionsIn into t
  | .tuple ts => unionsInL into ts
  | .tupleV t => unionsIn into t
  | .dict _ kt vt => unionsIn into kt ++ unionsIn into vt
  | _ => []
/-- Visit all of a list of annotations. -/
def unionsInL (into : ClassId → List (List Ty)) : List Ty → List (List Ty)
  | [] => []
  | t :: ts => unionsIn into t ++ unionsInL into ts
/-- Visit the first of a list of annotations. -/
def unionsInHd (into : ClassId → List (List Ty)) : List Ty → List (List Ty)
  | [] => []
  | t :: _ => unionsIn into t
end

/-- Entering a dataclass while `stack` holds the classes being visited, /repo/serde/compat.py:416-417, 425-431.
`n` bounds the nesting (the stack never repeats a class, so the number of classes is enough). -/
def unionsCls (env : Env) : Nat → List ClassId → ClassId → List (List Ty)
  | 0, _, _ => []
  | n + 1, stack, c =>
    if stack.contains c then [] else
    match env.cls c with
    | some cd => unionsInL (unionsCls env n (c :: stack)) cd.walkTypes
    | Option.none => []

/-- `iter_unions(cls)` for a dataclass, /repo/serde/compat.py:408-450. -/
def Env.unionsOf (env : Env) (c : ClassId) : List (List Ty) :=
  unionsCls env (env.classes.length + 1) [] c

mutual
/-- `iter_literals`'s inner `recursive`, /repo/serde/compat.py:460-491 (PEP 695 aliases are *not* followed). -/
def litsIn (into : ClassId → List (List Val)) : Ty → List (List Val)
  | .lit vs => [vs]
  | .union ts => litsInL into ts ++ (if (Ty.union ts).isOpt then litsInHd into ts else [])
  | .cls c => into c
  | .list _ t => litsIn into t
  | .set _ t => litsIn into t
  | .deque t => litsIn into t
  | .counter t => litsIn into t
  | .tuple ts => litsInL into ts
  | .tupleV t => litsIn into t
  | .dict _ kt vt => litsIn into kt ++ litsIn into vt
  | _ => []
/-- Visit all of a list of annotations. -/
def litsInL (into : ClassId → List (List Val)) : List Ty → List (List Val)
  | [] => []
  | t :: ts => litsIn into t ++ litsInL into ts
/-- Visit the first of a list of annotations. -/
def litsInHd (into : ClassId → List (List Val)) : List Ty → List (List Val)
  | [] => []
  | t :: _ => litsIn into t
end

/-- Entering a dataclass, /repo/serde/compat.py:469-475. -/
def litsCls (env : Env) : Nat → List ClassId → ClassId → List (List Val)
  | 0, _, _ => []
  | n + 1, stack, c =>
    if stack.contains c then [] else
    match env.cls c with
    | some cd => litsInL (litsCls env n (c :: stack)) cd.walkTypes
    | Option.none => []

/-- `iter_literals(cls)`, /repo/serde/compat.py:453-494. Simplified: the code collects into a `set`; here a list in visiting
order (the set's deduplication of reordered literals is treated separately). -/
def Env.litsOf (env : Env) (c : ClassId) : List (List Val) :=
  litsCls env (env.classes.length + 1) [] c

/-- `scope.funcs[union_func_name(...)]`: the functions are registered in `iter_unions` order and a later one with the same
name replaces an earlier one. /repo/serde/se.py:304-308, /repo/serde/de.py:360-367, /repo/serde/core.py:365-366. -/
def findUnion (env : Env) (tbl : List (List Ty)) (name : String) : Option (List Ty) :=
  tbl.reverse.find? (fun ts => unionFuncName env ts == name)

/-- `scope.funcs[literal_func_name(...)]`, /repo/serde/de.py:370-374. -/
def findLit (env : Env) (tbl : List (List Val)) (name : String) : Option (List Val) :=
  tbl.reverse.find? (fun vs => litFuncName env vs == name)

end Verif
