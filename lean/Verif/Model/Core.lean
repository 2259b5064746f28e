import Verif.Model.Compat
/-!
# core.py: names, skip rules, enums, coercion, transparent classes, construction
-/

namespace Verif

/-! ## Plumbing -/

/-- Evaluate an expression for every element, left to right (comprehensions in generated code). -/
def mapR {α β : Type} (f : α → Res β) : List α → Res (List β)
  | [] => .ok []
  | a :: as => match f a with
    | .error e => .error e
    | .ok b => match mapR f as with
      | .error e => .error e
      | .ok bs => .ok (b :: bs)

/-- Concatenate the results (splicing comma-separated expressions). -/
def concatR {α β : Type} (f : α → Res (List β)) : List α → Res (List β)
  | [] => .ok []
  | a :: as => match f a with
    | .error e => .error e
    | .ok b => match concatR f as with
      | .error e => .error e
      | .ok bs => .ok (b ++ bs)

/-- The error that stands for "decorating the class already failed" (generated code is not valid Python, or code
generation raised). -/
def decorErr : Exc := .serde "decoration"

/-! ## Names -/

/-- `conv`, /repo/serde/core.py:909-925: `rename` wins over the case conversion, which applies to the declared name; an
empty `rename` is ignored. Unknown case names (an error at decoration) are not modelled. -/
def FieldDef.conv (f : FieldDef) (case : Option (String → String)) : String :=
  match f.rename with
  | some r => if r == "" then (match case with
      | some c => c f.name
      | Option.none => f.name) else r
  | Option.none => match case with
    | some c => c f.name
    | Option.none => f.name

/-! ## Skip rules -/

/-- The predicate guarding a field in `to_dict`. -/
inductive SkipRule where
  | never
  | user (f : Val → Except PErr Bool)
  | ifFalse
  | ifDefault (d : Option Val)
  | ifNone

/-- `skip_if or skip_if_false_func or skip_if_default_func or skip_if_none_func`, with the class-level flags used when the
field does not set its own. /repo/serde/core.py:700-735, 785. -/
def FieldDef.skipRule (f : FieldDef) (cd : ClassDef) : SkipRule :=
  match f.skipIf with
  | some p => .user p
  | Option.none =>
    if f.skipIfFalse then .ifFalse
    else if f.skipIfDefault.getD cd.skipIfDefaultDflt then .ifDefault f.dflt
    else if f.skipIfNone.getD cd.skipIfNoneDflt then .ifNone
    else .never

/-- Python truth value, `bool(v)` /repo/serde/core.py:563. Simplified: dataclass instances are truthy. -/
def truthy (env : Env) : Val → Bool
  | .none => false
  | .bool b => b
  | .int i => i != 0
  | .float (.fin q) => q != 0
  | .float _ => true
  | .str s => s != ""
  | .list xs => !xs.isEmpty
  | .tuple xs => !xs.isEmpty
  | .deque xs => !xs.isEmpty
  | .set _ xs => !xs.isEmpty
  | .dict _ kvs => !kvs.isEmpty
  | .enum e m => match env.enm e with
    | some d => match d.mixin with
      | some _ => match d.members.lookup m with
        | some (.int i) => i != 0
        | some (.str s) => s != ""
        | some (.bool b) => b
        | some (.float (.fin q)) => q != 0
        | _ => true
      | Option.none => true
    | Option.none => true
  | .std k s => env.W.stdTruthy k s
  | .dt _ _ => true
  | .inst _ _ => true

mutual
/-- `dataclasses.asdict`, the fallback at /repo/serde/core.py:584. -/
def asdict : Val → Val
  | .inst _ attrs => .dict .plain (asdictA attrs)
  | .list xs => .list (asdictL xs)
  | .tuple xs => .tuple (asdictL xs)
  | .dict k kvs => .dict k (asdictD kvs)
  | v => v
/-- Element-wise `asdict`. -/
def asdictL : List Val → List Val
  | [] => []
  | x :: xs => asdict x :: asdictL xs
/-- `asdict` of dict entries. -/
def asdictD : List (Val × Val) → List (Val × Val)
  | [] => []
  | (k, v) :: r => (asdict k, asdict v) :: asdictD r
/-- `asdict` of attributes. -/
def asdictA : List (String × Val) → List (Val × Val)
  | [] => []
  | (n, v) :: r => (.str n, asdict v) :: asdictA r
end

/-! ## Enums -/

/-- `typ(value)` for an enum class: a member maps to itself, otherwise the first member whose value equals `value`.
Used at /repo/serde/core.py:1158-1167, /repo/serde/se.py:1159, /repo/serde/de.py:625. Simplified: no `_missing_`, no Flag combinations. -/
def enumCall (d : EnumDef) (e : EnumId) (v : Val) : Except PErr Val :=
  let look : Except PErr Val := match d.members with
    | [] => .error .type
    | _ => match d.members.find? (fun m => pyEq m.2 v) with
      | some m => .ok (.enum e m.1)
      | Option.none => .error .value
  match v with
  | .enum e' m => if e' == e then .ok (.enum e m) else look
  | _ => look

/-- `member_value_type(value)` for a str value, /repo/serde/core.py:1167; `proto` is the first member's value.
Simplified: value types other than those listed raise TypeError. -/
def ctorLike (W : World) (proto : Val) (s : String) : Except PErr Val :=
  match proto with
  | .int _ => match W.intOfStr s with
    | some i => .ok (.int i)
    | Option.none => .error .value
  | .float _ => match W.floatOfStr s with
    | some f => .ok (.float f)
    | Option.none => .error .value
  | .bool _ => .ok (.bool (s != ""))
  | .tuple _ => .ok (.tuple (strElems s))
  | .list _ => .ok (.list (strElems s))
  | .std k _ => W.stdCtor k (.str s)
  | _ => .error .type

/-- `deserialize_enum`, /repo/serde/core.py:1147-1168. -/
def deEnum (env : Env) (e : EnumId) (v : Val) : Except PErr Val :=
  match env.enm e with
  | Option.none => .error .attr
  | some d => match enumCall d e v with
    | .ok r => .ok r
    | .error .value => match d.members with
      | [] => .error .value
      | (_, proto) :: _ =>
        match v, proto with
        | .list xs, .tuple _ => enumCall d e (.tuple xs)
        | .str _, .str _ => .error .value
        | .str s, p => match ctorLike env.W p s with
          | .ok u => enumCall d e u
          | .error x => .error x
        | _, _ => .error .value
    | .error x => .error x

/-- `enum_value`, /repo/serde/se.py:1147-1159. `is_enum` is memoised, so its argument must be hashable.
`n` bounds nesting of enums inside enums. -/
def enumValue (env : Env) (e : EnumId) : Nat → Val → Except PErr Val
  | 0, _ => .error (.raised "RecursionError")
  | n + 1, v =>
    if !hashable env.hash v then .error .type else
    match v with
    | .enum e' m => match env.enm e' with
      | some d => match d.members.lookup m with
        | some w =>
          if !hashable env.hash w then .error .type else
          match w with
          | .enum e'' m' => enumValue env e'' n (.enum e'' m')
          | _ => .ok w
        | Option.none => .error .attr
      | Option.none => .error .attr
    | _ => match env.enm e with
      | some d => match enumCall d e v with
        | .ok (.enum _ m) => match d.members.lookup m with
          | some w => .ok w
          | Option.none => .error .attr
        | .ok _ => .error .attr
        | .error x => .error x
      | Option.none => .error .attr

/-! ## Coercion -/

/-- `str(v)`: strings and str-convertible values are known, the rest is external. /repo/serde/se.py:1127, /repo/serde/core.py:1178. -/
def pyStr (W : World) : Val → String
  | .str s => s
  | .std _ s => s
  | v => W.strOf v

/-- Truncation toward zero, `int(x)` of a finite float. -/
def truncRat (q : Rat) : Int := Int.tdiv q.num q.den

/-- `p(v)` for a primitive class, /repo/serde/core.py:1178, /repo/serde/de.py:621-625. -/
def primCall (env : Env) (p : Prim) (v : Val) : Except PErr Val :=
  match p with
  | .int => match v with
    | .int i => .ok (.int i)
    | .bool b => .ok (.int (if b then 1 else 0))
    | .float (.fin q) => .ok (.int (truncRat q))
    | .float (.inf _) => .error .overflow
    | .float .nan => .error .value
    | .str s => match env.W.intOfStr s with
      | some i => .ok (.int i)
      | Option.none => .error .value
    | v => env.W.primOther .int v
  | .float => match v with
    | .float f => .ok (.float f)
    | .int i => match env.W.floatOfInt i with
      | some f => .ok (.float f)
      | Option.none => .error .overflow
    | .bool b => .ok (.float (.fin (if b then 1 else 0)))
    | .str s => match env.W.floatOfStr s with
      | some f => .ok (.float f)
      | Option.none => .error .value
    | v => env.W.primOther .float v
  | .bool => .ok (.bool (truthy env v))
  | .str => .ok (.str (pyStr env.W v))

/-- `coerce_object`, /repo/serde/core.py:1171-1182. -/
def coerceObj (env : Env) (p : Prim) (v : Val) : Res Val :=
  match v with
  | .none => .error (.serde "coerce")
  | v => match primCall env p v with
    | .ok w => .ok w
    | .error _ => .error (.serde "coerce")

/-! ## Transparent classes -/

/-- `fully_skipped`, /repo/serde/core.py:881-882. -/
def FieldDef.fullySkipped (f : FieldDef) : Bool := f.skip || (f.skipSer && f.skipDe)

/-- `get_transparent_field`, /repo/serde/core.py:872-906: the accepted field, or an error. -/
def transparentField (fs : List FieldDef) : Except Exc FieldDef :=
  match fs.filter (fun f => f.init && !f.fullySkipped) with
  | [chosen] =>
    if fs.all (fun f => f.name == chosen.name || (!f.init && f.fullySkipped)) then .ok chosen
    else .error (.serde "transparent")
  | _ => .error (.serde "transparent")

/-! ## Construction of instances -/

/-- `renderable`, /repo/serde/de.py:1308-1309. -/
def FieldDef.renderable (f : FieldDef) : Bool := f.init && !(f.skip || f.skipDe)

/-- Decorating a class with `@serde(transparent=True)`: `get_transparent_field` (/repo/serde/se.py:241-242, /repo/serde/de.py:281-282), after
which the templates take element 0 of the serializable fields (/repo/serde/se.py:782-788, 820-826) and of the renderable ones
(/repo/serde/de.py:1519-1521, 1624-1626); an empty list is an `IndexError`. Gives the field the checks chose. -/
def decorateTransparent (fs : List FieldDef) : Except Exc FieldDef :=
  match transparentField fs with
  | .error e => .error e
  | .ok f =>
    if (fs.filter (fun f => !(f.skip || f.skipSer))).isEmpty || (fs.filter (·.renderable)).isEmpty then .error (.py .index) else .ok f

/-- Parameters of the dataclass `__init__` that may be passed by position. -/
def ClassDef.posParams (cd : ClassDef) : List FieldDef := cd.fields.filter (fun f => f.init && !f.kwOnly)

/-- Attributes set by the dataclass-generated `__init__` once arguments are bound. -/
def initAttrs (bound : List (String × Val)) : List FieldDef → Except PErr (List (String × Val))
  | [] => .ok []
  | f :: fs =>
    let rest := initAttrs bound fs
    let v? : Except PErr (Option Val) :=
      if f.init then
        match bound.lookup f.name with
        | some v => .ok (some v)
        | Option.none => match f.dflt with
          | some d => .ok (some d)
          | Option.none => .error .type
      else .ok f.dflt
    match v?, rest with
    | .ok (some v), .ok r => .ok ((f.name, v) :: r)
    | .ok Option.none, .ok r => .ok r
    | .error e, _ => .error e
    | _, .error e => .error e

/-- The value beartype checks against: an argument is checked against its parameter's annotation. -/
def argsBearable (env : Env) (cd : ClassDef) : List (String × Val) → Bool
  | [] => true
  | (n, v) :: r =>
    (match cd.fields.find? (fun f => f.name == n) with
      | some f => bearable env f.ty v
      | Option.none => true) && argsBearable env cd r

/-- `cls(*pos, **kw)` as called by generated code, /repo/serde/de.py:1327-1336, 1412-1425, including beartype's check of passed
arguments in strict mode (/repo/serde/de.py:284-286) and `__post_init__`.  Everything raised becomes `UserError`. -/
def construct (env : Env) (c : ClassId) (cd : ClassDef) (pos : List Val) (kw : List (String × Val)) : Res Val :=
  let bound := (cd.posParams.map (·.name)).zip pos ++ kw
  if cd.typeCheck == .strict && !argsBearable env cd bound then .error (.user (.serde "type"))
  else if cd.posParams.length < pos.length then .error (.user (.py .type))
  else match initAttrs bound cd.fields with
    | .error e => .error (.user (.py e))
    | .ok attrs => match cd.postInit with
      | Option.none => .ok (.inst c attrs)
      | some p => match p attrs with
        | .ok attrs' => .ok (.inst c attrs')
        | .error e => .error (.user (.py e))

/-! ## Known field names -/

/-- The dataclass inlined by a flattened field, `_collect_flattened_dataclass_child_scopes` /repo/serde/de.py:1553-1574. -/
def FieldDef.flatChild (f : FieldDef) : Option ClassId :=
  if !f.flatten then Option.none else
  match f.ty with
  | .cls c => some c
  | .union [.cls c, .none] => some c
  | _ => Option.none

/-- The field captures unknown keys (`flatten` on a `dict`), /repo/serde/de.py:1644. -/
def FieldDef.flatDict (f : FieldDef) : Bool := f.flatten && f.ty.isFlattenDict

/-- `get_known_fields`, /repo/serde/de.py:1548-1550. -/
def FieldDef.knownNames (f : FieldDef) (case : Option (String → String)) : List String := f.conv case :: f.alias

/-- Names a class recognises: `_collect_known_fields` with the nested names of flattened dataclasses,
/repo/serde/de.py:1577-1597, 1634, 1653-1654. A flatten-dict field contributes nothing. `n` bounds the nesting of flattened classes. -/
def knownCls (env : Env) : Nat → ClassId → List String
  | 0, _ => []
  | n + 1, c => match env.cls c with
    | Option.none => []
    | some cd =>
      if cd.transparent then ["__serde_transparent__"]
      else cd.fields.flatMap (fun f =>
        if f.flatDict then []
        else match f.flatChild with
          | some ch => knownCls env n ch
          | Option.none => f.knownNames cd.deCase)

/-- `serde_scope.de_known_fields`, /repo/serde/de.py:1654. -/
def Env.known (env : Env) (c : ClassId) : List String := knownCls env (env.classes.length + 1) c

/-- `has_flatten_dict`, /repo/serde/de.py:1644. -/
def ClassDef.hasFlatDict (cd : ClassDef) : Bool := cd.fields.any (fun f => f.renderable && f.flatDict)

/-- `has_flatten_dict_transitively`, /repo/serde/de.py:1646-1649. -/
def flatDictCls (env : Env) : Nat → ClassId → Bool
  | 0, _ => false
  | n + 1, c => match env.cls c with
    | Option.none => false
    | some cd =>
      if cd.transparent then false
      else cd.hasFlatDict || cd.fields.any (fun f => f.renderable && match f.flatChild with
        | some ch => flatDictCls env n ch
        | Option.none => false)

/-- `serde_scope.de_has_flatten_dict`, /repo/serde/de.py:1655. -/
def Env.flatDict (env : Env) (c : ClassId) : Bool := flatDictCls env (env.classes.length + 1) c

end Verif
