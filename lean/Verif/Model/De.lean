import Verif.Model.Se
/-!
# de.py: deserialization
-/

namespace Verif

/-- Where an argument's data comes from: `d["conv"]` / `d.get("conv")` (`DeField`), `d[i]` (tuple based), or a variable of the
generated code (`InnerField`). /repo/serde/de.py:826-879. -/
inductive Src where
  | key (d : Val)
  | idx (d : Val) (i : Nat)
  | val (r : Res Val)

/-- `named` of the nested `from_obj` call: false for the tuple based function. /repo/serde/de.py:983-991. -/
def Src.isNamed : Src → Bool
  | .idx _ _ => false
  | _ => true

/-- `DeField`/`InnerField` as seen by the renderer: `name` is `arg.name`, `conv` is `arg.conv_name()`. `tyArgs` are the strings
of `type_args` for a subscripted generic. /repo/serde/de.py:749-879. -/
structure DeArg where
  ty : Ty
  name : String
  conv : String
  src : Src
  alias : List String := []
  deser : Option SerFn := Option.none
  flatten : Bool := false
  dflt : Option Val := Option.none
  tyArgs : Option (List String) := Option.none

/-- What is fixed while one generated deserialize function runs. `data` is the function's parameter of that name,
`mg`/`mgVars`/`vta` are `maybe_generic`, `maybe_generic_type_vars` and `variable_type_args`; `tvars` are the type variables of
the class being rendered. /repo/serde/de.py:300-344, 1362-1368. -/
structure DeCx where
  named : Bool
  data : Val
  reuse : Bool
  numbers : Option (Val → Except PErr Val)
  mg : Option Ty
  mgVars : Option (List String)
  vta : Option (List String)
  coerce : Bool
  unions : List (List Ty)
  lits : List (List Val)
  tagging : Tagging
  des : List ClsDe
  tvars : Option (List String)

/-- Parameters of a generated class deserialize function. /repo/serde/de.py:1363-1364. -/
structure DeCall where
  mg : Option Ty := Option.none
  mgVars : Option (List String) := Option.none
  vta : Option (List String) := Option.none
  reuse : Option Bool := Option.none
  numbers : Option (Val → Except PErr Val) := Option.none

/-- The recursive entry points. -/
structure DeRec where
  render : DeCx → DeArg → Res Val
  cls : Bool → ClassId → DeCall → Val → Res Val
  fromObj : Bool → Option Bool → Option (Val → Except PErr Val) → Tagging → Ty → Val → Res Val

/-- `arg.data`, /repo/serde/de.py:826-848, 874. -/
def DeArg.data (a : DeArg) : Res Val :=
  match a.src with
  | .key d => if a.ty.hasNone then pyGet d a.conv else pyGetItem d a.conv
  | .idx d i => pyIndex d i
  | .val r => r

/-- `_get_by_aliases`, /repo/serde/de.py:152-161; `none` when no name is present. -/
def getByAliases (d : Val) : List String → Res (Option Val)
  | [] => .ok Option.none
  | n :: ns => match pyIn n d with
    | .error e => .error e
    | .ok true => match pyGetItem d n with
      | .ok v => .ok (some v)
      | .error e => .error e
    | .ok false => getByAliases d ns

/-- `_exists_by_aliases`, /repo/serde/de.py:164-168. -/
def existsByAliases (d : Val) : List String → Res Bool
  | [] => .ok false
  | n :: ns => match pyIn n d with
    | .error e => .error e
    | .ok true => .ok true
    | .ok false => existsByAliases d ns

/-- `_project_flattened_data`, /repo/serde/de.py:171-193. -/
def project (env : Env) (data : Val) (childKnown parentKnown : List String) (childFD parentFD : Bool) : Res Val :=
  if !truthy env data then .ok (.dict .plain []) else
  match pyItems data with
  | .error e => .error e
  | .ok kvs =>
    let has (ks : List String) (k : Val) : Bool := ks.any (fun s => pyEq k (.str s))
    .ok (.dict .plain (kvs.filter (fun kv =>
      if childFD || !parentFD then has childKnown kv.1 || !has parentKnown kv.1 else has childKnown kv.1)))

/-- Data of a primitive or enum argument: aliases are looked up in the *function's* `data`, after the *declared* name.
/repo/serde/de.py:1195-1198, 1208-1211. -/
def primData (cx : DeCx) (a : DeArg) : Res Val :=
  match a.alias with
  | [] => a.data
  | al => match getByAliases cx.data (a.name :: al) with
    | .ok (some v) => .ok v
    | .ok Option.none => .error (.py .key)
    | .error e => .error e

/-- `str(t).lstrip("~")` of a type argument, /repo/serde/de.py:1048. Simplified: anything but a type variable prints as a string that
is not an identifier; the variables are invariant (for others see `varStr` in `Model/Params.lean`). -/
def tyArgStr (env : Env) : Ty → String
  | .tvar x => x
  | t => "<" ++ typename env t ++ ">"

/-- `find_generic_arg`, /repo/serde/compat.py:1106-1134 (`-1` when not found). Simplified: one generic base class
(for several see `findArg` in `Model/Params.lean` and C78). -/
def findGenericArg (tvars : List String) (x : String) : Option Nat :=
  let i := tvars.idxOf x
  if i < tvars.length then some i else Option.none

/-- `get_generic_arg`, /repo/serde/compat.py:1137-1177; `index = none` is `-1` (Python's last element). -/
def getGenericArg (mg : Option Ty) (mgVars vta : Option (List String)) (index : Option Nat) : Res Ty :=
  match mg, mgVars, vta with
  | some (.gen _ args), some vars, some names =>
    if args.length != vars.length then .error (.serde "generic") else
    match (match index with
      | some i => names[i]?
      | Option.none => names.getLast?) with
    | Option.none => .error (.py .index)
    | some nm => match args[vars.idxOf nm]? with
      | some t => .ok t
      | Option.none => .ok .any
  | _, _, _ => .ok .any

/-- `x[i:]`, /repo/serde/de.py:1043. -/
def pySlice (x : Val) (i : Nat) : Res Val :=
  match x with
  | .list xs => .ok (.list (xs.drop i))
  | .tuple xs => .ok (.tuple (xs.drop i))
  | .str s => .ok (.str (String.ofList (s.toList.drop i)))
  | _ => .error (.py .type)

/-- `collections.Counter(x)` on a non-mapping: count the elements. -/
def countElems : List Val → List (Val × Val) → List (Val × Val)
  | [], acc => acc
  | x :: xs, acc => countElems xs (dictSet x (match getVal x acc with
      | some (.int i) => .int (i + 1)
      | _ => .int 1) acc)

/-- `collections.Counter(x)`, /repo/serde/de.py:1121, 588. -/
def pyCounter (env : Env) (x : Val) : Res Val :=
  match x with
  | .dict _ kvs => .ok (.dict .counter kvs)
  | x => match pyIter x with
    | .ok xs => if hashableL env.hash xs then .ok (.dict .counter (countElems xs [])) else .error (.py .type)
    | .error e => .error e

/-- `k(x)` / `k.fromisoformat(x)`. -/
def stdCall (env : Env) (k : String) (v : Val) : Res Val := liftP (env.W.stdCtor k v)

/-- Class deserializer chosen when rendering: the last registered for exactly this annotation, unless the field has its own
`deserializer=`. /repo/serde/de.py:911-924. -/
def pickDe (des : List ClsDe) (a : DeArg) : Option ClsDe :=
  match a.deser with
  | some _ => Option.none
  | Option.none => des.reverse.find? (fun s => s.handles a.ty)

/-- Context of union functions: `from_dict` based, no coercion, only global class deserializers, generic information dropped,
and the function's own `data`. /repo/serde/de.py:1236-1244, 1451-1455, 1676-1694. -/
def DeCx.inUnion (cx : DeCx) (env : Env) (data : Val) : DeCx :=
  { cx with named := true, data := data, mg := Option.none, mgVars := Option.none, vta := Option.none, coerce := false,
            des := env.gde }

/-- The value a union member is deserialized from, under the tagging. /repo/serde/de.py:1459-1475. `ensure` failures and all other
errors are caught by the caller. -/
def unionPayload (env : Env) (tagging : Tagging) (t : Ty) (data : Val) : Res Val :=
  let nm := typename env t
  if t.isCls then
    match tagging with
    | .external => match pyIn nm data with
      | .ok true => pyGetItem data nm
      | .ok false => .error (.serde "ensure")
      | .error e => .error e
    | .internal tag => match pyIn tag data with
      | .ok true => match pyGetItem data tag with
        | .ok x => if pyEq (.str nm) x then .ok data else .error (.serde "ensure")
        | .error e => .error e
      | .ok false => .error (.serde "ensure")
      | .error e => .error e
    | .adjacent tag content => match pyIn tag data with
      | .ok true => match pyIn content data with
        | .ok true => match pyGetItem data tag with
          | .ok x => if pyEq (.str nm) x then pyGetItem data content else .error (.serde "ensure")
          | .error e => .error e
        | .ok false => .error (.serde "ensure")
        | .error e => .error e
      | .ok false => .error (.serde "ensure")
      | .error e => .error e
    | .untagged => .ok data
  else .ok data

/-- `isinstance(fake_dict["fake_key"], T)` for primitive and None members, /repo/serde/de.py:1477-1480. -/
def unionPre (env : Env) (t : Ty) (v : Val) : Bool :=
  if isPrimitive env t || t.isNone then
    match t with
    | .newType _ p => isPrimInst env p v
    | t => bearable env t v
  else true

/-- One attempt of a generated union deserialize function, /repo/serde/de.py:1456-1485. -/
def deMember (env : Env) (r : DeRec) (cx : DeCx) (t : Ty) (data : Val) : Res Val :=
  match unionPayload env cx.tagging t data with
  | .error e => .error e
  | .ok p =>
    if !unionPre env t p then .error (.serde "ensure") else
    match r.render cx { ty := t, name := "fake_key", conv := "fake_key", src := .key (.dict .plain [(.str "fake_key", p)]) } with
    | .error e => .error e
    | .ok res => match erase t with
      | Option.none => .error (.py (.raised "NameError"))
      | some t' => if bearable env t' res then .ok res else .error (.serde "ensure")

/-- A generated union deserialize function: the first member whose attempt succeeds; every exception (except exhausted fuel)
moves on. /repo/serde/de.py:1451-1490. -/
def deUnion (env : Env) (r : DeRec) (cx : DeCx) (data : Val) : List Ty → Res Val
  | [] => .error (.serde "union")
  | t :: ts => match deMember env r cx t data with
    | .ok v => .ok v
    | .error .fuel => .error .fuel
    | .error _ => deUnion env r cx data ts

/-- A generated literal deserialize function, /repo/serde/de.py:1491-1499: the *data* is returned. -/
def deLit (vs : List Val) (data : Val) : Res Val :=
  if vs.any (fun l => pyEq l data) then .ok data else .error (.serde "literal")

/-- `exists` test of an Optional, /repo/serde/de.py:1062-1085. -/
def optExists (env : Env) (cx : DeCx) (a : DeArg) (inner : Ty) : Res Bool :=
  let notNone (r : Res Val) : Res Bool := match r with
    | .ok .none => .ok false
    | .ok _ => .ok true
    | .error e => .error e
  match a.src with
  | .idx _ _ => notNone a.data
  | .val _ => notNone a.data
  | .key d =>
    if a.flatten then
      match inner with
      | .cls c => match env.cls c with
        | some cd => match cd.fields with
          | [] => .error decorErr
          | fs => match mapR (fun f => notNone (pyGet d f.name)) fs with
            | .ok bs => .ok (bs.all id)
            | .error e => .error e
        | Option.none => .error decorErr
      | _ => .error decorErr
    else match a.alias with
      | [] => notNone (pyGet d a.conv)
      | al => match getByAliases cx.data (a.conv :: al) with
        | .ok (some .none) => .ok false
        | .ok (some _) => .ok true
        | .ok Option.none => .ok false
        | .error e => .error e

/-- `coerce_object`-d numeric dict keys, /repo/serde/de.py:1169-1187. -/
def numKey : Ty → Option Prim
  | .prim .int => some .int
  | .prim .float => some .float
  | _ => Option.none

/-- Name of the default factory of a deserialized defaultdict, /repo/serde/de.py:1154-1162. Simplified: the annotation's name. -/
def factoryOf (env : Env) (t : Ty) : String := typename env t

/-- `Renderer.render` without the default handling, /repo/serde/de.py:907-1000, 1034-1254. -/
def deBody (env : Env) (r : DeRec) (cx : DeCx) (a : DeArg) : Res Val :=
  match pickDe cx.des a with
  | some s => match a.data with
    | .ok v => liftP (s.run a.ty v)
    | .error e => .error e
  | Option.none =>
  match a.deser with
  | some (.fn f) => match a.data with
    | .ok v => liftP (f v)
    | .error e => .error e
  | _ =>
  let elem (t : Ty) (nm : String) (x : Res Val) : Res Val :=
    r.render cx { ty := t, name := nm, conv := nm, src := .val x, alias := a.alias, deser := a.deser }
  match a.ty with
  | .gen c args => r.render cx { a with ty := .cls c, tyArgs := some (args.map (tyArgStr env)) }
  | .alias _ t => r.render cx { a with ty := t }
  | .cls c =>
    let var : Res Val :=
      if a.flatten then
        match a.src with
        | .key d => .ok d
        | .idx d i => pySlice d i
        | .val x => x
      else a.data
    match var with
    | .ok d => r.cls cx.named c { mg := cx.mg, mgVars := cx.mgVars, vta := a.tyArgs, reuse := some cx.reuse,
                                  numbers := cx.numbers } d
    | .error e => .error e
  | .union ts =>
    if a.ty.isOpt then
      match ts with
      | t :: _ => match optExists env cx a t with
        | .ok true => r.render cx { a with ty := t, dflt := Option.none, tyArgs := Option.none }
        | .ok false => .ok .none
        | .error e => .error e
      | [] => .error decorErr
    else
      match findUnion env cx.unions (unionFuncName env ts) with
      | Option.none => .error (.py .key)
      | some us => match a.data with
        | .ok d => deUnion env r (cx.inUnion env d) d us
        | .error e => .error e
  | .listB _ => match a.data with
    | .ok d => match pyIter d with
      | .ok xs => .ok (.list xs)
      | .error e => .error e
    | .error e => .error e
  | .list _ t => match a.data with
    | .ok d => match pyIter d with
      | .ok xs => match mapR (fun x => elem t "v" (.ok x)) xs with
        | .ok ys => .ok (.list ys)
        | .error e => .error e
      | .error e => .error e
    | .error e => .error e
  | .setB _ => match a.data with
    | .ok d => match pyIter d with
      | .ok xs => mkSet env.hash false xs
      | .error e => .error e
    | .error e => .error e
  | .set k t => match a.data with
    | .ok d => match pyIter d with
      | .ok xs => match mapR (fun x => elem t "v" (.ok x)) xs with
        | .ok ys => mkSet env.hash (k == .frozen) ys
        | .error e => .error e
      | .error e => .error e
    | .error e => .error e
  | .dequeB => match a.data with
    | .ok d => match pyIter d with
      | .ok xs => .ok (.deque xs)
      | .error e => .error e
    | .error e => .error e
  | .deque t => match a.data with
    | .ok d => match pyIter d with
      | .ok xs => match mapR (fun x => elem t "v" (.ok x)) xs with
        | .ok ys => .ok (.deque ys)
        | .error e => .error e
      | .error e => .error e
    | .error e => .error e
  | .counterB => match a.data with
    | .ok d => pyCounter env d
    | .error e => .error e
  | .counter t => match a.data with
    | .ok d => match pyItems d with
      | .ok kvs =>
        match mapR (fun kv => match elem t "k" (.ok kv.1) with
          | .ok k => .ok (k, kv.2)
          | .error e => .error e) kvs with
        | .ok es => mkDict env.hash .counter es
        | .error e => .error e
      | .error e => .error e
    | .error e => .error e
  | .dictB .deflt => .error decorErr
  | .dictB _ => a.data
  | .dict k kt vt => match a.data with
    | .ok d => match pyItems d with
      | .ok kvs =>
        let key (x : Val) : Res Val := match numKey kt with
          | some p => coerceObj env p x
          | Option.none => elem kt "k" (.ok x)
        match mapR (fun kv => match key kv.1 with
          | .error e => .error e
          | .ok k' => match elem vt "v" (.ok kv.2) with
            | .ok w => .ok (k', w)
            | .error e => .error e) kvs with
        | .ok es => mkDict env.hash (if k == .deflt then .deflt (factoryOf env vt) else .plain) es
        | .error e => .error e
      | .error e => .error e
    | .error e => .error e
  | .tupleB => match a.data with
    | .ok d => match pyIter d with
      | .ok xs => .ok (.tuple xs)
      | .error e => .error e
    | .error e => .error e
  | .tupleV t => match a.data with
    | .ok d => match pyIter d with
      | .ok xs => match mapR (fun x => elem t "v" (.ok x)) xs with
        | .ok ys => .ok (.tuple ys)
        | .error e => .error e
      | .error e => .error e
    | .error e => .error e
  | .tuple [] => .error decorErr
  | .tuple ts =>
    match mapR (fun it => elem it.1 "data[..]" (match a.data with
      | .ok d => pyIndex d it.2
      | .error e => .error e)) ts.zipIdx with
    | .ok ys => .ok (.tuple ys)
    | .error e => .error e
  | .enum e => match primData cx a with
    | .ok d => liftP (deEnum env e d)
    | .error x => .error x
  | .std k => match a.data with
    | .ok d => if cx.reuse && isStdInst env k d then .ok d else stdCall env k d
    | .error e => .error e
  | .dt k => match a.data with
    | .ok d => if cx.reuse && isDtInst k d then .ok d else liftP (env.W.dtParse k d)
    | .error e => .error e
  | .none => .ok .none
  | .any => a.data
  | .prim p => match primData cx a with
    | .error e => .error e
    | .ok d =>
      match p, cx.numbers with
      | .float, some num => liftP (num d)
      | p, _ => if cx.coerce then coerceObj env p d else .ok d
  | .newType _ p => match primData cx a with
    | .error e => .error e
    | .ok d => if cx.coerce then coerceObj env p d else .ok d
  | .tvar x => match cx.tvars with
    | Option.none => .error decorErr
    | some vars => match getGenericArg cx.mg cx.mgVars cx.vta (findGenericArg vars x) with
      | .error e => .error e
      | .ok t => match a.data with
        | .error e => .error e
        | .ok d => r.fromObj a.src.isNamed (some cx.reuse) cx.numbers .external t d
  | .lit vs => match findLit env cx.lits (litFuncName env vs) with
    | Option.none => .error (.py .key)
    | some ls => match a.data with
      | .ok d => deLit ls d
      | .error e => .error e
  | .other _ => .error decorErr

/-- `exists` test of a field with a default, /repo/serde/de.py:1256-1280. -/
def dfltExists (env : Env) (a : DeArg) (d : Val) : Res Bool :=
  if a.flatten then
    match a.ty with
    | .cls c => match env.cls c with
      | some cd => match cd.fields with
        | [] => .error decorErr
        | fs => match mapR (fun f => match f.alias with
            | [] => pyIn f.name d
            | al => existsByAliases d (f.name :: al)) fs with
          | .ok bs => .ok (bs.all id)
          | .error e => .error e
      | Option.none => .error decorErr
    | _ => .error decorErr
  else match a.alias with
    | [] => pyIn a.conv d
    | al => existsByAliases d (a.name :: al)

/-- `Renderer.render`, /repo/serde/de.py:907-1011: the default is used exactly when the key is absent. -/
def deRenderF (env : Env) (r : DeRec) (cx : DeCx) (a : DeArg) : Res Val :=
  match a.dflt, a.src with
  | some dv, .key d => match dfltExists env a d with
    | .ok true => deBody env r cx a
    | .ok false => .ok dv
    | .error e => .error e
  | _, _ => deBody env r cx a

/-- `except KeyError: raise SerdeError("missing required field ...")`, /repo/serde/de.py:1400-1407. -/
def catchKey {α : Type} (conv : String) : Res α → Res α
  | .error (.py .key) => .error (.missing conv)
  | r => r

/-- `data or {}` and its entries, /repo/serde/de.py:1371, 1381. -/
def orEmptyItems (env : Env) (data : Val) : Res (List (Val × Val)) :=
  if truthy env data then pyItems data else .ok []

/-- `k in known_fields` for a set of names. -/
def keyKnown (known : List String) (k : Val) : Bool := known.any (fun s => pyEq k (.str s))

/-- Context of the generated functions of class `c`. /repo/serde/de.py:300-344, 1364-1377. -/
def clsDeCx (env : Env) (c : ClassId) (cd : ClassDef) (named : Bool) (o : DeCall) (data : Val) : DeCx :=
  { named := named, data := data, reuse := o.reuse.getD cd.reuseDflt, numbers := o.numbers, mg := o.mg,
    mgVars := match o.mgVars with
      | some [] => cd.tvars
      | some vs => some vs
      | Option.none => cd.tvars,
    vta := o.vta, coerce := cd.typeCheck == .coerce, unions := env.unionsOf c, lits := env.litsOf c,
    tagging := cd.tagging, des := env.gde ++ cd.classDe.toList, tvars := cd.tvars }

/-- One field of the `dict` template, /repo/serde/de.py:1384-1409. `extra` are the entries captured by a flattened dict. -/
def deField (env : Env) (r : DeRec) (cx : DeCx) (c : ClassId) (cd : ClassDef) (extra : List (Val × Val)) (data : Val)
    (f : FieldDef) : Res Val :=
  if f.flatDict then .ok (.dict .plain extra) else
  let var : Res Val := match f.flatChild with
    | some ch => project env data (env.known ch) (env.known c) (env.flatDict ch) cd.hasFlatDict
    | Option.none => .ok data
  match var with
  | .error e => .error e
  | .ok d =>
    let a : DeArg := { ty := f.ty, name := f.name, conv := f.conv cd.deCase, src := .key d, alias := f.alias,
                       deser := f.deserializer, flatten := f.flatten, dflt := f.dflt }
    match f.dflt with
    | some _ => r.render cx a
    | Option.none => catchKey (f.conv cd.deCase) (r.render cx a)

/-- `force_kw`, /repo/serde/de.py:1618-1624: every field from the first non-renderable one on is passed by keyword. -/
def forceKw : Bool → List FieldDef → List (FieldDef × Bool)
  | _, [] => []
  | kw, f :: fs =>
    let kw' := kw || !f.renderable
    (f, kw' || f.kwOnly) :: forceKw kw' fs

/-- The argument list `__a, __b, c=__c`; a positional argument after a keyword argument is a syntax error. -/
def splitArgs : List (FieldDef × Bool) → List Val → Res (List Val × List (String × Val))
  | [], _ => .ok ([], [])
  | _, [] => .ok ([], [])
  | (f, kw) :: fs, v :: vs => match splitArgs fs vs with
    | .error e => .error e
    | .ok (ps, ks) =>
      if kw then (if ps.isEmpty then .ok ([], (f.name, v) :: ks) else .error decorErr)
      else .ok (v :: ps, ks)

/-- The unknown-key test of the `dict` template, /repo/serde/de.py:1369-1377. -/
def deUnknown (env : Env) (c : ClassId) (cd : ClassDef) (data : Val) : Res Bool :=
  if cd.denyUnknown && !cd.hasFlatDict then
    match orEmptyItems env data with
    | .ok kvs => .ok (kvs.any (fun kv => !keyKnown (env.known c) kv.1))
    | .error e => .error e
  else .ok false

/-- The entries captured by a flattened dict, /repo/serde/de.py:1379-1382. -/
def deExtra (env : Env) (c : ClassId) (cd : ClassDef) (data : Val) : Res (List (Val × Val)) :=
  if cd.hasFlatDict then
    match orEmptyItems env data with
    | .ok kvs => .ok (kvs.filter (fun kv => !keyKnown (env.known c) kv.1))
    | .error e => .error e
  else .ok []

/-- Constructor arguments in the `dict` template, /repo/serde/de.py:1379-1420. -/
def deNamedArgs (env : Env) (r : DeRec) (cx : DeCx) (c : ClassId) (cd : ClassDef) (data : Val) :
    Res (List Val × List (String × Val)) :=
  match deExtra env c cd data with
  | .error e => .error e
  | .ok ex => match mapR (deField env r cx c cd ex data) (cd.fields.filter (·.renderable)) with
    | .error e => .error e
    | .ok vs => splitArgs ((forceKw false cd.fields).filter (fun p => p.1.renderable)) vs

/-- Constructor arguments in the `iter` template, all positional, /repo/serde/de.py:1315-1336, 1499-1530. -/
def deTupleArgs (r : DeRec) (cx : DeCx) (cd : ClassDef) (data : Val) : Res (List Val) :=
  mapR (fun (fi : FieldDef × Nat) => r.render cx
      { ty := fi.1.ty, name := fi.1.name, conv := fi.1.name, src := .idx data fi.2, alias := fi.1.alias,
        deser := fi.1.deserializer, flatten := fi.1.flatten })
    (cd.fields.filter (·.renderable)).zipIdx

/-- The single field of a transparent class reads the whole input, /repo/serde/de.py:1315-1326, 1345-1361. -/
def transpArg (named : Bool) (f : FieldDef) (data : Val) : DeArg :=
  { ty := f.ty, name := f.name, conv := "__serde_transparent__",
    src := if named then .key (.dict .plain [(.str "__serde_transparent__", data)]) else .idx (.tuple [data]) 0,
    deser := f.deserializer, flatten := f.flatten, dflt := f.dflt }

/-- Is the single field of a transparent class passed by keyword? /repo/serde/de.py:1327-1336, 1412-1420. -/
def transpKw (named : Bool) (cd : ClassDef) (f : FieldDef) : Bool :=
  f.kwOnly || (named && ((forceKw false cd.fields).any (fun p => p.1.name == f.name && p.2)))

/-- Arguments with which a generated `from_dict` / `from_iter` calls the constructor, /repo/serde/de.py:1315-1450. -/
def deArgs (env : Env) (r : DeRec) (named : Bool) (c : ClassId) (cd : ClassDef) (o : DeCall) (data : Val) :
    Res (List Val × List (String × Val)) :=
  let cx := clsDeCx env c cd named o data
  if cd.transparent then
    match cd.fields.filter (·.renderable) with
    | [] => .error decorErr
    | f :: _ => match r.render cx (transpArg named f data) with
      | .error e => .error e
      | .ok v => if transpKw named cd f then .ok ([], [(f.name, v)]) else .ok ([v], [])
  else if named then
    match deUnknown env c cd data with
    | .error e => .error e
    | .ok true => .error (.serde "unknown")
    | .ok false => deNamedArgs env r cx c cd data
  else match deTupleArgs r cx cd data with
    | .error e => .error e
    | .ok vs => .ok (vs, [])

/-- Generated `from_dict` / `from_iter` of class `c`, /repo/serde/de.py:1315-1450: compute the arguments, call the constructor. -/
def deClsF (env : Env) (r : DeRec) (named : Bool) (c : ClassId) (o : DeCall) (data : Val) : Res Val :=
  match env.cls c with
  | Option.none => .error (.py .attr)
  | some cd => match deArgs env r named c cd o data with
    | .error e => .error e
    | .ok (pos, kw) => construct env c cd pos kw

/-- `except UserError as e: raise e.inner` / `except Exception as e: raise SerdeError(e)`, /repo/serde/de.py:630-634. -/
def wrapUser {α : Type} : Res α → Res α
  | .ok a => .ok a
  | .error .fuel => .error .fuel
  | .error (.user e) => .error e
  | .error e => .error (.wrap e)

/-- `CACHE.deserialize_union`, /repo/serde/core.py:213-231: the wrapper's union function with its default `reuse_instances`
(True). Errors are not wrapped. -/
def cacheDeUnion (env : Env) (r : DeRec) (ts : List Ty) (tagging : Tagging) (numbers : Option (Val → Except PErr Val))
    (data : Val) : Res Val :=
  match findUnion env (env.unionsOfTy (.union ts)) (unionFuncName env ts) with
  | some us =>
    let cx : DeCx := { named := true, data := data, reuse := true, numbers := numbers, mg := Option.none, mgVars := Option.none,
                       vta := Option.none, coerce := false, unions := env.unionsOfTy (.union ts),
                       lits := env.litsOfTy (.union ts), tagging := tagging, des := env.gde, tvars := Option.none }
    deUnion env r cx data us
  | Option.none => .error (.py .key)

/-- `maybe_generic` as passed on by `from_obj`. It is only ever consulted by `get_generic_arg`, which ignores anything but a
subscripted generic (/repo/serde/compat.py:1153), so other annotations are dropped here. /repo/serde/de.py:541-549. -/
def keepGen : Ty → Option Ty
  | .gen c args => some (.gen c args)
  | _ => Option.none

/-- The body of `from_obj` inside its `try`, /repo/serde/de.py:549-628; `c` is not a union (except Optional). `mg` is the
annotation before a subscripted generic is replaced by its origin. -/
def fromObjBody (env : Env) (r : DeRec) (named : Bool) (reuse : Option Bool) (numbers : Option (Val → Except PErr Val))
    (mg : Ty) (c : Ty) (o : Val) : Res Val :=
  let this (t : Ty) (x : Val) : Res Val := r.fromObj named reuse numbers .external t x
  match env.gde.find? (fun s => s.handles c) with
  | some s => liftP (s.run c o)
  | Option.none =>
  match c with
  | .cls k => r.cls named k { mg := keepGen mg, reuse := reuse, numbers := numbers } o
  | .union ts => match ts, o with
    | t :: _, o => match o with
      | .none => .ok .none
      | o => this t o
    | [], _ => .error (.py .type)
  | .listB _ => match pyIter o with
    | .ok xs => .ok (.list xs)
    | .error e => .error e
  | .list _ t => match pyIter o with
    | .ok xs => match mapR (this t) xs with
      | .ok ys => .ok (.list ys)
      | .error e => .error e
    | .error e => .error e
  | .setB _ => match pyIter o with
    | .ok xs => mkSet env.hash false xs
    | .error e => .error e
  | .set k t => match pyIter o with
    | .ok xs => match mapR (this t) xs with
      | .ok ys => mkSet env.hash (k == .frozen) ys
      | .error e => .error e
    | .error e => .error e
  | .dequeB => match pyIter o with
    | .ok xs => .ok (.deque xs)
    | .error e => .error e
  | .deque t => match pyIter o with
    | .ok xs => match mapR (this t) xs with
      | .ok ys => .ok (.deque ys)
      | .error e => .error e
    | .error e => .error e
  | .counterB => pyCounter env o
  | .counter t => match pyItems o with
    | .ok kvs =>
      match mapR (fun kv => match this t kv.1 with
        | .ok k => .ok (k, kv.2)
        | .error e => .error e) kvs with
      | .ok es => mkDict env.hash .counter es
      | .error e => .error e
    | .error e => .error e
  | .tupleB => match pyIter o with
    | .ok xs => .ok (.tuple xs)
    | .error e => .error e
  | .tupleV _ => match pyIter o with
    | .ok xs => .ok (.tuple xs)
    | .error e => .error e
  | .tuple ts => match pyIter o with
    | .ok xs =>
      match mapR (fun xi => match ts[xi.2]? with
        | some t => this t xi.1
        | Option.none => .error (.py .index)) xs.zipIdx with
      | .ok ys => .ok (.tuple ys)
      | .error e => .error e
    | .error e => .error e
  | .dictB .deflt => .error (.py .index)
  | .dictB _ => .ok o
  | .dict k kt vt => match pyItems o with
    | .ok kvs =>
      match mapR (fun kv => match this kt kv.1 with
        | .error e => .error e
        | .ok k' => match this vt kv.2 with
          | .ok w => .ok (k', w)
          | .error e => .error e) kvs with
      | .ok es => mkDict env.hash (if k == .deflt then .deflt (factoryOf env vt) else .plain) es
      | .error e => .error e
    | .error e => .error e
  | .dt k => liftP (env.W.dtParse k o)
  | .prim .float => match numbers with
    | some num => liftP (num o)
    | Option.none => liftP (primCall env .float o)
  | .prim p => liftP (primCall env p o)
  | .newType _ _ => .ok o
  | .any => .ok o
  | .enum e => match env.enm e with
    | some d => liftP (enumCall d e o)
    | Option.none => .error (.py .attr)
  | .std k => stdCall env k o
  | .none => .error (.py .type)
  | .lit _ => .error (.py .type)
  | .tvar _ => .error (.py .type)
  | .alias _ _ => .error (.py .type)
  | .gen _ _ => .error (.py .type)
  | .other _ => .error (.py .type)

/-- `from_obj`, /repo/serde/de.py:495-634. Simplified: undecorated dataclasses are looked up in the class table like decorated ones. -/
def fromObjF (env : Env) (r : DeRec) (named : Bool) (reuse : Option Bool) (numbers : Option (Val → Except PErr Val))
    (tagging : Tagging) (c : Ty) (o : Val) : Res Val :=
  let c := match c with
    | .alias _ t => t
    | c => c
  if typeIs o c then .ok o else
  match c with
  | .gen k args => wrapUser (fromObjBody env r named reuse numbers (.gen k args) (.cls k) o)
  | .union ts =>
    if (Ty.union ts).isOpt then wrapUser (fromObjBody env r named reuse numbers (.union ts) (.union ts) o)
    else cacheDeUnion env r ts tagging numbers o
  | c => wrapUser (fromObjBody env r named reuse numbers c c o)

/-- Tie the knot: the deserialization functions with `n` units of fuel (nesting depth of calls). -/
def deAt (env : Env) : Nat → DeRec
  | 0 => { render := fun _ _ => .error .fuel, cls := fun _ _ _ _ => .error .fuel, fromObj := fun _ _ _ _ _ _ => .error .fuel }
  | n + 1 => { render := deRenderF env (deAt env n), cls := deClsF env (deAt env n), fromObj := fromObjF env (deAt env n) }

/-- Options of `from_dict`/`from_tuple`, /repo/serde/de.py:637-745. `tagging` is the tagging given together with a union, as in
`from_dict(InternalTagging("t", Union[A, B]), ...)`. -/
structure DeOpts where
  reuse : Option Bool := Option.none
  numbers : Option (Val → Except PErr Val) := Option.none
  tagging : Tagging := .external

/-- `from_dict(c, o, ...)`, /repo/serde/de.py:655-691. -/
def fromDict (env : Env) (o : DeOpts) (n : Nat) (c : Ty) (d : Val) : Res Val :=
  (deAt env n).fromObj true o.reuse o.numbers o.tagging c d

/-- `from_tuple(c, o, ...)`, /repo/serde/de.py:710-745. -/
def fromTuple (env : Env) (o : DeOpts) (n : Nat) (c : Ty) (d : Val) : Res Val :=
  (deAt env n).fromObj false o.reuse o.numbers o.tagging c d

end Verif
