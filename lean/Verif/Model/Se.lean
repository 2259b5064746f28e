import Verif.Model.Core
/-!
# se.py: serialization

Generated functions are modelled by what they compute.  All recursion goes through a record `SeRec` of "the same
functions with one unit less fuel"; `seAt env n` ties the knot.
-/

namespace Verif

/-- What is fixed while one generated serialize function runs: which function (`to_dict`/`to_iter`), its options, the
scope's union functions and tagging, whether coercion is rendered, and the class serializers in scope.
/repo/serde/se.py:256-316, 898-910. -/
structure SeCx where
  named : Bool
  reuse : Bool
  conv : Bool
  skipNone : Bool
  coerce : Bool
  unions : List (List Ty)
  tagging : Tagging
  sers : List ClsSer

/-- `SeField` as seen by the renderer: annotation, `serializer=`, `flatten`, and the value of `arg.varname`.
/repo/serde/se.py:570-607. -/
structure SeArg where
  ty : Ty
  ser : Option SerFn := Option.none
  flatten : Bool := false
  v : Res Val

/-- The recursive entry points. -/
structure SeRec where
  render : SeCx → SeArg → Res Val
  flat : SeCx → SeArg → Res (List Val)
  cls : Bool → Option Bool → Option Bool → Bool → Val → Res Val
  toObj : Bool → Option Bool → Option Bool → Bool → Option Ty → Tagging → Val → Res Val

/-- `type(o)` as an annotation, for `find_global_class_serializer(type(o))`, /repo/serde/se.py:428. -/
def typeOf : Val → Ty
  | .none => .none
  | .bool _ => .prim .bool
  | .int _ => .prim .int
  | .float _ => .prim .float
  | .str _ => .prim .str
  | .list _ => .listB .list
  | .tuple _ => .tupleB
  | .deque _ => .dequeB
  | .set false _ => .setB .set
  | .set true _ => .setB .frozen
  | .dict .plain _ => .dictB .dict
  | .dict (.deflt _) _ => .dictB .deflt
  | .dict .counter _ => .counterB
  | .enum e _ => .enum e
  | .std k _ => .std k
  | .dt k _ => .dt k
  | .inst c _ => .cls c

/-- Serializer chosen when rendering a field: the *last* one registered for exactly this annotation, unless the field has a
`serializer=`. /repo/serde/se.py:916-926. -/
def pickSer (sers : List ClsSer) (a : SeArg) : Option ClsSer :=
  match a.ser with
  | some _ => Option.none
  | Option.none => sers.reverse.find? (fun s => s.handles a.ty)

/-- Union table of an annotation, `iter_unions` on a wrapper class, /repo/serde/core.py:174-188, /repo/serde/compat.py:408-450. -/
def Env.unionsOfTy (env : Env) (t : Ty) : List (List Ty) := unionsIn (unionsCls env (env.classes.length + 1) []) t

/-- Literal table of an annotation, /repo/serde/compat.py:453-494. -/
def Env.litsOfTy (env : Env) (t : Ty) : List (List Val) := litsIn (litsCls env (env.classes.length + 1) []) t

/-- `obj.name`. -/
def getAttr (obj : Val) (name : String) : Res Val :=
  match obj with
  | .inst _ attrs => match attrs.lookup name with
    | some v => .ok v
    | Option.none => .error (.py .attr)
  | _ => .error (.py .attr)

/-- Several comma-separated expressions as one value: none is a syntax error, one is itself, more are a tuple.
/repo/serde/se.py:664, 1015-1020. -/
def joinVals : List Val → Res Val
  | [] => .error decorErr
  | [v] => .ok v
  | vs => .ok (.tuple vs)

/-- One element of a possibly flattened child's argument list, /repo/serde/se.py:1014-1019. -/
def seFieldArg (f : FieldDef) (obj : Res Val) : SeArg :=
  { ty := f.ty, ser := f.serializer, flatten := f.flatten,
    v := match obj with
      | .ok o => getAttr o f.name
      | .error e => .error e }

/-- The context in which union functions run: always `to_dict`, no coercion, only global class serializers.
/repo/serde/se.py:842-860. -/
def SeCx.inUnion (cx : SeCx) (env : Env) : SeCx := { cx with named := true, coerce := false, sers := env.gser }

/-- A generated union serialize function, /repo/serde/se.py:732-759: the first member `is_instance` accepts. -/
def seUnion (env : Env) (r : SeRec) (cx : SeCx) (v : Val) : List Ty → Res Val
  | [] => .error (.serde "union")
  | t :: ts =>
    if isInst env t v then
      match r.render cx { ty := t, v := .ok v } with
      | .error e => .error e
      | .ok res =>
        if t.isCls then
          match cx.tagging with
          | .external => .ok (.dict .plain [(.str (typename env t), res)])
          | .internal tag => pySetItem res tag (.str (typename env t))
          | .adjacent tag content => pySetItem (.dict .plain [(.str content, res)]) tag (.str (typename env t))
          | .untagged => .ok res
        else .ok res
    else seUnion env r cx v ts

/-- `Renderer.render`, /repo/serde/se.py:912-1144, for an argument that is not spliced by `flatten`. -/
def renderF (env : Env) (r : SeRec) (cx : SeCx) (a : SeArg) : Res Val :=
  match pickSer cx.sers a with
  | some s => match a.v with
    | .ok v => liftP (s.run v)
    | .error e => .error e
  | Option.none =>
  match a.ser with
  | some (.fn f) => match a.v with
    | .ok v => liftP (f v)
    | .error e => .error e
  | _ =>
  match a.ty with
  | .none => .ok .none
  | .alias _ t => r.render cx { a with ty := t }
  | .gen c _ => r.render cx { a with ty := .cls c }
  | .dictB .deflt => .error decorErr
  | .tuple [] => .error decorErr
  | .other _ => .error decorErr
  | ty =>
  match a.v with
  | .error e => .error e
  | .ok v =>
  let elem (t : Ty) (x : Val) : Res Val := r.render cx { ty := t, ser := a.ser, v := .ok x }
  match ty with
  | .cls _ => r.cls cx.named (some cx.reuse) (some cx.conv) cx.skipNone v
  | .union ts =>
    if ty.isOpt then
      match v with
      | .none => .ok .none
      | v => match ts with
        | t :: _ => elem t v
        | [] => .error decorErr
    else
      match findUnion env cx.unions (unionFuncName env ts) with
      | some us => seUnion env r (cx.inUnion env) v us
      | Option.none => .error (.py .key)
  | .listB .list => .ok v
  | .listB _ => match pyIter v with
    | .ok xs => .ok (.list xs)
    | .error e => .error e
  | .list _ t => match pyIter v with
    | .error e => .error e
    | .ok xs => match mapR (elem t) xs with
      | .ok ys => .ok (.list ys)
      | .error e => .error e
  | .setB _ =>
    if cx.conv then
      match pyIter v with
      | .ok xs => .ok (.list xs)
      | .error e => .error e
    else .ok v
  | .set _ t => match pyIter v with
    | .error e => .error e
    | .ok xs => match mapR (elem t) xs with
      | .ok ys => if cx.conv then .ok (.list ys) else mkSet env.hash false ys
      | .error e => .error e
  | .dequeB => match pyIter v with
    | .ok xs => .ok (.list xs)
    | .error e => .error e
  | .deque t => match pyIter v with
    | .error e => .error e
    | .ok xs => match mapR (elem t) xs with
      | .ok ys => .ok (.list ys)
      | .error e => .error e
  | .counterB => match v with
    | .dict _ kvs => .ok (.dict .plain kvs)
    | _ => .error (.py .type)
  | .counter t => match pyItems v with
    | .error e => .error e
    | .ok kvs =>
      match mapR (fun kv => match elem t kv.1 with
        | .ok k => .ok (k, kv.2)
        | .error e => .error e) kvs with
      | .ok es => mkDict env.hash .plain es
      | .error e => .error e
  | .dictB _ => .ok v
  | .dict _ kt vt => match pyItems v with
    | .error e => .error e
    | .ok kvs =>
      match mapR (fun kv => match elem kt kv.1 with
        | .error e => .error e
        | .ok k => match elem vt kv.2 with
          | .ok w => .ok (k, w)
          | .error e => .error e) kvs with
      | .ok es => mkDict env.hash .plain es
      | .error e => .error e
  | .tupleB => .ok v
  | .tupleV t => match pyIter v with
    | .error e => .error e
    | .ok xs => match mapR (elem t) xs with
      | .ok ys => .ok (.tuple ys)
      | .error e => .error e
  | .tuple ts =>
    match mapR (fun it => r.render cx { ty := it.1, ser := a.ser, v := pyIndex v it.2 }) ts.zipIdx with
    | .ok ys => .ok (.tuple ys)
    | .error e => .error e
  | .enum e => liftP (enumValue env e (env.enums.length + 1) v)
  | .prim p => if cx.coerce then coerceObj env p v else .ok v
  | .newType _ p => if cx.coerce then coerceObj env p v else .ok v
  | .std _ => if cx.reuse then .ok v else .ok (.str (pyStr env.W v))
  | .dt _ =>
    if cx.reuse then .ok v
    else match v with
      | .dt _ s => .ok (.str s)
      | _ => .error (.py .attr)
  | .any => r.toObj true (some false) (some false) cx.skipNone (some .any) .external v
  | .tvar _ => r.toObj true (some false) (some false) cx.skipNone (some .any) .external v
  | .lit _ => .ok v
  | _ => .error decorErr

/-- The expressions a field contributes: one, except that a flattened dataclass (or Optional of one) contributes those of
its own fields, all of them, rendered by the enclosing class. /repo/serde/se.py:1008-1025, 1034-1039. -/
def flatF (env : Env) (r : SeRec) (cx : SeCx) (a : SeArg) : Res (List Val) :=
  let single : Res (List Val) := match r.render cx a with
    | .ok v => .ok [v]
    | .error e => .error e
  if (pickSer cx.sers a).isSome then single else
  match a.ser with
  | some (.fn _) => single
  | _ =>
    if a.flatten then
      match a.ty with
      | .cls c => match env.cls c with
        | some cd => concatR (fun f => r.flat cx (seFieldArg f a.v)) cd.fields
        | Option.none => .error decorErr
      | .union [t, .none] => r.flat cx { a with ty := t }
      | _ => single
    else single

/-- Assignment target of a field in `to_dict`: a key of the result, or the flatten-dict marker. -/
inductive LV where
  | key (k : String)
  | mark
deriving DecidableEq

/-- `LRenderer.render`/`flatten`, /repo/serde/se.py:871-895: the *enclosing* class's case is used for the children's names.
`n` bounds the nesting of flattened classes. -/
def lvals (env : Env) (case : Option (String → String)) : Nat → FieldDef → List LV
  | 0, _ => []
  | n + 1, f =>
    match f.flatChild with
    | some c => match env.cls c with
      | some cd => cd.fields.flatMap (lvals env case n)
      | Option.none => []
    | Option.none => if f.flatDict then [.mark] else [.key (f.conv case)]

/-- Merge a flattened dict: existing keys win. /repo/serde/se.py:666-670. -/
def mergeDict (res : List (Val × Val)) : List (Val × Val) → List (Val × Val)
  | [] => res
  | (k, v) :: r => mergeDict (if (getVal k res).isSome then res else dictSet k v res) r

/-- Assign unpacked values to targets; inside a tuple target the marker is just a local variable. -/
def assignAll (res : List (Val × Val)) : List LV → List Val → List (Val × Val)
  | .key k :: ls, v :: vs => assignAll (dictSet (.str k) v res) ls vs
  | .mark :: ls, _ :: vs => assignAll res ls vs
  | _, _ => res

/-- `{{lvalue(f)}} = subres`, /repo/serde/se.py:673-680. -/
def assign (res : List (Val × Val)) (lvs : List LV) (sub : Val) : Res (List (Val × Val)) :=
  match lvs with
  | [] => .error decorErr
  | [.key k] => .ok (dictSet (.str k) sub res)
  | lvs => match pyIter sub with
    | .error e => .error e
    | .ok vs => if vs.length == lvs.length then .ok (assignAll res lvs vs) else .error (.py .value)

/-- Whether `to_dict` leaves the field out, given its serialized value: a field with any skip rule consults only that rule,
other fields consult `skip_none`. /repo/serde/se.py:671-680, /repo/serde/core.py:562-586. -/
def skips (env : Env) (r : SeRec) (cx : SeCx) (rule : SkipRule) (sub : Val) : Res Bool :=
  match rule with
  | .user p => liftP (p sub)
  | .ifFalse => .ok (!truthy env sub)
  | .ifNone => match sub with
    | .none => .ok true
    | _ => .ok false
  | .ifDefault Option.none => .ok false
  | .ifDefault (some d) => match d with
    | .inst _ _ => match r.toObj true Option.none Option.none false Option.none .external d with
      | .ok s => .ok (pyEq sub s)
      | .error .fuel => .error .fuel
      | .error _ => .ok (pyEq sub (asdict d))
    | d => .ok (pyEq sub d)
  | .never => match sub with
    | .none => .ok cx.skipNone
    | _ => .ok false

/-- One field of the `dict` template, /repo/serde/se.py:661-681. -/
def seField (env : Env) (r : SeRec) (cx : SeCx) (cd : ClassDef) (obj : Val) (res : List (Val × Val)) (f : FieldDef) :
    Res (List (Val × Val)) :=
  match r.flat cx (seFieldArg f (.ok obj)) with
  | .error e => .error e
  | .ok vs => match joinVals vs with
    | .error e => .error e
    | .ok sub =>
      match lvals env cd.seCase (env.classes.length + 1) f with
      | [.mark] =>
        if truthy env sub then
          match pyItems sub with
          | .ok kvs => .ok (mergeDict res kvs)
          | .error e => .error e
        else .ok res
      | lvs => match skips env r cx (f.skipRule cd) sub with
        | .error e => .error e
        | .ok true => .ok res
        | .ok false => assign res lvs sub

/-- All fields of the `dict` template in order. -/
def seFields (env : Env) (r : SeRec) (cx : SeCx) (cd : ClassDef) (obj : Val) :
    List (Val × Val) → List FieldDef → Res (List (Val × Val))
  | res, [] => .ok res
  | res, f :: fs => match seField env r cx cd obj res f with
    | .error e => .error e
    | .ok res' => seFields env r cx cd obj res' fs

/-- Fields a serialize function looks at, /repo/serde/se.py:662, 711, 785. -/
def ClassDef.seFieldsOf (cd : ClassDef) : List FieldDef := cd.fields.filter (fun f => !(f.skip || f.skipSer))

/-- Context of the generated functions of class `c`. /repo/serde/se.py:652-658, 765-839. -/
def clsSeCx (env : Env) (c : ClassId) (cd : ClassDef) (named : Bool) (reuse conv : Option Bool) (skipNone : Bool) : SeCx :=
  { named := named, reuse := reuse.getD cd.reuseDflt, conv := conv.getD cd.convDflt, skipNone := skipNone,
    coerce := cd.typeCheck == .coerce, unions := env.unionsOf c, tagging := cd.tagging,
    sers := env.gser ++ cd.classSer.toList }

/-- `obj.__serde__.funcs['to_dict' | 'to_iter'](obj, ...)`, /repo/serde/se.py:652-731: the functions of the *run-time* class. -/
def clsF (env : Env) (r : SeRec) (named : Bool) (reuse conv : Option Bool) (skipNone : Bool) (v : Val) : Res Val :=
  match v with
  | .inst c _ => match env.cls c with
    | Option.none => .error (.py .attr)
    | some cd =>
      let cx := clsSeCx env c cd named reuse conv skipNone
      if cd.transparent then
        match cd.seFieldsOf with
        | [] => .error decorErr
        | f :: _ => match r.flat cx (seFieldArg f (.ok v)) with
          | .ok vs => joinVals vs
          | .error e => .error e
      else if named then
        match seFields env r cx cd v [] cd.seFieldsOf with
        | .ok res => .ok (.dict .plain res)
        | .error e => .error e
      else
        match concatR (fun f => r.flat cx (seFieldArg f (.ok v))) cd.seFieldsOf with
        | .ok vs => .ok (.tuple vs)
        | .error e => .error e
  | _ => .error (.py .attr)

/-- `except Exception as e: raise SerdeError(e)`, /repo/serde/se.py:465-466. -/
def wrapAll {α : Type} : Res α → Res α
  | .ok a => .ok a
  | .error .fuel => .error .fuel
  | .error e => .error (.wrap e)

/-- `Cache.serialize`, /repo/serde/core.py:155-166: the value as the single field `v` of a wrapper class. -/
def cacheSe (env : Env) (r : SeRec) (t : Ty) (reuse conv : Option Bool) (skipNone : Bool) (v : Val) : Res Val :=
  if bearable env t v then
    let cx : SeCx := { named := true, reuse := reuse.getD true, conv := conv.getD false, skipNone := skipNone, coerce := false,
                       unions := env.unionsOfTy t, tagging := .external, sers := env.gser }
    match r.render cx { ty := t, v := .ok v } with
    | .error e => .error e
    | .ok .none => if skipNone then .error (.py .key) else .ok .none
    | .ok w => .ok w
  else .error (.serde "type")

/-- `CACHE.serialize_union(c, o)`, /repo/serde/core.py:203-211: the wrapper's union function with `reuse_instances=False`,
`convert_sets=False`, `skip_none=False`. The wrapper is taken to be freshly generated (see `Model/Cache.lean` for the memo). -/
def cacheSeUnion (env : Env) (r : SeRec) (ts : List Ty) (tagging : Tagging) (v : Val) : Res Val :=
  match findUnion env (env.unionsOfTy (.union ts)) (unionFuncName env ts) with
  | some us =>
    let cx : SeCx := { named := true, reuse := false, conv := false, skipNone := false, coerce := false,
                       unions := env.unionsOfTy (.union ts), tagging := tagging, sers := env.gser }
    seUnion env r cx v us
  | Option.none => .error (.py .key)

/-- The body of `to_obj` inside its `try`, /repo/serde/se.py:407-463. `c` is already unwrapped from a PEP 695 alias.
Simplified: undecorated dataclasses are looked up in the class table like decorated ones. -/
def toObjBody (env : Env) (r : SeRec) (named : Bool) (reuse conv : Option Bool) (skipNone : Bool) (c : Option Ty)
    (tagging : Tagging) (o : Val) : Res Val :=
  let this (x : Val) : Res Val := r.toObj named reuse conv skipNone Option.none .external x
  let plain : Res Val :=
    match o with
    | .none => .ok .none
    | o =>
    match env.gser.find? (fun s => s.handles (typeOf o)) with
    | some s => liftP (s.run o)
    | Option.none =>
    match o with
    | .inst _ _ => r.cls named reuse conv skipNone o
    | .list xs => match mapR this xs with
      | .ok ys => .ok (.list ys)
      | .error e => .error e
    | .tuple xs => match mapR this xs with
      | .ok ys => .ok (.tuple ys)
      | .error e => .error e
    | .dict _ kvs =>
      match mapR (fun kv => match this kv.2 with
        | .ok w => .ok (kv.1, w)
        | .error e => .error e) kvs with
      | .ok es => .ok (.dict .plain es)
      | .error e => .error e
    | .set _ xs => match mapR this xs with
      | .ok ys => .ok (.list ys)
      | .error e => .error e
    | .deque xs => match mapR this xs with
      | .ok ys => .ok (.list ys)
      | .error e => .error e
    | .std k s => cacheSe env r (match c with
        | some t => if t.isAny then .std k else t
        | Option.none => .std k) reuse conv skipNone (.std k s)
    | .dt k s => cacheSe env r (match c with
        | some t => if t.isAny then .dt k else t
        | Option.none => .dt k) reuse conv skipNone (.dt k s)
    | o => .ok o
  match c with
  | some (.union ts) => if (Ty.union ts).isOpt then plain else cacheSeUnion env r ts tagging o
  | _ => plain

/-- `to_obj`, /repo/serde/se.py:390-466. -/
def toObjF (env : Env) (r : SeRec) (named : Bool) (reuse conv : Option Bool) (skipNone : Bool) (c : Option Ty)
    (tagging : Tagging) (o : Val) : Res Val :=
  wrapAll (toObjBody env r named reuse conv skipNone
    (match c with
      | some (.alias _ t) => some t
      | c => c) tagging o)

/-- Tie the knot: the serialization functions with `n` units of fuel (nesting depth of calls). -/
def seAt (env : Env) : Nat → SeRec
  | 0 => { render := fun _ _ => .error .fuel, flat := fun _ _ => .error .fuel,
           cls := fun _ _ _ _ _ => .error .fuel, toObj := fun _ _ _ _ _ _ _ => .error .fuel }
  | n + 1 => { render := renderF env (seAt env n), flat := flatF env (seAt env n),
               cls := clsF env (seAt env n), toObj := toObjF env (seAt env n) }

/-- Options of `to_dict`/`to_tuple`, /repo/serde/se.py:477-484, 522-529. -/
structure SeOpts where
  reuse : Option Bool := Option.none
  conv : Option Bool := Option.none
  skipNone : Bool := false
  c : Option Ty := Option.none
  tagging : Tagging := .external

/-- `to_dict(o, c, ...)`, /repo/serde/se.py:522-571. -/
def toDict (env : Env) (o : SeOpts) (n : Nat) (v : Val) : Res Val :=
  (seAt env n).toObj true o.reuse o.conv o.skipNone o.c o.tagging v

/-- `to_tuple(o, c, ...)`, /repo/serde/se.py:476-512. -/
def toTuple (env : Env) (o : SeOpts) (n : Nat) (v : Val) : Res Val :=
  (seAt env n).toObj false o.reuse o.conv o.skipNone o.c o.tagging v

end Verif
