import Verif.Model.De
/-!
# Class-level `serializer=` / `deserializer=` functions

`@serde(serializer=f, deserializer=g)` passes plain functions of a type and a value; they may raise `SerdeSkip`.
Generated code calls them around what the renderer would produce otherwise.  The layer below adds them to the
functions of `Model/Se.lean` and `Model/De.lean`; with no such functions it computes the same (`Lemmas/Legacy.lean`).
-/

namespace Verif

/-- `f(cls, obj)`: `none` is `raise SerdeSkip()`. The generated code writes the type as the text `typename(arg.type)`, so the
function can only depend on that text. /repo/serde/se.py:120-121, 991-997, /repo/serde/de.py:121-142, 1022-1031.
Simplified: the text is taken to evaluate to a type (its names are collected by `iter_types`). -/
abbrev LegFn := String → Val → Option (Except PErr Val)

/-- Which classes were decorated with `serializer=` / `deserializer=`. /repo/serde/se.py:186-197, 285-288,
/repo/serde/de.py:208-219, 334-337. -/
structure Legacy where
  ser : ClassId → Option LegFn := fun _ => Option.none
  de : ClassId → Option LegFn := fun _ => Option.none

/-- `serde_legacy_custom_class_serializer` / `serde_legacy_custom_class_deserializer`: the function first, the default where it
skips. /repo/serde/se.py:131-138, /repo/serde/de.py:125-142. -/
def legRun (f : LegFn) (t : String) (v : Res Val) (dflt : Res Val) : Res Val :=
  match v with
  | .error e => .error e
  | .ok x => match f t x with
    | some r => liftP r
    | Option.none => dflt

/-- `arg.type` when the call is rendered: `self.render(arg)` has replaced a subscripted generic by its origin.
/repo/serde/se.py:970-974, 991-996, /repo/serde/de.py:927-932, 1003-1008. -/
def Ty.origin : Ty → Ty
  | .gen c _ => .cls c
  | t => t

/-- The recursive entry points of serialization, with the function the renderer carries. /repo/serde/se.py:904-905. -/
structure LSeRec where
  render : Option LegFn → SeCx → SeArg → Res Val
  flat : Option LegFn → SeCx → SeArg → Res (List Val)
  cls : Bool → Option Bool → Option Bool → Bool → Val → Res Val
  toObj : Bool → Option Bool → Option Bool → Bool → Option Ty → Tagging → Val → Res Val

/-- A renderer carrying `lg`. -/
def LSeRec.at (R : LSeRec) (lg : Option LegFn) : SeRec :=
  { render := R.render lg, flat := R.flat lg, cls := R.cls, toObj := R.toObj }

/-- The function a nested rendering carries: a union function is rendered on its own, without it. /repo/serde/se.py:842-847. -/
def legInner (lg : Option LegFn) (t : Ty) : Option LegFn :=
  match t with
  | .union ts => if (Ty.union ts).isOpt then lg else Option.none
  | _ => lg

/-- Is the call rendered? "Custom field serializer overrides custom class serializer", /repo/serde/se.py:989-990. -/
def legUsed (lg : Option LegFn) (sers : List ClsSer) (a : SeArg) : Option LegFn :=
  if a.ser.isSome || (pickSer sers a).isSome then Option.none else lg

/-- `Renderer.render` with `legacy_class_serializer`, /repo/serde/se.py:912-999. Simplified: an annotation that cannot be
rendered fails where the function skips, not when the class is decorated. -/
def renderL (env : Env) (R : LSeRec) (lg : Option LegFn) (cx : SeCx) (a : SeArg) : Res Val :=
  let dflt := renderF env (R.at (legInner lg a.ty)) cx a
  match legUsed lg cx.sers a with
  | some f => legRun f (typename env a.ty.origin) a.v dflt
  | Option.none => dflt

/-- The dataclass whose fields are spliced in place of a flattened field. /repo/serde/se.py:1008-1018, 1033-1034. -/
def splicedClass (a : SeArg) : Option ClassId :=
  if a.flatten then
    match a.ty with
    | .cls c => some c
    | .union [.cls c, .none] => some c
    | _ => Option.none
  else Option.none

/-- The expressions a field contributes, with `legacy_class_serializer`. A spliced field becomes
`serde_legacy_custom_class_serializer(C, obj.f, default=lambda: a, b)`, which is only valid when there is exactly one expression.
/repo/serde/se.py:989-997, 1008-1018. -/
def flatL (env : Env) (R : LSeRec) (lg : Option LegFn) (cx : SeCx) (a : SeArg) : Res (List Val) :=
  match legUsed lg cx.sers a, splicedClass a with
  | some f, some c =>
    if (env.cls c).all (fun cd => cd.fields.length == 1) then
      match legRun f (typename env a.ty) a.v (match flatF env (R.at lg) cx a with
        | .ok [v] => .ok v
        | .ok _ => .error decorErr
        | .error e => .error e) with
      | .ok v => .ok [v]
      | .error e => .error e
    else .error decorErr
  | _, _ => flatF env (R.at lg) cx a

/-- The generated functions of the run-time class, rendered with that class's own function. /repo/serde/se.py:316-330, 771-778,
815-821. -/
def clsL (env : Env) (leg : Legacy) (R : LSeRec) (named : Bool) (reuse conv : Option Bool) (skipNone : Bool) (v : Val) : Res Val :=
  clsF env (R.at (match v with
    | .inst c _ => leg.ser c
    | _ => Option.none)) named reuse conv skipNone v

/-- Serialization with `n` units of fuel. `to_obj` and the wrapper classes of `Cache` carry no function:
/repo/serde/se.py:390-466, /repo/serde/core.py:112-211. -/
def seLAt (env : Env) (leg : Legacy) : Nat → LSeRec
  | 0 => { render := fun _ _ _ => .error .fuel, flat := fun _ _ _ => .error .fuel,
           cls := fun _ _ _ _ _ => .error .fuel, toObj := fun _ _ _ _ _ _ _ => .error .fuel }
  | n + 1 => { render := renderL env (seLAt env leg n), flat := flatL env (seLAt env leg n),
               cls := clsL env leg (seLAt env leg n), toObj := toObjF env ((seLAt env leg n).at Option.none) }

/-- `to_dict` where classes may carry functions. -/
def toDictL (env : Env) (leg : Legacy) (o : SeOpts) (n : Nat) (v : Val) : Res Val :=
  (seLAt env leg n).toObj true o.reuse o.conv o.skipNone o.c o.tagging v

/-- `to_tuple` where classes may carry functions. -/
def toTupleL (env : Env) (leg : Legacy) (o : SeOpts) (n : Nat) (v : Val) : Res Val :=
  (seLAt env leg n).toObj false o.reuse o.conv o.skipNone o.c o.tagging v

/-- `arg.data_or()`, /repo/serde/de.py:854-858: the declared name only, `None` where it is absent. -/
def DeArg.dataOr (a : DeArg) : Res Val :=
  match a.src with
  | .key d => pyGet d a.conv
  | .idx d i => pyIndex d i
  | .val r => r

/-- A field of a class with `deserializer=`: the function gets `arg.data_or()`; where it skips, the code is rendered again without
the function and without the class's `class_deserializer`. /repo/serde/de.py:1000-1031. -/
def legDeField (env : Env) (g : LegFn) (r : DeRec) (cx : DeCx) (a : DeArg) : Res Val :=
  if a.deser.isSome || (pickDe cx.des a).isSome then r.render cx a
  else legRun g (typename env a.ty.origin) a.dataOr (r.render { cx with des := env.gde } a)

/-- The generated functions of class `c`, rendered with its own `deserializer=`; only the fields themselves are wrapped, since what
is rendered below them with the function is thrown away. /repo/serde/de.py:1000-1013. -/
def deClsL (env : Env) (leg : Legacy) (r : DeRec) (named : Bool) (c : ClassId) (o : DeCall) (data : Val) : Res Val :=
  deClsF env (match leg.de c with
    | some g => { r with render := legDeField env g r }
    | Option.none => r) named c o data

/-- Deserialization with `n` units of fuel. -/
def deLAt (env : Env) (leg : Legacy) : Nat → DeRec
  | 0 => { render := fun _ _ => .error .fuel, cls := fun _ _ _ _ => .error .fuel, fromObj := fun _ _ _ _ _ _ => .error .fuel }
  | n + 1 => { render := deRenderF env (deLAt env leg n), cls := deClsL env leg (deLAt env leg n),
               fromObj := fromObjF env (deLAt env leg n) }

/-- `from_dict` where classes may carry functions. -/
def fromDictL (env : Env) (leg : Legacy) (o : DeOpts) (n : Nat) (c : Ty) (d : Val) : Res Val :=
  (deLAt env leg n).fromObj true o.reuse o.numbers o.tagging c d

/-- `from_tuple` where classes may carry functions. -/
def fromTupleL (env : Env) (leg : Legacy) (o : DeOpts) (n : Nat) (c : Ty) (d : Val) : Res Val :=
  (deLAt env leg n).fromObj false o.reuse o.numbers o.tagging c d

end Verif
