import Verif.Model.De
/-!
# Class variables: `serialize_class_var`

With `@serde(serialize_class_var=True)` the serialize functions treat class variables as further fields.  The layer below adds them
to the functions of `Model/Se.lean`; with no such class it computes the same (`Lemmas/ClassVars.lean`).  Reading does not know about
class variables.
-/

namespace Verif

/-- A class variable `name: ClassVar[ty] = val`. -/
structure VarDef where
  name : String
  ty : Ty
  val : Val

/-- The class variables of each class, with those of its base classes, in the order of `get_type_hints`, and whether the class was
decorated with `serialize_class_var=True`. /repo/serde/core.py:864-867, /repo/serde/__init__.py:141-180. -/
structure Vars where
  vars : ClassId → List VarDef := fun _ => []
  on : ClassId → Bool := fun _ => false

/-- `field_cls(typ, name, default=getattr(cls, name))`, /repo/serde/core.py:867: no option of a field is set, and the class-level
flags `skip_if_default`, `skip_if_none` are not passed on. -/
def VarDef.field (x : VarDef) : FieldDef :=
  { name := x.name, ty := x.ty, dflt := some x.val, skipIfDefault := some false, skipIfNone := some false }

/-- `obj.name` for a class variable: found in the run-time class. Simplified: instances have no attribute of that name. -/
def Vars.attr (vs : Vars) (obj : Res Val) (name : String) : Res Val :=
  match obj with
  | .error e => .error e
  | .ok (.inst c _) => match (vs.vars c).find? (fun x => x.name == name) with
    | some x => .ok x.val
    | Option.none => .error (.py .attr)
  | .ok _ => .error (.py .attr)

/-- A class variable as seen by the renderer, which continues with the `T` of `ClassVar[T]`. /repo/serde/se.py:982-984. Simplified: no
class serializer handles `ClassVar[T]` itself. -/
def Vars.arg (vs : Vars) (x : VarDef) (obj : Res Val) : SeArg := { ty := x.ty, v := vs.attr obj x.name }

/-- The recursive entry points, `flat` with the flag `serialize_class_var` of the renderer. /repo/serde/se.py:898-910. -/
structure VSeRec where
  render : SeCx → SeArg → Res Val
  flat : Bool → SeCx → SeArg → Res (List Val)
  cls : Bool → Option Bool → Option Bool → Bool → Val → Res Val
  toObj : Bool → Option Bool → Option Bool → Bool → Option Ty → Tagging → Val → Res Val

/-- A renderer with this flag. -/
def VSeRec.at (R : VSeRec) (b : Bool) : SeRec := { render := R.render, flat := R.flat b, cls := R.cls, toObj := R.toObj }

/-- `flatF` where a flattened dataclass also contributes its class variables, if the renderer's flag says so.
/repo/serde/se.py:1008-1018. -/
def flatV (env : Env) (vs : Vars) (R : VSeRec) (b : Bool) (cx : SeCx) (a : SeArg) : Res (List Val) :=
  match splitFlat a cx with
  | some c =>
    match flatF env (R.at b) cx a with
    | .error e => .error e
    | .ok xs => if b then
        match concatR (fun x => R.flat b cx (vs.arg x a.v)) (vs.vars c) with
        | .error e => .error e
        | .ok ys => .ok (xs ++ ys)
      else .ok xs
  | Option.none => flatF env (R.at b) cx a
where
  /-- The dataclass that is spliced in place of the argument. -/
  splitFlat (a : SeArg) (cx : SeCx) : Option ClassId :=
    if a.flatten && (pickSer cx.sers a).isNone then
      match a.ser, a.ty with
      | some (.fn _), _ => Option.none
      | _, .cls c => some c
      | _, _ => Option.none
    else Option.none

/-- `lvals` where a flattened dataclass also contributes its class variables. /repo/serde/se.py:887-895. -/
def lvalsV (env : Env) (vs : Vars) (b : Bool) (case : Option (String → String)) : Nat → FieldDef → List LV
  | 0, _ => []
  | n + 1, f =>
    match f.flatChild with
    | some c => match env.cls c with
      | some cd => cd.fields.flatMap (lvalsV env vs b case n) ++ (if b then (vs.vars c).map (fun x => .key (x.field.conv case)) else [])
      | Option.none => []
    | Option.none => if f.flatDict then [.mark] else [.key (f.conv case)]

/-- One field of the `dict` template, /repo/serde/se.py:661-681. The renderer of `to_dict` is created without the flag, unlike
`LRenderer`: /repo/serde/se.py:810-817. -/
def seFieldV (env : Env) (vs : Vars) (b : Bool) (R : VSeRec) (cx : SeCx) (cd : ClassDef) (obj : Val) (res : List (Val × Val)) (f : FieldDef) :
    Res (List (Val × Val)) :=
  match R.flat false cx (seFieldArg f (.ok obj)) with
  | .error e => .error e
  | .ok ws => match joinVals ws with
    | .error e => .error e
    | .ok sub =>
      match lvalsV env vs b cd.seCase (env.classes.length + 1) f with
      | [.mark] =>
        if truthy env sub then
          match pyItems sub with
          | .ok kvs => .ok (mergeDict res kvs)
          | .error e => .error e
        else .ok res
      | lvs => match skips env (R.at false) cx (f.skipRule cd) sub with
        | .error e => .error e
        | .ok true => .ok res
        | .ok false => assign res lvs sub

/-- All fields of the `dict` template in order. -/
def seFieldsV (env : Env) (vs : Vars) (b : Bool) (R : VSeRec) (cx : SeCx) (cd : ClassDef) (obj : Val) :
    List (Val × Val) → List FieldDef → Res (List (Val × Val))
  | res, [] => .ok res
  | res, f :: fs => match seFieldV env vs b R cx cd obj res f with
    | .error e => .error e
    | .ok res' => seFieldsV env vs b R cx cd obj res' fs

/-- The class variables in the `dict` template, after the fields. -/
def seVars (vs : Vars) (R : VSeRec) (cx : SeCx) (cd : ClassDef) (obj : Val) :
    List (Val × Val) → List VarDef → Res (List (Val × Val))
  | res, [] => .ok res
  | res, x :: xs => match R.render cx (vs.arg x (.ok obj)) with
    | .error e => .error e
    | .ok .none => seVars vs R cx cd obj (if cx.skipNone then res else dictSet (.str (x.field.conv cd.seCase)) .none res) xs
    | .ok w => seVars vs R cx cd obj (dictSet (.str (x.field.conv cd.seCase)) w res) xs

/-- The class variables the functions of class `c` write. /repo/serde/se.py:781-836. -/
def Vars.written (vs : Vars) (c : ClassId) : List VarDef := if vs.on c then vs.vars c else []

/-- The generated functions of the run-time class. /repo/serde/se.py:652-731, 765-839. Simplified: a transparent class without a
serializable field is an error although class variables could stand in. -/
def clsV (env : Env) (vs : Vars) (R : VSeRec) (named : Bool) (reuse conv : Option Bool) (skipNone : Bool) (v : Val) : Res Val :=
  match v with
  | .inst c _ => match env.cls c with
    | Option.none => .error (.py .attr)
    | some cd =>
      let cx := clsSeCx env c cd named reuse conv skipNone
      if cd.transparent then
        match cd.seFieldsOf with
        | [] => .error decorErr
        | f :: _ => match R.flat (vs.on c && !named) cx (seFieldArg f (.ok v)) with
          | .ok ws => joinVals ws
          | .error e => .error e
      else if named then
        match seFieldsV env vs (vs.on c) R cx cd v [] cd.seFieldsOf with
        | .error e => .error e
        | .ok res => match seVars vs R cx cd v res (vs.written c) with
          | .ok res => .ok (.dict .plain res)
          | .error e => .error e
      else
        match concatR (fun f => R.flat (vs.on c) cx (seFieldArg f (.ok v))) cd.seFieldsOf with
        | .error e => .error e
        | .ok ws => match mapR (fun x => R.render cx (vs.arg x (.ok v))) (vs.written c) with
          | .ok zs => .ok (.tuple (ws ++ zs))
          | .error e => .error e
  | _ => .error (.py .attr)

/-- Serialization with `n` units of fuel. `to_obj`, union functions and the wrapper classes of `Cache` know nothing of class variables. -/
def seVAt (env : Env) (vs : Vars) : Nat → VSeRec
  | 0 => { render := fun _ _ => .error .fuel, flat := fun _ _ _ => .error .fuel,
           cls := fun _ _ _ _ _ => .error .fuel, toObj := fun _ _ _ _ _ _ _ => .error .fuel }
  | n + 1 => { render := renderF env ((seVAt env vs n).at false), flat := flatV env vs (seVAt env vs n),
               cls := clsV env vs (seVAt env vs n), toObj := toObjF env ((seVAt env vs n).at false) }

/-- `to_dict` where class variables may be written. -/
def toDictV (env : Env) (vs : Vars) (o : SeOpts) (n : Nat) (v : Val) : Res Val :=
  (seVAt env vs n).toObj true o.reuse o.conv o.skipNone o.c o.tagging v

/-- `to_tuple` where class variables may be written. -/
def toTupleV (env : Env) (vs : Vars) (o : SeOpts) (n : Nat) (v : Val) : Res Val :=
  (seVAt env vs n).toObj false o.reuse o.conv o.skipNone o.c o.tagging v

end Verif
