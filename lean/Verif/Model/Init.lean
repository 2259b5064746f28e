import Verif.Model.De
import Verif.Model.Decorate
/-!
# The constructor call with the parameters `__init__` really has

Generated functions call the class with one argument per field that is read.  `construct` in `Model/Core.lean` takes the parameters of `__init__` to be
the fields.  Init variables, an `__init__` written by hand, or one made by an earlier `dataclass` from other options, are parameters too (or
other ones).  Here the parameters are given per class, and arguments are bound by Python's rules.
-/

namespace Verif

/-- The parameters of the `__init__` that `cls(...)` calls: of the class itself, or of the first base class that has one. -/
def PyClasses.initOf (st : PyClasses) (c : PyCls) : List Param :=
  match c.init with
  | some ps => ps
  | Option.none => (c.bases.findSome? fun b => match st.lookup b with
    | some k => k.init
    | Option.none => Option.none).getD []

/-- Parameters that can be passed by position. -/
def posNames (ps : List Param) : List String := (ps.filter fun p => !p.kwOnly).map Param.name

/-- Parameters that were not passed get their default; without default this is a `TypeError`. -/
def fillParams (passed : List (String × Val)) : List Param → Except PErr (List (String × Val))
  | [] => .ok []
  | p :: ps => match passed.lookup p.name <|> p.dflt with
    | some v => match fillParams passed ps with
      | .ok r => .ok ((p.name, v) :: r)
      | .error e => .error e
    | Option.none => .error .type

/-- Python's binding of arguments to parameters. `TypeError`: too many positional arguments, a keyword that is no parameter, two values for one
parameter, a parameter without value. Simplified: no `*args`, `**kwargs`, positional-only parameters. -/
def bindParams (ps : List Param) (pos : List Val) (kw : List (String × Val)) : Except PErr (List (String × Val)) :=
  if (posNames ps).length < pos.length then .error .type
  else if kw.any fun a => !ps.any (·.name == a.1) || ((posNames ps).take pos.length).contains a.1 then .error .type
  else fillParams ((posNames ps).zip pos ++ kw) ps

/-- What the `__init__` made by `dataclass` does with its parameters: fields get the values; fields with `init=False` their default. Init variables go
to `__post_init__` only. -/
def fieldAttrs (bound : List (String × Val)) : List FieldDef → List (String × Val)
  | [] => []
  | f :: fs => match (if f.init then bound.lookup f.name else f.dflt) with
    | some v => (f.name, v) :: fieldAttrs bound fs
    | Option.none => fieldAttrs bound fs

/-- beartype's check of the arguments that are passed. /repo/serde/de.py:284-286. -/
def paramsBearable (env : Env) (ps : List Param) : List (String × Val) → Bool
  | [] => true
  | (n, v) :: r =>
    (match ps.find? (fun p => p.name == n) with
      | some p => bearable env p.ty v
      | Option.none => true) && paramsBearable env ps r

/-- `cls(*pos, **kw)` in generated code, /repo/serde/de.py:1327-1336, 1412-1425, for a class with the parameters `ps`. Simplified: an `__init__` written by hand
stores its parameters as the one made by `dataclass` does, and `__post_init__` does not look at the init variables. -/
def constructI (env : Env) (c : ClassId) (cd : ClassDef) (ps : List Param) (pos : List Val) (kw : List (String × Val)) : Res Val :=
  if cd.typeCheck == .strict && !paramsBearable env ps ((posNames ps).zip pos ++ kw) then .error (.user (.serde "type"))
  else match bindParams ps pos kw with
    | .error e => .error (.user (.py e))
    | .ok bound => match cd.postInit with
      | Option.none => .ok (.inst c (fieldAttrs bound cd.fields))
      | some p => match p (fieldAttrs bound cd.fields) with
        | .ok attrs' => .ok (.inst c attrs')
        | .error e => .error (.user (.py e))

/-- Generated `from_dict` / `from_iter` of class `c`, /repo/serde/de.py:1315-1450, the parameters of the classes given by `I`. -/
def deClsI (env : Env) (I : ClassId → List Param) (r : DeRec) (named : Bool) (c : ClassId) (o : DeCall) (data : Val) : Res Val :=
  match env.cls c with
  | Option.none => .error (.py .attr)
  | some cd => match deArgs env r named c cd o data with
    | .error e => .error e
    | .ok (pos, kw) => constructI env c cd (I c) pos kw

/-- Deserialization with `n` units of fuel, the parameters of the classes given by `I`. /repo/serde/de.py:1412-1425. -/
def deIAt (env : Env) (I : ClassId → List Param) : Nat → DeRec
  | 0 => { render := fun _ _ => .error .fuel, cls := fun _ _ _ _ => .error .fuel, fromObj := fun _ _ _ _ _ _ => .error .fuel }
  | n + 1 => { render := deRenderF env (deIAt env I n), cls := deClsI env I (deIAt env I n), fromObj := fromObjF env (deIAt env I n) }

/-- `from_dict`, the parameters of the classes given by `I`. /repo/serde/de.py:655-691. -/
def fromDictI (env : Env) (I : ClassId → List Param) (o : DeOpts) (n : Nat) (c : Ty) (d : Val) : Res Val :=
  (deIAt env I n).fromObj true o.reuse o.numbers o.tagging c d

/-- `from_tuple`, the parameters of the classes given by `I`. /repo/serde/de.py:710-745. -/
def fromTupleI (env : Env) (I : ClassId → List Param) (o : DeOpts) (n : Nat) (c : Ty) (d : Val) : Res Val :=
  (deIAt env I n).fromObj false o.reuse o.numbers o.tagging c d

end Verif
