import Verif.Model.Se
/-!
# The globals of generated serialize functions

The functions generated for a class find `serializer=` functions and skip predicates by name in a dict of globals.  The name is
made from the *field's* name only, and the fields of a flattened dataclass are registered in the same dict.  `Model/Se.lean` uses
every field's own functions; the layer below looks them up.
-/

namespace Verif

/-- A function in the globals: a `serializer=`, or a skip predicate. -/
inductive GFn where
  | ser (s : SerFn)
  | rule (r : SkipRule)

/-- The registrations in the order they are made; a later one replaces an earlier one with the same name.
/repo/serde/se.py:626-646. -/
abbrev Globals := List (String × GFn)

/-- What a name stands for. -/
def Globals.find (g : Globals) (nm : String) : Option GFn := g.reverse.lookup nm

/-- The part `mangle` appends for a skip predicate, /repo/serde/core.py:701-739, 823-827. -/
def SkipRule.suffix : SkipRule → String
  | .never => ""
  | .user _ => "_skip_if"
  | .ifFalse => "_skip_if_false"
  | .ifDefault _ => "_skip_if_default"
  | .ifNone => "_skip_if_none"

/-- Registrations of one field, /repo/serde/se.py:637-640. -/
def FieldDef.regs (f : FieldDef) (cd : ClassDef) : Globals :=
  (match f.skipRule cd with
    | .never => []
    | r => [(f.name ++ r.suffix, .rule r)]) ++
  (match f.serializer with
    | Option.none => []
    | some s => [(f.name ++ "_serializer", .ser s)])

/-- `add_field_serializers_to_scope`, /repo/serde/se.py:626-646; `n` bounds the nesting of flattened classes. -/
def regsCls (env : Env) : Nat → ClassDef → Globals
  | 0, _ => []
  | n + 1, cd => cd.fields.flatMap fun f => f.regs cd ++ (match f.flatChild with
    | some ch => match env.cls ch with
      | some cd' => regsCls env n cd'
      | Option.none => []
    | Option.none => [])

/-- The globals of the functions of a class, /repo/serde/se.py:308. Simplified: only the functions of fields; a field could have a
name such that the names made from it clash with other globals. -/
def Env.globals (env : Env) (cd : ClassDef) : Globals := regsCls env (env.classes.length + 1) cd

/-- `{{arg.serializer.name}}(...)`, /repo/serde/se.py:928, 1006. The renderer looks at the field's own `serializer=` to decide whether a
function is called, the name decides which one. `default_serializer` takes two arguments, so that calling it fails. A name that is not
found does not occur: the field itself is registered. -/
def Globals.ser (g : Globals) (f : FieldDef) : Option SerFn :=
  match f.serializer with
  | some (.fn p) => match g.find (f.name ++ "_serializer") with
    | some (.ser (.fn q)) => some (.fn q)
    | some (.ser .marker) => some (.fn fun _ => .error .type)
    | _ => some (.fn p)
  | s => s

/-- `if not {{f.skip_if.name}}(subres)`, /repo/serde/se.py:671-672. -/
def Globals.rule (g : Globals) (f : FieldDef) (cd : ClassDef) : SkipRule :=
  match f.skipRule cd with
  | .never => .never
  | r => match g.find (f.name ++ r.suffix) with
    | some (.rule r') => r'
    | _ => r

/-- The field with the functions that its names stand for. /repo/serde/se.py:671-672, 1006. (`dflt` matters for `skip_if_default` only.) -/
def Globals.field (g : Globals) (cd : ClassDef) (f : FieldDef) : FieldDef :=
  match f.skipRule cd, g.rule f cd with
  | .user _, .user p => { f with serializer := g.ser f, skipIf := some p }
  | .ifDefault _, .ifDefault d => { f with serializer := g.ser f, dflt := d }
  | _, _ => { f with serializer := g.ser f }

/-- The classes whose fields are written by the functions of class `c`: itself and the flattened ones. /repo/serde/se.py:641-646, 1008-1025. -/
def inlinedCls (env : Env) : Nat → ClassId → List ClassId
  | 0, _ => []
  | n + 1, c => c :: (match env.cls c with
    | some cd => cd.fields.flatMap fun f => match f.flatChild with
      | some ch => inlinedCls env n ch
      | Option.none => []
    | Option.none => [])

/-- The classes as seen by the functions of class `c`, which write the fields of flattened dataclasses themselves and find all functions of
fields in their own globals. /repo/serde/se.py:308, 1008-1025. -/
def Env.seenBy (env : Env) : Option ClassId → Env
  | Option.none => env
  | some c => match env.cls c with
    | Option.none => env
    | some cd0 => { env with classes := env.classes.map fun e =>
        if (inlinedCls env (env.classes.length + 1) c).contains e.1 then
          (e.1, { e.2 with fields := e.2.fields.map ((env.globals cd0).field e.2) })
        else e }

/-- The recursive entry points, `flat` with the class in whose function it is rendered. -/
structure GSeRec where
  render : SeCx → SeArg → Res Val
  flat : Option ClassId → SeCx → SeArg → Res (List Val)
  cls : Bool → Option Bool → Option Bool → Bool → Val → Res Val
  toObj : Bool → Option Bool → Option Bool → Bool → Option Ty → Tagging → Val → Res Val

/-- A renderer used for the functions of this class. -/
def GSeRec.at (R : GSeRec) (c : Option ClassId) : SeRec := { render := R.render, flat := R.flat c, cls := R.cls, toObj := R.toObj }

/-- The run-time class, whose functions are called. -/
def Val.clsId : Val → Option ClassId
  | .inst c _ => some c
  | _ => Option.none

/-- Serialization with `n` units of fuel. `to_obj`, union functions and the wrapper classes of `Cache` have no fields with options, so that
`render` and `toObj` are those of `Model/Se.lean`; the functions of a class use its globals. /repo/serde/se.py:652-731, 765-839. -/
def seGAt (env : Env) : Nat → GSeRec
  | 0 => { render := fun _ _ => .error .fuel, flat := fun _ _ _ => .error .fuel,
           cls := fun _ _ _ _ _ => .error .fuel, toObj := fun _ _ _ _ _ _ _ => .error .fuel }
  | n + 1 => { render := renderF env ((seGAt env n).at Option.none),
               flat := fun c => flatF (env.seenBy c) ((seGAt env n).at c),
               cls := fun nm re cv sn v => clsF (env.seenBy v.clsId) ((seGAt env n).at v.clsId) nm re cv sn v,
               toObj := toObjF env ((seGAt env n).at Option.none) }

/-- `to_dict`, the functions of fields found by name. -/
def toDictG (env : Env) (o : SeOpts) (n : Nat) (v : Val) : Res Val :=
  (seGAt env n).toObj true o.reuse o.conv o.skipNone o.c o.tagging v

/-- `to_tuple`, the functions of fields found by name. -/
def toTupleG (env : Env) (o : SeOpts) (n : Nat) (v : Val) : Res Val :=
  (seGAt env n).toObj false o.reuse o.conv o.skipNone o.c o.tagging v

end Verif
