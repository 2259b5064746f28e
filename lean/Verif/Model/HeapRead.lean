import Verif.Model.Heap
/-!
# Identity of containers while reading

The reading counterpart of `Model/Heap.lean`: the containers of the data carry an address, those created while reading carry none. The generated functions
write to nothing. Not modelled here: functions given by the user (`__post_init__` included), flattened fields, type variables, conversion of leaves (immutable either way), errors
(no result). Defaults and keys of mappings are immutable. Which entry of the data is found for a field, and which member of a union accepts, is left open.
-/

namespace Verif.Heap

/-- The choices left open: the place of the entry found for a field under its name or an alias (/repo/serde/de.py:1261-1286), none if it is absent; the default, if there is
one; the member of a union that is taken (/repo/serde/de.py:1456-1488). -/
structure OpenDe where
  entry : ClassId → FieldDef → Obj → Option Nat
  dflt : ClassId → FieldDef → Option Val
  pick : List Ty → Obj → Nat

/-- The functions that call each other: an expression for an annotation, the function of a class. -/
structure RecDe where
  read : Bool → Tagging → Ty → Obj → Option Obj
  cls : Bool → ClassId → Obj → Option Obj

/-- `[f(x) for x in xs]`, /repo/serde/de.py:1094. -/
def eachDe {α β : Type} (f : α → Option β) : List α → Option (List β)
  | [] => some []
  | x :: xs => match f x with
    | none => none
    | some y => match eachDe f xs with
      | none => none
      | some ys => some (y :: ys)

/-- `data[k]` of a mapping, /repo/serde/de.py:1461, 1472. -/
def getKey (k : Val) : Obj → Option Obj
  | .dict _ kvs => (kvs.find? fun kv => pyEq kv.1 k).map (·.2)
  | _ => none

/-- What a union function hands to the member: for a dataclass what is behind the tag. The tag itself is not looked at here. /repo/serde/de.py:1459-1476. -/
def payload (env : Env) (tg : Tagging) (m : Ty) (v : Obj) : Option Obj :=
  if m.isCls then
    match tg with
    | .external => getKey (.str (typename env m)) v
    | .adjacent _ content => getKey (.str content) v
    | .internal _ => some v
    | .untagged => some v
  else some v

/-- `Renderer.render`, /repo/serde/de.py:907-1254, as far as the identity of containers goes. -/
def readF (env : Env) (O : OpenDe) (r : RecDe) (named : Bool) (tg : Tagging) (t : Ty) (v : Obj) : Option Obj :=
  match t with
  | .none => some (.atom .none)
  | .alias _ t => r.read named tg t v
  | .gen c _ => r.cls named c v
  | .cls c => r.cls named c v
  | .union [t, .none] => match v with
    | .atom .none => some (.atom .none)
    | v => r.read named tg t v
  | .union ts => match ts[O.pick ts v]? with
    | none => none
    | some m => match payload env tg m v with
      | none => none
      | some x => r.read true tg m x
  | .listB _ => (items v).map (.list none)
  | .dequeB => (items v).map (.deque none)
  | .setB _ => (items v).map (.set none)
  | .tupleB => (items v).map .tuple
  | .list _ t => match items v with
    | none => none
    | some xs => (eachDe (r.read named tg t) xs).map (.list none)
  | .deque t => match items v with
    | none => none
    | some xs => (eachDe (r.read named tg t) xs).map (.deque none)
  | .set _ t => match items v with
    | none => none
    | some xs => (eachDe (r.read named tg t) xs).map (.set none)
  | .tupleV t => match items v with
    | none => none
    | some xs => (eachDe (r.read named tg t) xs).map .tuple
  | .tuple ts => match items v with
    | none => none
    | some xs => if xs.length < ts.length then none else (eachDe (fun p : Ty × Obj => r.read named tg p.1 p.2) (ts.zip xs)).map .tuple
  | .dictB .deflt => none
  | .dictB _ => some v
  | .counterB => match v with
    | .dict _ kvs => some (.dict none kvs)
    | _ => none
  | .counter _ => match v with
    | .dict _ kvs => some (.dict none kvs)
    | _ => none
  | .dict _ _ vt => match v with
    | .dict _ kvs => (eachDe (fun kv : Val × Obj => (r.read named tg vt kv.2).map fun y => (kv.1, y)) kvs).map (.dict none)
    | _ => none
  | .any => some v
  | .tvar _ => none
  | .other _ => none
  | .enum _ => match v with
    | .atom x => some (.atom x)
    | _ => none
  | .prim _ => some v
  | .newType _ _ => some v
  | .std _ => some v
  | .dt _ => some v
  | .lit _ => some v

/-- The items of the data of a class: the values of a mapping, the elements of a sequence. /repo/serde/de.py:1316-1410. -/
def cells : Obj → Option (List Obj)
  | .dict _ kvs => some (kvs.map (·.2))
  | .list _ xs => some xs
  | .tuple xs => some xs
  | _ => none

/-- The attribute for one field. Fields that are not read have their default. /repo/serde/de.py:1308-1309, 1323-1325, 1391-1409. -/
def fieldDe (O : OpenDe) (r : RecDe) (named : Bool) (c : ClassId) (cd : ClassDef) (v : Obj) (f : FieldDef) : Option (String × Obj) :=
  let dflt := (O.dflt c f).map fun d => (f.name, Obj.atom d)
  if f.flatten || f.deserializer.isSome then none else
  if !f.init || f.skip || f.skipDe then dflt else
  match O.entry c f v with
  | none => dflt
  | some i => match cells v with
    | none => none
    | some xs => match xs[i]? with
      | none => none
      | some x => (r.read named cd.tagging f.ty x).map fun y => (f.name, y)

/-- The function of a class: a new object; a transparent class reads its first field from the data itself. /repo/serde/de.py:1316-1450. -/
def clsDe (env : Env) (O : OpenDe) (r : RecDe) (named : Bool) (c : ClassId) (v : Obj) : Option Obj :=
  match env.cls c with
  | none => none
  | some cd =>
    if cd.transparent then
      match cd.fields with
      | f :: _ => if f.deserializer.isSome then none else (r.read named cd.tagging f.ty v).map fun y => .inst none c [(f.name, y)]
      | [] => none
    else (eachDe (fieldDe O r named c cd v) cd.fields).map fun attrs => .inst none c attrs

/-- The functions for calls nested at most `n` deep. /repo/serde/de.py:1316-1502. -/
def deRecAt (env : Env) (O : OpenDe) : Nat → RecDe
  | 0 => { read := fun _ _ _ _ => none, cls := fun _ _ _ => none }
  | n + 1 => { read := readF env O (deRecAt env O n), cls := clsDe env O (deRecAt env O n) }

/-- `from_dict(c, data)` and `from_tuple(c, data)` for a decorated class; an object of the class itself is returned as it is. /repo/serde/de.py:520-533, 566-567. -/
def readObj (env : Env) (O : OpenDe) (n : Nat) (named : Bool) (c : ClassId) (v : Obj) : Option Obj :=
  match v with
  | .inst a c' attrs => if c' = c then some (.inst a c' attrs) else none
  | v => (deRecAt env O n).cls named c v

end Verif.Heap
