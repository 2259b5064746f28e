import Verif.Model.Se
/-!
# Identity of containers while writing

The rest of the model has values without identity. Here the mutable containers of an object carry an address, the containers that the generated
functions create carry none, and what the functions write to is recorded. Not modelled in this file: functions given by the user for fields or types, fields flattened twice,
conversion of leaves (dates, primitives of coercing classes: the result is immutable either way), errors (no result). Keys of mappings are immutable and left as
they are. Which fields are left out and which member of a union takes a value is left open: `keep` and `pick` are any functions.
-/

namespace Verif.Heap

/-- A Python value; `some a` is the address of a container that was there before the call, `none` stands for one created during it. Tuples and frozen sets are
immutable but may hold containers; an object of a dataclass has an address, too. The containers are those told apart in /repo/serde/se.py:428-437, 1038-1110. -/
inductive Obj where
  | atom (v : Val)
  | tuple (xs : List Obj)
  | list (a : Option Nat) (xs : List Obj)
  | deque (a : Option Nat) (xs : List Obj)
  | set (a : Option Nat) (xs : List Obj)
  | dict (a : Option Nat) (kvs : List (Val × Obj))
  | inst (a : Option Nat) (c : ClassId) (attrs : List (String × Obj))

/-- What a call returns, and the addresses it has written to; `none` if it raises. -/
abbrev Out := Option (Obj × List Nat)

/-- The choices left open: the fields of a class that are left out for their value (/repo/serde/se.py:664-681), the member of a union that
`is_instance` finds (/repo/serde/se.py:735-736). -/
structure Open where
  keep : ClassId → FieldDef → Obj → Bool
  pick : List Ty → Obj → Nat

/-- The functions that call each other, as `SeRec`: `render` an expression for an annotation, the function of a class, `to_obj` without a target. -/
structure Rec where
  render : Bool → Bool → Tagging → Ty → Obj → Out
  cls : Bool → Option Bool → ClassId → List (String × Obj) → Out
  any : Bool → Option Bool → Obj → Out

/-- `[f(x) for x in xs]`, with everything written to on the way. /repo/serde/se.py:1048, 1060. -/
def each {α β : Type} (f : α → Option (β × List Nat)) : List α → Option (List β × List Nat)
  | [] => some ([], [])
  | x :: xs => match f x with
    | none => none
    | some (y, l) => match each f xs with
      | none => none
      | some (ys, l') => some (y :: ys, l ++ l')

/-- `iter(v)`, /repo/serde/se.py:1045-1072. Keys of a mapping are immutable. -/
def items : Obj → Option (List Obj)
  | .tuple xs => some xs
  | .list _ xs => some xs
  | .deque _ xs => some xs
  | .set _ xs => some xs
  | .dict _ kvs => some (kvs.map fun kv => .atom kv.1)
  | _ => none

/-- `d[k] = x`, /repo/serde/se.py:742, 747. -/
def put (k : Val) (x : Obj) : List (Val × Obj) → List (Val × Obj)
  | [] => [(k, x)]
  | (k', y) :: kvs => if pyEq k' k then (k', x) :: kvs else (k', y) :: put k x kvs

/-- What a union function does with the result for a dataclass member. With internal tagging it writes to the result, wherever that came from.
/repo/serde/se.py:737-748. -/
def mark (tg : Tagging) (nm : String) (r : Obj) (l : List Nat) : Out :=
  match tg with
  | .external => some (.dict none [(.str nm, r)], l)
  | .internal tag => match r with
    | .dict a kvs => some (.dict a (put (.str tag) (.atom (.str nm)) kvs), a.toList ++ l)
    | _ => none
  | .adjacent tag content => some (.dict none (put (.str tag) (.atom (.str nm)) [(.str content, r)]), l)
  | .untagged => some (r, l)

/-- `Renderer.render`, /repo/serde/se.py:912-1131, as far as the identity of containers goes: `named` tells `to_dict` from `to_tuple`, `conv` is `convert_sets`. -/
def renderF (env : Env) (O : Open) (r : Rec) (named conv : Bool) (tg : Tagging) (t : Ty) (v : Obj) : Out :=
  match t with
  | .none => some (.atom .none, [])
  | .alias _ t => r.render named conv tg t v
  | .gen c _ => r.render named conv tg (.cls c) v
  | .cls _ => match v with
    | .inst _ c attrs => r.cls named (some conv) c attrs
    | _ => none
  | .union [t, .none] => match v with
    | .atom .none => some (.atom .none, [])
    | v => r.render named conv tg t v
  | .union ts => match ts[O.pick ts v]? with
    | none => none
    | some m => match r.render true conv tg m v with
      | none => none
      | some (x, l) => if m.isCls then mark tg (typename env m) x l else some (x, l)
  | .listB .list => some (v, [])
  | .listB _ => match items v with
    | some xs => some (.list none xs, [])
    | none => none
  | .dequeB => match items v with
    | some xs => some (.list none xs, [])
    | none => none
  | .setB _ => if conv then match items v with
      | some xs => some (.list none xs, [])
      | none => none
    else some (v, [])
  | .list _ t => match items v with
    | none => none
    | some xs => (each (r.render named conv tg t) xs).map fun p => (.list none p.1, p.2)
  | .deque t => match items v with
    | none => none
    | some xs => (each (r.render named conv tg t) xs).map fun p => (.list none p.1, p.2)
  | .set _ t => match items v with
    | none => none
    | some xs => (each (r.render named conv tg t) xs).map fun p => (if conv then .list none p.1 else .set none p.1, p.2)
  | .tupleV t => match items v with
    | none => none
    | some xs => (each (r.render named conv tg t) xs).map fun p => (.tuple p.1, p.2)
  | .tuple ts => match items v with
    | none => none
    | some xs => if xs.length < ts.length then none else
      (each (fun p : Ty × Obj => r.render named conv tg p.1 p.2) (ts.zip xs)).map fun p => (.tuple p.1, p.2)
  | .dictB .deflt => none
  | .dictB _ => some (v, [])
  | .counterB => match v with
    | .dict _ kvs => some (.dict none kvs, [])
    | _ => none
  | .counter _ => match v with
    | .dict _ kvs => some (.dict none kvs, [])
    | _ => none
  | .dict _ _ vt => match v with
    | .dict _ kvs => (each (fun kv : Val × Obj => (r.render named conv tg vt kv.2).map fun p => ((kv.1, p.1), p.2)) kvs).map fun p => (.dict none p.1, p.2)
    | _ => none
  | .any => r.any true (some false) v
  | .tvar _ => r.any true (some false) v
  | .other _ => none
  | .enum _ => match v with
    | .atom x => some (.atom x, [])
    | _ => none
  | .tupleB => some (v, [])
  | .prim _ => some (v, [])
  | .newType _ _ => some (v, [])
  | .std _ => some (v, [])
  | .dt _ => some (v, [])
  | .lit _ => some (v, [])

/-- The field of a flattened dataclass, rendered for the enclosing class, whose naming applies. Fields flattened again are not modelled.
/repo/serde/se.py:888-895, 1012-1017. -/
def childF (r : Rec) (named conv : Bool) (cd : ClassDef) (attrs : List (String × Obj)) (g : FieldDef) : Option ((Bool × Val × Obj) × List Nat) :=
  if g.flatten || g.serializer.isSome then none else
  match attrs.lookup g.name with
  | none => none
  | some z => (r.render named conv cd.tagging g.ty z).map fun p => ((false, .str (g.conv cd.seCase), p.1), p.2)

/-- The entries of one field: none if it is left out, those of a flattened dict with the mark `true` (they do not replace others).
Simplified: for a flattened `Optional` of something else the code has no test for `None`; here `None` gives `None`, there mostly an error.
/repo/serde/se.py:661-681. -/
def fieldF (env : Env) (O : Open) (r : Rec) (named conv : Bool) (c : ClassId) (cd : ClassDef) (attrs : List (String × Obj)) (f : FieldDef) :
    Option (List (Bool × Val × Obj) × List Nat) :=
  if f.serializer.isSome then none else
  match attrs.lookup f.name with
  | none => none
  | some x => match f.flatChild with
    | some ch => match x, env.cls ch with
      | .inst _ _ attrs', some cd' => match each (childF r named conv cd attrs') cd'.fields with
        | none => none
        | some (es, l) => some (if named && !O.keep c f (.tuple (es.map (·.2.2))) then [] else es, l)
      | _, _ => none
    | none => match r.render named conv cd.tagging f.ty x with
      | none => none
      | some (y, l) => if named && f.flatDict then
          match y with
          | .dict _ kvs => some (kvs.map fun kv => (true, kv.1, kv.2), l)
          | .atom .none => some ([], l)
          | _ => none
        else some (if named && !O.keep c f y then [] else [(false, .str (f.conv cd.seCase), y)], l)

/-- One entry goes into the result: `res[k] = x`, or for a flattened dict only `if k not in res`. /repo/serde/se.py:667-681. -/
def enter (acc : List (Val × Obj)) (e : Bool × Val × Obj) : List (Val × Obj) :=
  if e.1 && acc.any (fun kv => pyEq kv.1 e.2.1) then acc else put e.2.1 e.2.2 acc

/-- The function of a class, /repo/serde/se.py:652-731: a new dict or tuple with the fields, or for a transparent class what its field gives. -/
def clsF (env : Env) (O : Open) (r : Rec) (named : Bool) (conv : Option Bool) (c : ClassId) (attrs : List (String × Obj)) : Out :=
  match env.cls c with
  | none => none
  | some cd =>
    let cv := conv.getD cd.convDflt
    if cd.transparent then
      match cd.seFieldsOf with
      | f :: _ => match attrs.lookup f.name with
        | none => none
        | some x => if f.serializer.isSome then none else r.render named cv cd.tagging f.ty x
      | [] => none
    else match each (fieldF env O r named cv c cd attrs) cd.seFieldsOf with
      | none => none
      | some (es, l) =>
        let es := es.flatten
        some (if named then .dict none (es.foldl enter []) else .tuple (es.map (·.2.2)), l)

/-- `to_obj` without a target class, /repo/serde/se.py:417-444: containers are made anew at every level. -/
def anyF (r : Rec) (named : Bool) (conv : Option Bool) (v : Obj) : Out :=
  match v with
  | .atom x => some (.atom x, [])
  | .inst _ c attrs => r.cls named conv c attrs
  | .tuple xs => (each (r.any named conv) xs).map fun p => (.tuple p.1, p.2)
  | .list _ xs => (each (r.any named conv) xs).map fun p => (.list none p.1, p.2)
  | .deque _ xs => (each (r.any named conv) xs).map fun p => (.list none p.1, p.2)
  | .set _ xs => (each (r.any named conv) xs).map fun p => (.list none p.1, p.2)
  | .dict _ kvs => (each (fun kv : Val × Obj => (r.any named conv kv.2).map fun p => ((kv.1, p.1), p.2)) kvs).map fun p => (.dict none p.1, p.2)

/-- The functions for calls nested at most `n` deep. /repo/serde/se.py:391-444, 652-760. -/
def recAt (env : Env) (O : Open) : Nat → Rec
  | 0 => { render := fun _ _ _ _ _ => none, cls := fun _ _ _ _ => none, any := fun _ _ _ => none }
  | n + 1 => { render := renderF env O (recAt env O n), cls := clsF env O (recAt env O n), any := anyF (recAt env O n) }

/-- `to_dict(v)` and `to_tuple(v)`, or with a union as the target (`CACHE.serialize_union`, /repo/serde/core.py:168-182: a transparent use of the union function
without `convert_sets`). /repo/serde/se.py:415-416, 476-571. -/
def write (env : Env) (O : Open) (n : Nat) (named : Bool) (conv : Option Bool) (target : Option (List Ty × Tagging)) (v : Obj) : Out :=
  match target with
  | none => (recAt env O n).any named conv v
  | some (ts, tg) => (recAt env O n).render true false tg (.union ts) v

end Verif.Heap
