import Verif.Model.Scopes
/-!
# Generated code needs the functions of the classes it meets

The function generated for a class calls the functions of the dataclasses in its fields as `Foo.__serde__.funcs['from_dict'](..)` and
`obj.foo.__serde__.funcs['to_dict'](..)`, without asking whether they have been generated.  `Model/Se.lean` and `Model/De.lean` look classes up in
the class table; the layer below raises when, in a given state of the process, the function is not there.
-/

namespace Verif

/-- What `c.__serde__.funcs[..]` raises: `AttributeError` without a scope (of the class or a base class), `KeyError` if the scope found does not have
the function. /repo/serde/se.py:1020, /repo/serde/de.py:1060. -/
def Gen.missing (env : Env) (st : Gen) (side : Side) (c : ClassId) : Option Exc :=
  match st.get env c with
  | Option.none => some (.py .attr)
  | some s => if s.has side then Option.none else some (.py .key)

/-- The entry points as generated code calls them, /repo/serde/de.py:1060. -/
def DeRec.guard (r : DeRec) (miss : ClassId → Option Exc) : DeRec :=
  { r with cls := fun named c o d => match miss c with
      | some e => .error e
      | Option.none => r.cls named c o d }

/-- Deserialization with `n` units of fuel when functions may be missing. `from_obj` generates what is missing before it calls a class (`Gen.meet`), so
only generated code is affected. Simplified: what `from_obj` generates in the middle of a call is not seen by the rest of the call.
/repo/serde/de.py:523-566, 1060. -/
def deHAt (env : Env) (miss : ClassId → Option Exc) : Nat → DeRec
  | 0 => { render := fun _ _ => .error .fuel, cls := fun _ _ _ _ => .error .fuel, fromObj := fun _ _ _ _ _ _ => .error .fuel }
  | n + 1 => { render := deRenderF env ((deHAt env miss n).guard miss), cls := deClsF env (deHAt env miss n),
               fromObj := fromObjF env (deHAt env miss n) }

/-- The entry points as generated code calls them: the functions belong to the run-time class of the value. /repo/serde/se.py:1020. -/
def SeRec.guard (r : SeRec) (miss : ClassId → Option Exc) : SeRec :=
  { r with cls := fun named re cv sn v => match v with
      | .inst c as => match miss c with
        | some e => .error e
        | Option.none => r.cls named re cv sn (.inst c as)
      | v => r.cls named re cv sn v }

/-- Serialization with `n` units of fuel when functions may be missing; `to_obj` generates what is missing. Simplified as in `deHAt`.
/repo/serde/se.py:398-441, 1020. -/
def seHAt (env : Env) (miss : ClassId → Option Exc) : Nat → SeRec
  | 0 => { render := fun _ _ => .error .fuel, flat := fun _ _ => .error .fuel,
           cls := fun _ _ _ _ _ => .error .fuel, toObj := fun _ _ _ _ _ _ _ => .error .fuel }
  | n + 1 => { render := renderF env ((seHAt env miss n).guard miss), flat := flatF env (seHAt env miss n),
               cls := clsF env (seHAt env miss n), toObj := toObjF env (seHAt env miss n) }

/-- `from_dict` in a state of the process, functions missing or not. -/
def fromDictH (env : Env) (order : ClassId → List ClassId) (st : Gen) (o : DeOpts) (n : Nat) (c : Ty) (d : Val) : Res Val :=
  let st' := st.meetTy env order c
  (deHAt (st'.env env .de) (st'.missing env .de) n).fromObj true o.reuse o.numbers o.tagging c d

/-- `from_tuple` in a state of the process, functions missing or not. -/
def fromTupleH (env : Env) (order : ClassId → List ClassId) (st : Gen) (o : DeOpts) (n : Nat) (c : Ty) (d : Val) : Res Val :=
  let st' := st.meetTy env order c
  (deHAt (st'.env env .de) (st'.missing env .de) n).fromObj false o.reuse o.numbers o.tagging c d

/-- `to_dict` in a state of the process, functions missing or not. -/
def toDictH (env : Env) (order : ClassId → List ClassId) (st : Gen) (o : SeOpts) (n : Nat) (v : Val) : Res Val :=
  let st' := st.meetVal env order v
  (seHAt (st'.env env .se) (st'.missing env .se) n).toObj true o.reuse o.conv o.skipNone o.c o.tagging v

/-- `to_tuple` in a state of the process, functions missing or not. -/
def toTupleH (env : Env) (order : ClassId → List ClassId) (st : Gen) (o : SeOpts) (n : Nat) (v : Val) : Res Val :=
  let st' := st.meetVal env order v
  (seHAt (st'.env env .se) (st'.missing env .se) n).toObj false o.reuse o.conv o.skipNone o.c o.tagging v

end Verif
