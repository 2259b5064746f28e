import Verif.Model.De
/-!
# What is generated when: scopes of decorated and undecorated dataclasses

`serialize` and `deserialize` generate functions into an object stored at `cls.__serde__`.  They run when a class is decorated, but
also when an undecorated dataclass is met: as the type of a field while another class is decorated, or as an argument of
`to_dict`/`from_dict`.  Which of these came first leaves traces.
-/

namespace Verif

/-- The part of `cls.__serde__` that depends on how it came about: the default for `reuse_instances`, and which functions have
been generated. /repo/serde/core.py:245-284. -/
structure GenScope where
  reuse : Bool
  se : Bool := false
  de : Bool := false
deriving DecidableEq

/-- `serialize` or `deserialize`. -/
inductive Side where
  | se
  | de
deriving DecidableEq

/-- `TO_DICT in scope.funcs` / `FROM_DICT in scope.funcs`, /repo/serde/se.py:371, /repo/serde/de.py:446. -/
def GenScope.has (s : GenScope) : Side → Bool
  | .se => s.se
  | .de => s.de

/-- `add_func(scope, TO_DICT, ...)` / `add_func(scope, FROM_DICT, ...)`, /repo/serde/se.py:312-326, /repo/serde/de.py:376-404. -/
def GenScope.put (s : GenScope) : Side → GenScope
  | .se => { s with se := true }
  | .de => { s with de := true }

/-- Default of the parameter `reuse_instances_default`: `False` for `serialize` (/repo/serde/se.py:203), `True` for `deserialize`
(/repo/serde/de.py:238). -/
def Side.reuseDflt : Side → Bool
  | .se => false
  | .de => true

/-- The state of the process: `__serde__` in each class's own namespace, and the classes beartype has been applied to. -/
structure Gen where
  scope : ClassId → Option GenScope := fun _ => Option.none
  strict : ClassId → Bool := fun _ => false

/-- `getattr(cls, "__serde__", None)`, which looks at base classes too. /repo/serde/se.py:367-370, /repo/serde/de.py:442-445. -/
def Gen.get (env : Env) (st : Gen) (c : ClassId) : Option GenScope :=
  match env.cls c with
  | some cd => cd.mro.findSome? st.scope
  | Option.none => Option.none

/-- `is_dataclass_without_se(cls)` / `is_dataclass_without_de(cls)`, /repo/serde/se.py:363-371, /repo/serde/de.py:438-446. -/
def Gen.without (env : Env) (st : Gen) (side : Side) (c : ClassId) : Bool :=
  match st.get env c with
  | some s => !s.has side
  | Option.none => true

/-- The beginning of `wrap`: apply beartype if type checking is strict, and give the class a scope of its own if it has none.
/repo/serde/se.py:244-263, /repo/serde/de.py:284-303. -/
def Gen.enter (st : Gen) (reuse strict : Bool) (c : ClassId) : Gen :=
  { scope := fun d => if d = c then some ((st.scope c).getD { reuse := reuse }) else st.scope d
    strict := fun d => st.strict d || (strict && d == c) }

/-- The end of `wrap`: the functions are there. /repo/serde/se.py:312-326, /repo/serde/de.py:376-404. -/
def Gen.put (st : Gen) (side : Side) (c : ClassId) : Gen :=
  { st with scope := fun d => if d = c then (st.scope c).map (·.put side) else st.scope d }

/-- The loop over `iter_types(cls)`: undecorated dataclasses are generated as well. `sub` is the recursive call.
/repo/serde/se.py:291-297, /repo/serde/de.py:340-346. -/
def genAll (env : Env) (side : Side) (sub : ClassId → Gen → Gen) (c : ClassId) : List ClassId → Gen → Gen
  | [], st => st
  | d :: ds, st => genAll env side sub c ds (if st.without env side d && d != c then sub d st else st)

/-- `serialize(cls, ...)` / `deserialize(cls, ...)`, /repo/serde/se.py:229-341, /repo/serde/de.py:270-421. `order c` lists the
dataclasses in `iter_types(c)`, a `set`, in the order in which Python happens to go through it; `stack` is `GENERATION_STACK`; `n`
bounds the depth (the stack never repeats a class, so one more than the number of classes is enough). Field types are generated
with the default configuration, that is with strict type checking. Simplified: generation does not fail. -/
def gen (env : Env) (order : ClassId → List ClassId) (side : Side) : Nat → List ClassId → Bool → Bool → ClassId → Gen → Gen
  | 0, _, _, _, _, st => st
  | n + 1, stack, reuse, strict, c, st =>
    if stack.contains c || (env.cls c).isNone then st else
    (genAll env side (gen env order side n (c :: stack) side.reuseDflt true) c (order c) (st.enter reuse strict c)).put side c

/-- Things a program does. -/
inductive GenEvent where
  /-- `@serde` on a class. /repo/serde/__init__.py:128-189 -/
  | decorate (c : ClassId)
  /-- `to_dict` or `to_tuple` of an instance of the class. -/
  | write (c : ClassId)
  /-- `from_dict` or `from_tuple` for the class. -/
  | read (c : ClassId)

/-- `to_obj` of an instance of class `c` generates what is missing, with type checking disabled; `from_obj` likewise.
/repo/serde/se.py:433-438, /repo/serde/de.py:560-565. -/
def Gen.meet (env : Env) (order : ClassId → List ClassId) (side : Side) (c : ClassId) (st : Gen) : Gen :=
  if st.without env side c then gen env order side (env.classes.length + 1) [] side.reuseDflt false c st else st

/-- The effect of one event. `@serde` passes the class's options to both, `serialize` first. Simplified: decorating happens before a
class is used otherwise (a class that has been used undecorated and is decorated afterwards is not modelled).
/repo/serde/__init__.py:150-186. -/
def Gen.step (env : Env) (order : ClassId → List ClassId) (st : Gen) : GenEvent → Gen
  | .decorate c => match env.cls c with
    | some cd =>
      gen env order .de (env.classes.length + 1) [] cd.reuseDflt (cd.typeCheck == .strict) c
        (gen env order .se (env.classes.length + 1) [] cd.reuseDflt (cd.typeCheck == .strict) c st)
    | Option.none => st
  | .write c => st.meet env order .se c
  | .read c => st.meet env order .de c

/-- A history. -/
def Gen.run (env : Env) (order : ClassId → List ClassId) (st : Gen) (h : List GenEvent) : Gen := h.foldl (Gen.step env order) st

/-- The class whose functions are used for class `c`: the first in its method resolution order that has a scope. Without any, the
class gets its own as soon as it is met. /repo/serde/se.py:398-405, /repo/serde/de.py:523-532. -/
def Gen.owner (env : Env) (st : Gen) (c : ClassId) : ClassId :=
  match env.cls c with
  | some cd => (cd.mro.find? (fun b => (st.scope b).isSome)).getD c
  | Option.none => c

/-- Class `c` as its generated functions treat it. For a class that has no scope so far: as they will once it is met.
Simplified: for a class that uses the functions of a base class this describes writing only (reading would also construct
an instance of `c` from the fields of the base class). -/
def Gen.classDef (env : Env) (st : Gen) (side : Side) (c : ClassId) (cd : ClassDef) : ClassDef :=
  let o := st.owner env c
  let od := (env.cls o).getD cd
  { od with name := cd.name, mro := cd.mro, hashable := cd.hashable
            reuseDflt := ((st.scope o).map (·.reuse)).getD side.reuseDflt
            typeCheck := if od.typeCheck = .coerce then .coerce else if st.strict c then .strict else .disabled }

/-- The class table in state `st`. -/
def Gen.env (env : Env) (st : Gen) (side : Side) : Env :=
  { env with classes := env.classes.map (fun p => (p.1, st.classDef env side p.1 p.2)) }

/-- The state in which `to_dict(v)` does its work. -/
def Gen.meetVal (env : Env) (order : ClassId → List ClassId) (st : Gen) : Val → Gen
  | .inst c _ => st.meet env order .se c
  | _ => st

/-- `to_dict` in a given state. -/
def toDictIn (env : Env) (order : ClassId → List ClassId) (st : Gen) (so : SeOpts) (n : Nat) (v : Val) : Res Val :=
  toDict ((st.meetVal env order v).env env .se) so n v

/-- `to_tuple` in a given state. -/
def toTupleIn (env : Env) (order : ClassId → List ClassId) (st : Gen) (so : SeOpts) (n : Nat) (v : Val) : Res Val :=
  toTuple ((st.meetVal env order v).env env .se) so n v

/-- The state in which `from_dict(c, ...)` does its work. -/
def Gen.meetTy (env : Env) (order : ClassId → List ClassId) (st : Gen) : Ty → Gen
  | .cls c => st.meet env order .de c
  | .gen c _ => st.meet env order .de c
  | _ => st

/-- `from_dict` in a given state. -/
def fromDictIn (env : Env) (order : ClassId → List ClassId) (st : Gen) (o : DeOpts) (n : Nat) (c : Ty) (d : Val) : Res Val :=
  fromDict ((st.meetTy env order c).env env .de) o n c d

/-- `from_tuple` in a given state. -/
def fromTupleIn (env : Env) (order : ClassId → List ClassId) (st : Gen) (o : DeOpts) (n : Nat) (c : Ty) (d : Val) : Res Val :=
  fromTuple ((st.meetTy env order c).env env .de) o n c d

end Verif
