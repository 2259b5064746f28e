import Verif.Model.Scopes
/-!
# `@serialize` and `@deserialize` applied separately

Instead of `@serde`, a class can be given `@serialize(...)` and `@deserialize(...)`, each with its own arguments, in either order and more
than once.  Every application renders its functions with its own arguments, except for four defaults that are kept in the scope object
`cls.__serde__`: the first application creates it, later ones find it.
-/

namespace Verif

/-- One application of `serialize` or `deserialize` to a class: the arguments. Those the function does not have (`class_serializer` of
`deserialize`, `deny_unknown_fields` and `class_deserializer` of `serialize`) are left at their defaults. Left out: `serializer=`,
`deserializer=` (see Model/Legacy.lean) and `serialize_class_var=` (see Model/ClassVars.lean).
/repo/serde/se.py:199-215, /repo/serde/de.py:234-250. -/
structure Deco where
  side : Side
  case : Option (String → String) := Option.none
  reuse : Bool
  conv : Bool := false
  skipDefault : Bool := false
  skipNone : Bool := false
  tagging : Tagging := .external
  typeCheck : TypeCheck := .strict
  transparent : Bool := false
  denyUnknown : Bool := false
  classSer : Option ClsSer := Option.none
  classDe : Option ClsDe := Option.none

/-- `@serialize` / `@deserialize` without arguments. /repo/serde/se.py:199-215, /repo/serde/de.py:234-250. -/
def Deco.bare (side : Side) : Deco := { side := side, reuse := side.reuseDflt }

/-- The four defaults in the scope object. /repo/serde/core.py:273-281. -/
structure ScopeDflts where
  reuse : Bool
  conv : Bool
  skipDefault : Bool
  skipNone : Bool

/-- A class after some applications: the scope's defaults once there is a scope, whether beartype was applied to the class, and the
applications that rendered the functions now in `scope.funcs`. /repo/serde/core.py:245-284. -/
structure DecoState where
  dflts : Option ScopeDflts := Option.none
  beartype : Bool := false
  se : Option Deco := Option.none
  de : Option Deco := Option.none

/-- `wrap(cls)`: beartype if the check is strict; a scope with this application's defaults unless the class has one; the functions of this
side are rendered anew. `scope.transparent` is overwritten before the functions are rendered, so each side keeps its own.
/repo/serde/se.py:229-341, /repo/serde/de.py:270-421. -/
def DecoState.apply (st : DecoState) (d : Deco) : DecoState :=
  { dflts := some (st.dflts.getD { reuse := d.reuse, conv := d.conv, skipDefault := d.skipDefault, skipNone := d.skipNone })
    beartype := st.beartype || d.typeCheck == .strict
    se := match d.side with | .se => some d | .de => st.se
    de := match d.side with | .se => st.de | .de => some d }

/-- The decorators of a class, innermost first (that is, in the order in which Python applies them). -/
def DecoState.run (ds : List Deco) : DecoState := ds.foldl DecoState.apply {}

/-- `to_obj`/`from_obj` with a class that has no function for this side: it is generated with the default arguments, type checking
disabled. /repo/serde/se.py:433-438, /repo/serde/de.py:560-565. -/
def DecoState.meet (st : DecoState) (side : Side) : DecoState :=
  match side with
  | .se => if st.se.isSome then st else st.apply { Deco.bare .se with typeCheck := .disabled }
  | .de => if st.de.isSome then st else st.apply { Deco.bare .de with typeCheck := .disabled }

/-- The class as `to_dict` treats it: the arguments of the application that rendered the function, with the four defaults of the scope.
/repo/serde/se.py:608-622, 653-657, 763-840. -/
def DecoState.seDef (st : DecoState) (cd : ClassDef) : ClassDef :=
  match st.se, st.dflts with
  | some d, some s =>
    { cd with seCase := d.case, tagging := d.tagging, typeCheck := d.typeCheck, transparent := d.transparent, classSer := d.classSer
              reuseDflt := s.reuse, convDflt := s.conv, skipIfDefaultDflt := s.skipDefault, skipIfNoneDflt := s.skipNone }
  | _, _ => cd

/-- The class as `from_dict` treats it; of the scope's defaults it uses `reuse_instances_default` only. The constructor checks its arguments
if any application put beartype on the class. Simplified: `type_check=coerce` on a class that also has beartype is treated as `coerce` alone.
/repo/serde/de.py:281-303, 1319, 1366, 1510-1660. -/
def DecoState.deDef (st : DecoState) (cd : ClassDef) : ClassDef :=
  match st.de, st.dflts with
  | some d, some s =>
    { cd with deCase := d.case, tagging := d.tagging, transparent := d.transparent, classDe := d.classDe, denyUnknown := d.denyUnknown
              reuseDflt := s.reuse
              typeCheck := if d.typeCheck = .coerce then .coerce else if st.beartype then .strict else .disabled }
  | _, _ => cd

/-- The class table after the applications `apps c` to each class `c`, as writing or reading sees it. Only for classes to which a decorator
was applied (others may use functions of a base class, see Model/Scopes.lean). -/
def Env.made (env : Env) (apps : ClassId → List Deco) (side : Side) : Env :=
  { env with classes := env.classes.map fun p => (p.1, match side with
      | .se => ((DecoState.run (apps p.1)).meet .se).seDef p.2
      | .de => ((DecoState.run (apps p.1)).meet .de).deDef p.2) }

/-- `@serde(...)`: the arguments go to `serialize`, then to `deserialize`. `d` holds the arguments; its side does not matter.
/repo/serde/__init__.py:150-186. -/
def serdeApps (d : Deco) : List Deco :=
  [{ d with side := .se, denyUnknown := false, classDe := Option.none }, { d with side := .de, classSer := Option.none }]

end Verif
