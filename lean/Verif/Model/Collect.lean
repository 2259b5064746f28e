import Verif.Model.Core
/-!
# compat.py: `iter_types`
-/

namespace Verif

/-- What `iter_types` puts into its set: dataclasses, the markers `Optional`, `Union`, `list`, `set`, `deque`, `Counter`, `tuple`,
`dict`, and every other annotation. /repo/serde/compat.py:339-404. -/
inductive TypeItem where
  | cls (c : ClassId)
  | head (name : String)
  | leaf (t : Ty)

/-- `cls in lst` for a dataclass, /repo/serde/compat.py:349. -/
def TypeItem.isCls (c : ClassId) : TypeItem → Bool
  | .cls d => d == c
  | _ => false

mutual
/-- `iter_types`'s inner `recursive`, /repo/serde/compat.py:348-401; the argument is the set so far, `into` enters a dataclass and
`none` means that it did not finish. Simplified: the set is a list, and the early return for anything but a dataclass (which would
add nothing new) is left out; forward references are not modelled. -/
def typesIn (into : ClassId → List TypeItem → Option (List TypeItem)) : Ty → List TypeItem → Option (List TypeItem)
  | .cls c, l => into c l
  | .union ts, l =>
    if (Ty.union ts).isOpt then typesInHd into ts (.head "Optional" :: l) else typesInL into ts (.head "Union" :: l)
  | .list _ t, l => typesIn into t (.head "list" :: l)
  | .listB _, l => some (.head "list" :: l)
  | .set _ t, l => typesIn into t (.head "set" :: l)
  | .setB _, l => some (.head "set" :: l)
  | .deque t, l => typesIn into t (.head "deque" :: l)
  | .dequeB, l => some (.head "deque" :: l)
  | .counter t, l => typesIn into t (.head "Counter" :: l)
  | .counterB, l => some (.head "Counter" :: l)
  | .tuple ts, l => typesInL into ts (.head "tuple" :: l)
  | .tupleV t, l => typesIn into t (.head "tuple" :: l)
  | .tupleB, l => some (.head "tuple" :: l)
  | .dict _ kt vt, l => match typesIn into kt (.head "dict" :: l) with
    | some l => typesIn into vt l
    | Option.none => Option.none
  | .dictB _, l => some (.head "dict" :: l)
  | .alias _ t, l => typesIn into t l
  | t, l => some (.leaf t :: l)
/-- Visit all of a list of annotations. -/
def typesInL (into : ClassId → List TypeItem → Option (List TypeItem)) : List Ty → List TypeItem → Option (List TypeItem)
  | [], l => some l
  | t :: ts, l => match typesIn into t l with
    | some l => typesInL into ts l
    | Option.none => Option.none
/-- Visit the first of a list of annotations. -/
def typesInHd (into : ClassId → List TypeItem → Option (List TypeItem)) : List Ty → List TypeItem → Option (List TypeItem)
  | [], l => some l
  | t :: _, l => typesIn into t l
end

/-- Entering a dataclass, /repo/serde/compat.py:349-357; at most `n` dataclasses may be entered inside each other.
A class that is not a dataclass is listed too. -/
def typesCls (env : Env) : Nat → ClassId → List TypeItem → Option (List TypeItem)
  | 0, c, l => if l.any (TypeItem.isCls c) then some l else Option.none
  | n + 1, c, l =>
    if l.any (TypeItem.isCls c) then some l else
    match env.cls c with
    | some cd => typesInL (typesCls env n) cd.walkTypes (.cls c :: l)
    | Option.none => some (.cls c :: l)

/-- `iter_types(cls)`, /repo/serde/compat.py:339-404. -/
def iterTypes (env : Env) (c : ClassId) : Option (List TypeItem) := typesCls env (env.classes.length + 1) c []

end Verif
