import Verif.Spec.Collect
/-!
# Specification vocabulary: annotations told apart by the names of their parts
-/

namespace Verif.Spec

/-- The name of an annotation without components. -/
def leafName (env : Env) : Ty → Option String
  | .prim .int => some "int"
  | .prim .float => some "float"
  | .prim .bool => some "bool"
  | .prim .str => some "str"
  | .none => some "NoneType"
  | .any => some "Any"
  | .listB .list => some "list"
  | .setB .set => some "set"
  | .dequeB => some "deque"
  | .counterB => some "Counter"
  | .dictB .dict => some "dict"
  | .tupleB => some "tuple"
  | .enum e => some (env.enmName e)
  | .std k => some k
  | .dt .date => some "date"
  | .dt .datetime => some "datetime"
  | .dt .time => some "time"
  | .cls c => some (env.clsName c)
  | _ => none

/-- The word in front of the bracket, and what stands between the brackets. -/
def headParts : Ty → Option (String × List Ty)
  | .list .list t => some ("list", [t])
  | .set .set t => some ("set", [t])
  | .deque t => some ("deque", [t])
  | .dict .dict kt vt => some ("dict", [kt, vt])
  | .tuple ts => some ("tuple", ts)
  | .union [t, .none] => some ("Optional", [t])
  | .union ts => if ts.all (fun t => !t.isNone) then some ("Union", ts) else none
  | _ => none

/-- Letters and digits. -/
def Plain (s : String) : Prop := s ≠ "" ∧ ∀ ch ∈ s.toList, ch.isAlphanum = true

/-- The annotations in `L` have no components, and their names differ and consist of letters and digits. -/
structure NamesApart (env : Env) (L : Ty → Prop) : Prop where
  plain : ∀ t, L t → ∃ s, leafName env t = some s ∧ Plain s
  apart : ∀ t u s, L t → L u → leafName env t = some s → leafName env u = some s → t = u

/-- Annotations built from those in `L` by list, set, deque, dict, tuple, Optional and Union. -/
inductive BuiltFrom (L : Ty → Prop) : Ty → Prop
  | leaf {t} : L t → BuiltFrom L t
  | node {t h cs} : headParts t = some (h, cs) → cs ≠ [] → (∀ c ∈ cs, BuiltFrom L c) → BuiltFrom L t

/-- The values are strings of letters and digits, or ints written with digits only. -/
inductive PlainLit (env : Env) : Val → Prop
  | str {s : String} : (∀ ch ∈ s.toList, ch.isAlphanum = true) → PlainLit env (.str s)
  | int {i} : (∀ ch ∈ (env.W.strOf (.int i)).toList, ch.isAlphanum = true) → PlainLit env (.int i)

/-- Different ints are written differently. -/
def IntsApart (W : World) : Prop := ∀ i j, W.strOf (.int i) = W.strOf (.int j) → i = j

end Verif.Spec
