import Verif.Model.De
/-!
# A concrete world, used by the `example`s that accompany the theorems
-/

namespace Verif.Ex

/-- `int("...")` on plain decimal numerals. -/
def parseInt (s : String) : Option Int :=
  let nat (cs : List Char) : Option Nat := if !cs.isEmpty && cs.all Char.isDigit then some (Nat.ofDigitChars 10 cs 0) else none
  match s.toList with
  | '-' :: cs => (nat cs).map (fun n => -(n : Int))
  | cs => (nat cs).map (fun n => (n : Int))

/-- Behaviour of Python built-ins, good enough for examples: `int("12")`, `str(12)`, UUID-like classes that keep their string. -/
def W : World where
  intOfStr := parseInt
  floatOfStr := fun s => (parseInt s).map (fun i => .fin i)
  floatOfInt := fun i => some (.fin i)
  strOf := fun v => match v with
    | .int i => toString i
    | .bool true => "True"
    | .bool false => "False"
    | .none => "None"
    | _ => "?"
  primOther := fun _ _ => .error .type
  stdCtor := fun k v => match v with
    | .str s => .ok (.std k s)
    | _ => .error .type
  dtParse := fun k v => match v with
    | .str s => .ok (.dt k s)
    | _ => .error .type
  stdSub := fun _ _ => false
  stdTruthy := fun _ _ => true

/-- beartype looks at the first element. -/
def P : Picker where
  pick := List.head?
  pickKV := List.head?
  pick_mem := fun _ _ h => List.mem_of_head? h
  pickKV_mem := fun _ _ h => List.mem_of_head? h

/-- An environment with the given classes. -/
def mk (classes : List (ClassId × ClassDef)) : Env := { W := W, P := P, classes := classes }

end Verif.Ex
