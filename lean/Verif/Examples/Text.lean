import Verif.Examples.World
import Verif.Spec.Formats
/-!
# A concrete world whose numerals can be read back

Numbers are written in unary so that reading them back is easy to prove.
-/

namespace Verif.Ex
open Spec

/-- `+111` for 3, `-11` for -2. -/
def showI (i : Int) : List Char :=
  match i with
  | .ofNat n => '+' :: List.replicate n '1'
  | .negSucc n => '-' :: List.replicate (n + 1) '1'

/-- Inverse of `showI`. -/
def readI (cs : List Char) : Option Int :=
  match cs with
  | '+' :: r => some (r.length : Int)
  | '-' :: r => some (-(r.length : Int))
  | _ => none

theorem readI_showI (i : Int) : readI (showI i) = some i := by
  cases i with
  | ofNat n => simp [showI, readI]
  | negSucc n => simp [showI, readI]; omega

/-- Numerator and denominator, separated by a slash. -/
def showQ (q : Rat) : List Char := showI q.num ++ '/' :: List.replicate q.den '1'

/-- Inverse of `showQ`. -/
def readQ (cs : List Char) : Option Rat :=
  match readI (cs.takeWhile (· != '/')) with
  | some i => some (mkRat i ((cs.dropWhile (· != '/')).length - 1))
  | none => none

theorem showI_ne (i : Int) : ∀ c ∈ showI i, (c != '/') = true := by
  intro c hc
  cases i with
  | ofNat n =>
    simp only [showI, List.mem_cons, List.mem_replicate] at hc
    rcases hc with rfl | ⟨_, rfl⟩ <;> rfl
  | negSucc n =>
    simp only [showI, List.mem_cons, List.mem_replicate] at hc
    rcases hc with rfl | ⟨_, rfl⟩ <;> rfl

theorem readQ_showQ (q : Rat) : readQ (showQ q) = some q := by
  unfold readQ showQ
  have h1 : (showI q.num ++ '/' :: List.replicate q.den '1').takeWhile (· != '/') = showI q.num := by
    rw [List.takeWhile_append_of_pos (showI_ne _)]; simp
  have h2 : (showI q.num ++ '/' :: List.replicate q.den '1').dropWhile (· != '/') = '/' :: List.replicate q.den '1' := by
    rw [List.dropWhile_append_of_pos (showI_ne _)]; simp
  rw [h1, h2, readI_showI]
  simp [Rat.mkRat_self]

/-- Text of a float. -/
def showF : Flt → List Char
  | .fin q => 'q' :: showQ q
  | .inf true => ['-', 'i']
  | .inf false => ['i']
  | .nan => ['n']

/-- Inverse of `showF`; integers are floats too. -/
def readF (cs : List Char) : Option Flt :=
  match cs with
  | 'q' :: r => (readQ r).map .fin
  | ['-', 'i'] => some (.inf true)
  | ['i'] => some (.inf false)
  | ['n'] => some .nan
  | cs => (readI cs).map (fun i => .fin i)

theorem readF_showF (x : Flt) : readF (showF x) = some x := by
  cases x with
  | fin q => simp [showF, readF, readQ_showQ]
  | inf b => cases b <;> rfl
  | nan => rfl

/-- `Ex.W` with these numerals. -/
def WT : World :=
  { W with
    intOfStr := fun s => readI s.toList
    floatOfStr := fun s => readF s.toList
    strOf := fun v => match v with
      | .int i => String.ofList (showI i)
      | .float x => String.ofList (showF x)
      | .bool true => "True"
      | .bool false => "False"
      | .none => "None"
      | _ => "?" }

theorem numText : NumText WT := by
  constructor
  · intro i; simp [WT, readI_showI]
  · intro x; simp [WT, readF_showF]

end Verif.Ex
