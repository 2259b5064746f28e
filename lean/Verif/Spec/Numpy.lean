import Verif.Model.Numpy
/-!
# Specification: NumPy values

What an array is, and where its elements are to be found in nested lists.
-/

namespace Verif.Spec.Np
open Verif Verif.Np

/-- The Python object of an element of the type: floats are exactly representable. -/
inductive Elem (N : World) : DType → Val → Prop
  | bool (b : Bool) : Elem N .bool (.bool b)
  | signed (bits : Nat) (i : Int) : -(2 ^ (bits - 1) : Int) ≤ i → i < (2 ^ (bits - 1) : Int) → Elem N (.int true bits) (.int i)
  | unsigned (bits : Nat) (i : Int) : 0 ≤ i → i < (2 ^ bits : Int) → Elem N (.int false bits) (.int i)
  | float (bits : Nat) (f : Flt) : N.round bits f = f → Elem N (.float bits) (.float f)

/-- As many elements as the shape says, all of the type `dt`. -/
structure Filled (N : World) (dt : DType) (a : Arr) : Prop where
  count : a.data.length = a.shape.foldr (· * ·) 1
  elems : ∀ v ∈ a.data, Elem N dt v

/-- A dimension of length zero can only be the last one. -/
def ZeroLast (s : List Nat) : Prop := ∀ pre post, s = pre ++ 0 :: post → post = []

/-- `idx` is an index into an array of this shape. -/
def Index : List Nat → List Nat → Prop
  | [], [] => True
  | n :: s, i :: idx => i < n ∧ Index s idx
  | _, _ => False

/-- The position of an index in row-major order. -/
def offset : List Nat → List Nat → Nat
  | _ :: s, i :: idx => i * s.foldr (· * ·) 1 + offset s idx
  | _, _ => 0

/-- `d[i][j]...` -/
def walk : Val → List Nat → Option Val
  | v, [] => some v
  | .list xs, i :: idx => match xs[i]? with
    | some x => walk x idx
    | none => none
  | _, _ :: _ => none

/-- Data that is a block of this shape: every part of a dimension has the same length. -/
def Block : List Nat → Val → Prop
  | [], .list _ => False
  | [], .tuple _ => False
  | [], _ => True
  | n :: s, .list xs => xs.length = n ∧ ∀ x ∈ xs, Block s x
  | n :: s, .tuple xs => xs.length = n ∧ ∀ x ∈ xs, Block s x
  | _ :: _, _ => False

/-- `d[i][j]...`, also in tuples. -/
def pick : Val → List Nat → Option Val
  | v, [] => some v
  | .list xs, i :: idx => match xs[i]? with
    | some x => pick x idx
    | none => none
  | .tuple xs, i :: idx => match xs[i]? with
    | some x => pick x idx
    | none => none
  | _, _ :: _ => none

/-- Data that every format keeps: numbers and None in nested lists. -/
inductive Plain : Val → Prop
  | none : Plain .none
  | bool (b : Bool) : Plain (.bool b)
  | int (i : Int) : Plain (.int i)
  | float (f : Flt) : Plain (.float f)
  | list (xs : List Val) : (∀ x ∈ xs, Plain x) → Plain (.list xs)

/-- Arrays that can be told from their lists by their type: with the element type that is given, or with the one NumPy takes for its elements. -/
def ArrFits (N : World) : ArrTy → Arr → Prop
  | .typed dt, a => a.dtype = dt ∧ Filled N dt a ∧ ZeroLast a.shape
  | .jax dts, a => dts.getLast? = some a.dtype ∧ Filled N a.dtype a ∧ ZeroLast a.shape
  | .bare, a => Filled N a.dtype a ∧ ZeroLast a.shape ∧ (a.dtype = .float 64 ∨ (a.data ≠ [] ∧ (a.dtype = .bool ∨ a.dtype = .int true 64)))

/-- Values of a type (without datetimes). -/
def Fits (N : World) : NTy → NVal → Prop
  | .scalar dt, .scalar dt' v => dt' = dt ∧ Elem N dt v
  | .arr t, .arr a => ArrFits N t a
  | .list t, .list xs => ∀ x ∈ xs, Fits N t x
  | .opt _, .none => True
  | .opt t, v => Fits N t v
  | _, _ => False

/-- The point in time, in microseconds since 1970; `none` for NaT and finer units. -/
def micros (N : World) : Dt64 → Option Int
  | .nat => none
  | .at .year n => some (86400000000 * N.yearDay n)
  | .at .month n => some (86400000000 * N.monthDay n)
  | .at .week n => some (604800000000 * n)
  | .at .day n => some (86400000000 * n)
  | .at .hour n => some (3600000000 * n)
  | .at .minute n => some (60000000 * n)
  | .at .second n => some (1000000 * n)
  | .at .ms n => some (1000 * n)
  | .at .us n => some n
  | .at _ _ => none

/-- NumPy reads what `isoformat` writes: a date as days, a datetime as the same point in time. -/
structure Calendar (N : World) : Prop where
  date : ∀ d s, N.dateIso d = some s → N.readTime s = .ok (.at .day d)
  time : ∀ u s, N.timeIso u = some s → ∃ d, N.readTime s = .ok d ∧ micros N d = some u

/-- The point in time lies in the years 1-9999, where Python has dates and datetimes. -/
def InYears (N : World) (m : Int) : Prop := (∀ d, m = 86400000000 * d → (N.dateIso d).isSome = true) ∧ (N.timeIso m).isSome = true

end Verif.Spec.Np
