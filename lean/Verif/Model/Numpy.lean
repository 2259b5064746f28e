import Verif.Py.Value
/-!
# NumPy scalars, datetimes and arrays

Fields whose type is a NumPy scalar, `datetime64`, an `ndarray` (with or without element type) or a jaxtyping array get one expression each in the
generated functions.  This module models those expressions, and as much of NumPy (version 2) as they need.
-/

namespace Verif.Np

/-- Element types. `int signed bits` stands for `int8` ... `uint64`, `float bits` for `float16` ... `float64`. /repo/serde/numpy.py:52-56.
Simplified: no strings, complex numbers, structured types, objects. -/
inductive DType where
  | bool
  | int (signed : Bool) (bits : Nat)
  | float (bits : Nat)
deriving DecidableEq

/-- Whether a machine integer holds the number. Models what `numpy.int32(x)` accepts, /repo/serde/numpy.py:68. -/
def inRange (signed : Bool) (bits : Nat) (i : Int) : Bool :=
  if signed then decide (-(2 ^ (bits - 1) : Int) ≤ i ∧ i < (2 ^ (bits - 1) : Int)) else decide (0 ≤ i ∧ i < (2 ^ bits : Int))

/-- Units of `datetime64`, /repo/serde/numpy.py:58-62. -/
inductive TUnit where | year | month | week | day | hour | minute | second | ms | us | ns | ps | fs | as
deriving DecidableEq

/-- A `numpy.datetime64`: a number of units since 1970, or NaT. /repo/serde/numpy.py:58-62, 90-91. -/
inductive Dt64 where
  | nat
  | at (unit : TUnit) (ticks : Int)
deriving DecidableEq

/-- What NumPy and `datetime` do with numbers and dates: rounding to a float type; conversions between kinds of elements; the element type chosen for a list
of mixed elements; the first days of years and months; `date.isoformat`, `datetime.isoformat` (`none` outside the years 1-9999); the reader of
`numpy.datetime64(s)`. Parameters of the model, used at /repo/serde/numpy.py:64-102. -/
structure World where
  round : Nat → Flt → Flt
  cast : DType → Val → Except PErr Val
  infer : List Val → DType
  yearDay : Int → Int
  monthDay : Int → Int
  dateIso : Int → Option String
  timeIso : Int → Option String
  readTime : String → Except PErr Dt64

/-- An `ndarray`: element type, shape, elements in row-major order as Python objects. /repo/serde/numpy.py:28-30. -/
structure Arr where
  dtype : DType
  shape : List Nat
  data : List Val

/-- Number of elements of a shape. /repo/serde/numpy.py:87-88. -/
def size : List Nat → Nat
  | [] => 1
  | n :: s => n * size s

/-- The rows of an array: `n` pieces of length `k`. /repo/serde/numpy.py:87-88 (`tolist`). -/
def chunks (k : Nat) : Nat → List Val → List (List Val)
  | 0, _ => []
  | n + 1, l => l.take k :: chunks k n (l.drop k)

/-- `a.tolist()`: nested lists, one level per dimension; a number for an array without dimensions. /repo/serde/numpy.py:87-88. -/
def tolist : List Nat → List Val → Val
  | [], d => d.headD .none
  | n :: s, d => .list ((chunks (size s) n d).map (tolist s))

mutual
/-- The shape `numpy.array(v)` finds; `none` if the parts differ ("inhomogeneous shape"). /repo/serde/numpy.py:93-102. -/
def shapeOf : Val → Option (List Nat)
  | .list xs => joinShapes (shapesOf xs)
  | .tuple xs => joinShapes (shapesOf xs)
  | _ => some []
/-- The shapes of the parts. /repo/serde/numpy.py:93-102. -/
def shapesOf : List Val → Option (List (List Nat))
  | [] => some []
  | x :: xs => match shapeOf x, shapesOf xs with
    | some s, some ss => some (s :: ss)
    | _, _ => Option.none
/-- One dimension more, if the parts have the same shape; an empty list has the shape `(0,)`. /repo/serde/numpy.py:93-102. -/
def joinShapes : Option (List (List Nat)) → Option (List Nat)
  | Option.none => Option.none
  | some [] => some [0]
  | some (s :: ss) => if ss.all (· == s) then some ((ss.length + 1) :: s) else Option.none
end

mutual
/-- The elements of nested lists, in order. /repo/serde/numpy.py:93-102. -/
def leaves : Val → List Val
  | .list xs => leavesL xs
  | .tuple xs => leavesL xs
  | v => [v]
/-- The same for a list of parts. /repo/serde/numpy.py:93-102. -/
def leavesL : List Val → List Val
  | [] => []
  | x :: xs => leaves x ++ leavesL xs
end

/-- `numpy.int32(x)`, `numpy.bool_(x)`, ...: also how the elements of `numpy.array(xs, dtype=...)` are made. An integer that does not fit is an
OverflowError. Other conversions (from strings, floats to integers) are a parameter. /repo/serde/numpy.py:67-68, 93-102. -/
def conv (N : World) : DType → Val → Except PErr Val
  | .bool, .bool b => .ok (.bool b)
  | .bool, .int i => .ok (.bool (i != 0))
  | .int s b, .int i => if inRange s b i then .ok (.int i) else .error .overflow
  | .int _ _, .bool x => .ok (.int (if x then 1 else 0))
  | .float b, .float f => .ok (.float (N.round b f))
  | .float b, .int i => .ok (.float (N.round b (.fin i)))
  | dt, v => N.cast dt v

/-- Kinds of elements for `inferType`. /repo/serde/numpy.py:94-95. -/
def isBoolV : Val → Bool
  | .bool _ => true
  | _ => false

/-- A Python `int` or `bool` within a machine integer, /repo/serde/numpy.py:94-95. -/
def isIntV (signed : Bool) : Val → Bool
  | .bool _ => true
  | .int i => inRange signed 64 i
  | _ => false

/-- A Python number, /repo/serde/numpy.py:94-95. -/
def isFloatV : Val → Bool
  | .float _ => true
  | _ => false

/-- The element type of `numpy.array(xs)` without `dtype`: that of booleans, `int64`, `uint64` or `float64`; `float64` if there are no elements.
/repo/serde/numpy.py:94-95. Simplified: lists of mixed kinds are a parameter. -/
def inferType (N : World) (xs : List Val) : DType :=
  if xs.isEmpty then .float 64
  else if xs.all isBoolV then .bool
  else if xs.all (isIntV true) then .int true 64
  else if xs.all (isIntV false) then .int false 64
  else if xs.all isFloatV then .float 64
  else N.infer xs

/-- `numpy.array(v)` or `numpy.array(v, dtype=dt)`. /repo/serde/numpy.py:93-102. Simplified: at most 64 dimensions are not checked. -/
def npArray (N : World) (dt : Option DType) (v : Val) : Except PErr Arr :=
  match shapeOf v with
  | Option.none => .error .value
  | some s =>
    let t := dt.getD (inferType N (leaves v))
    match (leaves v).mapM (conv N t) with
    | .ok xs => .ok { dtype := t, shape := s, data := xs }
    | .error e => .error e

/-- Array types: `np.ndarray` or `npt.NDArray`; `npt.NDArray[T]`; a jaxtyping array with its list of element types.
/repo/serde/numpy.py:37-50, 70-85. -/
inductive ArrTy where
  | bare
  | typed (dt : DType)
  | jax (dts : List DType)

/-- The element type an array is read with: the last one of a jaxtyping array. /repo/serde/numpy.py:93-102. -/
def ArrTy.dtype : ArrTy → Option DType
  | .bare => Option.none
  | .typed dt => some dt
  | .jax dts => dts.getLast?

/-- Types of fields. /repo/serde/se.py:934-962, /repo/serde/de.py:936-965. Simplified: of the containers only lists and Optional. -/
inductive NTy where
  | scalar (dt : DType)
  | datetime
  | arr (t : ArrTy)
  | list (t : NTy)
  | opt (t : NTy)

/-- Values of such fields. /repo/serde/numpy.py:28-35. -/
inductive NVal where
  | none
  | scalar (dt : DType) (v : Val)
  | datetime (d : Dt64)
  | arr (a : Arr)
  | list (xs : List NVal)

/-- `d.item()` of a `datetime64`: a date for units of at least a day, a datetime for those down to microseconds, `int` for finer ones and outside the
years 1-9999, `None` for NaT. Only dates and datetimes have `isoformat`; the result is that string. /repo/serde/numpy.py:90-91. -/
def itemIso (N : World) : Dt64 → Except PErr Val
  | .nat => .error .attr
  | .at u n =>
    let text : Option String := match u with
      | .year => N.dateIso (N.yearDay n)
      | .month => N.dateIso (N.monthDay n)
      | .week => N.dateIso (7 * n)
      | .day => N.dateIso n
      | .hour => N.timeIso (3600000000 * n)
      | .minute => N.timeIso (60000000 * n)
      | .second => N.timeIso (1000000 * n)
      | .ms => N.timeIso (1000 * n)
      | .us => N.timeIso n
      | .ns | .ps | .fs | .as => Option.none
    match text with
    | some s => .ok (.str s)
    | Option.none => .error .attr

/-- The generated expression for a value, by its declared type: `x.item().isoformat()`, `x.item()`, `x.tolist()`; a list comprehension; `None` kept for
Optional. /repo/serde/numpy.py:64-65, 87-91, /repo/serde/se.py:934-962, 1024-1048. Simplified: values of another kind raise AttributeError, also where
NumPy would do something with them. -/
def write (N : World) : NTy → NVal → Except PErr Val
  | .scalar _, .scalar _ v => .ok v
  | .datetime, .datetime d => itemIso N d
  | .arr _, .arr a => .ok (tolist a.shape a.data)
  | .list t, .list xs => match xs.mapM (write N t) with
    | .ok ys => .ok (.list ys)
    | .error e => .error e
  | .opt _, .none => .ok .none
  | .opt t, v => write N t v
  | _, _ => .error .attr

/-- The generated expression for data, by the declared type: `numpy.int32(d)`, `numpy.datetime64(d)`, `numpy.array(d, dtype=...)`; a list comprehension;
`None` kept for Optional. A jaxtyping type without element types is an IndexError. /repo/serde/numpy.py:67-68, 93-102, /repo/serde/de.py:936-965, 1062-1110. Simplified: data for a list that is no list or tuple is a TypeError; a scalar
type is not given lists. -/
def read (N : World) : NTy → Val → Except PErr NVal
  | .scalar dt, d => match conv N dt d with
    | .ok v => .ok (.scalar dt v)
    | .error e => .error e
  | .datetime, .str s => match N.readTime s with
    | .ok d => .ok (.datetime d)
    | .error e => .error e
  | .datetime, _ => .error .value
  | .arr (.jax []), _ => .error .index
  | .arr t, d => match npArray N t.dtype d with
    | .ok a => .ok (.arr a)
    | .error e => .error e
  | .list t, .list ds => match ds.mapM (read N t) with
    | .ok xs => .ok (.list xs)
    | .error e => .error e
  | .list t, .tuple ds => match ds.mapM (read N t) with
    | .ok xs => .ok (.list xs)
    | .error e => .error e
  | .list _, _ => .error .type
  | .opt _, .none => .ok .none
  | .opt t, d => read N t d

/-- `from_dict(T, d)` with such a type itself (`from_obj`): arrays are made by `deserialize_numpy_array_direct`, scalars by calling the type; jaxtyping
types are not looked at, and calling one is an error. Exceptions are wrapped in SerdeError. /repo/serde/de.py:562-634, /repo/serde/numpy.py:104-109.
Simplified: data that already has the type is left out. -/
def readDirect (N : World) : NTy → Val → Res NVal
  | .arr (.jax _), _ => .error (.wrap (.py (.raised "RuntimeError")))
  | .list t, .list ds => match ds.mapM (readDirect N t) with
    | .ok xs => .ok (.list xs)
    | .error e => .error (.wrap e)
  | .list t, .tuple ds => match ds.mapM (readDirect N t) with
    | .ok xs => .ok (.list xs)
    | .error e => .error (.wrap e)
  | .opt _, .none => .ok .none
  | .opt t, d => match readDirect N t d with
    | .ok v => .ok v
    | .error e => .error (.wrap e)
  | t, d => match read N t d with
    | .ok v => .ok v
    | .error e => .error (.wrap (.py e))

/-- The entry of a field in `to_dict`. /repo/serde/se.py:637-690. -/
def writeField (N : World) (attrs : List (String × NVal)) (f : String × NTy) : Except PErr (Val × Val) :=
  match attrs.lookup f.1 with
  | some v => match write N f.2 v with
    | .ok d => .ok (.str f.1, d)
    | .error e => .error e
  | Option.none => .error .attr

/-- `to_dict` of an instance of a class with such fields: one entry per field. /repo/serde/se.py:637-690. Simplified: no options of fields and classes. -/
def writeCls (N : World) (fs : List (String × NTy)) (attrs : List (String × NVal)) : Except PErr Val :=
  match fs.mapM (writeField N attrs) with
  | .ok kvs => .ok (.dict .plain kvs)
  | .error e => .error e

/-- The entry of a dict. /repo/serde/de.py:1404-1407. -/
def entry : List (Val × Val) → String → Option Val
  | [], _ => Option.none
  | (.str s, d) :: kvs, nm => if s == nm then some d else entry kvs nm
  | _ :: kvs, nm => entry kvs nm

/-- A field is read from its entry; without one it is a KeyError here. /repo/serde/de.py:1395-1426. -/
def readField (N : World) (kvs : List (Val × Val)) (f : String × NTy) : Except PErr (String × NVal) :=
  match entry kvs f.1 with
  | some d => match read N f.2 d with
    | .ok v => .ok (f.1, v)
    | .error e => .error e
  | Option.none => .error .key

/-- `from_dict` of such a class. /repo/serde/de.py:1395-1426, 1550-1626. Simplified: no options of fields and classes, no defaults, no type check of the
constructor. -/
def readCls (N : World) (fs : List (String × NTy)) : Val → Except PErr (List (String × NVal))
  | .dict _ kvs => fs.mapM (readField N kvs)
  | _ => .error .type

end Verif.Np
