/-!
# Python values, exceptions and built-ins used by pyserde

These definitions model the Python runtime underneath /repo/serde (dict lookup, iteration, equality,
construction of containers).  Each cites the places in /repo that rely on it.
-/

namespace Verif

/-- A Python float.  Models: Python `float`, used for `PRIMITIVES` (/repo/serde/compat.py:926).
Simplified: finite floats are exact rationals (rounding is a parameter of `World`), `-0.0` is `0.0`. -/
inductive Flt where
  | fin (q : Rat)
  | inf (neg : Bool)
  | nan
deriving DecidableEq

/-- Identity of a dataclass (two classes may share a `__name__`). Models `type` objects for dataclasses, /repo/serde/core.py:245-256. -/
abbrev ClassId := String
/-- Identity of an enum class, /repo/serde/compat.py:929-937. -/
abbrev EnumId := String

/-- Which dict class a mapping value is: `dict`, `defaultdict` (with the name of its factory) or `Counter`.
/repo/serde/compat.py:751-777, 880-894. -/
inductive DictK where
  | plain
  | deflt (factory : String)
  | counter
deriving DecidableEq

/-- The three classes of `DateTimeTypes`, /repo/serde/compat.py:1055-1061. `datetime` is a subclass of `date`. -/
inductive DtK where
  | date | datetime | time
deriving DecidableEq

/-- Python values pyserde handles.
`std k s` is an instance of a str-convertible class `k` (UUID, Path, Decimal, ...: `StrSerializableTypes`,
/repo/serde/compat.py:1045-1052) whose `str()` is `s`; `dt k s` is a date/datetime/time with `isoformat()` `s`.
`inst c attrs` is an instance of dataclass `c`.
Simplified: sets and dicts are insertion-ordered lists; primitive subclasses, bytes and numpy values are absent;
values are immutable. -/
inductive Val where
  | none
  | bool (b : Bool)
  | int (i : Int)
  | float (f : Flt)
  | str (s : String)
  | list (xs : List Val)
  | tuple (xs : List Val)
  | deque (xs : List Val)
  | set (frozen : Bool) (xs : List Val)
  | dict (k : DictK) (kvs : List (Val × Val))
  | enum (e : EnumId) (m : String)
  | std (k : String) (s : String)
  | dt (k : DtK) (s : String)
  | inst (c : ClassId) (attrs : List (String × Val))

instance : Inhabited Val := ⟨.none⟩

/-- Exceptions that Python code outside pyserde's control can raise (built-ins and user callbacks).
`serde` is a SerdeError raised by such code, `raised s` any other exception class.
Models the `except` clauses of /repo/serde/de.py:404, 630-634, 1422-1425, /repo/serde/core.py:1159, 1179. -/
inductive PErr where
  | key | type | value | attr | index | overflow | serde
  | raised (s : String)
deriving DecidableEq

/-- Exceptions.
* `py e`: an ordinary exception;
* `missing f`: `SerdeError("missing required field 'f' ...")`, /repo/serde/de.py:1404-1407;
* `serde why`: any other SerdeError raised by pyserde itself;
* `wrap e`: `SerdeError(e)`, /repo/serde/de.py:634, /repo/serde/se.py:466;
* `user e`: `UserError(e)`, /repo/serde/de.py:1425;
* `fuel`: artefact of the model (recursion budget exhausted); never caught.
Simplified: messages are dropped. -/
inductive Exc where
  | py (e : PErr)
  | missing (f : String)
  | serde (why : String)
  | wrap (e : Exc)
  | user (e : Exc)
  | fuel
deriving DecidableEq

/-- Result of evaluating a Python expression. -/
abbrev Res (α : Type) := Except Exc α

/-- Is the exception an instance of `SerdeError` (/repo/serde/compat.py:92)? -/
def Exc.isSerde : Exc → Bool
  | .missing _ => true
  | .serde _ => true
  | .wrap _ => true
  | .py .serde => true
  | _ => false

/-- Is the exception an instance of `KeyError` (caught at /repo/serde/de.py:1404)? -/
def Exc.isKey : Exc → Bool
  | .py .key => true
  | _ => false

/-- Run external code: its exceptions become ordinary exceptions. Models calls of user callbacks and built-ins
(/repo/serde/de.py:1019, /repo/serde/se.py:1006). -/
def liftP {α : Type} : Except PErr α → Res α
  | .ok a => .ok a
  | .error e => .error (.py e)

/-- Primitive types, `PRIMITIVES` /repo/serde/compat.py:926. -/
inductive Prim where
  | int | float | bool | str
deriving DecidableEq

/-! ## Equality (`==`) -/

/-- Numeric value of a bool/int/float; Python's `True == 1 == 1.0`. Used by `in` at /repo/serde/de.py:1495 and `==` at
/repo/serde/core.py:586. -/
def Val.num : Val → Option Flt
  | .bool b => some (.fin (if b then 1 else 0))
  | .int i => some (.fin i)
  | .float f => some f
  | _ => Option.none

/-- Float equality: NaN differs from everything. /repo/serde/core.py:586. -/
def Flt.eqv : Flt → Flt → Bool
  | .fin a, .fin b => a == b
  | .inf a, .inf b => a == b
  | _, _ => false

mutual
/-- Python `==`. Models the comparisons at /repo/serde/core.py:586 (`v == serialized_default`),
/repo/serde/de.py:1495 (`data in (...)`), and key comparison in dicts and sets.
Simplified: an enum member equals only itself (mixin enums also equal their value in Python);
dataclass `==` is field-wise on instances of the same class (/repo uses the dataclass default `eq`). -/
def pyEq : Val → Val → Bool
  | .none, .none => true
  | .str a, .str b => a == b
  | .list xs, .list ys => pyEqL xs ys
  | .tuple xs, .tuple ys => pyEqL xs ys
  | .deque xs, .deque ys => pyEqL xs ys
  | .set _ xs, .set _ ys => xs.length == ys.length && pySub xs ys
  | .dict _ xs, .dict _ ys => xs.length == ys.length && pyDictSub xs ys
  | .enum a m, .enum b m' => a == b && m == m'
  | .std a m, .std b m' => a == b && m == m'
  | .dt a m, .dt b m' => a == b && m == m'
  | .inst c xs, .inst d ys => c == d && pyEqA xs ys
  | .bool b, w => match w.num with
    | some y => Flt.eqv (.fin (if b then 1 else 0)) y
    | Option.none => false
  | .int i, w => match w.num with
    | some y => Flt.eqv (.fin i) y
    | Option.none => false
  | .float f, w => match w.num with
    | some y => Flt.eqv f y
    | Option.none => false
  | _, _ => false
termination_by structural x => x

/-- Pointwise `==` of sequences (see `pyEq`). -/
def pyEqL : List Val → List Val → Bool
  | [], [] => true
  | x :: xs, y :: ys => pyEq x y && pyEqL xs ys
  | _, _ => false
termination_by structural x => x

/-- Every element of the first list equals one of the second (set equality, see `pyEq`). -/
def pySub : List Val → List Val → Bool
  | [], _ => true
  | x :: xs, ys => ys.any (fun y => pyEq x y) && pySub xs ys
termination_by structural x => x

/-- Every entry of the first dict occurs in the second (dict equality, see `pyEq`). -/
def pyDictSub : List (Val × Val) → List (Val × Val) → Bool
  | [], _ => true
  | (k, v) :: xs, ys => ys.any (fun y => pyEq k y.1 && pyEq v y.2) && pyDictSub xs ys
termination_by structural x => x

/-- Field-wise `==` of two instances of one dataclass (see `pyEq`). -/
def pyEqA : List (String × Val) → List (String × Val) → Bool
  | [], [] => true
  | (_, v) :: xs, (_, w) :: ys => pyEq v w && pyEqA xs ys
  | _, _ => false
termination_by structural x => x
end

/-! ## Containers -/

/-- Look up the string key `k` (Python dicts compare a str key equal to str keys only). `d["k"]`, `d.get("k")`,
`"k" in d` in /repo/serde/de.py:152-168, 846-858, 1280. -/
def getStr (k : String) : List (Val × Val) → Option Val
  | [] => Option.none
  | (.str s, v) :: r => if s == k then some v else getStr k r
  | _ :: r => getStr k r

/-- Lookup by `==`, for keys that need not be strings. -/
def getVal (k : Val) : List (Val × Val) → Option Val
  | [] => Option.none
  | (k', v) :: r => if pyEq k' k then some v else getVal k r

/-- Characters of a str as one-character strs (iteration over a str). -/
def strElems (s : String) : List Val := s.toList.map (fun c => .str (String.ofList [c]))

/-- `for v in x`. /repo/serde/de.py:1094, 1103-1105, 1114, 1137; /repo/serde/se.py:1048-1062. -/
def pyIter : Val → Res (List Val)
  | .list xs => .ok xs
  | .tuple xs => .ok xs
  | .deque xs => .ok xs
  | .set _ xs => .ok xs
  | .dict _ kvs => .ok (kvs.map (·.1))
  | .str s => .ok (strElems s)
  | _ => .error (.py .type)

/-- `x.items()`. /repo/serde/de.py:1126, 1163, 1167; /repo/serde/se.py:1084, 1115. -/
def pyItems : Val → Res (List (Val × Val))
  | .dict _ kvs => .ok kvs
  | _ => .error (.py .attr)

/-- `x["k"]` with a string literal. /repo/serde/de.py:848.  Simplified: no `__missing__` (Counter, defaultdict inputs). -/
def pyGetItem (x : Val) (k : String) : Res Val :=
  match x with
  | .dict _ kvs => match getStr k kvs with
    | some v => .ok v
    | Option.none => .error (.py .key)
  | _ => .error (.py .type)

/-- `x.get("k")`. /repo/serde/de.py:846, 858, 1073, 1083. -/
def pyGet (x : Val) (k : String) : Res Val :=
  match x with
  | .dict _ kvs => .ok ((getStr k kvs).getD .none)
  | _ => .error (.py .attr)

/-- `x[i]` with an int literal. /repo/serde/de.py:796, 844; /repo/serde/se.py:1100. -/
def pyIndex (x : Val) (i : Nat) : Res Val :=
  let at' (xs : List Val) : Res Val := match xs[i]? with
    | some v => .ok v
    | Option.none => .error (.py .index)
  match x with
  | .list xs => at' xs
  | .tuple xs => at' xs
  | .deque xs => at' xs
  | .str s => at' (strElems s)
  | .dict _ kvs => match getVal (.int i) kvs with
    | some v => .ok v
    | Option.none => .error (.py .key)
  | _ => .error (.py .type)

/-- Contiguous sublist test, for `"k" in some_str`. -/
def isInfix : List Char → List Char → Bool
  | p, [] => p.isEmpty
  | p, s@(_ :: t) => p.isPrefixOf s || isInfix p t

/-- `"k" in x`. /repo/serde/de.py:158, 166, 1273, 1280, 1460-1470. -/
def pyIn (k : String) : Val → Res Bool
  | .dict _ kvs => .ok (getStr k kvs).isSome
  | .list xs => .ok (xs.any (fun x => pyEq (.str k) x))
  | .tuple xs => .ok (xs.any (fun x => pyEq (.str k) x))
  | .deque xs => .ok (xs.any (fun x => pyEq (.str k) x))
  | .set _ xs => .ok (xs.any (fun x => pyEq (.str k) x))
  | .str s => .ok (isInfix k.toList s.toList)
  | _ => .error (.py .type)

/-- Deduplicate keeping the first of equal elements (building a set). -/
def dedup (xs : List Val) : List Val :=
  xs.foldl (fun acc x => if acc.any (fun y => pyEq y x) then acc else acc ++ [x]) []

/-- Insert or overwrite a dict entry; an existing equal key keeps its place and its key object. -/
def dictSet (k v : Val) : List (Val × Val) → List (Val × Val)
  | [] => [(k, v)]
  | (k', v') :: r => if pyEq k' k then (k', v) :: r else (k', v') :: dictSet k v r

/-- Build a dict from entries in order (dict display / comprehension). -/
def dictOf (kvs : List (Val × Val)) : List (Val × Val) :=
  kvs.foldl (fun acc e => dictSet e.1 e.2 acc) []

/-- `x["k"] = v` for a string literal key: only mappings accept it. /repo/serde/se.py:742, 747. -/
def pySetItem (x : Val) (k : String) (v : Val) : Res Val :=
  match x with
  | .dict d kvs => .ok (.dict d (dictSet (.str k) v kvs))
  | _ => .error (.py .type)

mutual
/-- `hash(x)` succeeds. `h c` tells whether instances of dataclass `c` are hashable (frozen or `unsafe_hash`).
Needed for set elements and dict keys, /repo/serde/de.py:1103-1105, 1167; /repo/serde/se.py:1061, 1115. -/
def hashable (h : ClassId → Bool) : Val → Bool
  | .list _ => false
  | .deque _ => false
  | .dict _ _ => false
  | .set frozen _ => frozen
  | .tuple xs => hashableL h xs
  | .inst c _ => h c
  | _ => true
/-- All elements hashable (see `hashable`). -/
def hashableL (h : ClassId → Bool) : List Val → Bool
  | [] => true
  | x :: xs => hashable h x && hashableL h xs
end

/-- Build a set / frozenset. /repo/serde/de.py:1101-1105. Simplified: all elements are evaluated before the first is hashed. -/
def mkSet (h : ClassId → Bool) (frozen : Bool) (xs : List Val) : Res Val :=
  if hashableL h xs then .ok (.set frozen (dedup xs)) else .error (.py .type)

/-- Build a dict. /repo/serde/de.py:1163-1167; /repo/serde/se.py:1115. Simplified: all entries are evaluated before the first key is hashed. -/
def mkDict (h : ClassId → Bool) (k : DictK) (kvs : List (Val × Val)) : Res Val :=
  if hashableL h (kvs.map (·.1)) then .ok (.dict k (dictOf kvs)) else .error (.py .type)

end Verif
