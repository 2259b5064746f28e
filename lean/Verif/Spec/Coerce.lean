import Verif.Spec.Frame
/-!
# Specification vocabulary: coercion
-/

namespace Verif.Spec

/-- `i` is `q` with the fraction cut off. -/
def Truncated (q : Rat) (i : Int) : Prop :=
  i.natAbs * q.den ≤ q.num.natAbs ∧ q.num.natAbs < (i.natAbs + 1) * q.den ∧ 0 ≤ i * q.num

/-- Calling the primitive class on a scalar gives this value. -/
inductive Converts (env : Env) : Prim → Val → Val → Prop
  | int {i} : Converts env .int (.int i) (.int i)
  | intTrue : Converts env .int (.bool true) (.int 1)
  | intFalse : Converts env .int (.bool false) (.int 0)
  | intFloat {q i} : Truncated q i → Converts env .int (.float (.fin q)) (.int i)
  | intStr {s i} : env.W.intOfStr s = some i → Converts env .int (.str s) (.int i)
  | float {x} : Converts env .float (.float x) (.float x)
  | floatInt {i x} : env.W.floatOfInt i = some x → Converts env .float (.int i) (.float x)
  | floatTrue : Converts env .float (.bool true) (.float (.fin 1))
  | floatFalse : Converts env .float (.bool false) (.float (.fin 0))
  | floatStr {s x} : env.W.floatOfStr s = some x → Converts env .float (.str s) (.float x)
  | bool {b} : Converts env .bool (.bool b) (.bool b)
  | boolZero : Converts env .bool (.int 0) (.bool false)
  | boolInt {i} : i ≠ 0 → Converts env .bool (.int i) (.bool true)
  | boolFloatZero : Converts env .bool (.float (.fin 0)) (.bool false)
  | boolFloat {x} : x ≠ .fin 0 → Converts env .bool (.float x) (.bool true)
  | boolEmpty : Converts env .bool (.str "") (.bool false)
  | boolStr {s} : s ≠ "" → Converts env .bool (.str s) (.bool true)
  | str {s} : Converts env .str (.str s) (.str s)
  | strStd {k s} : Converts env .str (.std k s) (.str s)
  | strBool {b} : Converts env .str (.bool b) (.str (env.W.strOf (.bool b)))
  | strInt {i} : Converts env .str (.int i) (.str (env.W.strOf (.int i)))
  | strFloat {x} : Converts env .str (.float x) (.str (env.W.strOf (.float x)))

/-- `None`, or a scalar the primitive class does not accept. -/
inductive Refuses (env : Env) : Prim → Val → Prop
  | null {p} : Refuses env p .none
  | intInf {b} : Refuses env .int (.float (.inf b))
  | intNan : Refuses env .int (.float .nan)
  | intStr {s} : env.W.intOfStr s = none → Refuses env .int (.str s)
  | floatStr {s} : env.W.floatOfStr s = none → Refuses env .float (.str s)
  | floatInt {i} : env.W.floatOfInt i = none → Refuses env .float (.int i)

/-- A value that already is of the primitive type. -/
inductive Exactly : Prim → Val → Prop
  | int {i} : Exactly .int (.int i)
  | float {x} : Exactly .float (.float x)
  | bool {b} : Exactly .bool (.bool b)
  | str {s} : Exactly .str (.str s)

/-- What an input becomes under coercion, through containers. With `hook`, a function for JSON or YAML numbers is in force, which takes the
place of coercion for float. -/
inductive Coerced (env : Env) (hook : Bool) : Ty → Val → Val → Prop
  | prim {p x w} : (hook = true → p ≠ .float) → Converts env p x w → Coerced env hook (.prim p) x w
  | newType {n p x w} : Converts env p x w → Coerced env hook (.newType n p) x w
  | optNone {t} : t ≠ .none → Coerced env hook (.union [t, .none]) .none .none
  | opt {t x w} : t ≠ .none → x ≠ .none → Coerced env hook t x w → Coerced env hook (.union [t, .none]) x w
  | list {k t xs ys} : xs.length = ys.length → (∀ p ∈ xs.zip ys, Coerced env hook t p.1 p.2) → Coerced env hook (.list k t) (.list xs) (.list ys)
  | deque {t xs ys} : xs.length = ys.length → (∀ p ∈ xs.zip ys, Coerced env hook t p.1 p.2) → Coerced env hook (.deque t) (.list xs) (.deque ys)
  | tupleV {t xs ys} : xs.length = ys.length → (∀ p ∈ xs.zip ys, Coerced env hook t p.1 p.2) → Coerced env hook (.tupleV t) (.list xs) (.tuple ys)
  | tuple {ts xs ys} : ts ≠ [] → ts.length = ys.length → xs.length = ys.length →
      (∀ (i : Nat) t x y, ts[i]? = some t → xs[i]? = some x → ys[i]? = some y → Coerced env hook t x y) → Coerced env hook (.tuple ts) (.list xs) (.tuple ys)
  | dict {k vt dk kvs kvs'} : k ≠ .deflt → kvs.length = kvs'.length → (kvs'.map (·.1)).Pairwise (fun a b => pyEq a b = false) →
      (∀ p ∈ kvs.zip kvs', ∃ s, p.1.1 = .str s ∧ p.2.1 = .str s) →
      (∀ p ∈ kvs.zip kvs', Coerced env hook vt p.1.2 p.2.2) → Coerced env hook (.dict k (.prim .str) vt) (.dict dk kvs) (.dict .plain kvs')

/-- The input holds, at some position of the type, a scalar that cannot be converted to the primitive type there. -/
inductive Refused (env : Env) (hook : Bool) : Ty → Val → Prop
  | prim {p x} : (hook = true → p ≠ .float) → Refuses env p x → Refused env hook (.prim p) x
  | newType {n p x} : Refuses env p x → Refused env hook (.newType n p) x
  | opt {t x} : t ≠ .none → x ≠ .none → Refused env hook t x → Refused env hook (.union [t, .none]) x
  | list {k t xs x} : x ∈ xs → Refused env hook t x → Refused env hook (.list k t) (.list xs)
  | deque {t xs x} : x ∈ xs → Refused env hook t x → Refused env hook (.deque t) (.list xs)
  | tupleV {t xs x} : x ∈ xs → Refused env hook t x → Refused env hook (.tupleV t) (.list xs)
  | dict {k kt vt dk kvs kv} : kv ∈ kvs → Refused env hook vt kv.2 → Refused env hook (.dict k kt vt) (.dict dk kvs)

end Verif.Spec
