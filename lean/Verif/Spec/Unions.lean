import Verif.Spec.Twin
import Verif.Spec.Collect
/-!
# Specification vocabulary: unions
-/

namespace Verif.Spec

/-- Annotations that mention neither a union (other than Optional) nor a literal outside of dataclasses, so that the functions
generated for them do not refer to the union and literal functions of the enclosing class. -/
inductive ScopeFree : Ty → Prop
  | prim {p} : ScopeFree (.prim p)
  | newType {n p} : ScopeFree (.newType n p)
  | none : ScopeFree .none
  | any : ScopeFree .any
  | list {k t} : ScopeFree t → ScopeFree (.list k t)
  | listB {k} : ScopeFree (.listB k)
  | set {k t} : ScopeFree t → ScopeFree (.set k t)
  | setB {k} : ScopeFree (.setB k)
  | deque {t} : ScopeFree t → ScopeFree (.deque t)
  | dequeB : ScopeFree .dequeB
  | counter {t} : ScopeFree t → ScopeFree (.counter t)
  | counterB : ScopeFree .counterB
  | tuple {ts} : (∀ t ∈ ts, ScopeFree t) → ScopeFree (.tuple ts)
  | tupleV {t} : ScopeFree t → ScopeFree (.tupleV t)
  | tupleB : ScopeFree .tupleB
  | dict {k kt vt} : ScopeFree kt → ScopeFree vt → ScopeFree (.dict k kt vt)
  | dictB {k} : ScopeFree (.dictB k)
  | enum {e} : ScopeFree (.enum e)
  | std {k} : ScopeFree (.std k)
  | dt {k} : ScopeFree (.dt k)
  | opt {t} : t ≠ .none → ScopeFree t → ScopeFree (.union [t, .none])
  | cls {c} : ScopeFree (.cls c)
  | gen {c args} : ScopeFree (.gen c args)
  | tvar {x} : ScopeFree (.tvar x)
  | alias {n t} : ScopeFree t → ScopeFree (.alias n t)

/-- `s` is the annotation `t` or occurs in it outside of dataclasses. -/
inductive OccursIn : Ty → Ty → Prop
  | refl {t} : OccursIn t t
  | union {ts s u} : s ∈ ts → OccursIn s u → OccursIn (.union ts) u
  | list {k t u} : OccursIn t u → OccursIn (.list k t) u
  | set {k t u} : OccursIn t u → OccursIn (.set k t) u
  | deque {t u} : OccursIn t u → OccursIn (.deque t) u
  | counter {t u} : OccursIn t u → OccursIn (.counter t) u
  | tuple {ts s u} : s ∈ ts → OccursIn s u → OccursIn (.tuple ts) u
  | tupleV {t u} : OccursIn t u → OccursIn (.tupleV t) u
  | key {k kt vt u} : OccursIn kt u → OccursIn (.dict k kt vt) u
  | value {k kt vt u} : OccursIn vt u → OccursIn (.dict k kt vt) u
  | alias {nm t u} : OccursIn t u → OccursIn (.alias nm t) u

/-- Among the functions generated for `root` (a class, or a union given to `from_dict`), the unions and literals of `t` have their names
for themselves. No literal is hidden behind a PEP 695 alias (C46). -/
structure OwnFuncs (env : Env) (root t : Ty) : Prop where
  unions : ∀ ts, OccursIn t (.union ts) → (Ty.union ts).isOpt = false → ∀ us, Reach env true root (.union us) → unionFuncName env us = unionFuncName env ts → us = ts
  lits : ∀ vs, OccursIn t (.lit vs) → Reach env false root (.lit vs) ∧ ∀ us, Reach env false root (.lit us) → litFuncName env us = litFuncName env vs → us = vs

/-- The value is an instance of the (scalar or dataclass) type: the class itself or a subclass; a bool is an int; members of an enum with
a primitive base class are instances of that base. -/
inductive IsA (env : Env) : Ty → Val → Prop
  | int {i} : IsA env (.prim .int) (.int i)
  | boolInt {b} : IsA env (.prim .int) (.bool b)
  | bool {b} : IsA env (.prim .bool) (.bool b)
  | float {x} : IsA env (.prim .float) (.float x)
  | str {s} : IsA env (.prim .str) (.str s)
  | mixin {p e d m} : env.enm e = some d → d.mixin = some p → IsA env (.prim p) (.enum e m)
  | none : IsA env .none .none
  | enum {e m} : IsA env (.enum e) (.enum e m)
  | std {k s} : IsA env (.std k) (.std k s)
  | stdSub {k k' s} : env.W.stdSub k' k = true → IsA env (.std k) (.std k' s)
  | dt {k s} : IsA env (.dt k) (.dt k s)
  | datetime {s} : IsA env (.dt .date) (.dt .datetime s)
  | cls {c c' cd attrs} : env.cls c' = some cd → c ∈ cd.mro → IsA env (.cls c) (.inst c' attrs)

/-- Types whose instances `IsA` describes. -/
inductive Nominal (env : Env) : Ty → Prop
  | prim {p} : Nominal env (.prim p)
  | none : Nominal env .none
  | enum {e} : Nominal env (.enum e)
  | std {k} : Nominal env (.std k)
  | dt {k} : Nominal env (.dt k)
  | cls {c} : Nominal env (.cls c)

/-- A class with the single field `x : t`, without any checks of its own. -/
def box (name : String) (t : Ty) (tagging : Tagging := .external) : ClassDef :=
  { name := name, mro := [name], typeCheck := .disabled, tagging := tagging, fields := [{ name := "x", ty := t }] }

/-- `from_dict(B, {"x": d})` is `B(x=v)`, for a class `B` with the single field `x`. -/
def Decodes (env : Env) (o : DeOpts) (B : ClassId) (d v : Val) : Prop :=
  ∃ n, fromDict env o n (.cls B) (.dict .plain [(.str "x", d)]) = .ok (.inst B [("x", v)])

/-- `from_dict(B, {"x": d})` raises. -/
def Fails (env : Env) (o : DeOpts) (B : ClassId) (d : Val) : Prop :=
  ∃ n e, fromDict env o n (.cls B) (.dict .plain [(.str "x", d)]) = .error e ∧ e ≠ .fuel

/-- Input for a primitive member (a primitive, a NewType of one, an enum with a primitive base class) or for `None` has to be an
instance already. -/
inductive InputOk (env : Env) : Ty → Val → Prop
  | prim {p d} : IsA env (.prim p) d → InputOk env (.prim p) d
  | newType {n p d} : IsA env (.prim p) d → InputOk env (.newType n p) d
  | none : InputOk env .none .none
  | mixin {e m} : InputOk env (.enum e) (.enum e m)
  | enum {e d} : (∀ ed, env.enm e = some ed → ed.mixin = none) → InputOk env (.enum e) d
  | other {t d} : (∀ p, t ≠ .prim p) → (∀ n p, t ≠ .newType n p) → t ≠ .none → (∀ e, t ≠ .enum e) → InputOk env t d

/-- The decoded value passes the run-time type check against the annotation (abstract containers being checked as the concrete
ones, subscripted generics as their class). -/
def Checked (env : Env) (t : Ty) (v : Val) : Prop := ∃ t', erase t = some t' ∧ bearable env t' v = true

/-- Member `t` accepts the input `d` and gives `v`. `bx t` is the class with a field of type `t`. -/
def Accepts (env : Env) (o : DeOpts) (bx : Ty → ClassId) (d : Val) (t : Ty) (v : Val) : Prop :=
  InputOk env t d ∧ Decodes env o (bx t) d v ∧ Checked env t v

/-- Member `t` does not accept the input. -/
def Rejects (env : Env) (o : DeOpts) (bx : Ty → ClassId) (d : Val) (t : Ty) : Prop :=
  ¬ InputOk env t d ∨ Fails env o (bx t) d ∨ ∃ v, Decodes env o (bx t) d v ∧ ¬ Checked env t v

/-- `v` is what the first member that accepts the input makes of it. -/
def FirstFit {T : Type} (accepts : T → Val → Prop) (rejects : T → Prop) (ts : List T) (v : Val) : Prop :=
  ∃ pre t post, ts = pre ++ t :: post ∧ accepts t v ∧ ∀ s ∈ pre, rejects s

/-- An instance of class `c` belongs to the variant `c` of the union, and to no variant listed before it. -/
def OwnVariant (env : Env) (c : ClassId) (ts : List Ty) : Prop :=
  ∃ cd pre post, env.cls c = some cd ∧ c ∈ cd.mro ∧ ts = pre ++ .cls c :: post ∧
    ∀ t ∈ pre, Nominal env t ∧ ∀ attrs, ¬ IsA env t (.inst c attrs)

/-- The members are dataclasses with different names. -/
def DistinctNames (env : Env) (ts : List Ty) : Prop :=
  (∀ t ∈ ts, ∃ c cd, t = .cls c ∧ env.cls c = some cd) ∧
  ∀ c c' cd cd', .cls c ∈ ts → .cls c' ∈ ts → env.cls c = some cd → env.cls c' = some cd' → cd.name = cd'.name → c = c'

end Verif.Spec
