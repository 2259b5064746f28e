import Verif.Spec.Collect
/-!
# Specification vocabulary: recursion that comes to an end
-/

namespace Verif.Spec

/-- `s` occurs in the annotation `t` (or is `t`). Classes are not entered. -/
inductive PartOf : Ty → Ty → Prop
  | refl {t} : PartOf t t
  | list {s k t} : PartOf s t → PartOf s (.list k t)
  | set {s k t} : PartOf s t → PartOf s (.set k t)
  | deque {s t} : PartOf s t → PartOf s (.deque t)
  | counter {s t} : PartOf s t → PartOf s (.counter t)
  | tuple {s t ts} : t ∈ ts → PartOf s t → PartOf s (.tuple ts)
  | tupleV {s t} : PartOf s t → PartOf s (.tupleV t)
  | key {s k kt vt} : PartOf s kt → PartOf s (.dict k kt vt)
  | value {s k kt vt} : PartOf s vt → PartOf s (.dict k kt vt)
  | union {s t ts} : t ∈ ts → PartOf s t → PartOf s (.union ts)
  | alias {s nm t} : PartOf s t → PartOf s (.alias nm t)

/-- `t` occurs in the annotation of a field of some class. -/
def Annotated (env : Env) (t : Ty) : Prop := ∃ c cd f, env.cls c = some cd ∧ f ∈ cd.fields ∧ PartOf t f.ty

/-- No two unions get functions of the same name in a class (C44 is about this condition). -/
def DistinctUnions (env : Env) : Prop := ∀ c ts, Annotated env (.union ts) → OwnUnionName env c ts

/-- An instance of the dataclass `c` occurs in the value. -/
inductive Occurs (c : ClassId) : Val → Prop
  | here {attrs} : Occurs c (.inst c attrs)
  | attr {d attrs e} : e ∈ attrs → Occurs c e.2 → Occurs c (.inst d attrs)
  | list {xs x} : x ∈ xs → Occurs c x → Occurs c (.list xs)
  | tuple {xs x} : x ∈ xs → Occurs c x → Occurs c (.tuple xs)
  | deque {xs x} : x ∈ xs → Occurs c x → Occurs c (.deque xs)
  | set {b xs x} : x ∈ xs → Occurs c x → Occurs c (.set b xs)
  | key {k kvs e} : e ∈ kvs → Occurs c e.1 → Occurs c (.dict k kvs)
  | value {k kvs e} : e ∈ kvs → Occurs c e.2 → Occurs c (.dict k kvs)

/-- A flattened field of this annotation splices the fields of the dataclass `c`. -/
inductive FlatTo (c : ClassId) : Ty → Prop
  | here : FlatTo c (.cls c)
  | opt {t} : FlatTo c t → FlatTo c (.union [t, .none])

/-- `age` numbers the classes in the order of their definition. Decorating a class needs some classes to exist already: those of which
instances occur in the defaults with which `skip_if_default` compares, and the flattened dataclasses. -/
structure OlderFirst (env : Env) (age : ClassId → Nat) : Prop where
  default : ∀ {c cd f d c'}, env.cls c = some cd → f ∈ cd.fields → f.skipRule cd = .ifDefault (some d) → Occurs c' d → age c' < age c
  flatten : ∀ {c cd f c'}, env.cls c = some cd → f ∈ cd.fields → f.flatten = true → FlatTo c' f.ty → age c' < age c

/-- No two unions that occur in the annotation, or are reached from it, get functions of the same name. -/
def DistinctUnionsIn (env : Env) (t : Ty) : Prop :=
  ∀ ts us, PartOf (.union ts) t → Reach env true t (.union us) → unionFuncName env us = unionFuncName env ts → us = ts

/-- Reading this annotation from a missing key may give None instead of an error. -/
inductive Nullable : Ty → Prop
  | union {ts} : Ty.none ∈ ts → Nullable (.union ts)
  | alias {nm t} : Nullable t → Nullable (.alias nm t)

/-- `Rereads env named (s, i) (t, j)`: reading the annotation `t` may lead to reading `s` from the same piece of data, from a character of it
(iterating a str gives strs), or from the None that stands for a missing key. `j` and `i` say that the data is that None. `named` is about
`from_dict`; `from_tuple` reads all the fields of a class by position, so from a character if it is given a str. -/
inductive Rereads (env : Env) (named : Bool) : Ty × Bool → Ty × Bool → Prop
  | alias {nm t j} : Rereads env named (t, j) (.alias nm t, j)
  | origin {c args j} : Rereads env named (.cls c, j) (.gen c args, j)
  | member {t ts} : t ∈ ts → Rereads env named (t, false) (.union ts, false)
  | memberNone {t ts} : t ∈ ts → (Ty.union ts).isOpt = false ∨ Nullable t → Rereads env named (t, true) (.union ts, true)
  | list {k t} : Rereads env named (t, false) (.list k t, false)
  | set {k t} : Rereads env named (t, false) (.set k t, false)
  | deque {t} : Rereads env named (t, false) (.deque t, false)
  | tupleV {t} : Rereads env named (t, false) (.tupleV t, false)
  | tuple {t ts} : t ∈ ts → Rereads env named (t, false) (.tuple ts, false)
  | transparent {c cd f j} : env.cls c = some cd → cd.transparent = true → f ∈ cd.fields → Rereads env named (f.ty, j) (.cls c, j)
  | flatten {c cd f j} : env.cls c = some cd → cd.transparent = false → f ∈ cd.fields → f.flatten = true → Rereads env named (f.ty, false) (.cls c, j)
  | missing {c cd f} : env.cls c = some cd → cd.transparent = false → f ∈ cd.fields → Nullable f.ty → Rereads env named (f.ty, true) (.cls c, false)
  | position {c cd f} : named = false → env.cls c = some cd → cd.transparent = false → f ∈ cd.fields → Rereads env named (f.ty, false) (.cls c, false)

/-- `Nullable`, computed. -/
def isNullable : Ty → Bool
  | .union ts => ts.any Ty.isNone
  | .alias _ t => isNullable t
  | _ => false

mutual
/-- A number for an annotation, given numbers for the classes. The Bool says that the data is the None of a missing key. -/
def weigh (w : ClassId → Bool → Nat) (j : Bool) : Ty → Nat
  | .cls c => w c j
  | .gen c _ => w c j + 1
  | .alias _ t => weigh w j t + 1
  | .union ts => weighs w j (j && (Ty.union ts).isOpt) ts + 1
  | .list _ t => if j then 0 else weigh w false t + 1
  | .set _ t => if j then 0 else weigh w false t + 1
  | .deque t => if j then 0 else weigh w false t + 1
  | .tupleV t => if j then 0 else weigh w false t + 1
  | .tuple ts => if j then 0 else weighs w false false ts + 1
  | _ => 0
/-- The greatest number of a member; with `opt` only nullable members count. -/
def weighs (w : ClassId → Bool → Nat) (j opt : Bool) : List Ty → Nat
  | [] => 0
  | t :: ts => max (if opt && !isNullable t then 0 else weigh w j t) (weighs w j opt ts)
end

/-- The numbers `w` of the classes go down along the fields read from the same data. -/
structure Ranked (env : Env) (named : Bool) (w : ClassId → Bool → Nat) : Prop where
  transparent : ∀ {c cd f} j, env.cls c = some cd → cd.transparent = true → f ∈ cd.fields → weigh w j f.ty < w c j
  flatten : ∀ {c cd f} j, env.cls c = some cd → cd.transparent = false → f ∈ cd.fields → f.flatten = true → weigh w false f.ty < w c j
  missing : ∀ {c cd f}, env.cls c = some cd → cd.transparent = false → f ∈ cd.fields → isNullable f.ty = true → weigh w true f.ty < w c false
  position : ∀ {c cd f}, named = false → env.cls c = some cd → cd.transparent = false → f ∈ cd.fields → weigh w false f.ty < w c false

/-- The field of a transparent class is not flattened. -/
def PlainTransparent (env : Env) : Prop := ∀ c cd f, env.cls c = some cd → cd.transparent = true → f ∈ cd.fields → f.flatten = false

/-- `s` occurs in the annotation `t`, possibly in the arguments of a subscripted generic. -/
inductive Inside : Ty → Ty → Prop
  | within {s t} : PartOf s t → Inside s t
  | arg {s u t c args} : PartOf (.gen c args) t → u ∈ args → Inside s u → Inside s t

/-- `DistinctUnionsIn` for an annotation and everything in it. -/
def DistinctInside (env : Env) (t : Ty) : Prop := ∀ s, Inside s t → DistinctUnionsIn env s

/-- The recursion comes to an end: from some depth on, more depth makes no difference. -/
def Finishes (run : Nat → Res Val) : Prop := ∃ N r, r ≠ .error .fuel ∧ ∀ n, N ≤ n → run n = r

/-- The recursion never comes to an end. -/
def Diverges (run : Nat → Res Val) : Prop := ∀ n, run n = .error .fuel

end Verif.Spec
