import Verif.Spec.Shape
import Verif.Spec.RoundTrip
/-!
# Specification vocabulary: annotations under which whatever is read is exactly of the annotated type
-/

namespace Verif.Spec

/-- Plain data: scalars in lists, tuples, deques, sets and dicts. `bools` says whether bools may occur. -/
inductive PureData (bools : Bool) : Val → Prop
  | none : PureData bools .none
  | bool {b} : bools = true → PureData bools (.bool b)
  | int {i} : PureData bools (.int i)
  | float {x} : PureData bools (.float x)
  | str {s} : PureData bools (.str s)
  | list {xs} : (∀ x ∈ xs, PureData bools x) → PureData bools (.list xs)
  | tuple {xs} : (∀ x ∈ xs, PureData bools x) → PureData bools (.tuple xs)
  | deque {xs} : (∀ x ∈ xs, PureData bools x) → PureData bools (.deque xs)
  | set {b xs} : (∀ x ∈ xs, PureData bools x) → PureData bools (.set b xs)
  | dict {k kvs} : (∀ e ∈ kvs, PureData bools e.1) → (∀ e ∈ kvs, PureData bools e.2) → PureData bools (.dict k kvs)

/-- What Python's own constructors and parsers are relied on for: they return instances of their class whose string form they read back. The
function for numbers of the format returns floats. -/
structure Canonical (env : Env) (numbers : Option (Val → Except PErr Val)) : Prop where
  prim : ∀ p x w, env.W.primOther p x = .ok w → OfPrim p w
  std : ∀ k x w, env.W.stdCtor k x = .ok w → ∃ s, w = .std k s ∧ env.W.stdCtor k (.str s) = .ok (.std k s)
  dt : ∀ k x w, env.W.dtParse k x = .ok w → ∃ s, w = .dt k s ∧ env.W.dtParse k (.str s) = .ok (.dt k s)
  number : ∀ num x w, numbers = some num → num x = .ok w → OfPrim .float w

/-- What happens to a value read at some position: primitives are converted, the value is checked against the annotation, or neither. -/
inductive Guard
  | coerced
  | checked
  | free
  deriving DecidableEq

/-- The elements of a checked container are not all checked. -/
def Guard.elem : Guard → Guard
  | .coerced => .coerced
  | _ => .free

/-- The attributes of an object of the class. -/
def guardOf (cd : ClassDef) : Guard :=
  match cd.typeCheck with
  | .coerce => .coerced
  | .strict => .checked
  | .disabled => .free

/-- Types whose values equal themselves: floats (NaN) are not among them. -/
inductive SelfEqual : Ty → Prop
  | prim {p} : p ≠ .float → SelfEqual (.prim p)
  | newType {nm p} : p ≠ .float → SelfEqual (.newType nm p)
  | enum {e} : SelfEqual (.enum e)
  | std {k} : SelfEqual (.std k)
  | dt {k} : SelfEqual (.dt k)

/-- Annotations under which what is read from plain data is exactly of the annotated type. `bools`: bools may occur in the data (they pass for ints);
`floats`: the format has a function for numbers. -/
inductive Firm (env : Env) (bools floats : Bool) : Guard → Ty → Prop
  | prim {p} : Firm env bools floats .coerced (.prim p)
  | primChecked {p} : (p = .int → bools = false) → Firm env bools floats .checked (.prim p)
  | float {g} : floats = true → Firm env bools floats g (.prim .float)
  | newType {nm p} : Firm env bools floats .coerced (.newType nm p)
  | newTypeChecked {nm p} : (p = .int → bools = false) → Firm env bools floats .checked (.newType nm p)
  | none {g} : Firm env bools floats g .none
  | enum {g e} : Firm env bools floats g (.enum e)
  | std {g k} : Firm env bools floats g (.std k)
  | dt {g k} : Firm env bools floats g (.dt k)
  | litStr {g vs} : (∀ v ∈ vs, v = .none ∨ ∃ s, v = .str s) → Firm env bools floats g (.lit vs)
  | litChecked {vs} : (∀ v ∈ vs, LitVal v) → Firm env bools floats .checked (.lit vs)
  | list {g k t} : Firm env bools floats g.elem t → Firm env bools floats g (.list k t)
  | deque {g t} : Firm env bools floats g.elem t → Firm env bools floats g (.deque t)
  | tupleV {g t} : Firm env bools floats g.elem t → Firm env bools floats g (.tupleV t)
  | tuple {g ts} : (∀ t ∈ ts, Firm env bools floats g t) → Firm env bools floats g (.tuple ts)
  | set {g k t} : SelfEqual t → Firm env bools floats g.elem t → Firm env bools floats g (.set k t)
  | intKeys {g k vt} : Firm env bools floats g.elem vt → Firm env bools floats g (.dict k (.prim .int) vt)
  | dict {g k kt vt} : SelfEqual kt → Firm env bools floats g.elem kt → Firm env bools floats g.elem vt → Firm env bools floats g (.dict k kt vt)
  | opt {g t} : t ≠ .none → Firm env bools floats g t → Firm env bools floats g (.union [t, .none])
  | union {g ts} : (Ty.union ts).isOpt = false → (∀ t ∈ ts, ¬ (t = .prim .int ∧ .prim .bool ∈ ts) → Firm env bools floats .checked t) →
      Firm env bools floats g (.union ts)
  | alias {g nm t} : Firm env bools floats g t → Firm env bools floats g (.alias nm t)
  | cls {g c} : Firm env bools floats g (.cls c)

/-- A class all of whose fields are read, from firm annotations, and whose defaults have the annotated types. -/
structure FirmClass (env : Env) (bools floats : Bool) (cd : ClassDef) : Prop where
  post : cd.postInit = none
  names : (cd.fields.map (·.name)).Nodup
  plain : cd.transparent = false
  classDe : cd.classDe = none
  read : ∀ f ∈ cd.fields, ReadIn cd f
  firm : ∀ f ∈ cd.fields, Firm env bools floats (guardOf cd) f.ty
  dflt : ∀ f ∈ cd.fields, ∀ d, f.dflt = some d → HasTy env f.ty d

end Verif.Spec
