import Verif.Spec.Unions
/-!
# Type aliases (`type T = ...`)
-/

namespace Verif.Spec

/-- `Unfolds t t'`: `t'` is `t` with some of its aliases replaced by what they stand for. Not inside unions other than Optional, not in numeric dict keys and
not in default dicts. -/
inductive Unfolds : Ty → Ty → Prop
  | same {t} : Unfolds t t
  | alias {nm t t'} : Unfolds t t' → Unfolds (.alias nm t) t'
  | opt {t t'} : Unfolds t t' → t' ≠ .none → Unfolds (.union [t, .none]) (.union [t', .none])
  | list {k t t'} : Unfolds t t' → Unfolds (.list k t) (.list k t')
  | set {k t t'} : Unfolds t t' → Unfolds (.set k t) (.set k t')
  | deque {t t'} : Unfolds t t' → Unfolds (.deque t) (.deque t')
  | counter {t t'} : Unfolds t t' → Unfolds (.counter t) (.counter t')
  | tupleV {t t'} : Unfolds t t' → Unfolds (.tupleV t) (.tupleV t')
  | tuple {ts ts'} : ts.length = ts'.length → (∀ (i : Nat) t t', ts[i]? = some t → ts'[i]? = some t' → Unfolds t t') → Unfolds (.tuple ts) (.tuple ts')
  | value {k kt vt vt'} : k ≠ .deflt → Unfolds vt vt' → Unfolds (.dict k kt vt) (.dict k kt vt')
  | key {k kt kt' vt vt'} : k ≠ .deflt → Unfolds kt kt' → kt' ≠ .prim .int → kt' ≠ .prim .float → Unfolds vt vt' →
      Unfolds (.dict k kt vt) (.dict k kt' vt')

/-- The annotation mentions an alias (as itself, an element, a key, a value or a member). -/
inductive Mentions : Ty → Prop
  | alias {nm t} : Mentions (.alias nm t)
  | list {k t} : Mentions t → Mentions (.list k t)
  | set {k t} : Mentions t → Mentions (.set k t)
  | deque {t} : Mentions t → Mentions (.deque t)
  | tupleV {t} : Mentions t → Mentions (.tupleV t)
  | tuple {ts t} : t ∈ ts → Mentions t → Mentions (.tuple ts)
  | union {ts t} : t ∈ ts → Mentions t → Mentions (.union ts)
  | key {k kt vt} : Mentions kt → Mentions (.dict k kt vt)
  | value {k kt vt} : Mentions vt → Mentions (.dict k kt vt)

/-- The field with another annotation. -/
def retyped (τ : FieldDef → Ty) (f : FieldDef) : FieldDef := { f with ty := τ f }

/-- The class under another name, with other fields. -/
def renamedCopy (cd : ClassDef) (nm : String) (mro : List ClassId) (fs : List FieldDef) : ClassDef := { cd with name := nm, mro := mro, fields := fs }

/-- `c'` is a copy of `c` in which some aliases of the annotations are replaced by what they stand for. No field is flattened or has a deserializer of its own,
nothing is deserialized by class or global deserializers, and no two unions or literals of either class share a function name. -/
structure AliasCopy (env : Env) (c c' : ClassId) (cd : ClassDef) (nm : String) (mro : List ClassId) (τ : FieldDef → Ty) : Prop where
  cls : env.cls c = some cd
  copy : env.cls c' = some (renamedCopy cd nm mro (cd.fields.map (retyped τ)))
  dict : cd.transparent = false
  unfolds : ∀ f ∈ cd.fields, Unfolds f.ty (τ f)
  flat : ∀ f ∈ cd.fields, f.flatten = false
  deser : ∀ f ∈ cd.fields, f.deserializer = none
  noDe : env.gde = [] ∧ cd.classDe = none
  own : ∀ f ∈ cd.fields, OwnFuncs env (.cls c) f.ty
  ownCopy : ∀ f ∈ cd.fields, OwnFuncs env (.cls c') (τ f)

/-- No field has a serializer of its own, nothing is serialized by class or global serializers. -/
structure NoSerializers (env : Env) (cd : ClassDef) : Prop where
  ser : ∀ f ∈ cd.fields, f.serializer = none
  noSer : env.gser = [] ∧ cd.classSer = none

end Verif.Spec
