import Verif.Spec.RoundTrip
import Verif.Spec.Collect
/-!
# Specification vocabulary: supported programs, read off the annotations alone

The conditions of `RoundTrip.lean` without any reference to the tables of generated functions.
-/

namespace Verif.Spec

/-- Non-container types. -/
inductive ScalarFits (env : Env) : Ty → Prop
  | prim {p} : ScalarFits env (.prim p)
  | newType {n p} : ScalarFits env (.newType n p)
  | none : ScalarFits env .none
  | enum {e d} : env.enm e = some d → EnumOk d → ScalarFits env (.enum e)
  | std {k} : ScalarFits env (.std k)
  | dt {k} : ScalarFits env (.dt k)
  | lit {vs} : (∀ v ∈ vs, LitVal v) → ScalarFits env (.lit vs)

/-- Types covered by the round-trip theorems, in a class with this tagging. Aliases must not lead to literals, which are not found there. -/
inductive Supported (env : Env) (F : Fmt env) (tg : Tagging) : Ty → Prop
  | scalar {t} : ScalarFits env t → Supported env F tg t
  | list {k t} : Supported env F tg t → Supported env F tg (.list k t)
  | deque {t} : Supported env F tg t → Supported env F tg (.deque t)
  | tupleV {t} : Supported env F tg t → Supported env F tg (.tupleV t)
  | tuple {ts} : ts ≠ [] → (∀ t ∈ ts, Supported env F tg t) → Supported env F tg (.tuple ts)
  | setConv {k t} : F.conv = true → Supported env F tg t → Supported env F tg (.set k t)
  | setRaw {k t} : F.conv = false → F.raw = true → ScalarFits env t → Supported env F tg (.set k t)
  | dict {k kt vt} : KeyTy env F kt → Supported env F tg vt → Supported env F tg (.dict k kt vt)
  | counter {t} : KeyTy env F t → (F.raw = true ∨ t ≠ .prim .int ∧ t ≠ .prim .float) → Supported env F tg (.counter t)
  | opt {t} : t ≠ .none → Supported env F tg t → Supported env F tg (.union [t, .none])
  | union {ts} : (∀ t, ts ≠ [t, .none]) → (∀ t ∈ ts, UnionMember env t) → (∀ t ∈ ts, Supported env F tg t) → ts.Pairwise (Apart env F) →
      (∀ c cd c' cd', .cls c ∈ ts → .cls c' ∈ ts → env.cls c = some cd → env.cls c' = some cd' → cd.name = cd'.name ∨ c' ∈ cd.mro → c = c') →
      (∀ c cd, .cls c ∈ ts → env.cls c = some cd → TagOk env tg ts cd) → Supported env F tg (.union ts)
  | cls {c cd} : env.cls c = some cd → Supported env F tg (.cls c)
  | alias {n t} : Supported env F tg t → (∀ vs, ¬ Reach env true t (.lit vs)) → Supported env F tg (.alias n t)
  | any : F.keepsLists → Supported env F tg .any
  | listB {k} : F.keepsLists → Supported env F tg (.listB k)
  | dictB : F.keepsLists → Supported env F tg (.dictB .dict)

/-- A field covered by the round-trip theorems, in a class like this. -/
inductive FieldFits (env : Env) (F : Fmt env) (cd : ClassDef) (f : FieldDef) : Prop
  | plain : FieldPlain cd f → RuleOk env F cd f → FieldFits env F cd f
  | flat {ch chd} : FlatShape env F cd f ch chd →
      (∀ g ∈ chd.fields, Supported env F cd.tagging g.ty ∧ (ScopeFree g.ty ∨ cd.tagging = chd.tagging)) → FieldFits env F cd f

/-- A class covered by the round-trip theorems. -/
structure ClassFits (env : Env) (F : Fmt env) (c : ClassId) (cd : ClassDef) : Prop extends ClassShape env F c cd where
  fields : ∀ f ∈ cd.fields, FieldFits env F cd f
  types : ∀ f ∈ cd.fields, Supported env F cd.tagging f.ty

/-- A transparent class covered by the round-trip theorems. -/
structure WrapFits (env : Env) (F : Fmt env) (c : ClassId) (cd : ClassDef) (f : FieldDef) : Prop extends WrapShape env c cd f where
  type : Supported env F cd.tagging f.ty

/-- Every class is covered, and no global (de)serializers are registered. -/
structure ProgramFits (env : Env) (F : Fmt env) : Prop where
  classes : ∀ c cd, env.cls c = some cd → cd.transparent = false → ClassFits env F c cd
  wrappers : ∀ c cd, env.cls c = some cd → cd.transparent = true → ∃ f, WrapFits env F c cd f
  noGlobal : env.gser = [] ∧ env.gde = []

end Verif.Spec
