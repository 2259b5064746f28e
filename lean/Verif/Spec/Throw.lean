import Verif.Spec.Accept
/-!
# Specification vocabulary: an object that cannot be built, anywhere in the data
-/

namespace Verif.Spec

/-- Containers that are read item by item from an iterable. -/
inductive ItemsOf : Ty → Ty → Prop
  | list {k t} : ItemsOf (.list k t) t
  | deque {t} : ItemsOf (.deque t) t
  | tupleV {t} : ItemsOf (.tupleV t) t
  | set {k t} : ItemsOf (.set k t) t

/-- A key of a dict annotated with `kt`, as it stands in the data, and the value it stands for. Keys annotated as numbers are converted. -/
def KeyRead (env : Env) (m : Place) (kt : Ty) (x v : Val) : Prop :=
  (PlainKey kt ∧ Valid env m kt x v) ∨ ∃ q, kt = .prim q ∧ ¬ PlainKey kt ∧ Converts env q x v

/-- The field `f` of the class `c` can be read, and stands for `v`: from its own entry, without entry, from the entries of a flattened
dataclass, or without regard to its annotation. -/
def FieldRead (env : Env) (m : Place) (c : ClassId) (cd : ClassDef) (kvs : List (Val × Val)) (f : FieldDef) (v : Val) : Prop :=
  (OwnEntry cd f ∧ ((∃ x, Entry cd f kvs x ∧ Valid env (m.enter c cd) f.ty x v) ∨ NoEntry cd f kvs ∧ Filled env cd f v)) ∨
  (∃ ch dk sub, Inlined f ch ∧ ChildPart env c ch kvs sub ∧ Flattenable env ch ∧ Valid env (m.enter c cd) (.cls ch) (.dict dk sub) v) ∨
  Special env c cd kvs f v

/-- A class read from dicts, without class deserializer, that does not deny any of these entries. -/
structure Opens (env : Env) (c : ClassId) (cd : ClassDef) (kvs : List (Val × Val)) : Prop where
  cls : env.cls c = some cd
  dict : cd.transparent = false
  noDe : cd.classDe = none
  known : NotDenied env c cd kvs

/-- The `i`-th parameter can be read from the row, and stands for `v`. -/
def ItemRead (env : Env) (m : Place) (c : ClassId) (cd : ClassDef) (xs : List Val) (i : Nat) (f : FieldDef) (v : Val) : Prop :=
  f.flatten = false ∧ f.alias = [] ∧ ∃ x, xs[i]? = some x ∧ (f.deserializer = none ∧ Valid env (m.enter c cd) f.ty x v ∨ OwnItem env cd f x v)

/-- A transparent class with the sole field `f`. -/
structure OpensThrough (env : Env) (c : ClassId) (cd : ClassDef) (f : FieldDef) : Prop where
  cls : env.cls c = some cd
  transparent : cd.transparent = true
  names : (cd.fields.map (·.name)).Nodup
  noDe : cd.classDe = none
  sole : SoleField cd.fields f
  flat : f.flatten = false
  noCustom : f.deserializer = none

/-- Somewhere in the data there is an object whose `__post_init__` raises `e`. Everything that is read before it is valid; what comes after it
does not matter. (Items of sets and keys of dicts are hashed one by one, so those that come before have to be hashable.) -/
inductive Throws (env : Env) : Place → Ty → Val → PErr → Prop
  | post {m c cd p dk kvs e} {val : FieldDef → Val} : m.named = true → Opens env c cd kvs → (cd.fields.map (·.name)).Nodup →
      cd.fields.Pairwise (fun f g => f.kwOnly = true → g.kwOnly = true) → (∀ f ∈ cd.fields, ¬ IsRead f → f.dflt = some (val f)) →
      (∀ f ∈ cd.fields, IsRead f → FieldRead env m c cd kvs f (val f)) →
      cd.postInit = some p → p (cd.fields.map (fun f => (f.name, val f))) = .error e → Throws env m (.cls c) (.dict dk kvs) e
  | field {m c cd dk kvs pre f post x e} {val : FieldDef → Val} : m.named = true → Opens env c cd kvs → cd.fields = pre ++ f :: post →
      (∀ g ∈ pre, IsRead g → FieldRead env m c cd kvs g (val g)) → IsRead f → OwnEntry cd f → Entry cd f kvs x →
      Throws env (m.enter c cd) f.ty x e → Throws env m (.cls c) (.dict dk kvs) e
  | inlined {m c cd dk dk' kvs pre f post ch sub e} {val : FieldDef → Val} : m.named = true → Opens env c cd kvs → cd.fields = pre ++ f :: post →
      (∀ g ∈ pre, IsRead g → FieldRead env m c cd kvs g (val g)) → IsRead f → Inlined f ch → ChildPart env c ch kvs sub →
      Flattenable env ch →
      Throws env (m.enter c cd) (.cls ch) (.dict dk' sub) e → Throws env m (.cls c) (.dict dk kvs) e
  | rowPost {m c cd p x xs e} {val : FieldDef → Val} : m.named = false → env.cls c = some cd → RowClass cd → (x = .list xs ∨ x = .tuple xs) →
      (∀ f ∈ cd.fields, f.init = false → f.dflt = some (val f)) → (∀ i f, Param cd i f → ItemRead env m c cd xs i f (val f)) →
      cd.postInit = some p → p (cd.fields.map (fun f => (f.name, val f))) = .error e → Throws env m (.cls c) x e
  | rowItem {m c cd x xs i f y e} {val : FieldDef → Val} : m.named = false → env.cls c = some cd → RowClass cd → (x = .list xs ∨ x = .tuple xs) →
      Param cd i f → (∀ j g, j < i → Param cd j g → ItemRead env m c cd xs j g (val g)) →
      f.flatten = false → f.alias = [] → f.deserializer = none → xs[i]? = some y → Throws env (m.enter c cd) f.ty y e → Throws env m (.cls c) x e
  | throughPost {m c cd f p x v e} : OpensThrough env c cd f → cd.fields = [f] → Valid env (m.enter c cd) f.ty x v →
      cd.postInit = some p → p [(f.name, v)] = .error e → Throws env m (.cls c) x e
  | through {m c cd f x e} : OpensThrough env c cd f → Throws env (m.enter c cd) f.ty x e → Throws env m (.cls c) x e
  | item {m T t x pre y post vs e} : ItemsOf T t → Items x (pre ++ y :: post) → pre.length = vs.length →
      (∀ p ∈ pre.zip vs, Valid env m t p.1 p.2) → (∀ k, T = .set k t → hashableL env.hash vs = true) → Throws env m t y e → Throws env m T x e
  | tuple {m tpre t tpost x pre y post vs e} : (x = .list (pre ++ y :: post) ∨ x = .tuple (pre ++ y :: post)) → tpre.length = pre.length →
      pre.length = vs.length → (∀ p ∈ tpre.zip (pre.zip vs), Valid env m p.1 p.2.1 p.2.2) → Throws env m t y e →
      Throws env m (.tuple (tpre ++ t :: tpost)) x e
  | dictValue {m k kt vt dk pre kx y post kv' e} {es : List (Val × Val)} : pre.length = es.length →
      (∀ p ∈ pre.zip es, KeyRead env m kt p.1.1 p.2.1 ∧ Valid env m vt p.1.2 p.2.2) → hashableL env.hash (es.map (·.1)) = true →
      KeyRead env m kt kx kv' → Throws env m vt y e →
      Throws env m (.dict k kt vt) (.dict dk (pre ++ (kx, y) :: post)) e
  | dictKey {m k kt vt dk pre kx y post e} {es : List (Val × Val)} : pre.length = es.length →
      (∀ p ∈ pre.zip es, KeyRead env m kt p.1.1 p.2.1 ∧ Valid env m vt p.1.2 p.2.2) → hashableL env.hash (es.map (·.1)) = true →
      Throws env m kt kx e →
      Throws env m (.dict k kt vt) (.dict dk (pre ++ (kx, y) :: post)) e
  | counterKey {m t dk pre kx y post es e} : pre.length = es.length → (∀ p ∈ pre.zip es, Valid env m t p.1.1 p.2) →
      hashableL env.hash es = true → Throws env m t kx e →
      Throws env m (.counter t) (.dict dk (pre ++ (kx, y) :: post)) e
  | opt {m t x e} : t ≠ .none → x ≠ .none → Throws env m t x e → Throws env m (.union [t, .none]) x e
  | alias {m nm t x e} : Throws env m t x e → Throws env m (.alias nm t) x e
  | gen {m c as x e} : Throws env m (.cls c) x e → Throws env m (.gen c as) x e

end Verif.Spec
