import Verif.Spec.Field
/-!
# Specification vocabulary: generic dataclasses
-/

namespace Verif.Spec

/-- What the type variables of a class stand for. -/
abbrev Binding := String → Option Ty

/-- `Foo[args]` for `class Foo(Generic[vs])`: the variables stand for the arguments, by position. -/
def bindArgs (vs : List String) (args : List Ty) : Binding := fun x => (vs.zip args).lookup x

/-- `Bar[zs]` written inside a class whose variables have the meaning `σ`, for `class Bar(Generic[ws])`. -/
def bindVars (σ : Binding) (ws zs : List String) : Binding := fun x => match (ws.zip zs).lookup x with
  | some z => σ z
  | none => none

/-- A generic dataclass with the type variables `ws`, without class-level or global deserializers. -/
structure GenClass (env : Env) (b : ClassId) (bd : ClassDef) (ws : List String) : Prop where
  plain : PlainClass env b bd
  vars : bd.tvars = some ws
  noDe : ∀ s ∈ env.gde ++ bd.classDe.toList, ∀ t, s.handles t = false

/-- The annotations covered by the theorem, in a class whose variables mean `σ`, inside an object read at a generic type whose
variables mean `σ₀`. A subscripted generic must pass on variables that mean the same here as the variables of that name mean in the
outermost class; a bare variable is covered only when `v` is true (below the outermost class). -/
inductive Covered (env : Env) (σ₀ σ : Binding) (v : Bool) : Ty → Prop
  | var {x t} : v = true → σ x = some t → Covered env σ₀ σ v (.tvar x)
  | gen {b bd ws} {zs : List String} : GenClass env b bd ws → ws.length = zs.length → (∀ z ∈ zs, σ z ≠ none ∧ σ z = σ₀ z) →
      Covered env σ₀ σ v (.gen b (zs.map .tvar))
  | list {k t} : Covered env σ₀ σ v t → Covered env σ₀ σ v (.list k t)
  | deque {t} : Covered env σ₀ σ v t → Covered env σ₀ σ v (.deque t)
  | tupleV {t} : Covered env σ₀ σ v t → Covered env σ₀ σ v (.tupleV t)
  | dict {vt} : Covered env σ₀ σ v vt → Covered env σ₀ σ v (.dict .dict (.prim .str) vt)
  | opt {t} : Covered env σ₀ σ v t → Covered env σ₀ σ v (.union [t, .none])

/-- `d` is read as `w` at an annotation whose variables mean `σ`: at a type variable `w` is what `from_dict` makes of `d` at the
type the variable stands for; everything around is read part by part. Nothing is
claimed about a generic dataclass read from something else than a dict (`notDict`). -/
inductive ReadAs (env : Env) (o : DeOpts) (σ₀ : Binding) : Binding → Ty → Val → Val → Prop
  | var {σ x t d w n} : σ x = some t → fromDict env o n t d = .ok w → ReadAs env o σ₀ σ (.tvar x) d w
  | list {σ k t d xs ys} : pyIter d = .ok xs → xs.length = ys.length →
      (∀ (i : Nat) x y, xs[i]? = some x → ys[i]? = some y → ReadAs env o σ₀ σ t x y) → ReadAs env o σ₀ σ (.list k t) d (.list ys)
  | deque {σ t d xs ys} : pyIter d = .ok xs → xs.length = ys.length →
      (∀ (i : Nat) x y, xs[i]? = some x → ys[i]? = some y → ReadAs env o σ₀ σ t x y) → ReadAs env o σ₀ σ (.deque t) d (.deque ys)
  | tupleV {σ t d xs ys} : pyIter d = .ok xs → xs.length = ys.length →
      (∀ (i : Nat) x y, xs[i]? = some x → ys[i]? = some y → ReadAs env o σ₀ σ t x y) → ReadAs env o σ₀ σ (.tupleV t) d (.tuple ys)
  | dict {σ vt d kvs es} (src : Val × Val → Val × Val) : pyItems d = .ok kvs → (∀ e ∈ es, src e ∈ kvs) →
      (∀ e ∈ es, ∀ s, (src e).1 = .str s → e.1 = .str s) → (∀ e ∈ es, ReadAs env o σ₀ σ vt (src e).2 e.2) →
      ReadAs env o σ₀ σ (.dict .dict (.prim .str) vt) d (.dict .plain es)
  | optNone {σ t} : ReadAs env o σ₀ σ (.union [t, .none]) .none .none
  | optSome {σ t d w} : d ≠ .none → ReadAs env o σ₀ σ t d w → ReadAs env o σ₀ σ (.union [t, .none]) d w
  | gen {σ b bd ws dk kvs attrs} {zs : List String} (val : FieldDef → Val) : GenClass env b bd ws →
      (∀ f x, PlainField env bd f → getStr (f.conv bd.deCase) kvs = some x → attrs.lookup f.name = some (val f)) →
      (∀ f x, PlainField env bd f → getStr (f.conv bd.deCase) kvs = some x → Covered env σ₀ (bindVars σ ws zs) true f.ty →
        ReadAs env o σ₀ (bindVars σ ws zs) f.ty x (val f)) →
      ReadAs env o σ₀ σ (.gen b (zs.map .tvar)) (.dict dk kvs) (.inst b attrs)
  | notDict {σ b d w} {zs : List String} : (∀ dk kvs, d ≠ .dict dk kvs) → ReadAs env o σ₀ σ (.gen b (zs.map .tvar)) d w

end Verif.Spec
