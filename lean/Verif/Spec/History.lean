import Verif.Model.Cache
/-!
# Specification vocabulary: histories of calls and of questions about types
-/

namespace Verif.Spec

/-- `s` is written directly inside the annotation `t`. With `fold`, also the `Optional[a]` that `typename` reads in a union where `a` is
followed by `None`. Dataclasses are not entered. -/
inductive Piece (fold : Bool) : Ty → Ty → Prop
  | union {ts s} : s ∈ ts → Piece fold (.union ts) s
  | list {k t} : Piece fold (.list k t) t
  | set {k t} : Piece fold (.set k t) t
  | deque {t} : Piece fold (.deque t) t
  | counter {t} : Piece fold (.counter t) t
  | tuple {ts s} : s ∈ ts → Piece fold (.tuple ts) s
  | tupleV {t} : Piece fold (.tupleV t) t
  | key {k kt vt} : Piece fold (.dict k kt vt) kt
  | value {k kt vt} : Piece fold (.dict k kt vt) vt
  | arg {c ts s} : s ∈ ts → Piece fold (.gen c ts) s
  | alias {nm t} : Piece fold (.alias nm t) t
  | opt {ts a l r} : fold = true → ts = l ++ a :: .none :: r → Piece fold (.union ts) (.union [a, .none])

/-- `s` occurs in the annotation `t`, at any depth, `t` itself included. -/
inductive Within (fold : Bool) : Ty → Ty → Prop
  | refl {t} : Within fold t t
  | step {t s u} : Piece fold t s → Within fold s u → Within fold t u

theorem Within.trans {fold t s u} (h : Within fold t s) (h' : Within fold s u) : Within fold t u := by
  induction h with
  | refl => exact h'
  | step hp _ ih => exact .step hp (ih h')

theorem Within.snoc {fold t s u} (h : Within fold t s) (hp : Piece fold s u) : Within fold t u := h.trans (.step hp .refl)

/-- Two annotations that Python takes for equal: written alike, except that the members of a union and the values of a `Literal` may come in another order
or repeatedly, and that two aliases of one name are one. -/
inductive Rewritten : Ty → Ty → Prop
  | refl {t} : Rewritten t t
  | list {k t u} : Rewritten t u → Rewritten (.list k t) (.list k u)
  | set {k t u} : Rewritten t u → Rewritten (.set k t) (.set k u)
  | deque {t u} : Rewritten t u → Rewritten (.deque t) (.deque u)
  | counter {t u} : Rewritten t u → Rewritten (.counter t) (.counter u)
  | tuple {ts us : List Ty} : ts.length = us.length → (∀ i (h : i < ts.length) (h' : i < us.length), Rewritten ts[i] us[i]) → Rewritten (.tuple ts) (.tuple us)
  | tupleV {t u} : Rewritten t u → Rewritten (.tupleV t) (.tupleV u)
  | dict {k t t' u u'} : Rewritten t t' → Rewritten u u' → Rewritten (.dict k t u) (.dict k t' u')
  | gen {c} {ts us : List Ty} : ts.length = us.length → (∀ i (h : i < ts.length) (h' : i < us.length), Rewritten ts[i] us[i]) → Rewritten (.gen c ts) (.gen c us)
  | lit {vs ws} : (∀ v, v ∈ vs ↔ v ∈ ws) → Rewritten (.lit vs) (.lit ws)
  | union {ts us : List Ty} (f g : Ty → Ty) : (∀ t ∈ ts, f t ∈ us) → (∀ t ∈ ts, Rewritten t (f t)) → (∀ u ∈ us, g u ∈ ts) → (∀ u ∈ us, Rewritten (g u) u) →
      Rewritten (.union ts) (.union us)
  | alias {n t u} : Rewritten (.alias n t) (.alias n u)

/-- An annotation without unions, literals and aliases, at any depth. -/
def Settled (t : Ty) : Prop := (∀ ts, ¬ Within false t (.union ts)) ∧ (∀ vs, ¬ Within false t (.lit vs)) ∧ ∀ n u, ¬ Within false t (.alias n u)

/-- No union asked for before, under a tagging that matters to the call, is a rewriting of a union in `c` without being written the same. -/
def NoTwinBefore (h : List UnionReq) (tagging : Tagging) (c : Ty) : Prop :=
  ∀ q ∈ h, (q.2 = tagging ∨ q.2 = .external) → ∀ ts, Within false c (.union ts) → Rewritten (.union q.1) (.union ts) → q.1 = ts

/-- No type occurring in an earlier question, or in this one, is a rewriting of a type in this question without being written the same. -/
def NoTwinAsked (h : List Query) (q : Query) : Prop :=
  ∀ q' ∈ q :: h, ∀ s, Within true q'.ty s → ∀ t, Within true q.ty t → Rewritten s t → s = t

end Verif.Spec
