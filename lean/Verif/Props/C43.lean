import Verif.Lemmas.Memo
import Verif.Lemmas.Rewritten
import Verif.Props.C42
import Verif.Examples.World
/-!
# C43: questions about types are history-independent

Full statement: "Questions about types (name, arguments, is it Optional) give the same answer no matter which types were asked about before."

Proved for every history: "is it Optional" and "is it a union" (`C43_is_union_is_opt`), and every memoized question whose answer
Python-equal types share (`C43_shared`). The name, the arguments and "is it an Optional dataclass" (partial): the same, provided no type met
before, on its own or inside another, is a rewriting (`Rewritten`) of one met in this question without being written the same. Without the condition
they are false: `C43_false_name`, `C43_false_args`, `C43_false_opt_dataclass`.
-/

namespace Verif.Props
open Verif Spec

theorem asked_within {h : List Query} {q : Query} (hT : NoTwinAsked h q) :
    Asked (fun s => ∃ q' ∈ q :: h, Within true q'.ty s) (fun t => Within true q.ty t) where
  closedD := fun _ _ ⟨q', hq, hw⟩ hp => ⟨q', hq, hw.snoc hp⟩
  closedP := fun _ _ hw hp => hw.snoc hp
  twin := fun s p ⟨q', hq, hw⟩ hp he => hT q' hq s hw p hp (tyEq_rewritten _ _ he)

/-- **C43** (partial): after every history of questions in which no type of this question was met in another writing, the answer is the one
of a fresh process, and the one read off the type itself. Missing: histories with such types (false: `C43_false_name`, `C43_false_args`,
`C43_false_opt_dataclass`). -/
theorem C43_answers_partial {env : Env} {h : List Query} {q : Query} (hT : NoTwinAsked h q) :
    (ask env (Memos.after env h {}) q).1 = (ask env {} q).1 ∧ (ask env {} q).1 = trueAnswer env q := by
  have hA := asked_within hT
  have hq : ∃ q' ∈ q :: h, Within true q'.ty q.ty := ⟨q, .head _, .refl⟩
  have h1 := (ask_right (env := env) hA (after_right hA (h := h) (fun q' hq' => ⟨q', .tail _ hq', .refl⟩) allRight_nil) hq).2 .refl
  have h2 := (ask_right (env := env) hA allRight_nil hq).2 .refl
  exact ⟨h1.trans h2.symm, h2⟩

theorem settled_within {t s} (h : Within true t s) (ht : Settled t) : Settled s := by
  induction h with
  | refl => exact ht
  | step hp _ ih =>
    refine ih (ht.piece ?_)
    cases hp with
    | union hm => exact .union hm
    | list => exact .list
    | set => exact .set
    | deque => exact .deque
    | counter => exact .counter
    | tuple hm => exact .tuple hm
    | tupleV => exact .tupleV
    | key => exact .key
    | value => exact .value
    | arg hm => exact .arg hm
    | alias => exact .alias
    | opt => exact absurd .refl (ht.1 _)

/-- **C43** (partial): about an annotation without unions, literals and aliases, the answer is the one read off the annotation after every history. -/
theorem C43_settled_partial {env : Env} {h : List Query} {q : Query} (hq : Settled q.ty) :
    (ask env (Memos.after env h {}) q).1 = trueAnswer env q :=
  have := C43_answers_partial (env := env) (h := h) (q := q) (fun _ _ _ _ _ ht he => he.settled (settled_within ht hq))
  this.1.trans this.2

theorem tyEq_isUnion (s t : Ty) (h : tyEq s t = true) : s.isUnion = t.isUnion := by
  cases s <;> cases t <;> first | rfl | exact absurd h (by simp [tyEq])

theorem ask_unions {env : Env} {m : Memos} (hm : ∀ e ∈ m.unions, e.2 = e.1.isUnion) (q : Query) :
    ∀ e ∈ (ask env m q).2.unions, e.2 = e.1.isUnion := by
  cases q with
  | name t =>
    unfold ask
    dsimp only
    split <;> exact hm
  | args t => exact hm
  | isOpt t => exact hm
  | isOptDataclass t => exact hm
  | isUnion t =>
    intro e he
    unfold ask Memo.call at he
    dsimp only at he
    split at he
    · exact hm e he
    · rcases List.mem_append.1 he with he | he
      · exact hm e he
      · rw [List.mem_singleton.1 he]

theorem after_unions {env : Env} : ∀ {h : List Query} {m : Memos}, (∀ e ∈ m.unions, e.2 = e.1.isUnion) →
    ∀ e ∈ (Memos.after env h m).unions, e.2 = e.1.isUnion
  | [], _, hm => hm
  | q :: h, m, hm => after_unions (h := h) (m := (ask env m q).2) (ask_unions hm q)

/-- `is_union`, although memoized, and `is_opt` give the same answer after every history, whatever was asked. -/
theorem C43_is_union_is_opt {env : Env} {h : List Query} {t : Ty} :
    (ask env (Memos.after env h {}) (.isUnion t)).1 = .yes t.isUnion ∧ (ask env (Memos.after env h {}) (.isOpt t)).1 = .yes t.isOpt :=
  ⟨congrArg Answer.yes (Memo.call_shared tyEq_isUnion (after_unions (fun e he => by cases he)) t), rfl⟩

/-- Every memoized question whose answer Python-equal types share gives the same answer after every history of calls. -/
theorem C43_shared {β : Type} {f : Ty → β} (hf : ∀ s t, tyEq s t = true → f s = f t) (h : List Ty) (t : Ty) :
    ((Memo.asked f h []).call t (fun m => (f t, m))).1 = f t :=
  Memo.call_shared hf (Memo.asked_own (fun e he => by cases he)) t

/-- Such questions: `is_none`, `is_any`, `is_dataclass`, and the kind of container. -/
theorem tyEq_isNone (s t : Ty) (h : tyEq s t = true) : s.isNone = t.isNone := by
  cases s <;> cases t <;> first | rfl | exact absurd h (by simp [tyEq])

theorem tyEq_isAny (s t : Ty) (h : tyEq s t = true) : s.isAny = t.isAny := by
  cases s <;> cases t <;> first | rfl | exact absurd h (by simp [tyEq])

theorem tyEq_isCls (s t : Ty) (h : tyEq s t = true) : s.isCls = t.isCls := by
  cases s <;> cases t <;> first | rfl | exact absurd h (by simp [tyEq])

theorem tyEqSome_none {ts : List Ty} (h : tyEqSome ts .none = true) : ts.any Ty.isNone = true := by
  induction ts with
  | nil => cases h
  | cons t ts ih =>
    rw [tyEqSome, Bool.or_eq_true] at h
    rcases h with h | h
    · rw [List.any_cons, tyEq_isNone _ _ h]; rfl
    · simp [ih h]

theorem tyEqSub_none {ts us : List Ty} (h : tyEqSub ts us = true) (hn : ts.any Ty.isNone = true) : us.any Ty.isNone = true := by
  induction ts with
  | nil => cases hn
  | cons t ts ih =>
    rw [tyEqSub, Bool.and_eq_true] at h
    rw [List.any_cons, Bool.or_eq_true] at hn
    rcases hn with hn | hn
    · obtain ⟨u, hu, he⟩ := List.any_eq_true.1 h.1
      exact List.any_eq_true.2 ⟨u, hu, (tyEq_isNone _ _ he).symm.trans hn⟩
    · exact ih h.2 hn

/-- `type(None) in get_args(t)` is such a question too: the order of the members does not matter. -/
theorem tyEq_hasNone (s t : Ty) (h : tyEq s t = true) : s.hasNone = t.hasNone := by
  by_cases hu : ∃ ts us, s = .union ts ∧ t = .union us
  case neg =>
    cases s <;> cases t <;> first | rfl | (exact absurd ⟨_, _, rfl, rfl⟩ hu) | (exact absurd h (by simp [tyEq]))
  obtain ⟨ts, us, rfl, rfl⟩ := hu
  rw [tyEq, Bool.and_eq_true, List.all_eq_true] at h
  show ts.any Ty.isNone = us.any Ty.isNone
  rw [Bool.eq_iff_iff]
  refine ⟨tyEqSub_none h.1, fun hu => ?_⟩
  obtain ⟨u, hm, hn⟩ := List.any_eq_true.1 hu
  cases u <;> first | (exact tyEqSome_none (h.2 _ hm)) | cases hn

namespace Ex43

def env : Env := Ex42.env
def IS : Ty := .union [.prim .int, .prim .str]
def SI : Ty := .union [.prim .str, .prim .int]

theorem within_is {t} (h : Within true (.list .list IS) t) : t = .list .list IS ∨ t = IS ∨ t = .prim .int ∨ t = .prim .str := by
  have hp : ∀ p t, Within true (.prim p) t → t = .prim p := by
    intro p t h
    cases h with
    | refl => rfl
    | step hp _ => cases hp
  cases h with
  | refl => exact .inl rfl
  | step h1 h =>
    cases h1
    cases h with
    | refl => exact .inr (.inl rfl)
    | step h1 h =>
      cases h1 with
      | union hm =>
        simp only [List.mem_cons, List.not_mem_nil, or_false] at hm
        rcases hm with rfl | rfl
        · exact .inr (.inr (.inl (hp _ _ h)))
        · exact .inr (.inr (.inr (hp _ _ h)))
      | @opt ts a l r hf e =>
        rcases l with _ | ⟨x, _ | ⟨y, _ | ⟨z, l⟩⟩⟩ <;> simp at e

/-- Asking for the name of `list[Union[int, str]]` after other questions about it. -/
theorem noTwin : NoTwinAsked [.args IS, .name (.cls "A"), .isOptDataclass (.list .list IS)] (.name (.list .list IS)) := by
  intro q hq s hs t ht he
  have hs' : (s = .list .list IS ∨ s = IS ∨ s = .prim .int ∨ s = .prim .str) ∨ s = .cls "A" := by
    simp only [List.mem_cons, List.not_mem_nil, or_false] at hq
    rcases hq with rfl | rfl | rfl | rfl
    · exact .inl (within_is hs)
    · exact .inl (within_is (.step .list hs))
    · exact .inr (within_cls hs)
    · exact .inl (within_is hs)
  rcases hs' with (rfl | rfl | rfl | rfl) | rfl <;> rcases within_is ht with rfl | rfl | rfl | rfl <;>
    first | rfl | (cases he; done) | (cases he with | list h => cases h)

example : (ask env (Memos.after env [.args IS, .name (.cls "A"), .isOptDataclass (.list .list IS)] {}) (.name (.list .list IS))).1 =
    .text "list[Union[int, str]]" :=
  (C43_answers_partial noTwin).1.trans rfl

example : (ask env (Memos.after env [.name (.list .list (.prim .str)), .args IS, .name SI] {}) (.name (.list .list (.prim .int)))).1 = .text "list[int]" := by
  refine (C43_settled_partial ⟨fun ts h => ?_, fun vs h => ?_, fun n u h => ?_⟩).trans rfl <;>
    (cases h with
     | step hp h =>
       cases hp
       cases h with
       | step hp _ => cases hp)

example : (ask env (Memos.after env [.isUnion IS, .name SI] {}) (.isUnion SI)).1 = .yes true := C43_is_union_is_opt.1
example : (ask env (Memos.after env [.args (.union [.none, .cls "A"])] {}) (.isOpt (.union [.cls "A", .none]))).1 = .yes true := C43_is_union_is_opt.2
example : ((Memo.asked Ty.hasNone [.union [.none, .cls "A"], IS] []).call (.union [.cls "A", .none]) (fun m => (true, m))).1 = true :=
  C43_shared tyEq_hasNone _ _

end Ex43

/-- **C43 is false in general**: after `typename(Union[int, str])`, `typename(Union[str, int])` is `'Union[int, str]'`. -/
theorem C43_false_name : ∃ (env : Env) (h : List Query) (t : Ty),
    (ask env {} (.name t)).1 = .text "Union[str, int]" ∧ (ask env (Memos.after env h {}) (.name t)).1 = .text "Union[int, str]" :=
  ⟨Ex43.env, [.name Ex43.IS], Ex43.SI, rfl, rfl⟩

/-- **C43 is false in general**: after `get_args(Union[int, str])`, the arguments of `Union[str, int]` come in the other order. -/
theorem C43_false_args : ∃ (env : Env) (h : List Query) (t : Ty),
    (ask env {} (.args t)).1 = .types [.prim .str, .prim .int] ∧ (ask env (Memos.after env h {}) (.args t)).1 = .types [.prim .int, .prim .str] :=
  ⟨Ex43.env, [.args Ex43.IS], Ex43.SI, rfl, rfl⟩

/-- **C43 is false in general**: `is_opt_dataclass(Optional[A])` is False after `get_args(Union[None, A])`, which decorating a class with
such a field calls (/repo/serde/de.py:845). A class that flattens an `Optional[A]` is then rejected (/repo/serde/core.py:747-756). -/
theorem C43_false_opt_dataclass : ∃ (env : Env) (h : List Query) (t : Ty),
    (ask env {} (.isOptDataclass t)).1 = .yes true ∧ (ask env (Memos.after env h {}) (.isOptDataclass t)).1 = .yes false :=
  ⟨Ex43.env, [.args (.union [.none, .cls "A"])], .union [.cls "A", .none], rfl, rfl⟩

end Verif.Props
