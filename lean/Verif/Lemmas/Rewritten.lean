import Verif.Spec.History
/-!
# Python-equal annotations are rewritings of each other
-/

namespace Verif
open Spec

theorem Spec.Rewritten.of_members {ts us : List Ty} (h : ∀ t ∈ ts, ∃ u ∈ us, Rewritten t u) (h' : ∀ u ∈ us, ∃ t ∈ ts, Rewritten t u) :
    Rewritten (.union ts) (.union us) := by
  classical
  refine .union (fun t => if ht : t ∈ ts then (h t ht).choose else t) (fun u => if hu : u ∈ us then (h' u hu).choose else u) ?_ ?_ ?_ ?_
  · intro t ht; simp only [ht, dif_pos]; exact (h t ht).choose_spec.1
  · intro t ht; simp only [ht, dif_pos]; exact (h t ht).choose_spec.2
  · intro u hu; simp only [hu, dif_pos]; exact (h' u hu).choose_spec.1
  · intro u hu; simp only [hu, dif_pos]; exact (h' u hu).choose_spec.2

theorem Spec.Rewritten.members {ts us : List Ty} (h : Rewritten (.union ts) (.union us)) :
    (∀ t ∈ ts, ∃ u ∈ us, Rewritten t u) ∧ ∀ u ∈ us, ∃ t ∈ ts, Rewritten t u := by
  cases h with
  | refl => exact ⟨fun t ht => ⟨t, ht, .refl⟩, fun t ht => ⟨t, ht, .refl⟩⟩
  | union f g h1 h2 h3 h4 => exact ⟨fun t ht => ⟨f t, h1 t ht, h2 t ht⟩, fun u hu => ⟨g u, h3 u hu, h4 u hu⟩⟩

theorem Spec.Settled.piece {t s} (h : Settled t) (hp : Piece false t s) : Settled s :=
  ⟨fun ts hw => h.1 ts (.step hp hw), fun vs hw => h.2.1 vs (.step hp hw), fun n u hw => h.2.2 n u (.step hp hw)⟩

/-- An annotation without unions, literals and aliases has one writing. -/
theorem Spec.Rewritten.settled {s t} (h : Rewritten s t) (hs : Settled t) : s = t := by
  induction h with
  | refl => rfl
  | list _ ih => rw [ih (hs.piece .list)]
  | set _ ih => rw [ih (hs.piece .set)]
  | deque _ ih => rw [ih (hs.piece .deque)]
  | counter _ ih => rw [ih (hs.piece .counter)]
  | tupleV _ ih => rw [ih (hs.piece .tupleV)]
  | dict _ _ ih ih' => rw [ih (hs.piece .key), ih' (hs.piece .value)]
  | tuple hl _ ih => rw [List.ext_getElem hl (fun i hi hi' => ih i hi hi' (hs.piece (.tuple (List.getElem_mem hi'))))]
  | gen hl _ ih => rw [List.ext_getElem hl (fun i hi hi' => ih i hi hi' (hs.piece (.arg (List.getElem_mem hi'))))]
  | lit _ => exact absurd .refl (hs.2.1 _)
  | union => exact absurd .refl (hs.1 _)
  | alias => exact absurd .refl (hs.2.2 _ _)

theorem litSame_eq {v w : Val} (h : litSame v w = true) : v = w := by
  cases v <;> cases w <;> simp_all [litSame]
theorem tyEqSub_iff : ∀ {ts us : List Ty}, tyEqSub ts us = true ↔ ∀ t ∈ ts, ∃ u ∈ us, tyEq t u = true
  | [], us => by simp [tyEqSub]
  | t :: ts, us => by simp [tyEqSub, tyEqSub_iff (ts := ts)]
theorem tyEqSome_iff : ∀ {ts : List Ty} {u}, tyEqSome ts u = true ↔ ∃ t ∈ ts, tyEq t u = true
  | [], u => by simp [tyEqSome]
  | t :: ts, u => by simp [tyEqSome, tyEqSome_iff (ts := ts)]
theorem tyEqL_iff : ∀ {ts us : List Ty}, tyEqL ts us = true → ts.length = us.length ∧ ∀ i (h : i < ts.length) (h' : i < us.length), tyEq ts[i] us[i] = true
  | [], [], _ => ⟨rfl, fun i h => absurd h (Nat.not_lt_zero _)⟩
  | [], _ :: _, h => by simp [tyEqL] at h
  | _ :: _, [], h => by simp [tyEqL] at h
  | t :: ts, u :: us, h => by
    simp only [tyEqL, Bool.and_eq_true] at h
    have ih := tyEqL_iff h.2
    refine ⟨by simp [ih.1], fun i hi hi' => ?_⟩
    cases i with
    | zero => exact h.1
    | succ i => exact ih.2 i (by simpa using hi) (by simpa using hi')
theorem tyEq_rewritten (s u : Ty) (h : tyEq s u = true) : Rewritten s u := by
  match s, u with
  | .list k t, .list k' t' => simp only [tyEq, Bool.and_eq_true, beq_iff_eq] at h; obtain ⟨rfl, h⟩ := h; exact .list (tyEq_rewritten t t' h)
  | .set k t, .set k' t' => simp only [tyEq, Bool.and_eq_true, beq_iff_eq] at h; obtain ⟨rfl, h⟩ := h; exact .set (tyEq_rewritten t t' h)
  | .deque t, .deque t' => simp only [tyEq] at h; exact .deque (tyEq_rewritten t t' h)
  | .counter t, .counter t' => simp only [tyEq] at h; exact .counter (tyEq_rewritten t t' h)
  | .tupleV t, .tupleV t' => simp only [tyEq] at h; exact .tupleV (tyEq_rewritten t t' h)
  | .tuple ts, .tuple us =>
    simp only [tyEq] at h
    obtain ⟨hl, h⟩ := tyEqL_iff h
    exact .tuple hl (fun i hi hi' => have := List.sizeOf_lt_of_mem (List.getElem_mem hi); tyEq_rewritten _ _ (h i hi hi'))
  | .gen c ts, .gen c' us =>
    simp only [tyEq, Bool.and_eq_true, beq_iff_eq] at h
    obtain ⟨rfl, h⟩ := h
    obtain ⟨hl, h⟩ := tyEqL_iff h
    exact .gen hl (fun i hi hi' => have := List.sizeOf_lt_of_mem (List.getElem_mem hi); tyEq_rewritten _ _ (h i hi hi'))
  | .dict k t v, .dict k' t' v' =>
    simp only [tyEq, Bool.and_eq_true, beq_iff_eq] at h
    obtain ⟨⟨rfl, h⟩, h'⟩ := h
    exact .dict (tyEq_rewritten t t' h) (tyEq_rewritten v v' h')
  | .lit vs, .lit ws =>
    simp only [tyEq, Bool.and_eq_true, List.all_eq_true, List.any_eq_true] at h
    refine .lit (fun v => ⟨fun hv => ?_, fun hv => ?_⟩)
    · obtain ⟨w, hw, he⟩ := h.1 v hv
      rw [litSame_eq he]; exact hw
    · obtain ⟨w, hw, he⟩ := h.2 v hv
      rw [litSame_eq he]; exact hw
  | .union ts, .union us =>
    simp only [tyEq, Bool.and_eq_true, List.all_eq_true] at h
    refine Rewritten.of_members (fun t ht => ?_) (fun u hu => ?_)
    · obtain ⟨u, hu, he⟩ := tyEqSub_iff.1 h.1 t ht
      have := List.sizeOf_lt_of_mem ht
      exact ⟨u, hu, tyEq_rewritten t u he⟩
    · obtain ⟨t, ht, he⟩ := tyEqSome_iff.1 (h.2 u hu)
      have := List.sizeOf_lt_of_mem ht
      exact ⟨t, ht, tyEq_rewritten t u he⟩
  | .alias n t, .alias m u => simp only [tyEq, beq_iff_eq] at h; subst h; exact .alias
  | .prim _, u | .newType _ _, u | .none, u | .any, u | .listB _, u | .setB _, u | .dequeB, u | .counterB, u | .tupleB, u | .dictB _, u | .enum _, u
  | .std _, u | .dt _, u | .cls _, u | .tvar _, u | .other _, u =>
    cases u <;> simp [tyEq] at h <;> (try obtain ⟨h1, h2⟩ := h) <;> (try subst h1) <;> (try subst h2) <;> (try subst h) <;> exact .refl
termination_by sizeOf s
decreasing_by all_goals (simp_wf; try omega)

end Verif
