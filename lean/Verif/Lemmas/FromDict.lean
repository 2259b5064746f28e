import Verif.Lemmas.CtorErr
/-!
# `from_dict` on a decorated class, unfolded
-/

namespace Verif

/-- The call `from_obj` makes to the generated function of a plain class. -/
def topCall (o : DeOpts) : DeCall := { reuse := o.reuse, numbers := o.numbers }

theorem wrapUser_ok {α : Type} {r : Res α} {a} : wrapUser r = .ok a ↔ r = .ok a := by
  unfold wrapUser
  constructor
  · intro h; split at h <;> cases h; rfl
  · rintro rfl; rfl

theorem fromObj_cls {env : Env} {n named re nu tg c d} (hg : ∀ s ∈ env.gde, s.handles (.cls c) = false)
    (hd : ∀ as, d ≠ .inst c as) :
    (deAt env (n + 2)).fromObj named re nu tg (.cls c) d =
      wrapUser (deClsF env (deAt env n) named c { reuse := re, numbers := nu } d) := by
  have h1 : typeIs d (.cls c) = false := by
    cases d with
    | inst k as =>
      simp only [typeIs, beq_eq_false_iff_ne]
      rintro rfl
      exact hd as rfl
    | _ => rfl
  have h2 : env.gde.find? (fun s => s.handles (.cls c)) = none := by
    rw [List.find?_eq_none]
    intro s hs
    simp [hg s hs]
  rw [deAt_fromObj]
  unfold fromObjF
  dsimp only
  rw [h1]
  simp only [Bool.false_eq_true, if_false]
  unfold fromObjBody
  dsimp only
  rw [h2]
  rfl

theorem fromDict_cls {env : Env} {n o c d} (hg : ∀ s ∈ env.gde, s.handles (.cls c) = false) (hd : ∀ as, d ≠ .inst c as) :
    fromDict env o (n + 2) (.cls c) d = wrapUser (deClsF env (deAt env n) true c (topCall o) d) := fromObj_cls hg hd

theorem fromTuple_cls {env : Env} {n o c d} (hg : ∀ s ∈ env.gde, s.handles (.cls c) = false) (hd : ∀ as, d ≠ .inst c as) :
    fromTuple env o (n + 2) (.cls c) d = wrapUser (deClsF env (deAt env n) false c (topCall o) d) := fromObj_cls hg hd

theorem fromObj_cls_fuel0 {env : Env} {named re nu tg t d} : (deAt env 0).fromObj named re nu tg t d = .error .fuel := rfl

theorem fromObj_cls_fuel1 {env : Env} {named re nu tg c d} (hg : ∀ s ∈ env.gde, s.handles (.cls c) = false)
    (hd : ∀ as, d ≠ .inst c as) : (deAt env 1).fromObj named re nu tg (.cls c) d = .error .fuel := by
  have h1 : typeIs d (.cls c) = false := by
    cases d with
    | inst k as =>
      simp only [typeIs, beq_eq_false_iff_ne]
      rintro rfl
      exact hd as rfl
    | _ => rfl
  have h2 : env.gde.find? (fun s => s.handles (.cls c)) = none := by
    rw [List.find?_eq_none]
    intro s hs
    simp [hg s hs]
  rw [deAt_fromObj]
  unfold fromObjF
  dsimp only
  rw [h1]
  simp only [Bool.false_eq_true, if_false]
  unfold fromObjBody
  dsimp only
  rw [h2]
  rfl

/-- A result of `from_dict` other than exhausted fuel has used at least two levels. -/
theorem fromObj_cls_cases {env : Env} {n named re nu tg c d} (hg : ∀ s ∈ env.gde, s.handles (.cls c) = false)
    (hd : ∀ as, d ≠ .inst c as) {x} (h : (deAt env n).fromObj named re nu tg (.cls c) d = x) (hx : x ≠ .error .fuel) :
    ∃ m, n = m + 2 ∧ wrapUser (deClsF env (deAt env m) named c { reuse := re, numbers := nu } d) = x := by
  match n with
  | 0 => exact absurd h.symm hx
  | 1 => rw [fromObj_cls_fuel1 hg hd] at h; exact absurd h.symm hx
  | m + 2 => rw [fromObj_cls hg hd] at h; exact ⟨m, rfl, h⟩

end Verif
