import Verif.Spec.Truth
import Verif.Model.Core
/-!
# `truthy` and `IsFalse`
-/

namespace Verif
open Spec

theorem truthy_false_iff {env : Env} {v : Val} : truthy env v = false ↔ IsFalse env v := by
  constructor
  · intro h
    cases v with
    | none => exact .none
    | bool b => cases b with
      | false => exact .zero .false
      | true => cases h
    | int i =>
      have : i = 0 := by simpa [truthy] using h
      subst this; exact .zero .int
    | float x => cases x with
      | fin q =>
        have : q = 0 := by simpa [truthy] using h
        subst this; exact .zero .float
      | inf b => cases h
      | nan => cases h
    | str s =>
      have : s = "" := by simpa [truthy] using h
      subst this; exact .zero .str
    | list xs => cases xs with
      | nil => exact .list
      | cons => cases h
    | tuple xs => cases xs with
      | nil => exact .tuple
      | cons => cases h
    | deque xs => cases xs with
      | nil => exact .deque
      | cons => cases h
    | set k xs => cases xs with
      | nil => exact .set
      | cons => cases h
    | dict k xs => cases xs with
      | nil => exact .dict
      | cons => cases h
    | enum e m =>
      simp only [truthy] at h
      split at h
      · rename_i d hd
        split at h
        · rename_i p hp
          split at h
          · rename_i i hi
            have : i = 0 := by simpa using h
            subst this; exact .enum hd hp hi .int
          · rename_i s hs
            have : s = "" := by simpa using h
            subst this; exact .enum hd hp hs .str
          · rename_i b hb
            subst h; exact .enum hd hp hb .false
          · rename_i q hq
            have : q = 0 := by simpa using h
            subst this; exact .enum hd hp hq .float
          · cases h
        · cases h
      · cases h
    | std k s => exact .std h
    | dt k s => cases h
    | inst c as => cases h
  · intro h
    cases h with
    | zero hz => cases hz <;> simp [truthy]
    | enum h1 h2 h3 hz =>
      unfold truthy
      simp only [h1, h2]
      cases hz <;> simp [h3]
    | std h => exact h
    | _ => rfl

theorem truthy_true_iff {env : Env} {v : Val} : truthy env v = true ↔ ¬ IsFalse env v := by
  rw [← truthy_false_iff, Bool.not_eq_false]

end Verif
