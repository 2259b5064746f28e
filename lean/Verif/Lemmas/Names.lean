import Verif.Lemmas.Twin
import Verif.Spec.Names
/-!
# Names: lemmas
-/

namespace Verif
open Spec

theorem conv_eq_wireName {f : FieldDef} (h : RenameOk f) (case : Option (String → String)) :
    f.conv case = wireName f.rename case f.name := by
  unfold FieldDef.conv wireName
  unfold RenameOk at h
  cases hr : f.rename with
  | none => cases case <;> rfl
  | some r =>
    have : (r == "") = false := by
      rw [beq_eq_false_iff_ne]; rintro rfl; exact h hr
    simp [this]

theorem flatChild_eq_inlined (f : FieldDef) : f.flatChild = inlined f := by
  unfold FieldDef.flatChild inlined
  cases f.flatten
  · rfl
  · simp only [Bool.not_true, Bool.false_eq_true, if_false]
    repeat' split
    all_goals simp_all

theorem flatDict_eq_takesRest (f : FieldDef) : f.flatDict = takesRest f := rfl

theorem knownCls_sound {env : Env} {n c k} (h : k ∈ knownCls env n c) : Recognised env c k := by
  induction n generalizing c k with
  | zero => simp [knownCls] at h
  | succ n ih =>
    unfold knownCls at h
    split at h
    · simp at h
    · rename_i cd hc
      split at h
      · rename_i ht
        simp at h
        subst h
        exact .transparent hc ht
      · rename_i ht
        have ht' : cd.transparent = false := by simpa using ht
        rw [List.mem_flatMap] at h
        obtain ⟨f, hf, hk⟩ := h
        split at hk
        · simp at hk
        · rename_i hfd
          have hfd' : takesRest f = false := by rw [← flatDict_eq_takesRest]; simpa using hfd
          split at hk
          · rename_i ch hch
            rw [flatChild_eq_inlined] at hch
            exact .child hc ht' hf hfd' hch (ih hk)
          · rename_i hch
            rw [flatChild_eq_inlined] at hch
            unfold FieldDef.knownNames at hk
            exact .own hc ht' hf hfd' hch (by simpa using hk)

theorem knownCls_complete {env : Env} {rank : ClassId → Nat}
    (hr : ∀ c cd f ch, env.cls c = some cd → f ∈ cd.fields → inlined f = some ch → rank ch < rank c) {c k}
    (h : Recognised env c k) : ∀ n, rank c < n → k ∈ knownCls env n c := by
  induction h with
  | @own c cd f k hc ht hf hfd hch hk =>
    intro n hn
    cases n with
    | zero => omega
    | succ n =>
      unfold knownCls
      rw [hc]
      simp only [ht, Bool.false_eq_true, if_false]
      rw [List.mem_flatMap]
      refine ⟨f, hf, ?_⟩
      rw [flatDict_eq_takesRest, hfd, flatChild_eq_inlined, hch]
      simp only [Bool.false_eq_true, if_false, FieldDef.knownNames, List.mem_cons]
      exact hk
  | @child c cd f ch k hc ht hf hfd hch _ ih =>
    intro n hn
    cases n with
    | zero => omega
    | succ n =>
      unfold knownCls
      rw [hc]
      simp only [ht, Bool.false_eq_true, if_false]
      rw [List.mem_flatMap]
      refine ⟨f, hf, ?_⟩
      rw [flatDict_eq_takesRest, hfd, flatChild_eq_inlined, hch]
      simp only [Bool.false_eq_true, if_false]
      exact ih n (by have := hr c cd f ch hc hf hch; omega)
  | @transparent c cd hc ht =>
    intro n hn
    cases n with
    | zero => omega
    | succ n =>
      unfold knownCls
      rw [hc]
      simp [ht]

theorem known_iff {env : Env} (hf : FlattenAcyclic env) {c k} : k ∈ env.known c ↔ Recognised env c k := by
  obtain ⟨rank, hb, hr⟩ := hf
  constructor
  · exact knownCls_sound
  · intro h
    exact knownCls_complete hr h _ (by have := hb c; omega)

theorem pyEq_str_left {k : Val} {s : String} : pyEq (.str s) k = true ↔ k = .str s := by
  constructor
  · intro h
    cases k <;> simp_all [pyEq]
  · rintro rfl
    simp [pyEq]

theorem pyEq_str_right {k : Val} {s : String} : pyEq k (.str s) = true ↔ k = .str s := by
  constructor
  · intro h
    cases k <;> simp_all [pyEq, Val.num]
  · rintro rfl
    simp [pyEq]

theorem keyKnown_iff {known : List String} {k : Val} : keyKnown known k = true ↔ ∃ s ∈ known, k = .str s := by
  unfold keyKnown
  simp [List.any_eq_true, pyEq_str_right]

theorem truthy_dict {env : Env} {k kvs} : truthy env (.dict k kvs) = !kvs.isEmpty := rfl

theorem orEmptyItems_dict {env : Env} {k kvs} : orEmptyItems env (.dict k kvs) = .ok kvs := by
  unfold orEmptyItems
  cases kvs <;> rfl

end Verif
