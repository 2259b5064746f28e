import Verif.Examples.World
import Verif.Spec.Errors
/-!
# Checking a hypothesis about every class of a concrete environment
-/

namespace Verif.Ex
open Verif

theorem cls_mem {l : List (ClassId × ClassDef)} {c cd} (h : (Ex.mk l).cls c = some cd) : (c, cd) ∈ l := by
  unfold Env.cls Ex.mk at h
  dsimp only at h
  induction l with
  | nil => cases h
  | cons a l ih =>
    rw [List.lookup_cons] at h
    split at h
    · rename_i he
      cases h
      rw [eq_of_beq he]; simp
    · exact List.mem_cons_of_mem _ (ih h)

/-- A decidable form of `SigOk true`. -/
def sigOkB (cd : ClassDef) : Bool :=
  cd.fields.all (fun f => !f.init || f.dflt.isSome || !(f.skip || f.skipDe)) && !cd.transparent

theorem sigOk_of {cd : ClassDef} (h : sigOkB cd = true) : Spec.SigOk true cd := by
  unfold sigOkB at h
  rw [Bool.and_eq_true, List.all_eq_true] at h
  refine ⟨fun f hf hi => ?_, fun ht => ?_⟩
  · have := h.1 f hf
    simp only [if_true]
    intro hd
    simpa [hi, hd] using this
  · rw [ht] at h; cases h.2

theorem all_cls {l : List (ClassId × ClassDef)} {p : ClassDef → Bool} (h : l.all (fun q => p q.2) = true) {c cd}
    (hc : (Ex.mk l).cls c = some cd) : p cd = true := by
  rw [List.all_eq_true] at h
  exact h _ (cls_mem hc)

theorem all_sig {l : List (ClassId × ClassDef)} (h : l.all (fun q => sigOkB q.2) = true) :
    ∀ c cd, (Ex.mk l).cls c = some cd → Spec.SigOk true cd := fun _ _ hc => sigOk_of (all_cls (p := sigOkB) h hc)

theorem all_post {l : List (ClassId × ClassDef)} (h : l.all (fun q => q.2.postInit.isNone) = true) :
    ∀ c cd, (Ex.mk l).cls c = some cd → cd.postInit = none := fun _ _ hc => by
  simpa using all_cls (p := fun cd => cd.postInit.isNone) h hc

end Verif.Ex
