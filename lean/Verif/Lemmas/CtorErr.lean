import Verif.Lemmas.DeErr
import Verif.Lemmas.Construct
import Verif.Spec.Errors
/-!
# Exceptions of constructor calls
-/

namespace Verif
open Spec

theorem initAttrs_err {bound : List (String × Val)} {fs : List FieldDef} {e} (h : initAttrs bound fs = .error e) : e = .type := by
  induction fs generalizing e with
  | nil => cases h
  | cons f fs ih =>
    unfold initAttrs at h
    dsimp only at h
    cases hr : initAttrs bound fs with
    | error x =>
      have := ih hr
      subst this
      rw [hr] at h
      split at h
      · rename_i h'; cases h'
      · rename_i h'; cases h'
      · cases h
        rename_i h'
        revert h'
        repeat' split
        all_goals intro h'; cases h'
        rfl
      · rename_i h' _; cases h'; cases h; rfl
    | ok r =>
      rw [hr] at h
      split at h
      · cases h
      · cases h
      · cases h
        rename_i h'
        revert h'
        repeat' split
        all_goals intro h'; cases h'
        rfl
      · rename_i h' _; cases h'

/-- A call that binds every parameter without default fails only by the type check or in `__post_init__`. -/
theorem constructB_err {env : Env} {c} {cd : ClassDef} (hc : env.cls c = some cd) {bound e}
    (hb : ∀ f ∈ cd.fields, f.init = true → f.dflt = none → ∃ v, bound.lookup f.name = some v)
    (h : constructB env c cd bound = .error e) : e = .user (.serde "type") ∨ ∃ x, e = .user x ∧ PostInitRaises env x := by
  unfold constructB at h
  split at h
  · cases h; exact .inl rfl
  · obtain ⟨attrs, ha⟩ := initAttrs_ok hb
    rw [ha] at h
    dsimp only at h
    split at h
    · cases h
    · rename_i p hp
      split at h
      · cases h
      · rename_i x hx
        cases h
        exact .inr ⟨_, rfl, c, cd, p, attrs, x, hc, hp, hx, rfl⟩

theorem construct_err_any {env : Env} {c} {cd : ClassDef} (hc : env.cls c = some cd) {pos kw e}
    (h : construct env c cd pos kw = .error e) :
    e = .user (.serde "type") ∨ e = .user (.py .type) ∨ ∃ x, e = .user x ∧ PostInitRaises env x := by
  unfold construct at h
  dsimp only at h
  split at h
  · cases h; exact .inl rfl
  · split at h
    · cases h; exact .inr (.inl rfl)
    · split at h
      · rename_i e' he
        cases h
        rw [initAttrs_err he]
        exact .inr (.inl rfl)
      · split at h
        · cases h
        · rename_i p hp
          split at h
          · cases h
          · rename_i attrs _ _ _ x hx
            cases h
            exact .inr (.inr ⟨_, rfl, c, cd, p, _, x, hc, hp, hx, rfl⟩)

theorem renderable_iff {f : FieldDef} : f.renderable = true ↔ f.init = true ∧ (f.skip || f.skipDe) = false := by
  unfold FieldDef.renderable
  simp

theorem filter_init_renderable {fs : List FieldDef} (h : ∀ f ∈ fs, f.init = true → f.renderable = true) :
    fs.filter (·.renderable) = fs.filter (·.init) := by
  apply List.filter_congr
  intro f hf
  cases hi : f.init with
  | true => exact h f hf hi
  | false =>
    cases hr : f.renderable with
    | false => rfl
    | true => rw [renderable_init hr] at hi; cases hi

theorem filter_single {α : Type} {fs : List α} {p : α → Bool} {f} (h : fs.filter p = [f]) : ∀ g ∈ fs, p g = true → g = f := by
  intro g hg hp
  have : g ∈ fs.filter p := List.mem_filter.2 ⟨hg, hp⟩
  rw [h] at this
  simpa using this

/-- With a fitting signature a generated function's constructor call fails only by the type check or in `__post_init__`. -/
theorem deArgs_construct_err {env : Env} {r : DeRec} {named c cd o d pos kw e} (hc : env.cls c = some cd) (hs : SigOk named cd)
    (ha : deArgs env r named c cd o d = .ok (pos, kw)) (h : construct env c cd pos kw = .error e) :
    e = .user (.serde "type") ∨ ∃ x, e = .user x ∧ PostInitRaises env x := by
  obtain ⟨hsig, htr⟩ := hs
  unfold deArgs at ha
  dsimp only at ha
  split at ha
  · rename_i ht
    obtain ⟨f0, hf0⟩ := htr ht
    split at ha
    · cases ha
    · rename_i f fs hf
      have hfm : f ∈ cd.fields.filter (·.renderable) := by rw [hf]; simp
      have hfi := renderable_init (List.mem_filter.1 hfm).2
      have hff : f = f0 := filter_single hf0 f (List.mem_filter.1 hfm).1 hfi
      subst hff
      split at ha
      · cases ha
      · rename_i v hv
        split at ha
        · cases ha
          rw [construct_eq (Nat.zero_le _)] at h
          refine constructB_err hc ?_ h
          intro g hg hgi _
          have := filter_single hf0 g hg hgi
          subst this
          simp
        · rename_i hk
          cases ha
          have hk' : f.kwOnly = false := by
            unfold transpKw at hk
            revert hk
            cases f.kwOnly <;> simp
          have hpp : cd.posParams = [f] := by
            unfold ClassDef.posParams
            rw [← List.filter_filter, List.filter_filter]
            have : cd.fields.filter (fun a => a.init && !a.kwOnly) = (cd.fields.filter (·.init)).filter (fun a => !a.kwOnly) := by
              rw [List.filter_filter]
              apply List.filter_congr
              intro x _
              cases x.init <;> cases x.kwOnly <;> rfl
            rw [this, hf0]
            simp [hk']
          rw [construct_eq (by rw [hpp]; simp)] at h
          refine constructB_err hc ?_ h
          intro g hg hgi _
          have := filter_single hf0 g hg hgi
          subst this
          simp [hpp]
  · cases named with
    | true =>
      simp only [if_true] at ha
      split at ha
      · cases ha
      · cases ha
      · unfold deNamedArgs at ha
        split at ha
        · cases ha
        · split at ha
          · cases ha
          · rename_i vs hvs
            have hl := mapR_ok_length hvs
            rw [construct_named ha hl] at h
            refine constructB_err hc ?_ h
            intro g hg hgi hgd
            refine lookup_zip_isSome ?_ (by simp [hl, ClassDef.deFields])
            refine List.mem_map.2 ⟨g, List.mem_filter.2 ⟨hg, ?_⟩, rfl⟩
            have := hsig g hg hgi
            simp only [if_true] at this
            exact renderable_iff.2 ⟨hgi, this hgd⟩
    | false =>
      simp only [Bool.false_eq_true, if_false] at ha hsig
      split at ha
      · cases ha
      · rename_i vs hvs
        cases ha
        have hl := mapR_ok_length hvs
        rw [List.length_zipIdx] at hl
        have e1 : cd.fields.filter (·.renderable) = cd.fields.filter (·.init) :=
          filter_init_renderable (fun f hf hi => renderable_iff.2 ⟨hi, (hsig f hf hi).1⟩)
        have e2 : cd.posParams = cd.fields.filter (·.init) := by
          apply List.filter_congr
          intro f hf
          cases hi : f.init with
          | false => rfl
          | true => simp [(hsig f hf hi).2]
        rw [construct_eq (by rw [e2, hl, e1]; simp)] at h
        refine constructB_err hc ?_ h
        intro g hg hgi _
        rw [List.append_nil]
        refine lookup_zip_isSome ?_ (by rw [e2, hl, e1]; simp)
        rw [e2]
        exact List.mem_map.2 ⟨g, List.mem_filter.2 ⟨hg, hgi⟩, rfl⟩

/-- Exceptions that may sit inside a `UserError`. -/
def Escapes (named : Bool) (env : Env) (e : Exc) : Prop := e.isSerde = true ∨ PostInitRaises env e ∨ BadCall named env e

/-- The invariant: what a `UserError` carries. -/
def UserOk (named : Bool) (env : Env) (e : Exc) : Prop := ∀ x, e = .user x → Escapes named env x

theorem userOk_base (named : Bool) (env : Env) : ErrBase env (fun m => m = true ∨ m = named) (UserOk named env) where
  named := .inl rfl
  py := fun _ _ h => by cases h
  serde := fun _ _ h => by cases h
  missing := fun _ _ h => by cases h
  wrap := fun _ _ h => by cases h
  fuel := fun _ h => by cases h
  user := by
    intro e h x hx
    subst hx
    have := h _ rfl
    rcases this with h | ⟨c, cd, p, attrs, y, _, _, _, h⟩ | ⟨h, _⟩
    · simp [Exc.isSerde] at h
    · cases h
    · cases h
  ctor := by
    intro r m c cd o d pos kw hm hc ha e he x hx
    subst hx
    by_cases hs : SigOk m cd
    · rcases deArgs_construct_err hc hs ha he with h | ⟨y, h, hy⟩
      · cases h; exact .inl rfl
      · cases h; exact .inr (.inl hy)
    · have hs' : ¬ SigOk named cd := by
        rcases hm with rfl | rfl
        · intro h
          apply hs
          cases named with
          | true => exact h
          | false =>
            refine ⟨fun f hf hi => ?_, h.2⟩
            have := h.1 f hf hi
            simp only [Bool.false_eq_true, if_false] at this
            simp [this.1]
        · exact hs
      rcases construct_err_any hc he with h | h | ⟨y, h, hy⟩
      · cases h; exact .inl rfl
      · cases h; exact .inr (.inr ⟨rfl, c, cd, hc, hs'⟩)
      · cases h; exact .inr (.inl hy)

end Verif
