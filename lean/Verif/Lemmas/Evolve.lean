import Verif.Spec.Evolve
import Verif.Props.C15
import Verif.Props.C44
/-!
# Reading the same input with two versions of a class
-/

namespace Verif
open Spec

theorem splitArgs_ordered {ps : List (FieldDef × Bool)} {vs : List Val} (h : ps.Pairwise (fun p q => p.2 = true → q.2 = true)) :
    ∃ p k, splitArgs ps vs = .ok (p, k) ∧ ((∀ x ∈ ps, x.2 = true) → p = []) := by
  induction ps generalizing vs with
  | nil => exact ⟨[], [], by simp [splitArgs], fun _ => rfl⟩
  | cons x ps ih =>
    rw [List.pairwise_cons] at h
    cases vs with
    | nil => exact ⟨[], [], by simp [splitArgs], fun _ => rfl⟩
    | cons v vs =>
      obtain ⟨p, k, hs, he⟩ := ih (vs := vs) h.2
      obtain ⟨f, kw⟩ := x
      cases kw with
      | false => exact ⟨v :: p, k, by simp [splitArgs, hs], fun hx => absurd (hx _ (List.mem_cons_self)) (by simp)⟩
      | true =>
        have hp := he (fun y hy => h.1 y hy rfl)
        subst hp
        exact ⟨[], (f.name, v) :: k, by simp [splitArgs, hs], fun _ => rfl⟩

theorem forceKw_true {fs : List FieldDef} : ∀ x ∈ forceKw true fs, x.2 = true := by
  induction fs with
  | nil => intro x hx; cases hx
  | cons f fs ih =>
    intro x hx
    unfold forceKw at hx
    simp only [Bool.true_or, List.mem_cons] at hx
    rcases hx with rfl | hx
    · rfl
    · exact ih x hx

theorem forceKw_mem {b} {fs : List FieldDef} : ∀ x ∈ forceKw b fs, x.1 ∈ fs ∧ (x.1.kwOnly = true → x.2 = true) := by
  induction fs generalizing b with
  | nil => intro x hx; cases hx
  | cons f fs ih =>
    intro x hx
    unfold forceKw at hx
    simp only [List.mem_cons] at hx
    rcases hx with rfl | hx
    · exact ⟨by simp, fun h => by simp only [Bool.or_eq_true]; exact .inr h⟩
    · exact ⟨List.mem_cons_of_mem _ (ih x hx).1, (ih x hx).2⟩

theorem forceKw_ordered {b} {fs : List FieldDef} (h : fs.Pairwise (fun f g => f.kwOnly = true → g.kwOnly = true)) :
    (forceKw b fs).Pairwise (fun p q => p.2 = true → q.2 = true) := by
  induction fs generalizing b with
  | nil => exact .nil
  | cons f fs ih =>
    rw [List.pairwise_cons] at h
    unfold forceKw
    rw [List.pairwise_cons]
    refine ⟨fun q hq hp => ?_, ih h.2⟩
    cases hb : (b || !f.renderable) with
    | true => rw [hb] at hq; exact forceKw_true q hq
    | false =>
      rw [hb] at hq
      simp only [hb, Bool.false_or] at hp
      obtain ⟨h1, h2⟩ := forceKw_mem q hq
      exact h2 (h.1 q.1 h1 hp)

/-- Keyword-only fields last: the constructor call is well-formed. -/
theorem kwBad_ordered {cd : ClassDef} (h : cd.fields.Pairwise (fun f g => f.kwOnly = true → g.kwOnly = true)) : kwBad cd = false := by
  unfold kwBad
  obtain ⟨p, k, hs, _⟩ := splitArgs_ordered (vs := cd.deFields.map (fun _ => .none))
    ((forceKw_ordered (b := false) h).filter (fun p => p.1.renderable))
  rw [hs]

theorem flatten_hasFlatDict {cd : ClassDef} (h : ∀ f ∈ cd.fields, f.flatten = false) : cd.hasFlatDict = false := by
  unfold ClassDef.hasFlatDict
  rw [List.any_eq_false]
  intro f hf
  unfold FieldDef.flatDict
  rw [h f hf]
  simp

theorem known_flat {env : Env} {c} {cd : ClassDef} (hc : env.cls c = some cd) (ht : cd.transparent = false)
    (h : ∀ f ∈ cd.fields, f.flatten = false) : env.known c = cd.fields.flatMap (fun f => f.knownNames cd.deCase) := by
  unfold Env.known knownCls
  rw [hc]
  simp only [ht, Bool.false_eq_true, if_false]
  rw [List.flatMap_def, List.flatMap_def]
  congr 1
  refine List.map_congr_left (fun f hf => ?_)
  unfold FieldDef.flatDict FieldDef.flatChild
  rw [h f hf]
  rfl

/-- An object read from a dict is an instance of the class. -/
theorem fromDict_inst {env : Env} {o : DeOpts} {n c} {cd : ClassDef} {d v} (hc : env.cls c = some cd) (htr : cd.transparent = false)
    (hg : NoGlobal env c) (hd : IsData c d) (h : fromDict env o n (.cls c) d = .ok v) : ∃ attrs, v = .inst c attrs := by
  obtain ⟨m, rfl, hm⟩ := fromObj_cls_cases hg.de hd h (by intro h; cases h)
  have hm := wrapUser_ok.1 hm
  rw [deClsF_named hc htr] at hm
  split at hm
  · cases hm
  · cases hm
  · split at hm
    · cases hm
    · exact decodeCls_inst hm

/-- A default is used when none of the field's keys is in the input. -/
theorem deField_dflt {env : Env} {m cx c cd ex dk kvs dv} {f : FieldDef} (hdf : f.dflt = some dv) (hfl : f.flatten = false)
    (hal : f.alias = [] ∨ f.conv cd.deCase = f.name) (habs : ∀ k ∈ f.conv cd.deCase :: f.alias, getStr k kvs = none) :
    deField env (deAt env (m + 1)) cx c cd ex (.dict dk kvs) f = .ok dv := by
  rw [deField_plain hfl, hdf]
  dsimp only
  rw [deAt_render]
  unfold deRenderF plainArg
  rw [hdf]
  dsimp only
  have : dfltExists env { ty := f.ty, name := f.name, conv := f.conv cd.deCase, src := .key (.dict dk kvs), alias := f.alias, deser := f.deserializer, flatten := false, dflt := some dv } (.dict dk kvs) = .ok false := by
    unfold dfltExists
    dsimp only
    simp only [Bool.false_eq_true, if_false]
    cases hl : f.alias with
    | nil => simp [pyIn, habs (f.conv cd.deCase) (by simp)]
    | cons x xs =>
      dsimp only
      rw [hl] at hal habs
      apply existsByAliases_none
      intro k hk
      apply habs
      rcases hal with h | h
      · cases h
      · rw [h]; exact hk
  rw [this]

section
variable {env : Env} {c c' : ClassId} {cd cd' : ClassDef} {g : FieldDef} (E : Extends env c c' cd cd' g)
include E

theorem Spec.Extends.sub : cd.fields.Sublist cd'.fields := by
  obtain ⟨pre, post, h1, h2⟩ := E.fields
  rw [h1, h2]
  exact (List.Sublist.refl pre).append (List.sublist_cons_self g post)

theorem Spec.Extends.mem {f} (hf : f ∈ cd.fields) : f ∈ cd'.fields := E.sub.subset hf

theorem Spec.Extends.mem_cases {f} (hf : f ∈ cd'.fields) : f = g ∨ f ∈ cd.fields := by
  obtain ⟨pre, post, h1, h2⟩ := E.fields
  rw [h2] at hf
  rw [h1]
  simp only [List.mem_append, List.mem_cons] at hf ⊢
  rcases hf with h | h | h
  · exact .inr (.inl h)
  · exact .inl h
  · exact .inr (.inr h)

theorem Spec.Extends.mem_new : g ∈ cd'.fields := by
  obtain ⟨pre, post, _, h2⟩ := E.fields
  rw [h2]; simp

theorem Spec.Extends.deCase : cd'.deCase = cd.deCase := by have := congrArg ClassDef.deCase E.options; exact this
theorem Spec.Extends.check : cd'.typeCheck = cd.typeCheck := by have := congrArg ClassDef.typeCheck E.options; exact this
theorem Spec.Extends.tagging : cd'.tagging = cd.tagging := by have := congrArg ClassDef.tagging E.options; exact this
theorem Spec.Extends.reuse : cd'.reuseDflt = cd.reuseDflt := by have := congrArg ClassDef.reuseDflt E.options; exact this
theorem Spec.Extends.tvars : cd'.tvars = cd.tvars := by have := congrArg ClassDef.tvars E.options; exact this
theorem Spec.Extends.classDe : cd'.classDe = cd.classDe := by have := congrArg ClassDef.classDe E.options; exact this
theorem Spec.Extends.deny : cd'.denyUnknown = cd.denyUnknown := by have := congrArg ClassDef.denyUnknown E.options; exact this
theorem Spec.Extends.dict' : cd'.transparent = false := by have := congrArg ClassDef.transparent E.options; exact this.trans E.dict
theorem Spec.Extends.post' : cd'.postInit = none := by have := congrArg ClassDef.postInit E.options; exact this.trans E.post

theorem Spec.Extends.flatOld : ∀ f ∈ cd.fields, f.flatten = false := fun f hf => E.flat f (E.mem hf)
theorem Spec.Extends.namesOld : (cd.fields.map (·.name)).Nodup := E.names.sublist (E.sub.map _)
theorem Spec.Extends.argsOld : kwBad cd = false := kwBad_ordered (E.kw.sublist E.sub)
theorem Spec.Extends.argsNew : kwBad cd' = false := kwBad_ordered E.kw

/-- Both versions read a field they share alike. -/
theorem Spec.Extends.field (hN : NoNameClash env c) (hN' : NoNameClash env c') {f : FieldDef} (hf : f ∈ cd.fields) (hr : f.renderable = true)
    (hv : LiteralsVisible env f.ty) (n : Nat) (o ex ex' d) :
    deField env (deAt env n) (clsDeCx env c' cd' true o d) c' cd' ex' d f =
      deField env (deAt env n) (clsDeCx env c cd true o d) c cd ex d f := by
  have hs : f.skip = false := by
    unfold FieldDef.renderable at hr
    cases h : f.skip with
    | false => rfl
    | true => rw [h] at hr; simp at hr
  rw [deField_plain (E.flatOld f hf), deField_plain (E.flatOld f hf)]
  have e0 : plainArg cd' f d = plainArg cd f d := by unfold plainArg; rw [E.deCase]
  have e1 := render_agree (Props.own_tables hN hN') n (clsDeCx env c cd true o d) (plainArg cd f d)
    (.inl (Props.shared_field E.old E.new hf (E.mem hf) hs hs rfl hv))
  have e2 : clsDeCx env c' cd' true o d = { clsDeCx env c cd true o d with unions := env.unionsOf c', lits := env.litsOf c' } := by
    unfold clsDeCx
    rw [E.check, E.tagging, E.reuse, E.tvars, E.classDe]
  have e3 : (deAt env n).render (clsDeCx env c' cd' true o d) (plainArg cd' f d) = (deAt env n).render (clsDeCx env c cd true o d) (plainArg cd f d) := by
    rw [e0, e2]; exact e1.symm
  rw [e3, E.deCase]

end

end Verif
