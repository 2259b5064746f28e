import Verif.Lemmas.Res
/-!
# Binding of constructor arguments
-/

namespace Verif

/-- The fields a generated deserialize function reads. -/
def ClassDef.deFields (cd : ClassDef) : List FieldDef := cd.fields.filter (·.renderable)

theorem splitArgs_kw {fs : List FieldDef} {vs pos kws}
    (h : splitArgs ((forceKw true fs).filter (fun p => p.1.renderable)) vs = .ok (pos, kws))
    (hl : vs.length = (fs.filter (·.renderable)).length) :
    pos = [] ∧ kws = ((fs.filter (·.renderable)).map (·.name)).zip vs := by
  induction fs generalizing vs pos kws with
  | nil =>
    simp [forceKw, splitArgs] at h
    simp [← h.1, ← h.2]
  | cons f fs ih =>
    unfold forceKw at h
    simp only [Bool.true_or] at h
    by_cases hr : f.renderable = true
    · simp only [List.filter_cons, hr, if_true] at h hl ⊢
      cases vs with
      | nil => simp at hl
      | cons v vs =>
        simp only [splitArgs] at h
        split at h
        · cases h
        · rename_i ps ks hs
          obtain ⟨h1, h2⟩ := ih hs (by simpa using hl)
          subst h1
          simp at h
          simp [← h.1, ← h.2, h2]
    · simp only [List.filter_cons, hr] at h hl ⊢
      exact ih h hl

theorem renderable_init {f : FieldDef} (h : f.renderable = true) : f.init = true := by
  unfold FieldDef.renderable at h
  revert h
  cases f.init <;> simp

theorem splitArgs_bound {fs : List FieldDef} {vs pos kws}
    (h : splitArgs ((forceKw false fs).filter (fun p => p.1.renderable)) vs = .ok (pos, kws))
    (hl : vs.length = (fs.filter (·.renderable)).length) :
    (((fs.filter (fun f => f.init && !f.kwOnly)).map (·.name)).zip pos ++ kws = ((fs.filter (·.renderable)).map (·.name)).zip vs)
      ∧ pos.length ≤ (fs.filter (fun f => f.init && !f.kwOnly)).length := by
  induction fs generalizing vs pos kws with
  | nil =>
    simp [forceKw, splitArgs] at h
    simp [← h.1, ← h.2]
  | cons f fs ih =>
    unfold forceKw at h
    simp only [Bool.false_or] at h
    by_cases hr : f.renderable = true
    · have hi := renderable_init hr
      simp only [List.filter_cons, hr, if_true, Bool.not_true, hi, Bool.true_and] at h hl ⊢
      cases vs with
      | nil => simp at hl
      | cons v vs =>
        simp only [splitArgs] at h
        split at h
        · cases h
        · rename_i ps ks hs
          obtain ⟨h1, h2⟩ := ih hs (by simpa using hl)
          cases hk : f.kwOnly with
          | true =>
            simp only [hk, Bool.false_or, if_true] at h
            split at h
            · rename_i he
              have : ps = [] := by simpa using he
              subst this
              cases h
              simp at h1
              simp [h1]
            · cases h
          | false =>
            simp only [hk, Bool.false_or] at h
            cases h
            simp [h1, h2]
    · have hr' : f.renderable = false := by simpa using hr
      simp only [List.filter_cons, hr', Bool.not_false] at h hl ⊢
      obtain ⟨h1, h2⟩ := splitArgs_kw h hl
      subst h1
      simp [h2]

/-- The constructor once arguments are bound to parameter names. -/
def constructB (env : Env) (c : ClassId) (cd : ClassDef) (bound : List (String × Val)) : Res Val :=
  if cd.typeCheck == .strict && !argsBearable env cd bound then .error (.user (.serde "type"))
  else match initAttrs bound cd.fields with
    | .error e => .error (.user (.py e))
    | .ok attrs => match cd.postInit with
      | Option.none => .ok (.inst c attrs)
      | some p => match p attrs with
        | .ok attrs' => .ok (.inst c attrs')
        | .error e => .error (.user (.py e))

theorem construct_eq {env : Env} {c cd pos kw} (h : pos.length ≤ cd.posParams.length) :
    construct env c cd pos kw = constructB env c cd ((cd.posParams.map (·.name)).zip pos ++ kw) := by
  unfold construct constructB
  dsimp only
  split
  · rfl
  · rw [if_neg (by omega)]
    rfl

/-- In the dict template the arguments are bound to exactly the fields that are read. -/
theorem construct_named {env : Env} {c} {cd : ClassDef} {vs pos kw}
    (h : splitArgs ((forceKw false cd.fields).filter (fun p => p.1.renderable)) vs = .ok (pos, kw))
    (hl : vs.length = cd.deFields.length) :
    construct env c cd pos kw = constructB env c cd ((cd.deFields.map (·.name)).zip vs) := by
  obtain ⟨h1, h2⟩ := splitArgs_bound h hl
  rw [construct_eq h2]
  unfold ClassDef.posParams
  rw [h1]
  rfl

theorem lookup_zip_isSome {ks : List String} {vs : List Val} {k} (h : k ∈ ks) (hl : ks.length ≤ vs.length) :
    ∃ v, (ks.zip vs).lookup k = some v := by
  induction ks generalizing vs with
  | nil => simp at h
  | cons a ks ih =>
    cases vs with
    | nil => simp at hl
    | cons v vs =>
      rw [List.zip_cons_cons, List.lookup_cons]
      by_cases hk : k = a
      · simp [hk]
      · have : (k == a) = false := by simpa using hk
        rw [this]
        exact ih (by simpa [hk] using h) (by simpa using hl)

theorem lookup_zip_mem {ks : List String} {vs : List Val} {k v} (hn : ks.Nodup) (h : (k, v) ∈ ks.zip vs) :
    (ks.zip vs).lookup k = some v := by
  induction ks generalizing vs with
  | nil => simp at h
  | cons a ks ih =>
    cases vs with
    | nil => simp at h
    | cons w vs =>
      rw [List.zip_cons_cons, List.lookup_cons]
      rw [List.zip_cons_cons, List.mem_cons] at h
      rcases h with h | h
      · cases h; simp
      · have hmem : k ∈ ks := (List.of_mem_zip h).1
        have : (k == a) = false := by
          rw [beq_eq_false_iff_ne]
          rintro rfl
          exact (List.nodup_cons.1 hn).1 hmem
        rw [this]
        exact ih (List.nodup_cons.1 hn).2 h

/-- `initAttrs` succeeds when each parameter without default is bound. -/
theorem initAttrs_ok {bound : List (String × Val)} {fs : List FieldDef}
    (h : ∀ f ∈ fs, f.init = true → f.dflt = none → ∃ v, bound.lookup f.name = some v) :
    ∃ attrs, initAttrs bound fs = .ok attrs := by
  induction fs with
  | nil => exact ⟨[], rfl⟩
  | cons f fs ih =>
    obtain ⟨r, hr⟩ := ih (fun g hg => h g (by simp [hg]))
    unfold initAttrs
    simp only [hr]
    have hf := h f (by simp)
    cases hi : f.init with
    | false =>
      cases hd : f.dflt <;> simp
    | true =>
      simp only [if_true]
      cases hb : bound.lookup f.name with
      | some v => simp
      | none =>
        cases hd : f.dflt with
        | some d => simp
        | none => obtain ⟨v, hv⟩ := hf hi hd; rw [hv] at hb; cases hb

end Verif
