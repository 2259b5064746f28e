import Verif.Spec.Decorate
/-!
# Lemmas about decoration
-/

namespace Verif

theorem putField_new {f : DField} : ∀ {X : List DField}, f.name ∉ X.map DField.name → putField f X = X ++ [f]
  | [], _ => rfl
  | g :: X, h => by
    simp only [List.map_cons, List.mem_cons, not_or] at h
    have hne : (g.name == f.name) = false := by
      rw [beq_eq_false_iff_ne]
      exact fun e => h.1 e.symm
    simp only [putField, hne, Bool.false_eq_true, ↓reduceIte, putField_new h.2, List.cons_append]

theorem putField_old {f : DField} : ∀ {X : List DField}, (X.map DField.name).Nodup → f.name ∈ X.map DField.name →
    putField f X = X.map fun g => if g.name == f.name then f else g
  | [], _, h => by simp at h
  | g :: X, hn, h => by
    simp only [List.map_cons, List.nodup_cons] at hn
    by_cases e : g.name = f.name
    · have hrest : X.map (fun g => if g.name == f.name then f else g) = X := by
        conv => rhs; rw [← List.map_id X]
        refine List.map_congr_left fun x hx => ?_
        have : x.name ≠ f.name := fun hx' => hn.1 (by rw [e, ← hx']; exact List.mem_map_of_mem hx)
        simp [this]
      simp only [putField, e, beq_self_eq_true, ↓reduceIte, List.map_cons, hrest]
    · have hin : f.name ∈ X.map DField.name := by
        simp only [List.map_cons, List.mem_cons] at h
        rcases h with h | h
        · exact absurd h.symm e
        · exact h
      have hb : (g.name == f.name) = false := by simpa using e
      simp only [putField, hb, Bool.false_eq_true, ↓reduceIte, List.map_cons, putField_old hn.2 hin]

/-- The field of the same name among new fields, or the old one. -/
def overridden (own : List DField) (g : DField) : DField := (own.find? (·.name == g.name)).getD g

theorem overridden_name (own : List DField) (g : DField) : (overridden own g).name = g.name := by
  unfold overridden
  cases h : own.find? (·.name == g.name) with
  | none => rfl
  | some f => simpa using List.find?_some h

theorem find?_none_of {own : List DField} {nm : String} (h : nm ∉ own.map DField.name) : own.find? (·.name == nm) = none := by
  rw [List.find?_eq_none]
  intro x hx hb
  exact h (by rw [← (by simpa using hb : x.name = nm)]; exact List.mem_map_of_mem hx)

theorem foldl_putField : ∀ {own X : List DField}, (X.map DField.name).Nodup → (own.map DField.name).Nodup →
    own.foldl (fun acc f => putField f acc) X = X.map (overridden own) ++ own.filter fun f => decide (f.name ∉ X.map DField.name)
  | [], X, _, _ => by
    have : X.map (overridden []) = X := by
      conv => rhs; rw [← List.map_id X]
      exact List.map_congr_left fun x _ => rfl
    simp only [List.foldl_nil, List.filter_nil, List.append_nil, this]
  | f :: own, X, hX, ho => by
    simp only [List.map_cons, List.nodup_cons] at ho
    rw [List.foldl_cons]
    by_cases h : f.name ∈ X.map DField.name
    · rw [putField_old hX h]
      have hnames : (X.map fun g => if g.name == f.name then f else g).map DField.name = X.map DField.name := by
        rw [List.map_map]
        refine List.map_congr_left fun x _ => ?_
        simp only [Function.comp]
        split
        · next hb => exact (by simpa using hb : x.name = f.name).symm
        · rfl
      rw [foldl_putField (by rw [hnames]; exact hX) ho.2, hnames, List.filter_cons, List.map_map]
      simp only [h, not_true_eq_false, decide_false, Bool.false_eq_true, ↓reduceIte]
      congr 1
      refine List.map_congr_left fun x _ => ?_
      simp only [Function.comp, overridden, List.find?_cons]
      by_cases e : x.name = f.name
      · have e1 : (x.name == f.name) = true := by simpa using e
        have e2 : (f.name == x.name) = true := by simpa using e.symm
        simp only [e1, e2, ↓reduceIte, find?_none_of ho.1, Option.getD_none, Option.getD_some]
      · have e1 : (x.name == f.name) = false := by simpa using e
        have e2 : (f.name == x.name) = false := by simpa using fun h => e h.symm
        simp only [e1, e2, Bool.false_eq_true, ↓reduceIte]
    · rw [putField_new h]
      have hX' : ((X ++ [f]).map DField.name).Nodup := by
        rw [List.map_append, List.nodup_append]
        refine ⟨hX, by simp, ?_⟩
        intro a ha b hb
        simp only [List.map_cons, List.map_nil, List.mem_singleton] at hb
        subst hb
        exact fun e => h (e ▸ ha)
      rw [foldl_putField hX' ho.2, List.filter_cons]
      have h1 : X.map (overridden own) = X.map (overridden (f :: own)) := by
        refine List.map_congr_left fun x hx => ?_
        have hb : (f.name == x.name) = false := by
          rw [beq_eq_false_iff_ne]
          exact fun e => h (e ▸ List.mem_map_of_mem hx)
        simp only [overridden, List.find?_cons, hb]
      have h2 : overridden own f = f := by simp only [overridden, find?_none_of ho.1, Option.getD_none]
      have h3 : own.filter (fun g => decide (g.name ∉ (X ++ [f]).map DField.name)) = own.filter fun g => decide (g.name ∉ X.map DField.name) := by
        refine List.filter_congr fun g hg => ?_
        have : g.name ≠ f.name := fun e => ho.1 (e ▸ List.mem_map_of_mem hg)
        simp [this]
      simp only [List.map_append, List.map_cons, List.map_nil, h2, h1, h, not_false_eq_true, decide_true, ↓reduceIte, List.append_assoc,
        List.cons_append, List.nil_append]
      congr 2
      simpa using h3

theorem foldl_putField_nil {own : List DField} (ho : (own.map DField.name).Nodup) : own.foldl (fun acc f => putField f acc) [] = own := by
  rw [foldl_putField (by simp) ho]
  simp

/-! ## Own fields -/

def Annot.isTy : Annot → Bool
  | .ty _ => true
  | _ => false

theorem ownFields_names (st : PyClasses) (c : PyCls) : ∀ (as : List (String × Annot)) (kw : Bool),
    ((st.ownFields c kw as).map DField.name) = (as.filter fun a => !a.2.isMarker).map Prod.fst
  | [], _ => rfl
  | (nm, .ty t) :: as, kw => by simp [PyClasses.ownFields, Annot.isMarker, ownFields_names st c as, PyClasses.getField]
  | (nm, .classVar t) :: as, kw => by simp [PyClasses.ownFields, Annot.isMarker, ownFields_names st c as, PyClasses.getField]
  | (nm, .initVar t) :: as, kw => by simp [PyClasses.ownFields, Annot.isMarker, ownFields_names st c as, PyClasses.getField]
  | (nm, .kwOnly) :: as, kw => by simp [PyClasses.ownFields, Annot.isMarker, ownFields_names st c as]

theorem ownFields_nodup (st : PyClasses) (c : PyCls) {as : List (String × Annot)} (kw : Bool) (h : (as.map Prod.fst).Nodup) :
    ((st.ownFields c kw as).map DField.name).Nodup := by
  rw [ownFields_names]
  exact h.sublist (List.filter_sublist.map _)

theorem ownFields_real (st : PyClasses) (c : PyCls) : ∀ (as : List (String × Annot)) (kw : Bool),
    ((st.ownFields c kw as).filter (·.kind == .real)).map DField.name = (as.filter fun a => a.2.isTy).map Prod.fst
  | [], _ => rfl
  | (nm, .ty t) :: as, kw => by
    have := ownFields_real st c as kw
    simp [PyClasses.ownFields, Annot.isTy, PyClasses.getField, List.filter_cons] at this ⊢
    exact this
  | (nm, .classVar t) :: as, kw => by
    have := ownFields_real st c as kw
    simp [PyClasses.ownFields, Annot.isTy, PyClasses.getField, List.filter_cons] at this ⊢
    exact this
  | (nm, .initVar t) :: as, kw => by
    have := ownFields_real st c as kw
    simp [PyClasses.ownFields, Annot.isTy, PyClasses.getField, List.filter_cons] at this ⊢
    exact this
  | (nm, .kwOnly) :: as, kw => by
    have := ownFields_real st c as true
    simp [PyClasses.ownFields, Annot.isTy, List.filter_cons] at this ⊢
    exact this

theorem ownFields_mem (st : PyClasses) (c : PyCls) {nm : String} {t : Ty} {post : List (String × Annot)} :
    ∀ (pre : List (String × Annot)) (kw : Bool),
    st.getField c (kw || pre.any fun a => a.2.isMarker) nm .real ∈ st.ownFields c kw (pre ++ (nm, .ty t) :: post)
  | [], kw => by simp [PyClasses.ownFields]
  | (nm', .ty t') :: pre, kw => by
    simpa [PyClasses.ownFields, Annot.isMarker] using Or.inr (ownFields_mem st c pre kw)
  | (nm', .classVar t') :: pre, kw => by
    simpa [PyClasses.ownFields, Annot.isMarker] using Or.inr (ownFields_mem st c pre kw)
  | (nm', .initVar t') :: pre, kw => by
    simpa [PyClasses.ownFields, Annot.isMarker] using Or.inr (ownFields_mem st c pre kw)
  | (nm', .kwOnly) :: pre, kw => by
    simpa [PyClasses.ownFields, Annot.isMarker] using ownFields_mem st c pre true

/-- Every field of the own annotations comes from one of them. -/
theorem ownFields_from (st : PyClasses) (c : PyCls) : ∀ (as : List (String × Annot)) (kw : Bool) (f : DField), f ∈ st.ownFields c kw as →
    ∃ pre nm an post, as = pre ++ (nm, an) :: post ∧ an.isMarker = false ∧
      f = st.getField c (kw || pre.any fun a => a.2.isMarker) nm (match an with | .classVar _ => .classVar | .initVar _ => .initVar | _ => .real)
  | [], _, _, h => by simp [PyClasses.ownFields] at h
  | (nm, an) :: as, kw, f, h => by
    have step : ∀ kw', f ∈ st.ownFields c kw' as → (kw' = (kw || an.isMarker)) →
        ∃ pre nm' an' post, (nm, an) :: as = pre ++ (nm', an') :: post ∧ an'.isMarker = false ∧
          f = st.getField c (kw || pre.any fun a => a.2.isMarker) nm' (match an' with | .classVar _ => .classVar | .initVar _ => .initVar | _ => .real) := by
      intro kw' h' e
      obtain ⟨pre, nm', an', post, h1, h2, h3⟩ := ownFields_from st c as kw' f h'
      refine ⟨(nm, an) :: pre, nm', an', post, by rw [h1]; rfl, h2, ?_⟩
      rw [h3, e]
      simp [Bool.or_assoc]
    cases an with
    | ty t =>
      simp only [PyClasses.ownFields, List.mem_cons] at h
      rcases h with h | h
      · exact ⟨[], nm, .ty t, as, rfl, rfl, by simpa using h⟩
      · exact step kw h (by simp [Annot.isMarker])
    | classVar t =>
      simp only [PyClasses.ownFields, List.mem_cons] at h
      rcases h with h | h
      · exact ⟨[], nm, .classVar t, as, rfl, rfl, by simpa using h⟩
      · exact step kw h (by simp [Annot.isMarker])
    | initVar t =>
      simp only [PyClasses.ownFields, List.mem_cons] at h
      rcases h with h | h
      · exact ⟨[], nm, .initVar t, as, rfl, rfl, by simpa using h⟩
      · exact step kw h (by simp [Annot.isMarker])
    | kwOnly =>
      simp only [PyClasses.ownFields] at h
      exact step true h (by simp [Annot.isMarker])

/-! ## `dataclass` -/

theorem dataclass_some {st : PyClasses} {kw : Bool} {c c' : PyCls} (h : st.dataclass kw c = some c') :
    c' = { c with
      attrs := plainAttrs c.annots c.attrs
      dc := some ((st.ownFields c kw c.annots).foldl (fun acc f => putField f acc) (st.baseFields c))
      init := some (c.init.getD (initParams ((st.ownFields c kw c.annots).foldl (fun acc f => putField f acc) (st.baseFields c)))) } := by
  unfold PyClasses.dataclass at h
  dsimp only at h
  split at h
  · cases h
  split at h
  · cases h
  split at h
  · cases h
  split at h
  · cases h
  split at h
  · exact (Option.some.inj h).symm
  · cases h

theorem fromDataclass_name {st : PyClasses} {c : PyCls} {f : DField} {g : FieldDef} (h : st.fromDataclass c f = some g) : g.name = f.name := by
  unfold PyClasses.fromDataclass at h
  split at h
  · dsimp only at h
    split at h
    · cases h
    split at h
    · cases h
    · cases h
      rfl
  · cases h

theorem mapM_some {α β : Type} {g : α → Option β} : ∀ {l : List α} {r : List β}, l.mapM g = some r →
    (∀ x ∈ l, ∃ y ∈ r, g x = some y) ∧ (∀ y ∈ r, ∃ x ∈ l, g x = some y)
  | [], r, h => by
    simp at h
    subst h
    simp
  | x :: l, r, h => by
    rw [List.mapM_cons] at h
    cases hx : g x with
    | none => simp [hx] at h
    | some y =>
      cases hl : l.mapM g with
      | none => simp [hx, hl] at h
      | some ys =>
        simp [hx, hl] at h
        subst h
        obtain ⟨h1, h2⟩ := mapM_some hl
        constructor
        · intro a ha
          rcases List.mem_cons.1 ha with rfl | ha
          · exact ⟨y, List.mem_cons_self, hx⟩
          · obtain ⟨b, hb, e⟩ := h1 a ha
            exact ⟨b, List.mem_cons_of_mem _ hb, e⟩
        · intro b hb
          rcases List.mem_cons.1 hb with rfl | hb
          · exact ⟨x, List.mem_cons_self, hx⟩
          · obtain ⟨a, ha, e⟩ := h2 b hb
            exact ⟨a, List.mem_cons_of_mem _ ha, e⟩

theorem mapM_total {α β : Type} {g : α → Option β} : ∀ {l : List α}, (∀ x ∈ l, ∃ y, g x = some y) → ∃ r, l.mapM g = some r
  | [], _ => ⟨[], by simp⟩
  | x :: l, h => by
    obtain ⟨y, hy⟩ := h x List.mem_cons_self
    obtain ⟨r, hr⟩ := mapM_total (l := l) fun a ha => h a (List.mem_cons_of_mem _ ha)
    exact ⟨y :: r, by rw [List.mapM_cons]; simp [hy, hr]⟩

theorem serdeFields_names {st : PyClasses} {c : PyCls} : ∀ {l : List DField} {fs : List FieldDef}, l.mapM (st.fromDataclass c) = some fs →
    fs.map FieldDef.name = l.map DField.name
  | [], fs, h => by
    simp at h
    subst h
    rfl
  | x :: l, fs, h => by
    rw [List.mapM_cons] at h
    cases hx : st.fromDataclass c x with
    | none => simp [hx] at h
    | some y =>
      cases hl : l.mapM (st.fromDataclass c) with
      | none => simp [hx, hl] at h
      | some ys =>
        simp [hx, hl] at h
        subst h
        simp [fromDataclass_name hx, serdeFields_names hl]

end Verif
