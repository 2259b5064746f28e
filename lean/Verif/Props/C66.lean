import Verif.Lemmas.Decorate
import Verif.Examples.World
/-!
# C66: the options written in a class body are the options in force

Full statement: "The fields with which pyserde works are those written in the class body, in that order, each with the type, default and options (`rename`,
`alias`, `skip...`, `flatten`, `serializer`, `kw_only` ...) of its own line, whether `@serde` stands alone or above `@dataclass`, whatever else the body
contains, and whatever `metadata` is passed to `field()`."

Proved for classes without bases (see C67 for those): it holds for `@serde` alone (`C66_alone`, `C66_accepted`), and over `@dataclass` when the body has no
class variable and no KW_ONLY marker. With one of these `should_impl_dataclass` takes the class for an undecorated one, `dataclass` is applied a second time
and every field loses its options (`C66_lost`, `C66_false_options`), or the class is refused (`C66_false_refused`). A metadata dict passed to several fields
is written to by all of them (`C66_false_metadata`).
-/

namespace Verif.Props
open Verif Spec

theorem lookup_lines {β : Type} {f : Decl → β} : ∀ {ls : List Decl} {d : Decl}, (ls.map Decl.name).Nodup → d ∈ ls →
    (ls.map fun d => (d.name, f d)).lookup d.name = some (f d)
  | [], _, _, h => by simp at h
  | e :: ls, d, hn, h => by
    simp only [List.map_cons, List.nodup_cons] at hn
    rcases List.mem_cons.1 h with rfl | h
    · simp
    · have hne : (d.name == e.name) = false := by
        rw [beq_eq_false_iff_ne]
        exact fun e' => hn.1 (e' ▸ List.mem_map_of_mem h)
      simp only [List.map_cons, List.lookup_cons, hne]
      exact lookup_lines hn.2 h

theorem lookup_rhs_none : ∀ {ls : List Decl} {nm : String}, nm ∉ ls.map Decl.name →
    (ls.filterMap fun d => match d.rhs with | some a => some (d.name, a) | none => none).lookup nm = none
  | [], _, _ => rfl
  | e :: ls, nm, h => by
    simp only [List.map_cons, List.mem_cons, not_or] at h
    have hne : (nm == e.name) = false := by simpa using h.1
    cases hr : e.rhs with
    | none => simp only [List.filterMap_cons, hr]; exact lookup_rhs_none h.2
    | some a => simp only [List.filterMap_cons, hr, List.lookup_cons, hne]; exact lookup_rhs_none h.2

theorem lookup_rhs : ∀ {ls : List Decl} {d : Decl}, (ls.map Decl.name).Nodup → d ∈ ls →
    (ls.filterMap fun d => match d.rhs with | some a => some (d.name, a) | none => none).lookup d.name = d.rhs
  | [], _, _, h => by simp at h
  | e :: ls, d, hn, h => by
    simp only [List.map_cons, List.nodup_cons] at hn
    rcases List.mem_cons.1 h with rfl | h
    · cases hr : d.rhs with
      | none => simp only [List.filterMap_cons, hr]; exact lookup_rhs_none hn.1
      | some a => simp only [List.filterMap_cons, hr, List.lookup_cons, beq_self_eq_true]
    · have hne : (d.name == e.name) = false := by
        rw [beq_eq_false_iff_ne]
        exact fun e' => hn.1 (e' ▸ List.mem_map_of_mem h)
      cases hr : e.rhs with
      | none => simp only [List.filterMap_cons, hr]; exact lookup_rhs hn.2 h
      | some a => simp only [List.filterMap_cons, hr, List.lookup_cons, hne]; exact lookup_rhs hn.2 h

section
variable {st : PyClasses} {b : Body} {bs : List ClassId}

theorem body_annot {d : Decl} (h : d ∈ b.lines) : (b.cls bs).annots.lookup d.name = some d.ann := lookup_lines b.nodup h

theorem body_attr {d : Decl} (h : d ∈ b.lines) : (b.cls bs).attrs.lookup d.name = d.rhs := lookup_rhs b.nodup h

theorem body_names : (b.cls bs).annots.map Prod.fst = b.lines.map Decl.name := by
  simp [Body.cls, Function.comp_def]

theorem body_nodup : ((b.cls bs).annots.map Prod.fst).Nodup := by
  rw [body_names]
  exact b.nodup

theorem body_tys : ((b.cls bs).annots.filter fun a => a.2.isTy).map Prod.fst = b.fieldNames := by
  unfold Body.fieldNames Body.cls
  dsimp only
  induction b.lines with
  | nil => rfl
  | cons d ls ih =>
    cases ha : d.ann <;> simp [List.filter_cons, Annot.isTy, Decl.ty?, ha] at ih ⊢ <;> exact ih

/-- The `field()` or the default that Python finds for a line. -/
theorem attr_own {d : Decl} (h : d ∈ b.lines) (hb : bs = [] ∨ d.rhs.isSome = true) :
    st.attr (b.cls bs) d.name = d.rhs := by
  unfold PyClasses.attr
  rw [body_attr h]
  cases hr : d.rhs with
  | some a => rfl
  | none =>
    rw [hr] at hb
    simp at hb
    subst hb
    rfl

theorem getField_own {d : Decl} {kw : Bool} {k : FKind} (h : d ∈ b.lines) (hb : bs = [] ∨ d.rhs.isSome = true) :
    st.getField (b.cls bs) kw d.name k =
      { name := d.name, kind := k, dflt := d.obj.dflt, factory := d.obj.factory, init := d.obj.init, kwOnly := d.obj.kwOnly.getD kw, md := d.obj.md, ty := Annot.paramTy (some d.ann) } := by
  unfold PyClasses.getField Decl.obj
  rw [attr_own h hb, body_annot h]
  cases d.rhs with
  | none => rfl
  | some a => cases a <;> rfl

theorem hint_own {c : PyCls} {d : Decl} (hc : c.annots = (b.cls bs).annots) (h : d ∈ b.lines) : st.hint c d.name = some d.ann := by
  unfold PyClasses.hint
  rw [hc, body_annot h]

/-- The field made of a line is the one it wants. -/
theorem wants_of {c : PyCls} {d : Decl} {t : Ty} {kw : Bool} {g : FieldDef} (hh : st.hint c d.name = some (.ty t))
    (hg : st.fromDataclass c { name := d.name, kind := .real, dflt := d.obj.dflt, factory := d.obj.factory, init := d.obj.init, kwOnly := d.obj.kwOnly.getD kw, md := d.obj.md, ty := Annot.paramTy (some d.ann) } = some g) :
    g = d.wants kw t := by
  unfold PyClasses.fromDataclass at hg
  rw [hh] at hg
  dsimp only at hg
  split at hg
  · cases hg
  split at hg
  · cases hg
  · rw [← Option.some.inj hg]
    unfold Decl.wants
    dsimp only
    congr 1
    · cases d.obj.dflt <;> rfl
    · cases d.obj.kwOnly <;> rfl
    · cases d.obj.md.alias <;> rfl

theorem baseFields_nil {c : PyCls} (h : c.bases = []) : st.baseFields c = [] := by
  unfold PyClasses.baseFields
  rw [h]
  rfl

theorem dcOf_self {c : PyCls} {fs : List DField} (h : c.dc = some fs) : st.dcOf c = some fs := by
  unfold PyClasses.dcOf
  rw [h]

theorem fields_self {c : PyCls} {fs : List DField} (h : c.dc = some fs) : st.fields c = fs.filter (·.kind == .real) := by
  unfold PyClasses.fields
  rw [dcOf_self h]
  rfl

/-- The class made of a body by `dataclass`. -/
theorem dataclass_body {kw : Bool} {c' : PyCls} (h : st.dataclass kw (b.cls []) = some c') :
    c'.annots = (b.cls []).annots ∧ c'.attrs = plainAttrs (b.cls []).annots (b.cls []).attrs ∧ c'.bases = [] ∧
      c'.dc = some (st.ownFields (b.cls []) kw (b.cls []).annots) := by
  have e := dataclass_some h
  rw [baseFields_nil rfl, foldl_putField_nil (ownFields_nodup st (b.cls []) kw body_nodup)] at e
  rw [e]
  exact ⟨rfl, rfl, rfl, rfl⟩

theorem split_annots {pre post : List Decl} {d : Decl} (h : b.lines = pre ++ d :: post) :
    (b.cls bs).annots = pre.map (fun d => (d.name, d.ann)) ++ (d.name, d.ann) :: post.map fun d => (d.name, d.ann) := by
  unfold Body.cls
  rw [h]
  simp

theorem any_marker (pre : List Decl) : (pre.map fun d => (d.name, d.ann)).any (fun a => a.2.isMarker) = pre.any Decl.isMarker := by
  induction pre with
  | nil => rfl
  | cons d pre ih =>
    simp only [List.map_cons, List.any_cons, ih]
    cases ha : d.ann <;> simp [Annot.isMarker, Decl.isMarker, ha]

theorem ty_ann {d : Decl} {t : Ty} (h : d.ty? = some t) : d.ann = .ty t := by
  unfold Decl.ty? at h
  cases ha : d.ann <;> simp [ha] at h
  rw [h]

/-- What serde takes from a class that `dataclass` made of a body. -/
theorem asks_of {kw : Bool} {c' : PyCls} {fs : List FieldDef} (h : st.dataclass kw (b.cls []) = some c') (hf : st.serdeFields c' = some fs) :
    b.Asks kw fs := by
  obtain ⟨h1, -, -, h4⟩ := dataclass_body h
  unfold PyClasses.serdeFields at hf
  rw [fields_self h4] at hf
  constructor
  · rw [serdeFields_names hf, ownFields_real]
    exact body_tys
  · intro pre d post t hl ht
    have hd : d ∈ b.lines := by rw [hl]; simp
    have hann := ty_ann ht
    have hm := ownFields_mem st (b.cls []) (nm := d.name) (t := t) (post := post.map fun d => (d.name, d.ann)) (pre.map fun d => (d.name, d.ann)) kw
    rw [any_marker, ← hann, ← split_annots (bs := []) hl, getField_own hd (Or.inl rfl)] at hm
    obtain ⟨g, hg, hge⟩ := (mapM_some hf).1 _ (List.mem_filter.2 ⟨hm, rfl⟩)
    have := wants_of (d := d) (t := t) (by rw [hint_own h1 hd, hann]) hge
    rw [← this]
    exact hg

end

/-- **C66** `@serde` on a class that is no dataclass and has no bases: the fields are those the body asks for. -/
theorem C66_alone {st : PyClasses} {b : Body} {c' : PyCls} {fs : List FieldDef} (h : st.serde (b.cls []) = some (c', fs)) : b.Asks false fs := by
  unfold PyClasses.serde at h
  have hs : st.shouldImpl (b.cls []) = true := rfl
  rw [hs] at h
  simp only [↓reduceIte] at h
  split at h
  · cases h
  · next c1 h1 =>
    split at h
    · next fs1 h2 =>
      cases h
      exact asks_of h1 h2
    · cases h

theorem shouldImpl_false {st : PyClasses} {b : Body} {kw : Bool} {c1 : PyCls} (hb : ∀ d ∈ b.lines, d.isClassVar = false ∧ d.isMarker = false)
    (h : st.dataclass kw (b.cls []) = some c1) : st.shouldImpl c1 = false := by
  obtain ⟨h1, -, -, h4⟩ := dataclass_body h
  unfold PyClasses.shouldImpl
  rw [dcOf_self h4, fields_self h4, h1]
  simp only [List.any_eq_false]
  intro a ha
  obtain ⟨d, hd, rfl⟩ := List.mem_map.1 ha
  have hk := hb d hd
  cases hann : d.ann with
  | initVar t => simp
  | classVar t => simp [Decl.isClassVar, hann] at hk
  | kwOnly => simp [Decl.isMarker, hann] at hk
  | ty t =>
    have : d.name ∈ ((st.ownFields (b.cls []) kw (b.cls []).annots).filter (·.kind == .real)).map DField.name := by
      rw [ownFields_real, body_tys]
      exact List.mem_map_of_mem (List.mem_filter.2 ⟨hd, by simp [Decl.ty?, hann]⟩)
    obtain ⟨f, hf, hn⟩ := List.mem_map.1 this
    simp only [Bool.not_eq_true, Bool.not_eq_false', List.any_eq_true]
    exact ⟨f, hf, by simpa using hn⟩

/-- **C66** `@serde` over `@dataclass`, if the body has neither class variables nor the KW_ONLY marker: the fields are those the body asks for. -/
theorem C66_over_dataclass_partial {st : PyClasses} {b : Body} {kw : Bool} {c1 c' : PyCls} {fs : List FieldDef}
    (hb : ∀ d ∈ b.lines, d.isClassVar = false ∧ d.isMarker = false) (h1 : st.dataclass kw (b.cls []) = some c1)
    (h : st.serde c1 = some (c', fs)) : c' = c1 ∧ b.Asks kw fs := by
  unfold PyClasses.serde at h
  rw [shouldImpl_false hb h1] at h
  simp only [Bool.false_eq_true, ↓reduceIte] at h
  split at h
  · next fs1 h2 =>
    cases h
    exact ⟨rfl, asks_of h1 h2⟩
  · cases h

/-! ## Legal bodies are accepted -/

theorem positional_eq (kw : Bool) (d : Decl) : d.positional kw = (!(d.isClassVar || d.isMarker) && d.obj.init && !d.obj.kwOnly.getD kw) := by
  unfold Decl.positional
  cases d.obj.kwOnly <;> rfl

theorem orderOk_lines {st : PyClasses} {b : Body} : ∀ (ls : List Decl) (kw seen : Bool), (∀ d ∈ ls, d ∈ b.lines) →
    (seen = true → ∀ pre e post, ls = pre ++ e :: post → e.positional (kw || pre.any Decl.isMarker) = true → e.hasDefault = true) →
    (∀ pre d mid e post, ls = pre ++ d :: mid ++ e :: post → d.positional (kw || pre.any Decl.isMarker) = true →
      e.positional (kw || (pre ++ d :: mid).any Decl.isMarker) = true → d.hasDefault = true → e.hasDefault = true) →
    orderOk seen (st.ownFields (b.cls []) kw (ls.map fun d => (d.name, d.ann))) = true
  | [], _, _, _, _, _ => rfl
  | d :: ls, kw, seen, hm, hs, ho => by
    have hd := hm d List.mem_cons_self
    have ih := fun kw' seen' => orderOk_lines (st := st) (b := b) ls kw' seen' fun d hd => hm d (List.mem_cons_of_mem _ hd)
    have hs' : ∀ kw', (kw' || false) = (kw || d.isMarker) → seen = true → ∀ pre e post, ls = pre ++ e :: post →
        e.positional (kw' || pre.any Decl.isMarker) = true → e.hasDefault = true := by
      intro kw' hk hseen pre e post hl hp
      refine hs hseen (d :: pre) e post (by rw [hl]; rfl) ?_
      rw [List.any_cons, ← Bool.or_assoc, ← hk, Bool.or_false]
      exact hp
    have ho' : ∀ kw', (kw' || false) = (kw || d.isMarker) → ∀ pre d' mid e post, ls = pre ++ d' :: mid ++ e :: post →
        d'.positional (kw' || pre.any Decl.isMarker) = true → e.positional (kw' || (pre ++ d' :: mid).any Decl.isMarker) = true →
        d'.hasDefault = true → e.hasDefault = true := by
      intro kw' hk pre d' mid e post hl hp he
      refine ho (d :: pre) d' mid e post (by rw [hl]; rfl) ?_ ?_
      · rw [List.any_cons, ← Bool.or_assoc, ← hk, Bool.or_false]
        exact hp
      · rw [List.cons_append, List.any_cons, ← Bool.or_assoc, ← hk, Bool.or_false]
        exact he
    have key : ∀ k : FKind, k ≠ .classVar → d.isClassVar = false → d.isMarker = false →
        orderOk seen (st.getField (b.cls []) kw d.name k :: st.ownFields (b.cls []) kw (ls.map fun d => (d.name, d.ann))) = true := by
      intro k hk hcv hmk
      rw [getField_own hd (Or.inl rfl)]
      have hkk : (k == FKind.classVar) = false := by simpa using hk
      have hke : (kw || false) = (kw || d.isMarker) := by rw [hmk]
      simp only [orderOk, hkk, Bool.false_or]
      by_cases hp : d.positional kw = true
      · have hp' := hp
        simp only [positional_eq, hcv, hmk, Bool.or_self, Bool.not_false, Bool.true_and, Bool.and_eq_true, Bool.not_eq_true'] at hp'
        simp only [hp'.1, hp'.2, Bool.not_true, Bool.or_self, Bool.false_eq_true, ↓reduceIte]
        by_cases hdf : d.hasDefault = true
        · have : (d.obj.dflt.isSome || d.obj.factory.isSome) = true := hdf
          simp only [this, ↓reduceIte]
          refine ih kw true ?_ (ho' kw hke)
          intro _ pre e post hl he
          refine ho [] d pre e post (by rw [hl]; rfl) ?_ ?_ hdf
          · simpa using hp
          · simp only [List.nil_append, List.any_cons, hmk, Bool.false_or]
            exact he
        · have hdf' : (d.obj.dflt.isSome || d.obj.factory.isSome) = false := by simpa [Decl.hasDefault] using hdf
          have hseen : seen = false := by
            cases hse : seen with
            | false => rfl
            | true => exact absurd (hs hse [] d ls rfl (by simpa using hp)) hdf
          simp only [hdf', Bool.false_eq_true, ↓reduceIte, hseen, Bool.not_false, Bool.true_and]
          have := ih kw seen (hs' kw hke) (ho' kw hke)
          rwa [hseen] at this
      · have hp' : (!d.obj.init || d.obj.kwOnly.getD kw) = true := by
          simp only [positional_eq, hcv, hmk, Bool.or_self, Bool.not_false, Bool.true_and] at hp
          cases hi : d.obj.init <;> cases hq : d.obj.kwOnly.getD kw <;> simp [hi, hq] at hp ⊢
        simp only [hp', ↓reduceIte]
        exact ih kw seen (hs' kw hke) (ho' kw hke)
    simp only [List.map_cons]
    cases ha : d.ann with
    | ty t =>
      simp only [PyClasses.ownFields]
      exact key .real (by simp) (by simp [Decl.isClassVar, ha]) (by simp [Decl.isMarker, ha])
    | initVar t =>
      simp only [PyClasses.ownFields]
      exact key .initVar (by simp) (by simp [Decl.isClassVar, ha]) (by simp [Decl.isMarker, ha])
    | classVar t =>
      have hmk : d.isMarker = false := by simp [Decl.isMarker, ha]
      have hke : (kw || false) = (kw || d.isMarker) := by rw [hmk]
      simp only [PyClasses.ownFields, orderOk, PyClasses.getField, beq_self_eq_true, Bool.true_or, ↓reduceIte]
      exact ih kw seen (hs' kw hke) (ho' kw hke)
    | kwOnly =>
      have hke : (true || false) = (kw || d.isMarker) := by simp [Decl.isMarker, ha]
      simp only [PyClasses.ownFields]
      exact ih true seen (hs' true hke) (ho' true hke)

theorem dataclass_legal {st : PyClasses} {b : Body} {kw : Bool} (hl : b.Legal kw) : ∃ c', st.dataclass kw (b.cls []) = some c' := by
  have hsplit : ∀ {pre nm an post}, (b.cls []).annots = pre ++ (nm, an) :: post → ∃ d ∈ b.lines, d.name = nm ∧ d.ann = an := by
    intro pre nm an post h
    have : (nm, an) ∈ (b.cls []).annots := by rw [h]; simp
    obtain ⟨d, hd, he⟩ := List.mem_map.1 this
    cases he
    exact ⟨d, hd, rfl, rfl⟩
  unfold PyClasses.dataclass
  dsimp only
  rw [if_neg, if_neg, if_neg, if_neg, if_pos]
  · exact ⟨_, rfl⟩
  · rw [baseFields_nil rfl, foldl_putField_nil (ownFields_nodup st (b.cls []) kw body_nodup)]
    exact orderOk_lines b.lines kw false (fun d h => h) (by simp) hl.order
  · have : ((b.cls []).annots.filter fun a => a.2.isMarker).length = (b.lines.filter Decl.isMarker).length := by
      show ((b.lines.map fun d => (d.name, d.ann)).filter _).length = _
      rw [List.filter_map, List.length_map]
      have he : ((fun a : String × Annot => a.2.isMarker) ∘ fun d : Decl => (d.name, d.ann)) = Decl.isMarker := by
        funext d
        simp only [Function.comp, Annot.isMarker, Decl.isMarker]
        cases d.ann <;> rfl
      rw [he]
    rw [this]
    have := hl.marker
    omega
  · simp only [List.any_eq_true, not_exists, not_and]
    intro a ha
    obtain ⟨d, hd, he⟩ := List.mem_filterMap.1 ha
    cases hr : d.rhs with
    | none => simp [hr] at he
    | some r =>
      simp only [hr, Option.some.injEq] at he
      subst he
      cases r with
      | val v => simp
      | fld o => simp [body_annot hd]
  · simp only [List.any_eq_true, not_exists, not_and]
    intro a ha
    obtain ⟨d, hd, rfl⟩ := List.mem_map.1 ha
    dsimp only
    rw [attr_own hd (Or.inl rfl)]
    cases hann : d.ann with
    | classVar t =>
      have := hl.classVar d hd (by simp [Decl.isClassVar, hann])
      unfold Decl.obj at this
      cases hr : d.rhs with
      | none => simp
      | some r => cases r <;> simp [hr] at this ⊢; exact this
    | ty t => simp
    | initVar t => simp
    | kwOnly => simp
  · simp only [List.any_eq_true, not_exists, not_and, Bool.and_eq_true]
    intro f hf hk
    obtain ⟨pre, nm, an, post, h1, h2, rfl⟩ := ownFields_from st (b.cls []) _ kw f hf
    obtain ⟨d, hd, rfl, rfl⟩ := hsplit h1
    rw [getField_own hd (Or.inl rfl)] at hk ⊢
    have : d.ty? = none := by
      cases hann : d.ann <;> simp [hann] at hk <;> simp [Decl.ty?, hann]
    simp [hl.pseudo d hd this]

theorem serdeFields_legal {st : PyClasses} {b : Body} {kw kw' : Bool} {c' : PyCls} (hl : b.Legal kw') (h : st.dataclass kw (b.cls []) = some c') :
    ∃ fs, st.serdeFields c' = some fs := by
  obtain ⟨h1, -, -, h4⟩ := dataclass_body h
  unfold PyClasses.serdeFields
  rw [fields_self h4]
  apply mapM_total
  intro f hf
  obtain ⟨hf, hk⟩ := List.mem_filter.1 hf
  obtain ⟨pre, nm, an, post, h5, h6, rfl⟩ := ownFields_from st (b.cls []) _ kw f hf
  have : (nm, an) ∈ (b.cls []).annots := by rw [h5]; simp
  obtain ⟨d, hd, he⟩ := List.mem_map.1 this
  cases he
  rw [getField_own hd (Or.inl rfl)] at hk ⊢
  cases hann : d.ann with
  | classVar t => simp [hann] at hk
  | initVar t => simp [hann] at hk
  | kwOnly => simp [hann, Annot.isMarker] at h6
  | ty t =>
    have ht : d.ty? = some t := by simp [Decl.ty?, hann]
    unfold PyClasses.fromDataclass
    dsimp only
    rw [hint_own h1 hd, hann]
    dsimp only
    rw [if_neg, if_neg]
    · exact ⟨_, rfl⟩
    · simp only [Bool.and_eq_true, Bool.not_eq_true', beq_iff_eq, not_and, Bool.not_eq_false]
      intro ⟨h7, h8⟩
      rcases hl.skipDe d hd t ht h7 h8 with h9 | h9
      · have : (d.obj.dflt.isSome || d.obj.factory.isSome) = true := h9
        rw [this]
        rfl
      · simp [h9]
    · simp only [Bool.and_eq_true, Bool.not_eq_true', not_and, Bool.not_eq_false]
      intro h7
      rcases hl.flatten d hd t ht h7 with ⟨c, rfl⟩ | ⟨c, rfl⟩ | h9
      · rfl
      · rfl
      · unfold flattenable
        split
        · rfl
        · rfl
        · exact h9

/-- **C66** A class body that keeps to the rules is accepted. -/
theorem C66_accepted {st : PyClasses} {b : Body} (hl : b.Legal false) : ∃ c' fs, st.serde (b.cls []) = some (c', fs) ∧ b.Asks false fs := by
  obtain ⟨c1, h1⟩ := dataclass_legal (st := st) hl
  obtain ⟨fs, h2⟩ := serdeFields_legal hl h1
  have h : st.serde (b.cls []) = some (c1, fs) := by
    unfold PyClasses.serde
    have hs : st.shouldImpl (b.cls []) = true := rfl
    rw [hs]
    simp only [↓reduceIte, h1, h2]
  exact ⟨c1, fs, h, C66_alone h⟩

/-- **C66** The same over `@dataclass`, without class variables and marker. -/
theorem C66_accepted_over_partial {st : PyClasses} {b : Body} {kw : Bool} (hl : b.Legal kw)
    (hb : ∀ d ∈ b.lines, d.isClassVar = false ∧ d.isMarker = false) :
    ∃ c1 fs, st.dataclass kw (b.cls []) = some c1 ∧ st.serde c1 = some (c1, fs) ∧ b.Asks kw fs := by
  obtain ⟨c1, h1⟩ := dataclass_legal (st := st) hl
  obtain ⟨fs, h2⟩ := serdeFields_legal hl h1
  have h : st.serde c1 = some (c1, fs) := by
    unfold PyClasses.serde
    rw [shouldImpl_false hb h1]
    simp only [Bool.false_eq_true, ↓reduceIte, h2]
  exact ⟨c1, fs, h1, h, (C66_over_dataclass_partial hb h1 h).2⟩

/-! ## What is lost over `@dataclass` -/

theorem plain_lookup {as : List (String × Annot)} : ∀ {l : List (String × ClsAttr)} {nm : String}, (l.map Prod.fst).Nodup → (as.lookup nm).isSome = true →
    (plainAttrs as l).lookup nm = match l.lookup nm with
      | some (.val v) => some (.val v)
      | some (.fld o) => o.dflt.map .val
      | none => none
  | [], _, _, _ => rfl
  | (k, a) :: l, nm, hn, ha => by
    simp only [List.map_cons, List.nodup_cons] at hn
    have ih := plain_lookup (as := as) (l := l) (nm := nm) hn.2 ha
    unfold plainAttrs at ih ⊢
    by_cases e : nm = k
    · subst e
      have hnone : l.lookup nm = none := by
        rw [List.lookup_eq_none_iff]
        intro p hp
        have hne : nm ≠ p.1 := fun e => hn.1 (e ▸ List.mem_map_of_mem hp)
        simpa using hne
      rw [hnone] at ih
      have hsome : (as.lookup nm).isNone = false := by cases h : as.lookup nm <;> simp [h] at ha ⊢
      cases a with
      | val v => simp
      | fld o =>
        cases ho : o.dflt with
        | some v => simp [hsome, ho]
        | none =>
          simp only [List.filterMap_cons, hsome, ho, List.lookup_cons, beq_self_eq_true, Option.map_none]
          exact ih
    · have hb : (nm == k) = false := by simpa using e
      cases a with
      | val v => simp only [List.filterMap_cons, List.lookup_cons, hb]; exact ih
      | fld o =>
        simp only [List.filterMap_cons, List.lookup_cons, hb]
        cases hs : (as.lookup k).isNone with
        | true => simp only [↓reduceIte, List.lookup_cons, hb]; exact ih
        | false =>
          cases ho : o.dflt with
          | some v => simp only [Bool.false_eq_true, ↓reduceIte, List.lookup_cons, hb]; exact ih
          | none => simp only [Bool.false_eq_true, ↓reduceIte]; exact ih

theorem attrs_nodup {b : Body} {bs : List ClassId} : ((b.cls bs).attrs.map Prod.fst).Nodup := by
  have hsub : ((b.cls bs).attrs.map Prod.fst).Sublist (b.lines.map Decl.name) := by
    unfold Body.cls
    dsimp only
    induction b.lines with
    | nil => exact List.Sublist.refl _
    | cons d ls ih =>
      cases hr : d.rhs with
      | none => simp only [List.filterMap_cons, hr, List.map_cons]; exact ih.cons _
      | some a => simp only [List.filterMap_cons, hr, List.map_cons]; exact ih.cons_cons _
  exact b.nodup.sublist hsub

/-- **C66** Over `@dataclass`, if there is a class variable or the KW_ONLY marker in the body, *every* field loses its options, its default factory and its
own `kw_only`: only name, type, default value and the effect of the marker are left. -/
theorem C66_lost {st : PyClasses} {b : Body} {kw : Bool} {c1 c' : PyCls} {fs : List FieldDef}
    (hb : ∃ d ∈ b.lines, d.isClassVar = true ∨ d.isMarker = true) (h1 : st.dataclass kw (b.cls []) = some c1) (h : st.serde c1 = some (c', fs)) :
    fs.map FieldDef.name = b.fieldNames ∧
    ∀ pre d post t, b.lines = pre ++ d :: post → d.ty? = some t → d.bare (pre.any Decl.isMarker) t ∈ fs := by
  obtain ⟨e1, e2, e3, e4⟩ := dataclass_body h1
  have hs : st.shouldImpl c1 = true := by
    obtain ⟨d, hd, hk⟩ := hb
    unfold PyClasses.shouldImpl
    rw [dcOf_self e4, fields_self e4, e1]
    simp only [List.any_eq_true]
    refine ⟨(d.name, d.ann), List.mem_map.2 ⟨d, hd, rfl⟩, ?_⟩
    have hnot : ((st.ownFields (b.cls []) kw (b.cls []).annots).filter (·.kind == .real)).any (·.name == d.name) = false := by
      rw [List.any_eq_false]
      intro f hf hn
      have : d.name ∈ ((st.ownFields (b.cls []) kw (b.cls []).annots).filter (·.kind == .real)).map DField.name :=
        List.mem_map.2 ⟨f, hf, by simpa using hn⟩
      rw [ownFields_real] at this
      obtain ⟨a, ha, han⟩ := List.mem_map.1 this
      obtain ⟨ha, hat⟩ := List.mem_filter.1 ha
      obtain ⟨d', hd', rfl⟩ := List.mem_map.1 ha
      have h3 := body_annot (bs := []) hd
      have h4 := body_annot (bs := []) hd'
      dsimp only at han
      rw [han, h3] at h4
      have h5 := Option.some.inj h4
      dsimp only at hat
      rw [← h5] at hat
      cases hann : d.ann <;> simp [Decl.isClassVar, Decl.isMarker, Annot.isTy, hann] at hk hat
    rw [hnot]
    cases hann : d.ann <;> simp [Decl.isClassVar, Decl.isMarker, hann] at hk ⊢
  unfold PyClasses.serde at h
  rw [hs] at h
  simp only [↓reduceIte] at h
  split at h
  · cases h
  · next c2 h2 =>
    split at h
    · next fs1 h3 =>
      cases h
      have e := dataclass_some h2
      rw [baseFields_nil e3, e1, foldl_putField_nil (ownFields_nodup st c1 false body_nodup)] at e
      have f1 : c'.annots = (b.cls []).annots := by rw [e]
      have f4 : c'.dc = some (st.ownFields c1 false (b.cls []).annots) := by rw [e]
      unfold PyClasses.serdeFields at h3
      rw [fields_self f4] at h3
      constructor
      · rw [serdeFields_names h3, ownFields_real]
        exact body_tys
      · intro pre d post t hl ht
        have hd : d ∈ b.lines := by rw [hl]; simp
        have hann := ty_ann ht
        have hm := ownFields_mem st c1 (nm := d.name) (t := t) (post := post.map fun d => (d.name, d.ann)) (pre.map fun d => (d.name, d.ann)) false
        rw [any_marker, ← hann, ← split_annots (bs := []) hl] at hm
        have hat : st.attr c1 d.name = d.obj.dflt.map .val := by
          unfold PyClasses.attr
          rw [e2, e3, plain_lookup attrs_nodup (by rw [body_annot hd]; rfl), body_attr hd]
          unfold Decl.obj
          cases d.rhs with
          | none => rfl
          | some a => cases a with
            | val v => rfl
            | fld o => cases ho : o.dflt <;> simp [ho]
        have hg : st.getField c1 (false || pre.any Decl.isMarker) d.name .real =
            { name := d.name, kind := .real, dflt := d.obj.dflt, factory := none, init := true, kwOnly := pre.any Decl.isMarker, md := {}, ty := t } := by
          unfold PyClasses.getField
          rw [hat, e1, body_annot hd, hann]
          cases d.obj.dflt <;> rfl
        rw [hg] at hm
        obtain ⟨g, hg, hge⟩ := (mapM_some h3).1 _ (List.mem_filter.2 ⟨hm, rfl⟩)
        unfold PyClasses.fromDataclass at hge
        dsimp only at hge
        rw [hint_own f1 hd, hann] at hge
        simp only [Bool.false_and, Bool.false_eq_true, ↓reduceIte] at hge
        have : g = d.bare (pre.any Decl.isMarker) t := by
          rw [← Option.some.inj hge]
          unfold Decl.bare
          cases d.obj.dflt <;> rfl
        rw [← this]
        exact hg
    · cases h

/-! ## The metadata dict -/

theorem write_empty (a : FieldMeta) : FieldMeta.write {} a = a := by
  obtain ⟨a1, a2, a3, a4, a5, a6, a7, a8, a9, a10, a11, a12⟩ := a
  unfold FieldMeta.write
  congr 1
  · cases a1 <;> rfl
  · cases a2 <;> rfl
  · cases a3 <;> rfl
  · cases a4 <;> rfl
  · cases a5 <;> rfl
  · cases a6 <;> rfl
  · cases a7 <;> rfl
  · cases a8 <;> rfl
  · cases a9 <;> rfl
  · cases a10 <;> rfl
  · cases a11 <;> rfl
  · cases a12 <;> rfl

/-- **C66** Fields declared without `metadata`, or with an empty dict, have exactly the options they were given. -/
theorem C66_metadata_partial (m : FieldMeta) (calls : List FieldMeta) : shareMeta m false calls = calls := by
  unfold shareMeta
  simp only [Bool.false_eq_true, ↓reduceIte, write_empty]
  exact List.map_id calls

theorem foldl_write_rename (r : String) : ∀ (calls : List FieldMeta) (m : FieldMeta), m.rename = some r → (∀ a ∈ calls, a.rename = none) →
    (calls.foldl FieldMeta.write m).rename = some r
  | [], _, h, _ => h
  | a :: calls, m, h, hc => by
    refine foldl_write_rename r calls _ ?_ fun x hx => hc x (List.mem_cons_of_mem _ hx)
    show (a.rename <|> m.rename) = some r
    rw [hc a List.mem_cons_self]
    exact h

/-- **C66** A dict with an entry of its own passed to several fields: the name given to one of them last is the name of *all* of them. -/
theorem C66_metadata_leaks (m a : FieldMeta) (r : String) (before after : List FieldMeta) (ha : a.rename = some r) (hl : ∀ x ∈ after, x.rename = none) :
    ∀ x ∈ shareMeta m true (before ++ a :: after), x.rename = some r := by
  intro x hx
  unfold shareMeta at hx
  simp only [↓reduceIte, List.mem_map] at hx
  obtain ⟨_, _, rfl⟩ := hx
  rw [List.foldl_append, List.foldl_cons]
  refine foldl_write_rename r after _ ?_ hl
  show (a.rename <|> _) = some r
  rw [ha]
  rfl

/-- **C66 fails** for a shared dict: `m = {"doc": 1}; a: int = field(rename="x", metadata=m); b: int = field(metadata=m)` renames both. -/
theorem C66_false_metadata : ∃ m calls, shareMeta m true calls ≠ calls.map (FieldMeta.write m) :=
  ⟨{}, [{ rename := some "x" }, {}], fun h => by simpa [shareMeta, FieldMeta.write] using congrArg (List.map FieldMeta.rename) h⟩

/-! ## Examples -/

namespace C66Ex

/-- `a: int`, `b: int = field(default=0, rename="B")`, `_: KW_ONLY`, `c: list = field(default_factory=list, alias=["cs"])`, `K: ClassVar[int] = 3`. -/
def good : Body where
  lines := [{ name := "a", ann := .ty (.prim .int) },
    { name := "b", ann := .ty (.prim .int), rhs := some (.fld { dflt := some (.int 0), md := { rename := some "B" } }) },
    { name := "_", ann := .kwOnly },
    { name := "c", ann := .ty (.listB .list), rhs := some (.fld { factory := some (.list []), md := { alias := some ["cs"] } }) },
    { name := "K", ann := .classVar (.prim .int), rhs := some (.val (.int 3)) }]
  nodup := by decide

/-- What `@serde` alone makes of it. -/
example : (PyClasses.serde [] (good.cls [])).map Prod.snd = some [{ name := "a", ty := .prim .int },
    { name := "b", ty := .prim .int, dflt := some (.int 0), rename := some "B" },
    { name := "c", ty := .listB .list, dflt := some (.list []), kwOnly := true, alias := ["cs"] }] := rfl

/-- `b: int = field(default=0, rename="B")`, and with `k` the class variable `K: ClassVar[int] = 3`. -/
def opts (k : Bool) : Body where
  lines := { name := "b", ann := .ty (.prim .int), rhs := some (.fld { dflt := some (.int 0), md := { rename := some "B" } }) } ::
    if k then [{ name := "K", ann := .classVar (.prim .int), rhs := some (.val (.int 3)) }] else []
  nodup := by cases k <;> decide

/-- `a: int = 0`, `l: list = field(default_factory=list)`, `K: ClassVar[int] = 3`. -/
def facs : Body where
  lines := [{ name := "a", ann := .ty (.prim .int), rhs := some (.val (.int 0)) },
    { name := "l", ann := .ty (.listB .list), rhs := some (.fld { factory := some (.list []) }) },
    { name := "K", ann := .classVar (.prim .int), rhs := some (.val (.int 3)) }]
  nodup := by decide

theorem optsLegal (k kw : Bool) : (opts k).Legal kw := by
  have hd : ∀ d ∈ (opts k).lines, d.hasDefault = true := by cases k <;> simp [opts, Decl.hasDefault, Decl.obj]
  constructor
  · cases k <;> decide
  · cases k <;> simp [opts, Decl.ty?, Decl.obj]
  · cases k <;> simp [opts, Decl.isClassVar, Decl.obj]
  · exact fun pre d mid e post h _ _ _ => hd e (by rw [h]; simp)
  · cases k <;> simp [opts, Decl.obj]
  · cases k <;> simp [opts, Decl.obj]

theorem facsLegal (kw : Bool) : facs.Legal kw := by
  have hd : ∀ d ∈ facs.lines, d.hasDefault = true := by simp [facs, Decl.hasDefault, Decl.obj]
  constructor
  · decide
  · simp [facs, Decl.ty?, Decl.obj]
  · simp [facs, Decl.isClassVar, Decl.obj]
  · exact fun pre d mid e post h _ _ _ => hd e (by rw [h]; simp)
  · simp [facs, Decl.obj]
  · simp [facs, Decl.obj]

/-- The hypotheses of the theorems are met. -/
example : ∃ c1 fs, PyClasses.dataclass [] false ((opts false).cls []) = some c1 ∧ PyClasses.serde [] c1 = some (c1, fs) ∧ (opts false).Asks false fs :=
  C66_accepted_over_partial (optsLegal false false) (by simp [opts, Decl.isClassVar, Decl.isMarker])

example : ∃ c' fs, PyClasses.serde [] ((opts true).cls []) = some (c', fs) ∧ (opts true).Asks false fs := C66_accepted (optsLegal true false)

/-- The class that `@dataclass` makes of `opts true`. -/
def c1 : PyCls := { (opts true).cls [] with
  attrs := [("b", .val (.int 0)), ("K", .val (.int 3))]
  dc := some [{ name := "b", kind := .real, dflt := some (.int 0), factory := none, init := true, kwOnly := false, md := { rename := some "B" }, ty := .prim .int },
    { name := "K", kind := .classVar, dflt := some (.int 3), factory := none, init := true, kwOnly := false, md := {} }]
  init := some [{ name := "b", ty := .prim .int, dflt := some (.int 0) }] }

/-- And what `@serde` makes of that. -/
def c2 : PyCls := { c1 with
  dc := some [{ name := "b", kind := .real, dflt := some (.int 0), factory := none, init := true, kwOnly := false, md := {}, ty := .prim .int },
    { name := "K", kind := .classVar, dflt := some (.int 3), factory := none, init := true, kwOnly := false, md := {} }] }

example : ∃ d ∈ (opts true).lines, d.isClassVar = true ∨ d.isMarker = true := ⟨_, List.mem_cons_of_mem _ List.mem_cons_self, Or.inl rfl⟩

/-- The output of a class with the given fields. -/
def out (fs : List FieldDef) : Res Val := toDict (Ex.mk [("X", { name := "X", mro := ["X"], fields := fs })]) {} 5 (.inst "X" [("b", .int 1)])

/-- The rename is lost with the class variable. -/
example : [FieldDef.name { name := "b", ty := .prim .int, dflt := some (.int 0) }] = (opts true).fieldNames :=
  (C66_lost (st := []) (kw := false) (b := opts true) (c1 := c1) (c' := c2) (fs := [{ name := "b", ty := .prim .int, dflt := some (.int 0) }])
    ⟨_, List.mem_cons_of_mem _ List.mem_cons_self, Or.inl rfl⟩ rfl rfl).1

/-- Three fields over one dict of metadata: what the second asks for, all get. -/
example : ∀ x ∈ shareMeta {} true [{}, { rename := some "x" }, { alias := some ["y"] }], x.rename = some "x" :=
  C66_metadata_leaks {} { rename := some "x" } "x" [{}] [{ alias := some ["y"] }] rfl (by simp)

example : shareMeta {} false [{}, { rename := some "x" }] = [{}, { rename := some "x" }] := C66_metadata_partial _ _

end C66Ex

open C66Ex in
/-- **C66 fails** over `@dataclass` with a class variable: the field `b` is written under its own name instead of `B`; without the class variable, or
without `@dataclass`, the name is `B`. -/
theorem C66_false_options : ∃ (b : Body) (c1 c' : PyCls) (fs : List FieldDef), b.Legal false ∧ PyClasses.dataclass [] false (b.cls []) = some c1 ∧
    PyClasses.serde [] c1 = some (c', fs) ∧ ¬ b.Asks false fs ∧ out fs = .ok (.dict .plain [(Val.str "b", .int 1)]) ∧
    ∃ c'' fs', PyClasses.serde [] (b.cls []) = some (c'', fs') ∧ out fs' = .ok (.dict .plain [(Val.str "B", .int 1)]) := by
  refine ⟨opts true, c1, c2, [{ name := "b", ty := .prim .int, dflt := some (.int 0) }], optsLegal true false, rfl, rfl, ?_, rfl, c1,
    [{ name := "b", ty := .prim .int, dflt := some (.int 0), rename := some "B" }], rfl, rfl⟩
  intro h
  have := h.each [] _ _ (.prim .int) rfl rfl
  simp [Decl.wants, Decl.obj] at this

open C66Ex in
/-- **C66 fails** over `@dataclass` with a class variable: a legal class is refused, because a default factory is lost. -/
theorem C66_false_refused : ∃ (b : Body) (c1 : PyCls), b.Legal false ∧ PyClasses.dataclass [] false (b.cls []) = some c1 ∧ PyClasses.serde [] c1 = none := by
  obtain ⟨c1, h⟩ := dataclass_legal (st := []) (facsLegal false)
  refine ⟨facs, c1, facsLegal false, h, ?_⟩
  rw [dataclass_some h]
  rfl

end Verif.Props
