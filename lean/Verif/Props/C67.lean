import Verif.Props.C66
/-!
# C67: fields of subclasses

Full statement: "A subclass of a dataclass that is decorated with `@serde` has the fields of the base class, in their order, followed by those its own body
adds; a field that the body declares again keeps its place but has the type, default and options of the new line; the others are those of the base class."

Proved (partial) for single inheritance and bodies that declare only fields: if `@dataclass` stands below `@serde` (`C67_over_dataclass_partial`), or the body
has at least one new name (`C67_new_partial`). It is false for `@serde` alone on a body that only declares fields of the base class again: the new defaults and
options are ignored (`C67_ignored`, `C67_false`), because `should_impl_dataclass` takes the class for a dataclass. Several bases: C67Bases.lean. Missing: class and init
variables in the body of the subclass.
-/

namespace Verif.Props
open Verif Spec

theorem putField_nodup {f : DField} {X : List DField} (h : (X.map DField.name).Nodup) : ((putField f X).map DField.name).Nodup := by
  by_cases hf : f.name ∈ X.map DField.name
  · rw [putField_old h hf, List.map_map]
    have : X.map (DField.name ∘ fun g => if g.name == f.name then f else g) = X.map DField.name := by
      refine List.map_congr_left fun x _ => ?_
      simp only [Function.comp]
      split
      · next hb => exact (by simpa using hb : x.name = f.name).symm
      · rfl
    rw [this]
    exact h
  · rw [putField_new hf, List.map_append, List.nodup_append]
    refine ⟨h, by simp, ?_⟩
    intro a ha b hb
    simp only [List.map_cons, List.map_nil, List.mem_singleton] at hb
    subst hb
    exact fun e => hf (e ▸ ha)

theorem foldl_put_nodup : ∀ {own X : List DField}, (X.map DField.name).Nodup → ((own.foldl (fun acc f => putField f acc) X).map DField.name).Nodup
  | [], _, h => h
  | f :: own, X, h => by
    rw [List.foldl_cons]
    exact foldl_put_nodup (own := own) (putField_nodup h)

theorem baseFields_nodup (st : PyClasses) (c : PyCls) : ((st.baseFields c).map DField.name).Nodup := by
  unfold PyClasses.baseFields
  have : ∀ (l : List ClassId) (X : List DField), (X.map DField.name).Nodup →
      ((l.foldl (fun acc b => match st.lookup b with
        | some k => ((st.dcOf k).getD []).foldl (fun acc f => putField f acc) acc
        | Option.none => acc) X).map DField.name).Nodup := by
    intro l
    induction l with
    | nil => exact fun X h => h
    | cons k l ih =>
      intro X h
      rw [List.foldl_cons]
      apply ih
      cases st.lookup k with
      | none => exact h
      | some K => exact foldl_put_nodup h
  exact this _ _ (by simp)

theorem find?_unique {f : DField} : ∀ {Y : List DField}, (Y.map DField.name).Nodup → f ∈ Y → Y.find? (·.name == f.name) = some f
  | [], _, h => by simp at h
  | g :: Y, hn, h => by
    simp only [List.map_cons, List.nodup_cons] at hn
    rcases List.mem_cons.1 h with rfl | h
    · simp
    · have hne : (g.name == f.name) = false := by
        rw [beq_eq_false_iff_ne]
        exact fun e => hn.1 (e ▸ List.mem_map_of_mem h)
      rw [List.find?_cons, hne]
      exact find?_unique hn.2 h

/-- Adding the fields of a dataclass to those it started with gives its fields again. -/
theorem put_again {own X : List DField} (hX : (X.map DField.name).Nodup) (ho : (own.map DField.name).Nodup) :
    (own.foldl (fun acc f => putField f acc) X).foldl (fun acc f => putField f acc) X = own.foldl (fun acc f => putField f acc) X := by
  have hn := foldl_put_nodup (own := own) hX
  rw [foldl_putField hX hn]
  rw [foldl_putField hX ho] at hn ⊢
  have h1 : X.map (overridden (X.map (overridden own) ++ own.filter fun f => decide (f.name ∉ X.map DField.name))) = X.map (overridden own) := by
    refine List.map_congr_left fun x hx => ?_
    have := find?_unique hn (f := overridden own x) (List.mem_append_left _ (List.mem_map_of_mem hx))
    rw [overridden_name] at this
    unfold overridden at this ⊢
    rw [this]
    rfl
  rw [h1, List.filter_append, List.filter_filter]
  have h2 : (X.map (overridden own)).filter (fun f => decide (f.name ∉ X.map DField.name)) = [] := by
    rw [List.filter_eq_nil_iff]
    intro f hf
    obtain ⟨x, hx, rfl⟩ := List.mem_map.1 hf
    rw [overridden_name]
    simp only [decide_eq_true_eq, Decidable.not_not]
    exact List.mem_map_of_mem hx
  simp only [h2, List.nil_append, Bool.and_self]

section
variable {st : PyClasses} {b : Body} {B : ClassId} {kb : PyCls}

theorem Spec.IsDataclass.dcs (h : IsDataclass st B kb) : ∃ Y, kb.dc = some Y ∧ (Y.map DField.name).Nodup ∧ st.baseFields (b.cls (B :: kb.bases)) = Y := by
  obtain ⟨kw, kb0, hn, hd⟩ := h.made
  have e := dataclass_some hd
  have hb : kb.bases = kb0.bases := by rw [e]
  have hbase : st.baseFields kb0 = st.baseFields kb := by
    unfold PyClasses.baseFields
    rw [hb]
  refine ⟨_, by rw [e], foldl_put_nodup (baseFields_nodup st kb0), ?_⟩
  have : st.baseFields (b.cls (B :: kb.bases)) = ((st.dcOf kb).getD []).foldl (fun acc f => putField f acc) (st.baseFields kb) := by
    unfold PyClasses.baseFields Body.cls
    dsimp only
    rw [List.reverse_cons, List.foldl_append]
    simp only [List.foldl_cons, List.foldl_nil, h.known]
  rw [this, dcOf_self (fs := (st.ownFields kb0 kw kb0.annots).foldl (fun acc f => putField f acc) (st.baseFields kb0)) (by rw [e]), ← hbase]
  exact put_again (baseFields_nodup st kb0) (ownFields_nodup st kb0 kw hn)

theorem hint_base {c : PyCls} {nm : String} (hk : st.lookup B = some kb) (hc : c.annots = (b.cls (B :: kb.bases)).annots) (hbs : c.bases = B :: kb.bases)
    (h : nm ∉ b.lines.map Decl.name) : st.hint c nm = st.hint kb nm := by
  have hl : c.annots.lookup nm = none := by
    rw [hc, List.lookup_eq_none_iff]
    intro p hp
    obtain ⟨d, hd, rfl⟩ := List.mem_map.1 hp
    have : nm ≠ d.name := fun e => h (e ▸ List.mem_map_of_mem hd)
    simpa using this
  unfold PyClasses.hint
  rw [hl, hbs]
  simp only [List.findSome?_cons, hk]
  cases kb.annots.lookup nm <;> rfl

theorem fromDataclass_base {c : PyCls} {f : DField} (hk : st.lookup B = some kb) (hc : c.annots = (b.cls (B :: kb.bases)).annots)
    (hbs : c.bases = B :: kb.bases) (h : f.name ∉ b.lines.map Decl.name) : st.fromDataclass c f = st.fromDataclass kb f := by
  unfold PyClasses.fromDataclass
  rw [hint_base hk hc hbs h]

theorem attr_sub {d : Decl} {bs : List ClassId} (h : d ∈ b.lines) (ho : b.NoOldDefaults st bs) : st.attr (b.cls bs) d.name = d.rhs := by
  cases hr : d.rhs with
  | some a => rw [attr_own h (Or.inr (by rw [hr]; rfl)), hr]
  | none =>
    unfold PyClasses.attr
    rw [body_attr h, hr]
    dsimp only
    rw [List.findSome?_eq_none_iff]
    intro k hk
    cases hK : st.lookup k with
    | none => rfl
    | some K => exact ho d h (by rw [hr]; rfl) k hk K hK

theorem getField_sub {d : Decl} {kw : Bool} {k : FKind} {bs : List ClassId} (h : d ∈ b.lines) (ho : b.NoOldDefaults st bs) :
    st.getField (b.cls bs) kw d.name k =
      { name := d.name, kind := k, dflt := d.obj.dflt, factory := d.obj.factory, init := d.obj.init, kwOnly := d.obj.kwOnly.getD kw, md := d.obj.md, ty := Annot.paramTy (some d.ann) } := by
  unfold PyClasses.getField Decl.obj
  rw [attr_sub h ho, body_annot h]
  cases d.rhs with
  | none => rfl
  | some a => cases a <;> rfl

/-- The own fields of a body that declares only fields. -/
theorem own_onlyFields {kw : Bool} {bs : List ClassId} (hf : b.OnlyFields) (ho : b.NoOldDefaults st bs) :
    st.ownFields (b.cls bs) kw (b.cls bs).annots = b.lines.map fun d =>
      { name := d.name, kind := .real, dflt := d.obj.dflt, factory := d.obj.factory, init := d.obj.init, kwOnly := d.obj.kwOnly.getD kw, md := d.obj.md, ty := Annot.paramTy (some d.ann) } := by
  have : ∀ ls : List Decl, (∀ d ∈ ls, d ∈ b.lines) → st.ownFields (b.cls bs) kw (ls.map fun d => (d.name, d.ann)) = ls.map fun d =>
      { name := d.name, kind := .real, dflt := d.obj.dflt, factory := d.obj.factory, init := d.obj.init, kwOnly := d.obj.kwOnly.getD kw, md := d.obj.md, ty := Annot.paramTy (some d.ann) } := by
    intro ls
    induction ls with
    | nil => exact fun _ => rfl
    | cons d ls ih =>
      intro hm
      have hd := hm d List.mem_cons_self
      obtain ⟨t, ht⟩ := Option.isSome_iff_exists.1 (hf d hd)
      simp only [List.map_cons, ty_ann ht, PyClasses.ownFields, getField_sub hd ho]
      rw [ih fun d hd => hm d (List.mem_cons_of_mem _ hd)]
  exact this b.lines fun d h => h

/-- The fields of a subclass to which `dataclass` was applied. -/
theorem extends_of {kw : Bool} {c' : PyCls} {bfs fs : List FieldDef} (hB : IsDataclass st B kb) (hbf : st.serdeFields kb = some bfs)
    (hf : b.OnlyFields) (ho : b.NoOldDefaults st (B :: kb.bases)) (hp : b.NoPseudo kb)
    (h : st.dataclass kw (b.cls (B :: kb.bases)) = some c') (hfs : st.serdeFields c' = some fs) : b.Extends kw bfs fs := by
  obtain ⟨Y, hY, hYn, hbase⟩ := Spec.IsDataclass.dcs hB (b := b)
  have e := dataclass_some h
  have hon := ownFields_nodup st (b.cls (B :: kb.bases)) (as := (b.cls (B :: kb.bases)).annots) kw body_nodup
  rw [hbase, foldl_putField hYn hon, own_onlyFields hf ho] at e
  have e1 : c'.annots = (b.cls (B :: kb.bases)).annots := by rw [e]
  have e2 : c'.bases = B :: kb.bases := by rw [e]; rfl
  rw [own_onlyFields hf ho] at hon
  revert e hon
  generalize hO : (b.lines.map fun d => ({ name := d.name, kind := .real, dflt := d.obj.dflt, factory := d.obj.factory, init := d.obj.init, kwOnly := d.obj.kwOnly.getD kw, md := d.obj.md, ty := Annot.paramTy (some d.ann) } : DField)) = O
  intro e hon
  have hOn : O.map DField.name = b.lines.map Decl.name := by
    rw [← hO, List.map_map]
    rfl
  have hOr : ∀ f ∈ O, f.kind = .real := by
    rw [← hO]
    intro f hf
    obtain ⟨d, -, rfl⟩ := List.mem_map.1 hf
    rfl
  have e4 : c'.dc = some (Y.map (overridden O) ++ O.filter fun f => decide (f.name ∉ Y.map DField.name)) := by rw [e]
  unfold PyClasses.serdeFields at hfs hbf
  rw [fields_self e4] at hfs
  rw [fields_self hY] at hbf
  have hov : ∀ y ∈ Y, (overridden O y).kind = y.kind := by
    intro y hy
    unfold overridden
    cases hfi : O.find? (·.name == y.name) with
    | none => rfl
    | some f =>
      have hfO := List.mem_of_find?_eq_some hfi
      have hfn : f.name = y.name := by simpa using List.find?_some hfi
      have hyr : y.kind = .real := by
        cases hyk : y.kind with
        | real => rfl
        | classVar => exact absurd (by rw [← hOn, ← hfn]; exact List.mem_map_of_mem hfO) (hp Y hY y hy (by rw [hyk]; simp))
        | initVar => exact absurd (by rw [← hOn, ← hfn]; exact List.mem_map_of_mem hfO) (hp Y hY y hy (by rw [hyk]; simp))
      rw [hyr]
      exact hOr f hfO
  have hsplit : (Y.map (overridden O) ++ O.filter fun f => decide (f.name ∉ Y.map DField.name)).filter (·.kind == .real) =
      (Y.filter (·.kind == .real)).map (overridden O) ++ O.filter fun f => decide (f.name ∉ Y.map DField.name) := by
    rw [List.filter_append, List.filter_map]
    congr 1
    · congr 1
      refine List.filter_congr fun y hy => ?_
      simp only [Function.comp, hov y hy]
    · rw [List.filter_filter]
      refine List.filter_congr fun f hf => ?_
      simp [hOr f hf]
  rw [hsplit] at hfs
  have hbn := serdeFields_names hbf
  constructor
  · rw [serdeFields_names hfs, List.map_append, List.map_map, hbn]
    congr 1
    · refine List.map_congr_left fun y _ => ?_
      exact overridden_name O y
    · rw [← hOn, List.filter_map]
      congr 1
      refine List.filter_congr fun f hf => ?_
      simp only [Function.comp, decide_eq_decide]
      apply not_congr
      constructor
      · intro hm
        obtain ⟨y, hy, hyn⟩ := List.mem_map.1 hm
        refine List.mem_map.2 ⟨y, List.mem_filter.2 ⟨hy, ?_⟩, hyn⟩
        cases hyk : y.kind with
        | real => rfl
        | classVar => exact absurd (by rw [← hOn, hyn]; exact List.mem_map_of_mem hf) (hp Y hY y hy (by rw [hyk]; simp))
        | initVar => exact absurd (by rw [← hOn, hyn]; exact List.mem_map_of_mem hf) (hp Y hY y hy (by rw [hyk]; simp))
      · intro hm
        obtain ⟨y, hy, hyn⟩ := List.mem_map.1 hm
        exact List.mem_map.2 ⟨y, (List.mem_filter.1 hy).1, hyn⟩
  · intro d hd t ht
    have hdO : ({ name := d.name, kind := .real, dflt := d.obj.dflt, factory := d.obj.factory, init := d.obj.init, kwOnly := d.obj.kwOnly.getD kw, md := d.obj.md, ty := Annot.paramTy (some d.ann) } : DField) ∈ O := by
      rw [← hO]
      exact List.mem_map.2 ⟨d, hd, rfl⟩
    have hmem : ({ name := d.name, kind := .real, dflt := d.obj.dflt, factory := d.obj.factory, init := d.obj.init, kwOnly := d.obj.kwOnly.getD kw, md := d.obj.md, ty := Annot.paramTy (some d.ann) } : DField) ∈
        (Y.filter (·.kind == .real)).map (overridden O) ++ O.filter fun f => decide (f.name ∉ Y.map DField.name) := by
      by_cases hy : d.name ∈ Y.map DField.name
      · obtain ⟨y, hy, hyn⟩ := List.mem_map.1 hy
        refine List.mem_append_left _ (List.mem_map.2 ⟨y, List.mem_filter.2 ⟨hy, ?_⟩, ?_⟩)
        · cases hyk : y.kind with
          | real => rfl
          | classVar => exact absurd (by rw [hyn]; exact List.mem_map_of_mem hd) (hp Y hY y hy (by rw [hyk]; simp))
          | initVar => exact absurd (by rw [hyn]; exact List.mem_map_of_mem hd) (hp Y hY y hy (by rw [hyk]; simp))
        · have := find?_unique hon hdO
          unfold overridden
          rw [hyn]
          dsimp only at this
          rw [this]
          rfl
      · exact List.mem_append_right _ (List.mem_filter.2 ⟨hdO, by simpa using hy⟩)
    obtain ⟨g, hg, hge⟩ := (mapM_some hfs).1 _ hmem
    have := wants_of (d := d) (t := t) (by rw [hint_own e1 hd, ty_ann ht]) hge
    rw [← this]
    exact hg
  · intro g hg hgn
    obtain ⟨y, hy, hye⟩ := (mapM_some hbf).2 g hg
    have hyn := fromDataclass_name hye
    rw [hyn] at hgn
    have hov' : overridden O y = y := by
      unfold overridden
      rw [find?_none_of (by rw [hOn]; exact hgn)]
      rfl
    obtain ⟨g', hg', hge'⟩ := (mapM_some hfs).1 y (List.mem_append_left _ (List.mem_map.2 ⟨y, hy, hov'⟩))
    rw [fromDataclass_base hB.known e1 e2 hgn, hye] at hge'
    cases hge'
    exact hg'

/-- `__dataclass_fields__` of a subclass to which `dataclass` was not applied. -/
theorem dcOf_sub {c : PyCls} (hB : st.lookup B = some kb) {Y : List DField} (hY : kb.dc = some Y) (hc : c.dc = none) (hbs : c.bases = B :: kb.bases) :
    st.dcOf c = some Y := by
  unfold PyClasses.dcOf
  rw [hc, hbs]
  simp only [List.findSome?_cons, hB, hY]

end

/-- **C67** `@serde` on a subclass of a dataclass whose body declares at least one new name. -/
theorem C67_new_partial {st : PyClasses} {b : Body} {B : ClassId} {kb c' : PyCls} {bfs fs : List FieldDef} (hB : IsDataclass st B kb)
    (hbf : st.serdeFields kb = some bfs) (hf : b.OnlyFields) (ho : b.NoOldDefaults st (B :: kb.bases)) (hp : b.NoPseudo kb)
    (hnew : ∃ d ∈ b.lines, d.name ∉ bfs.map FieldDef.name) (h : st.serde (b.cls (B :: kb.bases)) = some (c', fs)) : b.Extends false bfs fs := by
  obtain ⟨Y, hY, -, -⟩ := Spec.IsDataclass.dcs hB (b := b)
  have hdc := dcOf_sub (c := b.cls (B :: kb.bases)) hB.known hY rfl rfl
  have hbn : bfs.map FieldDef.name = (Y.filter (·.kind == .real)).map DField.name := by
    unfold PyClasses.serdeFields at hbf
    rw [fields_self hY] at hbf
    exact serdeFields_names hbf
  have hs : st.shouldImpl (b.cls (B :: kb.bases)) = true := by
    unfold PyClasses.shouldImpl PyClasses.fields
    rw [hdc]
    obtain ⟨d, hd, hn⟩ := hnew
    obtain ⟨t, ht⟩ := Option.isSome_iff_exists.1 (hf d hd)
    simp only [List.any_eq_true]
    refine ⟨(d.name, d.ann), List.mem_map.2 ⟨d, hd, rfl⟩, ?_⟩
    rw [ty_ann ht]
    simp only [Option.getD_some, Bool.not_eq_true', List.any_eq_false]
    intro f hf' he
    rw [hbn] at hn
    exact hn (List.mem_map.2 ⟨f, hf', by simpa using he⟩)
  unfold PyClasses.serde at h
  rw [hs] at h
  simp only [↓reduceIte] at h
  split at h
  · cases h
  · next c1 h1 =>
    split at h
    · next fs1 h2 =>
      cases h
      exact extends_of hB hbf hf ho hp h1 h2
    · cases h

/-- **C67** `@serde` over `@dataclass` on a subclass of a dataclass. -/
theorem C67_over_dataclass_partial {st : PyClasses} {b : Body} {B : ClassId} {kw : Bool} {kb c1 c' : PyCls} {bfs fs : List FieldDef} (hB : IsDataclass st B kb)
    (hbf : st.serdeFields kb = some bfs) (hf : b.OnlyFields) (ho : b.NoOldDefaults st (B :: kb.bases)) (hp : b.NoPseudo kb)
    (h1 : st.dataclass kw (b.cls (B :: kb.bases)) = some c1) (h : st.serde c1 = some (c', fs)) : b.Extends kw bfs fs := by
  have hs : st.shouldImpl c1 = false := by
    have e := dataclass_some h1
    have e1 : c1.annots = (b.cls (B :: kb.bases)).annots := by rw [e]
    have hon := ownFields_nodup st (b.cls (B :: kb.bases)) (as := (b.cls (B :: kb.bases)).annots) kw body_nodup
    have e4 : c1.dc = some ((st.ownFields (b.cls (B :: kb.bases)) kw (b.cls (B :: kb.bases)).annots).foldl (fun acc f => putField f acc) (st.baseFields (b.cls (B :: kb.bases)))) := by rw [e]
    unfold PyClasses.shouldImpl
    rw [dcOf_self e4, fields_self e4, e1]
    simp only [List.any_eq_false]
    intro a ha
    obtain ⟨d, hd, rfl⟩ := List.mem_map.1 ha
    obtain ⟨t, ht⟩ := Option.isSome_iff_exists.1 (hf d hd)
    rw [ty_ann ht]
    simp only [Bool.not_eq_true', Bool.not_eq_false, List.any_eq_true]
    rw [foldl_putField (baseFields_nodup st _) hon]
    have hown : st.getField (b.cls (B :: kb.bases)) kw d.name .real ∈ st.ownFields (b.cls (B :: kb.bases)) kw (b.cls (B :: kb.bases)).annots := by
      rw [own_onlyFields hf ho, getField_sub hd ho]
      exact List.mem_map.2 ⟨d, hd, rfl⟩
    by_cases hy : d.name ∈ (st.baseFields (b.cls (B :: kb.bases))).map DField.name
    · obtain ⟨y, hy, hyn⟩ := List.mem_map.1 hy
      have hfu := find?_unique hon hown
      refine ⟨st.getField (b.cls (B :: kb.bases)) kw d.name .real, List.mem_filter.2 ⟨List.mem_append_left _ (List.mem_map.2 ⟨y, hy, ?_⟩), rfl⟩, ?_⟩
      · unfold overridden
        rw [hyn]
        have hgn : (st.getField (b.cls (B :: kb.bases)) kw d.name .real).name = d.name := rfl
        rw [hgn] at hfu
        rw [hfu]
        rfl
      · exact beq_self_eq_true d.name
    · exact ⟨st.getField (b.cls (B :: kb.bases)) kw d.name .real,
        List.mem_filter.2 ⟨List.mem_append_right _ (List.mem_filter.2 ⟨hown, decide_eq_true hy⟩), rfl⟩, beq_self_eq_true d.name⟩
  unfold PyClasses.serde at h
  rw [hs] at h
  simp only [Bool.false_eq_true, ↓reduceIte] at h
  split at h
  · next fs1 h2 =>
    cases h
    exact extends_of hB hbf hf ho hp h1 h2
  · cases h

/-- **C67** `@serde` on a subclass whose body only has lines for fields of the base class: the right-hand sides are ignored. Every field has the default and the
options of the base class, together with the type of the subclass. -/
theorem C67_ignored {st : PyClasses} {b : Body} {B : ClassId} {kb c' : PyCls} {bfs fs : List FieldDef} (hB : IsDataclass st B kb)
    (hbf : st.serdeFields kb = some bfs) (hf : b.OnlyFields) (hold : ∀ d ∈ b.lines, d.name ∈ bfs.map FieldDef.name)
    (h : st.serde (b.cls (B :: kb.bases)) = some (c', fs)) :
    fs.map FieldDef.name = bfs.map FieldDef.name ∧ (∀ g ∈ bfs, g.name ∉ b.lines.map Decl.name → g ∈ fs) ∧
    ∀ g ∈ bfs, ∀ d ∈ b.lines, d.name = g.name → ∀ t, d.ty? = some t → { g with ty := t } ∈ fs := by
  obtain ⟨Y, hY, -, -⟩ := Spec.IsDataclass.dcs hB (b := b)
  have hdc := dcOf_sub (c := b.cls (B :: kb.bases)) hB.known hY rfl rfl
  unfold PyClasses.serdeFields at hbf
  rw [fields_self hY] at hbf
  have hbn := serdeFields_names hbf
  have hfields : st.fields (b.cls (B :: kb.bases)) = Y.filter (·.kind == .real) := by
    unfold PyClasses.fields
    rw [hdc]
    rfl
  have hs : st.shouldImpl (b.cls (B :: kb.bases)) = false := by
    unfold PyClasses.shouldImpl
    rw [hdc, hfields]
    simp only [List.any_eq_false]
    intro a ha
    obtain ⟨d, hd, rfl⟩ := List.mem_map.1 ha
    obtain ⟨t, ht⟩ := Option.isSome_iff_exists.1 (hf d hd)
    rw [ty_ann ht]
    simp only [Bool.not_eq_true', Bool.not_eq_false, List.any_eq_true]
    have := hold d hd
    rw [hbn] at this
    obtain ⟨f, hf', hn⟩ := List.mem_map.1 this
    exact ⟨f, hf', by simpa using hn⟩
  unfold PyClasses.serde at h
  rw [hs] at h
  simp only [Bool.false_eq_true, ↓reduceIte] at h
  split at h
  · next fs1 h2 =>
    cases h
    unfold PyClasses.serdeFields at h2
    rw [hfields] at h2
    refine ⟨by rw [serdeFields_names h2, hbn], ?_, ?_⟩
    · intro g hg hgn
      obtain ⟨y, hy, hye⟩ := (mapM_some hbf).2 g hg
      rw [fromDataclass_name hye] at hgn
      obtain ⟨g', hg', hge'⟩ := (mapM_some h2).1 y hy
      rw [fromDataclass_base hB.known rfl rfl hgn, hye] at hge'
      cases hge'
      exact hg'
    · intro g hg d hd hdn t ht
      obtain ⟨y, hy, hye⟩ := (mapM_some hbf).2 g hg
      obtain ⟨g', hg', hge'⟩ := (mapM_some h2).1 y hy
      have hyn := fromDataclass_name hye
      have hh : st.hint (b.cls (B :: kb.bases)) y.name = some (.ty t) := by
        rw [← hyn, ← hdn, hint_own rfl hd, ty_ann ht]
      have : g' = { g with ty := t } := by
        unfold PyClasses.fromDataclass at hye hge'
        rw [hh] at hge'
        dsimp only at hge'
        split at hge'
        · cases hge'
        split at hge'
        · cases hge'
        split at hye
        · dsimp only at hye
          split at hye
          · cases hye
          · cases hye
            cases hge'
            rfl
        · cases hye
      rw [← this]
      exact hg'
  · cases h

/-! ## Examples -/

namespace C67Ex

/-- `a: int = 0`, `s: str = field(default="x", rename="S")`. -/
def base : Body where
  lines := [{ name := "a", ann := .ty (.prim .int), rhs := some (.val (.int 0)) },
    { name := "s", ann := .ty (.prim .str), rhs := some (.fld { dflt := some (.str "x"), md := { rename := some "S" } }) }]
  nodup := by decide

/-- The base class after `@serde`. -/
def kb : PyCls := { base.cls [] with
  attrs := [("a", .val (.int 0)), ("s", .val (.str "x"))]
  dc := some [{ name := "a", kind := .real, dflt := some (.int 0), factory := none, init := true, kwOnly := false, md := {}, ty := .prim .int },
    { name := "s", kind := .real, dflt := some (.str "x"), factory := none, init := true, kwOnly := false, md := { rename := some "S" }, ty := .prim .str }]
  init := some [{ name := "a", ty := .prim .int, dflt := some (.int 0) }, { name := "s", ty := .prim .str, dflt := some (.str "x") }] }

def st : PyClasses := [("B", kb)]

def bfs : List FieldDef := [{ name := "a", ty := .prim .int, dflt := some (.int 0) }, { name := "s", ty := .prim .str, dflt := some (.str "x"), rename := some "S" }]

theorem isDataclass : IsDataclass st "B" kb := ⟨rfl, false, base.cls [], by decide, rfl⟩

/-- `a: int = field(default=5, rename="A")`, and with `new` also `n: bool = True`. -/
def sub (new : Bool) : Body where
  lines := { name := "a", ann := .ty (.prim .int), rhs := some (.fld { dflt := some (.int 5), md := { rename := some "A" } }) } ::
    if new then [{ name := "n", ann := .ty (.prim .bool), rhs := some (.val (.bool true)) }] else []
  nodup := by cases new <;> decide

theorem onlyFields (new : Bool) : (sub new).OnlyFields := by cases new <;> simp [sub, Body.OnlyFields, Decl.ty?]
theorem noOld (new : Bool) : (sub new).NoOldDefaults st ["B"] := by cases new <;> simp [sub, Body.NoOldDefaults]
theorem noPseudo (new : Bool) : (sub new).NoPseudo kb := by
  intro fs h f hf hk
  cases h
  simp at hf
  rcases hf with rfl | rfl <;> simp at hk

/-- The fields of the subclass with a new name: `a` in its old place with the new options, `s` as in the base class, then `n`. -/
def newFields : List FieldDef := [{ name := "a", ty := .prim .int, dflt := some (.int 5), rename := some "A" },
  { name := "s", ty := .prim .str, dflt := some (.str "x"), rename := some "S" }, { name := "n", ty := .prim .bool, dflt := some (.bool true) }]

example : (PyClasses.serde st ((sub true).cls ["B"])).map Prod.snd = some newFields := rfl

example : (sub true).Extends false bfs newFields := by
  cases h : PyClasses.serde st ((sub true).cls ["B"]) with
  | none => exact absurd h (by intro h; cases h)
  | some r =>
    obtain ⟨c', fs⟩ := r
    have e : some newFields = some fs := by
      have : (PyClasses.serde st ((sub true).cls ["B"])).map Prod.snd = some fs := by rw [h]; rfl
      exact this
    cases e
    exact C67_new_partial (kb := kb) isDataclass rfl (onlyFields true) (noOld true) (noPseudo true) ⟨_, List.mem_cons_of_mem _ List.mem_cons_self, by simp [bfs]⟩ h

/-- Over `@dataclass` the new options count also without a new name. -/
example : ((PyClasses.dataclass st false ((sub false).cls ["B"])).bind fun c1 => (PyClasses.serde st c1).map Prod.snd) =
    some [{ name := "a", ty := .prim .int, dflt := some (.int 5), rename := some "A" }, { name := "s", ty := .prim .str, dflt := some (.str "x"), rename := some "S" }] := rfl

/-- The class `D` with the given fields. -/
def env (fs : List FieldDef) : Env := Ex.mk [("D", { name := "D", mro := ["D", "B"], fields := fs })]

/-- Over `@dataclass`, with the hypotheses met. -/
example {c1 c' fs} (h1 : PyClasses.dataclass st false ((sub true).cls ["B"]) = some c1) (h : PyClasses.serde st c1 = some (c', fs)) : (sub true).Extends false bfs fs :=
  C67_over_dataclass_partial (kb := kb) isDataclass rfl (onlyFields true) (noOld true) (noPseudo true) h1 h

/-- Without a new name and without `@dataclass` the fields are those of the base class, but for their types. -/
example {c' fs} (h : PyClasses.serde st ((sub false).cls ["B"]) = some (c', fs)) : fs.map FieldDef.name = ["a", "s"] :=
  (C67_ignored (kb := kb) (bfs := bfs) isDataclass rfl (onlyFields false) (by simp [sub, bfs]) h).1
example : (PyClasses.serde st ((sub false).cls ["B"])).map Prod.snd = some bfs := rfl

end C67Ex

open C67Ex in
/-- **C67 fails** for `@serde` alone on `class D(B): a: int = field(default=5, rename="A")`: the field keeps default `0` and name `a` of the base class. Data
without `a` are read as `0` instead of `5`, and `A` is not a name of the field. -/
theorem C67_false : ∃ (st : PyClasses) (b : Body) (B : ClassId) (kb c' : PyCls) (bfs fs : List FieldDef), IsDataclass st B kb ∧ st.serdeFields kb = some bfs ∧
    b.OnlyFields ∧ b.NoOldDefaults st (B :: kb.bases) ∧ b.NoPseudo kb ∧ st.serde (b.cls (B :: kb.bases)) = some (c', fs) ∧ ¬ b.Extends false bfs fs ∧
    fromDict (env fs) {} 5 (.cls "D") (.dict .plain []) = .ok (.inst "D" [("a", .int 0), ("s", Val.str "x")]) ∧
    fromDict (env fs) {} 5 (.cls "D") (.dict .plain [(Val.str "A", .int 7)]) = .ok (.inst "D" [("a", .int 0), ("s", Val.str "x")]) := by
  refine ⟨st, sub false, "B", kb, (sub false).cls ["B"], bfs, bfs, isDataclass, rfl, onlyFields false, noOld false, noPseudo false, rfl, ?_, rfl, rfl⟩
  intro h
  have := h.own _ List.mem_cons_self (.prim .int) rfl
  simp [Decl.wants, Decl.obj, bfs] at this

end Verif.Props
