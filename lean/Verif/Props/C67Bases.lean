import Verif.Props.C68Bases
/-!
# C67 for classes with several bases

Full statement: see C67. Proved here for subclasses of any number of dataclasses without class and init variables, and bodies that declare only fields. The
base classes are taken in the order of the MRO. Missing: class and init variables.
-/

namespace Verif.Spec

/-- The names in the order in which they come up first. -/
def inOrder (l : List String) : List String := l.foldl (fun acc n => if n ∈ acc then acc else acc ++ [n]) []

/-- The annotation of a name in the first of these classes whose body has one. -/
def firstAnnot (st : PyClasses) : List ClassId → String → Option Annot
  | [], _ => none
  | B :: bs, nm => match st.lookup B with
    | some k => match k.annots.lookup nm with
      | some a => some a
      | none => firstAnnot st bs nm
    | none => firstAnnot st bs nm

/-- `B` is a dataclass with only fields, which are these. -/
structure PlainBase (st : PyClasses) (B : ClassId) (bfs : List FieldDef) : Prop where
  dataclass : ∃ kb, IsDataclass st B kb ∧ st.serdeFields kb = some bfs ∧ ∀ Y, kb.dc = some Y → ∀ f ∈ Y, f.kind = .real

/-- The fields `fs` of a class with the bases `bs` (each with its fields), in the order of the MRO: names in the order from the last base to the own body; own
lines as they stand; every other field from the first base that has it, but with the type of the first base whose own body has the name. -/
structure Body.Merges (b : Body) (st : PyClasses) (kw : Bool) (bs : List (ClassId × List FieldDef)) (fs : List FieldDef) : Prop where
  names : fs.map FieldDef.name = inOrder ((bs.reverse.flatMap fun p => p.2.map FieldDef.name) ++ b.lines.map Decl.name)
  own : ∀ d ∈ b.lines, ∀ t, d.ty? = some t → d.wants kw t ∈ fs
  inherited : ∀ pre p post g, bs = pre ++ p :: post → g ∈ p.2 → (∀ q ∈ pre, g.name ∉ q.2.map FieldDef.name) → g.name ∉ b.lines.map Decl.name →
    ∃ t, firstAnnot st (bs.map Prod.fst) g.name = some (.ty t) ∧ { g with ty := t } ∈ fs

end Verif.Spec

namespace Verif.Props
open Verif Verif.Spec

theorem inOrder_snoc (l : List String) (n : String) : inOrder (l ++ [n]) = if n ∈ inOrder l then inOrder l else inOrder l ++ [n] := by
  unfold inOrder
  rw [List.foldl_append]
  rfl

theorem put_names (f : DField) (X : List DField) (hX : (X.map DField.name).Nodup) :
    (putField f X).map DField.name = if f.name ∈ X.map DField.name then X.map DField.name else X.map DField.name ++ [f.name] := by
  split
  · rename_i h
    rw [putField_old hX h, List.map_map]
    refine List.map_congr_left fun x _ => ?_
    simp only [Function.comp]
    split
    · rename_i hb; exact (by simpa using hb : x.name = f.name).symm
    · rfl
  · rename_i h
    rw [putField_new h]
    simp

theorem foldl_names {l : List String} : ∀ {own X : List DField}, (X.map DField.name).Nodup → X.map DField.name = inOrder l →
    (own.foldl (fun acc f => putField f acc) X).map DField.name = inOrder (l ++ own.map DField.name)
  | [], X, _, h => by simpa using h
  | f :: own, X, hX, h => by
    have := foldl_names (l := l ++ [f.name]) (own := own) (putField_nodup (f := f) hX) (by rw [put_names f X hX, inOrder_snoc, h])
    rw [List.foldl_cons, this]
    simp

theorem kept {g : DField} : ∀ {own X : List DField}, g ∈ X → g.name ∉ own.map DField.name → g ∈ own.foldl (fun acc f => putField f acc) X
  | [], _, h, _ => h
  | f :: own, X, h, hn => by
    simp only [List.map_cons, List.mem_cons, not_or] at hn
    exact kept (own := own) (X := putField f X) (step h hn.1) hn.2
where
  step {f g : DField} : ∀ {X : List DField}, g ∈ X → g.name ≠ f.name → g ∈ putField f X
    | x :: X, h, hn => by
      unfold putField
      split
      · rename_i hx
        rcases List.mem_cons.1 h with rfl | h
        · exact absurd (by simpa using hx) hn
        · exact List.mem_cons_of_mem _ h
      · rcases List.mem_cons.1 h with rfl | h
        · exact List.mem_cons_self
        · exact List.mem_cons_of_mem _ (step h hn)

theorem put_in {g : DField} {own X : List DField} (hX : (X.map DField.name).Nodup) (ho : (own.map DField.name).Nodup) (h : g ∈ own) :
    g ∈ own.foldl (fun acc f => putField f acc) X := by
  rw [foldl_putField hX ho]
  by_cases hy : g.name ∈ X.map DField.name
  · obtain ⟨x, hx, e⟩ := List.mem_map.1 hy
    refine List.mem_append_left _ (List.mem_map.2 ⟨x, hx, ?_⟩)
    unfold overridden
    rw [e, find?_unique ho h]
    rfl
  · exact List.mem_append_right _ (List.mem_filter.2 ⟨h, by simpa using hy⟩)

section
variable {st : PyClasses} {b : Body}

theorem baseFields_cons {B : ClassId} {k : PyCls} {Y : List DField} {l : List ClassId} (hk : st.lookup B = some k) (hY : k.dc = some Y) :
    st.baseFields (b.cls (B :: l)) = Y.foldl (fun acc f => putField f acc) (st.baseFields (b.cls l)) := by
  unfold PyClasses.baseFields Body.cls
  dsimp only
  rw [List.reverse_cons, List.foldl_append]
  simp only [List.foldl_cons, List.foldl_nil, hk, dcOf_self hY, Option.getD_some]

theorem baseFields_only {l : List ClassId} {c : PyCls} (h : c.bases = l) : st.baseFields c = st.baseFields (b.cls l) := by
  unfold PyClasses.baseFields
  rw [h]
  rfl

theorem plain_out {B : ClassId} {bfs : List FieldDef} (h : PlainBase st B bfs) : ∃ k Y, st.lookup B = some k ∧ k.dc = some Y ∧ (Y.map DField.name).Nodup ∧
    (∀ f ∈ Y, f.kind = .real) ∧ bfs.map FieldDef.name = Y.map DField.name ∧ (∀ g ∈ bfs, ∃ f ∈ Y, st.fromDataclass k f = some g) := by
  obtain ⟨kb, hd, hs, hr⟩ := h.dataclass
  obtain ⟨Y, hY, hn, -⟩ := Spec.IsDataclass.dcs (b := ⟨[], by simp⟩) hd
  unfold PyClasses.serdeFields at hs
  rw [fields_self hY] at hs
  have hall : Y.filter (·.kind == .real) = Y := by
    rw [List.filter_eq_self]
    intro f hf
    simp [hr Y hY f hf]
  rw [hall] at hs
  exact ⟨kb, Y, hd.known, hY, hn, hr Y hY, by rw [← serdeFields_names (st := st) (c := kb) hs], (mapM_some hs).2⟩

theorem bases_names : ∀ {bs : List (ClassId × List FieldDef)}, (∀ p ∈ bs, PlainBase st p.1 p.2) →
    (st.baseFields (b.cls (bs.map Prod.fst))).map DField.name = inOrder (bs.reverse.flatMap fun p => p.2.map FieldDef.name)
  | [], _ => rfl
  | p :: bs, h => by
    obtain ⟨k, Y, hk, hY, -, -, hn, -⟩ := plain_out (h p List.mem_cons_self)
    have ih := bases_names (bs := bs) (fun q hq => h q (List.mem_cons_of_mem _ hq))
    rw [List.map_cons, baseFields_cons hk hY, foldl_names (baseFields_nodup st _) ih, List.reverse_cons, List.flatMap_append, hn.symm]
    simp

theorem bases_real : ∀ {bs : List (ClassId × List FieldDef)}, (∀ p ∈ bs, PlainBase st p.1 p.2) → ∀ f ∈ st.baseFields (b.cls (bs.map Prod.fst)), f.kind = .real
  | [], _, f, hf => by simp [PyClasses.baseFields, Body.cls] at hf
  | p :: bs, h, f, hf => by
    obtain ⟨k, Y, hk, hY, -, hr, -, -⟩ := plain_out (h p List.mem_cons_self)
    rw [List.map_cons, baseFields_cons hk hY] at hf
    rcases mem_foldl_either hf with hf | hf
    · exact hr f hf
    · exact bases_real (fun q hq => h q (List.mem_cons_of_mem _ hq)) f hf

theorem bases_first {g : FieldDef} : ∀ {bs pre : List (ClassId × List FieldDef)} {p : ClassId × List FieldDef} {post}, (∀ p ∈ bs, PlainBase st p.1 p.2) →
    bs = pre ++ p :: post → g ∈ p.2 → (∀ q ∈ pre, g.name ∉ q.2.map FieldDef.name) →
    ∃ f ∈ st.baseFields (b.cls (bs.map Prod.fst)), ∃ k, st.fromDataclass k f = some g
  | _, [], p, post, h, rfl, hg, _ => by
    obtain ⟨k, Y, hk, hY, hn, -, -, hf⟩ := plain_out (h p List.mem_cons_self)
    obtain ⟨f, hfY, e⟩ := hf g hg
    refine ⟨f, ?_, k, e⟩
    rw [List.nil_append, List.map_cons, baseFields_cons hk hY]
    exact put_in (baseFields_nodup st _) hn hfY
  | _, q :: pre, p, post, h, rfl, hg, hp => by
    obtain ⟨k, Y, hk, hY, -, -, hn, -⟩ := plain_out (h q List.mem_cons_self)
    obtain ⟨f, hf, k', e⟩ := bases_first (bs := pre ++ p :: post) (fun r hr => h r (List.mem_cons_of_mem _ hr)) rfl hg fun r hr => hp r (List.mem_cons_of_mem _ hr)
    refine ⟨f, ?_, k', e⟩
    rw [List.cons_append, List.map_cons, baseFields_cons hk hY]
    refine kept hf ?_
    rw [← hn, ← fromDataclass_name e]
    exact hp q List.mem_cons_self

theorem hint_first {c : PyCls} {l : List ClassId} {nm : String} (hb : c.bases = l) (hc : c.annots.lookup nm = none) : st.hint c nm = firstAnnot st l nm := by
  unfold PyClasses.hint
  rw [hc, hb]
  dsimp only
  clear hb hc
  induction l with
  | nil => rfl
  | cons B l ih =>
    rw [List.findSome?_cons, firstAnnot]
    cases st.lookup B with
    | none => exact ih
    | some k =>
      dsimp only
      cases k.annots.lookup nm with
      | none => exact ih
      | some a => rfl

theorem other_type {k c : PyCls} {f : DField} {g g' : FieldDef} (h : st.fromDataclass k f = some g) (h' : st.fromDataclass c f = some g') :
    ∃ t, st.hint c f.name = some (.ty t) ∧ g' = { g with ty := t } := by
  unfold PyClasses.fromDataclass at h h'
  split at h
  · dsimp only at h
    split at h
    · cases h
    split at h
    · cases h
    split at h'
    · rename_i t ht
      dsimp only at h'
      split at h'
      · cases h'
      cases h
      cases h'
      exact ⟨t, ht, rfl⟩
    · cases h'
  · cases h

theorem body_lookup_none {bs : List ClassId} {nm : String} (h : nm ∉ b.lines.map Decl.name) : (b.cls bs).annots.lookup nm = none := by
  rw [List.lookup_eq_none_iff]
  intro p hp
  obtain ⟨d, hd, rfl⟩ := List.mem_map.1 hp
  have : nm ≠ d.name := fun e => h (e ▸ List.mem_map_of_mem hd)
  simpa using this

/-- The fields of a class with several bases to which `dataclass` was applied. -/
theorem merges_of {kw : Bool} {c' : PyCls} {bs : List (ClassId × List FieldDef)} {fs : List FieldDef} (hB : ∀ p ∈ bs, PlainBase st p.1 p.2)
    (hf : b.OnlyFields) (ho : b.NoOldDefaults st (bs.map Prod.fst)) (h : st.dataclass kw (b.cls (bs.map Prod.fst)) = some c')
    (hfs : st.serdeFields c' = some fs) : b.Merges st kw bs fs := by
  have e := dataclass_some h
  have hon := ownFields_nodup st (b.cls (bs.map Prod.fst)) (as := (b.cls (bs.map Prod.fst)).annots) kw body_nodup
  have hown := own_onlyFields (kw := kw) hf ho
  rw [hown] at hon e
  have e1 : c'.annots = (b.cls (bs.map Prod.fst)).annots := by rw [e]
  have e2 : c'.bases = bs.map Prod.fst := by rw [e]; rfl
  revert e hon
  generalize hO : (b.lines.map fun d => ({ name := d.name, kind := .real, dflt := d.obj.dflt, factory := d.obj.factory, init := d.obj.init, kwOnly := d.obj.kwOnly.getD kw, md := d.obj.md, ty := Annot.paramTy (some d.ann) } : DField)) = O
  intro e hon
  have hOn : O.map DField.name = b.lines.map Decl.name := by
    rw [← hO, List.map_map]
    rfl
  have hOr : ∀ f ∈ O, f.kind = .real := by
    rw [← hO]
    intro f hf
    obtain ⟨d, -, rfl⟩ := List.mem_map.1 hf
    rfl
  have e4 : c'.dc = some (O.foldl (fun acc f => putField f acc) (st.baseFields (b.cls (bs.map Prod.fst)))) := by rw [e]
  have hX := baseFields_nodup st (b.cls (bs.map Prod.fst))
  unfold PyClasses.serdeFields at hfs
  rw [fields_self e4, List.filter_eq_self.2] at hfs
  · constructor
    · rw [serdeFields_names hfs, foldl_names hX (bases_names hB), hOn]
    · intro d hd t ht
      have hdO : ({ name := d.name, kind := .real, dflt := d.obj.dflt, factory := d.obj.factory, init := d.obj.init, kwOnly := d.obj.kwOnly.getD kw, md := d.obj.md, ty := Annot.paramTy (some d.ann) } : DField) ∈ O := by
        rw [← hO]
        exact List.mem_map.2 ⟨d, hd, rfl⟩
      obtain ⟨g, hg, hge⟩ := (mapM_some hfs).1 _ (put_in hX hon hdO)
      have := wants_of (d := d) (t := t) (by rw [hint_own e1 hd, ty_ann ht]) hge
      rw [← this]
      exact hg
    · intro pre p post g hb hg hpre hn
      obtain ⟨f, hf, k, hk⟩ := bases_first (b := b) hB hb hg hpre
      have hfn := fromDataclass_name hk
      obtain ⟨g', hg', hge⟩ := (mapM_some hfs).1 _ (kept (own := O) hf (by rw [hOn, ← hfn]; exact hn))
      obtain ⟨t, ht, rfl⟩ := other_type hk hge
      refine ⟨t, ?_, hg'⟩
      rw [hfn, ← ht]
      exact (hint_first e2 (by rw [e1, ← hfn]; exact body_lookup_none hn)).symm
  · intro f hf
    rcases mem_foldl_either hf with hf | hf
    · simp [hOr f hf]
    · simp [bases_real hB f hf]

end

/-- **C67** `@serde` on a class with several bases whose body declares at least one new name. -/
theorem C67_several_partial {st : PyClasses} {b : Body} {bs : List (ClassId × List FieldDef)} {c' : PyCls} {fs : List FieldDef}
    (hB : ∀ p ∈ bs, PlainBase st p.1 p.2) (hf : b.OnlyFields) (ho : b.NoOldDefaults st (bs.map Prod.fst))
    (hnew : ∃ d ∈ b.lines, ∀ p ∈ bs, d.name ∉ p.2.map FieldDef.name) (h : st.serde (b.cls (bs.map Prod.fst)) = some (c', fs)) : b.Merges st false bs fs := by
  have hs : st.shouldImpl (b.cls (bs.map Prod.fst)) = true := by
    unfold PyClasses.shouldImpl
    split
    · rfl
    · rename_i Z hZ
      obtain ⟨d, hd, hn⟩ := hnew
      obtain ⟨t, ht⟩ := Option.isSome_iff_exists.1 (hf d hd)
      simp only [List.any_eq_true]
      refine ⟨(d.name, d.ann), List.mem_map.2 ⟨d, hd, rfl⟩, ?_⟩
      rw [ty_ann ht]
      unfold PyClasses.fields
      rw [hZ]
      simp only [Option.getD_some, Bool.not_eq_true', List.any_eq_false]
      intro f hf' he
      have hfZ := (List.mem_filter.1 hf').1
      unfold PyClasses.dcOf at hZ
      have hd0 : (b.cls (bs.map Prod.fst)).dc = none := rfl
      rw [hd0] at hZ
      dsimp only at hZ
      obtain ⟨B, hBm, hBk⟩ := List.exists_of_findSome?_eq_some hZ
      obtain ⟨p, hp, rfl⟩ := List.mem_map.1 hBm
      obtain ⟨k, Y, hk, hY, -, -, hYn, -⟩ := plain_out (hB p hp)
      rw [hk] at hBk
      dsimp only at hBk
      rw [hY] at hBk
      cases hBk
      refine hn p hp ?_
      rw [hYn]
      exact List.mem_map.2 ⟨f, hfZ, by simpa using he⟩
  unfold PyClasses.serde at h
  rw [hs] at h
  simp only [↓reduceIte] at h
  split at h
  · cases h
  · rename_i c1 h1
    split at h
    · rename_i fs1 h2
      cases h
      exact merges_of hB hf ho h1 h2
    · cases h

/-- **C67** `@serde` over `@dataclass` on a class with several bases. -/
theorem C67_several_over_dataclass_partial {st : PyClasses} {b : Body} {kw : Bool} {bs : List (ClassId × List FieldDef)} {c1 c' : PyCls} {fs : List FieldDef}
    (hB : ∀ p ∈ bs, PlainBase st p.1 p.2) (hf : b.OnlyFields) (ho : b.NoOldDefaults st (bs.map Prod.fst))
    (h1 : st.dataclass kw (b.cls (bs.map Prod.fst)) = some c1) (h : st.serde c1 = some (c', fs)) : b.Merges st kw bs fs := by
  have hs : st.shouldImpl c1 = false := by
    have e := dataclass_some h1
    have hown := own_onlyFields (kw := kw) hf ho
    have hon := ownFields_nodup st (b.cls (bs.map Prod.fst)) (as := (b.cls (bs.map Prod.fst)).annots) kw body_nodup
    have e1 : c1.annots = (b.cls (bs.map Prod.fst)).annots := by rw [e]
    have e4 : c1.dc = some ((st.ownFields (b.cls (bs.map Prod.fst)) kw (b.cls (bs.map Prod.fst)).annots).foldl (fun acc f => putField f acc)
        (st.baseFields (b.cls (bs.map Prod.fst)))) := by rw [e]
    unfold PyClasses.shouldImpl
    rw [dcOf_self e4, fields_self e4, e1]
    simp only [List.any_eq_false]
    intro a ha
    obtain ⟨d, hd, rfl⟩ := List.mem_map.1 ha
    obtain ⟨t, ht⟩ := Option.isSome_iff_exists.1 (hf d hd)
    rw [ty_ann ht]
    simp only [Bool.not_eq_true', Bool.not_eq_false, List.any_eq_true]
    have hm : st.getField (b.cls (bs.map Prod.fst)) kw d.name .real ∈ st.ownFields (b.cls (bs.map Prod.fst)) kw (b.cls (bs.map Prod.fst)).annots := by
      rw [hown, getField_sub hd ho]
      exact List.mem_map.2 ⟨d, hd, rfl⟩
    exact ⟨_, List.mem_filter.2 ⟨put_in (baseFields_nodup st _) hon hm, rfl⟩, beq_self_eq_true d.name⟩
  unfold PyClasses.serde at h
  rw [hs] at h
  simp only [Bool.false_eq_true, ↓reduceIte] at h
  split at h
  · rename_i fs1 h2
    cases h
    exact merges_of hB hf ho h1 h2
  · cases h

/-- `@serde` on a class with several bases and an empty body: the class has the fields of its first base, and of none of the others. -/
theorem C67_first_only {st : PyClasses} {b : Body} {p : ClassId × List FieldDef} {bs : List (ClassId × List FieldDef)} {c' : PyCls} {fs : List FieldDef}
    (hp : PlainBase st p.1 p.2) (hb : b.lines = []) (h : st.serde (b.cls (p.1 :: bs.map Prod.fst)) = some (c', fs)) :
    fs.map FieldDef.name = p.2.map FieldDef.name := by
  obtain ⟨k, Y, hk, hY, -, hr, hn, -⟩ := plain_out hp
  have hdc : st.dcOf (b.cls (p.1 :: bs.map Prod.fst)) = some Y := by
    unfold PyClasses.dcOf
    have : (b.cls (p.1 :: bs.map Prod.fst)).dc = none := rfl
    rw [this]
    simp only [Body.cls, List.findSome?_cons, hk, hY]
  have hs : st.shouldImpl (b.cls (p.1 :: bs.map Prod.fst)) = false := by
    unfold PyClasses.shouldImpl
    rw [hdc]
    simp [Body.cls, hb]
  unfold PyClasses.serde at h
  rw [hs] at h
  simp only [Bool.false_eq_true, ↓reduceIte] at h
  split at h
  · rename_i fs1 h2
    cases h
    have hfil : Y.filter (·.kind == .real) = Y := by
      rw [List.filter_eq_self]
      intro f hf
      simp [hr f hf]
    unfold PyClasses.serdeFields PyClasses.fields at h2
    rw [hdc, Option.getD_some, hfil] at h2
    rw [serdeFields_names h2, hn]
  · cases h

/-! ## Hypotheses are met -/

namespace C67BasesEx
open C68Ex

/-- `d: int = 4`. -/
def body : Body where
  lines := [{ name := "d", ann := .ty (.prim .int), rhs := some (.val (.int 4)) }]
  nodup := by decide

/-- The type with which `C` declares `a` again. -/
def ty (s : Bool) : Ty := if s then .prim .str else .prim .int

/-- The fields of `A`, `B` and `C` of the diamond. -/
def fa : FieldDef := { name := "a", ty := .prim .int }
def fb : FieldDef := { name := "b", ty := .prim .int, dflt := some (.int 2) }
def fc : FieldDef := { name := "c", ty := .prim .int, dflt := some (.int 3) }

def bases (s : Bool) : List (ClassId × List FieldDef) := [("B", [fa, fb]), ("C", [{ fa with ty := ty s }, fc]), ("A", [fa])]

theorem plain (s : Bool) : ∀ p ∈ bases s, PlainBase (diamond (ty s)) p.1 p.2 := by
  intro p hp
  simp only [bases, List.mem_cons, List.not_mem_nil, or_false] at hp
  cases s <;> rcases hp with rfl | rfl | rfl
  all_goals first
  | exact ⟨_, ⟨rfl, false, { annots := [("b", .ty (.prim .int))], attrs := [("b", .val (.int 2))], bases := ["A"] }, by decide, rfl⟩, rfl,
      fun Y hY => by cases hY; decide⟩
  | exact ⟨_, ⟨rfl, false, { annots := [("a", .ty (ty true)), ("c", .ty (.prim .int))], attrs := [("c", .val (.int 3))], bases := ["A"] }, by decide, rfl⟩,
      rfl, fun Y hY => by cases hY; decide⟩
  | exact ⟨_, ⟨rfl, false, { annots := [("a", .ty (ty false)), ("c", .ty (.prim .int))], attrs := [("c", .val (.int 3))], bases := ["A"] }, by decide, rfl⟩,
      rfl, fun Y hY => by cases hY; decide⟩
  | exact ⟨_, ⟨rfl, false, { annots := [("a", .ty (.prim .int))] }, by decide, rfl⟩, rfl, fun Y hY => by cases hY; decide⟩

theorem onlyFields : body.OnlyFields := by
  intro d hd
  simp only [body, List.mem_cons, List.not_mem_nil, or_false] at hd
  subst hd
  rfl

theorem noOld : body.NoOldDefaults (diamond (ty true)) ((bases true).map Prod.fst) := by
  intro d hd hr
  simp only [body, List.mem_cons, List.not_mem_nil, or_false] at hd
  subst hd
  cases hr

/-- The fields of `class D(B, C): d: int = 4`. -/
def fields : List FieldDef := [{ fa with ty := .prim .str }, fc, fb, { name := "d", ty := .prim .int, dflt := some (.int 4) }]

example : body.Merges (diamond (ty true)) false (bases true) fields :=
  C67_several_partial (c' := (((diamond (ty true)).serde (body.cls ((bases true).map Prod.fst))).map Prod.fst).getD {}) (plain true) onlyFields noOld
    ⟨_, List.mem_cons_self, fun p hp => by
      simp only [bases, List.mem_cons, List.not_mem_nil, or_false] at hp
      rcases hp with rfl | rfl | rfl <;> simp [fa, fb, fc, body]⟩ rfl

example : ∃ c1 c', (diamond (ty true)).dataclass false (body.cls ((bases true).map Prod.fst)) = some c1 ∧ (diamond (ty true)).serde c1 = some (c', fields) ∧
    body.Merges (diamond (ty true)) false (bases true) fields :=
  ⟨_, _, rfl, rfl, C67_several_over_dataclass_partial (st := diamond (ty true)) (b := body) (kw := false) (plain true) onlyFields noOld rfl rfl⟩

/-- `class E(B, C): pass`. -/
def empty : Body := ⟨[], by simp⟩

example : ∃ c' fs, (diamond (ty false)).serde (empty.cls ["B", "C", "A"]) = some (c', fs) ∧ fs.map FieldDef.name = ["a", "b"] :=
  ⟨_, _, rfl, C67_first_only (st := diamond (ty false)) (b := empty) (p := ("B", [fa, fb])) (bs := [("C", [{ fa with ty := ty false }, fc]), ("A", [fa])])
    (plain false _ List.mem_cons_self) rfl rfl⟩

end C67BasesEx

open C67BasesEx C68Ex in
/-- **C67 fails** for `@serde class E(B, C): pass`: `E` lacks the field `c` of its base class `C`, and what the data says for it is ignored. With `@dataclass`
below `@serde` the field is there. -/
theorem C67_false_several : ∃ (st : PyClasses) (b : Body) (bs : List (ClassId × List FieldDef)) (c1 c' c'' : PyCls) (fs gs : List FieldDef),
    (∀ p ∈ bs, PlainBase st p.1 p.2) ∧ st.serde (b.cls (bs.map Prod.fst)) = some (c', fs) ∧ (∃ p ∈ bs, ∃ g ∈ p.2, g.name ∉ fs.map FieldDef.name) ∧
    ¬ b.Merges st false bs fs ∧ st.dataclass false (b.cls (bs.map Prod.fst)) = some c1 ∧ st.serde c1 = some (c'', gs) ∧ "c" ∈ gs.map FieldDef.name ∧
    fromDict (Ex.mk [("E", { name := "E", mro := ["E"], fields := fs })]) {} 9 (.cls "E") (.dict .plain [(.str "a", .int 1), (.str "c", .int 7)]) =
      .ok (.inst "E" [("a", .int 1), ("b", .int 2)]) := by
  refine ⟨diamond (ty false), empty, bases false, _, _, _, _, _, plain false, rfl, ⟨_, List.mem_cons_of_mem _ List.mem_cons_self, fc, by simp, by decide⟩, ?_, rfl, rfl,
    by decide, rfl⟩
  intro h
  have := h.names
  revert this
  decide

end Verif.Props
