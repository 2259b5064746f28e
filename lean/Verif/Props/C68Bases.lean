import Verif.Props.C67
import Verif.Props.C68
import Verif.Lemmas.Globals
/-!
# C68 for classes with bases

Full statement: see C68. Proved here for classes derived from any number of classes, without init variables in the class or in its bases, if the type hint
found for an inherited field is the annotation it was declared with. That is so for a class with one base (`C68_single_partial`), and not always for a class
with several (`C68_false_diamond`). Missing: init variables together with bases.
-/

namespace Verif.Props
open Verif Verif.Spec

section
variable {st : PyClasses} {c : PyCls}

theorem mem_putField_ne {f g : DField} : ∀ {X : List DField}, (X.map DField.name).Nodup → g ∈ putField f X → g = f ∨ (g ∈ X ∧ g.name ≠ f.name)
  | [], _, h => by simpa [putField] using h
  | x :: X, hn, h => by
    simp only [List.map_cons, List.nodup_cons] at hn
    unfold putField at h
    split at h
    · rename_i hx
      rcases List.mem_cons.1 h with h | h
      · exact .inl h
      · refine .inr ⟨List.mem_cons_of_mem _ h, fun e => hn.1 ?_⟩
        rw [show x.name = f.name by simpa using hx, ← e]
        exact List.mem_map_of_mem h
    · rename_i hx
      rcases List.mem_cons.1 h with h | h
      · exact .inr ⟨h ▸ List.mem_cons_self, by rw [h]; simpa using hx⟩
      · rcases mem_putField_ne hn.2 h with h | h
        · exact .inl h
        · exact .inr ⟨List.mem_cons_of_mem _ h.1, h.2⟩

theorem mem_foldl_put {g : DField} : ∀ {own X : List DField}, (X.map DField.name).Nodup → g ∈ own.foldl (fun acc f => putField f acc) X →
    g ∈ own ∨ (g ∈ X ∧ ∀ f ∈ own, f.name ≠ g.name)
  | [], _, _, h => .inr ⟨h, by simp⟩
  | f :: own, X, hn, h => by
    rw [List.foldl_cons] at h
    rcases mem_foldl_put (putField_nodup hn) h with h | ⟨h, h'⟩
    · exact .inl (List.mem_cons_of_mem _ h)
    · rcases mem_putField_ne hn h with h | h
      · exact .inl (h ▸ List.mem_cons_self)
      · refine .inr ⟨h.1, fun e he => ?_⟩
        rcases List.mem_cons.1 he with rfl | he
        · exact fun e => h.2 e.symm
        · exact h' e he

theorem mem_foldl_either {g : DField} {own X : List DField} (h : g ∈ own.foldl (fun acc f => putField f acc) X) : g ∈ own ∨ g ∈ X := by
  induction own generalizing X with
  | nil => exact .inr h
  | cons f own ih =>
    rcases ih h with h | h
    · exact .inl (List.mem_cons_of_mem _ h)
    · rcases mem_putField h with h | h
      · exact .inl (h ▸ List.mem_cons_self)
      · exact .inr h
where
  mem_putField {f g : DField} : ∀ {X : List DField}, g ∈ putField f X → g = f ∨ g ∈ X
    | [], h => by simpa [putField] using h
    | x :: X, h => by
      unfold putField at h
      split at h
      · rcases List.mem_cons.1 h with h | h
        · exact .inl h
        · exact .inr (List.mem_cons_of_mem _ h)
      · rcases List.mem_cons.1 h with h | h
        · exact .inr (h ▸ List.mem_cons_self)
        · rcases mem_putField h with h | h
          · exact .inl h
          · exact .inr (List.mem_cons_of_mem _ h)

/-- Neither the class nor the dataclasses it is derived from have init variables. -/
structure NoInitVars (st : PyClasses) (c : PyCls) : Prop where
  own : ∀ a ∈ c.annots, ∀ t, a.2 ≠ .initVar t
  inherited : ∀ b ∈ c.bases, ∀ k, st.lookup b = some k → ∀ f ∈ (st.dcOf k).getD [], f.kind ≠ .initVar

theorem own_kind {kw : Bool} {f : DField} : ∀ {as : List (String × Annot)}, (∀ a ∈ as, ∀ t, a.2 ≠ .initVar t) → f ∈ st.ownFields c kw as → f.kind ≠ .initVar := by
  intro as
  induction as generalizing kw with
  | nil => exact fun _ h => by simp [PyClasses.ownFields] at h
  | cons a as ih =>
    intro hv h
    have hv' : ∀ a ∈ as, ∀ t, a.2 ≠ .initVar t := fun x hx => hv x (List.mem_cons_of_mem _ hx)
    obtain ⟨nm, an⟩ := a
    cases an with
    | initVar t => exact absurd rfl (hv _ List.mem_cons_self t)
    | kwOnly => exact ih hv' (by simpa [PyClasses.ownFields] using h)
    | ty t =>
      simp only [PyClasses.ownFields, List.mem_cons] at h
      rcases h with rfl | h
      · simp [PyClasses.getField]
      · exact ih hv' h
    | classVar t =>
      simp only [PyClasses.ownFields, List.mem_cons] at h
      rcases h with rfl | h
      · simp [PyClasses.getField]
      · exact ih hv' h

theorem base_kind {f : DField} (hv : NoInitVars st c) (h : f ∈ st.baseFields c) : f.kind ≠ .initVar := by
  unfold PyClasses.baseFields at h
  have : ∀ (l : List ClassId) (X : List DField), (∀ b ∈ l, b ∈ c.bases) → (∀ f ∈ X, f.kind ≠ .initVar) →
      f ∈ l.foldl (fun acc b => match st.lookup b with
        | some k => ((st.dcOf k).getD []).foldl (fun acc f => putField f acc) acc
        | Option.none => acc) X → f.kind ≠ .initVar := by
    intro l
    induction l with
    | nil => exact fun X _ hX h => hX _ h
    | cons b l ih =>
      intro X hl hX h
      rw [List.foldl_cons] at h
      refine ih _ (fun b hb => hl b (List.mem_cons_of_mem _ hb)) ?_ h
      intro g hg
      split at hg
      · rename_i k hk
        rcases mem_foldl_either hg with hg | hg
        · exact hv.inherited b (hl b List.mem_cons_self) k hk g hg
        · exact hX g hg
      · exact hX g hg
  exact this _ _ (fun b hb => by simpa using hb) (by simp) h

/-- The hint `get_type_hints` finds for an inherited field is the annotation the field was declared with. -/
def HintsAgree (st : PyClasses) (c : PyCls) : Prop :=
  ∀ f ∈ st.baseFields c, c.annots.lookup f.name = none → ∀ t, st.hint c f.name = some (.ty t) → f.ty = t

theorem own_ty {kw : Bool} {c' : PyCls} (hc : c'.annots = c.annots) {f : DField} (hf : f ∈ st.ownFields c kw c.annots) (t : Ty)
    (ht : st.hint c' f.name = some (.ty t)) : f.ty = t := by
  obtain ⟨pre, nm, an, post, h1, -, rfl⟩ := ownFields_from st c _ kw f hf
  have hm : (nm, an) ∈ c.annots := by rw [h1]; simp
  cases hl : c.annots.lookup nm with
  | none =>
    rw [List.lookup_eq_none_iff] at hl
    simpa using hl _ hm
  | some a =>
    unfold PyClasses.hint PyClasses.getField at ht
    rw [hc, hl] at ht
    cases ht
    unfold PyClasses.getField
    rw [hl]
    rfl

/-- An annotation that is a type gives a field. -/
theorem own_of_ty {kw : Bool} {nm : String} {t : Ty} (h : c.annots.lookup nm = some (.ty t)) : ∃ f ∈ st.ownFields c kw c.annots, f.name = nm := by
  have hm := lookup_mem h
  obtain ⟨pre, post, e⟩ := List.append_of_mem hm
  have := ownFields_mem st c (nm := nm) (t := t) (post := post) pre kw
  rw [← e] at this
  exact ⟨_, this, rfl⟩

theorem all_ty {kw : Bool} {c' : PyCls} (ha : HintsAgree st c) (hc : c'.annots = c.annots) (hb : c'.bases = c.bases) {f : DField}
    (hf : f ∈ (st.ownFields c kw c.annots).foldl (fun acc f => putField f acc) (st.baseFields c)) (t : Ty) (ht : st.hint c' f.name = some (.ty t)) :
    f.ty = t := by
  rcases mem_foldl_put (baseFields_nodup st c) hf with h | ⟨h, hno⟩
  · exact own_ty hc h t ht
  · have hh : st.hint c f.name = some (.ty t) := by
      rw [← ht]
      unfold PyClasses.hint
      rw [hc, hb]
    refine ha f h ?_ t hh
    cases hl : c.annots.lookup f.name with
    | none => rfl
    | some a =>
      unfold PyClasses.hint at hh
      rw [hl] at hh
      cases hh
      obtain ⟨g, hg, e⟩ := own_of_ty (st := st) (kw := kw) hl
      exact absurd e (hno g hg)

/-- The parameters of a class made by `dataclass`, over any bases. -/
theorem initParams_bases {kw : Bool} {c' : PyCls} {fs : List FieldDef} (hc : c.init = none) (hv : NoInitVars st c) (ha : HintsAgree st c) (h : st.dataclass kw c = some c')
    (hf : st.serdeFields c' = some fs) : InitFits fs (st.initOf c') := by
  have e := dataclass_some h
  have hk : ∀ f ∈ (st.ownFields c kw c.annots).foldl (fun acc f => putField f acc) (st.baseFields c), f.kind ≠ .initVar := by
    intro f hf
    rcases mem_foldl_put (baseFields_nodup st c) hf with hf | ⟨hf, -⟩
    · exact own_kind hv.own hf
    · exact base_kind hv hf
  have hnd := foldl_put_nodup (own := st.ownFields c kw c.annots) (baseFields_nodup st c)
  have hannots : c'.annots = c.annots := by rw [e]
  have hbases : c'.bases = c.bases := by rw [e]
  have hdc : c'.dc = some ((st.ownFields c kw c.annots).foldl (fun acc f => putField f acc) (st.baseFields c)) := by rw [e]
  have hinit : st.initOf c' = initParams ((st.ownFields c kw c.annots).foldl (fun acc f => putField f acc) (st.baseFields c)) := by
    rw [e, hc]
    rfl
  have hty := fun f hf => all_ty (st := st) (c := c) (kw := kw) ha hannots hbases (f := f) hf
  generalize (st.ownFields c kw c.annots).foldl (fun acc f => putField f acc) (st.baseFields c) = l at *
  unfold PyClasses.serdeFields at hf
  rw [fields_self hdc] at hf
  have hreal : ∀ f ∈ l, (f.kind != .classVar) = (f.kind == .real) := by
    intro f hf
    have := hk f hf
    cases hfk : f.kind <;> simp_all
  have hinitMem : ∀ p, p ∈ initParams l ↔ ∃ f ∈ l, f.kind ≠ .classVar ∧ f.init = true ∧ f.param = p := by
    intro p
    unfold initParams
    simp only [List.mem_append, List.mem_filter, List.mem_map, Bool.and_eq_true, bne_iff_ne, ne_eq]
    constructor
    · rintro (⟨⟨f, ⟨h1, h2, h3⟩, h4⟩, -⟩ | ⟨⟨f, ⟨h1, h2, h3⟩, h4⟩, -⟩) <;> exact ⟨f, h1, h2, h3, h4⟩
    · rintro ⟨f, h1, h2, h3, h4⟩
      cases hk : p.kwOnly
      · exact Or.inl ⟨⟨f, ⟨h1, h2, h3⟩, h4⟩, by simp⟩
      · exact Or.inr ⟨⟨f, ⟨h1, h2, h3⟩, h4⟩, rfl⟩
  have hfsl := mapM_some hf
  rw [hinit]
  constructor
  · rw [serdeFields_names hf]
    exact hnd.sublist (List.filter_sublist.map _)
  · unfold initParams
    dsimp only
    have hp := (List.filter_append_perm (fun p : Param => !p.kwOnly) ((l.filter fun f => f.kind != .classVar && f.init).map DField.param)).map Param.name
    simp only [Bool.not_not] at hp
    refine hp.nodup_iff.2 ?_
    rw [List.map_map]
    exact hnd.sublist (List.filter_sublist.map _)
  · refine ⟨[], ?_, .inl rfl⟩
    unfold initParams
    dsimp only
    rw [List.filter_append, List.filter_filter, List.filter_filter]
    have hz : (((l.filter fun f => f.kind != .classVar && f.init).map DField.param).filter fun p => (!p.kwOnly) && p.kwOnly) = [] := by
      rw [List.filter_eq_nil_iff]
      intro p _
      cases p.kwOnly <;> simp
    have hy : (((l.filter fun f => f.kind != .classVar && f.init).map DField.param).filter fun p => (!p.kwOnly) && (!p.kwOnly)) =
        (l.filter fun f => f.kind != .classVar && f.init && !f.kwOnly).map DField.param := by
      rw [List.filter_map, List.filter_filter]
      congr 1
      refine List.filter_congr fun f _ => ?_
      simp only [Function.comp, DField.param, Bool.and_self]
      exact Bool.and_comm _ _
    rw [hz, hy, mapM_param (fun f hf => hty f (List.mem_filter.1 hf).1) hf, List.filter_filter, List.append_nil, List.append_nil]
    congr 1
    refine List.filter_congr fun f hfl => ?_
    rw [hreal f hfl]
    cases f.kind <;> cases f.init <;> cases f.kwOnly <;> rfl
  · intro g hg hgi
    obtain ⟨f, hfm, hfg⟩ := hfsl.2 g hg
    obtain ⟨h5, h6, -⟩ := mapM_param.from_param (hty f (List.mem_filter.1 hfm).1) hfg
    rw [h5]
    have := List.mem_filter.1 hfm
    exact (hinitMem _).2 ⟨f, this.1, by simpa using fun e => absurd this.2 (by simp [e]), by rw [← h6]; exact hgi, rfl⟩
  · intro p hp
    obtain ⟨f, hfl, hkc, hfi, rfl⟩ := (hinitMem p).1 hp
    left
    have hr : (f.kind == .real) = true := by rw [← hreal f hfl]; simpa using hkc
    obtain ⟨g, hg, hfg⟩ := hfsl.1 f (List.mem_filter.2 ⟨hfl, hr⟩)
    obtain ⟨h5, h6, -⟩ := mapM_param.from_param (hty f hfl) hfg
    exact ⟨g, hg, by rw [h6]; exact hfi, by rw [h5]⟩

end

/-- A class derived from any classes, made a dataclass by `@serde`, and no init variables in it or in its bases: the parameters of its `__init__` fit. -/
theorem C68_bases_partial {st : PyClasses} {c c' : PyCls} {fs : List FieldDef} (hc : c.init = none) (hv : NoInitVars st c) (ha : HintsAgree st c) (hs : st.shouldImpl c = true)
    (h : st.serde c = some (c', fs)) : InitFits fs (st.initOf c') := by
  unfold PyClasses.serde at h
  rw [hs] at h
  simp only [↓reduceIte] at h
  split at h
  · cases h
  · rename_i c1 hd
    split at h
    · rename_i fs' hf
      cases h
      exact initParams_bases hc hv ha hd hf
    · cases h

/-- The same over `@dataclass`, also with `kw_only=True`, if `@serde` leaves the class as it is. -/
theorem C68_bases_over_dataclass_partial {st : PyClasses} {c c1 c' : PyCls} {kw : Bool} {fs : List FieldDef} (hc : c.init = none) (hv : NoInitVars st c)
    (ha : HintsAgree st c) (h1 : st.dataclass kw c = some c1) (hs : st.shouldImpl c1 = false) (h : st.serde c1 = some (c', fs)) : InitFits fs (st.initOf c') := by
  unfold PyClasses.serde at h
  rw [hs] at h
  simp only [Bool.false_eq_true, ↓reduceIte] at h
  split at h
  · rename_i fs' hf
    cases h
    exact initParams_bases hc hv ha h1 hf
  · cases h

/-! ## One base -/

/-- Classes without bases, and classes with one base that `dataclass` made of such a class. -/
inductive SingleBases (st : PyClasses) : PyCls → Prop where
  | root {c : PyCls} : c.bases = [] → SingleBases st c
  | sub {c kb kb0 : PyCls} {B : ClassId} {kw : Bool} : c.bases = B :: kb.bases → st.lookup B = some kb → (kb0.annots.map Prod.fst).Nodup →
      st.dataclass kw kb0 = some kb → SingleBases st kb0 → SingleBases st c

theorem SingleBases.hints {st : PyClasses} {c : PyCls} (h : SingleBases st c) : HintsAgree st c := by
  induction h with
  | root hb =>
    intro f hf
    rw [baseFields_nil hb] at hf
    cases hf
  | @sub c kb kb0 B kw hb hk hn hd _ ih =>
    intro f hf hl t ht
    obtain ⟨Y, hY, -, hbase⟩ := Spec.IsDataclass.dcs (b := ⟨[], by simp⟩) (st := st) (B := B) (kb := kb) ⟨hk, kw, kb0, hn, hd⟩
    have e := dataclass_some hd
    have hfY : f ∈ Y := by
      rw [← hbase]
      unfold PyClasses.baseFields at hf ⊢
      rw [hb] at hf
      exact hf
    have hh : st.hint kb f.name = some (.ty t) := by
      rw [← ht]
      unfold PyClasses.hint
      rw [hl, hb]
      simp only [List.findSome?_cons, hk]
      cases kb.annots.lookup f.name <;> rfl
    refine all_ty (kw := kw) ih (c' := kb) (by rw [e]) (by rw [e]) ?_ t hh
    rw [e] at hY
    rw [Option.some.inj hY]
    exact hfY

/-- A class with one base, that with one base, and so on: the parameters of its `__init__` fit, whatever is declared again on the way. -/
theorem C68_single_partial {st : PyClasses} {c c' : PyCls} {fs : List FieldDef} (hb : SingleBases st c) (hc : c.init = none) (hv : NoInitVars st c)
    (hs : st.shouldImpl c = true) (h : st.serde c = some (c', fs)) : InitFits fs (st.initOf c') :=
  C68_bases_partial hc hv hb.hints hs h

/-! ## Hypotheses are met -/

namespace C68Ex

/-- A class decorated with `@serde`, added to those there are. -/
def declare (st : PyClasses) (nm : ClassId) (c : PyCls) : PyClasses := match st.serde c with
  | some (c', _) => (nm, c') :: st
  | none => st

/-- `class A: a: int`; `class B(A): b: int = 2`; `class C(A): c: int = 3`, which declares `a` again. -/
def diamond (again : Ty) : PyClasses :=
  declare (declare (declare [] "A" { annots := [("a", .ty (.prim .int))] }) "B"
    { annots := [("b", .ty (.prim .int))], attrs := [("b", .val (.int 2))], bases := ["A"] }) "C"
    { annots := [("a", .ty again), ("c", .ty (.prim .int))], attrs := [("c", .val (.int 3))], bases := ["A"] }

/-- `class D(B, C): d: int = 4; K: ClassVar[int] = 5`. -/
def classD : PyCls :=
  { annots := [("d", .ty (.prim .int)), ("K", .classVar (.prim .int))], attrs := [("d", .val (.int 4)), ("K", .val (.int 5))], bases := ["B", "C", "A"] }

def fieldsD (again : Ty) : List FieldDef := (((diamond again).serde classD).map Prod.snd).getD []

example : (fieldsD (.prim .str)).map (fun f => (f.name, f.dflt)) = [("a", none), ("c", some (.int 3)), ("b", some (.int 2)), ("d", some (.int 4))] := rfl

/-- The class and its bases have no init variables. -/
theorem classD_noInitVars : NoInitVars (diamond (.prim .int)) classD := by
  constructor
  · intro a h t
    simp only [classD, List.mem_cons, List.not_mem_nil, or_false] at h
    rcases h with rfl | rfl <;> simp
  · intro b hb k hk
    simp only [classD, List.mem_cons, List.not_mem_nil, or_false] at hb
    rcases hb with rfl | rfl | rfl <;> (cases hk; decide)

theorem classD_agrees {as : List (String × Annot)} {at' : List (String × ClsAttr)} : HintsAgree (diamond (.prim .int)) { classD with annots := as, attrs := at' } := by
  intro f hf hl t ht
  unfold PyClasses.hint at ht
  rw [hl] at ht
  change f ∈ [_, _, _] at hf
  simp only [List.mem_cons, List.not_mem_nil, or_false] at hf
  rcases hf with rfl | rfl | rfl <;> (cases ht; rfl)

example : ∃ c', (diamond (.prim .int)).serde classD = some (c', fieldsD (.prim .int)) ∧ InitFits (fieldsD (.prim .int)) ((diamond (.prim .int)).initOf c') :=
  ⟨_, rfl, C68_bases_partial (st := diamond (.prim .int)) (c := classD) rfl classD_noInitVars classD_agrees rfl rfl⟩

example : ∃ c1 c' fs, (diamond (.prim .int)).dataclass true { classD with annots := [("d", .ty (.prim .int))], attrs := [("d", .val (.int 4))] } = some c1 ∧
    (diamond (.prim .int)).serde c1 = some (c', fs) ∧ InitFits fs ((diamond (.prim .int)).initOf c') :=
  ⟨_, _, _, rfl, rfl, C68_bases_over_dataclass_partial (st := diamond (.prim .int))
    (c := { classD with annots := [("d", .ty (.prim .int))], attrs := [("d", .val (.int 4))] }) (kw := true) rfl
    ⟨fun a h t => by simp at h; subst h; simp, classD_noInitVars.inherited⟩ classD_agrees rfl rfl rfl⟩

/-- `class E(C): e: int = 5`, where `C` declares `a: str` that is `a: int` in `A`. -/
def classE : PyCls := { annots := [("e", .ty (.prim .int))], attrs := [("e", .val (.int 5))], bases := ["C", "A"] }

theorem classE_single : SingleBases (diamond (.prim .str)) classE :=
  .sub (kb0 := { annots := [("a", .ty (.prim .str)), ("c", .ty (.prim .int))], attrs := [("c", .val (.int 3))], bases := ["A"] }) (kw := false) rfl rfl
    (by decide) rfl (.sub (kb0 := { annots := [("a", .ty (.prim .int))] }) (kw := false) rfl rfl (by decide) rfl (.root rfl))

example : ∃ c' fs, (diamond (.prim .str)).serde classE = some (c', fs) ∧ InitFits fs ((diamond (.prim .str)).initOf c') :=
  ⟨_, _, rfl, C68_single_partial (st := diamond (.prim .str)) (c := classE) classE_single rfl
    ⟨fun a h t => by simp [classE] at h; subst h; simp, fun b hb k hk => by
      simp only [classE, List.mem_cons, List.not_mem_nil, or_false] at hb
      rcases hb with rfl | rfl <;> (cases hk; decide)⟩ rfl rfl⟩

/-- The environment with the class `D`. -/
def envD : Env := Ex.mk [("D", { name := "D", mro := ["D"], fields := fieldsD (.prim .str) })]

end C68Ex

open C68Ex in
/-- **C68 fails** for `class D(B, C)` over `class A: a: int`, `class B(A)` and `class C(A): a: str`: the field `a` of `D` is read as `str`, the hint of `C`,
but the constructor of `D` takes the `int` that `A` declares. The value is read, and the constructor refuses it. -/
theorem C68_false_diamond : ∃ (st : PyClasses) (c c' : PyCls) (fs : List FieldDef) (env : Env), st.serde c = some (c', fs) ∧
    (∃ cd, env.cls "D" = some cd ∧ cd.fields = fs ∧ cd.typeCheck = .strict) ∧ (∃ f ∈ fs, f.name = "a" ∧ f.ty = .prim .str) ∧
    ∃ e, fromDictI env (fun _ => st.initOf c') {} 9 (.cls "D") (.dict .plain [(.str "a", .str "s")]) = .error e :=
  ⟨diamond (.prim .str), classD, _, _, envD, rfl, ⟨_, rfl, rfl, rfl⟩, ⟨_, List.mem_cons_self, rfl, rfl⟩, _, rfl⟩

end Verif.Props
