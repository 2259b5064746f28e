import Verif.Lemmas.Init
import Verif.Props.C66
/-!
# C68: every value that is read goes to the parameter of its own field
-/

namespace Verif.Props
open Spec

/-! ## One call -/

/-- The arguments of the generated `from_dict` call, bound by Python's rules to parameters that fit the fields: each value goes to the parameter of its
field, every other parameter gets its default. -/
theorem C68_bound_partial {cd : ClassDef} {ps : List Param} {vs pos kw} {bound : List (String × Val)} (hp : InitFits cd.fields ps)
    (hl : vs.length = (cd.fields.filter (·.renderable)).length)
    (h : splitArgs ((forceKw false cd.fields).filter (fun p => p.1.renderable)) vs = .ok (pos, kw)) (hb : bindParams ps pos kw = .ok bound) :
    BoundRight (cd.fields.filter (·.renderable)) vs ps bound := by
  obtain ⟨hc, he⟩ := splitArgs_good hp.fieldNames h hl
  obtain ⟨xs, hx, hxs⟩ := hp.positional
  have hle := (splitArgs_bound h hl).2
  have hpn : posNames ps = cd.posParams.map FieldDef.name ++ xs.map Param.name := by
    unfold posNames
    rw [hx, List.map_append, List.map_map]
    rfl
  have hzip : (posNames ps).zip pos = (cd.posParams.map FieldDef.name).zip pos := by
    rw [hpn]
    exact zip_append_le _ (by rw [List.length_map]; exact hle)
  unfold bindParams at hb
  split at hb
  · cases hb
  split at hb
  · cases hb
  rw [hzip, he] at hb
  have hnd : (cd.deFields.map FieldDef.name).Nodup := hp.fieldNames.sublist (List.filter_sublist.map _)
  constructor
  · intro f v hfv
    have hf := List.mem_filter.1 (List.of_mem_zip hfv).1
    have h1 := fill_lookup hp.paramNames hb (hp.own f hf.1 (renderable_init hf.2))
    have h2 : ((cd.deFields.map FieldDef.name).zip vs).lookup f.name = some v := by
      refine lookup_zip_mem hnd ?_
      rw [List.zip_map_left]
      exact List.mem_map.2 ⟨(f, v), hfv, rfl⟩
    rw [show f.name = (paramOf f).name from rfl, h1]
    simp only [paramOf] at h2 ⊢
    rw [h2]
    rfl
  · intro p hpm hno
    rw [fill_lookup hp.paramNames hb hpm]
    have : ((cd.deFields.map FieldDef.name).zip vs).lookup p.name = none := by
      rw [List.lookup_eq_none_iff]
      rintro ⟨k, w⟩ hm
      have := (List.of_mem_zip hm).1
      simp only [bne_iff_ne, ne_eq]
      rintro rfl
      exact hno this
    rw [this]
    rfl

/-! ## Whole documents -/

/-- Every class has parameters that fit its fields. -/
def AllFit (env : Env) (I : ClassId → List Param) : Prop := ∀ c cd, env.cls c = some cd → InitFits cd.fields (I c)

theorem deIAt_eq {env : Env} {I : ClassId → List Param} (h : AllFit env I) : ∀ n, deIAt env I n = deAt env n
  | 0 => rfl
  | n + 1 => by
    have ih := deIAt_eq h n
    have hcls : deClsI env I (deAt env n) = deClsF env (deAt env n) := by
      funext named c o d
      unfold deClsI deClsF
      cases hc : env.cls c with
      | none => rfl
      | some cd =>
        dsimp only
        cases ha : deArgs env (deAt env n) named c cd o d with
        | error e => rfl
        | ok pk => exact constructI_eq (h c cd hc) (deArgs_good (h c cd hc).fieldNames ha)
    simp only [deIAt, deAt, ih, hcls]

/-- With parameters that fit, `from_dict` does what it does when the parameters are exactly the fields: everything proved about `fromDict` holds. -/
theorem C68_from_dict_partial {env : Env} {I : ClassId → List Param} (h : AllFit env I) (o : DeOpts) (n : Nat) (t : Ty) (d : Val) :
    fromDictI env I o n t d = fromDict env o n t d := by
  unfold fromDictI fromDict
  rw [deIAt_eq h]

/-- The same for `from_tuple`. -/
theorem C68_from_tuple_partial {env : Env} {I : ClassId → List Param} (h : AllFit env I) (o : DeOpts) (n : Nat) (t : Ty) (d : Val) :
    fromTupleI env I o n t d = fromTuple env o n t d := by
  unfold fromTupleI fromTuple
  rw [deIAt_eq h]

/-! ## Class bodies -/

/-- The line declares an init variable. -/
def isInitVar (d : Decl) : Bool := match d.ann with
  | .initVar _ => true
  | _ => false

/-- The init variables of a body do not get in the way: they have defaults, and no field that is passed by position stands after one that is; and if one is
passed by position there are no keyword-only fields to read. -/
structure InitVarsLast (b : Body) (kw : Bool) (fs : List FieldDef) : Prop where
  defaults : ∀ d ∈ b.lines, isInitVar d = true → d.obj.init = true → d.hasDefault = true
  last : ∀ pre d mid e post, b.lines = pre ++ d :: mid ++ e :: post → isInitVar d = true → d.positional (kw || pre.any Decl.isMarker) = true →
    e.ty?.isSome = true → e.positional (kw || (pre ++ d :: mid).any Decl.isMarker) = false
  mixed : (∀ pre d post, b.lines = pre ++ d :: post → isInitVar d = true → d.positional (kw || pre.any Decl.isMarker) = false) ∨
    ∀ f ∈ fs, f.renderable = true → f.kwOnly = false

section
variable {st : PyClasses} {b : Body}

theorem filter_parts {α : Type} {p q : α → Bool} : ∀ {l : List α}, l.Pairwise (fun x y => p x = true → q x = false → p y = true → q y = false) →
    l.filter p = l.filter (fun x => p x && q x) ++ l.filter (fun x => p x && !q x)
  | [], _ => rfl
  | x :: l, h => by
    obtain ⟨h1, h2⟩ := List.pairwise_cons.1 h
    have ih := filter_parts h2
    cases hp : p x with
    | false => simpa [List.filter_cons, hp] using ih
    | true =>
      cases hq : q x with
      | true => simpa [List.filter_cons, hp, hq] using ih
      | false =>
        have : l.filter (fun x => p x && q x) = [] := by
          rw [List.filter_eq_nil_iff]
          intro y hy
          cases hpy : p y with
          | false => simp
          | true => simp [h1 y hy hp hq hpy]
        rw [this] at ih
        simp only [List.filter_cons, hp, hq, Bool.and_false, Bool.true_and, Bool.not_false, ↓reduceIte, this, ih, List.nil_append, Bool.false_eq_true]

/-- The field made of a line. -/
def lineField (kw : Bool) (d : Decl) : DField where
  name := d.name
  kind := if d.isClassVar then .classVar else if isInitVar d then .initVar else .real
  dflt := d.obj.dflt
  factory := d.obj.factory
  init := d.obj.init
  kwOnly := d.obj.kwOnly.getD kw
  md := d.obj.md
  ty := Annot.paramTy (some d.ann)

theorem map_split {ls : List Decl} {pre post : List (String × Annot)} {nm : String} {an : Annot}
    (h : ls.map (fun d => (d.name, d.ann)) = pre ++ (nm, an) :: post) :
    ∃ p d q, ls = p ++ d :: q ∧ pre = p.map (fun d => (d.name, d.ann)) ∧ nm = d.name ∧ an = d.ann := by
  obtain ⟨p, r, h1, h2, h3⟩ := List.map_eq_append_iff.1 h
  obtain ⟨d, q, h4, h5, h6⟩ := List.map_eq_cons_iff.1 h3
  cases h5
  exact ⟨p, d, q, by rw [h1, h4], h2.symm, rfl, rfl⟩

/-- The fields made from a part of the body. -/
theorem own_from {kw : Bool} {P S : List Decl} (hb : b.lines = P ++ S) {f : DField}
    (hf : f ∈ st.ownFields (b.cls []) (kw || P.any Decl.isMarker) (S.map fun d => (d.name, d.ann))) :
    ∃ p d q, S = p ++ d :: q ∧ d.isMarker = false ∧ f = lineField (kw || (P ++ p).any Decl.isMarker) d := by
  obtain ⟨pre, nm, an, post, h1, h2, h3⟩ := ownFields_from _ _ _ _ _ hf
  obtain ⟨p, d, q, h4, rfl, rfl, rfl⟩ := map_split h1
  have hm : d.isMarker = false := by cases ha : d.ann <;> simp [Annot.isMarker, Decl.isMarker, ha] at h2 ⊢
  refine ⟨p, d, q, h4, hm, ?_⟩
  rw [h3, getField_own (by rw [hb, h4]; simp) (Or.inl rfl), any_marker, List.any_append, Bool.or_assoc]
  unfold lineField
  congr 1
  cases ha : d.ann <;> simp [Decl.isMarker, Decl.isClassVar, isInitVar, ha] at hm ⊢

theorem own_pairwise {kw : Bool} {fs : List FieldDef} (hi : InitVarsLast b kw fs) : ∀ {S P : List Decl}, b.lines = P ++ S →
    (st.ownFields (b.cls []) (kw || P.any Decl.isMarker) (S.map fun d => (d.name, d.ann))).Pairwise fun x y =>
      (x.kind != .classVar && x.init && !x.kwOnly) = true → (x.kind == .real) = false →
      (y.kind != .classVar && y.init && !y.kwOnly) = true → (y.kind == .real) = false
  | [], _, _ => List.Pairwise.nil
  | d :: S, P, hb => by
    have hb' : b.lines = (P ++ [d]) ++ S := by rw [hb]; simp
    have ih := own_pairwise hi hb'
    have step : ∀ k, d.isMarker = false → k = (if d.isClassVar then FKind.classVar else if isInitVar d then .initVar else .real) →
        (st.getField (b.cls []) (kw || P.any Decl.isMarker) d.name k ::
          st.ownFields (b.cls []) (kw || P.any Decl.isMarker) (S.map fun d => (d.name, d.ann))).Pairwise fun x y =>
      (x.kind != .classVar && x.init && !x.kwOnly) = true → (x.kind == .real) = false →
      (y.kind != .classVar && y.init && !y.kwOnly) = true → (y.kind == .real) = false := by
      intro k hm hk
      have hsame : (kw || (P ++ [d]).any Decl.isMarker) = (kw || P.any Decl.isMarker) := by simp [hm]
      rw [hsame] at ih
      refine List.pairwise_cons.2 ⟨fun y hy h1 h2 h3 => ?_, ih⟩
      rw [← hsame] at hy
      obtain ⟨p, e, q, h4, h5, rfl⟩ := own_from hb' hy
      rw [getField_own (by rw [hb]; simp) (Or.inl rfl)] at h1 h2
      subst hk
      unfold lineField at h3 ⊢
      dsimp only at h1 h2 h3 ⊢
      have hdv : isInitVar d = true ∧ d.isClassVar = false := by
        revert h1 h2
        cases d.isClassVar <;> cases isInitVar d <;> simp
      have hpos : d.positional (kw || P.any Decl.isMarker) = true := by
        rw [positional_eq, hdv.2, hm]
        simp only [hdv.1, hdv.2, Bool.false_eq_true, ↓reduceIte] at h1
        simpa [-Bool.not_eq_eq_eq_not] using h1
      cases he : e.ty? with
      | none =>
        cases ha : e.ann <;> simp [Decl.ty?, Decl.isMarker, Decl.isClassVar, isInitVar, ha] at he h5 ⊢
      | some t =>
        exfalso
        have := hi.last P d p e q (by rw [hb, h4]; simp) hdv.1 hpos (by rw [he]; rfl)
        rw [positional_eq] at this
        have ha := ty_ann he
        have hc : e.isClassVar = false := by simp [Decl.isClassVar, ha]
        have hv : isInitVar e = false := by simp [isInitVar, ha]
        rw [hc, h5] at this
        simp only [hc, hv, Bool.false_eq_true, ↓reduceIte] at h3
        have e2 : (P ++ d :: p) = P ++ [d] ++ p := by simp
        rw [e2] at this
        revert this h3
        cases e.obj.init <;> cases e.obj.kwOnly.getD (kw || (P ++ [d] ++ p).any Decl.isMarker) <;> simp
    cases ha : d.ann with
    | ty t =>
      have := step .real (by simp [Decl.isMarker, ha]) (by simp [Decl.isClassVar, isInitVar, ha])
      simpa [PyClasses.ownFields, ha] using this
    | classVar t =>
      have := step .classVar (by simp [Decl.isMarker, ha]) (by simp [Decl.isClassVar, ha])
      simpa [PyClasses.ownFields, ha] using this
    | initVar t =>
      have := step .initVar (by simp [Decl.isMarker, ha]) (by simp [Decl.isClassVar, isInitVar, ha])
      simpa [PyClasses.ownFields, ha] using this
    | kwOnly =>
      have hm : d.isMarker = true := by simp [Decl.isMarker, ha]
      have : (kw || (P ++ [d]).any Decl.isMarker) = true := by simp [hm]
      rw [this] at ih
      simpa [PyClasses.ownFields, ha] using ih

theorem mapM_param {c : PyCls} : ∀ {l : List DField} {fs : List FieldDef}, (∀ f ∈ l, ∀ t, st.hint c f.name = some (.ty t) → f.ty = t) →
    l.mapM (st.fromDataclass c) = some fs →
    (fs.filter fun f => f.init && !f.kwOnly).map paramOf = (l.filter fun f => f.init && !f.kwOnly).map DField.param
  | [], fs, _, h => by
    simp at h
    subst h
    rfl
  | x :: l, fs, ht, h => by
    have ht' : ∀ f ∈ l, ∀ t, st.hint c f.name = some (.ty t) → f.ty = t := fun f hf => ht f (List.mem_cons_of_mem _ hf)
    rw [List.mapM_cons] at h
    cases hx : st.fromDataclass c x with
    | none => simp [hx] at h
    | some y =>
      cases hl : l.mapM (st.fromDataclass c) with
      | none => simp [hx, hl] at h
      | some ys =>
        simp [hx, hl] at h
        subst h
        obtain ⟨h1, h2, h3⟩ := from_param (ht x List.mem_cons_self) hx
        rw [List.filter_cons, List.filter_cons, h2, h3]
        split
        · simp [h1, mapM_param ht' hl]
        · exact mapM_param ht' hl
where
  from_param {c : PyCls} {x : DField} {y : FieldDef} (hty : ∀ t, st.hint c x.name = some (.ty t) → x.ty = t) (h : st.fromDataclass c x = some y) :
      paramOf y = x.param ∧ y.init = x.init ∧ y.kwOnly = x.kwOnly := by
    unfold PyClasses.fromDataclass at h
    split at h
    · rename_i t ht
      dsimp only at h
      split at h
      · cases h
      split at h
      · cases h
      · cases h
        refine ⟨?_, rfl, rfl⟩
        unfold paramOf DField.param
        rw [hty t ht]
    · cases h

/-- The parameters of a class that `@serde` made a dataclass. -/
theorem initParams_fit {kw : Bool} {c' : PyCls} {fs : List FieldDef} (h : st.dataclass kw (b.cls []) = some c') (hf : st.serdeFields c' = some fs)
    (hi : InitVarsLast b kw fs) : InitFits fs (st.initOf c') := by
  obtain ⟨h1, -, h3, h4⟩ := dataclass_body h
  have hinit : st.initOf c' = initParams (st.ownFields (b.cls []) kw (b.cls []).annots) := by
    have e := dataclass_some h
    rw [baseFields_nil rfl, foldl_putField_nil (ownFields_nodup st (b.cls []) kw body_nodup)] at e
    rw [e]
    rfl
  unfold PyClasses.serdeFields at hf
  rw [fields_self h4] at hf
  have hown : ∀ f ∈ st.ownFields (b.cls []) kw (b.cls []).annots, ∃ p d q, b.lines = p ++ d :: q ∧ d.isMarker = false ∧
      f = lineField (kw || p.any Decl.isMarker) d := by
    intro f hf
    have hk : (kw || ([] : List Decl).any Decl.isMarker) = kw := by simp
    rw [← hk] at hf
    exact own_from (P := []) (S := b.lines) rfl hf
  have hty : ∀ f ∈ st.ownFields (b.cls []) kw (b.cls []).annots, ∀ t, st.hint c' f.name = some (.ty t) → f.ty = t := by
    intro f hf t ht
    obtain ⟨p, d, q, h5, -, rfl⟩ := hown f hf
    have he : st.hint c' d.name = some d.ann := hint_own h1 (by rw [h5]; simp)
    have : d.ann = .ty t := Option.some.inj (he.symm.trans ht)
    unfold lineField
    rw [this]
    rfl
  have hpw := own_pairwise (st := st) hi (S := b.lines) (P := []) rfl
  simp only [List.any_nil, Bool.or_false] at hpw
  have hnd := ownFields_nodup st (b.cls []) kw (as := (b.cls []).annots) body_nodup
  rw [show (b.lines.map fun d => (d.name, d.ann)) = (b.cls []).annots from rfl] at hpw
  generalize st.ownFields (b.cls []) kw (b.cls []).annots = l at *
  have hname : ∀ f : DField, f.param.name = f.name := fun _ => rfl
  have hinitMem : ∀ p, p ∈ initParams l ↔ ∃ f ∈ l, f.kind ≠ .classVar ∧ f.init = true ∧ f.param = p := by
    intro p
    unfold initParams
    simp only [List.mem_append, List.mem_filter, List.mem_map, Bool.and_eq_true, bne_iff_ne, ne_eq]
    constructor
    · rintro (⟨⟨f, ⟨h1, h2, h3⟩, h4⟩, -⟩ | ⟨⟨f, ⟨h1, h2, h3⟩, h4⟩, -⟩) <;> exact ⟨f, h1, h2, h3, h4⟩
    · rintro ⟨f, h1, h2, h3, h4⟩
      cases hk : p.kwOnly
      · exact Or.inl ⟨⟨f, ⟨h1, h2, h3⟩, h4⟩, by simp⟩
      · exact Or.inr ⟨⟨f, ⟨h1, h2, h3⟩, h4⟩, rfl⟩
  have hfsl := mapM_some hf
  rw [hinit]
  constructor
  · rw [serdeFields_names hf]
    exact hnd.sublist (List.filter_sublist.map _)
  · unfold initParams
    dsimp only
    have hp := (List.filter_append_perm (fun p : Param => !p.kwOnly) ((l.filter fun f => f.kind != .classVar && f.init).map DField.param)).map Param.name
    simp only [Bool.not_not] at hp
    refine hp.nodup_iff.2 ?_
    rw [List.map_map]
    exact hnd.sublist (List.filter_sublist.map _)
  · refine ⟨((l.filter fun f => (f.kind != .classVar && f.init && !f.kwOnly) && !(f.kind == .real)).map DField.param), ?_, ?_⟩
    · unfold initParams
      dsimp only
      rw [List.filter_append, List.filter_filter, List.filter_filter]
      have hz : (((l.filter fun f => f.kind != .classVar && f.init).map DField.param).filter fun p => (!p.kwOnly) && p.kwOnly) = [] := by
        rw [List.filter_eq_nil_iff]
        intro p _
        cases p.kwOnly <;> simp
      have hy : (((l.filter fun f => f.kind != .classVar && f.init).map DField.param).filter fun p => (!p.kwOnly) && (!p.kwOnly)) =
          (l.filter fun f => f.kind != .classVar && f.init && !f.kwOnly).map DField.param := by
        rw [List.filter_map, List.filter_filter]
        congr 1
        refine List.filter_congr fun f _ => ?_
        simp only [Function.comp, DField.param, Bool.and_self]
        exact Bool.and_comm _ _
      rw [hz, hy, List.append_nil, filter_parts hpw, List.map_append, mapM_param (fun f hf => hty f (List.mem_filter.1 hf).1) hf, List.filter_filter]
      congr 2
      refine List.filter_congr fun f _ => ?_
      cases f.kind <;> cases f.init <;> cases f.kwOnly <;> rfl
    · rcases hi.mixed with hm | hm
      · left
        rw [List.map_eq_nil_iff, List.filter_eq_nil_iff]
        intro f hfl hb'
        obtain ⟨p, d, q, h5, h6, rfl⟩ := hown f hfl
        unfold lineField at hb'
        dsimp only at hb'
        have := hm p d q h5
        rw [positional_eq, h6] at this
        revert hb' this
        cases d.isClassVar <;> cases isInitVar d <;> simp
      · exact Or.inr hm
  · intro g hg hgi
    obtain ⟨f, hfm, hfg⟩ := hfsl.2 g hg
    obtain ⟨h5, h6, -⟩ := mapM_param.from_param (hty f (List.mem_filter.1 hfm).1) hfg
    rw [h5]
    have := List.mem_filter.1 hfm
    exact (hinitMem _).2 ⟨f, this.1, by simpa using fun e => absurd this.2 (by simp [e]), by rw [← h6]; exact hgi, rfl⟩
  · intro p hp
    obtain ⟨f, hfl, hk, hfi, rfl⟩ := (hinitMem p).1 hp
    by_cases hr : f.kind = .real
    · left
      obtain ⟨g, hg, hfg⟩ := hfsl.1 f (List.mem_filter.2 ⟨hfl, by simp [hr]⟩)
      obtain ⟨h5, h6, -⟩ := mapM_param.from_param (hty f hfl) hfg
      exact ⟨g, hg, by rw [h6]; exact hfi, by rw [h5]⟩
    · right
      constructor
      · obtain ⟨p, d, q, h5, h6, rfl⟩ := hown f hfl
        have hdv : isInitVar d = true := by
          revert hr hk
          unfold lineField
          dsimp only
          cases d.isClassVar <;> cases isInitVar d <;> simp
        have := hi.defaults d (by rw [h5]; simp) hdv hfi
        unfold Decl.hasDefault at this
        unfold DField.param lineField
        dsimp only
        revert this
        cases d.obj.dflt <;> cases d.obj.factory <;> simp
      · rw [serdeFields_names hf, hname]
        intro hmem
        obtain ⟨g, hg, e⟩ := List.mem_map.1 hmem
        have hg' := List.mem_filter.1 hg
        have := find_param.nodup_map_eq hnd hg'.1 hfl e
        subst this
        exact hr (by simpa using hg'.2)

end

/-- A class made by `@serde` alone, its init variables with defaults and behind the fields: the parameters of its `__init__` fit. -/
theorem C68_body_partial {st : PyClasses} {b : Body} {c' : PyCls} {fs : List FieldDef} (h : st.serde (b.cls []) = some (c', fs))
    (hi : InitVarsLast b false fs) : InitFits fs (st.initOf c') := by
  unfold PyClasses.serde at h
  have hs : st.shouldImpl (b.cls []) = true := rfl
  rw [hs] at h
  simp only [↓reduceIte] at h
  split at h
  · cases h
  · rename_i c1 hd
    split at h
    · rename_i fs' hf
      cases h
      exact initParams_fit hd hf hi
    · cases h

/-- The same over `@dataclass` (also with `kw_only=True`), if there are no class variables and markers. -/
theorem C68_over_dataclass_partial {st : PyClasses} {b : Body} {kw : Bool} {c1 c' : PyCls} {fs : List FieldDef}
    (hb : ∀ d ∈ b.lines, d.isClassVar = false ∧ d.isMarker = false) (h1 : st.dataclass kw (b.cls []) = some c1)
    (h : st.serde c1 = some (c', fs)) (hi : InitVarsLast b kw fs) : InitFits fs (st.initOf c') := by
  unfold PyClasses.serde at h
  rw [shouldImpl_false hb h1] at h
  simp only [Bool.false_eq_true, ↓reduceIte] at h
  split at h
  · rename_i fs' hf
    cases h
    exact initParams_fit h1 hf hi
  · cases h

/-! ## Init variables without default -/

/-- A class that adds nothing to its base: no annotations, nothing made by a decorator; its other bases are those of the base. -/
structure AddsNothing (st : PyClasses) (c : PyCls) (b : ClassId) (kb : PyCls) : Prop where
  annots : c.annots = []
  dc : c.dc = none
  init : c.init = none
  bases : c.bases = b :: kb.bases
  base : st.lookup b = some kb

/-- `@serde class Sub(Base): pass`: the class has the fields of its base, and `Sub(...)` calls the constructor of its base - not that of a class
further up -, whose parameters fit them as before. -/
theorem C68_inherited_partial {st : PyClasses} {c kb : PyCls} {b : ClassId} {dcs : List DField} {ps : List Param} {fs : List FieldDef} (h : AddsNothing st c b kb)
    (hd : kb.dc = some dcs) (hi : kb.init = some ps) (hs : st.serde kb = some (kb, fs)) (hf : InitFits fs ps) :
    st.serde c = some (c, fs) ∧ InitFits fs (st.initOf c) := by
  have hdc : st.dcOf c = some dcs := by
    unfold PyClasses.dcOf
    rw [h.dc, h.bases]
    simp [h.base, hd]
  have hdb : st.dcOf kb = some dcs := by
    unfold PyClasses.dcOf
    rw [hd]
  have hhint : ∀ nm, st.hint c nm = st.hint kb nm := by
    intro nm
    unfold PyClasses.hint
    rw [h.annots, h.bases]
    simp only [List.lookup_nil, List.findSome?_cons, h.base]
    cases kb.annots.lookup nm <;> rfl
  have hfields : st.serdeFields c = st.serdeFields kb := by
    unfold PyClasses.serdeFields PyClasses.fields
    rw [hdc, hdb]
    congr 1
    funext f
    unfold PyClasses.fromDataclass
    rw [hhint]
  have hinit : st.initOf c = ps := by
    unfold PyClasses.initOf
    rw [h.init, h.bases]
    simp [h.base, hi]
  have hsf : st.serdeFields kb = some fs := by
    unfold PyClasses.serde at hs
    split at hs
    · cases hs
    · split at hs
      · rename_i h2; cases hs; exact h2
      · cases hs
  have himpl : st.shouldImpl c = false := by
    unfold PyClasses.shouldImpl
    rw [hdc, h.annots]
    rfl
  refine ⟨?_, by rw [hinit]; exact hf⟩
  unfold PyClasses.serde
  rw [himpl]
  simp only [Bool.false_eq_true, if_false, hfields, hsf]

/-- A class with a parameter without default that is no field, behind the fields or keyword-only, is never read: `from_dict` has no value for it. -/
theorem C68_required {env : Env} {I : ClassId → List Param} {c : ClassId} {cd : ClassDef} (hc : env.cls c = some cd) (ht : cd.transparent = false)
    (hn : (cd.fields.map FieldDef.name).Nodup) {xs : List Param} {p : Param}
    (hpos : ((I c).filter fun p => !p.kwOnly) = (cd.fields.filter fun f => f.init && !f.kwOnly).map paramOf ++ xs)
    (hp : p ∈ I c) (hd : p.dflt = none) (hf : p.name ∉ cd.fields.map FieldDef.name) (n : Nat) (o : DeCall) (d v : Val) :
    (deIAt env I n).cls true c o d ≠ .ok v := by
  cases n with
  | zero => intro h; cases h
  | succ n =>
    intro h
    have h : deClsI env I (deIAt env I n) true c o d = .ok v := h
    unfold deClsI at h
    rw [hc] at h
    dsimp only at h
    split at h
    · cases h
    · rename_i pos kw ha
      unfold deArgs at ha
      simp only [ht, Bool.false_eq_true, ↓reduceIte] at ha
      split at ha
      · cases ha
      · cases ha
      · unfold deNamedArgs at ha
        split at ha
        · cases ha
        · split at ha
          · cases ha
          · rename_i vs hvs
            have hl := mapR_ok_length hvs
            have hsb := splitArgs_bound ha hl
            have hzip : (posNames (I c)).zip pos = (cd.posParams.map FieldDef.name).zip pos := by
              unfold posNames
              rw [hpos, List.map_append, List.map_map]
              exact zip_append_le _ (by rw [List.length_map]; exact hsb.2)
            unfold constructI at h
            split at h
            · cases h
            · have herr : ∃ e, bindParams (I c) pos kw = .error e := by
                unfold bindParams
                split
                · exact ⟨_, rfl⟩
                split
                · exact ⟨_, rfl⟩
                rw [hzip, (splitArgs_good hn ha hl).2]
                cases hb : fillParams ((cd.deFields.map FieldDef.name).zip vs) (I c) with
                | error e => exact ⟨e, rfl⟩
                | ok bound =>
                  exfalso
                  obtain ⟨w, hw, -⟩ := (fill_ok hb).2 p hp
                  have : ((cd.deFields.map FieldDef.name).zip vs).lookup p.name = none := by
                    rw [List.lookup_eq_none_iff]
                    rintro ⟨k, w⟩ hm
                    have := (List.of_mem_zip hm).1
                    simp only [bne_iff_ne, ne_eq]
                    rintro rfl
                    obtain ⟨f, hff, e⟩ := List.mem_map.1 this
                    exact hf (List.mem_map.2 ⟨f, (List.mem_filter.1 hff).1, e⟩)
                  rw [this, hd] at hw
                  cases hw
              obtain ⟨e, he⟩ := herr
              rw [he] at h
              cases h

/-! ## Examples -/

namespace C68Ex

/-- `a: int`, then `c: InitVar[int] = 5` before or after `b: int = 3`. -/
def body (last : Bool) : Body where
  lines := { name := "a", ann := .ty (.prim .int) } ::
    if last then [{ name := "b", ann := .ty (.prim .int), rhs := some (.val (.int 3)) }, { name := "c", ann := .initVar (.prim .int), rhs := some (.val (.int 5)) }]
    else [{ name := "c", ann := .initVar (.prim .int), rhs := some (.val (.int 5)) }, { name := "b", ann := .ty (.prim .int), rhs := some (.val (.int 3)) }]
  nodup := by cases last <;> decide

theorem legal (last : Bool) : (body last).Legal false := by
  have hd : ∀ d ∈ (body last).lines, d.name ≠ "a" → d.hasDefault = true := by cases last <;> simp [body, Decl.hasDefault, Decl.obj]
  have hm : ∀ d ∈ (body last).lines, d.isMarker = false ∧ d.isClassVar = false ∧ d.obj.factory = none ∧ d.obj.md.flatten = false ∧ d.obj.md.skipDe = none := by
    cases last <;> simp [body, Decl.isMarker, Decl.isClassVar, Decl.obj]
  constructor
  · have : (body last).lines.filter Decl.isMarker = [] := by
      rw [List.filter_eq_nil_iff]
      intro d h
      simp [(hm d h).1]
    rw [this]
    simp
  · exact fun d h _ => (hm d h).2.2.1
  · exact fun d h e => by rw [(hm d h).2.1] at e; cases e
  · intro pre d mid e post h _ _ _
    refine hd e (by rw [h]; simp) fun he => ?_
    have hnd := (body last).nodup
    rw [h] at hnd
    have hh : (body last).lines.head? = some { name := "a", ann := .ty (.prim .int) } := rfl
    rw [h] at hh
    have hin : "a" ∈ (pre ++ d :: mid).map Decl.name := by
      cases pre with
      | nil =>
        simp only [List.nil_append, List.cons_append, List.head?_cons, Option.some.injEq] at hh
        simp [hh]
      | cons x pre =>
        simp only [List.cons_append, List.head?_cons, Option.some.injEq] at hh
        simp [hh]
    rw [List.map_append, List.nodup_append] at hnd
    exact hnd.2.2 _ hin _ (by simp) he.symm
  · exact fun d h t _ e => by rw [(hm d h).2.2.2.1] at e; cases e
  · exact fun d h t _ e => by rw [(hm d h).2.2.2.2] at e; cases e

/-- The fields: `a` and `b`. -/
def fields : List FieldDef := [{ name := "a", ty := .prim .int }, { name := "b", ty := .prim .int, dflt := some (.int 3) }]

def env : Env := Ex.mk [("X", { name := "X", mro := ["X"], fields := fields })]

/-- The parameters that `@serde` gives a class body. -/
def params (b : Body) : List Param := match PyClasses.serde [] (b.cls []) with
  | some (c', _) => PyClasses.initOf [] c'
  | none => []

example : ∀ last, (PyClasses.serde [] ((body last).cls [])).map Prod.snd = some fields := by intro last; cases last <;> rfl

/-- With the init variable at the end the hypotheses are met, and both values arrive. -/
theorem fits : InitFits fields (params (body true)) := by
  cases h : PyClasses.serde [] ((body true).cls []) with
  | none => cases h
  | some r =>
    obtain ⟨c', fs⟩ := r
    have e : some fields = some fs := by
      have : (PyClasses.serde [] ((body true).cls [])).map Prod.snd = some fs := by rw [h]; rfl
      exact this
    cases e
    unfold params
    rw [h]
    refine C68_body_partial h ⟨?_, ?_, Or.inr (by simp [fields])⟩
    · simp [body, isInitVar, Decl.hasDefault, Decl.obj]
    · intro pre d mid e post hl hi _ he
      exfalso
      simp only [body, ↓reduceIte] at hl
      rcases pre with _ | ⟨x, _ | ⟨y, _ | ⟨z, _ | ⟨w, pre⟩⟩⟩⟩ <;> simp at hl
      · rw [← hl.1] at hi; cases hi
      · rw [← hl.2.1] at hi; cases hi

/-- The same class already made by `@dataclass`. -/
example : ∃ c1 c', PyClasses.dataclass [] false ((body true).cls []) = some c1 ∧ PyClasses.serde [] c1 = some (c', fields) ∧ InitFits fields (PyClasses.initOf [] c') := by
  refine ⟨_, _, rfl, rfl, C68_over_dataclass_partial (b := body true) (kw := false) (by decide) rfl rfl ⟨?_, ?_, Or.inr (by simp [fields])⟩⟩
  · simp [body, isInitVar, Decl.hasDefault, Decl.obj]
  · intro pre d mid e post hl hi _ he
    exfalso
    simp only [body, ↓reduceIte] at hl
    rcases pre with _ | ⟨x, _ | ⟨y, _ | ⟨z, _ | ⟨w, pre⟩⟩⟩⟩ <;> simp at hl
    · rw [← hl.1] at hi; cases hi
    · rw [← hl.2.1] at hi; cases hi

theorem allFit : AllFit env (fun _ => params (body true)) := by
  intro c cd h
  simp only [env, Ex.mk, Env.cls, List.lookup] at h
  split at h
  · cases h; exact fits
  · cases h

example (d : Val) : fromDictI env (fun _ => params (body true)) {} 9 (.cls "X") d = fromDict env {} 9 (.cls "X") d := C68_from_dict_partial allFit {} 9 _ d
example (d : Val) : fromTupleI env (fun _ => params (body true)) {} 9 (.cls "X") d = fromTuple env {} 9 (.cls "X") d := C68_from_tuple_partial allFit {} 9 _ d

example {bound} (hb : bindParams (params (body true)) [.int 1, .int 2] [] = .ok bound) : BoundRight fields [.int 1, .int 2] (params (body true)) bound :=
  C68_bound_partial (cd := { name := "X", mro := ["X"], fields := fields }) fits rfl rfl hb
example : bindParams (params (body true)) [.int 1, .int 2] [] = .ok [("a", .int 1), ("b", .int 2), ("c", .int 5)] := rfl

example : fromDictI env (fun _ => params (body true)) {} 9 (.cls "X") (.dict .plain [(.str "a", .int 1), (.str "b", .int 2)]) =
    .ok (.inst "X" [("a", .int 1), ("b", .int 2)]) := rfl

/-- `a: int`, `c: InitVar[int]`. -/
def need : Body where
  lines := [{ name := "a", ann := .ty (.prim .int) }, { name := "c", ann := .initVar (.prim .int) }]
  nodup := by decide

/-- Such a class is never read. -/
example (n : Nat) (o : DeCall) (d v : Val) :
    (deIAt (Ex.mk [("X", { name := "X", mro := ["X"], fields := [{ name := "a", ty := .prim .int }] })]) (fun _ => params need) n).cls true "X" o d ≠ .ok v :=
  C68_required (cd := { name := "X", mro := ["X"], fields := [{ name := "a", ty := .prim .int }] }) (p := { name := "c", ty := .prim .int })
    (xs := [{ name := "c", ty := .prim .int }]) rfl rfl (by decide) rfl (List.mem_cons_of_mem _ List.mem_cons_self) rfl (by decide) n o d v

/-- `a: int`, `K: ClassVar[int] = 3`. -/
def kwBody : Body where
  lines := [{ name := "a", ann := .ty (.prim .int) }, { name := "K", ann := .classVar (.prim .int), rhs := some (.val (.int 3)) }]
  nodup := by decide

/-- The class after `@dataclass(kw_only=True)` and then `@serde`: its fields and the parameters of its `__init__`. -/
def kwMade : Option (List FieldDef × List Param) := ((PyClasses.dataclass [] true (kwBody.cls [])).bind fun c1 => PyClasses.serde [] c1).map fun r =>
  (r.2, PyClasses.initOf [] r.1)

/-- `class A: a: int` and `class B(A): b: int = 3`, both decorated, in this order. -/
def lineage : PyClasses :=
  let add (st : PyClasses) (nm : ClassId) (c : PyCls) : PyClasses := match st.serde c with
    | some (c', _) => (nm, c') :: st
    | none => st
  add (add [] "A" { annots := [("a", .ty (.prim .int))] }) "B"
    { annots := [("b", .ty (.prim .int))], attrs := [("b", .val (.int 3))], bases := ["A"] }

/-- The class `B` as it is then. -/
def classB : PyCls := (lineage.lookup "B").getD {}

/-- `class C(B): pass`: the constructor of `B`, with `a` and `b`, while that of `A` has `a` only. -/
def classC : PyCls := { bases := ["B", "A"] }

example : lineage.serde classC = some (classC, fields) ∧ InitFits fields (lineage.initOf classC) := by
  have hp : classB.init = some (fields.map paramOf) := rfl
  have hf : InitFits fields (fields.map paramOf) :=
    ⟨by decide, by decide, ⟨[], rfl, .inl rfl⟩, fun f hm _ => List.mem_map_of_mem hm, fun p hm => by
      obtain ⟨f, h1, h2⟩ := List.mem_map.1 hm
      refine .inl ⟨f, h1, ?_, h2.symm⟩
      simp only [fields, List.mem_cons, List.not_mem_nil, or_false] at h1
      rcases h1 with rfl | rfl <;> rfl⟩
  exact C68_inherited_partial (st := lineage) (c := classC) (kb := classB) (b := "B") ⟨rfl, rfl, rfl, rfl, rfl⟩ rfl hp rfl hf

example : (lineage.initOf classC).map (·.name) = ["a", "b"] := rfl

end C68Ex

open C68Ex in
/-- **C68 fails** if an init variable with a default stands before a field: the value read for `b` goes to the init variable, and `b` gets its default. -/
theorem C68_false_shifted : ∃ (b : Body) (c' : PyCls) (fs : List FieldDef) (env : Env), b.Legal false ∧ PyClasses.serde [] (b.cls []) = some (c', fs) ∧
    (∃ cd, env.cls "X" = some cd ∧ cd.fields = fs) ∧
    fromDictI env (fun _ => PyClasses.initOf [] c') {} 9 (.cls "X") (.dict .plain [(.str "a", .int 1), (.str "b", .int 2)]) =
      .ok (.inst "X" [("a", .int 1), ("b", .int 3)]) := by
  cases h : PyClasses.serde [] ((body false).cls []) with
  | none => cases h
  | some r =>
    obtain ⟨c', fs⟩ := r
    have e : some fields = some fs := by
      have : (PyClasses.serde [] ((body false).cls [])).map Prod.snd = some fs := by rw [h]; rfl
      exact this
    cases e
    refine ⟨body false, c', fields, env, legal false, h, ⟨_, rfl, rfl⟩, ?_⟩
    have : PyClasses.initOf [] c' = params (body false) := by
      unfold params
      rw [h]
    rw [this]
    rfl

open C68Ex in
/-- **C68 fails** for `@serde` over `@dataclass(kw_only=True)` with a class variable: the fields are taken to be positional, `__init__` is still the
old one, and no object of the class is ever read. -/
theorem C68_false_kw_only : ∃ (fs : List FieldDef) (ps : List Param) (env : Env), kwMade = some (fs, ps) ∧ (∃ cd, env.cls "X" = some cd ∧ cd.fields = fs) ∧
    ∀ n o d v, (deIAt env (fun _ => ps) n).cls true "X" o d ≠ .ok v := by
  refine ⟨[{ name := "a", ty := .prim .int }], [{ name := "a", ty := .prim .int, kwOnly := true }],
    Ex.mk [("X", { name := "X", mro := ["X"], fields := [{ name := "a", ty := .prim .int }] })], rfl, ⟨_, rfl, rfl⟩, ?_⟩
  intro n o d v
  cases n with
  | zero => intro h; cases h
  | succ n =>
    intro h
    generalize hr : deIAt _ _ n = r at *
    have h : deClsI (Ex.mk [("X", { name := "X", mro := ["X"], fields := [{ name := "a", ty := .prim .int }] })]) (fun _ => [{ name := "a", ty := .prim .int, kwOnly := true }]) r true "X" o d = .ok v := by
      rw [← hr]
      exact h
    unfold deClsI at h
    change (match deArgs _ r true "X" { name := "X", mro := ["X"], fields := [{ name := "a", ty := .prim .int }] } o d with
      | .error e => .error e
      | .ok (pos, kw) => constructI _ _ _ _ pos kw) = Except.ok v at h
    split at h
    · cases h
    · rename_i pos kw ha
      unfold deArgs at ha
      simp only [Bool.false_eq_true, ↓reduceIte] at ha
      split at ha
      · cases ha
      · cases ha
      · unfold deNamedArgs at ha
        split at ha
        · cases ha
        · split at ha
          · cases ha
          · rename_i vs hvs
            have hl := mapR_ok_length hvs
            cases vs with
            | nil => cases hl
            | cons x vs =>
              cases ha
              cases h

end Verif.Props
