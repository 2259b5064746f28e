import Verif.Lemmas.Named
import Verif.Lemmas.Frame
/-!
# Decoding two classes whose fields correspond one to one
-/

namespace Verif
open Spec

/-- `g` changes no part of a field's `__init__` signature, except possibly the default of a field that is passed anyway. -/
structure SigMap (g : FieldDef → FieldDef) (fs : List FieldDef) : Prop where
  name : ∀ f ∈ fs, (g f).name = f.name
  ty : ∀ f ∈ fs, (g f).ty = f.ty
  init : ∀ f ∈ fs, (g f).init = f.init
  kwOnly : ∀ f ∈ fs, (g f).kwOnly = f.kwOnly
  renderable : ∀ f ∈ fs, (g f).renderable = f.renderable
  dflt : ∀ f ∈ fs, (g f).dflt = f.dflt ∨ f.renderable = true

/-- The same for a `g` that may change the annotations. -/
structure SigCore (g : FieldDef → FieldDef) (fs : List FieldDef) : Prop where
  name : ∀ f ∈ fs, (g f).name = f.name
  init : ∀ f ∈ fs, (g f).init = f.init
  kwOnly : ∀ f ∈ fs, (g f).kwOnly = f.kwOnly
  renderable : ∀ f ∈ fs, (g f).renderable = f.renderable
  dflt : ∀ f ∈ fs, (g f).dflt = f.dflt ∨ f.renderable = true

theorem SigMap.core {g fs} (h : SigMap g fs) : SigCore g fs := ⟨h.name, h.init, h.kwOnly, h.renderable, h.dflt⟩

theorem SigCore.tail {g f fs} (h : SigCore g (f :: fs)) : SigCore g fs :=
  ⟨fun x hx => h.name x (by simp [hx]), fun x hx => h.init x (by simp [hx]),
   fun x hx => h.kwOnly x (by simp [hx]), fun x hx => h.renderable x (by simp [hx]), fun x hx => h.dflt x (by simp [hx])⟩

theorem filter_renderable_map {g : FieldDef → FieldDef} {fs : List FieldDef} (h : SigCore g fs) :
    (fs.map g).filter (·.renderable) = (fs.filter (·.renderable)).map g := by
  induction fs with
  | nil => rfl
  | cons f fs ih =>
    simp only [List.map_cons, List.filter_cons, h.renderable f (by simp)]
    split <;> simp [ih h.tail]

theorem deFields_map {g : FieldDef → FieldDef} {cd cd' : ClassDef} (hf : cd'.fields = cd.fields.map g) (h : SigCore g cd.fields) :
    cd'.deFields = cd.deFields.map g := by
  unfold ClassDef.deFields
  rw [hf, filter_renderable_map h]

theorem deFields_names {g : FieldDef → FieldDef} {cd cd' : ClassDef} (hf : cd'.fields = cd.fields.map g) (h : SigCore g cd.fields) :
    cd'.deFields.map (·.name) = cd.deFields.map (·.name) := by
  rw [deFields_map hf h, List.map_map]
  apply List.map_congr_left
  intro f hfm
  exact h.name f (List.mem_filter.1 hfm).1

theorem forceKw_map {g : FieldDef → FieldDef} {fs : List FieldDef} (h : SigCore g fs) (b : Bool) :
    forceKw b (fs.map g) = (forceKw b fs).map (fun p => (g p.1, p.2)) := by
  induction fs generalizing b with
  | nil => rfl
  | cons f fs ih =>
    simp only [List.map_cons, forceKw, h.renderable f (by simp), h.kwOnly f (by simp), ih h.tail]

theorem filter_forceKw_map {g : FieldDef → FieldDef} {ps : List (FieldDef × Bool)} (h : ∀ p ∈ ps, (g p.1).renderable = p.1.renderable) :
    (ps.map (fun p => (g p.1, p.2))).filter (fun p => p.1.renderable) =
      (ps.filter (fun p => p.1.renderable)).map (fun p => (g p.1, p.2)) := by
  induction ps with
  | nil => rfl
  | cons p ps ih =>
    simp only [List.map_cons, List.filter_cons, h p (by simp)]
    have ih' := ih (fun q hq => h q (by simp [hq]))
    split <;> simp [ih']

theorem splitArgs_map {g : FieldDef → FieldDef} {ps : List (FieldDef × Bool)} (h : ∀ p ∈ ps, (g p.1).name = p.1.name) (vs : List Val) :
    splitArgs (ps.map (fun p => (g p.1, p.2))) vs = splitArgs ps vs := by
  induction ps generalizing vs with
  | nil => rfl
  | cons p ps ih =>
    cases vs with
    | nil => rfl
    | cons v vs =>
      simp only [List.map_cons, splitArgs]
      rw [ih (fun q hq => h q (by simp [hq])), h p (by simp)]

theorem kwBad_map {g : FieldDef → FieldDef} {cd cd' : ClassDef} (hf : cd'.fields = cd.fields.map g) (h : SigCore g cd.fields) :
    kwBad cd' = kwBad cd := by
  unfold kwBad
  have hm : ∀ p ∈ forceKw false cd.fields, p.1 ∈ cd.fields := by
    intro p hp
    have : p.1 ∈ (forceKw false cd.fields).map (·.1) := List.mem_map.2 ⟨p, hp, rfl⟩
    rwa [forceKw_fst] at this
  rw [hf, forceKw_map h, filter_forceKw_map (fun p hp => h.renderable _ (hm p hp)),
    splitArgs_map (fun p hp => h.name _ (hm p (List.mem_filter.1 hp).1)), deFields_map hf h, List.map_map]
  rfl

theorem initAttrs_map {g : FieldDef → FieldDef} {fs : List FieldDef} {bound : List (String × Val)} (h : SigCore g fs)
    (hb : ∀ f ∈ fs, (g f).dflt = f.dflt ∨ (f.init = true ∧ ∃ v, bound.lookup f.name = some v)) :
    initAttrs bound (fs.map g) = initAttrs bound fs := by
  induction fs with
  | nil => rfl
  | cons f fs ih =>
    simp only [List.map_cons, initAttrs, h.name f (by simp), h.init f (by simp)]
    rw [ih h.tail (fun x hx => hb x (by simp [hx]))]
    rcases hb f (by simp) with hd | ⟨hi, v, hv⟩
    · rw [hd]
    · rw [hv]; simp only [hi, if_true]

theorem argsBearable_map {env : Env} {g : FieldDef → FieldDef} {cd cd' : ClassDef} (hf : cd'.fields = cd.fields.map g)
    (h : SigMap g cd.fields) (b : List (String × Val)) : argsBearable env cd' b = argsBearable env cd b := by
  have hfind : ∀ (fs : List FieldDef) n, (∀ f ∈ fs, (g f).name = f.name) → (fs.map g).find? (fun f => f.name == n) = (fs.find? (fun f => f.name == n)).map g := by
    intro fs n hs
    induction fs with
    | nil => rfl
    | cons f fs ih =>
      simp only [List.map_cons, List.find?_cons, hs f (by simp)]
      split
      · rfl
      · exact ih (fun x hx => hs x (by simp [hx]))
  induction b with
  | nil => rfl
  | cons x b ih =>
    unfold argsBearable
    rw [ih, hf, hfind _ _ h.name]
    cases hx : cd.fields.find? (fun f => f.name == x.1) with
    | none => rfl
    | some f => simp only [Option.map_some, h.ty f (List.mem_of_find?_eq_some hx)]

theorem constructB_map {env : Env} {c c' : ClassId} {g : FieldDef → FieldDef} {cd cd' : ClassDef} {bound}
    (hf : cd'.fields = cd.fields.map g) (h : SigMap g cd.fields) (hT : (cd'.typeCheck == .strict) = (cd.typeCheck == .strict))
    (hp : cd'.postInit = cd.postInit)
    (hb : ∀ f ∈ cd.fields, (g f).dflt = f.dflt ∨ (f.init = true ∧ ∃ v, bound.lookup f.name = some v)) :
    constructB env c' cd' bound = asInstOf c' (constructB env c cd bound) := by
  unfold constructB
  rw [argsBearable_map hf h, hT, hp, hf, initAttrs_map h.core hb]
  repeat' split
  all_goals rfl

theorem bound_deFields {cd : ClassDef} {vs : List Val} (hl : vs.length = cd.deFields.length) {f} (hf : f ∈ cd.fields)
    (hr : f.renderable = true) : ∃ v, ((cd.deFields.map (·.name)).zip vs).lookup f.name = some v := by
  apply lookup_zip_isSome
  · exact List.mem_map.2 ⟨f, List.mem_filter.2 ⟨hf, hr⟩, rfl⟩
  · simp [hl]

theorem mapR_map_left {α β γ : Type} (g : α → β) (f : β → Res γ) (as : List α) : mapR f (as.map g) = mapR (fun a => f (g a)) as := by
  induction as with
  | nil => rfl
  | cons a as ih => simp only [List.map_cons, mapR, ih]

theorem mapR_ok_iff {α β : Type} {f g : α → Res β} {as : List α} (h : ∀ a ∈ as, ∀ b, f a = .ok b ↔ g a = .ok b) (bs : List β) :
    mapR f as = .ok bs ↔ mapR g as = .ok bs := by
  have half : ∀ {f g : α → Res β} {as : List α} {bs : List β}, (∀ a ∈ as, ∀ b, f a = .ok b → g a = .ok b) → mapR f as = .ok bs → mapR g as = .ok bs := by
    intro f g as bs h hm
    apply mapR_zip (mapR_ok_length hm).symm
    intro p hp
    exact h p.1 (List.of_mem_zip hp).1 p.2 (mapR_ok_get hm p hp)
  exact ⟨half (fun a ha b => (h a ha b).1), half (fun a ha b => (h a ha b).2)⟩

/-- Classes with corresponding fields that decode alike give the same object or the same exception. -/
theorem decodeCls_map {env : Env} {r : DeRec} {c c' : ClassId} {cd cd' : ClassDef} {g : FieldDef → FieldDef} {o o' ex ex' d d'}
    (hf : cd'.fields = cd.fields.map g) (h : SigMap g cd.fields) (hT : (cd'.typeCheck == .strict) = (cd.typeCheck == .strict))
    (hp : cd'.postInit = cd.postInit)
    (hfield : ∀ f ∈ cd.fields, f.renderable = true →
      deField env r (clsDeCx env c' cd' true o' d') c' cd' ex' d' (g f) = deField env r (clsDeCx env c cd true o d) c cd ex d f) :
    decodeCls env r c' cd' o' ex' d' = asInstOf c' (decodeCls env r c cd o ex d) := by
  unfold decodeCls
  rw [deFields_names hf h.core, kwBad_map hf h.core, deFields_map hf h.core, mapR_map_left,
    mapR_congr (g := deField env r (clsDeCx env c cd true o d) c cd ex d) (as := cd.deFields)
      (fun f hfm => hfield f (List.mem_filter.1 hfm).1 (List.mem_filter.1 hfm).2)]
  cases hm : mapR (deField env r (clsDeCx env c cd true o d) c cd ex d) cd.deFields with
  | error e => rfl
  | ok vs =>
    dsimp only
    split
    · rfl
    · apply constructB_map hf h hT hp
      intro f hfm
      rcases h.dflt f hfm with hd | hr
      · exact .inl hd
      · exact .inr ⟨renderable_init hr, bound_deFields (mapR_ok_length hm) hfm hr⟩

theorem asInstOf_ok {c c' : ClassId} {x : Res Val} {attrs} (hx : ∀ v, x = .ok v → ∃ as, v = .inst c as) :
    asInstOf c' x = .ok (.inst c' attrs) ↔ x = .ok (.inst c attrs) := by
  cases x with
  | error e => simp [asInstOf]
  | ok v =>
    obtain ⟨as, rfl⟩ := hx v rfl
    simp [asInstOf]

theorem constructB_inst {env : Env} {c cd bound v} (h : constructB env c cd bound = .ok v) : ∃ as, v = .inst c as := by
  unfold constructB at h
  split at h
  · cases h
  · split at h
    · cases h
    · split at h
      · cases h; exact ⟨_, rfl⟩
      · split at h
        · cases h; exact ⟨_, rfl⟩
        · cases h

theorem decodeCls_inst {env : Env} {r : DeRec} {c cd o ex d v} (h : decodeCls env r c cd o ex d = .ok v) : ∃ as, v = .inst c as := by
  unfold decodeCls at h
  split at h
  · cases h
  · split at h
    · cases h
    · exact constructB_inst h

/-- The same when only successful decoding corresponds. -/
theorem decodeCls_map_ok {env : Env} {r : DeRec} {c c' : ClassId} {cd cd' : ClassDef} {g : FieldDef → FieldDef} {o o' ex ex' d d'}
    (hf : cd'.fields = cd.fields.map g) (h : SigMap g cd.fields) (hT : (cd'.typeCheck == .strict) = (cd.typeCheck == .strict))
    (hp : cd'.postInit = cd.postInit)
    (hfield : ∀ f ∈ cd.fields, f.renderable = true → ∀ w,
      deField env r (clsDeCx env c' cd' true o' d') c' cd' ex' d' (g f) = .ok w ↔
        deField env r (clsDeCx env c cd true o d) c cd ex d f = .ok w) (attrs) :
    decodeCls env r c' cd' o' ex' d' = .ok (.inst c' attrs) ↔ decodeCls env r c cd o ex d = .ok (.inst c attrs) := by
  have hiff := fun vs => @mapR_ok_iff _ _ (fun f => deField env r (clsDeCx env c' cd' true o' d') c' cd' ex' d' (g f))
    (deField env r (clsDeCx env c cd true o d) c cd ex d) cd.deFields
    (fun f hfm => hfield f (List.mem_filter.1 hfm).1 (List.mem_filter.1 hfm).2) vs
  have hcons : ∀ vs, vs.length = cd.deFields.length → constructB env c' cd' ((cd.deFields.map (·.name)).zip vs) =
      asInstOf c' (constructB env c cd ((cd.deFields.map (·.name)).zip vs)) := by
    intro vs hl
    apply constructB_map hf h hT hp
    intro f hfm
    rcases h.dflt f hfm with hd | hr
    · exact .inl hd
    · exact .inr ⟨renderable_init hr, bound_deFields hl hfm hr⟩
  unfold decodeCls
  rw [deFields_names hf h.core, kwBad_map hf h.core, deFields_map hf h.core, mapR_map_left]
  cases hm : mapR (deField env r (clsDeCx env c cd true o d) c cd ex d) cd.deFields with
  | error e =>
    cases hm' : mapR (fun f => deField env r (clsDeCx env c' cd' true o' d') c' cd' ex' d' (g f)) cd.deFields with
    | error e' => simp
    | ok vs => rw [(hiff vs).1 hm'] at hm; cases hm
  | ok vs =>
    rw [(hiff vs).2 hm]
    dsimp only
    split
    · simp
    · rw [hcons vs (mapR_ok_length hm)]
      exact asInstOf_ok (fun v hv => constructB_inst hv)

/-! ## From classes to `from_dict` -/

theorem deExtra_none {env : Env} {c} {cd : ClassDef} {d} (h : cd.hasFlatDict = false) : deExtra env c cd d = .ok [] := by
  unfold deExtra; rw [h]; rfl

/-- `from_dict` of a class without flattened dict, whose input has no unknown key or does not forbid them. -/
theorem fromDict_decode {env : Env} {o : DeOpts} {n c} {cd : ClassDef} {d} (hc : env.cls c = some cd) (htr : cd.transparent = false)
    (hfd : cd.hasFlatDict = false) (hu : deUnknown env c cd d = .ok false) (hg : NoGlobal env c) (hd : IsData c d) :
    fromDict env o (n + 2) (.cls c) d = wrapUser (decodeCls env (deAt env n) c cd (topCall o) [] d) := by
  rw [fromDict_cls hg.de hd, deClsF_named hc htr, hu, deExtra_none hfd]

theorem fromDict_fuel {env : Env} {o : DeOpts} {n c d} (hn : n < 2) (hg : NoGlobal env c) (hd : IsData c d) :
    fromDict env o n (.cls c) d = .error .fuel := by
  match n with
  | 0 => rfl
  | 1 => exact fromObj_cls_fuel1 hg.de hd

/-- Induction principle for statements about `from_dict`. -/
theorem fromDict_twin {env : Env} {o : DeOpts} {n c c'} {cd cd' : ClassDef} {d d'} (hc : env.cls c = some cd) (hc' : env.cls c' = some cd')
    (htr : cd.transparent = false) (htr' : cd'.transparent = false) (hfd : cd.hasFlatDict = false) (hfd' : cd'.hasFlatDict = false)
    (hu : deUnknown env c cd d = .ok false) (hu' : deUnknown env c' cd' d' = .ok false) (hg : NoGlobal env c) (hg' : NoGlobal env c')
    (hd : IsData c d) (hd' : IsData c' d')
    (h : ∀ m, decodeCls env (deAt env m) c' cd' (topCall o) [] d' = asInstOf c' (decodeCls env (deAt env m) c cd (topCall o) [] d)) :
    fromDict env o n (.cls c') d' = asInstOf c' (fromDict env o n (.cls c) d) := by
  by_cases hn : n < 2
  · rw [fromDict_fuel hn hg hd, fromDict_fuel hn hg' hd']; rfl
  · obtain ⟨m, rfl⟩ : ∃ m, n = m + 2 := ⟨n - 2, by omega⟩
    rw [fromDict_decode hc htr hfd hu hg hd, fromDict_decode hc' htr' hfd' hu' hg' hd', h, asInstOf_wrapUser]

theorem fromDict_twin_ok {env : Env} {o : DeOpts} {n c c'} {cd cd' : ClassDef} {d d'} (hc : env.cls c = some cd) (hc' : env.cls c' = some cd')
    (htr : cd.transparent = false) (htr' : cd'.transparent = false) (hfd : cd.hasFlatDict = false) (hfd' : cd'.hasFlatDict = false)
    (hu : deUnknown env c cd d = .ok false) (hu' : deUnknown env c' cd' d' = .ok false) (hg : NoGlobal env c) (hg' : NoGlobal env c')
    (hd : IsData c d) (hd' : IsData c' d') (attrs)
    (h : ∀ m, decodeCls env (deAt env m) c' cd' (topCall o) [] d' = .ok (.inst c' attrs) ↔
      decodeCls env (deAt env m) c cd (topCall o) [] d = .ok (.inst c attrs)) :
    fromDict env o n (.cls c') d' = .ok (.inst c' attrs) ↔ fromDict env o n (.cls c) d = .ok (.inst c attrs) := by
  by_cases hn : n < 2
  · rw [fromDict_fuel hn hg hd, fromDict_fuel hn hg' hd']; simp
  · obtain ⟨m, rfl⟩ : ∃ m, n = m + 2 := ⟨n - 2, by omega⟩
    rw [fromDict_decode hc htr hfd hu hg hd, fromDict_decode hc' htr' hfd' hu' hg' hd', wrapUser_ok, wrapUser_ok, h]

/-- `g` changes nothing that decides under which keys a field is read. -/
structure NameMap (g : FieldDef → FieldDef) (fs : List FieldDef) : Prop where
  rename : ∀ f ∈ fs, (g f).rename = f.rename
  alias : ∀ f ∈ fs, (g f).alias = f.alias
  flatten : ∀ f ∈ fs, (g f).flatten = f.flatten

section NameMap
set_option linter.unusedSectionVars false
variable {g : FieldDef → FieldDef} {cd cd' : ClassDef} (hf : cd'.fields = cd.fields.map g) (h : SigMap g cd.fields)
  (hn : NameMap g cd.fields)
include hf h hn

theorem flatDict_map {f} (hm : f ∈ cd.fields) : (g f).flatDict = f.flatDict := by
  unfold FieldDef.flatDict; rw [hn.flatten f hm, h.ty f hm]

theorem flatChild_map {f} (hm : f ∈ cd.fields) : (g f).flatChild = f.flatChild := by
  unfold FieldDef.flatChild; rw [hn.flatten f hm, h.ty f hm]

theorem conv_map {f} (hm : f ∈ cd.fields) (case) : (g f).conv case = f.conv case := by
  unfold FieldDef.conv; rw [hn.rename f hm, h.name f hm]

theorem known_map {env : Env} {c c'} (hc : env.cls c = some cd) (hc' : env.cls c' = some cd') (htr : cd'.transparent = cd.transparent)
    (hdc : cd'.deCase = cd.deCase) : env.known c' = env.known c := by
  unfold Env.known knownCls
  rw [hc, hc']
  dsimp only
  rw [htr, hdc, hf, List.flatMap_map]
  split
  · rfl
  · rw [List.flatMap_def, List.flatMap_def]
    congr 1
    apply List.map_congr_left
    intro f hm
    rw [flatDict_map hf h hn hm, flatChild_map hf h hn hm]
    unfold FieldDef.knownNames
    rw [conv_map hf h hn hm, hn.alias f hm]

theorem hasFlatDict_map : cd'.hasFlatDict = cd.hasFlatDict := by
  unfold ClassDef.hasFlatDict
  rw [hf, List.any_map]
  apply Bool.eq_iff_iff.2
  rw [List.any_eq_true, List.any_eq_true]
  constructor
  · rintro ⟨f, hm, hx⟩
    refine ⟨f, hm, ?_⟩
    simpa [h.renderable f hm, flatDict_map hf h hn hm] using hx
  · rintro ⟨f, hm, hx⟩
    refine ⟨f, hm, ?_⟩
    simpa [h.renderable f hm, flatDict_map hf h hn hm] using hx

/-- Twin lemma for successful results: fields correspond, keys are the same. -/
theorem fromDict_map_ok {env : Env} {o : DeOpts} {n c c' d attrs} (hc : env.cls c = some cd) (hc' : env.cls c' = some cd')
    (htr : cd.transparent = false) (htr' : cd'.transparent = false) (hdc : cd'.deCase = cd.deCase) (hdn : cd'.denyUnknown = cd.denyUnknown)
    (hT : (cd'.typeCheck == .strict) = (cd.typeCheck == .strict)) (hp : cd'.postInit = cd.postInit)
    (hg : NoGlobal env c) (hg' : NoGlobal env c') (hd : IsData c d) (hd' : IsData c' d)
    (hfield : ∀ m ex f, f ∈ cd.fields → f.renderable = true → ∀ w,
      deField env (deAt env m) (clsDeCx env c' cd' true (topCall o) d) c' cd' ex d (g f) = .ok w ↔
        deField env (deAt env m) (clsDeCx env c cd true (topCall o) d) c cd ex d f = .ok w) :
    fromDict env o n (.cls c') d = .ok (.inst c' attrs) ↔ fromDict env o n (.cls c) d = .ok (.inst c attrs) := by
  by_cases hnn : n < 2
  · rw [fromDict_fuel hnn hg hd, fromDict_fuel hnn hg' hd']; simp
  · obtain ⟨m, rfl⟩ : ∃ m, n = m + 2 := ⟨n - 2, by omega⟩
    have hu : deUnknown env c' cd' d = deUnknown env c cd d := by
      unfold deUnknown
      rw [hdn, hasFlatDict_map hf h hn, known_map hf h hn hc hc' (htr'.trans htr.symm) hdc]
    have hx : deExtra env c' cd' d = deExtra env c cd d := by
      unfold deExtra
      rw [hasFlatDict_map hf h hn, known_map hf h hn hc hc' (htr'.trans htr.symm) hdc]
    rw [fromDict_cls hg.de hd, fromDict_cls hg'.de hd', deClsF_named hc htr, deClsF_named hc' htr', hu, hx, wrapUser_ok, wrapUser_ok]
    split
    · simp
    · simp
    · split
      · simp
      · exact decodeCls_map_ok hf h hT hp (hfield m _) attrs
end NameMap

/-! ## Fields that are not flattened -/

/-- The renderer's argument for a field that is not flattened. -/
def plainArg (cd : ClassDef) (f : FieldDef) (d : Val) : DeArg :=
  { ty := f.ty, name := f.name, conv := f.conv cd.deCase, src := .key d, alias := f.alias, deser := f.deserializer,
    flatten := false, dflt := f.dflt }

theorem deField_plain {env : Env} {r : DeRec} {cx c cd ex d} {f : FieldDef} (hf : f.flatten = false) :
    deField env r cx c cd ex d f = match f.dflt with
      | some _ => r.render cx (plainArg cd f d)
      | none => catchKey (f.conv cd.deCase) (r.render cx (plainArg cd f d)) := by
  unfold deField FieldDef.flatDict FieldDef.flatChild plainArg
  rw [hf]
  rfl

theorem hasFlatDict_plain {cd : ClassDef} (h : ∀ f ∈ cd.fields, f.flatten = false) : cd.hasFlatDict = false :=
  hasFlatDict_false (fun f hf => by unfold takesRest; rw [h f hf]; rfl)

/-- Keys that a field which is not flattened looks at. -/
def fieldReads (cd : ClassDef) (f : FieldDef) : List String :=
  f.conv cd.deCase :: (if f.alias = [] then [] else f.name :: f.alias)

/-- A field that is not flattened depends on nothing but the entries under its keys. -/
theorem deField_reads {env : Env} {n : Nat} {c} {cd : ClassDef} {o ex ex' k k' kvs kvs'} {f : FieldDef} (hf : f.flatten = false)
    (hal : f.alias = [] ∨ AliasTy f.ty) (h : ∀ s ∈ fieldReads cd f, getStr s kvs' = getStr s kvs) :
    deField env (deAt env n) (clsDeCx env c cd true o (.dict k' kvs')) c cd ex' (.dict k' kvs') f =
      deField env (deAt env n) (clsDeCx env c cd true o (.dict k kvs)) c cd ex (.dict k kvs) f := by
  have hcv : getStr (f.conv cd.deCase) kvs' = getStr (f.conv cd.deCase) kvs := h _ (by unfold fieldReads; simp)
  rw [deField_plain hf, deField_plain hf]
  have : (deAt env n).render (clsDeCx env c cd true o (.dict k' kvs')) (plainArg cd f (.dict k' kvs')) =
      (deAt env n).render (clsDeCx env c cd true o (.dict k kvs)) (plainArg cd f (.dict k kvs)) := by
    by_cases ha : f.alias = []
    · exact render_sim env n (clsDeCx env c cd true o (.dict k kvs)) _ _ _ ⟨rfl, rfl, rfl, rfl, ha, ha, rfl, rfl, .key hcv.symm⟩
    · have hat : AliasTy f.ty := by
        rcases hal with h | h
        · exact absurd h ha
        · exact h
      exact render_alias (cx := clsDeCx env c cd true o (.dict k kvs)) (a := plainArg cd f .none) hat rfl hcv (by
        intro _ m hm
        apply h
        unfold fieldReads
        rw [if_neg ha]
        exact List.mem_cons_of_mem _ hm)
  rw [this]

end Verif
