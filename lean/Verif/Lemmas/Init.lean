import Verif.Spec.Init
import Verif.Lemmas.Named
import Verif.Lemmas.CtorErr
/-!
# Lemmas about binding arguments to parameters
-/

namespace Verif
open Spec

/-! ## Filling in defaults -/

theorem fill_err {passed : List (String × Val)} : ∀ {ps : List Param} {e}, fillParams passed ps = .error e →
    e = .type ∧ ∃ p ∈ ps, passed.lookup p.name = none ∧ p.dflt = none
  | [], _, h => by cases h
  | p :: ps, e, h => by
    unfold fillParams at h
    split at h
    · split at h
      · cases h
      · rename_i e' he
        cases h
        obtain ⟨h1, q, hq, h2⟩ := fill_err he
        exact ⟨h1, q, List.mem_cons_of_mem _ hq, h2⟩
    · rename_i hn
      cases h
      refine ⟨rfl, p, List.mem_cons_self, ?_⟩
      simpa [Option.orElse_eq_or, Option.or_eq_none_iff] using hn

theorem fill_ok {passed : List (String × Val)} : ∀ {ps : List Param} {bound}, fillParams passed ps = .ok bound →
    bound.map Prod.fst = ps.map Param.name ∧ ∀ p ∈ ps, ∃ v, (passed.lookup p.name <|> p.dflt) = some v ∧ (p.name, v) ∈ bound
  | [], _, h => by
    cases h
    simp
  | p :: ps, bound, h => by
    unfold fillParams at h
    split at h
    · rename_i v hv
      split at h
      · rename_i r hr
        cases h
        obtain ⟨h1, h2⟩ := fill_ok hr
        refine ⟨by simp [h1], fun q hq => ?_⟩
        rcases List.mem_cons.1 hq with rfl | hq
        · exact ⟨v, hv, List.mem_cons_self⟩
        · obtain ⟨w, hw, hm⟩ := h2 q hq
          exact ⟨w, hw, List.mem_cons_of_mem _ hm⟩
      · cases h
    · cases h

theorem lookup_of_mem_nodup {l : List (String × Val)} (hn : (l.map Prod.fst).Nodup) {k v} (h : (k, v) ∈ l) : l.lookup k = some v := by
  induction l with
  | nil => cases h
  | cons a l ih =>
    obtain ⟨k', v'⟩ := a
    simp only [List.map_cons, List.nodup_cons] at hn
    rw [List.lookup_cons]
    rcases List.mem_cons.1 h with h | hm
    · cases h
      simp
    · have : (k == k') = false := by
        rw [beq_eq_false_iff_ne]
        rintro rfl
        exact hn.1 (List.mem_map.2 ⟨_, hm, rfl⟩)
      rw [this]
      exact ih hn.2 hm

/-- A parameter is bound to what was passed, or else to its default. -/
theorem fill_lookup {passed : List (String × Val)} {ps : List Param} {bound} (hn : (ps.map Param.name).Nodup) (h : fillParams passed ps = .ok bound)
    {p} (hp : p ∈ ps) : bound.lookup p.name = (passed.lookup p.name <|> p.dflt) := by
  obtain ⟨h1, h2⟩ := fill_ok h
  obtain ⟨v, hv, hm⟩ := h2 p hp
  rw [hv]
  exact lookup_of_mem_nodup (by rw [h1]; exact hn) hm

theorem initAttrs_fill {passed bound : List (String × Val)} : ∀ {fs : List FieldDef},
    (∀ f ∈ fs, f.init = true → bound.lookup f.name = (passed.lookup f.name <|> f.dflt) ∧ (bound.lookup f.name).isSome = true) →
    initAttrs passed fs = .ok (fieldAttrs bound fs)
  | [], _ => rfl
  | f :: fs, h => by
    have ih := initAttrs_fill (passed := passed) (bound := bound) (fs := fs) fun g hg => h g (List.mem_cons_of_mem _ hg)
    have hf := h f List.mem_cons_self
    unfold initAttrs fieldAttrs
    simp only [ih]
    cases hi : f.init with
    | false => cases f.dflt <;> simp
    | true =>
      obtain ⟨h1, h2⟩ := hf hi
      cases hb : passed.lookup f.name with
      | some v => simp [h1, hb]
      | none =>
        cases hd : f.dflt with
        | some d => simp [h1, hb, hd]
        | none => simp [h1, hb, hd] at h2

theorem initAttrs_missing {passed : List (String × Val)} {f : FieldDef} (hi : f.init = true) (hp : passed.lookup f.name = none)
    (hd : f.dflt = none) {fs : List FieldDef} (hf : f ∈ fs) : initAttrs passed fs = .error .type := by
  induction fs with
  | nil => cases hf
  | cons g fs ih =>
    cases h : initAttrs passed (g :: fs) with
    | error e => rw [initAttrs_err h]
    | ok as =>
      exfalso
      unfold initAttrs at h
      rcases List.mem_cons.1 hf with rfl | hf
      · simp [hi, hp, hd] at h
      · rw [ih hf] at h
        dsimp only at h
        split at h
        · next e => cases e
        · next e => cases e
        · cases h
        · cases h

/-! ## The arguments of a generated call -/

/-- What the generated call passes: keywords are fields set by `__init__` that were not passed by position. -/
structure GoodCall (cd : ClassDef) (pos : List Val) (kw : List (String × Val)) : Prop where
  known : ∀ a ∈ kw, ∃ f ∈ cd.fields, f.init = true ∧ f.name = a.1
  once : ∀ a ∈ kw, a.1 ∉ (cd.posParams.map FieldDef.name).take pos.length
  count : (∀ f ∈ cd.fields, f.renderable = true → f.kwOnly = false) → pos.length ≤ cd.posParams.length
  kwCount : kw ≠ [] → pos.length ≤ cd.posParams.length

theorem zip_map_fst {α β : Type} : ∀ (ks : List α) (vs : List β), (ks.zip vs).map Prod.fst = ks.take vs.length
  | [], _ => by simp
  | _ :: _, [] => by simp
  | k :: ks, v :: vs => by simp [zip_map_fst ks vs]

theorem splitArgs_good {cd : ClassDef} {vs pos kw} (hn : (cd.fields.map FieldDef.name).Nodup)
    (h : splitArgs ((forceKw false cd.fields).filter (fun p => p.1.renderable)) vs = .ok (pos, kw)) (hl : vs.length = cd.deFields.length) :
    GoodCall cd pos kw ∧ (cd.posParams.map FieldDef.name).zip pos ++ kw = (cd.deFields.map FieldDef.name).zip vs := by
  obtain ⟨h1, h2⟩ := splitArgs_bound h hl
  have hfst : (cd.posParams.map FieldDef.name).take pos.length ++ kw.map Prod.fst = cd.deFields.map FieldDef.name := by
    have := congrArg (List.map Prod.fst) h1
    rw [List.map_append, zip_map_fst, zip_map_fst] at this
    have e : ((cd.fields.filter (·.renderable)).map FieldDef.name).take vs.length = cd.deFields.map FieldDef.name := by
      rw [List.take_of_length_le (by rw [hl]; simp [ClassDef.deFields])]
      rfl
    rw [e] at this
    exact this
  have hnd : (cd.deFields.map FieldDef.name).Nodup := hn.sublist (List.filter_sublist.map _)
  rw [← hfst, List.nodup_append] at hnd
  refine ⟨⟨fun a ha => ?_, fun a ha hm => ?_, fun _ => h2, fun _ => h2⟩, h1⟩
  · have : a.1 ∈ cd.deFields.map FieldDef.name := by
      rw [← hfst]
      exact List.mem_append_right _ (List.mem_map_of_mem ha)
    obtain ⟨f, hf, e⟩ := List.mem_map.1 this
    have hf' := List.mem_filter.1 hf
    exact ⟨f, hf'.1, renderable_init hf'.2, e⟩
  · exact hnd.2.2 _ hm _ (List.mem_map_of_mem ha) rfl

theorem deArgs_good {env : Env} {r : DeRec} {named c cd o d pos kw} (hn : (cd.fields.map FieldDef.name).Nodup)
    (ha : deArgs env r named c cd o d = .ok (pos, kw)) : GoodCall cd pos kw := by
  unfold deArgs at ha
  dsimp only at ha
  split at ha
  · split at ha
    · cases ha
    · rename_i f fs hf
      have hfm : f ∈ cd.fields.filter (·.renderable) := by rw [hf]; simp
      have hfi := renderable_init (List.mem_filter.1 hfm).2
      split at ha
      · cases ha
      · split at ha
        · cases ha
          refine ⟨fun a h => ?_, by simp, by simp, by simp⟩
          simp only [List.mem_singleton] at h
          subst h
          exact ⟨f, (List.mem_filter.1 hfm).1, hfi, rfl⟩
        · rename_i hk
          cases ha
          have hk' : f.kwOnly = false := by
            unfold transpKw at hk
            revert hk
            cases f.kwOnly <;> simp
          have hp : f ∈ cd.posParams := List.mem_filter.2 ⟨(List.mem_filter.1 hfm).1, by simp [hfi, hk']⟩
          exact ⟨by simp, by simp, fun _ => List.length_pos_of_mem hp, fun _ => List.length_pos_of_mem hp⟩
  · split at ha
    · split at ha
      · cases ha
      · cases ha
      · unfold deNamedArgs at ha
        split at ha
        · cases ha
        · split at ha
          · cases ha
          · rename_i vs hvs
            exact (splitArgs_good hn ha (mapR_ok_length hvs)).1
    · split at ha
      · cases ha
      · rename_i vs hvs
        cases ha
        refine ⟨by simp, by simp, fun h => ?_, by simp⟩
        unfold deTupleArgs at hvs
        rw [mapR_ok_length hvs]
        simp only [List.length_zipIdx, ClassDef.posParams, ← List.countP_eq_length_filter]
        refine List.countP_mono_left fun f hf hr => ?_
        simp [renderable_init hr, h f hf hr]

/-! ## The constructor -/

theorem zip_append_le {α β : Type} : ∀ {ks : List α} {vs : List β} (xs : List α), vs.length ≤ ks.length → (ks ++ xs).zip vs = ks.zip vs
  | _, [], _, _ => by simp
  | [], _ :: _, _, h => by simp at h
  | k :: ks, v :: vs, xs, h => by simp [zip_append_le (ks := ks) (vs := vs) xs (by simpa using h)]

theorem find_param {fields : List FieldDef} {ps : List Param} (h : InitFits fields ps) {f} (hf : f ∈ fields) (hi : f.init = true) :
    ps.find? (fun p => p.name == f.name) = some (paramOf f) ∧ fields.find? (fun g => g.name == f.name) = some f := by
  constructor
  · cases e : ps.find? (fun p => p.name == f.name) with
    | none => exact absurd (List.find?_eq_none.1 e _ (h.own f hf hi)) (by simp [paramOf])
    | some p =>
      have hp : p.name = f.name := by simpa using List.find?_some e
      have hm := List.mem_of_find?_eq_some e
      congr 1
      exact nodup_map_eq h.paramNames hm (h.own f hf hi) (by rw [hp]; rfl)
  · cases e : fields.find? (fun g => g.name == f.name) with
    | none => exact absurd (List.find?_eq_none.1 e _ hf) (by simp)
    | some g =>
      have hg : g.name = f.name := by simpa using List.find?_some e
      congr 1
      exact nodup_map_eq h.fieldNames (List.mem_of_find?_eq_some e) hf hg
where
  nodup_map_eq {α : Type} {g : α → String} : ∀ {l : List α}, (l.map g).Nodup → ∀ {x y}, x ∈ l → y ∈ l → g x = g y → x = y
    | a :: l, hn, x, y, hx, hy, e => by
      simp only [List.map_cons, List.nodup_cons] at hn
      rcases List.mem_cons.1 hx with hx | hx <;> rcases List.mem_cons.1 hy with hy | hy
      · rw [hx, hy]
      · exact absurd (List.mem_map.2 ⟨y, hy, by rw [← e, hx]⟩) hn.1
      · exact absurd (List.mem_map.2 ⟨x, hx, by rw [e, hy]⟩) hn.1
      · exact nodup_map_eq hn.2 hx hy e

theorem bearable_params {env : Env} {cd : ClassDef} {ps : List Param} (h : InitFits cd.fields ps) : ∀ {l : List (String × Val)},
    (∀ a ∈ l, ∃ f ∈ cd.fields, f.init = true ∧ f.name = a.1) → paramsBearable env ps l = argsBearable env cd l
  | [], _ => rfl
  | (n, v) :: l, hl => by
    obtain ⟨f, hf, hi, e⟩ := hl _ List.mem_cons_self
    simp only at e
    subst e
    obtain ⟨h1, h2⟩ := find_param h hf hi
    simp only [paramsBearable, argsBearable, h1, h2, bearable_params h fun a ha => hl a (List.mem_cons_of_mem _ ha)]
    rfl

/-- If the parameters fit, generated calls have the same outcome as if the parameters were the fields. -/
theorem constructI_eq {env : Env} {c} {cd : ClassDef} {ps : List Param} {pos kw} (h : InitFits cd.fields ps) (hc : GoodCall cd pos kw) :
    constructI env c cd ps pos kw = construct env c cd pos kw := by
  obtain ⟨xs, hx, hxs⟩ := h.positional
  have hpn : posNames ps = cd.posParams.map FieldDef.name ++ xs.map Param.name := by
    unfold posNames
    rw [hx, List.map_append, List.map_map]
    rfl
  have hle : pos.length ≤ cd.posParams.length ∨ xs = [] := hxs.elim Or.inr fun h => Or.inl (hc.count h)
  have hzip : (posNames ps).zip pos = (cd.posParams.map FieldDef.name).zip pos := by
    rw [hpn]
    rcases hle with hle | rfl
    · exact zip_append_le _ (by simpa using hle)
    · simp
  have htoo : (posNames ps).length < pos.length ↔ cd.posParams.length < pos.length := by
    rw [hpn, List.length_append, List.length_map]
    rcases hle with hle | rfl
    · omega
    · simp
  have hpassed : ∀ a ∈ (cd.posParams.map FieldDef.name).zip pos ++ kw, ∃ f ∈ cd.fields, f.init = true ∧ f.name = a.1 := by
    intro a ha
    rcases List.mem_append.1 ha with ha | ha
    · obtain ⟨f, hf, e⟩ := List.mem_map.1 (List.of_mem_zip (a := a.1) (b := a.2) ha).1
      have := List.mem_filter.1 hf
      exact ⟨f, this.1, by revert this; cases f.init <;> simp, e⟩
    · exact hc.known a ha
  unfold constructI construct
  dsimp only
  rw [hzip, bearable_params h hpassed]
  split
  · rfl
  unfold bindParams
  by_cases hlen : cd.posParams.length < pos.length
  · rw [if_pos (htoo.2 hlen), if_pos hlen]
  · rw [if_neg (fun e => hlen (htoo.1 e)), if_neg hlen]
    have hany : (kw.any fun a => !ps.any (·.name == a.1) || ((posNames ps).take pos.length).contains a.1) = false := by
      rw [List.any_eq_false]
      intro a ha
      obtain ⟨f, hf, hi, e⟩ := hc.known a ha
      have h1 : ps.any (·.name == a.1) = true := List.any_eq_true.2 ⟨paramOf f, h.own f hf hi, by simpa [paramOf] using e⟩
      have h2 : ((posNames ps).take pos.length).contains a.1 = false := by
        rw [hpn, List.take_append_of_le_length (by simpa using hlen)]
        simpa using hc.once a ha
      simp [h1]
      simpa using h2
    rw [hany, hzip]
    simp only [Bool.false_eq_true, ↓reduceIte]
    cases hf : fillParams ((cd.posParams.map FieldDef.name).zip pos ++ kw) ps with
    | error e =>
      obtain ⟨rfl, p, hp, hp1, hp2⟩ := fill_err hf
      rcases h.extra p hp with ⟨f, hff, hi, rfl⟩ | ⟨hd, _⟩
      · rw [initAttrs_missing hi hp1 hp2 hff]
      · rw [hp2] at hd
        cases hd
    | ok bound =>
      have key : initAttrs ((cd.posParams.map FieldDef.name).zip pos ++ kw) cd.fields = .ok (fieldAttrs bound cd.fields) := by
        refine initAttrs_fill fun f hff hi => ?_
        have := fill_lookup h.paramNames hf (h.own f hff hi)
        refine ⟨this, ?_⟩
        obtain ⟨v, hv, _⟩ := (fill_ok hf).2 _ (h.own f hff hi)
        rw [show f.name = (paramOf f).name from rfl, this, hv]
        rfl
      rw [key]
      rfl

end Verif
