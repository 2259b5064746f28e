import Verif.Spec.Transparent
import Verif.Props.C20
/-!
# C28, C29: transparent classes
-/

namespace Verif.Props
open Spec

theorem filter_sole {fs : List FieldDef} {f : FieldDef} {p : FieldDef → Bool} (hn : (fs.map (·.name)).Nodup) (hf : f ∈ fs) (hp : p f = true)
    (ho : ∀ g ∈ fs, g.name ≠ f.name → p g = false) : fs.filter p = [f] := by
  obtain ⟨a, b, rfl, ha, hb⟩ := split_field hn hf
  have h1 : a.filter p = [] := List.filter_eq_nil_iff.2 (fun g hg => by simp [ho g (by simp [hg]) (ha g hg)])
  have h2 : b.filter p = [] := List.filter_eq_nil_iff.2 (fun g hg => by simp [ho g (by simp [hg]) (hb g hg)])
  rw [List.filter_append, List.filter_cons, if_pos hp, h1, h2]
  rfl

section
variable {cd : ClassDef} {f : FieldDef}

theorem sole_se (hn : (cd.fields.map (·.name)).Nodup) (h : SoleField cd.fields f) : cd.seFieldsOf = [f] := by
  unfold ClassDef.seFieldsOf
  refine filter_sole hn h.mem (by simp [h.skip, h.skipSer]) (fun g hg hne => ?_)
  rcases (h.others g hg hne).2 with h1 | ⟨h1, h2⟩ <;> simp [h1]

theorem sole_de (hn : (cd.fields.map (·.name)).Nodup) (h : SoleField cd.fields f) : cd.deFields = [f] := by
  unfold ClassDef.deFields
  refine filter_sole hn h.mem (by simp [FieldDef.renderable, h.init, h.skip, h.skipDe]) (fun g hg hne => ?_)
  simp [FieldDef.renderable, (h.others g hg hne).1]

theorem sole_pos (hn : (cd.fields.map (·.name)).Nodup) (h : SoleField cd.fields f) (hk : f.kwOnly = false) : cd.posParams = [f] := by
  unfold ClassDef.posParams
  refine filter_sole hn h.mem (by simp [h.init, hk]) (fun g hg hne => ?_)
  simp [(h.others g hg hne).1]

end

/-! ## C29 -/

/-- **C29** `@serde(transparent=True)` is accepted exactly for the classes with a single field that is a constructor parameter, serialized
and deserialized, all other fields being excluded from all three. -/
theorem C29_accepts_iff {fs : List FieldDef} {f : FieldDef} (hn : (fs.map (·.name)).Nodup) : decorateTransparent fs = .ok f ↔ SoleField fs f := by
  constructor
  · intro h
    unfold decorateTransparent at h
    split at h
    · cases h
    · rename_i g hg
      split at h
      · cases h
      · rename_i hne
        cases h
        unfold transparentField at hg
        split at hg
        · rename_i chosen hch
          split at hg
          · rename_i hall
            cases hg
            have hmem : f ∈ fs.filter (fun f => f.init && !f.fullySkipped) := by rw [hch]; simp
            rw [List.mem_filter, Bool.and_eq_true, Bool.not_eq_true'] at hmem
            have hoth : ∀ g ∈ fs, g.name ≠ f.name → g.init = false ∧ g.fullySkipped = true := by
              intro g hg hgn
              have := List.all_eq_true.1 hall g hg
              rw [Bool.or_eq_true, beq_iff_eq, Bool.and_eq_true, Bool.not_eq_true'] at this
              exact this.resolve_left hgn
            have hsk : ∀ g : FieldDef, g.fullySkipped = true → g.skip = true ∨ g.skipSer = true ∧ g.skipDe = true := by
              intro g h; unfold FieldDef.fullySkipped at h; simpa using h
            have hsame : ∀ g ∈ fs, g.name = f.name → g = f := fun g hg he => inj_of_nodup_map hn hg hmem.1 he
            rw [Bool.or_eq_true, not_or] at hne
            have h1 : ∃ g ∈ fs, (g.skip || g.skipSer) = false := by
              cases hh : fs.filter (fun f => !(f.skip || f.skipSer)) with
              | nil => rw [hh] at hne; exact absurd rfl hne.1
              | cons g gs =>
                have : g ∈ fs.filter (fun f => !(f.skip || f.skipSer)) := by rw [hh]; simp
                rw [List.mem_filter, Bool.not_eq_true'] at this
                exact ⟨g, this⟩
            have h2 : ∃ g ∈ fs, g.renderable = true := by
              cases hh : fs.filter (·.renderable) with
              | nil => rw [hh] at hne; exact absurd rfl hne.2
              | cons g gs =>
                have : g ∈ fs.filter (·.renderable) := by rw [hh]; simp
                rw [List.mem_filter] at this
                exact ⟨g, this⟩
            obtain ⟨g1, hg1, hs1⟩ := h1
            obtain ⟨g2, hg2, hs2⟩ := h2
            have e1 : g1 = f := by
              refine hsame g1 hg1 (Decidable.byContradiction fun hne => ?_)
              rcases hsk _ (hoth g1 hg1 hne).2 with h | ⟨h, _⟩ <;> simp [h] at hs1
            have e2 : g2 = f := by
              refine hsame g2 hg2 (Decidable.byContradiction fun hne => ?_)
              have := (hoth g2 hg2 hne).1
              simp [FieldDef.renderable, this] at hs2
            subst e1
            subst e2
            simp only [Bool.or_eq_false_iff] at hs1
            refine ⟨hmem.1, hmem.2.1, hs1.1, hs1.2, ?_, fun g hg hne => ⟨(hoth g hg hne).1, hsk g (hoth g hg hne).2⟩⟩
            unfold FieldDef.renderable at hs2
            simp at hs2
            exact hs2.2.2
          · cases hg
        · cases hg
  · intro h
    have h1 : fs.filter (fun f => f.init && !f.fullySkipped) = [f] := by
      refine filter_sole hn h.mem (by simp [h.init, FieldDef.fullySkipped, h.skip, h.skipSer]) (fun g hg hne => ?_)
      simp [(h.others g hg hne).1]
    have h2 : fs.all (fun g => g.name == f.name || (!g.init && g.fullySkipped)) = true := by
      rw [List.all_eq_true]
      intro g hg
      by_cases hne : g.name = f.name
      · simp [hne]
      · obtain ⟨h3, h4⟩ := h.others g hg hne
        have : g.fullySkipped = true := by unfold FieldDef.fullySkipped; simpa using h4
        simp [h3, this]
    have h3 := sole_se (cd := { name := "", fields := fs, mro := [] }) hn h
    have h4 := sole_de (cd := { name := "", fields := fs, mro := [] }) hn h
    unfold ClassDef.seFieldsOf at h3
    unfold ClassDef.deFields at h4
    dsimp only at h3 h4
    unfold decorateTransparent transparentField
    rw [h1]
    dsimp only
    rw [h2, if_pos rfl]
    dsimp only
    rw [h3, h4]
    rfl

/-- Two fields, one of them excluded from everything. -/
example : decorateTransparent [{ name := "x", ty := .prim .int }, { name := "y", ty := .prim .int, init := false, skip := true, dflt := some (.int 0) }] =
    .ok { name := "x", ty := .prim .int } := rfl

/-- A field that is only deserialized is not enough; the class is rejected, though by an `IndexError`. -/
example : decorateTransparent [{ name := "x", ty := .prim .int, skipSer := true }] = .error (.py .index) := rfl

/-! ## C28 -/

section
variable {env : Env} {so : SeOpts} {o : DeOpts} {c c' : ClassId} {cd : ClassDef} {f : FieldDef} {attrs : List (String × Val)}

/-- **C28**, writing: a transparent class is serialized as its field is. The field's serialized form is taken from the copy `c'` of the
class that is not transparent. -/
theorem C28_writes_partial {n w} (hc : env.cls c = some cd) (htr : cd.transparent = true) (hc' : env.cls c' = some (opaqueCopy cd))
    (ht : SameTables env c c') (hn : (cd.fields.map (·.name)).Nodup) (hacc : decorateTransparent cd.fields = .ok f)
    (hfl : f.flatten = false) (hren : RenameOk f) (hu : NotUnion so.c) (hg : NoGlobal env c) (hg' : NoGlobal env c')
    (hnone : so.skipNone = false ∨ w ≠ .none) :
    toDict env so n (.inst c attrs) = .ok w ↔
      toDict env so n (.inst c' attrs) = .ok (.dict .plain [(.str (wireName f.rename cd.seCase f.name), w)]) := by
  have hsole := (C29_accepts_iff hn).1 hacc
  have hs := sole_se hn hsole
  have hs' : (opaqueCopy cd).seFieldsOf = [bareField f] := by
    have : (opaqueCopy cd).seFieldsOf = cd.seFieldsOf.map bareField := by
      unfold ClassDef.seFieldsOf opaqueCopy
      rw [List.filter_map]
      rfl
    rw [this, hs]; rfl
  have hcx : clsSeCx env c' (opaqueCopy cd) true so.reuse so.conv so.skipNone = clsSeCx env c cd true so.reuse so.conv so.skipNone := by
    unfold clsSeCx opaqueCopy; dsimp only; rw [ht.unions]
  have hconv : (bareField f).conv (opaqueCopy cd).seCase = wireName f.rename cd.seCase f.name := conv_eq_wireName hren _
  have hrule : (bareField f).skipRule (opaqueCopy cd) = .never := by
    refine skipRule_never ?_
    rintro (h | h | h | h) <;> cases h
  match n with
  | 0 => exact ⟨fun h => (by cases h), fun h => (by cases h)⟩
  | 1 => rw [toDict_cls hu hg.ser, toDict_cls hu hg'.ser]; exact ⟨fun h => (by cases h), fun h => (by cases h)⟩
  | 2 =>
    rw [toDict_cls hu hg.ser, toDict_cls hu hg'.ser, wrapAll_ok, wrapAll_ok, seAt_cls, seAt_cls]
    unfold clsF
    dsimp only
    rw [hc, hc']
    dsimp only
    rw [htr, hs, hs']
    exact ⟨fun h => (by cases h), fun h => (by cases h)⟩
  | m + 3 =>
    rw [toDict_cls hu hg.ser, toDict_cls hu hg'.ser, wrapAll_ok, wrapAll_ok, cls_emit hc' rfl (by rw [hs']; intro g hg; rw [List.mem_singleton.1 hg]; rfl), seAt_cls]
    unfold clsF
    dsimp only
    rw [hc]
    dsimp only
    rw [htr, hs, hs', hcx, if_pos rfl]
    dsimp only
    rw [flat_unflat (a := seFieldArg f (.ok (.inst c attrs))) hfl]
    have harg : seFieldArg (bareField f) (.ok (.inst c' attrs)) = seFieldArg f (.ok (.inst c attrs)) := by
      unfold seFieldArg bareField withoutRules; dsimp only; rw [hfl]; rfl
    simp only [mapR]
    unfold emitAt
    rw [harg, hrule, hconv]
    cases (seAt env m).render (clsSeCx env c cd true so.reuse so.conv so.skipNone) (seFieldArg f (.ok (.inst c attrs))) with
    | error e => exact ⟨fun h => (by cases h), fun h => (by cases h)⟩
    | ok w' =>
      dsimp only [joinVals]
      constructor
      · intro h
        cases h
        have : skips env (seAt env (m + 1)) (clsSeCx env c cd true so.reuse so.conv so.skipNone) .never w = .ok false := by
          rcases hnone with h | h
          · cases w <;> simp [skips, clsSeCx, h]
          · cases w <;> first | rfl | exact absurd rfl h
        rw [this]
        rfl
      · intro h
        split at h
        · rename_i os hos
          cases hsk : skips env (seAt env (m + 1)) (clsSeCx env c cd true so.reuse so.conv so.skipNone) .never w' with
          | error e => rw [hsk] at hos; cases hos
          | ok b =>
            rw [hsk] at hos
            cases b with
            | true => cases hos; cases h
            | false =>
              cases hos
              injection h with h
              injection h with _ h
              injection h with h
              rw [(Prod.mk.inj h).2]
        · cases h

/-- **C28**, writing to tuple-based formats. -/
theorem C28_writes_tuple_partial {n w} (hc : env.cls c = some cd) (htr : cd.transparent = true) (hc' : env.cls c' = some (opaqueCopy cd))
    (ht : SameTables env c c') (hn : (cd.fields.map (·.name)).Nodup) (hacc : decorateTransparent cd.fields = .ok f)
    (hfl : f.flatten = false) (hu : NotUnion so.c) (hg : NoGlobal env c) (hg' : NoGlobal env c') :
    toTuple env so n (.inst c attrs) = .ok w ↔ toTuple env so n (.inst c' attrs) = .ok (.tuple [w]) := by
  have hsole := (C29_accepts_iff hn).1 hacc
  have hs := sole_se hn hsole
  have hs' : (opaqueCopy cd).seFieldsOf = [bareField f] := by
    have : (opaqueCopy cd).seFieldsOf = cd.seFieldsOf.map bareField := by
      unfold ClassDef.seFieldsOf opaqueCopy
      rw [List.filter_map]
      rfl
    rw [this, hs]; rfl
  have hcx : clsSeCx env c' (opaqueCopy cd) false so.reuse so.conv so.skipNone = clsSeCx env c cd false so.reuse so.conv so.skipNone := by
    unfold clsSeCx opaqueCopy; dsimp only; rw [ht.unions]
  match n with
  | 0 => exact ⟨fun h => (by cases h), fun h => (by cases h)⟩
  | 1 => rw [toTuple_cls hu hg.ser, toTuple_cls hu hg'.ser]; exact ⟨fun h => (by cases h), fun h => (by cases h)⟩
  | 2 =>
    rw [toTuple_cls hu hg.ser, toTuple_cls hu hg'.ser, wrapAll_ok, wrapAll_ok, seAt_cls, seAt_cls]
    unfold clsF
    dsimp only
    rw [hc, hc']
    dsimp only
    rw [htr, hs, hs']
    exact ⟨fun h => (by cases h), fun h => (by cases h)⟩
  | m + 3 =>
    rw [toTuple_render hc' rfl (by rw [hs']; intro g hg; rw [List.mem_singleton.1 hg]; rfl) hu hg'.ser, hs']
    unfold topSeCx
    rw [toTuple_cls hu hg.ser, wrapAll_ok, seAt_cls, hcx]
    unfold clsF
    dsimp only
    rw [hc]
    dsimp only
    rw [htr, hs, if_pos rfl]
    dsimp only
    rw [flat_unflat (a := seFieldArg f (.ok (.inst c attrs))) hfl]
    have harg : seFieldArg (bareField f) (.ok (.inst c' attrs)) = seFieldArg f (.ok (.inst c attrs)) := by
      unfold seFieldArg bareField withoutRules; dsimp only; rw [hfl]; rfl
    simp only [mapR]
    rw [harg]
    cases (seAt env m).render (clsSeCx env c cd false so.reuse so.conv so.skipNone) (seFieldArg f (.ok (.inst c attrs))) with
    | error e => simp
    | ok w' =>
      dsimp only [joinVals]
      constructor
      · intro h; cases h; exact ⟨[w], rfl, rfl⟩
      · rintro ⟨ws, h1, h2⟩
        cases h1
        injection h2 with h2
        injection h2 with h2
        rw [h2]

end

/-! ### Reading -/

/-- Positional sources ignore the default. -/
theorem render_dropDflt_idx {env : Env} (n : Nat) : ∀ (cx : DeCx) (a : DeArg) d i, a.src = .idx d i →
    (deAt env n).render cx a = (deAt env n).render cx { a with dflt := none } := by
  induction n with
  | zero => intros; rfl
  | succ n ih =>
    intro cx a d i hs
    rw [deAt_render, deAt_render]
    unfold deRenderF
    dsimp only
    have hB : deBody env (deAt env n) cx a = deBody env (deAt env n) cx { a with dflt := none } := by
      have hty : ∀ t ta, (deAt env n).render cx { a with ty := t, tyArgs := ta } =
          (deAt env n).render cx { a with ty := t, tyArgs := ta, dflt := none } := by
        intro t ta
        exact ih cx { a with ty := t, tyArgs := ta } d i hs
      obtain ⟨ty, name, conv, src, al, deser, fl, dflt, ta⟩ := a
      dsimp only at hs hty ⊢
      unfold deBody
      dsimp only
      have hp : pickDe cx.des { ty := ty, name := name, conv := conv, src := src, alias := al, deser := deser, flatten := fl, dflt := dflt, tyArgs := ta } =
        pickDe cx.des { ty := ty, name := name, conv := conv, src := src, alias := al, deser := deser, flatten := fl, tyArgs := ta } := rfl
      have hpd : primData cx { ty := ty, name := name, conv := conv, src := src, alias := al, deser := deser, flatten := fl, dflt := dflt, tyArgs := ta } =
        primData cx { ty := ty, name := name, conv := conv, src := src, alias := al, deser := deser, flatten := fl, tyArgs := ta } := rfl
      have hda : DeArg.data { ty := ty, name := name, conv := conv, src := src, alias := al, deser := deser, flatten := fl, dflt := dflt, tyArgs := ta } =
        DeArg.data { ty := ty, name := name, conv := conv, src := src, alias := al, deser := deser, flatten := fl, tyArgs := ta } := rfl
      have hoe : ∀ t, optExists env cx { ty := ty, name := name, conv := conv, src := src, alias := al, deser := deser, flatten := fl, dflt := dflt, tyArgs := ta } t =
        optExists env cx { ty := ty, name := name, conv := conv, src := src, alias := al, deser := deser, flatten := fl, tyArgs := ta } t := fun _ => rfl
      simp only [hp, hpd, hda, hoe, hty]
    rw [hB, hs]
    cases a.dflt <;> rfl

theorem sigMap_bareField (fs : List FieldDef) : SigMap bareField fs :=
  ⟨fun _ _ => rfl, fun _ _ => rfl, fun _ _ => rfl, fun _ _ => rfl, fun _ _ => rfl, fun _ _ => .inl rfl⟩

section
variable {env : Env} {o : DeOpts} {c c' : ClassId} {cd : ClassDef} {f : FieldDef} {attrs : List (String × Val)}

theorem opaque_sole (h : SoleField cd.fields f) : SoleField (opaqueCopy cd).fields (bareField f) where
  mem := List.mem_map.2 ⟨f, h.mem, rfl⟩
  init := h.init
  skip := h.skip
  skipSer := h.skipSer
  skipDe := h.skipDe
  others := by
    intro g hg hne
    obtain ⟨g', hg', rfl⟩ := List.mem_map.1 hg
    exact h.others g' hg' hne

theorem opaque_nodup (hn : (cd.fields.map (·.name)).Nodup) : ((opaqueCopy cd).fields.map (·.name)).Nodup := by
  unfold opaqueCopy
  dsimp only
  rw [List.map_map]
  exact hn

theorem kwBad_sole {cd : ClassDef} {f} (h : cd.deFields = [f]) : kwBad cd = false := by
  have hm : ((forceKw false cd.fields).filter (fun p => p.1.renderable)).map (·.1) = [f] := by
    have : (fun p : FieldDef × Bool => p.1.renderable) = FieldDef.renderable ∘ (·.1) := rfl
    rw [this, ← List.filter_map, forceKw_fst]
    exact h
  unfold kwBad
  rw [h]
  match hl : (forceKw false cd.fields).filter (fun p => p.1.renderable) with
  | [] => rw [hl] at hm; cases hm
  | [(g, kw)] => rw [hl]; cases kw <;> rfl
  | _ :: _ :: _ => rw [hl] at hm; simp at hm

/-- Construction from the one value read, however it is passed. -/
theorem transp_construct {named v} (hn : (cd.fields.map (·.name)).Nodup) (h : SoleField cd.fields f) :
    (match (if transpKw named cd f then .ok ([], [(f.name, v)]) else .ok ([v], []) : Res (List Val × List (String × Val))) with
      | .error e => .error e
      | .ok (pos, kw) => construct env c cd pos kw) = constructB env c cd [(f.name, v)] := by
  cases hk : transpKw named cd f with
  | true =>
    rw [if_pos rfl]
    dsimp only
    rw [construct_eq (by simp), List.zip_nil_right]
    rfl
  | false =>
    have hkw : f.kwOnly = false := by unfold transpKw at hk; simp only [Bool.or_eq_false_iff] at hk; exact hk.1
    rw [if_neg (by simp)]
    dsimp only
    have hp := sole_pos hn h hkw
    rw [construct_eq (by rw [hp]; simp), hp]
    rfl

theorem transp_deCls {r : DeRec} {named oc d} (hc : env.cls c = some cd) (htr : cd.transparent = true)
    (hn : (cd.fields.map (·.name)).Nodup) (h : SoleField cd.fields f) :
    deClsF env r named c oc d = match r.render (clsDeCx env c cd named oc d) (transpArg named f d) with
      | .error e => .error e
      | .ok v => constructB env c cd [(f.name, v)] := by
  have hd := sole_de hn h
  unfold ClassDef.deFields at hd
  unfold deClsF
  rw [hc]
  dsimp only
  unfold deArgs
  dsimp only
  rw [htr, if_pos rfl, hd]
  dsimp only
  cases r.render (clsDeCx env c cd named oc d) (transpArg named f d) with
  | error e => rfl
  | ok v => exact transp_construct hn h

theorem opaque_constructB {bound attrs} :
    constructB env c' (opaqueCopy cd) bound = .ok (.inst c' attrs) ↔ constructB env c cd bound = .ok (.inst c attrs) := by
  rw [constructB_map (c := c) (c' := c') (cd := cd) (cd' := opaqueCopy cd) (g := bareField) rfl (sigMap_bareField _) rfl rfl (fun _ _ => .inl rfl)]
  exact asInstOf_ok (fun v hv => constructB_inst hv)

theorem opaque_cx {named oc d d'} (ht : SameTables env c c') :
    clsDeCx env c' (opaqueCopy cd) named oc d' = { clsDeCx env c cd named oc d with data := d' } := by
  unfold clsDeCx opaqueCopy
  dsimp only
  rw [ht.unions, ht.lits]

/-- **C28**, reading: a transparent class reads its whole input the way its field is read by the copy `c'` that is not transparent, and
calls the constructor with the result. -/
theorem C28_reads_partial {n d dk} (hc : env.cls c = some cd) (htr : cd.transparent = true) (hc' : env.cls c' = some (opaqueCopy cd))
    (ht : SameTables env c c') (hn : (cd.fields.map (·.name)).Nodup) (hacc : decorateTransparent cd.fields = .ok f)
    (hfl : f.flatten = false) (hren : RenameOk f)
    (hg : NoGlobal env c) (hg' : NoGlobal env c') (hd : IsData c d) :
    fromDict env o n (.cls c) d = .ok (.inst c attrs) ↔
      fromDict env o n (.cls c') (.dict dk [(.str (wireName f.rename cd.deCase f.name), d)]) = .ok (.inst c' attrs) := by
  have hsole := (C29_accepts_iff hn).1 hacc
  have hd' : IsData c' (.dict dk [(.str (wireName f.rename cd.deCase f.name), d)]) := fun _ h => (by cases h)
  match n with
  | 0 => rw [fromDict_fuel (by omega) hg hd, fromDict_fuel (by omega) hg' hd']; exact ⟨fun h => (by cases h), fun h => (by cases h)⟩
  | 1 => rw [fromDict_fuel (by omega) hg hd, fromDict_fuel (by omega) hg' hd']; exact ⟨fun h => (by cases h), fun h => (by cases h)⟩
  | n + 2 =>
    have hfd : (opaqueCopy cd).hasFlatDict = false := by
      refine hasFlatDict_false (fun g hg => ?_)
      obtain ⟨g', hg', rfl⟩ := List.mem_map.1 hg
      rfl
    have hun : deUnknown env c' (opaqueCopy cd) (.dict dk [(.str (wireName f.rename cd.deCase f.name), d)]) = .ok false := rfl
    have hde := sole_de (opaque_nodup hn) (opaque_sole hsole)
    rw [fromDict_decode hc' rfl hfd hun hg' hd', fromDict_cls hg.de hd, wrapUser_ok, wrapUser_ok, transp_deCls hc htr hn hsole]
    unfold decodeCls
    rw [hde, kwBad_sole hde]
    simp only [mapR]
    rw [deField_plain (f := bareField f) rfl, opaque_cx (d := d) ht]
    have hconv : (bareField f).conv (opaqueCopy cd).deCase = wireName f.rename cd.deCase f.name := conv_eq_wireName hren _
    have hrender : ∀ cx : DeCx, (deAt env n).render { cx with data := .dict dk [(.str (wireName f.rename cd.deCase f.name), d)] }
        (plainArg (opaqueCopy cd) (bareField f) (.dict dk [(.str (wireName f.rename cd.deCase f.name), d)])) =
        (deAt env n).render cx (transpArg true f d) := by
      intro cx
      refine render_sim env n cx _ _ _ ⟨rfl, rfl, rfl, rfl, rfl, rfl, hfl, rfl, ?_⟩
      unfold plainArg transpArg
      dsimp only
      rw [hconv, if_pos rfl]
      refine .key ?_
      simp [getStr]
    rw [hrender]
    have hdf : (bareField f).dflt = f.dflt := rfl
    have hname : (bareField f).name = f.name := rfl
    rw [hdf]
    cases hr : (deAt env n).render (clsDeCx env c cd true (topCall o) d) (transpArg true f d) with
    | error e =>
      cases f.dflt with
      | some _ => simp
      | none =>
        cases hck : catchKey ((bareField f).conv (opaqueCopy cd).deCase) (.error e : Res Val) with
        | error e' => simp
        | ok v => rw [catchKey_ok] at hck; cases hck
    | ok v =>
      have hck : ∀ s, catchKey s (.ok v : Res Val) = .ok v := fun _ => rfl
      cases f.dflt <;>
      · dsimp only
        try rw [hck]
        simp only [Bool.false_eq_true, if_false, List.map, List.zip_cons_cons, List.zip_nil_right, hname]
        exact opaque_constructB.symm

/-- **C28**, reading from tuple-based formats. -/
theorem C28_reads_tuple_partial {n d} (hc : env.cls c = some cd) (htr : cd.transparent = true) (hc' : env.cls c' = some (opaqueCopy cd))
    (ht : SameTables env c c') (hn : (cd.fields.map (·.name)).Nodup) (hacc : decorateTransparent cd.fields = .ok f)
    (hfl : f.flatten = false) (hkw : f.kwOnly = false)
    (hg : NoGlobal env c) (hg' : NoGlobal env c') (hd : IsData c d) :
    fromTuple env o n (.cls c) d = .ok (.inst c attrs) ↔ fromTuple env o n (.cls c') (.tuple [d]) = .ok (.inst c' attrs) := by
  have hsole := (C29_accepts_iff hn).1 hacc
  have hd' : IsData c' (.tuple [d]) := fun _ h => (by cases h)
  match n with
  | 0 => exact ⟨fun h => (by cases h), fun h => (by cases h)⟩
  | 1 =>
    unfold fromTuple
    rw [fromObj_cls_fuel1 hg.de hd, fromObj_cls_fuel1 hg'.de hd']
    exact ⟨fun h => (by cases h), fun h => (by cases h)⟩
  | n + 2 =>
    have hde := sole_de (opaque_nodup hn) (opaque_sole hsole)
    have hpos := sole_pos (opaque_nodup hn) (opaque_sole hsole) hkw
    rw [fromTuple_cls hg.de hd, fromTuple_cls hg'.de hd', wrapUser_ok, wrapUser_ok, transp_deCls hc htr hn hsole]
    unfold deClsF
    rw [hc']
    dsimp only
    unfold deArgs
    dsimp only
    unfold deTupleArgs
    unfold ClassDef.deFields at hde
    rw [hde, if_neg (by exact Bool.false_ne_true), if_neg (by exact Bool.false_ne_true), opaque_cx (d := d) ht]
    simp only [List.zipIdx, mapR]
    have hrender : ∀ cx : DeCx, (deAt env n).render { cx with data := .tuple [d] }
        { ty := (bareField f).ty, name := (bareField f).name, conv := (bareField f).name, src := .idx (.tuple [d]) 0,
          alias := (bareField f).alias, deser := (bareField f).deserializer, flatten := (bareField f).flatten } =
        (deAt env n).render cx (transpArg false f d) := by
      intro cx
      rw [render_dropDflt_idx n cx (transpArg false f d) (.tuple [d]) 0 rfl]
      exact render_sim env n cx _ _ _ ⟨rfl, rfl, rfl, rfl, rfl, rfl, hfl, rfl, .idx rfl⟩
    rw [hrender]
    cases hr : (deAt env n).render (clsDeCx env c cd false (topCall o) d) (transpArg false f d) with
    | error e => simp
    | ok v =>
      dsimp only
      rw [construct_eq (by rw [hpos]; simp), hpos]
      exact opaque_constructB.symm

end

/-- A transparent class with an excluded helper field, and its copy. -/
def C28ex : ClassDef :=
  { name := "T", mro := ["T"], transparent := true, typeCheck := .disabled,
    fields := [{ name := "xs", ty := .list .list (.prim .int), rename := some "items" },
               { name := "memo", ty := .prim .int, init := false, skip := true, dflt := some (.int 0) }] }

def C28env : Env := Ex.mk [("T", C28ex), ("N", opaqueCopy C28ex)]

example : toDict C28env {} 9 (.inst "T" [("xs", .list [.int 1]), ("memo", .int 0)]) = .ok (.list [.int 1]) ↔
    toDict C28env {} 9 (.inst "N" [("xs", .list [.int 1]), ("memo", .int 0)]) = .ok (.dict .plain [(.str "items", .list [.int 1])]) :=
  C28_writes_partial (so := {}) (n := 9) (w := .list [.int 1]) (cd := C28ex) (f := { name := "xs", ty := .list .list (.prim .int), rename := some "items" }) rfl rfl rfl ⟨rfl, rfl⟩ (by decide) rfl rfl (by simp [RenameOk]) (.inl rfl)
    ⟨by simp [C28env, Ex.mk], by simp [C28env, Ex.mk]⟩ ⟨by simp [C28env, Ex.mk], by simp [C28env, Ex.mk]⟩ (.inl rfl)

example : toDict C28env {} 9 (.inst "T" [("xs", .list [.int 1]), ("memo", .int 0)]) = .ok (.list [.int 1]) := rfl

example : toTuple C28env {} 9 (.inst "T" [("xs", .list [.int 1]), ("memo", .int 0)]) = .ok (.list [.int 1]) ↔
    toTuple C28env {} 9 (.inst "N" [("xs", .list [.int 1]), ("memo", .int 0)]) = .ok (.tuple [.list [.int 1]]) :=
  C28_writes_tuple_partial (cd := C28ex) rfl rfl rfl ⟨rfl, rfl⟩ (by decide) rfl rfl (.inl rfl)
    ⟨by simp [C28env, Ex.mk], by simp [C28env, Ex.mk]⟩ ⟨by simp [C28env, Ex.mk], by simp [C28env, Ex.mk]⟩

example : fromDict C28env {} 9 (.cls "T") (.list [.int 1]) = .ok (.inst "T" [("xs", .list [.int 1]), ("memo", .int 0)]) ↔
    fromDict C28env {} 9 (.cls "N") (.dict .plain [(.str "items", .list [.int 1])]) = .ok (.inst "N" [("xs", .list [.int 1]), ("memo", .int 0)]) :=
  C28_reads_partial (env := C28env) (o := {}) (n := 9) (c := "T") (d := .list [.int 1]) (cd := C28ex)
    (f := { name := "xs", ty := .list .list (.prim .int), rename := some "items" }) rfl rfl rfl ⟨rfl, rfl⟩ (by decide) rfl rfl (by simp [RenameOk])
    ⟨by simp [C28env, Ex.mk], by simp [C28env, Ex.mk]⟩ ⟨by simp [C28env, Ex.mk], by simp [C28env, Ex.mk]⟩ (fun _ h => by cases h)

example : fromDict C28env {} 9 (.cls "T") (.list [.int 1]) = .ok (.inst "T" [("xs", .list [.int 1]), ("memo", .int 0)]) := rfl

example : fromTuple C28env {} 9 (.cls "T") (.list [.int 1]) = .ok (.inst "T" [("xs", .list [.int 1]), ("memo", .int 0)]) ↔
    fromTuple C28env {} 9 (.cls "N") (.tuple [.list [.int 1]]) = .ok (.inst "N" [("xs", .list [.int 1]), ("memo", .int 0)]) :=
  C28_reads_tuple_partial (cd := C28ex) rfl rfl rfl ⟨rfl, rfl⟩ (by decide) rfl rfl rfl
    ⟨by simp [C28env, Ex.mk], by simp [C28env, Ex.mk]⟩ ⟨by simp [C28env, Ex.mk], by simp [C28env, Ex.mk]⟩ (fun _ h => by cases h)

/-- **C28 is false of the code** when the single field is a dataclass marked `flatten`: serializing yields the bare values of the child's
fields instead of the child's dict, and deserializing looks for the child's keys beside the internal key under which the input is stored. -/
theorem C28_false_flattened : ∃ env : Env, ∃ cd f, env.cls "T" = some cd ∧ cd.transparent = true ∧ decorateTransparent cd.fields = .ok f ∧
    f.ty = .cls "A" ∧
    toDict env {} 9 (.inst "A" [("x", .int 1)]) = .ok (.dict .plain [(.str "x", .int 1)]) ∧
    toDict env {} 9 (.inst "T" [("a", .inst "A" [("x", .int 1)])]) = .ok (.int 1) ∧
    fromDict env {} 9 (.cls "A") (.dict .plain [(.str "x", .int 1)]) = .ok (.inst "A" [("x", .int 1)]) ∧
    ∃ e, fromDict env {} 9 (.cls "T") (.dict .plain [(.str "x", .int 1)]) = .error e :=
  ⟨Ex.mk [("T", { name := "T", mro := ["T"], transparent := true, fields := [{ name := "a", ty := .cls "A", flatten := true }] }),
          ("A", { name := "A", mro := ["A"], fields := [{ name := "x", ty := .prim .int }] })],
   _, _, rfl, rfl, rfl, rfl, rfl, rfl, rfl, _, rfl⟩

end Verif.Props
