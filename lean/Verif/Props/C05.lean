import Verif.Lemmas.SeGen
import Verif.Lemmas.Named
import Verif.Spec.Emit
import Verif.Examples.World
/-!
# C05, C06, C10, C12, C13, C14: what is written
-/

namespace Verif.Props
open Spec

/-! ## Helpers -/

theorem seFieldsOf_eq (cd : ClassDef) : cd.seFieldsOf = cd.fields.filter serializable := by
  unfold ClassDef.seFieldsOf
  congr 1
  funext f
  unfold serializable
  cases f.skip <;> cases f.skipSer <;> rfl

theorem skipRule_never {cd : ClassDef} {f : FieldDef} (h : ¬ HasRule cd f) : f.skipRule cd = .never := by
  have h1 : f.skipIf = none := by
    cases hs : f.skipIf with
    | none => rfl
    | some p => exact absurd (.inl (by rw [hs]; rfl)) h
  have h2 : f.skipIfFalse = false := Bool.eq_false_iff.2 fun hh => h (.inr (.inl hh))
  have h3 : f.skipIfDefault.getD cd.skipIfDefaultDflt = false := by
    refine Bool.eq_false_iff.2 fun hh => h (.inr (.inr (.inl ?_)))
    unfold skipsDefault
    cases hd : f.skipIfDefault <;> rw [hd] at hh <;> exact hh
  have h4 : f.skipIfNone.getD cd.skipIfNoneDflt = false := by
    refine Bool.eq_false_iff.2 fun hh => h (.inr (.inr (.inr ?_)))
    unfold skipsNone
    cases hd : f.skipIfNone <;> rw [hd] at hh <;> exact hh
  unfold FieldDef.skipRule
  rw [h1, h2, h3, h4]
  rfl

theorem emitAt_some {env : Env} {m cx cd obj f e} (h : emitAt env m cx cd obj f = .ok (some e)) :
    (seAt env m).render cx (seFieldArg f (.ok obj)) = .ok e.2 ∧ e.1 = .str (f.conv cd.seCase) := by
  unfold emitAt at h
  split at h
  · cases h
  · split at h
    · cases h
    · cases h
    · cases h; rename_i hr _ _; exact ⟨hr, rfl⟩

/-- Pair the emitted entries with their fields. -/
theorem emit_list {env : Env} {m cx cd obj} {fs : List FieldDef} {os} (h : mapR (emitAt env m cx cd obj) fs = .ok os) :
    ∃ L : List (FieldDef × Val), os.filterMap id = L.map (fun p => (.str (p.1.conv cd.seCase), p.2)) ∧ (L.map (·.1)).Sublist fs ∧
      (∀ p ∈ L, (seAt env m).render cx (seFieldArg p.1 (.ok obj)) = .ok p.2) ∧
      ∀ f ∈ fs, emitAt env m cx cd obj f = .ok none ∨ f ∈ L.map (·.1) := by
  induction fs generalizing os with
  | nil => cases h; exact ⟨[], rfl, .refl _, by simp, by simp⟩
  | cons f fs ih =>
    simp only [mapR] at h
    split at h
    · cases h
    · rename_i o ho
      split at h
      · cases h
      · rename_i os' hos
        cases h
        obtain ⟨L, h1, h2, h3, h4⟩ := ih hos
        cases o with
        | none =>
          refine ⟨L, by simpa using h1, h2.cons _, h3, ?_⟩
          intro g hg
          rcases List.mem_cons.1 hg with rfl | hg
          · exact .inl ho
          · exact h4 g hg
        | some e =>
          obtain ⟨he1, he2⟩ := emitAt_some ho
          refine ⟨(f, e.2) :: L, ?_, by simpa using h2, ?_, ?_⟩
          · simp [h1, ← he2]
          · intro p hp
            rcases List.mem_cons.1 hp with rfl | hp
            · exact he1
            · exact h3 p hp
          · intro g hg
            rcases List.mem_cons.1 hg with rfl | hg
            · exact .inr (by simp)
            · rcases h4 g hg with h | h
              · exact .inl h
              · exact .inr (by simp only [List.map_cons, List.mem_cons]; exact .inr h)

theorem mem_of_not_none {env : Env} {m cx cd obj f} (h : emitAt env m cx cd obj f = .ok none) (hr : ¬ HasRule cd f) : cx.skipNone = true := by
  unfold emitAt at h
  rw [skipRule_never hr] at h
  split at h
  · cases h
  · rename_i sub _
    cases sub <;> simp [skips] at h
    split at h
    · cases h
    · rename_i hh; exact Except.ok.inj hh
    · cases h

/-! ## C05 -/

/-- **C05** For a class without flattened fields the result of `to_dict` is a dict whose entries belong to serializable fields, in
declaration order, each under its wire name; a field may only be missing if it has a skip rule or `skip_none` was given. -/
theorem C05_dict_shape {env : Env} {so : SeOpts} {n c} {cd : ClassDef} {attrs w} (hc : env.cls c = some cd) (htr : cd.transparent = false)
    (hfl : ∀ f ∈ cd.fields, f.flatten = false) (hren : ∀ f ∈ cd.fields, RenameOk f) (hu : NotUnion so.c) (hg : NoGlobal env c)
    (hn : ((cd.fields.filter serializable).map (fun f => wireName f.rename cd.seCase f.name)).Nodup)
    (h : toDict env so n (.inst c attrs) = .ok w) :
    ∃ L : List (FieldDef × Val), w = .dict .plain (L.map (fun p => (.str (wireName p.1.rename cd.seCase p.1.name), p.2))) ∧
      (L.map (·.1)).Sublist (cd.fields.filter serializable) ∧
      ∀ f ∈ cd.fields, serializable f = true → f ∈ L.map (·.1) ∨ HasRule cd f ∨ so.skipNone = true := by
  have hsub : ∀ f ∈ cd.seFieldsOf, f ∈ cd.fields := by rw [seFieldsOf_eq]; intro f hf; exact (List.mem_filter.1 hf).1
  have hconv : ∀ f ∈ cd.seFieldsOf, f.conv cd.seCase = wireName f.rename cd.seCase f.name := fun f hf => conv_eq_wireName (hren f (hsub f hf)) _
  rcases toDict_low hc htr hu hg.ser h with ⟨m, rfl⟩ | hs
  · have hn' : (cd.seFieldsOf.map (fun f => f.conv cd.seCase)).Nodup := by
      rw [List.map_congr_left hconv, seFieldsOf_eq]; exact hn
    obtain ⟨os, hos, rfl⟩ := (toDict_emit hc htr (fun f hf => hfl f (hsub f hf)) hu hg.ser hn').1 h
    obtain ⟨L, h1, h2, h3, h4⟩ := emit_list hos
    refine ⟨L, ?_, by rw [← seFieldsOf_eq]; exact h2, ?_⟩
    · rw [h1]
      congr 1
      refine List.map_congr_left (fun p hp => ?_)
      rw [hconv p.1 (h2.subset (List.mem_map_of_mem hp))]
    · intro f hf hs
      have hf' : f ∈ cd.seFieldsOf := by rw [seFieldsOf_eq]; exact List.mem_filter.2 ⟨hf, hs⟩
      rcases h4 f hf' with h | h
      · by_cases hr : HasRule cd f
        · exact .inr (.inl hr)
        · exact .inr (.inr (mem_of_not_none h hr))
      · exact .inl h
  · have h' : toDict env so (n + 3) (.inst c attrs) = .ok w := toDict_mono (by omega) h
    obtain ⟨os, hos, rfl⟩ := (toDict_emit hc htr (fun f hf => hfl f (hsub f hf)) hu hg.ser (by simp [hs])).1 h'
    rw [hs] at hos
    cases hos
    refine ⟨[], rfl, by simp, ?_⟩
    intro f hf hss
    have : f ∈ cd.seFieldsOf := by rw [seFieldsOf_eq]; exact List.mem_filter.2 ⟨hf, hss⟩
    rw [hs] at this; cases this

/-- **C05** The entry of a field depends on that field's attribute only. -/
theorem C05_dict_local {env : Env} {so : SeOpts} {n n' c} {cd : ClassDef} {attrs attrs'} {f : FieldDef} {kvs kvs' w w'} (hc : env.cls c = some cd)
    (htr : cd.transparent = false) (hfl : ∀ f ∈ cd.fields, f.flatten = false) (hren : ∀ f ∈ cd.fields, RenameOk f)
    (hu : NotUnion so.c) (hg : NoGlobal env c)
    (hn : ((cd.fields.filter serializable).map (fun f => wireName f.rename cd.seCase f.name)).Nodup)
    (hf : f ∈ cd.fields) (hfs : serializable f = true)
    (h : toDict env so n (.inst c attrs) = .ok (.dict .plain kvs)) (h' : toDict env so n' (.inst c attrs') = .ok (.dict .plain kvs'))
    (ha : attrs.lookup f.name = attrs'.lookup f.name)
    (hw : (.str (wireName f.rename cd.seCase f.name), w) ∈ kvs) (hw' : (.str (wireName f.rename cd.seCase f.name), w') ∈ kvs') : w = w' := by
  have hsub : ∀ f ∈ cd.seFieldsOf, f ∈ cd.fields := by rw [seFieldsOf_eq]; intro f hf; exact (List.mem_filter.1 hf).1
  have hconv : ∀ f ∈ cd.seFieldsOf, f.conv cd.seCase = wireName f.rename cd.seCase f.name := fun f hf => conv_eq_wireName (hren f (hsub f hf)) _
  have hn' : (cd.seFieldsOf.map (fun f => f.conv cd.seCase)).Nodup := by
    rw [List.map_congr_left hconv, seFieldsOf_eq]; exact hn
  have hf' : f ∈ cd.seFieldsOf := by rw [seFieldsOf_eq]; exact List.mem_filter.2 ⟨hf, hfs⟩
  have key : ∀ {attrs kvs w}, toDict env so (max n n' + 3) (.inst c attrs) = .ok (.dict .plain kvs) →
      (.str (wireName f.rename cd.seCase f.name), w) ∈ kvs →
      (seAt env (max n n')).render (topSeCx env c cd true so) (seFieldArg f (.ok (.inst c attrs))) = .ok w := by
    intro attrs kvs w h hw
    obtain ⟨os, hos, he⟩ := (toDict_emit hc htr (fun f hf => hfl f (hsub f hf)) hu hg.ser hn').1 h
    obtain ⟨L, h1, h2, h3, h4⟩ := emit_list hos
    injection he with _ he
    rw [he, h1] at hw
    obtain ⟨p, hp, he⟩ := List.mem_map.1 hw
    obtain ⟨he1, he2⟩ := Prod.mk.inj he
    have hpf : p.1 ∈ cd.seFieldsOf := h2.subset (List.mem_map_of_mem hp)
    have : p.1 = f := inj_of_nodup_map hn' hpf hf' (by rw [hconv f hf']; exact Val.str.inj he1)
    rw [← this, ← he2]
    exact h3 p hp
  have k1 := key (toDict_mono (by omega) h) hw
  have k2 := key (toDict_mono (by omega) h') hw'
  have : seFieldArg f (.ok (.inst c attrs)) = seFieldArg f (.ok (.inst c attrs')) := by
    unfold seFieldArg getAttr; dsimp only; rw [ha]
  rw [this] at k1
  rw [k1] at k2
  exact Except.ok.inj k2

/-- `x: int = field(rename="X", skip_if_false=True)`, `y: str`, `z: int = field(skip=True)`. -/
def C05ex : ClassDef :=
  { name := "A", mro := ["A"], fields := [{ name := "x", ty := .prim .int, rename := some "X", skipIfFalse := true },
    { name := "y", ty := .prim .str }, { name := "z", ty := .prim .int, skip := true, dflt := some (.int 0) }] }

example : toDict (Ex.mk [("A", C05ex)]) {} 9 (.inst "A" [("x", .int 1), ("y", .str "s"), ("z", .int 5)]) =
    .ok (.dict .plain [(.str "X", .int 1), (.str "y", .str "s")]) := rfl

example : ∃ L : List (FieldDef × Val), Val.dict .plain [(.str "X", .int 1), (.str "y", .str "s")] =
      .dict .plain (L.map (fun p => (.str (wireName p.1.rename none p.1.name), p.2))) ∧
      (L.map (·.1)).Sublist (C05ex.fields.filter serializable) ∧
      ∀ f ∈ C05ex.fields, serializable f = true → f ∈ L.map (·.1) ∨ HasRule C05ex f ∨ false = true :=
  C05_dict_shape (env := Ex.mk [("A", C05ex)]) (so := {}) (n := 9) (c := "A") (attrs := [("x", .int 1), ("y", .str "s"), ("z", .int 5)]) rfl rfl
    (by simp [C05ex]) (by simp [C05ex, RenameOk]) (.inl rfl) ⟨by simp [Ex.mk], by simp [Ex.mk]⟩ (by decide) rfl

/-- The entry `y` of two objects that agree on `y` only. -/
example {w w' : Val} (hw : (.str "y", w) ∈ [(Val.str "X", Val.int 1), (.str "y", .str "s")]) (hw' : (.str "y", w') ∈ [(Val.str "X", Val.int 7), (.str "y", .str "s")]) : w = w' :=
  C05_dict_local (env := Ex.mk [("A", C05ex)]) (so := {}) (n := 9) (n' := 9) (c := "A") (attrs := [("x", .int 1), ("y", .str "s"), ("z", .int 5)])
    (attrs' := [("x", .int 7), ("y", .str "s"), ("z", .int 6)]) (f := { name := "y", ty := .prim .str }) rfl rfl
    (by simp [C05ex]) (by simp [C05ex, RenameOk]) (.inl rfl) ⟨by simp [Ex.mk], by simp [Ex.mk]⟩ (by decide) (by simp [C05ex]) rfl rfl rfl rfl hw hw'

/-! ## C06 -/

/-- **C06** `to_tuple` has one entry per serializable field, in declaration order: entry `i` is determined by the attribute of the
`i`-th serializable field. -/
theorem C06_tuple_shape {env : Env} {so : SeOpts} {n n' c} {cd : ClassDef} {attrs attrs' w w'} (hc : env.cls c = some cd) (htr : cd.transparent = false)
    (hfl : ∀ f ∈ cd.fields, f.flatten = false) (hu : NotUnion so.c) (hg : NoGlobal env c)
    (h : toTuple env so n (.inst c attrs) = .ok w) (h' : toTuple env so n' (.inst c attrs') = .ok w') :
    ∃ ws ws', w = .tuple ws ∧ w' = .tuple ws' ∧ ws.length = (cd.fields.filter serializable).length ∧
      ws'.length = (cd.fields.filter serializable).length ∧
      ∀ (i : Nat) (f : FieldDef), (cd.fields.filter serializable)[i]? = some f → attrs.lookup f.name = attrs'.lookup f.name → ws[i]? = ws'[i]? := by
  have hsub : ∀ f ∈ cd.seFieldsOf, f ∈ cd.fields := by rw [seFieldsOf_eq]; intro f hf; exact (List.mem_filter.1 hf).1
  have h1 : toTuple env so (max n n' + 3) (.inst c attrs) = .ok w := toTuple_mono (by omega) h
  have h2 : toTuple env so (max n n' + 3) (.inst c attrs') = .ok w' := toTuple_mono (by omega) h'
  obtain ⟨ws, hws, rfl⟩ := (toTuple_render hc htr (fun f hf => hfl f (hsub f hf)) hu hg.ser).1 h1
  obtain ⟨ws', hws', rfl⟩ := (toTuple_render hc htr (fun f hf => hfl f (hsub f hf)) hu hg.ser).1 h2
  refine ⟨ws, ws', rfl, rfl, by rw [mapR_ok_length hws, seFieldsOf_eq], by rw [mapR_ok_length hws', seFieldsOf_eq], ?_⟩
  intro i f hi ha
  rw [← seFieldsOf_eq] at hi
  have hlt : i < cd.seFieldsOf.length := by
    rw [List.getElem?_eq_some_iff] at hi; exact hi.1
  have e1 := mapR_ok_get hws
  have e2 := mapR_ok_get hws'
  have l1 := mapR_ok_length hws
  have l2 := mapR_ok_length hws'
  have hfe : cd.seFieldsOf[i] = f := by rw [List.getElem?_eq_some_iff] at hi; exact hi.2
  have g1 := e1 (cd.seFieldsOf[i], ws[i]'(by omega)) (by rw [List.mem_iff_getElem]; exact ⟨i, by simp; omega, by simp⟩)
  have g2 := e2 (cd.seFieldsOf[i], ws'[i]'(by omega)) (by rw [List.mem_iff_getElem]; exact ⟨i, by simp; omega, by simp⟩)
  dsimp only at g1 g2
  rw [hfe] at g1 g2
  have : seFieldArg f (.ok (.inst c attrs)) = seFieldArg f (.ok (.inst c attrs')) := by
    unfold seFieldArg getAttr; dsimp only; rw [ha]
  rw [this] at g1
  rw [g1] at g2
  rw [List.getElem?_eq_getElem (by omega), List.getElem?_eq_getElem (by omega), Except.ok.inj g2]

/-- **C06** Skip rules do not shift positions: `to_tuple` of the class is `to_tuple` of its copy without skip rules. -/
theorem C06_rules_irrelevant {env : Env} {so : SeOpts} {n c c'} {cd : ClassDef} {attrs} (hc : env.cls c = some cd)
    (hc' : env.cls c' = some { cd with fields := cd.fields.map withoutRules }) (ht : SameTables env c c')
    (hu : NotUnion so.c) (hg : NoGlobal env c) (hg' : NoGlobal env c') :
    toTuple env so n (.inst c attrs) = toTuple env so n (.inst c' attrs) := by
  match n with
  | 0 => rfl
  | 1 => rw [toTuple_cls hu hg.ser, toTuple_cls hu hg'.ser]; rfl
  | n + 2 =>
    rw [toTuple_cls hu hg.ser, toTuple_cls hu hg'.ser, seAt_cls, seAt_cls]
    unfold clsF
    dsimp only
    rw [hc, hc']
    have hs : ({ cd with fields := cd.fields.map withoutRules } : ClassDef).seFieldsOf = cd.seFieldsOf.map withoutRules := by
      unfold ClassDef.seFieldsOf
      rw [List.filter_map]
      rfl
    have hcx : clsSeCx env c' { cd with fields := cd.fields.map withoutRules } false so.reuse so.conv so.skipNone =
        clsSeCx env c cd false so.reuse so.conv so.skipNone := by
      unfold clsSeCx; dsimp only; rw [ht.unions]
    have harg : ∀ f, seFieldArg (withoutRules f) (.ok (.inst c' attrs)) = seFieldArg f (.ok (.inst c attrs)) := fun f => rfl
    dsimp only
    rw [hs, hcx]
    cases htr : cd.transparent with
    | false =>
      simp only [Bool.false_eq_true, if_false]
      have : ∀ fs : List FieldDef, concatR (fun f => (seAt env n).flat (clsSeCx env c cd false so.reuse so.conv so.skipNone) (seFieldArg f (.ok (.inst c' attrs)))) (fs.map withoutRules) =
          concatR (fun f => (seAt env n).flat (clsSeCx env c cd false so.reuse so.conv so.skipNone) (seFieldArg f (.ok (.inst c attrs)))) fs := by
        intro fs
        induction fs with
        | nil => rfl
        | cons f fs ih => simp only [List.map_cons, concatR, harg, ih]
      rw [this]
    | true =>
      simp only [if_true]
      cases cd.seFieldsOf with
      | nil => rfl
      | cons f fs => simp only [List.map_cons, harg]

example : ∃ ws ws', Val.tuple [.int 1, .str "s"] = .tuple ws ∧ Val.tuple [.int 0, .str "s"] = .tuple ws' ∧ ws.length = 2 ∧ ws'.length = 2 ∧
    ∀ (i : Nat) (f : FieldDef), (C05ex.fields.filter serializable)[i]? = some f →
      List.lookup f.name [("x", Val.int 1), ("y", .str "s"), ("z", .int 5)] = List.lookup f.name [("x", Val.int 0), ("y", .str "s"), ("z", .int 6)] → ws[i]? = ws'[i]? :=
  C06_tuple_shape (env := Ex.mk [("A", C05ex)]) (so := {}) (n := 9) (n' := 9) (c := "A") rfl rfl (by simp [C05ex]) (.inl rfl)
    ⟨by simp [Ex.mk], by simp [Ex.mk]⟩ rfl rfl

/-- Without the rule on `x` the tuple is the same. -/
example : toTuple (Ex.mk [("A", C05ex), ("B", { C05ex with fields := C05ex.fields.map withoutRules })]) {} 9 (.inst "A" [("x", .int 0), ("y", .str "s"), ("z", .int 5)]) =
    toTuple (Ex.mk [("A", C05ex), ("B", { C05ex with fields := C05ex.fields.map withoutRules })]) {} 9 (.inst "B" [("x", .int 0), ("y", .str "s"), ("z", .int 5)]) :=
  C06_rules_irrelevant (cd := C05ex) rfl rfl ⟨rfl, rfl⟩ (.inl rfl) ⟨by simp [Ex.mk], by simp [Ex.mk]⟩ ⟨by simp [Ex.mk], by simp [Ex.mk]⟩

end Verif.Props
