import Verif.Lemmas.MapTwin
import Verif.Lemmas.Default
/-!
# `from_dict` of a class, field by field
-/

namespace Verif
open Spec

/-- The attributes of an object decoded with the values `val`: skipped fields have their default. -/
def attrsOf (fs : List FieldDef) (val : FieldDef → Val) : List (String × Val) :=
  match fs with
  | [] => []
  | f :: fs => match (if f.renderable then some (f.name, val f) else f.dflt.map (fun v => (f.name, v))) with
    | some e => e :: attrsOf fs val
    | none => attrsOf fs val

theorem attrsOf_cons {f fs} {val : FieldDef → Val} : attrsOf (f :: fs) val =
    (match (if f.renderable then some (f.name, val f) else f.dflt.map (fun v => (f.name, v))) with
      | some e => e :: attrsOf fs val
      | none => attrsOf fs val) := rfl

theorem attrsOf_keys {fs : List FieldDef} {val : FieldDef → Val} {k v} (h : (k, v) ∈ attrsOf fs val) : k ∈ fs.map (·.name) := by
  induction fs with
  | nil => cases h
  | cons f fs ih =>
    rw [attrsOf_cons] at h
    rw [List.map_cons, List.mem_cons]
    cases hr : f.renderable with
    | true =>
      rw [hr] at h
      simp only [if_true, List.mem_cons] at h
      rcases h with h | h
      · cases h; exact .inl rfl
      · exact .inr (ih h)
    | false =>
      rw [hr] at h
      simp only [Bool.false_eq_true, if_false] at h
      cases hd : f.dflt with
      | none => rw [hd] at h; exact .inr (ih h)
      | some x =>
        rw [hd] at h
        simp only [Option.map_some, List.mem_cons] at h
        rcases h with h | h
        · cases h; exact .inl rfl
        · exact .inr (ih h)

theorem initAttrs_fieldwise {bound : List (String × Val)} {fs : List FieldDef} {val : FieldDef → Val}
    (hb : ∀ f ∈ fs, bound.lookup f.name = if f.renderable then some (val f) else none) (attrs) :
    initAttrs bound fs = .ok attrs ↔ (∀ f ∈ fs, f.renderable = false → f.init = true → f.dflt ≠ none) ∧ attrs = attrsOf fs val := by
  induction fs generalizing attrs with
  | nil =>
    constructor
    · intro h
      unfold initAttrs at h
      cases h
      exact ⟨fun f hf => (by cases hf), rfl⟩
    · rintro ⟨_, rfl⟩; rfl
  | cons f fs ih =>
    have ih := ih (fun g hg => hb g (List.mem_cons_of_mem _ hg))
    have hf := hb f (by simp)
    unfold initAttrs
    dsimp only
    rw [hf]
    cases hr : f.renderable with
    | true =>
      rw [attrsOf_cons, hr]
      simp only [if_true, renderable_init hr]
      cases hi : initAttrs bound fs with
      | error e =>
        dsimp only
        refine ⟨fun h => (by cases h), fun ⟨h1, _⟩ => ?_⟩
        have := (ih (attrsOf fs val)).2 ⟨fun g hg => h1 g (List.mem_cons_of_mem _ hg), rfl⟩
        rw [hi] at this; cases this
      | ok r =>
        dsimp only
        obtain ⟨h1, rfl⟩ := (ih r).1 hi
        constructor
        · intro h
          cases h
          refine ⟨fun g hg hgr => ?_, rfl⟩
          rw [List.mem_cons] at hg
          rcases hg with rfl | hg
          · rw [hr] at hgr; cases hgr
          · exact h1 g hg hgr
        · rintro ⟨_, rfl⟩; rfl
    | false =>
      rw [attrsOf_cons, hr]
      simp only [Bool.false_eq_true, if_false]
      cases hd : f.dflt with
      | none =>
        cases hin : f.init with
        | true =>
          simp only [if_true]
          constructor
          · intro h; cases h
          · rintro ⟨h1, _⟩
            exact absurd hd (h1 f (by simp) hr hin)
        | false =>
          simp only [Bool.false_eq_true, if_false, Option.map_none]
          constructor
          · intro h
            cases hi : initAttrs bound fs with
            | error e => rw [hi] at h; cases h
            | ok r =>
              rw [hi] at h
              cases h
              obtain ⟨h1, rfl⟩ := (ih _).1 hi
              refine ⟨fun g hg hgr hgi => ?_, rfl⟩
              rw [List.mem_cons] at hg
              rcases hg with rfl | hg
              · rw [hin] at hgi; cases hgi
              · exact h1 g hg hgr hgi
          · rintro ⟨h1, rfl⟩
            rw [(ih (attrsOf fs val)).2 ⟨fun g hg => h1 g (List.mem_cons_of_mem _ hg), rfl⟩]
      | some dv =>
        have hv : (if f.init = true then (Except.ok (some dv) : Except PErr (Option Val)) else .ok (some dv)) = .ok (some dv) := by
          split <;> rfl
        simp only [hv, Option.map_some]
        constructor
        · intro h
          cases hi : initAttrs bound fs with
          | error e => rw [hi] at h; cases h
          | ok r =>
            rw [hi] at h
            cases h
            obtain ⟨h1, rfl⟩ := (ih _).1 hi
            refine ⟨fun g hg hgr hgi => ?_, rfl⟩
            rw [List.mem_cons] at hg
            rcases hg with rfl | hg
            · rw [hd]; simp
            · exact h1 g hg hgr hgi
        · rintro ⟨h1, rfl⟩
          rw [(ih (attrsOf fs val)).2 ⟨fun g hg => h1 g (List.mem_cons_of_mem _ hg), rfl⟩]

theorem mapR_val {g : FieldDef → Res Val} {fs : List FieldDef} {vs} :
    mapR g fs = .ok vs ↔ ∃ val : FieldDef → Val, (∀ f ∈ fs, g f = .ok (val f)) ∧ vs = fs.map val := by
  constructor
  · intro h
    refine ⟨fun f => match g f with
      | .ok v => v
      | .error _ => .none, ?_, ?_⟩
    · intro f hf
      cases hg : g f with
      | ok v => dsimp only; rw [hg]
      | error e =>
        obtain ⟨e', he'⟩ := mapR_error_of hf hg
        rw [he'] at h; cases h
    · induction fs generalizing vs with
      | nil => unfold mapR at h; cases h; rfl
      | cons f fs ih =>
        unfold mapR at h
        split at h
        · cases h
        · rename_i b hb
          split at h
          · cases h
          · rename_i bs hbs
            cases h
            rw [List.map_cons, hb, ← ih hbs]
  · rintro ⟨val, h, rfl⟩
    induction fs with
    | nil => rfl
    | cons f fs ih =>
      unfold mapR
      rw [h f (by simp)]
      dsimp only
      rw [ih (fun g hg => h g (List.mem_cons_of_mem _ hg))]
      rfl

theorem zip_map_lookup {fs : List FieldDef} {val : FieldDef → Val} (hn : (fs.map (·.name)).Nodup) {f} (hf : f ∈ fs) :
    ((fs.map (·.name)).zip (fs.map val)).lookup f.name = some (val f) := by
  obtain ⟨v, h1, h2⟩ := zip_lookup_decoded (g := fun f => .ok (val f)) (mapR_val.2 ⟨val, fun _ _ => rfl, rfl⟩) hn hf
  cases h1
  exact h2

theorem argsBearable_zip {env : Env} {cd : ClassDef} {val : FieldDef → Val} (hn : (cd.fields.map (·.name)).Nodup) {fs : List FieldDef}
    (hs : ∀ f ∈ fs, f ∈ cd.fields) :
    argsBearable env cd ((fs.map (·.name)).zip (fs.map val)) = true ↔ ∀ f ∈ fs, bearable env f.ty (val f) = true := by
  induction fs with
  | nil => simp [argsBearable]
  | cons f fs ih =>
    have hfind : cd.fields.find? (fun g => g.name == f.name) = some f := by
      cases hx : cd.fields.find? (fun g => g.name == f.name) with
      | none =>
        have := List.find?_eq_none.1 hx f (hs f (by simp))
        simp at this
      | some g =>
        have h1 := List.mem_of_find?_eq_some hx
        have h2 := List.find?_some hx
        have h2 : g.name = f.name := by simpa using h2
        rw [inj_of_nodup_map hn h1 (hs f (by simp)) h2]
    simp only [List.map_cons, List.zip_cons_cons]
    unfold argsBearable
    rw [hfind]
    dsimp only
    rw [Bool.and_eq_true, ih (fun g hg => hs g (List.mem_cons_of_mem _ hg))]
    simp

/-- The conditions under which decoding with the values `val` gives an object. -/
structure Built (env : Env) (cd : ClassDef) (val : FieldDef → Val) : Prop where
  ctor : ∀ f ∈ cd.fields, f.renderable = false → f.init = true → f.dflt ≠ none
  args : kwBad cd = false
  strict : cd.typeCheck = .strict → ∀ f ∈ cd.fields, f.renderable = true → bearable env f.ty (val f) = true

theorem decodeCls_fieldwise {env : Env} {r : DeRec} {c} {cd : ClassDef} {o ex d attrs} (hp : cd.postInit = none)
    (hn : (cd.fields.map (·.name)).Nodup) :
    decodeCls env r c cd o ex d = .ok (.inst c attrs) ↔ ∃ val : FieldDef → Val,
      (∀ f ∈ cd.fields, f.renderable = true → deField env r (clsDeCx env c cd true o d) c cd ex d f = .ok (val f)) ∧
      Built env cd val ∧ attrs = attrsOf cd.fields val := by
  have hsub : (cd.deFields.map (·.name)).Nodup := hn.sublist ((List.filter_sublist).map _)
  have hlook : ∀ val : FieldDef → Val, ∀ f ∈ cd.fields, ((cd.deFields.map (·.name)).zip (cd.deFields.map val)).lookup f.name =
      if f.renderable then some (val f) else none := by
    intro val f hf
    split
    · rename_i hr
      exact zip_map_lookup hsub (List.mem_filter.2 ⟨hf, hr⟩)
    · rename_i hr
      apply zip_lookup_none
      intro hmem
      rw [List.mem_map] at hmem
      obtain ⟨g, hg, he⟩ := hmem
      have := inj_of_nodup_map hn (List.mem_filter.1 hg).1 hf he
      subst this
      exact hr (List.mem_filter.1 hg).2
  have hdec : ∀ val : FieldDef → Val, (if kwBad cd then .error decorErr else
      constructB env c cd ((cd.deFields.map (·.name)).zip (cd.deFields.map val))) = .ok (.inst c attrs) ↔
      Built env cd val ∧ attrs = attrsOf cd.fields val := by
    intro val
    have hi := initAttrs_fieldwise (bound := (cd.deFields.map (·.name)).zip (cd.deFields.map val)) (hlook val)
    have ha := argsBearable_zip (env := env) (val := val) hn (fs := cd.deFields) (fun f hf => (List.mem_filter.1 hf).1)
    constructor
    · intro h
      split at h
      · cases h
      · rename_i hk
        obtain ⟨attrs', he, h1, h2⟩ := constructB_ok hp h
        cases he
        obtain ⟨h3, h4⟩ := (hi _).1 h1
        exact ⟨⟨h3, by simpa using hk, fun ht f hf hr => ha.1 (h2 ht) f (List.mem_filter.2 ⟨hf, hr⟩)⟩, h4⟩
    · rintro ⟨hB, rfl⟩
      rw [hB.args]
      simp only [Bool.false_eq_true, if_false]
      unfold constructB
      rw [(hi _).2 ⟨hB.ctor, rfl⟩, hp]
      split
      · rename_i hx
        exfalso
        simp only [Bool.and_eq_true, beq_iff_eq, Bool.not_eq_true'] at hx
        rw [ha.2 (fun f hf => hB.strict hx.1 f (List.mem_filter.1 hf).1 (List.mem_filter.1 hf).2)] at hx
        cases hx.2
      · rfl
  unfold decodeCls
  constructor
  · intro h
    split at h
    · cases h
    · rename_i vs hm
      obtain ⟨val, h1, rfl⟩ := mapR_val.1 hm
      exact ⟨val, fun f hf hr => h1 f (List.mem_filter.2 ⟨hf, hr⟩), (hdec val).1 h⟩
  · rintro ⟨val, h1, h2⟩
    rw [mapR_val (fs := cd.deFields) |>.2 ⟨val, fun f hf => h1 f (List.mem_filter.1 hf).1 (List.mem_filter.1 hf).2, rfl⟩]
    exact (hdec val).2 h2

/-- `from_dict` of a class without flattened dict, field by field. -/
theorem fromDict_fieldwise {env : Env} {o : DeOpts} {n c} {cd : ClassDef} {d attrs} (hc : env.cls c = some cd) (htr : cd.transparent = false)
    (hfd : cd.hasFlatDict = false) (hp : cd.postInit = none) (hn : (cd.fields.map (·.name)).Nodup) (hg : NoGlobal env c) (hd : IsData c d) :
    fromDict env o (n + 2) (.cls c) d = .ok (.inst c attrs) ↔ deUnknown env c cd d = .ok false ∧ ∃ val : FieldDef → Val,
      (∀ f ∈ cd.fields, f.renderable = true →
        deField env (deAt env n) (clsDeCx env c cd true (topCall o) d) c cd [] d f = .ok (val f)) ∧
      Built env cd val ∧ attrs = attrsOf cd.fields val := by
  rw [fromDict_cls hg.de hd, deClsF_named hc htr, deExtra_none hfd, wrapUser_ok]
  cases hu : deUnknown env c cd d with
  | error e => simp
  | ok b =>
    cases b with
    | true => simp
    | false =>
      dsimp only
      rw [decodeCls_fieldwise hp hn]
      simp

theorem attrsOf_lookup {fs : List FieldDef} {val : FieldDef → Val} (hn : (fs.map (·.name)).Nodup) {f} (hf : f ∈ fs) :
    (attrsOf fs val).lookup f.name = if f.renderable then some (val f) else f.dflt := by
  induction fs with
  | nil => cases hf
  | cons g fs ih =>
    rw [List.map_cons, List.nodup_cons] at hn
    rw [List.mem_cons] at hf
    rw [attrsOf_cons]
    have hnone : ∀ k, k ∉ fs.map (·.name) → (attrsOf fs val).lookup k = none := by
      intro k hk
      exact lookup_none_of_keys (fun v hv => hk (attrsOf_keys hv))
    have hne : ∀ {v}, f ∈ fs → ((g.name, v) :: attrsOf fs val).lookup f.name = (attrsOf fs val).lookup f.name := by
      intro v hf'
      rw [List.lookup_cons]
      have : (f.name == g.name) = false := by
        rw [beq_eq_false_iff_ne]
        intro he
        exact hn.1 (List.mem_map.2 ⟨f, hf', he⟩)
      rw [this]
    rcases hf with rfl | hf
    · cases hr : f.renderable with
      | true => simp
      | false =>
        simp only [Bool.false_eq_true, if_false]
        cases hd : f.dflt with
        | none => exact hnone _ hn.1
        | some x => simp
    · rw [← ih hn.2 hf]
      cases hr : g.renderable with
      | true => exact hne hf
      | false =>
        simp only [Bool.false_eq_true, if_false]
        cases hd : g.dflt with
        | none => rfl
        | some x => exact hne hf

end Verif
