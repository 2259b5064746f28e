import Verif.Lemmas.Names
/-!
# The dict template in normal form: decode every field, then bind by name
-/

namespace Verif
open Spec

/-- Keyword-only fields precede positional ones, so that the generated call is not valid Python. -/
def kwBad (cd : ClassDef) : Bool :=
  match splitArgs ((forceKw false cd.fields).filter (fun p => p.1.renderable)) (cd.deFields.map (fun _ => .none)) with
  | .ok _ => false
  | .error _ => true

theorem forceKw_fst (b : Bool) (fs : List FieldDef) : (forceKw b fs).map (·.1) = fs := by
  induction fs generalizing b with
  | nil => rfl
  | cons f fs ih => unfold forceKw; simp [ih]

theorem splitArgs_shape {ps : List (FieldDef × Bool)} {vs ws : List Val} (h : vs.length = ws.length) :
    (∀ p k, splitArgs ps vs = .ok (p, k) → ∃ p' k', splitArgs ps ws = .ok (p', k') ∧ p'.length = p.length) ∧
    (∀ e, splitArgs ps vs = .error e → splitArgs ps ws = .error decorErr ∧ e = decorErr) := by
  induction ps generalizing vs ws with
  | nil =>
    refine ⟨fun p k h => ?_, fun e h => ?_⟩
    · simp only [splitArgs] at h ⊢
      cases h
      exact ⟨[], [], rfl, rfl⟩
    · simp only [splitArgs] at h; cases h
  | cons fk ps ih =>
    obtain ⟨f, kw⟩ := fk
    cases vs with
    | nil =>
      cases ws with
      | nil =>
        refine ⟨fun p k h => ?_, fun e h => ?_⟩
        · simp only [splitArgs] at h ⊢
          cases h
          exact ⟨[], [], rfl, rfl⟩
        · simp only [splitArgs] at h; cases h
      | cons w ws => simp at h
    | cons v vs =>
      cases ws with
      | nil => simp at h
      | cons w ws =>
        have hl : vs.length = ws.length := by simpa using h
        obtain ⟨h1, h2⟩ := ih hl
        cases hs : splitArgs ps vs with
        | error e =>
          obtain ⟨h3, h4⟩ := h2 e hs
          refine ⟨fun p k h => ?_, fun e' h => ?_⟩
          · simp only [splitArgs, hs] at h; cases h
          · simp only [splitArgs, hs] at h
            cases h
            exact ⟨by simp only [splitArgs, h3], h4⟩
        | ok pk =>
          obtain ⟨p, k⟩ := pk
          obtain ⟨p', k', h3, h4⟩ := h1 p k hs
          have he : p'.isEmpty = p.isEmpty := by cases p <;> cases p' <;> simp_all
          cases kw with
          | false =>
            refine ⟨fun q l h => ?_, fun e' h => ?_⟩
            · simp only [splitArgs, hs, Bool.false_eq_true, if_false] at h
              cases h
              exact ⟨w :: p', k', by simp only [splitArgs, h3, Bool.false_eq_true, if_false], by simp [h4]⟩
            · simp only [splitArgs, hs, Bool.false_eq_true, if_false] at h; cases h
          | true =>
            refine ⟨fun q l h => ?_, fun e' h => ?_⟩
            · simp only [splitArgs, hs, if_true] at h
              split at h
              · rename_i hpe
                cases h
                exact ⟨[], (f.name, w) :: k', by simp only [splitArgs, h3, if_true, he, hpe], rfl⟩
              · cases h
            · simp only [splitArgs, hs, if_true] at h
              split at h
              · cases h
              · rename_i hpe
                cases h
                exact ⟨by simp only [splitArgs, h3, if_true, he, hpe]; rfl, rfl⟩

theorem deFields_length_map {cd : ClassDef} {α : Type} (g : FieldDef → α) : (cd.deFields.map g).length = cd.deFields.length := by simp

/-- Binding by position and keyword is binding by name. -/
theorem split_construct {env : Env} {c} {cd : ClassDef} {vs} (hl : vs.length = cd.deFields.length) :
    (match splitArgs ((forceKw false cd.fields).filter (fun p => p.1.renderable)) vs with
      | .error e => .error e
      | .ok (pos, kw) => construct env c cd pos kw) =
    if kwBad cd then .error decorErr else constructB env c cd ((cd.deFields.map (·.name)).zip vs) := by
  have hl' : vs.length = (cd.deFields.map (fun _ => Val.none)).length := by simp [hl]
  obtain ⟨h1, h2⟩ := @splitArgs_shape ((forceKw false cd.fields).filter (fun p => p.1.renderable)) _ _ hl'
  unfold kwBad
  cases hs : splitArgs ((forceKw false cd.fields).filter (fun p => p.1.renderable)) vs with
  | error e =>
    obtain ⟨h3, h4⟩ := h2 e hs
    rw [h3, h4]
    rfl
  | ok pk =>
    obtain ⟨p, k⟩ := pk
    obtain ⟨p', k', h3, _⟩ := h1 p k hs
    rw [h3]
    simp only [Bool.false_eq_true, if_false]
    exact construct_named hs hl

/-- Decode all fields and construct. -/
def decodeCls (env : Env) (r : DeRec) (c : ClassId) (cd : ClassDef) (o : DeCall) (ex : List (Val × Val)) (d : Val) : Res Val :=
  match mapR (deField env r (clsDeCx env c cd true o d) c cd ex d) cd.deFields with
  | .error e => .error e
  | .ok vs => if kwBad cd then .error decorErr else constructB env c cd ((cd.deFields.map (·.name)).zip vs)

theorem deClsF_named {env : Env} {r : DeRec} {c} {cd : ClassDef} {o d} (hc : env.cls c = some cd) (ht : cd.transparent = false) :
    deClsF env r true c o d = match deUnknown env c cd d with
      | .error e => .error e
      | .ok true => .error (.serde "unknown")
      | .ok false => match deExtra env c cd d with
        | .error e => .error e
        | .ok ex => decodeCls env r c cd o ex d := by
  rw [deClsF_some hc]
  unfold deArgs
  simp only [ht, Bool.false_eq_true, if_false, if_true]
  cases deUnknown env c cd d with
  | error e => rfl
  | ok b =>
    cases b with
    | true => rfl
    | false =>
      dsimp only
      unfold deNamedArgs
      cases deExtra env c cd d with
      | error e => rfl
      | ok ex =>
        dsimp only
        unfold decodeCls
        have hdf : cd.fields.filter (·.renderable) = cd.deFields := rfl
        rw [hdf]
        cases hm : mapR (deField env r (clsDeCx env c cd true o d) c cd ex d) cd.deFields with
        | error e => rfl
        | ok vs => exact split_construct (mapR_ok_length hm)

/-! ## Attributes of the constructed object -/

theorem initAttrs_keys {bound : List (String × Val)} {fs : List FieldDef} {attrs} (h : initAttrs bound fs = .ok attrs) :
    ∀ k v, (k, v) ∈ attrs → ∃ f ∈ fs, f.name = k := by
  induction fs generalizing attrs with
  | nil => unfold initAttrs at h; cases h; intro k v hk; cases hk
  | cons f fs ih =>
    unfold initAttrs at h
    dsimp only at h
    split at h
    · rename_i v r h1 h2
      cases h
      intro k w hk
      rw [List.mem_cons] at hk
      rcases hk with hk | hk
      · cases hk; exact ⟨f, by simp, rfl⟩
      · obtain ⟨g, hg, he⟩ := ih h2 k w hk; exact ⟨g, by simp [hg], he⟩
    · rename_i r h1 h2
      cases h
      intro k w hk
      obtain ⟨g, hg, he⟩ := ih h2 k w hk; exact ⟨g, by simp [hg], he⟩
    · cases h
    · cases h

/-- What the constructor puts into the attribute of a field. -/
def attrOf (bound : List (String × Val)) (f : FieldDef) : Option Val :=
  if f.init then (match bound.lookup f.name with
    | some v => some v
    | Option.none => f.dflt) else f.dflt

theorem lookup_none_of_keys {attrs : List (String × Val)} {k : String} (h : ∀ v, (k, v) ∉ attrs) : attrs.lookup k = none := by
  induction attrs with
  | nil => rfl
  | cons kv attrs ih =>
    obtain ⟨k', w⟩ := kv
    rw [List.lookup_cons]
    by_cases hk : k = k'
    · subst hk; exact absurd (by simp) (h w)
    · have : (k == k') = false := by simpa using hk
      rw [this]
      exact ih (fun v hv => h v (by simp [hv]))

theorem initAttrs_lookup {bound : List (String × Val)} {fs : List FieldDef} {attrs} (h : initAttrs bound fs = .ok attrs)
    (hn : (fs.map (·.name)).Nodup) {f} (hf : f ∈ fs) : attrs.lookup f.name = attrOf bound f := by
  induction fs generalizing attrs with
  | nil => cases hf
  | cons g fs ih =>
    rw [List.map_cons, List.nodup_cons] at hn
    unfold initAttrs at h
    dsimp only at h
    rw [List.mem_cons] at hf
    split at h
    · rename_i v r h1 h2
      cases h
      rw [List.lookup_cons]
      rcases hf with rfl | hf
      · simp only [beq_self_eq_true]
        unfold attrOf
        split at h1
        · rename_i hi
          simp only [hi, if_true]
          split at h1
          · rename_i w hw; rw [hw]; cases h1; rfl
          · rename_i hw
            rw [hw]
            split at h1
            · rename_i dv hd; rw [hd]; cases h1; rfl
            · cases h1
        · rename_i hi
          simp only [hi]
          have hd := Except.ok.inj h1
          rw [hd]; rfl
      · have : (f.name == g.name) = false := by
          rw [beq_eq_false_iff_ne]; intro he; exact hn.1 (List.mem_map.2 ⟨f, hf, he⟩)
        rw [this]
        exact ih h2 hn.2 hf
    · rename_i r h1 h2
      cases h
      rcases hf with rfl | hf
      · have : attrs.lookup f.name = none := lookup_none_of_keys (fun v hv => by
          obtain ⟨g', hg', he⟩ := initAttrs_keys h2 _ _ hv
          exact hn.1 (List.mem_map.2 ⟨g', hg', he⟩))
        rw [this]
        unfold attrOf
        split at h1
        · split at h1
          · cases h1
          · split at h1 <;> cases h1
        · rename_i hi
          simp only [hi]
          have hd := Except.ok.inj h1
          rw [hd]; rfl
      · exact ih h2 hn.2 hf
    · cases h
    · cases h

theorem constructB_ok {env : Env} {c cd bound v} (hp : cd.postInit = none) (h : constructB env c cd bound = .ok v) :
    ∃ attrs, v = .inst c attrs ∧ initAttrs bound cd.fields = .ok attrs ∧ (cd.typeCheck = .strict → argsBearable env cd bound = true) := by
  unfold constructB at h
  rw [hp] at h
  split at h
  · cases h
  · rename_i hb
    split at h
    · cases h
    · rename_i attrs ha
      cases h
      refine ⟨attrs, rfl, ha, fun ht => ?_⟩
      rw [ht] at hb
      simpa using hb

/-! ## Decoded arguments -/

theorem zip_lookup_decoded {g : FieldDef → Res Val} {fs : List FieldDef} {vs} (h : mapR g fs = .ok vs)
    (hn : (fs.map (·.name)).Nodup) {f} (hf : f ∈ fs) : ∃ v, g f = .ok v ∧ ((fs.map (·.name)).zip vs).lookup f.name = some v := by
  induction fs generalizing vs with
  | nil => cases hf
  | cons a fs ih =>
    unfold mapR at h
    split at h
    · cases h
    · rename_i b hb
      split at h
      · cases h
      · rename_i bs hbs
        cases h
        rw [List.map_cons, List.nodup_cons] at hn
        rw [List.map_cons, List.zip_cons_cons, List.lookup_cons]
        rw [List.mem_cons] at hf
        rcases hf with rfl | hf
        · exact ⟨b, hb, by simp⟩
        · obtain ⟨v, h1, h2⟩ := ih hbs hn.2 hf
          have : (f.name == a.name) = false := by
            rw [beq_eq_false_iff_ne]; intro he; exact hn.1 (List.mem_map.2 ⟨f, hf, he⟩)
          rw [this]
          exact ⟨v, h1, h2⟩

theorem zip_lookup_none {ks : List String} {vs : List Val} {k} (h : k ∉ ks) : (ks.zip vs).lookup k = none :=
  lookup_none_of_keys (fun _ hv => h (List.of_mem_zip hv).1)

theorem inj_of_nodup_map {α β : Type} {f : α → β} {xs : List α} (hn : (xs.map f).Nodup) {a b} (ha : a ∈ xs) (hb : b ∈ xs)
    (h : f a = f b) : a = b := by
  induction xs with
  | nil => cases ha
  | cons x xs ih =>
    rw [List.map_cons, List.nodup_cons] at hn
    rw [List.mem_cons] at ha hb
    rcases ha with rfl | ha <;> rcases hb with rfl | hb
    · rfl
    · exact absurd (List.mem_map.2 ⟨b, hb, h.symm⟩) hn.1
    · exact absurd (List.mem_map.2 ⟨a, ha, h⟩) hn.1
    · exact ih hn.2 ha hb

/-- **Attributes of a decoded object.** If the dict function of a non-transparent class without `__post_init__` returns, it
returns an instance in which a decoded field has its decoded value, and any other field its default. -/
theorem decodeCls_ok {env : Env} {r : DeRec} {c} {cd : ClassDef} {o ex d v} (hp : cd.postInit = none)
    (hn : (cd.fields.map (·.name)).Nodup) (h : decodeCls env r c cd o ex d = .ok v) :
    ∃ attrs, v = .inst c attrs ∧ (∀ f ∈ cd.fields, f.renderable = true →
        ∃ w, deField env r (clsDeCx env c cd true o d) c cd ex d f = .ok w ∧ attrs.lookup f.name = some w) ∧
      (∀ f ∈ cd.fields, f.renderable = false → attrs.lookup f.name = f.dflt) := by
  unfold decodeCls at h
  split at h
  · cases h
  · rename_i vs hm
    split at h
    · cases h
    · obtain ⟨attrs, rfl, hi, _⟩ := constructB_ok hp h
      have hsub : (cd.deFields.map (·.name)).Nodup := hn.sublist ((List.filter_sublist).map _)
      refine ⟨attrs, rfl, fun f hf hr => ?_, fun f hf hr => ?_⟩
      · obtain ⟨w, h1, h2⟩ := zip_lookup_decoded hm hsub (List.mem_filter.2 ⟨hf, hr⟩)
        refine ⟨w, h1, ?_⟩
        rw [initAttrs_lookup hi hn hf]
        unfold attrOf
        rw [renderable_init hr, h2]
        rfl
      · rw [initAttrs_lookup hi hn hf]
        unfold attrOf
        rw [zip_lookup_none]
        · cases f.init <;> rfl
        · intro hmem
          rw [List.mem_map] at hmem
          obtain ⟨g, hg, he⟩ := hmem
          rw [ClassDef.deFields, List.mem_filter] at hg
          have : g = f := inj_of_nodup_map hn hg.1 hf he
          subst this
          rw [hr] at hg; cases hg.2

end Verif
