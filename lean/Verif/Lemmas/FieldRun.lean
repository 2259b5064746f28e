import Verif.Lemmas.Fieldwise
import Verif.Spec.Field
/-!
# Decoding one field of a class from the entry under its wire name
-/

namespace Verif
open Spec

theorem Spec.PlainField.renderable {env : Env} {cd : ClassDef} {f} (h : PlainField env cd f) : f.renderable = true := by
  unfold FieldDef.renderable
  rw [h.init, h.skip, h.skipDe]; rfl

theorem pickDe_plain {env : Env} {c} {cd : ClassDef} {f o d} (h : PlainField env cd f) :
    pickDe (clsDeCx env c cd true o d).des (plainArg cd f d) = none := by
  unfold pickDe plainArg
  dsimp only
  rw [h.deser]
  dsimp only
  rw [List.find?_eq_none]
  intro s hs
  rw [h.noCls s (by rw [List.mem_reverse] at hs; exact hs)]
  simp

theorem plainArg_data {cd : ClassDef} {f dk kvs x} (hx : getStr (f.conv cd.deCase) kvs = some x) :
    (plainArg cd f (.dict dk kvs)).data = .ok x := by
  unfold plainArg DeArg.data
  dsimp only
  split
  · simp [pyGet, hx]
  · simp [pyGetItem, hx]

/-- A field whose key is present is decoded by the rules for its type, whether or not it has a default. -/
theorem deField_body {env : Env} {m c} {cd : ClassDef} {f o ex dk kvs x w} (hf : PlainField env cd f)
    (hx : getStr (f.conv cd.deCase) kvs = some x) :
    deField env (deAt env m) (clsDeCx env c cd true o (.dict dk kvs)) c cd ex (.dict dk kvs) f = .ok w ↔
      ∃ m', m = m' + 1 ∧ deBody env (deAt env m') (clsDeCx env c cd true o (.dict dk kvs)) (plainArg cd f (.dict dk kvs)) = .ok w := by
  have h1 : deField env (deAt env m) (clsDeCx env c cd true o (.dict dk kvs)) c cd ex (.dict dk kvs) f = .ok w ↔
      (deAt env m).render (clsDeCx env c cd true o (.dict dk kvs)) (plainArg cd f (.dict dk kvs)) = .ok w := by
    rw [deField_plain hf.flat]
    cases f.dflt with
    | none => exact catchKey_ok
    | some dv => exact Iff.rfl
  rw [h1]
  cases m with
  | zero =>
    constructor
    · intro h; cases h
    · rintro ⟨_, h, _⟩; cases h
  | succ m =>
    rw [deAt_render]
    have h2 : deRenderF env (deAt env m) (clsDeCx env c cd true o (.dict dk kvs)) (plainArg cd f (.dict dk kvs)) =
        deBody env (deAt env m) (clsDeCx env c cd true o (.dict dk kvs)) (plainArg cd f (.dict dk kvs)) := by
      unfold deRenderF
      cases hd : f.dflt with
      | none =>
        have : (plainArg cd f (.dict dk kvs)).dflt = none := hd
        rw [this]
      | some dv =>
        have h1 : (plainArg cd f (.dict dk kvs)).dflt = some dv := hd
        have h2 : dfltExists env (plainArg cd f (.dict dk kvs)) (.dict dk kvs) = .ok true := by
          unfold dfltExists plainArg
          dsimp only
          simp only [hf.alias, Bool.false_eq_true, if_false]
          simp [pyIn, hx]
        have h3 : (plainArg cd f (.dict dk kvs)).src = .key (.dict dk kvs) := rfl
        rw [h1, h3]
        dsimp only
        rw [h2]
    rw [h2]
    constructor
    · intro h; exact ⟨m, rfl, h⟩
    · rintro ⟨_, h, h'⟩; cases h; exact h'

/-- What `from_dict` put into a field whose key is present. -/
theorem field_run {env : Env} {o : DeOpts} {n c} {cd : ClassDef} {f dk kvs x v} (hC : PlainClass env c cd) (hf : PlainField env cd f)
    (hx : getStr (f.conv cd.deCase) kvs = some x) (h : fromDict env o n (.cls c) (.dict dk kvs) = .ok v) :
    ∃ attrs w m, v = .inst c attrs ∧ attrs.lookup f.name = some w ∧
      deBody env (deAt env m) (clsDeCx env c cd true (topCall o) (.dict dk kvs)) (plainArg cd f (.dict dk kvs)) = .ok w ∧
      (cd.typeCheck = .strict → bearable env f.ty w = true) := by
  obtain ⟨m, rfl, hm⟩ := fromObj_cls_cases hC.global.de (by intro as h; cases h) h (by intro h; cases h)
  have hm := wrapUser_ok.1 hm
  rw [deClsF_named hC.cls hC.dict] at hm
  split at hm
  · cases hm
  · cases hm
  · split at hm
    · cases hm
    · rename_i ex _
      obtain ⟨attrs, rfl⟩ := decodeCls_inst hm
      obtain ⟨val, h1, h2, rfl⟩ := (decodeCls_fieldwise hC.post hC.names).1 hm
      obtain ⟨m', rfl, hb⟩ := (deField_body hf hx).1 (h1 f hf.mem hf.renderable)
      refine ⟨_, val f, m', rfl, ?_, hb, fun ht => h2.strict ht f hf.mem hf.renderable⟩
      rw [attrsOf_lookup hC.names hf.mem, hf.renderable, if_pos rfl]

/-- If a field cannot be decoded, neither can the object. -/
theorem field_fail {env : Env} {o : DeOpts} {n c} {cd : ClassDef} {f dk kvs x} (hC : PlainClass env c cd) (hf : PlainField env cd f)
    (hx : getStr (f.conv cd.deCase) kvs = some x)
    (hb : ∀ m w, deBody env (deAt env m) (clsDeCx env c cd true (topCall o) (.dict dk kvs)) (plainArg cd f (.dict dk kvs)) ≠ .ok w) :
    ∃ e, fromDict env o n (.cls c) (.dict dk kvs) = .error e := by
  cases h : fromDict env o n (.cls c) (.dict dk kvs) with
  | error e => exact ⟨e, rfl⟩
  | ok v =>
    obtain ⟨_, w, m, _, _, h, _⟩ := field_run hC hf hx h
    exact absurd h (hb m w)

/-! ## Replacing the value under one key -/

theorem deUnknown_keys {env : Env} {c} {cd : ClassDef} {dk dk' kvs kvs'} (h : kvs'.map (·.1) = kvs.map (·.1)) :
    deUnknown env c cd (.dict dk' kvs') = deUnknown env c cd (.dict dk kvs) := by
  have hl : kvs'.length = kvs.length := by
    have := congrArg List.length h
    simpa using this
  have hany : ∀ p : Val → Bool, kvs'.any (fun kv => p kv.1) = kvs.any (fun kv => p kv.1) := by
    intro p
    have h1 : ∀ l : List (Val × Val), l.any (fun kv => p kv.1) = (l.map (·.1)).any p := by
      intro l; rw [List.any_map]; rfl
    rw [h1, h1, h]
  have hor : ∀ (dk : DictK) (l : List (Val × Val)), orEmptyItems env (.dict dk l) = .ok l := by
    intro dk l
    unfold orEmptyItems truthy pyItems
    cases l <;> rfl
  unfold deUnknown
  rw [hor, hor]
  dsimp only
  rw [hany (fun k => !keyKnown (env.known c) k)]

theorem attrsOf_set {fs : List FieldDef} {val : FieldDef → Val} {f w} (hn : (fs.map (·.name)).Nodup) (hf : f ∈ fs) (hr : f.renderable = true) :
    attrsOf fs (fun g => if g.name = f.name then w else val g) = setAttr f.name w (attrsOf fs val) := by
  unfold setAttr
  have hone : ∀ g ∈ fs, g.name = f.name → g = f := fun g hg h => inj_of_nodup_map hn hg hf h
  clear hn hf
  induction fs with
  | nil => rfl
  | cons g fs ih =>
    have ih := ih (fun x hx => hone x (List.mem_cons_of_mem _ hx))
    rw [attrsOf_cons, attrsOf_cons, ih]
    cases hgr : g.renderable with
    | true =>
      by_cases hgf : g.name = f.name
      · simp [hgf]
      · simp [hgf]
    | false =>
      have hgf : g.name ≠ f.name := by
        intro h
        rw [hone g (by simp) h] at hgr
        rw [hgr] at hr; cases hr
      cases hd : g.dflt with
      | none => simp
      | some x => simp [hgf]

/-- Replace the value under the key of one field: if the new value is decodable, the rest of the object is unchanged. -/
theorem field_replace {env : Env} {o : DeOpts} {n c} {cd : ClassDef} {f dk kvs kvs' x' w' attrs} (hC : PlainClass env c cd)
    (hf : PlainField env cd f) (hs : Separate cd f) (hd : DifferAt (f.conv cd.deCase) kvs kvs')
    (hx' : getStr (f.conv cd.deCase) kvs' = some x')
    (h : fromDict env o (n + 3) (.cls c) (.dict dk kvs) = .ok (.inst c attrs))
    (hb : deBody env (deAt env n) (clsDeCx env c cd true (topCall o) (.dict dk kvs')) (plainArg cd f (.dict dk kvs')) = .ok w')
    (ht : cd.typeCheck = .strict → bearable env f.ty w' = true) :
    fromDict env o (n + 3) (.cls c) (.dict dk kvs') = .ok (.inst c (setAttr f.name w' attrs)) := by
  have hfd := hasFlatDict_plain hs.flat
  have hone : ∀ g ∈ cd.fields, g.name = f.name → g = f := fun g hg h => inj_of_nodup_map hC.names hg hf.mem h
  rw [fromDict_fieldwise hC.cls hC.dict hfd hC.post hC.names hC.global (by intro as h; cases h)] at h ⊢
  obtain ⟨hu, val, h1, h2, rfl⟩ := h
  refine ⟨by rw [deUnknown_keys hd.keys (dk := dk)]; exact hu, fun g => if g.name = f.name then w' else val g, ?_, ⟨h2.ctor, h2.args, ?_⟩,
    (attrsOf_set hC.names hf.mem hf.renderable).symm⟩
  · intro g hg hr
    dsimp only
    split
    · rename_i he
      have := hone g hg he
      subst this
      exact (deField_body hf hx').2 ⟨n, rfl, hb⟩
    · rename_i he
      rw [← h1 g hg hr]
      apply deField_reads (hs.flat g hg) (hs.alias g hg)
      intro s hsr
      apply hd.others
      obtain ⟨ha, hb⟩ := hs.apart g hg he
      unfold fieldReads at hsr
      rw [List.mem_cons] at hsr
      rcases hsr with rfl | hsr
      · exact ha
      · split at hsr
        · cases hsr
        · rename_i hne
          obtain ⟨hc, hd⟩ := hb hne
          rw [List.mem_cons] at hsr
          rcases hsr with rfl | hsr
          · exact hc
          · intro he; rw [he] at hsr; exact hd hsr
  · intro hst g hg hr
    split
    · rename_i he
      rw [hone g hg he]
      exact ht hst
    · exact h2.strict hst g hg hr

end Verif
