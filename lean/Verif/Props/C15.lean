import Verif.Lemmas.Default
import Verif.Props.C34
/-!
# C15, C16, C17: absent keys, defaults and Optional fields
-/

namespace Verif.Props
open Spec

/-- The same field without its default. -/
def withoutDefault (name : String) (g : FieldDef) : FieldDef :=
  if g.name = name then { g with dflt := none } else g

/-- A field has been decoded from a dict: what `from_dict` put into its attribute. -/
theorem fromDict_attr {env : Env} {o : DeOpts} {n c} {cd : ClassDef} {f d v} (hc : env.cls c = some cd) (htr : cd.transparent = false)
    (hp : cd.postInit = none) (hn : (cd.fields.map (·.name)).Nodup) (hf : f ∈ cd.fields) (hg : NoGlobal env c) (hd : IsData c d)
    (h : fromDict env o n (.cls c) d = .ok v) : ∃ attrs, v = .inst c attrs ∧
      (f.renderable = false → attrs.lookup f.name = f.dflt) ∧
      (f.renderable = true → ∃ m ex w, deField env (deAt env m) (clsDeCx env c cd true (topCall o) d) c cd ex d f = .ok w ∧
        attrs.lookup f.name = some w) := by
  obtain ⟨m, rfl, hm⟩ := fromObj_cls_cases hg.de hd h (by intro h; cases h)
  have hm := wrapUser_ok.1 hm
  rw [deClsF_named hc htr] at hm
  split at hm
  · cases hm
  · cases hm
  · split at hm
    · cases hm
    · rename_i ex _
      obtain ⟨attrs, rfl, h1, h2⟩ := decodeCls_ok hp hn hm
      exact ⟨attrs, rfl, h2 f hf, fun hr => by obtain ⟨w, ha, hb⟩ := h1 f hf hr; exact ⟨m, ex, w, ha, hb⟩⟩

/-- **C15**, absent key: if none of the field's keys (wire name, aliases) is in the input, the decoded object has the default.
(A field with both aliases and a rename is excluded: there the code looks under the declared name instead, see `Findings`.) -/
theorem C15_absent_partial {env : Env} {o : DeOpts} {n c} {cd : ClassDef} {f dv dk kvs v} (hc : env.cls c = some cd) (htr : cd.transparent = false)
    (hp : cd.postInit = none) (hn : (cd.fields.map (·.name)).Nodup) (hf : f ∈ cd.fields) (hdf : f.dflt = some dv)
    (hfl : f.flatten = false) (hal : f.alias = [] ∨ f.conv cd.deCase = f.name) (hg : NoGlobal env c)
    (habs : ∀ k ∈ f.conv cd.deCase :: f.alias, getStr k kvs = none)
    (h : fromDict env o n (.cls c) (.dict dk kvs) = .ok v) :
    ∃ attrs, v = .inst c attrs ∧ attrs.lookup f.name = some dv := by
  obtain ⟨attrs, rfl, h1, h2⟩ := fromDict_attr hc htr hp hn hf hg (by intro as h; cases h) h
  refine ⟨attrs, rfl, ?_⟩
  cases hr : f.renderable with
  | false => rw [h1 hr, hdf]
  | true =>
    obtain ⟨m, ex, w, ha, hb⟩ := h2 hr
    rw [hb]
    rw [deField_plain hfl, hdf] at ha
    dsimp only at ha
    cases m with
    | zero => cases ha
    | succ m =>
      rw [deAt_render] at ha
      unfold deRenderF plainArg at ha
      rw [hdf] at ha
      dsimp only at ha
      have : dfltExists env { ty := f.ty, name := f.name, conv := f.conv cd.deCase, src := .key (.dict dk kvs), alias := f.alias, deser := f.deserializer, flatten := false, dflt := some dv } (.dict dk kvs) = .ok false := by
        unfold dfltExists
        dsimp only
        simp only [Bool.false_eq_true, if_false]
        cases hl : f.alias with
        | nil => simp [pyIn, habs (f.conv cd.deCase) (by simp)]
        | cons x xs =>
          dsimp only
          rw [hl] at hal habs
          apply existsByAliases_none
          intro k hk
          apply habs
          rcases hal with h | h
          · cases h
          · rw [h]; exact hk
      rw [this] at ha
      cases ha; rfl

section Present
variable {env : Env} {c c' : ClassId} {cd : ClassDef} {f : FieldDef}

theorem sigMap_withoutDefault (nm : String) (hr : ∀ g ∈ cd.fields, g.name = nm → g.renderable = true) :
    SigMap (withoutDefault nm) cd.fields := by
  refine ⟨?_, ?_, ?_, ?_, ?_, ?_⟩ <;> intro g hg <;> unfold withoutDefault <;> split <;> try rfl
  · rename_i h; exact .inr (hr g hg h)
  · exact .inl rfl

theorem nameMap_withoutDefault (nm : String) : NameMap (withoutDefault nm) cd.fields := by
  refine ⟨?_, ?_, ?_⟩ <;> intro g hg <;> unfold withoutDefault <;> split <;> rfl

/-- **C15**, present key: if one of the field's keys is in the input (whatever its value, null included), the default plays no
role: `from_dict` returns what it returns for the copy `c'` of the class in which the field has no default.
Covers every class (flattened fields, aliases, deny_unknown_fields, ... on the other fields). -/
theorem C15_present_partial {o : DeOpts} {n dk kvs attrs} (hc : env.cls c = some cd)
    (hc' : env.cls c' = some { cd with fields := cd.fields.map (withoutDefault f.name) }) (ht : SameTables env c c')
    (htr : cd.transparent = false) (hn : (cd.fields.map (·.name)).Nodup) (hf : f ∈ cd.fields) (hr : f.renderable = true)
    (hfl : f.flatten = false) (hal : f.alias = [] ∨ f.conv cd.deCase = f.name) (hg : NoGlobal env c) (hg' : NoGlobal env c')
    (hpres : ∃ k ∈ f.conv cd.deCase :: f.alias, getStr k kvs ≠ none) :
    fromDict env o n (.cls c) (.dict dk kvs) = .ok (.inst c attrs) ↔
      fromDict env o n (.cls c') (.dict dk kvs) = .ok (.inst c' attrs) := by
  have hone : ∀ g ∈ cd.fields, g.name = f.name → g = f := fun g hgm h => inj_of_nodup_map hn hgm hf h
  have hS : SigMap (withoutDefault f.name) cd.fields := sigMap_withoutDefault _ (fun g hgm h => by rw [hone g hgm h]; exact hr)
  have hN : NameMap (withoutDefault f.name) cd.fields := nameMap_withoutDefault _
  refine (fromDict_map_ok rfl hS hN hc hc' htr htr rfl rfl rfl rfl hg hg' (by intro as h; cases h) (by intro as h; cases h) ?_).symm
  intro m ex g hgm hgr w
  have hcx : clsDeCx env c' { cd with fields := cd.fields.map (withoutDefault f.name) } true (topCall o) (.dict dk kvs) =
      clsDeCx env c cd true (topCall o) (.dict dk kvs) := by
    unfold clsDeCx
    dsimp only
    rw [ht.unions, ht.lits]
  rw [hcx]
  by_cases hgf : g.name = f.name
  · have := hone g hgm hgf
    subst this
    rw [deField_plain (f := withoutDefault g.name g) (by unfold withoutDefault; rw [if_pos rfl]; exact hfl), deField_plain hfl]
    have e1 : (withoutDefault g.name g).dflt = none := by unfold withoutDefault; rw [if_pos rfl]
    rw [e1]
    dsimp only
    rw [catchKey_ok]
    have e2 : plainArg { cd with fields := cd.fields.map (withoutDefault g.name) } (withoutDefault g.name g) (.dict dk kvs) =
        { plainArg cd g (.dict dk kvs) with dflt := none } := by
      unfold withoutDefault
      simp only [if_true]
      rfl
    rw [e2]
    cases hdf : g.dflt with
    | none =>
      dsimp only
      rw [catchKey_ok]
      have : { plainArg cd g (.dict dk kvs) with dflt := none } = plainArg cd g (.dict dk kvs) := by
        unfold plainArg; rw [hdf]
      rw [this]
    | some dv =>
      dsimp only
      rw [render_dropDflt m _ (plainArg cd g (.dict dk kvs)) (.dict dk kvs) rfl rfl]
      unfold dfltExists plainArg
      dsimp only
      simp only [Bool.false_eq_true, if_false]
      cases hl : g.alias with
      | nil =>
        obtain ⟨k, hk, hv⟩ := hpres
        rw [hl] at hk
        simp only [List.mem_singleton] at hk
        subst hk
        simp only [pyIn]
        cases hx : getStr (g.conv cd.deCase) kvs with
        | none => exact absurd hx hv
        | some x => rfl
      | cons x xs =>
        dsimp only
        apply existsByAliases_some
        rw [hl] at hal hpres
        rcases hal with h | h
        · cases h
        · rw [h] at hpres; exact hpres
  · have e1 : withoutDefault f.name g = g := by unfold withoutDefault; rw [if_neg hgf]
    rw [e1]
    have : deField env (deAt env m) (clsDeCx env c cd true (topCall o) (.dict dk kvs)) c' { cd with fields := cd.fields.map (withoutDefault f.name) }
        ex (.dict dk kvs) g = deField env (deAt env m) (clsDeCx env c cd true (topCall o) (.dict dk kvs)) c cd ex (.dict dk kvs) g := by
      unfold deField
      rw [known_map (cd := cd) (cd' := { cd with fields := cd.fields.map (withoutDefault f.name) }) rfl hS hN hc hc' rfl rfl,
        hasFlatDict_map (cd := cd) (cd' := { cd with fields := cd.fields.map (withoutDefault f.name) }) rfl hS hN]
    rw [this]
end Present

/-! ## C16 -/

/-- Without one of its required fields a class cannot be decoded. -/
theorem deField_absent {env : Env} {m c} {cd : ClassDef} {f : FieldDef} {o ex dk kvs} (hfl : f.flatten = false) (hdf : f.dflt = none)
    (hty : ¬ AbsentOk f.ty) (hal : f.alias = [] ∨ f.conv cd.deCase = f.name ∧ AliasTy f.ty)
    (habs : ∀ k ∈ f.conv cd.deCase :: f.alias, getStr k kvs = none) :
    ∃ e, deField env (deAt env m) (clsDeCx env c cd true o (.dict dk kvs)) c cd ex (.dict dk kvs) f = .error e := by
  rw [deField_plain hfl, hdf]
  dsimp only
  have key : ∃ e, (deAt env m).render (clsDeCx env c cd true o (.dict dk kvs)) (plainArg cd f (.dict dk kvs)) = .error e := by
    by_cases hnil : f.alias = []
    · exact render_absent m _ (plainArg cd f (.dict dk kvs)) dk kvs rfl (habs (f.conv cd.deCase) (by simp)) hnil rfl hdf hty
    · rcases hal with h | ⟨hcn, hat⟩
      · exact absurd h hnil
      · cases m with
        | zero => exact ⟨_, rfl⟩
        | succ m =>
          rw [deAt_render]
          unfold deRenderF plainArg
          rw [hdf]
          dsimp only
          have hnn : f.ty.hasNone = false := by
            cases hh : f.ty.hasNone with
            | false => rfl
            | true =>
              exfalso
              apply hty
              cases ht : f.ty with
              | union ts =>
                rw [ht] at hh
                simp only [Ty.hasNone, List.any_eq_true] at hh
                obtain ⟨t, h1, h2⟩ := hh
                cases t <;> simp [Ty.isNone] at h2
                exact .union h1
              | _ => rw [ht] at hh; cases hh
          have hda : DeArg.data { ty := f.ty, name := f.name, conv := f.conv cd.deCase, src := .key (.dict dk kvs), alias := f.alias, deser := f.deserializer, flatten := false, dflt := none } = .error (.py .key) := by
            unfold DeArg.data; dsimp only; rw [hnn]; simp [pyGetItem, habs (f.conv cd.deCase) (by simp)]
          have hpd : primData (clsDeCx env c cd true o (.dict dk kvs)) { ty := f.ty, name := f.name, conv := f.conv cd.deCase, src := .key (.dict dk kvs), alias := f.alias, deser := f.deserializer, flatten := false, dflt := none } = .error (.py .key) := by
            unfold primData
            dsimp only
            rw [← hcn]
            cases hl : f.alias with
            | nil => exact absurd hl hnil
            | cons x xs =>
              dsimp only
              rw [hl] at habs
              have : (clsDeCx env c cd true o (.dict dk kvs)).data = .dict dk kvs := rfl
              rw [this, getByAliases_none habs]
          unfold deBody
          dsimp only
          split
          · rw [hda]; exact ⟨_, rfl⟩
          · split
            · rw [hda]; exact ⟨_, rfl⟩
            · cases ht : f.ty with
              | prim p => rw [ht] at hpd; dsimp only; rw [hpd]; exact ⟨_, rfl⟩
              | newType m p => rw [ht] at hpd; dsimp only; rw [hpd]; exact ⟨_, rfl⟩
              | enum x => rw [ht] at hpd; dsimp only; rw [hpd]; exact ⟨_, rfl⟩
              | union ts =>
                exfalso
                rw [ht] at hat hnn
                unfold AliasTy at hat
                split at hat <;> first | exact hat | (rename_i heq; cases heq; done) | (rename_i heq; cases heq; simp [Ty.hasNone, Ty.isNone] at hnn)
              | _ => rw [ht] at hat; exact absurd hat (by simp [AliasTy])
  obtain ⟨e, he⟩ := key
  rw [he]
  unfold catchKey
  split
  · exact ⟨_, rfl⟩
  · exact ⟨_, rfl⟩

/-- **C16**: if all keys of a required field (no default, and a type that does not turn absence into a value) are missing,
`from_dict` never returns an object, and what it raises is a `SerdeError` or an exception of user code. -/
theorem C16_missing_partial {env : Env} {o : DeOpts} {n c} {cd : ClassDef} {f dk kvs} (hc : env.cls c = some cd) (htr : cd.transparent = false)
    (hf : f ∈ cd.fields) (hr : f.renderable = true) (hdf : f.dflt = none) (hfl : f.flatten = false) (hty : ¬ AbsentOk f.ty)
    (hal : f.alias = [] ∨ f.conv cd.deCase = f.name ∧ AliasTy f.ty) (hg : NoGlobal env c)
    (habs : ∀ k ∈ f.conv cd.deCase :: f.alias, getStr k kvs = none) :
    ∃ e, fromDict env o n (.cls c) (.dict dk kvs) = .error e ∧
      (e = .fuel ∨ e.isSerde = true ∨ PostInitRaises env e ∨ BadCall true env e) := by
  cases h : fromDict env o n (.cls c) (.dict dk kvs) with
  | error e => exact ⟨e, rfl, C34_from_dict h⟩
  | ok v =>
    exfalso
    obtain ⟨m, rfl, hm⟩ := fromObj_cls_cases hg.de (by intro as h; cases h) h (by intro h; cases h)
    have hm := wrapUser_ok.1 hm
    rw [deClsF_named hc htr] at hm
    split at hm
    · cases hm
    · cases hm
    · split at hm
      · cases hm
      · rename_i ex _
        unfold decodeCls at hm
        obtain ⟨e, he⟩ := deField_absent (env := env) (m := m) (c := c) (o := topCall o) (ex := ex) (dk := dk) hfl hdf hty hal habs
        obtain ⟨e', he'⟩ := mapR_error_of (as := cd.deFields) (List.mem_filter.2 ⟨hf, hr⟩) he
        unfold topCall at he'
        rw [he'] at hm
        cases hm

/-- **C16** without user code: a missing required field raises `SerdeError`. -/
theorem C16_serde_error_partial {env : Env} {o : DeOpts} {n c} {cd : ClassDef} {f dk kvs} (hc : env.cls c = some cd) (htr : cd.transparent = false)
    (hf : f ∈ cd.fields) (hr : f.renderable = true) (hdf : f.dflt = none) (hfl : f.flatten = false) (hty : ¬ AbsentOk f.ty)
    (hal : f.alias = [] ∨ f.conv cd.deCase = f.name ∧ AliasTy f.ty) (hg : NoGlobal env c)
    (habs : ∀ k ∈ f.conv cd.deCase :: f.alias, getStr k kvs = none)
    (hp : ∀ c cd, env.cls c = some cd → cd.postInit = none) (hs : ∀ c cd, env.cls c = some cd → SigOk true cd) :
    ∃ e, fromDict env o n (.cls c) (.dict dk kvs) = .error e ∧ (e = .fuel ∨ e.isSerde = true) := by
  obtain ⟨e, he, _⟩ := C16_missing_partial (o := o) (n := n) (dk := dk) hc htr hf hr hdf hfl hty hal hg habs
  exact ⟨e, he, C34_only_serde hp hs he⟩

/-! ## C17 -/

/-- **C17**, Optional: if the key of an Optional field without default is absent, the decoded object has None there. -/
theorem C17_optional_partial {env : Env} {o : DeOpts} {n c} {cd : ClassDef} {f t dk kvs v} (hc : env.cls c = some cd) (htr : cd.transparent = false)
    (hp : cd.postInit = none) (hn : (cd.fields.map (·.name)).Nodup) (hf : f ∈ cd.fields) (hr : f.renderable = true) (hdf : f.dflt = none)
    (hfl : f.flatten = false) (hty : f.ty = .union [t, .none]) (htn : t ≠ .none) (hg : NoGlobal env c)
    (hcust : f.deserializer = none ∧ ∀ s ∈ env.gde ++ cd.classDe.toList, s.handles f.ty = false)
    (habs : ∀ k ∈ f.conv cd.deCase :: f.alias, getStr k kvs = none)
    (h : fromDict env o n (.cls c) (.dict dk kvs) = .ok v) :
    ∃ attrs, v = .inst c attrs ∧ attrs.lookup f.name = some .none := by
  obtain ⟨attrs, rfl, _, h2⟩ := fromDict_attr hc htr hp hn hf hg (by intro as h; cases h) h
  refine ⟨attrs, rfl, ?_⟩
  obtain ⟨m, ex, w, ha, hb⟩ := h2 hr
  rw [hb]
  rw [deField_plain hfl, hdf] at ha
  dsimp only at ha
  rw [catchKey_ok] at ha
  cases m with
  | zero => cases ha
  | succ m =>
    rw [deAt_render] at ha
    unfold deRenderF plainArg at ha
    rw [hdf] at ha
    dsimp only at ha
    have hpk : pickDe (clsDeCx env c cd true (topCall o) (.dict dk kvs)).des { ty := f.ty, name := f.name, conv := f.conv cd.deCase, src := .key (.dict dk kvs), alias := f.alias, deser := f.deserializer, flatten := false, dflt := none } = none := by
      unfold pickDe
      rw [hcust.1]
      dsimp only
      rw [List.find?_eq_none]
      intro s hs
      rw [hcust.2 s (List.mem_reverse.1 hs)]
      simp
    have hoe : optExists env (clsDeCx env c cd true (topCall o) (.dict dk kvs)) { ty := f.ty, name := f.name, conv := f.conv cd.deCase, src := .key (.dict dk kvs), alias := f.alias, deser := f.deserializer, flatten := false, dflt := none } t = .ok false := by
      unfold optExists
      dsimp only
      cases hl : f.alias with
      | nil => simp [pyGet, habs (f.conv cd.deCase) (by simp)]
      | cons x xs =>
        dsimp only
        rw [hl] at habs
        have : (clsDeCx env c cd true (topCall o) (.dict dk kvs)).data = .dict dk kvs := rfl
        rw [this, getByAliases_none habs]
        rfl
    unfold deBody at ha
    rw [hpk, hcust.1] at ha
    dsimp only at ha
    have hio : f.ty.isOpt = true := by
      rw [hty]; cases t <;> first | rfl | exact absurd rfl htn
    rw [hio] at ha
    rw [hty] at ha hoe
    rw [hcust.1] at hoe
    dsimp only at ha
    rw [hoe] at ha
    cases ha
    rfl

/-- **C17**, any annotation that is a union containing None (Optional included), without default and aliases: an absent key is
the same as an explicit null, and all other fields are decoded as they would be. `kvs'` is any input with the key present and
null that agrees with `kvs` on all other keys the class reads. -/
theorem C17_absent_is_null_partial {env : Env} {o : DeOpts} {n c} {cd : ClassDef} {f ts dk kvs dk' kvs'} (hc : env.cls c = some cd)
    (htr : cd.transparent = false) (hf : f ∈ cd.fields) (hfl : ∀ g ∈ cd.fields, g.flatten = false) (hdf : f.dflt = none)
    (hty : f.ty = .union ts) (hnone : .none ∈ ts) (hal : f.alias = []) (hals : ∀ g ∈ cd.fields, g.alias = [] ∨ AliasTy g.ty)
    (hdeny : cd.denyUnknown = false) (hg : NoGlobal env c)
    (habs : getStr (f.conv cd.deCase) kvs = none) (hnull : getStr (f.conv cd.deCase) kvs' = some .none)
    (hother : ∀ g ∈ cd.fields, g.name ≠ f.name → ∀ k ∈ fieldReads cd g, getStr k kvs' = getStr k kvs)
    (hn : (cd.fields.map (·.name)).Nodup) :
    fromDict env o n (.cls c) (.dict dk kvs) = fromDict env o n (.cls c) (.dict dk' kvs') := by
  have hu : ∀ d, deUnknown env c cd d = .ok false := by intro d; unfold deUnknown; rw [hdeny]; rfl
  have hnd : ∀ dk kvs, IsData c (.dict dk kvs) := by intro dk kvs as h; cases h
  by_cases hnn : n < 2
  · rw [fromDict_fuel hnn hg (hnd _ _), fromDict_fuel hnn hg (hnd _ _)]
  · obtain ⟨m, rfl⟩ : ∃ m, n = m + 2 := ⟨n - 2, by omega⟩
    rw [fromDict_decode hc htr (hasFlatDict_plain hfl) (hu _) hg (hnd _ _), fromDict_decode hc htr (hasFlatDict_plain hfl) (hu _) hg (hnd _ _)]
    congr 1
    unfold decodeCls
    rw [mapR_congr (f := deField env (deAt env m) (clsDeCx env c cd true (topCall o) (.dict dk kvs)) c cd [] (.dict dk kvs))
      (g := deField env (deAt env m) (clsDeCx env c cd true (topCall o) (.dict dk' kvs')) c cd [] (.dict dk' kvs'))]
    intro g hgm
    have hgf := (List.mem_filter.1 hgm).1
    by_cases hgn : g.name = f.name
    · have := inj_of_nodup_map hn hgf hf hgn
      subst this
      rw [deField_plain (hfl g hgf), deField_plain (hfl g hgf)]
      have := @render_null env m (clsDeCx env c cd true (topCall o) (.dict dk kvs)) (plainArg cd g (.dict dk kvs)) dk dk' kvs kvs' ts hty
        (by show g.ty.hasNone = true; rw [hty]; exact List.any_eq_true.2 ⟨_, hnone, rfl⟩) hal rfl hdf habs hnull
      have e1 : (deAt env m).render (clsDeCx env c cd true (topCall o) (.dict dk' kvs')) (plainArg cd g (.dict dk' kvs')) =
        (deAt env m).render (clsDeCx env c cd true (topCall o) (.dict dk kvs)) (plainArg cd g (.dict dk kvs)) := this
      rw [e1]
    · exact (deField_reads (hfl g hgf) (hals g hgf) (hother g hgf hgn)).symm

theorem deMember_null {env : Env} {n : Nat} {cx : DeCx} {t : Ty} (h : RejectsNull cx.tagging t) (hg : ∀ s ∈ cx.des, s.handles t = false) :
    ∃ e, deMember env (deAt env n) cx t .none = .error e := by
  unfold deMember
  cases hp : unionPayload env cx.tagging t .none with
  | error e => exact ⟨e, rfl⟩
  | ok p =>
    dsimp only
    split
    · exact ⟨_, rfl⟩
    · rename_i hpre
      have hpn : p = .none := by
        unfold unionPayload at hp
        dsimp only at hp
        split at hp
        · split at hp <;> first | (simp only [pyIn] at hp; cases hp; done) | (cases hp; rfl)
        · cases hp; rfl
      subst hpn
      have hr : ∃ e, (deAt env n).render cx { ty := t, name := "fake_key", conv := "fake_key", src := .key (.dict .plain [(.str "fake_key", .none)]) } = .error e := by
        cases n with
        | zero => exact ⟨_, rfl⟩
        | succ n =>
          rw [deAt_render]
          unfold deRenderF
          dsimp only
          have hpk : pickDe cx.des { ty := t, name := "fake_key", conv := "fake_key", src := .key (.dict .plain [(.str "fake_key", .none)]) } = none := by
            unfold pickDe
            dsimp only
            rw [List.find?_eq_none]
            intro s hs
            rw [hg s (List.mem_reverse.1 hs)]
            simp
          unfold deBody
          rw [hpk]
          dsimp only
          cases h with
          | prim => cases hpre (by unfold unionPre isPrimitive; rename_i p; cases p <;> rfl)
          | newType => cases hpre (by unfold unionPre isPrimitive; rename_i p; cases p <;> rfl)
          | cls hne => 
            unfold unionPayload at hp
            simp only [Ty.isCls, if_true] at hp
            split at hp <;> first | (simp only [pyIn] at hp; cases hp; done) | (exfalso; apply hne; assumption)
          | _ => exact ⟨_, rfl⟩
      obtain ⟨e, he⟩ := hr
      rw [he]
      exact ⟨e, rfl⟩

/-- **C17**, union containing None: if the key is absent and the members listed before None do not accept null, the decoded
object has None there. (An untagged dataclass without required fields, or an enum with a None-valued member, does accept null
and then wins: see `Findings`.) -/
theorem C17_union_partial {env : Env} {o : DeOpts} {n c} {cd : ClassDef} {f pre post dk kvs v} (hc : env.cls c = some cd) (htr : cd.transparent = false)
    (hp : cd.postInit = none) (hn : (cd.fields.map (·.name)).Nodup) (hf : f ∈ cd.fields) (hr : f.renderable = true) (hdf : f.dflt = none)
    (hfl : f.flatten = false) (hty : f.ty = .union (pre ++ .none :: post)) (hnopt : f.ty.isOpt = false)
    (hpre : ∀ t ∈ pre, RejectsNull cd.tagging t) (hown : OwnUnion env c (pre ++ .none :: post)) (hg : NoGlobal env c)
    (hcust : f.deserializer = none ∧ ∀ s ∈ env.gde ++ cd.classDe.toList, s.handles f.ty = false)
    (hgd : ∀ t ∈ .none :: pre, ∀ s ∈ env.gde, s.handles t = false)
    (habs : getStr (f.conv cd.deCase) kvs = none)
    (h : fromDict env o n (.cls c) (.dict dk kvs) = .ok v) :
    ∃ attrs, v = .inst c attrs ∧ attrs.lookup f.name = some .none := by
  obtain ⟨attrs, rfl, _, h2⟩ := fromDict_attr hc htr hp hn hf hg (by intro as h; cases h) h
  refine ⟨attrs, rfl, ?_⟩
  obtain ⟨m, ex, w, ha, hb⟩ := h2 hr
  rw [hb]
  rw [deField_plain hfl, hdf] at ha
  dsimp only at ha
  rw [catchKey_ok] at ha
  cases m with
  | zero => cases ha
  | succ m =>
    rw [deAt_render] at ha
    unfold deRenderF plainArg at ha
    rw [hdf] at ha
    dsimp only at ha
    have hpk : pickDe (clsDeCx env c cd true (topCall o) (.dict dk kvs)).des { ty := f.ty, name := f.name, conv := f.conv cd.deCase, src := .key (.dict dk kvs), alias := f.alias, deser := f.deserializer, flatten := false, dflt := none } = none := by
      unfold pickDe
      rw [hcust.1]
      dsimp only
      rw [List.find?_eq_none]
      intro s hs
      rw [hcust.2 s (List.mem_reverse.1 hs)]
      simp
    have hda : DeArg.data { ty := f.ty, name := f.name, conv := f.conv cd.deCase, src := .key (.dict dk kvs), alias := f.alias, deser := f.deserializer, flatten := false, dflt := none } = .ok .none := by
      unfold DeArg.data
      have : f.ty.hasNone = true := by rw [hty]; exact List.any_eq_true.2 ⟨.none, by simp, rfl⟩
      dsimp only
      rw [this]
      simp [pyGet, habs]
    unfold deBody at ha
    rw [hpk] at ha
    rw [hcust.1] at ha hda
    dsimp only at ha
    rw [hnopt, hda] at ha
    rw [hty] at ha
    dsimp only at ha
    have : findUnion env (clsDeCx env c cd true (topCall o) (.dict dk kvs)).unions (unionFuncName env (pre ++ .none :: post)) =
      some (pre ++ .none :: post) := hown
    rw [this] at ha
    simp only [Bool.false_eq_true, if_false] at ha
    have hcx : ∀ t ∈ pre, RejectsNull ((clsDeCx env c cd true (topCall o) (.dict dk kvs)).inUnion env .none).tagging t := hpre
    have hdes : ((clsDeCx env c cd true (topCall o) (.dict dk kvs)).inUnion env .none).des = env.gde := rfl
    generalize (clsDeCx env c cd true (topCall o) (.dict dk kvs)).inUnion env .none = cx at ha hcx hdes
    clear h hb hty hnopt hpre hown hda this
    have hgd' : ∀ t ∈ .none :: pre, ∀ s ∈ cx.des, s.handles t = false := by rw [hdes]; exact hgd
    clear hgd
    congr 1
    induction pre with
    | nil =>
      rw [List.nil_append, deUnion] at ha
      have hmem : deMember env (deAt env m) cx .none .none = .ok .none ∨ deMember env (deAt env m) cx .none .none = .error .fuel := by
        unfold deMember unionPayload
        simp only [Ty.isCls, Bool.false_eq_true, if_false]
        have : unionPre env .none .none = true := by unfold unionPre; cases h : isPrimitive env .none <;> rfl
        rw [this]
        simp only [Bool.not_true, Bool.false_eq_true, if_false]
        cases m with
        | zero => exact .inr rfl
        | succ m =>
          left
          rw [deAt_render]
          unfold deRenderF
          dsimp only
          have hpk : pickDe cx.des { ty := .none, name := "fake_key", conv := "fake_key", src := .key (.dict .plain [(.str "fake_key", .none)]) } = none := by
            unfold pickDe
            dsimp only
            rw [List.find?_eq_none]
            intro s hs
            rw [hgd' .none (by simp) s (List.mem_reverse.1 hs)]
            simp
          unfold deBody
          rw [hpk]
          rfl
      rcases hmem with hmem | hmem <;> rw [hmem] at ha <;> cases ha
      rfl
    | cons t pre ih =>
      rw [List.cons_append, deUnion] at ha
      obtain ⟨e, he⟩ := deMember_null (env := env) (n := m) (hcx t (by simp)) (hgd' t (by simp))
      rw [he] at ha
      split at ha
      · rename_i heq; cases heq
      · cases ha
      · exact ih ha (fun t ht => hcx t (by simp [ht])) (fun t ht => hgd' t (by
          rcases List.mem_cons.1 ht with rfl | ht <;> simp [*]))

namespace C15Ex
def fx : FieldDef := { name := "x", ty := .prim .int, dflt := some (.int 5), alias := ["ex", "ix"] }
def fo : FieldDef := { name := "o", ty := .union [.list .list (.prim .int), .none], rename := some "O" }
def fu : FieldDef := { name := "u", ty := .union [.prim .int, .cls "B", .none, .prim .str] }
def fr : FieldDef := { name := "r", ty := .list .list (.prim .int), kwOnly := true }
def A : ClassDef := { name := "A", mro := ["A"], fields := [fx, fo, fu, fr] }
def A' : ClassDef := { A with fields := A.fields.map (withoutDefault "x") }
def B : ClassDef := { name := "B", mro := ["B"], fields := [] }
def env : Env := Ex.mk [("A", A), ("A'", A'), ("B", B)]
theorem noGlobal (c : ClassId) : NoGlobal env c := ⟨by simp [env, Ex.mk], by simp [env, Ex.mk]⟩
theorem nodup : (A.fields.map (·.name)).Nodup := by simp [A, fx, fo, fu, fr]

/-- `x`, `ex`, `ix` absent: the default 5; `O` and `u` absent: None. -/
example : let d := [(Val.str "r", .list [.int 1])]
    let v := Val.inst "A" [("x", .int 5), ("o", .none), ("u", .none), ("r", .list [.int 1])]
    fromDict env {} 9 (.cls "A") (.dict .plain d) = .ok v ∧
    (∃ attrs, v = .inst "A" attrs ∧ attrs.lookup "x" = some (.int 5)) ∧
    (∃ attrs, v = .inst "A" attrs ∧ attrs.lookup "o" = some .none) ∧
    (∃ attrs, v = .inst "A" attrs ∧ attrs.lookup "u" = some .none) := by
  refine ⟨rfl, ?_, ?_, ?_⟩
  · exact C15_absent_partial (env := env) (o := {}) (n := 9) (cd := A) (f := fx) (dk := .plain) (kvs := [(.str "r", .list [.int 1])])
      rfl rfl rfl nodup (by simp [A]) rfl rfl (.inr rfl) (noGlobal _) (by intro k hk; simp [fx, FieldDef.conv, A] at hk; rcases hk with rfl | rfl | rfl <;> rfl) rfl
  · exact C17_optional_partial (env := env) (o := {}) (n := 9) (cd := A) (f := fo) (dk := .plain) (kvs := [(.str "r", .list [.int 1])])
      rfl rfl rfl nodup (by simp [A]) rfl rfl rfl rfl (by intro h; cases h) (noGlobal _) ⟨rfl, by simp [env, Ex.mk, A]⟩
      (by intro k hk; simp [fo, FieldDef.conv] at hk; subst hk; rfl) rfl
  · exact C17_union_partial (env := env) (o := {}) (n := 9) (cd := A) (f := fu) (pre := [.prim .int, .cls "B"]) (post := [.prim .str]) (dk := .plain) (kvs := [(.str "r", .list [.int 1])])
      rfl rfl rfl nodup (by simp [A]) rfl rfl rfl rfl rfl
      (by intro t ht; simp at ht; rcases ht with rfl | rfl; exact .prim; exact .cls (by intro h; cases h)) rfl (noGlobal _) ⟨rfl, by simp [env, Ex.mk, A]⟩
      (by simp [env, Ex.mk]) rfl rfl

/-- An alias key is present: the default does not matter; null under the key is decoded (and rejected by the type check). -/
example : let d := [(Val.str "ix", .int 7), (.str "r", .list [])]
    fromDict env {} 9 (.cls "A") (.dict .plain d) = .ok (.inst "A" [("x", .int 7), ("o", .none), ("u", .none), ("r", .list [])]) ↔
    fromDict env {} 9 (.cls "A'") (.dict .plain d) = .ok (.inst "A'" [("x", .int 7), ("o", .none), ("u", .none), ("r", .list [])]) :=
  C15_present_partial (cd := A) (f := fx) rfl rfl ⟨rfl, rfl⟩ rfl nodup (by simp [A]) rfl rfl (.inr rfl) (noGlobal _) (noGlobal _)
    ⟨"ix", by simp [fx], by intro h; cases h⟩
example : fromDict env {} 9 (.cls "A") (.dict .plain [(Val.str "x", .none), (.str "r", .list [])]) = .error (.serde "type") := rfl

/-- `r` is missing. -/
example : ∃ e, fromDict env {} 9 (.cls "A") (.dict .plain [(.str "x", .int 1)]) = .error e ∧
      (e = .fuel ∨ e.isSerde = true ∨ PostInitRaises env e ∨ BadCall true env e) :=
  C16_missing_partial (cd := A) (f := fr) rfl rfl (by simp [A]) rfl rfl rfl (by intro h; cases h with | unread h => cases h) (.inl rfl) (noGlobal _)
    (by intro k hk; simp [fr, FieldDef.conv, A] at hk; subst hk; rfl)
example : fromDict env {} 9 (.cls "A") (.dict .plain [(.str "x", .int 1)]) = .error (.wrap (.missing "r")) := rfl

/-- An absent key and an explicit null are the same. -/
example : fromDict env {} 9 (.cls "A") (.dict .plain [(.str "r", .list [])]) =
    fromDict env {} 9 (.cls "A") (.dict .plain [(.str "u", .none), (.str "r", .list [])]) :=
  C17_absent_is_null_partial (cd := A) (f := fu) rfl rfl (by simp [A]) (by intro g hg; simp [A] at hg; rcases hg with rfl | rfl | rfl | rfl <;> rfl) rfl
    rfl (by simp) rfl (by intro g hg; simp [A] at hg; rcases hg with rfl | rfl | rfl | rfl <;> simp [fx, fo, fu, fr, AliasTy]) rfl (noGlobal _) rfl rfl
    (by intro g hg hne k hk
        simp [A] at hg
        rcases hg with rfl | rfl | rfl | rfl
        · simp [fieldReads, fx, FieldDef.conv, A] at hk; rcases hk with rfl | rfl | rfl <;> rfl
        · simp [fieldReads, fo, FieldDef.conv] at hk; subst hk; rfl
        · exact absurd rfl hne
        · simp [fieldReads, fr, FieldDef.conv, A] at hk; subst hk; rfl) nodup

theorem plain {c cd} (h : env.cls c = some cd) : cd.postInit = none ∧ SigOk true cd := by
  simp only [env, Ex.mk, Env.cls, List.lookup] at h
  split at h
  · cases h; exact ⟨rfl, by simp [A, fx, fo, fu, fr], fun h => by cases h⟩
  · split at h
    · cases h; exact ⟨rfl, by simp [A', A, withoutDefault, fx, fo, fu, fr], fun h => by cases h⟩
    · split at h
      · cases h; exact ⟨rfl, by simp [B], fun h => by cases h⟩
      · cases h

/-- The same failure, known to be a `SerdeError`. -/
example : ∃ e, fromDict env {} 9 (.cls "A") (.dict .plain [(.str "x", .int 1)]) = .error e ∧ (e = .fuel ∨ e.isSerde = true) :=
  C16_serde_error_partial (cd := A) (f := fr) rfl rfl (by simp [A]) rfl rfl rfl (by intro h; cases h with | unread h => cases h) (.inl rfl) (noGlobal _)
    (by intro k hk; simp [fr, FieldDef.conv, A] at hk; subst hk; rfl) (fun _ _ h => (plain h).1) (fun _ _ h => (plain h).2)
end C15Ex
end Verif.Props
