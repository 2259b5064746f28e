import Verif.Lemmas.RTMain
import Verif.Spec.Formats
/-!
# Round trip: entry points and formats
-/

namespace Verif

open Spec

theorem jsonWireL_map (W : World) (xs : List Val) : jsonWireL W xs = xs.map (jsonWire W) := by
  induction xs with
  | nil => rfl
  | cons x xs ih => rw [jsonWireL, ih]; rfl

theorem jsonWireD_map (W : World) (kvs : List (Val × Val)) : jsonWireD W kvs = kvs.map (fun kv => (jsonKey W kv.1, jsonWire W kv.2)) := by
  induction kvs with
  | nil => rfl
  | cons x xs ih => obtain ⟨k, v⟩ := x; rw [jsonWireD, ih]; rfl

theorem mpWireL_map (xs : List Val) : mpWireL xs = xs.map mpWire := by
  induction xs with
  | nil => rfl
  | cons x xs ih => rw [mpWireL, ih]; rfl

theorem mpWireD_map (kvs : List (Val × Val)) : mpWireD kvs = kvs.map (fun kv => (kv.1, mpWire kv.2)) := by
  induction kvs with
  | nil => rfl
  | cons x xs ih => obtain ⟨k, v⟩ := x; rw [mpWireD, ih]; rfl

theorem yamlWireL_map (xs : List Val) : yamlWireL xs = xs.map yamlWire := by
  induction xs with
  | nil => rfl
  | cons x xs ih => rw [yamlWireL, ih]; rfl

theorem yamlWireD_map (kvs : List (Val × Val)) : yamlWireD kvs = kvs.map (fun kv => (kv.1, yamlWire kv.2)) := by
  induction kvs with
  | nil => rfl
  | cons x xs ih => obtain ⟨k, v⟩ := x; rw [yamlWireD, ih]; rfl

/-- Handing values over as they are. -/
def rawFmt (env : Env) (named reuse conv deReuse : Bool) (h : reuse = true → deReuse = true) (skipNone : Bool := false) : Fmt env where
  skipNone := skipNone
  named := named
  reuse := reuse
  conv := conv
  deReuse := deReuse
  numbers := none
  raw := true
  wire := id
  key := id
  raw_wire := fun _ _ => rfl
  raw_key := fun _ _ => rfl
  reuse_raw := fun hr => ⟨rfl, h hr⟩
  numbers_float := fun _ h => by cases h
  wire_none := rfl
  wire_bool := fun _ => rfl
  wire_int := fun _ => rfl
  wire_float := fun _ => rfl
  wire_str := fun _ => rfl
  wire_list := fun xs => .inl (by simp)
  wire_tuple := fun xs => .inr (by simp)
  wire_dict := fun kvs _ => by simp
  key_str := fun _ => rfl
  key_int := fun _ => .inl rfl
  key_float := fun _ => .inl rfl

/-- JSON. -/
def jsonFmt (env : Env) (h : NumText env.W) (numbers : Bool) (skipNone : Bool := false) : Fmt env where
  skipNone := skipNone
  named := true
  reuse := false
  conv := true
  deReuse := false
  numbers := if numbers then some (jsonNumbers env.W) else none
  raw := false
  wire := jsonWire env.W
  key := jsonKey env.W
  raw_wire := fun h => by cases h
  raw_key := fun h => by cases h
  reuse_raw := fun h => by cases h
  numbers_float := fun num h x => by
    cases numbers with
    | true => cases h; rfl
    | false => cases h
  wire_none := rfl
  wire_bool := fun _ => rfl
  wire_int := fun _ => rfl
  wire_float := fun _ => rfl
  wire_str := fun _ => rfl
  wire_list := fun xs => .inl (by rw [jsonWire, jsonWireL_map])
  wire_tuple := fun xs => .inl (by rw [jsonWire, jsonWireL_map])
  wire_dict := fun kvs hd => by
    rw [jsonWire, jsonWireD_map, dictOf_id]
    rw [List.map_map]; exact hd
  key_str := fun _ => rfl
  key_int := fun i => .inr ⟨_, rfl, h.int i⟩
  key_float := fun x => .inr ⟨_, rfl, h.float x⟩

/-- MessagePack. -/
def mpFmt (env : Env) (named : Bool) : Fmt env where
  named := named
  reuse := false
  conv := true
  deReuse := false
  numbers := none
  raw := false
  wire := mpWire
  key := id
  raw_wire := fun h => by cases h
  raw_key := fun h => by cases h
  reuse_raw := fun h => by cases h
  numbers_float := fun _ h => by cases h
  wire_none := rfl
  wire_bool := fun _ => rfl
  wire_int := fun _ => rfl
  wire_float := fun _ => rfl
  wire_str := fun _ => rfl
  wire_list := fun xs => .inr (by rw [mpWire, mpWireL_map])
  wire_tuple := fun xs => .inr (by rw [mpWire, mpWireL_map])
  wire_dict := fun kvs hd => by
    rw [mpWire, mpWireD_map, dictOf_id]
    · rfl
    · rw [List.map_map]; exact hd
  key_str := fun _ => rfl
  key_int := fun _ => .inl rfl
  key_float := fun _ => .inl rfl

/-- YAML. -/
def yamlFmt (env : Env) (numbers : Bool) (skipNone : Bool := false) : Fmt env where
  skipNone := skipNone
  named := true
  reuse := false
  conv := true
  deReuse := false
  numbers := if numbers then some (yamlNumbers env.W) else none
  raw := false
  wire := yamlWire
  key := id
  raw_wire := fun h => by cases h
  raw_key := fun h => by cases h
  reuse_raw := fun h => by cases h
  numbers_float := fun num h x => by
    cases numbers with
    | true => cases h; rfl
    | false => cases h
  wire_none := rfl
  wire_bool := fun _ => rfl
  wire_int := fun _ => rfl
  wire_float := fun _ => rfl
  wire_str := fun _ => rfl
  wire_list := fun xs => .inl (by rw [yamlWire, yamlWireL_map])
  wire_tuple := fun xs => .inl (by rw [yamlWire, yamlWireL_map])
  wire_dict := fun kvs hd => by
    rw [yamlWire, yamlWireD_map, dictOf_id]
    · rfl
    · rw [List.map_map]; exact hd
  key_str := fun _ => rfl
  key_int := fun _ => .inl rfl
  key_float := fun _ => .inl rfl

/-! ## Entry points -/

theorem toObj_inst {env : Env} {n named re cv sn tg c attrs} (hg : env.gser = []) :
    (seAt env (n + 1)).toObj named re cv sn none tg (.inst c attrs) = wrapAll ((seAt env n).cls named re cv sn (.inst c attrs)) := by
  rw [seAt_toObj]
  unfold toObjF toObjBody
  dsimp only
  rw [hg]
  rfl

/-- What the dict based entry points do to an instance. -/
theorem top_enc {env : Env} {F : Fmt env} (hok : EnvOk env F) {c} {cd : ClassDef} (hc : env.cls c = some cd) (htr : cd.transparent = false) {v es} (hv : HasTy env (.cls c) v)
    (hes : ClsEnc env F c cd v es) :
    Ev (fun n => ∀ so : SeOpts, so.c = none → so.skipNone = F.skipNone → so.reuse.getD cd.reuseDflt = F.reuse →
        so.conv.getD cd.convDflt = F.conv → toDict env so n v = .ok (.dict .plain (strKeys es))) ∧
      Ev (fun n => ∀ o : DeOpts, o.reuse.getD cd.reuseDflt = F.deReuse → o.numbers = F.numbers →
        fromDict env o n (.cls c) (F.wire (.dict .plain (strKeys es))) = .ok v) := by
  have hcok := hok.classes c cd hc htr
  have hnd := hes.nodup hcok
  refine ⟨hes.se.step ?_, ?_⟩
  · intro n hn so h1 h2 h3 h4
    cases hv with
    | inst _ _ _ =>
      unfold toDict
      rw [h1, toObj_inst hok.noGlobal.1, h2, hn _ _ h3 h4]
      rfl
  · obtain ⟨N, hN⟩ := hes.de
    refine ⟨N + 2, fun n hn o h1 h2 => ?_⟩
    obtain ⟨m, rfl⟩ : ∃ m, n = m + 2 := ⟨n - 2, by omega⟩
    rw [wire_strKeys F hnd, fromDict_cls (by rw [hok.noGlobal.2]; simp) (by intro as h; cases h)]
    have := hN (m + 1) (by omega) (topCall o) .plain (es.map (fun e => (.str e.1, F.wire e.2))) h1 h2 (hes.holds hcok).present (hes.holds hcok).absent (hes.holds hcok).deny
    rw [deAt_cls] at this
    rw [this]; rfl

/-- What the entry points do to an instance of a transparent class. -/
theorem top_wrap {env : Env} {F : Fmt env} (hok : EnvOk env F) {c} {cd : ClassDef} (hc : env.cls c = some cd) (htr : cd.transparent = true)
    {named} (hN : named = F.named ∨ named = true) {v} (hv : HasTy env (.cls c) v) :
    ∃ w, Ev (fun n => ∀ so : SeOpts, so.c = none → so.skipNone = F.skipNone → so.reuse.getD cd.reuseDflt = F.reuse →
        so.conv.getD cd.convDflt = F.conv → (seAt env n).toObj named so.reuse so.conv so.skipNone so.c so.tagging v = .ok w) ∧
      Ev (fun n => ∀ o : DeOpts, o.reuse.getD cd.reuseDflt = F.deReuse → o.numbers = F.numbers →
        (deAt env n).fromObj named o.reuse o.numbers o.tagging (.cls c) (F.wire w) = .ok v) := by
  obtain ⟨f, hf⟩ := hok.wrappers c cd hc htr
  cases hv with
  | @inst _ cd' attrs hc' hn h =>
    rw [hc] at hc'; cases hc'
    rw [hf.only, List.map_cons, List.map_nil] at hn
    match attrs, hn with
    | [(k, x)], hn =>
      have hk : k = f.name := by simpa using hn
      subst hk
      have hp : (f, f.name, x) ∈ cd.fields.zip [(f.name, x)] := by rw [hf.only]; simp
      have hty := hf.type named hN
      obtain ⟨w, hw⟩ := rt_main hok (h _ hp) _ hN hty
      obtain ⟨h1, h2⟩ := cls_wrap hc hok.noGlobal htr hf named hw (bearable_hasTy (F := F) hok.mroSelf (h _ hp) _ hty)
      refine ⟨w, h1.step ?_, ?_⟩
      · intro n hn so e1 e2 e3 e4
        rw [e1, toObj_inst hok.noGlobal.1, e2, hn _ _ e3 e4]
        rfl
      · obtain ⟨N, hN⟩ := h2
        refine ⟨N + 2, fun n hn o e1 e2 => ?_⟩
        obtain ⟨m, rfl⟩ : ∃ m, n = m + 2 := ⟨n - 2, by omega⟩
        rw [fromObj_cls (by rw [hok.noGlobal.2]; simp) (fun as => hw.2.2.2 c as)]
        have := hN (m + 1) (by omega) (topCall o) e1 e2
        rw [deAt_cls] at this
        unfold topCall at this
        rw [this]; rfl

/-- What a well-typed instance is serialized to, and that the dict based entry points restore it. -/
theorem top_named {env : Env} {F : Fmt env} (hok : EnvOk env F) {c} {cd : ClassDef} (hc : env.cls c = some cd) {v} (hv : HasTy env (.cls c) v) :
    ∃ w, Ev (fun n => ∀ so : SeOpts, so.c = none → so.skipNone = F.skipNone → so.reuse.getD cd.reuseDflt = F.reuse →
        so.conv.getD cd.convDflt = F.conv → toDict env so n v = .ok w) ∧
      Ev (fun n => ∀ o : DeOpts, o.reuse.getD cd.reuseDflt = F.deReuse → o.numbers = F.numbers →
        fromDict env o n (.cls c) (F.wire w) = .ok v) := by
  cases htr : cd.transparent with
  | false =>
    obtain ⟨_, es, hes⟩ := (rt_main' hok hv).2 c cd rfl hc htr
    exact ⟨_, top_enc hok hc htr hv hes⟩
  | true =>
    exact top_wrap hok hc htr (.inr rfl) hv

/-- The same for the tuple based entry points. -/
theorem top_tuple {env : Env} {F : Fmt env} (hF : F.named = false) (hok : EnvOk env F) {c} {cd : ClassDef} (hc : env.cls c = some cd) {v}
    (hv : HasTy env (.cls c) v) :
    ∃ w, Ev (fun n => ∀ so : SeOpts, so.c = none → so.skipNone = F.skipNone → so.reuse.getD cd.reuseDflt = F.reuse →
        so.conv.getD cd.convDflt = F.conv → toTuple env so n v = .ok w) ∧
      Ev (fun n => ∀ o : DeOpts, o.reuse.getD cd.reuseDflt = F.deReuse → o.numbers = F.numbers →
        fromTuple env o n (.cls c) (F.wire w) = .ok v) := by
  cases htr : cd.transparent with
  | true => exact top_wrap hok hc htr (.inl hF.symm) hv
  | false =>
  have hcok := hok.classes c cd hc htr
  cases hv with
  | @inst _ cd' attrs hc' hn h =>
    rw [hc] at hc'; cases hc'
    obtain ⟨_, ws, h1, h2⟩ := cls_tuple_all hF hok hc htr hn (fun p hp => by
      have hty := hcok.types p.1 (List.of_mem_zip hp).1 false (.inl hF.symm)
      exact ⟨rt_main hok (h p hp) _ (.inl hF.symm) hty,
        bearable_hasTy (F := F) hok.mroSelf (h p hp) _ hty⟩)
      (fun p hp ch chd e1 e2 e3 => ((rt_main' hok (h p hp)).2 ch chd e1 e2 e3).1.2 hF)
    refine ⟨.tuple ws, h1.step ?_, ?_⟩
    · intro n hn so e1 e2 e3 e4
      unfold toTuple
      rw [e1, toObj_inst hok.noGlobal.1, e2, hn _ _ e3 e4]
      rfl
    · obtain ⟨N, hN⟩ := h2
      refine ⟨N + 2, fun n hn o e1 e2 => ?_⟩
      obtain ⟨m, rfl⟩ : ∃ m, n = m + 2 := ⟨n - 2, by omega⟩
      rw [fromTuple_cls (by rw [hok.noGlobal.2]; simp) (by
        intro as h
        rcases F.wire_tuple ws with h' | h' <;> rw [h'] at h <;> cases h)]
      have := hN (m + 1) (by omega) (topCall o) _ e1 e2 (F.wire_tuple ws)
      rw [deAt_cls] at this
      rw [this]; rfl

end Verif
