import Verif.Lemmas.RTScalar
/-!
# Round trip: containers
-/

namespace Verif

open Spec

/-- Element-wise round trip of a homogeneous list. -/
theorem encs {env : Env} {F : Fmt env} {S t} {xs : List Val} (h : ∀ x ∈ xs, RT env F S t x) :
    ∃ ws : List Val, xs.length = ws.length ∧ (∀ p ∈ xs.zip ws, Enc env F S t p.1 p.2) ∧
      Ev (fun n => mapR (fun x => (seAt env n).render (seCxOf F S) { ty := t, v := .ok x }) xs = .ok ws) ∧
      Ev (fun n => ∀ cx nm, DeM F S cx →
        mapR (fun x => (deAt env n).render cx { ty := t, name := nm, conv := nm, src := .val (.ok x) }) (ws.map F.wire) = .ok xs) := by
  obtain ⟨ws, hl, hw⟩ := exists_list h
  refine ⟨ws, hl, hw, ?_, ?_⟩
  · refine (Ev.list (fun p hp => (hw p hp).1)).mono ?_
    intro n hn
    exact mapR_zip hl hn
  · refine (Ev.list (fun p hp => (hw p hp).2.1)).mono ?_
    intro n hn cx nm hcx
    refine mapR_zip_flip (by simp [hl]) (fun p hp => ?_)
    obtain ⟨q, hq, h1, h2⟩ := mem_zip_map hp
    rw [h1, h2]
    exact hn q hq cx _ hcx Reads.val rfl

theorem pyIter_arr {v : Val} {xs} (h : v = .list xs ∨ v = .tuple xs) : pyIter v = .ok xs := by
  rcases h with rfl | rfl <;> rfl

theorem pyIndex_arr {v : Val} {xs i x} (h : v = .list xs ∨ v = .tuple xs) (hi : xs[i]? = some x) : pyIndex v i = .ok x := by
  rcases h with rfl | rfl <;> simp [pyIndex, hi]

theorem rt_list {env : Env} {F : Fmt env} {S k t xs} (h : ∀ x ∈ xs, RT env F S t x) : RT env F S (.list k t) (.list xs) := by
  obtain ⟨ws, hl, hw, hse, hde⟩ := encs h
  refine ⟨.list ws, hse.step ?_, hde.step ?_, ?_⟩
  · intro n hn
    rw [seAt_render]
    unfold renderF
    have h0 : (seCxOf F S).sers = [] := rfl
    rw [h0, pickSer_nil]
    simp only [pyIter]
    rw [hn]
  · intro n hn cx a hcx hr hty
    rw [render_reads hr]
    unfold deBody
    rw [hcx.des, pickDe_nil, hr.2.1, hr.1]
    dsimp only
    rw [hty]
    dsimp only
    rw [hr.data]
    dsimp only
    rw [pyIter_arr (F.wire_list ws)]
    dsimp only
    rw [hn cx "v" hcx]
  · rcases F.wire_list ws with h | h <;> rw [h] <;> exact ⟨fun hh => (by cases hh), fun _ _ hh => (by cases hh)⟩

theorem rt_deque {env : Env} {F : Fmt env} {S t xs} (h : ∀ x ∈ xs, RT env F S t x) : RT env F S (.deque t) (.deque xs) := by
  obtain ⟨ws, hl, hw, hse, hde⟩ := encs h
  refine ⟨.list ws, hse.step ?_, hde.step ?_, ?_⟩
  · intro n hn
    rw [seAt_render]
    unfold renderF
    have h0 : (seCxOf F S).sers = [] := rfl
    rw [h0, pickSer_nil]
    simp only [pyIter]
    rw [hn]
  · intro n hn cx a hcx hr hty
    rw [render_reads hr]
    unfold deBody
    rw [hcx.des, pickDe_nil, hr.2.1, hr.1]
    dsimp only
    rw [hty]
    dsimp only
    rw [hr.data]
    dsimp only
    rw [pyIter_arr (F.wire_list ws)]
    dsimp only
    rw [hn cx "v" hcx]
  · rcases F.wire_list ws with h | h <;> rw [h] <;> exact ⟨fun hh => (by cases hh), fun _ _ hh => (by cases hh)⟩

theorem rt_tupleV {env : Env} {F : Fmt env} {S t xs} (h : ∀ x ∈ xs, RT env F S t x) : RT env F S (.tupleV t) (.tuple xs) := by
  obtain ⟨ws, hl, hw, hse, hde⟩ := encs h
  refine ⟨.tuple ws, hse.step ?_, hde.step ?_, ?_⟩
  · intro n hn
    rw [seAt_render]
    unfold renderF
    have h0 : (seCxOf F S).sers = [] := rfl
    rw [h0, pickSer_nil]
    simp only [pyIter]
    rw [hn]
  · intro n hn cx a hcx hr hty
    rw [render_reads hr]
    unfold deBody
    rw [hcx.des, pickDe_nil, hr.2.1, hr.1]
    dsimp only
    rw [hty]
    dsimp only
    rw [hr.data]
    dsimp only
    rw [pyIter_arr (F.wire_tuple ws)]
    dsimp only
    rw [hn cx "v" hcx]
  · rcases F.wire_tuple ws with h | h <;> rw [h] <;> exact ⟨fun hh => (by cases hh), fun _ _ hh => (by cases hh)⟩

theorem allDistinct_pyEq {xs : List Val} (h : AllDistinct xs) : xs.Pairwise (fun a b => pyEq a b = false) :=
  List.Pairwise.imp (fun h => h.1) h

theorem mkSet_id {h : ClassId → Bool} {fr xs} (h1 : hashableL h xs = true) (h2 : AllDistinct xs) : mkSet h fr xs = .ok (.set fr xs) := by
  unfold mkSet
  rw [h1, dedup_id (allDistinct_pyEq h2)]; rfl

theorem rt_setConv {env : Env} {F : Fmt env} {S k t xs} (hc : F.conv = true) (h : ∀ x ∈ xs, RT env F S t x)
    (hh : hashableL env.hash xs = true) (hd : AllDistinct xs) : RT env F S (.set k t) (.set (k == .frozen) xs) := by
  obtain ⟨ws, hl, hw, hse, hde⟩ := encs h
  refine ⟨.list ws, hse.step ?_, hde.step ?_, ?_⟩
  · intro n hn
    rw [seAt_render]
    unfold renderF
    have h0 : (seCxOf F S).sers = [] := rfl
    have h1 : (seCxOf F S).conv = true := hc
    rw [h0, pickSer_nil]
    simp only [pyIter]
    rw [hn]
    simp [h1]
  · intro n hn cx a hcx hr hty
    rw [render_reads hr]
    unfold deBody
    rw [hcx.des, pickDe_nil, hr.2.1, hr.1]
    dsimp only
    rw [hty]
    dsimp only
    rw [hr.data]
    dsimp only
    rw [pyIter_arr (F.wire_list ws)]
    dsimp only
    rw [hn cx "v" hcx]
    exact mkSet_id hh hd
  · rcases F.wire_list ws with h | h <;> rw [h] <;> exact ⟨fun hh => (by cases hh), fun _ _ hh => (by cases hh)⟩

theorem mapR_ok_eq {α β : Type} {f : α → Res β} {as : List α} {bs cs} (h : mapR f as = .ok bs) (h' : mapR f as = .ok cs) : bs = cs :=
  Except.ok.inj (h.symm.trans h')

theorem rt_setRaw {env : Env} {F : Fmt env} {S k t xs} (hc : F.conv = false) (hraw : F.raw = true) (ht : ScalarTy env S t) (h : ∀ x ∈ xs, HasTy env t x)
    (hh : hashableL env.hash xs = true) (hd : AllDistinct xs) : RT env F S (.set k t) (.set (k == .frozen) xs) := by
  have hdis : AllDistinct (xs.map (scalarWire env F)) ∨ (xs.map (scalarWire env F)).Pairwise (fun a b => pyEq a b = false) := by
    right
    refine pairwise_transport (R := fun a b => pyEq a b = false ∧ a ≠ b) (P := fun a b => HasTy env t a ∧ b = scalarWire env F a)
      ?_ (xs := xs) (by simp) ?_ hd
    · rintro a b a' b' ⟨ha, rfl⟩ ⟨ha', rfl⟩ hR
      rw [Bool.eq_false_iff]
      intro hp
      rcases scalarWire_distinct (F := F) ht ha ha' hp with h1 | h1
      · rw [hR.1] at h1; cases h1
      · exact hR.2 h1
    · intro p hp
      obtain ⟨q, hq, h1, h2⟩ := mem_zip_map hp
      have hq' : q.1 = q.2 := by
        obtain ⟨i, hi, rfl⟩ := List.getElem_of_mem hq
        simp
      rw [h1, h2, hq']
      exact ⟨h _ (List.of_mem_zip hq).2, rfl⟩
  have hdis : (xs.map (scalarWire env F)).Pairwise (fun a b => pyEq a b = false) := by
    rcases hdis with h | h
    · exact allDistinct_pyEq h
    · exact h
  have hhash : hashableL env.hash (xs.map (scalarWire env F)) = true := by
    rw [hashableL_iff]
    intro x hx
    obtain ⟨y, hy, rfl⟩ := List.mem_map.1 hx
    exact hashable_scalarWire ht (h y hy)
  refine ⟨.set false (xs.map (scalarWire env F)), ?_, ?_, ?_⟩
  · refine (Ev.pos.step (Q := fun n => _ ) ?_)
    rintro n ⟨m, rfl⟩
    rw [seAt_render]
    unfold renderF
    have h0 : (seCxOf F S).sers = [] := rfl
    have h1 : (seCxOf F S).conv = false := hc
    rw [h0, pickSer_nil]
    simp only [pyIter]
    rw [mapR_map (g := scalarWire env F) (fun x hx => scalar_se ht (h x hx) m)]
    simp only [h1]
    unfold mkSet
    rw [hhash, dedup_id hdis]; rfl
  · refine (Ev.pos.step (Q := fun n => _ ) ?_)
    rintro n ⟨m, rfl⟩ cx a hcx hr hty
    rw [render_reads hr]
    unfold deBody
    rw [hcx.des, pickDe_nil, hr.2.1, hr.1]
    dsimp only
    rw [hty]
    dsimp only
    rw [hr.data, F.raw_wire hraw]
    simp only [pyIter]
    have : mapR (fun x => (deAt env (m + 1)).render cx { ty := t, name := "v", conv := "v", src := .val (.ok x), alias := [], deser := none })
        (xs.map (scalarWire env F)) = .ok xs := by
      refine mapR_zip_flip (by simp) (fun p hp => ?_)
      obtain ⟨q, hq, h1, h2⟩ := mem_zip_map hp
      have hq' : q.1 = q.2 := by
        obtain ⟨i, hi, rfl⟩ := List.getElem_of_mem hq
        simp
      rw [h1, h2, hq']
      exact scalar_de ht (h _ (List.of_mem_zip hq).2) hcx Reads.val rfl
    rw [this]
    exact mkSet_id hh hd
  · rw [F.raw_wire hraw]; exact ⟨fun hh => (by cases hh), fun _ _ hh => (by cases hh)⟩

/-! ## Tuples -/

theorem zip_get {α β : Type} {xs : List α} {ys : List β} {i : Nat} (h1 : i < xs.length) (h2 : i < ys.length) :
    (xs[i], ys[i]) ∈ xs.zip ys := by
  rw [List.mem_iff_getElem]
  exact ⟨i, by simp; omega, by simp⟩

theorem rt_tuple {env : Env} {F : Fmt env} {S ts xs} (hne : ts ≠ []) (hl : ts.length = xs.length)
    (h : ∀ p ∈ ts.zip xs, RT env F S p.1 p.2) : RT env F S (.tuple ts) (.tuple xs) := by
  obtain ⟨ws, hlw, hw⟩ := exists_list h
  have hlz : (ts.zip xs).length = ts.length := by simp [hl]
  have hget : ∀ i (h1 : i < ts.length) (h2 : i < xs.length) (h3 : i < ws.length), ((ts[i], xs[i]), ws[i]) ∈ (ts.zip xs).zip ws := by
    intro i h1 h2 h3
    have := zip_get (xs := ts.zip xs) (ys := ws) (i := i) (by omega) h3
    simpa using this
  refine ⟨.tuple ws, (Ev.list (fun p hp => (hw p hp).1)).step ?_, (Ev.list (fun p hp => (hw p hp).2.1)).step ?_, ?_⟩
  · intro n hn
    rw [seAt_render]
    unfold renderF
    have h0 : (seCxOf F S).sers = [] := rfl
    rw [h0, pickSer_nil]
    dsimp only
    have key : mapR (fun it : Ty × Nat => (seAt env n).render (seCxOf F S) { ty := it.1, ser := none, v := pyIndex (.tuple xs) it.2 })
        ts.zipIdx = .ok ws := by
      refine mapR_zip (by simp; omega) (fun p hp => ?_)
      obtain ⟨i, hi, rfl⟩ := List.getElem_of_mem hp
      simp at hi
      have h1 : i < ts.length := by omega
      have h2 : i < xs.length := by omega
      have h3 : i < ws.length := by omega
      have := hn _ (hget i h1 h2 h3)
      dsimp only at this
      simp only [List.getElem_zip, List.getElem_zipIdx, Nat.zero_add]
      rw [pyIndex_arr (xs := xs) (.inr rfl) (List.getElem?_eq_getElem h2)]
      exact this
    cases ts with
    | nil => exact absurd rfl hne
    | cons t ts => dsimp only; rw [key]
  · intro n hn cx a hcx hr hty
    rw [render_reads hr]
    unfold deBody
    rw [hcx.des, pickDe_nil, hr.2.1, hr.1]
    dsimp only
    rw [hty, hr.data]
    dsimp only
    have key : mapR (fun it : Ty × Nat => (deAt env n).render cx { ty := it.1, name := "data[..]", conv := "data[..]", src := .val (pyIndex (F.wire (.tuple ws)) it.2), alias := [], deser := none }) ts.zipIdx = .ok xs := by
      refine mapR_zip (by simp [hl]) (fun p hp => ?_)
      obtain ⟨i, hi, rfl⟩ := List.getElem_of_mem hp
      simp at hi
      have h1 : i < ts.length := by omega
      have h2 : i < xs.length := by omega
      have h3 : i < ws.length := by omega
      have := hn _ (hget i h1 h2 h3)
      dsimp only at this
      simp only [List.getElem_zip, List.getElem_zipIdx, Nat.zero_add]
      have hx : pyIndex (F.wire (.tuple ws)) i = .ok (F.wire ws[i]) :=
        pyIndex_arr (F.wire_tuple ws) (by simp [List.getElem?_eq_getElem h3])
      rw [hx]
      exact this cx _ hcx Reads.val rfl
    cases ts with
    | nil => exact absurd rfl hne
    | cons t ts => dsimp only; rw [key]
  · rcases F.wire_tuple ws with h | h <;> rw [h] <;> exact ⟨fun hh => (by cases hh), fun _ _ hh => (by cases hh)⟩

/-! ## Mappings -/

theorem zip_self_map {α β γ : Type} {f : α → β} {g : α → γ} {xs : List α} {p : β × γ} (h : p ∈ (xs.map f).zip (xs.map g)) :
    ∃ x ∈ xs, p = (f x, g x) := by
  obtain ⟨i, hi, rfl⟩ := List.getElem_of_mem h
  simp at hi
  exact ⟨xs[i], List.getElem_mem _, by simp⟩

/-- Serialized keys are hashable and distinct. -/
theorem keys_se {env : Env} {F : Fmt env} {t} {ks : List Val} (ht : KeyTy env F t) (hk : ∀ k ∈ ks, HasTy env t k) (hd : AllDistinct ks) :
    hashableL env.hash (ks.map (scalarWire env F)) = true ∧ (ks.map (scalarWire env F)).Pairwise (fun a b => pyEq a b = false) ∧
      (ks.map (keyWire env F)).Pairwise (fun a b => pyEq a b = false) := by
  have S : Scope := ⟨true, [], [], .external, false⟩
  refine ⟨?_, ?_, ?_⟩
  · rw [hashableL_iff]
    intro x hx
    obtain ⟨y, hy, rfl⟩ := List.mem_map.1 hx
    exact hashable_scalarWire (ht.scalar S) (hk y hy)
  · rw [List.pairwise_map]
    refine List.Pairwise.imp_of_mem ?_ hd
    intro a b ha hb hR
    rw [Bool.eq_false_iff]
    intro hp
    rcases scalarWire_distinct (F := F) (ht.scalar S) (hk a ha) (hk b hb) hp with h1 | h1
    · rw [hR.1] at h1; cases h1
    · exact hR.2 h1
  · rw [List.pairwise_map]
    refine List.Pairwise.imp_of_mem ?_ hd
    intro a b ha hb hR
    rw [Bool.eq_false_iff]
    intro hp
    rcases keyWire_distinct (F := F) ht (hk a ha) (hk b hb) hp with h1 | h1
    · rw [hR.1] at h1; cases h1
    · exact hR.2 h1

theorem mkDict_id {h : ClassId → Bool} {k kvs} (h1 : hashableL h (kvs.map (·.1)) = true)
    (h2 : (kvs.map (·.1)).Pairwise (fun a b => pyEq a b = false)) : mkDict h k kvs = .ok (.dict k kvs) := by
  unfold mkDict
  rw [h1, dictOf_id h2]; rfl

theorem rt_dict {env : Env} {F : Fmt env} {S k kt vt} {kvs : List (Val × Val)} (hkt : KeyTy env F kt)
    (hk : ∀ kv ∈ kvs, HasTy env kt kv.1) (hv : ∀ kv ∈ kvs, RT env F S vt kv.2)
    (hh : hashableL env.hash (kvs.map (·.1)) = true) (hd : AllDistinct (kvs.map (·.1))) :
    RT env F S (.dict k kt vt) (.dict (if k = .deflt then .deflt (typename env vt) else .plain) kvs) := by
  obtain ⟨ws, hl, hw⟩ := exists_list (R := fun (kv : Val × Val) w => Enc env F S vt kv.2 w) hv
  have hkeys := keys_se (F := F) hkt (ks := kvs.map (·.1)) (by simpa using fun a b h => hk (a, b) h) hd
  let es : List (Val × Val) := (kvs.zip ws).map (fun p => (scalarWire env F p.1.1, p.2))
  have hzk : (kvs.zip ws).map (·.1) = kvs := by
    rw [List.map_fst_zip]; omega
  have hes1 : es.map (·.1) = (kvs.map (·.1)).map (scalarWire env F) := by
    show ((kvs.zip ws).map _).map _ = _
    rw [List.map_map]
    conv => rhs; rw [← hzk]
    simp
  have hes2 : (es.map (fun kv => (F.key kv.1, F.wire kv.2))).map (·.1) = (kvs.map (·.1)).map (keyWire env F) := by
    show (((kvs.zip ws).map _).map _).map _ = _
    rw [List.map_map, List.map_map]
    conv => rhs; rw [← hzk]
    simp [keyWire]
  have hwire : F.wire (.dict .plain es) = .dict .plain (es.map (fun kv => (F.key kv.1, F.wire kv.2))) := by
    rw [F.wire_dict]
    rw [List.map_map] at hes2
    change (es.map (fun kv => F.key kv.1)) = _ at hes2
    rw [hes2]; exact hkeys.2.2
  refine ⟨.dict .plain es, ?_, ?_, ?_⟩
  · refine ((Ev.list (fun p hp => (hw p hp).1)).and Ev.pos).step ?_
    rintro n ⟨hn, m, rfl⟩
    rw [seAt_render]
    unfold renderF
    have h0 : (seCxOf F S).sers = [] := rfl
    rw [h0, pickSer_nil]
    simp only [pyItems]
    rw [mapR_zip (bs := es) (by simp [es]; omega)]
    · exact mkDict_id (by rw [hes1]; exact hkeys.1) (by rw [hes1]; exact hkeys.2.1)
    · intro p hp
      have : p ∈ ((kvs.zip ws).map (·.1)).zip ((kvs.zip ws).map (fun p => (scalarWire env F p.1.1, p.2))) := by rw [hzk]; exact hp
      obtain ⟨q, hq, rfl⟩ := zip_self_map this
      dsimp only
      rw [scalar_se (hkt.scalar S) (hk _ (List.of_mem_zip hq).1) m]
      dsimp only
      rw [hn q hq]
  · refine ((Ev.list (fun p hp => (hw p hp).2.1)).and Ev.pos).step ?_
    rintro n ⟨hn, m, rfl⟩ cx a hcx hr hty
    rw [render_reads hr]
    unfold deBody
    rw [hcx.des, pickDe_nil, hr.2.1, hr.1]
    dsimp only
    rw [hty]
    dsimp only
    rw [hr.data, hwire]
    simp only [pyItems]
    rw [mapR_zip_flip (as := kvs) (by simp [es]; omega)]
    · dsimp only
      rw [mkDict_id hh (allDistinct_pyEq hd)]
      cases k <;> rfl
    · intro p hp
      have : p ∈ ((kvs.zip ws).map (·.1)).zip ((kvs.zip ws).map (fun q => (F.key (scalarWire env F q.1.1), F.wire q.2))) := by
        rw [hzk]
        have he : es.map (fun kv => (F.key kv.1, F.wire kv.2)) = (kvs.zip ws).map (fun q => (F.key (scalarWire env F q.1.1), F.wire q.2)) := by
          simp [es]
        rw [← he]; exact hp
      obtain ⟨q, hq, rfl⟩ := zip_self_map this
      dsimp only
      have hkq := hk _ (List.of_mem_zip hq).1
      have hv := hn q hq cx { ty := vt, name := "v", conv := "v", src := .val (.ok (F.wire q.2)) } hcx Reads.val rfl
      cases hnk : numKey kt with
      | some pr =>
        dsimp only
        have := key_num (F := F) hnk hkq
        unfold keyWire at this
        rw [this]
        dsimp only
        rw [hv]
      | none =>
        dsimp only
        have := key_de (F := F) (S := S) (n := m) (cx := cx) (a := { ty := kt, name := "k", conv := "k", src := .val (.ok (F.key (scalarWire env F q.1.1))) })
          hkt (.inr ⟨by rintro rfl; simp [numKey] at hnk, by rintro rfl; simp [numKey] at hnk⟩) hkq hcx Reads.val rfl
        rw [this]
        dsimp only
        rw [hv]
  · rw [hwire]; exact ⟨fun hh => (by cases hh), fun _ _ hh => (by cases hh)⟩

theorem rt_counter {env : Env} {F : Fmt env} {S t} {kvs : List (Val × Val)} (hkt : KeyTy env F t)
    (hnum : F.raw = true ∨ t ≠ .prim .int ∧ t ≠ .prim .float)
    (hk : ∀ kv ∈ kvs, HasTy env t kv.1) (hv : ∀ kv ∈ kvs, ∃ i, kv.2 = .int i)
    (hh : hashableL env.hash (kvs.map (·.1)) = true) (hd : AllDistinct (kvs.map (·.1))) :
    RT env F S (.counter t) (.dict .counter kvs) := by
  have hkeys := keys_se (F := F) hkt (ks := kvs.map (·.1)) (by simpa using fun a b h => hk (a, b) h) hd
  have hes1 : (kvs.map (fun kv => (scalarWire env F kv.1, kv.2))).map (·.1) = (kvs.map (·.1)).map (scalarWire env F) := by simp
  have hwire : F.wire (.dict .plain (kvs.map (fun kv => (scalarWire env F kv.1, kv.2)))) =
      .dict .plain (kvs.map (fun kv => (keyWire env F kv.1, kv.2))) := by
    have : (kvs.map (fun kv => (scalarWire env F kv.1, kv.2))).map (fun kv => (F.key kv.1, F.wire kv.2)) =
        kvs.map (fun kv => (keyWire env F kv.1, kv.2)) := by
      rw [List.map_map]
      refine List.map_congr_left (fun kv hkv => ?_)
      obtain ⟨i, hi⟩ := hv kv hkv
      simp [keyWire, hi, F.wire_int]
    rw [F.wire_dict]
    · rw [this]
    · rw [List.map_map]
      have h2 := hkeys.2.2
      rw [List.map_map] at h2
      exact h2
  refine ⟨_, Ev.pos.step (Q := fun n => _ = Except.ok (Val.dict .plain (kvs.map (fun kv => (scalarWire env F kv.1, kv.2))))) ?_, ?_, ?_⟩
  · rintro n ⟨m, rfl⟩
    rw [seAt_render]
    unfold renderF
    have h0 : (seCxOf F S).sers = [] := rfl
    rw [h0, pickSer_nil]
    simp only [pyItems]
    rw [mapR_map (g := fun kv => (scalarWire env F kv.1, kv.2))]
    · exact mkDict_id (by rw [hes1]; exact hkeys.1) (by rw [hes1]; exact hkeys.2.1)
    · intro kv hkv
      rw [scalar_se (hkt.scalar S) (hk _ hkv) m]
  · refine Ev.pos.step ?_
    rintro n ⟨m, rfl⟩ cx a hcx hr hty
    rw [render_reads hr]
    unfold deBody
    rw [hcx.des, pickDe_nil, hr.2.1, hr.1]
    dsimp only
    rw [hty]
    dsimp only
    rw [hr.data, hwire]
    simp only [pyItems]
    rw [mapR_zip_flip (as := kvs) (by simp)]
    · exact mkDict_id hh (allDistinct_pyEq hd)
    · intro p hp
      have : p ∈ (kvs.map id).zip (kvs.map (fun kv => (keyWire env F kv.1, kv.2))) := by rw [List.map_id]; exact hp
      obtain ⟨kv, hkv, rfl⟩ := zip_self_map this
      dsimp only
      have := key_de (F := F) (S := S) (n := m) (cx := cx) (a := { ty := t, name := "k", conv := "k", src := .val (.ok (keyWire env F kv.1)) })
          hkt hnum (hk _ hkv) hcx Reads.val rfl
      rw [this]; rfl
  · rw [hwire]; exact ⟨fun hh => (by cases hh), fun _ _ hh => (by cases hh)⟩

/-! ## Aliases and Optional -/

theorem rt_alias {env : Env} {F : Fmt env} {S nm t v} (h : RT env F S t v) : RT env F S (.alias nm t) v := by
  obtain ⟨w, h1, h2, h3⟩ := h
  refine ⟨w, h1.step ?_, h2.step ?_, h3⟩
  · intro n hn
    rw [seAt_render]
    unfold renderF
    have h0 : (seCxOf F S).sers = [] := rfl
    rw [h0, pickSer_nil]
    exact hn
  · intro n hn cx a hcx hr hty
    rw [render_reads hr]
    unfold deBody
    rw [hcx.des, pickDe_nil]
    dsimp only
    rw [hr.2.1]
    dsimp only
    rw [hty]
    exact hn cx _ hcx ⟨hr.1, rfl, hr.2.2.1, hr.2.2.2.1, hr.2.2.2.2⟩ rfl

/-! ## JSON data -/

theorem wire_json {env : Env} {F : Fmt env} (hl : F.keepsLists) {v} (h : JsonVal v) : F.wire v = v := by
  induction h with
  | none => exact F.wire_none
  | bool => exact F.wire_bool _
  | int => exact F.wire_int _
  | float => exact F.wire_float _
  | str => exact F.wire_str _
  | @list xs h ih =>
    rw [hl, List.map_congr_left (g := id) (fun x hx => ih x hx), List.map_id]
  | @dict kvs hk hd h ih =>
    have hkey : kvs.map (fun kv => F.key kv.1) = kvs.map (·.1) := List.map_congr_left (fun kv hkv => by
      obtain ⟨s, hs⟩ := hk kv hkv
      rw [hs]; exact F.key_str s)
    have hne : (kvs.map (·.1)).Pairwise (fun a b => pyEq a b = false) := by
      refine List.Pairwise.imp_of_mem ?_ hd
      intro a b ha hb hab
      obtain ⟨e, he, rfl⟩ := List.mem_map.1 ha
      obtain ⟨e', he', rfl⟩ := List.mem_map.1 hb
      obtain ⟨s, hs⟩ := hk e he
      obtain ⟨s', hs'⟩ := hk e' he'
      rw [hs, hs'] at hab ⊢
      have : s ≠ s' := fun hh => hab (by rw [hh])
      simpa [pyEq] using this
    rw [F.wire_dict kvs (by rw [hkey]; exact hne), List.map_congr_left (g := id), List.map_id]
    intro kv hkv
    obtain ⟨s, hs⟩ := hk kv hkv
    rw [ih kv hkv, hs, F.key_str, ← hs]; rfl

theorem json_not_inst {v} (h : JsonVal v) (c as) : v ≠ .inst c as := by cases h <;> simp

theorem mapR_self {α : Type} {f : α → Res α} {xs : List α} (h : ∀ x ∈ xs, f x = .ok x) : mapR f xs = .ok xs := by
  induction xs with
  | nil => rfl
  | cons x xs ih => simp only [mapR, h x (by simp), ih (fun y hy => h y (by simp [hy]))]

/-- Written by its run-time type, JSON data stays as it is. -/
theorem toObj_json {env : Env} (hg : env.gser = []) {named re cs sn} {v} (h : JsonVal v) :
    ∀ c, c = none ∨ c = some .any → Ev (fun n => (seAt env n).toObj named re cs sn c .external v = .ok v) := by
  induction h with
  | @list xs h ih =>
    intro c hc
    refine (Ev.list (fun x hx => ih x hx none (.inl rfl))).step ?_
    intro n hn
    rw [seAt_toObj]
    have hm : mapR (fun x => (seAt env n).toObj named re cs sn none .external x) xs = .ok xs := mapR_self hn
    rcases hc with rfl | rfl <;> simp only [toObjF, toObjBody, hg, List.find?_nil, hm, wrapAll]
  | @dict kvs hk hd h ih =>
    intro c hc
    refine (Ev.list (fun x hx => ih x hx none (.inl rfl))).step ?_
    intro n hn
    rw [seAt_toObj]
    rcases hc with rfl | rfl <;> simp only [toObjF, toObjBody, hg, List.find?_nil] <;>
      rw [mapR_self (fun kv hkv => by rw [hn kv hkv])] <;> rfl
  | _ =>
    intro c hc
    refine Ev.pos.mono ?_
    rintro n ⟨m, rfl⟩
    rw [seAt_toObj]
    rcases hc with rfl | rfl <;> simp [toObjF, toObjBody, hg, wrapAll]

theorem rt_any {env : Env} {F : Fmt env} {S v} (hg : env.gser = [] ∧ env.gde = []) (hl : F.keepsLists) (h : JsonVal v) : RT env F S .any v := by
  have hw := wire_json hl h
  refine ⟨v, (toObj_json (named := true) (re := some false) (cs := some false) (sn := F.skipNone) hg.1 h (some .any) (.inr rfl)).step ?_, Ev.pos.mono ?_, fun hh => by rw [← hw]; exact hh, fun c as => by
    rw [hw]; exact json_not_inst h c as⟩
  · intro n hn
    rw [seAt_render]
    unfold renderF
    have h0 : (seCxOf F S).sers = [] := rfl
    rw [h0, pickSer_nil]
    exact hn
  · rintro n ⟨m, rfl⟩ cx a hcx hr hty
    rw [render_reads hr]
    unfold deBody
    rw [hcx.des, pickDe_nil, hr.2.1]
    dsimp only
    rw [hty]
    dsimp only
    rw [hr.data, hw]

theorem rt_listB {env : Env} {F : Fmt env} {S k xs} (hl : F.keepsLists) (h : JsonVal (.list xs)) : RT env F S (.listB k) (.list xs) := by
  have hw := wire_json hl h
  refine ⟨.list xs, Ev.pos.mono ?_, Ev.pos.mono ?_, fun hh => by rw [← hw]; exact hh, fun c as => by
    rw [hw]; exact json_not_inst h c as⟩
  · rintro n ⟨m, rfl⟩
    rw [seAt_render]
    unfold renderF
    have h0 : (seCxOf F S).sers = [] := rfl
    rw [h0, pickSer_nil]
    cases k <;> rfl
  · rintro n ⟨m, rfl⟩ cx a hcx hr hty
    rw [render_reads hr]
    unfold deBody
    rw [hcx.des, pickDe_nil, hr.2.1]
    dsimp only
    rw [hty]
    dsimp only
    rw [hr.data, hw]
    rfl

theorem rt_dictB {env : Env} {F : Fmt env} {S kvs} (hl : F.keepsLists) (h : JsonVal (.dict .plain kvs)) :
    RT env F S (.dictB .dict) (.dict .plain kvs) := by
  have hw := wire_json hl h
  refine ⟨.dict .plain kvs, Ev.pos.mono ?_, Ev.pos.mono ?_, fun hh => by rw [← hw]; exact hh, fun c as => by
    rw [hw]; exact json_not_inst h c as⟩
  · rintro n ⟨m, rfl⟩
    rw [seAt_render]
    unfold renderF
    have h0 : (seCxOf F S).sers = [] := rfl
    rw [h0, pickSer_nil]
  · rintro n ⟨m, rfl⟩ cx a hcx hr hty
    rw [render_reads hr]
    unfold deBody
    rw [hcx.des, pickDe_nil, hr.2.1]
    dsimp only
    rw [hty]
    dsimp only
    rw [hr.data, hw]

theorem isOpt_pair {t : Ty} (h : t ≠ .none) : (Ty.union [t, .none]).isOpt = true := by
  unfold Ty.isOpt
  cases t <;> first | rfl | exact absurd rfl h

theorem rt_opt_none {env : Env} {F : Fmt env} {S t} (hne : t ≠ .none) : RT env F S (.union [t, .none]) .none := by
  refine ⟨.none, Ev.pos.mono ?_, Ev.pos.mono ?_, fun _ => rfl, fun _ _ h => by rw [F.wire_none] at h; cases h⟩
  · rintro n ⟨m, rfl⟩
    rw [seAt_render]
    unfold renderF
    have h0 : (seCxOf F S).sers = [] := rfl
    rw [h0, pickSer_nil]
    simp [isOpt_pair hne]
  · rintro n ⟨m, rfl⟩ cx a hcx hr hty
    rw [F.wire_none] at hr
    rw [render_reads hr]
    unfold deBody
    rw [hcx.des, pickDe_nil]
    dsimp only
    rw [hr.2.1]
    dsimp only
    rw [hty]
    simp [isOpt_pair hne, hr.optExists_none]

theorem rt_opt_some {env : Env} {F : Fmt env} {S t v} (hne : t ≠ .none) (hv : v ≠ .none) (h : RT env F S t v) :
    RT env F S (.union [t, .none]) v := by
  obtain ⟨w, h1, h2, h3⟩ := h
  refine ⟨w, h1.step ?_, h2.step ?_, h3⟩
  · intro n hn
    rw [seAt_render]
    unfold renderF
    have h0 : (seCxOf F S).sers = [] := rfl
    rw [h0, pickSer_nil]
    simp only [isOpt_pair hne, if_true]
    try exact hn
  · intro n hn cx a hcx hr hty
    rw [render_reads hr]
    unfold deBody
    rw [hcx.des, pickDe_nil]
    dsimp only
    rw [hr.2.1]
    dsimp only
    rw [hty]
    simp only [isOpt_pair hne, if_true]
    rw [hr.optExists_some (fun hw => hv (h3.1 hw))]
    exact hn cx _ hcx ⟨hr.1, rfl, hr.2.2.1, rfl, hr.2.2.2.2⟩ rfl

end Verif
