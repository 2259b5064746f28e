import Verif.Lemmas.RTCont
import Verif.Lemmas.Named
import Verif.Lemmas.MapTwin
import Verif.Lemmas.Alias
/-!
# Round trip: dataclasses
-/

namespace Verif

open Spec

/-! ## Well-typed values pass beartype -/

theorem scalar_bearable {env : Env} {S t v} (ht : ScalarTy env S t) (hv : HasTy env t v) : bearable env t v = true := by
  cases ht with
  | prim => cases hv <;> rfl
  | newType => cases hv with | newType hv => cases hv <;> rfl
  | none => cases hv; rfl
  | enum he hd => cases hv with | enum he' hm => simp [bearable]
  | std => cases hv with | std hs => simp [bearable, isStdInst]
  | dt => cases hv with | dt hs => simp [bearable, isDtInst]
  | lit hl hf =>
    cases hv with
    | lit hm =>
      unfold bearable
      rw [List.any_eq_true]
      refine ⟨v, hm, ?_⟩
      rw [pyEq_refl_litVal (hl _ hm)]
      cases hl _ hm <;> rfl

theorem bearableAny_iff {env : Env} {ts v} : bearableAny env ts v = true ↔ ∃ t ∈ ts, bearable env t v = true := by
  induction ts with
  | nil => simp [bearableAny]
  | cons t ts ih => simp [bearableAny, ih]

theorem bearableZip_of {env : Env} : ∀ {ts : List Ty} {xs : List Val}, ts.length = xs.length →
    (∀ p ∈ ts.zip xs, bearable env p.1 p.2 = true) → bearableZip env ts xs = true
  | [], [], _, _ => rfl
  | [], _ :: _, h, _ => by simp at h
  | _ :: _, [], h, _ => by simp at h
  | t :: ts, x :: xs, hl, h => by
    unfold bearableZip
    rw [h (t, x) (by simp), bearableZip_of (by simpa using hl) (fun p hp => h p (by simp [hp]))]; rfl

theorem bearable_hasTy {env : Env} {F : Fmt env} (hcls : ∀ c cd, env.cls c = some cd → c ∈ cd.mro) {t v} (hv : HasTy env t v) :
    ∀ S, TyOk env F S t → bearable env t v = true := by
  induction hv with
  | int => intro S _; rfl
  | float => intro S _; rfl
  | bool => intro S _; rfl
  | str => intro S _; rfl
  | newType hv ih => intro S _; cases hv <;> rfl
  | none => intro S _; rfl
  | @list k t xs h ih =>
    intro S ht
    cases ht with
    | scalar ht => cases ht
    | list ht =>
      simp only [bearable, seqInst]
      split
      · rename_i x hx; exact ih x (env.P.pick_mem _ _ hx) S ht
      · rfl
  | @deque t xs h ih =>
    intro S ht
    cases ht with
    | scalar ht => cases ht
    | deque ht =>
      simp only [bearable]
      split
      · rename_i x hx; exact ih x (env.P.pick_mem _ _ hx) S ht
      · rfl
  | @set k t xs h hh hd ih =>
    intro S ht
    have hs : setInst k (.set (k == .frozen) xs) = some xs := by cases k <;> rfl
    cases ht with
    | scalar ht => cases ht
    | setConv _ ht =>
      simp only [bearable, hs]
      split
      · rename_i x hx; exact ih x (env.P.pick_mem _ _ hx) S ht
      · rfl
    | setRaw _ _ ht =>
      simp only [bearable, hs]
      split
      · rename_i x hx; exact ih x (env.P.pick_mem _ _ hx) S (.scalar ht)
      · rfl
  | @tupleV t xs h ih =>
    intro S ht
    cases ht with
    | scalar ht => cases ht
    | tupleV ht =>
      simp only [bearable]
      split
      · rename_i x hx; exact ih x (env.P.pick_mem _ _ hx) S ht
      · rfl
  | @tuple ts xs hl h ih =>
    intro S ht
    cases ht with
    | scalar ht => cases ht
    | tuple _ ht =>
      simp only [bearable]
      exact bearableZip_of hl (fun p hp => ih p hp S (ht p.1 (List.of_mem_zip hp).1))
  | @dict k kt vt kvs hk hv hh hd ihk ihv =>
    intro S ht
    have hs : mapInst k (.dict (if k = .deflt then .deflt (typename env vt) else .plain) kvs) = some kvs := by cases k <;> rfl
    cases ht with
    | scalar ht => cases ht
    | dict hkt hvt =>
      simp only [bearable, hs]
      split
      · rename_i kv hkv
        have hm := env.P.pickKV_mem _ _ hkv
        rw [ihk kv hm S (.scalar (hkt.scalar S)), ihv kv hm S hvt]; rfl
      · rfl
  | @counter t kvs hk hv hh hd ihk =>
    intro S ht
    cases ht with
    | scalar ht => cases ht
    | counter hkt _ =>
      simp only [bearable]
      split
      · rename_i kv hkv; exact ihk kv (env.P.pickKV_mem _ _ hkv) S (.scalar (hkt.scalar S))
      · rfl
  | any => intro S _; rfl
  | listB => intro S _; rfl
  | dictB => intro S _; rfl
  | enum he hm => intro S _; simp [bearable]
  | std hs => intro S _; simp [bearable, isStdInst]
  | dt hs => intro S _; simp [bearable, isDtInst]
  | lit hm =>
    intro S ht
    cases ht with
    | scalar ht => exact scalar_bearable ht (.lit hm)
  | @union ts t v hm hv ih =>
    intro S ht
    simp only [bearable]
    rw [bearableAny_iff]
    refine ⟨t, hm, ?_⟩
    cases ht with
    | scalar ht => cases ht
    | opt _ ht =>
      rcases List.mem_cons.1 hm with rfl | hm
      · exact ih S ht
      · rw [List.mem_singleton.1 hm]
        rw [List.mem_singleton.1 hm] at hv
        cases hv; rfl
    | union _ _ ht _ _ _ _ => exact ih S (ht t hm)
  | alias h ih =>
    intro S ht
    cases ht with
    | scalar ht => cases ht
    | alias ht => exact ih S ht
  | @inst c cd attrs hc hn h ih =>
    intro S _
    simp only [bearable, isClsInst, hc]
    simpa using hcls c cd hc

/-! ## Fields and values side by side -/

/-- Fields, attribute values and wire values of an instance. -/
theorem triples {env : Env} {F : Fmt env} {S} : ∀ {fs : List FieldDef} {attrs : List (String × Val)},
    attrs.map (·.1) = fs.map (·.name) → (∀ p ∈ fs.zip attrs, RT env F S p.1.ty p.2.2 ∧ bearable env p.1.ty p.2.2 = true) →
    ∃ L : List (FieldDef × Val × Val), fs = L.map (·.1) ∧ attrs = L.map (fun t => (t.1.name, t.2.1)) ∧
      ∀ t ∈ L, Enc env F S t.1.ty t.2.1 t.2.2 ∧ bearable env t.1.ty t.2.1 = true
  | [], [], _, _ => ⟨[], rfl, rfl, by simp⟩
  | [], _ :: _, h, _ => by simp at h
  | _ :: _, [], h, _ => by simp at h
  | f :: fs, (nm, v) :: attrs, hn, h => by
    obtain ⟨L, h1, h2, h3⟩ := triples (fs := fs) (attrs := attrs) (by simpa using (List.cons.inj hn).2) (fun p hp => h p (by simp [hp]))
    obtain ⟨⟨w, hw⟩, hb⟩ := h (f, (nm, v)) (by simp)
    refine ⟨(f, v, w) :: L, by simp [h1], ?_, ?_⟩
    · have : nm = f.name := (List.cons.inj hn).1
      simp [h2, this]
    · intro t ht
      rcases List.mem_cons.1 ht with rfl | ht
      · exact ⟨hw, hb⟩
      · exact h3 t ht

/-! ## Serializing -/

theorem plain_lvals {env : Env} {case n} {f : FieldDef} (h : f.flatten = false) : lvals env case (n + 1) f = [.key (f.conv case)] := by
  unfold lvals
  have h1 : f.flatChild = none := by unfold FieldDef.flatChild; rw [h]; rfl
  have h2 : f.flatDict = false := by unfold FieldDef.flatDict; rw [h]; rfl
  rw [h1, h2]; rfl

theorem flat_plain {env : Env} {n} {cx : SeCx} {a : SeArg} (hs : cx.sers = []) (h1 : a.ser = none) (h2 : a.flatten = false) :
    (seAt env (n + 1)).flat cx a = match (seAt env n).render cx a with
      | .ok v => .ok [v]
      | .error e => .error e := by
  rw [seAt_flat]
  unfold flatF
  dsimp only
  rw [hs, pickSer_nil, h1, h2]
  rfl

theorem Spec.FieldOk.init {env : Env} {F : Fmt env} {c} {cd : ClassDef} {f} (h : FieldOk env F c cd f) : f.init = true := by
  cases h with
  | plain h _ => exact h.init
  | flat h => exact h.init

theorem Spec.FieldOk.noSkip {env : Env} {F : Fmt env} {c} {cd : ClassDef} {f} (h : FieldOk env F c cd f) :
    f.skip = false ∧ f.skipSer = false ∧ f.skipDe = false := by
  cases h with
  | plain h _ => exact h.noSkip
  | flat h => exact h.noSkip

theorem Spec.FieldOk.renderable {env : Env} {F : Fmt env} {c} {cd : ClassDef} {f} (h : FieldOk env F c cd f) : f.renderable = true := by
  unfold FieldDef.renderable
  rw [h.init, h.noSkip.1, h.noSkip.2.2]; rfl

theorem Spec.FieldOk.flatDict {env : Env} {F : Fmt env} {c} {cd : ClassDef} {f} (h : FieldOk env F c cd f) : f.flatDict = false := by
  unfold FieldDef.flatDict
  cases h with
  | plain h _ => rw [h.noFlatten]; rfl
  | flat h => rw [h.flatten, h.ty]; rfl

theorem Spec.ClassOk.seFieldsOf {env : Env} {F : Fmt env} {c} {cd : ClassDef} (h : ClassOk env F c cd) : cd.seFieldsOf = cd.fields := by
  unfold ClassDef.seFieldsOf
  rw [List.filter_eq_self]
  intro f hf
  rw [(h.fields f hf).noSkip.1, (h.fields f hf).noSkip.2.1]; rfl

theorem Spec.ClassOk.deFields {env : Env} {F : Fmt env} {c} {cd : ClassDef} (h : ClassOk env F c cd) : cd.deFields = cd.fields := by
  unfold ClassDef.deFields
  rw [List.filter_eq_self]
  exact fun f hf => (h.fields f hf).renderable

theorem Spec.ClassOk.hasFlatDict {env : Env} {F : Fmt env} {c} {cd : ClassDef} (h : ClassOk env F c cd) : cd.hasFlatDict = false := by
  unfold ClassDef.hasFlatDict
  rw [List.any_eq_false]
  intro f hf
  rw [(h.fields f hf).flatDict]; simp

theorem clsSeCx_eq {env : Env} {F : Fmt env} {c} {cd : ClassDef} {named re cv} (hg : env.gser = []) (hs : cd.classSer = none)
    (hre : re.getD cd.reuseDflt = F.reuse) (hcv : cv.getD cd.convDflt = F.conv) :
    clsSeCx env c cd named re cv F.skipNone = seCxOf F (scopeOf env named c cd) := by
  unfold clsSeCx seCxOf scopeOf
  rw [hg, hs, hre, hcv]; rfl

theorem getAttr_mem {c} {L : List (FieldDef × Val × Val)} (hn : (L.map (·.1.name)).Nodup) {t} (ht : t ∈ L) :
    getAttr (.inst c (L.map (fun t => (t.1.name, t.2.1)))) t.1.name = .ok t.2.1 := by
  have : (L.map (fun t => (t.1.name, t.2.1))).lookup t.1.name = some t.2.1 :=
    lookup_of_mem (by rw [List.map_map]; exact hn) (List.mem_map.2 ⟨t, ht, rfl⟩)
  simp [getAttr, this]

theorem concatR_plain {env : Env} {F : Fmt env} {S n obj} : ∀ {L : List (FieldDef × Val × Val)},
    (∀ t ∈ L, (t.1.serializer = none ∧ t.1.flatten = false) ∧ getAttr obj t.1.name = .ok t.2.1 ∧
      (seAt env n).render (seCxOf F S) { ty := t.1.ty, v := .ok t.2.1 } = .ok t.2.2) →
    concatR (fun f => (seAt env (n + 1)).flat (seCxOf F S) (seFieldArg f (.ok obj))) (L.map (·.1)) = .ok (L.map (·.2.2))
  | [], _ => rfl
  | t :: L, h => by
    rw [List.map_cons, concatR]
    obtain ⟨h1, h2, h3⟩ := h t (by simp)
    have ha : seFieldArg t.1 (.ok obj) = { ty := t.1.ty, v := .ok t.2.1 } := by
      unfold seFieldArg; dsimp only; rw [h1.1, h1.2, h2]
    rw [ha, flat_plain rfl rfl rfl, h3]
    dsimp only
    rw [concatR_plain (fun t ht => h t (by simp [ht]))]
    rfl

/-! ## Constructing -/

theorem initAttrs_all : ∀ {L : List (FieldDef × Val × Val)} {bound : List (String × Val)},
    (∀ t ∈ L, t.1.init = true ∧ bound.lookup t.1.name = some t.2.1) →
    initAttrs bound (L.map (·.1)) = .ok (L.map (fun t => (t.1.name, t.2.1)))
  | [], _, _ => rfl
  | t :: L, bound, h => by
    rw [List.map_cons, initAttrs]
    obtain ⟨h1, h2⟩ := h t (by simp)
    rw [h1, h2, initAttrs_all (L := L) (fun t ht => h t (by simp [ht]))]
    rfl

theorem argsBearable_iff {env : Env} {cd : ClassDef} {bound : List (String × Val)} :
    argsBearable env cd bound = true ↔ ∀ p ∈ bound, ∀ f, cd.fields.find? (fun f => f.name == p.1) = some f → bearable env f.ty p.2 = true := by
  induction bound with
  | nil => simp [argsBearable]
  | cons p bound ih =>
    obtain ⟨n, v⟩ := p
    rw [argsBearable, Bool.and_eq_true, ih]
    constructor
    · rintro ⟨h1, h2⟩ q hq f hf
      rcases List.mem_cons.1 hq with rfl | hq
      · dsimp only at hf; rw [hf] at h1; exact h1
      · exact h2 q hq f hf
    · intro h
      refine ⟨?_, fun q hq f hf => h q (by simp [hq]) f hf⟩
      split
      · rename_i f hf; exact h (n, v) (by simp) f hf
      · rfl

theorem constructB_all {env : Env} {c} {cd : ClassDef} {L : List (FieldDef × Val × Val)} (hL : cd.fields = L.map (·.1))
    (hinit : ∀ f ∈ cd.fields, f.init = true) (hn : (cd.fields.map (·.name)).Nodup)
    (hpi : ∀ p, cd.postInit = some p → ∀ attrs, p attrs = .ok attrs)
    (hb : ∀ t ∈ L, bearable env t.1.ty t.2.1 = true) :
    constructB env c cd (L.map (fun t => (t.1.name, t.2.1))) = .ok (.inst c (L.map (fun t => (t.1.name, t.2.1)))) := by
  have hn' : ((L.map (fun t => (t.1.name, t.2.1))).map (·.1)).Nodup := by
    rw [List.map_map]; rw [hL, List.map_map] at hn; exact hn
  unfold constructB
  have hab : argsBearable env cd (L.map (fun t => (t.1.name, t.2.1))) = true := by
    rw [argsBearable_iff]
    intro p hp f hf
    obtain ⟨t, ht, rfl⟩ := List.mem_map.1 hp
    have hfm := List.mem_of_find?_eq_some hf
    have hfn := List.find?_some hf
    have : f = t.1 := inj_of_nodup_map hn hfm (by rw [hL]; exact List.mem_map.2 ⟨t, ht, rfl⟩) (by simpa using hfn)
    rw [this]; exact hb t ht
  rw [hab]
  simp only [Bool.not_true, Bool.and_false, Bool.false_eq_true, if_false]
  rw [hL, initAttrs_all (L := L)]
  · dsimp only
    cases hp : cd.postInit with
    | none => rfl
    | some p => dsimp only; rw [hpi p hp]
  · intro t ht
    exact ⟨hinit _ (by rw [hL]; exact List.mem_map.2 ⟨t, ht, rfl⟩), lookup_of_mem hn' (List.mem_map.2 ⟨t, ht, rfl⟩)⟩

theorem splitArgs_all_kw : ∀ {fs : List FieldDef} {vs : List Val}, (∀ f ∈ fs, f.renderable = true) → (∀ f ∈ fs, f.kwOnly = true) →
    ∃ ks, splitArgs ((forceKw false fs).filter (fun p => p.1.renderable)) vs = .ok ([], ks)
  | [], _, _, _ => ⟨[], by simp [forceKw, splitArgs]⟩
  | f :: fs, vs, hr, hk => by
    unfold forceKw
    simp only [hr f (by simp), hk f (by simp), Bool.not_true, Bool.or_true, Bool.or_false, List.filter_cons, if_true]
    cases vs with
    | nil => exact ⟨[], rfl⟩
    | cons v vs =>
      obtain ⟨ks, hks⟩ := splitArgs_all_kw (fs := fs) (vs := vs) (fun g hg => hr g (by simp [hg])) (fun g hg => hk g (by simp [hg]))
      exact ⟨(f.name, v) :: ks, by simp only [splitArgs, hks]; rfl⟩

theorem splitArgs_kwLast : ∀ {fs : List FieldDef} {vs : List Val}, (∀ f ∈ fs, f.renderable = true) →
    fs.Pairwise (fun f g => f.kwOnly = true → g.kwOnly = true) →
    ∃ r, splitArgs ((forceKw false fs).filter (fun p => p.1.renderable)) vs = .ok r
  | [], _, _, _ => ⟨([], []), by simp [forceKw, splitArgs]⟩
  | f :: fs, vs, hr, hk => by
    rw [List.pairwise_cons] at hk
    cases hkw : f.kwOnly with
    | true =>
      obtain ⟨ks, h⟩ := splitArgs_all_kw (fs := f :: fs) (vs := vs) hr (by
        intro g hg
        rcases List.mem_cons.1 hg with rfl | hg
        · exact hkw
        · exact hk.1 g hg hkw)
      exact ⟨_, h⟩
    | false =>
      unfold forceKw
      simp only [hr f (by simp), hkw, Bool.not_true, Bool.or_false, List.filter_cons, if_true]
      cases vs with
      | nil => exact ⟨_, rfl⟩
      | cons v vs =>
        obtain ⟨⟨ps, ks⟩, hks⟩ := splitArgs_kwLast (fs := fs) (vs := vs) (fun g hg => hr g (by simp [hg])) hk.2
        exact ⟨(v :: ps, ks), by simp only [splitArgs, hks]; rfl⟩

theorem kwBad_false {cd : ClassDef} (hr : ∀ f ∈ cd.fields, f.renderable = true)
    (hk : cd.fields.Pairwise (fun f g => f.kwOnly = true → g.kwOnly = true)) : kwBad cd = false := by
  unfold kwBad
  obtain ⟨r, h⟩ := splitArgs_kwLast (vs := cd.deFields.map (fun _ => Val.none)) hr hk
  rw [h]

/-! ## The class functions -/

theorem deM_cls {env : Env} {F : Fmt env} {c} {cd : ClassDef} {named o d} (hg : env.gde = []) (hs : cd.classDe = none)
    (hre : o.reuse.getD cd.reuseDflt = F.deReuse) (hnu : o.numbers = F.numbers) :
    DeM F (scopeOf env named c cd) (clsDeCx env c cd named o d) := by
  unfold clsDeCx scopeOf
  constructor <;> simp_all

theorem getStr_of_mem {kvs : List (Val × Val)} (hn : (kvs.map (·.1)).Pairwise (· ≠ ·)) {k v} (h : (.str k, v) ∈ kvs) :
    getStr k kvs = some v := by
  induction kvs with
  | nil => cases h
  | cons a kvs ih =>
    obtain ⟨k', v'⟩ := a
    rw [List.map_cons, List.pairwise_cons] at hn
    rcases List.mem_cons.1 h with h | h
    · cases h; simp [getStr]
    · have hne : k' ≠ .str k := hn.1 (.str k) (List.mem_map.2 ⟨_, h, rfl⟩)
      have := ih hn.2 h
      cases k' <;> simp_all [getStr]

/-- The dict based deserializer of a class, once every field is decoded. -/
theorem deClsF_of_fields {env : Env} {F : Fmt env} {c} {cd : ClassDef} (hc : env.cls c = some cd)
    (hok : ClassOk env F c cd) {r : DeRec} {L : List (FieldDef × Val × Val)} (hL : cd.fields = L.map (·.1))
    (hb : ∀ t ∈ L, bearable env t.1.ty t.2.1 = true) {o dk kvs}
    (hf : ∀ t ∈ L, deField env r (clsDeCx env c cd true o (.dict dk kvs)) c cd [] (.dict dk kvs) t.1 = .ok t.2.1)
    (hdeny : cd.denyUnknown = true → ∀ kv ∈ kvs, ∃ k ∈ env.known c, kv.1 = .str k) :
    deClsF env r true c o (.dict dk kvs) = .ok (.inst c (L.map (fun t => (t.1.name, t.2.1)))) := by
  rw [deClsF_named hc hok.notTransparent]
  have hun : deUnknown env c cd (.dict dk kvs) = .ok false := by
    unfold deUnknown
    cases hd : cd.denyUnknown with
    | false => rfl
    | true =>
      simp only [hok.hasFlatDict, Bool.not_false, Bool.and_true, if_true, orEmptyItems_dict]
      have : (kvs.any (fun kv => !keyKnown (env.known c) kv.1)) = false := by
        rw [List.any_eq_false]
        intro kv hkv
        rw [keyKnown_iff.2 (hdeny hd kv hkv)]; simp
      rw [this]
  have hex : deExtra env c cd (.dict dk kvs) = .ok [] := by unfold deExtra; rw [hok.hasFlatDict]; rfl
  rw [hun, hex]
  dsimp only
  unfold decodeCls
  rw [hok.deFields, kwBad_false (fun f hf => (hok.fields f hf).renderable) hok.kwLast]
  have hmap : mapR (deField env r (clsDeCx env c cd true o (.dict dk kvs)) c cd [] (.dict dk kvs)) cd.fields = .ok (L.map (·.2.1)) := by
    rw [hL]
    refine mapR_zip (by simp) (fun p hp => ?_)
    obtain ⟨t, ht, rfl⟩ := zip_self_map hp
    exact hf t ht
  rw [hmap]
  simp only [Bool.false_eq_true, if_false]
  have hz : (cd.fields.map (·.name)).zip (L.map (·.2.1)) = L.map (fun t => (t.1.name, t.2.1)) := by
    rw [hL, List.map_map, List.zip_map']; rfl
  rw [hz]
  exact constructB_all hL (fun f hf => (hok.fields f hf).init) hok.names hok.noHook hb

theorem deCls_of_fields {env : Env} {F : Fmt env} {c} {cd : ClassDef} (hc : env.cls c = some cd)
    (hok : ClassOk env F c cd) {L : List (FieldDef × Val × Val)} (hL : cd.fields = L.map (·.1))
    (hb : ∀ t ∈ L, bearable env t.1.ty t.2.1 = true) {n o dk kvs}
    (hf : ∀ t ∈ L, deField env (deAt env n) (clsDeCx env c cd true o (.dict dk kvs)) c cd [] (.dict dk kvs) t.1 = .ok t.2.1)
    (hdeny : cd.denyUnknown = true → ∀ kv ∈ kvs, ∃ k ∈ env.known c, kv.1 = .str k) :
    (deAt env (n + 1)).cls true c o (.dict dk kvs) = .ok (.inst c (L.map (fun t => (t.1.name, t.2.1)))) :=
  deClsF_of_fields hc hok hL hb hf hdeny

/-- With the tuple based functions only the last field can be flattened. -/
theorem Spec.ClassOk.split {env : Env} {F : Fmt env} {c} {cd : ClassDef} (h : ClassOk env F c cd) (hF : F.named = false) :
    (∀ f ∈ cd.fields, FieldPlain cd f) ∨
    ∃ fs f ch chd, cd.fields = fs ++ [f] ∧ FieldFlat env F c cd f ch chd ∧ ∀ g ∈ fs, FieldPlain cd g := by
  have hlast : ∀ {f ch chd}, FieldFlat env F c cd f ch chd → ∃ fs, cd.fields = fs ++ [f] := fun h => by
    rcases h.last with h | h
    · rw [hF] at h; cases h
    · exact h
  by_cases hall : ∀ f ∈ cd.fields, FieldPlain cd f
  · exact .inl hall
  · obtain ⟨f, hf⟩ := Classical.not_forall.1 hall
    obtain ⟨hf, hnp⟩ := Classical.not_imp.1 hf
    cases h.fields f hf with
    | plain hp _ => exact absurd hp hnp
    | @flat ch chd hfl =>
      obtain ⟨fs, hfs⟩ := hlast hfl
      refine .inr ⟨fs, f, ch, chd, hfs, hfl, fun g hg => ?_⟩
      cases h.fields g (by rw [hfs]; simp [hg]) with
      | plain hp _ => exact hp
      | flat hg' =>
        obtain ⟨gs, hgs⟩ := hlast hg'
        have he : f = g := by
          rw [hfs] at hgs
          have := List.append_inj_right' hgs rfl
          simpa using this
        have hn := h.names
        rw [hfs, List.map_append, List.nodup_append] at hn
        exact absurd rfl (hn.2.2 g.name (List.mem_map.2 ⟨g, hg, rfl⟩) g.name (by rw [he]; simp))

/-- An array on the wire. -/
def Arr (d : Val) (xs : List Val) : Prop := d = .list xs ∨ d = .tuple xs

theorem concatR_flat {env : Env} {F : Fmt env} {S n obj} : ∀ {M : List (FieldDef × Val × List Val)},
    (∀ m ∈ M, (seAt env n).flat (seCxOf F S) (seFieldArg m.1 (.ok obj)) = .ok m.2.2) →
    concatR (fun f => (seAt env n).flat (seCxOf F S) (seFieldArg f (.ok obj))) (M.map (·.1)) = .ok (M.flatMap (·.2.2))
  | [], _ => rfl
  | m :: M, h => by
    rw [List.map_cons, concatR, h m (by simp)]
    dsimp only
    rw [concatR_flat (fun m hm => h m (by simp [hm]))]
    rfl

/-- What the tuple based functions do to a field: `ws` are its places in the tuple, `all` is the whole tuple and `i` the index of the
field. -/
structure TupleEnc (env : Env) (F : Fmt env) (c : ClassId) (cd : ClassDef) (all : List Val) (f : FieldDef) (v : Val) (ws : List Val) (i : Nat) : Prop where
  se : Ev (fun n => ∀ obj, getAttr obj f.name = .ok v →
    (seAt env n).flat (seCxOf F (scopeOf env false c cd)) (seFieldArg f (.ok obj)) = .ok ws)
  de : Ev (fun n => ∀ cx d, DeM F (scopeOf env false c cd) cx → Arr d (all.map F.wire) →
    (deAt env n).render cx { ty := f.ty, name := f.name, conv := f.name, src := .idx d i, alias := f.alias, deser := f.deserializer, flatten := f.flatten } = .ok v)
  bearable : bearable env f.ty v = true

/-- The tuple based functions of a class, from those of its fields. -/
theorem cls_tuple {env : Env} {F : Fmt env} {c} {cd : ClassDef} (hc : env.cls c = some cd) (hg : env.gser = [] ∧ env.gde = [])
    (hok : ClassOk env F c cd) (hF : F.named = false) {M : List (FieldDef × Val × List Val)} (hM : cd.fields = M.map (·.1))
    (hE : ∀ p ∈ M.zipIdx, TupleEnc env F c cd (M.flatMap (·.2.2)) p.1.1 p.1.2.1 p.1.2.2 p.2) :
    Ev (fun n => ∀ re cv, re.getD cd.reuseDflt = F.reuse → cv.getD cd.convDflt = F.conv →
      (seAt env n).cls false re cv F.skipNone (.inst c (M.map (fun t => (t.1.name, t.2.1)))) = .ok (.tuple (M.flatMap (·.2.2)))) ∧
    Ev (fun n => ∀ o d, o.reuse.getD cd.reuseDflt = F.deReuse → o.numbers = F.numbers → Arr d ((M.flatMap (·.2.2)).map F.wire) →
      (deAt env n).cls false c o d = .ok (.inst c (M.map (fun t => (t.1.name, t.2.1))))) := by
  have hmem : ∀ m ∈ M, ∃ i, (m, i) ∈ M.zipIdx := fun m hm => by
    obtain ⟨i, hi, rfl⟩ := List.getElem_of_mem hm
    exact ⟨i, by rw [List.mem_zipIdx_iff_getElem?]; simp [hi]⟩
  have hkw := hok.kwTuple hF
  constructor
  · have hse : ∀ m ∈ M, Ev (fun n => ∀ obj, getAttr obj m.1.name = .ok m.2.1 →
        (seAt env n).flat (seCxOf F (scopeOf env false c cd)) (seFieldArg m.1 (.ok obj)) = .ok m.2.2) := fun m hm => by
      obtain ⟨i, hi⟩ := hmem m hm
      exact (hE _ hi).se
    refine (Ev.list hse).step ?_
    intro n hn re cv hre hcv
    rw [seAt_cls]
    unfold clsF
    dsimp only
    rw [hc]
    simp only [hok.notTransparent, Bool.false_eq_true, if_false]
    rw [clsSeCx_eq hg.1 hok.noClassCustom.1 hre hcv, hok.seFieldsOf, hM]
    have hnames : ((M.map (fun m => (m.1, m.2.1, Val.none))).map (·.1.name)).Nodup := by
      have := hok.names; rw [hM, List.map_map] at this; rw [List.map_map]; exact this
    have hattr : ∀ m ∈ M, getAttr (.inst c (M.map (fun t => (t.1.name, t.2.1)))) m.1.name = .ok m.2.1 := fun m hm => by
      have := getAttr_mem (c := c) hnames (t := (m.1, m.2.1, Val.none)) (List.mem_map.2 ⟨m, hm, rfl⟩)
      rw [List.map_map] at this
      exact this
    rw [concatR_flat (M := M) (fun m hm => hn m hm _ (hattr m hm))]
  · refine (Ev.list (fun p hp => (hE p hp).de)).step ?_
    intro n hn o d hre hnu hd
    rw [deAt_cls]
    unfold deClsF
    rw [hc]
    dsimp only
    unfold deArgs
    simp only [hok.notTransparent, Bool.false_eq_true, if_false]
    have hdf : cd.fields.filter (·.renderable) = cd.fields := hok.deFields
    have hmap : deTupleArgs (deAt env n) (clsDeCx env c cd false o d) cd d = .ok (M.map (·.2.1)) := by
      unfold deTupleArgs
      rw [hdf, hM]
      refine mapR_zip (by simp) (fun p hp => ?_)
      obtain ⟨i, hi, rfl⟩ := List.getElem_of_mem hp
      simp at hi
      simp only [List.getElem_zip, List.getElem_zipIdx, Nat.zero_add, List.getElem_map]
      exact hn (M[i], i) (by rw [List.mem_zipIdx_iff_getElem?]; simp [hi]) _ d (deM_cls hg.2 hok.noClassCustom.2 hre hnu) hd
    rw [hmap]
    dsimp only
    have hpos : cd.posParams = cd.fields := by
      unfold ClassDef.posParams
      rw [List.filter_eq_self]
      intro f hf
      rw [(hok.fields f hf).init, (hkw f hf).1]; rfl
    rw [construct_eq (by rw [hpos, hM]; simp), hpos, List.append_nil]
    have hz : (cd.fields.map (·.name)).zip (M.map (·.2.1)) = M.map (fun t => (t.1.name, t.2.1)) := by
      rw [hM, List.map_map, List.zip_map']; rfl
    rw [hz]
    have := constructB_all (env := env) (c := c) (cd := cd) (L := M.map (fun m => (m.1, m.2.1, Val.none))) (by rw [hM, List.map_map]; rfl)
      (fun f hf => (hok.fields f hf).init) hok.names hok.noHook (fun t ht => by
        obtain ⟨m, hm, rfl⟩ := List.mem_map.1 ht
        obtain ⟨i, hi⟩ := hmem m hm
        exact (hE _ hi).bearable)
    rw [List.map_map] at this
    exact this

/-- A plain field has one place. -/
theorem tupleEnc_plain {env : Env} {F : Fmt env} {c} {cd : ClassDef} (hok : ClassOk env F c cd) (hF : F.named = false) {all f v w i}
    (hf : f ∈ cd.fields) (hpl : FieldPlain cd f) (hE : Enc env F (scopeOf env false c cd) f.ty v w) (hb : bearable env f.ty v = true)
    (hi : all[i]? = some w) : TupleEnc env F c cd all f v [w] i where
  se := hE.1.step fun n hn obj ho => by
    have ha : seFieldArg f (.ok obj) = { ty := f.ty, v := .ok v } := by
      unfold seFieldArg; dsimp only; rw [hpl.noCustom.1, hpl.noFlatten, ho]
    rw [ha, flat_plain rfl rfl rfl, hn]
  de := hE.2.1.mono fun n hn cx d hcx hd => by
    rw [(hok.kwTuple hF f hf).2, hpl.noCustom.2, hpl.noFlatten]
    exact hn _ _ hcx ⟨rfl, rfl, rfl, rfl, .inr (.inl ⟨_, i, rfl, pyIndex_arr hd (by simp [hi])⟩)⟩ rfl
  bearable := hb

/-- The tuple based functions of a class of plain fields. -/
theorem cls_tuple_plain {env : Env} {F : Fmt env} {c} {cd : ClassDef} (hc : env.cls c = some cd) (hg : env.gser = [] ∧ env.gde = [])
    (hok : ClassOk env F c cd) (hF : F.named = false) (hpl : ∀ f ∈ cd.fields, FieldPlain cd f) {L : List (FieldDef × Val × Val)}
    (hL : cd.fields = L.map (·.1))
    (hE : ∀ t ∈ L, Enc env F (scopeOf env false c cd) t.1.ty t.2.1 t.2.2 ∧ bearable env t.1.ty t.2.1 = true) :
    Ev (fun n => ∀ re cv, re.getD cd.reuseDflt = F.reuse → cv.getD cd.convDflt = F.conv →
      (seAt env n).cls false re cv F.skipNone (.inst c (L.map (fun t => (t.1.name, t.2.1)))) = .ok (.tuple (L.map (·.2.2)))) ∧
    Ev (fun n => ∀ o d, o.reuse.getD cd.reuseDflt = F.deReuse → o.numbers = F.numbers → Arr d ((L.map (·.2.2)).map F.wire) →
      (deAt env n).cls false c o d = .ok (.inst c (L.map (fun t => (t.1.name, t.2.1))))) := by
  have hmem : ∀ t ∈ L, t.1 ∈ cd.fields := fun t ht => by rw [hL]; exact List.mem_map.2 ⟨t, ht, rfl⟩
  have hfm : (L.map (fun t => (t.1, t.2.1, [t.2.2]))).flatMap (·.2.2) = L.map (·.2.2) := by
    rw [List.flatMap_map, List.map_eq_flatMap]
  have := cls_tuple hc hg hok hF (M := L.map (fun t => (t.1, t.2.1, [t.2.2]))) (by rw [hL, List.map_map]; rfl) (by
    rintro ⟨m, i⟩ hp
    rw [List.mem_zipIdx_iff_getElem?] at hp
    simp only [List.getElem?_map, Option.map_eq_some_iff] at hp
    obtain ⟨t, ht, rfl⟩ := hp
    have htm := List.mem_of_getElem? ht
    exact tupleEnc_plain hok hF (hmem t htm) (hpl _ (hmem t htm)) (hE t htm).1 (hE t htm).2 (by rw [hfm]; simp [ht]))
  rw [hfm, List.map_map] at this
  exact this

end Verif
