import Verif.Lemmas.RTField
import Verif.Lemmas.Frame
/-!
# Round trip: flattened dataclasses
-/

namespace Verif

open Spec

theorem tyOk_inner {env : Env} {F : Fmt env} {S t s} (h : TyOk env F S t) (hi : Inner t s) : TyOk env F S s := by
  cases h with
  | scalar h => cases h <;> cases hi
  | list h => cases hi; exact h
  | deque h => cases hi; exact h
  | tupleV h => cases hi; exact h
  | tuple _ h => cases hi with | tuple hm => exact h _ hm
  | setConv _ h => cases hi; exact h
  | setRaw _ _ h => cases hi; exact .scalar h
  | dict hk h =>
    cases hi with
    | key => exact .scalar (hk.scalar S)
    | value => exact h
  | counter hk _ => cases hi; exact .scalar (hk.scalar S)
  | opt _ h =>
    cases hi with
    | union hm =>
      rcases List.mem_cons.1 hm with rfl | hm
      · exact h
      · rw [List.mem_singleton.1 hm]; exact .scalar .none
  | union _ _ ht _ _ _ _ => cases hi with | union hm => exact ht _ hm
  | cls _ => cases hi
  | alias h => cases hi; exact h
  | any => cases hi
  | listB => cases hi
  | dictB => cases hi

theorem tyOk_tables {env : Env} {F : Fmt env} {S S'} :
    Tables env (fun t => TyOk env F S t ∧ TyOk env F S' t) S.unions S'.unions S.lits S'.lits where
  closed := fun t s h hi => ⟨tyOk_inner h.1 hi, tyOk_inner h.2 hi⟩
  unions := fun ts h ho => by
    refine ⟨?_, ?_⟩
    · cases h.1 with
      | scalar h => cases h
      | opt hne _ => rw [isOpt_pair hne] at ho; cases ho
      | union _ _ _ _ _ _ hf => exact hf
    · cases h.2 with
      | scalar h => cases h
      | opt hne _ => rw [isOpt_pair hne] at ho; cases ho
      | union _ _ _ _ _ _ hf => exact hf
  lits := fun vs h => by
    have h1 : findLit env S.lits (litFuncName env vs) = some vs := by
      cases h.1 with | scalar h => cases h with | lit _ hf => exact hf
    have h2 : findLit env S'.lits (litFuncName env vs) = some vs := by
      cases h.2 with | scalar h => cases h with | lit _ hf => exact hf
    rw [h1, h2]

/-- The fields of a flattened child are serialized alike by both classes. -/
theorem flat_agree {env : Env} {F : Fmt env} {c} {cd : ClassDef} {f ch chd} (h : FieldFlat env F c cd f ch chd) (hch : ClassOk env F ch chd)
    (named : Bool) {g} (hg : g ∈ chd.fields) (n v) :
    (seAt env n).render (seCxOf F (scopeOf env named c cd)) { ty := g.ty, v := v } =
      (seAt env n).render (seCxOf F (scopeOf env named ch chd)) { ty := g.ty, v := v } := by
  have hco : (scopeOf env named c cd).coerce = (scopeOf env named ch chd).coerce := h.coerce
  obtain ⟨h1, h2⟩ := h.types g hg
  have hE : seCxOf F (scopeOf env named c cd) =
      { seCxOf F (scopeOf env named ch chd) with unions := env.unionsOf c, tagging := cd.tagging } := by
    unfold seCxOf
    rw [hco]; rfl
  rcases h2 with h2 | h2
  · rw [hE]
    exact seRender_scope env n (seCxOf F (scopeOf env named ch chd)) _ _ _ h2
  · rw [hE, h2]
    exact seRender_agree (tyOk_tables (F := F) (S := scopeOf env true c cd) (S' := scopeOf env true ch chd)) n
      (seCxOf F (scopeOf env named ch chd)) { ty := g.ty, v := v } (.inl ⟨h1, hch.types g hg true (.inr rfl)⟩)

/-- The fields of an instance with their values and wire values. -/
def Parts (env : Env) (F : Fmt env) (c : ClassId) (cd : ClassDef) (v : Val) (L : List (FieldDef × Val × Val)) : Prop :=
  cd.fields = L.map (·.1) ∧ v = .inst c (L.map (fun t => (t.1.name, t.2.1))) ∧
  ∀ t ∈ L, Enc env F (scopeOf env true c cd) t.1.ty t.2.1 t.2.2 ∧ bearable env t.1.ty t.2.1 = true

theorem classes_pos {env : Env} {c cd} (h : env.cls c = some cd) : ∃ m, env.classes.length = m + 1 := by
  unfold Env.cls at h
  cases hc : env.classes with
  | nil => rw [hc] at h; simp at h
  | cons a as => exact ⟨as.length, rfl⟩

theorem flat_child {env : Env} {F : Fmt env} {c} {cd : ClassDef} {f ch chd} (h : FieldFlat env F c cd f ch chd) : f.flatChild = some ch := by
  unfold FieldDef.flatChild; rw [h.flatten, h.ty]; rfl

theorem wiresOf_flat {env : Env} {F : Fmt env} {c} {cd : ClassDef} {f ch chd} (h : FieldFlat env F c cd f ch chd) :
    wiresOf env cd f = chd.fields.map (fun g => g.conv chd.deCase) := by
  unfold wiresOf
  rw [← flatChild_eq_inlined, flat_child h]
  dsimp only
  rw [h.child]

theorem flat_lvals {env : Env} {F : Fmt env} {c} {cd : ClassDef} {f ch chd} (h : FieldFlat env F c cd f ch chd) :
    lvals env cd.seCase (env.classes.length + 1) f = chd.fields.map (fun g => .key (g.conv chd.deCase)) := by
  obtain ⟨m, hm⟩ := classes_pos h.child
  rw [hm]
  rw [lvals, flat_child h]
  dsimp only
  rw [h.child]
  dsimp only
  have : ∀ gs : List FieldDef, (∀ g ∈ gs, g ∈ chd.fields) → gs.flatMap (lvals env cd.seCase (m + 1)) = gs.map (fun g => LV.key (g.conv chd.deCase)) := by
    intro gs
    induction gs with
    | nil => intro _; rfl
    | cons g gs ih =>
      intro hg
      rw [List.flatMap_cons, ih (fun g hg' => hg g (by simp [hg'])), plain_lvals (h.inner g (hg g (by simp))).noFlatten, h.names g (hg g (by simp))]
      rfl
  exact this _ (fun g hg => hg)

theorem assignAll_new {k : FieldDef → String} : ∀ (L : List (FieldDef × Val × Val)) (res : List (Val × Val)),
    (∀ kv ∈ res, ∀ t ∈ L, pyEq kv.1 (.str (k t.1)) = false) → (L.map (fun t => k t.1)).Nodup →
    assignAll res (L.map (fun t => .key (k t.1))) (L.map (·.2.2)) = res ++ L.map (fun t => (.str (k t.1), t.2.2))
  | [], res, _, _ => by simp [assignAll]
  | t :: L, res, hres, hn => by
    rw [List.map_cons, List.map_cons, assignAll]
    rw [List.map_cons, List.nodup_cons] at hn
    rw [dictSet_new (fun kv hkv => hres kv hkv t (by simp)), assignAll_new L _ ?_ hn.2]
    · simp
    · intro kv hkv t' ht'
      rcases List.mem_append.1 hkv with hkv | hkv
      · exact hres kv hkv t' (by simp [ht'])
      · rw [List.mem_singleton.1 hkv]
        rw [Bool.eq_false_iff]
        intro hp
        have heq := Val.str.inj (pyEq_str_right.1 hp)
        exact hn.1 (by rw [heq]; exact List.mem_map.2 ⟨t', ht', rfl⟩)

theorem getStr_filterKey {k : String} {p : Val → Bool} (hp : p (.str k) = true) (kvs : List (Val × Val)) :
    getStr k (kvs.filter (fun kv => p kv.1)) = getStr k kvs := by rw [getStr_filter, if_pos hp]

/-- The wire names of a class are among the names it recognises. -/
theorem wires_known {env : Env} {F : Fmt env} {c} {cd : ClassDef} (hok : EnvOk env F) (hc : env.cls c = some cd) (htr : cd.transparent = false) {f} (hf : f ∈ cd.fields) {k}
    (hk : k ∈ wiresOf env cd f) : k ∈ env.known c := by
  have hcok := hok.classes c cd hc htr
  unfold Env.known knownCls
  rw [hc]
  dsimp only
  rw [hcok.notTransparent]
  simp only [Bool.false_eq_true, if_false]
  rw [List.mem_flatMap]
  refine ⟨f, hf, ?_⟩
  rw [(hcok.fields f hf).flatDict]
  simp only [Bool.false_eq_true, if_false]
  cases hcok.fields f hf with
  | plain hpl _ =>
    rw [wiresOf_plain hpl.noFlatten] at hk
    have h1 : f.flatChild = none := by unfold FieldDef.flatChild; rw [hpl.noFlatten]; rfl
    rw [h1, List.mem_singleton.1 hk]
    simp [FieldDef.knownNames]
  | @flat ch chd hfl =>
    rw [wiresOf_flat hfl] at hk
    obtain ⟨g, hg, rfl⟩ := List.mem_map.1 hk
    rw [flat_child hfl]
    dsimp only
    obtain ⟨m, hm⟩ := classes_pos hfl.child
    rw [hm, knownCls, hfl.child]
    dsimp only
    rw [(hok.classes ch chd hfl.child hfl.opaqueChild).notTransparent]
    simp only [Bool.false_eq_true, if_false]
    rw [List.mem_flatMap]
    refine ⟨g, hg, ?_⟩
    have hgf := (hfl.inner g hg).noFlatten
    have h1 : g.flatChild = none := by unfold FieldDef.flatChild; rw [hgf]; rfl
    have h2 : g.flatDict = false := by unfold FieldDef.flatDict; rw [hgf]; rfl
    rw [h1, h2]
    simp [FieldDef.knownNames]

theorem fieldEnc_flat {env : Env} {F : Fmt env} {c} {cd : ClassDef} {f ch chd v L} (hok : EnvOk env F) (hc : env.cls c = some cd) (htr : cd.transparent = false)
    (h : FieldFlat env F c cd f ch chd)
    (hnd : (wiresOf env cd f).Nodup) (hP : Parts env F ch chd v L) :
    FieldEnc env F c cd f v (L.map (fun t => (t.1.conv chd.deCase, t.2.2))) := by
  have hch := hok.classes ch chd h.child h.opaqueChild
  obtain ⟨hL, rfl, hE⟩ := hP
  have hmem : ∀ t ∈ L, t.1 ∈ chd.fields := fun t ht => by rw [hL]; exact List.mem_map.2 ⟨t, ht, rfl⟩
  have hnames : (L.map (·.1.name)).Nodup := by
    have := hch.names; rw [hL, List.map_map] at this; exact this
  have hw := wiresOf_flat h
  have hwL : wiresOf env cd f = L.map (fun t => t.1.conv chd.deCase) := by rw [hw, hL, List.map_map]; rfl
  have hne : L ≠ [] := by
    intro he; rw [he] at hL; exact h.nonempty hL
  refine ⟨?_, ?_, ?_⟩
  · refine ((Ev.list (fun t ht => (hE t ht).1.1)).step (Q := fun n => ∃ m, n = m + 1 ∧ ∀ t ∈ L, (seAt env m).render (seCxOf F (scopeOf env true ch chd)) { ty := t.1.ty, v := .ok t.2.1 } = .ok t.2.2) (fun n hn => ⟨n, rfl, hn⟩)).step ?_
    rintro n ⟨m, rfl, hn⟩ obj res ho hres
    unfold seField
    have ha : seFieldArg f (.ok obj) = { ty := .cls ch, flatten := true, v := .ok (.inst ch (L.map (fun t => (t.1.name, t.2.1)))) } := by
      unfold seFieldArg; dsimp only; rw [h.plain.2.2.1, h.flatten, ho, h.ty]
    have hflat : (seAt env (m + 2)).flat (seCxOf F (scopeOf env true c cd)) (seFieldArg f (.ok obj)) = .ok (L.map (·.2.2)) := by
      rw [ha, seAt_flat]
      unfold flatF
      have h0 : (seCxOf F (scopeOf env true c cd)).sers = [] := rfl
      rw [h0, pickSer_nil]
      simp only [Option.isSome_none, Bool.false_eq_true, if_false, if_true, h.child]
      rw [hL]
      refine concatR_plain (fun t ht => ⟨⟨(h.inner _ (hmem t ht)).noCustom.1, (h.inner _ (hmem t ht)).noFlatten⟩, getAttr_mem hnames ht, ?_⟩)
      rw [flat_agree h hch true (hmem t ht)]
      exact hn t ht
    rw [hflat, flat_lvals h, hL, List.map_map]
    dsimp only
    have hrule : f.skipRule cd = .never := by
      unfold FieldDef.skipRule
      rw [h.noRule.1, h.noRule.2.1, h.noRule.2.2.1, h.noRule.2.2.2]; rfl
    rw [hrule]
    have hres' : ∀ kv ∈ res, ∀ t ∈ L, pyEq kv.1 (.str (t.1.conv chd.deCase)) = false := by
      intro kv hkv t ht
      exact hres kv hkv _ (by rw [hwL]; exact List.mem_map.2 ⟨t, ht, rfl⟩)
    have hndL : (L.map (fun t => t.1.conv chd.deCase)).Nodup := by rw [← hwL]; exact hnd
    match L, hne, hL, hres', hndL with
    | [t], _, hL, hres', _ =>
      have hs : F.skipNone = false := by
        cases hsn : F.skipNone with
        | false => rfl
        | true => have := h.skipNone hsn; rw [hL] at this; simp at this
      have hsk : skips env (seAt env (m + 1 + 1)) (seCxOf F (scopeOf env true c cd)) .never t.2.2 = .ok false := by
        unfold skips
        dsimp only
        split
        · exact congrArg Except.ok hs
        · rfl
      simp only [List.map_cons, List.map_nil, joinVals, Function.comp]
      rw [hsk]
      simp only [assign]
      rw [dictSet_new (fun kv hkv => hres' kv hkv t (by simp))]
      rfl
    | t :: t' :: L', _, hL, hres', hndL =>
      simp only [List.map_cons, joinVals, Function.comp]
      have hsk : ∀ xs, skips env (seAt env (m + 1 + 1)) (seCxOf F (scopeOf env true c cd)) .never (.tuple xs) = .ok false := fun _ => rfl
      rw [hsk]
      simp only [assign, pyIter, List.length_cons, List.length_map, BEq.rfl, if_true]
      have := assignAll_new (k := fun g => g.conv chd.deCase) (t :: t' :: L') res hres' hndL
      simp only [List.map_cons] at this
      have hcomp : ((fun g : FieldDef => LV.key (g.conv chd.deCase)) ∘ fun x : FieldDef × Val × Val => x.fst) = fun t => LV.key (t.1.conv chd.deCase) := rfl
      rw [hcomp, this]
      simp [strKeys]
  · have hde : Ev (fun n => ∀ t ∈ L, ∀ cx c' ex dk kvs, DeM F (scopeOf env true ch chd) cx → cx.data = .dict dk kvs →
        getStr (t.1.conv chd.deCase) kvs = some (F.wire t.2.2) → deField env (deAt env n) cx c' chd ex (.dict dk kvs) t.1 = .ok t.2.1) :=
      Ev.list (fun t ht => deField_present (h.inner _ (hmem t ht)) (hE t ht).1)
    refine (hde.step (Q := fun n => ∀ o dk kvs, o.reuse.getD chd.reuseDflt = F.deReuse → o.numbers = F.numbers →
        (∀ t ∈ L, getStr (t.1.conv chd.deCase) kvs = some (F.wire t.2.2)) →
        (chd.denyUnknown = true → ∀ kv ∈ kvs, ∃ k ∈ env.known ch, kv.1 = .str k) →
        (deAt env n).cls true ch o (.dict dk kvs) = .ok (.inst ch (L.map (fun t => (t.1.name, t.2.1))))) ?_).step ?_
    · intro n hn o dk kvs hre hnu hg hdeny
      exact deCls_of_fields h.child hch hL (fun t ht => (hE t ht).2)
        (fun t ht => hn t ht _ _ _ _ _ (deM_cls hok.noGlobal.2 hch.noClassCustom.2 hre hnu) rfl (hg t ht)) hdeny
    · intro n hn cx dk kvs hcx hdata hes _ hdeny
      have hg : ∀ t ∈ L, getStr (t.1.conv chd.deCase) kvs = some (F.wire t.2.2) :=
        fun t ht => hes (t.1.conv chd.deCase, t.2.2) (List.mem_map.2 ⟨t, ht, rfl⟩)
      have hknown : ∀ t ∈ L, t.1.conv chd.deCase ∈ env.known ch := fun t ht =>
        wires_known hok h.child h.opaqueChild (hmem t ht) (by rw [wiresOf_plain (h.inner _ (hmem t ht)).noFlatten]; simp)
      have hkne : kvs ≠ [] := by
        cases L with
        | nil => exact absurd rfl hne
        | cons t L => intro he; have := hg t (by simp); rw [he] at this; cases this
      have hpr : project env (.dict dk kvs) (env.known ch) (env.known c) (env.flatDict ch) cd.hasFlatDict =
          .ok (.dict .plain (kvs.filter (fun kv => keyKnown (env.known ch) kv.1 || !keyKnown (env.known c) kv.1))) := by
        unfold project
        have : truthy env (.dict dk kvs) = true := by
          cases kvs with
          | nil => exact absurd rfl hkne
          | cons _ _ => rfl
        rw [this, (hok.classes c cd hc htr).hasFlatDict]
        simp only [Bool.not_true, Bool.false_eq_true, if_false, pyItems, Bool.not_false, Bool.or_true, if_true]
        rfl
      have h2 : f.flatDict = false := by unfold FieldDef.flatDict; rw [h.flatten, h.ty]; rfl
      unfold deField
      rw [h2, flat_child h]
      simp only [Bool.false_eq_true, if_false]
      rw [hpr]
      dsimp only
      rw [h.plain.2.1]
      dsimp only
      rw [deAt_render]
      unfold deRenderF
      dsimp only
      unfold deBody
      rw [hcx.des, pickDe_nil]
      dsimp only
      rw [h.plain.2.2.2, h.ty]
      dsimp only
      rw [h.flatten]
      simp only [if_true]
      rw [hcx.named, hcx.reuse, hcx.numbers]
      have := hn { mg := cx.mg, mgVars := cx.mgVars, vta := none, reuse := some F.deReuse, numbers := F.numbers } .plain
        (kvs.filter (fun kv => keyKnown (env.known ch) kv.1 || !keyKnown (env.known c) kv.1)) rfl rfl
        (fun t ht => by
          rw [getStr_filterKey (p := fun k => keyKnown (env.known ch) k || !keyKnown (env.known c) k)]
          · exact hg t ht
          · rw [keyKnown_iff.2 ⟨_, hknown t ht, rfl⟩]; rfl)
        (fun hd kv hkv => by
          obtain ⟨hkv, hp⟩ := List.mem_filter.1 hkv
          rw [keyKnown_iff.2 (hdeny (h.deny hd) kv hkv)] at hp
          exact keyKnown_iff.1 (by simpa using hp))
      rw [show (scopeOf env true c cd).named = true from rfl, this]
      rfl
  · rw [hwL, List.map_map]
    exact List.Sublist.refl _

/-! ## All fields of a class -/

theorem flatMap_nodup_inj {α β : Type} {g : α → List β} : ∀ {M : List α}, (M.flatMap g).Nodup → ∀ {a b k}, a ∈ M → b ∈ M → k ∈ g a → k ∈ g b → a = b
  | [], _, _, _, _, ha, _, _, _ => by cases ha
  | m :: M, hn, a, b, k, ha, hb, hka, hkb => by
    rw [List.flatMap_cons, List.nodup_append] at hn
    rcases List.mem_cons.1 ha with rfl | ha1
    · rcases List.mem_cons.1 hb with rfl | hb
      · rfl
      · exact absurd rfl (hn.2.2 k hka k (List.mem_flatMap.2 ⟨b, hb, hkb⟩))
    · have ha' := ha1
      rcases List.mem_cons.1 hb with rfl | hb
      · exact absurd rfl (hn.2.2 k hkb k (List.mem_flatMap.2 ⟨a, ha', hka⟩))
      · exact flatMap_nodup_inj hn.2.1 ha' hb hka hkb

theorem keys_sublist {α : Type} {g : α → List String} {es : α → List (String × Val)} : ∀ {M : List α},
    (∀ m ∈ M, ((es m).map (·.1)).Sublist (g m)) → ((M.flatMap es).map (·.1)).Sublist (M.flatMap g)
  | [], _ => List.Sublist.refl _
  | m :: M, h => by
    rw [List.flatMap_cons, List.flatMap_cons, List.map_append]
    exact (h m (by simp)).append (keys_sublist (fun m hm => h m (by simp [hm])))

theorem strKeys_append (a b : List (String × Val)) : strKeys (a ++ b) = strKeys a ++ strKeys b := by simp [strKeys]

/-- The fields of an instance, in order. -/
theorem seFields_enc {env : Env} {r : SeRec} {cx : SeCx} {cd : ClassDef} {obj} : ∀ {M : List (FieldDef × List (String × Val))} {res : List (Val × Val)},
    (∀ m ∈ M, ∀ res : List (Val × Val), (∀ kv ∈ res, ∀ k ∈ wiresOf env cd m.1, pyEq kv.1 (.str k) = false) →
      seField env r cx cd obj res m.1 = .ok (res ++ strKeys m.2)) →
    (∀ m ∈ M, (m.2.map (·.1)).Sublist (wiresOf env cd m.1)) →
    (∀ kv ∈ res, ∀ m ∈ M, ∀ k ∈ wiresOf env cd m.1, pyEq kv.1 (.str k) = false) →
    (M.flatMap (fun m => wiresOf env cd m.1)).Nodup →
    seFields env r cx cd obj res (M.map (·.1)) = .ok (res ++ strKeys (M.flatMap (·.2)))
  | [], res, _, _, _, _ => by simp [seFields, strKeys]
  | m :: M, res, h, hk, hres, hn => by
    rw [List.map_cons, seFields, h m (by simp) res (fun kv hkv => hres kv hkv m (by simp))]
    dsimp only
    rw [List.flatMap_cons, List.nodup_append] at hn
    rw [seFields_enc (M := M) (fun m hm => h m (by simp [hm])) (fun m hm => hk m (by simp [hm])) ?_ hn.2.1]
    · rw [List.flatMap_cons, strKeys_append, List.append_assoc]
    · intro kv hkv m' hm' k hk'
      rcases List.mem_append.1 hkv with hkv | hkv
      · exact hres kv hkv m' (by simp [hm']) k hk'
      · obtain ⟨e, he, rfl⟩ := List.mem_map.1 hkv
        rw [Bool.eq_false_iff]
        intro hp
        have heq := Val.str.inj (pyEq_str_right.1 hp)
        have h1 : e.1 ∈ wiresOf env cd m.1 := (hk m (by simp)).subset (List.mem_map.2 ⟨e, he, rfl⟩)
        exact hn.2.2 _ h1 k (List.mem_flatMap.2 ⟨m', hm', hk'⟩) heq

/-- The entries of a field: none or one for a plain field, those of the child's fields for a flattened one. -/
def EntryShape (env : Env) (F : Fmt env) (cd : ClassDef) (f : FieldDef) (v w : Val) (es : List (String × Val)) : Prop :=
  (f.flatten = false ∧ (es = [] ∨ es = [(f.conv cd.deCase, w)])) ∨
  ∃ ch chd L, f.flatten = true ∧ f.ty = .cls ch ∧ env.cls ch = some chd ∧ (∀ g ∈ chd.fields, g.flatten = false) ∧ Parts env F ch chd v L ∧
    es = L.map (fun t => (t.1.conv chd.deCase, t.2.2))

/-- What the dict based functions of `c` do to `v`. -/
structure ClsEnc (env : Env) (F : Fmt env) (c : ClassId) (cd : ClassDef) (v : Val) (es : List (String × Val)) : Prop where
  se : Ev (fun n => ∀ re cv, re.getD cd.reuseDflt = F.reuse → cv.getD cd.convDflt = F.conv →
    (seAt env n).cls true re cv F.skipNone v = .ok (.dict .plain (strKeys es)))
  de : Ev (fun n => ∀ o k kvs, o.reuse.getD cd.reuseDflt = F.deReuse → o.numbers = F.numbers →
    (∀ e ∈ es, getStr e.1 kvs = some (F.wire e.2)) → (∀ k ∈ wires env cd, k ∉ es.map (·.1) → getStr k kvs = none) →
    (cd.denyUnknown = true → ∀ kv ∈ kvs, ∃ k ∈ env.known c, kv.1 = .str k) →
    (deAt env n).cls true c o (.dict k kvs) = .ok v)
  keys : (es.map (·.1)).Sublist (wires env cd)
  known : ∀ k ∈ wires env cd, k ∈ env.known c
  shape : ∃ M : List ((FieldDef × Val × Val) × List (String × Val)), Parts env F c cd v (M.map (·.1)) ∧ es = M.flatMap (·.2) ∧
    ∀ m ∈ M, EntryShape env F cd m.1.1 m.1.2.1 m.1.2.2 m.2

theorem field_enc {env : Env} {F : Fmt env} {c} {cd : ClassDef} (hok : EnvOk env F) (hc : env.cls c = some cd) (htr : cd.transparent = false) {f} (hf : f ∈ cd.fields) {v w}
    (hE : Enc env F (scopeOf env true c cd) f.ty v w) (hv : HasTy env f.ty v)
    (hP : ∀ ch chd, f.ty = .cls ch → env.cls ch = some chd → chd.transparent = false → ∃ L, Parts env F ch chd v L) (hn : (wiresOf env cd f).Nodup) :
    ∃ es, FieldEnc env F c cd f v es ∧ EntryShape env F cd f v w es := by
  cases (hok.classes c cd hc htr).fields f hf with
  | plain hpl hru =>
    rcases fieldEnc_plain hpl hru hv hE with h | h
    · exact ⟨_, h, .inl ⟨hpl.noFlatten, .inr rfl⟩⟩
    · exact ⟨_, h, .inl ⟨hpl.noFlatten, .inl rfl⟩⟩
  | @flat ch chd hfl =>
    obtain ⟨L, hL⟩ := hP ch chd hfl.ty hfl.child hfl.opaqueChild
    exact ⟨_, fieldEnc_flat hok hc htr hfl hn hL, .inr ⟨ch, chd, L, hfl.flatten, hfl.ty, hfl.child, fun g hg => (hfl.inner g hg).noFlatten, hL, rfl⟩⟩

theorem wiresOf_nodup {env : Env} {cd : ClassDef} (h : (wires env cd).Nodup) {f} (hf : f ∈ cd.fields) : (wiresOf env cd f).Nodup := by
  unfold wires at h
  have : ∀ fs : List FieldDef, (fs.flatMap (wiresOf env cd)).Nodup → f ∈ fs → (wiresOf env cd f).Nodup := by
    intro fs
    induction fs with
    | nil => intro _ h; cases h
    | cons g gs ih =>
      intro hn hm
      rw [List.flatMap_cons, List.nodup_append] at hn
      rcases List.mem_cons.1 hm with rfl | hm
      · exact hn.1
      · exact ih hn.2.1 hm
  exact this _ h hf

theorem clsEnc {env : Env} {F : Fmt env} {c} {cd : ClassDef} (hc : env.cls c = some cd) (htr : cd.transparent = false) (hok : EnvOk env F) {attrs : List (String × Val)}
    (hn : attrs.map (·.1) = cd.fields.map (·.name))
    (h : ∀ p ∈ cd.fields.zip attrs, RT env F (scopeOf env true c cd) p.1.ty p.2.2 ∧ bearable env p.1.ty p.2.2 = true)
    (hv : ∀ p ∈ cd.fields.zip attrs, HasTy env p.1.ty p.2.2)
    (hP : ∀ p ∈ cd.fields.zip attrs, ∀ ch chd, p.1.ty = .cls ch → env.cls ch = some chd → chd.transparent = false → ∃ L, Parts env F ch chd p.2.2 L) :
    (∃ L, Parts env F c cd (.inst c attrs) L) ∧ ∃ es, ClsEnc env F c cd (.inst c attrs) es := by
  have hcok := hok.classes c cd hc htr
  obtain ⟨L, hL, rfl, hE⟩ := triples hn h
  refine ⟨⟨L, hL, rfl, hE⟩, ?_⟩
  have hz : ∀ t ∈ L, (t.1, (t.1.name, t.2.1)) ∈ cd.fields.zip (L.map (fun t => (t.1.name, t.2.1))) := by
    intro t ht
    rw [hL, List.zip_map']
    exact List.mem_map.2 ⟨t, ht, rfl⟩
  have hmem : ∀ t ∈ L, t.1 ∈ cd.fields := fun t ht => by rw [hL]; exact List.mem_map.2 ⟨t, ht, rfl⟩
  have hnames : (L.map (·.1.name)).Nodup := by
    have := hcok.names; rw [hL, List.map_map] at this; exact this
  have hex : ∃ M : List ((FieldDef × Val × Val) × List (String × Val)), L = M.map (·.1) ∧ ∀ m ∈ M, FieldEnc env F c cd m.1.1 m.1.2.1 m.2 ∧ EntryShape env F cd m.1.1 m.1.2.1 m.1.2.2 m.2 := by
    have hall : ∀ t ∈ L, ∃ es, FieldEnc env F c cd t.1 t.2.1 es ∧ EntryShape env F cd t.1 t.2.1 t.2.2 es := fun t ht =>
      field_enc hok hc htr (hmem t ht) (hE t ht).1 (hv _ (hz t ht)) (hP _ (hz t ht)) (wiresOf_nodup hcok.wires (hmem t ht))
    clear hE hnames hz hL hmem hP hv h hn
    induction L with
    | nil => exact ⟨[], rfl, by simp⟩
    | cons t L ih =>
      obtain ⟨es, hes⟩ := hall t (by simp)
      obtain ⟨M, h1, h2⟩ := ih (fun t ht => hall t (by simp [ht]))
      refine ⟨(t, es) :: M, by simp [h1], ?_⟩
      intro m hm
      rcases List.mem_cons.1 hm with rfl | hm
      · exact hes
      · exact h2 m hm
  obtain ⟨M, hM, hFS⟩ := hex
  have hF := fun m hm => (hFS m hm).1
  have hfs : cd.fields = M.map (fun m => m.1.1) := by rw [hL, hM, List.map_map]; rfl
  have hw : wires env cd = M.flatMap (fun m => wiresOf env cd m.1.1) := by
    unfold wires; conv => lhs; rw [hfs]
    rw [List.flatMap_map]
  have hwn := hcok.wires
  rw [hw] at hwn
  have hML : ∀ m ∈ M, m.1 ∈ L := fun m hm => by rw [hM]; exact List.mem_map.2 ⟨m, hm, rfl⟩
  have hpa : Parts env F c cd (.inst c (L.map (fun t => (t.1.name, t.2.1)))) L := ⟨hL, rfl, hE⟩
  refine ⟨M.flatMap (·.2), ?_, ?_, ?_, ?_, ⟨M, hM ▸ hpa, rfl, fun m hm => (hFS m hm).2⟩⟩
  · refine (Ev.list (fun m hm => (hF m hm).se)).step (fun n hn re cv hre hcv => ?_)
    rw [seAt_cls]
    unfold clsF
    dsimp only
    rw [hc]
    simp only [hcok.notTransparent, Bool.false_eq_true, if_false, if_true]
    rw [clsSeCx_eq hok.noGlobal.1 hcok.noClassCustom.1 hre hcv, hcok.seFieldsOf]
    have := seFields_enc (env := env) (r := seAt env n) (cx := seCxOf F (scopeOf env true c cd)) (cd := cd)
      (obj := .inst c (L.map (fun t => (t.1.name, t.2.1)))) (M := M.map (fun m => (m.1.1, m.2))) (res := []) (by
        intro m hm res hres
        obtain ⟨m', hm', rfl⟩ := List.mem_map.1 hm
        exact hn m' hm' _ res (getAttr_mem hnames (hML m' hm')) hres) (by
        intro m hm
        obtain ⟨m', hm', rfl⟩ := List.mem_map.1 hm
        exact (hF m' hm').keys) (by simp) (by rw [List.flatMap_map]; exact hwn)
    rw [List.map_map, List.flatMap_map] at this
    have h0 : cd.fields = M.map ((fun x : FieldDef × List (String × Val) => x.1) ∘ fun m => (m.1.1, m.2)) := hfs
    rw [h0, this]
    rfl
  · refine (Ev.list (fun m hm => (hF m hm).de)).step (fun n hn o dk kvs hre hnu hget hno hdeny => ?_)
    refine deCls_of_fields hc hcok hL (fun t ht => (hE t ht).2) (fun t ht => ?_) hdeny
    rw [hM] at ht
    obtain ⟨m, hm, rfl⟩ := List.mem_map.1 ht
    refine hn m hm _ dk kvs (deM_cls hok.noGlobal.2 hcok.noClassCustom.2 hre hnu) rfl
      (fun e he => hget e (List.mem_flatMap.2 ⟨m, hm, he⟩)) (fun k hk hnot => ?_) hdeny
    refine hno k (by rw [hw]; exact List.mem_flatMap.2 ⟨m, hm, hk⟩) (fun hin => ?_)
    obtain ⟨e, he, hek⟩ := List.mem_map.1 hin
    obtain ⟨m', hm', he'⟩ := List.mem_flatMap.1 he
    have hk' : k ∈ m'.2.map (·.1) := List.mem_map.2 ⟨e, he', hek⟩
    have : m = m' := flatMap_nodup_inj (g := fun m => wiresOf env cd m.1.1) hwn hm hm' hk ((hF m' hm').keys.subset hk')
    rw [this] at hnot
    exact hnot hk'
  · rw [hw]
    exact keys_sublist (fun m hm => (hF m hm).keys)
  · intro k hk
    obtain ⟨f, hf, hk⟩ := List.mem_flatMap.1 hk
    exact wires_known hok hc htr hf hk

/-! ## Tuples -/

/-- The fields of an instance with their values and wire values, in a tuple based scope. -/
def PartsT (env : Env) (F : Fmt env) (c : ClassId) (cd : ClassDef) (v : Val) (L : List (FieldDef × Val × Val)) : Prop :=
  cd.fields = L.map (·.1) ∧ v = .inst c (L.map (fun t => (t.1.name, t.2.1))) ∧
  ∀ t ∈ L, Enc env F (scopeOf env false c cd) t.1.ty t.2.1 t.2.2 ∧ bearable env t.1.ty t.2.1 = true

/-- A flattened dataclass has one place for each of its fields, if nothing follows. -/
theorem tupleEnc_flat {env : Env} {F : Fmt env} (hF : F.named = false) {c} {cd : ClassDef} {f ch chd v L} {pre : List Val} (hok : EnvOk env F)
    (h : FieldFlat env F c cd f ch chd) (hP : PartsT env F ch chd v L) (hb : bearable env f.ty v = true) :
    TupleEnc env F c cd (pre ++ L.map (·.2.2)) f v (L.map (·.2.2)) pre.length := by
  have hch := hok.classes ch chd h.child h.opaqueChild
  obtain ⟨hL, rfl, hE⟩ := hP
  have hmem : ∀ t ∈ L, t.1 ∈ chd.fields := fun t ht => by rw [hL]; exact List.mem_map.2 ⟨t, ht, rfl⟩
  have hnames : (L.map (·.1.name)).Nodup := by
    have := hch.names; rw [hL, List.map_map] at this; exact this
  refine ⟨?_, ?_, hb⟩
  · refine ((Ev.list (fun t ht => (hE t ht).1.1)).step (Q := fun n => ∃ m, n = m + 1 ∧ ∀ t ∈ L, (seAt env m).render (seCxOf F (scopeOf env false ch chd)) { ty := t.1.ty, v := .ok t.2.1 } = .ok t.2.2) (fun n hn => ⟨n, rfl, hn⟩)).step ?_
    rintro n ⟨m, rfl, hn⟩ obj ho
    have ha : seFieldArg f (.ok obj) = { ty := .cls ch, flatten := true, v := .ok (.inst ch (L.map (fun t => (t.1.name, t.2.1)))) } := by
      unfold seFieldArg; dsimp only; rw [h.plain.2.2.1, h.flatten, ho, h.ty]
    rw [ha, seAt_flat]
    unfold flatF
    have h0 : (seCxOf F (scopeOf env false c cd)).sers = [] := rfl
    rw [h0, pickSer_nil]
    simp only [Option.isSome_none, Bool.false_eq_true, if_false, if_true, h.child]
    rw [hL]
    refine concatR_plain (fun t ht => ⟨⟨(h.inner _ (hmem t ht)).noCustom.1, (h.inner _ (hmem t ht)).noFlatten⟩, getAttr_mem hnames ht, ?_⟩)
    rw [flat_agree h hch false (hmem t ht)]
    exact hn t ht
  · refine (cls_tuple_plain h.child hok.noGlobal hch hF h.inner hL hE).2.step ?_
    intro n hn cx d hcx hd
    have hsl : ∃ d', pySlice d pre.length = .ok d' ∧ Arr d' ((L.map (·.2.2)).map F.wire) := by
      rcases hd with rfl | rfl
      · exact ⟨_, rfl, .inl (by simp)⟩
      · exact ⟨_, rfl, .inr (by simp)⟩
    obtain ⟨d', h1, h2⟩ := hsl
    rw [deAt_render]
    unfold deRenderF
    dsimp only
    unfold deBody
    rw [hcx.des, pickDe_nil]
    dsimp only
    rw [h.plain.2.2.2, h.ty]
    dsimp only
    rw [h.flatten, h1]
    simp only [if_true]
    rw [hcx.named, hcx.reuse, hcx.numbers]
    have := hn { mg := cx.mg, mgVars := cx.mgVars, vta := none, reuse := some F.deReuse, numbers := F.numbers } d' rfl rfl h2
    rw [show (scopeOf env false c cd).named = false from rfl, this]

/-- The tuple based functions of a class, with or without a flattened dataclass as the last field. -/
theorem cls_tuple_all {env : Env} {F : Fmt env} (hF : F.named = false) (hok : EnvOk env F) {c} {cd : ClassDef} (hc : env.cls c = some cd) (htr : cd.transparent = false)
    {attrs : List (String × Val)} (hn : attrs.map (·.1) = cd.fields.map (·.name))
    (h : ∀ p ∈ cd.fields.zip attrs, RT env F (scopeOf env false c cd) p.1.ty p.2.2 ∧ bearable env p.1.ty p.2.2 = true)
    (hP : ∀ p ∈ cd.fields.zip attrs, ∀ ch chd, p.1.ty = .cls ch → env.cls ch = some chd → chd.transparent = false → ∃ L, PartsT env F ch chd p.2.2 L) :
    (∃ L, PartsT env F c cd (.inst c attrs) L) ∧ ∃ ws : List Val,
    Ev (fun n => ∀ re cv, re.getD cd.reuseDflt = F.reuse → cv.getD cd.convDflt = F.conv →
      (seAt env n).cls false re cv F.skipNone (.inst c attrs) = .ok (.tuple ws)) ∧
    Ev (fun n => ∀ o d, o.reuse.getD cd.reuseDflt = F.deReuse → o.numbers = F.numbers → Arr d (ws.map F.wire) →
      (deAt env n).cls false c o d = .ok (.inst c attrs)) := by
  have hcok := hok.classes c cd hc htr
  obtain ⟨L, hL, rfl, hE⟩ := triples hn h
  refine ⟨⟨L, hL, rfl, hE⟩, ?_⟩
  have hmem : ∀ t ∈ L, t.1 ∈ cd.fields := fun t ht => by rw [hL]; exact List.mem_map.2 ⟨t, ht, rfl⟩
  rcases hcok.split hF with hpl | ⟨fs, f, ch, chd, hfs, hfl, hpl⟩
  · exact ⟨_, cls_tuple_plain hc hok.noGlobal hcok hF hpl hL hE⟩
  · have hz : ∀ t ∈ L, (t.1, (t.1.name, t.2.1)) ∈ cd.fields.zip (L.map (fun t => (t.1.name, t.2.1))) := by
      intro t ht
      rw [hL, List.zip_map']
      exact List.mem_map.2 ⟨t, ht, rfl⟩
    rw [hL] at hfs
    obtain ⟨Lp, Lf, rfl, h1, h2⟩ := List.map_eq_append_iff.1 hfs
    obtain ⟨t, Lr, rfl, h3, h4⟩ := List.map_eq_cons_iff.1 h2
    have h5 : Lr = [] := List.map_eq_nil_iff.1 h4
    subst h5
    subst h3
    have ht : t ∈ Lp ++ [t] := by simp
    obtain ⟨Lc, hLc⟩ := hP _ (hz t ht) ch chd hfl.ty hfl.child hfl.opaqueChild
    have hfm : (Lp.map (fun t => (t.1, t.2.1, [t.2.2]))).flatMap (·.2.2) = Lp.map (·.2.2) := by
      rw [List.flatMap_map, List.map_eq_flatMap]
    have hall : (Lp.map (fun t => (t.1, t.2.1, [t.2.2])) ++ [(t.1, t.2.1, Lc.map (·.2.2))]).flatMap (·.2.2) = Lp.map (·.2.2) ++ Lc.map (·.2.2) := by
      rw [List.flatMap_append, hfm]; simp
    have := cls_tuple hc hok.noGlobal hcok hF (M := Lp.map (fun t => (t.1, t.2.1, [t.2.2])) ++ [(t.1, t.2.1, Lc.map (·.2.2))])
      (by rw [hL]; simp) (by
      rw [hall]
      rintro ⟨m, i⟩ hp
      rw [List.zipIdx_append] at hp
      rcases List.mem_append.1 hp with hp | hp
      · rw [List.mem_zipIdx_iff_getElem?] at hp
        simp only [List.getElem?_map, Option.map_eq_some_iff] at hp
        obtain ⟨u, hu, rfl⟩ := hp
        have hum := List.mem_of_getElem? hu
        have hum' : u ∈ Lp ++ [t] := by simp [hum]
        have hlt : i < Lp.length := (List.getElem?_eq_some_iff.1 hu).1
        refine tupleEnc_plain hcok hF (hmem u hum') (hpl _ (by rw [← h1]; exact List.mem_map.2 ⟨u, hum, rfl⟩)) (hE u hum').1 (hE u hum').2 ?_
        rw [List.getElem?_append_left (by simpa using hlt)]
        simp [hu]
      · simp only [List.zipIdx_cons, List.zipIdx_nil, List.mem_singleton] at hp
        cases hp
        have := tupleEnc_flat hF (pre := Lp.map (·.2.2)) hok hfl hLc (hE t ht).2
        simpa using this)
    rw [hall] at this
    simp only [List.map_append, List.map_map, List.map_cons, List.map_nil] at this
    refine ⟨Lp.map (·.2.2) ++ Lc.map (·.2.2), ?_⟩
    simp only [List.map_append, List.map_map, List.map_cons, List.map_nil]
    exact this

end Verif
