import Verif.Lemmas.ReadTo
/-!
# From a reading to the readings inside it
-/

namespace Verif
open Spec Props

theorem opt_isOpt {t : Ty} (h : t ≠ .none) : (Ty.union [t, .none]).isOpt = true := by
  cases t <;> first | rfl | exact absurd rfl h

theorem no_chosen {t s} (h : ChosenDe [] t s) : False := by
  obtain ⟨pre, post, h, -⟩ := h
  simp at h

theorem no_first {t s} (h : FirstDe [] t s) : False := by
  obtain ⟨pre, post, h, -⟩ := h
  simp at h

theorem getStr_pair {s a b} : ∀ {kvs es : List (Val × Val)}, kvs.length = es.length → (∀ (i : Nat) x y, kvs[i]? = some x → es[i]? = some y → x.1 = y.1) →
    getStr s kvs = some a → getStr s es = some b → ∃ i : Nat, kvs[i]? = some (Val.str s, a) ∧ es[i]? = some (Val.str s, b)
  | [], _, _, _, h, _ => by cases h
  | _ :: _, [], h, _, _, _ => by simp at h
  | (k, v) :: kvs, (k', v') :: es, hl, hk, ha, hb => by
    obtain rfl : k = k' := hk 0 _ _ rfl rfl
    have ih : getStr s kvs = some a → getStr s es = some b → ∃ i : Nat, ((k, v) :: kvs)[i]? = some (Val.str s, a) ∧ ((k, v') :: es)[i]? = some (Val.str s, b) := fun h1 h2 => by
      obtain ⟨i, h3, h4⟩ := getStr_pair (by simpa using hl) (fun i x y hx hy => hk (i + 1) x y hx hy) h1 h2
      exact ⟨i + 1, h3, h4⟩
    cases k with
    | str s' =>
      by_cases hs : s' = s
      · subst hs
        simp only [getStr, beq_self_eq_true, if_true, Option.some.injEq] at ha hb
        subst ha; subst hb
        exact ⟨0, rfl, rfl⟩
      · have : (s' == s) = false := by simpa using hs
        simp only [getStr, this, Bool.false_eq_true, if_false] at ha hb
        exact ih ha hb
    | _ => exact ih ha hb

theorem str_keys_apart {kvs : List (Val × Val)} {ks : List String} (h : kvs.map (·.1) = ks.map Val.str) (hn : ks.Nodup) :
    (kvs.map (·.1)).Pairwise (fun a b => pyEq a b = false) := by
  rw [h, List.pairwise_map]
  exact hn.imp (fun {a b} hab => by simpa [pyEq] using hab)

/-- Entries with distinct string keys, read at keys that stay as they are. -/
theorem values_apart {kvs es zs : List (Val × Val)} {ks : List String} {k : DictK} (hkeys : kvs.map (·.1) = ks.map Val.str) (hn : ks.Nodup)
    (hl : kvs.length = es.length) (hk : ∀ (i : Nat) x y, kvs[i]? = some x → es[i]? = some y → x.1 = y.1) (hm : MapFrom k es (.dict k zs)) : zs = es := by
  have he : es.map (·.1) = kvs.map (·.1) := by
    apply List.ext_getElem?
    intro i
    rw [List.getElem?_map, List.getElem?_map]
    cases h1 : kvs[i]? with
    | none =>
      have : es[i]? = none := by rw [List.getElem?_eq_none_iff] at h1 ⊢; omega
      rw [this]
    | some a =>
      cases h2 : es[i]? with
      | none => rw [List.getElem?_eq_none_iff] at h2; have := (List.getElem?_eq_some_iff.1 h1).1; omega
      | some b => simp [hk i a b h1 h2]
  cases hm with
  | mk _ _ _ h => exact h (by rw [he]; exact str_keys_apart hkeys hn)

theorem str_at {kvs : List (Val × Val)} {ks : List String} (h : kvs.map (·.1) = ks.map Val.str) {i : Nat} {x} (hx : kvs[i]? = some x) : ∃ s, x.1 = .str s := by
  have : x.1 ∈ kvs.map (·.1) := List.mem_map.2 ⟨x, List.mem_of_getElem? hx, rfl⟩
  rw [h] at this
  obtain ⟨s, -, h2⟩ := List.mem_map.1 this
  exact ⟨s, h2.symm⟩

theorem read_str {env : Env} {m s w} (hd : m.des = []) (h : ReadTo env m (.prim .str) (.str s) w) : w = .str s := by
  cases h with
  | chosen h => rw [hd] at h; exact (no_chosen h).elim
  | leaf _ h =>
    cases h with
    | coerced _ _ h => cases h .str; rfl
    | same => rfl

theorem sole_unique {fs : List FieldDef} {f g} (hn : (fs.map (·.name)).Nodup) (hf : SoleField fs f) (hg : SoleField fs g) : f = g := by
  by_cases h : f.name = g.name
  · exact inj_of_nodup_map hn hf.mem hg.mem h
  · have := (hg.others f hf.mem h).1
    rw [hf.init] at this
    cases this

/-- Only `reuse_instances` and the function for numbers are handed on to a class. -/
theorem obj_mode {env : Env} {m m' : ReadMode} {c x w} (h1 : m.reuse = m'.reuse) (h2 : m.numbers = m'.numbers) (h3 : m.named = m'.named) (h : ObjTo env m c x w) : ObjTo env m' c x w := by
  have he : ∀ cd, m.enter env cd = m'.enter env cd := fun cd => by unfold ReadMode.enter; rw [h1, h2, h3]
  cases h with
  | dict hn hc hs a1 a2 a3 a4 a5 a6 a7 a8 a9 a10 =>
    rw [he] at a2 a3 a5 a7
    exact .dict (h3.symm.trans hn) hc hs a1 a2 a3 a4 a5 a6 a7 a8 a9 a10
  | through hc ht hl hr => rw [he] at hr; exact .through hc ht hl hr
  | other hc hs ht => exact .other hc hs ht
  | seq hn hc hp a1 a2 a3 a4 a5 a6 =>
    rw [he] at a2 a3
    exact .seq (h3.symm.trans hn) hc hp a1 a2 a3 a4 a5 a6
  | unaligned hn hc ht hp => exact .unaligned (h3.symm.trans hn) hc ht hp
  | notDict hn hc ht hx => exact .notDict (h3.symm.trans hn) hc ht hx

theorem enter_inside {env : Env} {m : ReadMode} {cd : ClassDef} (hg : env.gde = []) (hc : cd.classDe = none) :
    m.enter env cd = .inside m.named m.reuse m.numbers cd := by
  unfold ReadMode.enter ReadMode.inside
  rw [hg, hc]
  rfl

theorem plain_inside {nm re nu cd} : (ReadMode.inside nm re nu cd).plain = .inside nm re nu cd := rfl

theorem payload_unique {env : Env} {tg d x p p'} (h : PayloadOf env tg (.cls d) x p) (h' : PayloadOf env tg (.cls d) x p') : p = p' := by
  cases h with
  | plain h => exact absurd rfl (h _)
  | untagged =>
    cases h' with
    | plain h => exact absurd rfl (h _)
    | untagged => rfl
  | external h1 =>
    cases h' with
    | plain h => exact absurd rfl (h _)
    | external h2 => exact Option.some.inj (h1.symm.trans h2)
  | internal =>
    cases h' with
    | plain h => exact absurd rfl (h _)
    | internal => rfl
  | adjacent _ _ h1 =>
    cases h' with
    | plain h => exact absurd rfl (h _)
    | adjacent _ _ h2 => exact Option.some.inj (h1.symm.trans h2)

/-- Only a dataclass accepts an object. -/
theorem checked_inst {env : Env} {t d attrs} (hN : Nominal env t) (h : Checked env t (.inst d attrs)) : ∃ c, t = .cls c := by
  obtain ⟨t', he, hb⟩ := h
  cases hN with
  | prim => cases he; simp [bearable, isPrimInst] at hb
  | none => cases he; simp [bearable] at hb
  | enum => cases he; simp [bearable] at hb
  | std => cases he; simp [bearable, isStdInst] at hb
  | dt => cases he; simp [bearable, isDtInst] at hb
  | cls => exact ⟨_, rfl⟩

theorem leads_read {env : Env} (hg : env.gde = []) {nm re nu} {cd' : ClassDef} {t' x' w'} {cd : ClassDef} {t x w} (hl : Leads env nm cd' t' x' w' cd t x w) :
    ReadTo env (.inside nm re nu cd) t x w → ReadTo env (.inside nm re nu cd') t' x' w' := by
  induction hl with
  | here => exact id
  | list hx ha hb _ ih =>
    intro h
    cases h with
    | chosen h => exact (no_chosen h).elim
    | leaf _ h => cases h
    | list _ hi hl hr => rw [hx] at hi; cases hi; exact ih (hr _ _ _ ha hb)
  | deque hx ha hb _ ih =>
    intro h
    cases h with
    | chosen h => exact (no_chosen h).elim
    | leaf _ h => cases h
    | deque _ hi hl hr => rw [hx] at hi; cases hi; exact ih (hr _ _ _ ha hb)
  | tupleV hx ha hb _ ih =>
    intro h
    cases h with
    | chosen h => exact (no_chosen h).elim
    | leaf _ h => cases h
    | tupleV _ hi hl hr => rw [hx] at hi; cases hi; exact ih (hr _ _ _ ha hb)
  | tuple ht ha hb _ ih =>
    intro h
    cases h with
    | chosen h => exact (no_chosen h).elim
    | leaf _ h => cases h
    | tuple _ _ hr => exact ih (hr _ _ _ _ ht ha hb)
  | @value cd k vt dk kvs dk' es s a b ks hk hn ha hb _ ih =>
    intro h
    cases h with
    | chosen h => exact (no_chosen h).elim
    | leaf _ h => cases h
    | @dict _ _ _ _ _ kvs' es' dk'' _ _ hi hl hkr _ hvr _ hm =>
      cases hi
      have hkk : ∀ (i : Nat) x y, kvs[i]? = some x → es'[i]? = some y → x.1 = y.1 := fun i x y hx hy => by
        obtain ⟨s, hs⟩ := str_at hk hx
        have := hkr i x y hx hy ⟨by simp, by simp⟩
        rw [hs] at this ⊢
        exact (read_str rfl this).symm
      have hdk : dk'' = dk' := by cases hm; rfl
      subst hdk
      have := values_apart hk hn hl hkk hm
      subst this
      obtain ⟨i, h1, h2⟩ := getStr_pair hl hkk ha hb
      exact ih (hvr i _ _ h1 h2)
  | opt ht hx _ ih =>
    intro h
    generalize hm : ReadMode.inside nm re nu _ = m at h
    generalize hty : Ty.union _ = ty at h
    cases h with
    | chosen h => subst hm; exact (no_chosen h).elim
    | leaf _ h => subst hm; subst hty; cases h
    | optNone => exact absurd rfl hx
    | opt _ _ h => cases hty; subst hm; exact ih h
    | union _ ho => cases hty; rw [opt_isOpt ht] at ho; cases ho
    | _ => cases hty
  | alias _ ih =>
    intro h
    cases h with
    | chosen h => exact (no_chosen h).elim
    | leaf _ h => cases h
    | alias _ h => exact ih h
  | gen _ ih =>
    intro h
    cases h with
    | chosen h => exact (no_chosen h).elim
    | leaf _ h => cases h
    | gen _ h => exact ih h
  | @member cd ts d attrs x p hnm ho hN hp _ ih =>
    intro h
    generalize hm : ReadMode.inside nm re nu _ = m at h
    generalize hty : Ty.union _ = ty at h
    cases h with
    | chosen h => subst hm; exact (no_chosen h).elim
    | leaf _ h => subst hm; subst hty; cases h
    | opt => cases hty; exact absurd rfl (ho _)
    | @union _ _ t _ p' _ _ _ hmem hp' _ hr hc =>
      cases hty
      subst hm
      obtain ⟨c, rfl⟩ := checked_inst (hN t hmem) hc
      refine ih ?_
      cases hr with
      | chosen h => have h : ChosenDe env.gde _ _ := h; rw [hg] at h; exact (no_chosen h).elim
      | leaf _ h => cases h
      | cls _ h =>
        have hd : c = d := by cases h <;> rfl
        subst hd
        have := payload_unique hp hp'
        subst this
        exact .cls (fun s hs => by cases hs) (obj_mode (m := (ReadMode.inside nm re nu cd).member env) rfl rfl hnm.symm h)
    | _ => cases hty
  | field hnm hD hf hds ha hb _ ih =>
    intro h
    cases h with
    | chosen h => exact (no_chosen h).elim
    | leaf _ h => cases h
    | cls _ h =>
      cases h with
      | dict _ hc hs a1 a2 a3 a4 a5 a6 a7 a8 a9 a10 =>
        have := hD.cls.symm.trans hc
        cases this
        rw [enter_inside hg hD.noDe] at a2 a3
        apply ih
        generalize hdd : FieldDef.deserializer _ = ds at hds
        cases ds with
        | none => exact a3 _ _ _ hf ha hb hdd
        | some g =>
          cases g with
          | fn g => exact absurd rfl (hds g)
          | marker => exact a2 _ _ _ hf ha hb hdd
      | through hc ht =>
        have := hD.cls.symm.trans hc
        cases this
        have h1 := ht.transparent
        rw [hD.simple.dict] at h1
        cases h1
      | other hc hs =>
        have := hD.cls.symm.trans hc
        cases this
        exact absurd hD.simple hs
      | notDict _ _ _ hx => exact absurd rfl (hx _ _)
      | seq hn => rw [hnm] at hn; cases hn
      | unaligned hn => rw [hnm] at hn; cases hn
  | aliased hnm hD hf ha hb _ ih =>
    intro h
    cases h with
    | chosen h => exact (no_chosen h).elim
    | leaf _ h => cases h
    | cls _ h =>
      cases h with
      | dict _ hc hs a1 a2 a3 a4 a5 a6 a7 a8 a9 a10 =>
        have := hD.cls.symm.trans hc
        cases this
        rw [enter_inside hg hD.noDe] at a7
        exact ih (a7 _ _ _ hf ha hb)
      | through hc ht =>
        have := hD.cls.symm.trans hc
        cases this
        have h1 := ht.transparent
        rw [hD.simple.dict] at h1
        cases h1
      | other hc hs =>
        have := hD.cls.symm.trans hc
        cases this
        exact absurd hD.simple hs
      | notDict _ _ _ hx => exact absurd rfl (hx _ _)
      | seq hn => rw [hnm] at hn; cases hn
      | unaligned hn => rw [hnm] at hn; cases hn
  | flat hnm hD hf hb _ ih =>
    intro h
    cases h with
    | chosen h => exact (no_chosen h).elim
    | leaf _ h => cases h
    | cls _ h =>
      cases h with
      | dict _ hc hs a1 a2 a3 a4 a5 a6 a7 a8 a9 a10 =>
        have := hD.cls.symm.trans hc
        cases this
        rw [enter_inside hg hD.noDe] at a5
        exact ih (.cls (fun s hs => by cases hs) (a5 _ _ _ hf hb))
      | through hc ht =>
        have := hD.cls.symm.trans hc
        cases this
        have h1 := ht.transparent
        rw [hD.simple.dict] at h1
        cases h1
      | other hc hs =>
        have := hD.cls.symm.trans hc
        cases this
        exact absurd hD.simple hs
      | notDict _ _ _ hx => exact absurd rfl (hx _ _)
      | seq hn => rw [hnm] at hn; cases hn
      | unaligned hn => rw [hnm] at hn; cases hn
  | through hc hcd ht hb _ ih =>
    intro h
    cases h with
    | chosen h => exact (no_chosen h).elim
    | leaf _ h => cases h
    | cls _ h =>
      cases h with
      | dict _ hc' hs =>
        have := hc.symm.trans hc'
        cases this
        have h1 := ht.transparent
        rw [hs.dict] at h1
        cases h1
      | through hc' ht' hl' hr' =>
        have := hc.symm.trans hc'
        cases this
        have := sole_unique ht.names ht.sole ht'.sole
        subst this
        rw [hb] at hl'
        cases hl'
        rw [enter_inside hg hcd] at hr'
        exact ih hr'
      | other hc' _ ht' =>
        have := hc.symm.trans hc'
        cases this
        exact absurd ht (ht' _)
      | notDict _ hc' ht' =>
        have := hc.symm.trans hc'
        cases this
        have h1 := ht.transparent
        rw [ht'] at h1
        cases h1
      | unaligned _ hc' ht' =>
        have := hc.symm.trans hc'
        cases this
        have h1 := ht.transparent
        rw [ht'] at h1
        cases h1
      | seq _ hc' hp =>
        have := hc.symm.trans hc'
        cases this
        have h1 := ht.transparent
        rw [hp.dict] at h1
        cases h1
  | item hnm hc hcd hp hf hds ha hb _ ih =>
    intro h
    cases h with
    | chosen h => exact (no_chosen h).elim
    | leaf _ h => cases h
    | cls _ h =>
      cases h with
      | seq hn hc' _ a1 a2 a3 =>
        have := hc.symm.trans hc'
        cases this
        rw [enter_inside hg hcd] at a2 a3
        apply ih
        generalize hdd : FieldDef.deserializer _ = ds at hds
        cases ds with
        | none => exact a3 _ _ _ _ hf ha hb hdd
        | some g =>
          cases g with
          | fn g => exact absurd rfl (hds g)
          | marker => exact a2 _ _ _ _ hf ha hb hdd
      | unaligned _ hc' _ hp' =>
        have := hc.symm.trans hc'
        cases this
        exact absurd hp hp'
      | through hc' ht =>
        have := hc.symm.trans hc'
        cases this
        have h1 := ht.transparent
        rw [hp.dict] at h1
        cases h1
      | other hc' hs =>
        have := hc.symm.trans hc'
        cases this
        exact absurd ⟨hp.dict, hp.post, hp.names⟩ hs
      | dict hn => rw [hnm] at hn; cases hn
      | notDict hn => rw [hnm] at hn; cases hn

theorem topLeads_read {env : Env} (hg : env.gde = []) {nm reuse nu} {top cd' : ClassDef} {t' x' w' t x w} (hl : TopLeads env nm top cd' t' x' w' t x w) :
    ∀ tg, TopTo env nm reuse nu tg t x w → ReadTo env (.inside nm (reuse.getD top.reuseDflt) nu cd') t' x' w' := by
  have hnh : ∀ {t s}, FirstDe env.gde t s → False := fun h => by rw [hg] at h; exact no_first h
  induction hl with
  | cls hc hx hl =>
    intro tg h
    cases h with
    | same h => cases h; exact absurd rfl (hx _)
    | handled _ h => exact (hnh h).elim
    | leaf _ _ h => cases h
    | cls _ _ hc' h0 h1 h2 h =>
      have := hc.symm.trans hc'
      cases this
      exact leads_read hg hl (.cls (fun s hs => by cases hs) (obj_mode (by rw [h1]; rfl) (by rw [h2]; rfl) (by rw [h0]; rfl) h))
  | gen hc hl =>
    intro tg h
    cases h with
    | same h => cases h
    | handled _ h => exact (hnh h).elim
    | handledGen h => exact (hnh h).elim
    | leaf _ _ h => cases h
    | gen _ hc' h0 h1 h2 h =>
      have := hc.symm.trans hc'
      cases this
      exact leads_read hg hl (.cls (fun s hs => by cases hs) (obj_mode (by rw [h1]; rfl) (by rw [h2]; rfl) (by rw [h0]; rfl) h))
  | list hx ha hb _ ih =>
    intro tg h
    cases h with
    | same h => cases h
    | handled _ h => exact (hnh h).elim
    | leaf _ _ h => cases h
    | list _ hi hl hr => rw [hx] at hi; cases hi; exact ih _ (hr _ _ _ ha hb)
  | deque hx ha hb _ ih =>
    intro tg h
    cases h with
    | same h => cases h
    | handled _ h => exact (hnh h).elim
    | leaf _ _ h => cases h
    | deque _ hi hl hr => rw [hx] at hi; cases hi; exact ih _ (hr _ _ _ ha hb)
  | @value k vt dk kvs dk' es s a b ks hk hn ha hb _ ih =>
    intro tg h
    cases h with
    | same h => cases h
    | handled _ h => exact (hnh h).elim
    | leaf _ _ h => cases h
    | @dict _ _ _ _ _ kvs' es' dk'' _ _ hi hl hkr hvr _ hm =>
      cases hi
      have hkk : ∀ (i : Nat) x y, kvs[i]? = some x → es'[i]? = some y → x.1 = y.1 := fun i x y hx hy => by
        obtain ⟨s, hs⟩ := str_at hk hx
        have := hkr i x y hx hy
        rw [hs] at this ⊢
        generalize y.1 = y' at this ⊢
        cases this with
        | same => rfl
        | handled _ h => exact (hnh h).elim
        | leaf h => exact absurd .str h
      have hdk : dk'' = dk' := by cases hm; rfl
      subst hdk
      have := values_apart hk hn hl hkk hm
      subst this
      obtain ⟨i, h1, h2⟩ := getStr_pair hl hkk ha hb
      exact ih _ (hvr i _ _ h1 h2)
  | opt ht hx _ ih =>
    intro tg h
    generalize hty : Ty.union _ = ty at h
    cases h with
    | same h => subst hty; cases h
    | handled _ h => exact (hnh h).elim
    | leaf _ _ h => subst hty; cases h
    | optNone => exact absurd rfl hx
    | opt _ _ h => cases hty; exact ih _ h
    | union ho => cases hty; rw [opt_isOpt ht] at ho; cases ho
    | _ => cases hty
  | alias _ ih =>
    intro tg h
    cases h with
    | same h => cases h
    | handled _ h => exact (hnh h).elim
    | leaf _ _ h => cases h
    | alias h => exact ih _ h

end Verif
