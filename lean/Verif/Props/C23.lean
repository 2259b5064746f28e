import Verif.Lemmas.UnionDe
import Verif.Lemmas.UnionSe
import Verif.Props.C01
import Verif.Props.C18
import Verif.Props.C26
import Verif.Examples.Shapes
/-!
# C23 External, C24 internal, C25 adjacent tagging

For a union of dataclasses and the entry points `to_dict(obj, Union[...])`, `from_dict(Union[...], d)`: how the wire form of a
variant is made from the wire form of the object itself, how the object is read from it, and that it comes back.

`serialize_union` always works with `reuse_instances=False`, `convert_sets=False`, `skip_none=False`
(/repo/serde/core.py:203-211), `deserialize_union` with `reuse_instances=True` (/repo/serde/core.py:213-231), whatever options the caller passes; the
statements refer to the object's own form under these options.

False as stated (witnesses below): when a base class is listed before its subclass, a subclass instance is tagged with the base's
name (`C23_false_subclass`); an internal tag equal to a key of the variant overwrites that entry (`C24_false_clash`); an internally
tagged variant with `deny_unknown_fields` cannot be read back (`C24_false_deny`); transparent variants have no dict of their own for the internal
tag (`C24_no_dict`, `C24_false_transparent`).
-/

namespace Verif.Props
open Verif Verif.Spec

/-- Options `serialize_union` works with. -/
def unionSe : SeOpts := { reuse := some false, conv := some false, skipNone := false }
/-- Options `deserialize_union` works with. -/
def unionDe (o : DeOpts) : DeOpts := { reuse := some true, numbers := o.numbers }

/-! ## Writing -/

/-- What the union function does with the serialized variant. -/
def tagRes (tg : Tagging) (name : String) (res : Val) : Res Val :=
  match tg with
  | .external => .ok (.dict .plain [(.str name, res)])
  | .internal tag => pySetItem res tag (.str name)
  | .adjacent tag content => pySetItem (.dict .plain [(.str content, res)]) tag (.str name)
  | .untagged => .ok res

theorem seUnion_own {env : Env} {cx : SeCx} {m c} {cd : ClassDef} {attrs ts} (hc : env.cls c = some cd) (hnm : cx.named = true) (hs : cx.sers = env.gser)
    (hg : ∀ s ∈ env.gser, s.handles (.cls c) = false) (hown : OwnVariant env c ts) :
    seUnion env (seAt env (m + 1)) cx (.inst c attrs) ts = match (seAt env m).cls true (some cx.reuse) (some cx.conv) cx.skipNone (.inst c attrs) with
      | .error e => .error e
      | .ok res => tagRes cx.tagging cd.name res := by
  obtain ⟨cd', pre, post, hc', hm, rfl, hpre⟩ := hown
  rw [hc] at hc'; cases hc'
  have hr : (seAt env (m + 1)).render cx { ty := .cls c, v := .ok (.inst c attrs) } = (seAt env m).cls true (some cx.reuse) (some cx.conv) cx.skipNone (.inst c attrs) := by
    rw [seAt_render]
    unfold renderF
    have hp : pickSer cx.sers { ty := .cls c, v := .ok (.inst c attrs) } = none := by
      unfold pickSer
      dsimp only
      rw [hs, List.find?_eq_none]
      intro s hs'
      simp [hg s (List.mem_reverse.1 hs')]
    rw [hp]
    dsimp only
    rw [hnm]
  induction pre with
  | nil =>
    rw [List.nil_append]
    unfold seUnion
    have hi : isInst env (.cls c) (.inst c attrs) = true := by
      unfold isInst isClsInst
      dsimp only
      rw [hc]
      simpa using hm
    rw [hi, hr]
    simp only [if_true]
    have hn : typename env (.cls c) = cd.name := by
      unfold typename Env.clsName
      rw [hc]
    cases (seAt env m).cls true (some cx.reuse) (some cx.conv) cx.skipNone (.inst c attrs) with
    | error e => rfl
    | ok res =>
      dsimp only
      have : (Ty.cls c).isCls = true := rfl
      rw [this, hn]
      rfl
  | cons t pre ih =>
    rw [List.cons_append]
    unfold seUnion
    have hi : isInst env t (.inst c attrs) = false := by
      cases h : isInst env t (.inst c attrs) with
      | false => rfl
      | true =>
        have hp := hpre t (by simp)
        exact absurd ((isInst_nominal hp.1 (by intro c' as h; cases h; rw [hc]; rfl)).1 h) (hp.2 attrs)
    rw [hi]
    simp only [Bool.false_eq_true, if_false]
    exact ih (fun s hs => hpre s (by simp [hs]))

theorem union_writes {env : Env} {o : SeOpts} {m c} {cd : ClassDef} {attrs ts w} (ho : (Ty.union ts).isOpt = false) (huc : o.c = some (.union ts))
    (hfind : findUnion env (env.unionsOfTy (.union ts)) (unionFuncName env ts) = some ts)
    (hc : env.cls c = some cd) (hg : NoGlobal env c) (hown : OwnVariant env c ts) :
    toDict env o (m + 2) (.inst c attrs) = .ok w ↔ ∃ wv, toDict env unionSe (m + 1) (.inst c attrs) = .ok wv ∧ tagRes o.tagging cd.name wv = .ok w := by
  rw [toDict_union ho huc hfind, wrapAll_ok, seUnion_own hc rfl rfl hg.ser hown]
  have : ∀ wv, toDict env unionSe (m + 1) (.inst c attrs) = .ok wv ↔ (seAt env m).cls true (some false) (some false) false (.inst c attrs) = .ok wv := by
    intro wv
    rw [toDict_cls (.inl rfl) hg.ser, wrapAll_ok]
    rfl
  simp only [this]
  cases (seAt env m).cls true (some false) (some false) false (.inst c attrs) with
  | error e => simp
  | ok res => simp

theorem union_writes' {env : Env} {o : SeOpts} {c} {cd : ClassDef} {attrs ts w} (ho : (Ty.union ts).isOpt = false) (huc : o.c = some (.union ts))
    (hfind : findUnion env (env.unionsOfTy (.union ts)) (unionFuncName env ts) = some ts)
    (hc : env.cls c = some cd) (hg : NoGlobal env c) (hown : OwnVariant env c ts) :
    (∃ n, toDict env o n (.inst c attrs) = .ok w) ↔ ∃ wv, (∃ n, toDict env unionSe n (.inst c attrs) = .ok wv) ∧ tagRes o.tagging cd.name wv = .ok w := by
  constructor
  · rintro ⟨n, h⟩
    obtain ⟨wv, h1, h2⟩ := (union_writes ho huc hfind hc hg hown (m := n)).1 (toDict_mono (Nat.le_add_right n 2) h)
    exact ⟨wv, ⟨_, h1⟩, h2⟩
  · rintro ⟨wv, ⟨n, h1⟩, h2⟩
    exact ⟨n + 2, (union_writes ho huc hfind hc hg hown).2 ⟨wv, toDict_mono (Nat.le_add_right n 1) h1, h2⟩⟩

/-- **C23**, writing: the variant's own dict under the variant's name. -/
theorem C23_writes_partial {env : Env} {o : SeOpts} {c} {cd : ClassDef} {attrs ts w} (ho : (Ty.union ts).isOpt = false) (huc : o.c = some (.union ts))
    (htg : o.tagging = .external) (hfind : findUnion env (env.unionsOfTy (.union ts)) (unionFuncName env ts) = some ts)
    (hc : env.cls c = some cd) (hg : NoGlobal env c) (hown : OwnVariant env c ts) :
    (∃ n, toDict env o n (.inst c attrs) = .ok w) ↔
      ∃ wv, (∃ n, toDict env unionSe n (.inst c attrs) = .ok wv) ∧ w = .dict .plain [(.str cd.name, wv)] := by
  rw [union_writes' ho huc hfind hc hg hown, htg]
  simp only [tagRes, Except.ok.injEq, eq_comm]

/-- **C25**, writing: the variant's name under `tag`, the variant's own dict under `content`. -/
theorem C25_writes_partial {env : Env} {o : SeOpts} {tag content c} {cd : ClassDef} {attrs ts w} (ho : (Ty.union ts).isOpt = false) (huc : o.c = some (.union ts))
    (htg : o.tagging = .adjacent tag content) (hne : tag ≠ content) (hfind : findUnion env (env.unionsOfTy (.union ts)) (unionFuncName env ts) = some ts)
    (hc : env.cls c = some cd) (hg : NoGlobal env c) (hown : OwnVariant env c ts) :
    (∃ n, toDict env o n (.inst c attrs) = .ok w) ↔
      ∃ wv, (∃ n, toDict env unionSe n (.inst c attrs) = .ok wv) ∧ w = .dict .plain [(.str content, wv), (.str tag, .str cd.name)] := by
  rw [union_writes' ho huc hfind hc hg hown, htg]
  have : ∀ wv, tagRes (.adjacent tag content) cd.name wv = .ok (.dict .plain [(.str content, wv), (.str tag, .str cd.name)]) := by
    intro wv
    have h1 : pyEq (.str content) (.str tag) = false := by
      rw [Bool.eq_false_iff]
      intro h
      have := pyEq_str_right.1 h
      injection this with this
      exact hne this.symm
    simp only [tagRes, pySetItem, dictSet, h1, Bool.false_eq_true, if_false]
  simp only [this, Except.ok.injEq, eq_comm]

/-- **C24**, writing: the variant's own dict plus the name under `tag`, for a tag that is not one of its keys. -/
theorem C24_writes_partial {env : Env} {o : SeOpts} {tag n c} {cd : ClassDef} {attrs ts dk kvs} (ho : (Ty.union ts).isOpt = false) (huc : o.c = some (.union ts))
    (htg : o.tagging = .internal tag) (hfind : findUnion env (env.unionsOfTy (.union ts)) (unionFuncName env ts) = some ts)
    (hc : env.cls c = some cd) (hg : NoGlobal env c) (hown : OwnVariant env c ts)
    (h : toDict env unionSe n (.inst c attrs) = .ok (.dict dk kvs)) (hno : ∀ e ∈ kvs, e.1 ≠ .str tag) :
    ∃ n, toDict env o n (.inst c attrs) = .ok (.dict dk (kvs ++ [(.str tag, .str cd.name)])) := by
  refine (union_writes' ho huc hfind hc hg hown).2 ⟨_, ⟨n, h⟩, ?_⟩
  rw [htg]
  simp only [tagRes, pySetItem]
  rw [dictSet_new]
  intro kv hkv
  rw [Bool.eq_false_iff]
  intro he
  exact hno kv hkv (pyEq_str_right.1 he)

/-! ## Reading -/

theorem deClsF_inst {env : Env} {r b c o d v} (h : deClsF env r b c o d = .ok v) : ∃ as, v = .inst c as := by
  unfold deClsF at h
  split at h
  · cases h
  · split at h
    · cases h
    · unfold construct at h
      dsimp only at h
      split at h
      · cases h
      · split at h
        · cases h
        · split at h
          · cases h
          · split at h
            · cases h; exact ⟨_, rfl⟩
            · split at h
              · cases h; exact ⟨_, rfl⟩
              · cases h

/-- A class member is decoded like the class itself. -/
theorem member_cls {env : Env} {re nu cx m c p} (hcx : UCx env re nu cx) (hg : ∀ s ∈ env.gde, s.handles (.cls c) = false) :
    (deAt env (m + 1)).render cx (memberArg (.cls c) p) = (deAt env m).cls true c { reuse := some re, numbers := nu } p := by
  rw [deAt_render]
  unfold deRenderF
  have h0 : (memberArg (.cls c) p).dflt = none := rfl
  rw [h0]
  dsimp only
  unfold deBody
  have hp : pickDe cx.des (memberArg (.cls c) p) = none := by
    unfold pickDe memberArg
    dsimp only
    rw [hcx.des, List.find?_eq_none]
    intro s hs
    simp [hg s (List.mem_reverse.1 hs)]
  rw [hp]
  have h1 : (memberArg (.cls c) p).deser = none := rfl
  have h2 : (memberArg (.cls c) p).ty = .cls c := rfl
  have h3 : (memberArg (.cls c) p).flatten = false := rfl
  have h4 : (memberArg (.cls c) p).data = .ok p := rfl
  have h5 : (memberArg (.cls c) p).tyArgs = none := rfl
  rw [h1]
  dsimp only
  rw [h2]
  dsimp only
  rw [h3, h4, h5]
  simp only [Bool.false_eq_true, if_false]
  rw [hcx.named, hcx.mg, hcx.mgVars, hcx.reuse, hcx.numbers]

theorem member_reads {env : Env} {re nu cx c} {cd : ClassDef} {d p v} (hcx : UCx env re nu cx) (hc : env.cls c = some cd) (hm : c ∈ cd.mro)
    (hg : NoGlobal env c) (hpl : unionPayload env cx.tagging (.cls c) d = .ok p) (hd : IsData c p) :
    (∃ m, deMember env (deAt env m) cx (.cls c) d = .ok v) ↔ ∃ n, fromDict env { reuse := some re, numbers := nu } n (.cls c) p = .ok v := by
  have hin : InputOk env (.cls c) p := .other (by intros; simp) (by intros; simp) (by simp) (by intros; simp)
  have hch : ∀ as, Checked env (.cls c) (.inst c as) := by
    intro as
    refine ⟨.cls c, rfl, ?_⟩
    unfold bearable isClsInst
    dsimp only
    rw [hc]
    simpa using hm
  constructor
  · rintro ⟨m, h⟩
    obtain ⟨p', hp', _, h2, _⟩ := deMember_ok.1 h
    rw [hpl] at hp'; cases hp'
    cases m with
    | zero => cases h2
    | succ m =>
      rw [member_cls hcx hg.de] at h2
      cases m with
      | zero => cases h2
      | succ m =>
        rw [deAt_cls] at h2
        exact ⟨m + 2, by rw [fromDict_cls hg.de hd, wrapUser_ok]; exact h2⟩
  · rintro ⟨n, h⟩
    match n with
    | 0 | 1 => rw [fromDict_fuel (by omega) hg hd] at h; cases h
    | m + 2 =>
      rw [fromDict_cls hg.de hd, wrapUser_ok] at h
      obtain ⟨as, rfl⟩ := deClsF_inst h
      exact ⟨m + 2, deMember_ok.2 ⟨p, hpl, hin, by rw [member_cls hcx hg.de, deAt_cls]; exact h, hch as⟩⟩

/-- When every other member is refused by its tag, the union is decoded as the selected one. -/
theorem union_reads {env : Env} {re nu cx c} {cd : ClassDef} {ts d p v} (hcx : UCx env re nu cx) (hc : env.cls c = some cd) (hm : c ∈ cd.mro)
    (hg : NoGlobal env c) (hpl : unionPayload env cx.tagging (.cls c) d = .ok p) (hd : IsData c p) (hmem : .cls c ∈ ts)
    (hother : ∀ t ∈ ts, t ≠ .cls c → ∃ e, unionPayload env cx.tagging t d = .error e ∧ e ≠ .fuel) :
    (∃ m, deUnion env (deAt env m) cx d ts = .ok v) ↔ ∃ n, fromDict env { reuse := some re, numbers := nu } n (.cls c) p = .ok v := by
  rw [union_fuel, ← member_reads hcx hc hm hg hpl hd]
  have hrefuse : ∀ t ∈ ts, t ≠ .cls c → ∀ m, ∃ e, deMember env (deAt env m) cx t d = .error e ∧ e ≠ .fuel := by
    intro t ht hne m
    obtain ⟨e, he, hf⟩ := hother t ht hne
    rw [deMember_eq, he]
    exact ⟨e, rfl, hf⟩
  constructor
  · rintro ⟨pre, t, post, rfl, ⟨m, h1⟩, _⟩
    by_cases ht : t = .cls c
    · subst ht; exact ⟨m, h1⟩
    · obtain ⟨e, he, _⟩ := hrefuse t (by simp) ht m
      rw [h1] at he; cases he
  · rintro h
    obtain ⟨pre, post, hts, hnot⟩ : ∃ pre post, ts = pre ++ .cls c :: post ∧ ∀ t ∈ pre, t ≠ .cls c := by
      clear hother hrefuse
      induction ts with
      | nil => cases hmem
      | cons t ts ih =>
        by_cases ht : t = .cls c
        · subst ht; exact ⟨[], ts, rfl, by simp⟩
        · obtain ⟨pre, post, rfl, h2⟩ := ih (by
            rcases List.mem_cons.1 hmem with h | h
            · exact absurd h.symm ht
            · exact h)
          exact ⟨t :: pre, post, rfl, by
            intro s hs
            rcases List.mem_cons.1 hs with rfl | hs
            · exact ht
            · exact h2 s hs⟩
    subst hts
    exact ⟨pre, .cls c, post, rfl, h, fun s hs => ⟨0, hrefuse s (by simp [hs]) (hnot s hs) 0⟩⟩

/-- The same for `from_dict(Union[...], d)`. -/
theorem top_union_reads {env : Env} {o : DeOpts} {c} {cd : ClassDef} {ts d p v} (ho : (Ty.union ts).isOpt = false)
    (hfind : findUnion env (env.unionsOfTy (.union ts)) (unionFuncName env ts) = some ts) (hc : env.cls c = some cd) (hm : c ∈ cd.mro)
    (hg : NoGlobal env c) (hpl : unionPayload env o.tagging (.cls c) d = .ok p) (hd : IsData c p) (hmem : .cls c ∈ ts)
    (hother : ∀ t ∈ ts, t ≠ .cls c → ∃ e, unionPayload env o.tagging t d = .error e ∧ e ≠ .fuel) :
    (∃ n, fromDict env o n (.union ts) d = .ok v) ↔ ∃ n, fromDict env (unionDe o) n (.cls c) p = .ok v := by
  have key := union_reads (cx := topUCx env o ts d) (re := true) (nu := o.numbers) (ts := ts) (v := v)
    ⟨rfl, rfl, rfl, rfl, rfl, rfl, rfl, rfl, rfl⟩ hc hm hg hpl hd hmem hother
  unfold unionDe
  rw [← key]
  constructor
  · rintro ⟨n, h⟩
    cases n with
    | zero => cases h
    | succ n => rw [fromDict_union ho, hfind] at h; exact ⟨n, h⟩
  · rintro ⟨n, h⟩
    exact ⟨n + 1, by rw [fromDict_union ho, hfind]; exact h⟩

theorem typename_cls {env : Env} {c} {cd : ClassDef} (hc : env.cls c = some cd) : typename env (.cls c) = cd.name := by
  unfold typename Env.clsName
  rw [hc]

theorem pyEq_str_ne {a b : String} (h : a ≠ b) : pyEq (.str a) (.str b) = false := by
  rw [Bool.eq_false_iff]
  intro he
  have := pyEq_str_right.1 he
  injection this with this
  exact h this

theorem other_name {env : Env} {c} {cd : ClassDef} {ts t} (hdist : DistinctNames env ts) (hc : env.cls c = some cd) (hmem : .cls c ∈ ts)
    (ht : t ∈ ts) (hne : t ≠ .cls c) : ∃ c' cd', t = .cls c' ∧ env.cls c' = some cd' ∧ cd'.name ≠ cd.name := by
  obtain ⟨c', cd', rfl, hc'⟩ := hdist.1 t ht
  refine ⟨c', cd', rfl, hc', fun he => hne ?_⟩
  rw [hdist.2 c' c cd' cd ht hmem hc' hc he]

/-- **C23**, reading: a dict with the variant's name as its only variant name is read as the variant, from the entry under
that name. -/
theorem C23_reads {env : Env} {o : DeOpts} {c} {cd : ClassDef} {ts dk kvs p v} (ho : (Ty.union ts).isOpt = false) (htg : o.tagging = .external)
    (hfind : findUnion env (env.unionsOfTy (.union ts)) (unionFuncName env ts) = some ts) (hdist : DistinctNames env ts)
    (hc : env.cls c = some cd) (hm : c ∈ cd.mro) (hmem : .cls c ∈ ts) (hg : NoGlobal env c) (hd : IsData c p)
    (hkey : getStr cd.name kvs = some p) (hothers : ∀ c' cd', .cls c' ∈ ts → env.cls c' = some cd' → c' ≠ c → getStr cd'.name kvs = none) :
    (∃ n, fromDict env o n (.union ts) (.dict dk kvs) = .ok v) ↔ ∃ n, fromDict env (unionDe o) n (.cls c) p = .ok v := by
  refine top_union_reads ho hfind hc hm hg ?_ hd hmem ?_
  · rw [htg]
    simp [unionPayload, Ty.isCls, typename_cls hc, pyIn, pyGetItem, hkey]
  · intro t ht hne
    obtain ⟨c', cd', rfl, hc', _⟩ := other_name hdist hc hmem ht hne
    rw [htg]
    refine ⟨.serde "ensure", ?_, by simp⟩
    simp [unionPayload, Ty.isCls, typename_cls hc', pyIn, hothers c' cd' ht hc' (by rintro rfl; exact hne rfl)]

/-- **C24**, reading: a dict with the variant's name under `tag` is read as the variant, from the dict itself. -/
theorem C24_reads {env : Env} {o : DeOpts} {tag c} {cd : ClassDef} {ts dk kvs v} (ho : (Ty.union ts).isOpt = false) (htg : o.tagging = .internal tag)
    (hfind : findUnion env (env.unionsOfTy (.union ts)) (unionFuncName env ts) = some ts) (hdist : DistinctNames env ts)
    (hc : env.cls c = some cd) (hm : c ∈ cd.mro) (hmem : .cls c ∈ ts) (hg : NoGlobal env c) (hkey : getStr tag kvs = some (.str cd.name)) :
    (∃ n, fromDict env o n (.union ts) (.dict dk kvs) = .ok v) ↔ ∃ n, fromDict env (unionDe o) n (.cls c) (.dict dk kvs) = .ok v := by
  refine top_union_reads ho hfind hc hm hg ?_ (by intro as h; cases h) hmem ?_
  · rw [htg]
    simp [unionPayload, Ty.isCls, typename_cls hc, pyIn, pyGetItem, hkey, pyEq]
  · intro t ht hne
    obtain ⟨c', cd', rfl, hc', hnn⟩ := other_name hdist hc hmem ht hne
    rw [htg]
    refine ⟨.serde "ensure", ?_, by simp⟩
    simp [unionPayload, Ty.isCls, typename_cls hc', pyIn, pyGetItem, hkey, pyEq_str_ne hnn]

/-- **C25**, reading: a dict with the variant's name under `tag` is read as the variant, from the entry under `content`. -/
theorem C25_reads {env : Env} {o : DeOpts} {tag content c} {cd : ClassDef} {ts dk kvs p v} (ho : (Ty.union ts).isOpt = false)
    (htg : o.tagging = .adjacent tag content) (hfind : findUnion env (env.unionsOfTy (.union ts)) (unionFuncName env ts) = some ts)
    (hdist : DistinctNames env ts) (hc : env.cls c = some cd) (hm : c ∈ cd.mro) (hmem : .cls c ∈ ts) (hg : NoGlobal env c) (hd : IsData c p)
    (hkey : getStr tag kvs = some (.str cd.name)) (hcont : getStr content kvs = some p) :
    (∃ n, fromDict env o n (.union ts) (.dict dk kvs) = .ok v) ↔ ∃ n, fromDict env (unionDe o) n (.cls c) p = .ok v := by
  refine top_union_reads ho hfind hc hm hg ?_ hd hmem ?_
  · rw [htg]
    simp [unionPayload, Ty.isCls, typename_cls hc, pyIn, pyGetItem, hkey, hcont, pyEq]
  · intro t ht hne
    obtain ⟨c', cd', rfl, hc', hnn⟩ := other_name hdist hc hmem ht hne
    rw [htg]
    refine ⟨.serde "ensure", ?_, by simp⟩
    simp [unionPayload, Ty.isCls, typename_cls hc', pyIn, pyGetItem, hkey, hcont, pyEq_str_ne hnn]

/-! ## There and back -/

theorem toDict_isDict {env : Env} {o : SeOpts} {n c} {cd : ClassDef} {attrs w} (hc : env.cls c = some cd) (htr : cd.transparent = false)
    (hu : NotUnion o.c) (hg : NoGlobal env c) (h : toDict env o n (.inst c attrs) = .ok w) : ∃ kvs, w = .dict .plain kvs := by
  match n with
  | 0 => cases h
  | 1 => rw [toDict_cls hu hg.ser, wrapAll_ok] at h; cases h
  | m + 2 =>
    rw [toDict_cls hu hg.ser, wrapAll_ok, seAt_cls] at h
    unfold clsF at h
    dsimp only at h
    rw [hc] at h
    dsimp only at h
    rw [htr] at h
    simp only [Bool.false_eq_true, if_false, if_true] at h
    split at h
    · cases h; exact ⟨_, rfl⟩
    · cases h

/-- **C23**, there and back: an object that survives its own dict survives the externally tagged union. -/
theorem C23_round_trip_partial {env : Env} {so : SeOpts} {o : DeOpts} {c} {cd : ClassDef} {attrs ts w wv} (ho : (Ty.union ts).isOpt = false)
    (huc : so.c = some (.union ts)) (hts : so.tagging = .external) (htg : o.tagging = .external)
    (hfind : findUnion env (env.unionsOfTy (.union ts)) (unionFuncName env ts) = some ts) (hdist : DistinctNames env ts)
    (hc : env.cls c = some cd) (htr : cd.transparent = false) (hown : OwnVariant env c ts) (hg : NoGlobal env c)
    (hse : ∃ n, toDict env unionSe n (.inst c attrs) = .ok wv) (hde : ∃ n, fromDict env (unionDe o) n (.cls c) wv = .ok (.inst c attrs))
    (hw : ∃ n, toDict env so n (.inst c attrs) = .ok w) : ∃ n, fromDict env o n (.union ts) w = .ok (.inst c attrs) := by
  obtain ⟨wv', ⟨n', hw1⟩, rfl⟩ := (C23_writes_partial ho huc hts hfind hc hg hown).1 hw
  obtain ⟨n, hn⟩ := hse
  have : wv' = wv := toDict_det hw1 hn
  subst this
  obtain ⟨cd', pre, post, hc', hm, rfl, hpre⟩ := hown
  rw [hc] at hc'; cases hc'
  have hmem : Ty.cls c ∈ pre ++ .cls c :: post := by simp
  refine (C23_reads ho htg hfind hdist hc hm hmem hg ?_ ?_ ?_).2 hde
  · obtain ⟨kvs, rfl⟩ := toDict_isDict hc htr (.inl rfl) hg hn
    intro as h; cases h
  · simp [getStr]
  · intro c' cd' hm' hc'' hne
    have : cd.name ≠ cd'.name := fun h => hne (hdist.2 c' c cd' cd hm' hmem hc'' hc h.symm)
    simp [getStr, this]

/-- **C25**, there and back. -/
theorem C25_round_trip_partial {env : Env} {so : SeOpts} {o : DeOpts} {tag content c} {cd : ClassDef} {attrs ts w wv} (ho : (Ty.union ts).isOpt = false)
    (huc : so.c = some (.union ts)) (hts : so.tagging = .adjacent tag content) (htg : o.tagging = .adjacent tag content) (hne : tag ≠ content)
    (hfind : findUnion env (env.unionsOfTy (.union ts)) (unionFuncName env ts) = some ts) (hdist : DistinctNames env ts)
    (hc : env.cls c = some cd) (htr : cd.transparent = false) (hown : OwnVariant env c ts) (hg : NoGlobal env c)
    (hse : ∃ n, toDict env unionSe n (.inst c attrs) = .ok wv) (hde : ∃ n, fromDict env (unionDe o) n (.cls c) wv = .ok (.inst c attrs))
    (hw : ∃ n, toDict env so n (.inst c attrs) = .ok w) : ∃ n, fromDict env o n (.union ts) w = .ok (.inst c attrs) := by
  obtain ⟨wv', ⟨n', hw1⟩, rfl⟩ := (C25_writes_partial ho huc hts hne hfind hc hg hown).1 hw
  obtain ⟨n, hn⟩ := hse
  have : wv' = wv := toDict_det hw1 hn
  subst this
  obtain ⟨cd', pre, post, hc', hm, rfl, hpre⟩ := hown
  rw [hc] at hc'; cases hc'
  refine (C25_reads ho htg hfind hdist hc hm (by simp) hg ?_ ?_ ?_).2 hde
  · obtain ⟨kvs, rfl⟩ := toDict_isDict hc htr (.inl rfl) hg hn
    intro as h; cases h
  · simp [getStr, hne.symm]
  · simp [getStr]

/-- **C24**, there and back: for a variant that ignores unknown keys (no deny_unknown_fields; see `ReadsOnly`) and a tag that is
not a key it reads or writes. -/
theorem C24_round_trip_partial {env : Env} {so : SeOpts} {o : DeOpts} {tag c} {cd : ClassDef} {attrs ts w kvs} (ho : (Ty.union ts).isOpt = false)
    (huc : so.c = some (.union ts)) (hts : so.tagging = .internal tag) (htg : o.tagging = .internal tag)
    (hfind : findUnion env (env.unionsOfTy (.union ts)) (unionFuncName env ts) = some ts) (hdist : DistinctNames env ts)
    (hc : env.cls c = some cd) (hown : OwnVariant env c ts) (hg : NoGlobal env c)
    (hr : ReadsOnly env c) (hdeny : ∀ c' cd, FlatReach env c c' → env.cls c' = some cd → cd.denyUnknown = false)
    (hno : ¬ Spec.Reads env c tag) (hnw : ∀ e ∈ kvs, e.1 ≠ .str tag)
    (hse : ∃ n, toDict env unionSe n (.inst c attrs) = .ok (.dict .plain kvs)) (hde : ∃ n, fromDict env (unionDe o) n (.cls c) (.dict .plain kvs) = .ok (.inst c attrs))
    (hw : ∃ n, toDict env so n (.inst c attrs) = .ok w) : ∃ n, fromDict env o n (.union ts) w = .ok (.inst c attrs) := by
  obtain ⟨n, hn⟩ := hse
  obtain ⟨n1, h1⟩ := C24_writes_partial ho huc hts hfind hc hg hown hn hnw
  obtain ⟨n2, h2⟩ := hw
  have : w = _ := toDict_det h2 h1
  subst this
  obtain ⟨cd', pre, post, hc', hm, rfl, hpre⟩ := hown
  rw [hc] at hc'; cases hc'
  refine (C24_reads ho htg hfind hdist hc hm (by simp) hg ?_).2 ?_
  · rw [getStr_append_right (getStr_none hnw)]
    simp [getStr]
  · obtain ⟨n, hn⟩ := hde
    refine ⟨n, ?_⟩
    rw [C18_unknown_ignored_partial (fun k => !pyEq k (.str tag)) hr hdeny hg ?_]
    · rw [List.filter_append]
      have hf : kvs.filter (fun kv => !pyEq kv.1 (.str tag)) = kvs := by
        rw [List.filter_eq_self]
        intro kv hkv
        have : pyEq kv.1 (.str tag) = false := by
          rw [Bool.eq_false_iff]
          intro he
          exact hnw kv hkv (pyEq_str_right.1 he)
        simp [this]
      have hl : [(Val.str tag, Val.str cd.name)].filter (fun kv => !pyEq kv.1 (.str tag)) = [] := by simp [pyEq]
      rw [hf, hl, List.append_nil]
      exact hn
    · intro k hk
      have : k ≠ tag := by rintro rfl; exact hno hk
      simp [pyEq_str_ne this]

/-- **C23**, every object of the round-trip fragment of C01 (`EnvOk`) comes back from an externally tagged union. -/
theorem C23_fragment_partial {env : Env} {so : SeOpts} {o : DeOpts} {c} {cd : ClassDef} {attrs ts} (ho : (Ty.union ts).isOpt = false)
    (huc : so.c = some (.union ts)) (hts : so.tagging = .external) (htg : o.tagging = .external) (hnum : o.numbers = none)
    (hfind : findUnion env (env.unionsOfTy (.union ts)) (unionFuncName env ts) = some ts) (hdist : DistinctNames env ts)
    (hc : env.cls c = some cd) (htr : cd.transparent = false) (hown : OwnVariant env c ts) (hg : NoGlobal env c)
    (hok : EnvOk env (rawFmt env true false false true (by intro h; cases h))) (hv : HasTy env (.cls c) (.inst c attrs)) :
    ∃ w n, toDict env so n (.inst c attrs) = .ok w ∧ fromDict env o n (.union ts) w = .ok (.inst c attrs) := by
  obtain ⟨wv, hev⟩ := C01_dict_round_trip_partial (so := unionSe) (o := unionDe o) hc rfl hnum (by intro h; cases h) hok hv
  obtain ⟨k, hk⟩ := hev.exists
  obtain ⟨n1, h1⟩ := (C23_writes_partial ho huc hts hfind hc hg hown).2 ⟨wv, ⟨k, hk.1⟩, rfl⟩
  obtain ⟨n2, h2⟩ := C23_round_trip_partial ho huc hts htg hfind hdist hc htr hown hg ⟨k, hk.1⟩ ⟨k, hk.2⟩ ⟨n1, h1⟩
  exact ⟨_, max n1 n2, toDict_mono (Nat.le_max_left _ _) h1, fromDict_mono (Nat.le_max_right _ _) h2⟩

/-- **C25**, every object of the round-trip fragment comes back from an adjacently tagged union. -/
theorem C25_fragment_partial {env : Env} {so : SeOpts} {o : DeOpts} {tag content c} {cd : ClassDef} {attrs ts} (ho : (Ty.union ts).isOpt = false)
    (huc : so.c = some (.union ts)) (hts : so.tagging = .adjacent tag content) (htg : o.tagging = .adjacent tag content) (hne : tag ≠ content) (hnum : o.numbers = none)
    (hfind : findUnion env (env.unionsOfTy (.union ts)) (unionFuncName env ts) = some ts) (hdist : DistinctNames env ts)
    (hc : env.cls c = some cd) (htr : cd.transparent = false) (hown : OwnVariant env c ts) (hg : NoGlobal env c)
    (hok : EnvOk env (rawFmt env true false false true (by intro h; cases h))) (hv : HasTy env (.cls c) (.inst c attrs)) :
    ∃ w n, toDict env so n (.inst c attrs) = .ok w ∧ fromDict env o n (.union ts) w = .ok (.inst c attrs) := by
  obtain ⟨wv, hev⟩ := C01_dict_round_trip_partial (so := unionSe) (o := unionDe o) hc rfl hnum (by intro h; cases h) hok hv
  obtain ⟨k, hk⟩ := hev.exists
  obtain ⟨n1, h1⟩ := (C25_writes_partial ho huc hts hne hfind hc hg hown).2 ⟨wv, ⟨k, hk.1⟩, rfl⟩
  obtain ⟨n2, h2⟩ := C25_round_trip_partial ho huc hts htg hne hfind hdist hc htr hown hg ⟨k, hk.1⟩ ⟨k, hk.2⟩ ⟨n1, h1⟩
  exact ⟨_, max n1 n2, toDict_mono (Nat.le_max_left _ _) h1, fromDict_mono (Nat.le_max_right _ _) h2⟩

/-! ## Fields of union type -/

/-- The options the variant of a union field is serialized with: those of the enclosing call. -/
def fieldSe (cd : ClassDef) (so : SeOpts) : SeOpts :=
  { reuse := some (so.reuse.getD cd.reuseDflt), conv := some (so.conv.getD cd.convDflt), skipNone := so.skipNone }

/-- A field (not flattened) declared with the union `ts` in class `U`, without serializers or deserializers of its own. -/
structure UnionField (env : Env) (U : ClassId) (cd : ClassDef) (f : FieldDef) (ts : List Ty) : Prop where
  cls : env.cls U = some cd
  opaq : cd.transparent = false
  mem : f ∈ cd.fields
  ty : f.ty = .union ts
  notOpt : (Ty.union ts).isOpt = false
  flat : ∀ g ∈ cd.fields, g.flatten = false
  se : f.serializer = none
  sers : ∀ s ∈ env.gser ++ cd.classSer.toList, s.handles (.union ts) = false
  de : f.deserializer = none
  des : ∀ s ∈ env.gde ++ cd.classDe.toList, s.handles (.union ts) = false
  find : findUnion env (env.unionsOf U) (unionFuncName env ts) = some ts
  glob : NoGlobal env U

theorem field_writes {env : Env} {so : SeOpts} {n U} {cd : ClassDef} {f ts attrs kvs c} {vd : ClassDef} {as e} (hU : UnionField env U cd f ts) (hu : NotUnion so.c)
    (hn : (cd.seFieldsOf.map (fun g => g.conv cd.seCase)).Nodup) (hser : serializable f = true) (hc : env.cls c = some vd) (hg : NoGlobal env c)
    (hown : OwnVariant env c ts) (hv : attrs.lookup f.name = some (.inst c as)) (h : toDict env so n (.inst U attrs) = .ok (.dict .plain kvs))
    (he : getStr (f.conv cd.seCase) kvs = some e) :
    ∃ wv m, toDict env (fieldSe cd so) m (.inst c as) = .ok wv ∧ tagRes cd.tagging vd.name wv = .ok e := by
  have hfs : f ∈ cd.seFieldsOf := by rw [seFieldsOf_eq]; exact List.mem_filter.2 ⟨hU.mem, hser⟩
  have h' : toDict env so (n + 3) (.inst U attrs) = .ok (.dict .plain kvs) := toDict_mono (by omega) h
  obtain ⟨os, hos, hw⟩ := (toDict_emit hU.cls hU.opaq (fun g hg' => hU.flat g (List.mem_filter.1 hg').1) hu hU.glob.ser hn).1 h'
  obtain ⟨L, h1, h2, h3, h4⟩ := emit_list hos
  clear h4
  injection hw with _ hw
  subst hw
  rw [h1] at he
  obtain ⟨p, hp, hpk, hpv⟩ : ∃ p ∈ L, p.1.conv cd.seCase = f.conv cd.seCase ∧ p.2 = e := by
    clear h1 h2 h3
    induction L with
    | nil => simp [getStr] at he
    | cons p L ih =>
      simp only [List.map_cons, getStr] at he
      split at he
      · rename_i hk
        injection he with he
        exact ⟨p, by simp, by simpa using hk, he⟩
      · obtain ⟨q, hq, h⟩ := ih he
        exact ⟨q, by simp [hq], h⟩
  have hpf : p.1 = f := inj_of_nodup_map hn (h2.subset (List.mem_map_of_mem hp)) hfs hpk
  have hr := h3 p hp
  rw [hpf, hpv] at hr
  match n with
  | 0 => cases hr
  | 1 =>
    rw [render_unionField hU.ty hU.notOpt hU.se hU.sers hv hU.find] at hr
    obtain ⟨cd', pre, post, hc', hm, hts, hpre⟩ := hown
    exact absurd h (by intro h; cases toDict_low hU.cls hU.opaq hu hU.glob.ser h with
      | inl h => obtain ⟨m, hm⟩ := h; omega
      | inr h => rw [h] at hfs; cases hfs)
  | m + 2 =>
    rw [render_unionField hU.ty hU.notOpt hU.se hU.sers hv hU.find, seUnion_own hc rfl rfl hg.ser hown] at hr
    split at hr
    · cases hr
    · rename_i res hres
      refine ⟨res, m + 1, ?_, hr⟩
      rw [toDict_cls (.inl rfl) hg.ser, wrapAll_ok]
      exact hres

/-- **C23**, a field: the entry of a field holding a variant is the variant's own dict under its name. -/
theorem C23_field_writes_partial {env : Env} {so : SeOpts} {n U} {cd : ClassDef} {f ts attrs kvs c} {vd : ClassDef} {as e} (hU : UnionField env U cd f ts)
    (htg : cd.tagging = .external) (hu : NotUnion so.c)
    (hn : (cd.seFieldsOf.map (fun g => g.conv cd.seCase)).Nodup) (hser : serializable f = true) (hc : env.cls c = some vd) (hg : NoGlobal env c)
    (hown : OwnVariant env c ts) (hv : attrs.lookup f.name = some (.inst c as)) (h : toDict env so n (.inst U attrs) = .ok (.dict .plain kvs))
    (he : getStr (f.conv cd.seCase) kvs = some e) :
    ∃ wv m, toDict env (fieldSe cd so) m (.inst c as) = .ok wv ∧ e = .dict .plain [(.str vd.name, wv)] := by
  obtain ⟨wv, m, h1, h2⟩ := field_writes hU hu hn hser hc hg hown hv h he
  rw [htg] at h2
  exact ⟨wv, m, h1, (Except.ok.inj h2).symm⟩

/-- **C24**, a field: the variant's own dict plus the tag. -/
theorem C24_field_writes_partial {env : Env} {so : SeOpts} {n U} {cd : ClassDef} {f ts attrs kvs c} {vd : ClassDef} {as e tag} (hU : UnionField env U cd f ts)
    (htg : cd.tagging = .internal tag) (hu : NotUnion so.c)
    (hn : (cd.seFieldsOf.map (fun g => g.conv cd.seCase)).Nodup) (hser : serializable f = true) (hc : env.cls c = some vd) (htr : vd.transparent = false) (hg : NoGlobal env c)
    (hown : OwnVariant env c ts) (hv : attrs.lookup f.name = some (.inst c as)) (h : toDict env so n (.inst U attrs) = .ok (.dict .plain kvs))
    (he : getStr (f.conv cd.seCase) kvs = some e) :
    ∃ vkvs m, toDict env (fieldSe cd so) m (.inst c as) = .ok (.dict .plain vkvs) ∧
      ((∀ x ∈ vkvs, x.1 ≠ .str tag) → e = .dict .plain (vkvs ++ [(.str tag, .str vd.name)])) := by
  obtain ⟨wv, m, h1, h2⟩ := field_writes hU hu hn hser hc hg hown hv h he
  obtain ⟨vkvs, rfl⟩ := toDict_isDict hc htr (.inl rfl) hg h1
  refine ⟨vkvs, m, h1, fun hno => ?_⟩
  rw [htg] at h2
  simp only [tagRes, pySetItem] at h2
  rw [dictSet_new] at h2
  · exact (Except.ok.inj h2).symm
  · intro kv hkv
    rw [Bool.eq_false_iff]
    intro he
    exact hno kv hkv (pyEq_str_right.1 he)

/-- **C25**, a field: the variant's name under `tag`, its own dict under `content`. -/
theorem C25_field_writes_partial {env : Env} {so : SeOpts} {n U} {cd : ClassDef} {f ts attrs kvs c} {vd : ClassDef} {as e tag content} (hU : UnionField env U cd f ts)
    (htg : cd.tagging = .adjacent tag content) (hne : tag ≠ content) (hu : NotUnion so.c)
    (hn : (cd.seFieldsOf.map (fun g => g.conv cd.seCase)).Nodup) (hser : serializable f = true) (hc : env.cls c = some vd) (hg : NoGlobal env c)
    (hown : OwnVariant env c ts) (hv : attrs.lookup f.name = some (.inst c as)) (h : toDict env so n (.inst U attrs) = .ok (.dict .plain kvs))
    (he : getStr (f.conv cd.seCase) kvs = some e) :
    ∃ wv m, toDict env (fieldSe cd so) m (.inst c as) = .ok wv ∧ e = .dict .plain [(.str content, wv), (.str tag, .str vd.name)] := by
  obtain ⟨wv, m, h1, h2⟩ := field_writes hU hu hn hser hc hg hown hv h he
  refine ⟨wv, m, h1, ?_⟩
  rw [htg] at h2
  simp only [tagRes, pySetItem, dictSet, pyEq_str_ne hne.symm, Bool.false_eq_true, if_false] at h2
  exact (Except.ok.inj h2).symm

/-- The part of the input that carries the variant `vd`, under a tagging. -/
inductive Carries (env : Env) (ts : List Ty) (c : ClassId) (vd : ClassDef) : Tagging → Val → Val → Prop
  | external {dk kvs p} : getStr vd.name kvs = some p →
      (∀ c' cd', .cls c' ∈ ts → env.cls c' = some cd' → c' ≠ c → getStr cd'.name kvs = none) → Carries env ts c vd .external (.dict dk kvs) p
  | internal {dk kvs tag} : getStr tag kvs = some (.str vd.name) → Carries env ts c vd (.internal tag) (.dict dk kvs) (.dict dk kvs)
  | adjacent {dk kvs tag content p} : getStr tag kvs = some (.str vd.name) → getStr content kvs = some p →
      Carries env ts c vd (.adjacent tag content) (.dict dk kvs) p

/-- **C23, C24, C25**, reading a field: an entry that carries variant `c` is decoded as `c` decodes the part carried. -/
theorem C23_C25_field_reads {env : Env} {o : DeOpts} {n U} {cd : ClassDef} {f ts dk kvs d p v c} {vd : ClassDef} (hU : UnionField env U cd f ts)
    (hp : cd.postInit = none) (hn : (cd.fields.map (·.name)).Nodup) (hr : f.renderable = true) (hal : f.alias = []) (htv : cd.tvars = none)
    (hdist : DistinctNames env ts) (hc : env.cls c = some vd) (hm : c ∈ vd.mro) (hmem : .cls c ∈ ts) (hg : NoGlobal env c) (hd : IsData c p)
    (hcar : Carries env ts c vd cd.tagging d p)
    (hkey : getStr (f.conv cd.deCase) kvs = some d) (h : fromDict env o n (.cls U) (.dict dk kvs) = .ok v) :
    ∃ attrs w m, v = .inst U attrs ∧ attrs.lookup f.name = some w ∧
      fromDict env { reuse := some (o.reuse.getD cd.reuseDflt), numbers := o.numbers } m (.cls c) p = .ok w := by
  obtain ⟨attrs, w, m, rfl, hb, ha⟩ := field_union_run hU.cls hU.opaq hp hn hU.mem hr hU.glob hU.ty hU.notOpt (hU.flat f hU.mem) hal hU.de hU.des hU.find hkey h
  have hcx : UCx env (o.reuse.getD cd.reuseDflt) o.numbers ((clsDeCx env U cd true (topCall o) (.dict dk kvs)).inUnion env d) := UCx.inUnion htv
  have htg : ((clsDeCx env U cd true (topCall o) (.dict dk kvs)).inUnion env d).tagging = cd.tagging := rfl
  generalize cd.tagging = tg at hcar htg
  have key : ∃ n, fromDict env { reuse := some (o.reuse.getD cd.reuseDflt), numbers := o.numbers } n (.cls c) p = .ok w := by
    refine (union_reads hcx hc hm hg ?_ hd hmem ?_).1 ⟨m, ha⟩
    · rw [htg]
      cases hcar with
      | external h1 h2 => simp [unionPayload, Ty.isCls, typename_cls hc, pyIn, pyGetItem, h1]
      | internal h1 => simp [unionPayload, Ty.isCls, typename_cls hc, pyIn, pyGetItem, h1, pyEq]
      | adjacent h1 h2 => simp [unionPayload, Ty.isCls, typename_cls hc, pyIn, pyGetItem, h1, h2, pyEq]
    · intro t ht hne
      obtain ⟨c', cd', rfl, hc', hnn⟩ := other_name hdist hc hmem ht hne
      rw [htg]
      refine ⟨.serde "ensure", ?_, by simp⟩
      cases hcar with
      | external h1 h2 => simp [unionPayload, Ty.isCls, typename_cls hc', pyIn, h2 c' cd' ht hc' (by rintro rfl; exact hne rfl)]
      | internal h1 => simp [unionPayload, Ty.isCls, typename_cls hc', pyIn, pyGetItem, h1, pyEq_str_ne hnn]
      | adjacent h1 h2 => simp [unionPayload, Ty.isCls, typename_cls hc', pyIn, pyGetItem, h1, h2, pyEq_str_ne hnn]
  obtain ⟨m', hm'⟩ := key
  exact ⟨attrs, w, m', rfl, hb, hm'⟩

/-! ## Examples and counterexamples -/

namespace C23Ex

/-- `class A: x: int`, `class B: y: str`, `Union[A, B]`. -/
def A : ClassDef := { name := "A", mro := ["A"], fields := [{ name := "x", ty := .prim .int }] }
def B : ClassDef := { name := "B", mro := ["B"], fields := [{ name := "y", ty := .prim .str }] }
def ts : List Ty := [.cls "A", .cls "B"]
def uf : FieldDef := { name := "u", ty := .union ts }
/-- `class E: u: Union[A, B]`, externally, internally, adjacently tagged. -/
def E : ClassDef := { name := "E", mro := ["E"], fields := [uf] }
def I : ClassDef := { name := "I", mro := ["I"], tagging := .internal "type", fields := [uf] }
def J : ClassDef := { name := "J", mro := ["J"], tagging := .adjacent "t" "c", fields := [uf] }
def env : Env := Ex.mk [("A", A), ("B", B), ("E", E), ("I", I), ("J", J)]
def b : Val := .inst "B" [("y", .str "s")]

theorem glob (c) : NoGlobal env c := ⟨by simp [env, Ex.mk], by simp [env, Ex.mk]⟩

theorem own : OwnVariant env "B" ts :=
  ⟨B, [.cls "A"], [], rfl, by simp [B], rfl, by
    intro t ht
    simp only [List.mem_cons, List.not_mem_nil, or_false] at ht
    subst ht
    refine ⟨.cls, fun attrs h => ?_⟩
    cases h with
    | cls hc hm => injection hc with hc; subst hc; simp [B] at hm⟩

theorem dist : DistinctNames env ts := by
  refine ⟨?_, ?_⟩
  · intro t ht
    simp only [ts, List.mem_cons, List.not_mem_nil, or_false] at ht
    rcases ht with rfl | rfl
    · exact ⟨"A", A, rfl, rfl⟩
    · exact ⟨"B", B, rfl, rfl⟩
  · intro c c' cd cd' h h' hc hc' hn
    simp only [ts, List.mem_cons, List.not_mem_nil, or_false, Ty.cls.injEq] at h h'
    rcases h with rfl | rfl <;> rcases h' with rfl | rfl
    · rfl
    · injection hc with hc; injection hc' with hc'; subst hc; subst hc'; simp [A, B] at hn
    · injection hc with hc; injection hc' with hc'; subst hc; subst hc'; simp [A, B] at hn
    · rfl

def bd : Val := .dict .plain [(.str "y", .str "s")]

example : ∃ wv, (∃ n, toDict env unionSe n b = .ok wv) ∧ Val.dict .plain [(.str "B", bd)] = .dict .plain [(.str B.name, wv)] :=
  (C23_writes_partial (env := env) (o := { c := some (.union ts) }) (attrs := [("y", .str "s")]) rfl rfl rfl rfl rfl (glob _) own).1 ⟨9, rfl⟩
example : ∃ n, fromDict env {} n (.union ts) (.dict .plain [(.str "B", bd)]) = .ok b :=
  (C23_reads (env := env) (o := {}) (c := "B") (cd := B) (p := bd) (v := b) rfl rfl rfl dist rfl (by simp [B]) (by simp [ts]) (glob _) (by intro as h; cases h) rfl (by
    intro c' cd' h hc' hne
    simp only [ts, List.mem_cons, List.not_mem_nil, or_false, Ty.cls.injEq] at h
    rcases h with rfl | rfl
    · injection hc' with hc'; subst hc'; rfl
    · exact absurd rfl hne)).2 ⟨9, rfl⟩
example : ∃ n, fromDict env {} n (.union ts) (.dict .plain [(.str "B", bd)]) = .ok b :=
  C23_round_trip_partial (env := env) (so := { c := some (.union ts) }) (o := {}) (wv := bd) (attrs := [("y", .str "s")]) rfl rfl rfl rfl rfl dist rfl rfl own (glob _)
    ⟨9, rfl⟩ ⟨9, rfl⟩ ⟨9, rfl⟩

example : ∃ n, toDict env { c := some (.union ts), tagging := .internal "type" } n b = .ok (.dict .plain [(.str "y", .str "s"), (.str "type", .str "B")]) :=
  C24_writes_partial (env := env) (o := { c := some (.union ts), tagging := .internal "type" }) (n := 9) (c := "B") (kvs := [(.str "y", .str "s")]) rfl rfl rfl rfl rfl (glob _) own rfl (by simp)
example : ∃ n, fromDict env { tagging := .internal "type" } n (.union ts) (.dict .plain [(.str "y", .str "s"), (.str "type", .str "B")]) = .ok b :=
  (C24_reads (env := env) (o := { tagging := .internal "type" }) (c := "B") (v := b) rfl rfl rfl dist rfl (by simp [B]) (by simp [ts]) (glob _) rfl).2 ⟨9, rfl⟩

theorem readsB : ReadsOnly env "B" ∧ (∀ c' cd, FlatReach env "B" c' → env.cls c' = some cd → cd.denyUnknown = false) ∧ ∀ k, Spec.Reads env "B" k → k = "y" := by
  have hre : ∀ c', FlatReach env "B" c' → c' = "B" := by
    intro c' h
    induction h with
    | refl => rfl
    | step h1 h2 h3 h4 ih =>
      subst ih
      injection h2 with h2
      subst h2
      simp only [B, List.mem_cons, List.not_mem_nil, or_false] at h3
      subst h3
      cases h4
  have hB : ∀ c cd, c = "B" → env.cls c = some cd → cd = B := by
    intro c cd h1 h2
    subst h1
    injection h2 with h2
    exact h2.symm
  refine ⟨?_, ?_, ?_⟩
  · intro c' cd h1 h2
    rw [hB c' cd (hre c' h1) h2]
    refine ⟨rfl, fun f hf => ?_⟩
    simp only [B, List.mem_cons, List.not_mem_nil, or_false] at hf
    subst hf
    exact ⟨.inl rfl, rfl, (by intro h; cases h), (by intro ch h; cases h)⟩
  · intro c' cd h1 h2
    rw [hB c' cd (hre c' h1) h2]
    rfl
  · intro k hk
    cases hk with
    | wire h1 h2 h3 h4 =>
      rw [hB _ _ rfl h1] at h2 ⊢
      simp only [B, List.mem_cons, List.not_mem_nil, or_false] at h2
      subst h2; rfl
    | alias h1 h2 h3 h4 h5 =>
      rw [hB _ _ rfl h1] at h2
      simp only [B, List.mem_cons, List.not_mem_nil, or_false] at h2
      subst h2; exact absurd rfl h4
    | child h1 h2 h3 h4 h5 =>
      rw [hB _ _ rfl h1] at h2
      simp only [B, List.mem_cons, List.not_mem_nil, or_false] at h2
      subst h2; cases h4
    | probe h1 h2 h3 h4 h5 =>
      rw [hB _ _ rfl h1] at h2
      simp only [B, List.mem_cons, List.not_mem_nil, or_false] at h2
      subst h2; cases h4

example : ∃ n, fromDict env { tagging := .internal "type" } n (.union ts) (.dict .plain [(.str "y", .str "s"), (.str "type", .str "B")]) = .ok b :=
  C24_round_trip_partial (env := env) (so := { c := some (.union ts), tagging := .internal "type" }) (o := { tagging := .internal "type" }) (c := "B")
    (kvs := [(.str "y", .str "s")]) (attrs := [("y", .str "s")]) rfl rfl rfl rfl rfl dist rfl own (glob _) readsB.1 readsB.2.1
    (fun h => absurd (readsB.2.2 _ h) (by decide)) (by simp) ⟨9, rfl⟩ ⟨9, rfl⟩ ⟨9, rfl⟩

example : ∃ wv, (∃ n, toDict env unionSe n b = .ok wv) ∧ Val.dict .plain [(.str "c", bd), (.str "t", .str "B")] = .dict .plain [(.str "c", wv), (.str "t", .str B.name)] :=
  (C25_writes_partial (env := env) (o := { c := some (.union ts), tagging := .adjacent "t" "c" }) (attrs := [("y", .str "s")]) rfl rfl rfl (by decide) rfl rfl (glob _) own).1 ⟨9, rfl⟩
example : ∃ n, fromDict env { tagging := .adjacent "t" "c" } n (.union ts) (.dict .plain [(.str "c", bd), (.str "t", .str "B")]) = .ok b :=
  (C25_reads (env := env) (o := { tagging := .adjacent "t" "c" }) (c := "B") (p := bd) (v := b) rfl rfl rfl dist rfl (by simp [B]) (by simp [ts]) (glob _)
    (by intro as h; cases h) rfl rfl).2 ⟨9, rfl⟩
example : ∃ n, fromDict env { tagging := .adjacent "t" "c" } n (.union ts) (.dict .plain [(.str "c", bd), (.str "t", .str "B")]) = .ok b :=
  C25_round_trip_partial (env := env) (so := { c := some (.union ts), tagging := .adjacent "t" "c" }) (o := { tagging := .adjacent "t" "c" }) (wv := bd)
    (attrs := [("y", .str "s")]) rfl rfl rfl rfl (by decide) rfl dist rfl rfl own (glob _) ⟨9, rfl⟩ ⟨9, rfl⟩ ⟨9, rfl⟩

theorem fieldOk (U : ClassId) (cd : ClassDef) (h : env.cls U = some cd) (htr : cd.transparent = false) (hf : cd.fields = [uf]) (hs : cd.classSer = none) (hd : cd.classDe = none)
    (hfind : findUnion env (env.unionsOf U) (unionFuncName env ts) = some ts) : UnionField env U cd uf ts where
  cls := h
  opaq := htr
  mem := by rw [hf]; simp
  ty := rfl
  notOpt := rfl
  flat := by rw [hf]; simp [uf]
  se := rfl
  sers := by rw [hs]; simp [env, Ex.mk]
  de := rfl
  des := by rw [hd]; simp [env, Ex.mk]
  find := hfind
  glob := glob _

example : ∃ wv m, toDict env (fieldSe E {}) m b = .ok wv ∧ Val.dict .plain [(.str "B", bd)] = .dict .plain [(.str B.name, wv)] :=
  C23_field_writes_partial (env := env) (so := {}) (n := 9) (attrs := [("u", b)]) (kvs := [(.str "u", .dict .plain [(.str "B", bd)])]) (c := "B")
    (fieldOk "E" E rfl rfl rfl rfl rfl rfl) rfl (.inl rfl) (by decide) rfl rfl (glob _) own rfl rfl rfl
example : ∃ vkvs m, toDict env (fieldSe I {}) m b = .ok (.dict .plain vkvs) ∧
    ((∀ x ∈ vkvs, x.1 ≠ .str "type") → Val.dict .plain [(.str "y", .str "s"), (.str "type", .str "B")] = .dict .plain (vkvs ++ [(.str "type", .str B.name)])) :=
  C24_field_writes_partial (env := env) (so := {}) (n := 9) (attrs := [("u", b)]) (kvs := [(.str "u", .dict .plain [(.str "y", .str "s"), (.str "type", .str "B")])]) (c := "B")
    (fieldOk "I" I rfl rfl rfl rfl rfl rfl) rfl (.inl rfl) (by decide) rfl rfl rfl (glob _) own rfl rfl rfl
example : ∃ wv m, toDict env (fieldSe J {}) m b = .ok wv ∧ Val.dict .plain [(.str "c", bd), (.str "t", .str "B")] = .dict .plain [(.str "c", wv), (.str "t", .str B.name)] :=
  C25_field_writes_partial (env := env) (so := {}) (n := 9) (attrs := [("u", b)]) (kvs := [(.str "u", .dict .plain [(.str "c", bd), (.str "t", .str "B")])]) (c := "B")
    (fieldOk "J" J rfl rfl rfl rfl rfl rfl) rfl (by decide) (.inl rfl) (by decide) rfl rfl (glob _) own rfl rfl rfl
example : ∃ attrs w m, Val.inst "J" [("u", b)] = .inst "J" attrs ∧ attrs.lookup "u" = some w ∧ fromDict env { reuse := some true } m (.cls "B") bd = .ok w :=
  C23_C25_field_reads (env := env) (o := {}) (n := 9) (f := uf) (dk := .plain) (kvs := [(.str "u", .dict .plain [(.str "c", bd), (.str "t", .str "B")])]) (c := "B") (vd := B)
    (fieldOk "J" J rfl rfl rfl rfl rfl rfl) rfl (by decide) rfl rfl rfl dist rfl (by simp [B]) (by simp [ts]) (glob _) (by intro as h; cases h)
    (Carries.adjacent (dk := .plain) (p := bd) rfl rfl) rfl rfl

/-! The recursive example class of C01, in `Union[Leaf, Tree]`. -/

def lt : List Ty := [.cls "Leaf", .cls "Tree"]

theorem ltGlob (c) : NoGlobal Ex.shapes c := ⟨by simp [Ex.shapes], by simp [Ex.shapes]⟩

theorem ltOwn : OwnVariant Ex.shapes "Tree" lt :=
  ⟨Ex.Tree, [.cls "Leaf"], [], rfl, by simp [Ex.Tree], rfl, by
    intro t ht
    simp only [List.mem_cons, List.not_mem_nil, or_false] at ht
    subst ht
    refine ⟨.cls, fun attrs h => ?_⟩
    cases h with
    | cls hc hm => injection hc with hc; subst hc; simp [Ex.Tree] at hm⟩

theorem ltDist : DistinctNames Ex.shapes lt := by
  refine ⟨?_, ?_⟩
  · intro t ht
    simp only [lt, List.mem_cons, List.not_mem_nil, or_false] at ht
    rcases ht with rfl | rfl
    · exact ⟨"Leaf", Ex.Leaf, rfl, rfl⟩
    · exact ⟨"Tree", Ex.Tree, rfl, rfl⟩
  · intro c c' cd cd' h h' hc hc' hn
    simp only [lt, List.mem_cons, List.not_mem_nil, or_false, Ty.cls.injEq] at h h'
    rcases h with rfl | rfl <;> rcases h' with rfl | rfl
    · rfl
    · injection hc with hc; injection hc' with hc'; subst hc; subst hc'; simp [Ex.Leaf, Ex.Tree] at hn
    · injection hc with hc; injection hc' with hc'; subst hc; subst hc'; simp [Ex.Leaf, Ex.Tree] at hn
    · rfl

example : ∃ w n, toDict Ex.shapes { c := some (.union lt) } n Ex.tree = .ok w ∧ fromDict Ex.shapes {} n (.union lt) w = .ok Ex.tree :=
  C23_fragment_partial (env := Ex.shapes) (so := { c := some (.union lt) }) (o := {}) (c := "Tree") rfl rfl rfl rfl rfl rfl ltDist rfl rfl ltOwn (ltGlob _)
    (Ex.shapesOk _) Ex.tree_ty
example : ∃ w n, toDict Ex.shapes { c := some (.union lt), tagging := .adjacent "t" "c" } n Ex.tree = .ok w ∧
    fromDict Ex.shapes { tagging := .adjacent "t" "c" } n (.union lt) w = .ok Ex.tree :=
  C25_fragment_partial (env := Ex.shapes) (so := { c := some (.union lt), tagging := .adjacent "t" "c" }) (o := { tagging := .adjacent "t" "c" }) (c := "Tree")
    rfl rfl rfl rfl (by decide) rfl rfl ltDist rfl rfl ltOwn (ltGlob _) (Ex.shapesOk _) Ex.tree_ty

/-- `class S(A): z: int`. -/
def S : ClassDef := { name := "S", mro := ["S", "A"], fields := [{ name := "x", ty := .prim .int }, { name := "z", ty := .prim .int }] }
/-- `class D: y: str` with `deny_unknown_fields`. -/
def D : ClassDef := { name := "D", mro := ["D"], denyUnknown := true, fields := [{ name := "y", ty := .prim .str }] }
def envS : Env := Ex.mk [("A", A), ("S", S), ("B", B), ("D", D)]

end C23Ex

/-- **C23 is false** for `Union[A, S]` with `class S(A)`: an instance of `S` is tagged as `A`, and comes back as an `A`. -/
theorem C23_false_subclass : ∃ (env : Env) (ts : List Ty) (v w : Val), DistinctNames env ts ∧ ts = [.cls "A", .cls "S"] ∧
    v = .inst "S" [("x", .int 1), ("z", .int 2)] ∧
    toDict env { c := some (.union ts) } 9 v = .ok w ∧ w = .dict .plain [(.str "A", .dict .plain [(.str "x", .int 1), (.str "z", .int 2)])] ∧
    fromDict env {} 9 (.union ts) w = .ok (.inst "A" [("x", .int 1)]) := by
  refine ⟨C23Ex.envS, [.cls "A", .cls "S"], _, _, ⟨?_, ?_⟩, rfl, rfl, rfl, rfl, rfl⟩
  · intro t ht
    simp only [List.mem_cons, List.not_mem_nil, or_false] at ht
    rcases ht with rfl | rfl
    · exact ⟨"A", C23Ex.A, rfl, rfl⟩
    · exact ⟨"S", C23Ex.S, rfl, rfl⟩
  · intro c c' cd cd' h h' hc hc' hn
    simp only [List.mem_cons, List.not_mem_nil, or_false, Ty.cls.injEq] at h h'
    rcases h with rfl | rfl <;> rcases h' with rfl | rfl
    · rfl
    · injection hc with hc; injection hc' with hc'; subst hc; subst hc'; simp [C23Ex.A, C23Ex.S] at hn
    · injection hc with hc; injection hc' with hc'; subst hc; subst hc'; simp [C23Ex.A, C23Ex.S] at hn
    · rfl

/-- **C24 is false** when the tag is a key of the variant: the entry is overwritten and the value lost. -/
theorem C24_false_clash : ∃ (env : Env) (w : Val), toDict env { c := some (.union [.cls "A", .cls "B"]), tagging := .internal "y" } 9 (.inst "B" [("y", .str "s")]) = .ok w ∧
    w = .dict .plain [(.str "y", .str "B")] ∧
    fromDict env { tagging := .internal "y" } 9 (.union [.cls "A", .cls "B"]) w = .ok (.inst "B" [("y", .str "B")]) :=
  ⟨C23Ex.envS, _, rfl, rfl, rfl⟩

/-- **C24 is false** for a variant with `deny_unknown_fields`: the tag itself is an unknown key, the variant is refused. -/
theorem C24_false_deny : ∃ (env : Env) (w : Val), toDict env { c := some (.union [.cls "A", .cls "D"]), tagging := .internal "t" } 9 (.inst "D" [("y", .str "s")]) = .ok w ∧
    fromDict env { tagging := .internal "t" } 9 (.union [.cls "A", .cls "D"]) w = .error (.serde "union") :=
  ⟨C23Ex.envS, _, rfl, rfl⟩

/-- **C24** An internally tagged variant whose own form is not a dict, such as a transparent class around a number, is never written. -/
theorem C24_no_dict {env : Env} {o : SeOpts} {tag m c} {cd : ClassDef} {attrs ts wv} (ho : (Ty.union ts).isOpt = false) (huc : o.c = some (.union ts))
    (htg : o.tagging = .internal tag) (hfind : findUnion env (env.unionsOfTy (.union ts)) (unionFuncName env ts) = some ts)
    (hc : env.cls c = some cd) (hg : NoGlobal env c) (hown : OwnVariant env c ts)
    (h : toDict env unionSe m (.inst c attrs) = .ok wv) (hno : ∀ dk kvs, wv ≠ .dict dk kvs) (n : Nat) (w : Val) : toDict env o n (.inst c attrs) ≠ .ok w := by
  intro hw
  obtain ⟨wv', ⟨n', h'⟩, ht⟩ := (union_writes' ho huc hfind hc hg hown).1 ⟨n, hw⟩
  have e1 := toDict_mono (Nat.le_add_right m n') h
  have e2 := toDict_mono (Nat.le_add_left n' m) h'
  rw [e1] at e2
  cases e2
  rw [htg] at ht
  cases wv <;> first | exact absurd rfl (hno _ _) | cases ht

namespace C23Ex

/-- `@serde(transparent=True) class T: x: int` and `class M: d: dict[str, str]`. -/
def T : ClassDef := { name := "T", mro := ["T"], transparent := true, fields := [{ name := "x", ty := .prim .int }] }
def M : ClassDef := { name := "M", mro := ["M"], transparent := true, fields := [{ name := "d", ty := .dict .dict (.prim .str) (.prim .str) }] }
def envT : Env := Ex.mk [("A", A), ("T", T), ("M", M)]

theorem ownT : OwnVariant envT "T" [.cls "T", .cls "M"] := ⟨T, [], [.cls "M"], rfl, by decide, rfl, by simp⟩

example (n : Nat) (w : Val) : toDict envT { c := some (.union [.cls "T", .cls "M"]), tagging := .internal "t" } n (.inst "T" [("x", .int 1)]) ≠ .ok w :=
  C24_no_dict (m := 9) (tag := "t") (wv := .int 1) rfl rfl rfl rfl rfl ⟨by simp [envT, Ex.mk], by simp [envT, Ex.mk]⟩ ownT rfl (by simp) n w

end C23Ex

/-- **C24 is false** for transparent variants: one around a number cannot be written, one around a mapping comes back with the tag as another entry. The adjacent
tagging writes and reads both. -/
theorem C24_false_transparent : ∃ (env : Env) (ts : List Ty) (v v' w w' : Val), v = .inst "T" [("x", .int 1)] ∧ v' = .inst "M" [("d", .dict .plain [(.str "k", .str "s")])] ∧
    (∀ n x, toDict env { c := some (.union ts), tagging := .internal "t" } n v ≠ .ok x) ∧
    toDict env { c := some (.union ts), tagging := .internal "t" } 9 v' = .ok w ∧
    fromDict env { tagging := .internal "t" } 9 (.union ts) w = .ok (.inst "M" [("d", .dict .plain [(.str "k", .str "s"), (.str "t", .str "M")])]) ∧
    toDict env { c := some (.union ts), tagging := .adjacent "t" "c" } 9 v' = .ok w' ∧ fromDict env { tagging := .adjacent "t" "c" } 9 (.union ts) w' = .ok v' :=
  ⟨C23Ex.envT, [.cls "T", .cls "M"], _, _, _, _, rfl, rfl,
    fun n w => C24_no_dict (m := 9) (tag := "t") (wv := .int 1) rfl rfl rfl rfl rfl ⟨by simp [C23Ex.envT, Ex.mk], by simp [C23Ex.envT, Ex.mk]⟩ C23Ex.ownT rfl (by simp) n w,
    rfl, rfl, rfl, rfl⟩

end Verif.Props
