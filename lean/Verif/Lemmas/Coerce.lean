import Verif.Spec.Coerce
import Verif.Lemmas.Default
import Verif.Lemmas.RTCont
/-!
# Coercion of inputs
-/

namespace Verif
open Spec

theorem truncRat_unique {q : Rat} {i : Int} (h : Truncated q i) : truncRat q = i := by
  obtain ⟨h1, h2, h3⟩ := h
  have hd := q.den_pos
  have hdiv : q.num.natAbs / q.den = i.natAbs := by
    apply Nat.le_antisymm
    · exact Nat.le_of_lt_succ ((Nat.div_lt_iff_lt_mul hd).2 h2)
    · exact (Nat.le_div_iff_mul_le hd).2 h1
  unfold truncRat
  cases hn : q.num with
  | ofNat n =>
    rw [hn] at hdiv h3 h1
    have e : Int.tdiv (Int.ofNat n) (q.den : Int) = ((n / q.den : Nat) : Int) := rfl
    have hdiv : n / q.den = i.natAbs := hdiv
    rw [e, hdiv]
    by_cases hi : 0 ≤ i
    · omega
    · have hn0 : n ≠ 0 := by
        intro h; subst h
        have : i.natAbs * q.den ≤ 0 := h1
        have : 0 < i.natAbs * q.den := Nat.mul_pos (by omega) hd
        omega
      have : i * (Int.ofNat n) < 0 := Int.mul_neg_of_neg_of_pos (by omega) (by show (0:Int) < (n:Int); omega)
      omega
  | negSucc n =>
    rw [hn] at hdiv h3
    have e : Int.tdiv (Int.negSucc n) (q.den : Int) = -(((n + 1) / q.den : Nat) : Int) := rfl
    have hdiv : (n + 1) / q.den = i.natAbs := hdiv
    rw [e, hdiv]
    by_cases hi : i ≤ 0
    · omega
    · have : i * (Int.negSucc n) < 0 := Int.mul_neg_of_pos_of_neg (by omega) (Int.negSucc_lt_zero n)
      omega

theorem converts_coerce {env : Env} {p x w} (h : Converts env p x w) : coerceObj env p x = .ok w := by
  cases h with
  | intFloat h => simp [coerceObj, primCall, truncRat_unique h]
  | intStr h => simp [coerceObj, primCall, h]
  | floatInt h => simp [coerceObj, primCall, h]
  | floatStr h => simp [coerceObj, primCall, h]
  | boolInt h => simp [coerceObj, primCall, truthy, h]
  | @boolFloat x h =>
    cases x with
    | fin q =>
      have : q ≠ 0 := by rintro rfl; exact h rfl
      simp [coerceObj, primCall, truthy, this]
    | inf b => rfl
    | nan => rfl
  | boolStr h => simp [coerceObj, primCall, truthy, h]
  | _ => rfl

theorem refuses_coerce {env : Env} {p x} (h : Refuses env p x) : ∃ e, coerceObj env p x = .error e := by
  cases h with
  | null => exact ⟨_, rfl⟩
  | intInf => exact ⟨_, rfl⟩
  | intNan => exact ⟨_, rfl⟩
  | intStr h => simp [coerceObj, primCall, h]
  | floatStr h => simp [coerceObj, primCall, h]
  | floatInt h => simp [coerceObj, primCall, h]

/-- The argument holds the input `x`, under its key, as an element or at its position. -/
structure Holds (a : DeArg) (x : Val) : Prop where
  alias : a.alias = []
  deser : a.deser = none
  flat : a.flatten = false
  src : (∃ dk kvs, a.src = .key (.dict dk kvs) ∧ getStr a.conv kvs = some x) ∨ a.src = .val (.ok x) ∨
    ∃ d i, a.src = .idx d i ∧ pyIndex d i = .ok x

theorem Holds.data {a : DeArg} {x} (h : Holds a x) : a.data = .ok x := by
  unfold DeArg.data
  rcases h.src with ⟨dk, kvs, hs, hx⟩ | hs | ⟨d, i, hs, hx⟩
  · rw [hs]
    dsimp only
    split <;> simp [pyGet, pyGetItem, hx]
  · rw [hs]
  · rw [hs]; exact hx

theorem Holds.prim {cx : DeCx} {a : DeArg} {x} (h : Holds a x) : primData cx a = .ok x := by
  unfold primData
  rw [h.alias]
  exact h.data

theorem Holds.optNone {env : Env} {cx : DeCx} {a : DeArg} {t} (h : Holds a .none) : optExists env cx a t = .ok false := by
  unfold optExists
  rcases h.src with ⟨dk, kvs, hs, hx⟩ | hs | ⟨d, i, hs, hx⟩
  · rw [hs, h.flat, h.alias]
    simp only [Bool.false_eq_true, if_false, pyGet, hx, Option.getD_some]
  · rw [hs]
    dsimp only
    rw [h.data]
  · rw [hs]
    dsimp only
    rw [h.data]

theorem Holds.optSome {env : Env} {cx : DeCx} {a : DeArg} {x t} (h : Holds a x) (hn : x ≠ .none) : optExists env cx a t = .ok true := by
  unfold optExists
  rcases h.src with ⟨dk, kvs, hs, hx⟩ | hs | ⟨d, i, hs, hx⟩
  · rw [hs, h.flat, h.alias]
    simp only [Bool.false_eq_true, if_false, pyGet, hx, Option.getD_some]
  · rw [hs]
    dsimp only
    rw [h.data]
    cases x <;> first | rfl | exact absurd rfl hn
  · rw [hs]
    dsimp only
    rw [h.data]
    cases x <;> first | rfl | exact absurd rfl hn

theorem holds_elem {t nm x} : Holds { ty := t, name := nm, conv := nm, src := .val (.ok x), alias := [], deser := none } x :=
  ⟨rfl, rfl, rfl, .inr (.inl rfl)⟩

theorem render_elem {env : Env} {n cx t nm x} :
    (deAt env (n + 1)).render cx { ty := t, name := nm, conv := nm, src := .val (.ok x), alias := [], deser := none } =
      deBody env (deAt env n) cx { ty := t, name := nm, conv := nm, src := .val (.ok x), alias := [], deser := none } := by
  rw [deAt_render]; rfl

theorem deBody_start {cx : DeCx} {a : DeArg} {x} (hd : cx.des = []) (h : Holds a x) :
    pickDe cx.des a = none ∧ a.deser = none := ⟨by rw [hd]; exact pickDe_nil, h.deser⟩

theorem render_nodflt {env : Env} {r cx} {a : DeArg} (h : a.dflt = none) : deRenderF env r cx a = deBody env r cx a := by
  unfold deRenderF; rw [h]

/-- The elements of a sequence are decoded one by one. -/
theorem ev_elems {env : Env} {cx t nm} {xs ys : List Val} (hl : xs.length = ys.length)
    (h : ∀ p ∈ xs.zip ys, Ev (fun n => deBody env (deAt env n) cx { ty := t, name := nm, conv := nm, src := .val (.ok p.1), alias := [], deser := none } = .ok p.2)) :
    Ev (fun n => mapR (fun x => (deAt env n).render cx { ty := t, name := nm, conv := nm, src := .val (.ok x), alias := [], deser := none }) xs = .ok ys) := by
  refine (Ev.list h).step (fun n hn => mapR_zip hl (fun p hp => ?_))
  rw [render_elem]
  exact hn p hp

theorem coerced_body {env : Env} {hook t x w} (h : Coerced env hook t x w) : ∀ {cx : DeCx} {a : DeArg}, cx.coerce = true → cx.des = [] →
    (hook = cx.numbers.isSome) → a.ty = t → Holds a x → Ev (fun n => deBody env (deAt env n) cx a = .ok w) := by
  induction h with
  | @prim p x w hp hcv =>
    intro cx a hco hd hh hty ha
    refine Ev.of_all (fun n => ?_)
    unfold deBody
    rw [(deBody_start hd ha).1, ha.deser, hty]
    dsimp only
    rw [ha.prim]
    dsimp only
    split
    · rename_i hnu
      rw [hnu] at hh
      exact absurd rfl (hp hh)
    · rw [hco, if_pos rfl]; exact converts_coerce hcv
  | @newType n p x w hcv =>
    intro cx a hco hd hh hty ha
    refine Ev.of_all (fun n => ?_)
    unfold deBody
    rw [(deBody_start hd ha).1, ha.deser, hty]
    dsimp only
    rw [ha.prim]
    dsimp only
    rw [hco, if_pos rfl]; exact converts_coerce hcv
  | @optNone t ht =>
    intro cx a hco hd hh hty ha
    refine Ev.of_all (fun n => ?_)
    unfold deBody
    rw [(deBody_start hd ha).1, ha.deser, hty]
    dsimp only
    have : (Ty.union [t, .none]).isOpt = true := by
      cases t <;> first | rfl | exact absurd rfl ht
    rw [this, if_pos rfl, ha.optNone]
  | @opt t x w ht hx _ ih =>
    intro cx a hco hd hh hty ha
    have ha' : Holds { a with ty := t, dflt := none, tyArgs := none } x := ⟨ha.alias, ha.deser, ha.flat, ha.src⟩
    refine (ih hco hd hh rfl ha').step (fun n hn => ?_)
    unfold deBody
    rw [(deBody_start hd ha).1, ha.deser, hty]
    dsimp only
    have : (Ty.union [t, .none]).isOpt = true := by
      cases t <;> first | rfl | exact absurd rfl ht
    rw [this, if_pos rfl, ha.optSome hx]
    dsimp only
    rw [deAt_render, render_nodflt rfl]
    rw [ha.deser] at hn
    exact hn
  | @list k t xs ys hl _ ih =>
    intro cx a hco hd hh hty ha
    refine (ev_elems (nm := "v") hl (fun p hp => ih p hp hco hd hh rfl holds_elem)).mono (fun n hn => ?_)
    unfold deBody
    rw [(deBody_start hd ha).1, ha.deser, hty]
    dsimp only
    rw [ha.data, ha.alias]
    dsimp only [pyIter]
    rw [hn]
  | @deque t xs ys hl _ ih =>
    intro cx a hco hd hh hty ha
    refine (ev_elems (nm := "v") hl (fun p hp => ih p hp hco hd hh rfl holds_elem)).mono (fun n hn => ?_)
    unfold deBody
    rw [(deBody_start hd ha).1, ha.deser, hty]
    dsimp only
    rw [ha.data, ha.alias]
    dsimp only [pyIter]
    rw [hn]
  | @tupleV t xs ys hl _ ih =>
    intro cx a hco hd hh hty ha
    refine (ev_elems (nm := "v") hl (fun p hp => ih p hp hco hd hh rfl holds_elem)).mono (fun n hn => ?_)
    unfold deBody
    rw [(deBody_start hd ha).1, ha.deser, hty]
    dsimp only
    rw [ha.data, ha.alias]
    dsimp only [pyIter]
    rw [hn]
  | @tuple ts xs ys hne hl hlx _ ih =>
    intro cx a hco hd hh hty ha
    have hz : ts.zipIdx.length = ys.length := by rw [List.length_zipIdx]; exact hl
    have key : ∀ p ∈ ts.zipIdx.zip ys, Ev (fun n => deBody env (deAt env n) cx
        { ty := p.1.1, name := "data[..]", conv := "data[..]", src := .val (pyIndex (.list xs) p.1.2), alias := [], deser := none } = .ok p.2) := by
      intro p hp
      obtain ⟨i, hi, rfl⟩ := List.getElem_of_mem hp
      rw [List.getElem_zip, List.getElem_zipIdx]
      have hi1 : i < ts.length := by simp only [List.length_zip, List.length_zipIdx] at hi; omega
      have hi3 : i < ys.length := by omega
      have hi2 : i < xs.length := by omega
      have he : pyIndex (.list xs) (0 + i) = .ok xs[i] := by
        unfold pyIndex
        dsimp only
        rw [Nat.zero_add, List.getElem?_eq_getElem hi2]
      dsimp only
      rw [he]
      exact ih i _ _ _ (List.getElem?_eq_getElem hi1) (List.getElem?_eq_getElem hi2) (List.getElem?_eq_getElem hi3) hco hd hh rfl holds_elem
    refine (Ev.list key).step (fun n hn => ?_)
    unfold deBody
    rw [(deBody_start hd ha).1, ha.deser, hty]
    dsimp only
    cases ts with
    | nil => exact absurd rfl hne
    | cons t ts =>
      dsimp only
      rw [ha.data, ha.alias]
      dsimp only
      rw [mapR_zip hz (fun p hp => by rw [deAt_render, render_nodflt rfl]; exact hn p hp)]
  | @dict k vt dk kvs kvs' hk hl hp hks _ ih =>
    intro cx a hco hd hh hty ha
    refine ((Ev.list (xs := kvs.zip kvs') (fun p hp => ih p hp (cx := cx) hco hd hh rfl (holds_elem (nm := "v")))).and Ev.pos).step (fun n hn => ?_)
    obtain ⟨hn, m, rfl⟩ := hn
    have hkeys : ∀ x ∈ kvs'.map (·.1), ∃ s, x = .str s := by
      intro x hx
      obtain ⟨e, he, rfl⟩ := List.mem_map.1 hx
      obtain ⟨i, hi, rfl⟩ := List.getElem_of_mem he
      obtain ⟨s, _, h⟩ := hks (kvs[i], kvs'[i]) (by
        rw [List.mem_iff_getElem]
        exact ⟨i, by simp only [List.length_zip]; omega, by simp⟩)
      exact ⟨s, h⟩
    unfold deBody
    rw [(deBody_start hd ha).1, ha.deser, hty]
    dsimp only
    rw [ha.data, ha.alias]
    dsimp only [pyItems, numKey]
    rw [mapR_zip hl (fun p hp => by
      obtain ⟨s, h1, h2⟩ := hks p hp
      rw [render_elem, render_elem, hn p hp, h1]
      have : deBody env (deAt env (m + 1)) cx { ty := .prim .str, name := "k", conv := "k", src := .val (.ok (.str s)), alias := [], deser := none } = .ok (.str s) := by
        unfold deBody
        rw [hd, pickDe_nil]
        dsimp only [primData, DeArg.data]
        rw [hco]; rfl
      rw [this]
      show Except.ok (Val.str s, p.2.2) = .ok p.2
      rw [← h2])]
    dsimp only
    have : (k == .deflt) = false := by simpa using hk
    rw [this]
    exact mkDict_id (by
      rw [hashableL_iff]
      intro x hx
      obtain ⟨s, rfl⟩ := hkeys x hx
      rfl) hp

theorem mapR_each {α β : Type} {f : α → Res β} {as : List α} {bs a} (h : mapR f as = .ok bs) (ha : a ∈ as) : ∃ b, f a = .ok b := by
  cases hf : f a with
  | ok b => exact ⟨b, rfl⟩
  | error e =>
    obtain ⟨e', he⟩ := mapR_error_of ha hf
    rw [he] at h; cases h

theorem refused_body {env : Env} {hook t x} (h : Refused env hook t x) : ∀ {cx : DeCx} {a : DeArg}, cx.coerce = true → cx.des = [] →
    (hook = cx.numbers.isSome) → a.ty = t → Holds a x → ∀ n w, deBody env (deAt env n) cx a ≠ .ok w := by
  have elems : ∀ {t : Ty} {xs : List Val} {x nm} {cx : DeCx}, x ∈ xs → (∀ {cx : DeCx} {a : DeArg}, cx.coerce = true → cx.des = [] →
      (hook = cx.numbers.isSome) → a.ty = t → Holds a x → ∀ n w, deBody env (deAt env n) cx a ≠ .ok w) → cx.coerce = true → cx.des = [] →
      (hook = cx.numbers.isSome) → ∀ n, ∃ e, mapR (fun x => (deAt env n).render cx { ty := t, name := nm, conv := nm, src := .val (.ok x), alias := [], deser := none }) xs = .error e := by
    intro t xs x nm cx hx ih hco hd hh n
    cases hr : (deAt env n).render cx { ty := t, name := nm, conv := nm, src := .val (.ok x), alias := [], deser := none } with
    | error e => exact mapR_error_of hx hr
    | ok w =>
      cases n with
      | zero => cases hr
      | succ n => rw [render_elem] at hr; exact absurd hr (ih hco hd hh rfl holds_elem n w)
  induction h with
  | @prim p x hp hcv =>
    intro cx a hco hd hh hty ha n w
    unfold deBody
    rw [(deBody_start hd ha).1, ha.deser, hty]
    dsimp only
    rw [ha.prim]
    dsimp only
    split
    · rename_i hnu
      rw [hnu] at hh
      exact absurd rfl (hp hh)
    · rw [hco, if_pos rfl]
      obtain ⟨e, he⟩ := refuses_coerce hcv
      rw [he]; intro h; cases h
  | @newType nm p x hcv =>
    intro cx a hco hd hh hty ha n w
    unfold deBody
    rw [(deBody_start hd ha).1, ha.deser, hty]
    dsimp only
    rw [ha.prim]
    dsimp only
    rw [hco, if_pos rfl]
    obtain ⟨e, he⟩ := refuses_coerce hcv
    rw [he]; intro h; cases h
  | @opt t x ht hx _ ih =>
    intro cx a hco hd hh hty ha n w
    have ha' : Holds { a with ty := t, dflt := none, tyArgs := none } x := ⟨ha.alias, ha.deser, ha.flat, ha.src⟩
    unfold deBody
    rw [(deBody_start hd ha).1]
    have h0 := ha.deser
    rw [h0, hty]
    dsimp only
    have : (Ty.union [t, .none]).isOpt = true := by
      cases t <;> first | rfl | exact absurd rfl ht
    rw [this, if_pos rfl, ha.optSome hx]
    dsimp only
    cases n with
    | zero => intro h; cases h
    | succ n =>
      rw [deAt_render, render_nodflt rfl]
      have := ih hco hd hh rfl ha' n w
      rw [h0] at this
      exact this
  | @list k t xs x hx _ ih =>
    intro cx a hco hd hh hty ha n w
    obtain ⟨e, he⟩ := elems (nm := "v") hx ih hco hd hh n
    unfold deBody
    rw [(deBody_start hd ha).1, ha.deser, hty]
    dsimp only
    rw [ha.data, ha.alias]
    dsimp only [pyIter]
    rw [he]; intro h; cases h
  | @deque t xs x hx _ ih =>
    intro cx a hco hd hh hty ha n w
    obtain ⟨e, he⟩ := elems (nm := "v") hx ih hco hd hh n
    unfold deBody
    rw [(deBody_start hd ha).1, ha.deser, hty]
    dsimp only
    rw [ha.data, ha.alias]
    dsimp only [pyIter]
    rw [he]; intro h; cases h
  | @tupleV t xs x hx _ ih =>
    intro cx a hco hd hh hty ha n w
    obtain ⟨e, he⟩ := elems (nm := "v") hx ih hco hd hh n
    unfold deBody
    rw [(deBody_start hd ha).1, ha.deser, hty]
    dsimp only
    rw [ha.data, ha.alias]
    dsimp only [pyIter]
    rw [he]; intro h; cases h
  | @dict k kt vt dk kvs kv hkv _ ih =>
    intro cx a hco hd hh hty ha n w
    unfold deBody
    rw [(deBody_start hd ha).1, ha.deser, hty]
    dsimp only
    rw [ha.data, ha.alias]
    dsimp only [pyItems]
    have hno : ∀ w, (deAt env n).render cx { ty := vt, name := "v", conv := "v", src := .val (.ok kv.2), alias := [], deser := none } ≠ .ok w := by
      intro w hr
      cases n with
      | zero => cases hr
      | succ n => rw [render_elem] at hr; exact absurd hr (ih hco hd hh rfl holds_elem n w)
    split
    · rename_i es hes
      obtain ⟨b, hb⟩ := mapR_each hes hkv
      split at hb
      · cases hb
      · split at hb
        · rename_i w hw; exact absurd hw (hno w)
        · cases hb
    · intro h; cases h

end Verif
