import Verif.Lemmas.DeMono
import Verif.Spec.TypeAlias
/-!
# Annotations with aliases are read and written as those without
-/

namespace Verif
open Spec

theorem mapR_le2 {α β γ : Type} {f : α → Res γ} {g : β → Res γ} : ∀ {as : List α} {bs : List β}, as.length = bs.length →
    (∀ (i : Nat) a b, as[i]? = some a → bs[i]? = some b → Le (f a) (g b)) → Le (mapR f as) (mapR g bs)
  | [], [], _, _ => .refl _
  | a :: as, b :: bs, hl, h => by
    simp only [mapR]
    rcases h 0 a b rfl rfl with e | e <;> rw [e]
    · exact .inl rfl
    · have ih := mapR_le2 (f := f) (g := g) (as := as) (bs := bs) (by simpa using hl) (fun i x y hx hy => h (i + 1) x y (by simpa using hx) (by simpa using hy))
      split
      · exact .refl _
      · rcases ih with e | e <;> rw [e]
        · exact .inl rfl
        · exact .refl _

theorem Spec.Unfolds.none_eq {t t'} (h : Unfolds t t') (ht : t = .none) : t' = .none := by
  cases h <;> first | exact ht | cases ht

theorem Spec.Unfolds.numKey {kt kt'} (h : Unfolds kt kt') (hi : kt' ≠ .prim .int) (hf : kt' ≠ .prim .float) : numKey kt = none ∧ numKey kt' = none := by
  have aux : ∀ {t : Ty}, t ≠ .prim .int → t ≠ .prim .float → Verif.numKey t = none := by
    intro t h1 h2
    unfold Verif.numKey
    split
    · exact absurd rfl h1
    · exact absurd rfl h2
    · rfl
  refine ⟨aux ?_ ?_, aux hi hf⟩
  · rintro rfl; cases h; exact hi rfl
  · rintro rfl; cases h; exact hf rfl

theorem deRenderF_both {env : Env} {r : DeRec} {cx} {a : DeArg} {t'} (hfl : a.flatten = false)
    (h : Le (deBody env r cx a) (deBody env r cx { a with ty := t' })) : Le (deRenderF env r cx a) (deRenderF env r cx { a with ty := t' }) := by
  obtain ⟨ty, name, conv, src, alias, deser, flatten, dflt, tyArgs⟩ := a
  dsimp only at hfl h ⊢
  subst hfl
  unfold deRenderF
  dsimp only
  have he : ∀ d, dfltExists env ⟨t', name, conv, src, alias, deser, false, dflt, tyArgs⟩ d =
      dfltExists env ⟨ty, name, conv, src, alias, deser, false, dflt, tyArgs⟩ d := by
    intro d; unfold dfltExists; rfl
  split
  · rw [he]
    split
    · exact h
    · exact .refl _
    · exact .refl _
  · exact h

theorem deRenderF_left {env : Env} {r r' : DeRec} {cx} {a : DeArg} {t'} (hfl : a.flatten = false)
    (h : Le (deBody env r cx a) (deRenderF env r' cx { a with ty := t' })) : Le (deRenderF env r cx a) (deRenderF env r' cx { a with ty := t' }) := by
  obtain ⟨ty, name, conv, src, alias, deser, flatten, dflt, tyArgs⟩ := a
  dsimp only at hfl h ⊢
  subst hfl
  have he : ∀ d, dfltExists env ⟨t', name, conv, src, alias, deser, false, dflt, tyArgs⟩ d =
      dfltExists env ⟨ty, name, conv, src, alias, deser, false, dflt, tyArgs⟩ d := by
    intro d; unfold dfltExists; rfl
  rw [deRenderF]
  dsimp only
  split
  · rename_i dv d
    split
    · exact h
    · rename_i hx
      unfold deRenderF
      dsimp only
      rw [he, hx]
      exact .refl _
    · rename_i hx
      unfold deRenderF
      dsimp only
      rw [he, hx]
      exact .refl _
  · exact h

theorem pickDe_nil {a : DeArg} : pickDe [] a = none := by
  unfold pickDe
  cases a.deser <;> rfl

theorem unfolds_de (env : Env) : ∀ (n : Nat) (cx : DeCx) (a : DeArg) (t' : Ty), cx.des = [] → a.deser = none → a.flatten = false → Unfolds a.ty t' →
    Le ((deAt env n).render cx a) ((deAt env n).render cx { a with ty := t' })
  | 0, _, _, _, _, _, _, _ => .inl rfl
  | n + 1, cx, a, t', hd, hs, hfl, hu => by
    have ih := unfolds_de env n
    rw [deAt_render, deAt_render]
    have el : ∀ (t u : Ty) (nm : String) (x : Res Val), Unfolds t u →
        Le ((deAt env n).render cx { ty := t, name := nm, conv := nm, src := .val x, alias := a.alias, deser := a.deser })
          ((deAt env n).render cx { ty := u, name := nm, conv := nm, src := .val x, alias := a.alias, deser := a.deser }) :=
      fun t u nm x h => ih cx { ty := t, name := nm, conv := nm, src := .val x, alias := a.alias, deser := a.deser } u hd hs rfl h
    obtain ⟨ty, name, conv, src, alias, deser, flatten, dflt, tyArgs⟩ := a
    dsimp only at hs hfl hu el ⊢
    subst hs hfl
    have dat : ∀ t : Ty, t.hasNone = false → DeArg.data ⟨t, name, conv, src, alias, none, false, dflt, tyArgs⟩ =
        DeArg.data ⟨.any, name, conv, src, alias, none, false, dflt, tyArgs⟩ := by
      intro t ht
      unfold DeArg.data
      dsimp only
      rw [ht]
      rfl
    cases hu with
    | same => exact .refl _
    | alias h =>
      refine deRenderF_left (t' := t') rfl ?_
      have h1 := ih cx ⟨_, name, conv, src, alias, none, false, dflt, tyArgs⟩ t' hd rfl rfl h
      have h2 := (deAt_le env n).render cx ⟨t', name, conv, src, alias, none, false, dflt, tyArgs⟩
      unfold deBody
      rw [hd, pickDe_nil]
      exact h1.trans h2
    | @opt t t' h ht =>
      refine deRenderF_both (t' := .union [t', .none]) rfl ?_
      have ht0 : t ≠ .none := fun e => ht (h.none_eq e)
      have o1 : (Ty.union [t, .none]).isOpt = true := by
        cases t <;> first | rfl | exact absurd rfl ht0
      have o2 : (Ty.union [t', .none]).isOpt = true := by
        cases t' <;> first | rfl | exact absurd rfl ht
      have n1 : (Ty.union [t, .none]).hasNone = true := by simp [Ty.hasNone, Ty.isNone]
      have n2 : (Ty.union [t', .none]).hasNone = true := by simp [Ty.hasNone, Ty.isNone]
      unfold deBody
      rw [hd, pickDe_nil, pickDe_nil]
      dsimp only
      rw [o1, o2, if_pos rfl, if_pos rfl]
      have he : optExists env cx ⟨.union [t', .none], name, conv, src, alias, none, false, dflt, tyArgs⟩ t' =
          optExists env cx ⟨.union [t, .none], name, conv, src, alias, none, false, dflt, tyArgs⟩ t := by
        unfold optExists DeArg.data
        dsimp only
        rw [n1, n2]
        rfl
      rw [he]
      split
      · exact ih cx ⟨t, name, conv, src, alias, none, false, none, none⟩ t' hd rfl rfl h
      · exact .refl _
      · exact .refl _
    | @list k t t' h =>
      refine deRenderF_both (t' := .list k t') rfl ?_
      unfold deBody
      rw [hd, pickDe_nil, pickDe_nil]
      dsimp only
      rw [dat (.list k t) rfl, dat (.list k t') rfl]
      split
      · split
        · exact le_list (fun ys => .ok (.list ys)) (mapR_le (fun x _ => el _ _ _ _ h))
        · exact .refl _
      · exact .refl _
    | @set k t t' h =>
      refine deRenderF_both (t' := .set k t') rfl ?_
      unfold deBody
      rw [hd, pickDe_nil, pickDe_nil]
      dsimp only
      rw [dat (.set k t) rfl, dat (.set k t') rfl]
      split
      · split
        · exact le_list (fun ys => mkSet env.hash (k == .frozen) ys) (mapR_le (fun x _ => el _ _ _ _ h))
        · exact .refl _
      · exact .refl _
    | @deque t t' h =>
      refine deRenderF_both (t' := .deque t') rfl ?_
      unfold deBody
      rw [hd, pickDe_nil, pickDe_nil]
      dsimp only
      rw [dat (.deque t) rfl, dat (.deque t') rfl]
      split
      · split
        · exact le_list (fun ys => .ok (.deque ys)) (mapR_le (fun x _ => el _ _ _ _ h))
        · exact .refl _
      · exact .refl _
    | @tupleV t t' h =>
      refine deRenderF_both (t' := .tupleV t') rfl ?_
      unfold deBody
      rw [hd, pickDe_nil, pickDe_nil]
      dsimp only
      rw [dat (.tupleV t) rfl, dat (.tupleV t') rfl]
      split
      · split
        · exact le_list (fun ys => .ok (.tuple ys)) (mapR_le (fun x _ => el _ _ _ _ h))
        · exact .refl _
      · exact .refl _
    | @counter t t' h =>
      refine deRenderF_both (t' := .counter t') rfl ?_
      unfold deBody
      rw [hd, pickDe_nil, pickDe_nil]
      dsimp only
      rw [dat (.counter t) rfl, dat (.counter t') rfl]
      split
      · split
        · refine le_pairs (fun es => mkDict env.hash .counter es) (mapR_le (fun kv _ => ?_))
          rcases el t t' "k" (.ok kv.1) h with e | e <;> rw [e]
          · exact .inl rfl
          · exact .refl _
        · exact .refl _
      · exact .refl _
    | @tuple ts ts' hl h =>
      refine deRenderF_both (t' := .tuple ts') rfl ?_
      unfold deBody
      rw [hd, pickDe_nil, pickDe_nil]
      dsimp only
      rw [dat (.tuple ts) rfl, dat (.tuple ts') rfl]
      cases ts with
      | nil => cases ts' with
        | nil => exact .refl _
        | cons => cases hl
      | cons t ts => cases ts' with
        | nil => cases hl
        | cons t' ts' =>
          refine le_list (fun ys => .ok (.tuple ys)) (mapR_le2 (by simpa using hl) (fun i a b ha hb => ?_))
          rw [List.getElem?_zipIdx, Option.map_eq_some_iff] at ha hb
          obtain ⟨x, hx, rfl⟩ := ha
          obtain ⟨y, hy, rfl⟩ := hb
          exact el _ _ _ _ (h i x y hx hy)
    | @value k kt vt vt' hk h =>
      refine deRenderF_both (t' := .dict k kt vt') rfl ?_
      have hk' : (k == MapK.deflt) = false := by cases k <;> first | rfl | exact absurd rfl hk
      unfold deBody
      rw [hd, pickDe_nil, pickDe_nil]
      dsimp only
      rw [dat (.dict k kt vt) rfl, dat (.dict k kt vt') rfl]
      rw [hk']
      split
      · split
        · refine le_pairs (fun es => mkDict env.hash .plain es) (mapR_le (fun kv _ => ?_))
          split
          · exact .refl _
          · rcases el vt vt' "v" (.ok kv.2) h with e | e <;> rw [e]
            · exact .inl rfl
            · exact .refl _
        · exact .refl _
      · exact .refl _
    | @key k kt kt' vt vt' hk hkey hi hf h =>
      refine deRenderF_both (t' := .dict k kt' vt') rfl ?_
      have hk' : (k == MapK.deflt) = false := by cases k <;> first | rfl | exact absurd rfl hk
      unfold deBody
      rw [hd, pickDe_nil, pickDe_nil]
      dsimp only
      rw [dat (.dict k kt vt) rfl, dat (.dict k kt' vt') rfl]
      rw [hk', (hkey.numKey hi hf).1, (hkey.numKey hi hf).2]
      dsimp only
      split
      · split
        · refine le_pairs (fun es => mkDict env.hash .plain es) (mapR_le (fun kv _ => ?_))
          rcases el kt kt' "k" (.ok kv.1) hkey with e | e <;> rw [e]
          · exact .inl rfl
          · split
            · exact .refl _
            · rcases el vt vt' "v" (.ok kv.2) h with e | e <;> rw [e]
              · exact .inl rfl
              · exact .refl _
        · exact .refl _
      · exact .refl _

theorem pickSer_nil {a : SeArg} : pickSer [] a = none := by
  unfold pickSer
  cases a.ser <;> rfl

theorem unfolds_se (env : Env) : ∀ (n : Nat) (cx : SeCx) (a : SeArg) (t' : Ty), cx.sers = [] → a.ser = none → Unfolds a.ty t' →
    Le ((seAt env n).render cx a) ((seAt env n).render cx { a with ty := t' })
  | 0, _, _, _, _, _, _ => .inl rfl
  | n + 1, cx, a, t', hd, hs, hu => by
    have ih := unfolds_se env n
    rw [seAt_render, seAt_render]
    obtain ⟨ty, ser, flatten, v⟩ := a
    dsimp only at hs hu ⊢
    subst hs
    have el : ∀ (t u : Ty) (x : Res Val), Unfolds t u →
        Le ((seAt env n).render cx { ty := t, ser := none, v := x }) ((seAt env n).render cx { ty := u, ser := none, v := x }) :=
      fun t u x h => ih cx { ty := t, ser := none, v := x } u hd rfl h
    have ml : ∀ {t u : Ty} (xs : List Val) (g : List Val → Res Val), Unfolds t u →
        Le (match mapR (fun x => (seAt env n).render cx { ty := t, ser := none, v := .ok x }) xs with
          | .ok ys => g ys
          | .error e => .error e)
          (match mapR (fun x => (seAt env n).render cx { ty := u, ser := none, v := .ok x }) xs with
          | .ok ys => g ys
          | .error e => .error e) := fun xs g h => le_list g (mapR_le fun x _ => el _ _ _ h)
    cases hu with
    | same => exact .refl _
    | @alias nm t t' h =>
      have h1 := ih cx ⟨t, none, flatten, v⟩ t' hd rfl h
      have h2 := (seAt_succ env n).render cx ⟨t', none, flatten, v⟩
      rw [seAt_render] at h2
      refine Le.trans (.inr ?_) (h1.trans h2)
      rw [renderF, hd, pickSer_nil]
    | @opt t t' h ht =>
      have ht0 : t ≠ .none := fun e => ht (h.none_eq e)
      have o1 : (Ty.union [t, .none]).isOpt = true := by
        cases t <;> first | rfl | exact absurd rfl ht0
      have o2 : (Ty.union [t', .none]).isOpt = true := by
        cases t' <;> first | rfl | exact absurd rfl ht
      unfold renderF
      rw [hd, pickSer_nil, pickSer_nil]
      dsimp only
      cases v with
      | error e => exact .refl _
      | ok v =>
        dsimp only
        rw [o1, o2, if_pos rfl, if_pos rfl]
        split
        · exact .refl _
        · exact el _ _ _ h
    | @list k t t' h =>
      unfold renderF
      rw [hd, pickSer_nil, pickSer_nil]
      dsimp only
      split
      · exact .refl _
      · split
        · exact .refl _
        · exact ml _ _ h
    | @set k t t' h =>
      unfold renderF
      rw [hd, pickSer_nil, pickSer_nil]
      dsimp only
      split
      · exact .refl _
      · split
        · exact .refl _
        · exact ml _ (fun ys => if cx.conv then .ok (.list ys) else mkSet env.hash false ys) h
    | @deque t t' h =>
      unfold renderF
      rw [hd, pickSer_nil, pickSer_nil]
      dsimp only
      split
      · exact .refl _
      · split
        · exact .refl _
        · exact ml _ _ h
    | @tupleV t t' h =>
      unfold renderF
      rw [hd, pickSer_nil, pickSer_nil]
      dsimp only
      split
      · exact .refl _
      · split
        · exact .refl _
        · exact ml _ _ h
    | @counter t t' h =>
      unfold renderF
      rw [hd, pickSer_nil, pickSer_nil]
      dsimp only
      split
      · exact .refl _
      · split
        · exact .refl _
        · refine le_pairs (fun es => mkDict env.hash .plain es) (mapR_le (fun kv _ => ?_))
          rcases el t t' (.ok kv.1) h with e | e <;> rw [e]
          · exact .inl rfl
          · exact .refl _
    | @tuple ts ts' hl h =>
      cases ts with
      | nil => cases ts' with
        | nil => exact .refl _
        | cons => cases hl
      | cons t ts => cases ts' with
        | nil => cases hl
        | cons t' ts' =>
          unfold renderF
          rw [hd, pickSer_nil, pickSer_nil]
          dsimp only
          split
          · exact .refl _
          · refine le_list (fun ys => .ok (.tuple ys)) (mapR_le2 (by simpa using hl) (fun i a b ha hb => ?_))
            rw [List.getElem?_zipIdx, Option.map_eq_some_iff] at ha hb
            obtain ⟨x, hx, rfl⟩ := ha
            obtain ⟨y, hy, rfl⟩ := hb
            exact el _ _ _ (h i x y hx hy)
    | @value k kt vt vt' hk h =>
      unfold renderF
      rw [hd, pickSer_nil, pickSer_nil]
      dsimp only
      split
      · exact .refl _
      · split
        · exact .refl _
        · refine le_pairs (fun es => mkDict env.hash .plain es) (mapR_le (fun kv _ => ?_))
          split
          · exact .refl _
          · rcases el vt vt' (.ok kv.2) h with e | e <;> rw [e]
            · exact .inl rfl
            · exact .refl _
    | @key k kt kt' vt vt' hk hkey hi hf h =>
      unfold renderF
      rw [hd, pickSer_nil, pickSer_nil]
      dsimp only
      split
      · exact .refl _
      · split
        · exact .refl _
        · refine le_pairs (fun es => mkDict env.hash .plain es) (mapR_le (fun kv _ => ?_))
          rcases el kt kt' (.ok kv.1) hkey with e | e <;> rw [e]
          · exact .inl rfl
          · split
            · exact .refl _
            · rcases el vt vt' (.ok kv.2) h with e | e <;> rw [e]
              · exact .inl rfl
              · exact .refl _

end Verif
