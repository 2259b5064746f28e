import Verif.Lemmas.MapTwin
import Verif.Spec.Absent
/-!
# Defaults, missing keys and None
-/

namespace Verif
open Spec

/-! ## Defaults -/

theorem existsByAliases_none {k kvs} {ns : List String} (h : ∀ n ∈ ns, getStr n kvs = none) : existsByAliases (.dict k kvs) ns = .ok false := by
  induction ns with
  | nil => rfl
  | cons n ns ih =>
    unfold existsByAliases
    simp only [pyIn, h n (by simp), Option.isSome_none]
    exact ih (fun m hm => h m (by simp [hm]))

theorem existsByAliases_some {k kvs} {ns : List String} (h : ∃ n ∈ ns, getStr n kvs ≠ none) : existsByAliases (.dict k kvs) ns = .ok true := by
  induction ns with
  | nil => obtain ⟨n, hn, _⟩ := h; cases hn
  | cons n ns ih =>
    unfold existsByAliases
    simp only [pyIn]
    cases hg : getStr n kvs with
    | some v => rfl
    | none =>
      simp only [Option.isSome_none]
      apply ih
      obtain ⟨m, hm, hv⟩ := h
      rcases List.mem_cons.1 hm with rfl | hm
      · exact absurd hg hv
      · exact ⟨m, hm, hv⟩

/-- With the default dropped, a present field is rendered the same. -/
theorem render_dropDflt {env : Env} (n : Nat) : ∀ (cx : DeCx) (a : DeArg) d, a.src = .key d → a.flatten = false → dfltExists env a d = .ok true →
    (deAt env n).render cx a = (deAt env n).render cx { a with dflt := none } := by
  induction n with
  | zero => intros; rfl
  | succ n ih =>
    intro cx a d hs hf he
    rw [deAt_render, deAt_render]
    unfold deRenderF
    dsimp only
    have hB : deBody env (deAt env n) cx a = deBody env (deAt env n) cx { a with dflt := none } := by
      have hty : ∀ t ta, (deAt env n).render cx { a with ty := t, tyArgs := ta } =
          (deAt env n).render cx { a with ty := t, tyArgs := ta, dflt := none } := by
        intro t ta
        refine ih cx { a with ty := t, tyArgs := ta } d hs hf ?_
        unfold dfltExists at he ⊢
        dsimp only
        rw [hf] at he ⊢
        exact he
      obtain ⟨ty, name, conv, src, al, deser, fl, dflt, ta⟩ := a
      dsimp only at hs hf he hty ⊢
      unfold deBody
      dsimp only
      have hp : pickDe cx.des { ty := ty, name := name, conv := conv, src := src, alias := al, deser := deser, flatten := fl, dflt := dflt, tyArgs := ta } =
        pickDe cx.des { ty := ty, name := name, conv := conv, src := src, alias := al, deser := deser, flatten := fl, tyArgs := ta } := rfl
      have hpd : primData cx { ty := ty, name := name, conv := conv, src := src, alias := al, deser := deser, flatten := fl, dflt := dflt, tyArgs := ta } =
        primData cx { ty := ty, name := name, conv := conv, src := src, alias := al, deser := deser, flatten := fl, tyArgs := ta } := rfl
      have hda : DeArg.data { ty := ty, name := name, conv := conv, src := src, alias := al, deser := deser, flatten := fl, dflt := dflt, tyArgs := ta } =
        DeArg.data { ty := ty, name := name, conv := conv, src := src, alias := al, deser := deser, flatten := fl, tyArgs := ta } := rfl
      have hoe : ∀ t, optExists env cx { ty := ty, name := name, conv := conv, src := src, alias := al, deser := deser, flatten := fl, dflt := dflt, tyArgs := ta } t =
        optExists env cx { ty := ty, name := name, conv := conv, src := src, alias := al, deser := deser, flatten := fl, tyArgs := ta } t := fun _ => rfl
      simp only [hp, hpd, hda, hoe, hty]
    rw [hB]
    cases hdf : a.dflt with
    | none => rfl
    | some dv =>
      rw [hs]
      dsimp only
      rw [he]

theorem catchKey_ok {α : Type} {s} {r : Res α} {a} : catchKey s r = .ok a ↔ r = .ok a := by
  unfold catchKey
  constructor
  · intro h; split at h
    · cases h
    · exact h
  · rintro rfl; rfl

/-! ## Missing keys -/

theorem mem_zipIdx_fst {α : Type} {xs : List α} {x} (h : x ∈ xs) (k : Nat) : ∃ i, (x, i) ∈ xs.zipIdx k := by
  induction xs generalizing k with
  | nil => cases h
  | cons y ys ih =>
    rw [List.zipIdx_cons]
    rcases List.mem_cons.1 h with rfl | h
    · exact ⟨k, by simp⟩
    · obtain ⟨i, hi⟩ := ih h (k + 1)
      exact ⟨i, by simp [hi]⟩

theorem mapR_error_of {α β : Type} {f : α → Res β} {as : List α} {a e} (ha : a ∈ as) (h : f a = .error e) : ∃ e, mapR f as = .error e := by
  cases hm : mapR f as with
  | error e => exact ⟨e, rfl⟩
  | ok bs =>
    have hl := mapR_ok_length hm
    have := @zip_mem _ _ as bs a ha hl.symm
    obtain ⟨b, hb⟩ := this
    rw [mapR_ok_get hm _ hb] at h
    cases h
where
  zip_mem {α β : Type} {as : List α} {bs : List β} {a} (ha : a ∈ as) (hl : as.length = bs.length) : ∃ b, (a, b) ∈ as.zip bs := by
    induction as generalizing bs with
    | nil => cases ha
    | cons x xs ih =>
      cases bs with
      | nil => simp at hl
      | cons b bs =>
        rcases List.mem_cons.1 ha with rfl | ha
        · exact ⟨b, by simp⟩
        · obtain ⟨b', hb'⟩ := ih ha (by simpa using hl)
          exact ⟨b', by simp [hb']⟩

theorem tuple_noData {env : Env} {n : Nat} {cx : DeCx} {al : List String} {ds : Option SerFn} {ts : List Ty} {e : Exc}
    (ih : ∀ (cx : DeCx) (a : DeArg) e, a.src = .val (.error e) → a.alias = [] → a.flatten = false →
      ¬ Unread a.ty → ∃ e, (deAt env n).render cx a = .error e) (hal : al = [])
    (hu : ¬ Unread (.tuple ts)) : ∃ x, mapR (fun (it : Ty × Nat) => (deAt env n).render cx
      { ty := it.1, name := "data[..]", conv := "data[..]", src := .val (.error e), alias := al, deser := ds }) ts.zipIdx = .error x := by
  obtain ⟨t, ht, hnu⟩ : ∃ t ∈ ts, ¬ Unread t := by
    apply Classical.byContradiction
    intro hx
    apply hu
    apply Unread.tuple
    intro t ht
    apply Classical.byContradiction
    intro hx2
    exact hx ⟨t, ht, hx2⟩
  obtain ⟨i, hi⟩ := mem_zipIdx_fst ht 0
  obtain ⟨e', he'⟩ := ih cx { ty := t, name := "data[..]", conv := "data[..]", src := .val (.error e), alias := al, deser := ds } e rfl hal rfl hnu
  exact mapR_error_of (f := fun it : Ty × Nat => (deAt env n).render cx { ty := it.1, name := "data[..]", conv := "data[..]", src := .val (.error e), alias := al, deser := ds }) hi he'

/-- Without data nothing can be built, except where no data is needed. -/
theorem render_noData {env : Env} (n : Nat) : ∀ (cx : DeCx) (a : DeArg) e, a.src = .val (.error e) → a.alias = [] → a.flatten = false →
    ¬ Unread a.ty → ∃ e, (deAt env n).render cx a = .error e := by
  induction n with
  | zero => intros; exact ⟨_, rfl⟩
  | succ n ih =>
    intro cx a e hs hal hf hu
    rw [deAt_render]
    unfold deRenderF
    rw [hs]
    have hda : a.data = .error e := by unfold DeArg.data; rw [hs]
    have hpd : primData cx a = .error e := by unfold primData; rw [hal]; exact hda
    have hB : ∃ e, deBody env (deAt env n) cx a = .error e := by
      unfold deBody
      dsimp only
      split
      · rw [hda]; exact ⟨_, rfl⟩
      · split
        · rw [hda]; exact ⟨_, rfl⟩
        · cases hty : a.ty with
          | none => exact absurd (hty ▸ .none) hu
          | gen c args => exact ih cx _ e hs hal hf (by dsimp only; intro h; cases h)
          | alias nm t => exact ih cx _ e hs hal hf (by dsimp only; intro h; exact hu (hty ▸ .alias h))
          | cls c => simp only [hf, Bool.false_eq_true, if_false, hda]; exact ⟨_, rfl⟩
          | union ts =>
            dsimp only
            split
            · split
              · rename_i t _ _
                have : optExists env cx a t = .error e := by unfold optExists; rw [hs]; dsimp only; rw [hda]
                rw [this]; exact ⟨_, rfl⟩
              · exact ⟨_, rfl⟩
            · split
              · exact ⟨_, rfl⟩
              · rw [hda]; exact ⟨_, rfl⟩
          | tuple ts =>
            cases ts with
            | nil => exact ⟨_, rfl⟩
            | cons t ts =>
              dsimp only
              obtain ⟨e', he'⟩ := tuple_noData (env := env) (cx := cx) (ds := a.deser) (e := e) ih hal (fun h => hu (hty ▸ h))
              simp only [hda, he']; exact ⟨_, rfl⟩
          | dictB k => cases k <;> first | exact ⟨_, hda⟩ | exact ⟨_, rfl⟩
          | tvar x =>
            dsimp only
            repeat' split
            all_goals first | exact ⟨_, rfl⟩ | (rename_i h; rw [hda] at h; cases h)
          | lit vs =>
            dsimp only
            split
            · exact ⟨_, rfl⟩
            · rw [hda]; exact ⟨_, rfl⟩
          | any => exact ⟨_, hda⟩
          | other s => exact ⟨_, rfl⟩
          | prim p => dsimp only; rw [hpd]; exact ⟨_, rfl⟩
          | newType m p => dsimp only; rw [hpd]; exact ⟨_, rfl⟩
          | enum x => dsimp only; rw [hpd]; exact ⟨_, rfl⟩
          | _ => dsimp only; rw [hda]; exact ⟨_, rfl⟩
    cases a.dflt <;> exact hB

/-- A missing key is an error, unless the annotation admits None (or needs no data). -/
theorem render_absent {env : Env} (n : Nat) : ∀ (cx : DeCx) (a : DeArg) k kvs, a.src = .key (.dict k kvs) → getStr a.conv kvs = none →
    a.alias = [] → a.flatten = false → a.dflt = none → ¬ AbsentOk a.ty → ∃ e, (deAt env n).render cx a = .error e := by
  induction n with
  | zero => intros; exact ⟨_, rfl⟩
  | succ n ih =>
    intro cx a k kvs hs hg hal hf hdf hu
    rw [deAt_render]
    unfold deRenderF
    rw [hs, hdf]
    have hnn : a.ty.hasNone = false := by
      cases h : a.ty.hasNone with
      | false => rfl
      | true =>
        exfalso
        apply hu
        cases hty : a.ty with
        | union ts =>
          rw [hty] at h
          simp only [Ty.hasNone, List.any_eq_true] at h
          obtain ⟨t, ht, hn⟩ := h
          cases t <;> simp [Ty.isNone] at hn
          exact .union ht
        | _ => rw [hty] at h; cases h
    have hda : a.data = .error (.py .key) := by
      unfold DeArg.data; rw [hs]; dsimp only; rw [hnn]; simp [pyGetItem, hg]
    have hpd : primData cx a = .error (.py .key) := by unfold primData; rw [hal]; exact hda
    show ∃ e, deBody env (deAt env n) cx a = .error e
    unfold deBody
    dsimp only
    split
    · rw [hda]; exact ⟨_, rfl⟩
    · split
      · rw [hda]; exact ⟨_, rfl⟩
      · cases hty : a.ty with
        | none => exact absurd (hty ▸ .unread .none) hu
        | gen c args => exact ih cx _ k kvs hs hg hal hf hdf (by dsimp only; intro h; cases h with | unread h => cases h)
        | alias nm t => exact ih cx _ k kvs hs hg hal hf hdf (by dsimp only; intro h; exact hu (hty ▸ .alias h))
        | cls c => simp only [hf, Bool.false_eq_true, if_false, hda]; exact ⟨_, rfl⟩
        | union ts =>
          dsimp only
          split
          · rename_i hio
            exfalso
            rw [hty] at hnn
            unfold Ty.isOpt at hio
            split at hio
            · rename_i heq; cases heq; simp [Ty.hasNone, Ty.isNone] at hnn
            · cases hio
          · split
            · exact ⟨_, rfl⟩
            · rw [hda]; exact ⟨_, rfl⟩
        | tuple ts =>
          cases ts with
          | nil => exact ⟨_, rfl⟩
          | cons t ts =>
            dsimp only
            obtain ⟨e', he'⟩ := tuple_noData (env := env) (cx := cx) (ds := a.deser) (e := .py .key) (render_noData n) hal (fun h => hu (hty ▸ .unread h))
            simp only [hda, he']; exact ⟨_, rfl⟩
        | dictB k => cases k <;> first | exact ⟨_, hda⟩ | exact ⟨_, rfl⟩
        | tvar x =>
          dsimp only
          repeat' split
          all_goals first | exact ⟨_, rfl⟩ | (rename_i h; rw [hda] at h; cases h)
        | lit vs =>
          dsimp only
          split
          · exact ⟨_, rfl⟩
          · rw [hda]; exact ⟨_, rfl⟩
        | any => exact ⟨_, hda⟩
        | other s => exact ⟨_, rfl⟩
        | prim p => dsimp only; rw [hpd]; exact ⟨_, rfl⟩
        | newType m p => dsimp only; rw [hpd]; exact ⟨_, rfl⟩
        | enum x => dsimp only; rw [hpd]; exact ⟨_, rfl⟩
        | _ => dsimp only; rw [hda]; exact ⟨_, rfl⟩

theorem getByAliases_none {k kvs} {ns : List String} (h : ∀ n ∈ ns, getStr n kvs = none) : getByAliases (.dict k kvs) ns = .ok none := by
  induction ns with
  | nil => rfl
  | cons n ns ih =>
    unfold getByAliases
    simp only [pyIn, h n (by simp), Option.isSome_none]
    exact ih (fun m hm => h m (by simp [hm]))

/-! ## None -/

/-- For an annotation that admits None, a missing key and an explicit None are the same. -/
theorem render_null {env : Env} {n : Nat} {cx : DeCx} {a : DeArg} {k k' kvs kvs' ts} (hty : a.ty = .union ts) (hnn : a.ty.hasNone = true)
    (hal : a.alias = []) (hf : a.flatten = false) (hd : a.dflt = none) (hg : getStr a.conv kvs = none)
    (hg' : getStr a.conv kvs' = some .none) :
    (deAt env n).render { cx with data := .dict k' kvs' } { a with src := .key (.dict k' kvs') } =
      (deAt env n).render { cx with data := .dict k kvs } { a with src := .key (.dict k kvs) } := by
  cases n with
  | zero => rfl
  | succ n =>
    rw [deAt_render, deAt_render]
    unfold deRenderF
    dsimp only
    rw [hd]
    dsimp only
    have h1 : DeArg.data { a with src := .key (.dict k' kvs') } = DeArg.data { a with src := .key (.dict k kvs) } := by
      unfold DeArg.data
      dsimp only
      rw [hnn]
      simp [pyGet, hg, hg']
    have hp : pickDe cx.des { a with src := .key (.dict k' kvs') } = pickDe cx.des { a with src := .key (.dict k kvs) } := rfl
    rw [hd] at h1 hp
    unfold deBody
    dsimp only
    rw [hp, h1]
    split
    · rfl
    · split
      · rfl
      · rw [hty]
        dsimp only
        split
        · split
          · rename_i t _ _ 
            have hex : ∀ kk kkvs x, (getStr a.conv kkvs = none ∨ getStr a.conv kkvs = some .none) →
              optExists env { cx with data := x } { a with src := .key (.dict kk kkvs), dflt := none } t = .ok false := by
              intro kk kkvs x h
              unfold optExists
              dsimp only
              rw [hf, hal]
              rcases h with h | h <;> simp [pyGet, h]
            have h2 := hex k kvs (.dict k kvs) (.inl hg)
            have h3 := hex k' kvs' (.dict k' kvs') (.inr hg')
            rw [hty] at h2 h3
            rw [h2, h3]
          · rfl
        · rfl

end Verif
