import Verif.Lemmas.MapTwin
import Verif.Lemmas.Default
/-!
# Aliases
-/

namespace Verif
open Spec

/-- The value under the first of the names that is present. -/
def firstOf (ns : List String) (kvs : List (Val × Val)) : Option Val := ns.findSome? (fun n => getStr n kvs)

theorem getByAliases_first {k kvs} {ns : List String} : getByAliases (.dict k kvs) ns = .ok (firstOf ns kvs) := by
  induction ns with
  | nil => rfl
  | cons n ns ih =>
    unfold getByAliases firstOf
    simp only [pyIn, pyGetItem, List.findSome?_cons]
    cases h : getStr n kvs with
    | none => simpa [firstOf] using ih
    | some v => rfl

theorem existsByAliases_first {k kvs} {ns : List String} : existsByAliases (.dict k kvs) ns = .ok (firstOf ns kvs).isSome := by
  induction ns with
  | nil => rfl
  | cons n ns ih =>
    unfold existsByAliases firstOf
    simp only [pyIn, List.findSome?_cons]
    cases h : getStr n kvs with
    | none => simpa [firstOf] using ih
    | some v => rfl

theorem deBody_unalias {env : Env} {r r' : DeRec} {cx : DeCx} {a : DeArg} {k k' kvs kvs'} (hb : BaseTy a.ty) (ha : a.alias ≠ [])
    (hd : a.deser = none) (hds : cx.des = []) (h : getStr a.conv kvs' = firstOf (a.name :: a.alias) kvs) :
    deBody env r { cx with data := .dict k kvs } { a with src := .key (.dict k kvs) } =
      deBody env r' { cx with data := .dict k' kvs' } { a with src := .key (.dict k' kvs'), alias := [] } := by
  have hp : primData { cx with data := .dict k kvs } { a with src := .key (.dict k kvs) } =
      primData { cx with data := .dict k' kvs' } { a with src := .key (.dict k' kvs'), alias := [] } := by
    have hnn : a.ty.hasNone = false := by
      revert hb; generalize a.ty = t; intro hb; cases t <;> first | rfl | exact hb.elim
    unfold primData
    dsimp only
    cases hal : a.alias with
    | nil => exact absurd hal ha
    | cons x xs =>
      rw [hal] at h
      dsimp only
      rw [getByAliases_first, ← h]
      unfold DeArg.data
      dsimp only
      rw [hnn]
      simp only [pyGetItem, Bool.false_eq_true, if_false]
      cases getStr a.conv kvs' <;> rfl
  have p1 : ∀ b : DeArg, b.deser = none → pickDe cx.des b = none := by
    intro b hb; rw [hds]; unfold pickDe; rw [hb]; rfl
  obtain ⟨ty, name, conv, src, alias, deser, flatten, dflt, tyArgs⟩ := a
  dsimp only at hd hp hb
  subst hd
  unfold deBody
  dsimp only
  rw [p1 _ rfl, p1 _ rfl]
  dsimp only
  cases ty <;> first | exact hb.elim | (dsimp only; rw [hp])

theorem dfltExists_unalias {env : Env} {a : DeArg} {k k' kvs kvs'} (ha : a.alias ≠ []) (hf : a.flatten = false)
    (h : getStr a.conv kvs' = firstOf (a.name :: a.alias) kvs) :
    dfltExists env a (.dict k kvs) = dfltExists env { a with alias := [] } (.dict k' kvs') := by
  unfold dfltExists
  rw [hf]
  simp only [Bool.false_eq_true, if_false, pyIn]
  cases hal : a.alias with
  | nil => exact absurd hal ha
  | cons x xs => rw [hal] at h; rw [existsByAliases_first, h]

theorem deRender_unalias {env : Env} {r r' : DeRec} {cx : DeCx} {a : DeArg} {k k' kvs kvs'} (hb : BaseTy a.ty) (ha : a.alias ≠ [])
    (hf : a.flatten = false) (hd : a.deser = none) (hds : cx.des = []) (h : getStr a.conv kvs' = firstOf (a.name :: a.alias) kvs) :
    deRenderF env r { cx with data := .dict k kvs } { a with src := .key (.dict k kvs) } =
      deRenderF env r' { cx with data := .dict k' kvs' } { a with src := .key (.dict k' kvs'), alias := [] } := by
  unfold deRenderF
  dsimp only
  rw [deBody_unalias (r' := r') (k' := k') hb ha hd hds h]
  cases hdf : a.dflt with
  | none => rfl
  | some dv =>
    dsimp only
    have := @dfltExists_unalias env a k k' kvs kvs' ha hf h
    have e1 : dfltExists env { a with src := .key (.dict k kvs) } (.dict k kvs) = dfltExists env a (.dict k kvs) := rfl
    have e2 : dfltExists env { a with src := .key (.dict k' kvs'), alias := [] } (.dict k' kvs') = dfltExists env { a with alias := [] } (.dict k' kvs') := rfl
    rw [← hdf, e1, e2, this]

/-- A field with aliases reads the first name present, as if that were its only name. -/
theorem render_unalias {env : Env} {n : Nat} {cx : DeCx} {a : DeArg} {k k' kvs kvs'} (hb : AliasTy a.ty) (ha : a.alias ≠ [])
    (hf : a.flatten = false) (hd : a.deser = none) (hds : cx.des = []) (hcn : a.conv = a.name) (h : getStr a.name kvs' = firstOf (a.name :: a.alias) kvs) :
    (deAt env n).render { cx with data := .dict k kvs } { a with src := .key (.dict k kvs) } =
      (deAt env n).render { cx with data := .dict k' kvs' } { a with src := .key (.dict k' kvs'), alias := [] } := by
  rw [← hcn] at h
  cases n with
  | zero => rfl
  | succ n =>
  rw [deAt_render, deAt_render]
  by_cases hbb : BaseTy a.ty
  · exact deRender_unalias hbb ha hf hd hds (by rw [h, hcn])
  · obtain ⟨t, hty, hbt⟩ : ∃ t, a.ty = .union [t, .none] ∧ BaseTy t := by
      unfold AliasTy at hb
      split at hb <;> first
        | (rename_i h; exact ⟨_, h, trivial⟩)
        | (rename_i h; rw [h] at hbb; exact absurd trivial hbb)
        | exact hb.elim
    have hiso : (Ty.union [t, .none]).isOpt = true := by
      cases t <;> simp [BaseTy] at hbt <;> rfl
    have p1 : ∀ b : DeArg, b.deser = none → pickDe cx.des b = none := by
      intro b hb; rw [hds]; unfold pickDe; rw [hb]; rfl
    have hr : (deAt env n).render { cx with data := .dict k kvs }
        { a with src := .key (.dict k kvs), ty := t, dflt := none, tyArgs := none } =
        (deAt env n).render { cx with data := .dict k' kvs' }
        { a with src := .key (.dict k' kvs'), ty := t, alias := [], dflt := none, tyArgs := none } := by
      cases n with
      | zero => rfl
      | succ n => exact deRender_unalias (a := { a with ty := t, dflt := none, tyArgs := none }) hbt ha hf hd hds (by dsimp only; rw [h, hcn])
    have ho : optExists env { cx with data := .dict k kvs } { a with src := .key (.dict k kvs) } t =
        optExists env { cx with data := .dict k' kvs' } { a with src := .key (.dict k' kvs'), alias := [] } t := by
      unfold optExists
      dsimp only
      rw [hf]
      simp only [Bool.false_eq_true, if_false, pyGet]
      cases hal : a.alias with
      | nil => exact absurd hal ha
      | cons x xs =>
        rw [hal] at h
        rw [hcn] at h ⊢
        rw [getByAliases_first, ← h]
        cases getStr a.name kvs' with
        | none => rfl
        | some v => cases v <;> rfl
    have hB : deBody env (deAt env n) { cx with data := .dict k kvs } { a with src := .key (.dict k kvs) } =
      deBody env (deAt env n) { cx with data := .dict k' kvs' } { a with src := .key (.dict k' kvs'), alias := [] } := by
      obtain ⟨ty, name, conv, src, alias, deser, flatten, dflt, tyArgs⟩ := a
      dsimp only at hd hty hr ho
      subst hd
      subst hty
      unfold deBody
      dsimp only
      rw [p1 _ rfl, p1 _ rfl]
      dsimp only
      simp only [hiso, if_true]
      rw [ho, hr]
    unfold deRenderF
    rw [hB]
    dsimp only
    cases hdf : a.dflt with
    | none => rfl
    | some dv =>
      dsimp only
      have := @dfltExists_unalias env a k k' kvs kvs' ha hf (by rw [h, hcn])
      have e1 : dfltExists env { a with src := .key (.dict k kvs) } (.dict k kvs) = dfltExists env a (.dict k kvs) := rfl
      have e2 : dfltExists env { a with src := .key (.dict k' kvs'), alias := [] } (.dict k' kvs') = dfltExists env { a with alias := [] } (.dict k' kvs') := rfl
      rw [← hdf, e1, e2, this]

end Verif
