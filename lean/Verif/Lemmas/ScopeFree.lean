import Verif.Spec.Unions
import Verif.Lemmas.DeMono
/-!
# Rendering types that do not refer to the scope's union and literal functions
-/

namespace Verif
open Spec

/-- The de-side functions ignore the scope on scope-free types. -/
def DeScope (r : DeRec) : Prop := ∀ (cx : DeCx) us ls tg (a : DeArg), ScopeFree a.ty →
  r.render { cx with unions := us, lits := ls, tagging := tg } a = r.render cx a

theorem isOpt_pair' {t : Ty} (h : t ≠ .none) : (Ty.union [t, .none]).isOpt = true := by
  cases t <;> first | rfl | exact absurd rfl h

theorem deBody_scope {env : Env} {r : DeRec} (hr : DeScope r) (cx : DeCx) (us ls tg) (a : DeArg) (hs : ScopeFree a.ty) :
    deBody env r { cx with unions := us, lits := ls, tagging := tg } a = deBody env r cx a := by
  have hel : ∀ (t : Ty), ScopeFree t → ∀ (nm : String) (y : Res Val),
      r.render { cx with unions := us, lits := ls, tagging := tg } { ty := t, name := nm, conv := nm, src := .val y, alias := a.alias, deser := a.deser } =
      r.render cx { ty := t, name := nm, conv := nm, src := .val y, alias := a.alias, deser := a.deser } :=
    fun t ht nm y => hr cx us ls tg _ ht
  have hty : ∀ (t : Ty) d ta, ScopeFree t → r.render { cx with unions := us, lits := ls, tagging := tg } { a with ty := t, dflt := d, tyArgs := ta } =
      r.render cx { a with ty := t, dflt := d, tyArgs := ta } := fun t d ta ht => hr cx us ls tg _ ht
  have hpd : primData { cx with unions := us, lits := ls, tagging := tg } a = primData cx a := rfl
  have hoe : ∀ t, optExists env { cx with unions := us, lits := ls, tagging := tg } a t = optExists env cx a t := fun _ => rfl
  obtain ⟨ty, name, conv, src, al, deser, fl, dflt, ta⟩ := a
  unfold deBody
  dsimp only at hs hel hty hpd hoe ⊢
  cases hs with
  | opt hne ht => simp only [isOpt_pair' hne, if_true, hoe, hty _ _ _ ht]
  | alias ht => simp only [hty _ _ _ ht]
  | gen => simp only [hty _ _ _ ScopeFree.cls]
  | list ht => simp only [hel _ ht]
  | set ht => simp only [hel _ ht]
  | deque ht => simp only [hel _ ht]
  | counter ht => simp only [hel _ ht]
  | dict h1 h2 => simp only [hel _ h1, hel _ h2]
  | tupleV ht => simp only [hel _ ht]
  | @tuple ts ht =>
    have : ∀ F : Ty × Nat → Res Val, mapR (fun it : Ty × Nat => r.render { cx with unions := us, lits := ls, tagging := tg }
          { ty := it.1, name := "data[..]", conv := "data[..]", src := .val (F it), alias := al, deser := deser }) ts.zipIdx =
        mapR (fun it : Ty × Nat => r.render cx
          { ty := it.1, name := "data[..]", conv := "data[..]", src := .val (F it), alias := al, deser := deser }) ts.zipIdx := by
      intro F
      refine mapR_congr (fun it hit => hel _ (ht _ ?_) _ _)
      have := List.mem_map_of_mem (f := Prod.fst) hit
      simpa using this
    cases ts with
    | nil => rfl
    | cons t ts => dsimp only; simp only [this]
  | @dictB k => cases k <;> rfl
  | _ => simp only [hpd]

theorem render_scope (env : Env) (n : Nat) : DeScope (deAt env n) := by
  induction n with
  | zero => intro cx us ls tg a _; rfl
  | succ n ih =>
    intro cx us ls tg a hs
    rw [deAt_render, deAt_render]
    unfold deRenderF
    rw [deBody_scope ih cx us ls tg a hs]

/-- The se-side functions ignore the scope on scope-free types. -/
def SeScope (r : SeRec) : Prop := ∀ (cx : SeCx) us tg (a : SeArg), ScopeFree a.ty →
  r.render { cx with unions := us, tagging := tg } a = r.render cx a

theorem renderF_scope {env : Env} {r : SeRec} (hr : SeScope r) (cx : SeCx) (us tg) (a : SeArg) (hs : ScopeFree a.ty) :
    renderF env r { cx with unions := us, tagging := tg } a = renderF env r cx a := by
  have hel : ∀ (t : Ty), ScopeFree t → ∀ (y : Res Val),
      r.render { cx with unions := us, tagging := tg } { ty := t, ser := a.ser, v := y } = r.render cx { ty := t, ser := a.ser, v := y } :=
    fun t ht y => hr cx us tg _ ht
  have hty : ∀ (t : Ty), ScopeFree t → r.render { cx with unions := us, tagging := tg } { a with ty := t } = r.render cx { a with ty := t } :=
    fun t ht => hr cx us tg _ ht
  obtain ⟨ty, ser, fl, v⟩ := a
  unfold renderF
  dsimp only at hs hel hty ⊢
  cases hs with
  | opt hne ht => simp only [isOpt_pair' hne, if_true, hel _ ht]
  | alias ht => simp only [hty _ ht]
  | gen => simp only [hty _ ScopeFree.cls]
  | list ht => simp only [hel _ ht]
  | set ht => simp only [hel _ ht]
  | deque ht => simp only [hel _ ht]
  | counter ht => simp only [hel _ ht]
  | dict h1 h2 => simp only [hel _ h1, hel _ h2]
  | tupleV ht => simp only [hel _ ht]
  | @tuple ts ht =>
    have : ∀ v, mapR (fun it : Ty × Nat => r.render { cx with unions := us, tagging := tg } { ty := it.1, ser := ser, v := pyIndex v it.2 }) ts.zipIdx =
        mapR (fun it : Ty × Nat => r.render cx { ty := it.1, ser := ser, v := pyIndex v it.2 }) ts.zipIdx := by
      intro v
      refine mapR_congr (fun it hit => hel _ (ht _ ?_) _)
      have := List.mem_map_of_mem (f := Prod.fst) hit
      simpa using this
    cases ts with
    | nil => rfl
    | cons t ts => dsimp only; simp only [this]
  | @dictB k => cases k <;> rfl
  | @listB k => cases k <;> rfl
  | _ => rfl

theorem seRender_scope (env : Env) (n : Nat) : SeScope (seAt env n) := by
  induction n with
  | zero => intro cx us tg a _; rfl
  | succ n ih =>
    intro cx us tg a hs
    rw [seAt_render, seAt_render]
    exact renderF_scope ih cx us tg a hs

end Verif
