import Verif.Spec.Collect
import Verif.Lemmas.ScopeFree
import Verif.Lemmas.Frame
import Verif.Lemmas.Collect
/-!
# Rendering in two scopes whose union and literal functions agree on the annotation
-/

namespace Verif
open Spec

/-- Parts of an annotation without entering dataclasses. -/
inductive Inner : Ty → Ty → Prop
  | union {ts s} : s ∈ ts → Inner (.union ts) s
  | list {k t} : Inner (.list k t) t
  | set {k t} : Inner (.set k t) t
  | deque {t} : Inner (.deque t) t
  | counter {t} : Inner (.counter t) t
  | tuple {ts s} : s ∈ ts → Inner (.tuple ts) s
  | tupleV {t} : Inner (.tupleV t) t
  | key {k kt vt} : Inner (.dict k kt vt) kt
  | value {k kt vt} : Inner (.dict k kt vt) vt
  | alias {nm t} : Inner (.alias nm t) t

/-- The tables pick the same functions for the annotations in `Q`. -/
structure Tables (env : Env) (Q : Ty → Prop) (us us' : List (List Ty)) (ls ls' : List (List Val)) : Prop where
  closed : ∀ t s, Q t → Inner t s → Q s
  unions : ∀ ts, Q (.union ts) → (Ty.union ts).isOpt = false → findUnion env us (unionFuncName env ts) = some ts ∧ findUnion env us' (unionFuncName env ts) = some ts
  lits : ∀ vs, Q (.lit vs) → findLit env ls (litFuncName env vs) = findLit env ls' (litFuncName env vs)

def DeAgree (Q : Ty → Prop) (us us' : List (List Ty)) (ls ls' : List (List Val)) (r : DeRec) : Prop :=
  ∀ (cx : DeCx) (a : DeArg), Q a.ty ∨ (∃ c, a.ty = .cls c) →
    r.render { cx with unions := us, lits := ls } a = r.render { cx with unions := us', lits := ls' } a

theorem deUnion_agree {env : Env} {Q us us' ls ls'} {r : DeRec} (hr : DeAgree Q us us' ls ls' r) (cx : DeCx) (d : Val) :
    ∀ ts, (∀ t ∈ ts, Q t) → deUnion env r { cx with unions := us, lits := ls } d ts = deUnion env r { cx with unions := us', lits := ls' } d ts := by
  intro ts
  induction ts with
  | nil => intro _; rfl
  | cons t ts ih =>
    intro h
    unfold deUnion
    have : deMember env r { cx with unions := us, lits := ls } t d = deMember env r { cx with unions := us', lits := ls' } t d := by
      have hp : ∀ p, r.render { cx with unions := us, lits := ls } { ty := t, name := "fake_key", conv := "fake_key", src := .key p } =
          r.render { cx with unions := us', lits := ls' } { ty := t, name := "fake_key", conv := "fake_key", src := .key p } :=
        fun p => hr cx { ty := t, name := "fake_key", conv := "fake_key", src := .key p } (.inl (h t (by simp)))
      unfold deMember
      simp only [hp]
    rw [this, ih (fun t ht => h t (List.mem_cons_of_mem _ ht))]

theorem deBody_agree {env : Env} {Q us us' ls ls'} (hT : Tables env Q us us' ls ls') {r : DeRec} (hr : DeAgree Q us us' ls ls' r) (cx : DeCx)
    (a : DeArg) (hs : Q a.ty ∨ ∃ c, a.ty = .cls c) :
    deBody env r { cx with unions := us, lits := ls } a = deBody env r { cx with unions := us', lits := ls' } a := by
  have hel : ∀ (t : Ty), Q t → ∀ (nm : String) (y : Res Val),
      r.render { cx with unions := us, lits := ls } { ty := t, name := nm, conv := nm, src := .val y, alias := a.alias, deser := a.deser } =
      r.render { cx with unions := us', lits := ls' } { ty := t, name := nm, conv := nm, src := .val y, alias := a.alias, deser := a.deser } :=
    fun t ht nm y => hr cx _ (.inl ht)
  have hty : ∀ (t : Ty) d ta, (Q t ∨ ∃ c, t = .cls c) → r.render { cx with unions := us, lits := ls } { a with ty := t, dflt := d, tyArgs := ta } =
      r.render { cx with unions := us', lits := ls' } { a with ty := t, dflt := d, tyArgs := ta } := fun t d ta ht => hr cx _ ht
  have hpd : primData { cx with unions := us, lits := ls } a = primData { cx with unions := us', lits := ls' } a := rfl
  have hoe : ∀ t, optExists env { cx with unions := us, lits := ls } a t = optExists env { cx with unions := us', lits := ls' } a t := fun _ => rfl
  obtain ⟨ty, name, conv, src, al, deser, fl, dflt, ta⟩ := a
  unfold deBody
  dsimp only at hs hel hty hpd hoe ⊢
  have hQ : ∀ s, Inner ty s → Q s := by
    intro s hi
    rcases hs with h | ⟨c, rfl⟩
    · exact hT.closed _ _ h hi
    · cases hi
  cases ty with
  | gen c args => simp only [hty _ _ _ (.inr ⟨c, rfl⟩)]
  | alias nm t => simp only [hty _ _ _ (.inl (hQ _ .alias))]
  | list k t => simp only [hel _ (hQ _ .list)]
  | set k t => simp only [hel _ (hQ _ .set)]
  | deque t => simp only [hel _ (hQ _ .deque)]
  | counter t => simp only [hel _ (hQ _ .counter)]
  | dict k kt vt => simp only [hel _ (hQ _ .key), hel _ (hQ _ .value)]
  | tupleV t => simp only [hel _ (hQ _ .tupleV)]
  | tuple ts =>
    have : ∀ F : Ty × Nat → Res Val, mapR (fun it : Ty × Nat => r.render { cx with unions := us, lits := ls }
          { ty := it.1, name := "data[..]", conv := "data[..]", src := .val (F it), alias := al, deser := deser }) ts.zipIdx =
        mapR (fun it : Ty × Nat => r.render { cx with unions := us', lits := ls' }
          { ty := it.1, name := "data[..]", conv := "data[..]", src := .val (F it), alias := al, deser := deser }) ts.zipIdx := by
      intro F
      refine mapR_congr (fun it hit => hel _ (hQ _ (.tuple ?_)) _ _)
      have := List.mem_map_of_mem (f := Prod.fst) hit
      simpa using this
    cases ts with
    | nil => rfl
    | cons t ts => dsimp only; simp only [this]
  | dictB k => cases k <;> rfl
  | lit vs =>
    rcases hs with h | ⟨c, h⟩
    · simp only [hT.lits _ h]
    · cases h
  | union ts =>
    rcases hs with h | ⟨c, h⟩
    · have hun : ∀ d, deUnion env r (DeCx.inUnion { cx with unions := us, lits := ls } env d) d ts =
          deUnion env r (DeCx.inUnion { cx with unions := us', lits := ls' } env d) d ts := by
        intro d
        exact deUnion_agree hr (cx.inUnion env d) d ts (fun t ht => hQ t (.union ht))
      cases ho : (Ty.union ts).isOpt with
      | false =>
        have hu := hT.unions _ h ho
        simp only [hu.1, hu.2, hun, Bool.false_eq_true, if_false]
      | true =>
        simp only [if_true, hoe]
        cases ts with
        | nil => rfl
        | cons t ts => simp only [hty _ _ _ (.inl (hQ t (.union (by simp))))]
    · cases h
  | _ => simp only [hpd]

theorem render_agree {env : Env} {Q us us' ls ls'} (hT : Tables env Q us us' ls ls') (n : Nat) : DeAgree Q us us' ls ls' (deAt env n) := by
  induction n with
  | zero => intro cx a _; rfl
  | succ n ih =>
    intro cx a hs
    rw [deAt_render, deAt_render]
    unfold deRenderF
    rw [deBody_agree hT ih cx a hs]

/-! ## Serialization -/

def SeAgree (Q : Ty → Prop) (us us' : List (List Ty)) (r : SeRec) : Prop :=
  ∀ (cx : SeCx) (a : SeArg), Q a.ty ∨ (∃ c, a.ty = .cls c) → r.render { cx with unions := us } a = r.render { cx with unions := us' } a

theorem seUnion_agree {env : Env} {Q us us'} {r : SeRec} (hr : SeAgree Q us us' r) (cx : SeCx) (v : Val) :
    ∀ ts, (∀ t ∈ ts, Q t) → seUnion env r { cx with unions := us } v ts = seUnion env r { cx with unions := us' } v ts := by
  intro ts
  induction ts with
  | nil => intro _; rfl
  | cons t ts ih =>
    intro h
    unfold seUnion
    simp only [hr cx { ty := t, v := .ok v } (.inl (h t (by simp)))]
    rw [ih (fun t ht => h t (List.mem_cons_of_mem _ ht))]

theorem renderF_agree {env : Env} {Q us us' ls ls'} (hT : Tables env Q us us' ls ls') {r : SeRec} (hr : SeAgree Q us us' r) (cx : SeCx)
    (a : SeArg) (hs : Q a.ty ∨ ∃ c, a.ty = .cls c) :
    renderF env r { cx with unions := us } a = renderF env r { cx with unions := us' } a := by
  have hel : ∀ (t : Ty), Q t → ∀ (y : Res Val),
      r.render { cx with unions := us } { ty := t, ser := a.ser, v := y } = r.render { cx with unions := us' } { ty := t, ser := a.ser, v := y } :=
    fun t ht y => hr cx _ (.inl ht)
  have hty : ∀ (t : Ty), (Q t ∨ ∃ c, t = .cls c) → r.render { cx with unions := us } { a with ty := t } = r.render { cx with unions := us' } { a with ty := t } :=
    fun t ht => hr cx _ ht
  obtain ⟨ty, ser, fl, v⟩ := a
  unfold renderF
  dsimp only at hs hel hty ⊢
  have hQ : ∀ s, Inner ty s → Q s := by
    intro s hi
    rcases hs with h | ⟨c, rfl⟩
    · exact hT.closed _ _ h hi
    · cases hi
  cases ty with
  | gen c args => simp only [hty _ (.inr ⟨c, rfl⟩)]
  | alias nm t => simp only [hty _ (.inl (hQ _ .alias))]
  | list k t => simp only [hel _ (hQ _ .list)]
  | set k t => simp only [hel _ (hQ _ .set)]
  | deque t => simp only [hel _ (hQ _ .deque)]
  | counter t => simp only [hel _ (hQ _ .counter)]
  | dict k kt vt => simp only [hel _ (hQ _ .key), hel _ (hQ _ .value)]
  | tupleV t => simp only [hel _ (hQ _ .tupleV)]
  | tuple ts =>
    have : ∀ v, mapR (fun it : Ty × Nat => r.render { cx with unions := us } { ty := it.1, ser := ser, v := pyIndex v it.2 }) ts.zipIdx =
        mapR (fun it : Ty × Nat => r.render { cx with unions := us' } { ty := it.1, ser := ser, v := pyIndex v it.2 }) ts.zipIdx := by
      intro v
      refine mapR_congr (fun it hit => hel _ (hQ _ (.tuple ?_)) _)
      have := List.mem_map_of_mem (f := Prod.fst) hit
      simpa using this
    cases ts with
    | nil => rfl
    | cons t ts => dsimp only; simp only [this]
  | dictB k => cases k <;> rfl
  | listB k => cases k <;> rfl
  | union ts =>
    rcases hs with h | ⟨c, h⟩
    · have hun : ∀ v, seUnion env r (SeCx.inUnion { cx with unions := us } env) v ts = seUnion env r (SeCx.inUnion { cx with unions := us' } env) v ts :=
        fun v => seUnion_agree hr (cx.inUnion env) v ts (fun t ht => hQ t (.union ht))
      cases ho : (Ty.union ts).isOpt with
      | false =>
        have hu := hT.unions _ h ho
        simp only [ho, hu.1, hu.2, hun, Bool.false_eq_true, if_false]
      | true =>
        simp only [ho, if_true]
        cases ts with
        | nil => rfl
        | cons t ts => simp only [hel t (hQ t (.union (by simp)))]
    · cases h
  | _ => rfl

theorem seRender_agree {env : Env} {Q us us' ls ls'} (hT : Tables env Q us us' ls ls') (n : Nat) : SeAgree Q us us' (seAt env n) := by
  induction n with
  | zero => intro cx a _; rfl
  | succ n ih =>
    intro cx a hs
    rw [seAt_render, seAt_render]
    exact renderF_agree hT ih cx a hs

/-! ## Two classes -/

/-- What is reached from both classes, literals being found by both collections. -/
def Shared (env : Env) (c c' : ClassId) (t : Ty) : Prop :=
  Reach env true (.cls c) t ∧ Reach env true (.cls c') t ∧
    ∀ vs, Reach env true t (.lit vs) → Reach env false (.cls c) (.lit vs) ∧ Reach env false (.cls c') (.lit vs)

theorem reach_snoc {env : Env} {al t s u} (h : Reach env al t s) (hp : Part env al s u) : Reach env al t u :=
  h.trans (.step hp .refl)

theorem inner_part {env : Env} {t s} (h : Inner t s) : Part env true t s := by
  cases h with
  | union h => exact .union h
  | list => exact .list
  | set => exact .set
  | deque => exact .deque
  | counter => exact .counter
  | tuple h => exact .tuple h
  | tupleV => exact .tupleV
  | key => exact .key
  | value => exact .value
  | alias => exact .alias rfl

theorem shared_tables {env : Env} {c c'} (hu : ∀ ts, Reach env true (.cls c) (.union ts) → OwnUnionName env c ts)
    (hu' : ∀ ts, Reach env true (.cls c') (.union ts) → OwnUnionName env c' ts)
    (hl : ∀ vs, Reach env false (.cls c) (.lit vs) → OwnLitName env c vs) (hl' : ∀ vs, Reach env false (.cls c') (.lit vs) → OwnLitName env c' vs) :
    Tables env (Shared env c c') (env.unionsOf c) (env.unionsOf c') (env.litsOf c) (env.litsOf c') where
  closed := fun t s h hi => ⟨reach_snoc h.1 (inner_part hi), reach_snoc h.2.1 (inner_part hi), fun vs hv => h.2.2 vs (.step (inner_part hi) hv)⟩
  unions := fun ts h _ => ⟨findUnion_own h.1 (hu _ h.1), findUnion_own h.2.1 (hu' _ h.2.1)⟩
  lits := fun vs h => by
    obtain ⟨h1, h2⟩ := h.2.2 vs .refl
    rw [findLit_own h1 (hl _ h1), findLit_own h2 (hl' _ h2)]

/-! ## The annotations that occur in one outside of dataclasses -/

theorem unionsOfTy_iff {env : Env} {t us} : us ∈ env.unionsOfTy t ↔ Reach env true t (.union us) := by
  constructor
  · exact fun h => unionsIn_sound (fun c us h => unionsCls_sound _ _ c us h) t us h
  · exact fun h => unionsIn_complete (S := []) (fun c hc ha => unionsCls_complete _ _ c (Nat.lt_succ_of_le freeClasses_le) hc ha) (.of_reach h) rfl

theorem litsOfTy_iff {env : Env} {t vs} : vs ∈ env.litsOfTy t ↔ Reach env false t (.lit vs) := by
  constructor
  · exact fun h => litsIn_sound (fun c us h => litsCls_sound _ _ c us h) t vs h
  · exact fun h => litsIn_complete (S := []) (fun c hc ha => litsCls_complete _ _ c (Nat.lt_succ_of_le freeClasses_le) hc ha) (.of_reach h) rfl

theorem Spec.OccursIn.snoc {t s u} (h : OccursIn t s) (hi : Inner s u) : OccursIn t u := by
  induction h with
  | refl =>
    cases hi with
    | union h => exact .union h .refl
    | list => exact .list .refl
    | set => exact .set .refl
    | deque => exact .deque .refl
    | counter => exact .counter .refl
    | tuple h => exact .tuple h .refl
    | tupleV => exact .tupleV .refl
    | key => exact .key .refl
    | value => exact .value .refl
    | alias => exact .alias .refl
  | union h _ ih => exact .union h (ih hi)
  | list _ ih => exact .list (ih hi)
  | set _ ih => exact .set (ih hi)
  | deque _ ih => exact .deque (ih hi)
  | counter _ ih => exact .counter (ih hi)
  | tuple h _ ih => exact .tuple h (ih hi)
  | tupleV _ ih => exact .tupleV (ih hi)
  | key _ ih => exact .key (ih hi)
  | value _ ih => exact .value (ih hi)
  | alias _ ih => exact .alias (ih hi)

theorem Spec.OccursIn.reach {env : Env} {t u} (h : OccursIn t u) : Reach env true t u := by
  induction h with
  | refl => exact .refl
  | union h _ ih => exact .step (.union h) ih
  | list _ ih => exact .step .list ih
  | set _ ih => exact .step .set ih
  | deque _ ih => exact .step .deque ih
  | counter _ ih => exact .step .counter ih
  | tuple h _ ih => exact .step (.tuple h) ih
  | tupleV _ ih => exact .step .tupleV ih
  | key _ ih => exact .step .key ih
  | value _ ih => exact .step .value ih
  | alias _ ih => exact .step (.alias rfl) ih

theorem find_own {α : Type} {nm : α → String} {tbl : List α} {x} (hm : x ∈ tbl) (ho : ∀ y ∈ tbl, nm y = nm x → y = x) :
    tbl.reverse.find? (fun y => nm y == nm x) = some x := by
  cases h : tbl.reverse.find? (fun y => nm y == nm x) with
  | none =>
    rw [List.find?_eq_none] at h
    have := h x (List.mem_reverse.2 hm)
    simp at this
  | some y =>
    rw [ho y (List.mem_reverse.1 (List.mem_of_find?_eq_some h)) (by simpa using List.find?_some h)]

/-- `us` and `ls` are the functions generated for `root`. -/
structure TableOf (env : Env) (root : Ty) (us : List (List Ty)) (ls : List (List Val)) : Prop where
  unions : ∀ ts, ts ∈ us ↔ Reach env true root (.union ts)
  lits : ∀ vs, vs ∈ ls ↔ Reach env false root (.lit vs)

theorem tableOf_cls {env : Env} {c} : TableOf env (.cls c) (env.unionsOf c) (env.litsOf c) := ⟨fun _ => unionsOf_iff, fun _ => litsOf_iff⟩

theorem tableOf_ty {env : Env} {t} : TableOf env t (env.unionsOfTy t) (env.litsOfTy t) := ⟨fun _ => unionsOfTy_iff, fun _ => litsOfTy_iff⟩

theorem TableOf.find {env : Env} {root us ls t ts} (h : TableOf env root us ls) (hr : Reach env true root t) (ho : OwnFuncs env root t)
    (hi : OccursIn t (.union ts)) (hp : (Ty.union ts).isOpt = false) : findUnion env us (unionFuncName env ts) = some ts :=
  find_own ((h.unions _).2 (hr.trans hi.reach)) fun us hm he => ho.unions _ hi hp us ((h.unions _).1 hm) he

theorem inside_tables {env : Env} {root root' t us us' ls ls'} (h : TableOf env root us ls) (h' : TableOf env root' us' ls')
    (hr : Reach env true root t) (hr' : Reach env true root' t) (ho : OwnFuncs env root t) (ho' : OwnFuncs env root' t) :
    Tables env (OccursIn t) us us' ls ls' where
  closed := fun _ _ hi hn => hi.snoc hn
  unions := fun ts hi hp => ⟨h.find hr ho hi hp, h'.find hr' ho' hi hp⟩
  lits := fun vs hi => by
    obtain ⟨h1, h2⟩ := ho.lits _ hi
    obtain ⟨h1', h2'⟩ := ho'.lits _ hi
    unfold findLit
    rw [find_own ((h.lits _).2 h1) fun us hm he => h2 us ((h.lits _).1 hm) he,
      find_own ((h'.lits _).2 h1') fun us hm he => h2' us ((h'.lits _).1 hm) he]

/-- Nothing is asked of annotations without unions and literals of their own. -/
theorem ownFuncs_of_free {env : Env} {root t} (h : ScopeFree t) : OwnFuncs env root t := by
  have key : ∀ {s u}, OccursIn s u → ScopeFree s → ScopeFree u := by
    intro s u hi
    induction hi with
    | refl => exact id
    | union hm _ ih =>
      intro hs
      cases hs with
      | opt _ hs =>
        simp only [List.mem_cons, List.not_mem_nil, or_false] at hm
        rcases hm with rfl | rfl
        · exact ih hs
        · exact ih .none
    | tuple hm _ ih => intro hs; cases hs with | tuple hs => exact ih (hs _ hm)
    | key _ ih => intro hs; cases hs with | dict hs _ => exact ih hs
    | value _ ih => intro hs; cases hs with | dict _ hs => exact ih hs
    | list _ ih => intro hs; cases hs with | list hs => exact ih hs
    | set _ ih => intro hs; cases hs with | set hs => exact ih hs
    | deque _ ih => intro hs; cases hs with | deque hs => exact ih hs
    | counter _ ih => intro hs; cases hs with | counter hs => exact ih hs
    | tupleV _ ih => intro hs; cases hs with | tupleV hs => exact ih hs
    | alias _ ih => intro hs; cases hs with | alias hs => exact ih hs
  constructor
  · intro ts hi hp
    cases key hi h with
    | opt hn _ => rename_i x _; cases x <;> first | exact absurd rfl hn | cases hp
  · intro vs hi
    cases key hi h

end Verif
