import Verif.Props.C12
/-!
# C10: skipped fields never leave
-/

namespace Verif.Props
open Spec

/-- Two instances of `c` that agree on every serializable field. -/
def AgreeOnSerializable (cd : ClassDef) (attrs attrs' : List (String × Val)) : Prop :=
  ∀ f ∈ cd.fields, serializable f = true → attrs.lookup f.name = attrs'.lookup f.name

theorem seFieldArg_congr {f : FieldDef} {c attrs attrs'} (h : attrs.lookup f.name = attrs'.lookup f.name) :
    seFieldArg f (.ok (.inst c attrs)) = seFieldArg f (.ok (.inst c attrs')) := by
  unfold seFieldArg getAttr; dsimp only; rw [h]

theorem concatR_congr {α β : Type} {f g : α → Res (List β)} {as : List α} (h : ∀ a ∈ as, f a = g a) : concatR f as = concatR g as := by
  induction as with
  | nil => rfl
  | cons a as ih => simp only [concatR, h a (by simp), ih (fun b hb => h b (by simp [hb]))]

/-- What a class writes depends on what its serializable fields contribute only. -/
theorem cls_congr {env : Env} {n b re cv sn c} {cd : ClassDef} {attrs attrs'} (hc : env.cls c = some cd)
    (h : ∀ f ∈ cd.fields, serializable f = true →
      (seAt env n).flat (clsSeCx env c cd b re cv sn) (seFieldArg f (.ok (.inst c attrs))) = (seAt env n).flat (clsSeCx env c cd b re cv sn) (seFieldArg f (.ok (.inst c attrs')))) :
    (seAt env (n + 1)).cls b re cv sn (.inst c attrs) = (seAt env (n + 1)).cls b re cv sn (.inst c attrs') := by
  rw [seAt_cls, seAt_cls]
  unfold clsF
  dsimp only
  rw [hc]
  dsimp only
  have h' : ∀ f ∈ cd.seFieldsOf, (seAt env n).flat (clsSeCx env c cd b re cv sn) (seFieldArg f (.ok (.inst c attrs))) = (seAt env n).flat (clsSeCx env c cd b re cv sn) (seFieldArg f (.ok (.inst c attrs'))) := by
    intro f hf
    rw [seFieldsOf_eq] at hf
    exact h f (List.mem_filter.1 hf).1 (List.mem_filter.1 hf).2
  have hfs : ∀ (fs : List FieldDef), (∀ f ∈ fs, f ∈ cd.seFieldsOf) → ∀ res,
      seFields env (seAt env n) (clsSeCx env c cd b re cv sn) cd (.inst c attrs) res fs = seFields env (seAt env n) (clsSeCx env c cd b re cv sn) cd (.inst c attrs') res fs := by
    intro fs
    induction fs with
    | nil => intro _ res; rfl
    | cons f fs ih =>
      intro hm res
      unfold seFields
      have : seField env (seAt env n) (clsSeCx env c cd b re cv sn) cd (.inst c attrs) res f = seField env (seAt env n) (clsSeCx env c cd b re cv sn) cd (.inst c attrs') res f := by
        unfold seField
        rw [h' f (hm f (by simp))]
      rw [this]
      cases seField env (seAt env n) (clsSeCx env c cd b re cv sn) cd (.inst c attrs') res f with
      | error e => rfl
      | ok res' => exact ih (fun g hg => hm g (by simp [hg])) res'
  rw [hfs _ (fun f hf => hf), concatR_congr h']
  cases hs : cd.seFieldsOf with
  | nil => rfl
  | cons f fs => dsimp only; rw [h' f (by rw [hs]; simp)]

/-- **C10** for the fields of the object itself: two instances of any class that differ only in fields marked `skip` or
`skip_serializing` have the same `to_dict` and the same `to_tuple` output. -/
theorem C10_top_level {env : Env} {so : SeOpts} {n c} {cd : ClassDef} {attrs attrs'} (hc : env.cls c = some cd)
    (hu : NotUnion so.c) (hg : NoGlobal env c) (h : AgreeOnSerializable cd attrs attrs') :
    toDict env so n (.inst c attrs) = toDict env so n (.inst c attrs') ∧ toTuple env so n (.inst c attrs) = toTuple env so n (.inst c attrs') := by
  match n with
  | 0 => exact ⟨rfl, rfl⟩
  | 1 => rw [toDict_cls hu hg.ser, toDict_cls hu hg.ser, toTuple_cls hu hg.ser, toTuple_cls hu hg.ser]; exact ⟨rfl, rfl⟩
  | n + 2 =>
    rw [toDict_cls hu hg.ser, toDict_cls hu hg.ser, toTuple_cls hu hg.ser, toTuple_cls hu hg.ser]
    refine ⟨congrArg wrapAll (cls_congr hc ?_), congrArg wrapAll (cls_congr hc ?_)⟩ <;>
    · intro f hf hs
      rw [seFieldArg_congr (h f hf hs)]

/-- `v` and `v'` of type `t` differ only in skipped fields of dataclasses somewhere inside them. `U` are the unions of the class
in which `t` occurs. Flattened fields, and fields with a serializer of their own, must be equal. -/
inductive SkipEq (env : Env) : List (List Ty) → Ty → Val → Val → Prop
  | refl {U t v} : SkipEq env U t v v
  | list {U k t xs ys} : xs.length = ys.length → (∀ p ∈ xs.zip ys, SkipEq env U t p.1 p.2) → SkipEq env U (.list k t) (.list xs) (.list ys)
  | deque {U t xs ys} : xs.length = ys.length → (∀ p ∈ xs.zip ys, SkipEq env U t p.1 p.2) → SkipEq env U (.deque t) (.deque xs) (.deque ys)
  | set {U k t b xs ys} : xs.length = ys.length → (∀ p ∈ xs.zip ys, SkipEq env U t p.1 p.2) → SkipEq env U (.set k t) (.set b xs) (.set b ys)
  | tupleV {U t xs ys} : xs.length = ys.length → (∀ p ∈ xs.zip ys, SkipEq env U t p.1 p.2) → SkipEq env U (.tupleV t) (.tuple xs) (.tuple ys)
  | tuple {U ts xs ys} : xs.length = ys.length → (∀ (i : Nat) (t : Ty) (x y : Val), ts[i]? = some t → xs[i]? = some x → ys[i]? = some y → SkipEq env U t x y) →
      SkipEq env U (.tuple ts) (.tuple xs) (.tuple ys)
  | dict {U k d kt vt xs ys} : xs.map (·.1) = ys.map (·.1) → (∀ p ∈ xs.zip ys, SkipEq env U vt p.1.2 p.2.2) →
      SkipEq env U (.dict k kt vt) (.dict d xs) (.dict d ys)
  | alias {U n t v v'} : SkipEq env U t v v' → SkipEq env U (.alias n t) v v'
  | opt {U t v v'} : t ≠ .none → (v = .none ↔ v' = .none) → SkipEq env U t v v' → SkipEq env U (.union [t, .none]) v v'
  | union {U ts c attrs attrs'} : (Ty.union ts).isOpt = false →
      (∀ us, findUnion env U (unionFuncName env ts) = some us → ∀ t ∈ us,
        (∃ d, t = .cls d) ∨ isInst env t (.inst c attrs) = false ∧ isInst env t (.inst c attrs') = false) →
      SkipEq env U (.cls c) (.inst c attrs) (.inst c attrs') → SkipEq env U (.union ts) (.inst c attrs) (.inst c attrs')
  | inst {U d c cd attrs attrs'} : env.cls c = some cd → cd.classSer = none →
      (∀ f ∈ cd.fields, serializable f = true → attrs.lookup f.name = attrs'.lookup f.name ∨
        (f.flatten = false ∧ f.serializer = none ∧ (attrs.lookup f.name).isSome = true ∧ (attrs'.lookup f.name).isSome = true)) →
      (∀ f ∈ cd.fields, serializable f = true → ∀ x x', attrs.lookup f.name = some x → attrs'.lookup f.name = some x' →
        SkipEq env (env.unionsOf c) f.ty x x') →
      SkipEq env U (.cls d) (.inst c attrs) (.inst c attrs')

theorem mapR_zip_congr {α β : Type} {f : α → Res β} : ∀ {xs ys : List α}, xs.length = ys.length → (∀ p ∈ xs.zip ys, f p.1 = f p.2) →
    mapR f xs = mapR f ys
  | [], [], _, _ => rfl
  | x :: xs, y :: ys, hl, h => by
    have h1 := h (x, y) (by simp)
    dsimp only at h1
    simp only [mapR, h1]
    rw [mapR_zip_congr (xs := xs) (ys := ys) (by simpa using hl) (fun p hp => h p (by simp [hp]))]

theorem seUnion_cls {env : Env} {r : SeRec} {cx : SeCx} {c attrs attrs'} {us : List Ty}
    (h : ∀ t ∈ us, (∃ d, t = .cls d) ∨ isInst env t (.inst c attrs) = false ∧ isInst env t (.inst c attrs') = false)
    (hr : ∀ d, r.render cx { ty := .cls d, v := .ok (.inst c attrs) } = r.render cx { ty := .cls d, v := .ok (.inst c attrs') }) :
    seUnion env r cx (.inst c attrs) us = seUnion env r cx (.inst c attrs') us := by
  induction us with
  | nil => rfl
  | cons t us ih =>
    unfold seUnion
    rw [ih (fun t ht => h t (by simp [ht]))]
    rcases h t (by simp) with ⟨d, rfl⟩ | ⟨h1, h2⟩
    · rw [hr d]; rfl
    · rw [h1, h2]; rfl

/-- Values that differ in skipped fields only are rendered alike. -/
theorem render_skipEq {env : Env} (hg : env.gser = []) : ∀ n,
    (∀ {U t v v'}, SkipEq env U t v v' → ∀ cx : SeCx, cx.sers = [] → cx.unions = U →
      (seAt env n).render cx { ty := t, v := .ok v } = (seAt env n).render cx { ty := t, v := .ok v' }) ∧
    (∀ {U d v v'}, SkipEq env U (.cls d) v v' → ∀ b re cv sn, (seAt env n).cls b re cv sn v = (seAt env n).cls b re cv sn v') := by
  intro n
  induction n using Nat.strongRecOn with
  | ind n ih =>
  match n with
  | 0 => exact ⟨fun _ _ _ _ => rfl, fun _ _ _ _ _ => rfl⟩
  | n + 1 =>
  obtain ⟨ih1, ih2⟩ := ih n (by omega)
  refine ⟨?_, ?_⟩
  · intro U t v v' h cx hs hu
    rw [seAt_render, seAt_render]
    cases h with
    | refl => rfl
    | list hl h =>
      unfold renderF; rw [hs, pickSer_nil, pickSer_nil]; dsimp only [pyIter]
      rw [mapR_zip_congr hl (fun p hp => ih1 (h p hp) cx hs hu)]
    | deque hl h =>
      unfold renderF; rw [hs, pickSer_nil, pickSer_nil]; dsimp only [pyIter]
      rw [mapR_zip_congr hl (fun p hp => ih1 (h p hp) cx hs hu)]
    | set hl h =>
      unfold renderF; rw [hs, pickSer_nil, pickSer_nil]; dsimp only [pyIter]
      rw [mapR_zip_congr hl (fun p hp => ih1 (h p hp) cx hs hu)]
    | tupleV hl h =>
      unfold renderF; rw [hs, pickSer_nil, pickSer_nil]; dsimp only [pyIter]
      rw [mapR_zip_congr hl (fun p hp => ih1 (h p hp) cx hs hu)]
    | @tuple _ ts xs ys hl h =>
      have hz : mapR (fun it : Ty × Nat => (seAt env n).render cx { ty := it.1, v := pyIndex (.tuple xs) it.2 }) ts.zipIdx =
          mapR (fun it : Ty × Nat => (seAt env n).render cx { ty := it.1, v := pyIndex (.tuple ys) it.2 }) ts.zipIdx := by
        refine mapR_congr (fun it hit => ?_)
        obtain ⟨t, i⟩ := it
        have hti := List.mk_mem_zipIdx_iff_getElem?.1 hit
        dsimp only [pyIndex]
        by_cases hi : i < xs.length
        · have hi' : i < ys.length := by omega
          rw [List.getElem?_eq_getElem hi, List.getElem?_eq_getElem hi']
          exact ih1 (h i t _ _ hti (List.getElem?_eq_getElem hi) (List.getElem?_eq_getElem hi')) cx hs hu
        · rw [List.getElem?_eq_none (by omega), List.getElem?_eq_none (by omega)]
      cases ts with
      | nil => unfold renderF; rw [hs, pickSer_nil, pickSer_nil]
      | cons t ts =>
        unfold renderF; rw [hs, pickSer_nil, pickSer_nil]; dsimp only
        rw [hz]
    | @dict _ k d kt vt xs ys hk h =>
      have hl : xs.length = ys.length := by have := congrArg List.length hk; simpa using this
      have hz : ∀ p ∈ xs.zip ys, p.1.1 = p.2.1 := by
        clear h hl
        induction xs generalizing ys with
        | nil => simp
        | cons x xs ihx =>
          cases ys with
          | nil => simp
          | cons y ys =>
            simp only [List.map_cons, List.cons.injEq] at hk
            intro p hp
            rcases List.mem_cons.1 (by simpa using hp) with rfl | hp
            · exact hk.1
            · exact ihx hk.2 p hp
      unfold renderF; rw [hs, pickSer_nil, pickSer_nil]; dsimp only [pyItems]
      rw [mapR_zip_congr hl (fun p hp => by
        rw [hz p hp]
        rw [ih1 (h p hp) cx hs hu])]
    | alias h =>
      unfold renderF; rw [hs, pickSer_nil, pickSer_nil]; dsimp only
      exact ih1 h cx hs hu
    | @opt _ t v v' hne hn h =>
      unfold renderF; rw [hs, pickSer_nil, pickSer_nil]
      simp only [isOpt_pair hne, if_true]
      by_cases hv : v = .none
      · rw [hv, hn.1 hv]
      · have hv' : v' ≠ .none := fun h => hv (hn.2 h)
        have e : ∀ x : Val, x ≠ .none → (match x with
            | .none => Except.ok .none
            | v => (seAt env n).render cx { ty := t, v := .ok v }) = (seAt env n).render cx { ty := t, v := .ok x } := by
          intro x hx; cases x <;> first | rfl | exact absurd rfl hx
        have := ih1 h cx hs hu
        cases v <;> first | exact absurd rfl hv | (cases v' <;> first | exact absurd rfl hv' | exact this)
    | @union _ ts c attrs attrs' ho hf h =>
      unfold renderF; rw [hs, pickSer_nil, pickSer_nil]
      dsimp only
      rw [if_neg (by simp [ho]), if_neg (by simp [ho]), hu]
      cases hfu : findUnion env U (unionFuncName env ts) with
      | none => rfl
      | some us =>
        dsimp only
        refine seUnion_cls (hf us hfu) (fun d => ?_)
        match n with
        | 0 => rfl
        | n + 1 =>
          rw [seAt_render, seAt_render]; unfold renderF
          have : (cx.inUnion env).sers = [] := hg
          rw [this, pickSer_nil, pickSer_nil]
          exact (ih n (by omega)).2 h _ _ _ _
    | inst hc hcs hf hx =>
      unfold renderF; rw [hs, pickSer_nil, pickSer_nil]; dsimp only
      exact ih2 (.inst (U := U) (d := "") hc hcs hf hx) _ _ _ _
  · intro U d v v' h b re cv sn
    cases h with
    | refl => rfl
    | inst hc hcs hf hx =>
      refine cls_congr hc (fun f hfm hfs => ?_)
      rcases hf f hfm hfs with h | ⟨h1, h2, h3, h4⟩
      · rw [seFieldArg_congr h]
      obtain ⟨x, hlx⟩ := Option.isSome_iff_exists.1 h3
      obtain ⟨x', hlx'⟩ := Option.isSome_iff_exists.1 h4
      · match n with
        | 0 => rfl
        | n + 1 =>
          have e : ∀ {c at' y}, at'.lookup f.name = some y → seFieldArg f (.ok (.inst c at')) = { ty := f.ty, v := .ok y } := by
            intro c at' y hy
            unfold seFieldArg getAttr
            dsimp only
            rw [h1, h2, hy]
          rw [flat_unflat (a := seFieldArg f _) h1, flat_unflat (a := seFieldArg f _) h1, e hlx, e hlx']
          rw [(ih n (by omega)).1 (hx f hfm hfs x x' hlx hlx') _ (by unfold clsSeCx; dsimp only; rw [hg, hcs]; rfl) rfl]

/-- **C10** at any depth: objects that differ only in skipped fields, of the class itself or of dataclasses nested in its
fields, lists, dict values, Optionals, unions and so on, have the same output. A dataclass that is flattened into another class
is excluded; there the property is false (`Findings.Skip.C10_false_flattened`). -/
theorem C10_skipped_never_leave_partial {env : Env} {so : SeOpts} {n U d v v'} (hg : env.gser = []) (hu : NotUnion so.c)
    (h : SkipEq env U (.cls d) v v') :
    toDict env so n v = toDict env so n v' ∧ toTuple env so n v = toTuple env so n v' := by
  cases h with
  | refl => exact ⟨rfl, rfl⟩
  | @inst _ _ c cd attrs attrs' hc hcs hf hx =>
    match n with
    | 0 => exact ⟨rfl, rfl⟩
    | n + 1 =>
      have hg' : ∀ s ∈ env.gser, s.handles (.cls c) = false := by simp [hg]
      rw [toDict_cls hu hg', toDict_cls hu hg', toTuple_cls hu hg', toTuple_cls hu hg']
      have h : SkipEq env U (.cls d) _ _ := .inst hc hcs hf hx
      exact ⟨congrArg wrapAll ((render_skipEq hg n).2 h _ _ _ _), congrArg wrapAll ((render_skipEq hg n).2 h _ _ _ _)⟩

/-- `kids: list[C05ex]`, where `C05ex` has a skipped field `z`. -/
def C10ex : ClassDef := { name := "K", mro := ["K"], fields := [{ name := "kids", ty := .list .list (.cls "A") }] }

example : toDict (Ex.mk [("A", C05ex)]) {} 9 (.inst "A" [("x", .int 1), ("y", .str "s"), ("z", .int 5)]) =
    toDict (Ex.mk [("A", C05ex)]) {} 9 (.inst "A" [("x", .int 1), ("y", .str "s"), ("z", .int 6)]) :=
  (C10_top_level (cd := C05ex) rfl (.inl rfl) ⟨by simp [Ex.mk], by simp [Ex.mk]⟩ (by
    intro f hf hs; simp [C05ex] at hf; rcases hf with rfl | rfl | rfl
    · rfl
    · rfl
    · simp [serializable] at hs)).1

example (i j : Int) : toDict (Ex.mk [("A", C05ex), ("K", C10ex)]) {} 9 (.inst "K" [("kids", .list [.inst "A" [("x", .int 1), ("y", .str "s"), ("z", .int i)]])]) =
    toDict (Ex.mk [("A", C05ex), ("K", C10ex)]) {} 9 (.inst "K" [("kids", .list [.inst "A" [("x", .int 1), ("y", .str "s"), ("z", .int j)]])]) :=
  (C10_skipped_never_leave_partial (U := []) (d := "K") rfl (.inl rfl) (.inst (cd := C10ex) rfl rfl (by
    intro f hf _
    simp [C10ex] at hf
    subst hf
    exact .inr ⟨rfl, rfl, rfl, rfl⟩) (by
    intro f hf _ x x' hx hx'
    simp [C10ex] at hf
    subst hf
    cases hx; cases hx'
    refine .list rfl ?_
    intro p hp
    simp at hp
    subst hp
    refine .inst (cd := C05ex) rfl rfl ?_ ?_
    · intro f hf hs; simp [C05ex] at hf; rcases hf with rfl | rfl | rfl
      · exact .inl rfl
      · exact .inl rfl
      · simp [serializable] at hs
    · intro f hf hs x x' hx hx'; simp [C05ex] at hf; rcases hf with rfl | rfl | rfl
      · cases hx; cases hx'; exact .refl
      · cases hx; cases hx'; exact .refl
      · simp [serializable] at hs))).1

end Verif.Props
