import Verif.Lemmas.Collect
/-!
# `iter_types` terminates and finds exactly what is reachable
-/

namespace Verif
open Spec

/-- Paths that enter no class. -/
inductive Shallow (env : Env) : Ty → Ty → Prop
  | refl {t} : Shallow env t t
  | step {t s u} : Part env true t s → (∀ c, t ≠ .cls c) → Shallow env s u → Shallow env t u

/-- Everything in the annotation up to the next classes is in the set. -/
def Cov (env : Env) (R : List TypeItem) (t : Ty) : Prop := ∀ u i, Shallow env t u → itemOf u = some i → i ∈ R

/-- The fields of the class are covered. -/
def ClosedAt (env : Env) (R : List TypeItem) (c : ClassId) : Prop :=
  ∀ cd f, env.cls c = some cd → f ∈ cd.fields → f.skip = false → Cov env R f.ty

structure Good (env : Env) (l : List TypeItem) (R : List TypeItem) : Prop where
  sub : l ⊆ R
  closed : ∀ d, .cls d ∈ R → .cls d ∈ l ∨ ClosedAt env R d

theorem Cov.mono {env : Env} {R R' t} (h : Cov env R t) (hs : R ⊆ R') : Cov env R' t := fun u i hu hi => hs (h u i hu hi)

theorem Good.trans {env : Env} {l R R'} (h : Good env l R) (h' : Good env R R') : Good env l R' := by
  refine ⟨fun _ hx => h'.sub (h.sub hx), fun d hd => ?_⟩
  rcases h'.closed d hd with hd | hd
  · rcases h.closed d hd with hd | hd
    · exact .inl hd
    · exact .inr fun cd f hc hf hs => (hd cd f hc hf hs).mono h'.sub
  · exact .inr hd

theorem Good.head {env : Env} {s l} : Good env l (.head s :: l) :=
  ⟨fun _ h => List.mem_cons_of_mem _ h, fun d hd => by
    rcases List.mem_cons.1 hd with h | h
    · cases h
    · exact .inl h⟩

theorem Good.leaf {env : Env} {t l} : Good env l (.leaf t :: l) :=
  ⟨fun _ h => List.mem_cons_of_mem _ h, fun d hd => by
    rcases List.mem_cons.1 hd with h | h
    · cases h
    · exact .inl h⟩

/-- Cover an annotation that is not a class from its own item and its parts. -/
theorem Cov.of_parts {env : Env} {R t} (hi : ∀ i, itemOf t = some i → i ∈ R) (hp : ∀ s, Part env true t s → Cov env R s) : Cov env R t := by
  intro u i hu hui
  cases hu with
  | refl => exact hi i hui
  | step h _ h' => exact hp _ h u i h' hui

theorem Cov.cls {env : Env} {R c} (hi : ∀ i, itemOf (.cls c) = some i → i ∈ R) : Cov env R (.cls c) := by
  intro u i hu hui
  cases hu with
  | refl => exact hi i hui
  | step h hn h' => exact absurd rfl (hn c)

theorem Cov.none {env : Env} {R} : Cov env R .none := Cov.of_parts (by intro i h; simp [itemOf] at h) (by intro s h; cases h)

theorem isOpt_cases {ts : List Ty} (h : (Ty.union ts).isOpt = true) : ∃ t, ts = [t, .none] := by
  unfold Ty.isOpt at h
  split at h
  · rename_i heq; cases heq; exact ⟨_, rfl⟩
  · cases h

section
variable {env : Env} {into : ClassId → List TypeItem → Option (List TypeItem)}
  (hi : ∀ c l R, into c l = some R → Good env l R ∧ Cov env R (.cls c))
include hi

mutual
theorem typesIn_good : ∀ (t : Ty) l R, typesIn into t l = some R → Good env l R ∧ Cov env R t := fun t l R h => by
  cases t with
  | cls c => exact hi c l R (by simpa only [typesIn] using h)
  | union ts =>
    simp only [typesIn] at h
    split at h
    · rename_i ho
      obtain ⟨t, rfl⟩ := isOpt_cases ho
      simp only [typesInHd] at h
      obtain ⟨hg, hc⟩ := typesIn_good t _ R h
      refine ⟨Good.head.trans hg, Cov.of_parts ?_ ?_⟩
      · intro i hi; simp only [itemOf, ho, if_true, Option.some.injEq] at hi; subst hi; exact hg.sub (by simp)
      · intro s hp
        cases hp with
        | union hs =>
          simp only [List.mem_cons, List.not_mem_nil, or_false] at hs
          rcases hs with rfl | rfl
          · exact hc
          · exact .none
    · rename_i ho
      obtain ⟨hg, hc⟩ := typesInL_good ts _ R h
      refine ⟨Good.head.trans hg, Cov.of_parts ?_ ?_⟩
      · intro i hi
        have : (Ty.union ts).isOpt = false := by simpa using ho
        simp only [itemOf, this, Bool.false_eq_true, if_false, Option.some.injEq] at hi; subst hi; exact hg.sub (by simp)
      · intro s hp
        cases hp with
        | union hs => exact hc s hs
  | list k t =>
    obtain ⟨hg, hc⟩ := typesIn_good t _ R (by simpa only [typesIn] using h)
    refine ⟨Good.head.trans hg, Cov.of_parts ?_ ?_⟩
    · intro i hi; simp only [itemOf, Option.some.injEq] at hi; subst hi; exact hg.sub (by simp)
    · intro s hp; cases hp; exact hc
  | set k t =>
    obtain ⟨hg, hc⟩ := typesIn_good t _ R (by simpa only [typesIn] using h)
    refine ⟨Good.head.trans hg, Cov.of_parts ?_ ?_⟩
    · intro i hi; simp only [itemOf, Option.some.injEq] at hi; subst hi; exact hg.sub (by simp)
    · intro s hp; cases hp; exact hc
  | deque t =>
    obtain ⟨hg, hc⟩ := typesIn_good t _ R (by simpa only [typesIn] using h)
    refine ⟨Good.head.trans hg, Cov.of_parts ?_ ?_⟩
    · intro i hi; simp only [itemOf, Option.some.injEq] at hi; subst hi; exact hg.sub (by simp)
    · intro s hp; cases hp; exact hc
  | counter t =>
    obtain ⟨hg, hc⟩ := typesIn_good t _ R (by simpa only [typesIn] using h)
    refine ⟨Good.head.trans hg, Cov.of_parts ?_ ?_⟩
    · intro i hi; simp only [itemOf, Option.some.injEq] at hi; subst hi; exact hg.sub (by simp)
    · intro s hp; cases hp; exact hc
  | tupleV t =>
    obtain ⟨hg, hc⟩ := typesIn_good t _ R (by simpa only [typesIn] using h)
    refine ⟨Good.head.trans hg, Cov.of_parts ?_ ?_⟩
    · intro i hi; simp only [itemOf, Option.some.injEq] at hi; subst hi; exact hg.sub (by simp)
    · intro s hp; cases hp; exact hc
  | tuple ts =>
    obtain ⟨hg, hc⟩ := typesInL_good ts _ R (by simpa only [typesIn] using h)
    refine ⟨Good.head.trans hg, Cov.of_parts ?_ ?_⟩
    · intro i hi; simp only [itemOf, Option.some.injEq] at hi; subst hi; exact hg.sub (by simp)
    · intro s hp
      cases hp with
      | tuple hs => exact hc s hs
  | dict k kt vt =>
    simp only [typesIn] at h
    split at h
    · rename_i R1 h1
      obtain ⟨hg1, hc1⟩ := typesIn_good kt _ R1 h1
      obtain ⟨hg2, hc2⟩ := typesIn_good vt _ R h
      refine ⟨(Good.head.trans hg1).trans hg2, Cov.of_parts ?_ ?_⟩
      · intro i hi; simp only [itemOf, Option.some.injEq] at hi; subst hi; exact hg2.sub (hg1.sub (by simp))
      · intro s hp
        cases hp with
        | key => exact hc1.mono hg2.sub
        | value => exact hc2
    · cases h
  | alias nm t =>
    obtain ⟨hg, hc⟩ := typesIn_good t _ R (by simpa only [typesIn] using h)
    refine ⟨hg, Cov.of_parts ?_ ?_⟩
    · intro i hi; simp [itemOf] at hi
    · intro s hp
      cases hp with
      | alias _ => exact hc
  | none =>
    simp only [typesIn, Option.some.injEq] at h
    subst h
    exact ⟨.leaf, .none⟩
  | listB | setB | dequeB | counterB | tupleB | dictB =>
    simp only [typesIn, Option.some.injEq] at h
    subst h
    refine ⟨.head, Cov.of_parts ?_ (by intro s hp; cases hp)⟩
    intro i hi; simp only [itemOf, Option.some.injEq] at hi; subst hi; simp
  | _ =>
    simp only [typesIn, Option.some.injEq] at h
    subst h
    refine ⟨.leaf, Cov.of_parts ?_ (by intro s hp; cases hp)⟩
    intro i hi; simp only [itemOf, Option.some.injEq] at hi; subst hi; simp
theorem typesInL_good : ∀ (ts : List Ty) l R, typesInL into ts l = some R → Good env l R ∧ ∀ t ∈ ts, Cov env R t := fun ts l R h => by
  cases ts with
  | nil =>
    simp only [typesInL, Option.some.injEq] at h
    subst h
    exact ⟨⟨fun _ h => h, fun _ h => .inl h⟩, by simp⟩
  | cons t ts =>
    simp only [typesInL] at h
    split at h
    · rename_i R1 h1
      obtain ⟨hg1, hc1⟩ := typesIn_good t _ R1 h1
      obtain ⟨hg2, hc2⟩ := typesInL_good ts _ R h
      refine ⟨hg1.trans hg2, fun s hs => ?_⟩
      rcases List.mem_cons.1 hs with rfl | hs
      · exact hc1.mono hg2.sub
      · exact hc2 s hs
    · cases h
end
end

theorem any_isCls {c} {l : List TypeItem} : l.any (TypeItem.isCls c) = true ↔ TypeItem.cls c ∈ l := by
  rw [List.any_eq_true]
  constructor
  · rintro ⟨x, hx, h⟩
    cases x with
    | cls d =>
      have : d = c := by simpa [TypeItem.isCls] using h
      subst this; exact hx
    | head s => simp [TypeItem.isCls] at h
    | leaf t => simp [TypeItem.isCls] at h
  · intro h; exact ⟨_, h, by simp [TypeItem.isCls]⟩

theorem Cov.cls_mem {env : Env} {R c} (h : TypeItem.cls c ∈ R) : Cov env R (.cls c) :=
  Cov.cls (by intro i hi; simp only [itemOf, Option.some.injEq] at hi; subst hi; exact h)

theorem Good.refl {env : Env} {l} : Good env l l := ⟨fun _ h => h, fun _ h => .inl h⟩

theorem typesCls_good {env : Env} : ∀ n c l R, typesCls env n c l = some R → Good env l R ∧ Cov env R (.cls c)
  | 0, c, l, R, h => by
    simp only [typesCls] at h
    split at h
    · rename_i hc
      cases h
      exact ⟨.refl, .cls_mem (any_isCls.1 hc)⟩
    · cases h
  | n + 1, c, l, R, h => by
    simp only [typesCls] at h
    split at h
    · rename_i hc
      cases h
      exact ⟨.refl, .cls_mem (any_isCls.1 hc)⟩
    · split at h
      · rename_i cd hcd
        obtain ⟨hg, hcv⟩ := typesInL_good (typesCls_good n) _ _ R h
        refine ⟨⟨fun _ hx => hg.sub (List.mem_cons_of_mem _ hx), fun d hd => ?_⟩, .cls_mem (hg.sub (by simp))⟩
        rcases hg.closed d hd with hd | hd
        · rcases List.mem_cons.1 hd with hd | hd
          · cases hd
            refine .inr fun cd' f hc hf hs => ?_
            rw [hcd] at hc; cases hc
            exact hcv _ (mem_walkTypes hf hs)
          · exact .inl hd
        · exact .inr hd
      · rename_i hcd
        cases h
        refine ⟨⟨fun _ hx => List.mem_cons_of_mem _ hx, fun d hd => ?_⟩, .cls_mem (by simp)⟩
        rcases List.mem_cons.1 hd with hd | hd
        · cases hd
          exact .inr fun cd' f hc hf hs => by rw [hcd] at hc; cases hc
        · exact .inl hd

/-- In a closed set everything reachable is present. -/
theorem reach_closed {env : Env} {R} (hcl : ∀ d, TypeItem.cls d ∈ R → ClosedAt env R d) {t u} (hr : Reach env true t u) (ht : Cov env R t) :
    Cov env R u := by
  induction hr with
  | refl => exact ht
  | @step t s u hp _ ih =>
    apply ih
    by_cases hc : ∃ c, t = .cls c
    · obtain ⟨c, rfl⟩ := hc
      cases hp with
      | field hcd hf hs => exact hcl c (ht _ _ .refl rfl) _ _ hcd hf hs
    · exact fun v i hv hi => ht v i (.step hp (fun c h => hc ⟨c, h⟩) hv) hi

/-! ## Soundness -/

/-- Every item comes from something reachable from `t`, or was there before. -/
def Sound (env : Env) (l : List TypeItem) (t : Ty) (R : List TypeItem) : Prop :=
  ∀ i ∈ R, i ∈ l ∨ ∃ u, Reach env true t u ∧ (itemOf u = some i ∨ (u = .none ∧ i = .leaf .none))

theorem Sound.of_part {env : Env} {l t s R} (hp : Part env true t s) (h : Sound env l s R) : Sound env l t R := fun i hi =>
  (h i hi).imp id fun ⟨u, hu, h⟩ => ⟨u, .step hp hu, h⟩

theorem Sound.trans {env : Env} {l R R' t} (h : Sound env l t R) (h' : Sound env R t R') : Sound env l t R' := fun i hi => by
  rcases h' i hi with hi | hi
  · exact h i hi
  · exact .inr hi

theorem Sound.here {env : Env} {l t i} (h : itemOf t = some i) : Sound env l t (i :: l) := fun j hj => by
  rcases List.mem_cons.1 hj with rfl | hj
  · exact .inr ⟨t, .refl, .inl h⟩
  · exact .inl hj

section
variable {env : Env} {into : ClassId → List TypeItem → Option (List TypeItem)}
  (hi : ∀ c l R, into c l = some R → Sound env l (.cls c) R)
include hi

mutual
theorem typesIn_sound : ∀ (t : Ty) l R, typesIn into t l = some R → Sound env l t R := fun t l R h => by
  cases t with
  | cls c => exact hi c l R (by simpa only [typesIn] using h)
  | union ts =>
    simp only [typesIn] at h
    split at h
    · rename_i ho
      obtain ⟨t, rfl⟩ := isOpt_cases ho
      simp only [typesInHd] at h
      exact (Sound.here (by simp [itemOf, ho])).trans (.of_part (.union (by simp)) (typesIn_sound t _ R h))
    · rename_i ho
      refine (Sound.here (by simp [itemOf, ho])).trans (typesInL_sound ts _ _ R (fun s hs => .union hs) h)
  | list k t => exact (Sound.here rfl).trans (.of_part .list (typesIn_sound t _ R (by simpa only [typesIn] using h)))
  | set k t => exact (Sound.here rfl).trans (.of_part .set (typesIn_sound t _ R (by simpa only [typesIn] using h)))
  | deque t => exact (Sound.here rfl).trans (.of_part .deque (typesIn_sound t _ R (by simpa only [typesIn] using h)))
  | counter t => exact (Sound.here rfl).trans (.of_part .counter (typesIn_sound t _ R (by simpa only [typesIn] using h)))
  | tupleV t => exact (Sound.here rfl).trans (.of_part .tupleV (typesIn_sound t _ R (by simpa only [typesIn] using h)))
  | tuple ts =>
    exact (Sound.here rfl).trans (typesInL_sound ts _ _ R (fun s hs => .tuple hs) (by simpa only [typesIn] using h))
  | dict k kt vt =>
    simp only [typesIn] at h
    split at h
    · rename_i R1 h1
      exact ((Sound.here rfl).trans (.of_part .key (typesIn_sound kt _ R1 h1))).trans (.of_part .value (typesIn_sound vt _ R h))
    · cases h
  | alias nm t => exact .of_part (.alias rfl) (typesIn_sound t _ R (by simpa only [typesIn] using h))
  | none =>
    simp only [typesIn, Option.some.injEq] at h
    subst h
    intro j hj
    rcases List.mem_cons.1 hj with rfl | hj
    · exact .inr ⟨.none, .refl, .inr ⟨rfl, rfl⟩⟩
    · exact .inl hj
  | _ =>
    simp only [typesIn, Option.some.injEq] at h
    subst h
    exact .here rfl
theorem typesInL_sound : ∀ (ts : List Ty) (t : Ty) l R, (∀ s ∈ ts, Part env true t s) → typesInL into ts l = some R → Sound env l t R :=
  fun ts t l R hp h => by
  cases ts with
  | nil =>
    simp only [typesInL, Option.some.injEq] at h
    subst h
    exact fun _ h => .inl h
  | cons s ts =>
    simp only [typesInL] at h
    split at h
    · rename_i R1 h1
      exact (Sound.of_part (hp s (by simp)) (typesIn_sound s _ R1 h1)).trans
        (typesInL_sound ts t _ R (fun x hx => hp x (by simp [hx])) h)
    · cases h
end
end

theorem typesCls_sound {env : Env} : ∀ n c l R, typesCls env n c l = some R → Sound env l (.cls c) R
  | 0, c, l, R, h => by
    simp only [typesCls] at h
    split at h
    · cases h; exact fun _ h => .inl h
    · cases h
  | n + 1, c, l, R, h => by
    simp only [typesCls] at h
    split at h
    · cases h; exact fun _ h => .inl h
    · split at h
      · rename_i cd hcd
        refine (Sound.here rfl).trans (typesInL_sound (typesCls_sound n) _ _ _ R (fun s hs => ?_) h)
        unfold ClassDef.walkTypes at hs
        simp only [List.mem_map, List.mem_filter, Bool.not_eq_true'] at hs
        obtain ⟨f, ⟨hf, hs⟩, rfl⟩ := hs
        exact .field hcd hf hs
      · cases h; exact .here rfl

/-! ## Termination -/

/-- The classes in the set. -/
def clsIds (l : List TypeItem) : List ClassId := l.filterMap (fun i => match i with
  | .cls c => some c
  | _ => none)

theorem mem_clsIds {l c} : c ∈ clsIds l ↔ TypeItem.cls c ∈ l := by
  unfold clsIds
  rw [List.mem_filterMap]
  constructor
  · rintro ⟨i, hi, h⟩
    cases i <;> simp at h
    subst h; exact hi
  · intro h; exact ⟨_, h, rfl⟩

theorem freeClasses_mono {env : Env} {S T : List ClassId} (h : S ⊆ T) : freeClasses env T ≤ freeClasses env S := by
  unfold freeClasses
  apply List.Sublist.length_le
  have : env.classes.filter (fun p => !T.contains p.1) = (env.classes.filter (fun p => !S.contains p.1)).filter (fun p => !T.contains p.1) := by
    rw [List.filter_filter]
    refine List.filter_congr fun q _ => ?_
    by_cases hq : q.1 ∈ T
    · simp [hq]
    · have : q.1 ∉ S := fun h' => hq (h h')
      simp [hq, this]
  rw [this]
  exact List.filter_sublist

section
variable {env : Env} {n : Nat} {into : ClassId → List TypeItem → Option (List TypeItem)}
  (hg : ∀ c l R, into c l = some R → Good env l R ∧ Cov env R (.cls c))
  (hi : ∀ c l, freeClasses env (clsIds l) < n → ∃ R, into c l = some R)
include hg hi

mutual
theorem typesIn_total : ∀ (t : Ty) l, freeClasses env (clsIds l) < n → ∃ R, typesIn into t l = some R := fun t l h => by
  have hh : ∀ s, freeClasses env (clsIds (.head s :: l)) < n := fun s => h
  cases t with
  | cls c => simpa only [typesIn] using hi c l h
  | union ts =>
    simp only [typesIn]
    split
    · rename_i ho
      obtain ⟨t, rfl⟩ := isOpt_cases ho
      simp only [typesInHd]
      exact typesIn_total t _ (hh _)
    · exact typesInL_total ts _ (hh _)
  | list k t => simpa only [typesIn] using typesIn_total t _ (hh _)
  | set k t => simpa only [typesIn] using typesIn_total t _ (hh _)
  | deque t => simpa only [typesIn] using typesIn_total t _ (hh _)
  | counter t => simpa only [typesIn] using typesIn_total t _ (hh _)
  | tupleV t => simpa only [typesIn] using typesIn_total t _ (hh _)
  | tuple ts => simpa only [typesIn] using typesInL_total ts _ (hh _)
  | dict k kt vt =>
    simp only [typesIn]
    obtain ⟨R1, h1⟩ := typesIn_total kt _ (hh "dict")
    rw [h1]
    have hs := (typesIn_good hg kt _ _ h1).1.sub
    refine typesIn_total vt R1 (Nat.lt_of_le_of_lt (freeClasses_mono fun c hc => ?_) (hh "dict"))
    exact mem_clsIds.2 (hs (mem_clsIds.1 hc))
  | alias nm t => simpa only [typesIn] using typesIn_total t _ h
  | _ => simp only [typesIn]; exact ⟨_, rfl⟩
theorem typesInL_total : ∀ (ts : List Ty) l, freeClasses env (clsIds l) < n → ∃ R, typesInL into ts l = some R := fun ts l h => by
  cases ts with
  | nil => simp only [typesInL]; exact ⟨_, rfl⟩
  | cons t ts =>
    simp only [typesInL]
    obtain ⟨R1, h1⟩ := typesIn_total t _ h
    rw [h1]
    have hs := (typesIn_good hg t _ _ h1).1.sub
    refine typesInL_total ts R1 (Nat.lt_of_le_of_lt (freeClasses_mono fun c hc => ?_) h)
    exact mem_clsIds.2 (hs (mem_clsIds.1 hc))
end
end

theorem typesCls_total {env : Env} : ∀ n c l, freeClasses env (clsIds l) < n → ∃ R, typesCls env n c l = some R
  | 0, _, _, h => absurd h (Nat.not_lt_zero _)
  | n + 1, c, l, h => by
    simp only [typesCls]
    split
    · exact ⟨_, rfl⟩
    · rename_i hc
      split
      · rename_i cd hcd
        have : c ∉ clsIds l := fun h' => hc (any_isCls.2 (mem_clsIds.1 h'))
        have hlt := freeClasses_lt hcd this
        have heq : clsIds (.cls c :: l) = c :: clsIds l := rfl
        exact typesInL_total (n := n) (typesCls_good n) (typesCls_total n) _ _ (by rw [heq]; omega)
      · exact ⟨_, rfl⟩

end Verif
