import Verif.Spec.Collect
/-!
# `iter_unions` and `iter_literals` find exactly what is reachable
-/

namespace Verif
open Spec

/-! ## Soundness -/

mutual
theorem unionsIn_sound {env : Env} {into : ClassId → List (List Ty)} (hi : ∀ c us, us ∈ into c → Reach env true (.cls c) (.union us)) :
    ∀ (t : Ty) us, us ∈ unionsIn into t → Reach env true t (.union us) := fun t us h => by
  cases t with
  | union ts =>
    simp only [unionsIn, List.mem_append, List.mem_singleton] at h
    rcases h with (rfl | h) | h
    · exact .refl
    · obtain ⟨s, hs, hr⟩ := unionsInL_sound hi ts us h
      exact .step (.union hs) hr
    · split at h
      · obtain ⟨s, hs, hr⟩ := unionsInHd_sound hi ts us h
        exact .step (.union hs) hr
      · cases h
  | alias nm t => exact .step (.alias rfl) (unionsIn_sound hi t us (by simpa only [unionsIn] using h))
  | cls c => exact hi c us (by simpa only [unionsIn] using h)
  | list k t => exact .step .list (unionsIn_sound hi t us (by simpa only [unionsIn] using h))
  | set k t => exact .step .set (unionsIn_sound hi t us (by simpa only [unionsIn] using h))
  | deque t => exact .step .deque (unionsIn_sound hi t us (by simpa only [unionsIn] using h))
  | counter t => exact .step .counter (unionsIn_sound hi t us (by simpa only [unionsIn] using h))
  | tupleV t => exact .step .tupleV (unionsIn_sound hi t us (by simpa only [unionsIn] using h))
  | tuple ts =>
    obtain ⟨s, hs, hr⟩ := unionsInL_sound hi ts us (by simpa only [unionsIn] using h)
    exact .step (.tuple hs) hr
  | dict k kt vt =>
    simp only [unionsIn, List.mem_append] at h
    rcases h with h | h
    · exact .step .key (unionsIn_sound hi kt us h)
    · exact .step .value (unionsIn_sound hi vt us h)
  | _ => simp [unionsIn] at h
theorem unionsInL_sound {env : Env} {into : ClassId → List (List Ty)} (hi : ∀ c us, us ∈ into c → Reach env true (.cls c) (.union us)) :
    ∀ (ts : List Ty) us, us ∈ unionsInL into ts → ∃ t ∈ ts, Reach env true t (.union us) := fun ts us h => by
  cases ts with
  | nil => simp [unionsInL] at h
  | cons t ts =>
    simp only [unionsInL, List.mem_append] at h
    rcases h with h | h
    · exact ⟨t, by simp, unionsIn_sound hi t us h⟩
    · obtain ⟨s, hs, hr⟩ := unionsInL_sound hi ts us h
      exact ⟨s, by simp [hs], hr⟩
theorem unionsInHd_sound {env : Env} {into : ClassId → List (List Ty)} (hi : ∀ c us, us ∈ into c → Reach env true (.cls c) (.union us)) :
    ∀ (ts : List Ty) us, us ∈ unionsInHd into ts → ∃ t ∈ ts, Reach env true t (.union us) := fun ts us h => by
  cases ts with
  | nil => simp [unionsInHd] at h
  | cons t ts => exact ⟨t, by simp, unionsIn_sound hi t us (by simpa only [unionsInHd] using h)⟩
end

theorem unionsCls_sound {env : Env} : ∀ n stack c us, us ∈ unionsCls env n stack c → Reach env true (.cls c) (.union us)
  | 0, _, _, _, h => by simp [unionsCls] at h
  | n + 1, stack, c, us, h => by
    simp only [unionsCls] at h
    split at h
    · cases h
    · split at h
      · rename_i cd hc
        obtain ⟨t, ht, hr⟩ := unionsInL_sound (fun c us h => unionsCls_sound n _ c us h) _ us h
        unfold ClassDef.walkTypes at ht
        simp only [List.mem_map, List.mem_filter, Bool.not_eq_true'] at ht
        obtain ⟨f, ⟨hf, hs⟩, rfl⟩ := ht
        exact .step (.field hc hf hs) hr
      · cases h

mutual
theorem litsIn_sound {env : Env} {into : ClassId → List (List Val)} (hi : ∀ c us, us ∈ into c → Reach env false (.cls c) (.lit us)) :
    ∀ (t : Ty) us, us ∈ litsIn into t → Reach env false t (.lit us) := fun t us h => by
  cases t with
  | lit vs =>
    simp only [litsIn, List.mem_singleton] at h
    subst h; exact .refl
  | union ts =>
    simp only [litsIn, List.mem_append] at h
    rcases h with h | h
    · obtain ⟨s, hs, hr⟩ := litsInL_sound hi ts us h
      exact .step (.union hs) hr
    · split at h
      · obtain ⟨s, hs, hr⟩ := litsInHd_sound hi ts us h
        exact .step (.union hs) hr
      · cases h
  | cls c => exact hi c us (by simpa only [litsIn] using h)
  | list k t => exact .step .list (litsIn_sound hi t us (by simpa only [litsIn] using h))
  | set k t => exact .step .set (litsIn_sound hi t us (by simpa only [litsIn] using h))
  | deque t => exact .step .deque (litsIn_sound hi t us (by simpa only [litsIn] using h))
  | counter t => exact .step .counter (litsIn_sound hi t us (by simpa only [litsIn] using h))
  | tupleV t => exact .step .tupleV (litsIn_sound hi t us (by simpa only [litsIn] using h))
  | tuple ts =>
    obtain ⟨s, hs, hr⟩ := litsInL_sound hi ts us (by simpa only [litsIn] using h)
    exact .step (.tuple hs) hr
  | dict k kt vt =>
    simp only [litsIn, List.mem_append] at h
    rcases h with h | h
    · exact .step .key (litsIn_sound hi kt us h)
    · exact .step .value (litsIn_sound hi vt us h)
  | _ => simp [litsIn] at h
theorem litsInL_sound {env : Env} {into : ClassId → List (List Val)} (hi : ∀ c us, us ∈ into c → Reach env false (.cls c) (.lit us)) :
    ∀ (ts : List Ty) us, us ∈ litsInL into ts → ∃ t ∈ ts, Reach env false t (.lit us) := fun ts us h => by
  cases ts with
  | nil => simp [litsInL] at h
  | cons t ts =>
    simp only [litsInL, List.mem_append] at h
    rcases h with h | h
    · exact ⟨t, by simp, litsIn_sound hi t us h⟩
    · obtain ⟨s, hs, hr⟩ := litsInL_sound hi ts us h
      exact ⟨s, by simp [hs], hr⟩
theorem litsInHd_sound {env : Env} {into : ClassId → List (List Val)} (hi : ∀ c us, us ∈ into c → Reach env false (.cls c) (.lit us)) :
    ∀ (ts : List Ty) us, us ∈ litsInHd into ts → ∃ t ∈ ts, Reach env false t (.lit us) := fun ts us h => by
  cases ts with
  | nil => simp [litsInHd] at h
  | cons t ts => exact ⟨t, by simp, litsIn_sound hi t us (by simpa only [litsInHd] using h)⟩
end

theorem litsCls_sound {env : Env} : ∀ n stack c us, us ∈ litsCls env n stack c → Reach env false (.cls c) (.lit us)
  | 0, _, _, _, h => by simp [litsCls] at h
  | n + 1, stack, c, us, h => by
    simp only [litsCls] at h
    split at h
    · cases h
    · split at h
      · rename_i cd hc
        obtain ⟨t, ht, hr⟩ := litsInL_sound (fun c us h => litsCls_sound n _ c us h) _ us h
        unfold ClassDef.walkTypes at ht
        simp only [List.mem_map, List.mem_filter, Bool.not_eq_true'] at ht
        obtain ⟨f, ⟨hf, hs⟩, rfl⟩ := ht
        exact .step (.field hc hf hs) hr
      · cases h

/-! ## Completeness -/

/-- Paths that enter none of the classes in `S`. -/
inductive Avoid (env : Env) (al : Bool) (S : List ClassId) : Ty → Ty → Prop
  | refl {t} : Avoid env al S t t
  | step {t s u} : Part env al t s → (∀ c, t = .cls c → c ∉ S) → Avoid env al S s u → Avoid env al S t u

theorem Avoid.of_reach {env : Env} {al t u} (h : Reach env al t u) : Avoid env al [] t u := by
  induction h with
  | refl => exact .refl
  | step hp _ ih => exact .step hp (by simp) ih

/-- A path either avoids `c` as well, or its last visit to `c` continues from one of its fields without returning. -/
theorem Avoid.last {env : Env} {al S t u} (c : ClassId) (h : Avoid env al S t u) :
    Avoid env al (c :: S) t u ∨ ∃ cd f, env.cls c = some cd ∧ f ∈ cd.fields ∧ f.skip = false ∧ Avoid env al (c :: S) f.ty u := by
  induction h with
  | refl => exact .inl .refl
  | @step t s u hp ha _ ih =>
    rcases ih with ih | ih
    · by_cases ht : t = .cls c
      · subst ht
        cases hp with
        | field hc hf hs => exact .inr ⟨_, _, hc, hf, hs, ih⟩
      · refine .inl (.step hp ?_ ih)
        intro d hd
        have := ha d hd
        simp only [List.mem_cons, not_or]
        refine ⟨?_, this⟩
        rintro rfl
        exact ht hd
    · exact .inr ih

/-- Number of classes not in `S`. -/
def freeClasses (env : Env) (S : List ClassId) : Nat := (env.classes.filter (fun p => !S.contains p.1)).length

theorem freeClasses_lt {env : Env} {S c cd} (hc : env.cls c = some cd) (hS : c ∉ S) : freeClasses env (c :: S) < freeClasses env S := by
  unfold freeClasses
  have hm : ∃ p ∈ env.classes, p.1 = c := by
    unfold Env.cls at hc
    generalize env.classes = l at hc
    induction l with
    | nil => cases hc
    | cons a l ih =>
      rw [List.lookup_cons] at hc
      split at hc
      · rename_i h; exact ⟨a, by simp, (eq_of_beq h).symm⟩
      · obtain ⟨p, hp, h⟩ := ih hc
        exact ⟨p, by simp [hp], h⟩
  obtain ⟨p, hp, hpc⟩ := hm
  have hsub : env.classes.filter (fun p => !(c :: S).contains p.1) = (env.classes.filter (fun p => !S.contains p.1)).filter (fun p => p.1 != c) := by
    rw [List.filter_filter]
    refine List.filter_congr fun q _ => ?_
    by_cases hq : q.1 = c <;> simp [hq]
  rw [hsub]
  have hlt : ∀ (l : List (ClassId × ClassDef)), p ∈ l → (l.filter (fun p => p.1 != c)).length < l.length := by
    intro l hl
    rcases Nat.lt_or_ge (l.filter (fun p => p.1 != c)).length l.length with h | h
    · exact h
    · have := (List.length_filter_eq_length_iff.1 (Nat.le_antisymm (List.length_filter_le _ _) h)) p hl
      simp [hpc] at this
  apply hlt
  rw [List.mem_filter]
  refine ⟨hp, ?_⟩
  simp [hpc, hS]

theorem mem_unionsInL {into : ClassId → List (List Ty)} {ts t us} (ht : t ∈ ts) (h : us ∈ unionsIn into t) : us ∈ unionsInL into ts := by
  induction ts with
  | nil => cases ht
  | cons a ts ih =>
    simp only [unionsInL, List.mem_append]
    rcases List.mem_cons.1 ht with rfl | ht
    · exact .inl h
    · exact .inr (ih ht)

theorem mem_litsInL {into : ClassId → List (List Val)} {ts t us} (ht : t ∈ ts) (h : us ∈ litsIn into t) : us ∈ litsInL into ts := by
  induction ts with
  | nil => cases ht
  | cons a ts ih =>
    simp only [litsInL, List.mem_append]
    rcases List.mem_cons.1 ht with rfl | ht
    · exact .inl h
    · exact .inr (ih ht)

theorem mem_walkTypes {cd : ClassDef} {f} (hf : f ∈ cd.fields) (hs : f.skip = false) : f.ty ∈ cd.walkTypes := by
  unfold ClassDef.walkTypes
  simp only [List.mem_map, List.mem_filter, Bool.not_eq_true']
  exact ⟨f, ⟨hf, hs⟩, rfl⟩

theorem unionsIn_complete {env : Env} {S us} {into : ClassId → List (List Ty)}
    (hi : ∀ c, c ∉ S → Avoid env true S (.cls c) (.union us) → us ∈ into c) :
    ∀ {t u}, Avoid env true S t u → u = .union us → us ∈ unionsIn into t := by
  intro t u h
  induction h with
  | refl => rintro rfl; simp [unionsIn]
  | @step t s u hp ha hr ih =>
    intro hu
    have ih' := ih hu
    clear ih
    subst hu
    cases hp with
    | union hs => simp only [unionsIn, List.mem_append]; exact .inl (.inr (mem_unionsInL hs ih'))
    | list => simpa only [unionsIn] using ih'
    | set => simpa only [unionsIn] using ih'
    | deque => simpa only [unionsIn] using ih'
    | counter => simpa only [unionsIn] using ih'
    | tuple hs => simp only [unionsIn]; exact mem_unionsInL hs ih'
    | tupleV => simpa only [unionsIn] using ih'
    | key => simp only [unionsIn, List.mem_append]; exact .inl ih'
    | value => simp only [unionsIn, List.mem_append]; exact .inr ih'
    | alias _ => simpa only [unionsIn] using ih'
    | field hc hf hs =>
      simp only [unionsIn]
      exact hi _ (ha _ rfl) (.step (.field hc hf hs) ha hr)

theorem unionsCls_complete {env : Env} {us} : ∀ n S c, freeClasses env S < n → c ∉ S → Avoid env true S (.cls c) (.union us) →
    us ∈ unionsCls env n S c
  | 0, _, _, h, _, _ => absurd h (Nat.not_lt_zero _)
  | n + 1, S, c, hn, hc, h => by
    have hl := h.last c
    have : ∃ cd f, env.cls c = some cd ∧ f ∈ cd.fields ∧ f.skip = false ∧ Avoid env true (c :: S) f.ty (.union us) := by
      rcases hl with h | h
      · cases h with
        | step hp ha hr => exact absurd (List.mem_cons_self) (ha c rfl)
      · exact h
    obtain ⟨cd, f, hcd, hf, hs, ha⟩ := this
    simp only [unionsCls]
    rw [if_neg (by simpa using hc), hcd]
    have hlt := freeClasses_lt hcd hc
    exact mem_unionsInL (mem_walkTypes hf hs)
      (unionsIn_complete (fun d hd hr => unionsCls_complete n (c :: S) d (by omega) hd hr) ha rfl)

theorem litsIn_complete {env : Env} {S us} {into : ClassId → List (List Val)}
    (hi : ∀ c, c ∉ S → Avoid env false S (.cls c) (.lit us) → us ∈ into c) :
    ∀ {t u}, Avoid env false S t u → u = .lit us → us ∈ litsIn into t := by
  intro t u h
  induction h with
  | refl => rintro rfl; simp [litsIn]
  | @step t s u hp ha hr ih =>
    intro hu
    have ih' := ih hu
    clear ih
    subst hu
    cases hp with
    | union hs => simp only [litsIn, List.mem_append]; exact .inl (mem_litsInL hs ih')
    | list => simpa only [litsIn] using ih'
    | set => simpa only [litsIn] using ih'
    | deque => simpa only [litsIn] using ih'
    | counter => simpa only [litsIn] using ih'
    | tuple hs => simp only [litsIn]; exact mem_litsInL hs ih'
    | tupleV => simpa only [litsIn] using ih'
    | key => simp only [litsIn, List.mem_append]; exact .inl ih'
    | value => simp only [litsIn, List.mem_append]; exact .inr ih'
    | alias h => cases h
    | field hc hf hs =>
      simp only [litsIn]
      exact hi _ (ha _ rfl) (.step (.field hc hf hs) ha hr)

theorem litsCls_complete {env : Env} {us} : ∀ n S c, freeClasses env S < n → c ∉ S → Avoid env false S (.cls c) (.lit us) →
    us ∈ litsCls env n S c
  | 0, _, _, h, _, _ => absurd h (Nat.not_lt_zero _)
  | n + 1, S, c, hn, hc, h => by
    have hl := h.last c
    have : ∃ cd f, env.cls c = some cd ∧ f ∈ cd.fields ∧ f.skip = false ∧ Avoid env false (c :: S) f.ty (.lit us) := by
      rcases hl with h | h
      · cases h with
        | step hp ha hr => exact absurd (List.mem_cons_self) (ha c rfl)
      · exact h
    obtain ⟨cd, f, hcd, hf, hs, ha⟩ := this
    simp only [litsCls]
    rw [if_neg (by simpa using hc), hcd]
    have hlt := freeClasses_lt hcd hc
    exact mem_litsInL (mem_walkTypes hf hs)
      (litsIn_complete (fun d hd hr => litsCls_complete n (c :: S) d (by omega) hd hr) ha rfl)

theorem freeClasses_le {env : Env} {S} : freeClasses env S ≤ env.classes.length := List.length_filter_le _ _

theorem unionsOf_iff {env : Env} {c us} : us ∈ env.unionsOf c ↔ Reach env true (.cls c) (.union us) :=
  ⟨unionsCls_sound _ _ c us, fun h => unionsCls_complete _ _ c (Nat.lt_succ_of_le freeClasses_le) (by simp) (.of_reach h)⟩

theorem litsOf_iff {env : Env} {c vs} : vs ∈ env.litsOf c ↔ Reach env false (.cls c) (.lit vs) :=
  ⟨litsCls_sound _ _ c vs, fun h => litsCls_complete _ _ c (Nat.lt_succ_of_le freeClasses_le) (by simp) (.of_reach h)⟩

/-! ## The bound on the nesting depth is never reached -/

theorem unionsCls_fuel {env : Env} : ∀ n m S, freeClasses env S < n → freeClasses env S < m → unionsCls env n S = unionsCls env m S
  | 0, _, _, h, _ => absurd h (Nat.not_lt_zero _)
  | _ + 1, 0, _, _, h => absurd h (Nat.not_lt_zero _)
  | n + 1, m + 1, S, hn, hm => by
    funext c
    simp only [unionsCls]
    split
    · rfl
    · rename_i hS
      split
      · rename_i cd hc
        have hlt := freeClasses_lt (S := S) hc (by simpa using hS)
        rw [unionsCls_fuel n m (c :: S) (by omega) (by omega)]
      · rfl

theorem litsCls_fuel {env : Env} : ∀ n m S, freeClasses env S < n → freeClasses env S < m → litsCls env n S = litsCls env m S
  | 0, _, _, h, _ => absurd h (Nat.not_lt_zero _)
  | _ + 1, 0, _, _, h => absurd h (Nat.not_lt_zero _)
  | n + 1, m + 1, S, hn, hm => by
    funext c
    simp only [litsCls]
    split
    · rfl
    · rename_i hS
      split
      · rename_i cd hc
        have hlt := freeClasses_lt (S := S) hc (by simpa using hS)
        rw [litsCls_fuel n m (c :: S) (by omega) (by omega)]
      · rfl

/-! ## Looking up a function by name -/

theorem findLit_own {env : Env} {c vs} (hr : Reach env false (.cls c) (.lit vs)) (ho : OwnLitName env c vs) :
    findLit env (env.litsOf c) (litFuncName env vs) = some vs := by
  unfold findLit
  cases h : (env.litsOf c).reverse.find? (fun us => litFuncName env us == litFuncName env vs) with
  | none =>
    rw [List.find?_eq_none] at h
    have := h vs (List.mem_reverse.2 (litsOf_iff.2 hr))
    simp at this
  | some us =>
    have h1 := List.find?_some h
    have h2 := List.mem_reverse.1 (List.mem_of_find?_eq_some h)
    rw [ho us (litsOf_iff.1 h2) (by simpa using h1)]

theorem findUnion_own {env : Env} {c ts} (hr : Reach env true (.cls c) (.union ts)) (ho : OwnUnionName env c ts) :
    findUnion env (env.unionsOf c) (unionFuncName env ts) = some ts := by
  unfold findUnion
  cases h : (env.unionsOf c).reverse.find? (fun us => unionFuncName env us == unionFuncName env ts) with
  | none =>
    rw [List.find?_eq_none] at h
    have := h ts (List.mem_reverse.2 (unionsOf_iff.2 hr))
    simp at this
  | some us =>
    have h1 := List.find?_some h
    have h2 := List.mem_reverse.1 (List.mem_of_find?_eq_some h)
    rw [ho us (unionsOf_iff.1 h2) (by simpa using h1)]

end Verif
