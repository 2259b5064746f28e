import Verif.Model.De
/-!
# Helper lemmas: results, `mapR`, "eventually" over fuel
-/

namespace Verif

/-! ## mapR -/

theorem mapR_nil {α β : Type} (f : α → Res β) : mapR f [] = .ok [] := rfl

theorem mapR_cons_ok {α β : Type} {f : α → Res β} {a as b bs} (h : f a = .ok b) (hs : mapR f as = .ok bs) :
    mapR f (a :: as) = .ok (b :: bs) := by simp [mapR, h, hs]

theorem mapR_map {α β : Type} {f : α → Res β} {g : α → β} {as : List α} (h : ∀ a ∈ as, f a = .ok (g a)) :
    mapR f as = .ok (as.map g) := by
  induction as with
  | nil => rfl
  | cons a as ih =>
    exact mapR_cons_ok (h a (by simp)) (ih (fun x hx => h x (by simp [hx])))

theorem mapR_ok_length {α β : Type} {f : α → Res β} {as : List α} {bs} (h : mapR f as = .ok bs) : bs.length = as.length := by
  induction as generalizing bs with
  | nil => simp [mapR] at h; simp [← h]
  | cons a as ih =>
    unfold mapR at h
    split at h
    · cases h
    · split at h
      · cases h
      · rename_i hh; cases h; simp [ih hh]

theorem mapR_ok_get {α β : Type} {f : α → Res β} {as : List α} {bs} (h : mapR f as = .ok bs) :
    ∀ p ∈ as.zip bs, f p.1 = .ok p.2 := by
  induction as generalizing bs with
  | nil => simp
  | cons a as ih =>
    unfold mapR at h
    split at h
    · cases h
    · rename_i b hb
      split at h
      · cases h
      · rename_i bs' hh
        cases h
        intro p hp
        rw [List.zip_cons_cons, List.mem_cons] at hp
        rcases hp with rfl | hp
        · exact hb
        · exact ih hh p hp

theorem mapR_zip {α β : Type} {f : α → Res β} {as : List α} {bs : List β} (hl : as.length = bs.length)
    (h : ∀ p ∈ as.zip bs, f p.1 = .ok p.2) : mapR f as = .ok bs := by
  induction as generalizing bs with
  | nil => cases bs with
    | nil => rfl
    | cons => simp at hl
  | cons a as ih => cases bs with
    | nil => simp at hl
    | cons b bs =>
      refine mapR_cons_ok (h (a, b) (by simp)) (ih (by simpa using hl) (fun p hp => h p ?_))
      simp [hp]

theorem mapR_congr {α β : Type} {f g : α → Res β} {as : List α} (h : ∀ a ∈ as, f a = g a) : mapR f as = mapR g as := by
  induction as with
  | nil => rfl
  | cons a as ih =>
    simp only [mapR]
    rw [h a (by simp), ih (fun x hx => h x (by simp [hx]))]

theorem mapR_error {α β : Type} {f : α → Res β} {as : List α} {e} (h : mapR f as = .error e) :
    ∃ a ∈ as, f a = .error e := by
  induction as with
  | nil => simp [mapR] at h
  | cons a as ih =>
    unfold mapR at h
    split at h
    · rename_i e' he; cases h; exact ⟨a, by simp, he⟩
    · split at h
      · rename_i e' he; cases h
        obtain ⟨x, hx, hxe⟩ := ih he
        exact ⟨x, by simp [hx], hxe⟩
      · cases h

theorem concatR_error {α β : Type} {f : α → Res (List β)} {as : List α} {e} (h : concatR f as = .error e) :
    ∃ a ∈ as, f a = .error e := by
  induction as with
  | nil => simp [concatR] at h
  | cons a as ih =>
    unfold concatR at h
    split at h
    · rename_i e' he; cases h; exact ⟨a, by simp, he⟩
    · split at h
      · rename_i e' he; cases h
        obtain ⟨x, hx, hxe⟩ := ih he
        exact ⟨x, by simp [hx], hxe⟩
      · cases h

theorem concatR_congr {α β : Type} {f g : α → Res (List β)} {as : List α} (h : ∀ a ∈ as, f a = g a) :
    concatR f as = concatR g as := by
  induction as with
  | nil => rfl
  | cons a as ih =>
    simp only [concatR]
    rw [h a (by simp), ih (fun x hx => h x (by simp [hx]))]

/-! ## Eventually (for all large enough fuel) -/

/-- `P n` holds for every large enough `n`. -/
def Ev (P : Nat → Prop) : Prop := ∃ N, ∀ n, N ≤ n → P n

theorem Ev.of_all {P : Nat → Prop} (h : ∀ n, P n) : Ev P := ⟨0, fun n _ => h n⟩

theorem Ev.mono {P Q : Nat → Prop} (h : Ev P) (hpq : ∀ n, P n → Q n) : Ev Q := by
  obtain ⟨N, hN⟩ := h
  exact ⟨N, fun n hn => hpq n (hN n hn)⟩

theorem Ev.and {P Q : Nat → Prop} (h : Ev P) (h' : Ev Q) : Ev (fun n => P n ∧ Q n) := by
  obtain ⟨N, hN⟩ := h
  obtain ⟨M, hM⟩ := h'
  exact ⟨max N M, fun n hn => ⟨hN n (by omega), hM n (by omega)⟩⟩

/-- If `P n` gives `Q (n+1)`, eventually `P` gives eventually `Q`. -/
theorem Ev.step {P Q : Nat → Prop} (h : Ev P) (hpq : ∀ n, P n → Q (n + 1)) : Ev Q := by
  obtain ⟨N, hN⟩ := h
  refine ⟨N + 1, fun n hn => ?_⟩
  cases n with
  | zero => omega
  | succ n => exact hpq n (hN n (by omega))

theorem Ev.list {α : Type} {P : α → Nat → Prop} {xs : List α} (h : ∀ x ∈ xs, Ev (P x)) : Ev (fun n => ∀ x ∈ xs, P x n) := by
  induction xs with
  | nil => exact Ev.of_all (fun n x hx => by simp at hx)
  | cons a as ih =>
    refine ((h a (by simp)).and (ih (fun x hx => h x (by simp [hx])))).mono ?_
    intro n hn x hx
    rcases List.mem_cons.1 hx with rfl | hx
    · exact hn.1
    · exact hn.2 x hx

theorem Ev.pos : Ev (fun n => ∃ m, n = m + 1) := ⟨1, fun n hn => ⟨n - 1, by omega⟩⟩

theorem Ev.exists {P : Nat → Prop} (h : Ev P) : ∃ n, P n := by
  obtain ⟨N, hN⟩ := h
  exact ⟨N, hN N (by omega)⟩

/-! ## Unfolding one level -/

theorem seAt_render (env n cx a) : (seAt env (n + 1)).render cx a = renderF env (seAt env n) cx a := rfl
theorem seAt_flat (env n cx a) : (seAt env (n + 1)).flat cx a = flatF env (seAt env n) cx a := rfl
theorem seAt_cls (env n b r c s v) : (seAt env (n + 1)).cls b r c s v = clsF env (seAt env n) b r c s v := rfl
theorem seAt_toObj (env n b r c s t g v) :
    (seAt env (n + 1)).toObj b r c s t g v = toObjF env (seAt env n) b r c s t g v := rfl
theorem deAt_render (env n cx a) : (deAt env (n + 1)).render cx a = deRenderF env (deAt env n) cx a := rfl
theorem deAt_cls (env n b c o v) : (deAt env (n + 1)).cls b c o v = deClsF env (deAt env n) b c o v := rfl
theorem deAt_fromObj (env n b r m g c v) :
    (deAt env (n + 1)).fromObj b r m g c v = fromObjF env (deAt env n) b r m g c v := rfl

end Verif
