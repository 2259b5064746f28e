import Verif.Props.C82
/-!
# C82: data that is read as an array

Full statement: see C82. Here: data of any kind is read as an array only if it is a block, and then element by element.
-/

namespace Verif.Props
open Verif Verif.Np Verif.Spec.Np

/-- The shape of the data, the number of its elements and where they are. -/
def BlockOf (s : List Nat) (v : Val) : Prop :=
  Block s v ∧ (leaves v).length = size s ∧ ∀ idx, Index s idx → pick v idx = (leaves v)[offset s idx]?

theorem leavesL_block {s : List Nat} : ∀ {xs : List Val}, (∀ x ∈ xs, BlockOf s x) → (leavesL xs).length = xs.length * size s ∧
    ∀ i x j, xs[i]? = some x → j < size s → (leavesL xs)[i * size s + j]? = (leaves x)[j]?
  | [], _ => ⟨by simp [leavesL], fun i x j h => by simp at h⟩
  | y :: xs, h => by
    obtain ⟨h1, h2⟩ := leavesL_block (fun x hx => h x (List.mem_cons_of_mem _ hx))
    have hy := (h y List.mem_cons_self).2.1
    refine ⟨by rw [leavesL, List.length_append, h1, hy, List.length_cons, Nat.succ_mul, Nat.add_comm], ?_⟩
    intro i x j hx hj
    rw [leavesL]
    cases i with
    | zero =>
      cases hx
      rw [Nat.zero_mul, Nat.zero_add, List.getElem?_append_left (by rw [hy]; exact hj)]
    | succ i =>
      rw [List.getElem?_cons_succ] at hx
      rw [← h2 i x j hx hj, List.getElem?_append_right (by rw [hy, Nat.succ_mul]; omega), hy]
      congr 1
      rw [Nat.succ_mul]
      omega

theorem off_lt {s idx : List Nat} (h : Index s idx) : offset s idx < size s := walk_tolist.offset_lt [] [] h

theorem join_block {s : List Nat} {xs : List Val} (h : ∀ x ∈ xs, BlockOf s x) (idx : List Nat) (i : Nat) (hi : i < xs.length) (hx : Index s idx) :
    (match xs[i]? with | some x => pick x idx | none => none) = (leavesL xs)[i * size s + offset s idx]? := by
  rw [List.getElem?_eq_getElem hi]
  dsimp only
  rw [(leavesL_block h).2 i xs[i] _ (List.getElem?_eq_getElem hi) (off_lt hx)]
  exact (h _ (List.getElem_mem hi)).2.2 idx hx

theorem joined {s : List Nat} {xs : List Val} {ss : List (List Nat)} (hl : ss.length = xs.length) (ha : ∀ s', (∀ t ∈ ss, t = s') → ∀ x ∈ xs, BlockOf s' x)
    (h : joinShapes (some ss) = some s) : ∃ s', s = xs.length :: s' ∧ ∀ x ∈ xs, BlockOf s' x := by
  cases ss with
  | nil =>
    cases xs with
    | nil => cases h; exact ⟨[], rfl, by simp⟩
    | cons => cases hl
  | cons t ts =>
    simp only [joinShapes] at h
    split at h
    · rename_i hall
      cases h
      refine ⟨t, by rw [← hl]; rfl, ha t ?_⟩
      intro u hu
      rcases List.mem_cons.1 hu with rfl | hu
      · rfl
      · simpa using List.all_eq_true.1 hall u hu
    · cases h

theorem leaf_block {v : Val} {s : List Nat} (h1 : ∀ xs, v ≠ .list xs) (h2 : ∀ xs, v ≠ .tuple xs) (h : shapeOf v = some s) : BlockOf s v := by
  have hs : shapeOf v = some [] := by
    unfold shapeOf
    split
    · exact absurd rfl (h1 _)
    · exact absurd rfl (h2 _)
    · rfl
  have hlv : leaves v = [v] := by
    unfold leaves
    split
    · exact absurd rfl (h1 _)
    · exact absurd rfl (h2 _)
    · rfl
  rw [hs] at h
  cases h
  refine ⟨?_, by rw [hlv]; rfl, ?_⟩
  · cases v <;> first | trivial | exact absurd rfl (h1 _) | exact absurd rfl (h2 _)
  · intro idx hi
    cases idx with
    | nil => rw [hlv]; cases v <;> rfl
    | cons => cases hi

mutual
theorem shapeOf_block (v : Val) (s : List Nat) (h : shapeOf v = some s) : BlockOf s v := by
  by_cases hl : ∃ xs, v = .list xs
  · obtain ⟨xs, hv⟩ := hl
    have key := shapesOf_block xs
    rw [hv] at h ⊢
    rw [shapeOf] at h
    cases hs : shapesOf xs with
    | none => rw [hs] at h; cases h
    | some ss =>
      rw [hs] at h
      obtain ⟨s', rfl, hb⟩ := joined (key ss hs).1 (key ss hs).2 h
      refine ⟨⟨rfl, fun x hx => (hb x hx).1⟩, by rw [leaves, (leavesL_block hb).1]; rfl, ?_⟩
      intro idx hi
      cases idx with
      | nil => cases hi
      | cons i idx =>
        rw [pick]
        refine Eq.trans (join_block hb idx i hi.1 hi.2) ?_
        rw [leaves]
        simp only [offset, ← size_eq]
  · by_cases ht : ∃ xs, v = .tuple xs
    · obtain ⟨xs, hv⟩ := ht
      have key := shapesOf_block xs
      rw [hv] at h ⊢
      rw [shapeOf] at h
      cases hs : shapesOf xs with
      | none => rw [hs] at h; cases h
      | some ss =>
        rw [hs] at h
        obtain ⟨s', rfl, hb⟩ := joined (key ss hs).1 (key ss hs).2 h
        refine ⟨⟨rfl, fun x hx => (hb x hx).1⟩, by rw [leaves, (leavesL_block hb).1]; rfl, ?_⟩
        intro idx hi
        cases idx with
        | nil => cases hi
        | cons i idx =>
          rw [pick]
          refine Eq.trans (join_block hb idx i hi.1 hi.2) ?_
          rw [leaves]
          simp only [offset, ← size_eq]
    · exact leaf_block (fun xs e => hl ⟨xs, e⟩) (fun xs e => ht ⟨xs, e⟩) h
termination_by sizeOf v
decreasing_by all_goals (rw [hv]; simp)
theorem shapesOf_block (xs : List Val) (ss : List (List Nat)) (h : shapesOf xs = some ss) :
    ss.length = xs.length ∧ ∀ s, (∀ t ∈ ss, t = s) → ∀ x ∈ xs, BlockOf s x := by
  match xs with
  | [] =>
    cases h
    exact ⟨rfl, by simp⟩
  | x :: xs =>
    rw [shapesOf] at h
    have k1 := shapeOf_block x
    have k2 := shapesOf_block xs
    split at h
    · rename_i s0 ss0 h1 h2
      cases h
      obtain ⟨h3, h4⟩ := k2 ss0 h2
      refine ⟨by simp [h3], fun s hs y hy => ?_⟩
      rcases List.mem_cons.1 hy with e | hy
      · rw [← hs s0 List.mem_cons_self, e]
        exact k1 s0 h1
      · exact h4 s (fun t ht => hs t (List.mem_cons_of_mem _ ht)) y hy
    · cases h
termination_by sizeOf xs
decreasing_by all_goals (simp; try omega)
end

theorem mapM_get {α β : Type} {f : α → Except PErr β} : ∀ {l : List α} {ys : List β}, l.mapM f = .ok ys →
    ys.length = l.length ∧ ∀ (i : Nat) x, l[i]? = some x → ∃ y, ys[i]? = some y ∧ f x = .ok y
  | [], ys, h => by
    cases h
    exact ⟨rfl, fun i x h => by simp at h⟩
  | a :: l, ys, h => by
    rw [List.mapM_cons] at h
    cases ha : f a with
    | error e => rw [ha] at h; cases h
    | ok b =>
      rw [ha] at h
      cases hl : l.mapM f with
      | error e => rw [hl] at h; cases h
      | ok bs =>
        rw [hl] at h
        cases h
        obtain ⟨h1, h2⟩ := mapM_get hl
        refine ⟨by simp [h1], fun i x hx => ?_⟩
        cases i with
        | zero => cases hx; exact ⟨b, rfl, ha⟩
        | succ i => exact h2 i x hx

/-- Whatever is read as an array is a block: all parts of a dimension have the same length, else it is rejected. The array has its shape, and at every index
the number at the same indices of the data, converted to the element type. -/
theorem C82_read {N : World} {t : ArrTy} {d : Val} {v : NVal} (h : read N (.arr t) d = .ok v) :
    ∃ a, v = .arr a ∧ Block a.shape d ∧ a.data.length = a.shape.foldr (· * ·) 1 ∧ (∀ dt, t = .typed dt → a.dtype = dt) ∧
      ∀ idx, Index a.shape idx → ∃ x y, pick d idx = some x ∧ a.data[offset a.shape idx]? = some y ∧ conv N a.dtype x = .ok y := by
  have key : ∀ o a, npArray N o d = .ok a → Block a.shape d ∧ a.data.length = a.shape.foldr (· * ·) 1 ∧ (∀ dt, o = some dt → a.dtype = dt) ∧
      ∀ idx, Index a.shape idx → ∃ x y, pick d idx = some x ∧ a.data[offset a.shape idx]? = some y ∧ conv N a.dtype x = .ok y := by
    intro o a ha
    unfold npArray at ha
    split at ha
    · cases ha
    · rename_i s hs
      dsimp only at ha
      split at ha
      · rename_i xs hx
        cases ha
        obtain ⟨h1, h2, h3⟩ := shapeOf_block d s hs
        obtain ⟨h4, h5⟩ := mapM_get hx
        refine ⟨h1, by rw [h4, h2, size_eq], fun dt e => by rw [e]; rfl, fun idx hi => ?_⟩
        have hlt : offset s idx < (leaves d).length := by rw [h2]; exact off_lt hi
        obtain ⟨y, hy, hc⟩ := h5 _ _ (List.getElem?_eq_getElem hlt)
        exact ⟨_, y, by rw [h3 idx hi, List.getElem?_eq_getElem hlt], hy, hc⟩
      · cases ha
  have fin : ∀ o, (match npArray N o d with | .ok a => Except.ok (NVal.arr a) | .error e => .error e) = .ok v → ∃ a, npArray N o d = .ok a ∧ v = .arr a := by
    intro o ho
    cases hn : npArray N o d with
    | error e => rw [hn] at ho; cases ho
    | ok a => rw [hn] at ho; cases ho; exact ⟨a, rfl, rfl⟩
  cases t with
  | bare =>
    obtain ⟨a, h1, rfl⟩ := fin none (by rw [read.eq_def] at h; exact h)
    obtain ⟨k1, k2, -, k4⟩ := key _ a h1
    exact ⟨a, rfl, k1, k2, (fun dt e => by cases e), k4⟩
  | typed dt =>
    obtain ⟨a, h1, rfl⟩ := fin (some dt) (by rw [read.eq_def] at h; exact h)
    obtain ⟨k1, k2, k3, k4⟩ := key _ a h1
    exact ⟨a, rfl, k1, k2, fun dt' e => by cases e; exact k3 dt rfl, k4⟩
  | jax dts =>
    cases dts with
    | nil => rw [read.eq_def] at h; cases h
    | cons x dts =>
      obtain ⟨a, h1, rfl⟩ := fin (ArrTy.jax (x :: dts)).dtype (by rw [read.eq_def] at h; exact h)
      obtain ⟨k1, k2, -, k4⟩ := key _ a h1
      exact ⟨a, rfl, k1, k2, (fun dt e => by cases e), k4⟩

/-! ## Examples -/

/-- Rows of different lengths are no array of any type. -/
example (N : World) (t : ArrTy) (v : NVal) : read N (.arr t) (.list [.list [.int 1, .int 2], .list [.int 3]]) ≠ .ok v := by
  intro h
  obtain ⟨a, -, hb, -⟩ := C82_read h
  match ha : a.shape with
  | [] => rw [ha] at hb; exact hb
  | [n] => rw [ha] at hb; exact hb.2 _ List.mem_cons_self
  | [n, m] =>
    rw [ha] at hb
    have h1 := (hb.2 _ List.mem_cons_self).1
    have h2 := (hb.2 _ (List.mem_cons_of_mem _ List.mem_cons_self)).1
    simp at h1 h2
    omega
  | n :: m :: k :: s =>
    rw [ha] at hb
    exact (hb.2 _ List.mem_cons_self).2 _ List.mem_cons_self

/-- A tuple of lists is read, and the hypothesis of `C82_read` is met. -/
example (N : World) : read N (.arr (.typed (.int true 16))) (.tuple [.list [.int 1, .int 2], .list [.int 3, .bool true]]) =
    .ok (.arr { dtype := .int true 16, shape := [2, 2], data := [.int 1, .int 2, .int 3, .int 1] }) := rfl

end Verif.Props
