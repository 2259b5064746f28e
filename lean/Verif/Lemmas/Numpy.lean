import Verif.Spec.Numpy
/-!
# Lemmas about arrays
-/

namespace Verif.Np
open Verif Verif.Spec.Np

theorem size_eq (s : List Nat) : size s = s.foldr (· * ·) 1 := by
  induction s with
  | nil => rfl
  | cons n s ih => rw [size, ih, List.foldr_cons]

/-- The shape up to the first zero. -/
def cut : List Nat → List Nat
  | [] => []
  | 0 :: _ => [0]
  | (n + 1) :: s => (n + 1) :: cut s

theorem cut_split : ∀ s, ∃ post, s = cut s ++ post ∧ (post ≠ [] → (cut s).getLast? = some 0)
  | [] => ⟨[], rfl, fun h => absurd rfl h⟩
  | 0 :: s => ⟨s, rfl, fun _ => rfl⟩
  | (n + 1) :: s => by
    obtain ⟨post, h1, h2⟩ := cut_split s
    refine ⟨post, by rw [cut, List.cons_append, ← h1], fun h => ?_⟩
    rw [cut, List.getLast?_cons, h2 h]
    rfl

theorem cut_zeroLast : ∀ s, ZeroLast (cut s)
  | [], pre, post, h => by simp [cut] at h
  | 0 :: s, pre, post, h => by
    cases pre with
    | nil => simp [cut] at h; exact h
    | cons x pre => simp [cut] at h
  | (n + 1) :: s, pre, post, h => by
    cases pre with
    | nil => simp [cut] at h
    | cons x pre =>
      simp only [cut, List.cons_append, List.cons.injEq] at h
      exact cut_zeroLast s pre post h.2

theorem cut_of_zeroLast : ∀ {s}, ZeroLast s → cut s = s
  | [], _ => rfl
  | 0 :: s, h => by rw [h [] s rfl]; rfl
  | (n + 1) :: s, h => by
    rw [cut, cut_of_zeroLast fun pre post e => h ((n + 1) :: pre) post (by rw [e]; rfl)]

/-- An object that is no list. -/
def Leaf (v : Val) : Prop := shapeOf v = some [] ∧ leaves v = [v]

theorem elem_leaf {N : World} {dt : DType} {v : Val} (h : Elem N dt v) : Leaf v := by
  cases h <;> exact ⟨by simp [shapeOf], by simp [leaves]⟩

theorem chunks_length (k : Nat) : ∀ n l, (chunks k n l).length = n
  | 0, _ => rfl
  | n + 1, l => by rw [chunks, List.length_cons, chunks_length k n]

theorem chunks_mem {k : Nat} : ∀ {n l x}, l.length = n * k → x ∈ chunks k n l → x.length = k ∧ ∀ v ∈ x, v ∈ l
  | 0, _, _, _, h => by simp [chunks] at h
  | n + 1, l, x, hl, h => by
    rw [chunks] at h
    have hl' : l.length = n * k + k := by rw [hl, Nat.succ_mul]
    rcases List.mem_cons.1 h with rfl | h
    · exact ⟨by rw [List.length_take]; omega, fun v hv => List.mem_of_mem_take hv⟩
    · obtain ⟨h1, h2⟩ := chunks_mem (n := n) (l := l.drop k) (by rw [List.length_drop]; omega) h
      exact ⟨h1, fun v hv => List.mem_of_mem_drop (h2 v hv)⟩

theorem chunks_join {k : Nat} : ∀ {n l}, l.length = n * k → (chunks k n l).flatten = l
  | 0, l, hl => by
    rw [Nat.zero_mul] at hl
    rw [List.eq_nil_of_length_eq_zero hl]
    rfl
  | n + 1, l, hl => by
    have hl' : l.length = n * k + k := by rw [hl, Nat.succ_mul]
    rw [chunks, List.flatten_cons, chunks_join (by rw [List.length_drop]; omega), List.take_append_drop]

theorem chunks_get {k : Nat} : ∀ {n l i}, i < n → (chunks k n l)[i]? = some ((l.drop (i * k)).take k)
  | 0, _, _, h => absurd h (Nat.not_lt_zero _)
  | n + 1, l, 0, _ => by simp [chunks]
  | n + 1, l, i + 1, h => by
    rw [chunks, List.getElem?_cons_succ, chunks_get (Nat.lt_of_succ_lt_succ h), List.drop_drop]
    congr 3
    rw [Nat.succ_mul, Nat.add_comm]

theorem shapesOf_all {s : List Nat} : ∀ {xs : List Val}, (∀ x ∈ xs, shapeOf x = some s) → shapesOf xs = some (List.replicate xs.length s)
  | [], _ => by simp [shapesOf]
  | x :: xs, h => by
    rw [shapesOf, h x List.mem_cons_self, shapesOf_all fun y hy => h y (List.mem_cons_of_mem _ hy)]
    rfl

theorem leavesL_flatten : ∀ xs : List Val, leavesL xs = (xs.map leaves).flatten
  | [] => by simp [leavesL]
  | x :: xs => by rw [leavesL, leavesL_flatten xs]; rfl

/-- The shape and the elements found in the lists of an array. -/
theorem tolist_back : ∀ {s : List Nat} {d : List Val}, d.length = size s → (∀ v ∈ d, Leaf v) →
    shapeOf (tolist s d) = some (cut s) ∧ leaves (tolist s d) = d
  | [], d, hl, hv => by
    rw [size] at hl
    obtain ⟨v, rfl⟩ := List.length_eq_one_iff.1 hl
    exact hv v (by simp)
  | n :: s, d, hl, hv => by
    rw [size] at hl
    have hparts : ∀ c ∈ chunks (size s) n d, shapeOf (tolist s c) = some (cut s) ∧ leaves (tolist s c) = c := by
      intro c hc
      obtain ⟨h1, h2⟩ := chunks_mem hl hc
      exact tolist_back h1 fun v hvc => hv v (h2 v hvc)
    constructor
    · rw [tolist, shapeOf, shapesOf_all (s := cut s) (by
        intro x hx
        obtain ⟨c, hc, rfl⟩ := List.mem_map.1 hx
        exact (hparts c hc).1), List.length_map, chunks_length]
      cases n with
      | zero => simp [joinShapes, cut]
      | succ n =>
        rw [List.replicate_succ, joinShapes]
        simp [cut]
    · rw [tolist, leaves, leavesL_flatten, List.map_map]
      have : (chunks (size s) n d).map (leaves ∘ tolist s) = (chunks (size s) n d).map id :=
        List.map_congr_left fun c hc => (hparts c hc).2
      rw [this, List.map_id, chunks_join hl]

theorem mapM_id {α : Type} {f : α → Except PErr α} : ∀ {l : List α}, (∀ x ∈ l, f x = .ok x) → l.mapM f = .ok l
  | [], _ => rfl
  | x :: l, h => by
    rw [List.mapM_cons, h x List.mem_cons_self, mapM_id fun y hy => h y (List.mem_cons_of_mem _ hy)]
    rfl

theorem conv_elem {N : World} {dt : DType} {v : Val} (h : Elem N dt v) : conv N dt v = .ok v := by
  cases h with
  | bool b => rfl
  | signed bits i h1 h2 => simp [conv, inRange, h1, h2]
  | unsigned bits i h1 h2 => simp [conv, inRange, h1, h2]
  | float bits f h1 => simp [conv, h1]

/-- `numpy.array(a.tolist(), dtype=dt)`. -/
theorem npArray_tolist {N : World} {dt : DType} {o : Option DType} {a : Arr} (h : Filled N dt a) (ho : o.getD (inferType N a.data) = dt) :
    npArray N o (tolist a.shape a.data) = .ok { dtype := dt, shape := cut a.shape, data := a.data } := by
  obtain ⟨h1, h2⟩ := tolist_back (s := a.shape) (by rw [size_eq]; exact h.count) fun v hv => elem_leaf (h.elems v hv)
  unfold npArray
  rw [h1]
  dsimp only
  rw [h2, ho, mapM_id fun v hv => conv_elem (h.elems v hv)]

theorem infer_own {N : World} {a : Arr} (h : Filled N a.dtype a) (ht : a.dtype = .float 64 ∨ (a.data ≠ [] ∧ (a.dtype = .bool ∨ a.dtype = .int true 64))) :
    inferType N a.data = a.dtype := by
  obtain ⟨dt, s, d⟩ := a
  have he := h.elems
  dsimp only at *
  unfold inferType
  cases d with
  | nil =>
    rcases ht with ht | ⟨ht, -⟩
    · rw [ht]; rfl
    · exact absurd rfl ht
  | cons v d =>
    have hv := he v List.mem_cons_self
    rcases ht with rfl | ⟨-, rfl | rfl⟩
    · cases hv
      have hall : ∀ x ∈ d, isFloatV x = true := fun x hx => by cases he x (List.mem_cons_of_mem _ hx); rfl
      simp only [List.isEmpty_cons, Bool.false_eq_true, ↓reduceIte, List.all_cons, isBoolV, isIntV, Bool.false_and, isFloatV, Bool.true_and]
      rw [if_pos (List.all_eq_true.2 hall)]
    · cases hv
      have hall : ∀ x ∈ d, isBoolV x = true := fun x hx => by cases he x (List.mem_cons_of_mem _ hx); rfl
      simp only [List.isEmpty_cons, Bool.false_eq_true, ↓reduceIte, List.all_cons, isBoolV, Bool.true_and]
      rw [if_pos (List.all_eq_true.2 hall)]
    · cases hv with
      | signed _ i h1 h2 =>
        have hall : ∀ x ∈ d, isIntV true x = true := fun x hx => by
          cases he x (List.mem_cons_of_mem _ hx) with
          | signed _ j h3 h4 => simp only [isIntV, inRange, ↓reduceIte, decide_eq_true_eq]; exact ⟨h3, h4⟩
        have hi : isIntV true (.int i) = true := by simp only [isIntV, inRange, ↓reduceIte, decide_eq_true_eq]; exact ⟨h1, h2⟩
        simp only [List.isEmpty_cons, Bool.false_eq_true, ↓reduceIte, List.all_cons, isBoolV, Bool.false_and, hi, Bool.true_and]
        rw [if_pos (List.all_eq_true.2 hall)]

/-- The element at an index. -/
theorem walk_tolist : ∀ {s idx : List Nat} {d : List Val}, d.length = size s → Index s idx → walk (tolist s d) idx = d[offset s idx]?
  | [], [], d, hl, _ => by
    rw [size] at hl
    obtain ⟨v, rfl⟩ := List.length_eq_one_iff.1 hl
    simp [walk, tolist, offset]
  | [], _ :: _, _, _, h => absurd h (by simp [Index])
  | _ :: _, [], _, _, h => absurd h (by simp [Index])
  | n :: s, i :: idx, d, hl, h => by
    rw [size] at hl
    obtain ⟨h1, h2⟩ := h
    have hlen : ((d.drop (i * size s)).take (size s)).length = size s := by
      rw [List.length_take, List.length_drop, hl]
      have : (i + 1) * size s ≤ n * size s := Nat.mul_le_mul_right _ h1
      rw [Nat.succ_mul] at this
      omega
    have hoff : offset s idx < size s := offset_lt h2
    rw [tolist, walk, List.getElem?_map, chunks_get h1]
    simp only [Option.map_some]
    rw [walk_tolist hlen h2, offset, ← size_eq, List.getElem?_take_of_lt hoff, List.getElem?_drop]
where
  offset_lt : ∀ {s idx : List Nat}, Index s idx → offset s idx < size s
    | [], [], _ => by simp [offset, size]
    | [], _ :: _, h => absurd h (by simp [Index])
    | _ :: _, [], h => absurd h (by simp [Index])
    | n :: s, i :: idx, ⟨h1, h2⟩ => by
      have := offset_lt h2
      rw [offset, size, ← size_eq]
      have h3 : (i + 1) * size s ≤ n * size s := Nat.mul_le_mul_right _ h1
      rw [Nat.succ_mul] at h3
      omega

theorem tolist_plain {N : World} {dt : DType} : ∀ {s : List Nat} {d : List Val}, (∀ v ∈ d, Elem N dt v) → Plain (tolist s d)
  | [], d, h => by
    cases d with
    | nil => exact .none
    | cons v d => cases h v List.mem_cons_self <;> constructor
  | n :: s, d, h => by
    rw [tolist]
    refine .list _ fun x hx => ?_
    obtain ⟨c, hc, rfl⟩ := List.mem_map.1 hx
    exact tolist_plain fun v hv => h v (sub hc v hv)
where
  sub {k : Nat} : ∀ {n l x}, x ∈ chunks k n l → ∀ v ∈ x, v ∈ l
    | 0, _, _, h => by simp [chunks] at h
    | n + 1, l, x, h => by
      rw [chunks] at h
      rcases List.mem_cons.1 h with rfl | h
      · exact fun v hv => List.mem_of_mem_take hv
      · exact fun v hv => List.mem_of_mem_drop (sub h v hv)

end Verif.Np
