import Verif.Lemmas.Numpy
/-!
# C82: NumPy arrays, C83: NumPy scalars and datetimes

Full statement of C82: "An array in a field that is declared as `np.ndarray`, `npt.NDArray[T]` or a jaxtyping array is written as nested lists, the element at
an index being found by the same indices, and is read back as an array with the same element type, shape and elements; also in lists, Optional and several
fields, through any format that keeps numbers and lists, and when the type itself is the target. Data is read as an array only if all its parts have the
same shape, and then element by element (`C82_read`, in C82Read.lean)."

Proved (partial) for arrays with the element type that their type is read with, and no dimension of length zero except the last (`C82_round_trip_partial`,
`C82_class_partial`, `C82_format_partial`, `C82_direct_partial`). False otherwise: a shape is cut after its first zero (`C82_shape`, for all arrays; `C82_false_empty`), the element
type becomes the declared one or the one NumPy takes for Python numbers (`C82_declared`; `C82_false_bare`, `C82_false_jaxtyping`), and jaxtyping types are not
known where a type is the target (`C82_false_direct`).

Full statement of C83: "A NumPy scalar or datetime64 is read back equal and of the same type; a number that does not fit the type is rejected."

Proved for scalars (`C83_scalar`, `C83_range`) and, up to the unit, for datetimes of at least microseconds in the years 1-9999 (`C83_datetime_partial`). False of the others:
finer units and NaT cannot be written at all (`C83_fine`), and years, months and weeks become days (`C83_false_unit`).
-/

namespace Verif.Props
open Verif Verif.Np Verif.Spec.Np

/-! ## Arrays -/

/-- What is written: the element at an index is found by the same indices. -/
theorem C82_written {N : World} {dt : DType} {t : ArrTy} {a : Arr} (h : Filled N dt a) :
    ∃ d, write N (.arr t) (.arr a) = .ok d ∧ ∀ idx, Index a.shape idx → walk d idx = a.data[offset a.shape idx]? :=
  ⟨_, rfl, fun _ hi => walk_tolist (by rw [size_eq]; exact h.count) hi⟩

/-- Reading the lists of any array whose elements fit the declared element type: the elements are kept, the element type is the declared one, and the shape
is cut after the first dimension of length zero. -/
theorem C82_shape {N : World} {dt : DType} {a : Arr} {t : ArrTy} (ht : t = .typed dt ∨ ∃ dts, t = .jax dts ∧ dts.getLast? = some dt) (h : Filled N dt a) :
    ∃ d a', write N (.arr t) (.arr a) = .ok d ∧ read N (.arr t) d = .ok (.arr a') ∧ a'.dtype = dt ∧ a'.data = a.data ∧ ZeroLast a'.shape ∧
      ∃ post, a.shape = a'.shape ++ post ∧ (post ≠ [] → a'.shape.getLast? = some 0) := by
  have hr : read N (.arr t) (tolist a.shape a.data) = .ok (.arr { dtype := dt, shape := cut a.shape, data := a.data }) := by
    rcases ht with rfl | ⟨dts, rfl, hd⟩
    · rw [read.eq_def]
      dsimp only [ArrTy.dtype]
      rw [npArray_tolist h (o := some dt) rfl]
    · cases dts with
      | nil => simp at hd
      | cons x dts =>
        rw [read.eq_def]
        dsimp only [ArrTy.dtype]
        rw [hd, npArray_tolist h (o := some dt) rfl]
  exact ⟨_, _, rfl, hr, rfl, rfl, cut_zeroLast _, cut_split _⟩

/-- If no dimension but the last is zero only the element type changes, to the declared one. -/
theorem C82_declared {N : World} {dt : DType} {a : Arr} (h : Filled N dt a) (hz : ZeroLast a.shape) :
    ∃ d, write N (.arr (.typed dt)) (.arr a) = .ok d ∧ read N (.arr (.typed dt)) d = .ok (.arr { a with dtype := dt }) := by
  refine ⟨_, rfl, ?_⟩
  rw [read.eq_def]
  dsimp only [ArrTy.dtype]
  rw [npArray_tolist h (o := some dt) rfl, cut_of_zeroLast hz]

theorem read_arr {N : World} {t : ArrTy} {a : Arr} (h : ArrFits N t a) : read N (.arr t) (tolist a.shape a.data) = .ok (.arr a) := by
  cases t with
  | typed dt =>
    obtain ⟨h1, h2, h3⟩ := h
    rw [read.eq_def]
    dsimp only [ArrTy.dtype]
    rw [npArray_tolist h2 (o := some dt) rfl, cut_of_zeroLast h3, ← h1]
  | jax dts =>
    obtain ⟨h1, h2, h3⟩ := h
    cases dts with
    | nil => simp at h1
    | cons x dts =>
      rw [read.eq_def]
      dsimp only [ArrTy.dtype]
      rw [h1, npArray_tolist h2 (o := some a.dtype) rfl, cut_of_zeroLast h3]
  | bare =>
    obtain ⟨h1, h2, h3⟩ := h
    rw [read.eq_def]
    dsimp only [ArrTy.dtype]
    rw [npArray_tolist h1 (o := none) (infer_own h1 h3), cut_of_zeroLast h2]

theorem arrFits_plain {N : World} {t : ArrTy} {a : Arr} (h : ArrFits N t a) : Plain (tolist a.shape a.data) := by
  cases t with
  | typed dt => exact tolist_plain h.2.1.elems
  | jax dts => exact tolist_plain h.2.1.elems
  | bare => exact tolist_plain h.1.elems

theorem write_none {N : World} : ∀ {t : NTy} {v : NVal}, Fits N t v → write N t v = .ok .none → v ≠ .none → False
  | .scalar dt, .scalar dt' w, h, hw, _ => by
    rw [write.eq_def] at hw
    obtain ⟨-, h⟩ := h
    cases hw
    cases h
  | .arr t, .arr a, h, hw, _ => by
    rw [write.eq_def] at hw
    dsimp only at hw
    have hl : ∀ v ∈ a.data, Leaf v ∧ v ≠ .none := by
      have : ∃ dt, ∀ v ∈ a.data, Elem N dt v := by
        cases t with
        | typed dt => exact ⟨dt, h.2.1.elems⟩
        | jax dts => exact ⟨_, h.2.1.elems⟩
        | bare => exact ⟨_, h.1.elems⟩
      obtain ⟨dt, he⟩ := this
      exact fun v hv => ⟨elem_leaf (he v hv), fun e => by subst e; cases he _ hv⟩
    have hc : a.data.length = size a.shape := by
      rw [size_eq]
      cases t with
      | typed dt => exact h.2.1.count
      | jax dts => exact h.2.1.count
      | bare => exact h.1.count
    cases hs : a.shape with
    | nil =>
      rw [hs] at hw hc
      obtain ⟨v, hv⟩ := List.length_eq_one_iff.1 hc
      rw [hv] at hw
      simp only [tolist, List.headD_cons, Except.ok.injEq] at hw
      exact (hl v (by rw [hv]; simp)).2 hw
    | cons n s => rw [hs] at hw; cases hw
  | .list t, .list xs, _, hw, _ => by
    rw [write.eq_def] at hw
    dsimp only at hw
    split at hw <;> cases hw
  | .opt t, v, h, hw, hn => by
    rw [write.eq_def] at hw
    rw [Fits.eq_def] at h
    cases v with
    | none => exact hn rfl
    | _ => exact write_none (t := t) h hw hn

theorem mapM_two {α β : Type} {f : α → Except PErr β} {g : β → Except PErr α} {P : β → Prop} : ∀ {l : List α}, (∀ x ∈ l, ∃ y, f x = .ok y ∧ g y = .ok x ∧ P y) →
    ∃ ys, l.mapM f = .ok ys ∧ ys.mapM g = .ok l ∧ ∀ y ∈ ys, P y
  | [], _ => ⟨[], rfl, rfl, by simp⟩
  | x :: l, h => by
    obtain ⟨y, h1, h2, h3⟩ := h x List.mem_cons_self
    obtain ⟨ys, h4, h5, h6⟩ := mapM_two fun z hz => h z (List.mem_cons_of_mem _ hz)
    refine ⟨y :: ys, by rw [List.mapM_cons, h1, h4]; rfl, by rw [List.mapM_cons, h2, h5]; rfl, ?_⟩
    intro z hz
    rcases List.mem_cons.1 hz with rfl | hz
    · exact h3
    · exact h6 z hz

/-- Scalars and arrays, in lists and Optional: what is written is plain data, and it is read back as it was. -/
theorem C82_round_trip_partial {N : World} : ∀ {t : NTy} {v : NVal}, Fits N t v → ∃ d, write N t v = .ok d ∧ read N t d = .ok v ∧ Plain d
  | .scalar dt, .scalar dt' w, h => by
    obtain ⟨rfl, h⟩ := h
    refine ⟨w, rfl, ?_, ?_⟩
    · rw [read.eq_def]
      dsimp only
      rw [conv_elem h]
    · cases h <;> constructor
  | .arr t, .arr a, h => ⟨_, rfl, read_arr h, arrFits_plain h⟩
  | .list t, .list xs, h => by
    obtain ⟨ys, h1, h2, h3⟩ := mapM_two (f := write N t) (g := read N t) (P := Plain) fun x hx => C82_round_trip_partial (h x hx)
    refine ⟨.list ys, ?_, ?_, .list _ h3⟩
    · rw [write.eq_def]
      dsimp only
      rw [h1]
    · rw [read.eq_def]
      dsimp only
      rw [h2]
  | .opt t, v, h => by
    cases hv : v with
    | none => exact ⟨.none, rfl, rfl, .none⟩
    | _ =>
      all_goals
        rw [← hv]
        have hn : v ≠ .none := by rw [hv]; simp
        have h' : Fits N t v := by rw [hv] at h ⊢; exact h
        obtain ⟨d, h1, h2, h3⟩ := C82_round_trip_partial h'
        refine ⟨d, ?_, ?_, h3⟩
        · rw [hv] at h1 ⊢; rw [write.eq_def]; exact h1
        · cases d with
          | none => exact absurd (write_none h' h1 hn) id
          | _ => rw [read.eq_def]; exact h2

/-- Through any format that keeps numbers and nested lists. -/
theorem C82_format_partial {N : World} {Text : Type} {dump : Val → Text} {load : Text → Except PErr Val} (hf : ∀ d, Plain d → load (dump d) = .ok d)
    {t : NTy} {v : NVal} (h : Fits N t v) : ∃ d d', write N t v = .ok d ∧ load (dump d) = .ok d' ∧ read N t d' = .ok v := by
  obtain ⟨d, h1, h2, h3⟩ := C82_round_trip_partial h
  exact ⟨d, d, h1, hf d h3, h2⟩

/-- A class with such fields: all of them come back. -/
theorem C82_class_partial {N : World} {fs : List (String × NTy)} {attrs : List (String × NVal)} (hn : attrs.map Prod.fst = fs.map Prod.fst)
    (hd : (fs.map Prod.fst).Nodup) (h : ∀ f ∈ fs, ∀ v, (f.1, v) ∈ attrs → Fits N f.2 v) :
    ∃ d, writeCls N fs attrs = .ok d ∧ readCls N fs d = .ok attrs := by
  have hlook : ∀ {fs : List (String × NTy)} {attrs : List (String × NVal)}, attrs.map Prod.fst = fs.map Prod.fst → (fs.map Prod.fst).Nodup →
      (∀ f ∈ fs, ∀ v, (f.1, v) ∈ attrs → Fits N f.2 v) → ∃ kvs : List (String × Val),
      (∀ A : List (String × NVal), (∀ p ∈ attrs, A.lookup p.1 = some p.2) → fs.mapM (writeField N A) = .ok (kvs.map fun p => (Val.str p.1, p.2))) ∧
      (∀ K : List (Val × Val), (∀ p ∈ kvs, entry K p.1 = some p.2) → fs.mapM (readField N K) = .ok attrs) ∧ kvs.map Prod.fst = fs.map Prod.fst := by
    intro fs
    induction fs with
    | nil =>
      intro attrs hn _ _
      cases attrs with
      | nil => exact ⟨[], fun _ _ => rfl, fun _ _ => rfl, rfl⟩
      | cons a attrs => simp at hn
    | cons f fs ih =>
      intro attrs hn hd h
      cases attrs with
      | nil => simp at hn
      | cons a attrs =>
        obtain ⟨nm, v⟩ := a
        obtain ⟨fn, t⟩ := f
        simp only [List.map_cons, List.cons.injEq] at hn hd
        obtain ⟨rfl, hn⟩ := hn
        rw [List.nodup_cons] at hd
        obtain ⟨d, h1, h2, -⟩ := C82_round_trip_partial (h (nm, t) List.mem_cons_self v List.mem_cons_self)
        obtain ⟨kvs, h3, h4, h5⟩ := ih hn hd.2 fun f hf w hw => h f (List.mem_cons_of_mem _ hf) w (List.mem_cons_of_mem _ hw)
        refine ⟨(nm, d) :: kvs, ?_, ?_, ?_⟩
        · intro A hA
          have e : writeField N A (nm, t) = .ok (.str nm, d) := by
            unfold writeField
            dsimp only at h1 ⊢
            rw [hA (nm, v) List.mem_cons_self]
            dsimp only
            rw [h1]
          rw [List.mapM_cons, e, h3 A fun p hp => hA p (List.mem_cons_of_mem _ hp)]
          rfl
        · intro K hK
          have e : readField N K (nm, t) = .ok (nm, v) := by
            unfold readField
            dsimp only at h2 ⊢
            rw [hK (nm, d) List.mem_cons_self]
            dsimp only
            rw [h2]
          rw [List.mapM_cons, e, h4 K fun p hm => hK p (List.mem_cons_of_mem _ hm)]
          rfl
        · rw [List.map_cons, List.map_cons, h5]
  obtain ⟨kvs, h1, h2, h3⟩ := hlook hn hd h
  refine ⟨.dict .plain (kvs.map fun p => (Val.str p.1, p.2)), ?_, h2 _ (entry_own (h3 ▸ hd))⟩
  unfold writeCls
  rw [h1 attrs (lookup_own (hn ▸ hd))]
where
  lookup_own {α : Type} : ∀ {attrs : List (String × α)}, (attrs.map Prod.fst).Nodup → ∀ p ∈ attrs, attrs.lookup p.1 = some p.2
    | [], _, _, hp => by simp at hp
    | a :: attrs, hd, p, hp => by
      simp only [List.map_cons, List.nodup_cons] at hd
      rcases List.mem_cons.1 hp with rfl | hp
      · rw [List.lookup_cons, beq_self_eq_true]
      · have : (p.1 == a.1) = false := by
          rw [beq_eq_false_iff_ne]
          exact fun e => hd.1 (e ▸ List.mem_map_of_mem hp)
        rw [List.lookup_cons, this]
        exact lookup_own hd.2 p hp
  entry_own : ∀ {kvs : List (String × Val)}, (kvs.map Prod.fst).Nodup → ∀ p ∈ kvs, entry (kvs.map fun p => (Val.str p.1, p.2)) p.1 = some p.2
    | [], _, _, hp => by simp at hp
    | a :: kvs, hd, p, hp => by
      simp only [List.map_cons, List.nodup_cons] at hd
      rw [List.map_cons, entry]
      rcases List.mem_cons.1 hp with rfl | hp
      · simp
      · have : (a.1 == p.1) = false := by
          rw [beq_eq_false_iff_ne]
          exact fun e => hd.1 (e ▸ List.mem_map_of_mem hp)
        rw [this]
        exact entry_own hd.2 p hp

/-! ## A type as the target -/

/-- No jaxtyping arrays in the type. -/
def NoJax : NTy → Prop
  | .arr (.jax _) => False
  | .list t => NoJax t
  | .opt t => NoJax t
  | _ => True

/-- Reading with the type itself as target (`from_dict(list[NDArray[T]], d)`) gives what reading a field of that type gives. -/
theorem readDirect_of_read {N : World} : ∀ {t : NTy} {d : Val} {v : NVal}, NoJax t → read N t d = .ok v → readDirect N t d = .ok v
  | .scalar dt, d, v, _, h => by rw [readDirect.eq_def]; dsimp only; rw [h]
  | .datetime, d, v, _, h => by rw [readDirect.eq_def]; dsimp only; rw [h]
  | .arr .bare, d, v, _, h => by rw [readDirect.eq_def]; dsimp only; rw [h]
  | .arr (.typed dt), d, v, _, h => by rw [readDirect.eq_def]; dsimp only; rw [h]
  | .arr (.jax dts), d, v, hj, _ => absurd hj id
  | .list t, d, v, hj, h => by
    have hm : ∀ {ds : List Val} {xs : List NVal}, ds.mapM (read N t) = .ok xs → ds.mapM (readDirect N t) = .ok xs := by
      intro ds
      induction ds with
      | nil => intro xs h; cases h; rfl
      | cons d ds ih =>
        intro xs h
        rw [List.mapM_cons] at h
        cases h1 : read N t d with
        | error e => rw [h1] at h; cases h
        | ok x =>
          cases h2 : ds.mapM (read N t) with
          | error e => rw [h1, h2] at h; cases h
          | ok ys =>
            rw [h1, h2] at h
            cases h
            rw [List.mapM_cons, readDirect_of_read (t := t) hj h1, ih h2]
            rfl
    cases d with
    | list ds =>
      rw [read.eq_def] at h
      dsimp only at h
      rw [readDirect.eq_def]
      dsimp only
      cases h1 : ds.mapM (read N t) with
      | error e => rw [h1] at h; cases h
      | ok xs => rw [h1] at h; cases h; rw [hm h1]
    | tuple ds =>
      rw [read.eq_def] at h
      dsimp only at h
      rw [readDirect.eq_def]
      dsimp only
      cases h1 : ds.mapM (read N t) with
      | error e => rw [h1] at h; cases h
      | ok xs => rw [h1] at h; cases h; rw [hm h1]
    | _ => rw [read.eq_def] at h; cases h
  | .opt t, d, v, hj, h => by
    cases d with
    | none => rw [read.eq_def] at h; cases h; rfl
    | _ =>
      all_goals
        rw [read.eq_def] at h
        dsimp only at h
        rw [readDirect.eq_def]
        dsimp only
        rw [readDirect_of_read (t := t) hj h]

/-- The same for the round trip. -/
theorem C82_direct_partial {N : World} {t : NTy} {v : NVal} (hj : NoJax t) (h : Fits N t v) : ∃ d, write N t v = .ok d ∧ readDirect N t d = .ok v := by
  obtain ⟨d, h1, h2, -⟩ := C82_round_trip_partial h
  exact ⟨d, h1, readDirect_of_read hj h2⟩

/-! ## Scalars -/

/-- A scalar is read back as it was, with its type. -/
theorem C83_scalar {N : World} {dt : DType} {v : Val} (h : Elem N dt v) :
    ∃ d, write N (.scalar dt) (.scalar dt v) = .ok d ∧ read N (.scalar dt) d = .ok (.scalar dt v) := by
  refine ⟨v, rfl, ?_⟩
  rw [read.eq_def]
  dsimp only
  rw [conv_elem h]

/-- An integer is read if it fits, and is an OverflowError otherwise. -/
theorem C83_range {N : World} {signed : Bool} {bits : Nat} (i : Int) :
    (Elem N (.int signed bits) (.int i) → read N (.scalar (.int signed bits)) (.int i) = .ok (.scalar (.int signed bits) (.int i))) ∧
    (¬Elem N (.int signed bits) (.int i) → read N (.scalar (.int signed bits)) (.int i) = .error .overflow) := by
  constructor
  · intro h
    rw [read.eq_def]
    dsimp only
    rw [conv_elem h]
  · intro h
    have hr : inRange signed bits i = false := by
      cases hb : inRange signed bits i with
      | false => rfl
      | true =>
        exfalso
        apply h
        unfold inRange at hb
        cases signed with
        | true =>
          simp only [↓reduceIte, decide_eq_true_eq] at hb
          exact .signed bits i hb.1 hb.2
        | false =>
          simp only [Bool.false_eq_true, ↓reduceIte, decide_eq_true_eq] at hb
          exact .unsigned bits i hb.1 hb.2
    rw [read.eq_def]
    dsimp only
    rw [conv, hr]
    rfl

/-! ## Datetimes -/

/-- A datetime of at least microseconds, in the years that Python knows, is read back as the same point in time. -/
theorem C83_datetime_partial {N : World} (hc : Calendar N) {d : Dt64} {m : Int} (hm : micros N d = some m) (hy : InYears N m) :
    ∃ s d', write N .datetime (.datetime d) = .ok s ∧ read N .datetime s = .ok (.datetime d') ∧ micros N d' = some m := by
  have hdate : ∀ k, m = 86400000000 * k → itemIso N d = (match N.dateIso k with
      | some s => .ok (.str s)
      | none => .error .attr) → ∃ s d', write N .datetime (.datetime d) = .ok s ∧ read N .datetime s = .ok (.datetime d') ∧ micros N d' = some m := by
    intro k hk hw
    obtain ⟨s, hs⟩ := Option.isSome_iff_exists.1 (hy.1 k hk)
    rw [hs] at hw
    refine ⟨.str s, .at .day k, hw, ?_, by rw [micros, hk]⟩
    rw [read.eq_def]
    dsimp only
    rw [hc.date k s hs]
  have htime : itemIso N d = (match N.timeIso m with
      | some s => .ok (.str s)
      | none => .error .attr) → ∃ s d', write N .datetime (.datetime d) = .ok s ∧ read N .datetime s = .ok (.datetime d') ∧ micros N d' = some m := by
    intro hw
    obtain ⟨s, hs⟩ := Option.isSome_iff_exists.1 hy.2
    rw [hs] at hw
    obtain ⟨d', h1, h2⟩ := hc.time m s hs
    refine ⟨.str s, d', hw, ?_, h2⟩
    rw [read.eq_def]
    dsimp only
    rw [h1]
  cases d with
  | nat => cases hm
  | «at» u n =>
    cases u <;> simp only [micros, Option.some.injEq, reduceCtorEq] at hm
    · exact hdate (N.yearDay n) hm.symm rfl
    · exact hdate (N.monthDay n) hm.symm rfl
    · exact hdate (7 * n) (by omega) rfl
    · exact hdate n hm.symm rfl
    all_goals subst hm; exact htime rfl

/-- Units finer than microseconds, and NaT, cannot be written at all: `item()` is no datetime then, and has no `isoformat`. -/
theorem C83_fine {N : World} {d : Dt64} (h : micros N d = none) : write N .datetime (.datetime d) = .error .attr := by
  cases d with
  | nat => rfl
  | «at» u n => cases u <;> first | rfl | (simp [micros] at h)

/-- Years, months and weeks come back as days. -/
theorem C83_unit {N : World} (hc : Calendar N) (n : Int) (h : (N.dateIso (N.yearDay n)).isSome = true) :
    ∃ s, write N .datetime (.datetime (.at .year n)) = .ok s ∧ read N .datetime s = .ok (.datetime (.at .day (N.yearDay n))) := by
  obtain ⟨s, hs⟩ := Option.isSome_iff_exists.1 h
  refine ⟨.str s, ?_, ?_⟩
  · rw [write.eq_def]
    simp only [itemIso, hs]
  · rw [read.eq_def]
    dsimp only
    rw [hc.date _ s hs]

/-! ## Hypotheses are met -/

namespace C82Ex

/-- Dates and datetimes from 1970 on, written as a letter and as many digits. -/
def text (c : Char) (n : Int) : Option String := if 0 ≤ n then some (String.ofList (c :: List.replicate n.toNat '1')) else none

/-- A small world. -/
def N : World where
  round := fun _ f => f
  cast := fun _ _ => .error .type
  infer := fun _ => .float 64
  yearDay := fun n => 365 * n
  monthDay := fun n => 30 * n
  dateIso := text 'D'
  timeIso := text 'T'
  readTime := fun s => match s.toList with
    | 'D' :: r => .ok (.at .day r.length)
    | 'T' :: r => .ok (.at .us r.length)
    | _ => .error .value

theorem calendar : Calendar N := by
  have ht : ∀ {c n s}, text c n = some s → 0 ≤ n ∧ s.toList = c :: List.replicate n.toNat '1' := by
    intro c n s h
    unfold text at h
    split at h
    · rename_i hn
      cases h
      exact ⟨hn, by simp⟩
    · cases h
  constructor
  · intro d s h
    obtain ⟨h1, h2⟩ := ht (c := 'D') h
    simp only [N, h2, List.length_replicate]
    rw [Int.toNat_of_nonneg h1]
  · intro u s h
    obtain ⟨h1, h2⟩ := ht (c := 'T') h
    refine ⟨.at .us u, ?_, rfl⟩
    simp only [N, h2, List.length_replicate]
    rw [Int.toNat_of_nonneg h1]

theorem inYears (m : Int) (h : 0 ≤ m) : InYears N m := by
  constructor
  · intro d hd
    have : 0 ≤ d := by omega
    simp [N, text, this]
  · simp [N, text, h]

/-- `np.array([[1, 2, 3], [4, 5, 6]], dtype=np.int16)`. -/
def matrix (dt : DType) : Arr := ⟨dt, [2, 3], [.int 1, .int 2, .int 3, .int 4, .int 5, .int 6]⟩

theorem matrix_filled (N : World) (dt : DType) (bits : Nat) (hb : bits = 16 ∨ bits = 64) : Filled N (.int true bits) (matrix dt) := by
  refine ⟨rfl, fun v hv => ?_⟩
  simp only [matrix, List.mem_cons, List.not_mem_nil, or_false] at hv
  rcases hb with rfl | rfl <;> rcases hv with rfl | rfl | rfl | rfl | rfl | rfl <;> exact .signed _ _ (by decide) (by decide)

theorem matrix_zero (dt : DType) : ZeroLast (matrix dt).shape := by
  intro pre post h
  have : 0 ∈ (matrix dt).shape := by rw [h]; simp
  simp [matrix] at this

example : Fits N (.arr (.typed (.int true 16))) (.arr (matrix (.int true 16))) := ⟨rfl, matrix_filled N _ 16 (.inl rfl), matrix_zero _⟩
example : Fits N (.arr .bare) (.arr (matrix (.int true 64))) := ⟨matrix_filled N _ 64 (.inr rfl), matrix_zero _, .inr ⟨by simp [matrix], .inr rfl⟩⟩
example : Fits N (.arr (.jax [.int true 8, .int true 16, .int true 64])) (.arr (matrix (.int true 64))) :=
  ⟨rfl, matrix_filled N _ 64 (.inr rfl), matrix_zero _⟩

/-- `list[Optional[NDArray[np.int16]]]` with a matrix and None. -/
theorem nested_fits : Fits N (.list (.opt (.arr (.typed (.int true 16))))) (.list [.arr (matrix (.int true 16)), .none]) := by
  intro x hx
  simp only [List.mem_cons, List.not_mem_nil, or_false] at hx
  rcases hx with rfl | rfl
  · exact ⟨rfl, matrix_filled N _ 16 (.inl rfl), matrix_zero _⟩
  · trivial

example : write N (.list (.opt (.arr (.typed (.int true 16))))) (.list [.arr (matrix (.int true 16)), .none]) =
    .ok (.list [.list [.list [.int 1, .int 2, .int 3], .list [.int 4, .int 5, .int 6]], .none]) := rfl

example : ∃ d, write N (.list (.opt (.arr (.typed (.int true 16))))) (.list [.arr (matrix (.int true 16)), .none]) = .ok d ∧
    readDirect N (.list (.opt (.arr (.typed (.int true 16))))) d = .ok (.list [.arr (matrix (.int true 16)), .none]) :=
  C82_direct_partial (N := N) trivial nested_fits

/-- The element in the second row and third column. -/
example : Index (matrix .bool).shape [1, 2] ∧ offset (matrix .bool).shape [1, 2] = 5 := ⟨⟨by decide, by decide, trivial⟩, rfl⟩

/-- A class with a scalar and an array. -/
example : ∃ d, writeCls N [("n", .scalar (.int false 8)), ("m", .arr (.typed (.int true 16)))]
      [("n", .scalar (.int false 8) (.int 255)), ("m", .arr (matrix (.int true 16)))] = .ok d ∧
    readCls N [("n", .scalar (.int false 8)), ("m", .arr (.typed (.int true 16)))] d =
      .ok [("n", .scalar (.int false 8) (.int 255)), ("m", .arr (matrix (.int true 16)))] := by
  refine C82_class_partial rfl (by decide) ?_
  intro f hf v hv
  simp only [List.mem_cons, List.not_mem_nil, or_false, Prod.mk.injEq] at hf hv
  rcases hf with rfl | rfl <;> rcases hv with ⟨h1, rfl⟩ | ⟨h1, rfl⟩
  · exact ⟨rfl, .unsigned 8 255 (by decide) (by decide)⟩
  · simp at h1
  · simp at h1
  · exact ⟨rfl, matrix_filled N _ 16 (.inl rfl), matrix_zero _⟩

/-- Each element of the matrix is found in the lists. -/
example : ∃ d, write N (.arr .bare) (.arr (matrix (.int true 16))) = .ok d ∧ walk d [1, 2] = some (.int 6) := by
  obtain ⟨d, h1, h2⟩ := C82_written (N := N) (dt := .int true 16) (t := .bare) (matrix_filled N (.int true 16) 16 (.inl rfl))
  exact ⟨d, h1, h2 [1, 2] ⟨by decide, by decide, trivial⟩⟩

example : ∃ d a', write N (.arr (.jax [.int true 8, .int true 64])) (.arr (matrix (.int true 16))) = .ok d ∧
    read N (.arr (.jax [.int true 8, .int true 64])) d = .ok (.arr a') ∧ a'.dtype = .int true 64 := by
  obtain ⟨d, a', h1, h2, h3, -⟩ := C82_shape (N := N) (a := matrix (.int true 16)) (.inr ⟨[.int true 8, .int true 64], rfl, rfl⟩) (matrix_filled N _ 64 (.inr rfl))
  exact ⟨d, a', h1, h2, h3⟩

example : ∃ d, write N (.arr (.typed (.int true 64))) (.arr (matrix (.int true 16))) = .ok d ∧
    read N (.arr (.typed (.int true 64))) d = .ok (.arr (matrix (.int true 64))) :=
  C82_declared (matrix_filled N _ 64 (.inr rfl)) (matrix_zero _)

example : ∃ d d', write N (.list (.opt (.arr (.typed (.int true 16))))) (.list [.arr (matrix (.int true 16)), .none]) = .ok d ∧ (Except.ok d : Except PErr Val) = .ok d' ∧
    read N (.list (.opt (.arr (.typed (.int true 16))))) d' = .ok (.list [.arr (matrix (.int true 16)), .none]) :=
  C82_format_partial (dump := id) (load := .ok) (fun _ _ => rfl) nested_fits

example : ∃ d, write N (.scalar (.int false 8)) (.scalar (.int false 8) (.int 255)) = .ok d ∧ read N (.scalar (.int false 8)) d = .ok (.scalar (.int false 8) (.int 255)) :=
  C83_scalar (.unsigned 8 255 (by decide) (by decide))

example : read N (.scalar (.int false 8)) (.int 256) = .error .overflow :=
  (C83_range 256).2 fun h => by cases h with | unsigned _ _ _ h2 => exact absurd h2 (by decide)

example : write N .datetime (.datetime (.at .ns 1)) = .error .attr := C83_fine rfl

example : ¬Elem N (.int false 8) (.int 256) := fun h => by cases h with | unsigned _ _ _ h2 => exact absurd h2 (by decide)

example : ∃ s d', write N .datetime (.datetime (.at .second 5)) = .ok s ∧ read N .datetime s = .ok (.datetime d') ∧ micros N d' = some 5000000 :=
  C83_datetime_partial calendar rfl (inYears _ (by decide))

end C82Ex

/-! ## Where it is false -/

/-- `np.zeros((0, 3), dtype=np.int64)` comes back with the shape `(0,)`, whatever NumPy does elsewhere. -/
theorem C82_false_empty : ∃ (a : Arr) (dt : DType), ∀ N, Filled N dt a ∧ a.dtype = dt ∧ a.shape = [0, 3] ∧
    ∃ d a', write N (.arr (.typed dt)) (.arr a) = .ok d ∧ read N (.arr (.typed dt)) d = .ok (.arr a') ∧ a'.shape = [0] :=
  ⟨⟨.int true 64, [0, 3], []⟩, .int true 64, fun _ => ⟨⟨rfl, by simp⟩, rfl, rfl, _, _, rfl, rfl, rfl⟩⟩

/-- An `int16` array in a field declared as `np.ndarray` comes back as `int64`; one without elements as `float64`. -/
theorem C82_false_bare : (∃ a : Arr, a.dtype = .int true 16 ∧ ∀ N, Filled N a.dtype a ∧
      ∃ d a', write N (.arr .bare) (.arr a) = .ok d ∧ read N (.arr .bare) d = .ok (.arr a') ∧ a'.dtype = .int true 64) ∧
    ∃ a : Arr, a.dtype = .int true 64 ∧ ∀ N, Filled N a.dtype a ∧
      ∃ d a', write N (.arr .bare) (.arr a) = .ok d ∧ read N (.arr .bare) d = .ok (.arr a') ∧ a'.dtype = .float 64 :=
  ⟨⟨C82Ex.matrix (.int true 16), rfl, fun N => ⟨C82Ex.matrix_filled N _ 16 (.inl rfl), _, _, rfl, rfl, rfl⟩⟩,
    ⟨⟨.int true 64, [0], []⟩, rfl, fun _ => ⟨⟨rfl, by simp⟩, _, _, rfl, rfl, rfl⟩⟩⟩

/-- An `int16` array in a field declared as `jaxtyping.Int[np.ndarray, ...]`, which allows it, comes back as `int64`. -/
theorem C82_false_jaxtyping : ∃ (a : Arr) (dts : List DType), a.dtype ∈ dts ∧ a.dtype = .int true 16 ∧ ∀ N, Filled N a.dtype a ∧
    ∃ d a', write N (.arr (.jax dts)) (.arr a) = .ok d ∧ read N (.arr (.jax dts)) d = .ok (.arr a') ∧ a'.dtype = .int true 64 :=
  ⟨C82Ex.matrix (.int true 16), [.int true 8, .int true 16, .int true 32, .int true 64], by simp [C82Ex.matrix], rfl,
    fun N => ⟨C82Ex.matrix_filled N _ 16 (.inl rfl), _, _, rfl, rfl, rfl⟩⟩

/-- `from_dict(list[jaxtyping.Int64[np.ndarray, "2 3"]], d)` fails for what a field of that type is read from. -/
theorem C82_false_direct : ∃ (t : NTy) (v : NVal), ∀ N, Fits N t v ∧ ∃ d e, write N t v = .ok d ∧ read N t d = .ok v ∧ readDirect N t d = .error e := by
  refine ⟨.list (.arr (.jax [.int true 64])), .list [.arr (C82Ex.matrix (.int true 64))], fun N => ⟨?_, _, _, rfl, rfl, rfl⟩⟩
  intro x hx
  simp only [List.mem_cons, List.not_mem_nil, or_false] at hx
  subst hx
  exact ⟨rfl, C82Ex.matrix_filled N _ 64 (.inr rfl), C82Ex.matrix_zero _⟩

/-- A datetime with nanoseconds cannot be written, and one with years changes its unit. -/
theorem C83_false_unit : (∃ d : Dt64, d = .at .ns 0 ∧ ∀ N, write N .datetime (.datetime d) = .error .attr) ∧
    ∃ (N : World) (d d' : Dt64), Calendar N ∧ d = .at .year 10 ∧ d ≠ d' ∧ ∃ s, write N .datetime (.datetime d) = .ok s ∧ read N .datetime s = .ok (.datetime d') := by
  refine ⟨⟨_, rfl, fun _ => rfl⟩, C82Ex.N, _, .at .day 3650, C82Ex.calendar, rfl, by decide, ?_⟩
  exact C83_unit C82Ex.calendar 10 (by decide)

end Verif.Props
