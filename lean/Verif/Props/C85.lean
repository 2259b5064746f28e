import Verif.Spec.Instance
import Verif.Lemmas.UnionDe
import Verif.Examples.World
/-!
# C85: is_instance

Full statement: "is_instance(obj, typ) says whether the object is of the type, deeply: for list[int] whether it is a list all of whose elements are ints, for tuple[int, str] whether it
is a pair of these, for Optional and unions whether it is of some member, for a dataclass whether it is an instance of it, and so on for sets, dicts, deques, counters, literals and
NewTypes. This decides which member of a union an object is written as."

Proved: no object of the type is refused (`C85_accepts`), and on types without literals, special sets and defaultdicts the answer is right as far as the first elements of containers go
(`C85_first_partial`), hence right for objects whose containers have at most one element (`C85_small_partial`). In general it is false: `C85_false_second`, `C85_false_literal`, `C85_false_frozenset`.
-/

namespace Verif.Props
open Verif Spec

theorem seen_mem {α : Type} {deep : Bool} {x : α} {xs : List α} (h : x ∈ seen deep xs) : x ∈ xs := by
  unfold seen at h
  split at h
  · exact h
  · exact List.mem_of_mem_take h

theorem seen_head {α : Type} {deep : Bool} {x : α} {xs : List α} : x ∈ seen deep (x :: xs) := by
  unfold seen
  split <;> simp

theorem seen_first {α : Type} {x : α} {xs : List α} {p : α → Prop} (h : p x) : ∀ y ∈ seen false (x :: xs), p y := by
  intro y hy
  simp only [seen, List.take_succ_cons, List.take_zero, Bool.false_eq_true, if_false, List.mem_singleton] at hy
  subst hy; exact h

theorem seen_nil {α : Type} {deep : Bool} {p : α → Prop} : ∀ y ∈ seen deep ([] : List α), p y := by
  intro y hy
  cases deep <;> cases hy

theorem listInst_of {k v xs} (hs : ∀ s, v ≠ Val.str s) (h : SeqOf k v xs) : listInst k v = some xs := by
  cases h with
  | list => rfl
  | deque hk => cases k <;> first | rfl | exact absurd rfl hk
  | tuple => rfl
  | str => exact absurd rfl (hs _)

theorem of_listInst {k v xs} (h : listInst k v = some xs) : (∀ s, v ≠ Val.str s) ∧ SeqOf k v xs := by
  unfold listInst at h
  split at h
  · cases h
  · rename_i hs
    refine ⟨fun s => hs s, ?_⟩
    unfold seqInst at h
    split at h
    · cases h; exact .list
    · split at h
      · cases h
      · rename_i hk; cases h; exact .deque hk
    · split at h
      · cases h; exact .tuple
      · cases h
    · exact absurd rfl (hs _)
    · cases h

theorem isInstAny_mem {env : Env} {t v} : ∀ {ts : List Ty}, t ∈ ts → isInst env t v = true → isInstAny env ts v = true
  | s :: ts, h, hi => by
    unfold isInstAny
    rcases List.mem_cons.1 h with rfl | h
    · rw [hi]; rfl
    · rw [isInstAny_mem h hi, Bool.or_true]

theorem isInstZip_all {env : Env} : ∀ {ts : List Ty} {xs : List Val}, ts.length = xs.length → (∀ p ∈ ts.zip xs, isInst env p.1 p.2 = true) → isInstZip env ts xs = true
  | [], [], _, _ => by unfold isInstZip; rfl
  | t :: ts, x :: xs, hl, h => by
    unfold isInstZip
    rw [h (t, x) (by simp), isInstZip_all (by simpa using hl) (fun p hp => h p (by simp [hp]))]
    rfl

/-- **C85** No object of the type is refused, whether all elements or only the first ones are of their types. -/
theorem C85_accepts {env : Env} {deep : Bool} {t v} (h : Of env deep t v) : isInst env t v = true := by
  induction h with
  | @nominal t v ht h =>
    cases ht with
    | prim => unfold isInst bearable; exact isPrimInst_iff.2 h
    | none => cases h; rfl
    | enum => cases h; unfold isInst bearable; simp
    | std => unfold isInst bearable; cases h <;> simp_all [isStdInst]
    | dt => unfold isInst bearable; cases h <;> simp [isDtInst]
    | cls =>
      cases h with
      | cls hc hm => unfold isInst isClsInst; dsimp only; rw [hc]; simpa using hm
  | unknown hc => unfold isInst isClsInst; dsimp only; rw [hc]; simp
  | newType h => unfold isInst; exact isPrimInst_iff.2 h
  | any => unfold isInst; rfl
  | @list k t v xs hs h _ ih =>
    unfold isInst
    rw [listInst_of hs h]
    cases xs with
    | nil => rfl
    | cons x xs => exact ih x seen_head
  | listB hs h => unfold isInst; rw [listInst_of hs h]; rfl
  | @set k t v xs h _ ih =>
    have : ∃ f, v = .set f xs := by cases h <;> exact ⟨_, rfl⟩
    obtain ⟨f, rfl⟩ := this
    unfold isInst
    cases xs with
    | nil => rfl
    | cons x xs => exact ih x seen_head
  | setB h => unfold isInst; cases h <;> rfl
  | @deque t xs _ ih =>
    unfold isInst
    cases xs with
    | nil => rfl
    | cons x xs => exact ih x seen_head
  | dequeB => unfold isInst; rfl
  | @counter t kvs _ ih =>
    unfold isInst
    cases kvs with
    | nil => rfl
    | cons x xs => exact ih x seen_head
  | counterB => unfold isInst; rfl
  | tuple hl _ ih => unfold isInst; exact isInstZip_all hl ih
  | tupleV _ ih => unfold isInst; exact List.all_eq_true.2 ih
  | tupleB => unfold isInst; rfl
  | @dict k kt vt v kvs h _ _ ih1 ih2 =>
    have : ∃ d, v = .dict d kvs := by cases h <;> exact ⟨_, rfl⟩
    obtain ⟨d, rfl⟩ := this
    unfold isInst
    cases kvs with
    | nil => rfl
    | cons x xs => dsimp only; rw [ih1 x seen_head, ih2 x seen_head]; rfl
  | dictB h => unfold isInst; cases h <;> rfl
  | lit => unfold isInst; rfl
  | union hm _ ih => unfold isInst; exact isInstAny_mem hm ih
  | @gen c args v _ ih => unfold isInst at ih ⊢; exact ih

theorem any_isInst {env : Env} {v} : ∀ {ts : List Ty}, isInstAny env ts v = true → ∃ t ∈ ts, isInst env t v = true
  | [], h => by unfold isInstAny at h; cases h
  | t :: ts, h => by
    unfold isInstAny at h
    rcases Bool.or_eq_true_iff.1 h with h | h
    · exact ⟨t, by simp, h⟩
    · obtain ⟨s, hs, h⟩ := any_isInst h
      exact ⟨s, by simp [hs], h⟩

theorem zip_isInst {env : Env} : ∀ {ts : List Ty} {xs : List Val}, isInstZip env ts xs = true → ts.length = xs.length ∧ ∀ p ∈ ts.zip xs, isInst env p.1 p.2 = true
  | [], [], _ => ⟨rfl, by simp⟩
  | [], _ :: _, h => by unfold isInstZip at h; cases h
  | _ :: _, [], h => by unfold isInstZip at h; cases h
  | t :: ts, x :: xs, h => by
    unfold isInstZip at h
    obtain ⟨h1, h2⟩ := Bool.and_eq_true_iff.1 h
    obtain ⟨hl, h2⟩ := zip_isInst h2
    refine ⟨by simp [hl], ?_⟩
    intro p hp
    rcases List.mem_cons.1 hp with rfl | hp
    · exact h1
    · exact h2 p hp

theorem cls_of {env : Env} {c v} (h : isClsInst env c v = true) : Of env false (.cls c) v := by
  cases v <;> first | (cases h; done) | skip
  rename_i d attrs
  unfold isClsInst at h
  dsimp only at h
  split at h
  · rename_i cd hd
    exact .nominal .cls (.cls hd (by simpa using h))
  · rename_i hd
    have := beq_iff_eq.1 h
    subst this
    exact .unknown hd

/-- What the answer yes means. -/
theorem isInst_of {env : Env} {t v} (ht : Told env t) (h : isInst env t v = true) : Of env false t v := by
  induction ht generalizing v with
  | @nominal t hn =>
    by_cases hc : ∃ c, t = .cls c
    · obtain ⟨c, rfl⟩ := hc
      unfold isInst at h
      exact cls_of h
    · refine .nominal hn ?_
      cases hn with
      | prim => unfold isInst bearable at h; exact isPrimInst_iff.1 h
      | none => unfold isInst bearable at h; cases v <;> first | (cases h; done) | exact .none
      | enum =>
        unfold isInst bearable at h
        cases v <;> first | (cases h; done) | skip
        simp only [beq_iff_eq] at h
        subst h; exact .enum
      | std =>
        unfold isInst bearable at h
        cases v <;> first | (cases h; done) | skip
        simp only [isStdInst, Bool.or_eq_true, beq_iff_eq] at h
        rcases h with rfl | h
        · exact .std
        · exact .stdSub h
      | dt =>
        unfold isInst bearable at h
        cases v <;> first | (cases h; done) | skip
        simp only [isDtInst, Bool.or_eq_true, Bool.and_eq_true, beq_iff_eq] at h
        rcases h with rfl | ⟨rfl, rfl⟩
        · exact .dt
        · exact .datetime
      | cls => exact absurd ⟨_, rfl⟩ hc
  | newType => unfold isInst at h; exact .newType (isPrimInst_iff.1 h)
  | any => exact .any
  | list _ ih =>
    unfold isInst at h
    split at h
    · rename_i hl
      obtain ⟨h1, h2⟩ := of_listInst hl
      exact .list h1 h2 (seen_first (ih h))
    · rename_i hl
      obtain ⟨h1, h2⟩ := of_listInst hl
      exact .list h1 h2 seen_nil
    · cases h
  | listB =>
    unfold isInst at h
    obtain ⟨xs, hl⟩ := Option.isSome_iff_exists.1 h
    obtain ⟨h1, h2⟩ := of_listInst hl
    exact .listB h1 h2
  | set _ ih =>
    unfold isInst at h
    split at h
    · rename_i f x xs
      refine .set (xs := x :: xs) ?_ (seen_first (ih h))
      cases f
      · exact .set (by simp)
      · exact .abstract
    · rename_i f
      refine .set (xs := []) ?_ seen_nil
      cases f
      · exact .set (by simp)
      · exact .abstract
    · cases h
  | setB =>
    unfold isInst at h
    split at h
    · rename_i f xs
      refine .setB (xs := xs) ?_
      cases f
      · exact .set (by simp)
      · exact .abstract
    · cases h
  | deque _ ih =>
    unfold isInst at h
    split at h
    · exact .deque (seen_first (ih h))
    · exact .deque seen_nil
    · cases h
  | dequeB =>
    unfold isInst at h
    split at h
    · exact .dequeB
    · cases h
  | counter _ ih =>
    unfold isInst at h
    split at h
    · exact .counter (seen_first (ih h))
    · exact .counter seen_nil
    · cases h
  | counterB =>
    unfold isInst at h
    split at h
    · exact .counterB
    · cases h
  | tuple _ ih =>
    unfold isInst at h
    split at h
    · obtain ⟨hl, h⟩ := zip_isInst h
      exact .tuple hl fun p hp => ih p.1 (List.of_mem_zip hp).1 (h p hp)
    · cases h
  | tupleV _ ih =>
    unfold isInst at h
    split at h
    · exact .tupleV fun x hx => ih (List.all_eq_true.1 h x hx)
    · cases h
  | tupleB =>
    unfold isInst at h
    split at h
    · exact .tupleB
    · cases h
  | dict hk _ _ ih1 ih2 =>
    unfold isInst at h
    split at h
    · obtain ⟨h1, h2⟩ := Bool.and_eq_true_iff.1 h
      exact .dict (.dict hk) (seen_first (ih1 h1)) (seen_first (ih2 h2))
    · exact .dict (.dict hk) seen_nil seen_nil
    · cases h
  | dictB hk =>
    unfold isInst at h
    split at h
    · exact .dictB (.dict hk)
    · cases h
  | union _ ih =>
    unfold isInst at h
    obtain ⟨t, hm, h⟩ := any_isInst h
    exact .union hm (ih t hm h)
  | gen => unfold isInst at h; exact .gen (cls_of h)

/-- **C85** (partial) As far as the first elements of containers go, the answer is right. -/
theorem C85_first_partial {env : Env} {t v} (ht : Told env t) : isInst env t v = true ↔ Of env false t v := ⟨isInst_of ht, C85_accepts⟩

theorem few_seen {α : Type} {xs : List α} (h : xs.length ≤ 1) : seen true xs = seen false xs := by
  cases xs with
  | nil => rfl
  | cons x xs =>
    cases xs with
    | nil => rfl
    | cons y ys => simp at h

theorem seq_small {k v xs} (hs : ∀ s, v ≠ Val.str s) (h : SeqOf k v xs) (hv : AtMostOne v) : xs.length ≤ 1 ∧ ∀ x ∈ xs, AtMostOne x := by
  cases h with
  | list => cases hv with
    | scalar h1 h2 h3 h4 h5 => exact absurd rfl (h1 _)
    | list a b => exact ⟨a, b⟩
  | deque => cases hv with
    | scalar h1 h2 h3 h4 h5 => exact absurd rfl (h2 _)
    | deque a b => exact ⟨a, b⟩
  | tuple => cases hv with
    | scalar h1 h2 h3 h4 h5 => exact absurd rfl (h3 _)
    | tuple a b => exact ⟨a, b⟩
  | str => exact absurd rfl (hs _)

theorem set_small {k v xs} (h : SetOf k v xs) (hv : AtMostOne v) : xs.length ≤ 1 ∧ ∀ x ∈ xs, AtMostOne x := by
  have key : ∀ f, AtMostOne (.set f xs) → xs.length ≤ 1 ∧ ∀ x ∈ xs, AtMostOne x := by
    intro f hv
    cases hv with
    | scalar h1 h2 h3 h4 h5 => exact absurd rfl (h4 _ _)
    | set a b => exact ⟨a, b⟩
  cases h <;> exact key _ hv

theorem dict_small {d kvs} (hv : AtMostOne (.dict d kvs)) : kvs.length ≤ 1 ∧ (∀ kv ∈ kvs, AtMostOne kv.1) ∧ ∀ kv ∈ kvs, AtMostOne kv.2 := by
  cases hv with
  | scalar h1 h2 h3 h4 h5 => exact absurd rfl (h5 _ _)
  | dict a b c => exact ⟨a, b, c⟩

theorem tuple_small {xs} (hv : AtMostOne (.tuple xs)) : ∀ x ∈ xs, AtMostOne x := by
  cases hv with
  | scalar h1 h2 h3 h4 h5 => exact absurd rfl (h3 _)
  | tuple a b => exact b

theorem small_deep {env : Env} {t v} (h : Of env false t v) (hv : AtMostOne v) : Of env true t v := by
  induction h with
  | nominal h1 h2 => exact .nominal h1 h2
  | unknown h => exact .unknown h
  | newType h => exact .newType h
  | any => exact .any
  | list hs h _ ih =>
    obtain ⟨h1, h2⟩ := seq_small hs h hv
    exact .list hs h (by rw [few_seen h1]; exact fun x hx => ih x hx (h2 x (seen_mem hx)))
  | listB hs h => exact .listB hs h
  | set h _ ih =>
    obtain ⟨h1, h2⟩ := set_small h hv
    exact .set h (by rw [few_seen h1]; exact fun x hx => ih x hx (h2 x (seen_mem hx)))
  | setB h => exact .setB h
  | deque _ ih =>
    obtain ⟨h1, h2⟩ := seq_small (k := .seq) (by simp) (.deque (by simp)) hv
    exact .deque (by rw [few_seen h1]; exact fun x hx => ih x hx (h2 x (seen_mem hx)))
  | dequeB => exact .dequeB
  | counter _ ih =>
    obtain ⟨h1, h2, _⟩ := dict_small hv
    exact .counter (by rw [few_seen h1]; exact fun x hx => ih x hx (h2 x (seen_mem hx)))
  | counterB => exact .counterB
  | tuple hl _ ih => exact .tuple hl fun p hp => ih p hp (tuple_small hv _ (List.of_mem_zip hp).2)
  | tupleV _ ih => exact .tupleV fun x hx => ih x hx (tuple_small hv x hx)
  | tupleB => exact .tupleB
  | @dict k kt vt v kvs h _ _ ih1 ih2 =>
    have : ∃ d, v = .dict d kvs := by cases h <;> exact ⟨_, rfl⟩
    obtain ⟨d, rfl⟩ := this
    obtain ⟨h1, h2, h3⟩ := dict_small hv
    exact .dict h (by rw [few_seen h1]; exact fun x hx => ih1 x hx (h2 x (seen_mem hx))) (by rw [few_seen h1]; exact fun x hx => ih2 x hx (h3 x (seen_mem hx)))
  | dictB h => exact .dictB h
  | lit h => exact .lit h
  | union h _ ih => exact .union h (ih hv)
  | gen _ ih => exact .gen (ih hv)

/-- **C85** (partial) For objects whose containers have at most one element, the answer is right. -/
theorem C85_small_partial {env : Env} {t v} (ht : Told env t) (hv : AtMostOne v) : isInst env t v = true ↔ Of env true t v :=
  ⟨fun h => small_deep (isInst_of ht h) hv, C85_accepts⟩

/-! ## Examples -/

namespace C85Ex

def env : Env := Ex.mk []
/-- `dict[str, list[int]] | None`. -/
def ty : Ty := .union [.dict .dict (.prim .str) (.list .list (.prim .int)), .none]
def val : Val := .dict .plain [(.str "a", .list [.int 1, .int 2]), (.str "b", .list [])]

theorem ofTy : Of env true ty val := by
  refine .union (t := .dict .dict (.prim .str) (.list .list (.prim .int))) (by simp) (.dict (.dict (by simp)) ?_ ?_)
  · simp only [seen, if_true, List.mem_cons, List.not_mem_nil, or_false]
    rintro kv (rfl | rfl) <;> exact .nominal .prim .str
  · simp only [seen, if_true, List.mem_cons, List.not_mem_nil, or_false]
    rintro kv (rfl | rfl)
    · refine .list (by simp) .list ?_
      simp only [seen, if_true, List.mem_cons, List.not_mem_nil, or_false]
      rintro x (rfl | rfl) <;> exact .nominal .prim .int
    · exact .list (by simp) .list (by simp [seen])

example : isInst env ty val = true := C85_accepts ofTy

theorem told : Told env ty := by
  refine .union ?_
  simp only [List.mem_cons, List.not_mem_nil, or_false]
  rintro t (rfl | rfl)
  · exact .dict (by simp) (.nominal .prim) (.list (.nominal .prim))
  · exact .nominal .none

example : ¬ Of env false ty (.dict .plain [(.str "a", .list [.str "x"])]) := fun h => by
  have := (C85_first_partial told).2 h
  revert this; decide

/-- A single entry with a single element, of the wrong type. -/
example : ¬ Of env true ty (.dict .plain [(.str "a", .list [.str "x"])]) := by
  rw [← C85_small_partial told]
  · decide
  · refine .dict (by simp) ?_ ?_
    · intro kv hk; rw [List.mem_singleton.1 hk]; exact .scalar (by simp) (by simp) (by simp) (by simp) (by simp)
    · intro kv hk; rw [List.mem_singleton.1 hk]
      refine .list (by simp) ?_
      intro x hx; rw [List.mem_singleton.1 hx]; exact .scalar (by simp) (by simp) (by simp) (by simp) (by simp)

end C85Ex

/-! ## Where it is false -/

/-- `[1, "a"]` is taken for a `list[int]`. -/
theorem C85_false_second : ∃ (env : Env) (t : Ty) (v : Val), Told env t ∧ isInst env t v = true ∧ ¬ Of env true t v := by
  refine ⟨C85Ex.env, .list .list (.prim .int), .list [.int 1, .str "a"], .list (.nominal .prim), by decide, ?_⟩
  intro h
  cases h with
  | nominal h => cases h
  | list _ hx h =>
    cases hx
    have := h (.str "a") (by simp [seen])
    cases this with
    | nominal _ h => cases h

/-- Anything is taken for a `Literal[1]`. -/
theorem C85_false_literal : ∃ (env : Env) (v : Val), isInst env (.lit [.int 1]) v = true ∧ ¬ Of env true (.lit [.int 1]) v := by
  refine ⟨C85Ex.env, .str "x", by decide, ?_⟩
  intro h
  cases h with
  | nominal h => cases h
  | lit h => simp at h

/-- A set is taken for a `frozenset[int]`. -/
theorem C85_false_frozenset : ∃ (env : Env) (v : Val), isInst env (.set .frozen (.prim .int)) v = true ∧ ¬ Of env true (.set .frozen (.prim .int)) v := by
  refine ⟨C85Ex.env, .set false [.int 1], by decide, ?_⟩
  intro h
  cases h with
  | nominal h => cases h
  | set h => cases h with
    | set h => exact h rfl

end Verif.Props
