import Verif.Spec.History
/-!
# Memoized questions about types
-/

namespace Verif
open Spec

/-- `D`: types asked about so far, or about to be; `P`: those of the present question. -/
structure Asked (D P : Ty → Prop) : Prop where
  closedD : ∀ t s, D t → Piece true t s → D s
  closedP : ∀ t s, P t → Piece true t s → P s
  twin : ∀ s p, D s → P p → tyEq s p = true → s = p

/-- Every entry is about a type of `D`, and right if about a type of `P`. -/
def Right {β : Type} (D P : Ty → Prop) (f : Ty → β) (m : Memo β) : Prop :=
  ∀ e ∈ m, D e.1 ∧ (P e.1 → e.2 = f e.1)

theorem Right.get {β : Type} {D P} {f : Ty → β} {m : Memo β} (h : Right D P f m) (hA : Asked D P) {t b} (ht : P t) (hg : m.get t = some b) :
    b = f t := by
  unfold Memo.get at hg
  cases hf : m.find? (fun e => tyEq e.1 t) with
  | none => rw [hf] at hg; cases hg
  | some e =>
    rw [hf] at hg
    have he := h e (List.mem_of_find?_eq_some hf)
    have hs : e.1 = t := hA.twin _ _ he.1 ht (List.find?_some (p := fun e : Ty × β => tyEq e.1 t) hf)
    have hb : b = e.2 := (Option.some.inj hg).symm
    rw [hb, he.2 (hs ▸ ht), hs]

theorem Right.snoc {β : Type} {D P} {f : Ty → β} {m : Memo β} (h : Right D P f m) {t b} (ht : D t) (hb : P t → b = f t) :
    Right D P f (m ++ [(t, b)]) := by
  intro e he
  rcases List.mem_append.1 he with he | he
  · exact h e he
  · rw [List.mem_singleton.1 he]
    exact ⟨ht, hb⟩

theorem Right.call {β : Type} {D P} {f : Ty → β} {m : Memo β} (h : Right D P f m) (hA : Asked D P) {t} (ht : D t) {g : Memo β → β × Memo β}
    (hg : Right D P f (g m).2 ∧ (P t → (g m).1 = f t)) : Right D P f (m.call t g).2 ∧ (P t → (m.call t g).1 = f t) := by
  unfold Memo.call
  split
  · rename_i b hb
    exact ⟨h, fun hp => h.get hA hp hb⟩
  · exact ⟨hg.1.snoc ht hg.2, hg.2⟩

theorem nameIn_eq (env : Env) (t : Ty) (m : Memo String) : nameIn env t m = m.call t (ask.nameBody env t) := by
  cases t with
  | union ts =>
    unfold nameIn ask.nameBody
    rcases ts with _ | ⟨a, _ | ⟨b, _ | ⟨c, r⟩⟩⟩
    · rfl
    · rfl
    · cases b <;> rfl
    · cases b <;> rfl
  | _ => rfl

theorem nameIn_union {env : Env} {ts m} (h : ∀ a, ts ≠ [a, .none]) : nameIn env (.union ts) m =
    m.call (.union ts) (fun m => ("Union[" ++ ", ".intercalate (namesUIn env ts m).1 ++ "]", (namesUIn env ts m).2)) := by
  rcases ts with _ | ⟨a, _ | ⟨b, _ | ⟨c, r⟩⟩⟩
  · rfl
  · rfl
  · cases b <;> first | rfl | exact absurd rfl (h a)
  · cases b <;> rfl

theorem typename_union {env : Env} {ts} (h : ∀ a, ts ≠ [a, .none]) :
    typename env (.union ts) = "Union[" ++ ", ".intercalate (typenamesU env ts) ++ "]" := by
  rcases ts with _ | ⟨a, _ | ⟨b, _ | ⟨c, r⟩⟩⟩
  · rfl
  · rfl
  · cases b <;> first | rfl | exact absurd rfl (h a)
  · cases b <;> rfl

theorem namesUIn_pair {env : Env} {a b r m} (h : b ≠ .none) : namesUIn env (a :: b :: r) m =
    ((nameIn env a m).1 :: (nameIn env b (nameIn env a m).2).1 :: (namesUIn env r (nameIn env b (nameIn env a m).2).2).1,
      (namesUIn env r (nameIn env b (nameIn env a m).2).2).2) := by
  cases b <;> first | rfl | exact absurd rfl h

theorem typenamesU_pair {env : Env} {a b r} (h : b ≠ .none) :
    typenamesU env (a :: b :: r) = typename env a :: typename env b :: typenamesU env r := by
  cases b <;> first | rfl | exact absurd rfl h

/-- Every adjacent pair `a, None`. -/
def Pairs (P : Ty → Prop) (ts : List Ty) : Prop := ∀ l a r, ts = l ++ a :: .none :: r → P (.union [a, .none])

theorem Pairs.tail {P : Ty → Prop} {t ts} (h : Pairs P (t :: ts)) : Pairs P ts := fun l a r e => h (t :: l) a r (by rw [e]; rfl)

theorem Pairs.head {P : Ty → Prop} {a r} (h : Pairs P (a :: .none :: r)) : P (.union [a, .none]) := h [] a r rfl

section
variable {env : Env} {D P : Ty → Prop}

theorem name_leaf (hA : Asked D P) {t : Ty} {m : Memo String} (h : Right D P (typename env) m) (hD : D t)
    (he : nameIn env t m = m.call t (fun m => (typename env t, m))) :
    Right D P (typename env) (nameIn env t m).2 ∧ (P t → (nameIn env t m).1 = typename env t) := by
  rw [he]
  exact h.call hA hD ⟨h, fun _ => rfl⟩

mutual
theorem nameIn_right (hA : Asked D P) : ∀ (t : Ty) (m : Memo String), D t → Right D P (typename env) m →
    Right D P (typename env) (nameIn env t m).2 ∧ (P t → (nameIn env t m).1 = typename env t)
  | .list k t, m, hD, h => by
    have ih := nameIn_right hA t m (hA.closedD _ _ hD .list) h
    rw [nameIn]
    exact h.call hA hD ⟨ih.1, fun hp => by rw [typename, ← ih.2 (hA.closedP _ _ hp .list)]⟩
  | .set k t, m, hD, h => by
    have ih := nameIn_right hA t m (hA.closedD _ _ hD .set) h
    rw [nameIn]
    exact h.call hA hD ⟨ih.1, fun hp => by rw [typename, ← ih.2 (hA.closedP _ _ hp .set)]⟩
  | .deque t, m, hD, h => by
    have ih := nameIn_right hA t m (hA.closedD _ _ hD .deque) h
    rw [nameIn]
    exact h.call hA hD ⟨ih.1, fun hp => by rw [typename, ← ih.2 (hA.closedP _ _ hp .deque)]⟩
  | .tupleV t, m, hD, h => by
    have ih := nameIn_right hA t m (hA.closedD _ _ hD .tupleV) h
    rw [nameIn]
    exact h.call hA hD ⟨ih.1, fun hp => by rw [typename, ← ih.2 (hA.closedP _ _ hp .tupleV)]⟩
  | .tuple ts, m, hD, h => by
    have ih := namesIn_right hA ts m (fun t ht => hA.closedD _ _ hD (.tuple ht)) h
    rw [nameIn]
    exact h.call hA hD ⟨ih.1, fun hp => by rw [typename, ← ih.2 (fun t ht => hA.closedP _ _ hp (.tuple ht))]⟩
  | .dict k kt vt, m, hD, h => by
    have ih := nameIn_right hA kt m (hA.closedD _ _ hD .key) h
    have ih' := nameIn_right hA vt _ (hA.closedD _ _ hD .value) ih.1
    rw [nameIn]
    exact h.call hA hD ⟨ih'.1, fun hp => by rw [typename, ← ih.2 (hA.closedP _ _ hp .key), ← ih'.2 (hA.closedP _ _ hp .value)]⟩
  | .union ts, m, hD, h => by
    have ih := namesUIn_right hA ts m (fun t ht => hA.closedD _ _ hD (.union ht)) (fun l a r e => hA.closedD _ _ hD (.opt rfl e)) h
    have ih1 : ∀ a r, ts = a :: r → Right D P (typename env) (nameIn env a m).2 ∧ (P a → (nameIn env a m).1 = typename env a) :=
      fun a r e => namesHd_right hA ts m (fun t ht => hA.closedD _ _ hD (.union ht)) h a r e
    by_cases ho : ∃ a, ts = [a, .none]
    · obtain ⟨a, rfl⟩ := ho
      have ih2 := ih1 a _ rfl
      rw [nameIn]
      exact h.call hA hD ⟨ih2.1, fun hp => by rw [typename, ← ih2.2 (hA.closedP _ _ hp (.union (by simp)))]⟩
    · have hn : ∀ a, ts ≠ [a, .none] := fun a e => ho ⟨a, e⟩
      rw [nameIn_union hn]
      refine h.call hA hD ⟨ih.1, fun hp => ?_⟩
      rw [typename_union hn, ← ih.2 (fun t ht => hA.closedP _ _ hp (.union ht)) (fun l a r e => hA.closedP _ _ hp (.opt rfl e))]
  | .prim p, m, hD, h => name_leaf hA h hD rfl
  | .newType n p, m, hD, h => name_leaf hA h hD rfl
  | .none, m, hD, h => name_leaf hA h hD rfl
  | .any, m, hD, h => name_leaf hA h hD rfl
  | .listB k, m, hD, h => name_leaf hA h hD rfl
  | .setB k, m, hD, h => name_leaf hA h hD rfl
  | .dequeB, m, hD, h => name_leaf hA h hD rfl
  | .counter t, m, hD, h => name_leaf hA h hD rfl
  | .counterB, m, hD, h => name_leaf hA h hD rfl
  | .tupleB, m, hD, h => name_leaf hA h hD rfl
  | .dictB k, m, hD, h => name_leaf hA h hD rfl
  | .enum e, m, hD, h => name_leaf hA h hD rfl
  | .std k, m, hD, h => name_leaf hA h hD rfl
  | .dt k, m, hD, h => name_leaf hA h hD rfl
  | .lit vs, m, hD, h => name_leaf hA h hD rfl
  | .cls c, m, hD, h => name_leaf hA h hD rfl
  | .gen c ts, m, hD, h => name_leaf hA h hD rfl
  | .tvar x, m, hD, h => name_leaf hA h hD rfl
  | .alias n t, m, hD, h => name_leaf hA h hD rfl
  | .other s, m, hD, h => name_leaf hA h hD rfl
theorem namesIn_right (hA : Asked D P) : ∀ (ts : List Ty) (m : Memo String), (∀ t ∈ ts, D t) → Right D P (typename env) m →
    Right D P (typename env) (namesIn env ts m).2 ∧ ((∀ t ∈ ts, P t) → (namesIn env ts m).1 = typenames env ts)
  | [], m, _, h => ⟨h, fun _ => rfl⟩
  | t :: ts, m, hD, h => by
    have ih := nameIn_right hA t m (hD t (by simp)) h
    have ih' := namesIn_right hA ts _ (fun t ht => hD t (by simp [ht])) ih.1
    rw [namesIn, typenames]
    exact ⟨ih'.1, fun hp => by rw [← ih.2 (hp t (by simp)), ← ih'.2 (fun t ht => hp t (by simp [ht]))]⟩
theorem namesHd_right (hA : Asked D P) : ∀ (ts : List Ty) (m : Memo String), (∀ t ∈ ts, D t) → Right D P (typename env) m →
    ∀ a r, ts = a :: r → Right D P (typename env) (nameIn env a m).2 ∧ (P a → (nameIn env a m).1 = typename env a)
  | [], _, _, _ => fun a r e => by cases e
  | t :: ts, m, hD, h => fun a r e => by
    have ih := nameIn_right hA t m (hD t (by simp)) h
    obtain ⟨rfl, rfl⟩ := List.cons.inj e
    exact ih
theorem namesUIn_right (hA : Asked D P) : ∀ (ts : List Ty) (m : Memo String), (∀ t ∈ ts, D t) → Pairs D ts → Right D P (typename env) m →
    Right D P (typename env) (namesUIn env ts m).2 ∧ ((∀ t ∈ ts, P t) → Pairs P ts → (namesUIn env ts m).1 = typenamesU env ts)
  | [], m, _, _, h => ⟨h, fun _ _ => rfl⟩
  | [a], m, hD, _, h => by
    have ih := nameIn_right hA a m (hD a (by simp)) h
    rw [namesUIn, typenamesU]
    exact ⟨ih.1, fun hp _ => by rw [← ih.2 (hp a (by simp))]⟩
  | a :: b :: r, m, hD, hDp, h => by
    have ihr := fun m h => namesUIn_right hA r m (fun t ht => hD t (by simp [ht])) hDp.tail.tail h
    have iha := nameIn_right hA a m (hD a (by simp)) h
    have ihb := nameIn_right hA b _ (hD b (by simp)) iha.1
    by_cases hb : b = .none
    · subst hb
      have ho : Right D P (typename env) (m.call (.union [a, .none]) fun m => ("Optional[" ++ (nameIn env a m).1 ++ "]", (nameIn env a m).2)).2 ∧
          (P (.union [a, .none]) → (m.call (.union [a, .none]) fun m => ("Optional[" ++ (nameIn env a m).1 ++ "]", (nameIn env a m).2)).1 =
            typename env (.union [a, .none])) :=
        h.call hA hDp.head ⟨iha.1, fun hp => by rw [typename, ← iha.2 (hA.closedP _ _ hp (.union (by simp)))]⟩
      have ih := ihr _ ho.1
      rw [namesUIn, typenamesU]
      refine ⟨ih.1, fun hp hpp => ?_⟩
      have := ho.2 hpp.head
      rw [typename] at this
      rw [← this, ← ih.2 (fun t ht => hp t (by simp [ht])) hpp.tail.tail]
    · have ih := ihr _ ihb.1
      rw [namesUIn_pair hb, typenamesU_pair hb]
      exact ⟨ih.1, fun hp hpp => by rw [← iha.2 (hp a (by simp)), ← ihb.2 (hp b (by simp)), ← ih.2 (fun t ht => hp t (by simp [ht])) hpp.tail.tail]⟩
end

theorem body_leaf {t : Ty} {m : Memo String} (h : Right D P (typename env) m) (he : ask.nameBody env t m = (typename env t, m)) :
    Right D P (typename env) (ask.nameBody env t m).2 ∧ (P t → (ask.nameBody env t m).1 = typename env t) := by
  rw [he]
  exact ⟨h, fun _ => rfl⟩

theorem nameBody_right (hA : Asked D P) {t : Ty} {m : Memo String} (hD : D t) (h : Right D P (typename env) m) :
    Right D P (typename env) (ask.nameBody env t m).2 ∧ (P t → (ask.nameBody env t m).1 = typename env t) := by
  have one : ∀ s, Piece true t s → Right D P (typename env) (nameIn env s m).2 ∧ (P t → (nameIn env s m).1 = typename env s) :=
    fun s hp => ⟨(nameIn_right hA s m (hA.closedD _ _ hD hp) h).1, fun hP => (nameIn_right hA s m (hA.closedD _ _ hD hp) h).2 (hA.closedP _ _ hP hp)⟩
  cases t with
  | list k t => exact ⟨(one t .list).1, fun hp => by rw [typename, ← (one t .list).2 hp]; rfl⟩
  | set k t => exact ⟨(one t .set).1, fun hp => by rw [typename, ← (one t .set).2 hp]; rfl⟩
  | deque t => exact ⟨(one t .deque).1, fun hp => by rw [typename, ← (one t .deque).2 hp]; rfl⟩
  | tupleV t => exact ⟨(one t .tupleV).1, fun hp => by rw [typename, ← (one t .tupleV).2 hp]; rfl⟩
  | tuple ts =>
    have ih := namesIn_right hA ts m (fun t ht => hA.closedD _ _ hD (.tuple ht)) h
    exact ⟨ih.1, fun hp => by rw [typename, ← ih.2 (fun t ht => hA.closedP _ _ hp (.tuple ht))]; rfl⟩
  | dict k kt vt =>
    have ih := one kt .key
    have ih' := nameIn_right hA vt _ (hA.closedD _ _ hD .value) ih.1
    exact ⟨ih'.1, fun hp => by rw [typename, ← ih.2 hp, ← ih'.2 (hA.closedP _ _ hp .value)]; rfl⟩
  | union ts =>
    have ih := namesUIn_right hA ts m (fun t ht => hA.closedD _ _ hD (.union ht)) (fun l a r e => hA.closedD _ _ hD (.opt rfl e)) h
    by_cases ho : ∃ a, ts = [a, .none]
    · obtain ⟨a, rfl⟩ := ho
      have ih2 := one a (.union (by simp))
      exact ⟨ih2.1, fun hp => by rw [typename, ← ih2.2 hp]; rfl⟩
    · have hn : ∀ a, ts ≠ [a, .none] := fun a e => ho ⟨a, e⟩
      have e : ask.nameBody env (.union ts) m = ("Union[" ++ ", ".intercalate (namesUIn env ts m).1 ++ "]", (namesUIn env ts m).2) := by
        rcases ts with _ | ⟨a, _ | ⟨b, _ | ⟨c, r⟩⟩⟩
        · rfl
        · rfl
        · cases b <;> first | rfl | exact absurd rfl (hn a)
        · cases b <;> rfl
      rw [e]
      refine ⟨ih.1, fun hp => ?_⟩
      rw [typename_union hn, ← ih.2 (fun t ht => hA.closedP _ _ hp (.union ht)) (fun l a r e => hA.closedP _ _ hp (.opt rfl e))]
  | _ => exact body_leaf h rfl

/-- All tables. -/
structure AllRight (env : Env) (D P : Ty → Prop) (m : Memos) : Prop where
  names : Right D P (typename env) m.names
  inner : Right D P (typename env) m.inner
  args : Right D P Ty.args m.args
  unions : Right D P Ty.isUnion m.unions

/-- The answer computed from the type alone. -/
def trueAnswer (env : Env) : Query → Answer
  | .name t => .text (typename env t)
  | .args t => .types t.args
  | .isUnion t => .yes t.isUnion
  | .isOpt t => .yes t.isOpt
  | .isOptDataclass t => .yes (t.isOpt && (match t.args with
    | s :: _ => s.isCls
    | [] => false))

theorem ask_right (hA : Asked D P) {m : Memos} (h : AllRight env D P m) {q : Query} (hD : D q.ty) :
    AllRight env D P (ask env m q).2 ∧ (P q.ty → (ask env m q).1 = trueAnswer env q) := by
  cases q with
  | name t =>
    unfold ask trueAnswer
    dsimp only
    split
    · rename_i s hs
      exact ⟨h, fun hp => by rw [h.names.get hA hp hs]; rfl⟩
    · have ih := nameBody_right hA (t := t) hD h.inner
      exact ⟨⟨h.names.snoc hD ih.2, ih.1, h.args, h.unions⟩, fun hp => by rw [← ih.2 hp]⟩
  | args t =>
    have := h.args.call hA (t := t) (g := fun a => (t.args, a)) hD ⟨h.args, fun _ => rfl⟩
    exact ⟨⟨h.names, h.inner, this.1, h.unions⟩, fun hp => congrArg Answer.types (this.2 hp)⟩
  | isUnion t =>
    have := h.unions.call hA (t := t) (g := fun a => (t.isUnion, a)) hD ⟨h.unions, fun _ => rfl⟩
    exact ⟨⟨h.names, h.inner, h.args, this.1⟩, fun hp => congrArg Answer.yes (this.2 hp)⟩
  | isOpt t => exact ⟨h, fun _ => rfl⟩
  | isOptDataclass t =>
    have := h.args.call hA (t := t) (g := fun a => (t.args, a)) hD ⟨h.args, fun _ => rfl⟩
    refine ⟨⟨h.names, h.inner, this.1, h.unions⟩, fun hp => ?_⟩
    unfold ask trueAnswer
    dsimp only
    rw [this.2 hp]
    rfl

theorem after_right (hA : Asked D P) {h : List Query} (hD : ∀ q ∈ h, D q.ty) : ∀ {m : Memos}, AllRight env D P m →
    AllRight env D P (Memos.after env h m) := by
  induction h with
  | nil => intro m hm; exact hm
  | cons q h ih =>
    intro m hm
    exact ih (fun q hq => hD q (.tail _ hq)) (ask_right hA hm (hD q (.head _))).1

end

theorem right_nil {β : Type} {D P} {f : Ty → β} : Right D P f [] := fun e he => by cases he

theorem allRight_nil {env : Env} {D P} : AllRight env D P {} := ⟨right_nil, right_nil, right_nil, right_nil⟩

/-! ## Questions whose answer equal types share -/

/-- The table of a memoized function after calls with these types. -/
def Memo.asked {β : Type} (f : Ty → β) : List Ty → Memo β → Memo β
  | [], m => m
  | t :: h, m => Memo.asked f h (m.call t (fun m => (f t, m))).2

theorem Memo.asked_own {β : Type} {f : Ty → β} : ∀ {h : List Ty} {m : Memo β}, (∀ e ∈ m, e.2 = f e.1) → ∀ e ∈ Memo.asked f h m, e.2 = f e.1
  | [], _, hm, e, he => hm e he
  | t :: h, m, hm, e, he => by
    refine Memo.asked_own (h := h) (m := (m.call t (fun m => (f t, m))).2) ?_ e he
    intro e he
    unfold Memo.call at he
    split at he
    · exact hm e he
    · rcases List.mem_append.1 he with he | he
      · exact hm e he
      · rw [List.mem_singleton.1 he]

theorem Memo.call_shared {β : Type} {f : Ty → β} (hf : ∀ s t, tyEq s t = true → f s = f t) {m : Memo β} (hm : ∀ e ∈ m, e.2 = f e.1) (t : Ty) :
    (m.call t (fun m => (f t, m))).1 = f t := by
  unfold Memo.call
  split
  · rename_i b hb
    unfold Memo.get at hb
    cases hx : m.find? (fun e => tyEq e.1 t) with
    | none => rw [hx] at hb; cases hb
    | some e =>
      rw [hx] at hb
      have hb' : b = e.2 := (Option.some.inj hb).symm
      rw [hb', hm e (List.mem_of_find?_eq_some hx), hf _ _ (List.find?_some (p := fun e : Ty × β => tyEq e.1 t) hx)]
  · rfl

end Verif
