import Verif.Model.Able
import Verif.Props.C71
/-!
# C84: is_serializable and is_deserializable

Full statement: "is_serializable says of a class, and of its instances, whether its functions for writing have been generated: by decorating the class, by
decorating a class that mentions it, or by giving one of them to to_dict. is_deserializable says the same of reading. Once the answer is yes it stays so."

Proved: exactly which classes have functions for a side after any history (`C84_functions_partial`), and that both functions answer whether there are
functions for *either* side (`C84_either_partial`). So the statement holds where classes are only decorated with `@serde` (`C84_decorated_partial`), and is false
where a class has been prepared for one side only (`C84_false_read`, `C84_false_deserialize`), and of subclasses
(`C84_false_subclass`). Missing: base classes, other than in `C84_stays`.
-/

namespace Verif.Spec

/-- The history has decorated, or used on this side, the class or one that mentions it. -/
def Prepared (env : Env) (h : List GenEvent) (side : Side) (c : ClassId) : Prop :=
  ∃ e ∈ h, ∃ d, GenEvent.On e side d ∧ (env.cls d).isSome = true ∧ Reach env true (.cls d) (.cls c)

end Verif.Spec

namespace Verif.Props
open Verif Spec

section
variable {env : Env} {order : ClassId → List ClassId}

/-! ## Which classes get a scope -/

theorem genAll_scope {side : Side} {sub : ClassId → Gen → Gen} {c e} {P : Prop}
    (hsub : ∀ d st, d ∈ order c → ((sub d st).scope e).isSome = true → (st.scope e).isSome = true ∨ P) :
    ∀ ds, (∀ d ∈ ds, d ∈ order c) → ∀ st, ((genAll env side sub c ds st).scope e).isSome = true → (st.scope e).isSome = true ∨ P
  | [], _, _, h => .inl h
  | d :: ds, hds, st, h => by
    unfold genAll at h
    rcases genAll_scope hsub ds (fun d h => hds d (by simp [h])) _ h with h | h
    · split at h
      · exact hsub d st (hds d (by simp)) h
      · exact .inl h
    · exact .inr h

theorem gen_scope (ht : ∀ c d e, d ∈ order c → e ∈ order d → e ∈ order c) {side : Side} {e} :
    ∀ n stack re sr c st, ((gen env order side n stack re sr c st).scope e).isSome = true →
      (st.scope e).isSome = true ∨ ((env.cls c).isSome = true ∧ (e = c ∨ e ∈ order c))
  | 0, _, _, _, _, _, h => .inl h
  | n + 1, stack, re, sr, c, st, h => by
    unfold gen at h
    split at h
    · exact .inl h
    · rename_i hcond
      have hc : (env.cls c).isSome = true := by
        cases hx : env.cls c with
        | none => simp [hx] at hcond
        | some _ => rfl
      have h : ((genAll env side (gen env order side n (c :: stack) side.reuseDflt true) c (order c) (st.enter re sr c)).scope e).isSome = true := by
        unfold Gen.put at h
        dsimp only at h
        split at h
        · rename_i he; subst he; simpa using h
        · exact h
      have := genAll_scope (order := order) (P := (env.cls c).isSome = true ∧ (e = c ∨ e ∈ order c)) (fun d st hd h => by
        rcases gen_scope ht n _ _ _ d st h with h | ⟨_, h | h⟩
        · exact .inl h
        · subst h; exact .inr ⟨hc, .inr hd⟩
        · exact .inr ⟨hc, .inr (ht _ _ _ hd h)⟩) (order c) (fun _ h => h) _ h
      rcases this with h | h
      · unfold Gen.enter at h
        dsimp only at h
        split at h
        · rename_i he; exact .inr ⟨hc, .inl he⟩
        · exact .inl h
      · exact .inr h

theorem meet_scope (ht : ∀ c d e, d ∈ order c → e ∈ order d → e ∈ order c) {side : Side} {c e} {st : Gen}
    (h : ((st.meet env order side c).scope e).isSome = true) : (st.scope e).isSome = true ∨ ((env.cls c).isSome = true ∧ (e = c ∨ e ∈ order c)) := by
  unfold Gen.meet at h
  split at h
  · exact gen_scope ht _ _ _ _ _ _ h
  · exact .inl h

theorem meet_only (ht : ∀ c d e, d ∈ order c → e ∈ order d → e ∈ order c) {side side' : Side} {c e} {st : Gen}
    (h : HasOwn (st.meet env order side c) side' e) : HasOwn st side' e ∨ (side' = side ∧ (env.cls c).isSome = true ∧ (e = c ∨ e ∈ order c)) := by
  unfold Gen.meet at h
  split at h
  · cases hc : env.cls c with
    | none => rw [gen_none hc] at h; exact .inl h
    | some cd =>
      rcases gen_only ht _ _ _ _ _ _ h with h | ⟨h1, h2⟩
      · exact .inl h
      · exact .inr ⟨h1, rfl, h2⟩
  · exact .inl h

/-- What one event adds. -/
theorem step_only (ht : ∀ c d e, d ∈ order c → e ∈ order d → e ∈ order c) {side : Side} {x} {st : Gen} {e : GenEvent} (h : HasOwn (st.step env order e) side x) :
    HasOwn st side x ∨ ∃ d, GenEvent.On e side d ∧ (env.cls d).isSome = true ∧ (x = d ∨ x ∈ order d) := by
  cases e with
  | decorate c =>
    unfold Gen.step at h
    dsimp only at h
    split at h
    · rename_i cd hc
      rcases gen_only ht _ _ _ _ _ _ h with h | ⟨h1, h2⟩
      · rcases gen_only ht _ _ _ _ _ _ h with h | ⟨h1, h2⟩
        · exact .inl h
        · exact .inr ⟨c, rfl, by rw [hc]; rfl, h2⟩
      · exact .inr ⟨c, rfl, by rw [hc]; rfl, h2⟩
    · exact .inl h
  | write c =>
    rcases meet_only ht h with h | ⟨rfl, h1, h2⟩
    · exact .inl h
    · exact .inr ⟨c, rfl, h1, h2⟩
  | read c =>
    rcases meet_only ht h with h | ⟨rfl, h1, h2⟩
    · exact .inl h
    · exact .inr ⟨c, rfl, h1, h2⟩

theorem step_scope (ht : ∀ c d e, d ∈ order c → e ∈ order d → e ∈ order c) {x} {st : Gen} {e : GenEvent} (h : ((st.step env order e).scope x).isSome = true) :
    (st.scope x).isSome = true ∨ ∃ side d, GenEvent.On e side d ∧ (env.cls d).isSome = true ∧ (x = d ∨ x ∈ order d) := by
  cases e with
  | decorate c =>
    unfold Gen.step at h
    dsimp only at h
    split at h
    · rcases gen_scope ht _ _ _ _ _ _ h with h | h
      · rcases gen_scope ht _ _ _ _ _ _ h with h | h
        · exact .inl h
        · exact .inr ⟨.se, c, rfl, h⟩
      · exact .inr ⟨.se, c, rfl, h⟩
    · exact .inl h
  | write c =>
    rcases meet_scope ht h with h | h
    · exact .inl h
    · exact .inr ⟨.se, c, rfl, h⟩
  | read c =>
    rcases meet_scope ht h with h | h
    · exact .inl h
    · exact .inr ⟨.de, c, rfl, h⟩

theorem run_only (ht : ∀ c d e, d ∈ order c → e ∈ order d → e ∈ order c) {side : Side} {x} : ∀ {h : List GenEvent} {st : Gen}, HasOwn (st.run env order h) side x →
    HasOwn st side x ∨ ∃ e ∈ h, ∃ d, GenEvent.On e side d ∧ (env.cls d).isSome = true ∧ (x = d ∨ x ∈ order d)
  | [], _, h => .inl h
  | e :: es, st, h => by
    rcases run_only ht (h := es) (st := st.step env order e) h with h | ⟨e', he, h⟩
    · rcases step_only ht h with h | h
      · exact .inl h
      · exact .inr ⟨e, by simp, h⟩
    · exact .inr ⟨e', by simp [he], h⟩

theorem run_scope (ht : ∀ c d e, d ∈ order c → e ∈ order d → e ∈ order c) {x} : ∀ {h : List GenEvent} {st : Gen}, ((st.run env order h).scope x).isSome = true →
    (st.scope x).isSome = true ∨ ∃ side, ∃ e ∈ h, ∃ d, GenEvent.On e side d ∧ (env.cls d).isSome = true ∧ (x = d ∨ x ∈ order d)
  | [], _, h => .inl h
  | e :: es, st, h => by
    rcases run_scope ht (h := es) (st := st.step env order e) h with h | ⟨side, e', he, h⟩
    · rcases step_scope ht h with h | ⟨side, d, h⟩
      · exact .inl h
      · exact .inr ⟨side, e, by simp, d, h⟩
    · exact .inr ⟨side, e', by simp [he], h⟩

theorem mention (hO : OrderOk env order) {x d : ClassId} (h : x = d ∨ x ∈ order d) : Reach env true (.cls d) (.cls x) := by
  rcases h with rfl | h
  · exact .refl
  · exact (order_reach hO).1 h

/-- **C84** (functions; also the converse of C71) After any history, a class has its functions for a side exactly if the history has decorated, or used on that side, the class or one
that mentions it. -/
theorem C84_functions_partial (hb : NoBases env) (hO : OrderOk env order) {h : List GenEvent} {side : Side} {c : ClassId} {cd : ClassDef} (hc : env.cls c = some cd) :
    HasOwn (Gen.run env order {} h) side c ↔ Prepared env h side c := by
  constructor
  · intro hh
    rcases run_only (order_trans hO) hh with ⟨s, hs, _⟩ | ⟨e, he, d, h1, h2, h3⟩
    · cases hs
    · exact ⟨e, he, d, h1, h2, mention hO h3⟩
  · rintro ⟨e, he, d, h1, h2, h3⟩
    obtain ⟨dd, hdd⟩ := Option.isSome_iff_exists.1 h2
    exact C71_generated_partial hb hO he h1 hdd h3 hc

/-- **C84** (partial) `is_serializable` and `is_deserializable`, which are the same function, say whether the class has been prepared for writing or for reading. -/
theorem C84_either_partial (hb : NoBases env) (hO : OrderOk env order) {h : List GenEvent} {c : ClassId} {cd : ClassDef} (hc : env.cls c = some cd) (as : List (String × Val)) :
    ((Gen.run env order {} h).able env (.cls c) = true ↔ Prepared env h .se c ∨ Prepared env h .de c) ∧
    ((Gen.run env order {} h).ableVal env (.inst c as) = true ↔ Prepared env h .se c ∨ Prepared env h .de c) := by
  have key : ((Gen.run env order {} h).get env c).isSome = true ↔ Prepared env h .se c ∨ Prepared env h .de c := by
    rw [get_own hb hc]
    constructor
    · intro hh
      rcases run_scope (order_trans hO) hh with hs | ⟨side, e, he, d, h1, h2, h3⟩
      · cases hs
      · cases side
        · exact .inl ⟨e, he, d, h1, h2, mention hO h3⟩
        · exact .inr ⟨e, he, d, h1, h2, mention hO h3⟩
    · rintro (hh | hh)
      · obtain ⟨s, hs, _⟩ := (C84_functions_partial hb hO hc).2 hh
        rw [hs]; rfl
      · obtain ⟨s, hs, _⟩ := (C84_functions_partial hb hO hc).2 hh
        rw [hs]; rfl
  exact ⟨key, key⟩

/-- **C84** (partial) In a program that so far has only decorated classes with `@serde`, the answer of both functions is right. -/
theorem C84_decorated_partial (hb : NoBases env) (hO : OrderOk env order) {h : List GenEvent} (hd : ∀ e ∈ h, ∃ c, e = .decorate c) {c : ClassId} {cd : ClassDef}
    (hc : env.cls c = some cd) (side : Side) : (Gen.run env order {} h).able env (.cls c) = true ↔ HasOwn (Gen.run env order {} h) side c := by
  rw [(C84_either_partial hb hO hc []).1, C84_functions_partial hb hO hc]
  have swap : ∀ s s', Prepared env h s c → Prepared env h s' c := by
    rintro s s' ⟨e, he, d, h1, h2, h3⟩
    obtain ⟨k, rfl⟩ := hd e he
    exact ⟨_, he, d, h1, h2, h3⟩
  constructor
  · rintro (h | h) <;> exact swap _ _ h
  · exact fun h => .inl (swap _ _ h)

/-- **C84** With base classes too: once the answer is yes it stays so, whatever the program does next. -/
theorem C84_stays {h h' : List GenEvent} {t : Ty} (hy : (Gen.run env order {} h).able env t = true) : (Gen.run env order {} (h ++ h')).able env t = true := by
  cases t with
  | cls c =>
    unfold Gen.able Gen.get at hy ⊢
    dsimp only at hy ⊢
    cases hc : env.cls c with
    | none => rw [hc] at hy; cases hy
    | some cd =>
      rw [hc] at hy
      dsimp only at hy ⊢
      rw [List.findSome?_isSome_iff] at hy ⊢
      obtain ⟨b, hb, hs⟩ := hy
      obtain ⟨s, hs⟩ := Option.isSome_iff_exists.1 hs
      refine ⟨b, hb, ?_⟩
      have : Gen.run env order {} (h ++ h') = (Gen.run env order {} h).run env order h' := by
        unfold Gen.run; rw [List.foldl_append]
      rw [this]
      obtain ⟨s', hs', _⟩ := (Grows.run h' (Gen.run env order {} h)).scope b s hs
      rw [hs']; rfl
  | _ => cases hy

end

/-- **C84** With decorators applied separately, to a class that has no base classes: the answer is yes as soon as there is any. -/
theorem C84_separate (ds : List Deco) : (DecoState.run ds).able = true ↔ ds ≠ [] := by
  cases ds with
  | nil => simp [DecoState.run, DecoState.able]
  | cons d ds =>
    have : ∀ (ds : List Deco) (st : DecoState), st.dflts.isSome = true → (ds.foldl DecoState.apply st).dflts.isSome = true := by
      intro ds
      induction ds with
      | nil => exact fun _ h => h
      | cons d ds ih => exact fun st _ => ih _ rfl
    simp only [ne_eq, reduceCtorEq, not_false_eq_true, iff_true]
    exact this ds _ rfl

/-! ## Examples -/

namespace C84Ex
open C71Ex

/-- A field's class is prepared along with the class. -/
example : (Gen.run env order {} [.decorate "Top"]).able env (.cls "Leaf") = true :=
  (C84_either_partial noBases orderOk (cd := leaf) rfl []).1.2 (.inl ⟨.decorate "Top", by simp, "Top", rfl, rfl, reach_top⟩)
example : (Gen.run env order {} [.decorate "Leaf"]).able env (.cls "Top") = false := rfl
example : (Gen.run env order {} ([.decorate "Top"] ++ [.read "Leaf", .write "Top"])).able env (.cls "Leaf") = true :=
  C84_stays ((C84_either_partial noBases orderOk (cd := leaf) rfl []).1.2 (.inl ⟨.decorate "Top", by simp, "Top", rfl, rfl, reach_top⟩))
example : (DecoState.run [{ side := .de, reuse := true }]).able = true := (C84_separate _).2 (by simp)
example : HasOwn (Gen.run env order {} [.decorate "Top"]) .de "Leaf" :=
  (C84_decorated_partial noBases orderOk (h := [.decorate "Top"]) (by simp) (cd := leaf) rfl .de).1 rfl


/-- A subscripted generic is said not to be serializable, although `from_dict` accepts it. -/
example : (Gen.run env order {} [.decorate "Top"]).able env (.gen "Top" [.prim .int]) = false := rfl

/-- A decorated class and a subclass of it, which is a dataclass but not decorated. -/
def base : ClassDef := { name := "Base", mro := ["Base"], fields := [{ name := "n", ty := .prim .int }] }
def sub : ClassDef := { name := "Sub", mro := ["Sub", "Base"], fields := [{ name := "n", ty := .prim .int }, { name := "m", ty := .prim .int }] }
def subs : Env := Ex.mk [("Base", base), ("Sub", sub)]

theorem orderOk : OrderOk subs fun c => [c] := by
  intro c d
  by_cases h1 : c = "Base"
  · subst h1
    have hR : iterTypes subs "Base" = some [.leaf (.prim .int), .cls "Base"] := rfl
    rw [hR]
    simp
  by_cases h2 : c = "Sub"
  · subst h2
    have hR : iterTypes subs "Sub" = some [.leaf (.prim .int), .leaf (.prim .int), .cls "Sub"] := rfl
    rw [hR]
    simp
  have hn : subs.cls c = none := by
    simp only [Env.cls, subs, Ex.mk, List.lookup_cons, List.lookup_nil, beq_false_of_ne h1, beq_false_of_ne h2]
  have hR : iterTypes subs c = some [.cls c] := by
    unfold iterTypes
    show typesCls subs 3 c [] = _
    unfold typesCls
    rw [hn]
    rfl
  rw [hR]
  simp

end C84Ex

/-! ## Where it is false -/

/-- A class that was only read is said to be serializable, although nothing to write it has been generated. -/
theorem C84_false_read : ∃ (env : Env) (order : ClassId → List ClassId) (h : List GenEvent) (c : ClassId),
    (Gen.run env order {} h).able env (.cls c) = true ∧ ¬ HasOwn (Gen.run env order {} h) .se c ∧ ¬ Prepared env h .se c := by
  refine ⟨C71Ex.env, C71Ex.order, [.read "Leaf"], "Leaf", rfl, ?_, ?_⟩
  · rintro ⟨s, hs, hh⟩
    cases hs
    cases hh
  · rintro ⟨e, he, d, h1, _⟩
    rw [List.mem_singleton.1 he] at h1
    exact h1

/-- Likewise a class with `@deserialize` only. -/
theorem C84_false_deserialize : ∃ ds : List Deco, (DecoState.run ds).able = true ∧ (DecoState.run ds).se.isSome = false :=
  ⟨[Deco.bare .de], rfl, rfl⟩

/-- Likewise an undecorated subclass of a decorated class: the scope it finds, and with it every function, is the one of the base class. -/
theorem C84_false_subclass : ∃ (env : Env) (order : ClassId → List ClassId) (h : List GenEvent) (c : ClassId),
    OrderOk env order ∧ (Gen.run env order {} h).able env (.cls c) = true ∧ ∀ side, ¬ HasOwn (Gen.run env order {} h) side c ∧ ¬ Prepared env h side c := by
  refine ⟨C84Ex.subs, fun c => [c], [.decorate "Base"], "Sub", C84Ex.orderOk, rfl, ?_⟩
  intro side
  constructor
  · rintro ⟨s, hs, _⟩
    cases hs
  · rintro ⟨e, he, d, h1, _, h3⟩
    rw [List.mem_singleton.1 he] at h1
    have h1 : "Base" = d := h1
    subst h1
    exact absurd ((order_reach C84Ex.orderOk).2 h3) (by simp)

end Verif.Props
