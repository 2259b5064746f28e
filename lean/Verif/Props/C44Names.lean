import Verif.Lemmas.FuncName
import Verif.Props.C44
import Verif.Props.C54
import Std.Data.String.ToInt
/-!
# C44, continued: when names do not clash

The condition of C44, that no two different unions or literals have functions of the same name, is met (partial) if the classes have names of letters and
digits that differ from each other and from the names of the other types used, unions are built from them by list, set, deque, dict, tuple, Optional and
Union, and literals are ints without sign or strings of letters and digits. Missing: the abstract and frozen variants of the containers, defaultdict,
subscripted generic classes and NewTypes, which share names; variable-length tuples, literals within unions and aliases.
-/

namespace Verif.Props
open Verif Spec

/-- **C44** Different unions have functions of different names. -/
theorem C44_union_names_partial {env : Env} {L} (hL : NamesApart env L) {ts us : List Ty} (ht : ∀ t ∈ ts, BuiltFrom L t) (hu : ∀ t ∈ us, BuiltFrom L t)
    (h : unionFuncName env ts = unionFuncName env us) : ts = us := unionName_inj hL ht hu h

/-- **C44** Different literals have functions of different names. -/
theorem C44_literal_names_partial {env : Env} (hi : IntsApart env.W) {vs us : List Val} (hv : ∀ v ∈ vs, PlainLit env v) (hu : ∀ v ∈ us, PlainLit env v)
    (h0 : vs ≠ []) (h0' : us ≠ []) (h : litFuncName env vs = litFuncName env us) : vs = us := litName_inj hi hv hu h0 h0' h

/-- **C44** In a program with such annotations no names clash, in any class. -/
theorem C44_no_clash_partial {env : Env} {L} (hL : NamesApart env L) (hi : IntsApart env.W) (hU : ∀ ts, Annotated env (.union ts) → ∀ t ∈ ts, BuiltFrom L t)
    (hV : ∀ vs, Annotated env (.lit vs) → vs ≠ [] ∧ ∀ v ∈ vs, PlainLit env v) (c : ClassId) : NoNameClash env c where
  unions := by
    intro ts hr us hr' hn
    rcases reach_written hr (.inl ⟨c, rfl⟩) with ⟨_, h⟩ | h
    · cases h
    · rcases reach_written hr' (.inl ⟨c, rfl⟩) with ⟨_, h'⟩ | h'
      · cases h'
      · exact unionName_inj hL (hU us h') (hU ts h) hn
  lits := by
    intro vs hr us hr' hn
    rcases reach_written hr (.inl ⟨c, rfl⟩) with ⟨_, h⟩ | h
    · cases h
    · rcases reach_written hr' (.inl ⟨c, rfl⟩) with ⟨_, h'⟩ | h'
      · cases h'
      · exact litName_inj hi (hV us h').2 (hV vs h).2 (hV us h').1 (hV vs h).1 hn

/-- **C44** Nor do the names of one class's functions clash with those another class brings along: the condition of C54, C61 and C70. -/
theorem C44_distinct_partial {env : Env} {L} (hL : NamesApart env L) (hi : IntsApart env.W) (hU : ∀ ts, Annotated env (.union ts) → ∀ t ∈ ts, BuiltFrom L t)
    (hV : ∀ vs, Annotated env (.lit vs) → vs ≠ [] ∧ ∀ v ∈ vs, PlainLit env v) : DistinctUnions env ∧ DistinctLits env :=
  ⟨distinctUnions_of (fun _ _ h h' hn => unionName_inj hL (hU _ h') (hU _ h) hn),
   distinctLits_of (fun _ _ h h' hn => litName_inj hi (hV _ h').2 (hV _ h).2 (hV _ h').1 (hV _ h).1 hn)⟩

/-! ## Examples -/

namespace C44Names

/-- Two unions over the same leaves, of different shape. -/
def cdP : ClassDef := { name := "P", mro := ["P"], fields := [
  { name := "a", ty := .union [.tuple [.prim .int], .prim .str] },
  { name := "b", ty := .union [.tuple [.prim .int, .prim .str], .none] },
  { name := "c", ty := .union [.list .list (.cls "P"), .prim .str] },
  { name := "d", ty := .union [.set .set (.cls "P"), .prim .str] },
  { name := "e", ty := .lit [.str "a", .int 1] },
  { name := "f", ty := .lit [.str "a1"] }] }

def env : Env := Ex.mk [("P", cdP)]

/-- The annotations without components. -/
def L (t : Ty) : Prop := t = .prim .int ∨ t = .prim .str ∨ t = .none ∨ t = .cls "P"

theorem apart : NamesApart env L where
  plain := by
    rintro t (rfl | rfl | rfl | rfl)
    · exact ⟨"int", rfl, by decide, by decide⟩
    · exact ⟨"str", rfl, by decide, by decide⟩
    · exact ⟨"NoneType", rfl, by decide, by decide⟩
    · exact ⟨"P", rfl, by decide, by decide⟩
  apart := by
    have key : ∀ t, L t → leafName env t = some (if t.isNone then "NoneType" else match t with | .prim .int => "int" | .prim _ => "str" | _ => "P") := by
      rintro t (rfl | rfl | rfl | rfl) <;> rfl
    intro t u s ht hu h h'
    have := (key t ht).symm.trans (h.trans (h'.symm.trans (key u hu)))
    rcases ht with rfl | rfl | rfl | rfl <;> rcases hu with rfl | rfl | rfl | rfl <;> first | rfl | exact absurd (Option.some.inj this) (by decide)

theorem built {ts} (h : Annotated env (.union ts)) : ∀ t ∈ ts, BuiltFrom L t := by
  have i : BuiltFrom L (.prim .int) := .leaf (.inl rfl)
  have s : BuiltFrom L (.prim .str) := .leaf (.inr (.inl rfl))
  have n : BuiltFrom L .none := .leaf (.inr (.inr (.inl rfl)))
  have p : BuiltFrom L (.cls "P") := .leaf (.inr (.inr (.inr rfl)))
  have one : ∀ {ts : List Ty} {t u : Ty}, PartOf (.union ts) (.union [t, u]) → (∀ ts, ¬ PartOf (.union ts) t) → (∀ ts, ¬ PartOf (.union ts) u) → ts = [t, u] := by
    intro ts t u h ht hu
    cases h with
    | refl => rfl
    | union hm h =>
      simp only [List.mem_cons, List.not_mem_nil, or_false] at hm
      rcases hm with rfl | rfl
      · exact absurd h (ht _)
      · exact absurd h (hu _)
  have tup : ∀ {ts us : List Ty}, PartOf (.union ts) (.tuple us) → ∃ t ∈ us, PartOf (.union ts) t := by
    intro ts us h
    cases h with
    | tuple hm h => exact ⟨_, hm, h⟩
  obtain ⟨c, cd, f, hc, hf, hp⟩ := h
  have hcd : cd = cdP := by
    simp only [Env.cls, env, Ex.mk, List.lookup_cons, List.lookup_nil] at hc
    split at hc
    · exact (Option.some.inj hc).symm
    · cases hc
  subst hcd
  simp only [cdP, List.mem_cons, List.not_mem_nil, or_false] at hf
  rcases hf with rfl | rfl | rfl | rfl | rfl | rfl
  · have := one hp (by
      intro ts h
      obtain ⟨t, ht, h⟩ := tup h
      simp only [List.mem_cons, List.not_mem_nil, or_false] at ht
      subst ht; cases h) (by intro ts h; cases h)
    subst this
    simp only [List.mem_cons, List.not_mem_nil, or_false, forall_eq_or_imp, forall_eq]
    exact ⟨.node (h := "tuple") (cs := [.prim .int]) rfl (by simp) (by simpa using i), s⟩
  · have := one hp (by
      intro ts h
      obtain ⟨t, ht, h⟩ := tup h
      simp only [List.mem_cons, List.not_mem_nil, or_false] at ht
      rcases ht with rfl | rfl <;> cases h) (by intro ts h; cases h)
    subst this
    simp only [List.mem_cons, List.not_mem_nil, or_false, forall_eq_or_imp, forall_eq]
    exact ⟨.node (h := "tuple") (cs := [.prim .int, .prim .str]) rfl (by simp) (by simpa using ⟨i, s⟩), n⟩
  · have := one hp (by intro ts h; cases h with | list h => cases h) (by intro ts h; cases h)
    subst this
    simp only [List.mem_cons, List.not_mem_nil, or_false, forall_eq_or_imp, forall_eq]
    exact ⟨.node (h := "list") (cs := [.cls "P"]) rfl (by simp) (by simpa using p), s⟩
  · have := one hp (by intro ts h; cases h with | set h => cases h) (by intro ts h; cases h)
    subst this
    simp only [List.mem_cons, List.not_mem_nil, or_false, forall_eq_or_imp, forall_eq]
    exact ⟨.node (h := "set") (cs := [.cls "P"]) rfl (by simp) (by simpa using p), s⟩
  · cases hp
  · cases hp

theorem ints : IntsApart env.W := fun _ _ h => Int.repr_injective h

theorem lits {vs} (h : Annotated env (.lit vs)) : vs ≠ [] ∧ ∀ v ∈ vs, PlainLit env v := by
  obtain ⟨c, cd, f, hc, hf, hp⟩ := h
  have hcd : cd = cdP := by
    simp only [Env.cls, env, Ex.mk, List.lookup_cons, List.lookup_nil] at hc
    split at hc
    · exact (Option.some.inj hc).symm
    · cases hc
  subst hcd
  have two : ∀ {ts : List Ty} {vs}, PartOf (.lit vs) (.union ts) → ∃ t ∈ ts, PartOf (.lit vs) t := by
    intro ts vs h
    cases h with
    | union hm h => exact ⟨_, hm, h⟩
  simp only [cdP, List.mem_cons, List.not_mem_nil, or_false] at hf
  rcases hf with rfl | rfl | rfl | rfl | rfl | rfl
  iterate 4
    obtain ⟨t, ht, h⟩ := two hp
    simp only [List.mem_cons, List.not_mem_nil, or_false] at ht
    rcases ht with rfl | rfl
    · first
      | (cases h with | list h => cases h)
      | (cases h with | set h => cases h)
      | (cases h with
         | tuple hm h =>
           simp only [List.mem_cons, List.not_mem_nil, or_false] at hm
           first
           | (rcases hm with rfl | rfl <;> cases h)
           | (subst hm; cases h))
    · cases h
  · cases hp
    refine ⟨by simp, fun v hv => ?_⟩
    simp only [List.mem_cons, List.not_mem_nil, or_false] at hv
    rcases hv with rfl | rfl
    · exact .str (by decide)
    · exact .int (by decide)
  · cases hp
    refine ⟨by simp, fun v hv => ?_⟩
    simp only [List.mem_cons, List.not_mem_nil, or_false] at hv
    subst hv
    exact .str (by decide)

/-- The condition of C44 holds of the class, whose four unions and two literals thus each have a function of their own. -/
example : NoNameClash env "P" := C44_no_clash_partial apart ints (fun _ => built) (fun _ => lits) "P"

example : DistinctUnions env ∧ DistinctLits env := C44_distinct_partial apart ints (fun _ => built) (fun _ => lits)

example : unionFuncName env [.list .list (.cls "P"), .prim .str] ≠ unionFuncName env [.set .set (.cls "P"), .prim .str] := fun h => by
  have b : ∀ t, (t = Ty.list .list (.cls "P") ∨ t = .set .set (.cls "P") ∨ t = .prim .str) → BuiltFrom L t := by
    have p : BuiltFrom L (.cls "P") := .leaf (.inr (.inr (.inr rfl)))
    rintro t (rfl | rfl | rfl)
    · exact .node (h := "list") (cs := [.cls "P"]) rfl (by simp) (by simpa using p)
    · exact .node (h := "set") (cs := [.cls "P"]) rfl (by simp) (by simpa using p)
    · exact .leaf (.inr (.inl rfl))
  have := C44_union_names_partial apart (fun t ht => b t (by simp at ht; grind)) (fun t ht => b t (by simp at ht; grind)) h
  simp at this

example : litFuncName env [.str "a", .int 1] ≠ litFuncName env [.str "a1"] := fun h => by
  have b1 : ∀ v ∈ [Val.str "a", .int 1], PlainLit env v := by
    intro v hv
    simp only [List.mem_cons, List.not_mem_nil, or_false] at hv
    rcases hv with rfl | rfl
    · exact .str (by decide)
    · exact .int (by decide)
  have b2 : ∀ v ∈ [Val.str "a1"], PlainLit env v := by
    intro v hv
    simp only [List.mem_cons, List.not_mem_nil, or_false] at hv
    subst hv
    exact .str (by decide)
  have := C44_literal_names_partial ints b1 b2 (by simp) (by simp) h
  simp at this

end C44Names
end Verif.Props
