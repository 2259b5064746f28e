import Verif.Spec.Ident
import Verif.Model.Compat
import Verif.Examples.World
/-!
# C76: names of generated functions are identifiers

"Whatever the annotations of a class are, the functions generated for its unions and literals have names that can stand in the generated source: nonempty, of
letters, digits and underscores, not beginning with a digit." The names are those of core.py:928-956 with their prefixes `union_se`, `union_de` and `literal_de`.
-/

namespace Verif.Props
open Verif Spec

theorem sanitize_chars {s : String} {c : Char} (h : c ∈ (sanitize s).toList) : IdentChar c := by
  unfold sanitize at h
  rw [String.toList_ofList, List.mem_map] at h
  obtain ⟨d, _, rfl⟩ := h
  split
  · next hd =>
    unfold Char.isAlphanum Char.isAlpha Char.isUpper Char.isLower Char.isDigit at hd
    simp only [Bool.or_eq_true, Bool.and_eq_true, decide_eq_true_eq] at hd
    rcases hd with (h | h) | h
    · exact .upper h.1 h.2
    · exact .lower h.1 h.2
    · exact .digit h.1 h.2
  · exact .underscore rfl

/-- A prefix of letters and underscores before a cleaned name. -/
theorem prefix_ident {p : String} {s} (hp : Identifier p) : Identifier (p ++ sanitize s) where
  start := by
    obtain ⟨c, cs, h, hc⟩ := hp.start
    exact ⟨c, cs ++ (sanitize s).toList, by rw [String.toList_append, h]; rfl, hc⟩
  chars := by
    intro c hc
    rw [String.toList_append, List.mem_append] at hc
    rcases hc with hc | hc
    · exact hp.chars c hc
    · exact sanitize_chars hc

theorem ident_of {s : String} (h0 : ∃ c cs, s.toList = c :: cs ∧ ¬ ('0' ≤ c ∧ c ≤ '9')) (h : ∀ c ∈ s.toList, ('a' ≤ c ∧ c ≤ 'z') ∨ c = '_') : Identifier s :=
  ⟨h0, fun c hc => (h c hc).elim (fun h => .lower h.1 h.2) .underscore⟩

/-- **C76** The functions that write and read a union. -/
theorem C76_union (env : Env) (ts : List Ty) : Identifier ("union_se_" ++ unionFuncName env ts) ∧ Identifier ("union_de_" ++ unionFuncName env ts) :=
  ⟨prefix_ident (ident_of ⟨'u', _, rfl, by decide⟩ (by decide)), prefix_ident (ident_of ⟨'u', _, rfl, by decide⟩ (by decide))⟩

/-- **C76** The function that reads a literal. -/
theorem C76_literal (env : Env) (vs : List Val) : Identifier ("literal_de_" ++ litFuncName env vs) :=
  prefix_ident (ident_of ⟨'l', _, rfl, by decide⟩ (by decide))

/-- `Union[dict[str, list[int]], None]` -/
example : unionFuncName (Ex.mk []) [.dict .dict (.prim .str) (.list .list (.prim .int)), .none] = "dict_str__list_int___NoneType" := by rfl

example : Identifier ("literal_de_" ++ litFuncName (Ex.mk []) [.str "r+", .str "日"]) := C76_literal _ _

example : Identifier ("union_se_" ++ unionFuncName (Ex.mk []) [.dict .dict (.prim .str) (.list .list (.prim .int)), .none]) := (C76_union _ _).1

end Verif.Props
