import Verif.Lemmas.Names
import Verif.Examples.World
/-!
# C19: deny_unknown_fields
-/

namespace Verif.Props
open Spec

/-- **C19**, first half: with `deny_unknown_fields` an input dict with a key that is no field's name or alias (nor, with
flattened dataclasses, one of theirs) is rejected with SerdeError. A flattened dict takes unknown keys, so it is excluded. -/
theorem C19_unknown_rejected {env : Env} {o : DeOpts} {n c cd dk kvs k v} (hc : env.cls c = some cd) (hdeny : cd.denyUnknown = true)
    (hfd : ∀ f ∈ cd.fields, takesRest f = false) (htr : cd.transparent = false) (hg : NoGlobal env c)
    (hk : (k, v) ∈ kvs) (hu : ∀ s, k = .str s → ¬ Recognised env c s) :
    ∃ e, e.isSerde = true ∧ fromDict env o (n + 2) (.cls c) (.dict dk kvs) = .error e := by
  refine ⟨.wrap (.serde "unknown"), rfl, ?_⟩
  rw [fromDict_cls hg.de (by intro as h; cases h), deClsF_some hc]
  have hfd' : cd.hasFlatDict = false := by
    unfold ClassDef.hasFlatDict
    rw [List.any_eq_false]
    intro f hf
    rw [flatDict_eq_takesRest, hfd f hf]
    simp
  have hun : deUnknown env c cd (.dict dk kvs) = .ok true := by
    unfold deUnknown
    rw [hdeny, hfd', orEmptyItems_dict]
    simp only [Bool.not_false, Bool.and_true, if_true]
    congr 1
    rw [List.any_eq_true]
    refine ⟨(k, v), hk, ?_⟩
    rw [Bool.not_eq_true']
    by_cases hkk : keyKnown (env.known c) k = true
    · obtain ⟨s, hs, rfl⟩ := keyKnown_iff.1 hkk
      exact absurd (knownCls_sound hs) (hu s rfl)
    · simpa using hkk
  unfold deArgs
  simp only [htr, Bool.false_eq_true, if_false, if_true, hun]
  rfl

/-- **C19**, second half, for dicts. (Not for every input: `C19_false_not_a_mapping`.) When every key is recognised, the class behaves as its copy without `deny_unknown_fields`: same
attribute values or the same exception. -/
theorem C19_known_unaffected_partial {env : Env} {o : DeOpts} {n c c'} {cd : ClassDef} {dk kvs} (hc : env.cls c = some { cd with denyUnknown := true })
    (hc' : env.cls c' = some { cd with denyUnknown := false }) (hac : FlattenAcyclic env) (ht : SameTables env c c')
    (hg : NoGlobal env c) (hg' : NoGlobal env c') (hk : ∀ kv ∈ kvs, ∃ s, kv.1 = .str s ∧ Recognised env c s) :
    fromDict env o n (.cls c') (.dict dk kvs) = asInstOf c' (fromDict env o n (.cls c) (.dict dk kvs)) := by
  have hd : ∀ k as, Val.dict dk kvs ≠ .inst k as := by intro k as h; cases h
  have ha : ArgsAgree { cd with denyUnknown := true } { cd with denyUnknown := false } := by constructor <;> rfl
  have hun : deUnknown env c' { cd with denyUnknown := false } (.dict dk kvs) = .ok false := rfl
  have hun2 : deUnknown env c { cd with denyUnknown := true } (.dict dk kvs) = .ok false := by
    unfold deUnknown
    split
    · rw [orEmptyItems_dict]
      dsimp only
      congr 1
      rw [List.any_eq_false]
      intro kv hkv
      obtain ⟨s, hs, hr⟩ := hk kv hkv
      simp only [Bool.not_eq_true', Bool.not_eq_false]
      exact keyKnown_iff.2 ⟨s, (known_iff hac).2 hr, hs⟩
    · rfl
  exact fromObj_twin hc hc' ha rfl rfl ht hg hg' (hd c) (hd c') (by rw [hun, hun2])

/-- **C19**, second half, for inputs that are false in Python (`None`, `[]`, `""`, `0`, `False`, empty dicts): they have no keys, and the class
behaves as its copy without `deny_unknown_fields`. -/
theorem C19_empty_unaffected_partial {env : Env} {o : DeOpts} {n c c'} {cd : ClassDef} {d} (hc : env.cls c = some { cd with denyUnknown := true })
    (hc' : env.cls c' = some { cd with denyUnknown := false }) (ht : SameTables env c c')
    (hg : NoGlobal env c) (hg' : NoGlobal env c') (hd : d ∈ [Val.none, .list [], .tuple [], .str "", .int 0, .bool false]) :
    fromDict env o n (.cls c') d = asInstOf c' (fromDict env o n (.cls c) d) := by
  have hf : truthy env d = false ∧ ∀ k as, d ≠ .inst k as := by
    simp only [List.mem_cons, List.not_mem_nil, or_false] at hd
    rcases hd with rfl | rfl | rfl | rfl | rfl | rfl <;> exact ⟨rfl, by intro k as h; cases h⟩
  have ha : ArgsAgree { cd with denyUnknown := true } { cd with denyUnknown := false } := by constructor <;> rfl
  have hun : deUnknown env c' { cd with denyUnknown := false } d = .ok false := rfl
  have hun2 : deUnknown env c { cd with denyUnknown := true } d = .ok false := by
    unfold deUnknown orEmptyItems
    rw [hf.1]
    split <;> rfl
  exact fromObj_twin hc hc' ha rfl rfl ht hg hg' (hf.2 c) (hf.2 c') (by rw [hun, hun2])

namespace C19Ex
def A : ClassDef := { name := "A", mro := ["A"], fields := [{ name := "x", ty := .prim .int }, { name := "y", ty := .prim .str, alias := ["z"] }] }
def env : Env := Ex.mk [("A", { A with denyUnknown := true }), ("A0", { A with denyUnknown := false })]
theorem noGlobal (c : ClassId) : NoGlobal env c := ⟨by simp [env, Ex.mk], by simp [env, Ex.mk]⟩

theorem env_cls {c : ClassId} {cd : ClassDef} (h : env.cls c = some cd) :
    cd = { A with denyUnknown := true } ∨ cd = { A with denyUnknown := false } := by
  simp only [env, Ex.mk, Env.cls, List.lookup] at h
  split at h
  · exact .inl (by simpa using h.symm)
  · split at h
    · exact .inr (by simpa using h.symm)
    · cases h

theorem acyclic : FlattenAcyclic env := by
  refine ⟨fun _ => 0, fun _ => Nat.zero_le _, ?_⟩
  intro c cd f ch hc hf hi
  rcases env_cls hc with rfl | rfl <;>
    (simp [A] at hf; rcases hf with rfl | rfl <;> simp [inlined] at hi)

/-- `{"x": 1, "q": 2}` is rejected: "q" is recognised by no field. -/
example : ∃ e, e.isSerde = true ∧
    fromDict env {} (3 + 2) (.cls "A") (.dict .plain [(.str "x", .int 1), (.str "q", .int 2)]) = .error e := by
  refine C19_unknown_rejected (k := .str "q") (v := .int 2) rfl rfl ?_ rfl (noGlobal _) (by simp) ?_
  · intro f hf; simp [A] at hf; rcases hf with rfl | rfl <;> rfl
  · intro s hs hr
    cases hs
    have := (known_iff acyclic).2 hr
    revert this
    decide

/-- With known keys (one of them an alias) the option changes nothing. -/
example : let d := Val.dict .plain [(.str "x", .int 1), (.str "z", .str "s")]
    fromDict env {} 5 (.cls "A0") d = asInstOf "A0" (fromDict env {} 5 (.cls "A") d) ∧
    fromDict env {} 5 (.cls "A") d = .ok (.inst "A" [("x", .int 1), ("y", .str "s")]) :=
  ⟨C19_known_unaffected_partial (cd := A) rfl rfl acyclic ⟨rfl, rfl⟩ (noGlobal _) (noGlobal _) (by
    intro kv hkv
    simp at hkv
    rcases hkv with rfl | rfl
    · exact ⟨"x", rfl, (known_iff acyclic).1 (by decide)⟩
    · exact ⟨"z", rfl, (known_iff acyclic).1 (by decide)⟩), rfl⟩
end C19Ex

namespace C19Empty
def A : ClassDef := { name := "A", mro := ["A"], fields := [] }
def env : Env := Ex.mk [("A", { A with denyUnknown := true }), ("A0", { A with denyUnknown := false })]

/-- A class without fields reads `None`, with or without the option. -/
example : fromDict env {} 5 (.cls "A") .none = .ok (.inst "A" []) ∧
    fromDict env {} 5 (.cls "A0") .none = asInstOf "A0" (fromDict env {} 5 (.cls "A") .none) :=
  ⟨rfl, C19_empty_unaffected_partial (cd := A) rfl rfl ⟨rfl, rfl⟩ ⟨by simp [env, Ex.mk], by simp [env, Ex.mk]⟩
    ⟨by simp [env, Ex.mk], by simp [env, Ex.mk]⟩ (by simp)⟩

/-- **C19 is false** for inputs that are no mappings: a list has no keys, but a class without fields rejects `[1]` with the option (`.items()` is
called on the list) and accepts it without. -/
theorem C19_false_not_a_mapping : fromDict env {} 5 (.cls "A0") (.list [.int 1]) = .ok (.inst "A0" []) ∧
    ∃ e, fromDict env {} 5 (.cls "A") (.list [.int 1]) = .error e ∧ e.isSerde = true := ⟨rfl, _, rfl, rfl⟩
end C19Empty
end Verif.Props
