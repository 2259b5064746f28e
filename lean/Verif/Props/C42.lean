import Verif.Lemmas.Cache
import Verif.Lemmas.SeGen
import Verif.Examples.World
/-!
# C42: the result does not depend on history

Full statement: "(De)serializing a value at a given type gives the same result no matter which other types were (de)serialized before in
the process."

What a process remembers between calls are the wrapper classes made for unions given as a type; a history is the list of the unions asked
for so far, in any order, with any taggings. Proved for every history: dataclasses, and every type without a union in it, are read and
written the same (`C42_class`, `C42_class_tuple`, `C42_union_free`, `C42_write_untyped`). For a type with unions in it (partial): the same,
provided no union asked for before is a rewriting (`Rewritten`) of one of them without being written the same, as `Union[A, B]` and `Union[B, A]` are.
Without the condition the statement is false: after `Union[A, B]` every use of `Union[B, A]` fails (`C42_false_read`, `C42_false_write`).
-/

namespace Verif.Props
open Verif Spec

/-- **C42** (partial), `from_dict`. Missing: a history with a differently written, equal union (false: `C42_false_read`). -/
theorem C42_from_dict_partial {env : Env} {h : List UnionReq} {o : DeOpts} {n c d} (hT : NoTwinBefore h o.tagging c) :
    fromDictAfter env h o n c d = fromDict env o n c d :=
  (deAtIn_inEq (closed_within hT) n).fromObj _ _ _ _ _ _ (.inr .refl) (.inl rfl)

/-- **C42** (partial), `from_tuple`. Missing: as above. -/
theorem C42_from_tuple_partial {env : Env} {h : List UnionReq} {o : DeOpts} {n c d} (hT : NoTwinBefore h o.tagging c) :
    fromTupleAfter env h o n c d = fromTuple env o n c d :=
  (deAtIn_inEq (closed_within hT) n).fromObj _ _ _ _ _ _ (.inr .refl) (.inl rfl)

theorem toObjIn_own {env : Env} {h : List UnionReq} {r b re cv sn c tg v} (hT : ∀ t, c = some t → NoTwinBefore h tg t) :
    toObjIn env (Wrappers.after h) r b re cv sn c tg v = toObjF env r b re cv sn c tg v := by
  have key : ∀ ts, (c = some (.union ts) ∨ ∃ nm, c = some (.alias nm (.union ts))) → (Ty.union ts).isOpt = false →
      wrapAll (cacheSeUnionIn env r (Wrappers.get (Wrappers.after h) ts tg) ts tg v) = toObjF env r b re cv sn c tg v := by
    intro ts hc ho
    have hw : Wrappers.get (Wrappers.after h) ts tg = ts := by
      refine Wrappers.get_own (fun q hq hg he => ?_)
      rcases hc with hc | ⟨nm, hc⟩
      · exact hT _ hc q hq (.inl hg) ts .refl (tyEq_rewritten _ _ he)
      · exact hT _ hc q hq (.inl hg) ts (.step .alias .refl) (tyEq_rewritten _ _ he)
    rw [hw, cacheSeUnionIn_own]
    unfold toObjF toObjBody
    rcases hc with rfl | ⟨nm, rfl⟩ <;> simp [ho]
  unfold toObjIn
  split
  · rename_i ts hts
    split
    · rfl
    · rename_i ho
      refine key ts ?_ (by simpa using ho)
      split at hts
      · rename_i nm t
        cases hts
        exact .inr ⟨nm, rfl⟩
      · exact .inl hts
  · rfl

/-- **C42** (partial), `to_dict` with a type. Missing: as above (false: `C42_false_write`). -/
theorem C42_to_dict_partial {env : Env} {h : List UnionReq} {o : SeOpts} {n c v} (hc : o.c = some c) (hT : NoTwinBefore h o.tagging c) :
    toDictAfter env h o n v = toDict env o n v := by
  cases n with
  | zero => rfl
  | succ n => exact toObjIn_own (fun t ht => by rw [hc] at ht; rw [← Option.some.inj ht]; exact hT)

/-- **C42** (partial), `to_tuple` with a type. Missing: as above. -/
theorem C42_to_tuple_partial {env : Env} {h : List UnionReq} {o : SeOpts} {n c v} (hc : o.c = some c) (hT : NoTwinBefore h o.tagging c) :
    toTupleAfter env h o n v = toTuple env o n v := by
  cases n with
  | zero => rfl
  | succ n => exact toObjIn_own (fun t ht => by rw [hc] at ht; rw [← Option.some.inj ht]; exact hT)

/-- Without a type, writing is the same after every history. -/
theorem C42_write_untyped {env : Env} {h : List UnionReq} {o : SeOpts} {n v} (hc : o.c = none) :
    toDictAfter env h o n v = toDict env o n v ∧ toTupleAfter env h o n v = toTuple env o n v := by
  cases n with
  | zero => exact ⟨rfl, rfl⟩
  | succ n => exact ⟨toObjIn_own (fun t ht => by rw [hc] at ht; cases ht), toObjIn_own (fun t ht => by rw [hc] at ht; cases ht)⟩

/-- A type in which no union is written is read the same after every history. -/
theorem C42_union_free {env : Env} {h : List UnionReq} {o : DeOpts} {n c d} (hU : ∀ ts, ¬ Within false c (.union ts)) :
    fromDictAfter env h o n c d = fromDict env o n c d ∧ fromTupleAfter env h o n c d = fromTuple env o n c d :=
  have hT : NoTwinBefore h o.tagging c := fun _ _ _ ts ht => absurd ht (hU ts)
  ⟨C42_from_dict_partial hT, C42_from_tuple_partial hT⟩

theorem within_cls {fold c t} (h : Within fold (.cls c) t) : t = .cls c := by
  cases h with
  | refl => rfl
  | step hp _ => cases hp

/-- A dataclass, whatever unions its fields have, is read the same after every history. -/
theorem C42_class {env : Env} {h : List UnionReq} {o : DeOpts} {n c d} :
    fromDictAfter env h o n (.cls c) d = fromDict env o n (.cls c) d :=
  (C42_union_free (fun ts ht => by have := within_cls ht; cases this)).1

theorem C42_class_tuple {env : Env} {h : List UnionReq} {o : DeOpts} {n c d} :
    fromTupleAfter env h o n (.cls c) d = fromTuple env o n (.cls c) d :=
  (C42_union_free (fun ts ht => by have := within_cls ht; cases this)).2

namespace Ex42

def fx (n : String) (t : Ty) : FieldDef := { name := n, ty := t }
def cdA : ClassDef := { name := "A", mro := ["A"], fields := [fx "x" (.prim .int)] }
def cdB : ClassDef := { name := "B", mro := ["B"], fields := [fx "y" (.prim .str)] }
def env : Env := Ex.mk [("A", cdA), ("B", cdB)]
def AB : List Ty := [.cls "A", .cls "B"]
def BA : List Ty := [.cls "B", .cls "A"]
def IS : List Ty := [.prim .int, .prim .str]
/-- `{"A": {"x": 1}}` -/
def data : Val := .dict .plain [(Val.str "A", .dict .plain [(Val.str "x", .int 1)])]
def a : Val := .inst "A" [("x", .int 1)]

theorem within_ab {t} (h : Within false (.list .list (.union AB)) t) :
    t = .list .list (.union AB) ∨ t = .union AB ∨ t = .cls "A" ∨ t = .cls "B" := by
  cases h with
  | refl => exact .inl rfl
  | step hp h =>
    cases hp
    cases h with
    | refl => exact .inr (.inl rfl)
    | step hp h =>
      cases hp with
      | union hm =>
        simp only [AB, List.mem_cons, List.not_mem_nil, or_false] at hm
        rcases hm with rfl | rfl
        · exact .inr (.inr (.inl (within_cls h)))
        · exact .inr (.inr (.inr (within_cls h)))
      | opt hf => cases hf

/-- A history with the union itself and another one. -/
theorem noTwin : NoTwinBefore [(AB, .external), (IS, .external), (BA, .internal "t")] .external (.list .list (.union AB)) := by
  intro q hq hg ts ht he
  rcases within_ab ht with h | h | h | h
  all_goals cases h
  simp only [List.mem_cons, List.not_mem_nil, or_false] at hq
  rcases hq with rfl | rfl | rfl
  · rfl
  · obtain ⟨u, hu, hr⟩ := he.members.1 (.prim .int) (by simp [IS])
    simp only [AB, List.mem_cons, List.not_mem_nil, or_false] at hu
    rcases hu with rfl | rfl <;> cases hr
  · rcases hg with hg | hg <;> cases hg

example : fromDictAfter env [(AB, .external), (IS, .external), (BA, .internal "t")] {} 6 (.list .list (.union AB)) (.list [data]) = .ok (.list [a]) :=
  (C42_from_dict_partial (o := {}) noTwin).trans rfl
example : fromTupleAfter env [(AB, .external), (IS, .external), (BA, .internal "t")] {} 6 (.list .list (.union AB)) (.list [data]) = .ok (.list [a]) :=
  (C42_from_tuple_partial (o := {}) noTwin).trans rfl

theorem noTwin' : NoTwinBefore [(AB, .external), (IS, .external)] .external (.union AB) := by
  intro q hq hg ts ht he
  have := within_ab (.step .list ht)
  rcases this with h | h | h | h
  all_goals cases h
  simp only [List.mem_cons, List.not_mem_nil, or_false] at hq
  rcases hq with rfl | rfl
  · rfl
  · obtain ⟨u, hu, hr⟩ := he.members.1 (.prim .int) (by simp [IS])
    simp only [AB, List.mem_cons, List.not_mem_nil, or_false] at hu
    rcases hu with rfl | rfl <;> cases hr

example : toDictAfter env [(AB, .external), (IS, .external)] { c := some (.union AB) } 6 a = .ok data :=
  (C42_to_dict_partial (o := { c := some (.union AB) }) rfl noTwin').trans rfl
example : toTupleAfter env [(AB, .external), (IS, .external)] { c := some (.union AB) } 6 a = .ok data :=
  (C42_to_tuple_partial (o := { c := some (.union AB) }) rfl noTwin').trans rfl
example : toDictAfter env [(AB, .external), (BA, .external)] {} 6 a = .ok (.dict .plain [(Val.str "x", .int 1)]) :=
  (C42_write_untyped (o := {}) rfl).1.trans rfl
example : fromDictAfter env [(AB, .external), (BA, .external)] {} 6 (.cls "A") (.dict .plain [(Val.str "x", .int 1)]) = .ok a :=
  C42_class.trans rfl
example : fromTupleAfter env [(AB, .external), (BA, .external)] {} 6 (.cls "A") (.tuple [.int 1]) = .ok a :=
  C42_class_tuple.trans rfl
example : fromDictAfter env [(AB, .external)] {} 6 (.list .list (.cls "A")) (.list [.dict .plain [(Val.str "x", .int 1)]]) = .ok (.list [a]) :=
  (C42_union_free (o := {}) (fun ts h => by
    cases h with
    | step hp h =>
      cases hp
      have := within_cls h
      cases this)).1.trans rfl

end Ex42

/-- **C42 is false in general**, reading: `from_dict(Union[B, A], {"A": {"x": 1}})` works in a fresh process and raises KeyError after
`from_dict(Union[A, B], ...)`, with any larger fuel. -/
theorem C42_false_read : ∃ (env : Env) (h : List UnionReq) (c : Ty) (d v : Val),
    ∀ n, fromDict env {} (n + 6) c d = .ok v ∧ fromDictAfter env h {} (n + 6) c d = .error (.py .key) :=
  ⟨Ex42.env, [(Ex42.AB, .external)], .union Ex42.BA, Ex42.data, Ex42.a, fun n =>
    ⟨fromDict_mono (n := 6) (by omega) rfl, rfl⟩⟩

/-- **C42 is false in general**, writing: `to_dict(A(1), c=Union[B, A])` works in a fresh process and fails after a use of `Union[A, B]`. -/
theorem C42_false_write : ∃ (env : Env) (h : List UnionReq) (o : SeOpts) (v w : Val),
    ∀ n, toDict env o (n + 6) v = .ok w ∧ toDictAfter env h o (n + 6) v = .error (.wrap (.py .key)) :=
  ⟨Ex42.env, [(Ex42.AB, .external)], { c := some (.union Ex42.BA) }, Ex42.a, Ex42.data, fun n =>
    ⟨toDict_mono (n := 6) (by omega) rfl, rfl⟩⟩

end Verif.Props
