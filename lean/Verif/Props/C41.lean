import Verif.Lemmas.Order
import Verif.Examples.World
/-!
# C41: the order of input entries does not matter
-/

namespace Verif.Props
open Spec

/-- **C41**: permuting the entries of the input dict changes neither the result nor the exception. Excluded, here and in
dataclasses flattened into the class: flattened dicts (they keep the input order) and transparent classes (their input is the
field's data, which may itself be a mapping). -/
theorem C41_entry_order {env : Env} {o : DeOpts} {n c dk dk' kvs kvs'}
    (hc : ∀ c' cd, Inlines env c c' → env.cls c' = some cd → cd.transparent = false ∧ ∀ f ∈ cd.fields, takesRest f = false)
    (hg : NoGlobal env c) (hp : kvs.Perm kvs') (hn : (kvs.map (·.1)).Nodup) :
    fromDict env o n (.cls c) (.dict dk' kvs') = fromDict env o n (.cls c) (.dict dk kvs) := by
  have hd : ∀ dk kvs as, Val.dict dk kvs ≠ .inst c as := by intro _ _ as h; cases h
  match n with
  | 0 => rfl
  | 1 =>
    unfold fromDict
    rw [fromObj_cls_fuel1 hg.de (hd _ _), fromObj_cls_fuel1 hg.de (hd _ _)]
  | m + 2 =>
    rw [fromDict_cls hg.de (hd _ _), fromDict_cls hg.de (hd _ _)]
    have := (deAt_same env (m + 1)).2 c (topCall o) (.dict dk kvs) (.dict dk' kvs') (.perm hc hp hn)
    rw [deAt_cls, deAt_cls] at this
    rw [this]

namespace C41Ex
def In : ClassDef := { name := "In", mro := ["In"], fields := [{ name := "p", ty := .prim .int }, { name := "q", ty := .prim .str }] }
def A : ClassDef :=
  { name := "A", mro := ["A"],
    fields := [{ name := "x", ty := .prim .int, alias := ["ex"] }, { name := "c", ty := .cls "In", flatten := true }] }
def env : Env := Ex.mk [("A", A), ("In", In)]
theorem ok : ∀ c' cd, Inlines env "A" c' → env.cls c' = some cd → cd.transparent = false ∧ ∀ f ∈ cd.fields, takesRest f = false := by
  intro c' cd _ hc
  simp only [env, Ex.mk, Env.cls, List.lookup] at hc
  split at hc
  · cases hc; exact ⟨rfl, by intro f hf; simp [A] at hf; rcases hf with rfl | rfl <;> rfl⟩
  · split at hc
    · cases hc; exact ⟨rfl, by intro f hf; simp [In] at hf; rcases hf with rfl | rfl <;> rfl⟩
    · cases hc

/-- An aliased field and a flattened dataclass, entries reversed. -/
example : let d := [(Val.str "ex", Val.int 1), (.str "p", .int 2), (.str "q", .str "s")]
    fromDict env {} 9 (.cls "A") (.dict .plain d.reverse) = fromDict env {} 9 (.cls "A") (.dict .plain d) ∧
    fromDict env {} 9 (.cls "A") (.dict .plain d) =
      .ok (.inst "A" [("x", .int 1), ("c", .inst "In" [("p", .int 2), ("q", .str "s")])]) :=
  ⟨C41_entry_order ok ⟨by simp [env, Ex.mk], by simp [env, Ex.mk]⟩ (List.reverse_perm _).symm (by simp), rfl⟩
end C41Ex
end Verif.Props
