import Verif.Lemmas.Scopes
import Verif.Examples.World
/-!
# C59: what was done earlier in the process does not matter

Results of `to_dict` and `from_dict` should depend on their arguments, not on which classes were decorated, written or read before.
-/

namespace Verif.Props
open Verif Verif.Spec

section
variable {env : Env} {order : ClassId → List ClassId}

/-- In a program that decorates every dataclass where it is defined, `to_dict`, `to_tuple`, `from_dict` and `from_tuple` never depend on
what was done before: they are the functions of the class table alone (which the other properties talk about). -/
theorem C59_decorated (hself : SelfFirst env) {h : List GenEvent} (ho : Ordered order [] h) (hall : AllDecorated env h)
    (hk : ∀ c, .decorate c ∈ h → (env.cls c).isSome) :
    (∀ so n v, toDictIn env order (Gen.run env order {} h) so n v = toDict env so n v) ∧
    (∀ so n v, toTupleIn env order (Gen.run env order {} h) so n v = toTuple env so n v) ∧
    (∀ o n c d, fromDictIn env order (Gen.run env order {} h) o n c d = fromDict env o n c d) ∧
    (∀ o n c d, fromTupleIn env order (Gen.run env order {} h) o n c d = fromTuple env o n c d) := by
  obtain ⟨done, hi, -, hdec⟩ := deco_inv hself decoInv_init ho hk
  have hall' : ∀ c cd, env.cls c = some cd → c ∈ done := fun c cd hc => hdec c (hall c cd hc)
  have hmeet : ∀ side c, (Gen.run env order {} h).meet env order side c = Gen.run env order {} h :=
    fun side c => meet_full hself (fun c cd hc => hi.full hc (hall' c cd hc))
  have hv : ∀ v, (Gen.run env order {} h).meetVal env order v = Gen.run env order {} h := by
    intro v; cases v <;> first | rfl | exact hmeet _ _
  have ht : ∀ t, (Gen.run env order {} h).meetTy env order t = Gen.run env order {} h := by
    intro t; cases t <;> first | rfl | exact hmeet _ _
  refine ⟨fun so n v => ?_, fun so n v => ?_, fun o n c d => ?_, fun o n c d => ?_⟩
  · unfold toDictIn; rw [hv]; exact toDict_cfg (decoInv_cfg hself hi hall').1 (.inl trivial)
  · unfold toTupleIn; rw [hv]; exact toTuple_cfg (decoInv_cfg hself hi hall').1 (.inl trivial)
  · unfold fromDictIn; rw [ht]; exact fromDict_cfg (decoInv_cfg hself hi hall').2 (.inl trivial)
  · unfold fromTupleIn; rw [ht]; exact fromTuple_cfg (decoInv_cfg hself hi hall').2 (.inl trivial)

/-- With undecorated dataclasses, as long as none inherits from another: if `reuse_instances` is given, what `to_dict` and `to_tuple`
produce is the same after any two histories `h` and `h'` (and for any two orders in which Python goes through a set). Missing for the
property: calls without `reuse_instances` (`C59_false_reuse`), base classes (`C59_false_subclass`) and defaults that are instances of
undecorated dataclasses. -/
theorem C59_written_partial (hb : NoBases env) (hd : NoInstDefaults env) (h h' : List GenEvent) (order' : ClassId → List ClassId)
    {so : SeOpts} {b : Bool} (hre : so.reuse = some b) (n : Nat) (v : Val) :
    toDictIn env order' (Gen.run env order' {} h') so n v = toDictIn env order (Gen.run env order {} h) so n v ∧
    toTupleIn env order' (Gen.run env order' {} h') so n v = toTupleIn env order (Gen.run env order {} h) so n v :=
  ⟨toDict_cfg (cfgSe_states hb hd) (.inr (by rw [hre]; rfl)), toTuple_cfg (cfgSe_states hb hd) (.inr (by rw [hre]; rfl))⟩

/-- Reading with `reuse_instances` given is the same after any two histories in which the same classes have been put under strict
checking by the time the call does its work. Missing for the property: strictness itself depends on the history
(`C59_false_strict`), and so does the default of `reuse_instances` (`C59_false_input`). -/
theorem C59_read_partial (hb : NoBases env) (h h' : List GenEvent) (order' : ClassId → List ClassId) {o : DeOpts} {b : Bool}
    (hre : o.reuse = some b) (n : Nat) (c : Ty) (d : Val)
    (hs : ∀ k, ((Gen.run env order' {} h').meetTy env order' c).strict k = ((Gen.run env order {} h).meetTy env order c).strict k) :
    fromDictIn env order' (Gen.run env order' {} h') o n c d = fromDictIn env order (Gen.run env order {} h) o n c d ∧
    fromTupleIn env order' (Gen.run env order' {} h') o n c d = fromTupleIn env order (Gen.run env order {} h) o n c d :=
  ⟨fromDict_cfg (cfgDe_states hb hs) (.inr (by rw [hre]; rfl)), fromTuple_cfg (cfgDe_states hb hs) (.inr (by rw [hre]; rfl))⟩

/-- Once every dataclass has been written and read once (decorated or not), further calls `h'` change nothing any more: no options
need to be given. -/
theorem C59_settled_partial (hb : NoBases env) {h h' : List GenEvent} (hu : AllUsed env h) (hcall : ∀ e ∈ h', GenEvent.IsCall e) :
    (∀ so n v, toDictIn env order (Gen.run env order {} (h ++ h')) so n v = toDictIn env order (Gen.run env order {} h) so n v) ∧
    (∀ so n v, toTupleIn env order (Gen.run env order {} (h ++ h')) so n v = toTupleIn env order (Gen.run env order {} h) so n v) ∧
    (∀ o n c d, fromDictIn env order (Gen.run env order {} (h ++ h')) o n c d = fromDictIn env order (Gen.run env order {} h) o n c d) ∧
    (∀ o n c d, fromTupleIn env order (Gen.run env order {} (h ++ h')) o n c d = fromTupleIn env order (Gen.run env order {} h) o n c d) := by
  have : Gen.run env order {} (h ++ h') = Gen.run env order {} h := by
    rw [run_append, run_used hb (fun c cd hc => hasBoth_used hb hu hc) h' hcall]
  rw [this]
  exact ⟨fun _ _ _ => rfl, fun _ _ _ => rfl, fun _ _ _ _ => rfl, fun _ _ _ _ => rfl⟩

end

/-! ## Examples -/

namespace C59Ex

/-- A dataclass with a date and a number. -/
def ev : ClassDef := { name := "Ev", mro := ["Ev"], typeCheck := .disabled, fields := [{ name := "at", ty := .dt .date }, { name := "n", ty := .prim .int }] }
/-- A dataclass holding one. -/
def box : ClassDef := { name := "Box", mro := ["Box"], fields := [{ name := "ev", ty := .cls "Ev" }] }
/-- A dataclass and a subclass of it. -/
def base : ClassDef := { name := "Base", mro := ["Base"], typeCheck := .disabled, fields := [{ name := "a", ty := .prim .int }] }
def sub : ClassDef :=
  { name := "Sub", mro := ["Sub", "Base"], typeCheck := .disabled, fields := [{ name := "a", ty := .prim .int }, { name := "b", ty := .prim .int }] }
/-- A class with fields of both types. -/
def both : ClassDef := { name := "Both", mro := ["Both"], fields := [{ name := "x", ty := .cls "Base" }, { name := "y", ty := .cls "Sub" }] }

/-- `Ev` and `Box`. -/
def env : Env := Ex.mk [("Ev", ev), ("Box", box)]
/-- `Base`, `Sub` and `Both`. -/
def envI : Env := Ex.mk [("Base", base), ("Sub", sub), ("Both", both)]

/-- The dataclasses in `iter_types`. -/
def order : ClassId → List ClassId
  | "Box" => ["Box", "Ev"]
  | "Both" => ["Both", "Base", "Sub"]
  | c => [c]
/-- The same in another order. -/
def orderR : ClassId → List ClassId
  | "Both" => ["Both", "Sub", "Base"]
  | c => order c

/-- An event. -/
def one : Val := .inst "Ev" [("at", .dt .date "2024-01-31"), ("n", .int 1)]

theorem cls_env {c cd} (h : env.cls c = some cd) : (c = "Ev" ∧ cd = ev) ∨ (c = "Box" ∧ cd = box) := by
  simp only [Env.cls, env, Ex.mk, List.lookup] at h
  split at h
  · next hc => exact .inl ⟨by simpa using hc, by cases h; rfl⟩
  · split at h
    · next hc => exact .inr ⟨by simpa using hc, by cases h; rfl⟩
    · cases h

theorem noBases : NoBases env := by
  intro c cd h
  rcases cls_env h with ⟨rfl, rfl⟩ | ⟨rfl, rfl⟩ <;> rfl

theorem noInst : NoInstDefaults env := by
  intro c cd h f hf d as
  rcases cls_env h with ⟨rfl, rfl⟩ | ⟨rfl, rfl⟩
  · simp only [ev, List.mem_cons, List.not_mem_nil, or_false] at hf
    rcases hf with rfl | rfl <;> simp [FieldDef.skipRule, ev]
  · simp only [box, List.mem_cons, List.not_mem_nil, or_false] at hf
    rcases hf with rfl <;> simp [FieldDef.skipRule, box]

/-- The classes decorated where they are defined, and used. -/
def story : List GenEvent := [.decorate "Ev", .write "Ev", .decorate "Box", .read "Box", .write "Ev"]

example : SelfFirst env ∧ Ordered order [] story ∧ AllDecorated env story ∧ (∀ c, .decorate c ∈ story → (env.cls c).isSome) := by
  refine ⟨?_, ?_, ?_, ?_⟩
  · intro c cd h
    rcases cls_env h with ⟨rfl, rfl⟩ | ⟨rfl, rfl⟩ <;> exact ⟨[], rfl⟩
  · simp [story, Ordered, order]
  · intro c cd h
    rcases cls_env h with ⟨rfl, rfl⟩ | ⟨rfl, rfl⟩ <;> simp [story]
  · intro c h
    simp only [story, List.mem_cons, List.not_mem_nil, or_false, GenEvent.decorate.injEq, reduceCtorEq, false_or] at h
    rcases h with rfl | rfl <;> rfl

example : toDictIn env order (Gen.run env order {} story) {} 9 one = .ok (.dict .plain [(.str "at", .dt .date "2024-01-31"), (.str "n", .int 1)]) := rfl

example : NoBases env ∧ NoInstDefaults env := ⟨noBases, noInst⟩

example : toDictIn env order (Gen.run env order {} [.read "Ev"]) { reuse := some false } 9 one =
    .ok (.dict .plain [(.str "at", .str "2024-01-31"), (.str "n", .int 1)]) := rfl

theorem used : AllUsed env [.write "Ev", .read "Ev", .read "Box", .write "Box"] := by
  intro c cd h
  rcases cls_env h with ⟨rfl, rfl⟩ | ⟨rfl, rfl⟩ <;> simp

/-- Two histories with the same strict classes. -/
example : ∀ k, ((Gen.run env order {} [.write "Ev"]).meetTy env order (.cls "Ev")).strict k =
    ((Gen.run env order {} []).meetTy env order (.cls "Ev")).strict k := by
  intro k
  rfl

/-- Whether the box was read or written before, with the option given the event is written alike. -/
example : toDictIn env orderR (Gen.run env orderR {} [.write "Box"]) { reuse := some false } 9 one =
    toDictIn env order (Gen.run env order {} [.read "Ev"]) { reuse := some false } 9 one :=
  (C59_written_partial noBases noInst [.read "Ev"] [.write "Box"] orderR rfl 9 one).1

example (d : Val) : fromDictIn env order (Gen.run env order {} [.write "Ev"]) { reuse := some true } 9 (.cls "Ev") d =
    fromDictIn env order (Gen.run env order {} []) { reuse := some true } 9 (.cls "Ev") d :=
  (C59_read_partial noBases [] [.write "Ev"] order rfl 9 (.cls "Ev") d (fun _ => rfl)).1

/-- After all classes were written and read, another call changes nothing. -/
example (v : Val) : toDictIn env order (Gen.run env order {} ([.write "Ev", .read "Ev", .read "Box", .write "Box"] ++ [.read "Ev"])) {} 9 v =
    toDictIn env order (Gen.run env order {} [.write "Ev", .read "Ev", .read "Box", .write "Box"]) {} 9 v :=
  (C59_settled_partial noBases used (by simp [GenEvent.IsCall])).1 {} 9 v

end C59Ex

/-! ## What does depend on the history -/

open C59Ex

/-- Without `reuse_instances`: for an undecorated dataclass, `to_dict` writes the date as text in a fresh process, and returns it as it is
after a mere `from_dict` of the class (the first of the two to be called sets the default for both). -/
theorem C59_false_reuse : ∃ (env : Env) (order : ClassId → List ClassId) (v : Val) (w w' : Val),
    toDictIn env order (Gen.run env order {} []) {} 9 v = .ok w ∧
    toDictIn env order (Gen.run env order {} [.read "Ev"]) {} 9 v = .ok w' ∧ w ≠ w' :=
  ⟨env, order, one, .dict .plain [(.str "at", .str "2024-01-31"), (.str "n", .int 1)],
    .dict .plain [(.str "at", .dt .date "2024-01-31"), (.str "n", .int 1)], rfl, rfl, by simp⟩

/-- Likewise on the way in: data holding a date is accepted in a fresh process and refused after a `to_dict` of the class. -/
theorem C59_false_input : ∃ (env : Env) (order : ClassId → List ClassId) (d v : Val) (e : Exc),
    fromDictIn env order (Gen.run env order {} []) {} 9 (.cls "Ev") d = .ok v ∧
    fromDictIn env order (Gen.run env order {} [.write "Ev"]) {} 9 (.cls "Ev") d = .error e :=
  ⟨env, order, .dict .plain [(.str "at", .dt .date "2024-01-31"), (.str "n", .int 1)], one, _, rfl, rfl⟩

/-- Type checking: `from_dict` for an undecorated dataclass takes a string for an `int` in a fresh process; after another class that has
a field of this type was decorated, it raises. -/
theorem C59_false_strict : ∃ (env : Env) (order : ClassId → List ClassId) (d v : Val) (e : Exc),
    fromDictIn env order (Gen.run env order {} []) { reuse := some true } 9 (.cls "Ev") d = .ok v ∧
    fromDictIn env order (Gen.run env order {} [.decorate "Box"]) { reuse := some true } 9 (.cls "Ev") d = .error e :=
  ⟨env, order, .dict .plain [(.str "at", .dt .date "2024-01-31"), (.str "n", .str "x")],
    .inst "Ev" [("at", .dt .date "2024-01-31"), ("n", .str "x")], _, rfl, rfl⟩

/-- Base classes: an instance of an undecorated subclass is written with all its fields in a fresh process, but only with those of the
base class after an instance of that was written. -/
theorem C59_false_subclass : ∃ (env : Env) (order : ClassId → List ClassId) (v : Val) (w w' : Val),
    toDictIn env order (Gen.run env order {} []) {} 9 v = .ok w ∧
    toDictIn env order (Gen.run env order {} [.write "Base"]) {} 9 v = .ok w' ∧ w ≠ w' :=
  ⟨envI, order, .inst "Sub" [("a", .int 1), ("b", .int 2)], .dict .plain [(.str "a", .int 1), (.str "b", .int 2)],
    .dict .plain [(.str "a", .int 1)], rfl, rfl, by simp⟩

/-- A subclass without fields of its own is affected too: it takes over the default for `reuse_instances` with which the functions of the base class were
generated. -/
theorem C59_false_inherited_default : ∃ (env : Env) (order : ClassId → List ClassId) (v : Val) (w w' : Val),
    toDictIn env order (Gen.run env order {} []) {} 9 v = .ok w ∧
    toDictIn env order (Gen.run env order {} [.read "Ev", .write "Ev"]) {} 9 v = .ok w' ∧ w ≠ w' :=
  ⟨Ex.mk [("Ev", ev), ("Late", { ev with name := "Late", mro := ["Late", "Ev"] })], order, .inst "Late" [("at", .dt .date "2024-01-31"), ("n", .int 1)],
    .dict .plain [(.str "at", .str "2024-01-31"), (.str "n", .int 1)], .dict .plain [(.str "at", .dt .date "2024-01-31"), (.str "n", .int 1)], rfl, rfl, by simp⟩

/-- The outcome can even depend on the order in which Python goes through a set: with both types in one class, whether the subclass
keeps its field depends on which of them is generated first. -/
theorem C59_false_order : ∃ (env : Env) (order order' : ClassId → List ClassId) (h : List GenEvent) (v : Val) (w w' : Val),
    (∀ c d, d ∈ order' c ↔ d ∈ order c) ∧
    toDictIn env order (Gen.run env order {} h) {} 9 v = .ok w ∧
    toDictIn env order' (Gen.run env order' {} h) {} 9 v = .ok w' ∧ w ≠ w' := by
  refine ⟨envI, order, orderR, [.decorate "Both"], .inst "Sub" [("a", .int 1), ("b", .int 2)],
    .dict .plain [(.str "a", .int 1)], .dict .plain [(.str "a", .int 1), (.str "b", .int 2)], ?_, rfl, rfl, by simp⟩
  intro c d
  unfold orderR
  split
  · simp only [order, List.mem_cons, List.not_mem_nil, or_false]
    constructor
    · rintro (h | h | h) <;> simp [h]
    · rintro (h | h | h) <;> simp [h]
  · exact Iff.rfl

end Verif.Props
