import Verif.Props.C54
/-!
# C70: what from_tuple returns
-/

namespace Verif.Props

open Verif Verif.Spec

/-- **C70** What a successful `from_tuple` returns is what the annotations make of the input, position by position: the `i`-th parameter of a dataclass is read
from the `i`-th item (`TopTo`, `ReadTo`, `ObjTo.seq`). Nothing is claimed about dataclasses with parameters that are not read or are keyword-only, about flattened fields and
fields with aliases, about type variables or about the attributes a `__post_init__` sets, and the functions generated for unions and literals must have names of
their own (C44). -/
theorem C70_from_tuple_partial {env : Env} {o : DeOpts} {n t x w} (hU : DistinctUnions env) (hL : DistinctLits env) (hT : DistinctTop env t)
    (h : fromTuple env o n t x = .ok w) : TopTo env false o.reuse o.numbers o.tagging t x w :=
  top_at hU hL n _ _ _ _ _ _ _ hT h

/-- **C70** Wherever steps lead to elements, to values of mappings, to fields by position: the value found there is what the annotation there makes of the input
there. -/
theorem C70_anywhere_partial {env : Env} {o : DeOpts} {n t x w top cd' t' x' w'} (hU : DistinctUnions env) (hL : DistinctLits env) (hT : DistinctTop env t)
    (hg : env.gde = []) (h : fromTuple env o n t x = .ok w) (hl : TopLeads env false top cd' t' x' w' t x w) :
    ReadTo env (.inside false (o.reuse.getD top.reuseDflt) o.numbers cd') t' x' w' :=
  topLeads_read hg hl _ (C70_from_tuple_partial hU hL hT h)

/-- **C70** The object found at whatever depth: there is an item for every parameter whose annotation looks at the input, whether or not the field has a
default, and fields that are not parameters are their defaults. -/
theorem C70_items_partial {env : Env} {o : DeOpts} {n t x w top cd' c x' w'} {cd : ClassDef} (hU : DistinctUnions env) (hL : DistinctLits env)
    (hT : DistinctTop env t) (hg : env.gde = []) (h : fromTuple env o n t x = .ok w) (hl : TopLeads env false top cd' (.cls c) x' w' t x w)
    (hc : env.cls c = some cd) (hp : Positional cd) : ∃ attrs, w' = .inst c attrs ∧
      (∀ i f, ItemField cd i f → NeedsItem f.ty → ∃ a, pyIndex x' i = .ok a) ∧
      (∀ f ∈ cd.fields, f.init = true → ∃ y, attrs.lookup f.name = some y) ∧ (∀ f ∈ cd.fields, f.init = false → attrs.lookup f.name = f.dflt) := by
  have hr := C70_anywhere_partial hU hL hT hg h hl
  cases hr with
  | chosen hc _ => exact (no_chosen hc).elim
  | leaf _ h => cases h
  | cls _ h =>
    cases h with
    | @seq _ _ cd₁ _ attrs _ hc' _ a1 a2 a3 a4 a5 a6 =>
      have := hc.symm.trans hc'
      cases this
      exact ⟨attrs, rfl, a4, a5, a6⟩
    | unaligned _ hc' _ hp' =>
      have := hc.symm.trans hc'
      cases this
      exact absurd hp hp'
    | through hc' ht =>
      have := hc.symm.trans hc'
      cases this
      have h1 := ht.transparent
      rw [hp.dict] at h1
      cases h1
    | other hc' hs =>
      have := hc.symm.trans hc'
      cases this
      exact absurd ⟨hp.dict, hp.post, hp.names⟩ hs
    | dict hn => cases hn
    | notDict hn => cases hn

/-- **C70** At every primitive of the result, however deep: the item converted if the class around it coerces, otherwise the item itself (floats are left to the
function for numbers if there is one). -/
theorem C70_prim_partial {env : Env} {o : DeOpts} {n t x w top cd' p x' w'} (hU : DistinctUnions env) (hL : DistinctLits env)
    (hT : DistinctTop env t) (hg : env.gde = []) (hn : p = .float → o.numbers = none) (h : fromTuple env o n t x = .ok w)
    (hl : TopLeads env false top cd' (.prim p) x' w' t x w) :
    (cd'.typeCheck = .coerce → Scalar x' → Converts env p x' w') ∧ (cd'.typeCheck ≠ .coerce → w' = x') := by
  have := readTo_leaf (C70_anywhere_partial hU hL hT hg h hl) (by simp) (by simp) (by simp) (by simp) (by simp) (by simp) (by simp) (by simp)
    (by simp) (by simp) (by simp) (by simp)
  cases this with
  | number h1 _ => rw [show (ReadMode.inside false (o.reuse.getD top.reuseDflt) o.numbers cd').numbers = o.numbers from rfl, hn rfl] at h1; cases h1
  | coerced _ h1 h2 => exact ⟨fun _ hs => h2 hs, fun h3 => absurd (by simpa [ReadMode.inside] using h1) h3⟩
  | same _ h1 => exact ⟨fun h3 => by simp [ReadMode.inside, h3] at h1, fun _ => rfl⟩

/-! ## Examples -/

namespace C70Ex

/-- A point that coerces. -/
def cdP : ClassDef := { name := "P", mro := ["P"], typeCheck := .coerce, fields := [{ name := "x", ty := .prim .int }, { name := "y", ty := .prim .int }] }

/-- A transparent wrapper. -/
def cdW : ClassDef := { name := "W", mro := ["W"], transparent := true, fields := [{ name := "r", ty := .prim .str }] }

/-- A class around them, with a field that is no parameter before the others. -/
def cdO : ClassDef :=
  { name := "O", mro := ["O"], fields := [
    { name := "k", ty := .prim .int, init := false, dflt := some (.int 7) },
    { name := "ps", ty := .list .list (.cls "P") },
    { name := "w", ty := .cls "W" }] }

def env : Env := Ex.mk [("P", cdP), ("W", cdW), ("O", cdO)]
def x : Val := .tuple [.list [.tuple [.int 1, .int 2], .tuple [.str "3", .int 4]], .str "a"]
def p1 : Val := .inst "P" [("x", .int 3), ("y", .int 4)]
def w : Val := .inst "O" [("k", .int 7), ("ps", .list [.inst "P" [("x", .int 1), ("y", .int 2)], p1]), ("w", .inst "W" [("r", .str "a")])]

theorem run : fromTuple env {} 20 (.cls "O") x = .ok w := rfl

theorem cls_cases {c cd} (h : env.cls c = some cd) : (c = "P" ∧ cd = cdP) ∨ (c = "W" ∧ cd = cdW) ∨ (c = "O" ∧ cd = cdO) := by
  simp only [Env.cls, env, Ex.mk, List.lookup_cons, List.lookup_nil] at h
  split at h
  · rename_i h1; cases h; exact .inl ⟨by simpa using h1, rfl⟩
  · split at h
    · rename_i h1; cases h; exact .inr (.inl ⟨by simpa using h1, rfl⟩)
    · split at h
      · rename_i h1; cases h; exact .inr (.inr ⟨by simpa using h1, rfl⟩)
      · cases h

theorem plain {t} (h : Annotated env t) : (∀ ts, t ≠ .union ts) ∧ ∀ vs, t ≠ .lit vs := by
  obtain ⟨c, cd, f, hc, hf, hw⟩ := h
  rcases cls_cases hc with ⟨rfl, rfl⟩ | ⟨rfl, rfl⟩ | ⟨rfl, rfl⟩
  · simp only [cdP, List.mem_cons, List.not_mem_nil, or_false] at hf
    rcases hf with rfl | rfl <;> cases hw <;> simp
  · simp only [cdW, List.mem_cons, List.not_mem_nil, or_false] at hf
    subst hf; cases hw; simp
  · simp only [cdO, List.mem_cons, List.not_mem_nil, or_false] at hf
    rcases hf with rfl | rfl | rfl
    · cases hw; simp
    · cases hw with
      | refl => simp
      | list h => cases h; simp
    · cases hw; simp

theorem hU : DistinctUnions env := distinctUnions_of (fun _ _ h _ _ => absurd rfl ((plain h).1 _))
theorem hL : DistinctLits env := distinctLits_of (fun _ _ h _ _ => absurd rfl ((plain h).2 _))
theorem hT : DistinctTop env (.cls "O") := fun ts h => by cases h

theorem posO : Positional cdO := ⟨rfl, rfl, by decide, by decide⟩
theorem posP : Positional cdP := ⟨rfl, rfl, by decide, by decide⟩

example : TopTo env false none none .external (.cls "O") x w := C70_from_tuple_partial hU hL hT run

/-- To the second point of the list, which is the first parameter. -/
theorem toP {cd' t' x' w'} (h : Leads env false cd' t' x' w' cdO (.cls "P") (.tuple [.str "3", .int 4]) p1) :
    TopLeads env false cdO cd' t' x' w' (.cls "O") x w :=
  .cls rfl (by simp [x]) (.item (i := 0) (f := cdO.fields[1]) rfl rfl rfl posO ⟨rfl, rfl, rfl⟩ (by simp [cdO]) rfl rfl (.list (i := 1) rfl rfl rfl h))

/-- To its `x`. -/
theorem toX : TopLeads env false cdO cdP (.prim .int) (.str "3") (.int 3) (.cls "O") x w :=
  toP (.item (i := 0) (f := cdP.fields[0]) rfl rfl rfl posP ⟨rfl, rfl, rfl⟩ (by simp [cdP]) rfl rfl .here)

/-- To the wrapped string. -/
theorem toW : TopLeads env false cdO cdW (.prim .str) (.str "a") (.str "a") (.cls "O") x w :=
  .cls rfl (by simp [x]) (.item (i := 1) (f := cdO.fields[2]) rfl rfl rfl posO ⟨rfl, rfl, rfl⟩ (by simp [cdO]) rfl rfl
    (.through (f := cdW.fields[0]) rfl rfl ⟨rfl, rfl, by decide, ⟨by simp [cdW], rfl, rfl, rfl, rfl, by simp [cdW]⟩, rfl, rfl⟩ rfl .here))

example : ReadTo env (.inside false true none cdP) (.prim .int) (.str "3") (.int 3) := C70_anywhere_partial hU hL hT rfl run toX
example : Converts env .int (.str "3") (.int 3) := (C70_prim_partial hU hL hT rfl (fun h => by cases h) run toX).1 rfl .str
example : Val.str "a" = .str "a" := (C70_prim_partial hU hL hT rfl (fun h => by cases h) run toW).2 (by decide)
example : ∃ a, pyIndex (.tuple [.str "3", .int 4]) 1 = .ok a := by
  obtain ⟨_, _, h, _⟩ := C70_items_partial hU hL hT rfl run (toP (cd' := cdO) .here) rfl posP
  exact h 1 cdP.fields[1] ⟨rfl, rfl, rfl⟩ (.other (by simp [cdP]) (by simp [cdP]) (by simp [cdP]))
example : ∃ attrs, w = .inst "O" attrs ∧ attrs.lookup "k" = some (.int 7) := by
  obtain ⟨attrs, h1, _, _, h⟩ := C70_items_partial hU hL hT rfl run (.cls rfl (by simp [x]) (.here (cd' := cdO))) rfl posO
  exact ⟨attrs, h1, h cdO.fields[0] (by simp [cdO]) rfl⟩

end C70Ex

/-! ## Where it fails -/

namespace C70Bad

/-- A field with a default. -/
def cdD : ClassDef := { name := "D", mro := ["D"], fields := [{ name := "a", ty := .prim .int }, { name := "b", ty := .prim .int, dflt := some (.int 5) }] }

/-- A field that is not read, before one that is. -/
def cdS : ClassDef :=
  { name := "S", mro := ["S"], fields := [
    { name := "a", ty := .prim .int, skipDe := true, dflt := some (.int 0) },
    { name := "b", ty := .prim .int, dflt := some (.int 1) }] }

/-- A keyword-only field. -/
def cdK : ClassDef := { name := "K", mro := ["K"], fields := [{ name := "a", ty := .prim .int }, { name := "b", ty := .prim .int, kwOnly := true }] }

def env : Env := Ex.mk [("D", cdD), ("S", cdS), ("K", cdK)]

end C70Bad

open C70Bad in
/-- **C70** is false where the items run out: from_tuple does not use defaults. With `b: int = 5`, `from_dict(D, {"a": 1})` gives `D(1, 5)`, `from_tuple(D, (1,))`
fails. -/
theorem C70_false_default : fromDict env {} 20 (.cls "D") (.dict .plain [(.str "a", .int 1)]) = .ok (.inst "D" [("a", .int 1), ("b", .int 5)]) ∧
    ∀ n w, fromTuple env {} n (.cls "D") (.tuple [.int 1]) ≠ .ok w :=
  ⟨rfl, fun n w h => by
    have h20 : fromTuple env {} 20 (.cls "D") (.tuple [.int 1]) = .error (.wrap (.py .index)) := rfl
    exact absurd (fromTuple_det h h20 (by simp) (by simp)) (by simp)⟩

open C70Bad in
/-- **C70** is false for a class with a field that is not read: the items are handed to the constructor in order, and the skipped field takes the first. With
`a: int = field(skip_deserializing=True, default=0)` and `b: int = 1`, `from_tuple(S, (9,))` gives `S(a=9, b=1)`. -/
theorem C70_false_skip : fromTuple env {} 20 (.cls "S") (.tuple [.int 9]) = .ok (.inst "S" [("a", .int 9), ("b", .int 1)]) := rfl

open C70Bad in
/-- **C70** is false for keyword-only fields: from_tuple always fails, also on what to_tuple writes. -/
theorem C70_false_kw : toTuple env {} 20 (.inst "K" [("a", .int 1), ("b", .int 2)]) = .ok (.tuple [.int 1, .int 2]) ∧
    ∀ n w, fromTuple env {} n (.cls "K") (.tuple [.int 1, .int 2]) ≠ .ok w :=
  ⟨rfl, fun n w h => by
    have h20 : ∃ e, fromTuple env {} 20 (.cls "K") (.tuple [.int 1, .int 2]) = .error e ∧ e ≠ .fuel := ⟨_, rfl, by simp⟩
    obtain ⟨e, he, hf⟩ := h20
    exact absurd (fromTuple_det h he (by simp) (by simpa using hf)) (by simp)⟩

end Verif.Props
