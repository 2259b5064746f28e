import Verif.Lemmas.Globals
import Verif.Props.C01
import Verif.Examples.World
/-!
# C64: every field is written with its own functions

Full statement: "to_dict and to_tuple write a field with the serializer given to this field and leave it out as the skip rule given to this field says. The
functions given to another field have no influence, whatever the fields are called and wherever they are."

The generated code finds these functions by a name made from the field's name, in one dict for a class and the dataclasses it flattens. Proved (partial): the
statement holds when fields of the same name in a class and the dataclasses it flattens have the same functions, in particular for classes without flattened
dataclasses. It is false otherwise: `C64_false_serializer`, `C64_false_skip_if`, `C64_false_default`, `C64_false_marker`.
-/

namespace Verif.Props
open Verif Spec

/-- **C64** Where no two fields written by the same functions share a name and have different functions, looking functions up by name makes no difference. -/
theorem C64_own_partial {env : Env} (h : OwnFunctions env) (o : SeOpts) (n : Nat) (v : Val) :
    toDictG env o n v = toDict env o n v ∧ toTupleG env o n v = toTuple env o n v :=
  ⟨congrArg (fun r : SeRec => r.toObj true o.reuse o.conv o.skipNone o.c o.tagging v) (seGAt_own h n none),
    congrArg (fun r : SeRec => r.toObj false o.reuse o.conv o.skipNone o.c o.tagging v) (seGAt_own h n none)⟩

theorem writtenBy_plain {env : Env} (hf : ∀ c cd, env.cls c = some cd → ∀ f ∈ cd.fields, f.flatten = true → ∀ d, ¬ Splices f.ty d) {c d}
    (h : WrittenBy env c d) : d = c := by
  induction h with
  | self => rfl
  | child _ hd hm hfl hs _ => exact absurd hs (hf _ _ hd _ hm hfl _)

/-- **C64** In particular for classes that flatten no dataclass: the names of the fields of one dataclass are distinct. -/
theorem C64_unflattened_partial {env : Env} (hu : (env.classes.map (·.1)).Nodup) (hn : ∀ c cd, env.cls c = some cd → (cd.fields.map (·.name)).Nodup)
    (hf : ∀ c cd, env.cls c = some cd → ∀ f ∈ cd.fields, f.flatten = true → ∀ d, ¬ Splices f.ty d) (o : SeOpts) (n : Nat) (v : Val) :
    toDictG env o n v = toDict env o n v ∧ toTupleG env o n v = toTuple env o n v := by
  have hcls : ∀ {d cd}, (d, cd) ∈ env.classes → env.cls d = some cd := by
    intro d cd
    unfold Env.cls
    generalize env.classes = l at hu
    intro hm
    induction l with
    | nil => cases hm
    | cons e l ih =>
      obtain ⟨k, x⟩ := e
      simp only [List.map_cons, List.nodup_cons] at hu
      rw [List.lookup_cons]
      rcases List.mem_cons.1 hm with he | hm'
      · cases he; simp
      · have : (d == k) = false := by
          rw [beq_eq_false_iff_ne]
          intro hdk
          exact hu.1 (List.mem_map.2 ⟨(d, cd), hm', hdk⟩)
        rw [this]
        exact ih hu.2 hm'
  refine C64_own_partial ?_ o n v
  intro c d e cd ce f f' hd he hcd hce hfm hfm' hnm
  obtain rfl := writtenBy_plain hf hd
  obtain rfl := writtenBy_plain hf he
  have h1 := hcls hcd
  have h2 := hcls hce
  rw [h1] at h2
  cases h2
  have : f = f' := by
    have hnd := hn _ _ h1
    clear h1 hcd hce
    generalize cd.fields = fs at hnd hfm hfm'
    induction fs with
    | nil => cases hfm
    | cons g fs ih =>
      simp only [List.map_cons, List.nodup_cons] at hnd
      rcases List.mem_cons.1 hfm with rfl | h1 <;> rcases List.mem_cons.1 hfm' with rfl | h2
      · rfl
      · exact absurd (List.mem_map.2 ⟨_, h2, hnm.symm⟩) hnd.1
      · exact absurd (List.mem_map.2 ⟨_, h1, hnm⟩) hnd.1
      · exact ih hnd.2 h1 h2
  subst this
  intro hD
  cases hD with
  | serializer a b c => rw [a] at b; cases b; exact c rfl
  | skipIf a b c => rw [a] at b; cases b; exact c rfl
  | skipDefault a b c => exact c rfl

/-! ## Examples -/

namespace C64Ex

def ten : Val → Except PErr Val
  | .int i => .ok (.int (10 * i))
  | _ => .error .type
def hide : Val → Except PErr Val := fun _ => .ok (.str "***")

/-- `class Inner: a: int = field(serializer=q, rename="b")`. -/
def inner (q : SerFn) : ClassDef := { name := "Inner", mro := ["Inner"], fields := [{ name := "a", ty := .prim .int, rename := some "b", serializer := some q }] }
/-- `class Outer: a: int = field(serializer=p); c: int; child: Inner = field(flatten=True)`. -/
def outer (p : SerFn) : ClassDef :=
  { name := "Outer", mro := ["Outer"],
    fields := [{ name := "a", ty := .prim .int, serializer := some p }, { name := "c", ty := .prim .int }, { name := "child", ty := .cls "Inner", flatten := true }] }
def env (p q : SerFn) : Env := Ex.mk [("Outer", outer p), ("Inner", inner q)]
def obj (x y z : Val) : Val := .inst "Outer" [("a", x), ("c", y), ("child", .inst "Inner" [("a", z)])]

/-- Other names: `class Inner: b: int = field(serializer=hide)`. -/
def innerB : ClassDef := { name := "Inner", mro := ["Inner"], fields := [{ name := "b", ty := .prim .int, serializer := some (.fn hide) }] }
def envB : Env := Ex.mk [("Outer", outer (.fn ten)), ("Inner", innerB)]

theorem cls_cases {c cd} (h : envB.cls c = some cd) : (c = "Outer" ∧ cd = outer (.fn ten)) ∨ (c = "Inner" ∧ cd = innerB) := by
  simp only [Env.cls, envB, Ex.mk, List.lookup_cons, List.lookup_nil] at h
  split at h
  · next hc => rw [beq_iff_eq] at hc; cases h; exact .inl ⟨hc, rfl⟩
  · split at h
    · next hc => rw [beq_iff_eq] at hc; cases h; exact .inr ⟨hc, rfl⟩
    · cases h

theorem own : OwnFunctions envB := by
  intro c d e cd ce f f' _ _ hd he hf hf' hn hD
  have hcases : ∀ {d cd}, (d, cd) ∈ envB.classes → cd = outer (.fn ten) ∨ cd = innerB := by
    intro d cd h
    simp only [envB, Ex.mk, List.mem_cons, Prod.mk.injEq, List.not_mem_nil, or_false] at h
    rcases h with h | h
    · exact .inl h.2
    · exact .inr h.2
  rcases hcases hd with rfl | rfl <;> rcases hcases he with rfl | rfl <;>
    simp only [outer, innerB, List.mem_cons, List.not_mem_nil, or_false] at hf hf'
  · rcases hf with rfl | rfl | rfl <;> rcases hf' with rfl | rfl | rfl <;> first
      | exact absurd hn (by decide)
      | (cases hD with
        | serializer a b c => rw [a] at b; cases b; exact c rfl
        | skipIf a b c => cases a
        | skipDefault a b c => exact c rfl)
  · subst hf'
    rcases hf with rfl | rfl | rfl <;> exact absurd hn (by decide)
  · subst hf
    rcases hf' with rfl | rfl | rfl <;> exact absurd hn (by decide)
  · subst hf; subst hf'
    cases hD with
    | serializer a b c => rw [a] at b; cases b; exact c rfl
    | skipIf a b c => cases a
    | skipDefault a b c => exact c rfl

/-- With distinct names each field is written by its own function. -/
example : toDictG envB {} 9 (.inst "Outer" [("a", .int 1), ("c", .int 2), ("child", .inst "Inner" [("b", .int 3)])]) =
    .ok (.dict .plain [(.str "a", .int 10), (.str "c", .int 2), (.str "b", .str "***")]) :=
  (C64_own_partial own {} 9 _).1.trans rfl

/-- Classes without flattened dataclass. -/
example (v : Val) : toDictG (Ex.mk [("Inner", inner (.fn ten))]) {} 9 v = toDict (Ex.mk [("Inner", inner (.fn ten))]) {} 9 v := by
  have hcls : ∀ c cd, (Ex.mk [("Inner", inner (.fn ten))]).cls c = some cd → cd = inner (.fn ten) := by
    intro c cd h
    simp only [Env.cls, Ex.mk, List.lookup_cons, List.lookup_nil] at h
    split at h
    · cases h; rfl
    · cases h
  refine (C64_unflattened_partial (by decide) ?_ ?_ {} 9 v).1
  · intro c cd h
    rw [hcls c cd h]
    decide
  · intro c cd h f hf hfl
    rw [hcls c cd h] at hf
    simp only [inner, List.mem_cons, List.not_mem_nil, or_false] at hf
    subst hf
    cases hfl

end C64Ex

open C64Ex in
/-- Whatever the functions are, the outer field `a` is written with the function of the flattened dataclass's field `a`. -/
theorem C64_replaced (p : Val → Except PErr Val) (q : Val → Val) (x y z : Val) :
    toTupleG (env (.fn p) (.fn fun v => .ok (q v))) {} 6 (obj x y z) = .ok (.tuple [q x, y, q z]) := rfl

open C64Ex in
/-- The statement is false: the serializer of a field is replaced by that of another field, although the fields have different names in the output. -/
theorem C64_false_serializer : ∃ (env : Env) (p q : Val → Except PErr Val) (o i : ClassDef) (f f' : FieldDef) (v : Val),
    env.cls "Outer" = some o ∧ env.cls "Inner" = some i ∧ f ∈ o.fields ∧ f' ∈ i.fields ∧ f.serializer = some (.fn p) ∧ f'.serializer = some (.fn q) ∧
    f.conv none = "a" ∧ f'.conv none = "b" ∧ getAttr v f.name = .ok (.int 1) ∧ p (.int 1) = .ok (.int 10) ∧ q (.int 1) = .ok (.str "***") ∧
    toDictG env {} 6 v = .ok (.dict .plain [(.str "a", .str "***"), (.str "c", .int 2), (.str "b", .str "***")]) ∧
    toDict env {} 6 v = .ok (.dict .plain [(.str "a", .int 10), (.str "c", .int 2), (.str "b", .str "***")]) :=
  ⟨env (.fn ten) (.fn hide), ten, hide, outer (.fn ten), inner (.fn hide), { name := "a", ty := .prim .int, serializer := some (.fn ten) },
    { name := "a", ty := .prim .int, rename := some "b", serializer := some (.fn hide) }, obj (.int 1) (.int 2) (.int 3),
    rfl, rfl, .head _, .head _, rfl, rfl, rfl, rfl, rfl, rfl, rfl, rfl, rfl⟩

open C64Ex in
/-- A serializer given to a field can fail because a field of a flattened dataclass is marked with default_serializer. -/
theorem C64_false_marker : ∃ (env : Env) (v : Val), toDict env {} 6 v = .ok (.dict .plain [(.str "a", .int 10), (.str "c", .int 2), (.str "b", .int 3)]) ∧
    ∀ n w, toDictG env {} n v ≠ .ok w := by
  refine ⟨env (.fn ten) .marker, obj (.int 1) (.int 2) (.int 3), rfl, ?_⟩
  intro n w h
  match n, h with
  | 0, h => cases h
  | 1, h => cases h
  | 2, h => cases h
  | 3, h => cases h
  | n + 4, h => cases h

namespace C64Ex

def odd : Val → Except PErr Bool
  | .int i => .ok (i % 2 == 1)
  | _ => .ok false
def always : Val → Except PErr Bool := fun _ => .ok true

/-- `class P: a: int = field(skip_if=odd); q: Q = field(flatten=True)` and `class Q: a: int = field(skip_if=always, rename="b")`. -/
def cdQ : ClassDef := { name := "Q", mro := ["Q"], fields := [{ name := "a", ty := .prim .int, rename := some "b", skipIf := some always }] }
def cdP : ClassDef :=
  { name := "P", mro := ["P"], fields := [{ name := "a", ty := .prim .int, skipIf := some odd }, { name := "q", ty := .cls "Q", flatten := true }] }
def envPQ : Env := Ex.mk [("P", cdP), ("Q", cdQ)]

/-- `class P: a: int = field(default=1, skip_if_default=True); q: Q = field(flatten=True)`, `class Q: a: int = field(default=2, skip_if_default=True, rename="b")`. -/
def cdQ' : ClassDef := { name := "Q", mro := ["Q"], fields := [{ name := "a", ty := .prim .int, dflt := some (.int 2), rename := some "b", skipIfDefault := some true }] }
def cdP' : ClassDef :=
  { name := "P", mro := ["P"],
    fields := [{ name := "a", ty := .prim .int, dflt := some (.int 1), skipIfDefault := some true }, { name := "q", ty := .cls "Q", flatten := true }] }
def envPQ' : Env := Ex.mk [("P", cdP'), ("Q", cdQ')]

end C64Ex

open C64Ex in
/-- A field is left out because of the skip_if of a field of a flattened dataclass, which has no effect on that field. -/
theorem C64_false_skip_if : ∃ (env : Env) (v : Val), toDict env {} 6 v = .ok (.dict .plain [(.str "a", .int 2), (.str "b", .int 3)]) ∧
    toDictG env {} 6 v = .ok (.dict .plain [(.str "b", .int 3)]) :=
  ⟨envPQ, .inst "P" [("a", .int 2), ("q", .inst "Q" [("a", .int 3)])], rfl, rfl⟩

open C64Ex in
/-- skip_if_default compares with the default of another field: a value that is not the default is lost. Reading then gives the default. -/
theorem C64_false_default : ∃ (env : Env) (v v' : Val) (w : Val), toDictG env {} 6 v = .ok w ∧ fromDict env {} 9 (.cls "P") w = .ok v' ∧ v ≠ v' ∧
    (∃ u, toDict env {} 6 v = .ok u ∧ fromDict env {} 9 (.cls "P") u = .ok v) := by
  refine ⟨envPQ', .inst "P" [("a", .int 2), ("q", .inst "Q" [("a", .int 3)])], .inst "P" [("a", .int 1), ("q", .inst "Q" [("a", .int 3)])],
    .dict .plain [(.str "b", .int 3)], rfl, rfl, ?_, _, rfl, rfl⟩
  intro h
  cases h

end Verif.Props
