import Verif.Lemmas.SeTotal
import Verif.Examples.World
/-!
# C52: serialization terminates

Full statement: "to_dict and to_tuple return or raise on every value, however the classes refer to each other: the recursion is bounded by
the value and the annotations, also for recursive classes, unions, generics, flattened dataclasses and skip_if_default. This is for classes
whose unions have functions of different names (C44), decorated after the classes they flatten and after the classes whose instances occur
in their defaults."

`OlderFirst` is that order of decoration, which Python's order of evaluation gives: `C52_order_needed` shows that without it
serialization can run for ever. Python's recursion limit is not modelled: on a deep enough value the code raises `RecursionError`, which is
an end too.
-/

namespace Verif.Props
open Verif Verif.Spec

theorem own_of_distinct {env : Env} {t} (h : DistinctUnionsIn env t) : OwnIn env (env.unionsOfTy t) t := by
  intro ts hts us hus
  refine h ts us hts (unionsIn_sound (fun c us h => ?_) t us (findUnion_mem hus)) ?_
  · exact unionsOf_iff.1 h
  · unfold findUnion at hus
    have := List.find?_some hus
    simpa using this

theorem finishes_of {env : Env} {b re cv sn c tg v} (h : Ev (fun n => NF ((seAt env n).toObj b re cv sn c tg v))) :
    Finishes (fun n => (seAt env n).toObj b re cv sn c tg v) := by
  obtain ⟨N, hN⟩ := h
  refine ⟨N, _, (hN N (Nat.le_refl N)).ne, fun n hn => ?_⟩
  rcases (seAt_mono env hn).toObj b re cv sn c tg v with h | h
  · exact absurd h (hN N (Nat.le_refl N)).ne
  · exact h.symm

theorem toObj_ends {env : Env} {age c} (hA : OlderFirst env age) (hU : DistinctUnions env)
    (hc : ∀ t, c = some t → DistinctUnionsIn env t) (b re cv sn tg v) : Finishes (fun n => (seAt env n).toObj b re cv sn c tg v) := by
  refine finishes_of (toObjEnds hA hU ?_ b re cv sn tg v)
  rintro t (h | ⟨nm, h⟩)
  · exact own_of_distinct (hc t h)
  · have := hc _ h
    exact own_of_distinct (fun ts us h1 h2 => this ts us (.alias h1) (.step (.alias rfl) h2))

/-- `to_dict` ends on every value, with every option. -/
theorem C52_to_dict {env : Env} {age : ClassId → Nat} (hA : OlderFirst env age) (hU : DistinctUnions env) (so : SeOpts)
    (hc : ∀ t, so.c = some t → DistinctUnionsIn env t) (v : Val) : Finishes (fun n => toDict env so n v) :=
  toObj_ends hA hU hc _ _ _ _ _ _

/-- `to_tuple` ends on every value, with every option. -/
theorem C52_to_tuple {env : Env} {age : ClassId → Nat} (hA : OlderFirst env age) (hU : DistinctUnions env) (so : SeOpts)
    (hc : ∀ t, so.c = some t → DistinctUnionsIn env t) (v : Val) : Finishes (fun n => toTuple env so n v) :=
  toObj_ends hA hU hc _ _ _ _ _ _

/-! ## A recursive class with a union, a flattened dataclass and a default -/

namespace C52Ex

/-- A dataclass that is spliced into `cdN`. -/
def cdP : ClassDef := { name := "P", mro := ["P"], fields := [{ name := "x", ty := .prim .int }] }

/-- A recursive class: its children are nodes or strings, `p` is flattened, `d` is left out when it is the default. -/
def cdN : ClassDef :=
  { name := "N", mro := ["N"], fields := [
    { name := "kids", ty := .list .list (.union [.cls "N", .prim .str]) },
    { name := "p", ty := .cls "P", flatten := true },
    { name := "d", ty := .cls "P", dflt := some (.inst "P" [("x", .int 0)]), skipIfDefault := some true }] }

def env : Env := Ex.mk [("P", cdP), ("N", cdN)]

/-- `P` is defined before `N`. -/
def age (c : ClassId) : Nat := if c == "N" then 1 else 0

theorem cls_cases {c cd} (h : env.cls c = some cd) : (c = "P" ∧ cd = cdP) ∨ (c = "N" ∧ cd = cdN) := by
  simp only [Env.cls, env, Ex.mk, List.lookup_cons, List.lookup_nil] at h
  split at h
  · rename_i h1; cases h; exact .inl ⟨by simpa using h1, rfl⟩
  · split at h
    · rename_i h1; cases h; exact .inr ⟨by simpa using h1, rfl⟩
    · cases h

theorem older : OlderFirst env age := by
  constructor
  · intro c cd f d c' hc hf hd ho
    rcases cls_cases hc with ⟨rfl, rfl⟩ | ⟨rfl, rfl⟩
    · simp only [cdP, List.mem_cons, List.not_mem_nil, or_false] at hf
      subst hf; cases hd
    · simp only [cdN, List.mem_cons, List.not_mem_nil, or_false] at hf
      rcases hf with rfl | rfl | rfl
      · cases hd
      · cases hd
      · cases hd
        cases ho with
        | here => decide
        | attr h h' =>
          simp only [List.mem_cons, List.not_mem_nil, or_false] at h
          subst h; cases h'
  · intro c cd f c' hc hf hfl ht
    rcases cls_cases hc with ⟨rfl, rfl⟩ | ⟨rfl, rfl⟩
    · simp only [cdP, List.mem_cons, List.not_mem_nil, or_false] at hf
      subst hf; cases hfl
    · simp only [cdN, List.mem_cons, List.not_mem_nil, or_false] at hf
      rcases hf with rfl | rfl | rfl
      · cases hfl
      · cases ht; decide
      · cases hfl

theorem within_none {t : Ty} {ts} (h : PartOf (.union ts) t) (ht : (∃ c, t = .cls c) ∨ ∃ p, t = .prim p) : False := by
  rcases ht with ⟨_, rfl⟩ | ⟨_, rfl⟩ <;> cases h

theorem the_union {ts} (h : Annotated env (.union ts)) : ts = [.cls "N", .prim .str] := by
  obtain ⟨c, cd, f, hc, hf, hw⟩ := h
  rcases cls_cases hc with ⟨rfl, rfl⟩ | ⟨rfl, rfl⟩
  · simp only [cdP, List.mem_cons, List.not_mem_nil, or_false] at hf
    subst hf; cases hw
  · simp only [cdN, List.mem_cons, List.not_mem_nil, or_false] at hf
    rcases hf with rfl | rfl | rfl
    · cases hw with
      | list h => cases h with
        | refl => rfl
        | union hm h =>
          simp only [List.mem_cons, List.not_mem_nil, or_false] at hm
          rcases hm with rfl | rfl <;> cases h
    · cases hw
    · cases hw

theorem reach_union {u us} (h : Reach env true u (.union us)) (hu : (∃ c, u = .cls c) ∨ Annotated env u) : Annotated env (.union us) := by
  generalize ht : Ty.union us = t at h
  induction h with
  | refl =>
    subst ht
    rcases hu with ⟨c, hu⟩ | hu
    · cases hu
    · exact hu
  | step hp _ ih =>
    refine ih ?_ ht
    rcases hu with ⟨c, rfl⟩ | hu
    · cases hp with
      | field hc hf _ => exact .inr ⟨_, _, _, hc, hf, .refl⟩
    · cases hp with
      | field hc hf _ => exact .inr ⟨_, _, _, hc, hf, .refl⟩
      | union h => exact .inr (hu.part (.union h .refl))
      | list => exact .inr (hu.part (.list .refl))
      | set => exact .inr (hu.part (.set .refl))
      | deque => exact .inr (hu.part (.deque .refl))
      | counter => exact .inr (hu.part (.counter .refl))
      | tuple h => exact .inr (hu.part (.tuple h .refl))
      | tupleV => exact .inr (hu.part (.tupleV .refl))
      | key => exact .inr (hu.part (.key .refl))
      | value => exact .inr (hu.part (.value .refl))
      | alias _ => exact .inr (hu.part (.alias .refl))

theorem distinct : DistinctUnions env := by
  intro c ts h us hr _
  rw [the_union h, the_union (reach_union hr (.inl ⟨c, rfl⟩))]

/-- A node in a node. -/
def v : Val :=
  .inst "N" [("kids", .list [Val.str "ab", .inst "N" [("kids", .list []), ("p", .inst "P" [("x", .int 2)]), ("d", .inst "P" [("x", .int 0)])]]),
    ("p", .inst "P" [("x", .int 1)]), ("d", .inst "P" [("x", .int 3)])]

example : Finishes (fun n => toDict env {} n v) := C52_to_dict older distinct {} (fun _ h => by cases h) v
example : Finishes (fun n => toTuple env {} n v) := C52_to_tuple older distinct {} (fun _ h => by cases h) v
example : toDict env {} 20 v = .ok (.dict .plain [
    (.str "kids", .list [.str "ab", .dict .plain [(.str "N", .dict .plain [(.str "kids", .list []), (.str "x", .int 2)])]]),
    (.str "x", .int 1), (.str "d", .dict .plain [(.str "x", .int 3)])]) := rfl

end C52Ex

/-! ## The order of decoration is needed -/

namespace C52Loop

/-- The default. -/
def d : Val := .inst "A" [("x", .int 1)]

/-- A field with that default. -/
def fx : FieldDef := { name := "x", ty := .prim .int, dflt := some d, skipIfDefault := some true }

/-- A class whose `skip_if_default` default is an instance of the class itself. -/
def cdA : ClassDef := { name := "A", mro := ["A"], fields := [fx] }

def env : Env := Ex.mk [("A", cdA)]

end C52Loop

theorem C52_loop_step (n : Nat) (h : (seAt C52Loop.env n).toObj true none none false none .external C52Loop.d = .error .fuel) :
    (seAt C52Loop.env (n + 2)).toObj true none none false none .external C52Loop.d = .error .fuel := by
  have hc : clsF C52Loop.env (seAt C52Loop.env n) true none none false C52Loop.d = .error .fuel := by
    rcases n with _ | _ | n
    · rfl
    · rfl
    · have hs : skips C52Loop.env (seAt C52Loop.env (n + 2)) (clsSeCx C52Loop.env "A" C52Loop.cdA true none none false) (.ifDefault (some C52Loop.d)) (.int 1) =
          .error .fuel := by
        unfold skips C52Loop.d
        unfold C52Loop.d at h
        simp only [h]
      have hf : ∀ r, skips C52Loop.env r (clsSeCx C52Loop.env "A" C52Loop.cdA true none none false) (.ifDefault (some C52Loop.d)) (.int 1) = .error .fuel →
          r.flat (clsSeCx C52Loop.env "A" C52Loop.cdA true none none false) (seFieldArg C52Loop.fx (.ok C52Loop.d)) = .ok [.int 1] →
          clsF C52Loop.env r true none none false C52Loop.d = .error .fuel := by
        intro r hs hr
        have : seField C52Loop.env r (clsSeCx C52Loop.env "A" C52Loop.cdA true none none false) C52Loop.cdA C52Loop.d [] C52Loop.fx = .error .fuel := by
          unfold seField
          rw [hr]
          show (match skips C52Loop.env r (clsSeCx C52Loop.env "A" C52Loop.cdA true none none false) (.ifDefault (some C52Loop.d)) (.int 1) with
            | .error e => (.error e : Res (List (Val × Val)))
            | .ok true => .ok []
            | .ok false => assign [] [.key "x"] (.int 1)) = _
          rw [hs]
        show (match (match seField C52Loop.env r (clsSeCx C52Loop.env "A" C52Loop.cdA true none none false) C52Loop.cdA C52Loop.d [] C52Loop.fx with
          | .error e => (.error e : Res (List (Val × Val)))
          | .ok res' => .ok res') with
          | .ok res => (.ok (.dict .plain res) : Res Val)
          | .error e => .error e) = _
        rw [this]
      exact hf _ hs rfl
  show wrapAll (clsF C52Loop.env (seAt C52Loop.env n) true none none false C52Loop.d) = _
  rw [hc]; rfl

/-- Without that order, serialization may never end: the default of a class contains an instance of the class. -/
theorem C52_order_needed : Diverges (fun n => toDict C52Loop.env {} n C52Loop.d) := by
  intro n
  induction n using Nat.strongRecOn with
  | ind n ih =>
    rcases n with _ | _ | n
    · rfl
    · rfl
    · exact C52_loop_step n (ih n (by omega))

end Verif.Props
