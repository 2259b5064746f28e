import Verif.Lemmas.DeTotal
import Verif.Examples.World
/-!
# C53: deserialization terminates

Full statement: "from_dict and from_tuple return or raise on every input, also for recursive classes, unions, generics, flattened dataclasses
and transparent classes, provided no annotation leads back to itself without taking the data apart: the recursion is bounded by the
nesting of the input, the requested annotation and the classes. This is for classes whose unions have functions of different names (C44)
and whose transparent classes do not flatten their field."

`Rereads` is the relation "is read from the same data": members of a union, the field of a transparent class, a flattened field, a field
whose missing key is read as None, and, because the characters of a str are again strs, the elements of a list and, in `from_tuple`, every
field of a class. Where it is well-founded every call ends. `C53_rank` gives a way to check that: a number for each class. Without it
reading may never end: `C53_tuple_needed`, `C53_transparent_needed`, `C53_none_needed`. Python's recursion limit is not modelled: there the code
raises `RecursionError`, which is an end too.
-/

namespace Verif.Props
open Verif Verif.Spec

theorem finishes_from {env : Env} {b re nu tg t d} (h : Ev (fun n => NF ((deAt env n).fromObj b re nu tg t d))) :
    Finishes (fun n => (deAt env n).fromObj b re nu tg t d) := by
  obtain ⟨N, hN⟩ := h
  refine ⟨N, _, (hN N (Nat.le_refl N)).ne, fun n hn => ?_⟩
  have hn' := hN N (Nat.le_refl N)
  rcases (deAt_le' env hn).fromObj b re nu tg t d with h | h
  · exact absurd h hn'.ne
  · exact h.symm

/-- `from_dict` ends on every input, with every option. -/
theorem C53_from_dict {env : Env} (hW : WellFounded (Rereads env true)) (hU : DistinctUnions env) (hT : PlainTransparent env) (o : DeOpts) (t : Ty)
    (ht : DistinctInside env t) (d : Val) : Finishes (fun n => fromDict env o n t d) :=
  finishes_from ((deEnds hW hU hT (wt d) (sizeOf t)).2.2 true o.reuse o.numbers o.tagging t d (fun _ => rfl) (Nat.le_refl _) ht (low_wt (Nat.le_refl _)))

/-- `from_tuple` ends on every input, with every option. -/
theorem C53_from_tuple {env : Env} (hW : WellFounded (Rereads env false)) (hU : DistinctUnions env) (hT : PlainTransparent env) (o : DeOpts) (t : Ty)
    (ht : DistinctInside env t) (d : Val) : Finishes (fun n => fromTuple env o n t d) :=
  finishes_from ((deEnds hW hU hT (wt d) (sizeOf t)).2.2 false o.reuse o.numbers o.tagging t d (fun h => by cases h) (Nat.le_refl _) ht (low_wt (Nat.le_refl _)))

theorem isNullable_iff {t : Ty} : Nullable t ↔ isNullable t = true := by
  constructor
  · intro h
    induction h with
    | union h => simp only [isNullable, List.any_eq_true]; exact ⟨_, h, rfl⟩
    | alias _ ih => simpa only [isNullable] using ih
  · intro h
    generalize hn : sizeOf t = n
    induction n using Nat.strongRecOn generalizing t with
    | ind n ih =>
    subst hn
    cases t with
    | union ts => exact nullable_of h
    | alias nm t => exact .alias (ih _ (by simp; omega) (by simpa only [isNullable] using h) rfl)
    | _ => simp [isNullable] at h

theorem weighs_mem {w : ClassId → Bool → Nat} {j opt t} {ts : List Ty} (h : t ∈ ts) (ho : opt = false ∨ isNullable t = true) : weigh w j t ≤ weighs w j opt ts := by
  induction ts with
  | nil => cases h
  | cons s ts ih =>
    unfold weighs
    rcases List.mem_cons.1 h with rfl | h
    · rw [if_neg (by rcases ho with rfl | ho <;> simp [*])]; omega
    · have := ih h; omega

/-- Numbers for the classes that go down along the fields read from the same data show that no annotation leads back to itself. -/
theorem C53_rank {env : Env} {named : Bool} {w : ClassId → Bool → Nat} (h : Ranked env named w) : WellFounded (Rereads env named) := by
  refine Subrelation.wf (r := InvImage Nat.lt (fun x : Ty × Bool => weigh w x.2 x.1)) (fun {x y} hxy => ?_) (InvImage.wf _ Nat.lt_wfRel.wf)
  show weigh w x.2 x.1 < weigh w y.2 y.1
  cases hxy with
  | alias => simp only [weigh]; omega
  | origin => simp only [weigh]; omega
  | member ht => have := weighs_mem (w := w) (j := false) ht (.inl rfl); simp only [weigh, Bool.false_and]; omega
  | memberNone ht hn =>
    rename_i t ts
    have := weighs_mem (w := w) (j := true) (opt := true && (Ty.union ts).isOpt) ht (by
      rcases hn with hn | hn
      · exact .inl (by simpa using hn)
      · exact .inr (isNullable_iff.1 hn))
    simp only [weigh]; omega
  | list => simp [weigh]
  | set => simp [weigh]
  | deque => simp [weigh]
  | tupleV => simp [weigh]
  | tuple ht => have := weighs_mem (w := w) (j := false) ht (.inl rfl); simp only [weigh, Bool.false_eq_true, if_false]; omega
  | transparent hc ht hf => exact h.transparent _ hc ht hf
  | flatten hc ht hf hfl => exact h.flatten _ hc ht hf hfl
  | missing hc ht hf hn => exact h.missing hc ht hf (isNullable_iff.1 hn)
  | position hb hc ht hf => exact h.position hb hc ht hf

/-! ## Recursive classes -/

theorem reach_annotated {env : Env} {u us} (h : Reach env true u (.union us)) (hu : (∃ c, u = .cls c) ∨ Annotated env u) : Annotated env (.union us) := by
  generalize ht : Ty.union us = t at h
  induction h with
  | refl =>
    subst ht
    rcases hu with ⟨c, hu⟩ | hu
    · cases hu
    · exact hu
  | step hp _ ih =>
    refine ih ?_ ht
    rcases hu with ⟨c, rfl⟩ | hu
    · cases hp with
      | field hc hf _ => exact .inr ⟨_, _, _, hc, hf, .refl⟩
    · cases hp with
      | field hc hf _ => exact .inr ⟨_, _, _, hc, hf, .refl⟩
      | union h => exact .inr (hu.part (.union h .refl))
      | list => exact .inr (hu.part (.list .refl))
      | set => exact .inr (hu.part (.set .refl))
      | deque => exact .inr (hu.part (.deque .refl))
      | counter => exact .inr (hu.part (.counter .refl))
      | tuple h => exact .inr (hu.part (.tuple h .refl))
      | tupleV => exact .inr (hu.part (.tupleV .refl))
      | key => exact .inr (hu.part (.key .refl))
      | value => exact .inr (hu.part (.value .refl))
      | alias _ => exact .inr (hu.part (.alias .refl))

theorem distinctInside_cls {env : Env} {c} : DistinctInside env (.cls c) := by
  intro s h ts us hp
  cases h with
  | within h => cases h; cases hp
  | arg h => cases h

namespace C53Ex

/-- A dataclass that is spliced into `cdN`. -/
def cdP : ClassDef := { name := "P", mro := ["P"], fields := [{ name := "x", ty := .prim .int }] }

/-- A recursive class. -/
def cdN : ClassDef :=
  { name := "N", mro := ["N"], fields := [
    { name := "p", ty := .cls "P", flatten := true },
    { name := "kids", ty := .list .list (.union [.cls "N", .prim .str]) },
    { name := "next", ty := .union [.cls "N", .none] },
    { name := "alt", ty := .union [.cls "N", .prim .str, .none] }] }

/-- A transparent class. -/
def cdT : ClassDef := { name := "T", mro := ["T"], transparent := true, fields := [{ name := "n", ty := .cls "N" }] }

def env : Env := Ex.mk [("P", cdP), ("N", cdN), ("T", cdT)]

/-- The numbers of the classes. -/
def w (c : ClassId) (j : Bool) : Nat := if c == "T" then (if j then 2 else 4) else if c == "N" then (if j then 1 else 3) else 0

theorem cls_cases {c cd} (h : env.cls c = some cd) : (c = "P" ∧ cd = cdP) ∨ (c = "N" ∧ cd = cdN) ∨ (c = "T" ∧ cd = cdT) := by
  simp only [Env.cls, env, Ex.mk, List.lookup_cons, List.lookup_nil] at h
  split at h
  · rename_i h1; cases h; exact .inl ⟨by simpa using h1, rfl⟩
  · split at h
    · rename_i h1; cases h; exact .inr (.inl ⟨by simpa using h1, rfl⟩)
    · split at h
      · rename_i h1; cases h; exact .inr (.inr ⟨by simpa using h1, rfl⟩)
      · cases h

theorem ranked : Ranked env true w := by
  constructor
  · intro c cd f j hc ht hf
    rcases cls_cases hc with ⟨rfl, rfl⟩ | ⟨rfl, rfl⟩ | ⟨rfl, rfl⟩
    · cases ht
    · cases ht
    · simp only [cdT, List.mem_cons, List.not_mem_nil, or_false] at hf
      subst hf; cases j <;> decide
  · intro c cd f j hc ht hf hfl
    rcases cls_cases hc with ⟨rfl, rfl⟩ | ⟨rfl, rfl⟩ | ⟨rfl, rfl⟩
    · simp only [cdP, List.mem_cons, List.not_mem_nil, or_false] at hf
      subst hf; cases hfl
    · simp only [cdN, List.mem_cons, List.not_mem_nil, or_false] at hf
      rcases hf with rfl | rfl | rfl | rfl
      · cases j <;> decide
      · cases hfl
      · cases hfl
      · cases hfl
    · cases ht
  · intro c cd f hc ht hf hn
    rcases cls_cases hc with ⟨rfl, rfl⟩ | ⟨rfl, rfl⟩ | ⟨rfl, rfl⟩
    · simp only [cdP, List.mem_cons, List.not_mem_nil, or_false] at hf
      subst hf; cases hn
    · simp only [cdN, List.mem_cons, List.not_mem_nil, or_false] at hf
      rcases hf with rfl | rfl | rfl | rfl
      · cases hn
      · cases hn
      · decide
      · decide
    · cases ht
  · intro c cd f hb
    cases hb

theorem plain : PlainTransparent env := by
  intro c cd f hc ht hf
  rcases cls_cases hc with ⟨rfl, rfl⟩ | ⟨rfl, rfl⟩ | ⟨rfl, rfl⟩
  · cases ht
  · cases ht
  · simp only [cdT, List.mem_cons, List.not_mem_nil, or_false] at hf
    subst hf; rfl

theorem the_union {ts} (h : Annotated env (.union ts)) :
    ts = [.cls "N", .prim .str] ∨ ts = [.cls "N", .none] ∨ ts = [.cls "N", .prim .str, .none] := by
  obtain ⟨c, cd, f, hc, hf, hw⟩ := h
  rcases cls_cases hc with ⟨rfl, rfl⟩ | ⟨rfl, rfl⟩ | ⟨rfl, rfl⟩
  · simp only [cdP, List.mem_cons, List.not_mem_nil, or_false] at hf
    subst hf; cases hw
  · simp only [cdN, List.mem_cons, List.not_mem_nil, or_false] at hf
    rcases hf with rfl | rfl | rfl | rfl
    · cases hw
    · cases hw with
      | list h => cases h with
        | refl => exact .inl rfl
        | union hm h =>
          simp only [List.mem_cons, List.not_mem_nil, or_false] at hm
          rcases hm with rfl | rfl <;> cases h
    · cases hw with
      | refl => exact .inr (.inl rfl)
      | union hm h =>
        simp only [List.mem_cons, List.not_mem_nil, or_false] at hm
        rcases hm with rfl | rfl <;> cases h
    · cases hw with
      | refl => exact .inr (.inr rfl)
      | union hm h =>
        simp only [List.mem_cons, List.not_mem_nil, or_false] at hm
        rcases hm with rfl | rfl | rfl <;> cases h
  · simp only [cdT, List.mem_cons, List.not_mem_nil, or_false] at hf
    subst hf; cases hw

theorem distinct : DistinctUnions env := by
  intro c ts h us hr hn
  rcases the_union h with rfl | rfl | rfl <;> rcases the_union (reach_annotated hr (.inl ⟨c, rfl⟩)) with rfl | rfl | rfl <;>
    first | rfl | exact absurd hn (by decide)

/-- A node in a node. -/
def d : Val :=
  .dict .plain [(.str "x", .int 1), (.str "kids", .list [Val.str "ab"]),
    (.str "alt", .dict .plain [(.str "N", .dict .plain [(.str "x", .int 2), (.str "kids", .list []), (.str "alt", .none)])])]

example (x : Val) : Finishes (fun n => fromDict env {} n (.cls "T") x) := C53_from_dict (C53_rank ranked) distinct plain {} _ distinctInside_cls x
example : fromDict env {} 20 (.cls "T") d = .ok (.inst "T" [("n", .inst "N" [("p", .inst "P" [("x", .int 1)]), ("kids", .list [Val.str "ab"]), ("next", .none),
    ("alt", .inst "N" [("p", .inst "P" [("x", .int 2)]), ("kids", .list []), ("next", .none), ("alt", .none)])])]) := rfl

/-- A class read from tuples. -/
def cdQ : ClassDef :=
  { name := "Q", mro := ["Q"], fields := [{ name := "a", ty := .list .list (.cls "P") }, { name := "o", ty := .union [.cls "P", .none] }] }

def envQ : Env := Ex.mk [("P", cdP), ("Q", cdQ)]

/-- The numbers of the classes. -/
def wQ (c : ClassId) (_ : Bool) : Nat := if c == "Q" then 3 else 1

theorem cls_casesQ {c cd} (h : envQ.cls c = some cd) : (c = "P" ∧ cd = cdP) ∨ (c = "Q" ∧ cd = cdQ) := by
  simp only [Env.cls, envQ, Ex.mk, List.lookup_cons, List.lookup_nil] at h
  split at h
  · rename_i h1; cases h; exact .inl ⟨by simpa using h1, rfl⟩
  · split at h
    · rename_i h1; cases h; exact .inr ⟨by simpa using h1, rfl⟩
    · cases h

theorem rankedQ : Ranked envQ false wQ := by
  constructor
  · intro c cd f j hc ht hf
    rcases cls_casesQ hc with ⟨rfl, rfl⟩ | ⟨rfl, rfl⟩ <;> cases ht
  · intro c cd f j hc ht hf hfl
    rcases cls_casesQ hc with ⟨rfl, rfl⟩ | ⟨rfl, rfl⟩
    · simp only [cdP, List.mem_cons, List.not_mem_nil, or_false] at hf
      subst hf; cases hfl
    · simp only [cdQ, List.mem_cons, List.not_mem_nil, or_false] at hf
      rcases hf with rfl | rfl <;> cases hfl
  · intro c cd f hc ht hf hn
    rcases cls_casesQ hc with ⟨rfl, rfl⟩ | ⟨rfl, rfl⟩
    · simp only [cdP, List.mem_cons, List.not_mem_nil, or_false] at hf
      subst hf; decide
    · simp only [cdQ, List.mem_cons, List.not_mem_nil, or_false] at hf
      rcases hf with rfl | rfl <;> decide
  · intro c cd f _ hc ht hf
    rcases cls_casesQ hc with ⟨rfl, rfl⟩ | ⟨rfl, rfl⟩
    · simp only [cdP, List.mem_cons, List.not_mem_nil, or_false] at hf
      subst hf; decide
    · simp only [cdQ, List.mem_cons, List.not_mem_nil, or_false] at hf
      rcases hf with rfl | rfl <;> decide

theorem plainQ : PlainTransparent envQ := by
  intro c cd f hc ht hf
  rcases cls_casesQ hc with ⟨rfl, rfl⟩ | ⟨rfl, rfl⟩ <;> cases ht

theorem the_unionQ {ts} (h : Annotated envQ (.union ts)) : ts = [.cls "P", .none] := by
  obtain ⟨c, cd, f, hc, hf, hw⟩ := h
  rcases cls_casesQ hc with ⟨rfl, rfl⟩ | ⟨rfl, rfl⟩
  · simp only [cdP, List.mem_cons, List.not_mem_nil, or_false] at hf
    subst hf; cases hw
  · simp only [cdQ, List.mem_cons, List.not_mem_nil, or_false] at hf
    rcases hf with rfl | rfl
    · cases hw with
      | list h => cases h
    · cases hw with
      | refl => rfl
      | union hm h =>
        simp only [List.mem_cons, List.not_mem_nil, or_false] at hm
        rcases hm with rfl | rfl <;> cases h

theorem distinctQ : DistinctUnions envQ := by
  intro c ts h us hr _
  rw [the_unionQ h, the_unionQ (reach_annotated hr (.inl ⟨c, rfl⟩))]

example (x : Val) : Finishes (fun n => fromTuple envQ {} n (.cls "Q") x) := C53_from_tuple (C53_rank rankedQ) distinctQ plainQ {} _ distinctInside_cls x
example : fromTuple envQ {} 20 (.cls "Q") (.tuple [.list [.tuple [.int 1]], .none]) = .ok (.inst "Q" [("a", .list [.inst "P" [("x", .int 1)]]), ("o", .none)]) := rfl

end C53Ex

/-! ## The condition is needed -/

namespace C53Loop

/-- `a: Optional[A]`. -/
def fA : FieldDef := { name := "a", ty := .union [.cls "A", .none] }

/-- `class A: a: Optional[A]`. -/
def cdA : ClassDef := { name := "A", mro := ["A"], fields := [fA] }

/-- `x: list[T]`. -/
def fT : FieldDef := { name := "x", ty := .list .list (.cls "T") }

/-- `class T: x: list[T]`, transparent. -/
def cdT : ClassDef := { name := "T", mro := ["T"], transparent := true, fields := [fT] }

/-- `class C: b: B = field(flatten=True)`. -/
def cdC : ClassDef := { name := "C", mro := ["C"], fields := [{ name := "b", ty := .cls "B", flatten := true }] }

/-- `u: Union[C, str, None]`. -/
def fB : FieldDef := { name := "u", ty := .union [.cls "C", .prim .str, .none] }

/-- `class B: u: Union[C, str, None]`, untagged. -/
def cdB : ClassDef := { name := "B", mro := ["B"], tagging := .untagged, fields := [fB] }

def env : Env := Ex.mk [("A", cdA), ("T", cdT), ("B", cdB), ("C", cdC)]

/-- The data. -/
def a : Val := .str "a"
/-- No data. -/
def e : Val := .dict .plain []

end C53Loop

theorem mapR_head {α β : Type} {f : α → Res β} {a as e} (h : f a = .error e) : mapR f (a :: as) = .error e := by
  unfold mapR; rw [h]

theorem C53_tuple_step (n : Nat) (h : ∀ o, (deAt C53Loop.env n).cls false "A" o C53Loop.a = .error .fuel) (o) :
    (deAt C53Loop.env (n + 3)).cls false "A" o C53Loop.a = .error .fuel := by
  have h1 : ∀ df ta, (deAt C53Loop.env (n + 1)).render (clsDeCx C53Loop.env "A" C53Loop.cdA false o C53Loop.a)
      { ty := .cls "A", name := "a", conv := "a", src := .idx C53Loop.a 0, alias := [], deser := none, flatten := false, dflt := df, tyArgs := ta } = .error .fuel := by
    intro df ta
    cases df <;> exact h _
  have h2 : (deAt C53Loop.env (n + 2)).render (clsDeCx C53Loop.env "A" C53Loop.cdA false o C53Loop.a)
      { ty := .union [.cls "A", .none], name := "a", conv := "a", src := .idx C53Loop.a 0, alias := [], deser := none, flatten := false } = .error .fuel := h1 none none
  have h3 : ∀ r : DeRec, r.render (clsDeCx C53Loop.env "A" C53Loop.cdA false o C53Loop.a)
      { ty := .union [.cls "A", .none], name := "a", conv := "a", src := .idx C53Loop.a 0, alias := [], deser := none, flatten := false } = .error .fuel →
      deTupleArgs r (clsDeCx C53Loop.env "A" C53Loop.cdA false o C53Loop.a) C53Loop.cdA C53Loop.a = .error .fuel := by
    intro r hr
    exact mapR_head (a := (C53Loop.fA, 0)) (as := []) hr
  show (match (match deTupleArgs (deAt C53Loop.env (n + 2)) (clsDeCx C53Loop.env "A" C53Loop.cdA false o C53Loop.a) C53Loop.cdA C53Loop.a with
    | .error e => (.error e : Res (List Val × List (String × Val)))
    | .ok vs => .ok (vs, [])) with
    | .error e => (.error e : Res Val)
    | .ok (pos, kw) => construct C53Loop.env "A" C53Loop.cdA pos kw) = _
  rw [h3 _ h2]

/-- `from_tuple` of a recursive class on a str never ends: the first character of `"a"` is `"a"` again. -/
theorem C53_tuple_needed : Diverges (fun n => fromTuple C53Loop.env {} n (.cls "A") C53Loop.a) := by
  have h : ∀ n o, (deAt C53Loop.env n).cls false "A" o C53Loop.a = .error .fuel := by
    intro n
    induction n using Nat.strongRecOn with
    | ind n ih =>
      rcases n with _ | _ | _ | n
      · exact fun _ => rfl
      · exact fun _ => rfl
      · exact fun _ => rfl
      · exact C53_tuple_step n (ih n (by omega))
  intro n
  cases n with
  | zero => rfl
  | succ n =>
    show wrapUser ((deAt C53Loop.env n).cls false "A" _ C53Loop.a) = _
    rw [h]; rfl

theorem C53_transparent_step (n : Nat) (h : ∀ o, (deAt C53Loop.env n).cls true "T" o C53Loop.a = .error .fuel) (o) :
    (deAt C53Loop.env (n + 3)).cls true "T" o C53Loop.a = .error .fuel := by
  have h1 : (deAt C53Loop.env (n + 1)).render (clsDeCx C53Loop.env "T" C53Loop.cdT true o C53Loop.a)
      { ty := .cls "T", name := "v", conv := "v", src := .val (.ok C53Loop.a), alias := [], deser := none } = .error .fuel := h _
  have h2 : ∀ r : DeRec, r.render (clsDeCx C53Loop.env "T" C53Loop.cdT true o C53Loop.a)
      { ty := .cls "T", name := "v", conv := "v", src := .val (.ok C53Loop.a), alias := [], deser := none } = .error .fuel →
      deBody C53Loop.env r (clsDeCx C53Loop.env "T" C53Loop.cdT true o C53Loop.a) (transpArg true C53Loop.fT C53Loop.a) = .error .fuel := by
    intro r hr
    show (match mapR (fun x => r.render (clsDeCx C53Loop.env "T" C53Loop.cdT true o C53Loop.a)
        { ty := .cls "T", name := "v", conv := "v", src := .val (.ok x), alias := [], deser := none }) [C53Loop.a] with
      | .ok ys => (.ok (.list ys) : Res Val)
      | .error e => .error e) = _
    simp only [mapR, hr]
  have h3 : (deAt C53Loop.env (n + 2)).render (clsDeCx C53Loop.env "T" C53Loop.cdT true o C53Loop.a) (transpArg true C53Loop.fT C53Loop.a) = .error .fuel := h2 _ h1
  show (match (match (deAt C53Loop.env (n + 2)).render (clsDeCx C53Loop.env "T" C53Loop.cdT true o C53Loop.a) (transpArg true C53Loop.fT C53Loop.a) with
    | .error e => (.error e : Res (List Val × List (String × Val)))
    | .ok v => if transpKw true C53Loop.cdT C53Loop.fT then .ok ([], [("x", v)]) else .ok ([v], [])) with
    | .error e => (.error e : Res Val)
    | .ok (pos, kw) => construct C53Loop.env "T" C53Loop.cdT pos kw) = _
  rw [h3]

/-- `from_dict` of a transparent class over a list of itself never ends on a str. -/
theorem C53_transparent_needed : Diverges (fun n => fromDict C53Loop.env {} n (.cls "T") C53Loop.a) := by
  have h : ∀ n o, (deAt C53Loop.env n).cls true "T" o C53Loop.a = .error .fuel := by
    intro n
    induction n using Nat.strongRecOn with
    | ind n ih =>
      rcases n with _ | _ | _ | n
      · exact fun _ => rfl
      · exact fun _ => rfl
      · exact fun _ => rfl
      · exact C53_transparent_step n (ih n (by omega))
  intro n
  cases n with
  | zero => rfl
  | succ n =>
    show wrapUser ((deAt C53Loop.env n).cls true "T" _ C53Loop.a) = _
    rw [h]; rfl

/-- The argument for the field `u` of `B`. -/
def C53Loop.argU : DeArg := { ty := C53Loop.fB.ty, name := "u", conv := "u", src := .key C53Loop.e }
/-- The argument for the member `C` of the union. -/
def C53Loop.argM : DeArg := { ty := .cls "C", name := "fake_key", conv := "fake_key", src := .key (.dict .plain [(.str "fake_key", .none)]) }
/-- The argument for the field `b` of `C`. -/
def C53Loop.argB : DeArg := { ty := .cls "B", name := "b", conv := "b", src := .key C53Loop.e, flatten := true }

theorem C53_none_cls {c cd f a d} (o) (r : DeRec) (hcls : C53Loop.env.cls c = some cd) (hn : cd.transparent = false) (hu : deUnknown C53Loop.env c cd d = .ok false)
    (he : deExtra C53Loop.env c cd d = .ok []) (hf : cd.fields.filter (·.renderable) = [f])
    (hd : deField C53Loop.env r (clsDeCx C53Loop.env c cd true o d) c cd [] d f = catchKey (f.conv cd.deCase) (r.render (clsDeCx C53Loop.env c cd true o d) a))
    (hr : r.render (clsDeCx C53Loop.env c cd true o d) a = .error .fuel) : deClsF C53Loop.env r true c o d = .error .fuel := by
  have hd' : deField C53Loop.env r (clsDeCx C53Loop.env c cd true o d) c cd [] d f = .error .fuel := by
    rw [hd, hr]; rfl
  have : deArgs C53Loop.env r true c cd o d = .error .fuel := by
    unfold deArgs
    dsimp only
    rw [hn, if_neg (by decide), if_pos rfl, hu]
    dsimp only
    unfold deNamedArgs
    rw [he]
    dsimp only
    rw [hf, mapR_head hd']
  unfold deClsF
  rw [hcls]
  dsimp only
  rw [this]

theorem C53_none_step (n : Nat) (h : ∀ o, (deAt C53Loop.env n).cls true "B" o C53Loop.e = .error .fuel) (o) :
    (deAt C53Loop.env (n + 5)).cls true "B" o C53Loop.e = .error .fuel := by
  have h1 : ∀ o, (deAt C53Loop.env (n + 1)).render (clsDeCx C53Loop.env "C" C53Loop.cdC true o .none) C53Loop.argB = .error .fuel := fun _ => h _
  have h2 : ∀ o, (deAt C53Loop.env (n + 2)).cls true "C" o .none = .error .fuel := fun o =>
    C53_none_cls o (deAt C53Loop.env (n + 1)) rfl rfl rfl rfl rfl rfl (h1 o)
  have h3 : (deAt C53Loop.env (n + 3)).render ((clsDeCx C53Loop.env "B" C53Loop.cdB true o C53Loop.e).inUnion C53Loop.env .none) C53Loop.argM = .error .fuel := h2 _
  have h4 : (deAt C53Loop.env (n + 4)).render (clsDeCx C53Loop.env "B" C53Loop.cdB true o C53Loop.e) C53Loop.argU = .error .fuel := by
    have hm : deMember C53Loop.env (deAt C53Loop.env (n + 3)) ((clsDeCx C53Loop.env "B" C53Loop.cdB true o C53Loop.e).inUnion C53Loop.env .none) (.cls "C") .none =
        .error .fuel := by
      show (match (deAt C53Loop.env (n + 3)).render ((clsDeCx C53Loop.env "B" C53Loop.cdB true o C53Loop.e).inUnion C53Loop.env .none) C53Loop.argM with
        | .error e => (.error e : Res Val)
        | .ok res => if bearable C53Loop.env (.cls "C") res then .ok res else .error (.serde "ensure")) = _
      rw [h3]
    show deUnion C53Loop.env (deAt C53Loop.env (n + 3)) ((clsDeCx C53Loop.env "B" C53Loop.cdB true o C53Loop.e).inUnion C53Loop.env .none) .none
      [.cls "C", .prim .str, .none] = _
    unfold deUnion
    rw [hm]
  exact C53_none_cls o (deAt C53Loop.env (n + 4)) rfl rfl rfl rfl rfl rfl h4

/-- `from_dict` of an untagged union with None never ends where its first member flattens the class of the union: the missing key is
None, None is projected to an empty dict, and its key is missing again. -/
theorem C53_none_needed : Diverges (fun n => fromDict C53Loop.env {} n (.cls "B") C53Loop.e) := by
  have h : ∀ n o, (deAt C53Loop.env n).cls true "B" o C53Loop.e = .error .fuel := by
    intro n
    induction n using Nat.strongRecOn with
    | ind n ih =>
      rcases n with _ | _ | _ | _ | _ | n
      · exact fun _ => rfl
      · exact fun _ => rfl
      · exact fun _ => rfl
      · exact fun _ => rfl
      · exact fun _ => rfl
      · exact C53_none_step n (ih n (by omega))
  intro n
  cases n with
  | zero => rfl
  | succ n =>
    show wrapUser ((deAt C53Loop.env n).cls true "B" _ C53Loop.e) = _
    rw [h]; rfl

end Verif.Props
