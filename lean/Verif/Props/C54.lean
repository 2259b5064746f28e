import Verif.Lemmas.Follow
import Verif.Props.C40
import Verif.Model.Formats
import Verif.Examples.World
/-!
# C54: what from_dict returns
-/

namespace Verif.Props

open Verif Verif.Spec

/-- **C54** What a successful `from_dict` returns is what the annotations make of the input, position by position (`TopTo`, `ReadTo`). Nothing is
claimed about fields with aliases where these do not work (C08), about type variables or about the attributes a `__post_init__` sets, and the functions generated for unions and
literals must have names of their own (C44). -/
theorem C54_from_dict_partial {env : Env} {o : DeOpts} {n t x w} (hU : DistinctUnions env) (hL : DistinctLits env) (hT : DistinctTop env t)
    (h : fromDict env o n t x = .ok w) : TopTo env true o.reuse o.numbers o.tagging t x w :=
  top_at hU hL n _ _ _ _ _ _ _ hT h

/-- **C54** Wherever steps lead to elements, to values of mappings, to fields of nested, flattened and transparent dataclasses, to objects in unions: the value found
there is what the annotation there makes of the input there. `reuse_instances` and the number function are the ones given to `from_dict`, coercion
and tagging those of the class around that position. -/
theorem C54_anywhere_partial {env : Env} {o : DeOpts} {n t x w top cd' t' x' w'} (hU : DistinctUnions env) (hL : DistinctLits env) (hT : DistinctTop env t)
    (hg : env.gde = []) (h : fromDict env o n t x = .ok w) (hl : TopLeads env true top cd' t' x' w' t x w) :
    ReadTo env (.inside true (o.reuse.getD top.reuseDflt) o.numbers cd') t' x' w' :=
  topLeads_read hg hl _ (C54_from_dict_partial hU hL hT h)

/-- **C54** What is not in the input, at whatever depth: a field without entry (under its wire name, or under none of its names if it has aliases) is its
default, or `None` if it is Optional without default; a field that is not read is its default. -/
theorem C54_absent_partial {env : Env} {o : DeOpts} {n t x w top cd' c dk kvs w'} {cd : ClassDef} (hU : DistinctUnions env) (hL : DistinctLits env)
    (hT : DistinctTop env t) (hg : env.gde = []) (h : fromDict env o n t x = .ok w) (hl : TopLeads env true top cd' (.cls c) (.dict dk kvs) w' t x w)
    (hD : Direct env c cd) : ∃ attrs, w' = .inst c attrs ∧
      (∀ f d, ReadField cd f → getStr (f.conv cd.deCase) kvs = none → f.dflt = some d → attrs.lookup f.name = some d) ∧
      (∀ f d, AliasedField env cd f → FirstEntry f kvs = none → f.dflt = some d → attrs.lookup f.name = some d) ∧
      (∀ f t, ReadField cd f → getStr (f.conv cd.deCase) kvs = none → f.dflt = none → f.ty = .union [t, .none] → t ≠ .none → f.deserializer = none →
        attrs.lookup f.name = some .none) ∧
      (∀ f ∈ cd.fields, f.init = false ∨ f.skip = true ∨ f.skipDe = true → attrs.lookup f.name = f.dflt) := by
  have hr := C54_anywhere_partial hU hL hT hg h hl
  cases hr with
  | chosen hc _ => exact (no_chosen hc).elim
  | leaf _ h => cases h
  | cls _ h =>
    cases h with
    | @dict _ _ cd₁ _ _ attrs _ hc hs a1 a2 a3 a4 a5 a6 a7 a8 a9 a10 =>
      have := hD.cls.symm.trans hc
      cases this
      have hno : ∀ t, NoneForDe (env.gde ++ cd.classDe.toList) t := fun t s hs => by rw [hg, hD.noDe] at hs; cases hs
      refine ⟨attrs, rfl, fun f d hf hx hd => ?_, fun f d hf hx hd => ?_, fun f t hf hx hd hty htn hds => ?_, a10⟩
      · obtain ⟨y, hy⟩ := a6 f hf.mem hf.init hf.skip hf.skipDe
        rw [hy, a4 f d y hf hx hd hy]
      · obtain ⟨y, hy⟩ := a6 f hf.mem hf.init hf.skip hf.skipDe
        rw [hy, a8 f d y hf hx hd hy]
      · obtain ⟨y, hy⟩ := a6 f hf.mem hf.init hf.skip hf.skipDe
        rw [hy, a9 f t y hf hx hd hty htn hds (hno _) hy]
    | through hc ht =>
      have := hD.cls.symm.trans hc
      cases this
      have h1 := ht.transparent
      rw [hD.simple.dict] at h1
      cases h1
    | other hc hs =>
      have := hD.cls.symm.trans hc
      cases this
      exact absurd hD.simple hs
    | notDict _ _ _ hx => exact absurd rfl (hx _ _)
    | seq hn => cases hn
    | unaligned hn => cases hn

theorem readTo_leaf {env : Env} {nm re nu cd t x w} (h : ReadTo env (.inside nm re nu cd) t x w) (h1 : ∀ ts, t ≠ .tuple ts)
    (h2 : ∀ k s, t ≠ .list k s) (h3 : ∀ s, t ≠ .deque s) (h4 : ∀ s, t ≠ .tupleV s) (h5 : ∀ k s, t ≠ .set k s) (h6 : ∀ s, t ≠ .counter s)
    (h7 : ∀ k a b, t ≠ .dict k a b) (h8 : ∀ ts, t ≠ .union ts) (h9 : ∀ a b, t ≠ .alias a b) (h10 : ∀ a b, t ≠ .gen a b) (h11 : ∀ a, t ≠ .cls a)
    (h12 : ∀ a, t ≠ .tvar a) : LeafTo env (.inside nm re nu cd) t x w := by
  cases h with
  | chosen hc _ => exact (no_chosen hc).elim
  | leaf _ h => exact h
  | tuple => exact (h1 _ rfl).elim
  | list => exact (h2 _ _ rfl).elim
  | deque => exact (h3 _ rfl).elim
  | tupleV => exact (h4 _ rfl).elim
  | set => exact (h5 _ _ rfl).elim
  | counter => exact (h6 _ rfl).elim
  | dict => exact (h7 _ _ _ rfl).elim
  | optNone => exact (h8 _ rfl).elim
  | opt => exact (h8 _ rfl).elim
  | union => exact (h8 _ rfl).elim
  | alias => exact (h9 _ _ rfl).elim
  | gen => exact (h10 _ _ rfl).elim
  | cls => exact (h11 _ rfl).elim
  | tvar => exact (h12 _ rfl).elim

/-- Whatever the number function of the format refuses is refused at every float, whatever it gives is found there. -/
theorem C54_number_partial {env : Env} {o : DeOpts} {n t x w top cd' x' w' num} (hU : DistinctUnions env) (hL : DistinctLits env) (hT : DistinctTop env t)
    (hg : env.gde = []) (hn : o.numbers = some num) (h : fromDict env o n t x = .ok w) (hl : TopLeads env true top cd' (.prim .float) x' w' t x w) :
    num x' = .ok w' := by
  have := readTo_leaf (C54_anywhere_partial hU hL hT hg h hl) (by simp) (by simp) (by simp) (by simp) (by simp) (by simp) (by simp) (by simp)
    (by simp) (by simp) (by simp) (by simp)
  rw [hn] at this
  cases this with
  | number h1 h2 => cases h1; exact h2
  | coerced h1 _ _ => cases h1 rfl
  | same h1 _ => cases h1 rfl

/-- **C40** At every float of the result, however deep: an integer of the JSON text became `float(i)`, a float stayed, and there was nothing else. -/
theorem C40_anywhere_partial {env : Env} {K n t s tg x w top cd' x' w'} (hU : DistinctUnions env) (hL : DistinctLits env) (hT : DistinctTop env t)
    (hg : env.gde = []) (hd : K.dec s = .ok x) (h : fromJson env K n t s true tg = .ok w) (hl : TopLeads env true top cd' (.prim .float) x' w' t x w) :
    (∃ i f, x' = .int i ∧ env.W.floatOfInt i = some f ∧ w' = .float f) ∨ ∃ f, x' = .float f ∧ w' = .float f := by
  have hx := C54_number_partial hU hL hT hg rfl (fromJson_dict hd h) hl
  cases x' <;> simp only [jsonNumbers, floatOf] at hx <;> try cases hx
  · rename_i i
    split at hx
    · rename_i f hf
      cases hx
      exact .inl ⟨i, f, rfl, hf, rfl⟩
    · cases hx
  · exact .inr ⟨_, rfl, rfl⟩

/-- **C51** At every date of the result, however deep: with `reuse_instances` the instance in the input, otherwise what the parser makes of it. -/
theorem C51_date_anywhere_partial {env : Env} {o : DeOpts} {n t x w top cd' k x' w'} (hU : DistinctUnions env) (hL : DistinctLits env)
    (hT : DistinctTop env t) (hg : env.gde = []) (h : fromDict env o n t x = .ok w) (hl : TopLeads env true top cd' (.dt k) x' w' t x w) :
    (o.reuse.getD top.reuseDflt = true → IsA env (.dt k) x' → w' = x') ∧
    (o.reuse.getD top.reuseDflt = false ∨ ¬ IsA env (.dt k) x' → env.W.dtParse k x' = .ok w') := by
  have := readTo_leaf (C54_anywhere_partial hU hL hT hg h hl) (by simp) (by simp) (by simp) (by simp) (by simp) (by simp) (by simp) (by simp)
    (by simp) (by simp) (by simp) (by simp)
  cases this with
  | dtKept h1 h2 =>
    refine ⟨fun _ _ => rfl, fun h3 => ?_⟩
    rcases h3 with h3 | h3
    · exact absurd (h3.symm.trans h1) (by decide)
    · exact (h3 h2).elim
  | dtMade h1 h2 => exact ⟨fun a b => (h1 ⟨a, b⟩).elim, fun _ => h2⟩

/-- **C51** The same for UUIDs, paths, addresses and decimals. -/
theorem C51_std_anywhere_partial {env : Env} {o : DeOpts} {n t x w top cd' k x' w'} (hU : DistinctUnions env) (hL : DistinctLits env)
    (hT : DistinctTop env t) (hg : env.gde = []) (h : fromDict env o n t x = .ok w) (hl : TopLeads env true top cd' (.std k) x' w' t x w) :
    (o.reuse.getD top.reuseDflt = true → IsA env (.std k) x' → w' = x') ∧
    (o.reuse.getD top.reuseDflt = false ∨ ¬ IsA env (.std k) x' → env.W.stdCtor k x' = .ok w') := by
  have := readTo_leaf (C54_anywhere_partial hU hL hT hg h hl) (by simp) (by simp) (by simp) (by simp) (by simp) (by simp) (by simp) (by simp)
    (by simp) (by simp) (by simp) (by simp)
  cases this with
  | stdKept h1 h2 =>
    refine ⟨fun _ _ => rfl, fun h3 => ?_⟩
    rcases h3 with h3 | h3
    · exact absurd (h3.symm.trans h1) (by decide)
    · exact (h3 h2).elim
  | stdMade h1 h2 => exact ⟨fun a b => (h1 ⟨a, b⟩).elim, fun _ => h2⟩

/-- **C30** At every `Literal` of the result, however deep: the input itself, and it equals one of the literal's values. -/
theorem C30_anywhere_partial {env : Env} {o : DeOpts} {n t x w top cd' vs x' w'} (hU : DistinctUnions env) (hL : DistinctLits env)
    (hT : DistinctTop env t) (hg : env.gde = []) (h : fromDict env o n t x = .ok w) (hl : TopLeads env true top cd' (.lit vs) x' w' t x w) :
    w' = x' ∧ ∃ l ∈ vs, pyEq l x' = true := by
  have := readTo_leaf (C54_anywhere_partial hU hL hT hg h hl) (by simp) (by simp) (by simp) (by simp) (by simp) (by simp) (by simp) (by simp)
    (by simp) (by simp) (by simp) (by simp)
  cases this with
  | lit h1 h2 => exact ⟨rfl, _, h1, h2⟩

/-- **C31** At every enum of the result, however deep: the member the input stands for. -/
theorem C31_anywhere_partial {env : Env} {o : DeOpts} {n t x w top cd' e x' w'} (hU : DistinctUnions env) (hL : DistinctLits env)
    (hT : DistinctTop env t) (hg : env.gde = []) (h : fromDict env o n t x = .ok w) (hl : TopLeads env true top cd' (.enum e) x' w' t x w) :
    EnumTo env e x' w' := by
  have := readTo_leaf (C54_anywhere_partial hU hL hT hg h hl) (by simp) (by simp) (by simp) (by simp) (by simp) (by simp) (by simp) (by simp)
    (by simp) (by simp) (by simp) (by simp)
  cases this with
  | enum h1 => exact h1

/-- **C33** At every primitive of the result, however deep (floats where the format has no number function): converted if the class around that
position coerces, the input itself otherwise; the classes further out do not matter. -/
theorem C33_anywhere_partial {env : Env} {o : DeOpts} {n t x w top cd' p x' w'} (hU : DistinctUnions env) (hL : DistinctLits env)
    (hT : DistinctTop env t) (hg : env.gde = []) (hn : p = .float → o.numbers = none) (h : fromDict env o n t x = .ok w)
    (hl : TopLeads env true top cd' (.prim p) x' w' t x w) :
    (cd'.typeCheck = .coerce → Scalar x' → Converts env p x' w') ∧ (cd'.typeCheck ≠ .coerce → w' = x') := by
  have := readTo_leaf (C54_anywhere_partial hU hL hT hg h hl) (by simp) (by simp) (by simp) (by simp) (by simp) (by simp) (by simp) (by simp)
    (by simp) (by simp) (by simp) (by simp)
  cases this with
  | number h1 _ => rw [show (ReadMode.inside true (o.reuse.getD top.reuseDflt) o.numbers cd').numbers = o.numbers from rfl, hn rfl] at h1; cases h1
  | coerced _ h1 h2 =>
    refine ⟨fun _ => h2, fun h3 => ?_⟩
    have : (cd'.typeCheck == .coerce) = true := h1
    cases htc : cd'.typeCheck with
    | disabled => rw [htc] at this; cases this
    | coerce => exact (h3 htc).elim
    | strict => rw [htc] at this; cases this
  | same _ h1 =>
    refine ⟨fun h3 => ?_, fun _ => rfl⟩
    have : (cd'.typeCheck == .coerce) = false := h1
    rw [h3] at this
    cases this

/-! ## The conditions on names -/

theorem reach_written {env : Env} {b u t} (h : Reach env b u t) (hu : (∃ c, u = .cls c) ∨ Annotated env u) :
    (∃ c, t = .cls c) ∨ Annotated env t := by
  induction h with
  | refl => exact hu
  | step hp _ ih =>
    refine ih ?_
    rcases hu with ⟨c, rfl⟩ | hu
    · cases hp with
      | field hc hf _ => exact .inr ⟨_, _, _, hc, hf, .refl⟩
    · cases hp with
      | field hc hf _ => exact .inr ⟨_, _, _, hc, hf, .refl⟩
      | union h => exact .inr (hu.part (.union h .refl))
      | list => exact .inr (hu.part (.list .refl))
      | set => exact .inr (hu.part (.set .refl))
      | deque => exact .inr (hu.part (.deque .refl))
      | counter => exact .inr (hu.part (.counter .refl))
      | tuple h => exact .inr (hu.part (.tuple h .refl))
      | tupleV => exact .inr (hu.part (.tupleV .refl))
      | key => exact .inr (hu.part (.key .refl))
      | value => exact .inr (hu.part (.value .refl))
      | alias _ => exact .inr (hu.part (.alias .refl))

/-- If the unions written in the program have different names, none of them meets another one. -/
theorem distinctUnions_of {env : Env} (h : ∀ ts us, Annotated env (.union ts) → Annotated env (.union us) → unionFuncName env us = unionFuncName env ts → us = ts) :
    DistinctUnions env := by
  intro c ts hts us hr hn
  rcases reach_written hr (.inl ⟨c, rfl⟩) with ⟨_, h1⟩ | h1
  · cases h1
  · exact h ts us hts h1 hn

/-- The same for literals. -/
theorem distinctLits_of {env : Env} (h : ∀ vs us, Annotated env (.lit vs) → Annotated env (.lit us) → litFuncName env us = litFuncName env vs → us = vs) :
    DistinctLits env := by
  intro c vs hvs us hr hn
  rcases reach_written hr (.inl ⟨c, rfl⟩) with ⟨_, h1⟩ | h1
  · cases h1
  · exact h vs us hvs h1 hn

/-! ## Examples -/

namespace C54Ex

/-- A class with leaves of several kinds that coerces. -/
def cdI : ClassDef :=
  { name := "I", mro := ["I"], typeCheck := .coerce, fields := [
    { name := "rate", ty := .prim .float },
    { name := "n", ty := .prim .int },
    { name := "kind", ty := .lit [.str "a", .str "b"] },
    { name := "color", ty := .enum "E" },
    { name := "day", ty := .union [.dt .date, .none] }] }

/-- A dataclass that is flattened into `cdO`. -/
def cdP : ClassDef := { name := "P", mro := ["P"], fields := [{ name := "w", ty := .prim .float }, { name := "k", ty := .prim .int }] }

/-- A transparent wrapper. -/
def cdW : ClassDef := { name := "W", mro := ["W"], transparent := true, fields := [{ name := "r", ty := .prim .float }] }

/-- A class around them. -/
def cdO : ClassDef :=
  { name := "O", mro := ["O"], fields := [
    { name := "items", ty := .list .list (.cls "I") },
    { name := "m", ty := .dict .dict (.prim .str) (.cls "W") },
    { name := "p", ty := .cls "P", flatten := true }] }

def env : Env :=
  { W := Ex.W, P := Ex.P, classes := [("I", cdI), ("P", cdP), ("W", cdW), ("O", cdO)], enums := [("E", { name := "E", members := [("RED", .int 1), ("BLUE", .int 2)] })] }

def dI : Val :=
  .dict .plain [(.str "rate", .int 3), (.str "n", .str "12"), (.str "kind", .str "b"), (.str "color", .int 2), (.str "day", .dt .date "2020-01-01")]

def dO : Val :=
  .dict .plain [(.str "items", .list [dI]), (.str "m", .dict .plain [(.str "x", .int 5)]), (.str "w", .int 7), (.str "k", .int 8)]

def vI : Val := .inst "I" [("rate", .float (.fin 3)), ("n", .int 12), ("kind", .str "b"), ("color", .enum "E" "BLUE"), ("day", .dt .date "2020-01-01")]

def vO : Val :=
  .inst "O" [("items", .list [vI]), ("m", .dict .plain [(.str "x", .inst "W" [("r", .float (.fin 5))])]),
    ("p", .inst "P" [("w", .float (.fin 7)), ("k", .int 8)])]

def o : DeOpts := { reuse := some true, numbers := some (jsonNumbers Ex.W) }

theorem run : fromDict env o 20 (.list .list (.cls "O")) (.list [dO]) = .ok (.list [vO]) := rfl

theorem cls_cases {c cd} (h : env.cls c = some cd) :
    (c = "I" ∧ cd = cdI) ∨ (c = "P" ∧ cd = cdP) ∨ (c = "W" ∧ cd = cdW) ∨ (c = "O" ∧ cd = cdO) := by
  simp only [Env.cls, env, List.lookup_cons, List.lookup_nil] at h
  split at h
  · rename_i h1; cases h; exact .inl ⟨by simpa using h1, rfl⟩
  · split at h
    · rename_i h1; cases h; exact .inr (.inl ⟨by simpa using h1, rfl⟩)
    · split at h
      · rename_i h1; cases h; exact .inr (.inr (.inl ⟨by simpa using h1, rfl⟩))
      · split at h
        · rename_i h1; cases h; exact .inr (.inr (.inr ⟨by simpa using h1, rfl⟩))
        · cases h

theorem the_union {ts} (h : Annotated env (.union ts)) : ts = [.dt .date, .none] := by
  obtain ⟨c, cd, f, hc, hf, hw⟩ := h
  rcases cls_cases hc with ⟨rfl, rfl⟩ | ⟨rfl, rfl⟩ | ⟨rfl, rfl⟩ | ⟨rfl, rfl⟩
  · simp only [cdI, List.mem_cons, List.not_mem_nil, or_false] at hf
    rcases hf with rfl | rfl | rfl | rfl | rfl
    · cases hw
    · cases hw
    · cases hw
    · cases hw
    · cases hw with
      | refl => rfl
      | union hm h =>
        simp only [List.mem_cons, List.not_mem_nil, or_false] at hm
        rcases hm with rfl | rfl <;> cases h
  · simp only [cdP, List.mem_cons, List.not_mem_nil, or_false] at hf
    rcases hf with rfl | rfl <;> cases hw
  · simp only [cdW, List.mem_cons, List.not_mem_nil, or_false] at hf
    subst hf; cases hw
  · simp only [cdO, List.mem_cons, List.not_mem_nil, or_false] at hf
    rcases hf with rfl | rfl | rfl
    · cases hw with | list h => cases h
    · cases hw with
      | key h => cases h
      | value h => cases h
    · cases hw

theorem the_lit {vs} (h : Annotated env (.lit vs)) : vs = [.str "a", .str "b"] := by
  obtain ⟨c, cd, f, hc, hf, hw⟩ := h
  rcases cls_cases hc with ⟨rfl, rfl⟩ | ⟨rfl, rfl⟩ | ⟨rfl, rfl⟩ | ⟨rfl, rfl⟩
  · simp only [cdI, List.mem_cons, List.not_mem_nil, or_false] at hf
    rcases hf with rfl | rfl | rfl | rfl | rfl
    · cases hw
    · cases hw
    · cases hw; rfl
    · cases hw
    · cases hw with
      | union hm h =>
        simp only [List.mem_cons, List.not_mem_nil, or_false] at hm
        rcases hm with rfl | rfl <;> cases h
  · simp only [cdP, List.mem_cons, List.not_mem_nil, or_false] at hf
    rcases hf with rfl | rfl <;> cases hw
  · simp only [cdW, List.mem_cons, List.not_mem_nil, or_false] at hf
    subst hf; cases hw
  · simp only [cdO, List.mem_cons, List.not_mem_nil, or_false] at hf
    rcases hf with rfl | rfl | rfl
    · cases hw with | list h => cases h
    · cases hw with
      | key h => cases h
      | value h => cases h
    · cases hw

theorem hU : DistinctUnions env := distinctUnions_of (fun _ _ h h' _ => (the_union h').trans (the_union h).symm)
theorem hL : DistinctLits env := distinctLits_of (fun _ _ h h' _ => (the_lit h').trans (the_lit h).symm)
theorem hT : DistinctTop env (.list .list (.cls "O")) := by
  intro ts h
  cases h with | list h => cases h

example : TopTo env true (some true) (some (jsonNumbers Ex.W)) .external (.list .list (.cls "O")) (.list [dO]) (.list [vO]) :=
  C54_from_dict_partial hU hL hT run

theorem directO : Direct env "O" cdO := ⟨rfl, ⟨rfl, rfl, by decide⟩, rfl⟩
theorem directI : Direct env "I" cdI := ⟨rfl, ⟨rfl, rfl, by decide⟩, rfl⟩
theorem directP : Direct env "P" cdP := ⟨rfl, ⟨rfl, rfl, by decide⟩, rfl⟩

/-- From the outermost list to a field of an element of a field. -/
theorem toItem {cd' t' x' w'} (h : Leads env true cd' t' x' w' cdO (.cls "I") dI vI) :
    TopLeads env true cdO cd' t' x' w' (.list .list (.cls "O")) (.list [dO]) (.list [vO]) :=
  .list (i := 0) rfl rfl rfl (.cls rfl (by simp [dO])
    (.field (f := cdO.fields[0]) rfl directO ⟨by simp [cdO], rfl, rfl, rfl, rfl, rfl⟩ (by simp [cdO]) rfl rfl (.list (i := 0) rfl rfl rfl h)))

theorem readI (i : Fin 5) : ReadField cdI cdI.fields[i] :=
  ⟨by simp, by revert i; decide, by revert i; decide, by revert i; decide, by revert i; decide, by revert i; decide⟩

theorem plainI (i : Fin 5) (g) : cdI.fields[i].deserializer ≠ some (.fn g) := by
  have : ∀ i : Fin 5, cdI.fields[i].deserializer.isNone = true := by decide
  have := this i
  intro h
  rw [h] at this
  cases this

/-- On to a field of that element. -/
theorem toI (i : Fin 5) {x w} (h : getStr (cdI.fields[i].conv cdI.deCase) [(.str "rate", .int 3), (.str "n", .str "12"), (.str "kind", .str "b"),
      (.str "color", .int 2), (.str "day", .dt .date "2020-01-01")] = some x)
    (h' : [("rate", Val.float (.fin 3)), ("n", .int 12), ("kind", .str "b"), ("color", .enum "E" "BLUE"), ("day", .dt .date "2020-01-01")].lookup
      cdI.fields[i].name = some w) {cd' t' x' w'} (hl : Leads env true cd' t' x' w' cdI cdI.fields[i].ty x w) :
    TopLeads env true cdO cd' t' x' w' (.list .list (.cls "O")) (.list [dO]) (.list [vO]) :=
  toItem (.field (f := cdI.fields[i]) rfl directI (readI i) (plainI i) h h' hl)

/-- To the wrapped float in the mapping. -/
theorem toW : TopLeads env true cdO cdW (.prim .float) (.int 5) (.float (.fin 5)) (.list .list (.cls "O")) (.list [dO]) (.list [vO]) :=
  .list (i := 0) rfl rfl rfl (.cls rfl (by simp [dO])
    (.field (f := cdO.fields[1]) rfl directO ⟨by simp [cdO], rfl, rfl, rfl, rfl, rfl⟩ (by simp [cdO]) rfl rfl
      (.value (ks := ["x"]) (s := "x") rfl (by decide) rfl rfl
        (.through (f := cdW.fields[0]) rfl rfl ⟨rfl, rfl, by decide, ⟨by simp [cdW], rfl, rfl, rfl, rfl, by simp [cdW]⟩, rfl, rfl⟩ rfl .here))))

/-- As `dO` and `vO`, without items. -/
def dJ : Val := .dict .plain [(.str "items", .list []), (.str "m", .dict .plain []), (.str "w", .int 7), (.str "k", .int 8)]
def vJ : Val := .inst "O" [("items", .list []), ("m", .dict .plain []), ("p", .inst "P" [("w", .float (.fin 7)), ("k", .int 8)])]

theorem acyclic : FlattenAcyclic env := by
  refine ⟨fun c => if c == "O" then 1 else 0, fun c => ?_, ?_⟩
  · dsimp only; split <;> decide
  · intro c cd f ch hc hf hi
    rcases cls_cases hc with ⟨rfl, rfl⟩ | ⟨rfl, rfl⟩ | ⟨rfl, rfl⟩ | ⟨rfl, rfl⟩
    · simp only [cdI, List.mem_cons, List.not_mem_nil, or_false] at hf
      rcases hf with rfl | rfl | rfl | rfl | rfl <;> simp [inlined] at hi
    · simp only [cdP, List.mem_cons, List.not_mem_nil, or_false] at hf
      rcases hf with rfl | rfl <;> simp [inlined] at hi
    · simp only [cdW, List.mem_cons, List.not_mem_nil, or_false] at hf
      subst hf; simp [inlined] at hi
    · simp only [cdO, List.mem_cons, List.not_mem_nil, or_false] at hf
      rcases hf with rfl | rfl | rfl <;> simp [inlined] at hi
      subst hi; decide

theorem flatP : FlatField env cdO cdO.fields[2] "P" :=
  ⟨acyclic, by simp [cdO], rfl, rfl, rfl, rfl, rfl, rfl, rfl, (by intro s hs; cases hs), (by intro chd h; cases h; rfl)⟩

/-- To the flattened float. -/
theorem toP : TopLeads env true cdO cdP (.prim .float) (.int 7) (.float (.fin 7)) (.list .list (.cls "O")) (.list [dO]) (.list [vO]) :=
  .list (i := 0) rfl rfl rfl (.cls rfl (by simp [dO])
    (.flat rfl directO flatP rfl (.field (f := cdP.fields[0]) rfl directP ⟨by simp [cdP], rfl, rfl, rfl, rfl, rfl⟩ (by simp [cdP]) rfl rfl .here)))

theorem toPJ : TopLeads env true cdO cdP (.prim .float) (.int 7) (.float (.fin 7)) (.list .list (.cls "O")) (.list [dJ]) (.list [vJ]) :=
  .list (i := 0) rfl rfl rfl (.cls rfl (by simp [dJ])
    (.flat rfl directO flatP rfl (.field (f := cdP.fields[0]) rfl directP ⟨by simp [cdP], rfl, rfl, rfl, rfl, rfl⟩ (by simp [cdP]) rfl rfl .here)))

example : jsonNumbers Ex.W (.int 3) = .ok (.float (.fin 3)) := C54_number_partial hU hL hT rfl rfl run (toI 0 rfl rfl .here)
example : jsonNumbers Ex.W (.int 5) = .ok (.float (.fin 5)) := C54_number_partial hU hL hT rfl rfl run toW
example : jsonNumbers Ex.W (.int 7) = .ok (.float (.fin 7)) := C54_number_partial hU hL hT rfl rfl run toP
theorem runJson : fromJson env (C40Ex.K (.list [dJ])) 20 (.list .list (.cls "O")) "t" = .ok (.list [vJ]) := rfl
example : (∃ i f, Val.int 7 = .int i ∧ env.W.floatOfInt i = some f ∧ Val.float (.fin 7) = .float f) ∨ ∃ f, Val.int 7 = .float f ∧ Val.float (.fin 7) = .float f :=
  C40_anywhere_partial hU hL hT rfl rfl runJson toPJ
example : Converts env .int (.str "12") (.int 12) :=
  (C33_anywhere_partial hU hL hT rfl (fun h => by cases h) run (toI 1 rfl rfl .here)).1 rfl .str
example : Val.str "b" = .str "b" ∧ ∃ l ∈ [Val.str "a", .str "b"], pyEq l (.str "b") = true := C30_anywhere_partial hU hL hT rfl run (toI 2 rfl rfl .here)
example : EnumTo env "E" (.int 2) (.enum "E" "BLUE") := C31_anywhere_partial hU hL hT rfl run (toI 3 rfl rfl .here)
example : Val.dt .date "2020-01-01" = .dt .date "2020-01-01" :=
  (C51_date_anywhere_partial hU hL hT rfl run (toI 4 rfl rfl (.opt (by simp) (by simp) .here))).1 rfl .dt

/-- `@serde class S: p: Path`. -/
def cdS : ClassDef := { name := "S", mro := ["S"], fields := [{ name := "p", ty := .std "Path" }] }
def envS : Env := Ex.mk [("S", cdS)]

theorem noneS {t} (ht : t ≠ .std "Path") (h : Annotated envS t) : False := by
  obtain ⟨c, cd, f, hc, hf, hw⟩ := h
  simp only [Env.cls, envS, Ex.mk, List.lookup_cons, List.lookup_nil] at hc
  split at hc
  · cases hc
    simp only [cdS, List.mem_cons, List.not_mem_nil, or_false] at hf
    subst hf; cases hw; exact ht rfl
  · cases hc

example : Val.std "Path" "/tmp" = .std "Path" "/tmp" :=
  (C51_std_anywhere_partial (env := envS) (o := {}) (n := 9) (t := .cls "S") (x := .dict .plain [(.str "p", .std "Path" "/tmp")]) (w := .inst "S" [("p", .std "Path" "/tmp")])
    (top := cdS) (distinctUnions_of (fun _ _ h _ _ => (noneS (by simp) h).elim)) (distinctLits_of (fun _ _ h _ _ => (noneS (by simp) h).elim))
    (fun ts h => by cases h) rfl rfl
    (.cls rfl (by simp) (.field (f := cdS.fields[0]) rfl ⟨rfl, ⟨rfl, rfl, by decide⟩, rfl⟩ ⟨by simp [cdS], rfl, rfl, rfl, rfl, rfl⟩ (by simp [cdS]) rfl rfl .here))).1 rfl .std

end C54Ex

/-! ## Aliases and absent fields below the top -/

namespace C54Alias

def cdA : ClassDef := { name := "A", mro := ["A"], fields := [{ name := "a", ty := .prim .int, alias := ["x", "y"] }, { name := "b", ty := .union [.prim .int, .none], alias := ["z"], dflt := some (.int 9) },
  { name := "c", ty := .union [.prim .str, .none] }, { name := "s", ty := .prim .int, skipDe := true, dflt := some (.int 4) }] }
def cdB : ClassDef := { name := "B", mro := ["B"], fields := [{ name := "as", ty := .list .list (.cls "A") }] }
def env : Env := Ex.mk [("A", cdA), ("B", cdB)]

def dA : List (Val × Val) := [(.str "y", .int 2), (.str "x", .int 1)]
def vA : Val := .inst "A" [("a", .int 1), ("b", .int 9), ("c", .none), ("s", .int 4)]
def dB : Val := .dict .plain [(.str "as", .list [.dict .plain dA])]
def vB : Val := .inst "B" [("as", .list [vA])]

theorem run : fromDict env {} 20 (.cls "B") dB = .ok vB := rfl

theorem cls_cases {c cd} (h : env.cls c = some cd) : (c = "A" ∧ cd = cdA) ∨ (c = "B" ∧ cd = cdB) := by
  simp only [Env.cls, env, Ex.mk, List.lookup_cons, List.lookup_nil] at h
  split at h
  · rename_i h1; cases h; exact .inl ⟨by simpa using h1, rfl⟩
  · split at h
    · rename_i h1; cases h; exact .inr ⟨by simpa using h1, rfl⟩
    · cases h

theorem the_unions {ts} (h : Annotated env (.union ts)) : ts = [.prim .int, .none] ∨ ts = [.prim .str, .none] := by
  obtain ⟨c, cd, f, hc, hf, hw⟩ := h
  rcases cls_cases hc with ⟨rfl, rfl⟩ | ⟨rfl, rfl⟩
  · simp only [cdA, List.mem_cons, List.not_mem_nil, or_false] at hf
    rcases hf with rfl | rfl | rfl | rfl
    · cases hw
    · cases hw with
      | refl => exact .inl rfl
      | union hm h =>
        simp only [List.mem_cons, List.not_mem_nil, or_false] at hm
        rcases hm with rfl | rfl <;> cases h
    · cases hw with
      | refl => exact .inr rfl
      | union hm h =>
        simp only [List.mem_cons, List.not_mem_nil, or_false] at hm
        rcases hm with rfl | rfl <;> cases h
    · cases hw
  · simp only [cdB, List.mem_cons, List.not_mem_nil, or_false] at hf
    subst hf
    cases hw with | list h => cases h

theorem no_lits {vs} (h : Annotated env (.lit vs)) : False := by
  obtain ⟨c, cd, f, hc, hf, hw⟩ := h
  rcases cls_cases hc with ⟨rfl, rfl⟩ | ⟨rfl, rfl⟩
  · simp only [cdA, List.mem_cons, List.not_mem_nil, or_false] at hf
    rcases hf with rfl | rfl | rfl | rfl
    · cases hw
    · cases hw with
      | union hm h =>
        simp only [List.mem_cons, List.not_mem_nil, or_false] at hm
        rcases hm with rfl | rfl <;> cases h
    · cases hw with
      | union hm h =>
        simp only [List.mem_cons, List.not_mem_nil, or_false] at hm
        rcases hm with rfl | rfl <;> cases h
    · cases hw
  · simp only [cdB, List.mem_cons, List.not_mem_nil, or_false] at hf
    subst hf
    cases hw with | list h => cases h

theorem hU : DistinctUnions env := distinctUnions_of (fun _ _ h h' he => by
  rcases the_unions h with rfl | rfl <;> rcases the_unions h' with rfl | rfl <;> first | rfl | exact absurd he (by decide))
theorem hL : DistinctLits env := distinctLits_of (fun _ _ h _ _ => (no_lits h).elim)
theorem hT : DistinctTop env (.cls "B") := fun ts h => by cases h
theorem directA : Direct env "A" cdA := ⟨rfl, ⟨rfl, rfl, by decide⟩, rfl⟩
theorem directB : Direct env "B" cdB := ⟨rfl, ⟨rfl, rfl, by decide⟩, rfl⟩

theorem toA {cd' t' x' w'} (h : Leads env true cd' t' x' w' cdB (.cls "A") (.dict .plain dA) vA) : TopLeads env true cdB cd' t' x' w' (.cls "B") dB vB :=
  .cls rfl (by simp [dB]) (.field (f := cdB.fields[0]) rfl directB ⟨by simp [cdB], rfl, rfl, rfl, rfl, rfl⟩ (by simp [cdB]) rfl rfl (.list (i := 0) rfl rfl rfl h))

theorem noDe (t) : NoneForDe (env.gde ++ cdA.classDe.toList) t := fun s hs => by cases hs
theorem aliasedA : AliasedField env cdA cdA.fields[0] := ⟨by simp [cdA], rfl, rfl, rfl, rfl, by simp [cdA], trivial, rfl, rfl, fun t _ => noDe t⟩
theorem aliasedB : AliasedField env cdA cdA.fields[1] := ⟨by simp [cdA], rfl, rfl, rfl, rfl, by simp [cdA], trivial, rfl, rfl, fun t _ => noDe t⟩

/-- The first alias that is present counts: `x`, not `y`. -/
example : Val.int 1 = .int 1 :=
  (C33_anywhere_partial hU hL hT rfl (fun h => by cases h) run (toA (.aliased (f := cdA.fields[0]) rfl directA aliasedA rfl rfl .here))).2 (by decide)

example : ∃ attrs, vA = .inst "A" attrs ∧ attrs.lookup "b" = some (.int 9) ∧ attrs.lookup "c" = some .none ∧ attrs.lookup "s" = some (.int 4) := by
  obtain ⟨attrs, h1, _, h3, h4, h5⟩ := C54_absent_partial hU hL hT rfl run (toA (cd' := cdB) .here) directA
  exact ⟨attrs, h1, h3 cdA.fields[1] _ aliasedB rfl rfl,
    h4 cdA.fields[2] _ ⟨by simp [cdA], rfl, rfl, rfl, rfl, rfl⟩ rfl rfl rfl (by simp) rfl, h5 cdA.fields[3] (by simp [cdA]) (.inr (.inr rfl))⟩

end C54Alias

namespace C54Member

/-- A class with a date, and one with a union that has it as a member. -/
def cdD : ClassDef := { name := "D", mro := ["D"], fields := [{ name := "day", ty := .dt .date }] }
def cdV : ClassDef := { name := "V", mro := ["V"], fields := [{ name := "u", ty := .union [.prim .int, .cls "D"] }] }
def env : Env := Ex.mk [("D", cdD), ("V", cdV)]
def inner : Val := .dict .plain [(.str "day", .dt .date "2020-01-01")]
def d : Val := .dict .plain [(.str "u", .dict .plain [(.str "D", inner)])]
def o : DeOpts := { reuse := some true }
def vD : Val := .inst "D" [("day", .dt .date "2020-01-01")]
def v : Val := .inst "V" [("u", vD)]

theorem run : fromDict env o 20 (.cls "V") d = .ok v := rfl

theorem cls_cases {c cd} (h : env.cls c = some cd) : (c = "D" ∧ cd = cdD) ∨ (c = "V" ∧ cd = cdV) := by
  simp only [Env.cls, env, Ex.mk, List.lookup_cons, List.lookup_nil] at h
  split at h
  · rename_i h1; cases h; exact .inl ⟨by simpa using h1, rfl⟩
  · split at h
    · rename_i h1; cases h; exact .inr ⟨by simpa using h1, rfl⟩
    · cases h

theorem the_union {ts} (h : Annotated env (.union ts)) : ts = [.prim .int, .cls "D"] := by
  obtain ⟨c, cd, f, hc, hf, hw⟩ := h
  rcases cls_cases hc with ⟨rfl, rfl⟩ | ⟨rfl, rfl⟩
  · simp only [cdD, List.mem_cons, List.not_mem_nil, or_false] at hf
    subst hf; cases hw
  · simp only [cdV, List.mem_cons, List.not_mem_nil, or_false] at hf
    subst hf
    cases hw with
    | refl => rfl
    | union hm h =>
      simp only [List.mem_cons, List.not_mem_nil, or_false] at hm
      rcases hm with rfl | rfl <;> cases h

theorem no_lits {vs} (h : Annotated env (.lit vs)) : False := by
  obtain ⟨c, cd, f, hc, hf, hw⟩ := h
  rcases cls_cases hc with ⟨rfl, rfl⟩ | ⟨rfl, rfl⟩
  · simp only [cdD, List.mem_cons, List.not_mem_nil, or_false] at hf
    subst hf; cases hw
  · simp only [cdV, List.mem_cons, List.not_mem_nil, or_false] at hf
    subst hf
    cases hw with
    | union hm h =>
      simp only [List.mem_cons, List.not_mem_nil, or_false] at hm
      rcases hm with rfl | rfl <;> cases h

theorem hU : DistinctUnions env := distinctUnions_of (fun _ _ h h' _ => (the_union h').trans (the_union h).symm)
theorem hL : DistinctLits env := distinctLits_of (fun _ _ h _ _ => (no_lits h).elim)
theorem hT : DistinctTop env (.cls "V") := fun ts h => by cases h

/-- To the date of the object in the union. -/
theorem toDay : TopLeads env true cdV cdD (.dt .date) (.dt .date "2020-01-01") (.dt .date "2020-01-01") (.cls "V") d v :=
  .cls rfl (by simp [d]) (.field (f := cdV.fields[0]) rfl ⟨rfl, ⟨rfl, rfl, by decide⟩, rfl⟩ ⟨by simp [cdV], rfl, rfl, rfl, rfl, rfl⟩ (by simp [cdV]) rfl rfl
    (.member rfl (by intro s h; cases h) (by
      intro s hs
      have hs : s ∈ [Ty.prim .int, Ty.cls "D"] := hs
      simp only [List.mem_cons, List.not_mem_nil, or_false] at hs
      rcases hs with rfl | rfl
      · exact .prim
      · exact .cls) (.external rfl)
      (.field (f := cdD.fields[0]) rfl ⟨rfl, ⟨rfl, rfl, by decide⟩, rfl⟩ ⟨by simp [cdD], rfl, rfl, rfl, rfl, rfl⟩ (by simp [cdD]) rfl rfl .here)))

example : ReadTo env (.inside true true none cdD) (.dt .date) (.dt .date "2020-01-01") (.dt .date "2020-01-01") :=
  C54_anywhere_partial hU hL hT rfl run toDay

end C54Member

/-! ## Where it fails -/

namespace C54Elems

def cdL : ClassDef := { name := "L", mro := ["L"], fields := [{ name := "a", ty := .list .list (.prim .int), alias := ["x"] }] }
def env : Env := Ex.mk [("L", cdL)]
def d : List (Val × Val) := [(.str "a", .list [.int 1, .int 2]), (.str "x", .int 5)]

end C54Elems

open C54Elems in
/-- **C54** is false for a container field with an alias: the elements are looked up under the alias too, in the input of the whole class. With `a: list[int]`
and the alias `x`, `{"a": [1, 2], "x": 5}` is read as `a == [5, 5]`. -/
theorem C54_false_alias : ∃ attrs, fromDict env {} 20 (.cls "L") (.dict .plain d) = .ok (.inst "L" attrs) ∧ getStr "a" d = some (.list [.int 1, .int 2]) ∧
    attrs.lookup "a" = some (.list [.int 5, .int 5]) ∧
    ¬ ReadTo env (.inside true true none cdL) (.list .list (.prim .int)) (.list [.int 1, .int 2]) (.list [.int 5, .int 5]) := by
  refine ⟨[("a", .list [.int 5, .int 5])], rfl, rfl, rfl, fun h => ?_⟩
  cases h with
  | chosen h => exact (no_chosen h).elim
  | leaf _ h => cases h
  | list _ hi _ hr =>
    cases hi
    have := readTo_leaf (hr 0 _ _ rfl rfl) (by simp) (by simp) (by simp) (by simp) (by simp) (by simp) (by simp) (by simp) (by simp) (by simp) (by simp) (by simp)
    cases this with
    | coerced _ h => cases h

end Verif.Props
