import Verif.Lemmas.Typed
import Verif.Props.C01
import Verif.Props.C51
import Verif.Props.C54
import Verif.Props.C55
/-!
# What is read from plain data has the annotated types, and writing and reading it again changes nothing
-/

namespace Verif.Props
open Verif.Spec

theorem pure_noDate {bo : Bool} {x} (h : PureData bo x) : NoDate x := by
  induction h with
  | none => exact .scalar .none
  | bool => exact .scalar .bool
  | int => exact .scalar .int
  | float => exact .scalar .float
  | str => exact .scalar .str
  | list _ ih => exact .list ih
  | tuple _ ih => exact .tuple ih
  | deque _ ih => exact .deque ih
  | set _ ih => exact .set ih
  | dict _ _ ih ih' => exact .dict ih ih'

theorem pure_noInst {bo : Bool} {c as x} (h : PureData bo x) : x ≠ .inst c as := by
  intro hx; subst hx; cases h

/-- **C60** An object that `from_dict` makes of plain data is an object of its class in the strict sense: every attribute, and every element, key and
attribute below it, has exactly the annotated type. -/
theorem C60_typed_partial {env : Env} {o : DeOpts} {bo n c x w} (hw : Canonical env o.numbers) (hU : DistinctUnions env) (hL : DistinctLits env)
    (hg : env.gde = []) (hC : ∀ c cd, env.cls c = some cd → FirmClass env bo o.numbers.isSome cd) (hx : PureData bo x)
    (h : fromDict env o n (.cls c) x = .ok w) : HasTy env (.cls c) w := by
  rw [show o = { o with reuse := o.reuse } from rfl, C51_no_difference o.reuse (some false) (pure_noDate hx)] at h
  obtain ⟨m, rfl, hm⟩ := fromObj_cls_cases (by simp [hg]) (fun _ => pure_noInst hx) h (by intro h; cases h)
  exact cls_typed (typed_at hw hU hL hg hC m) hU hL hg hC (fun h => by cases h) rfl rfl hx (wrapUser_ok.1 hm)

/-- **C60** The same for `from_tuple`. -/
theorem C60_typed_tuple_partial {env : Env} {o : DeOpts} {bo n c x w} (hw : Canonical env o.numbers) (hU : DistinctUnions env) (hL : DistinctLits env)
    (hg : env.gde = []) (hC : ∀ c cd, env.cls c = some cd → FirmClass env bo o.numbers.isSome cd)
    (hA : ∀ c cd, env.cls c = some cd → Aligned cd) (hx : PureData bo x) (h : fromTuple env o n (.cls c) x = .ok w) :
    HasTy env (.cls c) w := by
  rw [show o = { o with reuse := o.reuse } from rfl, C51_no_difference_tuple o.reuse (some false) (pure_noDate hx)] at h
  obtain ⟨m, rfl, hm⟩ := fromObj_cls_cases (by simp [hg]) (fun _ => pure_noInst hx) h (by intro h; cases h)
  exact cls_typed (typed_at hw hU hL hg hC m) hU hL hg hC (fun _ => hA) rfl rfl hx (wrapUser_ok.1 hm)

/-- **C60** For `from_json`, where the text decodes to plain data. -/
theorem C60_typed_json_partial {env : Env} {K bo n c s cn tg x w} (hw : Canonical env none) (hU : DistinctUnions env) (hL : DistinctLits env)
    (hg : env.gde = []) (hC : ∀ c cd, env.cls c = some cd → FirmClass env bo cn cd) (hd : K.dec s = .ok x) (hx : PureData bo x)
    (h : fromJson env K n (.cls c) s cn tg = .ok w) : HasTy env (.cls c) w := by
  refine C60_typed_partial (bo := bo) ⟨hw.prim, hw.std, hw.dt, ?_⟩ hU hL hg ?_ hx (fromJson_dict hd h)
  · intro num y z hn hz
    cases cn with
    | false => cases hn
    | true => cases hn; exact jsonNumbers_float hz
  · cases cn <;> exact hC

/-- **C60** Reading, writing and reading again: whatever plain data the object was read from, its dict form is written and is read back as the same
object. -/
theorem C60_again_partial {env : Env} {so : SeOpts} {o : DeOpts} {bo n c x w} {cd : ClassDef} (hw : Canonical env none) (hU : DistinctUnions env)
    (hL : DistinctLits env) (hC : ∀ c cd, env.cls c = some cd → FirmClass env bo false cd) (hx : PureData bo x) (hc : env.cls c = some cd)
    (hs : so.c = none) (hn : o.numbers = none) (hre : so.reuse.getD cd.reuseDflt = true → o.reuse.getD cd.reuseDflt = true)
    (hok : EnvOk env (rawFmt env true (so.reuse.getD cd.reuseDflt) (so.conv.getD cd.convDflt) (o.reuse.getD cd.reuseDflt) hre so.skipNone))
    (h : fromDict env o n (.cls c) x = .ok w) :
    ∃ d, Ev (fun m => toDict env so m w = .ok d ∧ fromDict env o m (.cls c) d = .ok w) :=
  C01_dict_round_trip_partial hc hs hn hre hok
    (C60_typed_partial (by rw [hn]; exact hw) hU hL hok.noGlobal.2 (by rw [hn]; exact hC) hx h)

/-- **C60** The same with tuples. -/
theorem C60_again_tuple_partial {env : Env} {so : SeOpts} {o : DeOpts} {bo n c x w} {cd : ClassDef} (hw : Canonical env none) (hU : DistinctUnions env)
    (hL : DistinctLits env) (hC : ∀ c cd, env.cls c = some cd → FirmClass env bo false cd) (hA : ∀ c cd, env.cls c = some cd → Aligned cd)
    (hx : PureData bo x) (hc : env.cls c = some cd)
    (hs : so.c = none) (hn : o.numbers = none) (hre : so.reuse.getD cd.reuseDflt = true → o.reuse.getD cd.reuseDflt = true)
    (hok : EnvOk env (rawFmt env false (so.reuse.getD cd.reuseDflt) (so.conv.getD cd.convDflt) (o.reuse.getD cd.reuseDflt) hre so.skipNone))
    (h : fromTuple env o n (.cls c) x = .ok w) :
    ∃ d, Ev (fun m => toTuple env so m w = .ok d ∧ fromTuple env o m (.cls c) d = .ok w) :=
  C02_tuple_round_trip_partial hc hs hn hre hok
    (C60_typed_tuple_partial (by rw [hn]; exact hw) hU hL hok.noGlobal.2 (by rw [hn]; exact hC) hA hx h)

/-- **C60** The same with JSON: text from anywhere is read, the object is written by a faithful codec, and the new text is read as the same object. -/
theorem C60_again_json_partial {env : Env} {K bo n c s cn sn tg x w} {cd : ClassDef} (hw : Canonical env none) (hU : DistinctUnions env)
    (hL : DistinctLits env) (hC : ∀ c cd, env.cls c = some cd → FirmClass env bo cn cd) (hd : K.dec s = .ok x) (hx : PureData bo x)
    (hc : env.cls c = some cd) (hnum : NumText env.W) (hok : EnvOk env (jsonFmt env hnum cn sn))
    (h : fromJson env K n (.cls c) s cn tg = .ok w) :
    ∃ d, Ev (fun m => toDict env ({ skipNone := sn } : FmtOpts).se m w = .ok d) ∧ (∀ K', FaithfulOn K' (jsonWire env.W) d →
      ∃ s', Ev (fun m => toJson env K' { skipNone := sn } m w = .ok s' ∧ fromJson env K' m (.cls c) s' cn = .ok w)) :=
  C03_json_round_trip_partial hc hnum hok (C60_typed_json_partial hw hU hL hok.noGlobal.2 hC hd hx h)

/-! ## Examples -/

namespace C60Ex

/-- `class Leaf: weight: float; id: UUID`, coercing. -/
def Leaf : ClassDef :=
  { name := "Leaf", mro := ["Leaf"], typeCheck := .coerce, fields :=
    [{ name := "weight", ty := .prim .float }, { name := "id", ty := .std "uuid.UUID" }] }

/-- A recursive coercing class with containers, an enum, a literal, an Optional and a union. -/
def Node : ClassDef :=
  { name := "Node", mro := ["Node"], typeCheck := .coerce, fields :=
    [{ name := "name", ty := .prim .str, rename := some "n" },
     { name := "count", ty := .prim .int },
     { name := "kids", ty := .list .list (.cls "Node"), dflt := some (.list []), skipIfFalse := true },
     { name := "tags", ty := .set .frozen (.prim .str) },
     { name := "table", ty := .dict .dict (.prim .int) (.tuple [.prim .bool, .enum "Color"]) },
     { name := "best", ty := .union [.dt .date, .none] },
     { name := "mode", ty := .lit [.str "a", .str "b"] },
     { name := "value", ty := .union [.prim .str, .cls "Leaf", .list .list (.enum "Color")] }] }

/-- `class Top: flag: bool; label: str; node: Node`, strict. -/
def Top : ClassDef :=
  { name := "Top", mro := ["Top"], fields :=
    [{ name := "flag", ty := .prim .bool }, { name := "label", ty := .prim .str }, { name := "node", ty := .cls "Node" }] }

/-- The three classes and an enum. -/
def env : Env := { W := Ex.WT, P := Ex.P, classes := [("Leaf", Leaf), ("Node", Node), ("Top", Top)], enums := [("Color", Ex.Color)] }

theorem cls_cases {c cd} (h : env.cls c = some cd) : (c = "Leaf" ∧ cd = Leaf) ∨ (c = "Node" ∧ cd = Node) ∨ (c = "Top" ∧ cd = Top) := by
  simp only [Env.cls, env, List.lookup_cons, List.lookup_nil] at h
  split at h
  · rename_i h1; cases h; exact .inl ⟨by simpa using h1, rfl⟩
  · split at h
    · rename_i h1; cases h; exact .inr (.inl ⟨by simpa using h1, rfl⟩)
    · split at h
      · rename_i h1; cases h; exact .inr (.inr ⟨by simpa using h1, rfl⟩)
      · cases h

theorem leafOk (F : Fmt env) : ClassOk env F "Leaf" Leaf where
  fields := by
    intro f hf
    simp only [Leaf, List.mem_cons, List.not_mem_nil, or_false] at hf
    rcases hf with rfl | rfl <;>
      exact .plain ⟨rfl, ⟨rfl, rfl, rfl⟩, .inl rfl, rfl, ⟨rfl, rfl⟩, rfl⟩ (.never ⟨rfl, rfl, rfl, rfl⟩ (fun _ h => by cases h))
  names := by decide
  wires := by decide
  types := by
    intro f hf named _
    simp only [Leaf, List.mem_cons, List.not_mem_nil, or_false] at hf
    rcases hf with rfl | rfl
    · exact .scalar .prim
    · exact .scalar .std
  notTransparent := rfl
  noHook := by intro p h; cases h
  noClassCustom := ⟨rfl, rfl⟩
  mroSelf := by simp [Leaf]
  kwLast := by simp [Leaf]
  kwTuple := by intro _ f hf; simp [Leaf] at hf; rcases hf with rfl | rfl <;> exact ⟨rfl, rfl⟩

theorem topOk (F : Fmt env) : ClassOk env F "Top" Top where
  fields := by
    intro f hf
    simp only [Top, List.mem_cons, List.not_mem_nil, or_false] at hf
    rcases hf with rfl | rfl | rfl <;>
      exact .plain ⟨rfl, ⟨rfl, rfl, rfl⟩, .inl rfl, rfl, ⟨rfl, rfl⟩, rfl⟩ (.never ⟨rfl, rfl, rfl, rfl⟩ (fun _ h => by cases h))
  names := by decide
  wires := by decide
  types := by
    intro f hf named _
    simp only [Top, List.mem_cons, List.not_mem_nil, or_false] at hf
    rcases hf with rfl | rfl | rfl
    · exact .scalar .prim
    · exact .scalar .prim
    · exact .cls (cd := Node) rfl
  notTransparent := rfl
  noHook := by intro p h; cases h
  noClassCustom := ⟨rfl, rfl⟩
  mroSelf := by simp [Top]
  kwLast := by simp [Top]
  kwTuple := by intro _ f hf; simp [Top] at hf; rcases hf with rfl | rfl | rfl <;> exact ⟨rfl, rfl⟩

theorem nodeOk (F : Fmt env) (hF : F.conv = false → F.raw = true) : ClassOk env F "Node" Node where
  fields := by
    intro f hf
    simp only [Node, List.mem_cons, List.not_mem_nil, or_false] at hf
    rcases hf with rfl | rfl | rfl | rfl | rfl | rfl | rfl | rfl
    · exact .plain ⟨rfl, ⟨rfl, rfl, rfl⟩, .inl rfl, rfl, ⟨rfl, rfl⟩, rfl⟩ (.never ⟨rfl, rfl, rfl, rfl⟩ (fun _ h => by cases h))
    · exact .plain ⟨rfl, ⟨rfl, rfl, rfl⟩, .inl rfl, rfl, ⟨rfl, rfl⟩, rfl⟩ (.never ⟨rfl, rfl, rfl, rfl⟩ (fun _ h => by cases h))
    · exact .plain ⟨rfl, ⟨rfl, rfl, rfl⟩, .inl rfl, rfl, ⟨rfl, rfl⟩, rfl⟩ (.ifFalse rfl rfl rfl rfl .list)
    · exact .plain ⟨rfl, ⟨rfl, rfl, rfl⟩, .inl rfl, rfl, ⟨rfl, rfl⟩, rfl⟩ (.never ⟨rfl, rfl, rfl, rfl⟩ (fun _ h => by cases h))
    · exact .plain ⟨rfl, ⟨rfl, rfl, rfl⟩, .inl rfl, rfl, ⟨rfl, rfl⟩, rfl⟩ (.never ⟨rfl, rfl, rfl, rfl⟩ (fun _ h => by cases h))
    · exact .plain ⟨rfl, ⟨rfl, rfl, rfl⟩, .inl rfl, rfl, ⟨rfl, rfl⟩, rfl⟩
        (.never ⟨rfl, rfl, rfl, rfl⟩ (fun _ _ => ⟨rfl, .inr ⟨rfl, .inr ⟨_, rfl, by simp⟩⟩⟩))
    · exact .plain ⟨rfl, ⟨rfl, rfl, rfl⟩, .inl rfl, rfl, ⟨rfl, rfl⟩, rfl⟩
        (.never ⟨rfl, rfl, rfl, rfl⟩ (fun _ h => by cases h with | lit h => simp at h))
    · refine .plain ⟨rfl, ⟨rfl, rfl, rfl⟩, .inl rfl, rfl, ⟨rfl, rfl⟩, rfl⟩ (.never ⟨rfl, rfl, rfl, rfl⟩ (fun _ h => ?_))
      cases h with
      | union hm h =>
        simp only [List.mem_cons, List.not_mem_nil, or_false] at hm
        rcases hm with rfl | rfl | rfl <;> cases h
  names := by decide
  wires := by decide
  types := by
    intro f hf named _
    simp only [Node, List.mem_cons, List.not_mem_nil, or_false] at hf
    rcases hf with rfl | rfl | rfl | rfl | rfl | rfl | rfl | rfl
    · exact .scalar .prim
    · exact .scalar .prim
    · exact .list (.cls (cd := Node) rfl)
    · cases h : F.conv
      · exact .setRaw h (hF h) .prim
      · exact .setConv h (.scalar .prim)
    · refine .dict .int (.tuple (by simp) ?_)
      intro t ht
      simp only [List.mem_cons, List.not_mem_nil, or_false] at ht
      rcases ht with rfl | rfl
      · exact .scalar .prim
      · exact .scalar (.enum (d := Ex.Color) rfl Ex.colorOk)
    · exact .opt (by intro h; cases h) (.scalar .dt)
    · refine .scalar (.lit ?_ rfl)
      intro v hv
      simp only [List.mem_cons, List.not_mem_nil, or_false] at hv
      rcases hv with rfl | rfl <;> exact .str
    · refine .union rfl ?_ ?_ ?_ ?_ ?_ rfl
      · intro t ht
        simp only [List.mem_cons, List.not_mem_nil, or_false] at ht
        rcases ht with rfl | rfl | rfl
        · exact .prim
        · exact .cls (cd := Leaf) rfl rfl
        · exact .list .enum
      · intro t ht
        simp only [List.mem_cons, List.not_mem_nil, or_false] at ht
        rcases ht with rfl | rfl | rfl
        · exact .scalar .prim
        · exact .cls (cd := Leaf) rfl
        · exact .list (.scalar (.enum (d := Ex.Color) rfl Ex.colorOk))
      · simp only [List.pairwise_cons, List.mem_cons, List.not_mem_nil, or_false, forall_eq_or_imp, forall_eq, false_implies, implies_true,
          List.Pairwise.nil, and_true]
        exact ⟨⟨.inl rfl, .inl rfl⟩, .inl rfl⟩
      · intro c cd c' cd' _ _ h h' hh
        rcases cls_cases h with ⟨rfl, rfl⟩ | ⟨rfl, rfl⟩ | ⟨rfl, rfl⟩ <;> rcases cls_cases h' with ⟨rfl, rfl⟩ | ⟨rfl, rfl⟩ | ⟨rfl, rfl⟩ <;>
          first | rfl | simp [Leaf, Node, Top] at hh
      · intro c cd _ _; trivial
  notTransparent := rfl
  noHook := by intro p h; cases h
  noClassCustom := ⟨rfl, rfl⟩
  mroSelf := by simp [Node]
  kwLast := by simp [Node]
  kwTuple := by
    intro _ f hf
    simp only [Node, List.mem_cons, List.not_mem_nil, or_false] at hf
    rcases hf with rfl | rfl | rfl | rfl | rfl | rfl | rfl | rfl <;> exact ⟨rfl, rfl⟩

theorem envOk (F : Fmt env) (hF : F.conv = false → F.raw = true := by first | exact fun _ => rfl | (intro h; cases h)) : EnvOk env F where
  classes := by
    intro c cd h _
    rcases cls_cases h with ⟨rfl, rfl⟩ | ⟨rfl, rfl⟩ | ⟨rfl, rfl⟩
    · exact leafOk F
    · exact nodeOk F hF
    · exact topOk F
  wrappers := by
    intro c cd h ht
    rcases cls_cases h with ⟨rfl, rfl⟩ | ⟨rfl, rfl⟩ | ⟨rfl, rfl⟩ <;> cases ht
  noGlobal := ⟨rfl, rfl⟩

theorem canonical : Canonical env none where
  prim := by intro p x w h; cases h
  std := by
    intro k x w h
    cases x <;> cases h
    exact ⟨_, rfl, rfl⟩
  dt := by
    intro k x w h
    cases x <;> cases h
    exact ⟨_, rfl, rfl⟩
  number := by intro num x w h; cases h

theorem firm (fl : Bool) : ∀ c cd, env.cls c = some cd → FirmClass env true fl cd := by
  intro c cd h
  rcases cls_cases h with ⟨rfl, rfl⟩ | ⟨rfl, rfl⟩ | ⟨rfl, rfl⟩
  · refine ⟨rfl, by decide, rfl, rfl, ?_, ?_, ?_⟩
    all_goals
      intro f hf
      have hf' := hf
      simp only [Leaf, List.mem_cons, List.not_mem_nil, or_false] at hf
      rcases hf with rfl | rfl
    · exact ⟨hf', rfl, rfl, rfl, (by intro g hg; cases hg), rfl⟩
    · exact ⟨hf', rfl, rfl, rfl, (by intro g hg; cases hg), rfl⟩
    · exact .prim
    · exact .std
    · intro d hd; cases hd
    · intro d hd; cases hd
  · refine ⟨rfl, by decide, rfl, rfl, ?_, ?_, ?_⟩
    all_goals
      intro f hf
      have hf' := hf
      simp only [Node, List.mem_cons, List.not_mem_nil, or_false] at hf
      rcases hf with rfl | rfl | rfl | rfl | rfl | rfl | rfl | rfl
    any_goals try exact ⟨hf', rfl, rfl, rfl, (by intro g hg; cases hg), rfl⟩
    any_goals try (intro d hd; cases hd; done)
    · exact .prim
    · exact .prim
    · exact .list .cls
    · exact .set (.prim (by decide)) .prim
    · refine .intKeys (.tuple ?_)
      intro t ht
      simp only [List.mem_cons, List.not_mem_nil, or_false] at ht
      rcases ht with rfl | rfl
      · exact .prim
      · exact .enum
    · exact .opt (by intro h; cases h) .dt
    · exact .litStr (by simp)
    · refine .union rfl ?_
      intro t ht _
      simp only [List.mem_cons, List.not_mem_nil, or_false] at ht
      rcases ht with rfl | rfl | rfl
      · exact .primChecked (by intro h; cases h)
      · exact .cls
      · exact .list .enum
    · intro d hd; cases hd; exact .list (by simp)
  · refine ⟨rfl, by decide, rfl, rfl, ?_, ?_, ?_⟩
    all_goals
      intro f hf
      have hf' := hf
      simp only [Top, List.mem_cons, List.not_mem_nil, or_false] at hf
      rcases hf with rfl | rfl | rfl
    any_goals try exact ⟨hf', rfl, rfl, rfl, (by intro g hg; cases hg), rfl⟩
    any_goals try (intro d hd; cases hd; done)
    · exact .primChecked (by intro h; cases h)
    · exact .primChecked (by intro h; cases h)
    · exact .cls

theorem annotated {t} (h : Annotated env t) : (∀ ts, t = .union ts → ts = [.dt .date, .none] ∨ ts = [.prim .str, .cls "Leaf", .list .list (.enum "Color")]) ∧
    (∀ vs, t = .lit vs → vs = [.str "a", .str "b"]) := by
  obtain ⟨c, cd, f, hc, hf, hw⟩ := h
  rcases cls_cases hc with ⟨rfl, rfl⟩ | ⟨rfl, rfl⟩ | ⟨rfl, rfl⟩
  · simp only [Leaf, List.mem_cons, List.not_mem_nil, or_false] at hf
    rcases hf with rfl | rfl <;> cases hw <;> simp
  · simp only [Node, List.mem_cons, List.not_mem_nil, or_false] at hf
    rcases hf with rfl | rfl | rfl | rfl | rfl | rfl | rfl | rfl
    · cases hw; simp
    · cases hw; simp
    · cases hw with
      | refl => simp
      | list h => cases h; simp
    · cases hw with
      | refl => simp
      | set h => cases h; simp
    · cases hw with
      | refl => simp
      | key h => cases h; simp
      | value h =>
        cases h with
        | refl => simp
        | tuple hm h =>
          simp only [List.mem_cons, List.not_mem_nil, or_false] at hm
          rcases hm with rfl | rfl <;> cases h <;> simp
    · cases hw with
      | refl => simp
      | union hm h =>
        simp only [List.mem_cons, List.not_mem_nil, or_false] at hm
        rcases hm with rfl | rfl <;> cases h <;> simp
    · cases hw; simp
    · cases hw with
      | refl => simp
      | union hm h =>
        simp only [List.mem_cons, List.not_mem_nil, or_false] at hm
        rcases hm with rfl | rfl | rfl
        · cases h; simp
        · cases h; simp
        · cases h with
          | refl => simp
          | list h => cases h; simp
  · simp only [Top, List.mem_cons, List.not_mem_nil, or_false] at hf
    rcases hf with rfl | rfl | rfl <;> cases hw <;> simp

theorem unions : DistinctUnions env := by
  refine distinctUnions_of ?_
  intro ts us h1 h2 hn
  rcases (annotated h1).1 _ rfl with rfl | rfl <;> rcases (annotated h2).1 _ rfl with rfl | rfl
  · rfl
  · exact absurd hn (by decide)
  · exact absurd hn (by decide)
  · rfl

theorem lits : DistinctLits env := by
  refine distinctLits_of ?_
  intro ts us h1 h2 _
  rw [(annotated h1).2 _ rfl, (annotated h2).2 _ rfl]

/-- Data of a leaf: the weight is an int, the extra key is ignored. -/
def dLeaf : Val := .dict .plain [(.str "Leaf", .dict .plain [(.str "weight", .int 3), (.str "id", .str "u-1"), (.str "x", .none)])]
/-- Data of a node without kids, with numbers where strings are asked for. -/
def dNode0 : Val := .dict .plain [(.str "n", .int 5), (.str "count", .str "+11"), (.str "tags", .list [.str "x", .str "y", .str "x"]),
  (.str "table", .dict .plain []), (.str "best", .str "2024-01-01"), (.str "mode", .str "b"), (.str "value", dLeaf)]
/-- Data of a node with a kid. -/
def dNode : Val := .dict .plain [(.str "value", .list [.int 2]), (.str "n", .str "out"), (.str "count", .float (.fin 7)), (.str "kids", .tuple [dNode0]),
  (.str "tags", .list []), (.str "table", .dict .plain [(.str "+1", .list [.int 0, .int 1])]), (.str "mode", .str "a")]
/-- All of it. -/
def dTop : Val := .dict .plain [(.str "flag", .bool true), (.str "label", .str "l"), (.str "node", dNode)]

/-- What `dNode0` becomes. -/
def node0 : Val := .inst "Node" [("name", .str "+11111"), ("count", .int 2), ("kids", .list []), ("tags", .set true [.str "x", .str "y"]),
  ("table", .dict .plain []), ("best", .dt .date "2024-01-01"), ("mode", .str "b"),
  ("value", .inst "Leaf" [("weight", .float (.fin 3)), ("id", .std "uuid.UUID" "u-1")])]
/-- What `dTop` becomes. -/
def top : Val := .inst "Top" [("flag", .bool true), ("label", .str "l"), ("node", .inst "Node" [("name", .str "out"), ("count", .int 7),
  ("kids", .list [node0]), ("tags", .set true []), ("table", .dict .plain [(.int 1, .tuple [.bool false, .enum "Color" "RED"])]),
  ("best", .none), ("mode", .str "a"), ("value", .list [.enum "Color" "BLUE"])])]

theorem run (re : Option Bool) : fromDict env { reuse := re } 20 (.cls "Top") dTop = .ok top := by
  cases re with
  | none => rfl
  | some b => cases b <;> rfl

theorem pureTop : PureData true dTop := by
  unfold dTop dNode dNode0 dLeaf
  repeat' first
    | exact .none
    | exact .bool rfl
    | exact .int
    | exact .float
    | exact .str
    | refine .list ?_
    | refine .tuple ?_
    | refine .dict ?_ ?_
    | refine ⟨?_, ?_⟩
    | (intro e he; cases he; done)
    | simp only [List.mem_cons, List.not_mem_nil, or_false, forall_eq_or_imp, forall_eq]

example (re : Option Bool) : HasTy env (.cls "Top") top :=
  C60_typed_partial (o := { reuse := re }) (bo := true) canonical unions lits rfl (firm false) pureTop (run re)

/-- The data as tuples. -/
def tTop : Val := .list [.bool false, .str "l", .tuple [.int 5, .str "+11", .list [], .list [.str "x"], .dict .plain [], .none, .str "b", .str "v"]]

theorem pureTup : PureData true tTop := by
  refine .list ?_
  simp only [List.mem_cons, List.not_mem_nil, or_false, forall_eq_or_imp, forall_eq]
  refine ⟨.bool rfl, .str, .tuple ?_⟩
  simp only [List.mem_cons, List.not_mem_nil, or_false, forall_eq_or_imp, forall_eq]
  exact ⟨.int, .str, .list (by simp), .list (by simp only [List.mem_cons, List.not_mem_nil, or_false, forall_eq]; exact .str),
    .dict (by simp) (by simp), .none, .str, .str⟩

theorem aligned : ∀ c cd, env.cls c = some cd → Aligned cd := by
  intro c cd h
  rcases cls_cases h with ⟨rfl, rfl⟩ | ⟨rfl, rfl⟩ | ⟨rfl, rfl⟩
  · intro f hf _
    simp only [Leaf, List.mem_cons, List.not_mem_nil, or_false] at hf
    rcases hf with rfl | rfl <;> exact ⟨rfl, rfl, rfl⟩
  · intro f hf _
    simp only [Node, List.mem_cons, List.not_mem_nil, or_false] at hf
    rcases hf with rfl | rfl | rfl | rfl | rfl | rfl | rfl | rfl <;> exact ⟨rfl, rfl, rfl⟩
  · intro f hf _
    simp only [Top, List.mem_cons, List.not_mem_nil, or_false] at hf
    rcases hf with rfl | rfl | rfl <;> exact ⟨rfl, rfl, rfl⟩

/-- What `tTop` becomes. -/
def topT : Val := .inst "Top" [("flag", .bool false), ("label", .str "l"), ("node", .inst "Node" [("name", .str "+11111"), ("count", .int 2),
  ("kids", .list []), ("tags", .set true [.str "x"]), ("table", .dict .plain []), ("best", .none), ("mode", .str "b"), ("value", .str "v")])]

theorem runT : fromTuple env {} 20 (.cls "Top") tTop = .ok topT := rfl

example : HasTy env (.cls "Top") topT :=
  C60_typed_tuple_partial (o := {}) (bo := true) canonical unions lits rfl (firm false) aligned pureTup runT

example : ∃ d, Ev (fun m => toTuple env {} m topT = .ok d ∧ fromTuple env {} m (.cls "Top") d = .ok topT) :=
  C60_again_tuple_partial (so := {}) (o := {}) (bo := true) (cd := Top) canonical unions lits (firm false) aligned pureTup rfl rfl rfl id (envOk _) runT

example : ∃ d, Ev (fun m => toDict env {} m top = .ok d ∧ fromDict env {} m (.cls "Top") d = .ok top) :=
  C60_again_partial (so := {}) (o := {}) (bo := true) (cd := Top) canonical unions lits (firm false) pureTop rfl rfl rfl id (envOk _) (run none)

/-- A codec that knows one text. -/
def K : Codec := ⟨fun _ => .error .value, fun _ => .ok dTop⟩

theorem runJ (cn : Bool) : fromJson env K 20 (.cls "Top") "text" cn = .ok top := by
  cases cn <;> rfl

example (cn : Bool) : HasTy env (.cls "Top") top :=
  C60_typed_json_partial (K := K) (s := "text") (cn := cn) (bo := true) canonical unions lits rfl (firm cn) rfl pureTop (runJ cn)

example (cn sn : Bool) : ∃ (K' : Codec) (s' : String), Ev (fun m => toJson env K' { skipNone := sn } m top = .ok s' ∧
    fromJson env K' m (.cls "Top") s' cn = .ok top) := by
  obtain ⟨d, _, h⟩ := C60_again_json_partial (sn := sn) (bo := true) (cd := Top) canonical unions lits (firm cn) (K := K) (s := "text") rfl pureTop rfl
    Ex.numText (envOk _) (runJ cn)
  exact ⟨_, h ⟨fun _ => .ok "text", fun _ => .ok (jsonWire Ex.WT d)⟩ ⟨_, rfl, rfl⟩⟩

end C60Ex

/-! ## Where it fails -/

namespace C60Neg

/-- `class A: x: int`, strict. -/
def A : ClassDef := { name := "A", mro := ["A"], fields := [{ name := "x", ty := .prim .int }] }
/-- `class L: xs: list[int]`, strict. -/
def L : ClassDef := { name := "L", mro := ["L"], fields := [{ name := "xs", ty := .list .list (.prim .int) }] }
/-- `class U: x: int | str`, coercing. -/
def U : ClassDef := { name := "U", mro := ["U"], typeCheck := .coerce, fields := [{ name := "x", ty := .union [.prim .int, .prim .str] }] }
/-- `class S: x: Optional[int] = field(default=5)`, coercing. -/
def S : ClassDef :=
  { name := "S", mro := ["S"], typeCheck := .coerce, fields := [{ name := "x", ty := .union [.prim .int, .none], dflt := some (.int 5) }] }
/-- The classes. -/
def env : Env := Ex.mk [("A", A), ("L", L), ("U", U), ("S", S)]

end C60Neg

open C60Neg in
/-- **C60** fails for ints where bools may come in: a strict class accepts `True` for `x: int`, so does a union with an int in a class that coerces;
and a strict class looks at one element of a list only. -/
theorem C60_false_typed : ∃ (env : Env) (c : ClassId) (x w : Val), PureData true x ∧ (∃ n, fromDict env {} n (.cls c) x = .ok w) ∧
    ¬ HasTy env (.cls c) w := by
  refine ⟨env, "A", .dict .plain [(.str "x", .bool true)], .inst "A" [("x", .bool true)], ?_, ⟨20, rfl⟩, ?_⟩
  · exact .dict (by simp only [List.mem_cons, List.not_mem_nil, or_false, forall_eq]; exact .str)
      (by simp only [List.mem_cons, List.not_mem_nil, or_false, forall_eq]; exact .bool rfl)
  · intro h
    cases h with
    | inst hc _ ha =>
      cases hc
      have := ha ({ name := "x", ty := .prim .int }, ("x", .bool true)) (by simp [A])
      cases this

open C60Neg in
/-- The same for a strict class with a list, of which one element is looked at, and for a union in a class that coerces. -/
theorem C60_false_list : (∃ n, fromDict env {} n (.cls "L") (.dict .plain [(.str "xs", .list [.int 1, .str "a"])]) = .ok (.inst "L" [("xs", .list [.int 1, .str "a"])])) ∧
    ¬ HasTy env (.cls "L") (.inst "L" [("xs", .list [.int 1, .str "a"])]) ∧
    (∃ n, fromDict env {} n (.cls "U") (.dict .plain [(.str "x", .bool true)]) = .ok (.inst "U" [("x", .bool true)])) ∧
    ¬ HasTy env (.cls "U") (.inst "U" [("x", .bool true)]) := by
  refine ⟨⟨20, rfl⟩, ?_, ⟨20, rfl⟩, ?_⟩
  · intro h
    cases h with
    | inst hc _ ha =>
      cases hc
      have := ha ({ name := "xs", ty := .list .list (.prim .int) }, ("xs", .list [.int 1, .str "a"])) (by simp [L])
      cases this with
      | list h => have := h (.str "a") (by simp); cases this
  · intro h
    cases h with
    | inst hc _ ha =>
      cases hc
      have := ha ({ name := "x", ty := .union [.prim .int, .prim .str] }, ("x", .bool true)) (by simp [U])
      cases this with
      | union hm h =>
        simp only [List.mem_cons, List.not_mem_nil, or_false] at hm
        rcases hm with rfl | rfl <;> cases h

open C60Neg in
/-- **C60** Reading, writing with `skip_none` and reading again gives another object: `{"x": None}` is read as `S(x=None)`, written as `{}`, and that is
read as `S(x=5)`. -/
theorem C60_false_again : ∃ d, Ev (fun n => fromDict env {} n (.cls "S") (.dict .plain [(.str "x", .none)]) = .ok (.inst "S" [("x", .none)]) ∧
    toDict env { skipNone := true } n (.inst "S" [("x", .none)]) = .ok d ∧ fromDict env {} n (.cls "S") d = .ok (.inst "S" [("x", .int 5)])) := by
  refine ⟨.dict .plain [], 20, fun n hn => ⟨?_, ?_, ?_⟩⟩
  · exact fromDict_mono hn rfl
  · exact toDict_mono hn rfl
  · exact fromDict_mono hn rfl

end Verif.Props
