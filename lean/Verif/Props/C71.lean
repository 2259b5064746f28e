import Verif.Lemmas.Presence
import Verif.Props.C46
import Verif.Examples.World
/-!
# C71: the functions of nested dataclasses are there

Full statement: "Once a class has been decorated, or has been given to to_dict or from_dict, the functions of every dataclass that its fields mention (directly, in
containers, Optionals, unions or as a subscripted generic, or through other classes; decorated or not) have been generated. Reading and writing it never fails because
a nested class has no function."

Proved (partial): without base classes, for classes that are not only mentioned as subscripted generics. False of an undecorated generic dataclass
(`C71_false_generic`), and of subclasses, which get a scope of their own that hides the functions of the base class (`C71_false_subclass`, `C71_false_value`).
-/

namespace Verif.Props
open Verif Spec

section
variable {env : Env} {order : ClassId → List ClassId}

theorem order_reach (hO : OrderOk env order) {c d} : d ∈ order c ↔ Reach env true (.cls c) (.cls d) := by
  obtain ⟨R, hR, h1, h2⟩ := C46_types (env := env) (c := c)
  rw [hO c d]
  constructor
  · rintro ⟨R', hR', hm⟩
    rw [hR] at hR'
    cases hR'
    rcases h2 _ hm with h | ⟨u, hu, hi⟩
    · cases h
    · cases u <;> simp only [itemOf, Option.some.injEq, TypeItem.cls.injEq, reduceCtorEq] at hi
      rw [← hi]
      exact hu
  · exact fun h => ⟨R, hR, h1 _ _ h rfl⟩

theorem order_trans (hO : OrderOk env order) (c d e) (h : d ∈ order c) (h' : e ∈ order d) : e ∈ order c :=
  (order_reach hO).2 (((order_reach hO).1 h).trans ((order_reach hO).1 h'))

/-- **C71** (state) After any history in which a class has been decorated (or used on this side), every dataclass reachable from it has its function for this side. -/
theorem C71_generated_partial (hb : NoBases env) (hO : OrderOk env order) {h : List GenEvent} {side : Side} {c d : ClassId} {cd dd : ClassDef} {e : GenEvent}
    (he : e ∈ h) (ho : GenEvent.On e side c) (hc : env.cls c = some cd) (hr : Reach env true (.cls c) (.cls d)) (hd : env.cls d = some dd) :
    HasOwn (Gen.run env order {} h) side d :=
  run_closed hb (order_trans hO) h closed_init c (run_own hb hc he ho) d ((order_reach hO).2 hr) dd hd

theorem fields_state (hb : NoBases env) {st : Gen} {side c cd'} (h : (st.env env side).cls c = some cd') :
    ∃ cd, env.cls c = some cd ∧ cd'.fields = cd.fields ∧ ∀ f : FieldDef, f.skipRule cd' = f.skipRule cd := by
  rw [gen_env_cls] at h
  cases hc : env.cls c with
  | none => rw [hc] at h; cases h
  | some cd =>
    rw [hc, Option.map_some, classDef_self hc (owner_noBases hb)] at h
    cases h
    exact ⟨cd, rfl, rfl, fun f => skipRule_cfgs⟩

theorem part_state (hb : NoBases env) {st : Gen} {side al t s} (h : Part (st.env env side) al t s) : Part env al t s := by
  cases h with
  | field hc hf hs =>
    obtain ⟨cd, hc, hfs, -⟩ := fields_state hb hc
    exact .field hc (hfs ▸ hf) hs
  | union h => exact .union h
  | list => exact .list
  | set => exact .set
  | deque => exact .deque
  | counter => exact .counter
  | tuple h => exact .tuple h
  | tupleV => exact .tupleV
  | key => exact .key
  | value => exact .value
  | alias h => exact .alias h

theorem uses_state (hb : NoBases env) {st : Gen} {side t d} (h : Uses (st.env env side) t d) : Uses env t d := by
  induction h with
  | here => exact .here
  | part hp _ ih => exact .part (part_state hb hp) ih
  | generic _ ih => exact .generic ih
  | arg hm _ ih => exact .arg hm ih

theorem uses_split {t d} (h : Uses env t d) : Reach env true t (.cls d) ∨ ∃ k args, Reach env true t (.gen k args) ∧ Uses env (.gen k args) d := by
  induction h with
  | here => exact .inl .refl
  | part hp _ ih =>
    rcases ih with ih | ⟨k, args, hr, hu⟩
    · exact .inl (.step hp ih)
    · exact .inr ⟨k, args, .step hp hr, hu⟩
  | generic hu _ => exact .inr ⟨_, _, .refl, .generic hu⟩
  | arg hm hu _ => exact .inr ⟨_, _, .refl, .arg hm hu⟩

theorem meet_run {st : Gen} (hb : NoBases env) (hO : OrderOk env order) {side c d} {cd dd : ClassDef} (hs : GenClosed env order st side) (hc : env.cls c = some cd)
    (hr : Reach env true (.cls c) (.cls d)) (hd : env.cls d = some dd) : HasOwn (st.meet env order side c) side d :=
  meet_closed hb (order_trans hO) hs c (meet_own hb hc) d ((order_reach hO).2 hr) dd hd

/-- **C71** (reading a class) After any history whatsoever, from_dict and from_tuple for a class, decorated or not, never miss a function: they do what they would do if every class had
its functions. Classes used in subscripted generics must have been met before (`C71_false_generic`). -/
theorem C71_read_partial (hb : NoBases env) (hO : OrderOk env order) {h : List GenEvent} {c : ClassId}
    (hk : ∀ d, Uses env (.cls c) d → (env.cls d).isSome = true)
    (hg : ∀ k args d, Reach env true (.cls c) (.gen k args) → Uses env (.gen k args) d → ∃ e ∈ h, GenEvent.On e .de d) (o : DeOpts) (n : Nat) (d : Val) :
    fromDictH env order (Gen.run env order {} h) o n (.cls c) d = fromDictIn env order (Gen.run env order {} h) o n (.cls c) d ∧
    fromTupleH env order (Gen.run env order {} h) o n (.cls c) d = fromTupleIn env order (Gen.run env order {} h) o n (.cls c) d := by
  have hcl : Clear ((((Gen.run env order {} h).meetTy env order (.cls c))).env env .de) (((Gen.run env order {} h).meetTy env order (.cls c)).missing env .de) (.cls c) := by
    intro d hd
    have hu := uses_state hb hd
    obtain ⟨dd, hdd⟩ := Option.isSome_iff_exists.1 (hk d hu)
    obtain ⟨cd, hc⟩ := Option.isSome_iff_exists.1 (hk c .here)
    refine missing_own hb hdd ?_
    rcases uses_split hu with hr | ⟨k, args, hr, hu⟩
    · exact meet_run hb hO (run_closed hb (order_trans hO) h closed_init) hc hr hdd
    · obtain ⟨e, he, ho⟩ := hg k args d hr hu
      exact (run_own hb hdd he ho).mono Grows.meet
  exact ⟨(deHAt_clear n).fromObj _ _ _ _ _ _ hcl, (deHAt_clear n).fromObj _ _ _ _ _ _ hcl⟩

/-- **C71** (reading anything) For any annotation, generics included, all of whose classes have been decorated or read before. -/
theorem C71_read_met_partial (hb : NoBases env) {h : List GenEvent} {t : Ty} (hk : ∀ d, Uses env t d → (env.cls d).isSome = true ∧ ∃ e ∈ h, GenEvent.On e .de d)
    (o : DeOpts) (n : Nat) (d : Val) :
    fromDictH env order (Gen.run env order {} h) o n t d = fromDictIn env order (Gen.run env order {} h) o n t d ∧
    fromTupleH env order (Gen.run env order {} h) o n t d = fromTupleIn env order (Gen.run env order {} h) o n t d := by
  have hgr : Grows (Gen.run env order {} h) ((Gen.run env order {} h).meetTy env order t) := by
    cases t <;> first | exact .refl _ | exact Grows.meet
  have hcl : Clear (((Gen.run env order {} h).meetTy env order t).env env .de) (((Gen.run env order {} h).meetTy env order t).missing env .de) t := by
    intro d hd
    obtain ⟨hs, e, he, ho⟩ := hk d (uses_state hb hd)
    obtain ⟨dd, hdd⟩ := Option.isSome_iff_exists.1 hs
    exact missing_own hb hdd ((run_own hb hdd he ho).mono hgr)
  exact ⟨(deHAt_clear n).fromObj _ _ _ _ _ _ hcl, (deHAt_clear n).fromObj _ _ _ _ _ _ hcl⟩

/-- **C71** (writing) After any history whatsoever, to_dict and to_tuple of an object never miss a function, provided that the objects inside it (and the defaults fields are compared
with) belong to classes that its class mentions, or that have been met before. -/
theorem C71_write_partial (hb : NoBases env) (hO : OrderOk env order) {h : List GenEvent} {c : ClassId} {as : List (String × Val)}
    (hv : ∀ d, HoldsInst d (.inst c as) → (env.cls d).isSome = true ∧ (Reach env true (.cls c) (.cls d) ∨ ∃ e ∈ h, GenEvent.On e .se d))
    (hf : ∀ k kd f x d, env.cls k = some kd → f ∈ kd.fields → f.skipRule kd = .ifDefault (some x) → HoldsInst d x →
      (env.cls d).isSome = true ∧ (Reach env true (.cls c) (.cls d) ∨ ∃ e ∈ h, GenEvent.On e .se d)) (o : SeOpts) (n : Nat) :
    toDictH env order (Gen.run env order {} h) o n (.inst c as) = toDictIn env order (Gen.run env order {} h) o n (.inst c as) ∧
    toTupleH env order (Gen.run env order {} h) o n (.inst c as) = toTupleIn env order (Gen.run env order {} h) o n (.inst c as) := by
  obtain ⟨cd, hc⟩ := Option.isSome_iff_exists.1 (hv c .here).1
  have key : ∀ d, ((env.cls d).isSome = true ∧ (Reach env true (.cls c) (.cls d) ∨ ∃ e ∈ h, GenEvent.On e .se d)) →
      ((Gen.run env order {} h).meet env order .se c).missing env .se d = Option.none := by
    rintro d ⟨hs, hr⟩
    obtain ⟨dd, hdd⟩ := Option.isSome_iff_exists.1 hs
    refine missing_own hb hdd ?_
    rcases hr with hr | ⟨e, he, ho⟩
    · exact meet_run hb hO (run_closed hb (order_trans hO) h closed_init) hc hr hdd
    · exact (run_own hb hdd he ho).mono Grows.meet
  have hcl : ValClear (((Gen.run env order {} h).meet env order .se c).missing env .se) (.inst c as) := fun d hd => key d (hv d hd)
  have hd : DfltClear (((Gen.run env order {} h).meet env order .se c).env env .se) (((Gen.run env order {} h).meet env order .se c).missing env .se) := by
    intro k kd' f x hk hfm hsk d hd
    obtain ⟨kd, hk, hfs, hsr⟩ := fields_state hb hk
    exact key d (hf k kd f x d hk (hfs ▸ hfm) (hsr f ▸ hsk) hd)
  exact ⟨(seHAt_clear hd n).toObj _ _ _ _ _ _ _ hcl, (seHAt_clear hd n).toObj _ _ _ _ _ _ _ hcl⟩

end

/-! ## Examples -/

namespace C71Ex

/-- Undecorated: a class with a number, a class holding a list of these, and one that holds itself again; the holder of all. -/
def leaf : ClassDef := { name := "Leaf", mro := ["Leaf"], typeCheck := .disabled, fields := [{ name := "n", ty := .prim .int }] }
def mid : ClassDef :=
  { name := "Mid", mro := ["Mid"], typeCheck := .disabled, fields := [{ name := "ls", ty := .list .list (.cls "Leaf") }, { name := "top", ty := .union [.cls "Top", .none], dflt := some .none }] }
def top : ClassDef := { name := "Top", mro := ["Top"], fields := [{ name := "mid", ty := .union [.cls "Mid", .none] }] }
def env : Env := Ex.mk [("Leaf", leaf), ("Mid", mid), ("Top", top)]

/-- The dataclasses in `iter_types`. -/
def order : ClassId → List ClassId
  | "Top" => ["Leaf", "Mid", "Top"]
  | "Mid" => ["Top", "Mid", "Leaf"]
  | c => [c]

theorem cls_env {c cd} (h : env.cls c = some cd) : (c = "Leaf" ∧ cd = leaf) ∨ (c = "Mid" ∧ cd = mid) ∨ (c = "Top" ∧ cd = top) := by
  simp only [Env.cls, env, Ex.mk, List.lookup_cons, List.lookup_nil] at h
  split at h
  · next hc => rw [beq_iff_eq] at hc; cases h; exact .inl ⟨hc, rfl⟩
  · split at h
    · next hc => rw [beq_iff_eq] at hc; cases h; exact .inr (.inl ⟨hc, rfl⟩)
    · split at h
      · next hc => rw [beq_iff_eq] at hc; cases h; exact .inr (.inr ⟨hc, rfl⟩)
      · cases h

theorem noBases : NoBases env := by
  intro c cd h
  rcases cls_env h with ⟨rfl, rfl⟩ | ⟨rfl, rfl⟩ | ⟨rfl, rfl⟩ <;> rfl

theorem cls_none {c} (h1 : c ≠ "Leaf") (h2 : c ≠ "Mid") (h3 : c ≠ "Top") : env.cls c = none := by
  simp only [Env.cls, env, Ex.mk, List.lookup_cons, List.lookup_nil, beq_false_of_ne h1, beq_false_of_ne h2, beq_false_of_ne h3]

theorem orderOk : OrderOk env order := by
  intro c d
  by_cases h1 : c = "Leaf"
  · subst h1
    have hR : iterTypes env "Leaf" = some [.leaf (.prim .int), .cls "Leaf"] := rfl
    rw [hR]
    simp [order]
  by_cases h2 : c = "Mid"
  · subst h2
    have hR : iterTypes env "Mid" = some [.head "Optional", .cls "Top", .head "Optional", .leaf (.prim .int), .cls "Leaf", .head "list", .cls "Mid"] := rfl
    rw [hR]
    simp only [order, Option.some.injEq, exists_eq_left', List.mem_cons, List.not_mem_nil, or_false, TypeItem.cls.injEq, reduceCtorEq, false_or]
    constructor
    · rintro (h | h | h) <;> simp [h]
    · rintro (h | h | h) <;> simp [h]
  by_cases h3 : c = "Top"
  · subst h3
    have hR : iterTypes env "Top" = some [.head "Optional", .leaf (.prim .int), .cls "Leaf", .head "list", .cls "Mid", .head "Optional", .cls "Top"] := rfl
    rw [hR]
    simp [order]
  · have hR : iterTypes env c = some [.cls c] := by
      unfold iterTypes
      show typesCls env 4 c [] = _
      unfold typesCls
      rw [cls_none h1 h2 h3]
      rfl
    have ho : order c = [c] := by
      unfold order
      split <;> first | rfl | contradiction
    rw [hR, ho]
    simp

/-- Only the holder is decorated. -/
def story : List GenEvent := [.decorate "Top", .write "Leaf"]
def dat : Val := .dict .plain [(.str "mid", .dict .plain [(.str "ls", .list [.dict .plain [(.str "n", .int 1)]]), (.str "top", .dict .plain [(.str "mid", .none)])])]
def obj : Val := .inst "Top" [("mid", .inst "Mid" [("ls", .list [.inst "Leaf" [("n", .int 1)]]), ("top", .inst "Top" [("mid", .none)])])]

theorem reach_top : Reach env true (.cls "Top") (.cls "Leaf") := (order_reach orderOk).1 (by simp [order])

example : HasOwn (Gen.run env order {} story) .de "Leaf" :=
  C71_generated_partial (c := "Top") (e := .decorate "Top") noBases orderOk (by simp [story]) rfl rfl reach_top rfl

/-- Nothing but the three classes is reached; in particular no generics. -/
def Fine : Ty → Prop
  | .cls c => c = "Leaf" ∨ c = "Mid" ∨ c = "Top"
  | .prim _ | .none => True
  | .list _ t => t = .cls "Leaf"
  | .union ts => ts = [.cls "Mid", .none] ∨ ts = [.cls "Top", .none]
  | _ => False

theorem part_fine {t s} (h : Part env true t s) (ht : Fine t) : Fine s := by
  cases h with
  | union h =>
    rcases ht with rfl | rfl
    all_goals
      simp only [List.mem_cons, List.not_mem_nil, or_false] at h
      rcases h with rfl | rfl <;> simp [Fine]
  | list => cases ht; simp [Fine]
  | field hc hf _ =>
    rcases cls_env hc with ⟨rfl, rfl⟩ | ⟨rfl, rfl⟩ | ⟨rfl, rfl⟩
    · simp only [leaf, List.mem_cons, List.not_mem_nil, or_false] at hf
      subst hf; trivial
    · simp only [mid, List.mem_cons, List.not_mem_nil, or_false] at hf
      rcases hf with rfl | rfl <;> simp [Fine]
    · simp only [top, List.mem_cons, List.not_mem_nil, or_false] at hf
      subst hf; simp [Fine]
  | _ => cases ht

theorem reach_fine {t s} (h : Reach env true t s) : Fine t → Fine s := by
  induction h with
  | refl => exact id
  | step hp _ ih => exact fun ht => ih (part_fine hp ht)

theorem uses_fine {t d} (h : Uses env t d) (ht : Fine t) : d = "Leaf" ∨ d = "Mid" ∨ d = "Top" := by
  rcases uses_split h with h | ⟨k, args, h, -⟩
  · exact reach_fine h ht
  · cases reach_fine h ht

example (o : DeOpts) (n : Nat) (d : Val) :
    fromDictH env order (Gen.run env order {} story) o n (.cls "Top") d = fromDictIn env order (Gen.run env order {} story) o n (.cls "Top") d :=
  (C71_read_partial noBases orderOk (fun d hd => by rcases uses_fine hd (by simp [Fine]) with rfl | rfl | rfl <;> rfl)
    (fun k args d hr _ => by cases reach_fine hr (by simp [Fine])) o n d).1

example : fromDictH env order (Gen.run env order {} story) {} 12 (.cls "Top") dat = .ok obj := rfl

example (o : DeOpts) (n : Nat) (d : Val) : fromDictH env order (Gen.run env order {} [.read "Leaf", .decorate "Mid", .read "Top"]) o n (.list .list (.cls "Mid")) d =
    fromDictIn env order (Gen.run env order {} [.read "Leaf", .decorate "Mid", .read "Top"]) o n (.list .list (.cls "Mid")) d := by
  refine (C71_read_met_partial noBases (fun d hd => ?_) o n d).1
  have : d = "Leaf" ∨ d = "Mid" ∨ d = "Top" := by
    cases hd with
    | part hp hd => cases hp; exact uses_fine hd (by simp [Fine])
  rcases this with rfl | rfl | rfl
  · exact ⟨rfl, .read "Leaf", by simp, rfl⟩
  · exact ⟨rfl, .decorate "Mid", by simp, rfl⟩
  · exact ⟨rfl, .read "Top", by simp, rfl⟩

theorem obj_insts {d} (h : HoldsInst d obj) : d = "Leaf" ∨ d = "Mid" ∨ d = "Top" := by
  cases h with
  | here => simp
  | attr hm h =>
    simp only [List.mem_cons, List.not_mem_nil, or_false, Prod.mk.injEq] at hm
    obtain ⟨rfl, rfl⟩ := hm
    cases h with
    | here => simp
    | attr hm h =>
      simp only [List.mem_cons, List.not_mem_nil, or_false, Prod.mk.injEq] at hm
      rcases hm with ⟨rfl, rfl⟩ | ⟨rfl, rfl⟩
      · cases h with
        | list hm h =>
          simp only [List.mem_cons, List.not_mem_nil, or_false] at hm
          subst hm
          cases h with
          | here => simp
          | attr hm h =>
            simp only [List.mem_cons, List.not_mem_nil, or_false, Prod.mk.injEq] at hm
            obtain ⟨rfl, rfl⟩ := hm
            cases h
      · cases h with
        | here => simp
        | attr hm h =>
          simp only [List.mem_cons, List.not_mem_nil, or_false, Prod.mk.injEq] at hm
          obtain ⟨rfl, rfl⟩ := hm
          cases h

example (o : SeOpts) (n : Nat) : toDictH env order (Gen.run env order {} story) o n obj = toDictIn env order (Gen.run env order {} story) o n obj := by
  refine (C71_write_partial noBases orderOk (fun d hd => ?_) (fun k kd f x d hk hf hs _ => ?_) o n).1
  · rcases obj_insts hd with rfl | rfl | rfl
    · exact ⟨rfl, .inl reach_top⟩
    · exact ⟨rfl, .inl ((order_reach orderOk).1 (by simp [order]))⟩
    · exact ⟨rfl, .inl .refl⟩
  · exfalso
    rcases cls_env hk with ⟨rfl, rfl⟩ | ⟨rfl, rfl⟩ | ⟨rfl, rfl⟩
    · simp only [leaf, List.mem_cons, List.not_mem_nil, or_false] at hf
      subst hf; simp [FieldDef.skipRule, leaf] at hs
    · simp only [mid, List.mem_cons, List.not_mem_nil, or_false] at hf
      rcases hf with rfl | rfl <;> simp [FieldDef.skipRule, mid] at hs
    · simp only [top, List.mem_cons, List.not_mem_nil, or_false] at hf
      subst hf; simp [FieldDef.skipRule, top] at hs

example : toDictH env order (Gen.run env order {} story) {} 12 obj = .ok dat := rfl

end C71Ex

/-! ## What is missing -/

namespace C71Bad

/-- An undecorated generic dataclass, and a decorated class with a field `Box[int]`. -/
def box : ClassDef := { name := "Box", mro := ["Box"], typeCheck := .disabled, tvars := some ["T"], fields := [{ name := "v", ty := .tvar "T" }] }
def user : ClassDef := { name := "User", mro := ["User"], fields := [{ name := "b", ty := .gen "Box" [.prim .int] }] }
def envG : Env := Ex.mk [("Box", box), ("User", user)]
def orderG : ClassId → List ClassId := fun c => [c]

/-- Undecorated: a class, a subclass, and holders of either. -/
def base : ClassDef := { name := "Base", mro := ["Base"], typeCheck := .disabled, fields := [{ name := "a", ty := .prim .int }] }
def sub : ClassDef :=
  { name := "Sub", mro := ["Sub", "Base"], typeCheck := .disabled, fields := [{ name := "a", ty := .prim .int }, { name := "b", ty := .prim .int }] }
def hold (nm t : String) : ClassDef := { name := nm, mro := [nm], typeCheck := .disabled, fields := [{ name := "x", ty := .cls t }] }
def envS : Env := Ex.mk [("Base", base), ("Sub", sub), ("Hold", hold "Hold" "Sub"), ("Keep", hold "Keep" "Base")]
def orderS : ClassId → List ClassId
  | "Hold" => ["Hold", "Sub"]
  | "Keep" => ["Keep", "Base"]
  | c => [c]
def subDat : Val := .dict .plain [(.str "x", .dict .plain [(.str "a", .int 1), (.str "b", .int 2)])]
def subObj : Val := .inst "Sub" [("a", .int 1), ("b", .int 2)]

end C71Bad

open C71Bad

/-- False of generics: `iter_types` does not look behind the subscript, so that decorating the class that uses `Box[int]` leaves `Box` without functions. -/
theorem C71_false_generic : ∃ (env : Env) (order : ClassId → List ClassId) (d v : Val), NoBases env ∧ (∀ c ∈ ["Box", "User"], ∀ d, d ∈ order c ↔ ∃ R, iterTypes env c = some R ∧ TypeItem.cls d ∈ R) ∧
    Uses env (.cls "User") "Box" ∧ ¬ HasOwn (Gen.run env order {} [.decorate "User"]) .de "Box" ∧
    fromDictIn env order (Gen.run env order {} [.decorate "User"]) {} 12 (.cls "User") d = .ok v ∧
    fromDictH env order (Gen.run env order {} [.decorate "User"]) {} 12 (.cls "User") d = .error (.wrap (.py .attr)) ∧
    toDictH env order (Gen.run env order {} [.decorate "User"]) {} 12 v = .error (.wrap (.py .attr)) := by
  refine ⟨envG, orderG, .dict .plain [(.str "b", .dict .plain [(.str "v", .int 1)])], .inst "User" [("b", .inst "Box" [("v", .int 1)])], ?_, ?_, ?_, ?_, rfl, rfl, rfl⟩
  · intro c cd h
    simp only [Env.cls, envG, Ex.mk, List.lookup_cons, List.lookup_nil] at h
    split at h
    · next hc => rw [beq_iff_eq] at hc; cases h; rw [hc]; rfl
    · split at h
      · next hc => rw [beq_iff_eq] at hc; cases h; rw [hc]; rfl
      · cases h
  · intro c hc d
    simp only [List.mem_cons, List.not_mem_nil, or_false] at hc
    rcases hc with rfl | rfl
    · have hR : iterTypes envG "Box" = some [.leaf (.tvar "T"), .cls "Box"] := rfl
      rw [hR]
      simp [orderG]
    · have hR : iterTypes envG "User" = some [.leaf (.gen "Box" [.prim .int]), .cls "User"] := rfl
      rw [hR]
      simp [orderG]
  · exact .part (.field (cd := user) (f := { name := "b", ty := .gen "Box" [.prim .int] }) rfl (by simp [user]) rfl) (.generic .here)
  · rintro ⟨s, hs, -⟩
    cases hs

/-- False of subclasses: reading a class with a field of an undecorated subclass works in a fresh process. After the base class was read, the subclass counts as having its function;
writing an instance of the subclass then gives it a scope of its own, without the function: the same data is refused, with a complaint about a missing field. -/
theorem C71_false_subclass : ∃ (env : Env) (order : ClassId → List ClassId) (d v : Val),
    fromDictH env order (Gen.run env order {} []) {} 12 (.cls "Hold") d = .ok v ∧
    fromDictH env order (Gen.run env order {} [.read "Base", .read "Hold", .write "Sub"]) {} 12 (.cls "Hold") d = .error (.wrap (.missing "x")) :=
  ⟨envS, orderS, subDat, .inst "Hold" [("x", subObj)], rfl, rfl⟩

/-- False of values of subclasses: an object that holds an instance of a subclass is written in a fresh process, but not any more after the subclass was read. -/
theorem C71_false_value : ∃ (env : Env) (order : ClassId → List ClassId) (v w : Val),
    toDictH env order (Gen.run env order {} [.write "Keep"]) {} 12 v = .ok w ∧
    toDictH env order (Gen.run env order {} [.write "Keep", .read "Sub"]) {} 12 v = .error (.wrap (.py .key)) :=
  ⟨envS, orderS, .inst "Keep" [("x", subObj)], .dict .plain [(.str "x", .dict .plain [(.str "a", .int 1)])], rfl, rfl⟩

end Verif.Props
