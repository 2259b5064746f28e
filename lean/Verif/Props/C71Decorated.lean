import Verif.Props.C71
import Verif.Props.C59
import Verif.Props.C84
/-!
# C71, C84 with base classes: programs that decorate every dataclass
-/

namespace Verif.Props
open Verif Verif.Spec

section
variable {env : Env} {order : ClassId → List ClassId}

theorem uses_same {env' : Env} (h : ∀ c, env'.cls c = env.cls c) {t d} (hu : Uses env' t d) : Uses env t d := by
  induction hu with
  | here => exact .here
  | part hp _ ih =>
    refine .part ?_ ih
    cases hp with
    | field hc hf hs => exact .field (h _ ▸ hc) hf hs
    | union h => exact .union h
    | list => exact .list
    | set => exact .set
    | deque => exact .deque
    | counter => exact .counter
    | tuple h => exact .tuple h
    | tupleV => exact .tupleV
    | key => exact .key
    | value => exact .value
    | alias h => exact .alias h
  | generic _ ih => exact .generic ih
  | arg hm _ ih => exact .arg hm ih

theorem missing_done (hself : SelfFirst env) {done : List ClassId} {st : Gen} (hi : DecoInv env done st) (hall : ∀ c cd, env.cls c = some cd → c ∈ done) {side : Side} {c : ClassId}
    (hc : (env.cls c).isSome = true) : st.missing env side c = Option.none := by
  obtain ⟨cd, hcd⟩ := Option.isSome_iff_exists.1 hc
  obtain ⟨bs, hb⟩ := hself c cd hcd
  unfold Gen.missing Gen.get
  simp only [hcd, hb, List.findSome?_cons, (hi.dn c cd hcd (hall c cd hcd)).1]
  cases side <;> rfl

/-- **C71** (base classes allowed) In a program that decorates every dataclass where it is defined, no function is ever missing: reading and writing do what the class table says, whatever
was done before. -/
theorem C71_decorated_partial (hself : SelfFirst env) {h : List GenEvent} (ho : Ordered order [] h) (hall : AllDecorated env h) (hk : ∀ c, .decorate c ∈ h → (env.cls c).isSome) :
    (∀ o n t d, (∀ c, Uses env t c → (env.cls c).isSome = true) →
      fromDictH env order (Gen.run env order {} h) o n t d = fromDict env o n t d ∧ fromTupleH env order (Gen.run env order {} h) o n t d = fromTuple env o n t d) ∧
    (∀ o n v, (∀ c, HoldsInst c v → (env.cls c).isSome = true) →
      (∀ k kd f x c, env.cls k = some kd → f ∈ kd.fields → f.skipRule kd = .ifDefault (some x) → HoldsInst c x → (env.cls c).isSome = true) →
      toDictH env order (Gen.run env order {} h) o n v = toDict env o n v ∧ toTupleH env order (Gen.run env order {} h) o n v = toTuple env o n v) := by
  obtain ⟨done, hi, -, hdec⟩ := deco_inv hself decoInv_init ho hk
  have hall' : ∀ c cd, env.cls c = some cd → c ∈ done := fun c cd hc => hdec c (hall c cd hc)
  have hmeet : ∀ side c, (Gen.run env order {} h).meet env order side c = Gen.run env order {} h :=
    fun side c => meet_full hself (fun c cd hc => hi.full hc (hall' c cd hc))
  have hv : ∀ v, (Gen.run env order {} h).meetVal env order v = Gen.run env order {} h := by
    intro v; cases v <;> first | rfl | exact hmeet _ _
  have ht : ∀ t, (Gen.run env order {} h).meetTy env order t = Gen.run env order {} h := by
    intro t; cases t <;> first | rfl | exact hmeet _ _
  obtain ⟨hw1, hw2, hr1, hr2⟩ := C59_decorated hself ho hall hk
  refine ⟨fun o n t d hu => ?_, fun o n v hu hf => ?_⟩
  · have hcl : Clear ((Gen.run env order {} h).env env .de) ((Gen.run env order {} h).missing env .de) t :=
      fun c hc => missing_done hself hi hall' (hu c (uses_same (fun _ => decoInv_env hself hi hall') hc))
    constructor
    · rw [← hr1]
      unfold fromDictH fromDictIn
      rw [ht]
      exact (deHAt_clear n).fromObj _ _ _ _ _ _ hcl
    · rw [← hr2]
      unfold fromTupleH fromTupleIn
      rw [ht]
      exact (deHAt_clear n).fromObj _ _ _ _ _ _ hcl
  · have hcl : ValClear ((Gen.run env order {} h).missing env .se) v := fun c hc => missing_done hself hi hall' (hu c hc)
    have hd : DfltClear ((Gen.run env order {} h).env env .se) ((Gen.run env order {} h).missing env .se) := by
      intro k kd f x hk hfm hsk c hc
      rw [decoInv_env hself hi hall'] at hk
      exact missing_done hself hi hall' (hf k kd f x c hk hfm hsk hc)
    constructor
    · rw [← hw1]
      unfold toDictH toDictIn
      rw [hv]
      exact (seHAt_clear hd n).toObj _ _ _ _ _ _ _ hcl
    · rw [← hw2]
      unfold toTupleH toTupleIn
      rw [hv]
      exact (seHAt_clear hd n).toObj _ _ _ _ _ _ _ hcl

/-- **C84** (base classes allowed) While a program decorates its dataclasses one after the other, each after those it mentions, a class has been decorated exactly if it has functions of
its own, for either side. A class that has not been decorated yet is said to be (de)serializable exactly if a base class has been. -/
theorem C84_defined_partial (hself : SelfFirst env) {h : List GenEvent} (ho : Ordered order [] h) (hk : ∀ c, .decorate c ∈ h → (env.cls c).isSome) {c : ClassId} {cd : ClassDef}
    (hc : env.cls c = some cd) (hm : ∀ b ∈ cd.mro, (env.cls b).isSome) :
    (∀ side, HasOwn (Gen.run env order {} h) side c ↔ GenEvent.decorate c ∈ h) ∧ ((Gen.run env order {} h).able env (.cls c) = true ↔ ∃ b ∈ cd.mro, GenEvent.decorate b ∈ h) := by
  obtain ⟨done, hi, -, hdec, hdn⟩ := deco_inv_iff hself decoInv_init ho hk
  have hiff : ∀ b, b ∈ done ↔ GenEvent.decorate b ∈ h := fun b => ⟨fun hb => (hdn b hb).resolve_left (by simp), hdec b⟩
  have hsc : ∀ b, (env.cls b).isSome → (((Gen.run env order {} h).scope b).isSome = true ↔ GenEvent.decorate b ∈ h) := by
    intro b hb
    obtain ⟨bd, hbd⟩ := Option.isSome_iff_exists.1 hb
    rw [← hiff]
    by_cases hd : b ∈ done
    · rw [(hi.dn b bd hbd hd).1]; simp [hd]
    · rw [(hi.not b hd).1]; simp [hd]
  constructor
  · intro side
    rw [← hiff]
    constructor
    · rintro ⟨s, hs, _⟩
      exact (hiff c).2 ((hsc c (by rw [hc]; rfl)).1 (by rw [hs]; rfl))
    · intro hd
      exact ⟨_, (hi.dn c cd hc hd).1, by cases side <;> rfl⟩
  · unfold Gen.able Gen.get
    dsimp only
    rw [hc]
    dsimp only
    rw [List.findSome?_isSome_iff]
    constructor
    · rintro ⟨b, hb, hs⟩; exact ⟨b, hb, (hsc b (hm b hb)).1 hs⟩
    · rintro ⟨b, hb, hs⟩; exact ⟨b, hb, (hsc b (hm b hb)).2 hs⟩

end

/-! ## Examples -/

namespace C71Deco
open C84Ex

/-- A class, a subclass of it, both decorated. -/
def story : List GenEvent := [.decorate "Base", .write "Base", .decorate "Sub", .read "Sub"]

theorem cls_subs {c cd} (h : subs.cls c = some cd) : (c = "Base" ∧ cd = base) ∨ (c = "Sub" ∧ cd = sub) := by
  simp only [Env.cls, subs, Ex.mk, List.lookup_cons, List.lookup_nil] at h
  split at h
  · next hc => rw [beq_iff_eq] at hc; cases h; exact .inl ⟨hc, rfl⟩
  · split at h
    · next hc => rw [beq_iff_eq] at hc; cases h; exact .inr ⟨hc, rfl⟩
    · cases h

theorem selfFirst : SelfFirst subs := by
  intro c cd h
  rcases cls_subs h with ⟨rfl, rfl⟩ | ⟨rfl, rfl⟩ <;> exact ⟨_, rfl⟩

theorem ordered : Ordered (fun c => [c]) [] story := by simp [story, Ordered]
theorem known : ∀ c, GenEvent.decorate c ∈ story → (subs.cls c).isSome := by
  intro c h
  simp only [story, List.mem_cons, List.not_mem_nil, or_false, GenEvent.decorate.injEq, reduceCtorEq, false_or] at h
  rcases h with rfl | rfl <;> rfl
theorem allDecorated : AllDecorated subs story := by
  intro c cd h
  rcases cls_subs h with ⟨rfl, rfl⟩ | ⟨rfl, rfl⟩ <;> simp [story]

/-- The subclass is read with its own functions, although its base class was decorated first. -/
example : fromDictH subs (fun c => [c]) (Gen.run subs (fun c => [c]) {} story) {} 9 (.cls "Sub") (.dict .plain [(.str "n", .int 1), (.str "m", .int 2)]) =
    .ok (.inst "Sub" [("n", .int 1), ("m", .int 2)]) := by
  rw [((C71_decorated_partial selfFirst ordered allDecorated known).1 _ _ _ _ ?_).1]
  · rfl
  · intro c hu
    cases hu with
    | here => rfl
    | part hp hu =>
      cases hp with
      | field hc hf _ =>
        rcases cls_subs hc with ⟨h, _⟩ | ⟨_, rfl⟩
        · simp at h
        · simp only [sub, List.mem_cons, List.not_mem_nil, or_false] at hf
          rcases hf with rfl | rfl <;> (cases hu with | part hp _ => cases hp)

/-- Before the subclass is decorated it is said to be serializable. -/
example : (Gen.run subs (fun c => [c]) {} [.decorate "Base"]).able subs (.cls "Sub") = true :=
  (C84_defined_partial selfFirst (h := [.decorate "Base"]) (by simp [Ordered]) (by simp [subs, Env.cls, Ex.mk]) (cd := sub) rfl
    (by simp [sub, subs, Env.cls, Ex.mk])).2.2 ⟨"Base", by simp [sub], by simp⟩

end C71Deco

end Verif.Props
