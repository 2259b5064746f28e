import Verif.Lemmas.Safe
import Verif.Model.Formats
import Verif.Examples.Lookup
/-!
# C37: convert_sets; C38: JSON-safe output

C37: "With convert_sets=True the serialized form contains no set or frozenset anywhere (inside declared types)."

C38: "What to_json hands to the JSON encoder consists only of None, bools, numbers, strings, lists, tuples and dicts, for every well-typed
instance."

Both are proved for instances whose attributes conform to their declared types at any depth (`Fits`), including flattened fields, unions,
subclasses, recursive classes and class or global serializers whose results are acceptable. `Fits` asks more than conformance in four places,
because there the properties fail (witnesses below): values of `Any` fields are serialized without `convert_sets` (a dataclass with a set inside
`Any`), bare containers and literals are copied, enum members inside `Any` are copied, and unions of containers look at the first
element only.
-/

namespace Verif.Props
open Verif Spec

theorem shape_noSet : Shape NoSet where
  scalar v h := .scalar h
  list xs := ⟨fun h => by cases h with | scalar h => cases h | list h => exact h, .list⟩
  tuple xs := ⟨fun h => by cases h with | scalar h => cases h | tuple h => exact h, .tuple⟩
  dict k kvs := ⟨fun h => by cases h with | scalar h => cases h | dict h h' => exact ⟨h, h'⟩, fun h => .dict h.1 h.2⟩
  deque xs h := by cases h with | scalar h => cases h | deque h => exact h
  set b xs h := by cases h with | scalar h => cases h

theorem shape_json : Shape JsonSafe where
  scalar v h := .scalar h
  list xs := ⟨fun h => by cases h with | scalar h => cases h | list h => exact h, .list⟩
  tuple xs := ⟨fun h => by cases h with | scalar h => cases h | tuple h => exact h, .tuple⟩
  dict k kvs := ⟨fun h => by cases h with | scalar h => cases h | dict h h' => exact ⟨h, h'⟩, fun h => .dict h.1 h.2⟩
  deque xs h := by cases h with | scalar h => cases h
  set b xs h := by cases h with | scalar h => cases h

/-- **C37** for `to_dict`. -/
theorem C37_to_dict_partial {env : Env} {o : SeOpts} {n v w} (hs : SersOk env NoSet) (he : EnumsOk env NoSet) (hcv : o.conv = some true)
    (hc : o.c = none ∨ ∃ c, o.c = some (.cls c)) (hv : Free env NoSet o.reuse (some true) v) (h : toDict env o n v = .ok w) : NoSet w :=
  (good_at shape_noSet he hs n).toObj _ _ _ _ _ _ _ _ (by rcases hc with hc | hc; exact .inl hc; exact .inr (.inr hc)) hv (by rw [← hcv]; exact h)

/-- **C37** for `to_tuple`. -/
theorem C37_to_tuple_partial {env : Env} {o : SeOpts} {n v w} (hs : SersOk env NoSet) (he : EnumsOk env NoSet) (hcv : o.conv = some true)
    (hc : o.c = none ∨ ∃ c, o.c = some (.cls c)) (hv : Free env NoSet o.reuse (some true) v) (h : toTuple env o n v = .ok w) : NoSet w :=
  (good_at shape_noSet he hs n).toObj _ _ _ _ _ _ _ _ (by rcases hc with hc | hc; exact .inl hc; exact .inr (.inr hc)) hv (by rw [← hcv]; exact h)

/-- **C38** With its default options `to_json` hands only JSON-safe data to the encoder. -/
theorem C38_json_safe_partial {env : Env} {K : Codec} {o : FmtOpts} {n v s} (hs : SersOk env JsonSafe) (he : EnumsOk env JsonSafe)
    (hre : o.reuse = false) (hcv : o.conv = true) (hc : o.c = none ∨ ∃ c, o.c = some (.cls c)) (hv : Free env JsonSafe (some false) (some true) v)
    (h : toJson env K o n v = .ok s) : ∃ w, toDict env o.se n v = .ok w ∧ K.enc w = .ok s ∧ JsonSafe w := by
  unfold toJson encodeDict at h
  split at h
  · rename_i w hw
    refine ⟨w, hw, liftP_ok h, ?_⟩
    refine (good_at shape_json he hs n).toObj true o.se.reuse o.se.conv o.se.skipNone o.se.c o.se.tagging v w ?_ ?_ hw
    · rcases hc with hc | hc
      · exact .inl hc
      · exact .inr (.inr hc)
    · show Free env JsonSafe (some o.reuse) (some o.conv) v
      rw [hre, hcv]; exact hv
  · cases h

/-! ## Examples and witnesses -/

namespace C37Ex
def Fd : FieldDef := { name := "s", ty := .set .frozen (.prim .int) }
def cdS : ClassDef := { name := "S", mro := ["S"], fields := [Fd] }
def cdT : ClassDef := { name := "T", mro := ["T"], fields := [
  { name := "d", ty := .union [.dt .date, .none] }, { name := "u", ty := .union [.cls "S", .list .list (.std "UUID"), .prim .str] },
  { name := "e", ty := .enum "E" }, { name := "m", ty := .dict .dict (.prim .str) (.set .set (.cls "S")) }, { name := "a", ty := .any }] }
def cdA : ClassDef := { name := "A", mro := ["A"], fields := [{ name := "x", ty := .any }] }
def cdL : ClassDef := { name := "L", mro := ["L"], fields := [{ name := "x", ty := .listB .list }, { name := "y", ty := .lit [.enum "E" "P"] }] }
def cdU : ClassDef := { name := "U", mro := ["U"], fields := [
  { name := "x", ty := .union [.list .list (.prim .int), .list .list (.union [.prim .int, .set .set (.prim .int)])] }] }
def env : Env := { Ex.mk [("S", cdS), ("T", cdT), ("A", cdA), ("L", cdL), ("U", cdU)] with enums := [("E", { name := "E", members := [("P", .int 1)] })] }
def s : Val := .inst "S" [("s", .set true [.int 1])]
def t : Val := .inst "T" [("d", .dt .date "2020-01-01"), ("u", s), ("e", .enum "E" "P"), ("m", .dict .plain [(.str "k", .set true [s])]), ("a", .list [.int 1])]

theorem sers {G} : SersOk env G where
  global s hs := by simp [env, Ex.mk] at hs
  cls c cd s hc hs := by
    have : ∀ p ∈ env.classes, p.2.classSer = none := by simp [env, Ex.mk, cdS, cdT, cdA, cdL, cdU]
    have := this (c, cd) (mem_of_lookup' hc)
    rw [hs] at this; cases this
  field c cd f g hc hf hs := by
    have : ∀ p ∈ env.classes, ∀ f ∈ p.2.fields, f.serializer = none := by simp [env, Ex.mk, cdS, cdT, cdA, cdL, cdU, Fd]
    have := this (c, cd) (mem_of_lookup' hc) f hf
    rw [hs] at this; cases this

theorem enums {G : Val → Prop} (h : G (.int 1)) : EnumsOk env G := by
  intro e d m w he hm _
  have : ∀ p ∈ env.enums, ∀ q ∈ p.2.members, q.2 = .int 1 := by simp [env]
  have : w = .int 1 := this (e, d) (mem_of_lookup' he) (m, w) hm
  rw [this]; exact h

theorem fits_s {G re} : FitsObj env G re (some true) s := by
  refine .mk (cd := cdS) rfl (fun f hf _ _ _ x hx => ?_)
  simp only [cdS, List.mem_singleton] at hf
  subst hf
  cases hx
  exact .plain (.set rfl .set (by intro x hx; simp only [List.mem_singleton] at hx; subst hx; exact .prim .int))

theorem fits_t {G : Val → Prop} : FitsObj env G (some false) (some true) t := by
  refine .mk (cd := cdT) rfl (fun f hf _ _ _ x hx => ?_)
  simp only [cdT, List.mem_cons, List.not_mem_nil, or_false] at hf
  rcases hf with rfl | rfl | rfl | rfl | rfl <;> cases hx <;> refine .plain ?_
  · exact .optSome (by simp) (.dt (by simp))
  · refine .union rfl (by rintro c as h; cases h; rfl) ?_ ?_
    · intro us hus hn
      have := unionsOf_iff.2 hus
      have e : env.unionsOf "T" = [[.dt .date, .none], [.cls "S", .list .list (.std "UUID"), .prim .str]] := rfl
      rw [e] at this
      simp only [List.mem_cons, List.not_mem_nil, or_false] at this
      rcases this with rfl | rfl
      · exact absurd hn (by decide)
      · rfl
    · intro t ht hno
      simp only [List.mem_cons, List.not_mem_nil, or_false] at ht
      rcases ht with rfl | rfl | rfl
      · exact .cls fits_s
      · exact absurd (.inr (.list (by simp [s]) (by simp [s]) (by simp [s]))) hno
      · exact absurd (.inl ⟨.prim, by rintro ⟨⟩⟩) hno
  · exact .enum
  · refine .dict (by simp only [List.mem_singleton]; rintro e rfl; exact .prim .str) ?_
    simp only [List.mem_singleton]
    rintro e rfl
    exact .set rfl .set (by simp only [List.mem_singleton]; rintro x rfl; exact .cls fits_s)
  · exact .any (.items .list (by simp only [List.mem_singleton]; rintro x rfl; exact .scalar .int))

/-- What `to_dict` makes of `t`. -/
def out : Val := .dict .plain [(.str "d", .str "2020-01-01"), (.str "u", .dict .plain [(.str "S", .dict .plain [(.str "s", .list [.int 1])])]), (.str "e", .int 1),
  (.str "m", .dict .plain [(.str "k", .list [.dict .plain [(.str "s", .list [.int 1])]])]), (.str "a", .list [.int 1])]
end C37Ex

example : NoSet C37Ex.out :=
  C37_to_dict_partial (env := C37Ex.env) (o := { reuse := some false, conv := some true }) (n := 20) (v := C37Ex.t) C37Ex.sers (C37Ex.enums (.scalar .int)) rfl (.inl rfl)
    (.obj C37Ex.fits_t) rfl

example : NoSet (.tuple [.str "2020-01-01", .dict .plain [(.str "S", .dict .plain [(.str "s", .list [.int 1])])], .int 1,
    .dict .plain [(.str "k", .list [.tuple [.list [.int 1]]])], .list [.int 1]]) :=
  C37_to_tuple_partial (env := C37Ex.env) (o := { reuse := some false, conv := some true }) (n := 20) (v := C37Ex.t) C37Ex.sers (C37Ex.enums (.scalar .int)) rfl (.inl rfl)
    (.obj C37Ex.fits_t) rfl

example : ∃ w, toDict C37Ex.env ({} : FmtOpts).se 20 C37Ex.t = .ok w ∧ Except.ok (ε := PErr) "text" = .ok "text" ∧ JsonSafe w :=
  C38_json_safe_partial (env := C37Ex.env) (K := ⟨fun _ => .ok "text", fun _ => .error .value⟩) (o := {}) (n := 20) (v := C37Ex.t) (s := "text") C37Ex.sers
    (C37Ex.enums (.scalar .int)) rfl rfl (.inl rfl) (.obj C37Ex.fits_t) rfl

/-- A dataclass with a set field inside an `Any` field keeps its set even with `convert_sets=True`. -/
theorem C37_false_any :
    toDict C37Ex.env { conv := some true } 20 (.inst "A" [("x", C37Ex.s)]) =
        .ok (.dict .plain [(.str "x", .dict .plain [(.str "s", .set false [.int 1])])]) ∧
      ¬ NoSet (.dict .plain [(.str "x", .dict .plain [(.str "s", .set false [.int 1])])]) := by
  refine ⟨rfl, fun h => ?_⟩
  have h1 := ((shape_noSet.dict _ _).1 h).2 _ (List.mem_singleton.2 rfl)
  have h2 := ((shape_noSet.dict _ _).1 h1).2 _ (List.mem_singleton.2 rfl)
  cases h2 with
  | scalar h => cases h

/-- A union of list types is decided by the first element: `[1, {2}]` is written as a `list[int]`, the set inside as it is. -/
theorem C37_false_first_element :
    toDict C37Ex.env { conv := some true } 20 (.inst "U" [("x", .list [.int 1, .set false [.int 2]])]) =
        .ok (.dict .plain [(.str "x", .list [.int 1, .set false [.int 2]])]) ∧
      ¬ NoSet (.dict .plain [(.str "x", .list [.int 1, .set false [.int 2]])]) := by
  refine ⟨rfl, fun h => ?_⟩
  have h1 := ((shape_noSet.dict _ _).1 h).2 _ (List.mem_singleton.2 rfl)
  have h2 := (shape_noSet.list _).1 h1 (.set false [.int 2]) (by simp)
  cases h2 with
  | scalar h => cases h

/-- `to_json` hands a set to the encoder when it sits in a dataclass inside an `Any` field. -/
theorem C38_false_any :
    toDict C37Ex.env ({} : FmtOpts).se 20 (.inst "A" [("x", C37Ex.s)]) = .ok (.dict .plain [(.str "x", .dict .plain [(.str "s", .set false [.int 1])])]) ∧
      ¬ JsonSafe (.dict .plain [(.str "x", .dict .plain [(.str "s", .set false [.int 1])])]) := by
  refine ⟨rfl, fun h => ?_⟩
  have h1 := ((shape_json.dict _ _).1 h).2 _ (List.mem_singleton.2 rfl)
  have h2 := ((shape_json.dict _ _).1 h1).2 _ (List.mem_singleton.2 rfl)
  cases h2 with
  | scalar h => cases h

/-- `to_json` hands an enum member to the encoder when it sits in an `Any` field. -/
theorem C38_false_any_enum :
    toDict C37Ex.env ({} : FmtOpts).se 20 (.inst "A" [("x", .enum "E" "P")]) = .ok (.dict .plain [(.str "x", .enum "E" "P")]) ∧
      ¬ JsonSafe (.dict .plain [(.str "x", .enum "E" "P")]) := by
  refine ⟨rfl, fun h => ?_⟩
  have h1 := ((shape_json.dict _ _).1 h).2 _ (List.mem_singleton.2 rfl)
  cases h1 with
  | scalar h => cases h

/-- Literals of enum members and the contents of bare containers are handed over as they are. -/
theorem C38_false_copied :
    toDict C37Ex.env ({} : FmtOpts).se 20 (.inst "L" [("x", .list [.dt .date "2020-01-01"]), ("y", .enum "E" "P")]) =
        .ok (.dict .plain [(.str "x", .list [.dt .date "2020-01-01"]), (.str "y", .enum "E" "P")]) ∧
      ¬ JsonSafe (.list [.dt .date "2020-01-01"]) ∧ ¬ JsonSafe (.enum "E" "P") := by
  refine ⟨rfl, fun h => ?_, fun h => ?_⟩
  · have := (shape_json.list _).1 h _ (List.mem_singleton.2 rfl)
    cases this with
    | scalar h => cases h
  · cases h with
    | scalar h => cases h

end Verif.Props
