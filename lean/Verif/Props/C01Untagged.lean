import Verif.Props.C01
/-!
# C01-C04: unions of dataclasses without tags

The round-trip theorems also cover `@serde(tagging=Untagged)` classes, as long as every dataclass of a union needs a key that the later ones do
not have (`KeyApart` in `Spec/RoundTrip.lean`).  Here is such a class; `C01_false_untagged` in `Findings/RoundTrip.lean` shows what happens otherwise.
-/

namespace Verif.Props
open Spec

namespace C01Untagged

/-- `class Circle: radius: int`. -/
def Circle : ClassDef := { name := "Circle", mro := ["Circle"], fields := [{ name := "radius", ty := .prim .int }] }
/-- `class Square: side: int; name: str`. -/
def Square : ClassDef := { name := "Square", mro := ["Square"], fields := [{ name := "side", ty := .prim .int }, { name := "name", ty := .prim .str }] }
def shape : Ty := .union [.cls "Circle", .cls "Square", .prim .int]
/-- `@serde(tagging=Untagged) class Doc: main: Union[Circle, Square, int]; all: list[Union[Circle, Square, int]]`. -/
def Doc : ClassDef := { name := "Doc", mro := ["Doc"], tagging := .untagged, fields := [{ name := "main", ty := shape }, { name := "all", ty := .list .list shape }] }
def env : Env := { W := Ex.WT, P := Ex.P, classes := [("Circle", Circle), ("Square", Square), ("Doc", Doc)], enums := [] }

theorem env_cases {c : ClassId} {cd : ClassDef} (h : env.cls c = some cd) : (c = "Circle" ∧ cd = Circle) ∨ (c = "Square" ∧ cd = Square) ∨ (c = "Doc" ∧ cd = Doc) := by
  simp only [env, Env.cls, List.lookup] at h
  split at h
  · rename_i h'; cases h; exact .inl ⟨by simpa using h', rfl⟩
  · split at h
    · rename_i h'; cases h; exact .inr (.inl ⟨by simpa using h', rfl⟩)
    · split at h
      · rename_i h'; cases h; exact .inr (.inr ⟨by simpa using h', rfl⟩)
      · cases h

theorem radius : Needed { name := "radius", ty := .prim .int } := ⟨⟨rfl, rfl, rfl⟩, rfl, rfl, rfl, rfl, rfl, fun _ h => by cases h⟩
theorem side : Needed { name := "side", ty := .prim .int } := ⟨⟨rfl, rfl, rfl⟩, rfl, rfl, rfl, rfl, rfl, fun _ h => by cases h⟩

theorem keys : [Ty.cls "Circle", .cls "Square", .prim .int].Pairwise (KeyApart env) := by
  have circle : ∀ u ∈ [Ty.cls "Square", .prim .int], KeyApart env (.cls "Circle") u := by
    intro u hu c cd hc hcd
    cases hc
    cases hcd
    refine ⟨fun c' cd' h h' => .inr ?_, fun _ => ⟨_, _, rfl, radius⟩⟩
    subst h
    simp only [List.mem_cons, List.not_mem_nil, or_false] at hu
    rcases hu with hu | hu
    · cases hu
      cases h'
      exact ⟨[], _, [], rfl, radius, by decide, by simp⟩
    · cases hu
  have square : KeyApart env (.cls "Square") (.prim .int) := by
    intro c cd hc hcd
    cases hc
    cases hcd
    exact ⟨fun c' cd' h => (by cases h), fun _ => ⟨_, _, rfl, side⟩⟩
  exact .cons circle (.cons (by simpa using square) (.cons (by simp) .nil))

theorem shapeOk (F : Fmt env) (named : Bool) : TyOk env F (scopeOf env named "Doc" Doc) shape := by
  refine .union rfl ?_ ?_ ?_ ?_ (fun c cd _ _ => keys) rfl
  · intro t ht
    simp only [List.mem_cons, List.not_mem_nil, or_false] at ht
    rcases ht with rfl | rfl | rfl
    · exact .cls (cd := Circle) rfl rfl
    · exact .cls (cd := Square) rfl rfl
    · exact .prim
  · intro t ht
    simp only [List.mem_cons, List.not_mem_nil, or_false] at ht
    rcases ht with rfl | rfl | rfl
    · exact .cls (cd := Circle) rfl
    · exact .cls (cd := Square) rfl
    · exact .scalar .prim
  · refine .cons ?_ (.cons ?_ (.cons (by simp) .nil)) <;> intro u hu <;> simp only [List.mem_cons, List.not_mem_nil, or_false] at hu
    · rcases hu with rfl | rfl <;> exact .inl rfl
    · subst hu; exact .inl rfl
  · intro c cd c' cd' h h' hc hc' hn
    rcases env_cases hc with ⟨rfl, rfl⟩ | ⟨rfl, rfl⟩ | ⟨rfl, rfl⟩ <;> rcases env_cases hc' with ⟨rfl, rfl⟩ | ⟨rfl, rfl⟩ | ⟨rfl, rfl⟩ <;>
      first | rfl | (simp [Circle, Square, Doc] at hn; done) | (simp at h; done) | (simp at h'; done)

theorem circleOk (F : Fmt env) : ClassOk env F "Circle" Circle where
  fields := by
    intro f hf
    simp only [Circle, List.mem_cons, List.not_mem_nil, or_false] at hf
    subst hf
    exact .plain ⟨rfl, ⟨rfl, rfl, rfl⟩, .inl rfl, rfl, ⟨rfl, rfl⟩, rfl⟩ (.never ⟨rfl, rfl, rfl, rfl⟩ (fun _ h => by cases h))
  names := by decide
  wires := by decide
  types := by
    intro f hf named _
    simp only [Circle, List.mem_cons, List.not_mem_nil, or_false] at hf
    subst hf
    exact .scalar .prim
  notTransparent := rfl
  noHook := by intro p h; cases h
  noClassCustom := ⟨rfl, rfl⟩
  mroSelf := by simp [Circle]
  kwLast := by simp [Circle]
  kwTuple := by
    intro _ f hf
    simp only [Circle, List.mem_cons, List.not_mem_nil, or_false] at hf
    subst hf
    exact ⟨rfl, rfl⟩

theorem squareOk (F : Fmt env) : ClassOk env F "Square" Square where
  fields := by
    intro f hf
    simp only [Square, List.mem_cons, List.not_mem_nil, or_false] at hf
    rcases hf with rfl | rfl <;>
      exact .plain ⟨rfl, ⟨rfl, rfl, rfl⟩, .inl rfl, rfl, ⟨rfl, rfl⟩, rfl⟩ (.never ⟨rfl, rfl, rfl, rfl⟩ (fun _ h => by cases h))
  names := by decide
  wires := by decide
  types := by
    intro f hf named _
    simp only [Square, List.mem_cons, List.not_mem_nil, or_false] at hf
    rcases hf with rfl | rfl <;> exact .scalar .prim
  notTransparent := rfl
  noHook := by intro p h; cases h
  noClassCustom := ⟨rfl, rfl⟩
  mroSelf := by simp [Square]
  kwLast := by simp [Square]
  kwTuple := by
    intro _ f hf
    simp only [Square, List.mem_cons, List.not_mem_nil, or_false] at hf
    rcases hf with rfl | rfl <;> exact ⟨rfl, rfl⟩

theorem docOk (F : Fmt env) : ClassOk env F "Doc" Doc where
  fields := by
    intro f hf
    have hno : ¬ HasTy env shape .none := by
      intro h
      cases h with | union hm h =>
      simp only [List.mem_cons, List.not_mem_nil, or_false] at hm
      rcases hm with rfl | rfl | rfl <;> cases h
    simp only [Doc, List.mem_cons, List.not_mem_nil, or_false] at hf
    rcases hf with rfl | rfl
    · exact .plain ⟨rfl, ⟨rfl, rfl, rfl⟩, .inl rfl, rfl, ⟨rfl, rfl⟩, rfl⟩ (.never ⟨rfl, rfl, rfl, rfl⟩ (fun _ h => absurd h hno))
    · exact .plain ⟨rfl, ⟨rfl, rfl, rfl⟩, .inl rfl, rfl, ⟨rfl, rfl⟩, rfl⟩ (.never ⟨rfl, rfl, rfl, rfl⟩ (fun _ h => by cases h))
  names := by decide
  wires := by decide
  types := by
    intro f hf named _
    simp only [Doc, List.mem_cons, List.not_mem_nil, or_false] at hf
    rcases hf with rfl | rfl
    · exact shapeOk F named
    · exact .list (shapeOk F named)
  notTransparent := rfl
  noHook := by intro p h; cases h
  noClassCustom := ⟨rfl, rfl⟩
  mroSelf := by simp [Doc]
  kwLast := by simp [Doc]
  kwTuple := by
    intro _ f hf
    simp only [Doc, List.mem_cons, List.not_mem_nil, or_false] at hf
    rcases hf with rfl | rfl <;> exact ⟨rfl, rfl⟩

theorem envOk (F : Fmt env) : EnvOk env F where
  classes := by
    intro c cd hc _
    rcases env_cases hc with ⟨rfl, rfl⟩ | ⟨rfl, rfl⟩ | ⟨rfl, rfl⟩
    · exact circleOk F
    · exact squareOk F
    · exact docOk F
  wrappers := by
    intro c cd hc ht
    rcases env_cases hc with ⟨rfl, rfl⟩ | ⟨rfl, rfl⟩ | ⟨rfl, rfl⟩ <;> cases ht
  noGlobal := ⟨rfl, rfl⟩

def circle : Val := .inst "Circle" [("radius", .int 3)]
def square : Val := .inst "Square" [("side", .int 4), ("name", .str "s")]
def doc : Val := .inst "Doc" [("main", square), ("all", .list [circle, square, .int 7])]

theorem doc_ty : HasTy env (.cls "Doc") doc := by
  have hci : HasTy env shape circle := by
    refine .union (t := .cls "Circle") (by simp) (.inst (cd := Circle) rfl rfl ?_)
    intro p hp
    simp only [Circle, List.zip_cons_cons, List.zip_nil_right, List.mem_cons, List.not_mem_nil, or_false] at hp
    subst hp; exact .int
  have hsq : HasTy env shape square := by
    refine .union (t := .cls "Square") (by simp) (.inst (cd := Square) rfl rfl ?_)
    intro p hp
    simp only [Square, List.zip_cons_cons, List.zip_nil_right, List.mem_cons, List.not_mem_nil, or_false] at hp
    rcases hp with rfl | rfl
    · exact .int
    · exact .str
  refine .inst (cd := Doc) rfl rfl ?_
  intro p hp
  simp only [Doc, List.zip_cons_cons, List.zip_nil_right, List.mem_cons, List.not_mem_nil, or_false] at hp
  rcases hp with rfl | rfl
  · exact hsq
  · refine .list ?_
    intro x hx
    simp only [List.mem_cons, List.not_mem_nil, or_false] at hx
    rcases hx with rfl | rfl | rfl
    · exact hci
    · exact hsq
    · exact .union (t := .prim .int) (by simp) .int

example : ∃ w, Ev (fun n => toDict env {} n doc = .ok w ∧ fromDict env {} n (.cls "Doc") w = .ok doc) :=
  C01_default_options_partial (cd := Doc) rfl (envOk _) doc_ty
example : toDict env {} 9 doc = .ok (.dict .plain [(.str "main", .dict .plain [(.str "side", .int 4), (.str "name", .str "s")]),
    (.str "all", .list [.dict .plain [(.str "radius", .int 3)], .dict .plain [(.str "side", .int 4), (.str "name", .str "s")], .int 7])]) := rfl
example : ∃ w, Ev (fun n => toTuple env {} n doc = .ok w ∧ fromTuple env {} n (.cls "Doc") w = .ok doc) :=
  C02_tuple_round_trip_partial (cd := Doc) (so := {}) (o := {}) rfl rfl rfl id (envOk _) doc_ty
example (sn : Bool) : ∃ (K : Codec) (s : String), Ev (fun n => toJson env K { skipNone := sn } n doc = .ok s ∧ fromJson env K n (.cls "Doc") s = .ok doc) := by
  obtain ⟨w, _, hw⟩ := C03_json_round_trip_partial (env := env) (cn := true) (sn := sn) (cd := Doc) rfl Ex.numText (envOk _) doc_ty
  exact ⟨_, hw ⟨fun _ => .ok "text", fun _ => .ok (jsonWire Ex.WT w)⟩ ⟨_, rfl, rfl⟩⟩
example (named : Bool) : ∃ (K : MpCodec) (s : String), Ev (fun n => toMsgpack env K { named := named } n doc = .ok s ∧ fromMsgpack env K named n (.cls "Doc") s = .ok doc) := by
  obtain ⟨w, _, hw⟩ := C04_msgpack_round_trip_partial (env := env) (named := named) (cd := Doc) rfl (envOk _) doc_ty
  exact ⟨_, hw ⟨fun _ => .ok "bytes", fun _ _ => .error .value, fun _ => .ok (.val (mpWire w))⟩ ⟨_, rfl, rfl⟩⟩

end C01Untagged

end Verif.Props
