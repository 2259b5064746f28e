import Verif.Lemmas.RTTop
import Verif.Examples.Shapes
/-!
# C01-C04: round trips

`EnvOk env F` says that the classes in use are covered: their field types are `TyOk` (see `Spec/RoundTrip.lean`), their options
leave both directions symmetric.  `F` describes the options and the transport.  `Ev` means: for all sufficiently large recursion
budgets.  What is missing for the unrestricted properties is listed in DESIGN.md; `Findings/RoundTrip.lean` shows that they are
false without restrictions.
-/

namespace Verif.Props
open Spec

/-- **C01** `from_dict(C, to_dict(obj)) == obj`, for all option combinations that keep dates as they are only if the reader is told so too. -/
theorem C01_dict_round_trip_partial {env : Env} {so : SeOpts} {o : DeOpts} {c} {cd : ClassDef} {v} (hc : env.cls c = some cd)
    (hs : so.c = none) (hn : o.numbers = none)
    (hre : so.reuse.getD cd.reuseDflt = true → o.reuse.getD cd.reuseDflt = true)
    (hok : EnvOk env (rawFmt env true (so.reuse.getD cd.reuseDflt) (so.conv.getD cd.convDflt) (o.reuse.getD cd.reuseDflt) hre so.skipNone))
    (hv : HasTy env (.cls c) v) :
    ∃ w, Ev (fun n => toDict env so n v = .ok w ∧ fromDict env o n (.cls c) w = .ok v) := by
  obtain ⟨w, h1, h2⟩ := top_named hok hc hv
  exact ⟨w, (h1.and h2).mono fun n h => ⟨h.1 so hs rfl rfl rfl, h.2 o rfl hn⟩⟩

/-- **C01** with default options on both sides. -/
theorem C01_default_options_partial {env : Env} {c} {cd : ClassDef} {v} (hc : env.cls c = some cd)
    (hok : EnvOk env (rawFmt env true cd.reuseDflt cd.convDflt cd.reuseDflt id)) (hv : HasTy env (.cls c) v) :
    ∃ w, Ev (fun n => toDict env {} n v = .ok w ∧ fromDict env {} n (.cls c) w = .ok v) :=
  C01_dict_round_trip_partial (so := {}) (o := {}) hc rfl rfl id hok hv

example : ∃ w, Ev (fun n => toDict Ex.shapes {} n Ex.tree = .ok w ∧ fromDict Ex.shapes {} n (.cls "Tree") w = .ok Ex.tree) :=
  C01_default_options_partial (cd := Ex.Tree) rfl (Ex.shapesOk _) Ex.tree_ty

namespace C01Ex

/-- `@serde(transparent=True) class Ids: items: list[int] = field(default_factory=list, skip_if_false=True)`. -/
def Ids : ClassDef := { name := "Ids", mro := ["Ids"], transparent := true, fields := [{ name := "items", ty := .list .list (.prim .int), dflt := some (.list []), skipIfFalse := true }] }
/-- `class Doc: main: Ids; other: Optional[Ids]; by: dict[str, Ids]`. -/
def Doc : ClassDef := { name := "Doc", mro := ["Doc"], fields := [{ name := "main", ty := .cls "Ids" }, { name := "other", ty := .union [.cls "Ids", .none] },
  { name := "by", ty := .dict .dict (.prim .str) (.cls "Ids") }] }
def env : Env := Ex.mk [("Ids", Ids), ("Doc", Doc)]

theorem env_cases {c : ClassId} {cd : ClassDef} (h : env.cls c = some cd) : (c = "Ids" ∧ cd = Ids) ∨ (c = "Doc" ∧ cd = Doc) := by
  simp only [env, Ex.mk, Env.cls, List.lookup] at h
  split at h
  · rename_i h'; cases h; exact .inl ⟨by simpa using h', rfl⟩
  · split at h
    · rename_i h'; cases h; exact .inr ⟨by simpa using h', rfl⟩
    · cases h

theorem idsOk (F : Fmt env) : WrapOk env F "Ids" Ids { name := "items", ty := .list .list (.prim .int), dflt := some (.list []), skipIfFalse := true } where
  only := rfl
  init := rfl
  noSkip := ⟨rfl, rfl, rfl⟩
  noFlatten := rfl
  noCustom := ⟨rfl, rfl⟩
  type := fun _ _ => .list (.scalar .prim)
  notNone := fun h => (by cases h)
  noHook := by intro p h; cases h
  noClassCustom := ⟨rfl, rfl⟩
  mroSelf := by simp [Ids]

theorem docOk (F : Fmt env) : ClassOk env F "Doc" Doc where
  fields := by
    intro f hf
    simp only [Doc, List.mem_cons, List.not_mem_nil, or_false] at hf
    rcases hf with rfl | rfl | rfl
    · exact .plain ⟨rfl, ⟨rfl, rfl, rfl⟩, .inl rfl, rfl, ⟨rfl, rfl⟩, rfl⟩ (.never ⟨rfl, rfl, rfl, rfl⟩ (fun _ h => by cases h))
    · exact .plain ⟨rfl, ⟨rfl, rfl, rfl⟩, .inl rfl, rfl, ⟨rfl, rfl⟩, rfl⟩
        (.never ⟨rfl, rfl, rfl, rfl⟩ (fun _ _ => ⟨rfl, .inr ⟨rfl, .inr ⟨_, rfl, by simp⟩⟩⟩))
    · exact .plain ⟨rfl, ⟨rfl, rfl, rfl⟩, .inl rfl, rfl, ⟨rfl, rfl⟩, rfl⟩ (.never ⟨rfl, rfl, rfl, rfl⟩ (fun _ h => by cases h))
  names := by decide
  wires := by decide
  types := by
    intro f hf named _
    simp only [Doc, List.mem_cons, List.not_mem_nil, or_false] at hf
    rcases hf with rfl | rfl | rfl
    · exact .cls (cd := Ids) rfl
    · exact .opt (by intro h; cases h) (.cls (cd := Ids) rfl)
    · exact .dict .str (.cls (cd := Ids) rfl)
  notTransparent := rfl
  noHook := by intro p h; cases h
  noClassCustom := ⟨rfl, rfl⟩
  mroSelf := by simp [Doc]
  kwLast := by simp [Doc]
  kwTuple := by
    intro _ f hf
    simp only [Doc, List.mem_cons, List.not_mem_nil, or_false] at hf
    rcases hf with rfl | rfl | rfl <;> exact ⟨rfl, rfl⟩

theorem envOk (F : Fmt env) : EnvOk env F where
  classes := by
    intro c cd hc ht
    rcases env_cases hc with ⟨rfl, rfl⟩ | ⟨rfl, rfl⟩
    · cases ht
    · exact docOk F
  wrappers := by
    intro c cd hc ht
    rcases env_cases hc with ⟨rfl, rfl⟩ | ⟨rfl, rfl⟩
    · exact ⟨_, idsOk F⟩
    · cases ht
  noGlobal := ⟨rfl, rfl⟩

def ids (xs : List Val) : Val := .inst "Ids" [("items", .list xs)]
def doc : Val := .inst "Doc" [("main", ids [.int 1, .int 2]), ("other", ids []), ("by", .dict .plain [(.str "k", ids [.int 3])])]

theorem ids_ty {xs : List Val} (h : ∀ x ∈ xs, HasTy env (.prim .int) x) : HasTy env (.cls "Ids") (ids xs) := by
  refine .inst (cd := Ids) rfl rfl ?_
  intro p hp
  simp only [Ids, List.zip_cons_cons, List.zip_nil_right, List.mem_cons, List.not_mem_nil, or_false] at hp
  rw [hp]
  exact .list h

theorem doc_ty : HasTy env (.cls "Doc") doc := by
  refine .inst (cd := Doc) rfl rfl ?_
  intro p hp
  simp only [Doc, List.zip_cons_cons, List.zip_nil_right, List.mem_cons, List.not_mem_nil, or_false] at hp
  rcases hp with rfl | rfl | rfl
  · exact ids_ty (by intro x hx; simp only [List.mem_cons, List.not_mem_nil, or_false] at hx; rcases hx with rfl | rfl <;> exact .int)
  · exact .union (t := .cls "Ids") (by simp) (ids_ty (by simp))
  · refine .dict (k := .dict) ?_ ?_ rfl (by simp [AllDistinct])
    · intro kv hkv; rw [List.mem_singleton.1 hkv]; exact .str
    · intro kv hkv; rw [List.mem_singleton.1 hkv]
      exact ids_ty (by intro x hx; rw [List.mem_singleton.1 hx]; exact .int)

/-- Transparent classes: as fields, under Optional, as values of a mapping, and at the top. -/
example : ∃ w, Ev (fun n => toDict env {} n doc = .ok w ∧ fromDict env {} n (.cls "Doc") w = .ok doc) :=
  C01_default_options_partial (cd := Doc) rfl (envOk _) doc_ty
example : toDict env {} 9 doc = .ok (.dict .plain [(.str "main", .list [.int 1, .int 2]), (.str "other", .list []),
    (.str "by", .dict .plain [(.str "k", .list [.int 3])])]) := rfl
example : ∃ w, Ev (fun n => toDict env {} n (ids [.int 1]) = .ok w ∧ fromDict env {} n (.cls "Ids") w = .ok (ids [.int 1])) :=
  C01_default_options_partial (cd := Ids) rfl (envOk _) (ids_ty (by intro x hx; rw [List.mem_singleton.1 hx]; exact .int))

end C01Ex

/-- **C02** `from_tuple(C, to_tuple(obj)) == obj`. -/
theorem C02_tuple_round_trip_partial {env : Env} {so : SeOpts} {o : DeOpts} {c} {cd : ClassDef} {v} (hc : env.cls c = some cd)
    (hs : so.c = none) (hn : o.numbers = none)
    (hre : so.reuse.getD cd.reuseDflt = true → o.reuse.getD cd.reuseDflt = true)
    (hok : EnvOk env (rawFmt env false (so.reuse.getD cd.reuseDflt) (so.conv.getD cd.convDflt) (o.reuse.getD cd.reuseDflt) hre so.skipNone))
    (hv : HasTy env (.cls c) v) :
    ∃ w, Ev (fun n => toTuple env so n v = .ok w ∧ fromTuple env o n (.cls c) w = .ok v) := by
  obtain ⟨w, h1, h2⟩ := top_tuple rfl hok hc hv
  exact ⟨w, (h1.and h2).mono fun n h => ⟨h.1 so hs rfl rfl rfl, h.2 o rfl hn⟩⟩

example : ∃ w, Ev (fun n => toTuple Ex.shapes {} n Ex.tree = .ok w ∧ fromTuple Ex.shapes {} n (.cls "Tree") w = .ok Ex.tree) :=
  C02_tuple_round_trip_partial (cd := Ex.Tree) (so := {}) (o := {}) rfl rfl rfl id (Ex.shapesOk _) Ex.tree_ty

namespace C02Ex

/-- `class Pt: x: int; tags: list[str]`. -/
def Pt : ClassDef := { name := "Pt", mro := ["Pt"], fields := [{ name := "x", ty := .prim .int }, { name := "tags", ty := .list .list (.prim .str) }] }
/-- `class Mark: label: str; at: Pt = field(flatten=True)`. -/
def Mark : ClassDef := { name := "Mark", mro := ["Mark"], fields := [{ name := "label", ty := .prim .str }, { name := "at", ty := .cls "Pt", flatten := true }] }
def env : Env := Ex.mk [("Pt", Pt), ("Mark", Mark)]

theorem env_cases {c : ClassId} {cd : ClassDef} (h : env.cls c = some cd) : (c = "Pt" ∧ cd = Pt) ∨ (c = "Mark" ∧ cd = Mark) := by
  simp only [env, Ex.mk, Env.cls, List.lookup] at h
  split at h
  · rename_i h'; cases h; exact .inl ⟨by simpa using h', rfl⟩
  · split at h
    · rename_i h'; cases h; exact .inr ⟨by simpa using h', rfl⟩
    · cases h

theorem pt_types (F : Fmt env) (S : Scope) : ∀ g ∈ Pt.fields, TyOk env F S g.ty := by
  intro f hf
  simp only [Pt, List.mem_cons, List.not_mem_nil, or_false] at hf
  rcases hf with rfl | rfl
  · exact .scalar .prim
  · exact .list (.scalar .prim)

theorem pt_plain : ∀ g ∈ Pt.fields, FieldPlain Pt g := by
  intro f hf
  simp only [Pt, List.mem_cons, List.not_mem_nil, or_false] at hf
  rcases hf with rfl | rfl <;> exact ⟨rfl, ⟨rfl, rfl, rfl⟩, .inl rfl, rfl, ⟨rfl, rfl⟩, rfl⟩

theorem ptOk (F : Fmt env) : ClassOk env F "Pt" Pt where
  fields := by
    intro f hf
    have hpl := pt_plain f hf
    simp only [Pt, List.mem_cons, List.not_mem_nil, or_false] at hf
    rcases hf with rfl | rfl
    · exact .plain hpl (.never ⟨rfl, rfl, rfl, rfl⟩ (fun _ h => by cases h))
    · exact .plain hpl (.never ⟨rfl, rfl, rfl, rfl⟩ (fun _ h => by cases h))
  names := by decide
  wires := by decide
  types := fun f hf named _ => pt_types F _ f hf
  notTransparent := rfl
  noHook := by intro p h; cases h
  noClassCustom := ⟨rfl, rfl⟩
  mroSelf := by simp [Pt]
  kwLast := by simp [Pt]
  kwTuple := by
    intro _ f hf
    simp only [Pt, List.mem_cons, List.not_mem_nil, or_false] at hf
    rcases hf with rfl | rfl <;> exact ⟨rfl, rfl⟩

theorem markOk (F : Fmt env) : ClassOk env F "Mark" Mark where
  fields := by
    intro f hf
    simp only [Mark, List.mem_cons, List.not_mem_nil, or_false] at hf
    rcases hf with rfl | rfl
    · exact .plain ⟨rfl, ⟨rfl, rfl, rfl⟩, .inl rfl, rfl, ⟨rfl, rfl⟩, rfl⟩ (.never ⟨rfl, rfl, rfl, rfl⟩ (fun _ h => by cases h))
    · refine .flat (ch := "Pt") (chd := Pt) ⟨⟨rfl, ⟨rfl, rfl, rfl⟩, ⟨rfl, rfl, rfl, rfl⟩, ⟨rfl, rfl, rfl, rfl⟩, rfl, rfl, rfl, rfl, .inr ⟨[{ name := "label", ty := .prim .str }], rfl⟩, pt_plain, ?_,
        rfl, (by intro h; cases h), by simp [Pt], fun _ => by simp [Pt]⟩, fun g hg => ⟨pt_types F _ g hg, .inr rfl⟩⟩
      intro g hg
      simp only [Pt, List.mem_cons, List.not_mem_nil, or_false] at hg
      rcases hg with rfl | rfl <;> rfl
  names := by decide
  wires := by decide
  types := by
    intro f hf named _
    simp only [Mark, List.mem_cons, List.not_mem_nil, or_false] at hf
    rcases hf with rfl | rfl
    · exact .scalar .prim
    · exact .cls (cd := Pt) rfl
  notTransparent := rfl
  noHook := by intro p h; cases h
  noClassCustom := ⟨rfl, rfl⟩
  mroSelf := by simp [Mark]
  kwLast := by simp [Mark]
  kwTuple := by
    intro _ f hf
    simp only [Mark, List.mem_cons, List.not_mem_nil, or_false] at hf
    rcases hf with rfl | rfl <;> exact ⟨rfl, rfl⟩

theorem envOk (F : Fmt env) : EnvOk env F where
  classes := by
    intro c cd hc _
    rcases env_cases hc with ⟨rfl, rfl⟩ | ⟨rfl, rfl⟩
    · exact ptOk F
    · exact markOk F
  wrappers := by
    intro c cd hc ht
    rcases env_cases hc with ⟨rfl, rfl⟩ | ⟨rfl, rfl⟩ <;> cases ht
  noGlobal := ⟨rfl, rfl⟩

def pt : Val := .inst "Pt" [("x", .int 3), ("tags", .list [.str "a"])]
def mark : Val := .inst "Mark" [("label", .str "m"), ("at", pt)]

theorem mark_ty : HasTy env (.cls "Mark") mark := by
  have hp : HasTy env (.cls "Pt") pt := by
    refine .inst (cd := Pt) rfl rfl ?_
    intro p hp
    simp only [Pt, List.zip_cons_cons, List.zip_nil_right, List.mem_cons, List.not_mem_nil, or_false] at hp
    rcases hp with rfl | rfl
    · exact .int
    · exact .list (by intro x hx; simp only [List.mem_cons, List.not_mem_nil, or_false] at hx; subst hx; exact .str)
  refine .inst (cd := Mark) rfl rfl ?_
  intro p hp
  simp only [Mark, List.zip_cons_cons, List.zip_nil_right, List.mem_cons, List.not_mem_nil, or_false] at hp
  rcases hp with rfl | rfl
  · exact .str
  · assumption

/-- A flattened dataclass at the end of the tuple. -/
example : ∃ w, Ev (fun n => toTuple env {} n mark = .ok w ∧ fromTuple env {} n (.cls "Mark") w = .ok mark) :=
  C02_tuple_round_trip_partial (cd := Mark) (so := {}) (o := {}) rfl rfl rfl id (envOk _) mark_ty
example : toTuple env {} 9 mark = .ok (.tuple [.str "m", .int 3, .list [.str "a"]]) := rfl

end C02Ex

/-- Encoding with a codec that is faithful on the serialized value. -/
theorem codec_round_trip {env : Env} {F : Fmt env} {so : SeOpts} {tg} {c} {cd : ClassDef} {v} (hc : env.cls c = some cd)
    (hs : so.c = none ∧ so.skipNone = F.skipNone) (h1 : so.reuse.getD cd.reuseDflt = F.reuse) (h2 : so.conv.getD cd.convDflt = F.conv)
    (h3 : F.deReuse = false) (hok : EnvOk env F) (hv : HasTy env (.cls c) v) :
    ∃ w, Ev (fun n => toDict env so n v = .ok w) ∧ (∀ K, FaithfulOn K F.wire w →
      ∃ s, Ev (fun n => encodeDict env K so n v = .ok s ∧ decodeDict env K F.numbers tg n (.cls c) s = .ok v)) := by
  obtain ⟨w, hw, hr⟩ := top_named hok hc hv
  refine ⟨w, hw.mono fun n h => h so hs.1 hs.2 h1 h2, fun K ⟨s, he, hd⟩ => ⟨s, (hw.and hr).mono fun n h => ⟨?_, ?_⟩⟩⟩
  · unfold encodeDict
    rw [h.1 so hs.1 hs.2 h1 h2]
    dsimp only
    rw [he]; rfl
  · unfold decodeDict
    rw [hd]
    exact h.2 { reuse := some false, numbers := F.numbers, tagging := tg } h3.symm rfl

/-- **C03** `from_json(C, to_json(obj)) == obj`: `w` is what `to_json` hands to the encoder, and the encoder is assumed to be faithful
on it (up to what JSON does to tuples and keys). With and without `skip_none`. -/
theorem C03_json_round_trip_partial {env : Env} {cn sn : Bool} {c} {cd : ClassDef} {v} (hc : env.cls c = some cd) (hnum : NumText env.W)
    (hok : EnvOk env (jsonFmt env hnum cn sn)) (hv : HasTy env (.cls c) v) :
    ∃ w, Ev (fun n => toDict env ({ skipNone := sn } : FmtOpts).se n v = .ok w) ∧ (∀ K, FaithfulOn K (jsonWire env.W) w →
      ∃ s, Ev (fun n => toJson env K { skipNone := sn } n v = .ok s ∧ fromJson env K n (.cls c) s cn = .ok v)) :=
  codec_round_trip (so := ({ skipNone := sn } : FmtOpts).se) hc ⟨rfl, rfl⟩ rfl rfl rfl hok hv

example (sn : Bool) : ∃ (K : Codec) (s : String), Ev (fun n => toJson Ex.shapes K { skipNone := sn } n Ex.tree = .ok s ∧
    fromJson Ex.shapes K n (.cls "Tree") s = .ok Ex.tree) := by
  obtain ⟨w, _, hw⟩ := C03_json_round_trip_partial (env := Ex.shapes) (cn := true) (sn := sn) (cd := Ex.Tree) rfl Ex.numText (Ex.shapesOk _) Ex.tree_ty
  exact ⟨_, hw ⟨fun _ => .ok "text", fun _ => .ok (jsonWire Ex.WT w)⟩ ⟨_, rfl, rfl⟩⟩

/-- **C04** `from_msgpack(C, to_msgpack(obj)) == obj`, dict based and array based. -/
theorem C04_msgpack_round_trip_partial {env : Env} {named : Bool} {c} {cd : ClassDef} {v} (hc : env.cls c = some cd)
    (hok : EnvOk env (mpFmt env named)) (hv : HasTy env (.cls c) v) :
    ∃ w, Ev (fun n => (if named then toDict env ({} : FmtOpts).se n v else toTuple env ({} : FmtOpts).se n v) = .ok w) ∧ (∀ K, MpFaithfulOn K w →
      ∃ s, Ev (fun n => toMsgpack env K { named := named } n v = .ok s ∧ fromMsgpack env K named n (.cls c) s = .ok v)) := by
  cases named with
  | true =>
    obtain ⟨w, hw, hr⟩ := top_named hok hc hv
    refine ⟨w, hw.mono fun n h => h _ rfl rfl rfl rfl, fun K ⟨s, he, hd⟩ => ⟨s, (hw.and hr).mono fun n h => ⟨?_, ?_⟩⟩⟩
    · unfold toMsgpack
      dsimp only
      rw [if_pos rfl, h.1 _ rfl rfl rfl rfl]
      dsimp only
      rw [he]; rfl
    · unfold fromMsgpack fromMsgpackPlain
      dsimp only
      rw [hd]
      exact h.2 _ rfl rfl
  | false =>
    obtain ⟨w, hw, hr⟩ := top_tuple rfl hok hc hv
    refine ⟨w, hw.mono fun n h => h _ rfl rfl rfl rfl, fun K ⟨s, he, hd⟩ => ⟨s, (hw.and hr).mono fun n h => ⟨?_, ?_⟩⟩⟩
    · unfold toMsgpack
      dsimp only
      rw [if_neg (by simp), h.1 _ rfl rfl rfl rfl]
      dsimp only
      rw [he]; rfl
    · unfold fromMsgpack fromMsgpackPlain
      dsimp only
      rw [hd]
      exact h.2 _ rfl rfl

example (named : Bool) : ∃ (K : MpCodec) (s : String), Ev (fun n => toMsgpack Ex.shapes K { named := named } n Ex.tree = .ok s ∧ fromMsgpack Ex.shapes K named n (.cls "Tree") s = .ok Ex.tree) := by
  obtain ⟨w, _, hw⟩ := C04_msgpack_round_trip_partial (env := Ex.shapes) (named := named) (cd := Ex.Tree) rfl (Ex.shapesOk _) Ex.tree_ty
  exact ⟨_, hw ⟨fun _ => .ok "bytes", fun _ _ => .error .value, fun _ => .ok (.val (mpWire w))⟩ ⟨_, rfl, rfl⟩⟩

end Verif.Props
