import Verif.Props.C01
/-!
# C01–C04: fields that hold JSON data (`Any`, bare `list`, bare `dict`)

Instances of the round-trip theorems for classes with such fields. MessagePack reads lists as tuples, so that there `Any` does not
survive.
-/

namespace Verif.Props
open Spec

theorem rawFmt_lists {env : Env} {named reuse conv deReuse : Bool} {h sn} : (rawFmt env named reuse conv deReuse h sn).keepsLists := fun xs => by
  show Val.list xs = .list (xs.map id)
  rw [List.map_id]

theorem jsonFmt_lists {env : Env} {h : NumText env.W} {cn sn} : (jsonFmt env h cn sn).keepsLists := fun xs => by
  show jsonWire env.W (.list xs) = _
  rw [jsonWire, jsonWireL_map]; rfl

theorem yamlFmt_lists {env : Env} {cn sn} : (yamlFmt env cn sn).keepsLists := fun xs => by
  show yamlWire (.list xs) = _
  rw [yamlWire, yamlWireL_map]; rfl

namespace C01Json

/-- `@serde class Job: meta_: Any; rows: list; opts: dict; more: list[Any]`. -/
def Job : ClassDef := { name := "Job", mro := ["Job"], fields := [{ name := "meta_", ty := .any }, { name := "rows", ty := .listB .list },
  { name := "opts", ty := .dictB .dict }, { name := "more", ty := .list .list .any }] }
def env : Env := { W := Ex.WT, P := Ex.P, classes := [("Job", Job)], enums := [] }

theorem env_cases {c : ClassId} {cd : ClassDef} (h : env.cls c = some cd) : c = "Job" ∧ cd = Job := by
  unfold Env.cls env at h
  simp only [List.lookup_cons, List.lookup_nil] at h
  split at h
  · rename_i hh
    exact ⟨by simpa using hh, by cases h; rfl⟩
  · cases h

theorem jobOk {F : Fmt env} (hs : F.skipNone = false) (hl : F.keepsLists) : EnvOk env F where
  classes := by
    intro c cd hc _
    obtain ⟨rfl, rfl⟩ := env_cases hc
    exact {
      fields := by
        intro f hf
        simp only [Job, List.mem_cons, List.not_mem_nil, or_false] at hf
        rcases hf with rfl | rfl | rfl | rfl <;>
          exact .plain ⟨rfl, ⟨rfl, rfl, rfl⟩, .inl rfl, rfl, ⟨rfl, rfl⟩, rfl⟩ (.never ⟨rfl, rfl, rfl, rfl⟩ (fun h => by rw [hs] at h; cases h))
      names := by decide
      wires := by decide
      types := by
        intro f hf named _
        simp only [Job, List.mem_cons, List.not_mem_nil, or_false] at hf
        rcases hf with rfl | rfl | rfl | rfl
        · exact .any hl
        · exact .listB hl
        · exact .dictB hl
        · exact .list (.any hl)
      notTransparent := rfl
      noHook := by intro p h; cases h
      noClassCustom := ⟨rfl, rfl⟩
      mroSelf := by simp [Job]
      kwLast := by simp [Job]
      kwTuple := by
        intro _ f hf
        simp only [Job, List.mem_cons, List.not_mem_nil, or_false] at hf
        rcases hf with rfl | rfl | rfl | rfl <;> exact ⟨rfl, rfl⟩ }
  wrappers := by
    intro c cd hc ht
    obtain ⟨rfl, rfl⟩ := env_cases hc
    cases ht
  noGlobal := ⟨rfl, rfl⟩

/-- Whatever JSON data the fields hold. -/
def job (m : Val) (rows : List Val) (opts : List (Val × Val)) (more : List Val) : Val :=
  .inst "Job" [("meta_", m), ("rows", .list rows), ("opts", .dict .plain opts), ("more", .list more)]

theorem job_ty {m rows opts more} (hm : JsonVal m) (hr : JsonVal (.list rows)) (ho : JsonVal (.dict .plain opts)) (hx : ∀ x ∈ more, JsonVal x) :
    HasTy env (.cls "Job") (job m rows opts more) := by
  refine .inst (cd := Job) rfl rfl ?_
  intro p hp
  simp only [Job, List.zip_cons_cons, List.zip_nil_right, List.mem_cons, List.not_mem_nil, or_false] at hp
  rcases hp with rfl | rfl | rfl | rfl
  · exact .any hm
  · exact .listB hr
  · exact .dictB ho
  · exact .list (fun x h => .any (hx x h))

example {m rows opts more} (hm : JsonVal m) (hr : JsonVal (.list rows)) (ho : JsonVal (.dict .plain opts)) (hx : ∀ x ∈ more, JsonVal x) :
    ∃ w, Ev (fun n => toDict env {} n (job m rows opts more) = .ok w ∧ fromDict env {} n (.cls "Job") w = .ok (job m rows opts more)) :=
  C01_default_options_partial (cd := Job) rfl (jobOk rfl rawFmt_lists) (job_ty hm hr ho hx)

example {m rows opts more} (hm : JsonVal m) (hr : JsonVal (.list rows)) (ho : JsonVal (.dict .plain opts)) (hx : ∀ x ∈ more, JsonVal x) :
    ∃ (K : Codec) (s : String), Ev (fun n => toJson env K {} n (job m rows opts more) = .ok s ∧
      fromJson env K n (.cls "Job") s = .ok (job m rows opts more)) := by
  obtain ⟨w, _, hw⟩ := C03_json_round_trip_partial (env := env) (cn := true) (sn := false) (cd := Job) rfl Ex.numText (jobOk rfl jsonFmt_lists) (job_ty hm hr ho hx)
  exact ⟨_, hw ⟨fun _ => .ok "text", fun _ => .ok (jsonWire Ex.WT w)⟩ ⟨_, rfl, rfl⟩⟩

/-- The value of the example: `Job({"a": [1, None]}, [True, "x"], {"k": {}}, [[2]])`. -/
example : JsonVal (.dict .plain [(.str "a", .list [.int 1, .none])]) ∧ JsonVal (.list [.bool true, .str "x"]) := by
  refine ⟨.dict ?_ (by simp) ?_, .list ?_⟩
  · intro kv h; rw [List.mem_singleton.1 h]; exact ⟨_, rfl⟩
  · intro kv h; rw [List.mem_singleton.1 h]
    exact .list (by intro x hx; simp only [List.mem_cons, List.not_mem_nil, or_false] at hx; rcases hx with rfl | rfl <;> constructor)
  · intro x hx; simp only [List.mem_cons, List.not_mem_nil, or_false] at hx; rcases hx with rfl | rfl <;> constructor

def wire1 : Val := .dict .plain [(.str "meta_", .list [.int 1]), (.str "rows", .list []), (.str "opts", .dict .plain []), (.str "more", .list [])]

end C01Json

/-- **C04** with an `Any` field: a list comes back as a tuple, however faithful the encoder is. -/
theorem C04_false_any : ∃ (env : Env) (c : ClassId) (v v' : Val), HasTy env (.cls c) v ∧ v' ≠ v ∧ ∃ (w : Val),
    Ev (fun n => toDict env ({} : FmtOpts).se n v = .ok w) ∧ ∀ K, MpFaithfulOn K w →
      ∃ s, Ev (fun n => toMsgpack env K {} n v = .ok s ∧ fromMsgpack env K true n (.cls c) s = .ok v') := by
  refine ⟨C01Json.env, "Job", C01Json.job (.list [.int 1]) [] [] [], .inst "Job" [("meta_", .tuple [.int 1]), ("rows", .list []), ("opts", .dict .plain []), ("more", .list [])],
    C01Json.job_ty (.list (by simp [JsonVal.int])) (.list (by simp)) (.dict (by simp) (by simp) (by simp)) (by simp), ?_,
    C01Json.wire1, ?_⟩
  · intro h
    simp [C01Json.job] at h
  · have hse : ∀ m, 20 ≤ m → toDict C01Json.env ({} : FmtOpts).se m (C01Json.job (.list [.int 1]) [] [] []) = .ok C01Json.wire1 := fun m hm => toDict_mono hm rfl
    refine ⟨⟨20, hse⟩, fun K ⟨s, he, hd⟩ => ⟨s, 20, fun m hm => ⟨?_, ?_⟩⟩⟩
    · unfold toMsgpack
      dsimp only
      rw [if_pos rfl, show toDict C01Json.env { reuse := some false, conv := some true } m _ = _ from hse m hm]
      dsimp only
      rw [he]; rfl
    · unfold fromMsgpack fromMsgpackPlain
      dsimp only
      rw [hd]
      exact fromDict_mono hm rfl

end Verif.Props
