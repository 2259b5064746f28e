import Verif.Lemmas.LegacyDe
import Verif.Examples.World
/-!
# C58: a serializer= / deserializer= pair and the round trip
-/

namespace Verif.Props
open Spec

theorem noRule_never {cd : ClassDef} {f : FieldDef} (h : NoRule cd f) : f.skipRule cd = .never := by
  unfold FieldDef.skipRule
  rw [h.1, h.2.1, h.2.2.1, h.2.2.2]; rfl

/-- **C58** `from_dict(C, to_dict(obj)) == obj` for a class with `serializer=s, deserializer=g`, when each field is either handled by the pair (the one function
reads back what the other wrote for it) or left alone by it (both skip, `s` also for every component of the annotation). The class and what it uses have to be
covered by C01 without the functions, and no rule leaves a field out. -/
theorem C58_round_trip_partial {env : Env} {leg : Legacy} {so : SeOpts} {o : DeOpts} {c} {cd : ClassDef} {s g v} (hc : env.cls c = some cd)
    (htr : cd.transparent = false) (hs : so.c = none) (hsn : so.skipNone = false) (hn : o.numbers = none) (hre : so.reuse.getD cd.reuseDflt = true → o.reuse.getD cd.reuseDflt = true)
    (hok : EnvOk env (rawFmt env true (so.reuse.getD cd.reuseDflt) (so.conv.getD cd.convDflt) (o.reuse.getD cd.reuseDflt) hre))
    (hls : leg.ser c = some s) (hlg : leg.de c = some g) (hv : HasTy env (.cls c) v) (hf : ∀ f ∈ cd.fields, FieldPlain cd f ∧ NoRule cd f)
    (hp : ∀ f ∈ cd.fields, ∀ a, HasAttr v f a → Handled env s g f.ty a ∨ LeftAlone env s g f.ty) :
    ∃ w, Ev (fun n => toDictL env leg so n v = .ok w ∧ fromDictL env leg o n (.cls c) w = .ok v) := by
  generalize hF : rawFmt env true (so.reuse.getD cd.reuseDflt) (so.conv.getD cd.convDflt) (o.reuse.getD cd.reuseDflt) hre = F at hok
  have hwire : F.wire = id := by subst hF; rfl
  have hFn : F.named = true := by subst hF; rfl
  have hFs : F.skipNone = false := by subst hF; rfl
  have hcok := hok.classes c cd hc htr
  cases hv with
  | @inst _ cd' attrs hc' hnm hat =>
    rw [hc] at hc'; cases hc'
    have hnd : (attrs.map (·.1)).Nodup := by rw [hnm]; exact hcok.names
    obtain ⟨L, h1, h2, h3⟩ := pair_triples (env := env) (P := PairField env leg F c cd s g) hnm (by
      intro p hpz
      have hm := (List.of_mem_zip hpz).1
      have hkey : p.2.1 = p.1.name := by
        obtain ⟨i, hi, rfl⟩ := List.mem_iff_getElem.1 hpz
        rw [List.getElem_zip]
        have h1 : i < attrs.length := by rw [List.length_zip] at hi; omega
        have h2 : i < cd.fields.length := by rw [List.length_zip] at hi; omega
        have := congrArg (fun l : List String => l[i]?) hnm
        simp only [List.getElem?_map, List.getElem?_eq_getElem h1, List.getElem?_eq_getElem h2, Option.map_some, Option.some.injEq] at this
        exact this
      have hl : attrs.lookup p.1.name = some p.2.2 := by
        rw [← hkey]
        exact lookup_of_mem hnd (List.of_mem_zip hpz).2
      rcases hp p.1 hm p.2.2 ⟨c, attrs, rfl, hl⟩ with h | h
      · exact pair_handled (hf _ hm).1 h
      · exact pair_alone hok.noGlobal.2 hwire (hf _ hm).1 h (hat p hpz)
          ((rt_main' hok (hat p hpz)).1 _ (.inr rfl) (hcok.types p.1 hm true (.inr rfl))))
    have hfm : ∀ t ∈ L, t.1 ∈ cd.fields := fun t ht => by rw [h1]; exact List.mem_map_of_mem ht
    have hconv : L.map (fun t => t.1.conv cd.seCase) = wires env cd := by
      unfold wires
      rw [h1, List.flatMap_map]
      have : ∀ t ∈ L, wiresOf env cd t.1 = [t.1.conv cd.seCase] := fun t ht => by
        rw [wiresOf_plain (hf _ (hfm t ht)).1.noFlatten, (hf _ (hfm t ht)).1.sameName]
      clear h1 h2 h3 hfm
      induction L with
      | nil => rfl
      | cons t L ih =>
        rw [List.flatMap_cons, this t (by simp), List.map_cons, ih (fun t ht => this t (by simp [ht]))]; rfl
    have hwn := hcok.wires
    rw [← hconv] at hwn
    have hnames : (L.map (fun t => t.1.name)).Nodup := by
      have := hcok.names
      rwa [h1, List.map_map] at this
    have hobj : Val.inst c attrs = .inst c (L.map (fun t => (t.1.name, t.2.1))) := by rw [h2]
    let kvs : List (Val × Val) := L.map (fun t => (.str (t.1.conv cd.seCase), t.2.2))
    refine ⟨.dict .plain kvs, ?_⟩
    have hse := Ev.list (fun t ht => (h3 t ht).1.1)
    have hde := Ev.list (fun t ht => (h3 t ht).1.2)
    obtain ⟨N, hN⟩ := hse.and hde
    refine ⟨N + 3, fun n hn' => ?_⟩
    obtain ⟨m, rfl⟩ : ∃ m, n = m + 3 := ⟨n - 3, by omega⟩
    constructor
    · have hm := (hN m (by omega)).1
      unfold toDictL
      rw [hs, toObjL_inst (.inl rfl) (by rw [hok.noGlobal.1]; intro s h; cases h), wrapAll_ok, seLAt_cls]
      unfold clsL
      dsimp only
      rw [hls]
      unfold clsF
      dsimp only
      rw [hc]
      dsimp only
      rw [hcok.notTransparent, hcok.seFieldsOf, show so.skipNone = F.skipNone from hsn.trans hFs.symm]
      rw [clsSeCx_eq (F := F) hok.noGlobal.1 hcok.noClassCustom.1 (by subst hF; rfl) (by subst hF; rfl)]
      simp only [Bool.false_eq_true, if_false, if_true]
      have := seFields_all (env := env) (r := (seLAt env leg (m + 1)).at (some s)) (cx := seCxOf F (scopeOf env true c cd)) (cd := cd)
        (obj := .inst c attrs) L [] (fun t ht => by
          have hpl := (hf _ (hfm t ht)).1
          refine ⟨hpl.noFlatten, ?_, ?_⟩
          · show flatL env (seLAt env leg m) (some s) _ _ = _
            have ha : seFieldArg t.1 (.ok (.inst c attrs)) = { ty := t.1.ty, v := .ok t.2.1 } := by
              unfold seFieldArg
              dsimp only
              rw [hobj, getAttr_mem hnames ht, hpl.noCustom.1, hpl.noFlatten]
            rw [ha, flatL_unflat rfl, hm t ht]
          · rw [noRule_never (hf _ (hfm t ht)).2]
            unfold skips
            dsimp only
            rw [show (seCxOf F (scopeOf env true c cd)).skipNone = false from hFs]
            cases t.2.2 <;> rfl) hwn (by simp)
      rw [← h1] at this
      rw [this]
      rfl
    · have hm := (hN (m + 1) (by omega)).2
      unfold fromDictL
      rw [fromObjL_cls (by rw [hok.noGlobal.2]; intro s h; cases h) (by intro as h; cases h), wrapUser_ok, deLAt_cls]
      unfold deClsL
      rw [hlg, hobj]
      dsimp only
      have hkn : (kvs.map (·.1)).Pairwise (· ≠ ·) := by
        show List.Pairwise _ ((L.map (fun t => ((.str (t.1.conv cd.seCase) : Val), t.2.2))).map (·.1))
        rw [List.map_map, List.pairwise_map]
        rw [List.nodup_iff_pairwise_ne, List.pairwise_map] at hwn
        exact hwn.imp fun h e => h (Val.str.inj e)
      refine deClsF_of_fields hc hcok h1 (fun t ht => ?_) (fun t ht => ?_) (fun _ kv hkv => ?_)
      · exact bearable_hasTy (F := F) hok.mroSelf (hat _ (h3 t ht).2) _ (hcok.types _ (hfm t ht) true (.inr rfl))
      · refine hm t ht _ [] .plain kvs (deM_cls hok.noGlobal.2 hcok.noClassCustom.2 (by subst hF; rfl) (by subst hF; exact hn)) rfl ?_
        rw [← (hf _ (hfm t ht)).1.sameName]
        exact getStr_of_mem hkn (List.mem_map.2 ⟨t, ht, rfl⟩)
      · obtain ⟨t, ht, rfl⟩ := List.mem_map.1 hkv
        refine ⟨t.1.conv cd.seCase, wires_known hok hc htr (hfm t ht) ?_, rfl⟩
        rw [wiresOf_plain (hf _ (hfm t ht)).1.noFlatten, (hf _ (hfm t ht)).1.sameName]
        simp

/-! ## Example and counterexamples -/
namespace C58Ex

/-- Writes datetimes as one-element lists. -/
def ser : LegFn := fun t v => if t == "datetime" then
    match v with
    | .dt .datetime s => some (.ok (.list [.str s]))
    | _ => some (.error .type)
  else none

/-- Reads them back. -/
def de : LegFn := fun t v => if t == "datetime" then
    match v with
    | .list [.str s] => some (.ok (.dt .datetime s))
    | _ => some (.error .type)
  else none

/-- `@serde(serializer=ser, deserializer=de) class Job: at: datetime; days: list[date]; n: int = 0`. -/
def Job : ClassDef := { name := "Job", mro := ["Job"], fields := [{ name := "at", ty := .dt .datetime }, { name := "days", ty := .list .list (.dt .date) },
  { name := "n", ty := .prim .int, dflt := some (.int 0) }] }

/-- `class Log: times: list[datetime]`. -/
def Log : ClassDef := { name := "Log", mro := ["Log"], fields := [{ name := "times", ty := .list .list (.dt .datetime) }] }

/-- `class Maybe: at: datetime | None`. -/
def Maybe : ClassDef := { name := "Maybe", mro := ["Maybe"], fields := [{ name := "at", ty := .union [.dt .datetime, .none] }] }

def env : Env := Ex.mk [("Job", Job)]
def env2 : Env := Ex.mk [("Log", Log), ("Maybe", Maybe)]
def leg : Legacy := { ser := fun _ => some ser, de := fun _ => some de }

theorem env_cases {c : ClassId} {cd : ClassDef} (h : env.cls c = some cd) : c = "Job" ∧ cd = Job := by
  simp only [env, Ex.mk, Env.cls, List.lookup] at h
  split at h
  · rename_i h'; cases h; exact ⟨by simpa using h', rfl⟩
  · cases h

theorem job_plain : ∀ f ∈ Job.fields, FieldPlain Job f ∧ NoRule Job f := by
  intro f hf
  simp only [Job, List.mem_cons, List.not_mem_nil, or_false] at hf
  rcases hf with rfl | rfl | rfl <;> exact ⟨⟨rfl, ⟨rfl, rfl, rfl⟩, .inl rfl, rfl, ⟨rfl, rfl⟩, rfl⟩, rfl, rfl, rfl, rfl⟩

theorem jobOk (F : Fmt env) (hF : F.skipNone = false) : ClassOk env F "Job" Job where
  fields := fun f hf => .plain (job_plain f hf).1 (.never (job_plain f hf).2 (fun h => by rw [hF] at h; cases h))
  names := by decide
  wires := by decide
  types := by
    intro f hf named _
    simp only [Job, List.mem_cons, List.not_mem_nil, or_false] at hf
    rcases hf with rfl | rfl | rfl
    · exact .scalar .dt
    · exact .list (.scalar .dt)
    · exact .scalar .prim
  notTransparent := rfl
  noHook := by intro p h; cases h
  noClassCustom := ⟨rfl, rfl⟩
  mroSelf := by simp [Job]
  kwLast := by simp [Job]
  kwTuple := by
    intro _ f hf
    simp only [Job, List.mem_cons, List.not_mem_nil, or_false] at hf
    rcases hf with rfl | rfl | rfl <;> exact ⟨rfl, rfl⟩

theorem envOk (F : Fmt env) (hF : F.skipNone = false) : EnvOk env F where
  classes := by
    intro c cd h _
    obtain ⟨rfl, rfl⟩ := env_cases h
    exact jobOk F hF
  wrappers := by
    intro c cd h ht
    obtain ⟨rfl, rfl⟩ := env_cases h
    cases ht
  noGlobal := ⟨rfl, rfl⟩

def job : Val := .inst "Job" [("at", .dt .datetime "2020-01-01T10:00"), ("days", .list [.dt .date "2020-01-02"]), ("n", .int 3)]

theorem job_ty : HasTy env (.cls "Job") job := by
  refine .inst (cd := Job) rfl rfl ?_
  intro p hp
  simp only [Job, List.zip_cons_cons, List.zip_nil_right, List.mem_cons, List.not_mem_nil, or_false] at hp
  rcases hp with rfl | rfl | rfl
  · exact .dt rfl
  · exact .list (by intro x hx; rw [List.mem_singleton.1 hx]; exact .dt rfl)
  · exact .int

theorem inert_int : Inert (.prim .int) := by intro s hs; cases hs; exact ⟨nofun, nofun, nofun, nofun⟩
theorem inert_days : Inert (.list .list (.dt .date)) := by
  intro s hs
  cases hs with
  | refl => exact ⟨nofun, nofun, nofun, nofun⟩
  | list hs => cases hs; exact ⟨nofun, nofun, nofun, nofun⟩

theorem job_pair : ∀ f ∈ Job.fields, ∀ a, HasAttr job f a → Handled env ser de f.ty a ∨ LeftAlone env ser de f.ty := by
  intro f hf a ha
  obtain ⟨_, _, he, ha⟩ := ha
  cases he
  simp only [Job, List.mem_cons, List.not_mem_nil, or_false] at hf
  rcases hf with rfl | rfl | rfl
  · cases ha
    exact .inl ⟨_, rfl, rfl⟩
  · refine .inr ⟨inert_days, ?_, fun v => rfl⟩
    intro u hu
    cases hu with
    | refl => exact ⟨nofun, fun v => rfl⟩
    | list hu => cases hu; exact ⟨nofun, fun v => rfl⟩
  · refine .inr ⟨inert_int, ?_, fun v => rfl⟩
    intro u hu
    cases hu; exact ⟨nofun, fun v => rfl⟩

/-- The datetime is handled by the pair, the list of dates and the number are left alone. -/
example : ∃ w, Ev (fun n => toDictL env leg {} n job = .ok w ∧ fromDictL env leg {} n (.cls "Job") w = .ok job) :=
  C58_round_trip_partial (s := ser) (g := de) (so := {}) (o := {}) rfl rfl rfl rfl rfl id (envOk _ rfl) rfl rfl job_ty job_plain job_pair

/-- What is written in between. -/
example : toDictL env leg {} 10 job = .ok (.dict .plain [(.str "at", .list [.str "2020-01-01T10:00"]), (.str "days", .list [.dt .date "2020-01-02"]), (.str "n", .int 3)]) := rfl

theorem inverse {v} (hv : HasTy env2 (.dt .datetime) v) : Handled env2 ser de (.dt .datetime) v := by
  cases hv with
  | dt h => exact ⟨_, rfl, rfl⟩

end C58Ex

open C58Ex in
/-- The full statement is false: the pair is inverse on datetimes and skips everything else, but a list of datetimes does not survive. The function is asked for the
elements when writing, but not when reading. -/
theorem C58_false_elements : ∃ (env : Env) (leg : Legacy) (c : ClassId) (cd : ClassDef) (s g : LegFn) (v w : Val) (e : Exc), env.cls c = some cd ∧ leg.ser c = some s ∧
    leg.de c = some g ∧ cd.fields.map (·.ty) = [.list .list (.dt .datetime)] ∧ (∀ x, HasTy env (.dt .datetime) x → Handled env s g (.dt .datetime) x) ∧
    (∀ t x, t ≠ shown env (.dt .datetime) → s t x = none ∧ g t x = none) ∧ HasTy env (.cls c) v ∧
    toDictL env leg {} 10 v = .ok w ∧ fromDictL env leg {} 10 (.cls c) w = .error e ∧ e ≠ .fuel := by
  refine ⟨env2, leg, "Log", Log, ser, de, .inst "Log" [("times", .list [.dt .datetime "2020-01-01T10:00"])],
    .dict .plain [(.str "times", .list [.list [.str "2020-01-01T10:00"]])], _, rfl, rfl, rfl, rfl, fun x hx => inverse hx, ?_, ?_, rfl, rfl, by simp⟩
  · intro t x ht
    have : (t == "datetime") = false := by
      rw [beq_eq_false_iff_ne]
      exact ht
    simp [ser, de, this]
  · refine .inst (cd := Log) rfl rfl ?_
    intro p hp
    simp only [Log, List.zip_cons_cons, List.zip_nil_right, List.mem_cons, List.not_mem_nil, or_false] at hp
    subst hp
    exact .list (by intro x hx; rw [List.mem_singleton.1 hx]; exact .dt rfl)

open C58Ex in
/-- The same for `datetime | None`. -/
theorem C58_false_optional : ∃ (env : Env) (leg : Legacy) (c : ClassId) (cd : ClassDef) (s g : LegFn) (v w : Val) (e : Exc), env.cls c = some cd ∧ leg.ser c = some s ∧
    leg.de c = some g ∧ cd.fields.map (·.ty) = [.union [.dt .datetime, .none]] ∧ (∀ x, HasTy env (.dt .datetime) x → Handled env s g (.dt .datetime) x) ∧
    (∀ t x, t ≠ shown env (.dt .datetime) → s t x = none ∧ g t x = none) ∧ HasTy env (.cls c) v ∧
    toDictL env leg {} 10 v = .ok w ∧ fromDictL env leg {} 10 (.cls c) w = .error e ∧ e ≠ .fuel := by
  refine ⟨env2, leg, "Maybe", Maybe, ser, de, .inst "Maybe" [("at", .dt .datetime "2020-01-01T10:00")],
    .dict .plain [(.str "at", .list [.str "2020-01-01T10:00"])], _, rfl, rfl, rfl, rfl, fun x hx => inverse hx, ?_, ?_, rfl, rfl, by simp⟩
  · intro t x ht
    have : (t == "datetime") = false := by
      rw [beq_eq_false_iff_ne]
      exact ht
    simp [ser, de, this]
  · refine .inst (cd := Maybe) rfl rfl ?_
    intro p hp
    simp only [Maybe, List.zip_cons_cons, List.zip_nil_right, List.mem_cons, List.not_mem_nil, or_false] at hp
    subst hp
    exact .union (.head _) (.dt rfl)

end Verif.Props
