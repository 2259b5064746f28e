import Verif.Lemmas.RTTop
import Verif.Examples.Shapes
/-!
# C22: flattened dataclasses

Holds for the classes of the round-trip theorems (`EnvOk`, Spec/RoundTrip.lean).  A flattened field is covered (`FieldFlat`) if the child's
fields are plain and have the same wire names in the eyes of the enclosing class.  `Findings.Flatten.C22_false_rename_all` and
`Findings.Flatten.C22_false_optional_none` refute the property without that.  Missing: children that flatten further dataclasses.
-/

namespace Verif
open Spec

theorem zip_of_names : ∀ {fs : List FieldDef} {attrs : List (String × Val)}, attrs.map (·.1) = fs.map (·.name) → ∀ {f}, f ∈ fs →
    ∃ p ∈ fs.zip attrs, p.1 = f ∧ p.2.1 = f.name := by
  intro fs
  induction fs with
  | nil => intro _ _ _ h; cases h
  | cons g gs ih =>
    intro attrs hn f hf
    cases attrs with
    | nil => cases hn
    | cons a as =>
      simp only [List.map_cons, List.cons.injEq] at hn
      rcases List.mem_cons.1 hf with rfl | hf
      · exact ⟨(f, a), by simp, rfl, hn.1⟩
      · obtain ⟨p, hp, h⟩ := ih hn.2 hf
        exact ⟨p, by simp [hp], h⟩

theorem attr_of_field {c} {fs : List FieldDef} {attrs : List (String × Val)} (hnd : (fs.map (·.name)).Nodup) (hn : attrs.map (·.1) = fs.map (·.name)) {f}
    (hf : f ∈ fs) {x} (hx : getAttr (.inst c attrs) f.name = .ok x) : ∃ p ∈ fs.zip attrs, p.1 = f ∧ p.2.2 = x := by
  obtain ⟨p, hp, h1, h2⟩ := zip_of_names hn hf
  have : attrs.lookup f.name = some p.2.2 := lookup_of_mem (by rw [hn]; exact hnd) (by rw [← h2]; exact (List.of_mem_zip hp).2)
  refine ⟨p, hp, h1, ?_⟩
  simp [getAttr, this] at hx
  exact hx

/-- The entries of an instance of a class without flattened fields are the wire values of its fields. -/
theorem ClsEnc.plain_entries {env : Env} {F : Fmt env} {c} {cd : ClassDef} {v es} (h : ClsEnc env F c cd v es) (hpl : ∀ f ∈ cd.fields, f.flatten = false)
    {L} (hL : Parts env F c cd v L) : ∀ e ∈ es, ∃ t ∈ L, e = (t.1.conv cd.deCase, t.2.2) := by
  obtain ⟨M, hM, rfl, hsh⟩ := h.shape
  have hLM : L = M.map (·.1) := by
    obtain ⟨a1, a2, a3⟩ := hL
    obtain ⟨b1, b2, b3⟩ := hM
    subst a2
    have hv : L.map (fun t => (t.1.name, t.2.1)) = (M.map (·.1)).map (fun t => (t.1.name, t.2.1)) := by injection b2
    have hf : L.map (·.1) = (M.map (·.1)).map (·.1) := by rw [← a1, ← b1]
    revert hv hf a3 b3
    generalize M.map (·.1) = L'
    clear hpl a1 b1 b2 hsh h
    induction L generalizing L' with
    | nil => intro _ _ _ h; cases L' with
      | nil => rfl
      | cons => cases h
    | cons t L ih =>
      intro a3 b3 hv hf
      cases L' with
      | nil => cases hf
      | cons t' L' =>
        simp only [List.map_cons, List.cons.injEq, Prod.mk.injEq] at hv hf
        obtain ⟨f, x, w⟩ := t
        obtain ⟨f', x', w'⟩ := t'
        obtain ⟨rfl, hf⟩ := hf
        obtain ⟨⟨_, rfl⟩, hv⟩ := hv
        have : w = w' := enc_det (a3 (f, x, w) (by simp)).1.1 (b3 (f, x, w') (by simp)).1.1
        subst this
        rw [ih _ (fun t ht => a3 t (by simp [ht])) (fun t ht => b3 t (by simp [ht])) hv hf]
  intro e he
  obtain ⟨m, hm, he⟩ := List.mem_flatMap.1 he
  have hmL : m.1 ∈ L := by rw [hLM]; exact List.mem_map.2 ⟨m, hm, rfl⟩
  have hmf : m.1.1 ∈ cd.fields := by rw [hL.1]; exact List.mem_map.2 ⟨_, hmL, rfl⟩
  rcases hsh m hm with ⟨_, h | h⟩ | ⟨_, _, _, h, _⟩
  · rw [h] at he; cases he
  · rw [h] at he
    exact ⟨m.1, hmL, List.mem_singleton.1 he⟩
  · rw [hpl _ hmf] at h; cases h

/-- The entries of a flattened field. -/
theorem ClsEnc.flat_entries {env : Env} {F : Fmt env} {c} {cd : ClassDef} {v es} (h : ClsEnc env F c cd v es) (hn : (cd.fields.map (·.name)).Nodup)
    {f} (hf : f ∈ cd.fields) (hfl : f.flatten = true) {x} (hx : getAttr v f.name = .ok x) {ch chd} (hty : f.ty = .cls ch)
    (hch : env.cls ch = some chd) :
    (∀ g ∈ chd.fields, g.flatten = false) ∧ ∃ L, Parts env F ch chd x L ∧ ∀ t ∈ L, (t.1.conv chd.deCase, t.2.2) ∈ es := by
  obtain ⟨M, ⟨h1, h2, h3⟩, rfl, hsh⟩ := h.shape
  rw [h1, List.map_map] at hf
  obtain ⟨m, hm, rfl⟩ := List.mem_map.1 hf
  have hx' : m.1.2.1 = x := by
    rw [h1, List.map_map, List.map_map] at hn
    have := getAttr_mem (c := c) (L := M.map (·.1)) (by rw [List.map_map]; exact hn) (List.mem_map.2 ⟨m, hm, rfl⟩)
    rw [← h2] at this
    have hx2 : getAttr v m.1.1.name = .ok x := hx
    rw [this] at hx2
    exact Except.ok.inj hx2
  rcases hsh m hm with ⟨h, _⟩ | ⟨ch', chd', L, _, hty', hch', hpl, hL, hes⟩
  · have : m.1.1.flatten = true := hfl
    rw [h] at this; cases this
  · have hty2 : m.1.1.ty = .cls ch := hty
    rw [hty'] at hty2
    cases hty2
    rw [hch] at hch'
    cases hch'
    rw [hx'] at hL
    refine ⟨hpl, L, hL, fun t ht => List.mem_flatMap.2 ⟨m, hm, ?_⟩⟩
    rw [hes]
    exact List.mem_map.2 ⟨t, ht, rfl⟩

end Verif

namespace Verif.Props
open Spec

/-- **C22** (partial): an object whose class flattens dataclasses is restored from its dict; the keys of the dict are the wire names of the
class's other fields and of the fields of the flattened children, in order (`wires`); a flattened child contributes all its keys; and what
the child's own dict holds is found there unchanged. `so'` are the same options passed explicitly. -/
theorem C22_flatten_partial {env : Env} {so : SeOpts} {o : DeOpts} {c} {cd : ClassDef} {v} (hc : env.cls c = some cd)
    (htr : cd.transparent = false) (hs : so.c = none) (hn : o.numbers = none)
    (hre : so.reuse.getD cd.reuseDflt = true → o.reuse.getD cd.reuseDflt = true)
    (hok : EnvOk env (rawFmt env true (so.reuse.getD cd.reuseDflt) (so.conv.getD cd.convDflt) (o.reuse.getD cd.reuseDflt) hre so.skipNone))
    (hv : HasTy env (.cls c) v) :
    ∃ kvs : List (Val × Val), Ev (fun n => toDict env so n v = .ok (.dict .plain kvs) ∧ fromDict env o n (.cls c) (.dict .plain kvs) = .ok v) ∧
      (kvs.map (·.1)).Sublist ((wires env cd).map .str) ∧
      ∀ f ∈ cd.fields, f.flatten = true → ∀ ch chd x, f.ty = .cls ch → env.cls ch = some chd → getAttr v f.name = .ok x →
        (∀ g ∈ chd.fields, .str (g.conv chd.deCase) ∈ kvs.map (·.1)) ∧
        ∀ so' : SeOpts, so'.c = none → so'.skipNone = so.skipNone → so'.reuse = some (so.reuse.getD cd.reuseDflt) →
          so'.conv = some (so.conv.getD cd.convDflt) →
          ∃ own : List (Val × Val), Ev (fun n => toDict env so' n x = .ok (.dict .plain own)) ∧ ∀ e ∈ own, e ∈ kvs := by
  obtain ⟨_, es, hes⟩ := (rt_main' hok hv).2 c cd rfl hc htr
  obtain ⟨h1, h2⟩ := top_enc hok hc htr hv hes
  have hcok := hok.classes c cd hc htr
  refine ⟨strKeys es, (h1.and h2).mono fun n h => ⟨h.1 so hs rfl rfl rfl, h.2 o rfl hn⟩, ?_, ?_⟩
  · have : (strKeys es).map (·.1) = (es.map (·.1)).map Val.str := by simp [strKeys]
    rw [this]
    exact hes.keys.map _
  · intro f hf hfl ch chd x hty hch hx
    obtain ⟨hpl, L, hL, hin⟩ := hes.flat_entries hcok.names hf hfl hx hty hch
    refine ⟨fun g hg => ?_, fun so' e1 e2 e3 e4 => ?_⟩
    · rw [hL.1] at hg
      obtain ⟨t, ht, rfl⟩ := List.mem_map.1 hg
      exact List.mem_map.2 ⟨_, List.mem_map.2 ⟨_, hin t ht, rfl⟩, rfl⟩
    · have hxt : HasTy env (.cls ch) x := by
        cases hv with
        | @inst _ cd' attrs hc' hnm hat =>
          rw [hc] at hc'; cases hc'
          obtain ⟨p, hp, rfl, rfl⟩ := attr_of_field hcok.names hnm hf hx
          rw [← hty]
          exact hat p hp
      have hop : chd.transparent = false := by
        cases hcok.fields f hf with
        | plain hp _ => rw [hp.noFlatten] at hfl; cases hfl
        | flat hfl =>
          have := hfl.ty
          rw [hty] at this; cases this
          have := hfl.child
          rw [hch] at this; cases this
          exact hfl.opaqueChild
      obtain ⟨_, es', hes'⟩ := (rt_main' hok hxt).2 ch chd rfl hch hop
      obtain ⟨k1, _⟩ := top_enc hok hch hop hxt hes'
      refine ⟨strKeys es', k1.mono fun n h => h so' e1 e2 (by rw [e3]; rfl) (by rw [e4]; rfl), fun e he => ?_⟩
      obtain ⟨e0, he0, rfl⟩ := List.mem_map.1 he
      obtain ⟨t, ht, rfl⟩ := hes'.plain_entries hpl hL e0 he0
      exact List.mem_map.2 ⟨_, hin t ht, rfl⟩

/-! ## Example -/

namespace C22Ex

/-- `class Geo: lat: float`. -/
def Geo : ClassDef := { name := "Geo", mro := ["Geo"], fields := [{ name := "lat", ty := .prim .float }] }
/-- A child with a renamed field, a nested dataclass and a rule that flattening ignores. -/
def Addr : ClassDef :=
  { name := "Addr", mro := ["Addr"], fields := [{ name := "street", ty := .prim .str, rename := some "st" }, { name := "geo", ty := .list .list (.cls "Geo") },
    { name := "floor", ty := .prim .int, dflt := some (.int 0), skipIfFalse := true }] }
/-- A class flattening two dataclasses, with a skip rule of its own. -/
def Person : ClassDef :=
  { name := "Person", mro := ["Person"], denyUnknown := true, fields := [{ name := "id", ty := .prim .int }, { name := "addr", ty := .cls "Addr", flatten := true },
    { name := "note", ty := .union [.prim .str, .none], dflt := some .none, skipIfNone := some true }] }

def env : Env := Ex.mk [("Geo", Geo), ("Addr", Addr), ("Person", Person)]

theorem env_cases {c : ClassId} {cd : ClassDef} (h : env.cls c = some cd) : (c = "Geo" ∧ cd = Geo) ∨ (c = "Addr" ∧ cd = Addr) ∨ (c = "Person" ∧ cd = Person) := by
  simp only [env, Ex.mk, Env.cls, List.lookup] at h
  split at h
  · rename_i h'; cases h; exact .inl ⟨by simpa using h', rfl⟩
  · split at h
    · rename_i h'; cases h; exact .inr (.inl ⟨by simpa using h', rfl⟩)
    · split at h
      · rename_i h'; cases h; exact .inr (.inr ⟨by simpa using h', rfl⟩)
      · cases h

theorem geoOk (F : Fmt env) : ClassOk env F "Geo" Geo where
  fields := by
    intro f hf
    simp only [Geo, List.mem_cons, List.not_mem_nil, or_false] at hf
    subst hf
    exact .plain ⟨rfl, ⟨rfl, rfl, rfl⟩, .inl rfl, rfl, ⟨rfl, rfl⟩, rfl⟩ (.never ⟨rfl, rfl, rfl, rfl⟩ (fun _ h => by cases h))
  names := by decide
  wires := by decide
  types := by
    intro f hf named _
    simp only [Geo, List.mem_cons, List.not_mem_nil, or_false] at hf
    subst hf
    exact .scalar .prim
  notTransparent := rfl
  noHook := by intro p h; cases h
  noClassCustom := ⟨rfl, rfl⟩
  mroSelf := by simp [Geo]
  kwLast := by simp [Geo]
  kwTuple := by intro _ f hf; simp [Geo] at hf; subst hf; exact ⟨rfl, rfl⟩

theorem addr_types (F : Fmt env) (S : Scope) : ∀ g ∈ Addr.fields, TyOk env F S g.ty := by
  intro f hf
  simp only [Addr, List.mem_cons, List.not_mem_nil, or_false] at hf
  rcases hf with rfl | rfl | rfl
  · exact .scalar .prim
  · exact .list (.cls (cd := Geo) rfl)
  · exact .scalar .prim

theorem addr_plain : ∀ g ∈ Addr.fields, FieldPlain Addr g := by
  intro f hf
  simp only [Addr, List.mem_cons, List.not_mem_nil, or_false] at hf
  rcases hf with rfl | rfl | rfl <;> exact ⟨rfl, ⟨rfl, rfl, rfl⟩, .inl rfl, rfl, ⟨rfl, rfl⟩, rfl⟩

theorem addrOk (F : Fmt env) : ClassOk env F "Addr" Addr where
  fields := by
    intro f hf
    have hpl := addr_plain f hf
    simp only [Addr, List.mem_cons, List.not_mem_nil, or_false] at hf
    rcases hf with rfl | rfl | rfl
    · exact .plain hpl (.never ⟨rfl, rfl, rfl, rfl⟩ (fun _ h => by cases h))
    · exact .plain hpl (.never ⟨rfl, rfl, rfl, rfl⟩ (fun _ h => by cases h))
    · exact .plain hpl (.ifFalse rfl rfl rfl rfl .int)
  names := by decide
  wires := by decide
  types := fun f hf named _ => addr_types F _ f hf
  notTransparent := rfl
  noHook := by intro p h; cases h
  noClassCustom := ⟨rfl, rfl⟩
  mroSelf := by simp [Addr]
  kwLast := by simp [Addr]
  kwTuple := by
    intro _ f hf
    simp only [Addr, List.mem_cons, List.not_mem_nil, or_false] at hf
    rcases hf with rfl | rfl | rfl <;> exact ⟨rfl, rfl⟩

theorem addr_free : ∀ g ∈ Addr.fields, ScopeFree g.ty := by
  intro f hf
  simp only [Addr, List.mem_cons, List.not_mem_nil, or_false] at hf
  rcases hf with rfl | rfl | rfl
  · exact .prim
  · exact .list .cls
  · exact .prim

theorem personOk (F : Fmt env) (h : F.named = true) : ClassOk env F "Person" Person where
  fields := by
    intro f hf
    simp only [Person, List.mem_cons, List.not_mem_nil, or_false] at hf
    rcases hf with rfl | rfl | rfl
    · exact .plain ⟨rfl, ⟨rfl, rfl, rfl⟩, .inl rfl, rfl, ⟨rfl, rfl⟩, rfl⟩ (.never ⟨rfl, rfl, rfl, rfl⟩ (fun _ h => by cases h))
    · refine .flat (ch := "Addr") (chd := Addr) ⟨⟨rfl, ⟨rfl, rfl, rfl⟩, ⟨rfl, rfl, rfl, rfl⟩, ⟨rfl, rfl, rfl, rfl⟩, rfl, rfl, rfl, rfl, .inl h, addr_plain, ?_,
        rfl, (by intro h; cases h), by simp [Addr], fun _ => by simp [Addr]⟩, fun g hg => ⟨addr_types F _ g hg, .inl (addr_free g hg)⟩⟩
      intro g hg
      simp only [Addr, List.mem_cons, List.not_mem_nil, or_false] at hg
      rcases hg with rfl | rfl | rfl <;> rfl
    · exact .plain ⟨rfl, ⟨rfl, rfl, rfl⟩, .inl rfl, rfl, ⟨rfl, rfl⟩, rfl⟩ (.ifNone rfl rfl rfl (fun _ => ⟨rfl, .inl rfl⟩))
  names := by decide
  wires := by decide
  types := by
    intro f hf named _
    simp only [Person, List.mem_cons, List.not_mem_nil, or_false] at hf
    rcases hf with rfl | rfl | rfl
    · exact .scalar .prim
    · exact .cls (cd := Addr) rfl
    · exact .opt (by simp) (.scalar .prim)
  notTransparent := rfl
  noHook := by intro p h; cases h
  noClassCustom := ⟨rfl, rfl⟩
  mroSelf := by simp [Person]
  kwLast := by simp [Person]
  kwTuple := by rw [h]; intro h; cases h

theorem envOk (F : Fmt env) (h : F.named = true) : EnvOk env F where
  classes := by
    intro c cd hc _
    rcases env_cases hc with ⟨rfl, rfl⟩ | ⟨rfl, rfl⟩ | ⟨rfl, rfl⟩
    · exact geoOk F
    · exact addrOk F
    · exact personOk F h
  wrappers := by
    intro c cd hc ht
    rcases env_cases hc with ⟨rfl, rfl⟩ | ⟨rfl, rfl⟩ | ⟨rfl, rfl⟩ <;> cases ht
  noGlobal := ⟨rfl, rfl⟩

def geo : Val := .inst "Geo" [("lat", .float (.fin 3))]
def addr : Val := .inst "Addr" [("street", .str "Main"), ("geo", .list [geo]), ("floor", .int 0)]
def person : Val := .inst "Person" [("id", .int 7), ("addr", addr), ("note", .none)]

theorem person_ty : HasTy env (.cls "Person") person := by
  have hg : HasTy env (.cls "Geo") geo := by
    refine .inst (cd := Geo) rfl rfl ?_
    intro p hp
    simp only [Geo, List.zip_cons_cons, List.zip_nil_right, List.mem_cons, List.not_mem_nil, or_false] at hp
    subst hp; exact .float
  have ha : HasTy env (.cls "Addr") addr := by
    refine .inst (cd := Addr) rfl rfl ?_
    intro p hp
    simp only [Addr, List.zip_cons_cons, List.zip_nil_right, List.mem_cons, List.not_mem_nil, or_false] at hp
    rcases hp with rfl | rfl | rfl
    · exact .str
    · exact .list (by intro x hx; simp only [List.mem_cons, List.not_mem_nil, or_false] at hx; subst hx; exact hg)
    · exact .int
  refine .inst (cd := Person) rfl rfl ?_
  intro p hp
  simp only [Person, List.zip_cons_cons, List.zip_nil_right, List.mem_cons, List.not_mem_nil, or_false] at hp
  rcases hp with rfl | rfl | rfl
  · exact .int
  · exact ha
  · exact .union (t := .none) (by simp) .none

example := C22_flatten_partial (so := {}) (o := {}) (cd := Person) rfl rfl rfl rfl id (envOk _ rfl) person_ty
example : toDict env {} 9 person = .ok (.dict .plain [(.str "id", .int 7), (.str "st", .str "Main"),
    (.str "geo", .list [.dict .plain [(.str "lat", .float (.fin 3))]]), (.str "floor", .int 0)]) := rfl

end C22Ex

end Verif.Props
