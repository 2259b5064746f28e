import Verif.Props.C15
import Verif.Lemmas.Alias
import Verif.Lemmas.SeTwin
import Verif.Props.C01
/-!
# C08, C09: aliases
-/

namespace Verif.Props
open Spec

/-- The class's field `nm` without its aliases. -/
def withoutAlias (nm : String) (g : FieldDef) : FieldDef := if g.name = nm then { g with alias := [] } else g

/-- **C08** Looking up the value: for a field with aliases, `from_dict` on `kvs` returns what it returns for the copy `c'` of the class in
which the field has no aliases, on data `kvs'` in which the field's name holds the value of the first of [field name, alias1, alias2, ...]
present in `kvs` (or is absent, if none is), other fields' keys being as in `kvs`.
For fields without rename, of the types for which aliases are implemented; for others the property is false (see `Findings`). -/
theorem C08_order_partial {env : Env} {o : DeOpts} {n c c'} {cd : ClassDef} {f : FieldDef} {attrs k k' kvs kvs'} (hc : env.cls c = some cd)
    (hc' : env.cls c' = some { cd with fields := cd.fields.map (withoutAlias f.name) }) (ht : SameTables env c c')
    (htr : cd.transparent = false) (hdn : cd.denyUnknown = false) (hnm : (cd.fields.map (·.name)).Nodup) (hf : f ∈ cd.fields)
    (hty : AliasTy f.ty) (hcn : f.conv cd.deCase = f.name) (hds : f.deserializer = none) (hcd : cd.classDe = none) (hgd : env.gde = [])
    (hg : NoGlobal env c) (hg' : NoGlobal env c')
    (hfl : ∀ g ∈ cd.fields, g.flatten = false) (hal : ∀ g ∈ cd.fields, g.alias = [] ∨ AliasTy g.ty)
    (hfirst : getStr f.name kvs' = (f.name :: f.alias).findSome? (fun a => getStr a kvs))
    (hrest : ∀ g ∈ cd.fields, g.name ≠ f.name → ∀ s ∈ g.conv cd.deCase :: g.name :: g.alias, getStr s kvs' = getStr s kvs) :
    fromDict env o n (.cls c) (.dict k kvs) = .ok (.inst c attrs) ↔ fromDict env o n (.cls c') (.dict k' kvs') = .ok (.inst c' attrs) := by
  have hS : SigMap (withoutAlias f.name) cd.fields := by
    refine ⟨?_, ?_, ?_, ?_, ?_, ?_⟩ <;> intro g _ <;> unfold withoutAlias <;> split <;> first | rfl | exact .inl rfl
  have hfl' : ∀ g ∈ ({ cd with fields := cd.fields.map (withoutAlias f.name) } : ClassDef).fields, g.flatten = false := by
    intro g hg
    obtain ⟨f, hf, rfl⟩ := List.mem_map.1 hg
    unfold withoutAlias
    split <;> exact hfl f hf
  have hu : ∀ {c d} {cd : ClassDef}, cd.denyUnknown = false → deUnknown env c cd d = .ok false := by
    intro c d cd h; unfold deUnknown; rw [h]; rfl
  refine (fromDict_twin_ok hc hc' htr htr (hasFlatDict_plain hfl) (hasFlatDict_plain hfl') (hu hdn) (hu hdn) hg hg'
    (by intro as h; cases h) (by intro as h; cases h) attrs (fun m => ?_)).symm
  refine decodeCls_map_ok (c := c) (c' := c') (cd := cd) (cd' := { cd with fields := cd.fields.map (withoutAlias f.name) })
    (g := withoutAlias f.name) rfl hS rfl rfl ?_ attrs
  intro g hgm _ w
  have hcx : clsDeCx env c' { cd with fields := cd.fields.map (withoutAlias f.name) } true (topCall o) (.dict k' kvs') =
      { clsDeCx env c cd true (topCall o) (.dict k kvs) with data := .dict k' kvs' } := by
    unfold clsDeCx; dsimp only; rw [ht.unions, ht.lits]
  have hpa : ∀ g d, plainArg { cd with fields := cd.fields.map (withoutAlias f.name) } g d = plainArg cd g d := fun _ _ => rfl
  by_cases hgf : g.name = f.name
  · have hgf' : g = f := inj_of_nodup_map hnm hgm hf hgf
    subst hgf'
    by_cases hnil : g.alias = []
    · have hw : withoutAlias g.name g = g := by
        unfold withoutAlias; rw [if_pos rfl]; cases g; cases hnil; rfl
      rw [hw, hcx]
      rw [hnil] at hfirst
      have := @deField_reads env m c cd (topCall o) [] [] k k' kvs kvs' g (hfl g hgm) (.inl hnil) (by
        intro s hs
        unfold fieldReads at hs
        rw [if_pos hnil, List.mem_singleton] at hs
        rw [hs, hcn, hfirst]
        simp only [List.findSome?_cons, List.findSome?_nil]
        cases getStr g.name kvs <;> rfl)
      rw [← this, deField_plain (hfl g hgm), deField_plain (hfl g hgm)]
      exact Iff.rfl
    · have hw : withoutAlias g.name g = { g with alias := [] } := by unfold withoutAlias; rw [if_pos rfl]
      rw [hw, deField_plain (f := { g with alias := [] }) (hfl g hgm), deField_plain (hfl g hgm), hcx, hpa]
      have hr := render_unalias (env := env) (n := m) (cx := clsDeCx env c cd true (topCall o) (.dict k kvs)) (a := plainArg cd g (.dict k kvs))
        (k := k) (k' := k') (kvs := kvs) (kvs' := kvs') hty hnil rfl hds (by unfold clsDeCx; dsimp only; rw [hgd, hcd]; rfl) hcn hfirst
      have e1 : { plainArg cd g (.dict k kvs) with src := .key (.dict k kvs) } = plainArg cd g (.dict k kvs) := rfl
      have e2 : { plainArg cd g (.dict k kvs) with src := .key (.dict k' kvs'), alias := [] } = plainArg cd { g with alias := [] } (.dict k' kvs') := rfl
      rw [e1, e2] at hr
      rw [← hr]
      show (match g.dflt with | some _ => _ | none => _) = _ ↔ _
      cases g.dflt with
      | none => dsimp only; rw [catchKey_ok, catchKey_ok]; exact Iff.rfl
      | some d => exact Iff.rfl
  · have hw : withoutAlias f.name g = g := by unfold withoutAlias; rw [if_neg hgf]
    rw [hw, hcx]
    have := @deField_reads env m c cd (topCall o) [] [] k k' kvs kvs' g (hfl g hgm) (hal g hgm) (by
      intro s hs
      refine hrest g hgm hgf s ?_
      unfold fieldReads at hs
      rcases List.mem_cons.1 hs with rfl | hs
      · simp
      · split at hs
        · cases hs
        · exact List.mem_cons_of_mem _ hs)
    rw [← this, deField_plain (hfl g hgm), deField_plain (hfl g hgm)]
    exact Iff.rfl

/-- **C08**, none of the names present and no default: the field is reported missing. -/
theorem C08_missing_partial {env : Env} {o : DeOpts} {n c} {cd : ClassDef} {f dk kvs} (hc : env.cls c = some cd) (htr : cd.transparent = false)
    (hf : f ∈ cd.fields) (hr : f.renderable = true) (hdf : f.dflt = none) (hfl : f.flatten = false) (hty : ¬ AbsentOk f.ty)
    (hat : AliasTy f.ty) (hcn : f.conv cd.deCase = f.name) (hg : NoGlobal env c)
    (habs : (f.name :: f.alias).findSome? (fun a => getStr a kvs) = none) :
    ∃ e, fromDict env o n (.cls c) (.dict dk kvs) = .error e ∧
      (e = .fuel ∨ e.isSerde = true ∨ PostInitRaises env e ∨ BadCall true env e) := by
  refine C16_missing_partial hc htr hf hr hdf hfl hty (.inr ⟨hcn, hat⟩) hg ?_
  rw [hcn]
  exact List.findSome?_eq_none_iff.1 habs

/-- `x: int = field(alias=["a", "b"])`, `y: Optional[str]`. -/
def C08ex : ClassDef :=
  { name := "A", mro := ["A"], fields := [{ name := "x", ty := .prim .int, alias := ["a", "b"] }, { name := "y", ty := .union [.prim .str, .none] }] }

def C08env : Env := Ex.mk [("A", C08ex), ("B", { C08ex with fields := C08ex.fields.map (withoutAlias "x") })]

/-- Both `a` and `b` are present, `x` is not: the value of `a` is taken. -/
example : fromDict C08env {} 9 (.cls "A") (.dict .plain [(.str "b", .int 2), (.str "y", .none), (.str "a", .int 1)]) = .ok (.inst "A" [("x", .int 1), ("y", .none)]) ↔
    fromDict C08env {} 9 (.cls "B") (.dict .plain [(.str "x", .int 1), (.str "y", .none)]) = .ok (.inst "B" [("x", .int 1), ("y", .none)]) :=
  C08_order_partial (cd := C08ex) (f := { name := "x", ty := .prim .int, alias := ["a", "b"] }) rfl rfl ⟨rfl, rfl⟩ rfl rfl (by decide)
    (by simp [C08ex]) trivial rfl rfl rfl rfl ⟨by simp [C08env, Ex.mk], by simp [C08env, Ex.mk]⟩
    ⟨by simp [C08env, Ex.mk], by simp [C08env, Ex.mk]⟩ (by simp [C08ex]) (by simp [C08ex, AliasTy]) rfl (by
      intro g hg hne s hs
      simp only [C08ex, List.mem_cons, List.not_mem_nil, or_false] at hg
      rcases hg with rfl | rfl
      · exact absurd rfl hne
      · simp [FieldDef.conv, C08ex] at hs
        rw [hs]; rfl)

example : fromDict C08env {} 9 (.cls "A") (.dict .plain [(.str "b", .int 2), (.str "y", .none), (.str "a", .int 1)]) = .ok (.inst "A" [("x", .int 1), ("y", .none)]) := rfl

example : ∃ e, fromDict C08env {} 9 (.cls "A") (.dict .plain [(.str "y", .none)]) = .error e ∧
      (e = .fuel ∨ e.isSerde = true ∨ PostInitRaises C08env e ∨ BadCall true C08env e) :=
  C08_missing_partial (cd := C08ex) (f := { name := "x", ty := .prim .int, alias := ["a", "b"] }) rfl rfl (by simp [C08ex]) rfl rfl rfl
    (by intro h; cases h; rename_i h; cases h) trivial rfl ⟨by simp [C08env, Ex.mk], by simp [C08env, Ex.mk]⟩ rfl

/-! ## C09 -/

/-- A field without aliases. -/
def noAliases (f : FieldDef) : FieldDef := { f with alias := [] }

/-- **C09**, first half: aliases never change what is serialized, in either format (any class: flattened, transparent, renamed fields). -/
theorem C09_serialize {env : Env} {so : SeOpts} {n c c'} {cd : ClassDef} {attrs} (hc : env.cls c = some cd)
    (hc' : env.cls c' = some { cd with fields := cd.fields.map noAliases }) (ht : SameTables env c c')
    (hu : NotUnion so.c) (hg : NoGlobal env c) (hg' : NoGlobal env c') :
    toDict env so n (.inst c' attrs) = toDict env so n (.inst c attrs) ∧ toTuple env so n (.inst c' attrs) = toTuple env so n (.inst c attrs) := by
  have hS : SeSame noAliases cd { cd with fields := cd.fields.map noAliases } :=
    ⟨rfl, fun _ _ _ => rfl, fun _ _ => ⟨rfl, rfl⟩, fun _ _ => ⟨rfl, rfl⟩, fun _ _ => rfl, rfl, rfl, ⟨rfl, rfl, rfl, rfl, rfl⟩⟩
  exact ⟨toDict_same hS hc hc' ht hu hg hg', toTuple_same hS hc hc' ht hu hg hg'⟩

/-- **C09**, second half: the serialized form of an object is read back although its class, and the classes of the objects in it, have
aliases. Aliased fields must not be renamed and have one of the types for which aliases are implemented (`FieldPlain.alias`);
`Findings.C09_false_alias_and_rename` refutes the property for renamed ones. -/
theorem C09_round_trip_partial {env : Env} {so : SeOpts} {o : DeOpts} {c} {cd : ClassDef} {v} (hc : env.cls c = some cd)
    (hs : so.c = none) (hn : o.numbers = none)
    (hre : so.reuse.getD cd.reuseDflt = true → o.reuse.getD cd.reuseDflt = true)
    (hok : EnvOk env (rawFmt env true (so.reuse.getD cd.reuseDflt) (so.conv.getD cd.convDflt) (o.reuse.getD cd.reuseDflt) hre so.skipNone))
    (hv : HasTy env (.cls c) v) :
    ∃ w, Ev (fun n => toDict env so n v = .ok w ∧ fromDict env o n (.cls c) w = .ok v) :=
  C01_dict_round_trip_partial hc hs hn hre hok hv

/-- `x: int = field(alias=["a", "y"])`, `e: Optional[str] = field(alias=["x"])`, where an alias is the name of the other field,
and `c: list[C]`. -/
def C09C : ClassDef :=
  { name := "C", mro := ["C"], fields := [{ name := "x", ty := .prim .int, alias := ["a", "e"] },
    { name := "e", ty := .union [.prim .str, .none], alias := ["x"], dflt := some .none }, { name := "c", ty := .list .list (.cls "C") }] }

def C09env : Env := Ex.mk [("C", C09C)]

theorem C09ok (F : Fmt C09env) (h : F.named = true) (hsn : F.skipNone = false) : EnvOk C09env F where
  classes := by
    intro c cd hc _
    have : c = "C" ∧ cd = C09C := by
      simp only [C09env, Ex.mk, Env.cls, List.lookup] at hc
      split at hc
      · rename_i h'; cases hc; exact ⟨by simpa using h', rfl⟩
      · cases hc
    obtain ⟨rfl, rfl⟩ := this
    exact {
      fields := by
        intro f hf
        simp only [C09C, List.mem_cons, List.not_mem_nil, or_false] at hf
        rcases hf with rfl | rfl | rfl
        · exact .plain ⟨rfl, ⟨rfl, rfl, rfl⟩, .inr ⟨trivial, rfl⟩, rfl, ⟨rfl, rfl⟩, rfl⟩ (.never ⟨rfl, rfl, rfl, rfl⟩ (fun h' => by rw [hsn] at h'; cases h'))
        · exact .plain ⟨rfl, ⟨rfl, rfl, rfl⟩, .inr ⟨trivial, rfl⟩, rfl, ⟨rfl, rfl⟩, rfl⟩ (.never ⟨rfl, rfl, rfl, rfl⟩ (fun h' => by rw [hsn] at h'; cases h'))
        · exact .plain ⟨rfl, ⟨rfl, rfl, rfl⟩, .inl rfl, rfl, ⟨rfl, rfl⟩, rfl⟩ (.never ⟨rfl, rfl, rfl, rfl⟩ (fun h' => by rw [hsn] at h'; cases h'))
      names := by decide
      wires := by decide
      types := by
        intro f hf named _
        simp only [C09C, List.mem_cons, List.not_mem_nil, or_false] at hf
        rcases hf with rfl | rfl | rfl
        · exact .scalar .prim
        · exact .opt (by simp) (.scalar .prim)
        · exact .list (.cls (cd := C09C) rfl)
      notTransparent := rfl
      noHook := by intro p h; cases h
      noClassCustom := ⟨rfl, rfl⟩
      mroSelf := by simp [C09C]
      kwLast := by simp [C09C]
      kwTuple := by rw [h]; intro h; cases h }
  wrappers := by
    intro c cd hc ht
    simp only [C09env, Ex.mk, Env.cls, List.lookup] at hc
    split at hc
    · cases hc; cases ht
    · cases hc
  noGlobal := ⟨rfl, rfl⟩

def C09obj : Val := .inst "C" [("x", .int 1), ("e", .none), ("c", .list [.inst "C" [("x", .int 2), ("e", .str "s"), ("c", .list [])]])]

theorem C09obj_ty : HasTy C09env (.cls "C") C09obj := by
  refine .inst (cd := C09C) rfl rfl ?_
  intro p hp
  simp only [C09C, List.zip_cons_cons, List.zip_nil_right, List.mem_cons, List.not_mem_nil, or_false] at hp
  rcases hp with rfl | rfl | rfl
  · exact .int
  · exact .union (t := .none) (by simp) .none
  · refine .list ?_
    intro x hx
    rw [List.mem_singleton] at hx
    subst hx
    refine .inst (cd := C09C) rfl rfl ?_
    intro p hp
    simp only [C09C, List.zip_cons_cons, List.zip_nil_right, List.mem_cons, List.not_mem_nil, or_false] at hp
    rcases hp with rfl | rfl | rfl
    · exact .int
    · exact .union (t := .prim .str) (by simp) .str
    · exact .list (by simp)

example : ∃ w, Ev (fun n => toDict C09env {} n C09obj = .ok w ∧ fromDict C09env {} n (.cls "C") w = .ok C09obj) :=
  C09_round_trip_partial (cd := C09C) (so := {}) (o := {}) rfl rfl rfl id (C09ok _ rfl rfl) C09obj_ty

example : toDict C08env {} 9 (.inst "B" [("x", .int 1), ("y", .none)]) = toDict C08env {} 9 (.inst "A" [("x", .int 1), ("y", .none)]) ∧
    toTuple C08env {} 9 (.inst "B" [("x", .int 1), ("y", .none)]) = toTuple C08env {} 9 (.inst "A" [("x", .int 1), ("y", .none)]) :=
  C09_serialize (cd := C08ex) rfl rfl ⟨rfl, rfl⟩ (.inl rfl) ⟨by simp [C08env, Ex.mk], by simp [C08env, Ex.mk]⟩ ⟨by simp [C08env, Ex.mk], by simp [C08env, Ex.mk]⟩

end Verif.Props
