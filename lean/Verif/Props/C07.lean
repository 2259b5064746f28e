import Verif.Props.C05
import Verif.Lemmas.Default
import Verif.Examples.World
/-!
# C07: wire names
-/

namespace Verif.Props
open Spec

/-- The field with another `rename`. -/
def renamed (r : FieldDef → Option String) (f : FieldDef) : FieldDef := { f with rename := r f }

/-- The class with other names: any `rename` on each field, any `rename_all` on either side. -/
def withNames (r : FieldDef → Option String) (se de : Option (String → String)) (cd : ClassDef) : ClassDef :=
  { cd with fields := cd.fields.map (renamed r), seCase := se, deCase := de }

theorem emitAt_renamed {env : Env} {m} {cx : SeCx} {cd : ClassDef} {c c' attrs r se de f} :
    emitAt env m cx (withNames r se de cd) (.inst c' attrs) (renamed r f) =
      match emitAt env m cx cd (.inst c attrs) f with
      | .ok (some (_, v)) => .ok (some (.str ((renamed r f).conv se), v))
      | .ok none => .ok none
      | .error e => .error e := by
  unfold emitAt
  have : seFieldArg (renamed r f) (.ok (.inst c' attrs)) = seFieldArg f (.ok (.inst c attrs)) := rfl
  rw [this]
  have : (renamed r f).skipRule (withNames r se de cd) = f.skipRule cd := rfl
  rw [this]
  cases (seAt env m).render cx (seFieldArg f (.ok (.inst c attrs))) with
  | error e => rfl
  | ok v =>
    dsimp only
    cases skips env (seAt env (m + 1)) cx (f.skipRule cd) v with
    | error e => rfl
    | ok b => cases b <;> rfl

theorem emit_list_renamed {env : Env} {m} {cx : SeCx} {cd : ClassDef} {c c' attrs r se de} {fs : List FieldDef} {os}
    (h : mapR (emitAt env m cx cd (.inst c attrs)) fs = .ok os) :
    ∃ L : List (FieldDef × Val), os.filterMap id = L.map (fun p => (.str (p.1.conv cd.seCase), p.2)) ∧ (L.map (·.1)).Sublist fs ∧
      ∃ os', mapR (emitAt env m cx (withNames r se de cd) (.inst c' attrs)) (fs.map (renamed r)) = .ok os' ∧
        os'.filterMap id = L.map (fun p => (.str ((renamed r p.1).conv se), p.2)) := by
  induction fs generalizing os with
  | nil => cases h; exact ⟨[], rfl, .refl _, [], rfl, rfl⟩
  | cons f fs ih =>
    simp only [mapR] at h
    split at h
    · cases h
    · rename_i o ho
      split at h
      · cases h
      · rename_i os1 hos
        cases h
        obtain ⟨L, h1, h2, os', h3, h4⟩ := ih hos
        have he := @emitAt_renamed env m cx cd c c' attrs r se de f
        rw [ho] at he
        cases o with
        | none => exact ⟨L, by simpa using h1, h2.cons _, none :: os', mapR_cons_ok he h3, by simpa using h4⟩
        | some e =>
          refine ⟨(f, e.2) :: L, ?_, by simpa using h2, _, mapR_cons_ok he h3, by simp [h4]⟩
          have := (emitAt_some ho).2
          simp [h1, ← this]

theorem renamed_fields {r : FieldDef → Option String} {se de} {cd : ClassDef} :
    (withNames r se de cd).seFieldsOf = cd.seFieldsOf.map (renamed r) := by
  unfold ClassDef.seFieldsOf withNames
  rw [List.filter_map]
  rfl

/-- **C07**, writing: a class and a copy of it with entirely different names (`rename` on each field, `rename_all` on the class)
write the same values for the same fields in the same order; each uses, as keys, the wire names of its own configuration.
Taking a copy without any `rename` or `rename_all` shows that names affect nothing but the keys. -/
theorem C07_writes_partial {env : Env} {so : SeOpts} {n c c'} {cd : ClassDef} {r se de attrs w} (hc : env.cls c = some cd)
    (hc' : env.cls c' = some (withNames r se de cd)) (ht : SameTables env c c')
    (htr : cd.transparent = false) (hfl : ∀ f ∈ cd.fields, f.flatten = false) (hren : ∀ f ∈ cd.fields, RenameOk f)
    (hren' : ∀ f ∈ cd.fields, r f ≠ some "") (hu : NotUnion so.c) (hg : NoGlobal env c) (hg' : NoGlobal env c')
    (hn : ((cd.fields.filter serializable).map (fun f => wireName f.rename cd.seCase f.name)).Nodup)
    (hn' : ((cd.fields.filter serializable).map (fun f => wireName (r f) se f.name)).Nodup)
    (h : toDict env so n (.inst c attrs) = .ok w) :
    ∃ L : List (FieldDef × Val), (L.map (·.1)).Sublist (cd.fields.filter serializable) ∧
      w = .dict .plain (L.map (fun p => (.str (wireName p.1.rename cd.seCase p.1.name), p.2))) ∧
      Ev (fun n => toDict env so n (.inst c' attrs) = .ok (.dict .plain (L.map (fun p => (.str (wireName (r p.1) se p.1.name), p.2))))) := by
  have hsub : ∀ f ∈ cd.seFieldsOf, f ∈ cd.fields := by rw [seFieldsOf_eq]; intro f hf; exact (List.mem_filter.1 hf).1
  have hconv : ∀ f ∈ cd.seFieldsOf, f.conv cd.seCase = wireName f.rename cd.seCase f.name := fun f hf => conv_eq_wireName (hren f (hsub f hf)) _
  have hconv' : ∀ f ∈ cd.seFieldsOf, (renamed r f).conv se = wireName (r f) se f.name := fun f hf =>
    conv_eq_wireName (f := renamed r f) (hren' f (hsub f hf)) _
  have hw : (cd.seFieldsOf.map (fun f => f.conv cd.seCase)).Nodup := by
    rw [List.map_congr_left hconv, seFieldsOf_eq]; exact hn
  have hw' : ((withNames r se de cd).seFieldsOf.map (fun f => f.conv (withNames r se de cd).seCase)).Nodup := by
    rw [renamed_fields, List.map_map, List.map_congr_left (g := fun f => wireName (r f) se f.name), seFieldsOf_eq]
    · exact hn'
    · intro f hf; exact hconv' f hf
  have hfl' : ∀ f ∈ (withNames r se de cd).seFieldsOf, f.flatten = false := by
    rw [renamed_fields]
    intro g hg
    obtain ⟨f, hf, rfl⟩ := List.mem_map.1 hg
    exact hfl f (hsub f hf)
  have hcx : topSeCx env c' (withNames r se de cd) true so = topSeCx env c cd true so := by
    unfold topSeCx clsSeCx withNames; dsimp only; rw [ht.unions]
  have h' : ∀ m, n ≤ m → ∃ os, mapR (emitAt env m (topSeCx env c cd true so) cd (.inst c attrs)) cd.seFieldsOf = .ok os ∧ w = .dict .plain (os.filterMap id) := by
    intro m hm
    exact (toDict_emit hc htr (fun f hf => hfl f (hsub f hf)) hu hg.ser hw).1 (toDict_mono (by omega) h)
  obtain ⟨os, hos, rfl⟩ := h' n (Nat.le_refl _)
  obtain ⟨L, h1, h2, os', h3, h4⟩ := @emit_list_renamed env n (topSeCx env c cd true so) cd c c' attrs r se de _ _ hos
  refine ⟨L, by rw [← seFieldsOf_eq]; exact h2, ?_, n + 3, fun k hk => ?_⟩
  · rw [h1]
    congr 1
    exact List.map_congr_left (fun p hp => by rw [hconv p.1 (h2.subset (List.mem_map_of_mem hp))])
  · refine toDict_mono hk ((toDict_emit hc' htr hfl' hu hg'.ser hw').2 ⟨os', ?_, ?_⟩)
    · rw [renamed_fields, hcx]; exact h3
    · rw [h4]
      congr 1
      exact (List.map_congr_left (fun p hp => by rw [hconv' p.1 (h2.subset (List.mem_map_of_mem hp))])).symm

/-- **C07**, reading: a class and a copy of it with entirely different names decode to the same object if each is given the same
values under its own wire names. (For fields with aliases see C08.) -/
theorem C07_reads_partial {env : Env} {o : DeOpts} {n c c'} {cd : ClassDef} {r se de attrs k k' kvs kvs'} (hc : env.cls c = some cd)
    (hc' : env.cls c' = some (withNames r se de cd)) (ht : SameTables env c c')
    (htr : cd.transparent = false) (hfl : ∀ f ∈ cd.fields, f.flatten = false) (hal : ∀ f ∈ cd.fields, f.alias = [])
    (hren : ∀ f ∈ cd.fields, RenameOk f) (hren' : ∀ f ∈ cd.fields, r f ≠ some "") (hdn : cd.denyUnknown = false)
    (hg : NoGlobal env c) (hg' : NoGlobal env c')
    (h : ∀ f ∈ cd.fields, getStr (wireName (r f) de f.name) kvs' = getStr (wireName f.rename cd.deCase f.name) kvs) :
    fromDict env o n (.cls c') (.dict k' kvs') = .ok (.inst c' attrs) ↔ fromDict env o n (.cls c) (.dict k kvs) = .ok (.inst c attrs) := by
  have hS : SigMap (renamed r) cd.fields := ⟨fun _ _ => rfl, fun _ _ => rfl, fun _ _ => rfl, fun _ _ => rfl, fun _ _ => rfl, fun _ _ => .inl rfl⟩
  have hfl' : ∀ f ∈ (withNames r se de cd).fields, f.flatten = false := by
    intro g hg
    obtain ⟨f, hf, rfl⟩ := List.mem_map.1 hg
    exact hfl f hf
  have hu : ∀ {c d} {cd : ClassDef}, cd.denyUnknown = false → deUnknown env c cd d = .ok false := by
    intro c d cd h; unfold deUnknown; rw [h]; rfl
  refine fromDict_twin_ok hc hc' htr htr (hasFlatDict_plain hfl) (hasFlatDict_plain hfl') (hu hdn) (hu hdn) hg hg'
    (by intro as h; cases h) (by intro as h; cases h) attrs (fun m => ?_)
  refine decodeCls_map_ok (c := c) (c' := c') (cd := cd) (cd' := withNames r se de cd) (g := renamed r) rfl hS rfl rfl ?_ attrs
  intro f hf _ w
  have hcv : getStr ((renamed r f).conv de) kvs' = getStr (f.conv cd.deCase) kvs := by
    rw [conv_eq_wireName (f := renamed r f) (hren' f hf), conv_eq_wireName (hren f hf)]
    exact h f hf
  rw [deField_plain (f := renamed r f) (hfl f hf), deField_plain (hfl f hf)]
  have hr : (deAt env m).render (clsDeCx env c' (withNames r se de cd) true (topCall o) (.dict k' kvs')) (plainArg (withNames r se de cd) (renamed r f) (.dict k' kvs')) =
      (deAt env m).render (clsDeCx env c cd true (topCall o) (.dict k kvs)) (plainArg cd f (.dict k kvs)) := by
    have hcx : clsDeCx env c' (withNames r se de cd) true (topCall o) (.dict k' kvs') =
        { clsDeCx env c cd true (topCall o) (.dict k kvs) with data := .dict k' kvs' } := by
      unfold clsDeCx withNames; dsimp only; rw [ht.unions, ht.lits]
    rw [hcx]
    exact render_sim env m (clsDeCx env c cd true (topCall o) (.dict k kvs)) _ _ _ ⟨rfl, rfl, rfl, rfl, hal f hf, hal f hf, rfl, rfl, .key hcv.symm⟩
  rw [hr]
  show (match f.dflt with | some _ => _ | none => _) = _ ↔ _
  cases f.dflt with
  | none => dsimp only; rw [catchKey_ok, catchKey_ok]
  | some d => exact Iff.rfl

/-- `x: int = field(rename="X")`, `long_name: Optional[str]` under a case conversion. -/
def C07ex : ClassDef :=
  { name := "A", mro := ["A"], seCase := some (fun s => s ++ "!"), deCase := some (fun s => s ++ "!"),
    fields := [{ name := "x", ty := .prim .int, rename := some "X" }, { name := "long_name", ty := .union [.prim .str, .none] }] }

def C07env : Env := Ex.mk [("A", C07ex), ("B", withNames (fun _ => none) none none C07ex)]

example : ∃ L : List (FieldDef × Val), (L.map (·.1)).Sublist (C07ex.fields.filter serializable) ∧
      Val.dict .plain [(.str "X", .int 1), (.str "long_name!", .none)] = .dict .plain (L.map (fun p => (.str (wireName p.1.rename C07ex.seCase p.1.name), p.2))) ∧
      Ev (fun n => toDict C07env {} n (.inst "B" [("x", .int 1), ("long_name", .none)]) = .ok (.dict .plain (L.map (fun p => (.str (wireName none none p.1.name), p.2))))) :=
  C07_writes_partial (n := 9) (c := "A") (c' := "B") (cd := C07ex) (r := fun _ => none) (se := none) (de := none)
    (attrs := [("x", .int 1), ("long_name", .none)]) rfl rfl ⟨rfl, rfl⟩ rfl
    (by simp [C07ex]) (by simp [C07ex, RenameOk]) (by simp) (.inl rfl) ⟨by simp [C07env, Ex.mk], by simp [C07env, Ex.mk]⟩
    ⟨by simp [C07env, Ex.mk], by simp [C07env, Ex.mk]⟩ (by decide) (by decide) rfl

example : fromDict C07env {} 9 (.cls "B") (.dict .plain [(.str "long_name", .str "a"), (.str "x", .int 1)]) = .ok (.inst "B" [("x", .int 1), ("long_name", .str "a")]) ↔
    fromDict C07env {} 9 (.cls "A") (.dict .plain [(.str "X", .int 1), (.str "long_name!", .str "a")]) = .ok (.inst "A" [("x", .int 1), ("long_name", .str "a")]) :=
  C07_reads_partial (cd := C07ex) (r := fun _ => none) (se := none) (de := none) rfl rfl ⟨rfl, rfl⟩ rfl (by simp [C07ex]) (by simp [C07ex])
    (by simp [C07ex, RenameOk]) (by simp) rfl ⟨by simp [C07env, Ex.mk], by simp [C07env, Ex.mk]⟩
    ⟨by simp [C07env, Ex.mk], by simp [C07env, Ex.mk]⟩ (by
      intro f hf
      simp only [C07ex, List.mem_cons, List.not_mem_nil, or_false] at hf
      rcases hf with rfl | rfl <;> rfl)

example : fromDict C07env {} 9 (.cls "A") (.dict .plain [(.str "X", .int 1), (.str "long_name!", .str "a")]) = .ok (.inst "A" [("x", .int 1), ("long_name", .str "a")]) := rfl

end Verif.Props
