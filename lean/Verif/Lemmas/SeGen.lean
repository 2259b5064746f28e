import Verif.Lemmas.SeMono
import Verif.Lemmas.RTBase
import Verif.Spec.Twin
/-!
# What `to_dict` and `to_tuple` do with the fields of an arbitrary class
-/

namespace Verif
open Spec

/-- What a field that is not flattened adds to the dict: nothing, or an entry. -/
def emitAt (env : Env) (m : Nat) (cx : SeCx) (cd : ClassDef) (obj : Val) (f : FieldDef) : Res (Option (Val × Val)) :=
  match (seAt env m).render cx (seFieldArg f (.ok obj)) with
  | .error e => .error e
  | .ok sub => match skips env (seAt env (m + 1)) cx (f.skipRule cd) sub with
    | .error e => .error e
    | .ok true => .ok none
    | .ok false => .ok (some (.str (f.conv cd.seCase), sub))

/-- Add an optional entry. -/
def addEntry (acc : List (Val × Val)) : Option (Val × Val) → List (Val × Val)
  | some (k, v) => dictSet k v acc
  | none => acc

theorem flat_unflat {env : Env} {m cx} {a : SeArg} (h : a.flatten = false) :
    (seAt env (m + 1)).flat cx a = match (seAt env m).render cx a with
      | .ok v => .ok [v]
      | .error e => .error e := by
  rw [seAt_flat]
  unfold flatF
  dsimp only
  rw [h]
  split
  · rfl
  · split <;> rfl

theorem lvals_unflat {env : Env} {case n f} (h : f.flatten = false) : lvals env case (n + 1) f = [.key (f.conv case)] := by
  unfold lvals FieldDef.flatChild FieldDef.flatDict
  simp [h]

theorem seField_emit {env : Env} {m cx cd obj res} {f : FieldDef} (h : f.flatten = false) :
    seField env (seAt env (m + 1)) cx cd obj res f = match emitAt env m cx cd obj f with
      | .error e => .error e
      | .ok o => .ok (addEntry res o) := by
  unfold seField emitAt
  rw [flat_unflat (a := seFieldArg f (.ok obj)) h, lvals_unflat h]
  cases (seAt env m).render cx (seFieldArg f (.ok obj)) with
  | error e => rfl
  | ok sub =>
    dsimp only [joinVals]
    cases skips env (seAt env (m + 1)) cx (f.skipRule cd) sub with
    | error e => rfl
    | ok b => cases b <;> rfl

theorem seFields_emit {env : Env} {m cx cd obj} {fs : List FieldDef} (h : ∀ f ∈ fs, f.flatten = false) (res) :
    seFields env (seAt env (m + 1)) cx cd obj res fs = match mapR (emitAt env m cx cd obj) fs with
      | .error e => .error e
      | .ok os => .ok (os.foldl addEntry res) := by
  induction fs generalizing res with
  | nil => rfl
  | cons f fs ih =>
    unfold seFields
    rw [seField_emit (h f (by simp))]
    simp only [mapR]
    cases emitAt env m cx cd obj f with
    | error e => rfl
    | ok o =>
      dsimp only
      rw [ih (fun g hg => h g (by simp [hg]))]
      cases mapR (emitAt env m cx cd obj) fs with
      | error e => rfl
      | ok os => rfl

/-- Keys of emitted entries. -/
theorem emitAt_key {env : Env} {m cx cd obj f k v} (h : emitAt env m cx cd obj f = .ok (some (k, v))) : k = .str (f.conv cd.seCase) := by
  unfold emitAt at h
  split at h
  · cases h
  · split at h
    · cases h
    · cases h
    · cases h; rfl

theorem foldl_addEntry {os : List (Option (Val × Val))} {res : List (Val × Val)} (h1 : ∀ a ∈ res, ∀ e, some e ∈ os → pyEq a.1 e.1 = false)
    (h2 : ((os.filterMap id).map (·.1)).Pairwise (fun a b => pyEq a b = false)) :
    os.foldl addEntry res = res ++ os.filterMap id := by
  induction os generalizing res with
  | nil => simp
  | cons o os ih =>
    cases o with
    | none =>
      rw [List.foldl_cons]
      simpa [addEntry] using ih (fun a ha e he => h1 a ha e (by simp [he])) (by simpa using h2)
    | some e =>
      obtain ⟨k, v⟩ := e
      rw [List.foldl_cons]
      simp only [addEntry]
      rw [dictSet_new (fun kv hkv => h1 kv hkv (k, v) (by simp))]
      rw [List.filterMap_cons_some (f := id) (b := (k, v)) rfl, List.map_cons, List.pairwise_cons] at h2
      rw [ih]
      · simp
      · intro a ha e he
        rcases List.mem_append.1 ha with ha | ha
        · exact h1 a ha e (by simp [he])
        · rw [List.mem_singleton.1 ha]
          exact h2.1 e.1 (List.mem_map.2 ⟨e, by simpa using he, rfl⟩)
      · exact h2.2

/-- The emitted entries in order, when all names are distinct. -/
theorem mapR_emit_pairwise {env : Env} {m cx cd obj} {fs : List FieldDef} {os} (hn : (fs.map (fun f => f.conv cd.seCase)).Nodup)
    (h : mapR (emitAt env m cx cd obj) fs = .ok os) : ((os.filterMap id).map (·.1)).Pairwise (fun a b => pyEq a b = false) := by
  have key : ∀ {fs : List FieldDef} {os}, mapR (emitAt env m cx cd obj) fs = .ok os →
      ((os.filterMap id).map (·.1)).Sublist (fs.map (fun f => Val.str (f.conv cd.seCase))) := by
    intro fs
    induction fs with
    | nil => intro os h; cases h; exact .refl _
    | cons f fs ih =>
      intro os h
      simp only [mapR] at h
      split at h
      · cases h
      · rename_i o ho
        split at h
        · cases h
        · rename_i os' hos
          cases h
          cases o with
          | none => simpa using (ih hos).cons _
          | some e =>
            obtain ⟨k, v⟩ := e
            have := emitAt_key ho
            subst this
            simpa using (ih hos)
  refine (List.Pairwise.sublist (key h) ?_)
  rw [List.pairwise_map]
  rw [List.Nodup, List.pairwise_map] at hn
  refine hn.imp ?_
  intro a b hab
  rw [Bool.eq_false_iff]
  intro hp
  rw [pyEq_str_right] at hp
  exact hab (Val.str.inj hp)

/-! ## Entry points -/

theorem find_none_of {env : Env} {c} (hg : ∀ s ∈ env.gser, s.handles (.cls c) = false) {attrs} :
    env.gser.find? (fun s => s.handles (typeOf (.inst c attrs))) = none := by
  rw [List.find?_eq_none]
  intro s hs
  simp [typeOf, hg s hs]

/-- `c=` of an entry point is not a union. -/
def NotUnion (c : Option Ty) : Prop := c = none ∨ ∃ d, c = some (.cls d)

theorem toObj_inst' {env : Env} {n b re cv sn c tg c' attrs} (hc : NotUnion c) (hg : ∀ s ∈ env.gser, s.handles (.cls c') = false) :
    (seAt env (n + 1)).toObj b re cv sn c tg (.inst c' attrs) = wrapAll ((seAt env n).cls b re cv sn (.inst c' attrs)) := by
  rw [seAt_toObj]
  unfold toObjF
  rcases hc with rfl | ⟨d, rfl⟩
  · rw [toObjBody_eq]; unfold toObjPlain; dsimp only; rw [find_none_of hg]
  · rw [toObjBody_eq]; unfold toObjPlain; dsimp only; rw [find_none_of hg]

theorem wrapAll_ok {α : Type} {r : Res α} {x} : wrapAll r = .ok x ↔ r = .ok x := by
  cases r with
  | ok a => exact Iff.rfl
  | error e => cases e <;> simp [wrapAll]

theorem toDict_fuel0 {env : Env} {so v} : toDict env so 0 v = .error .fuel := rfl

theorem toDict_cls {env : Env} {so : SeOpts} {n c attrs} (hc : NotUnion so.c) (hg : ∀ s ∈ env.gser, s.handles (.cls c) = false) :
    toDict env so (n + 1) (.inst c attrs) = wrapAll ((seAt env n).cls true so.reuse so.conv so.skipNone (.inst c attrs)) := toObj_inst' hc hg

theorem toTuple_cls {env : Env} {so : SeOpts} {n c attrs} (hc : NotUnion so.c) (hg : ∀ s ∈ env.gser, s.handles (.cls c) = false) :
    toTuple env so (n + 1) (.inst c attrs) = wrapAll ((seAt env n).cls false so.reuse so.conv so.skipNone (.inst c attrs)) := toObj_inst' hc hg

/-- The context in which `to_dict` of a class runs. -/
def topSeCx (env : Env) (c : ClassId) (cd : ClassDef) (named : Bool) (so : SeOpts) : SeCx := clsSeCx env c cd named so.reuse so.conv so.skipNone

theorem cls_emit {env : Env} {m re cv sn c} {cd : ClassDef} {attrs} (hc : env.cls c = some cd) (htr : cd.transparent = false)
    (hfl : ∀ f ∈ cd.seFieldsOf, f.flatten = false) :
    (seAt env (m + 2)).cls true re cv sn (.inst c attrs) =
      match mapR (emitAt env m (clsSeCx env c cd true re cv sn) cd (.inst c attrs)) cd.seFieldsOf with
      | .ok os => .ok (.dict .plain (os.foldl addEntry []))
      | .error e => .error e := by
  rw [seAt_cls]
  unfold clsF
  dsimp only
  rw [hc]
  dsimp only
  rw [htr, seFields_emit hfl]
  cases mapR (emitAt env m (clsSeCx env c cd true re cv sn) cd (.inst c attrs)) cd.seFieldsOf <;> rfl

/-- `to_dict` of a class without flattened fields. -/
theorem toDict_emit {env : Env} {so : SeOpts} {m c} {cd : ClassDef} {attrs} (hc : env.cls c = some cd) (htr : cd.transparent = false)
    (hfl : ∀ f ∈ cd.seFieldsOf, f.flatten = false) (hu : NotUnion so.c) (hg : ∀ s ∈ env.gser, s.handles (.cls c) = false)
    (hn : (cd.seFieldsOf.map (fun f => f.conv cd.seCase)).Nodup) {w} :
    toDict env so (m + 3) (.inst c attrs) = .ok w ↔
      ∃ os, mapR (emitAt env m (topSeCx env c cd true so) cd (.inst c attrs)) cd.seFieldsOf = .ok os ∧ w = .dict .plain (os.filterMap id) := by
  rw [toDict_cls hu hg, wrapAll_ok, cls_emit hc htr hfl]
  unfold topSeCx
  cases h : mapR (emitAt env m (clsSeCx env c cd true so.reuse so.conv so.skipNone) cd (.inst c attrs)) cd.seFieldsOf with
  | error e => simp
  | ok os =>
    dsimp only
    rw [foldl_addEntry (res := []) (by simp) (mapR_emit_pairwise hn h)]
    simp only [List.nil_append, Except.ok.injEq]
    constructor
    · rintro rfl; exact ⟨os, rfl, rfl⟩
    · rintro ⟨os', rfl, rfl⟩; rfl

theorem toDict_low {env : Env} {so : SeOpts} {n c} {cd : ClassDef} {attrs w} (hc : env.cls c = some cd) (htr : cd.transparent = false)
    (hu : NotUnion so.c) (hg : ∀ s ∈ env.gser, s.handles (.cls c) = false)
    (h : toDict env so n (.inst c attrs) = .ok w) : (∃ m, n = m + 3) ∨ cd.seFieldsOf = [] := by
  match n with
  | 0 => cases h
  | 1 => rw [toDict_cls hu hg] at h; cases h
  | 2 =>
    rw [toDict_cls hu hg, wrapAll_ok, seAt_cls] at h
    unfold clsF at h
    dsimp only at h
    rw [hc] at h
    dsimp only at h
    rw [htr] at h
    simp only [Bool.false_eq_true, if_false, if_true] at h
    cases hs : cd.seFieldsOf with
    | nil => exact .inr rfl
    | cons f fs =>
      rw [hs] at h
      unfold seFields seField at h
      cases h
  | m + 3 => exact .inl ⟨m, rfl⟩

/-- `to_tuple` of a class without flattened fields. -/
theorem cls_rows {env : Env} {m re cv sn c} {cd : ClassDef} {attrs} (hc : env.cls c = some cd) (htr : cd.transparent = false)
    (hfl : ∀ f ∈ cd.seFieldsOf, f.flatten = false) :
    (seAt env (m + 2)).cls false re cv sn (.inst c attrs) =
      match mapR (fun f => (seAt env m).render (clsSeCx env c cd false re cv sn) (seFieldArg f (.ok (.inst c attrs)))) cd.seFieldsOf with
      | .ok ws => .ok (.tuple ws)
      | .error e => .error e := by
  rw [seAt_cls]
  unfold clsF
  dsimp only
  rw [hc]
  dsimp only
  rw [htr]
  simp only [Bool.false_eq_true, if_false]
  have key : ∀ {fs : List FieldDef}, (∀ f ∈ fs, f.flatten = false) →
      concatR (fun f => (seAt env (m + 1)).flat (clsSeCx env c cd false re cv sn) (seFieldArg f (.ok (.inst c attrs)))) fs =
      mapR (fun f => (seAt env m).render (clsSeCx env c cd false re cv sn) (seFieldArg f (.ok (.inst c attrs)))) fs := by
    intro fs
    induction fs with
    | nil => intro _; rfl
    | cons f fs ih =>
      intro h
      simp only [concatR, mapR]
      rw [flat_unflat (a := seFieldArg f (.ok (.inst c attrs))) (h f (by simp)), ih (fun g hg => h g (by simp [hg]))]
      cases (seAt env m).render (clsSeCx env c cd false re cv sn) (seFieldArg f (.ok (.inst c attrs))) with
      | error e => rfl
      | ok v =>
        dsimp only
        cases mapR (fun f => (seAt env m).render (clsSeCx env c cd false re cv sn) (seFieldArg f (.ok (.inst c attrs)))) fs <;> rfl
  rw [key hfl]
  cases mapR (fun f => (seAt env m).render (clsSeCx env c cd false re cv sn) (seFieldArg f (.ok (.inst c attrs)))) cd.seFieldsOf <;> rfl

theorem toTuple_render {env : Env} {so : SeOpts} {m c} {cd : ClassDef} {attrs} (hc : env.cls c = some cd) (htr : cd.transparent = false)
    (hfl : ∀ f ∈ cd.seFieldsOf, f.flatten = false) (hu : NotUnion so.c) (hg : ∀ s ∈ env.gser, s.handles (.cls c) = false) {w} :
    toTuple env so (m + 3) (.inst c attrs) = .ok w ↔
      ∃ ws, mapR (fun f => (seAt env m).render (topSeCx env c cd false so) (seFieldArg f (.ok (.inst c attrs)))) cd.seFieldsOf = .ok ws ∧ w = .tuple ws := by
  rw [toTuple_cls hu hg, wrapAll_ok, cls_rows hc htr hfl]
  unfold topSeCx
  cases mapR (fun f => (seAt env m).render (clsSeCx env c cd false so.reuse so.conv so.skipNone) (seFieldArg f (.ok (.inst c attrs)))) cd.seFieldsOf with
  | error e => simp
  | ok ws =>
    simp only [Except.ok.injEq]
    constructor
    · rintro rfl; exact ⟨ws, rfl, rfl⟩
    · rintro ⟨ws', rfl, rfl⟩; rfl

end Verif
