import Verif.Lemmas.FlatDict
import Verif.Spec.Flatten
import Verif.Props.C15
import Verif.Props.C05
import Verif.Lemmas.RTCont
/-!
# C20, C21: flattened dicts
-/

namespace Verif.Props
open Spec

/-! ## Helpers -/

theorem hasRest_of_mark {env : Env} {case n} {f : FieldDef} (h : LV.mark ∈ lvals env case n f) : HasRest env f := by
  induction n generalizing f with
  | zero => cases h
  | succ n ih =>
    unfold lvals at h
    rw [flatChild_eq_inlined] at h
    split at h
    · rename_i ch hch
      split at h
      · rename_i chd hchd
        obtain ⟨g, hg, hm⟩ := List.mem_flatMap.1 h
        exact .child hch hchd hg (ih hm)
      · cases h
    · split at h
      · rename_i hfd; exact .own hfd
      · simp at h

theorem lvals_notMark {env : Env} {case n} {f : FieldDef} (h : ¬ HasRest env f) : lvals env case n f ≠ [.mark] :=
  fun e => h (hasRest_of_mark (case := case) (n := n) (by rw [e]; simp))

theorem lvals_flatDict {env : Env} {case n} {f : FieldDef} (h : takesRest f = true) : lvals env case (n + 1) f = [.mark] := by
  have : f.flatChild = none := by
    rw [flatChild_eq_inlined]
    unfold takesRest at h
    unfold inlined
    split
    · rename_i h1 h2; rw [h2] at h; simp [Ty.isFlattenDict] at h
    · rename_i h1 h2; rw [h2] at h; simp [Ty.isFlattenDict] at h
    · rfl
  unfold lvals
  rw [this, flatDict_eq_takesRest, h]
  rfl

theorem cls_entries {env : Env} {m re cv sn c} {cd : ClassDef} {attrs} (hc : env.cls c = some cd) (htr : cd.transparent = false)
    (hl : ∀ f ∈ cd.seFieldsOf, lvals env cd.seCase (env.classes.length + 1) f ≠ [.mark]) :
    (seAt env (m + 1)).cls true re cv sn (.inst c attrs) =
      match mapR (entriesAt env (seAt env m) (clsSeCx env c cd true re cv sn) cd (.inst c attrs)) cd.seFieldsOf with
      | .ok ess => .ok (.dict .plain (ess.flatten.foldl putE []))
      | .error e => .error e := by
  rw [seAt_cls]
  unfold clsF
  dsimp only
  rw [hc]
  dsimp only
  rw [htr, seFields_entries hl]
  cases mapR (entriesAt env (seAt env m) (clsSeCx env c cd true re cv sn) cd (.inst c attrs)) cd.seFieldsOf <;> rfl

theorem mapR_append_ok {α β : Type} {f : α → Res β} {as bs : List α} {ys} (h : mapR f (as ++ bs) = .ok ys) :
    ∃ ys1 ys2, mapR f as = .ok ys1 ∧ mapR f bs = .ok ys2 ∧ ys = ys1 ++ ys2 := by
  induction as generalizing ys with
  | nil => exact ⟨[], ys, rfl, h, rfl⟩
  | cons a as ih =>
    simp only [List.cons_append, mapR] at h
    split at h
    · cases h
    · rename_i b hb
      split at h
      · cases h
      · rename_i bs' hbs
        cases h
        obtain ⟨y1, y2, h1, h2, rfl⟩ := ih hbs
        exact ⟨b :: y1, y2, by simp [mapR, hb, h1], h2, rfl⟩

theorem split_field {fs : List FieldDef} {f : FieldDef} (hn : (fs.map (·.name)).Nodup) (hf : f ∈ fs) :
    ∃ a b, fs = a ++ f :: b ∧ (∀ g ∈ a, g.name ≠ f.name) ∧ ∀ g ∈ b, g.name ≠ f.name := by
  obtain ⟨a, b, rfl⟩ := List.append_of_mem hf
  refine ⟨a, b, rfl, ?_, ?_⟩
  · intro g hg h
    rw [List.map_append, List.nodup_append] at hn
    exact hn.2.2 _ (List.mem_map_of_mem hg) _ (List.mem_map_of_mem (List.mem_cons_self ..)) h
  · intro g hg h
    rw [List.map_append, List.nodup_append, List.map_cons, List.nodup_cons] at hn
    exact hn.2.1.1 (List.mem_map.2 ⟨g, hg, h⟩)

/-- The entries written for a class with a flattened dict that serializes to `ex`, compared with the class without it. -/
theorem flatDict_core {env : Env} {so : SeOpts} {n c c0} {cd : ClassDef} {f : FieldDef} {attrs decl k ex} (hc : env.cls c = some cd)
    (hc0 : env.cls c0 = some (withoutField f.name cd))
    (hu0 : env.unionsOf c0 = env.unionsOf c) (htr : cd.transparent = false) (hn : (cd.fields.map (·.name)).Nodup)
    (hf : f ∈ cd.fields) (hfr : takesRest f = true) (hfs : serializable f = true)
    (hoth : ∀ g ∈ cd.fields, g.name ≠ f.name → ¬ HasRest env g) (hu : NotUnion so.c)
    (hg : NoGlobal env c) (hg0 : NoGlobal env c0)
    (h0 : toDict env so n (.inst c0 attrs) = .ok (.dict .plain decl))
    (hrender : ∀ m, n ≤ m + 3 → (seAt env m).render (topSeCx env c cd true so) (seFieldArg f (.ok (.inst c attrs))) = .ok (.dict k ex))
    (hex : KeysDiffer ex) :
    ∃ out, Ev (fun n => toDict env so n (.inst c attrs) = .ok (.dict .plain out)) ∧ KeysDiffer out ∧
      ∀ e, e ∈ out ↔ e ∈ decl ∨ e ∈ ex ∧ ∀ r ∈ decl, r.1 ≠ e.1 := by
  obtain ⟨a, b, hab, ha, hb⟩ := split_field hn hf
  have hs : cd.seFieldsOf = a.filter serializable ++ f :: b.filter serializable := by
    rw [seFieldsOf_eq, hab, List.filter_append, List.filter_cons, if_pos hfs]
  have hs0 : (withoutField f.name cd).seFieldsOf = a.filter serializable ++ b.filter serializable := by
    rw [seFieldsOf_eq]
    unfold withoutField
    dsimp only
    rw [hab, List.filter_append, List.filter_cons]
    have h1 : a.filter (fun g => g.name != f.name) = a := List.filter_eq_self.2 (fun g hg => by simpa using ha g hg)
    have h2 : b.filter (fun g => g.name != f.name) = b := List.filter_eq_self.2 (fun g hg => by simpa using hb g hg)
    rw [h1, h2]
    simp
  have hma : ∀ g ∈ a.filter serializable, lvals env cd.seCase (env.classes.length + 1) g ≠ [.mark] := by
    intro g hg
    have := (List.mem_filter.1 hg).1
    exact lvals_notMark (hoth g (by rw [hab]; simp [this]) (ha g this))
  have hmb : ∀ g ∈ b.filter serializable, lvals env cd.seCase (env.classes.length + 1) g ≠ [.mark] := by
    intro g hg
    have := (List.mem_filter.1 hg).1
    exact lvals_notMark (hoth g (by rw [hab]; simp [this]) (hb g this))
  -- the class without the dict
  have hmono : ∀ m, n ≤ m + 3 → ∃ e1 e2, mapR (entriesAt env (seAt env (m + 1)) (topSeCx env c cd true so) cd (.inst c attrs)) (a.filter serializable) = .ok e1 ∧
      mapR (entriesAt env (seAt env (m + 1)) (topSeCx env c cd true so) cd (.inst c attrs)) (b.filter serializable) = .ok e2 ∧
      decl = (e1.flatten ++ e2.flatten).foldl putE [] := by
    intro m hm
    have h := toDict_mono hm h0
    rw [toDict_cls hu hg0.ser, wrapAll_ok, cls_entries hc0 htr (by
      rw [hs0]
      intro g hg
      rcases List.mem_append.1 hg with hg | hg
      · exact hma g hg
      · exact hmb g hg), hs0] at h
    have hcx : clsSeCx env c0 (withoutField f.name cd) true so.reuse so.conv so.skipNone = topSeCx env c cd true so := by
      unfold topSeCx clsSeCx withoutField; dsimp only; rw [hu0]
    rw [hcx] at h
    have he : entriesAt env (seAt env (m + 1)) (topSeCx env c cd true so) (withoutField f.name cd) (.inst c0 attrs) =
        entriesAt env (seAt env (m + 1)) (topSeCx env c cd true so) cd (.inst c attrs) := rfl
    rw [he] at h
    split at h
    · rename_i ess hess
      obtain ⟨y1, y2, h1, h2, rfl⟩ := mapR_append_ok hess
      injection h with h
      injection h with _ h
      exact ⟨y1, y2, h1, h2, by rw [← h, List.flatten_append]⟩
    · cases h
  have htruthy : ∀ res : List (Val × Val), (if truthy env (.dict k ex) then
      (match pyItems (.dict k ex) with
        | .ok kvs => (.ok (mergeDict res kvs) : Res (List (Val × Val)))
        | .error e => .error e)
      else .ok res) = .ok (mergeDict res ex) := by
    intro res
    cases ex with
    | nil => rfl
    | cons x xs => rfl
  -- the entries do not depend on the fuel any more
  obtain ⟨e1, e2, he1, he2, hdecl⟩ := hmono (n + 3) (by omega)
  refine ⟨e2.flatten.foldl putE (mergeDict (e1.flatten.foldl putE []) ex), ?_, ?_, ?_⟩
  · refine ⟨n + 7, fun N hN => ?_⟩
    refine toDict_mono (n := n + 3 + 3) (by omega) ?_
    rw [toDict_cls hu hg.ser, wrapAll_ok, seAt_cls]
    unfold clsF
    dsimp only
    rw [hc]
    dsimp only
    rw [htr, hs]
    simp only [Bool.false_eq_true, if_false, if_true]
    rw [seFields_append, seFields_entries hma]
    unfold topSeCx at he1 he2
    rw [he1]
    dsimp only
    unfold seFields
    have hfield : seField env (seAt env (n + 3 + 1)) (clsSeCx env c cd true so.reuse so.conv so.skipNone) cd (.inst c attrs)
        (List.foldl putE [] e1.flatten) f = .ok (mergeDict (List.foldl putE [] e1.flatten) ex) := by
      unfold seField
      have := hrender (n + 3) (by omega)
      unfold topSeCx at this
      unfold takesRest at hfr
      rw [flat_flatDict (a := seFieldArg f (.ok (.inst c attrs))) (by rw [Bool.and_eq_true] at hfr; exact hfr.2), this]
      dsimp only [joinVals]
      rw [lvals_flatDict hfr]
      exact htruthy _
    rw [hfield]
    dsimp only
    rw [seFields_entries hmb, he2]
  · exact distinct_foldl (distinct_mergeDict (distinct_foldl .nil) hex)
  · intro e
    have s1 : StrKeyed e1.flatten := mapR_entries_strKeyed he1
    have s2 : StrKeyed e2.flatten := mapR_entries_strKeyed he2
    have d1 : Distinct (List.foldl putE [] e1.flatten) := distinct_foldl .nil
    rw [mem_foldl_put (distinct_mergeDict d1 hex) s2, mergeDict_eq hex, List.mem_append, List.mem_filter,
      Option.isNone_iff_eq_none, getVal_none]
    have hd : ∀ e, e ∈ decl ↔ e ∈ e2.flatten.foldl putE [] ∨ e ∈ e1.flatten.foldl putE [] ∧ ∀ x ∈ e2.flatten, e.1 ≠ x.1 := by
      intro e
      rw [hdecl, List.foldl_append, mem_foldl_put d1 s2]
    have hkey : (∀ r ∈ decl, r.1 ≠ e.1) ↔ (∀ r ∈ e1.flatten.foldl putE [], pyEq r.1 e.1 = false) ∧ ∀ x ∈ e2.flatten, e.1 ≠ x.1 := by
      have hk := keys_foldl_put (res := []) .nil (show StrKeyed (e1.flatten ++ e2.flatten) from fun x hx => by
        rcases List.mem_append.1 hx with hx | hx
        · exact s1 x hx
        · exact s2 x hx) e.1
      have hk1 := keys_foldl_put (res := []) .nil s1 e.1
      rw [← hdecl] at hk
      constructor
      · intro h
        have hno : ¬ ∃ x ∈ e1.flatten ++ e2.flatten, x.1 = e.1 := fun hh => by
          obtain ⟨r, hr, he⟩ := hk.2 (.inr hh); exact h r hr he
        refine ⟨?_, fun x hx he => hno ⟨x, by simp [hx], he.symm⟩⟩
        intro r hr
        rw [Bool.eq_false_iff]
        intro hp
        obtain ⟨s, hs⟩ : ∃ s, r.1 = .str s := by
          rcases (keys_foldl_put (res := []) .nil s1 r.1).1 ⟨r, hr, rfl⟩ with ⟨_, h, _⟩ | ⟨x, hx, he⟩
          · cases h
          · obtain ⟨s, hs⟩ := s1 x hx; exact ⟨s, by rw [← he, hs]⟩
        rw [hs, pyEq_str_left] at hp
        rcases hk1.1 ⟨r, hr, by rw [hs, hp]⟩ with ⟨_, h, _⟩ | ⟨x, hx, he⟩
        · cases h
        · exact hno ⟨x, by simp [hx], he⟩
      · rintro ⟨h1, h2⟩ r hr he
        rcases hk.1 ⟨r, hr, he⟩ with ⟨_, h, _⟩ | ⟨x, hx, he'⟩
        · cases h
        · rcases List.mem_append.1 hx with hx' | hx'
          · obtain ⟨r', hr', he''⟩ := hk1.2 (.inr ⟨x, hx', he'⟩)
            have := h1 r' hr'
            obtain ⟨s, hs⟩ := s1 x hx'
            rw [he'', ← he', hs, pyEq_str_right.2 rfl] at this
            cases this
          · exact h2 x hx' he'.symm
    rw [hd, hkey]
    constructor
    · rintro (h | ⟨h | ⟨h1, h2⟩, h3⟩)
      · exact .inl (.inl h)
      · exact .inl (.inr ⟨h, h3⟩)
      · exact .inr ⟨h1, h2, h3⟩
    · rintro ((h | ⟨h1, h2⟩) | ⟨h1, h2, h3⟩)
      · exact .inl h
      · exact .inr ⟨.inl h1, h2⟩
      · exact .inr ⟨.inr ⟨h1, h2⟩, h3⟩

/-! ## C21 -/

/-- **C21** Let `c` have a flattened dict `f` (anywhere among its fields; other fields may be flattened dataclasses, but not further
flattened dicts). Let `decl` be what the same object gives without `f`, and `ex` the entries its dict serializes to. Then `to_dict`
writes exactly the entries `decl`, and those of `ex` whose keys are not written by a declared field; each key occurs once. -/
theorem C21_declared_wins_partial {env : Env} {so : SeOpts} {n c c0 c1} {cd : ClassDef} {f : FieldDef} {attrs decl fw k ex} (hc : env.cls c = some cd)
    (hc0 : env.cls c0 = some (withoutField f.name cd)) (hc1 : env.cls c1 = some (onlyField f cd))
    (hu0 : env.unionsOf c0 = env.unionsOf c) (htr : cd.transparent = false) (hn : (cd.fields.map (·.name)).Nodup)
    (hf : f ∈ cd.fields) (hfr : takesRest f = true) (hfs : serializable f = true)
    (hoth : ∀ g ∈ cd.fields, g.name ≠ f.name → ¬ HasRest env g) (hu : NotUnion so.c)
    (hg : NoGlobal env c) (hg0 : NoGlobal env c0) (hg1 : NoGlobal env c1)
    (h0 : toDict env so n (.inst c0 attrs) = .ok (.dict .plain decl))
    (h1 : toDict env so n (.inst c1 attrs) = .ok (.dict .plain [(fw, .dict k ex)])) (hex : KeysDiffer ex) :
    ∃ out, Ev (fun n => toDict env so n (.inst c attrs) = .ok (.dict .plain out)) ∧ KeysDiffer out ∧
      ∀ e, e ∈ out ↔ e ∈ decl ∨ e ∈ ex ∧ ∀ r ∈ decl, r.1 ≠ e.1 := by
  have hrender : ∀ m, n ≤ m + 3 → (seAt env m).render (topSeCx env c cd true so) (seFieldArg f (.ok (.inst c attrs))) = .ok (.dict k ex) := by
    intro m hm
    have h := toDict_mono hm h1
    have hs1 : (onlyField f cd).seFieldsOf = [withoutRules { f with flatten := false }] := by
      rw [seFieldsOf_eq]
      unfold onlyField
      dsimp only
      rw [List.filter_cons, if_pos (show serializable (withoutRules { f with flatten := false }) = true from hfs)]
      rfl
    have h := (toDict_emit hc1 htr (by rw [hs1]; simp [withoutRules]) hu hg1.ser (by rw [hs1]; simp)).1 h
    obtain ⟨os, hos, he⟩ := h
    rw [hs1] at hos
    simp only [mapR] at hos
    split at hos
    · cases hos
    · rename_i o ho
      cases hos
      cases o with
      | none => injection he with _ he; cases he
      | some e =>
        have := (emitAt_some ho).1
        injection he with _ he
        have he2 : e = (fw, .dict k ex) := by simpa using he.symm
        rw [he2] at this
        dsimp only at this
        rw [← this]
        unfold takesRest at hfr
        rw [Bool.and_eq_true] at hfr
        exact (render_flatDict (cx := topSeCx env c cd true so) (u := env.unionsOf c1) (b := false)
          (a := seFieldArg f (.ok (.inst c attrs))) hfr.2).symm
  exact flatDict_core hc hc0 hu0 htr hn hf hfr hfs hoth hu hg hg0 h0 hrender hex

/-- `x: int`, `rest: dict[str, Any] = field(flatten=True)`, `y: int`. -/
def C21ex : ClassDef :=
  { name := "A", mro := ["A"], fields := [{ name := "x", ty := .prim .int },
    { name := "rest", ty := .dict .dict (.prim .str) .any, flatten := true }, { name := "y", ty := .prim .int }] }

/-- The class, its copy without the dict, and the dict alone. -/
def C21env : Env := Ex.mk [("A", C21ex), ("A0", withoutField "rest" C21ex),
  ("A1", onlyField { name := "rest", ty := .dict .dict (.prim .str) .any, flatten := true } C21ex)]

/-- An object whose dict clashes with a field declared before it and with one declared after it. -/
def C21attrs : List (String × Val) := [("x", .int 1), ("rest", .dict .plain [(.str "y", .int 8), (.str "z", .int 9), (.str "x", .int 7)]), ("y", .int 2)]

example : ∃ out, Ev (fun n => toDict C21env {} n (.inst "A" C21attrs) = .ok (.dict .plain out)) ∧ KeysDiffer out ∧
    ∀ e, e ∈ out ↔ e ∈ [(Val.str "x", Val.int 1), (.str "y", .int 2)] ∨
      e ∈ [(Val.str "y", Val.int 8), (.str "z", .int 9), (.str "x", .int 7)] ∧ ∀ r ∈ [(Val.str "x", Val.int 1), (.str "y", .int 2)], r.1 ≠ e.1 :=
  C21_declared_wins_partial (env := C21env) (so := {}) (n := 9) (c := "A") (c0 := "A0") (c1 := "A1") (cd := C21ex)
    (f := { name := "rest", ty := .dict .dict (.prim .str) .any, flatten := true }) rfl rfl rfl rfl rfl (by decide) (by simp [C21ex]) rfl rfl
    (by
      intro g hg hne h
      simp only [C21ex, List.mem_cons, List.not_mem_nil, or_false] at hg
      rcases hg with rfl | rfl | rfl
      · cases h with
        | own h => cases h
        | child h => cases h
      · exact hne rfl
      · cases h with
        | own h => cases h
        | child h => cases h)
    (.inl rfl) ⟨by simp [C21env, Ex.mk], by simp [C21env, Ex.mk]⟩ ⟨by simp [C21env, Ex.mk], by simp [C21env, Ex.mk]⟩
    ⟨by simp [C21env, Ex.mk], by simp [C21env, Ex.mk]⟩ (by rfl) (by rfl) (by unfold KeysDiffer; decide)

/-! ## C20 -/

/-- **C20** `from_dict` gives a flattened dict exactly the entries whose keys belong to no declared field (and to no field of a
flattened dataclass), in input order. -/
theorem C20_captures {env : Env} {o : DeOpts} {n c} {cd : ClassDef} {f dk kvs v} (hc : env.cls c = some cd) (htr : cd.transparent = false)
    (hp : cd.postInit = none) (hn : (cd.fields.map (·.name)).Nodup) (hf : f ∈ cd.fields) (hfr : takesRest f = true)
    (hren : f.renderable = true) (hfa : FlattenAcyclic env) (hg : NoGlobal env c)
    (h : fromDict env o n (.cls c) (.dict dk kvs) = .ok v) :
    ∃ attrs p, v = .inst c attrs ∧ attrs.lookup f.name = some (.dict .plain (kvs.filter p)) ∧
      ∀ e, p e = true ↔ ∀ s, Recognised env c s → e.1 ≠ .str s := by
  have hd : IsData c (.dict dk kvs) := by intro as h; cases h
  obtain ⟨m, rfl, hm⟩ := fromObj_cls_cases hg.de hd h (by intro h; cases h)
  have hm := wrapUser_ok.1 hm
  rw [deClsF_named hc htr] at hm
  split at hm
  · cases hm
  · cases hm
  · split at hm
    · cases hm
    · rename_i ex hex
      obtain ⟨attrs, rfl, h1, h2⟩ := decodeCls_ok hp hn hm
      obtain ⟨w, ha, hb⟩ := h1 f hf hren
      refine ⟨attrs, fun e => !keyKnown (env.known c) e.1, rfl, ?_, ?_⟩
      · rw [hb]
        unfold deField at ha
        rw [flatDict_eq_takesRest, hfr, if_pos rfl] at ha
        rw [← Except.ok.inj ha]
        unfold deExtra at hex
        have : cd.hasFlatDict = true := by
          unfold ClassDef.hasFlatDict
          rw [List.any_eq_true]
          exact ⟨f, hf, by rw [hren, flatDict_eq_takesRest, hfr]; rfl⟩
        rw [this, if_pos rfl] at hex
        unfold orEmptyItems at hex
        cases kvs with
        | nil => cases hex; rfl
        | cons e es => cases hex; rfl
      · intro e
        rw [Bool.not_eq_true', Bool.eq_false_iff]
        constructor
        · intro hk s hs he
          exact hk (keyKnown_iff.2 ⟨s, (known_iff hfa).2 hs, he⟩)
        · intro hk hh
          obtain ⟨s, hs, he⟩ := keyKnown_iff.1 hh
          exact hk s ((known_iff hfa).1 hs) he

/-- Plain data is serialized as itself. -/
theorem toObj_plain {env : Env} (hg : env.gser = []) {v} (h : PlainData v) :
    Ev (fun n => ∀ b re cv sn c, (c = none ∨ c = some .any) → (seAt env n).toObj b re cv sn c .external v = .ok v) := by
  have step : ∀ {n b re cv sn c w}, (c = none ∨ c = some Ty.any) → toObjPlain env (seAt env n) b re cv sn c w = .ok w →
      (seAt env (n + 1)).toObj b re cv sn c .external w = .ok w := by
    intro n b re cv sn c w hc h
    rw [seAt_toObj]
    unfold toObjF
    rw [wrapAll_ok]
    rcases hc with rfl | rfl <;> (rw [toObjBody_eq]; exact h)
  induction h with
  | none => exact ⟨1, fun n hn b re cv sn c hc => by obtain ⟨m, rfl⟩ : ∃ m, n = m + 1 := ⟨n - 1, by omega⟩; exact step hc rfl⟩
  | bool x => exact ⟨1, fun n hn b re cv sn c hc => by obtain ⟨m, rfl⟩ : ∃ m, n = m + 1 := ⟨n - 1, by omega⟩; refine step hc ?_; unfold toObjPlain; dsimp only; rw [hg]; rfl⟩
  | int x => exact ⟨1, fun n hn b re cv sn c hc => by obtain ⟨m, rfl⟩ : ∃ m, n = m + 1 := ⟨n - 1, by omega⟩; refine step hc ?_; unfold toObjPlain; dsimp only; rw [hg]; rfl⟩
  | float x => exact ⟨1, fun n hn b re cv sn c hc => by obtain ⟨m, rfl⟩ : ∃ m, n = m + 1 := ⟨n - 1, by omega⟩; refine step hc ?_; unfold toObjPlain; dsimp only; rw [hg]; rfl⟩
  | str x => exact ⟨1, fun n hn b re cv sn c hc => by obtain ⟨m, rfl⟩ : ∃ m, n = m + 1 := ⟨n - 1, by omega⟩; refine step hc ?_; unfold toObjPlain; dsimp only; rw [hg]; rfl⟩
  | @list xs _ ih =>
    refine (Ev.list ih).step (fun n hn b re cv sn c hc => step hc ?_)
    unfold toObjPlain
    dsimp only
    rw [hg]
    dsimp only [List.find?]
    rw [mapR_map (g := id) (fun x hx => hn x hx b re cv sn none (.inl rfl))]
    simp
  | @dict kvs _ ih =>
    refine (Ev.list ih).step (fun n hn b re cv sn c hc => step hc ?_)
    unfold toObjPlain
    dsimp only
    rw [hg]
    dsimp only [List.find?]
    rw [mapR_map (g := id) (fun e he => by rw [hn e he b re cv sn none (.inl rfl)]; rfl)]
    simp

/-- A flattened dict holding plain data is serialized as itself. -/
theorem render_plainDict {env : Env} {cx : SeCx} {ty : Ty} {fl kvs} (hg : env.gser = []) (hs : cx.sers = []) (ht : ty.isFlattenDict = true)
    (hstr : StrKeyed kvs) (hpl : ∀ e ∈ kvs, PlainData e.2) (hd : KeysDiffer kvs) :
    Ev (fun n => (seAt env n).render cx { ty := ty, flatten := fl, v := .ok (.dict .plain kvs) } = .ok (.dict .plain kvs)) := by
  have hv : Ev (fun n => ∀ e ∈ kvs, (seAt env n).render cx { ty := .any, v := .ok e.2 } = .ok e.2) := by
    refine Ev.list (fun e he => ?_)
    refine (toObj_plain hg (hpl e he)).step (fun n hn => ?_)
    rw [seAt_render]
    unfold renderF
    rw [hs, pickSer_nil]
    exact hn _ _ _ _ _ (.inr rfl)
  have hk : ∀ n, ∀ e ∈ kvs, (seAt env (n + 1)).render cx { ty := .prim .str, v := .ok e.1 } = .ok e.1 := by
    intro n e he
    obtain ⟨s, hse⟩ := hstr e he
    rw [seAt_render, hse]
    unfold renderF
    rw [hs, pickSer_nil]
    dsimp only
    cases cx.coerce <;> rfl
  refine (hv.and Ev.pos).step (fun n hn => ?_)
  obtain ⟨hn, m, rfl⟩ := hn
  rw [seAt_render]
  unfold renderF
  rw [hs, pickSer_nil]
  unfold Ty.isFlattenDict at ht
  split at ht
  · cases ht
  · rename_i k _; cases k <;> first | rfl | exact absurd rfl (by assumption)
  · dsimp only [pyItems]
    rw [mapR_map (g := id) (fun e he => by rw [hk m e he]; dsimp only; rw [hn e he]; rfl)]
    rw [List.map_id]
    refine mkDict_id ?_ (List.pairwise_map.2 hd)
    clear hd hn hk hv hpl
    induction kvs with
    | nil => rfl
    | cons e es ih =>
      obtain ⟨s, hse⟩ := hstr e (by simp)
      simp only [List.map_cons, hashableL, hse, hashable, Bool.true_and]
      exact ih (fun x hx => hstr x (by simp [hx]))
  · cases ht

/-- **C20** Re-serializing what was read from plain data: every entry of the input whose key belongs to no declared field is written
again at top level, once, with its value (unless a declared field writes that same key); apart from those there are only the entries
`decl` of the declared fields. -/
theorem C20_reserialize {env : Env} {o : DeOpts} {so : SeOpts} {n n' c c0} {cd : ClassDef} {f : FieldDef} {dk kvs attrs decl} (hc : env.cls c = some cd)
    (hc0 : env.cls c0 = some (withoutField f.name cd)) (hu0 : env.unionsOf c0 = env.unionsOf c)
    (htr : cd.transparent = false) (hp : cd.postInit = none) (hn : (cd.fields.map (·.name)).Nodup) (hf : f ∈ cd.fields)
    (hfr : takesRest f = true) (hren : f.renderable = true) (hfs : serializable f = true) (hser : f.serializer = none)
    (hoth : ∀ g ∈ cd.fields, g.name ≠ f.name → ¬ HasRest env g) (hu : NotUnion so.c) (hfa : FlattenAcyclic env)
    (hgs : env.gser = []) (hgd : env.gde = []) (hcs : cd.classSer = none)
    (hstr : ∀ e ∈ kvs, ∃ s, e.1 = .str s) (hpl : ∀ e ∈ kvs, PlainData e.2) (hd : KeysDiffer kvs)
    (h : fromDict env o n (.cls c) (.dict dk kvs) = .ok (.inst c attrs))
    (h0 : toDict env so n' (.inst c0 attrs) = .ok (.dict .plain decl)) :
    ∃ out, Ev (fun n => toDict env so n (.inst c attrs) = .ok (.dict .plain out)) ∧ KeysDiffer out ∧
      ∀ e, e ∈ out ↔ e ∈ decl ∨ e ∈ kvs ∧ (∀ s, Recognised env c s → e.1 ≠ .str s) ∧ ∀ r ∈ decl, r.1 ≠ e.1 := by
  have hg : ∀ c, NoGlobal env c := fun c => ⟨by simp [hgs], by simp [hgd]⟩
  obtain ⟨attrs', p, he, hl, hpe⟩ := C20_captures hc htr hp hn hf hfr hren hfa (hg c) h
  injection he with _ he
  subst he
  have hd' : KeysDiffer (kvs.filter p) := List.Pairwise.filter _ hd
  have hr := render_plainDict (env := env) (cx := topSeCx env c cd true so) (ty := f.ty) (fl := f.flatten) hgs
    (by unfold topSeCx clsSeCx; rw [hgs, hcs]; rfl) (by unfold takesRest at hfr; rw [Bool.and_eq_true] at hfr; exact hfr.2)
    (fun e he => hstr e (List.mem_filter.1 he).1) (fun e he => hpl e (List.mem_filter.1 he).1) hd'
  obtain ⟨N, hN⟩ := hr
  have h0' : toDict env so (n' + N + 3) (.inst c0 attrs) = .ok (.dict .plain decl) := toDict_mono (by omega) h0
  obtain ⟨out, h1, h2, h3⟩ := flatDict_core hc hc0 hu0 htr hn hf hfr hfs hoth hu (hg c) (hg c0) h0' (k := .plain) (ex := kvs.filter p) (by
    intro m hm
    have := hN m (by omega)
    unfold seFieldArg getAttr
    dsimp only
    rw [hl, hser]
    exact this) hd'
  refine ⟨out, h1, h2, fun e => ?_⟩
  rw [h3, List.mem_filter, hpe]
  constructor
  · rintro (h | ⟨⟨h1, h2⟩, h3⟩)
    · exact .inl h
    · exact .inr ⟨h1, h2, h3⟩
  · rintro (h | ⟨h1, h2, h3⟩)
    · exact .inl h
    · exact .inr ⟨⟨h1, h2⟩, h3⟩

/-- Nothing is flattened but the dict. -/
theorem C21env_acyclic : FlattenAcyclic C21env := by
  refine ⟨fun _ => 0, fun _ => Nat.zero_le _, ?_⟩
  intro c cd f ch hc hf hi
  exfalso
  have key : ∀ p ∈ C21env.classes, ∀ f ∈ p.2.fields, inlined f = none := by
    intro p hp f hf
    simp only [C21env, Ex.mk, List.mem_cons, List.not_mem_nil, or_false] at hp
    rcases hp with rfl | rfl | rfl <;> simp [C21ex, withoutField, onlyField] at hf
    · rcases hf with rfl | rfl | rfl <;> rfl
    · rcases hf with rfl | rfl <;> rfl
    · subst hf; rfl
  have : ∃ p ∈ C21env.classes, p.2 = cd := by
    unfold Env.cls at hc
    obtain ⟨l1, l2, he, _⟩ := List.lookup_eq_some_iff.1 hc
    exact ⟨(c, cd), by rw [he]; simp, rfl⟩
  obtain ⟨p, hp, rfl⟩ := this
  rw [key p hp f hf] at hi
  cases hi

example : ∃ out, Ev (fun n => toDict C21env {} n (.inst "A" [("x", .int 1), ("rest", .dict .plain [(.str "q", .int 8), (.str "z", .list [.none])]), ("y", .int 2)]) = .ok (.dict .plain out)) ∧
    KeysDiffer out ∧ ∀ e, e ∈ out ↔ e ∈ [(Val.str "x", Val.int 1), (.str "y", .int 2)] ∨
      e ∈ [(Val.str "q", Val.int 8), (.str "y", .int 2), (.str "z", .list [.none]), (.str "x", .int 1)] ∧
        (∀ s, Recognised C21env "A" s → e.1 ≠ .str s) ∧ ∀ r ∈ [(Val.str "x", Val.int 1), (.str "y", .int 2)], r.1 ≠ e.1 :=
  C20_reserialize (env := C21env) (o := {}) (so := {}) (n := 9) (n' := 9) (c := "A") (c0 := "A0") (cd := C21ex) (dk := .plain)
    (f := { name := "rest", ty := .dict .dict (.prim .str) .any, flatten := true }) rfl rfl rfl rfl rfl (by decide) (by simp [C21ex]) rfl rfl rfl rfl
    (by
      intro g hg hne h
      simp only [C21ex, List.mem_cons, List.not_mem_nil, or_false] at hg
      rcases hg with rfl | rfl | rfl
      · cases h with
        | own h => cases h
        | child h => cases h
      · exact hne rfl
      · cases h with
        | own h => cases h
        | child h => cases h)
    (.inl rfl) C21env_acyclic rfl rfl rfl
    (by simp)
    (by
      intro e he
      simp only [List.mem_cons, List.not_mem_nil, or_false] at he
      rcases he with rfl | rfl | rfl | rfl
      · exact .int _
      · exact .int _
      · exact .list (by simpa using PlainData.none)
      · exact .int _)
    (by unfold KeysDiffer; decide) (by rfl) (by rfl)

/-- **C20** A class with a flattened dict takes every key: with `deny_unknown_fields` it does what its copy without the option does. -/
theorem C20_deny {env : Env} {o : DeOpts} {n c c'} {cd : ClassDef} {d f} (hc : env.cls c = some { cd with denyUnknown := true })
    (hc' : env.cls c' = some { cd with denyUnknown := false }) (ht : SameTables env c c') (hg : NoGlobal env c) (hg' : NoGlobal env c')
    (hf : f ∈ cd.fields) (hfr : takesRest f = true) (hren : f.init = true ∧ f.skip = false ∧ f.skipDe = false) (hd : ∀ k as, d ≠ .inst k as) :
    fromDict env o n (.cls c') d = asInstOf c' (fromDict env o n (.cls c) d) := by
  have ha : ArgsAgree { cd with denyUnknown := true } { cd with denyUnknown := false } := by constructor <;> rfl
  have hfd : ({ cd with denyUnknown := true } : ClassDef).hasFlatDict = true := by
    unfold ClassDef.hasFlatDict
    rw [List.any_eq_true]
    refine ⟨f, hf, ?_⟩
    rw [flatDict_eq_takesRest, hfr]
    simp [FieldDef.renderable, hren]
  have hun : deUnknown env c' { cd with denyUnknown := false } d = .ok false := rfl
  have hun2 : deUnknown env c { cd with denyUnknown := true } d = .ok false := by
    unfold deUnknown
    rw [hfd]
    rfl
  exact fromObj_twin hc hc' ha rfl rfl ht hg hg' (hd c) (hd c') (by rw [hun, hun2])

namespace C20Deny
def A : ClassDef := { C21ex with name := "A" }
def env : Env := Ex.mk [("A", { A with denyUnknown := true }), ("A0", { A with denyUnknown := false })]

example : fromDict env {} 9 (.cls "A") (.dict .plain [(.str "x", .int 1), (.str "q", .int 8), (.str "y", .int 2)]) =
      .ok (.inst "A" [("x", .int 1), ("rest", .dict .plain [(.str "q", .int 8)]), ("y", .int 2)]) ∧
    fromDict env {} 9 (.cls "A0") (.dict .plain [(.str "x", .int 1), (.str "q", .int 8), (.str "y", .int 2)]) =
      asInstOf "A0" (fromDict env {} 9 (.cls "A") (.dict .plain [(.str "x", .int 1), (.str "q", .int 8), (.str "y", .int 2)])) :=
  ⟨rfl, C20_deny (cd := A) (f := { name := "rest", ty := .dict .dict (.prim .str) .any, flatten := true }) rfl rfl ⟨rfl, rfl⟩ ⟨by simp [env, Ex.mk], by simp [env, Ex.mk]⟩
    ⟨by simp [env, Ex.mk], by simp [env, Ex.mk]⟩ (by simp [A, C21ex]) rfl ⟨rfl, rfl, rfl⟩ (by intro k as h; cases h)⟩
end C20Deny

end Verif.Props
