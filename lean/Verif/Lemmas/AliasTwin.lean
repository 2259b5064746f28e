import Verif.Lemmas.TypeAlias
import Verif.Lemmas.MapTwin
import Verif.Lemmas.Agree
import Verif.Lemmas.SeGen
/-!
# A class and its copy with aliases replaced
-/

namespace Verif
open Spec

/-- A union other than Optional, or a literal. -/
def OwnsFunc (u : Ty) : Prop := (∃ ts, u = .union ts ∧ (Ty.union ts).isOpt = false) ∨ ∃ vs, u = .lit vs

theorem isOpt_of {t : Ty} (ht : t ≠ .none) : (Ty.union [t, .none]).isOpt = true := by
  cases t <;> first | rfl | exact absurd rfl ht

theorem occurs_unfolds {t t' : Ty} (h : Unfolds t t') {u} (hu : OwnsFunc u) (ho : OccursIn t' u) : OccursIn t u := by
  have no : ∀ {p : Prop} {v : Ty}, v = u → (∀ ts, v = .union ts → (Ty.union ts).isOpt = true) → (∀ vs, v ≠ .lit vs) → p := by
    intro p v e h1 h2
    subst e
    rcases hu with ⟨ts, e, hf⟩ | ⟨vs, e⟩
    · rw [h1 ts e] at hf; cases hf
    · exact absurd e (h2 vs)
  induction h with
  | same => exact ho
  | alias _ ih => exact .alias (ih ho)
  | @opt t t' _ ht ih =>
    cases ho with
    | refl => exact no rfl (fun ts e => by cases e; exact isOpt_of ht) (fun vs e => by cases e)
    | union hm ho =>
      simp only [List.mem_cons, List.not_mem_nil, or_false] at hm
      rcases hm with rfl | rfl
      · exact .union (by simp) (ih ho)
      · cases ho
        exact no rfl (fun ts e => by cases e) (fun vs e => by cases e)
  | list _ ih =>
    cases ho with
    | refl => exact no rfl (fun ts e => by cases e) (fun vs e => by cases e)
    | list ho => exact .list (ih ho)
  | set _ ih =>
    cases ho with
    | refl => exact no rfl (fun ts e => by cases e) (fun vs e => by cases e)
    | set ho => exact .set (ih ho)
  | deque _ ih =>
    cases ho with
    | refl => exact no rfl (fun ts e => by cases e) (fun vs e => by cases e)
    | deque ho => exact .deque (ih ho)
  | counter _ ih =>
    cases ho with
    | refl => exact no rfl (fun ts e => by cases e) (fun vs e => by cases e)
    | counter ho => exact .counter (ih ho)
  | tupleV _ ih =>
    cases ho with
    | refl => exact no rfl (fun ts e => by cases e) (fun vs e => by cases e)
    | tupleV ho => exact .tupleV (ih ho)
  | @tuple ts ts' hl _ ih =>
    cases ho with
    | refl => exact no rfl (fun ts e => by cases e) (fun vs e => by cases e)
    | tuple hm ho =>
      obtain ⟨i, hi⟩ := List.mem_iff_getElem?.1 hm
      have hlt : i < ts.length := by rw [hl]; exact (List.getElem?_eq_some_iff.1 hi).1
      exact .tuple (List.getElem_mem hlt) (ih i _ _ (List.getElem?_eq_getElem hlt) hi ho)
  | value _ _ ih =>
    cases ho with
    | refl => exact no rfl (fun ts e => by cases e) (fun vs e => by cases e)
    | key ho => exact .key ho
    | value ho => exact .value (ih ho)
  | key _ _ _ _ _ ihk ih =>
    cases ho with
    | refl => exact no rfl (fun ts e => by cases e) (fun vs e => by cases e)
    | key ho => exact .key (ihk ho)
    | value ho => exact .value (ih ho)

theorem bearable_unfolds {env : Env} {t t' : Ty} (h : Unfolds t t') : ∀ v, bearable env t' v = bearable env t v := by
  induction h with
  | same => intro v; rfl
  | alias _ ih => intro v; rw [ih v]; simp only [bearable]
  | opt _ _ ih => intro v; simp only [bearable, bearableAny, ih]
  | list _ ih => intro v; simp only [bearable, ih]
  | set _ ih => intro v; simp only [bearable, ih]
  | deque _ ih => intro v; simp only [bearable, ih]
  | counter _ ih => intro v; simp only [bearable, ih]
  | tupleV _ ih => intro v; simp only [bearable, ih]
  | @tuple ts ts' hl _ ih =>
    have key : ∀ (ts ts' : List Ty) (vs : List Val), ts.length = ts'.length →
        (∀ (i : Nat) t t', ts[i]? = some t → ts'[i]? = some t' → ∀ v, bearable env t' v = bearable env t v) → bearableZip env ts' vs = bearableZip env ts vs := by
      intro ts
      induction ts with
      | nil => intro ts' vs hl _; cases ts' with
        | nil => rfl
        | cons => cases hl
      | cons t ts ih => intro ts' vs hl h; cases ts' with
        | nil => cases hl
        | cons t' ts' => cases vs with
          | nil => rfl
          | cons v vs =>
            unfold bearableZip
            rw [h 0 t t' rfl rfl v, ih ts' vs (by simpa using hl) (fun i a b ha hb => h (i + 1) a b (by simpa using ha) (by simpa using hb))]
    intro v
    simp only [bearable]
    split
    · exact key _ _ _ hl ih
    · rfl
  | value _ _ ih => intro v; simp only [bearable, ih]
  | key _ _ _ _ _ ihk ih => intro v; simp only [bearable, ihk, ih]

theorem copy_tables {env : Env} {c c' : ClassId} {t t' : Ty} (h : Unfolds t t') (hr : Reach env true (.cls c) t) (hr' : Reach env true (.cls c') t')
    (ho : OwnFuncs env (.cls c) t) (ho' : OwnFuncs env (.cls c') t') :
    Tables env (OccursIn t') (env.unionsOf c) (env.unionsOf c') (env.litsOf c) (env.litsOf c') where
  closed := fun _ _ hi hn => hi.snoc hn
  unions := fun ts hi hp => ⟨tableOf_cls.find hr ho (occurs_unfolds h (.inl ⟨ts, rfl, hp⟩) hi) hp, tableOf_cls.find hr' ho' hi hp⟩
  lits := fun vs hi => by
    obtain ⟨h1, h2⟩ := ho.lits _ (occurs_unfolds h (.inr ⟨vs, rfl⟩) hi)
    obtain ⟨h1', h2'⟩ := ho'.lits _ hi
    unfold findLit
    rw [find_own ((tableOf_cls.lits _).2 h1) fun us hm he => h2 us ((tableOf_cls.lits _).1 hm) he,
      find_own ((tableOf_cls.lits _).2 h1') fun us hm he => h2' us ((tableOf_cls.lits _).1 hm) he]

section
variable {env : Env} {τ : FieldDef → Ty} {c c' : ClassId} {cd : ClassDef}

theorem sigCore_retyped : SigCore (retyped τ) cd.fields :=
  ⟨fun _ _ => rfl, fun _ _ => rfl, fun _ _ => rfl, fun _ _ => rfl, fun _ _ => .inl rfl⟩

theorem argsBearable_retyped {nm mro} (h : ∀ f ∈ cd.fields, Unfolds f.ty (τ f)) (b : List (String × Val)) :
    argsBearable env (renamedCopy cd nm mro (cd.fields.map (retyped τ))) b = argsBearable env cd b := by
  have hfind : ∀ (fs : List FieldDef) n, (fs.map (retyped τ)).find? (fun f => f.name == n) = (fs.find? (fun f => f.name == n)).map (retyped τ) := by
    intro fs n
    induction fs with
    | nil => rfl
    | cons f fs ih =>
      simp only [List.map_cons, List.find?_cons]
      have : (retyped τ f).name = f.name := rfl
      rw [this]
      split
      · rfl
      · exact ih
  induction b with
  | nil => rfl
  | cons x b ih =>
    unfold argsBearable
    rw [ih]
    have hf : (renamedCopy cd nm mro (cd.fields.map (retyped τ))).fields = cd.fields.map (retyped τ) := rfl
    rw [hf, hfind]
    cases hx : cd.fields.find? (fun f => f.name == x.1) with
    | none => rfl
    | some f =>
      simp only [Option.map_some]
      have : (retyped τ f).ty = τ f := rfl
      rw [this, bearable_unfolds (h f (List.mem_of_find?_eq_some hx))]

section
variable {nm : String} {mro : List ClassId} (h : AliasCopy env c c' cd nm mro τ)
include h

theorem copy_known : env.known c' = env.known c := by
  unfold Env.known knownCls
  rw [h.cls, h.copy]
  have e1 : (renamedCopy cd nm mro (cd.fields.map (retyped τ))).transparent = cd.transparent := rfl
  have e2 : (renamedCopy cd nm mro (cd.fields.map (retyped τ))).fields = cd.fields.map (retyped τ) := rfl
  have e3 : (renamedCopy cd nm mro (cd.fields.map (retyped τ))).deCase = cd.deCase := rfl
  dsimp only
  rw [e1, e2, e3, List.flatMap_map]
  split
  · rfl
  · rw [List.flatMap_def, List.flatMap_def]
    congr 1
    apply List.map_congr_left
    intro f hm
    have hf := h.flat f hm
    have hf' : (retyped τ f).flatten = false := hf
    unfold FieldDef.flatDict FieldDef.flatChild
    rw [hf, hf']
    rfl

theorem copy_hasFlatDict : cd.hasFlatDict = false ∧ (renamedCopy cd nm mro (cd.fields.map (retyped τ))).hasFlatDict = false :=
  ⟨hasFlatDict_plain h.flat, hasFlatDict_plain (fun f hm => by
    obtain ⟨g, hg, rfl⟩ := List.mem_map.1 hm
    exact h.flat g hg)⟩

theorem copy_deField {n o ex ex' d f} (hm : f ∈ cd.fields) (hr : f.renderable = true) :
    Le (deField env (deAt env n) (clsDeCx env c cd true o d) c cd ex d f)
      (deField env (deAt env n) (clsDeCx env c' (renamedCopy cd nm mro (cd.fields.map (retyped τ))) true o d) c'
        (renamedCopy cd nm mro (cd.fields.map (retyped τ))) ex' d (retyped τ f)) := by
  have hsk : f.skip = false := by
    unfold FieldDef.renderable at hr
    cases hs : f.skip
    · rfl
    · rw [hs] at hr; simp at hr
  have hfl' : (retyped τ f).flatten = false := h.flat f hm
  rw [deField_plain (h.flat f hm), deField_plain hfl']
  have hr1 : Reach env true (.cls c) f.ty := .step (.field h.cls hm hsk) .refl
  have hr2 : Reach env true (.cls c') (τ f) := .step (.field (f := retyped τ f) h.copy (List.mem_map.2 ⟨f, hm, rfl⟩) hsk) .refl
  have hT := copy_tables (h.unfolds f hm) hr1 hr2 (h.own f hm) (h.ownCopy f hm)
  have hdes : (clsDeCx env c cd true o d).des = [] := by
    show env.gde ++ cd.classDe.toList = []
    rw [h.noDe.1, h.noDe.2]; rfl
  have a1 := unfolds_de env n (clsDeCx env c cd true o d) (plainArg cd f d) (τ f) hdes (h.deser f hm) rfl (h.unfolds f hm)
  have a2 := render_agree hT n (clsDeCx env c cd true o d) { plainArg cd f d with ty := τ f } (.inl .refl)
  have a : Le ((deAt env n).render (clsDeCx env c cd true o d) (plainArg cd f d))
      ((deAt env n).render (clsDeCx env c' (renamedCopy cd nm mro (cd.fields.map (retyped τ))) true o d)
        (plainArg (renamedCopy cd nm mro (cd.fields.map (retyped τ))) (retyped τ f) d)) := by
    rcases a1 with e | e
    · exact .inl e
    · exact .inr (e.trans a2)
  have ed : (retyped τ f).dflt = f.dflt := rfl
  rw [ed]
  cases f.dflt with
  | some dv => exact a
  | none => exact catchKey_le a

theorem copy_constructB {bound} : constructB env c' (renamedCopy cd nm mro (cd.fields.map (retyped τ))) bound = asInstOf c' (constructB env c cd bound) := by
  unfold constructB
  rw [argsBearable_retyped h.unfolds]
  have e1 : (renamedCopy cd nm mro (cd.fields.map (retyped τ))).typeCheck = cd.typeCheck := rfl
  have e2 : (renamedCopy cd nm mro (cd.fields.map (retyped τ))).postInit = cd.postInit := rfl
  have e3 : (renamedCopy cd nm mro (cd.fields.map (retyped τ))).fields = cd.fields.map (retyped τ) := rfl
  rw [e1, e2, e3, initAttrs_map (g := retyped τ) (fs := cd.fields) sigCore_retyped (fun f _ => .inl rfl)]
  repeat' split
  all_goals rfl

theorem copy_decode {n o ex ex' d} : Le (asInstOf c' (decodeCls env (deAt env n) c cd o ex d))
    (decodeCls env (deAt env n) c' (renamedCopy cd nm mro (cd.fields.map (retyped τ))) o ex' d) := by
  have e3 : (renamedCopy cd nm mro (cd.fields.map (retyped τ))).fields = cd.fields.map (retyped τ) := rfl
  unfold decodeCls
  rw [deFields_names e3 sigCore_retyped, kwBad_map e3 sigCore_retyped, deFields_map e3 sigCore_retyped, mapR_map_left]
  rcases mapR_le (as := cd.deFields) (fun f hm => copy_deField h (n := n) (o := o) (ex := ex) (ex' := ex') (d := d) (List.mem_filter.1 hm).1 (List.mem_filter.1 hm).2)
    with e | e
  · left
    have e : mapR (deField env (deAt env n) (clsDeCx env c cd true o d) c cd ex d) cd.deFields = .error .fuel := e
    rw [e]; rfl
  · right
    rw [← e]
    cases mapR (fun f => deField env (deAt env n) (clsDeCx env c cd true o d) c cd ex d f) cd.deFields with
    | error e => rfl
    | ok vs =>
      dsimp only
      split
      · rfl
      · exact (copy_constructB h).symm

theorem copy_fromDict {o : DeOpts} {n d} (hg : NoGlobal env c) (hg' : NoGlobal env c') (hd : IsData c d) (hd' : IsData c' d) :
    Le (asInstOf c' (fromDict env o n (.cls c) d)) (fromDict env o n (.cls c') d) := by
  by_cases hnn : n < 2
  · rw [fromDict_fuel hnn hg hd, fromDict_fuel hnn hg' hd']; exact .refl _
  · obtain ⟨m, rfl⟩ : ∃ m, n = m + 2 := ⟨n - 2, by omega⟩
    obtain ⟨f1, f2⟩ := copy_hasFlatDict h
    have hu : deUnknown env c' (renamedCopy cd nm mro (cd.fields.map (retyped τ))) d = deUnknown env c cd d := by
      unfold deUnknown
      rw [f1, f2, copy_known h]
      rfl
    rw [fromDict_cls hg.de hd, fromDict_cls hg'.de hd', deClsF_named h.cls h.dict, deClsF_named h.copy h.dict, hu, deExtra_none f1, deExtra_none f2,
      asInstOf_wrapUser]
    apply wrapUser_le
    cases deUnknown env c cd d with
    | error e => exact .refl _
    | ok b =>
      cases b with
      | true => exact .refl _
      | false => exact copy_decode h

/-! ## `from_tuple` -/

theorem copy_construct {pos kw} : construct env c' (renamedCopy cd nm mro (cd.fields.map (retyped τ))) pos kw = asInstOf c' (construct env c cd pos kw) := by
  have e1 : (renamedCopy cd nm mro (cd.fields.map (retyped τ))).typeCheck = cd.typeCheck := rfl
  have e2 : (renamedCopy cd nm mro (cd.fields.map (retyped τ))).postInit = cd.postInit := rfl
  have e3 : (renamedCopy cd nm mro (cd.fields.map (retyped τ))).fields = cd.fields.map (retyped τ) := rfl
  have e4 : (renamedCopy cd nm mro (cd.fields.map (retyped τ))).posParams = cd.posParams.map (retyped τ) := by
    unfold ClassDef.posParams
    rw [e3, List.filter_map]
    rfl
  have e5 : (cd.posParams.map (retyped τ)).map (·.name) = cd.posParams.map (·.name) := by
    rw [List.map_map]; rfl
  unfold construct
  dsimp only
  rw [argsBearable_retyped h.unfolds, e4, e5, List.length_map, e1, e2, e3,
    initAttrs_map (g := retyped τ) (fs := cd.fields) sigCore_retyped (fun f _ => .inl rfl)]
  repeat' split
  all_goals rfl

theorem copy_render {n named o d f} {a : DeArg} (hm : f ∈ cd.fields) (hr : f.renderable = true) (hty : a.ty = f.ty) (hde : a.deser = none)
    (hfl : a.flatten = false) :
    Le ((deAt env n).render (clsDeCx env c cd named o d) a)
      ((deAt env n).render (clsDeCx env c' (renamedCopy cd nm mro (cd.fields.map (retyped τ))) named o d) { a with ty := τ f }) := by
  have hsk : f.skip = false := by
    unfold FieldDef.renderable at hr
    cases hs : f.skip
    · rfl
    · rw [hs] at hr; simp at hr
  have hr1 : Reach env true (.cls c) f.ty := .step (.field h.cls hm hsk) .refl
  have hr2 : Reach env true (.cls c') (τ f) := .step (.field (f := retyped τ f) h.copy (List.mem_map.2 ⟨f, hm, rfl⟩) hsk) .refl
  have hT := copy_tables (h.unfolds f hm) hr1 hr2 (h.own f hm) (h.ownCopy f hm)
  have hdes : (clsDeCx env c cd named o d).des = [] := by
    show env.gde ++ cd.classDe.toList = []
    rw [h.noDe.1, h.noDe.2]; rfl
  have a1 := unfolds_de env n (clsDeCx env c cd named o d) a (τ f) hdes hde hfl (hty ▸ h.unfolds f hm)
  have a2 := render_agree hT n (clsDeCx env c cd named o d) { a with ty := τ f } (.inl .refl)
  rcases a1 with e | e
  · exact .inl e
  · exact .inr (e.trans a2)

theorem zipIdx_retyped (fs : List FieldDef) (k : Nat) : (fs.map (retyped τ)).zipIdx k = (fs.zipIdx k).map (fun p => (retyped τ p.1, p.2)) := by
  induction fs generalizing k with
  | nil => rfl
  | cons f fs ih => simp only [List.map_cons, List.zipIdx_cons, ih]

theorem copy_tupleArgs {n o d} : Le (deTupleArgs (deAt env n) (clsDeCx env c cd false o d) cd d)
    (deTupleArgs (deAt env n) (clsDeCx env c' (renamedCopy cd nm mro (cd.fields.map (retyped τ))) false o d)
      (renamedCopy cd nm mro (cd.fields.map (retyped τ))) d) := by
  have e3 : (renamedCopy cd nm mro (cd.fields.map (retyped τ))).fields = cd.fields.map (retyped τ) := rfl
  unfold deTupleArgs
  rw [e3, filter_renderable_map (g := retyped τ) (fs := cd.fields) sigCore_retyped, zipIdx_retyped h, mapR_map_left]
  refine mapR_le (fun p hp => ?_)
  have hm : p.1 ∈ cd.fields.filter (·.renderable) := by
    obtain ⟨f, i⟩ := p
    exact (List.mem_zipIdx' hp).2 ▸ List.getElem_mem _
  have hm := List.mem_filter.1 hm
  exact copy_render h hm.1 hm.2 rfl (h.deser _ hm.1) (h.flat _ hm.1)

theorem copy_fromTuple {o : DeOpts} {n d} (hg : NoGlobal env c) (hg' : NoGlobal env c') (hd : IsData c d) (hd' : IsData c' d) :
    Le (asInstOf c' (fromTuple env o n (.cls c) d)) (fromTuple env o n (.cls c') d) := by
  match n with
  | 0 => exact .inl rfl
  | 1 =>
    left
    have : fromTuple env o 1 (.cls c) d = .error .fuel := fromObj_cls_fuel1 hg.de hd
    rw [this]; rfl
  | m + 2 =>
    rw [fromTuple_cls hg.de hd, fromTuple_cls hg'.de hd', deClsF_some h.cls, deClsF_some h.copy, asInstOf_wrapUser]
    apply wrapUser_le
    have htr' : (renamedCopy cd nm mro (cd.fields.map (retyped τ))).transparent = false := h.dict
    unfold deArgs
    dsimp only
    rw [h.dict, htr']
    simp only [Bool.false_eq_true, if_false]
    rcases copy_tupleArgs h (n := m) (o := topCall o) (d := d) with e | e
    · left; rw [e]; rfl
    · right
      rw [← e]
      cases deTupleArgs (deAt env m) (clsDeCx env c cd false (topCall o) d) cd d with
      | error e => rfl
      | ok vs => exact (copy_construct h).symm

/-! ## Writing -/

theorem copy_flat (hs : NoSerializers env cd) {n named re cv sn attrs f} (hm : f ∈ cd.seFieldsOf) :
    Le ((seAt env n).flat (clsSeCx env c cd named re cv sn) (seFieldArg f (.ok (.inst c attrs))))
      ((seAt env n).flat (clsSeCx env c' (renamedCopy cd nm mro (cd.fields.map (retyped τ))) named re cv sn)
        (seFieldArg (retyped τ f) (.ok (.inst c' attrs)))) := by
  have hmf := (List.mem_filter.1 hm).1
  have hsk : f.skip = false := by
    have := (List.mem_filter.1 hm).2
    cases hx : f.skip
    · rfl
    · rw [hx] at this; simp at this
  have hsers : (clsSeCx env c cd named re cv sn).sers = [] := by
    show env.gser ++ cd.classSer.toList = []
    rw [hs.noSer.1, hs.noSer.2]; rfl
  have hsers' : (clsSeCx env c' (renamedCopy cd nm mro (cd.fields.map (retyped τ))) named re cv sn).sers = [] := hsers
  have hr1 : Reach env true (.cls c) f.ty := .step (.field h.cls hmf hsk) .refl
  have hr2 : Reach env true (.cls c') (τ f) := .step (.field (f := retyped τ f) h.copy (List.mem_map.2 ⟨f, hmf, rfl⟩) hsk) .refl
  have hT := copy_tables (h.unfolds f hmf) hr1 hr2 (h.own f hmf) (h.ownCopy f hmf)
  have ha : Le ((seAt env (n - 1)).render (clsSeCx env c cd named re cv sn) (seFieldArg f (.ok (.inst c attrs))))
      ((seAt env (n - 1)).render (clsSeCx env c' (renamedCopy cd nm mro (cd.fields.map (retyped τ))) named re cv sn)
        (seFieldArg (retyped τ f) (.ok (.inst c' attrs)))) := by
    have a1 := unfolds_se env (n - 1) (clsSeCx env c cd named re cv sn) (seFieldArg f (.ok (.inst c attrs))) (τ f) hsers (hs.ser f hmf) (h.unfolds f hmf)
    have a2 := seRender_agree hT (n - 1) (clsSeCx env c cd named re cv sn) { seFieldArg f (.ok (.inst c attrs)) with ty := τ f } (.inl .refl)
    rcases a1 with e | e
    · exact .inl e
    · exact .inr (e.trans a2)
  cases n with
  | zero => exact .inl rfl
  | succ n =>
    rw [seAt_flat, seAt_flat]
    unfold flatF
    rw [hsers, hsers', pickSer_nil, pickSer_nil]
    have s1 : (seFieldArg f (.ok (.inst c attrs))).ser = none := hs.ser f hmf
    have s2 : (seFieldArg (retyped τ f) (.ok (.inst c' attrs))).ser = none := hs.ser f hmf
    have f1 : (seFieldArg f (.ok (.inst c attrs))).flatten = false := h.flat f hmf
    have f2 : (seFieldArg (retyped τ f) (.ok (.inst c' attrs))).flatten = false := h.flat f hmf
    rw [s1, s2, f1, f2]
    simp only [Option.isSome_none, Bool.false_eq_true, if_false]
    have ha : Le ((seAt env n).render (clsSeCx env c cd named re cv sn) (seFieldArg f (.ok (.inst c attrs))))
      ((seAt env n).render (clsSeCx env c' (renamedCopy cd nm mro (cd.fields.map (retyped τ))) named re cv sn)
        (seFieldArg (retyped τ f) (.ok (.inst c' attrs)))) := ha
    rcases ha with e | e
    · left; rw [e]
    · right; rw [e]

theorem copy_seField (hs : NoSerializers env cd) {n re cv sn attrs f res} (hm : f ∈ cd.seFieldsOf) :
    Le (seField env (seAt env n) (clsSeCx env c cd true re cv sn) cd (.inst c attrs) res f)
      (seField env (seAt env n) (clsSeCx env c' (renamedCopy cd nm mro (cd.fields.map (retyped τ))) true re cv sn)
        (renamedCopy cd nm mro (cd.fields.map (retyped τ))) (.inst c' attrs) res (retyped τ f)) := by
  have hmf := (List.mem_filter.1 hm).1
  have hl : ∀ (cs : Option (String → String)) k, lvals env cs (k + 1) (retyped τ f) = lvals env cs (k + 1) f := by
    intro cs k
    have f1 := h.flat f hmf
    have f2 : (retyped τ f).flatten = false := f1
    unfold lvals FieldDef.flatChild FieldDef.flatDict
    rw [f1, f2]
    rfl
  have hc : (renamedCopy cd nm mro (cd.fields.map (retyped τ))).seCase = cd.seCase := rfl
  have hsk : (retyped τ f).skipRule (renamedCopy cd nm mro (cd.fields.map (retyped τ))) = f.skipRule cd := rfl
  have hskips : ∀ rule sub, skips env (seAt env n) (clsSeCx env c' (renamedCopy cd nm mro (cd.fields.map (retyped τ))) true re cv sn) rule sub =
      skips env (seAt env n) (clsSeCx env c cd true re cv sn) rule sub := fun _ _ => rfl
  unfold seField
  rw [hc, hl, hsk]
  rcases copy_flat h hs (n := n) (named := true) (re := re) (cv := cv) (sn := sn) (attrs := attrs) hm with e | e
  · left; rw [e]
  · right
    rw [e]
    simp only [hskips]

theorem copy_seFields (hs : NoSerializers env cd) {n re cv sn attrs} : ∀ (fs : List FieldDef) res, (∀ f ∈ fs, f ∈ cd.seFieldsOf) →
    Le (seFields env (seAt env n) (clsSeCx env c cd true re cv sn) cd (.inst c attrs) res fs)
      (seFields env (seAt env n) (clsSeCx env c' (renamedCopy cd nm mro (cd.fields.map (retyped τ))) true re cv sn)
        (renamedCopy cd nm mro (cd.fields.map (retyped τ))) (.inst c' attrs) res (fs.map (retyped τ)))
  | [], res, _ => .refl _
  | f :: fs, res, hm => by
    rw [List.map_cons]
    unfold seFields
    rcases copy_seField h hs (n := n) (re := re) (cv := cv) (sn := sn) (attrs := attrs) (res := res) (hm f (by simp)) with e | e
    · left; rw [e]
    · rw [← e]
      cases seField env (seAt env n) (clsSeCx env c cd true re cv sn) cd (.inst c attrs) res f with
      | error e => exact .refl _
      | ok res' => exact copy_seFields hs fs res' (fun g hg => hm g (by simp [hg]))

theorem copy_concat (hs : NoSerializers env cd) {n re cv sn attrs} : ∀ (fs : List FieldDef), (∀ f ∈ fs, f ∈ cd.seFieldsOf) →
    Le (concatR (fun f => (seAt env n).flat (clsSeCx env c cd false re cv sn) (seFieldArg f (.ok (.inst c attrs)))) fs)
      (concatR (fun f => (seAt env n).flat (clsSeCx env c' (renamedCopy cd nm mro (cd.fields.map (retyped τ))) false re cv sn)
        (seFieldArg f (.ok (.inst c' attrs)))) (fs.map (retyped τ)))
  | [], _ => .refl _
  | f :: fs, hm => by
    rw [List.map_cons, concatR, concatR]
    rcases copy_flat h hs (n := n) (named := false) (re := re) (cv := cv) (sn := sn) (attrs := attrs) (hm f (by simp)) with e | e
    · left; rw [e]
    · rw [← e]
      rcases copy_concat hs (n := n) (re := re) (cv := cv) (sn := sn) (attrs := attrs) fs (fun g hg => hm g (by simp [hg])) with e | e
      · rw [e]
        cases (seAt env n).flat (clsSeCx env c cd false re cv sn) (seFieldArg f (.ok (.inst c attrs))) with
        | error e => exact .refl _
        | ok v => exact .inl rfl
      · rw [← e]; exact .refl _

theorem copy_seFieldsOf : (renamedCopy cd nm mro (cd.fields.map (retyped τ))).seFieldsOf = cd.seFieldsOf.map (retyped τ) := by
  have e3 : (renamedCopy cd nm mro (cd.fields.map (retyped τ))).fields = cd.fields.map (retyped τ) := rfl
  unfold ClassDef.seFieldsOf
  rw [e3, List.filter_map]
  rfl

theorem copy_clsF (hs : NoSerializers env cd) {n named re cv sn attrs} :
    Le (clsF env (seAt env n) named re cv sn (.inst c attrs)) (clsF env (seAt env n) named re cv sn (.inst c' attrs)) := by
  have htr' : (renamedCopy cd nm mro (cd.fields.map (retyped τ))).transparent = false := h.dict
  unfold clsF
  dsimp only
  rw [h.cls, h.copy]
  dsimp only
  rw [h.dict, htr', copy_seFieldsOf h]
  simp only [Bool.false_eq_true, if_false]
  cases named with
  | true =>
    simp only [if_true]
    rcases copy_seFields h hs (n := n) (re := re) (cv := cv) (sn := sn) (attrs := attrs) cd.seFieldsOf [] (fun _ h => h) with e | e
    · left; rw [e]
    · right; rw [e]
  | false =>
    simp only [Bool.false_eq_true, if_false]
    rcases copy_concat h hs (n := n) (re := re) (cv := cv) (sn := sn) (attrs := attrs) cd.seFieldsOf (fun _ h => h) with e | e
    · left; rw [e]
    · right; rw [e]

theorem copy_toObj (hs : NoSerializers env cd) {so : SeOpts} {n attrs} (hu : NotUnion so.c) (hg : NoGlobal env c) (hg' : NoGlobal env c') :
    Le (toDict env so n (.inst c attrs)) (toDict env so n (.inst c' attrs)) ∧ Le (toTuple env so n (.inst c attrs)) (toTuple env so n (.inst c' attrs)) := by
  match n with
  | 0 => exact ⟨.inl rfl, .inl rfl⟩
  | 1 =>
    rw [toDict_cls hu hg.ser, toDict_cls hu hg'.ser, toTuple_cls hu hg.ser, toTuple_cls hu hg'.ser]
    exact ⟨.inl rfl, .inl rfl⟩
  | n + 2 =>
    rw [toDict_cls hu hg.ser, toDict_cls hu hg'.ser, toTuple_cls hu hg.ser, toTuple_cls hu hg'.ser]
    simp only [seAt_cls]
    have wl : ∀ {x y : Res Val}, Le x y → Le (wrapAll x) (wrapAll y) := by
      intro x y h
      rcases h with e | e <;> rw [e]
      · exact .inl rfl
      · exact .refl _
    exact ⟨wl (copy_clsF h hs), wl (copy_clsF h hs)⟩

end
end
end Verif
