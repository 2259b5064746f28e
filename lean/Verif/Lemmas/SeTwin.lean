import Verif.Lemmas.SeGen
/-!
# Serialization looks at some options only
-/

namespace Verif
open Spec

/-- `cd'` differs from `cd` only in ways that serialization does not see; `g` maps the fields. -/
structure SeSame (g : FieldDef → FieldDef) (cd cd' : ClassDef) : Prop where
  fields : cd'.fields = cd.fields.map g
  arg : ∀ f ∈ cd.fields, ∀ o, seFieldArg (g f) o = seFieldArg f o
  skip : ∀ f ∈ cd.fields, (g f).skip = f.skip ∧ (g f).skipSer = f.skipSer
  rename : ∀ f ∈ cd.fields, (g f).rename = f.rename ∧ (g f).name = f.name
  rule : ∀ f ∈ cd.fields, (g f).skipRule cd' = f.skipRule cd
  case : cd'.seCase = cd.seCase
  transparent : cd'.transparent = cd.transparent
  opts : cd'.reuseDflt = cd.reuseDflt ∧ cd'.convDflt = cd.convDflt ∧ (cd'.typeCheck == .coerce) = (cd.typeCheck == .coerce) ∧
    cd'.tagging = cd.tagging ∧ cd'.classSer = cd.classSer

section
variable {g : FieldDef → FieldDef} {cd cd' : ClassDef}

theorem SeSame.seFields (h : SeSame g cd cd') : cd'.seFieldsOf = cd.seFieldsOf.map g := by
  unfold ClassDef.seFieldsOf
  rw [h.fields, List.filter_map]
  congr 1
  refine List.filter_congr (fun f hf => ?_)
  simp only [Function.comp]
  rw [(h.skip f hf).1, (h.skip f hf).2]

theorem SeSame.lvals (h : SeSame g cd cd') {env : Env} {k f} (hf : f ∈ cd.fields) : lvals env cd'.seCase k (g f) = lvals env cd.seCase k f := by
  have ha := h.arg f hf (.error .fuel)
  have h1 : (g f).ty = f.ty := congrArg (·.ty) ha
  have h2 : (g f).flatten = f.flatten := congrArg (·.flatten) ha
  have e1 : (g f).flatChild = f.flatChild := by unfold FieldDef.flatChild; rw [h1, h2]
  have e2 : (g f).flatDict = f.flatDict := by unfold FieldDef.flatDict; rw [h1, h2]
  have e3 : (g f).conv cd'.seCase = f.conv cd.seCase := by unfold FieldDef.conv; rw [(h.rename f hf).1, (h.rename f hf).2, h.case]
  cases k with
  | zero => rfl
  | succ k => unfold Verif.lvals; rw [e1, e2, e3, h.case]

theorem seCls_same (h : SeSame g cd cd') {env : Env} {m c c' named re cv sn attrs} (hc : env.cls c = some cd) (hc' : env.cls c' = some cd')
    (hu : env.unionsOf c' = env.unionsOf c) :
    clsF env (seAt env m) named re cv sn (.inst c' attrs) = clsF env (seAt env m) named re cv sn (.inst c attrs) := by
  have hcx : clsSeCx env c' cd' named re cv sn = clsSeCx env c cd named re cv sn := by
    unfold clsSeCx; rw [h.opts.1, h.opts.2.1, h.opts.2.2.1, h.opts.2.2.2.1, h.opts.2.2.2.2, hu]
  have hin : ∀ f ∈ cd.seFieldsOf, f ∈ cd.fields := fun f hf => (List.mem_filter.1 hf).1
  have harg : ∀ f ∈ cd.fields, seFieldArg (g f) (.ok (.inst c' attrs)) = seFieldArg f (.ok (.inst c attrs)) := by
    intro f hf; rw [h.arg f hf]; rfl
  have hfs : ∀ (cx : SeCx) (fs : List FieldDef) res, (∀ f ∈ fs, f ∈ cd.fields) →
      seFields env (seAt env m) cx cd' (.inst c' attrs) res (fs.map g) = seFields env (seAt env m) cx cd (.inst c attrs) res fs := by
    intro cx fs
    induction fs with
    | nil => intro res _; rfl
    | cons f fs ih =>
      intro res hm
      rw [List.map_cons]
      unfold Verif.seFields
      have : seField env (seAt env m) cx cd' (.inst c' attrs) res (g f) = seField env (seAt env m) cx cd (.inst c attrs) res f := by
        unfold seField
        rw [harg f (hm f (by simp)), h.lvals (hm f (by simp)), h.rule f (hm f (by simp))]
      rw [this]
      cases seField env (seAt env m) cx cd (.inst c attrs) res f with
      | error e => rfl
      | ok res' => exact ih res' (fun f hf => hm f (by simp [hf]))
  have hcat : ∀ (cx : SeCx) (fs : List FieldDef), (∀ f ∈ fs, f ∈ cd.fields) →
      concatR (fun f => (seAt env m).flat cx (seFieldArg f (.ok (.inst c' attrs)))) (fs.map g) =
        concatR (fun f => (seAt env m).flat cx (seFieldArg f (.ok (.inst c attrs)))) fs := by
    intro cx fs
    induction fs with
    | nil => intro _; rfl
    | cons f fs ih =>
      intro hm
      rw [List.map_cons, concatR, concatR, harg f (hm f (by simp)), ih (fun f hf => hm f (by simp [hf]))]
  unfold clsF
  dsimp only
  rw [hc, hc']
  dsimp only
  rw [hcx, h.seFields, h.transparent]
  cases htr : cd.transparent with
  | false =>
    simp only [Bool.false_eq_true, if_false]
    rw [hfs _ _ _ hin, hcat _ _ hin]
  | true =>
    simp only [if_true]
    cases hs : cd.seFieldsOf with
    | nil => rfl
    | cons f fs =>
      rw [List.map_cons]
      dsimp only
      rw [harg f (hin f (by rw [hs]; simp))]

theorem toDict_same (h : SeSame g cd cd') {env : Env} {so : SeOpts} {n c c' attrs} (hc : env.cls c = some cd) (hc' : env.cls c' = some cd')
    (ht : SameTables env c c') (hu : NotUnion so.c) (hg : NoGlobal env c) (hg' : NoGlobal env c') :
    toDict env so n (.inst c' attrs) = toDict env so n (.inst c attrs) := by
  match n with
  | 0 => rfl
  | 1 => rw [toDict_cls hu hg.ser, toDict_cls hu hg'.ser]; rfl
  | n + 2 => rw [toDict_cls hu hg.ser, toDict_cls hu hg'.ser, seAt_cls, seAt_cls, seCls_same h hc hc' ht.unions]

theorem toTuple_same (h : SeSame g cd cd') {env : Env} {so : SeOpts} {n c c' attrs} (hc : env.cls c = some cd) (hc' : env.cls c' = some cd')
    (ht : SameTables env c c') (hu : NotUnion so.c) (hg : NoGlobal env c) (hg' : NoGlobal env c') :
    toTuple env so n (.inst c' attrs) = toTuple env so n (.inst c attrs) := by
  match n with
  | 0 => rfl
  | 1 => rw [toTuple_cls hu hg.ser, toTuple_cls hu hg'.ser]; rfl
  | n + 2 => rw [toTuple_cls hu hg.ser, toTuple_cls hu hg'.ser, seAt_cls, seAt_cls, seCls_same h hc hc' ht.unions]

end
end Verif
