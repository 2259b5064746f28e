import Verif.Lemmas.FromDict
import Verif.Spec.Twin
/-!
# Classes that differ only in options the argument computation does not look at
-/

namespace Verif
open Spec

/-- The options of a class on which the decoded arguments depend agree. -/
structure ArgsAgree (cd cd' : ClassDef) : Prop where
  fields : cd'.fields = cd.fields
  transparent : cd'.transparent = cd.transparent
  deCase : cd'.deCase = cd.deCase
  reuseDflt : cd'.reuseDflt = cd.reuseDflt
  tvars : cd'.tvars = cd.tvars
  coerce : (cd'.typeCheck == .coerce) = (cd.typeCheck == .coerce)
  tagging : cd'.tagging = cd.tagging
  classDe : cd'.classDe = cd.classDe

theorem known_twin {env : Env} {c c' cd cd'} (hc : env.cls c = some cd) (hc' : env.cls c' = some cd') (ha : ArgsAgree cd cd') :
    env.known c' = env.known c := by
  unfold Env.known knownCls
  rw [hc, hc']
  simp only [ha.fields, ha.transparent, ha.deCase]

theorem hasFlatDict_twin {cd cd' : ClassDef} (ha : ArgsAgree cd cd') : cd'.hasFlatDict = cd.hasFlatDict := by
  unfold ClassDef.hasFlatDict
  rw [ha.fields]

theorem clsDeCx_twin {env : Env} {c c' cd cd' named o d} (ha : ArgsAgree cd cd') (ht : SameTables env c c') :
    clsDeCx env c' cd' named o d = clsDeCx env c cd named o d := by
  unfold clsDeCx
  rw [ha.reuseDflt, ha.tvars, ha.coerce, ha.tagging, ha.classDe, ht.unions, ht.lits]

theorem deField_twin {env : Env} {r : DeRec} {cx c c' cd cd' ex d f} (hc : env.cls c = some cd) (hc' : env.cls c' = some cd')
    (ha : ArgsAgree cd cd') : deField env r cx c' cd' ex d f = deField env r cx c cd ex d f := by
  unfold deField
  rw [known_twin hc hc' ha, hasFlatDict_twin ha, ha.deCase]

theorem deNamedArgs_twin {env : Env} {r : DeRec} {cx c c' cd cd' d} (hc : env.cls c = some cd) (hc' : env.cls c' = some cd')
    (ha : ArgsAgree cd cd') : deNamedArgs env r cx c' cd' d = deNamedArgs env r cx c cd d := by
  unfold deNamedArgs deExtra
  rw [known_twin hc hc' ha, hasFlatDict_twin ha, ha.fields]
  have : ∀ ex, deField env r cx c' cd' ex d = deField env r cx c cd ex d := fun ex => funext fun f => deField_twin hc hc' ha
  simp only [this]

theorem deArgs_twin {env : Env} {r : DeRec} {named c c' cd cd' o d} (hc : env.cls c = some cd) (hc' : env.cls c' = some cd')
    (ha : ArgsAgree cd cd') (ht : SameTables env c c') (hu : deUnknown env c' cd' d = deUnknown env c cd d) :
    deArgs env r named c' cd' o d = deArgs env r named c cd o d := by
  have h1 : ∀ cx, deTupleArgs r cx cd' d = deTupleArgs r cx cd d := fun cx => by unfold deTupleArgs; rw [ha.fields]
  have h2 : ∀ f, transpKw named cd' f = transpKw named cd f := fun f => by unfold transpKw; rw [ha.fields]
  unfold deArgs
  dsimp only
  rw [clsDeCx_twin ha ht, ha.transparent, ha.fields, hu, deNamedArgs_twin hc hc' ha, h1]
  simp only [h2]

theorem deUnknown_twin {env : Env} {c c' cd cd' d} (hc : env.cls c = some cd) (hc' : env.cls c' = some cd')
    (ha : ArgsAgree cd cd') (hd : cd'.denyUnknown = cd.denyUnknown) : deUnknown env c' cd' d = deUnknown env c cd d := by
  unfold deUnknown
  rw [known_twin hc hc' ha, hasFlatDict_twin ha, hd]

theorem deClsF_some {env : Env} {r : DeRec} {named c cd o d} (hc : env.cls c = some cd) :
    deClsF env r named c o d = match deArgs env r named c cd o d with
      | .error e => .error e
      | .ok (pos, kw) => construct env c cd pos kw := by
  unfold deClsF
  rw [hc]
  rfl

/-- What the constructor sees before `__post_init__`. -/
theorem construct_post {env : Env} {c c' : ClassId} {cd : ClassDef} {p : List (String × Val) → Except PErr (List (String × Val))} {pos kw} {attrs : List (String × Val)}
    (h : construct env c' { cd with postInit := none } pos kw = .ok (.inst c' attrs)) :
    construct env c { cd with postInit := some p } pos kw = match p attrs with
      | .ok attrs' => .ok (.inst c attrs')
      | .error e => .error (.user (.py e)) := by
  have hab : ∀ b, argsBearable env { cd with postInit := some p } b = argsBearable env { cd with postInit := none } b := by
    intro b
    induction b with
    | nil => rfl
    | cons x b ih => unfold argsBearable; rw [ih]
  have hpp : ClassDef.posParams { cd with postInit := some p } = ClassDef.posParams { cd with postInit := none } := rfl
  unfold construct at h ⊢
  dsimp only at h ⊢
  rw [hpp, hab]
  split at h
  · cases h
  · rename_i h1
    rw [if_neg h1]
    split at h
    · cases h
    · rename_i h2
      rw [if_neg h2]
      split at h
      · cases h
      · rename_i attrs' hi
        cases h
        rfl


/-- Two classes with the same signature, checking mode and `__post_init__` are constructed alike. -/
theorem construct_twin {env : Env} {c c' : ClassId} {cd cd' : ClassDef} {pos kw} (hf : cd'.fields = cd.fields)
    (ht : (cd'.typeCheck == .strict) = (cd.typeCheck == .strict)) (hp : cd'.postInit = cd.postInit) :
    construct env c' cd' pos kw = asInstOf c' (construct env c cd pos kw) := by
  have hab : ∀ b, argsBearable env cd' b = argsBearable env cd b := by
    intro b
    induction b with
    | nil => rfl
    | cons x b ih => unfold argsBearable; rw [ih, hf]
  have hpp : cd'.posParams = cd.posParams := by unfold ClassDef.posParams; rw [hf]
  unfold construct
  dsimp only
  rw [hab, hpp, ht, hp, hf]
  repeat' split
  all_goals rfl

theorem asInstOf_wrapUser {c' r} : asInstOf c' (wrapUser r) = wrapUser (asInstOf c' r) := by
  cases r with
  | ok v => cases v <;> rfl
  | error e => cases e <;> rfl

/-- Full twin lemma for `from_obj`. -/
theorem fromObj_twin {env : Env} {named re nu tg n c c'} {cd cd' : ClassDef} {d} (hc : env.cls c = some cd) (hc' : env.cls c' = some cd')
    (ha : ArgsAgree cd cd') (hT : (cd'.typeCheck == .strict) = (cd.typeCheck == .strict)) (hp : cd'.postInit = cd.postInit)
    (ht : SameTables env c c') (hg : NoGlobal env c) (hg' : NoGlobal env c') (hd : IsData c d) (hd' : IsData c' d)
    (hu : deUnknown env c' cd' d = deUnknown env c cd d) :
    (deAt env n).fromObj named re nu tg (.cls c') d = asInstOf c' ((deAt env n).fromObj named re nu tg (.cls c) d) := by
  match n with
  | 0 => rfl
  | 1 =>
    rw [fromObj_cls_fuel1 hg.de hd, fromObj_cls_fuel1 hg'.de hd']
    rfl
  | m + 2 =>
    rw [fromObj_cls hg.de hd, fromObj_cls hg'.de hd', deClsF_some hc, deClsF_some hc', deArgs_twin hc hc' ha ht hu,
      asInstOf_wrapUser]
    cases deArgs env (deAt env m) named c cd { reuse := re, numbers := nu } d with
    | error e => rfl
    | ok pk =>
      obtain ⟨pos, kw⟩ := pk
      dsimp only
      rw [construct_twin ha.fields hT hp]

end Verif
