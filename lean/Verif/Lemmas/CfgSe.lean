import Verif.Lemmas.CfgSim
/-!
# Serialization in class tables that differ only in `reuse_instances` defaults and type checking
-/

namespace Verif

/-- Whether the `reuse_instances` defaults of the two tables matter for a call with this `reuse_instances` argument: not if they
are the same, and not if the argument is given. -/
def ReuseOk (same : Prop) (re : Option Bool) : Prop := same ∨ re.isSome = true

/-- The recursive functions agree. -/
structure SeRecSim (same : Prop) (r r' : SeRec) : Prop where
  render : r'.render = r.render
  flat : r'.flat = r.flat
  cls : ∀ named re cv sn v, ReuseOk same re → r'.cls named re cv sn v = r.cls named re cv sn v
  toObj : ∀ named re cv sn c tg v, ReuseOk same re → r'.toObj named re cv sn c tg v = r.toObj named re cv sn c tg v

/-- Two class tables that serialization treats alike: coercing classes are the same ones; and, for `same`, the
`reuse_instances` defaults are. -/
structure CfgSe (same : Prop) (env env' : Env) : Prop where
  sim : CfgSim env env'
  coerce : ∀ c cd cd', env.cls c = some cd → env'.cls c = some cd' → (cd'.typeCheck == .coerce) = (cd.typeCheck == .coerce)
  reuse : same → ∀ c cd cd', env.cls c = some cd → env'.cls c = some cd' → cd'.reuseDflt = cd.reuseDflt
  dflts : same ∨ ∀ c cd, env.cls c = some cd → ∀ f ∈ cd.fields, ∀ d as, f.skipRule cd ≠ .ifDefault (some (.inst d as))

section
variable {same : Prop} {env env' : Env} {r r' : SeRec}

theorem seUnion_cfg (h : CfgSim env env') (hr : SeRecSim same r r') {cx v} : ∀ ts, seUnion env' r' cx v ts = seUnion env r cx v ts
  | [] => rfl
  | t :: ts => by
    unfold seUnion
    rw [seUnion_cfg h hr ts, h.isInst, hr.render, h.typename]

theorem renderF_cfg (h : CfgSim env env') (hr : SeRecSim same r r') : renderF env' r' = renderF env r := by
  funext cx a
  have h1 : ∀ named b cv sn v, r'.cls named (some b) cv sn v = r.cls named (some b) cv sn v :=
    fun named b cv sn v => hr.cls named (some b) cv sn v (.inr rfl)
  have h2 : ∀ named b cv sn c tg v, r'.toObj named (some b) cv sn c tg v = r.toObj named (some b) cv sn c tg v :=
    fun named b cv sn c tg v => hr.toObj named (some b) cv sn c tg v (.inr rfl)
  have h3 : ∀ cx v ts, seUnion env' r' cx v ts = seUnion env r cx v ts := fun cx v ts => seUnion_cfg h hr ts
  have h4 : cx.inUnion env' = cx.inUnion env := by unfold SeCx.inUnion; rw [h.gser]
  unfold renderF
  simp only [hr.render, h1, h2, h3, h4, h.findUnion, h.unionFuncName, h.hash, h.enumValue, h.enums, h.coerceObj, h.W]

theorem flatF_cfg (h : CfgSim env env') (hr : SeRecSim same r r') : flatF env' r' = flatF env r := by
  funext cx a
  unfold flatF
  rw [hr.render, hr.flat]
  cases a.ty with
  | cls c =>
    obtain ⟨ru, tc, hc⟩ := h.cls c
    dsimp only
    rw [hc]
    cases env.cls c <;> rfl
  | union ts =>
    match ts with
    | [] => rfl
    | [_] => rfl
    | _ :: u :: _ :: _ => cases u <;> rfl
    | [t, u] => cases u <;> rfl
  | _ => rfl

theorem skips_cfg (h : CfgSim env env') (hr : SeRecSim same r r') {cx rule sub}
    (hd : same ∨ ∀ d as, rule ≠ .ifDefault (some (.inst d as))) : skips env' r' cx rule sub = skips env r cx rule sub := by
  unfold skips
  rw [h.truthy]
  cases rule with
  | ifDefault o =>
    cases o with
    | none => rfl
    | some d =>
      cases d with
      | inst c as =>
        rcases hd with hs | hd
        · dsimp only
          rw [hr.toObj _ _ _ _ _ _ _ (.inl hs)]
        · exact absurd rfl (hd c as)
      | _ => rfl
  | _ => rfl

theorem seFields_cfg (h : CfgSim env env') (hr : SeRecSim same r r') {cx : SeCx} {cd cd' : ClassDef} {obj}
    (hcase : cd'.seCase = cd.seCase) (hrule : ∀ f : FieldDef, f.skipRule cd' = f.skipRule cd) :
    ∀ {fs : List FieldDef} {res}, (∀ f ∈ fs, same ∨ ∀ d as, f.skipRule cd ≠ .ifDefault (some (.inst d as))) →
      seFields env' r' cx cd' obj res fs = seFields env r cx cd obj res fs
  | [], _, _ => rfl
  | f :: fs, res, hd => by
    have hf : seField env' r' cx cd' obj res f = seField env r cx cd obj res f := by
      unfold seField
      rw [hr.flat, h.len, hcase, h.lvals, h.truthy, hrule]
      simp only [fun sub => skips_cfg h hr (cx := cx) (sub := sub) (hd f (by simp))]
    unfold seFields
    rw [hf]
    cases seField env r cx cd obj res f with
    | error e => rfl
    | ok res' => exact seFields_cfg h hr hcase hrule (fun f hf => hd f (by simp [hf]))

theorem clsF_cfg (hS : CfgSe same env env') (hr : SeRecSim same r r') {named re cv sn v} (hre : ReuseOk same re) :
    clsF env' r' named re cv sn v = clsF env r named re cv sn v := by
  have h := hS.sim
  unfold clsF
  cases v with
  | inst c as =>
    obtain ⟨ru, tc, hc⟩ := h.cls c
    dsimp only
    cases he : env.cls c with
    | none => rw [hc, he]; rfl
    | some cd =>
      rw [he] at hc
      rw [hc]
      dsimp only [Option.map_some]
      have hco := hS.coerce c cd _ he hc
      have hru : re.getD ru = re.getD cd.reuseDflt := by
        rcases hre with hs | hs
        · rw [show ru = cd.reuseDflt from hS.reuse hs c cd _ he hc]
        · cases re with
          | none => cases hs
          | some b => rfl
      have hcx : clsSeCx env' c { cd with reuseDflt := ru, typeCheck := tc } named re cv sn = clsSeCx env c cd named re cv sn := by
        unfold clsSeCx
        dsimp only at hco ⊢
        rw [hco, hru, h.unionsOf, h.gser]
      rw [hcx, hr.flat]
      have hsf : ClassDef.seFieldsOf { cd with reuseDflt := ru, typeCheck := tc } = cd.seFieldsOf := rfl
      rw [hsf, seFields_cfg (cd := cd) (cd' := { cd with reuseDflt := ru, typeCheck := tc }) h hr rfl (fun f => rfl)]
      intro f hf
      rcases hS.dflts with hs | hd
      · exact .inl hs
      · exact .inr (hd c cd he f (List.mem_filter.1 hf).1)
  | _ => rfl

theorem cacheSe_cfg (h : CfgSim env env') (hr : SeRecSim same r r') : cacheSe env' r' = cacheSe env r := by
  funext t re cv sn v
  unfold cacheSe
  rw [h.bearable, h.unionsOfTy, h.gser, hr.render]

theorem cacheSeUnion_cfg (h : CfgSim env env') (hr : SeRecSim same r r') : cacheSeUnion env' r' = cacheSeUnion env r := by
  funext ts tg v
  have h3 : ∀ cx v ts, seUnion env' r' cx v ts = seUnion env r cx v ts := fun cx v ts => seUnion_cfg h hr ts
  unfold cacheSeUnion
  simp only [h.findUnion, h.unionsOfTy, h.unionFuncName, h.gser, h3]

theorem toObjF_cfg (h : CfgSim env env') (hr : SeRecSim same r r') {named re cv sn c tg v} (hre : ReuseOk same re) :
    toObjF env' r' named re cv sn c tg v = toObjF env r named re cv sn c tg v := by
  unfold toObjF toObjBody
  simp only [cacheSeUnion_cfg h hr, cacheSe_cfg h hr, h.gser, fun v => hr.cls named re cv sn v hre,
    fun c tg v => hr.toObj named re cv sn c tg v hre]

theorem seAt_cfg (hS : CfgSe same env env') : ∀ n, SeRecSim same (seAt env n) (seAt env' n)
  | 0 => ⟨rfl, rfl, fun _ _ _ _ _ _ => rfl, fun _ _ _ _ _ _ _ _ => rfl⟩
  | n + 1 =>
    have ih := seAt_cfg hS n
    ⟨renderF_cfg hS.sim ih, flatF_cfg hS.sim ih, fun _ _ _ _ _ h => clsF_cfg hS ih h, fun _ _ _ _ _ _ _ h => toObjF_cfg hS.sim ih h⟩

/-- Serializing does not see the differences. -/
theorem toDict_cfg (hS : CfgSe same env env') {so n v} (hre : ReuseOk same so.reuse) : toDict env' so n v = toDict env so n v :=
  (seAt_cfg hS n).toObj _ _ _ _ _ _ _ hre

theorem toTuple_cfg (hS : CfgSe same env env') {so n v} (hre : ReuseOk same so.reuse) : toTuple env' so n v = toTuple env so n v :=
  (seAt_cfg hS n).toObj _ _ _ _ _ _ _ hre

end
end Verif
