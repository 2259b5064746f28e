import Verif.Lemmas.CfgSe
/-!
# Deserialization in class tables that differ only in `reuse_instances` defaults
-/

namespace Verif

/-- The recursive functions agree. -/
structure DeRecSim (same : Prop) (r r' : DeRec) : Prop where
  render : r'.render = r.render
  cls : ∀ named c o d, ReuseOk same o.reuse → r'.cls named c o d = r.cls named c o d
  fromObj : ∀ named re num tg c d, ReuseOk same re → r'.fromObj named re num tg c d = r.fromObj named re num tg c d

/-- Two class tables that deserialization treats alike: classes are type checked in the same way; and, for `same`, the
`reuse_instances` defaults are the same. -/
structure CfgDe (same : Prop) (env env' : Env) : Prop where
  sim : CfgSim env env'
  check : ∀ c cd cd', env.cls c = some cd → env'.cls c = some cd' → cd'.typeCheck = cd.typeCheck
  reuse : same → ∀ c cd cd', env.cls c = some cd → env'.cls c = some cd' → cd'.reuseDflt = cd.reuseDflt

namespace CfgSim
variable {env env' : Env} (h : CfgSim env env')
include h

theorem isPrimitive : isPrimitive env' = isPrimitive env := by
  funext t; unfold Verif.isPrimitive; rw [h.enm]

theorem project : project env' = project env := by
  funext d a b c e; unfold Verif.project; rw [h.truthy]

theorem tyArgStr : tyArgStr env' = tyArgStr env := by
  funext t; unfold Verif.tyArgStr; rw [h.typename]

theorem pyCounter : pyCounter env' = pyCounter env := by
  funext x; unfold Verif.pyCounter; rw [h.hash]

theorem stdCall : stdCall env' = stdCall env := by
  funext k x; unfold Verif.stdCall; rw [h.W]

theorem unionPayload : unionPayload env' = unionPayload env := by
  funext tg t d; unfold Verif.unionPayload; rw [h.typename]

theorem unionPre : unionPre env' = unionPre env := by
  funext t d; unfold Verif.unionPre; rw [h.isPrimitive, h.isPrimInst, h.bearable]

theorem deEnum : deEnum env' = deEnum env := by
  funext e d; unfold Verif.deEnum; simp only [h.enm, h.W]

theorem factoryOf : factoryOf env' = factoryOf env := by
  funext t; unfold Verif.factoryOf; rw [h.typename]

theorem orEmptyItems : orEmptyItems env' = orEmptyItems env := by
  funext d; unfold Verif.orEmptyItems; rw [h.truthy]

theorem optExists : optExists env' = optExists env := by
  funext cx a t
  unfold Verif.optExists
  cases t with
  | cls c =>
    obtain ⟨ru, tc, hc⟩ := h.cls c
    dsimp only
    rw [hc]
    cases env.cls c <;> rfl
  | _ => rfl

theorem dfltExists : dfltExists env' = dfltExists env := by
  funext a d
  unfold Verif.dfltExists
  cases a.ty with
  | cls c =>
    obtain ⟨ru, tc, hc⟩ := h.cls c
    dsimp only
    rw [hc]
    cases env.cls c <;> rfl
  | _ => rfl

theorem argsBearable {cd : ClassDef} {ru tc} (xs : List (String × Val)) :
    argsBearable env' { cd with reuseDflt := ru, typeCheck := tc } xs = argsBearable env cd xs := by
  induction xs with
  | nil => rfl
  | cons x r ih =>
    unfold Verif.argsBearable
    rw [h.bearable, ih]

theorem construct {c} {cd : ClassDef} {ru pos kw} :
    construct env' c { cd with reuseDflt := ru } pos kw = construct env c cd pos kw := by
  unfold Verif.construct
  have := h.argsBearable (cd := cd) (ru := ru) (tc := cd.typeCheck)
  dsimp only at this ⊢
  simp only [this]
  rfl

end CfgSim

section
variable {same : Prop} {env env' : Env} {r r' : DeRec}

theorem deUnion_cfg (h : CfgSim env env') (hr : DeRecSim same r r') {cx d} : ∀ ts, deUnion env' r' cx d ts = deUnion env r cx d ts
  | [] => rfl
  | t :: ts => by
    have hm : deMember env' r' cx t d = deMember env r cx t d := by
      unfold deMember
      rw [h.unionPayload, h.unionPre, hr.render, h.bearable]
    unfold deUnion
    rw [hm, deUnion_cfg h hr ts]

theorem deBody_cfg (h : CfgSim env env') (hr : DeRecSim same r r') : deBody env' r' = deBody env r := by
  funext cx a
  have h1 : ∀ named c mg mv vta b num d, r'.cls named c ⟨mg, mv, vta, some b, num⟩ d = r.cls named c ⟨mg, mv, vta, some b, num⟩ d :=
    fun named c mg mv vta b num d => hr.cls named c _ d (.inr rfl)
  have h2 : ∀ named b num tg c v, r'.fromObj named (some b) num tg c v = r.fromObj named (some b) num tg c v :=
    fun named b num tg c v => hr.fromObj named (some b) num tg c v (.inr rfl)
  have h3 : ∀ cx d ts, deUnion env' r' cx d ts = deUnion env r cx d ts := fun cx d ts => deUnion_cfg h hr ts
  have h4 : ∀ d, cx.inUnion env' d = cx.inUnion env d := by intro d; unfold DeCx.inUnion; rw [h.gde]
  unfold deBody
  simp only [hr.render, h1, h2, h3, h4, h.findUnion, h.unionFuncName, h.hash, h.coerceObj, h.W, h.tyArgStr, h.optExists, h.pyCounter,
    h.factoryOf, h.deEnum, h.isStdInst, h.stdCall, h.findLit, h.litFuncName]

theorem deRenderF_cfg (h : CfgSim env env') (hr : DeRecSim same r r') : deRenderF env' r' = deRenderF env r := by
  funext cx a
  unfold deRenderF
  rw [deBody_cfg h hr, h.dfltExists]

theorem deClsF_cfg (hS : CfgDe same env env') (hr : DeRecSim same r r') {named c o d} (hre : ReuseOk same o.reuse) :
    deClsF env' r' named c o d = deClsF env r named c o d := by
  have h := hS.sim
  unfold deClsF
  obtain ⟨ru, tc, hc⟩ := h.cls c
  cases he : env.cls c with
  | none => rw [hc, he]; rfl
  | some cd =>
    rw [he] at hc
    have htc : tc = cd.typeCheck := hS.check c cd _ he hc
    subst htc
    rw [hc]
    dsimp only [Option.map_some]
    have hru : o.reuse.getD ru = o.reuse.getD cd.reuseDflt := by
      rcases hre with hs | hs
      · rw [show ru = cd.reuseDflt from hS.reuse hs c cd _ he hc]
      · cases ho : o.reuse with
        | none => rw [ho] at hs; cases hs
        | some b => rfl
    have hcx : clsDeCx env' c { cd with reuseDflt := ru } named o d = clsDeCx env c cd named o d := by
      unfold clsDeCx
      dsimp only
      rw [hru, h.unionsOf, h.litsOf, h.gde]
    have hargs : deArgs env' r' named c { cd with reuseDflt := ru } o d = deArgs env r named c cd o d := by
      unfold deArgs
      rw [hcx]
      have hfd : ∀ ex, deField env' r' (clsDeCx env c cd named o d) c { cd with reuseDflt := ru } ex d =
          deField env r (clsDeCx env c cd named o d) c cd ex d := by
        intro ex
        funext f
        unfold deField
        rw [h.project, h.known, h.flatDict, hr.render]
        rfl
      have hex : deExtra env' c { cd with reuseDflt := ru } d = deExtra env c cd d := by
        unfold deExtra; rw [h.orEmptyItems, h.known]; rfl
      have hun : deUnknown env' c { cd with reuseDflt := ru } d = deUnknown env c cd d := by
        unfold deUnknown; rw [h.orEmptyItems, h.known]; rfl
      have hna : deNamedArgs env' r' (clsDeCx env c cd named o d) c { cd with reuseDflt := ru } d =
          deNamedArgs env r (clsDeCx env c cd named o d) c cd d := by
        unfold deNamedArgs
        rw [hex]
        simp only [hfd]
      have hta : deTupleArgs r' (clsDeCx env c cd named o d) { cd with reuseDflt := ru } d =
          deTupleArgs r (clsDeCx env c cd named o d) cd d := by
        unfold deTupleArgs; rw [hr.render]
      dsimp only at hun hna hta ⊢
      rw [hun, hna, hta, hr.render]
      rfl
    rw [hargs]
    cases deArgs env r named c cd o d with
    | error e => rfl
    | ok pk => exact h.construct

theorem cacheDeUnion_cfg (h : CfgSim env env') (hr : DeRecSim same r r') : cacheDeUnion env' r' = cacheDeUnion env r := by
  funext ts tg num d
  have h3 : ∀ cx d ts, deUnion env' r' cx d ts = deUnion env r cx d ts := fun cx d ts => deUnion_cfg h hr ts
  unfold cacheDeUnion
  simp only [h.findUnion, h.unionsOfTy, h.litsOfTy, h.unionFuncName, h.gde, h3]

theorem fromObjF_cfg (h : CfgSim env env') (hr : DeRecSim same r r') {named re num tg c d} (hre : ReuseOk same re) :
    fromObjF env' r' named re num tg c d = fromObjF env r named re num tg c d := by
  have h1 : ∀ k mg d, r'.cls named k { mg := keepGen mg, reuse := re, numbers := num } d =
      r.cls named k { mg := keepGen mg, reuse := re, numbers := num } d := fun k mg d => hr.cls named k _ d hre
  unfold fromObjF fromObjBody
  simp only [cacheDeUnion_cfg h hr, h.gde, h.hash, h.W, h.pyCounter, h.factoryOf, h.primCall, h.enm, h.stdCall, h1,
    fun tg c v => hr.fromObj named re num tg c v hre]

theorem deAt_cfg (hS : CfgDe same env env') : ∀ n, DeRecSim same (deAt env n) (deAt env' n)
  | 0 => ⟨rfl, fun _ _ _ _ _ => rfl, fun _ _ _ _ _ _ _ => rfl⟩
  | n + 1 =>
    have ih := deAt_cfg hS n
    ⟨deRenderF_cfg hS.sim ih, fun _ _ _ _ h => deClsF_cfg hS ih h, fun _ _ _ _ _ _ h => fromObjF_cfg hS.sim ih h⟩

/-- Deserializing does not see the differences. -/
theorem fromDict_cfg (hS : CfgDe same env env') {o n c d} (hre : ReuseOk same o.reuse) : fromDict env' o n c d = fromDict env o n c d :=
  (deAt_cfg hS n).fromObj _ _ _ _ _ _ hre

theorem fromTuple_cfg (hS : CfgDe same env env') {o n c d} (hre : ReuseOk same o.reuse) : fromTuple env' o n c d = fromTuple env o n c d :=
  (deAt_cfg hS n).fromObj _ _ _ _ _ _ hre

end
end Verif
