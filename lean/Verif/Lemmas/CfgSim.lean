import Verif.Model.De
/-!
# Class tables that differ only in `reuse_instances` defaults and type checking
-/

namespace Verif

/-- The two class tables are the same, except for each class's `reuse_instances` default and type checking mode. -/
structure CfgSim (env env' : Env) : Prop where
  W : env'.W = env.W
  P : env'.P = env.P
  enums : env'.enums = env.enums
  gser : env'.gser = env.gser
  gde : env'.gde = env.gde
  len : env'.classes.length = env.classes.length
  cls : ∀ c, ∃ ru tc, env'.cls c = (env.cls c).map (fun cd => { cd with reuseDflt := ru, typeCheck := tc })

namespace CfgSim
variable {env env' : Env} (h : CfgSim env env')
include h

theorem clsName : env'.clsName = env.clsName := by
  funext c
  obtain ⟨ru, tc, hc⟩ := h.cls c
  unfold Env.clsName
  rw [hc]
  cases env.cls c <;> rfl

theorem enm : env'.enm = env.enm := by funext e; unfold Env.enm; rw [h.enums]

theorem enmName : env'.enmName = env.enmName := by funext e; unfold Env.enmName; rw [h.enm]

theorem hash : env'.hash = env.hash := by
  funext c
  obtain ⟨ru, tc, hc⟩ := h.cls c
  unfold Env.hash
  rw [hc]
  cases env.cls c <;> rfl

theorem isClsInst : isClsInst env' = isClsInst env := by
  funext c v
  unfold Verif.isClsInst
  cases v with
  | inst d _ =>
    obtain ⟨ru, tc, hc⟩ := h.cls d
    dsimp only
    rw [hc]
    cases env.cls d <;> rfl
  | _ => rfl

theorem isPrimInst : isPrimInst env' = isPrimInst env := by
  funext p v
  unfold Verif.isPrimInst
  rw [h.enm]

theorem isStdInst : isStdInst env' = isStdInst env := by
  funext k v
  unfold Verif.isStdInst
  rw [h.W]

end CfgSim

mutual
theorem CfgSim.typename_eq {env env' : Env} (h : CfgSim env env') : ∀ t, typename env' t = typename env t
  | .prim _ | .newType _ _ | .none | .any | .listB _ | .setB _ | .dequeB | .counter _ | .counterB | .tupleB | .dictB _ | .std _ | .dt _
  | .tvar _ | .alias _ _ | .other _ => by simp [typename]
  | .list _ t => by simp [typename, h.typename_eq t]
  | .set _ t => by simp [typename, h.typename_eq t]
  | .deque t => by simp [typename, h.typename_eq t]
  | .tuple ts => by simp [typename, h.typenames_eq ts]
  | .tupleV t => by simp [typename, h.typename_eq t]
  | .dict _ kt vt => by simp [typename, h.typename_eq kt, h.typename_eq vt]
  | .enum e => by simp [typename, h.enmName]
  | .lit vs => by simp [typename, h.W]
  | .union ts => by
    match ts with
    | [a, .none] => simp [typename, h.typename_eq a]
    | [] => simp [typename, h.typenamesU_eq []]
    | [a] => simp [typename, h.typenamesU_eq [a]]
    | a :: b :: c :: r => simp [typename, h.typenamesU_eq (a :: b :: c :: r)]
    | [a, b] =>
      have := h.typenamesU_eq [a, b]
      cases b <;> simp [typename, this, h.typename_eq a]
  | .cls c => by simp [typename, h.clsName]
  | .gen c _ => by simp [typename, h.clsName]
theorem CfgSim.typenames_eq {env env' : Env} (h : CfgSim env env') : ∀ ts, typenames env' ts = typenames env ts
  | [] => by simp [typenames]
  | t :: ts => by simp [typenames, h.typename_eq t, h.typenames_eq ts]
theorem CfgSim.typenamesU_eq {env env' : Env} (h : CfgSim env env') : ∀ ts, typenamesU env' ts = typenamesU env ts
  | [] => by simp [typenamesU]
  | [a] => by simp [typenamesU, h.typename_eq a]
  | a :: b :: r => by
    have ha := h.typename_eq a
    have hb := h.typename_eq b
    have hr := h.typenamesU_eq r
    cases b <;> simp [typenamesU, ha, hr] <;> exact hb
end

mutual
theorem CfgSim.bearable_eq {env env' : Env} (h : CfgSim env env') : ∀ t v, bearable env' t v = bearable env t v
  | .prim _, v => by simp [bearable, h.isPrimInst]
  | .newType _ _, v => by simp [bearable, h.isPrimInst]
  | .none, v | .any, v | .listB _, v | .setB _, v | .dequeB, v | .counterB, v | .tupleB, v | .dictB _, v | .dt _, v | .enum _, v | .lit _, v
  | .tvar _, v | .other _, v => by simp [bearable]
  | .std _, v => by simp [bearable, h.isStdInst]
  | .list _ t, v => by simp only [bearable, h.P, h.bearable_eq t]
  | .set _ t, v => by simp only [bearable, h.P, h.bearable_eq t]
  | .deque t, v => by simp only [bearable, h.P, h.bearable_eq t]
  | .counter t, v => by simp only [bearable, h.P, h.bearable_eq t]
  | .tuple ts, v => by simp only [bearable, h.bearableZip_eq ts]
  | .tupleV t, v => by simp only [bearable, h.P, h.bearable_eq t]
  | .dict _ kt vt, v => by simp only [bearable, h.P, h.bearable_eq kt, h.bearable_eq vt]
  | .union ts, v => by simp only [bearable, h.bearableAny_eq ts]
  | .cls c, v => by simp only [bearable, h.isClsInst]
  | .gen c _, v => by simp only [bearable, h.isClsInst]
  | .alias _ t, v => by simp only [bearable, h.bearable_eq t]
theorem CfgSim.bearableZip_eq {env env' : Env} (h : CfgSim env env') : ∀ ts vs, bearableZip env' ts vs = bearableZip env ts vs
  | [], [] => by simp [bearableZip]
  | [], _ :: _ => by simp [bearableZip]
  | _ :: _, [] => by simp [bearableZip]
  | t :: ts, v :: vs => by simp only [bearableZip, h.bearable_eq t v, h.bearableZip_eq ts vs]
theorem CfgSim.bearableAny_eq {env env' : Env} (h : CfgSim env env') : ∀ ts v, bearableAny env' ts v = bearableAny env ts v
  | [], v => by simp [bearableAny]
  | t :: ts, v => by simp only [bearableAny, h.bearable_eq t v, h.bearableAny_eq ts v]
end

mutual
theorem CfgSim.isInst_eq {env env' : Env} (h : CfgSim env env') : ∀ t v, isInst env' t v = isInst env t v
  | .prim _, v => by simp only [isInst, h.bearable_eq]
  | .none, v => by simp only [isInst, h.bearable_eq]
  | .enum _, v => by simp only [isInst, h.bearable_eq]
  | .std _, v => by simp only [isInst, h.bearable_eq]
  | .dt _, v => by simp only [isInst, h.bearable_eq]
  | .tvar _, v => by simp only [isInst, h.bearable_eq]
  | .alias _ _, v => by simp only [isInst, h.bearable_eq]
  | .other _, v => by simp only [isInst, h.bearable_eq]
  | .any, v | .listB _, v | .setB _, v | .dequeB, v | .counterB, v | .tupleB, v | .dictB _, v | .lit _, v => by simp [isInst]
  | .newType _ _, v => by simp only [isInst, h.isPrimInst]
  | .list _ t, v => by simp only [isInst, h.isInst_eq t]
  | .set _ t, v => by simp only [isInst, h.isInst_eq t]
  | .deque t, v => by simp only [isInst, h.isInst_eq t]
  | .counter t, v => by simp only [isInst, h.isInst_eq t]
  | .tuple ts, v => by simp only [isInst, h.isInstZip_eq ts]
  | .tupleV t, v => by simp only [isInst, h.isInst_eq t]
  | .dict _ kt vt, v => by simp only [isInst, h.isInst_eq kt, h.isInst_eq vt]
  | .union ts, v => by simp only [isInst, h.isInstAny_eq ts]
  | .cls c, v => by simp only [isInst, h.isClsInst]
  | .gen c _, v => by simp only [isInst, h.isClsInst]
theorem CfgSim.isInstZip_eq {env env' : Env} (h : CfgSim env env') : ∀ ts vs, isInstZip env' ts vs = isInstZip env ts vs
  | [], [] => by simp [isInstZip]
  | [], _ :: _ => by simp [isInstZip]
  | _ :: _, [] => by simp [isInstZip]
  | t :: ts, v :: vs => by simp only [isInstZip, h.isInst_eq t v, h.isInstZip_eq ts vs]
theorem CfgSim.isInstAny_eq {env env' : Env} (h : CfgSim env env') : ∀ ts v, isInstAny env' ts v = isInstAny env ts v
  | [], v => by simp [isInstAny]
  | t :: ts, v => by simp only [isInstAny, h.isInst_eq t v, h.isInstAny_eq ts v]
end

namespace CfgSim
variable {env env' : Env} (h : CfgSim env env')
include h

theorem typename : typename env' = typename env := funext h.typename_eq
theorem bearable : bearable env' = bearable env := by funext t v; exact h.bearable_eq t v
theorem isInst : isInst env' = isInst env := by funext t v; exact h.isInst_eq t v
theorem unionFuncName : unionFuncName env' = unionFuncName env := by
  funext ts; unfold Verif.unionFuncName; rw [h.typenames_eq]
theorem litTypeName : litTypeName env' = litTypeName env := by
  funext v; unfold Verif.litTypeName; rw [h.enmName]
theorem litFuncName : litFuncName env' = litFuncName env := by
  funext v; unfold Verif.litFuncName; rw [h.litTypeName, h.W]
theorem findUnion : findUnion env' = findUnion env := by
  funext tbl n; unfold Verif.findUnion; rw [h.unionFuncName]
theorem findLit : findLit env' = findLit env := by
  funext tbl n; unfold Verif.findLit; rw [h.litFuncName]

theorem unionsCls : ∀ n, unionsCls env' n = unionsCls env n := by
  intro n
  induction n with
  | zero => rfl
  | succ n ih =>
    funext stack c
    obtain ⟨ru, tc, hc⟩ := h.cls c
    unfold Verif.unionsCls
    rw [ih, hc]
    cases env.cls c <;> rfl

theorem litsCls : ∀ n, litsCls env' n = litsCls env n := by
  intro n
  induction n with
  | zero => rfl
  | succ n ih =>
    funext stack c
    obtain ⟨ru, tc, hc⟩ := h.cls c
    unfold Verif.litsCls
    rw [ih, hc]
    cases env.cls c <;> rfl

theorem unionsOf : env'.unionsOf = env.unionsOf := by funext c; unfold Env.unionsOf; rw [h.len, h.unionsCls]
theorem litsOf : env'.litsOf = env.litsOf := by funext c; unfold Env.litsOf; rw [h.len, h.litsCls]
theorem unionsOfTy : env'.unionsOfTy = env.unionsOfTy := by funext c; unfold Env.unionsOfTy; rw [h.len, h.unionsCls]
theorem litsOfTy : env'.litsOfTy = env.litsOfTy := by funext c; unfold Env.litsOfTy; rw [h.len, h.litsCls]

theorem truthy : truthy env' = truthy env := by
  funext v; unfold Verif.truthy; rw [h.enm, h.W]

theorem primCall : primCall env' = primCall env := by
  funext p v; unfold Verif.primCall; rw [h.W, h.truthy]

theorem coerceObj : coerceObj env' = coerceObj env := by
  funext p v; unfold Verif.coerceObj; rw [h.primCall]

theorem enumValue : ∀ e n v, enumValue env' e n v = enumValue env e n v := by
  intro e n
  induction n generalizing e with
  | zero => intro v; rfl
  | succ n ih =>
    intro v
    unfold Verif.enumValue
    simp only [h.hash, h.enm, ih]

theorem lvals (case : Option (String → String)) : ∀ n, lvals env' case n = lvals env case n := by
  intro n
  induction n with
  | zero => rfl
  | succ n ih =>
    funext f
    unfold Verif.lvals
    cases f.flatChild with
    | none => rfl
    | some c =>
      obtain ⟨ru, tc, hc⟩ := h.cls c
      dsimp only
      rw [ih, hc]
      cases env.cls c <;> rfl

theorem knownCls : ∀ n, knownCls env' n = knownCls env n := by
  intro n
  induction n with
  | zero => rfl
  | succ n ih =>
    funext c
    obtain ⟨ru, tc, hc⟩ := h.cls c
    unfold Verif.knownCls
    rw [ih, hc]
    cases env.cls c <;> rfl

theorem flatDictCls : ∀ n, flatDictCls env' n = flatDictCls env n := by
  intro n
  induction n with
  | zero => rfl
  | succ n ih =>
    funext c
    obtain ⟨ru, tc, hc⟩ := h.cls c
    unfold Verif.flatDictCls
    rw [ih, hc]
    cases env.cls c <;> rfl

theorem known : env'.known = env.known := by funext c; unfold Env.known; rw [h.len, h.knownCls]
theorem flatDict : env'.flatDict = env.flatDict := by funext c; unfold Env.flatDict; rw [h.len, h.flatDictCls]

end CfgSim
end Verif
