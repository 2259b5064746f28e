import Verif.Lemmas.RTFlat
import Verif.Props.C28
/-!
# Round trip: transparent classes
-/

namespace Verif

open Spec

theorem Spec.WrapOk.sole {env : Env} {F : Fmt env} {c} {cd : ClassDef} {f} (h : WrapOk env F c cd f) : SoleField cd.fields f where
  mem := by rw [h.only]; simp
  init := h.init
  skip := h.noSkip.1
  skipSer := h.noSkip.2.1
  skipDe := h.noSkip.2.2
  others := by
    intro g hg hne
    rw [h.only, List.mem_singleton] at hg
    exact absurd (by rw [hg]) hne

theorem Spec.WrapOk.names {env : Env} {F : Fmt env} {c} {cd : ClassDef} {f} (h : WrapOk env F c cd f) : (cd.fields.map (·.name)).Nodup := by
  rw [h.only]; simp

/-- The generated functions of a transparent class, from the (de)serialization of its field. -/
theorem cls_wrap {env : Env} {F : Fmt env} {c} {cd : ClassDef} {f v w} (hc : env.cls c = some cd) (hg : env.gser = [] ∧ env.gde = [])
    (htr : cd.transparent = true) (hok : WrapOk env F c cd f) (named : Bool) (hE : Enc env F (scopeOf env named c cd) f.ty v w)
    (hb : bearable env f.ty v = true) :
    Ev (fun n => ∀ re cv, re.getD cd.reuseDflt = F.reuse → cv.getD cd.convDflt = F.conv →
      (seAt env n).cls named re cv F.skipNone (.inst c [(f.name, v)]) = .ok w) ∧
    Ev (fun n => ∀ o, o.reuse.getD cd.reuseDflt = F.deReuse → o.numbers = F.numbers →
      (deAt env n).cls named c o (F.wire w) = .ok (.inst c [(f.name, v)])) := by
  have hat : seFieldArg f (.ok (.inst c [(f.name, v)])) = { ty := f.ty, v := .ok v } := by
    unfold seFieldArg
    dsimp only
    rw [hok.noCustom.1, hok.noFlatten]
    simp [getAttr]
  constructor
  · refine ((hE.1.step (Q := fun n => (seAt env n).flat (seCxOf F (scopeOf env named c cd)) { ty := f.ty, v := .ok v } = .ok [w]) ?_)).step ?_
    · intro n hn
      rw [flat_plain rfl rfl rfl, hn]
    · intro n hn re cv hre hcv
      rw [seAt_cls]
      unfold clsF
      dsimp only
      rw [hc]
      dsimp only
      rw [htr, if_pos rfl, Props.sole_se hok.names hok.sole]
      dsimp only
      rw [clsSeCx_eq hg.1 hok.noClassCustom.1 hre hcv, hat, hn]
      rfl
  · refine hE.2.1.step ?_
    intro n hn o hre hnu
    rw [deAt_cls, Props.transp_deCls hc htr hok.names hok.sole]
    have hcx : DeM F (scopeOf env named c cd) (clsDeCx env c cd named o (F.wire w)) := deM_cls hg.2 hok.noClassCustom.2 hre hnu
    have hr : (deAt env n).render (clsDeCx env c cd named o (F.wire w)) (transpArg named f (F.wire w)) = .ok v := by
      cases named with
      | true =>
        have h1 : getStr "__serde_transparent__" [(Val.str "__serde_transparent__", F.wire w)] = some (F.wire w) := by simp [getStr]
        rw [render_dropDflt (d := .dict .plain [(.str "__serde_transparent__", F.wire w)]) n _ _ rfl hok.noFlatten (by
          unfold dfltExists transpArg
          simp only [hok.noFlatten, Bool.false_eq_true, if_false, pyIn, h1]; rfl)]
        exact hn _ _ hcx ⟨rfl, hok.noCustom.2, hok.noFlatten, rfl, .inr (.inr ⟨_, _, rfl, h1⟩)⟩ rfl
      | false =>
        rw [Props.render_dropDflt_idx n _ _ (.tuple [F.wire w]) 0 rfl]
        exact hn _ _ hcx ⟨rfl, hok.noCustom.2, hok.noFlatten, rfl, .inr (.inl ⟨_, 0, rfl, rfl⟩)⟩ rfl
    rw [hr]
    exact constructB_all (L := [(f, v, v)]) hok.only (fun g hg => by rw [hok.only, List.mem_singleton] at hg; rw [hg]; exact hok.init)
      hok.names hok.noHook (fun t ht => by rw [List.mem_singleton.1 ht]; exact hb)

/-- A transparent class in any scope. -/
theorem enc_wrap {env : Env} {F : Fmt env} {S : Scope} {c} {cd : ClassDef} {f v w} (hc : env.cls c = some cd) (hg : env.gser = [] ∧ env.gde = [])
    (htr : cd.transparent = true) (hok : WrapOk env F c cd f) (hv : HasTy env f.ty v) (hE : Enc env F (scopeOf env S.named c cd) f.ty v w)
    (hb : bearable env f.ty v = true) : Enc env F S (.cls c) (.inst c [(f.name, v)]) w := by
  obtain ⟨h1, h2⟩ := cls_wrap hc hg htr hok S.named hE hb
  refine ⟨h1.step ?_, h2.step ?_, ?_, hE.2.2.2⟩
  · intro n hn
    rw [seAt_render]
    unfold renderF
    have h0 : (seCxOf F S).sers = [] := rfl
    rw [h0, pickSer_nil]
    exact hn _ _ rfl rfl
  · intro n hn cx a hcx hr hty
    rw [render_reads hr]
    unfold deBody
    rw [hcx.des, pickDe_nil, hr.2.1, hr.1]
    dsimp only
    rw [hty]
    dsimp only
    rw [hr.2.2.1, hr.data, hcx.named, hcx.reuse, hcx.numbers]
    simp only [Bool.false_eq_true, if_false]
    exact hn _ rfl rfl
  · intro hw
    have := hE.2.2.1 hw
    rw [this] at hv
    exact absurd hv hok.notNone

end Verif
