import Verif.Spec.Collect
import Verif.Lemmas.Agree
/-!
# The number hook concerns only float annotations
-/

namespace Verif
open Spec

theorem Spec.FloatFree.part {env : Env} {t s} (h : FloatFree env t) (hp : Part env true t s) : FloatFree env s :=
  fun u hu => h u (.step hp hu)

structure NumFree (env : Env) (r : DeRec) : Prop where
  render : ∀ (cx : DeCx) (h h' : Option (Val → Except PErr Val)) (a : DeArg), (∀ us ∈ cx.unions, ∀ t ∈ us, FloatFree env t) → FloatFree env a.ty →
    r.render { cx with numbers := h } a = r.render { cx with numbers := h' } a
  cls : ∀ named c (o : DeCall) (h h' : Option (Val → Except PErr Val)) d, FloatFree env (.cls c) →
    r.cls named c { o with numbers := h } d = r.cls named c { o with numbers := h' } d

theorem deUnion_num {env : Env} {r : DeRec} (hr : NumFree env r) (cx : DeCx) (h h') (d : Val) (hu : ∀ us ∈ cx.unions, ∀ t ∈ us, FloatFree env t) :
    ∀ ts, (∀ t ∈ ts, FloatFree env t) → deUnion env r { cx with numbers := h } d ts = deUnion env r { cx with numbers := h' } d ts := by
  intro ts
  induction ts with
  | nil => intro _; rfl
  | cons t ts ih =>
    intro hq
    unfold deUnion
    have : deMember env r { cx with numbers := h } t d = deMember env r { cx with numbers := h' } t d := by
      have hp : ∀ p, r.render { cx with numbers := h } { ty := t, name := "fake_key", conv := "fake_key", src := .key p } =
          r.render { cx with numbers := h' } { ty := t, name := "fake_key", conv := "fake_key", src := .key p } :=
        fun p => hr.render cx h h' { ty := t, name := "fake_key", conv := "fake_key", src := .key p } hu (hq t (by simp))
      unfold deMember
      simp only [hp]
    rw [this, ih (fun t ht => hq t (List.mem_cons_of_mem _ ht))]

theorem findUnion_mem {env : Env} {us : List (List Ty)} {nm ts} (h : findUnion env us nm = some ts) : ts ∈ us := by
  unfold findUnion at h
  have := List.mem_of_find?_eq_some h
  simpa using this

theorem deBody_num {env : Env} {r : DeRec} (hr : NumFree env r) (cx : DeCx) (h h') (a : DeArg)
    (hu : ∀ us ∈ cx.unions, ∀ t ∈ us, FloatFree env t) (hs : FloatFree env a.ty) :
    deBody env r { cx with numbers := h } a = deBody env r { cx with numbers := h' } a := by
  have hel : ∀ (t : Ty), FloatFree env t → ∀ (nm : String) (y : Res Val),
      r.render { cx with numbers := h } { ty := t, name := nm, conv := nm, src := .val y, alias := a.alias, deser := a.deser } =
      r.render { cx with numbers := h' } { ty := t, name := nm, conv := nm, src := .val y, alias := a.alias, deser := a.deser } :=
    fun t ht nm y => hr.render cx h h' _ hu ht
  have hty : ∀ (t : Ty) d ta, FloatFree env t → r.render { cx with numbers := h } { a with ty := t, dflt := d, tyArgs := ta } =
      r.render { cx with numbers := h' } { a with ty := t, dflt := d, tyArgs := ta } := fun t d ta ht => hr.render cx h h' _ hu ht
  have hpd : primData { cx with numbers := h } a = primData { cx with numbers := h' } a := rfl
  have hoe : ∀ t, optExists env { cx with numbers := h } a t = optExists env { cx with numbers := h' } a t := fun _ => rfl
  obtain ⟨ty, name, conv, src, al, deser, fl, dflt, ta⟩ := a
  unfold deBody
  dsimp only at hs hel hty hpd hoe ⊢
  have hQ : ∀ s, Inner ty s → FloatFree env s := fun s hi => hs.part (inner_part hi)
  cases ty with
  | gen c args => exact absurd rfl ((hs _ .refl).2.2 c args)
  | tvar x => exact absurd rfl ((hs _ .refl).2.1 x)
  | alias nm t => simp only [hty _ _ _ (hQ _ .alias)]
  | list k t => simp only [hel _ (hQ _ .list)]
  | set k t => simp only [hel _ (hQ _ .set)]
  | deque t => simp only [hel _ (hQ _ .deque)]
  | counter t => simp only [hel _ (hQ _ .counter)]
  | dict k kt vt => simp only [hel _ (hQ _ .key), hel _ (hQ _ .value)]
  | tupleV t => simp only [hel _ (hQ _ .tupleV)]
  | tuple ts =>
    have : ∀ F : Ty × Nat → Res Val, mapR (fun it : Ty × Nat => r.render { cx with numbers := h }
          { ty := it.1, name := "data[..]", conv := "data[..]", src := .val (F it), alias := al, deser := deser }) ts.zipIdx =
        mapR (fun it : Ty × Nat => r.render { cx with numbers := h' }
          { ty := it.1, name := "data[..]", conv := "data[..]", src := .val (F it), alias := al, deser := deser }) ts.zipIdx := by
      intro F
      refine mapR_congr (fun it hit => hel _ (hQ _ (.tuple ?_)) _ _)
      have := List.mem_map_of_mem (f := Prod.fst) hit
      simpa using this
    cases ts with
    | nil => rfl
    | cons t ts => dsimp only; simp only [this]
  | dictB k => cases k <;> rfl
  | cls c =>
    have hc : ∀ d, r.cls cx.named c { mg := cx.mg, mgVars := cx.mgVars, vta := ta, reuse := some cx.reuse, numbers := h } d =
        r.cls cx.named c { mg := cx.mg, mgVars := cx.mgVars, vta := ta, reuse := some cx.reuse, numbers := h' } d :=
      fun d => hr.cls cx.named c { mg := cx.mg, mgVars := cx.mgVars, vta := ta, reuse := some cx.reuse } h h' d hs
    simp only [hc]
  | prim p =>
    have hp := (hs _ .refl).1
    cases p with
    | float => exact absurd rfl hp
    | _ => simp only [hpd]
  | union ts =>
    have hun : ∀ d us, us ∈ cx.unions → deUnion env r (DeCx.inUnion { cx with numbers := h } env d) d us =
        deUnion env r (DeCx.inUnion { cx with numbers := h' } env d) d us :=
      fun d us hus => deUnion_num hr (cx.inUnion env d) h h' d hu us (hu us hus)
    cases hf : findUnion env cx.unions (unionFuncName env ts) with
    | none =>
      simp only [hf, hoe]
      cases ts with
      | nil => rfl
      | cons t ts => simp only [hty _ _ _ (hQ t (.union (by simp)))]
    | some us =>
      simp only [hf, hoe, hun _ us (findUnion_mem hf)]
      cases ts with
      | nil => rfl
      | cons t ts => simp only [hty _ _ _ (hQ t (.union (by simp)))]
  | _ => simp only [hpd]

theorem part_of_renderable {env : Env} {c} {cd : ClassDef} {f} (hc : env.cls c = some cd) (hf : f ∈ cd.fields.filter (·.renderable)) :
    Part env true (.cls c) f.ty := by
  obtain ⟨h1, h2⟩ := List.mem_filter.1 hf
  refine .field hc h1 ?_
  unfold FieldDef.renderable at h2
  cases hs : f.skip with
  | false => rfl
  | true => rw [hs] at h2; simp at h2

theorem deClsF_num {env : Env} {r : DeRec} (hr : NumFree env r) (named c) (o : DeCall) (h h') (d : Val) (hs : FloatFree env (.cls c)) :
    deClsF env r named c { o with numbers := h } d = deClsF env r named c { o with numbers := h' } d := by
  unfold deClsF
  cases hc : env.cls c with
  | none => rfl
  | some cd =>
    dsimp only
    have hu : ∀ us ∈ (clsDeCx env c cd named o d).unions, ∀ t ∈ us, FloatFree env t := by
      intro us hus t ht u hu
      exact hs u (((unionsOf_iff).1 hus).trans (.step (.union ht) hu))
    have hrd : ∀ f ∈ cd.fields.filter (·.renderable), ∀ a : DeArg, a.ty = f.ty →
        r.render (clsDeCx env c cd named { o with numbers := h } d) a = r.render (clsDeCx env c cd named { o with numbers := h' } d) a := by
      intro f hf a ha
      exact hr.render (clsDeCx env c cd named o d) h h' a hu (by rw [ha]; exact hs.part (part_of_renderable hc hf))
    have : deArgs env r named c cd { o with numbers := h } d = deArgs env r named c cd { o with numbers := h' } d := by
      unfold deArgs
      dsimp only
      split
      · split
        · rfl
        · rename_i f fs hfs
          rw [hrd f (by rw [hfs]; simp) _ rfl]
      · split
        · split
          · rfl
          · rfl
          · unfold deNamedArgs
            split
            · rfl
            · rename_i ex _
              have : mapR (deField env r (clsDeCx env c cd named { o with numbers := h } d) c cd ex d) (cd.fields.filter (·.renderable)) =
                  mapR (deField env r (clsDeCx env c cd named { o with numbers := h' } d) c cd ex d) (cd.fields.filter (·.renderable)) := by
                refine mapR_congr (fun f hf => ?_)
                unfold deField
                have := fun (a : DeArg) (ha : a.ty = f.ty) => hrd f hf a ha
                split
                · rfl
                · dsimp only
                  split
                  · rfl
                  · split
                    · exact this _ rfl
                    · exact congrArg _ (this _ rfl)
              rw [this]
        · have : deTupleArgs r (clsDeCx env c cd named { o with numbers := h } d) cd d = deTupleArgs r (clsDeCx env c cd named { o with numbers := h' } d) cd d := by
            unfold deTupleArgs
            refine mapR_congr (fun fi hfi => ?_)
            have := List.mem_map_of_mem (f := Prod.fst) hfi
            rw [show (List.map Prod.fst ((cd.fields.filter (·.renderable)).zipIdx)) = cd.fields.filter (·.renderable) by simp] at this
            exact hrd fi.1 this _ rfl
          rw [this]
    rw [this]

theorem numFree (env : Env) (n : Nat) : NumFree env (deAt env n) := by
  induction n with
  | zero => exact ⟨fun _ _ _ _ _ _ => rfl, fun _ _ _ _ _ _ _ => rfl⟩
  | succ n ih =>
    refine ⟨fun cx h h' a hu hs => ?_, fun named c o h h' d hs => ?_⟩
    · rw [deAt_render, deAt_render]
      unfold deRenderF
      rw [deBody_num ih cx h h' a hu hs]
    · rw [deAt_cls, deAt_cls]
      exact deClsF_num ih named c o h h' d hs

end Verif
