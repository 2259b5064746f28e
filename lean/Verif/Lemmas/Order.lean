import Verif.Lemmas.Frame
import Verif.Spec.Order
/-!
# The dict template reads its input by lookups only
-/

namespace Verif
open Spec

/-- Every lookup gives the same result. -/
inductive Same : Val → Val → Prop
  | refl {d} : Same d d
  | dict {k k' kvs kvs'} : (∀ s, getStr s kvs' = getStr s kvs) → Same (.dict k kvs) (.dict k' kvs')

inductive SrcSame : Src → Src → Prop
  | key {d d'} : Same d d' → SrcSame (.key d) (.key d')
  | val {r} : SrcSame (.val r) (.val r)
  | idx {d i} : SrcSame (.idx d i) (.idx d i)

theorem Same.pyGet {d d'} (h : Same d d') (s : String) : pyGet d' s = pyGet d s := by
  cases h with
  | refl => rfl
  | dict h => simp only [Verif.pyGet, h]

theorem Same.pyGetItem {d d'} (h : Same d d') (s : String) : pyGetItem d' s = pyGetItem d s := by
  cases h with
  | refl => rfl
  | dict h => simp only [Verif.pyGetItem, h]

theorem Same.pyIn {d d'} (h : Same d d') (s : String) : pyIn s d' = pyIn s d := by
  cases h with
  | refl => rfl
  | dict h => simp only [Verif.pyIn, h]

theorem Same.getByAliases {d d'} (h : Same d d') (ns : List String) : getByAliases d' ns = getByAliases d ns := by
  induction ns with
  | nil => rfl
  | cons n ns ih => unfold Verif.getByAliases; rw [h.pyIn, h.pyGetItem, ih]

theorem Same.existsByAliases {d d'} (h : Same d d') (ns : List String) : existsByAliases d' ns = existsByAliases d ns := by
  induction ns with
  | nil => rfl
  | cons n ns ih => unfold Verif.existsByAliases; rw [h.pyIn, ih]

section
variable {env : Env} {cx : DeCx} {a : DeArg} {x x' : Val} {s s' : Src}

theorem data_same (hs : SrcSame s s') : DeArg.data { a with src := s' } = DeArg.data { a with src := s } := by
  cases hs with
  | key h => unfold DeArg.data; simp only [h.pyGet, h.pyGetItem]
  | _ => rfl

theorem primData_same (hx : Same x x') (hs : SrcSame s s') :
    primData { cx with data := x' } { a with src := s' } = primData { cx with data := x } { a with src := s } := by
  have h1 := @data_same a s s' hs
  unfold primData
  dsimp only
  rw [h1]
  simp only [hx.getByAliases]

theorem optExists_same {t} (hx : Same x x') (hs : SrcSame s s') :
    optExists env { cx with data := x' } { a with src := s' } t = optExists env { cx with data := x } { a with src := s } t := by
  cases hs with
  | key h =>
    unfold optExists
    dsimp only
    simp only [h.pyGet, hx.getByAliases]
  | _ => rfl

theorem dfltExists_same {d d'} (h : Same d d') :
    dfltExists env { a with src := s' } d' = dfltExists env { a with src := s } d := by
  unfold dfltExists
  dsimp only
  simp only [h.pyIn, h.existsByAliases]

end

/-- All `render` calls agree on sources with the same lookups, if flattened dataclasses get inputs related by `Rel`. -/
def RenderSame (Rel : ClassId → Val → Val → Prop) (r : DeRec) : Prop :=
  ∀ (cx : DeCx) (a : DeArg) x x' s s', cx.named = true → Same x x' → SrcSame s s' →
    (a.flatten = true → ∀ d d', s = .key d → s' = .key d' → ∀ ch, FlatTarget a.ty ch → Rel ch d d') →
    r.render { cx with data := x' } { a with src := s' } = r.render { cx with data := x } { a with src := s }

/-- All class functions agree on related inputs. -/
def ClsSame (Rel : ClassId → Val → Val → Prop) (r : DeRec) : Prop :=
  ∀ c o d d', Rel c d d' → r.cls true c o d' = r.cls true c o d

theorem deBody_same {env : Env} {Rel} {r : DeRec} (hr : RenderSame Rel r) (hc : ClsSame Rel r) {cx : DeCx} {a : DeArg}
    {x x' s s'} (hn : cx.named = true) (hx : Same x x') (hs : SrcSame s s')
    (hf : a.flatten = true → ∀ d d', s = .key d → s' = .key d' → ∀ ch, FlatTarget a.ty ch → Rel ch d d') :
    deBody env r { cx with data := x' } { a with src := s' } = deBody env r { cx with data := x } { a with src := s } := by
  have h1 := @data_same a s s' hs
  have h2 := @primData_same cx a x x' s s' hx hs
  have h3 := fun t => @optExists_same env cx a x x' s s' t hx hs
  have hp : pickDe cx.des { a with src := s' } = pickDe cx.des { a with src := s } := rfl
  have hel : ∀ (t : Ty) (nm : String) (y : Res Val),
      r.render { cx with data := x' } { ty := t, name := nm, conv := nm, src := .val y, alias := a.alias, deser := a.deser } =
      r.render { cx with data := x } { ty := t, name := nm, conv := nm, src := .val y, alias := a.alias, deser := a.deser } := by
    intro t nm y
    exact hr cx { ty := t, name := nm, conv := nm, src := .val y, alias := a.alias, deser := a.deser } x x' (.val y) (.val y)
      hn hx .val (by intro h; cases h)
  have hu : ∀ d, DeCx.inUnion { cx with data := x' } env d = DeCx.inUnion { cx with data := x } env d := fun _ => rfl
  have hsrc : s'.isNamed = s.isNamed := by cases hs <;> rfl
  obtain ⟨ty, name, conv, src, al, deser, fl, dflt, ta⟩ := a
  dsimp only at h1 h2 h3 hp hel hu hf
  have hty : ∀ (t : Ty) d ta, (∀ ch, FlatTarget t ch → FlatTarget ty ch) →
      r.render { cx with data := x' } { ty := t, name := name, conv := conv, src := s', alias := al, deser := deser, flatten := fl, dflt := d, tyArgs := ta } =
      r.render { cx with data := x } { ty := t, name := name, conv := conv, src := s, alias := al, deser := deser, flatten := fl, dflt := d, tyArgs := ta } := by
    intro t d ta ht
    exact hr cx { ty := t, name := name, conv := conv, src := s, alias := al, deser := deser, flatten := fl, dflt := d, tyArgs := ta }
      x x' s s' hn hx hs (fun h d d' e e' ch hch => hf h d d' e e' ch (ht ch hch))
  unfold deBody
  dsimp only
  rw [hp]
  cases pickDe cx.des { ty := ty, name := name, conv := conv, src := s, alias := al, deser := deser, flatten := fl, dflt := dflt, tyArgs := ta } with
  | some q => dsimp only; rw [h1]
  | none =>
    dsimp only
    split
    · rw [h1]
    · cases ty with
      | gen c args => exact hty _ _ _ (fun ch h => by cases h; exact .gen)
      | alias nm t => exact hty _ _ _ (fun ch h => .alias h)
      | cls c =>
        dsimp only
        cases fl with
        | false => simp only [Bool.false_eq_true, if_false, h1]
        | true =>
          simp only [if_true]
          cases hs with
          | key h =>
            dsimp only
            rw [hn]
            exact hc _ _ _ _ (hf rfl _ _ rfl rfl c .cls)
          | _ => rfl
      | union ts =>
        dsimp only
        split
        · cases ts with
          | nil => rfl
          | cons t ts =>
            dsimp only
            rw [h3, hty _ _ _ (fun ch h => .opt h)]
        · simp only [h1, hu]
      | tuple ts => cases ts <;> simp only [hel, h1]
      | dictB k => cases k <;> simp only [h1]
      | _ => simp only [hel, h1, h2, hsrc]

theorem renderF_same {env : Env} {Rel} {r : DeRec} (hr : RenderSame Rel r) (hc : ClsSame Rel r) {cx : DeCx} {a : DeArg}
    {x x' s s'} (hn : cx.named = true) (hx : Same x x') (hs : SrcSame s s')
    (hf : a.flatten = true → ∀ d d', s = .key d → s' = .key d' → ∀ ch, FlatTarget a.ty ch → Rel ch d d') :
    deRenderF env r { cx with data := x' } { a with src := s' } = deRenderF env r { cx with data := x } { a with src := s } := by
  have hB := @deBody_same env Rel r hr hc cx a x x' s s' hn hx hs hf
  unfold deRenderF
  rw [hB]
  dsimp only
  cases hd : a.dflt with
  | none => cases hs <;> rfl
  | some dv =>
    cases hs with
    | key h =>
      dsimp only
      rw [← hd, dfltExists_same h]
    | _ => rfl

/-- Inputs that differ only in order, for classes that neither capture the rest of the input nor are transparent. -/
inductive OrderRel (env : Env) (c : ClassId) : Val → Val → Prop
  | refl {d} : OrderRel env c d d
  | perm {k k' kvs kvs'} : (∀ c' cd, Inlines env c c' → env.cls c' = some cd → cd.transparent = false ∧ ∀ f ∈ cd.fields, takesRest f = false) →
      kvs.Perm kvs' → (kvs.map (·.1)).Nodup → OrderRel env c (.dict k kvs) (.dict k' kvs')

theorem getStr_mem {s : String} {kvs : List (Val × Val)} (hn : (kvs.map (·.1)).Nodup) {v} :
    getStr s kvs = some v ↔ (Val.str s, v) ∈ kvs := by
  induction kvs with
  | nil => simp [getStr]
  | cons kv kvs ih =>
    obtain ⟨k, w⟩ := kv
    simp only [List.map_cons, List.nodup_cons] at hn
    rw [List.mem_cons]
    by_cases hk : k = .str s
    · subst hk
      simp only [getStr, beq_self_eq_true, if_true, Option.some.injEq, Prod.mk.injEq, true_and]
      constructor
      · intro h; exact .inl h.symm
      · rintro (h | h)
        · exact h.symm
        · exact absurd (List.mem_map.2 ⟨_, h, rfl⟩) hn.1
    · have : getStr s ((k, w) :: kvs) = getStr s kvs := by
        cases k <;> simp only [getStr]
        rename_i s'
        have : (s' == s) = false := by rw [beq_eq_false_iff_ne]; rintro rfl; exact hk rfl
        simp [this]
      rw [this, ih hn.2]
      constructor
      · exact .inr
      · rintro (h | h)
        · cases h; exact absurd rfl hk
        · exact h

theorem getStr_perm {kvs kvs' : List (Val × Val)} (hp : kvs.Perm kvs') (hn : (kvs.map (·.1)).Nodup) (s : String) :
    getStr s kvs' = getStr s kvs := by
  have hn' : (kvs'.map (·.1)).Nodup := (hp.map (·.1)).nodup_iff.1 hn
  cases h : getStr s kvs with
  | some v => exact (getStr_mem hn').2 (hp.mem_iff.1 ((getStr_mem hn).1 h))
  | none =>
    cases h' : getStr s kvs' with
    | none => rfl
    | some v => rw [(getStr_mem hn).2 (hp.mem_iff.2 ((getStr_mem hn').1 h'))] at h; cases h

theorem any_perm {α : Type} {p : α → Bool} {xs ys : List α} (h : xs.Perm ys) : ys.any p = xs.any p := by
  rw [Bool.eq_iff_iff, List.any_eq_true, List.any_eq_true]
  exact ⟨fun ⟨x, hx, hp⟩ => ⟨x, h.mem_iff.2 hx, hp⟩, fun ⟨x, hx, hp⟩ => ⟨x, h.mem_iff.1 hx, hp⟩⟩

theorem OrderRel.same {env : Env} {c d d'} (h : OrderRel env c d d') : Same d d' := by
  cases h with
  | refl => exact .refl
  | perm _ hp hn => exact .dict (getStr_perm hp hn)

theorem OrderRel.inner {env : Env} {c c' d d'} (h : OrderRel env c d d') (hi : Inlines env c c') : OrderRel env c' d d' := by
  have htr : ∀ {a b c}, Inlines env a b → Inlines env b c → Inlines env a c := by
    intro a b c h1 h2
    induction h2 with
    | refl => exact h1
    | step _ h3 h4 h5 h6 ih => exact .step ih h3 h4 h5 h6
  cases h with
  | refl => exact .refl
  | perm hk hp hn => exact .perm (fun c' cd h1 h2 => hk c' cd (htr hi h1) h2) hp hn

theorem Nodup_filter {kvs : List (Val × Val)} {p : Val × Val → Bool} (h : (kvs.map (·.1)).Nodup) : ((kvs.filter p).map (·.1)).Nodup :=
  h.sublist ((List.filter_sublist).map _)

theorem clsF_same {env : Env} {r : DeRec} (hr : RenderSame (OrderRel env) r) : ∀ c o d d', OrderRel env c d d' →
    deClsF env r true c o d' = deClsF env r true c o d := by
  intro c o d d' h
  cases hc : env.cls c with
  | none => unfold deClsF; rw [hc]
  | some cd =>
    rw [deClsF_some hc, deClsF_some hc]
    have h0 := h
    cases h with
    | refl => rfl
    | @perm k k' kvs kvs' hk hp hn =>
      obtain ⟨htr, hrest⟩ := hk c cd .refl hc
      have hfd := hasFlatDict_false hrest
      have hun : deUnknown env c cd (.dict k' kvs') = deUnknown env c cd (.dict k kvs) := by
        unfold deUnknown
        rw [orEmptyItems_dict, orEmptyItems_dict]
        dsimp only
        rw [any_perm hp]
      have hN : deNamedArgs env r (clsDeCx env c cd true o (.dict k' kvs')) c cd (.dict k' kvs') =
          deNamedArgs env r (clsDeCx env c cd true o (.dict k kvs)) c cd (.dict k kvs) := by
        unfold deNamedArgs deExtra
        rw [hfd]
        simp only [Bool.false_eq_true, if_false]
        rw [mapR_congr]
        intro f hf
        rw [List.mem_filter] at hf
        obtain ⟨hf, hfr⟩ := hf
        unfold deField
        rw [flatDict_eq_takesRest, hrest f hf]
        simp only [Bool.false_eq_true, if_false]
        have hren : ∀ e e', (∀ ch, OrderRel env ch (.dict k kvs) (.dict k' kvs') → OrderRel env ch e e') → Same e e' →
            r.render (clsDeCx env c cd true o (.dict k' kvs'))
              { ty := f.ty, name := f.name, conv := f.conv cd.deCase, src := .key e', alias := f.alias,
                deser := f.deserializer, flatten := f.flatten, dflt := f.dflt } =
            r.render (clsDeCx env c cd true o (.dict k kvs))
              { ty := f.ty, name := f.name, conv := f.conv cd.deCase, src := .key e, alias := f.alias,
                deser := f.deserializer, flatten := f.flatten, dflt := f.dflt } := by
          intro e e' he hse
          refine hr (clsDeCx env c cd true o (.dict k kvs))
            { ty := f.ty, name := f.name, conv := f.conv cd.deCase, src := .key e, alias := f.alias,
              deser := f.deserializer, flatten := f.flatten, dflt := f.dflt } (.dict k kvs) (.dict k' kvs') (.key e) (.key e')
            rfl h0.same (.key hse) ?_
          intro hfl e1 e1' h1 h1' ch hch
          cases h1; cases h1'
          exact he ch (h0.inner (.step .refl hc hf hfl hch))
        cases hin : f.flatChild with
        | none =>
          dsimp only
          rw [hren _ _ (fun _ h => h) h0.same]
        | some ch =>
          dsimp only
          rw [project_dict, project_dict]
          dsimp only
          rw [hren]
          · intro ch' h
            cases h with
            | refl => exact .refl
            | perm hk' hp' hn' => exact .perm hk' (hp'.filter _) (Nodup_filter hn')
          · exact .dict (getStr_perm (hp.filter _) (Nodup_filter hn))
      unfold deArgs
      simp only [htr, Bool.false_eq_true, if_false, if_true]
      rw [hun, hN]

theorem deAt_same (env : Env) (n : Nat) : RenderSame (OrderRel env) (deAt env n) ∧ ClsSame (OrderRel env) (deAt env n) := by
  induction n with
  | zero => exact ⟨fun _ _ _ _ _ _ _ _ _ _ => rfl, fun _ _ _ _ _ => rfl⟩
  | succ n ih =>
    exact ⟨fun cx a x x' s s' hn hx hs hf => renderF_same ih.1 ih.2 hn hx hs hf, fun c o d d' h => clsF_same ih.1 c o d d' h⟩

end Verif
