import Verif.Lemmas.Accept
import Verif.Lemmas.FromDict
import Verif.Props.C28
/-!
# Valid data is accepted: the induction, and the entry points
-/

namespace Verif

open Spec

/-- There are no defaults in rows. -/
theorem render_idxDflt {env : Env} (n : Nat) : ∀ (cx : DeCx) (a : DeArg) {d i}, a.src = .idx d i →
    (deAt env n).render cx a = (deAt env n).render cx { a with dflt := none } := by
  induction n with
  | zero => intros; rfl
  | succ n ih =>
    intro cx a d i hs
    rw [deAt_render, deAt_render]
    unfold deRenderF
    dsimp only
    have hB : deBody env (deAt env n) cx a = deBody env (deAt env n) cx { a with dflt := none } := by
      have hty : ∀ t ta, (deAt env n).render cx { a with ty := t, tyArgs := ta } =
          (deAt env n).render cx { a with ty := t, tyArgs := ta, dflt := none } := by
        intro t ta
        exact ih cx { a with ty := t, tyArgs := ta } hs
      obtain ⟨ty, name, conv, src, al, deser, fl, dflt, ta⟩ := a
      dsimp only at hs hty ⊢
      unfold deBody
      dsimp only
      have hp : pickDe cx.des { ty := ty, name := name, conv := conv, src := src, alias := al, deser := deser, flatten := fl, dflt := dflt, tyArgs := ta } =
        pickDe cx.des { ty := ty, name := name, conv := conv, src := src, alias := al, deser := deser, flatten := fl, tyArgs := ta } := rfl
      have hpd : primData cx { ty := ty, name := name, conv := conv, src := src, alias := al, deser := deser, flatten := fl, dflt := dflt, tyArgs := ta } =
        primData cx { ty := ty, name := name, conv := conv, src := src, alias := al, deser := deser, flatten := fl, tyArgs := ta } := rfl
      have hda : DeArg.data { ty := ty, name := name, conv := conv, src := src, alias := al, deser := deser, flatten := fl, dflt := dflt, tyArgs := ta } =
        DeArg.data { ty := ty, name := name, conv := conv, src := src, alias := al, deser := deser, flatten := fl, tyArgs := ta } := rfl
      have hoe : ∀ t, optExists env cx { ty := ty, name := name, conv := conv, src := src, alias := al, deser := deser, flatten := fl, dflt := dflt, tyArgs := ta } t =
        optExists env cx { ty := ty, name := name, conv := conv, src := src, alias := al, deser := deser, flatten := fl, tyArgs := ta } t := fun _ => rfl
      simp only [hp, hpd, hda, hoe, hty]
    rw [hB]
    cases hdf : a.dflt with
    | none => rfl
    | some dv => rw [hs]

/-- What a transparent class makes of the data: first the sole field. -/
theorem through_field {env : Env} (hg : env.gde = []) {m : Place} {c} {cd : ClassDef} {f x w} (hc : env.cls c = some cd) (ht : cd.transparent = true)
    (hn : (cd.fields.map (·.name)).Nodup) (hs : cd.classDe = none) (hsole : SoleField cd.fields f)
    (hfl : f.flatten = false) (hde : f.deserializer = none) (h : Gets env (m.enter c cd) f.ty x w) :
    ClsGets env m c x (match w with
      | .error e => .error e
      | .ok v => constructB env c cd [(f.name, v)]) := by
  refine Ev.step h ?_
  intro n hn' o hre hnu
  rw [deAt_cls, Props.transp_deCls hc ht hn hsole]
  have hr : Reads { transpArg m.named f x with dflt := none } x := by
    refine ⟨rfl, hde, hfl, rfl, ?_⟩
    cases m.named with
    | true => exact .inr (.inr ⟨_, _, rfl, by simp [getStr, transpArg]⟩)
    | false => exact .inr (.inl ⟨_, _, rfl, rfl⟩)
  have hread := hn' (clsDeCx env c cd m.named o x) _ (deP_cls rfl hg hs (hre cd hc) hnu) hr rfl
  have hren : (deAt env n).render (clsDeCx env c cd m.named o x) (transpArg m.named f x) = w := by
    cases hd : f.dflt with
    | none =>
      have he : transpArg m.named f x = { transpArg m.named f x with dflt := none } := by unfold transpArg; rw [hd]
      rw [he]; exact hread
    | some dv =>
      have he : transpArg m.named f x = { transpArg m.named f x with dflt := some dv } := by unfold transpArg; rw [hd]
      rw [he]
      cases hm : m.named with
      | true =>
        rw [hm] at hread
        rw [render_dropDflt (d := .dict .plain [(.str "__serde_transparent__", x)]) n _ _ rfl hfl (by
          unfold dfltExists transpArg
          dsimp only
          rw [hfl]
          simp [pyIn, getStr])]
        exact hread
      | false =>
        rw [hm] at hread
        rw [render_idxDflt n _ _ rfl]
        exact hread
  rw [hren]
  cases w <;> rfl

theorem argsBearable_post {env : Env} {cd : ClassDef} {p} : ∀ {bound : List (String × Val)}, argsBearable env { cd with postInit := p } bound = argsBearable env cd bound
  | [] => rfl
  | b :: bound => by unfold argsBearable; rw [argsBearable_post]

theorem constructB_init {env : Env} {c} {cd : ClassDef} {bound attrs} (h : constructB env c { cd with postInit := none } bound = .ok (.inst c attrs)) :
    constructB env c cd bound = afterInit c cd attrs := by
  obtain ⟨attrs', he, hi, hb⟩ := constructB_ok rfl h
  cases he
  unfold constructB
  rw [if_neg]
  · have : initAttrs bound cd.fields = .ok attrs := hi
    rw [this]
    rfl
  · intro hx
    simp only [Bool.and_eq_true, beq_iff_eq, Bool.not_eq_true'] at hx
    have h3 : argsBearable env cd bound = true := by
      rw [← hb hx.1]
      exact argsBearable_post.symm
    rw [h3] at hx
    cases hx.2

theorem through_gets {env : Env} (hg : env.gde = []) {m : Place} {c} {cd : ClassDef} {f x v} (hc : env.cls c = some cd) (ht : cd.transparent = true)
    (hn : (cd.fields.map (·.name)).Nodup) (hs : cd.classDe = none) (hfs : cd.fields = [f]) (hsole : SoleField cd.fields f)
    (hfl : f.flatten = false) (hde : f.deserializer = none) (h : Gives env (m.enter c cd) f.ty x v) (hb : bearable env f.ty v = true) :
    ClsGets env m c x (afterInit c cd [(f.name, v)]) := by
  have : constructB env c { cd with postInit := none } [(f.name, v)] = .ok (.inst c [(f.name, v)]) := constructB_all (env := env) (c := c) (cd := { cd with postInit := none }) (L := [(f, v, v)]) hfs (by rw [hfs]; simpa using hsole.init) hn
    (by intro p h; cases h) (by simpa using hb)
  have h1 := through_field hg hc ht hn hs hsole hfl hde h
  dsimp only at h1
  rw [constructB_init this] at h1
  exact h1

/-! ## Rows -/

/-- What is read for the `i`-th parameter. -/
def rowArg (f : FieldDef) (i : Nat) (d : Val) : DeArg :=
  { ty := f.ty, name := f.name, conv := f.name, src := .idx d i, alias := f.alias, deser := f.deserializer, flatten := f.flatten }

/-- What is read for the `i`-th parameter of a row of these items. -/
def ItemGets (env : Env) (m : Place) (xs : List Val) (i : Nat) (f : FieldDef) (w : Res Val) : Prop :=
  Ev (fun n => ∀ cx d, DeP env m cx → (d = .list xs ∨ d = .tuple xs) → (deAt env n).render cx (rowArg f i d) = w)

theorem item_gets {env : Env} {m : Place} {xs i} {f : FieldDef} {x w} (hfl : f.flatten = false) (hal : f.alias = []) (hde : f.deserializer = none) (hx : xs[i]? = some x)
    (h : Gets env m f.ty x w) : ItemGets env m xs i f w :=
  h.mono fun n hn cx d hcx hd => hn cx _ hcx ⟨hal, hde, hfl, rfl, .inr (.inl ⟨_, _, rfl, pyIndex_arr hd hx⟩)⟩ rfl

theorem ownItem_gets {env : Env} {m : Place} {cd : ClassDef} {xs i} {f : FieldDef} {x v} (hx : xs[i]? = some x) (h : OwnItem env cd f x v) :
    ItemGets env m xs i f (.ok v) := by
  obtain ⟨g, hde, hv, _⟩ := h
  refine Ev.pos.mono ?_
  rintro n ⟨n, rfl⟩ cx d hcx hd
  rw [deAt_render]
  unfold deRenderF rowArg
  dsimp only
  unfold deBody
  rw [hcx.des, pickDe_nil, hde]
  dsimp only
  have : DeArg.data { ty := f.ty, name := f.name, conv := f.name, src := .idx d i, alias := f.alias, deser := some (.fn g), flatten := f.flatten } = .ok x := by
    simp [DeArg.data, pyIndex_arr hd hx]
  rw [this]
  dsimp only
  rw [hv]; rfl

theorem constructB_val {env : Env} {c} {cd : ClassDef} {val : FieldDef → Val} (hn : (cd.fields.map (·.name)).Nodup)
    (hd : ∀ f ∈ cd.fields, f.renderable = false → f.init = true → f.dflt ≠ none)
    (hb : cd.typeCheck = .strict → ∀ f ∈ cd.fields, f.renderable = true → bearable env f.ty (val f) = true) :
    constructB env c cd ((cd.deFields.map (·.name)).zip (cd.deFields.map val)) = afterInit c cd (attrsOf cd.fields val) := by
  have hsub : (cd.deFields.map (·.name)).Nodup := hn.sublist ((List.filter_sublist).map _)
  have hlook : ∀ f ∈ cd.fields, ((cd.deFields.map (·.name)).zip (cd.deFields.map val)).lookup f.name =
      if f.renderable then some (val f) else none := by
    intro f hf
    split
    · rename_i hr
      exact zip_map_lookup hsub (List.mem_filter.2 ⟨hf, hr⟩)
    · rename_i hr
      apply zip_lookup_none
      intro hmem
      rw [List.mem_map] at hmem
      obtain ⟨g, hg, he⟩ := hmem
      have := inj_of_nodup_map hn (List.mem_filter.1 hg).1 hf he
      subst this
      exact hr (List.mem_filter.1 hg).2
  unfold constructB
  rw [if_neg]
  · rw [(initAttrs_fieldwise hlook (attrsOf cd.fields val)).2 ⟨hd, rfl⟩]
    rfl
  · intro hx
    simp only [Bool.and_eq_true, beq_iff_eq, Bool.not_eq_true'] at hx
    have h3 := (argsBearable_zip (env := env) (val := val) hn (fs := cd.deFields) (fun f hf => (List.mem_filter.1 hf).1)).2
      (fun f hf => hb hx.1 f (List.mem_filter.1 hf).1 (List.mem_filter.1 hf).2)
    rw [h3] at hx
    cases hx.2

theorem rowClass_read {cd : ClassDef} (hr : RowClass cd) {f} (hf : f ∈ cd.fields) : f.renderable = f.init := by
  cases hi : f.init with
  | false => unfold FieldDef.renderable; rw [hi]; rfl
  | true => exact isRead_iff.1 (hr.params f hf hi).1

theorem rowClass_deFields {cd : ClassDef} (hr : RowClass cd) : cd.deFields = cd.fields.filter (·.init) :=
  List.filter_congr (fun _ hf => rowClass_read hr hf)

theorem rowClass_pos {cd : ClassDef} (hr : RowClass cd) : cd.posParams = cd.deFields := by
  rw [rowClass_deFields hr]
  refine List.filter_congr (fun f hf => ?_)
  cases hi : f.init with
  | false => rfl
  | true => rw [(hr.params f hf hi).2]; rfl

/-- The function of a class for rows: the parameters one after the other, then the constructor. -/
theorem deClsF_row {env : Env} {r : DeRec} {c} {cd : ClassDef} {o x} (hc : env.cls c = some cd) (hr : RowClass cd) :
    deClsF env r false c o x = match mapR (fun fi : FieldDef × Nat => r.render (clsDeCx env c cd false o x) (rowArg fi.1 fi.2 x)) (cd.fields.filter (·.init)).zipIdx with
      | .error e => .error e
      | .ok vs => construct env c cd vs [] := by
  have hd : cd.fields.filter (·.renderable) = cd.fields.filter (·.init) := rowClass_deFields hr
  unfold deClsF
  rw [hc]
  dsimp only
  unfold deArgs
  simp only [hr.dict, Bool.false_eq_true, if_false]
  unfold deTupleArgs
  rw [hd]
  unfold rowArg
  split
  · rename_i e he
    split at he
    · rename_i h1; cases he; rw [h1]
    · cases he
  · rename_i pos kw he
    split at he
    · cases he
    · rename_i h1; cases he; rw [h1]

theorem row_gets {env : Env} (hg : env.gde = []) {m : Place} {c} {cd : ClassDef} {x xs} {val : FieldDef → Val} (hnm : m.named = false) (hc : env.cls c = some cd)
    (hr : RowClass cd) (hx : x = .list xs ∨ x = .tuple xs) (hskip : ∀ f ∈ cd.fields, f.init = false → f.dflt = some (val f))
    (hi : ∀ i f, Param cd i f → ItemGets env (m.enter c cd) xs i f (.ok (val f)))
    (hb : cd.typeCheck = .strict → ∀ i f, Param cd i f → bearable env f.ty (val f) = true) :
    ClsGets env m c x (afterInit c cd (cd.fields.map (fun f => (f.name, val f)))) := by
  have hev : ∀ fi ∈ (cd.fields.filter (·.init)).zipIdx, ItemGets env (m.enter c cd) xs fi.2 fi.1 (.ok (val fi.1)) := by
    rintro ⟨f, i⟩ hfi
    exact hi i f (List.mem_zipIdx_iff_getElem?.1 hfi)
  refine (Ev.list hev).step ?_
  intro n hn o hre hnu
  rw [deAt_cls, hnm, deClsF_row hc hr]
  have hcx := deP_cls (c := c) (d := x) hnm.symm hg hr.noDe (hre cd hc) hnu
  have hmap : mapR (fun fi : FieldDef × Nat => (deAt env n).render (clsDeCx env c cd false o x) (rowArg fi.1 fi.2 x)) (cd.fields.filter (·.init)).zipIdx =
      .ok ((cd.fields.filter (·.init)).map val) := by
    refine mapR_zip (by simp) (fun p hp => ?_)
    obtain ⟨i, hi', rfl⟩ := List.getElem_of_mem hp
    simp at hi'
    simp only [List.getElem_zip, List.getElem_zipIdx, Nat.zero_add, List.getElem_map]
    exact hn ((cd.fields.filter (·.init))[i], i) (by rw [List.mem_zipIdx_iff_getElem?]; simp [hi']) _ x hcx hx
  rw [hmap]
  dsimp only
  rw [construct_eq (by rw [rowClass_pos hr, rowClass_deFields hr]; simp), rowClass_pos hr, List.append_nil, ← rowClass_deFields hr,
    constructB_val hr.names ?_ ?_, attrsOf_all]
  · intro f hf hnr
    refine hskip f hf ?_
    have := rowClass_read hr hf
    cases hi' : f.init with
    | false => rfl
    | true => exact absurd (hr.params f hf hi').1 hnr
  · intro f hf h1 h2
    rw [rowClass_read hr hf, h2] at h1; cases h1
  · intro hs f hf hrd
    rw [rowClass_read hr hf] at hrd
    obtain ⟨i, hi', he⟩ := List.getElem_of_mem (List.mem_filter.2 ⟨hf, hrd⟩ : f ∈ cd.fields.filter (·.init))
    exact hb hs i f (by unfold Param; rw [List.getElem?_eq_getElem hi', he])

/-- Read wherever it occurs; and, for a class, by the functions of the class. -/
structure Accepts (env : Env) (m : Place) (t : Ty) (x v : Val) : Prop where
  gives : Gives env m t x v
  cls : ∀ c, t = .cls c → ClsGives env m c x v
  part : m.named = true → ∀ c dk kvs, t = .cls c → x = .dict dk kvs → (∀ cd, env.cls c = some cd → cd.transparent = false) → PartGives env m c kvs v

theorem Accepts.other {env : Env} {m t x v} (h : Gives env m t x v) (ht : ∀ c, t ≠ .cls c) : Accepts env m t x v :=
  ⟨h, fun c h => absurd h (ht c), fun _ c _ _ h => absurd h (ht c)⟩

theorem accepts_main {env : Env} (hg : env.gde = []) (hF : FlattenAcyclic env) {m t x v} (h : Valid env m t x v) : Accepts env m t x v := by
  induction h with
  | leaf h => exact .other (leaf_gives h) (by intro c hc; subst hc; cases h)
  | list hi hl _ ih => exact .other (list_gives hi hl (fun p hp => (ih p hp).gives)) (by intro c hc; cases hc)
  | deque hi hl _ ih => exact .other (deque_gives hi hl (fun p hp => (ih p hp).gives)) (by intro c hc; cases hc)
  | tupleV hi hl _ ih => exact .other (tupleV_gives hi hl (fun p hp => (ih p hp).gives)) (by intro c hc; cases hc)
  | tuple hne hx hl hl' _ ih => exact .other (tuple_gives hne hx hl hl' (fun p hp => (ih p hp).gives)) (by intro c hc; cases hc)
  | set hi hl _ hh hd ih => exact .other (set_gives hi hl (fun p hp => (ih p hp).gives) hh hd) (by intro c hc; cases hc)
  | dict hl _ hn _ hh hd ihk ihv =>
    exact .other (dict_gives hl (fun p hp hk => (ihk p hp hk).gives) hn (fun p hp => (ihv p hp).gives) hh hd) (by intro c hc; cases hc)
  | counter hl _ hc hh hd ih =>
    exact .other (counter_gives hl (fun p hp => (ih p hp).gives) hc hh hd) (by intro c hc; cases hc)
  | optNone hne => exact .other (optNone_gives hne) (by intro c hc; cases hc)
  | opt hne hx _ ih => exact .other (opt_gets hne hx ih.gives) (by intro c hc; cases hc)
  | union ho hu he hp hpl hi _ hc ih => exact .other (union_gives hg ho hu he hp hpl hi ih.gives hc) (by intro c hc; cases hc)
  | @alias m nm t x v _ ih =>
    refine .other ?_ (by intro c hc; cases hc)
    refine Ev.step ih.gives ?_
    intro n hn cx a hcx hr hty
    rw [render_reads hr]
    unfold deBody
    rw [hcx.des, pickDe_nil, hr.2.1]
    dsimp only
    rw [hty]
    exact hn cx _ hcx ⟨hr.1, rfl, hr.2.2.1, hr.2.2.2.1, hr.2.2.2.2⟩ rfl
  | @gen m c as x v _ ih =>
    refine .other ?_ (by intro c hc; cases hc)
    refine Ev.step ih.gives ?_
    intro n hn cx a hcx hr hty
    rw [render_reads hr]
    unfold deBody
    rw [hcx.des, pickDe_nil, hr.2.1]
    dsimp only
    rw [hty]
    exact hn cx _ hcx ⟨hr.1, rfl, hr.2.2.1, hr.2.2.2.1, hr.2.2.2.2⟩ rfl
  | @object m c cd dk kvs attrs val sub hnm hc hr hmade hdeny hskip hkind hpres hval hpart hin ihval ihin =>
    have hbe : cd.typeCheck = .strict → ∀ f ∈ cd.fields, IsRead f → bearable env f.ty (val f) = true := by
      intro hs f hf hrd
      rcases hkind f hf hrd with ho | ⟨ch, hi⟩ | hsp
      · rcases hpres f hf hrd ho with ⟨x, hx⟩ | ⟨_, hfl⟩
        · exact valid_bearable (hval f hf hrd ho x hx)
        · generalize hv : val f = v at hfl
          cases hfl with
          | dflt _ hb => exact hb hs
          | none _ _ ht => rw [ht]; rfl
          | opt _ _ ht _ => rw [ht]; simp [bearable, bearableAny]
      · rw [hi.ty]; exact valid_bearable (hin f hf hrd ch hi)
      · exact special_bearable hsp hs
    have hpg : PartGives env m c kvs (.inst c attrs) := by
      rw [PartGives, ← afterInit_made hmade]
      exact object_gets hg hF hnm hc hr hdeny hskip hkind hpres (fun f hf hrd ho x hx => (ihval f hf hrd ho x hx).gives) hpart
        (fun f hf hrd ch hi => (ihin f hf hrd ch hi).part hnm ch _ _ rfl rfl (fun chd h => ((hpart f hf hrd ch hi).2 chd h).1)) hbe
    have hcg : ClsGives env m c (.dict dk kvs) (.inst c attrs) :=
      Ev.mono hpg (fun n hn o hre hnu => by rw [hnm]; exact hn o dk kvs hre hnu .refl)
    refine ⟨cls_gets hcg, fun c' h => ?_, fun _ c' dk' kvs' h h' _ => ?_⟩
    · cases h; exact hcg
    · cases h; cases h'; exact hpg
  | @row m c cd x xs attrs val hnm hc hr hs hx hmade hskip hitem hval ih =>
    have hcg : ClsGets env m c x (afterInit c cd (cd.fields.map (fun f => (f.name, val f)))) := by
      refine row_gets hg hnm hc hr hx hskip (fun i f hp => ?_) (fun hst i f hp => ?_)
      · obtain ⟨hfl, hal, y, hy, hde | hown⟩ := hitem i f hp
        · exact item_gets hfl hal hde hy (ih i f y hp hde hy).gives
        · exact ownItem_gets hy hown
      · obtain ⟨hfl, hal, y, hy, hde | ⟨_, _, _, hb⟩⟩ := hitem i f hp
        · exact valid_bearable (hval i f y hp hde hy)
        · exact hb hst
    rw [afterInit_made hmade] at hcg
    refine ⟨cls_gets hcg, fun c' h => ?_, fun h => by rw [hnm] at h; cases h⟩
    cases h; exact hcg
  | @through m c cd f x v attrs hc ht hn hs _ hfs hsole hfl hde hv hmade ih =>
    have hcg := through_gets (m := m) hg hc ht hn hs hfs hsole hfl hde ih.gives (valid_bearable hv)
    rw [afterInit_made hmade] at hcg
    refine ⟨cls_gets hcg, fun c' h => ?_, fun _ c' dk' kvs' h _ htr => ?_⟩
    · cases h; exact hcg
    · cases h
      rw [htr cd hc] at ht; cases ht

/-! ## Entry points -/

theorem fromDict_valid {env : Env} (hg : env.gde = []) (hF : FlattenAcyclic env) {c} {cd : ClassDef} {m x v} (hc : env.cls c = some cd) (hx : ∀ as, x ≠ .inst c as)
    (hnm : m.named = true) (h : Valid env m (.cls c) x v) :
    Ev (fun n => ∀ o : DeOpts, o.reuse.getD cd.reuseDflt = m.reuse → o.numbers = m.numbers → fromDict env o n (.cls c) x = .ok v) := by
  obtain ⟨N, hN⟩ := (accepts_main hg hF h).cls c rfl
  refine ⟨N + 2, fun n hn o h1 h2 => ?_⟩
  obtain ⟨m, rfl⟩ : ∃ m, n = m + 2 := ⟨n - 2, by omega⟩
  rw [fromDict_cls (by rw [hg]; simp) hx]
  have := hN (m + 1) (by omega) (topCall o) (fun cd' h => by rw [hc] at h; cases h; exact h1) h2
  rw [deAt_cls, hnm] at this
  rw [this]; rfl

theorem fromTuple_valid {env : Env} (hg : env.gde = []) (hF : FlattenAcyclic env) {c} {cd : ClassDef} {m x v} (hc : env.cls c = some cd) (hx : ∀ as, x ≠ .inst c as)
    (hnm : m.named = false) (h : Valid env m (.cls c) x v) :
    Ev (fun n => ∀ o : DeOpts, o.reuse.getD cd.reuseDflt = m.reuse → o.numbers = m.numbers → fromTuple env o n (.cls c) x = .ok v) := by
  obtain ⟨N, hN⟩ := (accepts_main hg hF h).cls c rfl
  refine ⟨N + 2, fun n hn o h1 h2 => ?_⟩
  obtain ⟨m, rfl⟩ : ∃ m, n = m + 2 := ⟨n - 2, by omega⟩
  rw [fromTuple_cls (by rw [hg]; simp) hx]
  have := hN (m + 1) (by omega) (topCall o) (fun cd' h => by rw [hc] at h; cases h; exact h1) h2
  rw [deAt_cls, hnm] at this
  rw [this]; rfl

end Verif
