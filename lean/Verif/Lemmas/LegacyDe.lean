import Verif.Lemmas.Legacy
import Verif.Lemmas.RTTop
/-!
# Class-level functions: entry points, reading, round trip
-/

namespace Verif
open Spec Props

theorem deLAt_render {env leg n} : (deLAt env leg (n + 1)).render = deRenderF env (deLAt env leg n) := rfl
theorem deLAt_cls {env leg n} : (deLAt env leg (n + 1)).cls = deClsL env leg (deLAt env leg n) := rfl
theorem deLAt_fromObj {env leg n} : (deLAt env leg (n + 1)).fromObj = fromObjF env (deLAt env leg n) := rfl

theorem toObjL_inst {env : Env} {leg n b re cv sn c tg c' attrs} (hc : NotUnion c) (hg : ∀ s ∈ env.gser, s.handles (.cls c') = false) :
    (seLAt env leg (n + 1)).toObj b re cv sn c tg (.inst c' attrs) = wrapAll ((seLAt env leg n).cls b re cv sn (.inst c' attrs)) := by
  rw [seLAt_toObj]
  unfold toObjF
  rcases hc with rfl | ⟨d, rfl⟩
  · rw [toObjBody_eq]; unfold toObjPlain; dsimp only; rw [find_none_of hg]; rfl
  · rw [toObjBody_eq]; unfold toObjPlain; dsimp only; rw [find_none_of hg]; rfl

theorem fromObjL_cls {env : Env} {leg n named re nu tg c d} (hg : ∀ s ∈ env.gde, s.handles (.cls c) = false)
    (hd : ∀ as, d ≠ .inst c as) :
    (deLAt env leg (n + 1)).fromObj named re nu tg (.cls c) d =
      wrapUser ((deLAt env leg n).cls named c { reuse := re, numbers := nu } d) := by
  have h1 : typeIs d (.cls c) = false := by
    cases d with
    | inst k as =>
      simp only [typeIs, beq_eq_false_iff_ne]
      rintro rfl
      exact hd as rfl
    | _ => rfl
  have h2 : env.gde.find? (fun s => s.handles (.cls c)) = none := by
    rw [List.find?_eq_none]
    intro s hs
    simp [hg s hs]
  rw [deLAt_fromObj]
  unfold fromObjF
  dsimp only
  rw [h1]
  simp only [Bool.false_eq_true, if_false]
  unfold fromObjBody
  dsimp only
  rw [h2]
  rfl

/-! ## Annotations without dataclasses are read as without functions -/

theorem Spec.Inert.part {s t} (h : Inert t) (hs : PartOf s t) : Inert s := fun u hu => h u (hu.trans hs)

theorem deBody_congr {env : Env} {r r' : DeRec} {cx a} (hi : Inert a.ty)
    (hr : ∀ cx a', PartOf a'.ty a.ty → r.render cx a' = r'.render cx a') : deBody env r cx a = deBody env r' cx a := by
  unfold deBody
  split
  · rfl
  · split
    · rfl
    · dsimp only
      generalize hty : a.ty = ty at hi hr
      have hel : ∀ t nm x, PartOf t ty → r.render cx { ty := t, name := nm, conv := nm, src := .val x, alias := a.alias, deser := a.deser } =
        r'.render cx { ty := t, name := nm, conv := nm, src := .val x, alias := a.alias, deser := a.deser } := fun t nm x h => hr _ _ h
      cases ty with
      | cls c => exact absurd rfl ((hi _ .refl).1 c)
      | gen c as => exact absurd rfl ((hi _ .refl).2.1 c as)
      | tvar x => exact absurd rfl ((hi _ .refl).2.2.1 x)
      | union ts =>
        obtain ⟨t, rfl, ht⟩ := (hi _ .refl).2.2.2 ts rfl
        have ho : (Ty.union [t, .none]).isOpt = true := by cases t <;> first | rfl | exact absurd rfl ht
        dsimp only
        rw [ho, if_pos rfl, if_pos rfl]
        rw [hr cx { a with ty := t, dflt := none, tyArgs := none } (.union (.head _) .refl)]
      | alias nm t => exact hr cx { a with ty := t } (.alias .refl)
      | list k t => dsimp only; simp only [hel t _ _ (.list .refl)]
      | deque t => dsimp only; simp only [hel t _ _ (.deque .refl)]
      | tupleV t => dsimp only; simp only [hel t _ _ (.tupleV .refl)]
      | set k t => dsimp only; simp only [hel t _ _ (.set .refl)]
      | counter t => dsimp only; simp only [hel t _ _ (.counter .refl)]
      | dict k kt vt => dsimp only; simp only [hel kt _ _ (.key .refl), hel vt _ _ (.value .refl)]
      | tuple ts =>
        cases ts with
        | nil => rfl
        | cons t0 ts =>
          dsimp only
          rw [mapR_congr (fun it hit => hel it.1 _ _ (.tuple (by obtain ⟨t, i⟩ := it; exact (List.mem_zipIdx' hit).2 ▸ List.getElem_mem _) .refl))]
      | dictB k => cases k <;> rfl
      | _ => rfl

theorem deLAt_inert {env : Env} {leg : Legacy} : ∀ n cx a, Inert a.ty → (deLAt env leg n).render cx a = (deAt env n).render cx a
  | 0, _, _, _ => rfl
  | n + 1, cx, a, h => by
    rw [deLAt_render, deAt_render]
    unfold deRenderF
    rw [deBody_congr h (fun cx a' hp => deLAt_inert n cx a' (h.part hp))]

/-! ## One field of a class with `deserializer=` -/

theorem dataOr_plain {cd : ClassDef} {f : FieldDef} {dk kvs} :
    (plainArg cd f (.dict dk kvs)).dataOr = .ok ((getStr (f.conv cd.deCase) kvs).getD .none) := rfl

/-- Every attribute comes from the function or, where it skips, from what is rendered without it. -/
theorem legacy_field {env : Env} {leg : Legacy} {o : DeOpts} {n c} {cd : ClassDef} {g dk kvs v} (hc : env.cls c = some cd) (hs : SimpleDe cd)
    (hg : NoGlobal env c) (hl : leg.de c = some g) (h : fromDictL env leg o n (.cls c) (.dict dk kvs) = .ok v) {f y} (hm : f ∈ cd.fields)
    (hr : f.renderable = true) (hfl : f.flatten = false) (hy : HasAttr v f y) :
    ∃ m, legDeField env g (deLAt env leg m) (clsDeCx env c cd true (topCall o) (.dict dk kvs)) (plainArg cd f (.dict dk kvs)) = .ok y := by
  unfold fromDictL at h
  cases n with
  | zero => cases h
  | succ n =>
    rw [fromObjL_cls hg.de (by intro as h; cases h)] at h
    have h := wrapUser_ok.1 h
    cases n with
    | zero => cases h
    | succ m =>
      rw [deLAt_cls] at h
      unfold deClsL at h
      rw [hl] at h
      dsimp only at h
      rw [deClsF_named hc hs.dict] at h
      split at h
      · cases h
      · cases h
      · split at h
        · cases h
        · rename_i ex _
          obtain ⟨attrs, rfl⟩ := decodeCls_inst h
          obtain ⟨val, h1, h2, rfl⟩ := (decodeCls_fieldwise hs.post hs.names).1 h
          obtain ⟨_, _, he, hy⟩ := hy
          cases he
          rw [attrsOf_lookup hs.names hm, hr, if_pos rfl] at hy
          cases hy
          have hd := h1 f hm hr
          rw [deField_plain hfl] at hd
          refine ⟨m, ?_⟩
          cases hdf : f.dflt with
          | none => rw [hdf] at hd; exact catchKey_ok.1 hd
          | some dv => rw [hdf] at hd; exact hd

/-- A missing key means the default. -/
theorem deRenderF_missing {env : Env} {r : DeRec} {cx} {cd : ClassDef} {f : FieldDef} {dk kvs dv} (hal : f.alias = []) (hd : f.dflt = some dv)
    (hget : getStr (f.conv cd.deCase) kvs = none) : deRenderF env r cx (plainArg cd f (.dict dk kvs)) = .ok dv := by
  unfold deRenderF plainArg
  rw [hd]
  dsimp only
  unfold dfltExists
  simp only [Bool.false_eq_true, if_false, hal, pyIn, hget]
  rfl

theorem keeps_plain {cd : ClassDef} {f : FieldDef} {dk kvs x} (hal : f.alias = []) (hx : getStr (f.conv cd.deCase) kvs = some x) :
    Keeps (plainArg cd f (.dict dk kvs)) x := ⟨hal, rfl, rfl, .inl ⟨dk, kvs, rfl, hx⟩⟩

/-! ## Annotations a function skips are written as without it -/

theorem zipIdx_typed {env : Env} {ts : List Ty} {xs : List Val} (hl : ts.length = xs.length) (h : ∀ p ∈ ts.zip xs, HasTy env p.1 p.2) {it}
    (hit : it ∈ ts.zipIdx) : ∃ x, pyIndex (.tuple xs) it.2 = .ok x ∧ HasTy env it.1 x := by
  obtain ⟨t, i⟩ := it
  have h1 := (List.mem_zipIdx' hit)
  have hi : i < xs.length := by rw [← hl]; exact h1.1
  refine ⟨xs[i], ?_, ?_⟩
  · simp [pyIndex, List.getElem?_eq_getElem hi]
  · have : (t, xs[i]) ∈ ts.zip xs := by
      rw [List.mem_iff_getElem]
      refine ⟨i, by rw [List.length_zip]; omega, ?_⟩
      rw [List.getElem_zip]
      exact Prod.ext h1.2.symm rfl
    exact h _ this

theorem renderF_alone {env : Env} {r r' : SeRec} {cx t v} (hi : Inert t) (ha : t ≠ .any) (hv : HasTy env t v)
    (hr : ∀ s x, PartOf s t → HasTy env s x → r.render cx { ty := s, v := .ok x } = r'.render cx { ty := s, v := .ok x }) :
    renderF env r cx { ty := t, v := .ok v } = renderF env r' cx { ty := t, v := .ok v } := by
  unfold renderF
  dsimp only
  have hmap : ∀ s (xs : List Val), PartOf s t → (∀ x ∈ xs, HasTy env s x) →
      mapR (fun x => r.render cx { ty := s, v := .ok x }) xs = mapR (fun x => r'.render cx { ty := s, v := .ok x }) xs :=
    fun s xs hp hx => mapR_congr (fun x h => hr s x hp (hx x h))
  cases hv with
  | inst => exact absurd rfl ((hi _ .refl).1 _)
  | any => exact absurd rfl ha
  | @listB k => cases k <;> rfl
  | dictB => rfl
  | int => rfl
  | float => rfl
  | bool => rfl
  | str => rfl
  | newType => rfl
  | none => rfl
  | enum => rfl
  | std => rfl
  | dt => rfl
  | lit => rfl
  | list hx => dsimp only [pyIter]; rw [hmap _ _ (.list .refl) hx]
  | deque hx => dsimp only [pyIter]; rw [hmap _ _ (.deque .refl) hx]
  | tupleV hx => dsimp only [pyIter]; rw [hmap _ _ (.tupleV .refl) hx]
  | set hx => dsimp only [pyIter]; rw [hmap _ _ (.set .refl) hx]
  | alias hx => dsimp only; rw [hr _ _ (.alias .refl) hx]
  | @tuple ts xs hl hx =>
    cases ts with
    | nil => rfl
    | cons t0 ts =>
      dsimp only
      rw [mapR_congr (fun it hit => ?_)]
      obtain ⟨x, h1, h2⟩ := zipIdx_typed hl hx hit
      rw [h1]
      exact hr _ _ (.tuple (by obtain ⟨t, i⟩ := it; exact (List.mem_zipIdx' hit).2 ▸ List.getElem_mem _) .refl) h2
  | counter hx =>
    dsimp only [pyItems]
    rw [mapR_congr (fun kv hkv => ?_)]
    rw [hr _ _ (.counter .refl) (hx kv hkv)]
  | dict hk hw =>
    dsimp only [pyItems]
    rw [mapR_congr (fun kv hkv => ?_)]
    rw [hr _ _ (.key .refl) (hk kv hkv), hr _ _ (.value .refl) (hw kv hkv)]
  | @union ts t' _ hm hx =>
    obtain ⟨t, rfl, ht⟩ := (hi _ .refl).2.2.2 ts rfl
    have ho : (Ty.union [t, .none]).isOpt = true := by cases t <;> first | rfl | exact absurd rfl ht
    dsimp only
    rw [ho, if_pos rfl, if_pos rfl]
    rcases List.mem_cons.1 hm with rfl | hm
    · have := hr _ _ (.union (.head _) .refl) hx
      cases v <;> first | rfl | (dsimp only; rw [this])
    · rw [List.mem_singleton.1 hm] at hx
      cases hx
      rfl

theorem seLAt_alone {env : Env} {leg : Legacy} {f : LegFn} {cx : SeCx} : ∀ n t v, Inert t → (∀ u, PartOf u t → u ≠ .any ∧ ∀ v, f (shown env u) v = none) →
    HasTy env t v → (seLAt env leg n).render (some f) cx { ty := t, v := .ok v } = (seAt env n).render cx { ty := t, v := .ok v }
  | 0, _, _, _, _, _ => rfl
  | n + 1, t, v, hi, hf, hv => by
    rw [seLAt_render, seAt_render]
    have hin : legInner (some f) t = some f := by
      unfold legInner
      split
      · rename_i ts
        obtain ⟨u, rfl, hu⟩ := (hi _ .refl).2.2.2 ts rfl
        have ho : (Ty.union [u, .none]).isOpt = true := by cases u <;> first | rfl | exact absurd rfl hu
        rw [ho, if_pos rfl]
      · rfl
    have hd : renderF env ((seLAt env leg n).at (some f)) cx { ty := t, v := .ok v } = renderF env (seAt env n) cx { ty := t, v := .ok v } :=
      renderF_alone hi (hf _ .refl).1 hv (fun s x hp hx => seLAt_alone n s x (hi.part hp) (fun u hu => hf u (hu.trans hp)) hx)
    unfold renderL
    dsimp only
    rw [hin, hd]
    split
    · rename_i g hg
      unfold legUsed at hg
      split at hg
      · cases hg
      · cases hg
        unfold legRun
        dsimp only
        rw [shown_origin, (hf t .refl).2 v]
    · rfl

/-! ## Round trip of a pair of functions -/

/-- Entries of fields that are all written. -/
theorem seFields_all {env : Env} {r : SeRec} {cx} {cd : ClassDef} {obj} : ∀ (L : List (FieldDef × Val × Val)) (res : List (Val × Val)),
    (∀ t ∈ L, t.1.flatten = false ∧ r.flat cx (seFieldArg t.1 (.ok obj)) = .ok [t.2.2] ∧ skips env r cx (t.1.skipRule cd) t.2.2 = .ok false) →
    (L.map (fun t => t.1.conv cd.seCase)).Nodup → (∀ e ∈ res, ∀ t ∈ L, pyEq e.1 (.str (t.1.conv cd.seCase)) = false) →
    seFields env r cx cd obj res (L.map (·.1)) = .ok (res ++ L.map (fun t => (.str (t.1.conv cd.seCase), t.2.2)))
  | [], res, _, _, _ => by simp [seFields]
  | t :: L, res, h, hn, hd => by
    rw [List.map_cons, List.nodup_cons] at hn
    obtain ⟨h1, h2, h3⟩ := h t (by simp)
    rw [List.map_cons, seFields]
    have : seField env r cx cd obj res t.1 = .ok (res ++ [(.str (t.1.conv cd.seCase), t.2.2)]) := by
      unfold seField
      rw [h2]
      dsimp only [joinVals]
      rw [lvals_unflat h1]
      dsimp only
      rw [h3]
      dsimp only
      unfold assign
      dsimp only
      rw [dictSet_new (fun kv hkv => hd kv hkv t (by simp))]
    rw [this]
    dsimp only
    rw [seFields_all L _ (fun t' ht' => h t' (by simp [ht'])) hn.2 ?_]
    · simp
    · intro e he t' ht'
      rcases List.mem_append.1 he with he | he
      · exact hd e he t' (by simp [ht'])
      · rw [List.mem_singleton.1 he, Bool.eq_false_iff]
        intro hp
        rw [pyEq_str_right] at hp
        exact hn.1 (List.mem_map.2 ⟨t', ht', (Val.str.inj hp).symm⟩)

/-- One field of a class whose pair of functions handles it or leaves it alone: what it is written as, and that this is read back. -/
def PairField (env : Env) (leg : Legacy) (F : Fmt env) (c : ClassId) (cd : ClassDef) (s g : LegFn) (f : FieldDef) (v w : Val) : Prop :=
  Ev (fun n => (seLAt env leg n).render (some s) (seCxOf F (scopeOf env true c cd)) { ty := f.ty, v := .ok v } = .ok w) ∧
  Ev (fun n => ∀ cx ex dk kvs, DeM F (scopeOf env true c cd) cx → cx.data = .dict dk kvs → getStr (f.conv cd.deCase) kvs = some w →
    deField env { deLAt env leg n with render := legDeField env g (deLAt env leg n) } cx c cd ex (.dict dk kvs) f = .ok v)

theorem legDe_plain {env : Env} {r : DeRec} {g : LegFn} {cx} {cd : ClassDef} {f : FieldDef} {dk kvs} (hcx : cx.des = []) (hd : f.deserializer = none) :
    legDeField env g r cx (plainArg cd f (.dict dk kvs)) =
      legRun g (shown env f.ty) (.ok ((getStr (f.conv cd.deCase) kvs).getD .none)) (r.render { cx with des := env.gde } (plainArg cd f (.dict dk kvs))) := by
  unfold legDeField
  have hds : (plainArg cd f (.dict dk kvs)).deser = none := hd
  rw [hcx, pickDe_nil, hds, shown_origin, dataOr_plain]
  rfl

theorem pair_handled {env : Env} {leg : Legacy} {F : Fmt env} {c} {cd : ClassDef} {s g f v} (hf : FieldPlain cd f) (h : Handled env s g f.ty v) :
    ∃ w, PairField env leg F c cd s g f v w := by
  obtain ⟨w, h1, h2⟩ := h
  refine ⟨w, Ev.pos.mono fun n hn => ?_, Ev.of_all fun n cx ex dk kvs hcx _ hget => ?_⟩
  · obtain ⟨m, rfl⟩ := hn
    rw [seLAt_render]
    unfold renderL
    dsimp only
    have hu : legUsed (some s) (seCxOf F (scopeOf env true c cd)).sers { ty := f.ty, v := .ok v } = some s := by
      unfold legUsed
      rw [show (seCxOf F (scopeOf env true c cd)).sers = [] from rfl, pickSer_nil]; rfl
    rw [hu]
    dsimp only
    unfold legRun
    dsimp only
    rw [shown_origin, h1]; rfl
  · rw [deField_plain hf.noFlatten]
    dsimp only
    rw [legDe_plain hcx.des hf.noCustom.2, hget]
    unfold legRun
    dsimp only [Option.getD_some]
    rw [h2]
    cases f.dflt <;> rfl

theorem pair_alone {env : Env} {leg : Legacy} {F : Fmt env} {c} {cd : ClassDef} {s g f v} (hgde : env.gde = []) (hraw : F.wire = id) (hf : FieldPlain cd f)
    (h : LeftAlone env s g f.ty) (hv : HasTy env f.ty v) (hrt : RT env F (scopeOf env true c cd) f.ty v) : ∃ w, PairField env leg F c cd s g f v w := by
  obtain ⟨w, hE⟩ := hrt
  refine ⟨w, hE.1.mono fun n hn => ?_, (deField_present hf hE).mono fun n hn cx ex dk kvs hcx hdata hget => ?_⟩
  · rw [seLAt_alone n _ _ h.1 h.2.1 hv]; exact hn
  · have hcx' : cx = { cx with des := env.gde } := by rw [hgde, ← hcx.des]
    have := hn cx c ex dk kvs hcx hdata (by rw [hraw]; exact hget)
    rw [deField_plain hf.noFlatten] at this ⊢
    dsimp only
    rw [legDe_plain hcx.des hf.noCustom.2, hget]
    unfold legRun
    dsimp only [Option.getD_some]
    rw [h.2.2, deLAt_inert _ _ _ h.1, ← hcx']
    exact this

theorem pair_triples {env : Env} {P : FieldDef → Val → Val → Prop} : ∀ {fs : List FieldDef} {attrs : List (String × Val)},
    attrs.map (·.1) = fs.map (·.name) → (∀ p ∈ fs.zip attrs, ∃ w, P p.1 p.2.2 w) →
    ∃ L : List (FieldDef × Val × Val), fs = L.map (·.1) ∧ attrs = L.map (fun t => (t.1.name, t.2.1)) ∧ ∀ t ∈ L, P t.1 t.2.1 t.2.2 ∧ (t.1, t.1.name, t.2.1) ∈ fs.zip attrs
  | [], [], _, _ => ⟨[], rfl, rfl, by simp⟩
  | [], _ :: _, h, _ => by simp at h
  | _ :: _, [], h, _ => by simp at h
  | f :: fs, (nm, v) :: attrs, hn, h => by
    obtain ⟨L, h1, h2, h3⟩ := pair_triples (env := env) (P := P) (fs := fs) (attrs := attrs) (by simpa using (List.cons.inj hn).2) (fun p hp => h p (by simp [hp]))
    obtain ⟨w, hw⟩ := h (f, (nm, v)) (by simp)
    have hnm : nm = f.name := (List.cons.inj hn).1
    refine ⟨(f, v, w) :: L, by simp [h1], by simp [h2, hnm], ?_⟩
    intro t ht
    rcases List.mem_cons.1 ht with rfl | ht
    · exact ⟨hw, by simp [hnm]⟩
    · exact ⟨(h3 t ht).1, by simp [(h3 t ht).2]⟩

theorem none_of_chosen {S : List ClsSer} {t s} (hn : NoneFor S t) (h : Chosen S t s) : False := by
  obtain ⟨pre, post, rfl, hh, _⟩ := h
  have := hn s (by simp)
  rw [hh] at this; cases this

/-- Where nothing registered is responsible, the function's answer is what is written. -/
theorem writeTo_asked {env : Env} {leg : Legacy} {m : WriteMode} {t v w g r} (h : WriteTo env leg m t v w) (hn : NoneFor m.sers t) (hg : m.asks = some g)
    (hr : g (shown env t) v = some r) : r = .ok w := by
  have no : Unclaimed env m t v → False := fun hu => by rw [hu.2 g hg] at hr; cases hr
  cases h with
  | chosen hch _ => exact (none_of_chosen hn hch).elim
  | asked _ hf hfr => rw [hg] at hf; cases hf; rw [hr] at hfr; cases hfr; rfl
  | leaf hu _ => exact (no hu).elim
  | list hu _ _ _ => exact (no hu).elim
  | deque hu _ _ _ => exact (no hu).elim
  | tupleV hu _ _ _ => exact (no hu).elim
  | tuple hu _ _ => exact (no hu).elim
  | setList hu _ _ _ _ => exact (no hu).elim
  | set hu _ _ _ _ _ => exact (no hu).elim
  | counter hu _ _ _ _ => exact (no hu).elim
  | dict hu _ _ _ _ _ => exact (no hu).elim
  | optNone hu => exact (no hu).elim
  | opt hu _ _ => exact (no hu).elim
  | alias hu _ => exact (no hu).elim
  | gen hu _ => exact (no hu).elim
  | obj hu _ _ _ _ => exact (no hu).elim
  | unsaid hu _ => exact (no hu).elim

theorem writeTo_list {env : Env} {leg : Legacy} {m : WriteMode} {k t w g} {vs : List Val} (h : WriteTo env leg m (.list k t) (.list vs) w) (hn : NoneFor m.sers (.list k t))
    (ht : NoneFor m.sers t) (hg : m.asks = some g) (hr : g (shown env (.list k t)) (.list vs) = none) :
    ∃ ys, w = .list ys ∧ vs.length = ys.length ∧ ∀ (i : Nat) a y r, vs[i]? = some a → ys[i]? = some y → g (shown env t) a = some r → r = .ok y := by
  cases h with
  | chosen hch _ => exact (none_of_chosen hn hch).elim
  | asked _ hf hfr => rw [hg] at hf; cases hf; rw [hr] at hfr; cases hfr
  | leaf _ hl => cases hl
  | list _ hi hlen hall =>
    cases hi
    exact ⟨_, rfl, hlen, fun i a y r ha hy hr => writeTo_asked (hall i a y ha hy) ht hg hr⟩
  | unsaid _ hu => cases hu

end Verif
