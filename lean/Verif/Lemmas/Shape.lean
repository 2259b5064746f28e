import Verif.Spec.Shape
import Verif.Lemmas.ReadTo
import Verif.Lemmas.Conform
/-!
# The shape of what is read
-/

namespace Verif
open Spec Props

theorem primCall_of {env : Env} {nu} (hw : CtorsOk env nu) {p x w} (h : primCall env p x = .ok w) : OfPrim p w := by
  unfold primCall at h
  split at h
  · split at h
    · cases h; exact .int
    · cases h; exact .int
    · cases h; exact .int
    · cases h
    · cases h
    · split at h
      · cases h; exact .int
      · cases h
    · exact hw.prim _ _ _ h
  · split at h
    · cases h; exact .float
    · split at h
      · cases h; exact .float
      · cases h
    · cases h; exact .float
    · split at h
      · cases h; exact .float
      · cases h
    · exact hw.prim _ _ _ h
  · cases h; exact .bool
  · cases h; exact .str

theorem coerceObj_of {env : Env} {nu} (hw : CtorsOk env nu) {p x w} (h : coerceObj env p x = .ok w) : OfPrim p w := by
  unfold coerceObj at h
  split at h
  · cases h
  · split at h
    · cases h; exact primCall_of hw ‹_›
    · cases h

theorem pyCounter_shape {env : Env} {x w} (h : pyCounter env x = .ok w) : ∃ kvs, w = .dict .counter kvs := by
  have h : TopLeaf env none .counterB x w := pyCounter_to h
  cases h <;> exact ⟨_, rfl⟩

theorem enumTo_shape {env : Env} {e x w} (h : EnumTo env e x w) : ∃ m, w = .enum e m := by
  cases h <;> exact ⟨_, rfl⟩

/-- The argument's deserializer is not a function, and the deserializers that count are among those of the environment. -/
structure CxOk (env : Env) (nu : Option (Val → Except PErr Val)) (cx : DeCx) : Prop where
  numbers : cx.numbers = nu
  des : ∀ s ∈ cx.des, ∀ t, s.handles t = true → Customised env t
  aligned : cx.named = false → ∀ c cd, env.cls c = some cd → Aligned cd

structure ShapeRec (env : Env) (nu : Option (Val → Except PErr Val)) (r : DeRec) : Prop where
  render : ∀ cx a w, CxOk env nu cx → OwnCx env cx a.ty → (∀ g, a.deser ≠ some (.fn g)) → r.render cx a = .ok w →
    a.dflt = some w ∨ Shaped env nu.isSome cx.coerce a.ty w
  cls : ∀ named c (o : DeCall) x w b, (named = false → ∀ c cd, env.cls c = some cd → Aligned cd) → o.numbers = nu → r.cls named c o x = .ok w →
    Shaped env nu.isSome b (.cls c) w

theorem mapR_ok_mem {α β} {f : α → Res β} {xs : List α} {ys} (h : mapR f xs = .ok ys) {y} (hy : y ∈ ys) : ∃ x ∈ xs, f x = .ok y := by
  obtain ⟨i, hi, rfl⟩ := List.getElem_of_mem hy
  have hl := mapR_ok_length h
  have hi' : i < xs.length := by omega
  exact ⟨xs[i], List.getElem_mem _, mapR_ok_get h _ (zip_get' (List.getElem?_eq_getElem hi') (List.getElem?_eq_getElem hi))⟩

theorem setFrom_shape {b ys w} (h : SetFrom b ys w) : ∃ zs, w = .set b zs ∧ (∀ z ∈ zs, z ∈ ys) ∧ zs.Pairwise (fun a b => pyEq a b = false) := by
  cases h with
  | mk h1 _ h3 => exact ⟨_, rfl, h1, h3⟩

theorem mapFrom_shape {k es w} (h : MapFrom k es w) : ∃ zs, w = .dict k zs ∧
    (∀ z ∈ zs, (∃ e ∈ es, z.1 = e.1) ∧ ∃ e ∈ es, z.2 = e.2) ∧ (zs.map (·.1)).Pairwise (fun a b => pyEq a b = false) := by
  cases h with
  | mk h1 _ hp _ =>
    refine ⟨_, rfl, fun z hz => ?_, hp⟩
    obtain ⟨e, he, e', he', h2, -⟩ := h1 z hz
    subst h2
    exact ⟨⟨e, he, rfl⟩, ⟨e', he', rfl⟩⟩

theorem body_shape {env : Env} {nu} {r : DeRec} (hr : ShapeRec env nu r) (hw : CtorsOk env nu) {cx a w} (hc : CxOk env nu cx) (hown : OwnCx env cx a.ty)
    (ha : ∀ g, a.deser ≠ some (.fn g)) (hdn : a.dflt = some w → False) (h : deBody env r cx a = .ok w) : Shaped env nu.isSome cx.coerce a.ty w := by
  have hel : ∀ t nm x y, OwnCx env cx t → r.render cx { ty := t, name := nm, conv := nm, src := .val x, alias := a.alias, deser := a.deser } = .ok y →
      Shaped env nu.isSome cx.coerce t y := fun t nm x y ho hw => by
    rcases hr.render cx { ty := t, name := nm, conv := nm, src := .val x, alias := a.alias, deser := a.deser } y hc ho ha hw with h | h
    · cases h
    · exact h
  have hels : ∀ {t nm xs ys}, OwnCx env cx t → mapR (fun x => r.render cx { ty := t, name := nm, conv := nm, src := .val (.ok x), alias := a.alias, deser := a.deser }) xs = .ok ys →
      ∀ y ∈ ys, Shaped env nu.isSome cx.coerce t y := fun ho h y hy => by
    obtain ⟨x, -, hx⟩ := mapR_ok_mem h hy
    exact hel _ _ _ _ ho hx
  unfold deBody at h
  split at h
  · rename_i s hp
    obtain ⟨pre, post, h1, h2, -⟩ := pickDe_some hp
    have hs : s ∈ cx.des := by
      unfold pickDe at hp
      split at hp
      · cases hp
      · exact List.mem_reverse.1 (List.mem_of_find?_eq_some hp)
    exact .custom (hc.des s hs _ h2)
  · split at h
    · rename_i g hg; exact absurd hg (ha g)
    · generalize hty : a.ty = ty at h hown
      cases ty with
      | none => cases h; exact .none
      | prim p =>
        dsimp only at h
        split at h
        · cases h
        · split at h
          · rename_i num hnum; exact .prim (hw.number num _ _ (hc.numbers ▸ hnum) (liftP_ok h))
          · rename_i _ p _ _ hnn
            split at h
            · exact .prim (coerceObj_of hw h)
            · rename_i hco
              have hco : cx.coerce = false := by simpa using hco
              rw [hco]
              refine .primAsIs (fun hp => ?_)
              subst hp
              cases hcn : nu with
              | none => rfl
              | some num => exact (hnn num rfl (hc.numbers.trans hcn)).elim
      | newType nm p =>
        dsimp only at h
        split at h
        · cases h
        · split at h
          · exact .newType (coerceObj_of hw h)
          · rename_i hco
            have hco : cx.coerce = false := by simpa using hco
            rw [hco]
            exact .newTypeAsIs
      | any => exact .any
      | tvar => exact .tvar
      | enum =>
        dsimp only at h
        split at h
        · obtain ⟨m, rfl⟩ := enumTo_shape (deEnum_to (liftP_ok h)); exact .enum
        · cases h
      | std k =>
        dsimp only at h
        split at h
        · split at h
          · rename_i hi
            cases h
            rw [Bool.and_eq_true] at hi
            exact .std (std_isA.2 hi.2)
          · exact .std (hw.std _ _ _ (liftP_ok h))
        · cases h
      | dt k =>
        dsimp only at h
        split at h
        · split at h
          · rename_i hi
            cases h
            rw [Bool.and_eq_true] at hi
            exact .dt ((dt_isA (env := env)).2 hi.2)
          · exact .dt (hw.dt _ _ _ (liftP_ok h))
        · cases h
      | lit vs =>
        dsimp only at h
        split at h
        · cases h
        · rename_i us hus
          cases hown.lits _ .refl _ hus
          split at h
          · unfold deLit at h
            split at h
            · rename_i hl
              cases h
              obtain ⟨l, hl1, hl2⟩ := List.any_eq_true.1 hl
              exact .lit hl1 hl2
            · cases h
          · cases h
      | listB =>
        dsimp only at h
        split at h
        · split at h
          · cases h; exact .listB
          · cases h
        · cases h
      | setB =>
        dsimp only at h
        split at h
        · split at h
          · obtain ⟨zs, rfl, -, hp⟩ := setFrom_shape (mkSet_of h); exact .setB hp
          · cases h
        · cases h
      | dequeB =>
        dsimp only at h
        split at h
        · split at h
          · cases h; exact .dequeB
          · cases h
        · cases h
      | tupleB =>
        dsimp only at h
        split at h
        · split at h
          · cases h; exact .tupleB
          · cases h
        · cases h
      | counterB =>
        dsimp only at h
        split at h
        · obtain ⟨kvs, rfl⟩ := pyCounter_shape h; exact .counterB
        · cases h
      | dictB k => exact .dictB
      | other => cases h
      | alias nm t =>
        rcases hr.render cx { a with ty := t } w hc (hown.part (.alias .refl)) ha h with h | h
        · exact (hdn h).elim
        · exact .alias h
      | gen c as =>
        rcases hr.render cx { a with ty := .cls c, tyArgs := some (as.map (tyArgStr env)) } w hc ownCx_cls ha h with h | h
        · exact (hdn h).elim
        · exact .gen h
      | cls c =>
        dsimp only at h
        split at h
        · exact hr.cls _ _ _ _ _ _ hc.aligned hc.numbers h
        · cases h
      | union ts =>
        cases ho : (Ty.union ts).isOpt with
        | false =>
          dsimp only at h
          rw [ho, if_neg (by simp)] at h
          split at h
          · cases h
          · rename_i us hus
            cases hown.unions _ .refl _ hus
            split at h
            · rename_i v _
              obtain ⟨t, ht, hm⟩ := deUnion_member h
              obtain ⟨p, h1, h2, h3, h4⟩ := deMember_ok.1 hm
              refine .union ho ht ?_ h4
              rcases hr.render (cx.inUnion env v) (memberArg t p) w ⟨hc.numbers, fun s hs t ht => .inl ⟨s, hs, ht⟩, fun h => by cases h⟩
                (hown.part (.union ht .refl)).inUnion (fun g h => by cases h) h3 with h | h
              · cases h
              · exact h
            · cases h
        | true =>
          obtain ⟨t, rfl, ht⟩ := isOpt_shape ho
          dsimp only at h
          rw [ho, if_pos rfl] at h
          split at h
          · rcases hr.render cx { a with ty := t, dflt := Option.none, tyArgs := Option.none } w hc (hown.part (.union (by simp) .refl)) ha h with h | h
            · cases h
            · exact .opt ht h
          · cases h; exact .optNone ht
          · cases h
      | list k t =>
        dsimp only at h
        split at h
        · split at h
          · split at h
            · rename_i ys hys
              cases h
              exact .list (hels (hown.part (.list .refl)) hys)
            · cases h
          · cases h
        · cases h
      | deque t =>
        dsimp only at h
        split at h
        · split at h
          · split at h
            · rename_i ys hys
              cases h
              exact .deque (hels (hown.part (.deque .refl)) hys)
            · cases h
          · cases h
        · cases h
      | tupleV t =>
        dsimp only at h
        split at h
        · split at h
          · split at h
            · rename_i ys hys
              cases h
              exact .tupleV (hels (hown.part (.tupleV .refl)) hys)
            · cases h
          · cases h
        · cases h
      | set k t =>
        dsimp only at h
        split at h
        · split at h
          · split at h
            · rename_i ys hys
              obtain ⟨zs, rfl, hz, hp⟩ := setFrom_shape (mkSet_of h)
              exact .set hp (fun z hz' => hels (hown.part (.set .refl)) hys z (hz z hz'))
            · cases h
          · cases h
        · cases h
      | tuple ts =>
        cases ts with
        | nil => cases h
        | cons t0 ts =>
        dsimp only at h
        split at h
        · rename_i ys hys
          cases h
          refine .tuple (by rw [mapR_ok_length hys]; simp) (fun i t y h1 h3 => ?_)
          have := mapR_ok_get hys _ (zip_get' (zipIdx_get h1) h3)
          dsimp only at this
          exact hel _ _ _ _ (hown.part (.tuple (List.mem_of_getElem? h1) .refl)) this
        · cases h
      | counter t =>
        dsimp only at h
        split at h
        · split at h
          · split at h
            · rename_i es hes
              obtain ⟨zs, rfl, hz, hp⟩ := mapFrom_shape (mkDict_of h)
              refine .counter hp (fun z hz' => ?_)
              obtain ⟨e, he, h1⟩ := (hz z hz').1
              obtain ⟨kv, -, h2⟩ := mapR_ok_mem hes he
              split at h2
              · rename_i k' hk
                cases h2
                rw [h1]
                exact hel _ _ _ _ (hown.part (.counter .refl)) hk
              · cases h2
            · cases h
          · cases h
        · cases h
      | dict k kt vt =>
        dsimp only at h
        split at h
        · split at h
          · split at h
            · rename_i es hes
              have hget : ∀ e ∈ es, (PlainKey kt → Shaped env nu.isSome cx.coerce kt e.1) ∧
                  (∀ p, kt = .prim p → ¬ PlainKey kt → OfPrim p e.1) ∧ Shaped env nu.isSome cx.coerce vt e.2 := by
                intro e he
                obtain ⟨kv, -, h3⟩ := mapR_ok_mem hes he
                split at h3
                · cases h3
                · rename_i k' hk
                  split at h3
                  · rename_i w' hw'
                    cases h3
                    refine ⟨fun hpk => ?_, fun p hp hpk => ?_, hel _ _ _ _ (hown.part (.value .refl)) hw'⟩
                    · rw [numKey_plain hpk] at hk
                      exact hel _ _ _ _ (hown.part (.key .refl)) hk
                    · subst hp
                      have : numKey (.prim p) = some p := by
                        unfold numKey PlainKey at *
                        cases p <;> first | rfl | exact absurd ⟨by simp, by simp⟩ hpk
                      rw [this] at hk
                      exact coerceObj_of hw hk
                  · cases h3
              obtain ⟨zs, rfl, hz, hp⟩ := mapFrom_shape (mkDict_of h)
              refine .dict hp (by cases k <;> simp) (fun z hz' hpk => ?_) (fun z hz' p hp hpk => ?_) (fun z hz' => ?_)
              · obtain ⟨e, he, h1⟩ := (hz z hz').1
                rw [h1]; exact (hget e he).1 hpk
              · obtain ⟨e, he, h1⟩ := (hz z hz').1
                rw [h1]; exact (hget e he).2.1 p hp hpk
              · obtain ⟨e, he, h1⟩ := (hz z hz').2
                rw [h1]; exact (hget e he).2.2
            · cases h
          · cases h
        · cases h

theorem aligned_params {cd : ClassDef} (h : Aligned cd) : cd.posParams = cd.fields.filter (·.renderable) := by
  unfold ClassDef.posParams
  apply List.filter_congr
  intro f hf
  unfold FieldDef.renderable
  cases hi : f.init with
  | false => rfl
  | true =>
    obtain ⟨h1, h2, h3⟩ := h f hf hi
    rw [h1, h2, h3]
    rfl

theorem Spec.ReadIn.renderable {cd : ClassDef} {f} (h : ReadIn cd f) : f.renderable = true := by
  unfold FieldDef.renderable
  rw [h.init, h.skip, h.skipDe]
  rfl

/-- Where a field of an object read from `x` is read from. -/
inductive SrcFrom (env : Env) (x : Val) : Src → Prop
  | key : SrcFrom env x (.key x)
  | part {ck pk b b' d} : project env x ck pk b b' = .ok d → SrcFrom env x (.key d)
  | idx {i} : SrcFrom env x (.idx x i)
  | wrapKey {k} : SrcFrom env x (.key (.dict .plain [(.str k, x)]))
  | wrapIdx : SrcFrom env x (.idx (.tuple [x]) 0)

/-- A class given to a generated function: the attributes of the fields that are read come from rendering them. -/
theorem cls_attrs {env : Env} {r : DeRec} {named c} {cd : ClassDef} {o : DeCall} {x attrs} (hA : named = false → Aligned cd) (hc : env.cls c = some cd)
    (hb : AsBuilt cd) (h : deClsF env r named c o x = .ok (.inst c attrs)) {f} (hf : ReadIn cd f) :
    ∃ y a, attrs.lookup f.name = some y ∧ r.render (clsDeCx env c cd named o x) a = .ok y ∧ a.ty = f.ty ∧ a.deser = f.deserializer ∧
      (a.dflt = none ∨ a.dflt = f.dflt) ∧ SrcFrom env x a.src := by
  cases ht : cd.transparent with
  | true =>
    obtain ⟨g, hg⟩ := hb.sole ht
    obtain rfl : f = g := by
      by_cases hfg : f.name = g.name
      · exact inj_of_nodup_map hb.names hf.mem hg.mem hfg
      · have := (hg.others f hf.mem hfg).1
        rw [hf.init] at this
        cases this
    rw [transp_deCls hc ht hb.names hg] at h
    split at h
    · cases h
    · rename_i v hv
      obtain ⟨attrs', h1, h2, -⟩ := constructB_ok hb.post h
      cases h1
      have hl := initAttrs_lookup h2 hb.names hf.mem
      unfold attrOf at hl
      rw [hf.init, if_pos rfl] at hl
      have hbd : ([(f.name, v)] : List (String × Val)).lookup f.name = some v := by simp [List.lookup]
      rw [hbd] at hl
      refine ⟨v, _, hl, hv, rfl, rfl, .inr rfl, ?_⟩
      unfold transpArg
      cases named
      · exact .wrapIdx
      · exact .wrapKey
  | false =>
    cases named with
    | true =>
      rw [deClsF_named hc ht] at h
      split at h
      · cases h
      · cases h
      · split at h
        · cases h
        · obtain ⟨val, h1, h2, rfl⟩ := (decodeCls_fieldwise hb.post hb.names).1 h
          have hd := h1 f hf.mem hf.renderable
          refine ⟨val f, ?_⟩
          rw [attrsOf_lookup hb.names hf.mem, hf.renderable, if_pos rfl]
          unfold deField at hd
          have hfd : f.flatDict = false := hf.rest
          rw [hfd, if_neg (by simp)] at hd
          dsimp only at hd
          split at hd
          · cases hd
          · rename_i d hvar
            have hsrc : SrcFrom env x (.key d) := by
              split at hvar
              · exact .part hvar
              · cases hvar; exact .key
            cases hdf : f.dflt with
            | none =>
              rw [hdf] at hd
              exact ⟨_, rfl, catchKey_ok.1 hd, rfl, rfl, .inl rfl, hsrc⟩
            | some dv =>
              rw [hdf] at hd
              exact ⟨_, rfl, hd, rfl, rfl, .inr rfl, hsrc⟩
    | false =>
      unfold deClsF at h
      rw [hc] at h
      dsimp only at h
      unfold deArgs at h
      dsimp only at h
      rw [ht] at h
      simp only [Bool.false_eq_true, if_false] at h
      split at h
      · cases h
      · rename_i pos kw hargs
        split at hargs
        · cases hargs
        · rename_i vs hvs
          cases hargs
          unfold deTupleArgs at hvs
          have hl := mapR_ok_length hvs
          simp only [List.length_zipIdx] at hl
          have hpp := aligned_params (hA rfl)
          rw [construct_eq (by rw [hpp]; omega), List.append_nil, hpp] at h
          obtain ⟨attrs', h1, h2, -⟩ := constructB_ok hb.post h
          cases h1
          have hlk := initAttrs_lookup h2 hb.names hf.mem
          unfold attrOf at hlk
          rw [hf.init, if_pos rfl] at hlk
          have hfm : f ∈ cd.fields.filter (·.renderable) := List.mem_filter.2 ⟨hf.mem, hf.renderable⟩
          obtain ⟨i, hi, hfi⟩ := List.getElem_of_mem hfm
          have hfi' : (cd.fields.filter (·.renderable))[i]? = some f := by rw [List.getElem?_eq_getElem hi, hfi]
          have hvi : pos[i]? = some (pos[i]'(by omega)) := List.getElem?_eq_getElem (by omega)
          have hrun := mapR_ok_get hvs _ (zip_get' (zipIdx_get hfi') hvi)
          have hz : ((cd.fields.filter (·.renderable)).map (·.name)).Nodup := hb.names.sublist ((List.filter_sublist).map _)
          have hbd : (((cd.fields.filter (·.renderable)).map (·.name)).zip pos).lookup f.name = some (pos[i]'(by omega)) :=
            lookup_zip_mem hz (zip_get' (by rw [List.getElem?_map, hfi']; rfl) hvi)
          rw [hbd] at hlk
          exact ⟨_, _, hlk, hrun, rfl, rfl, .inl rfl, .idx⟩

theorem cls_shape {env : Env} {nu} {r : DeRec} (hr : ShapeRec env nu r) (hU : DistinctUnions env) (hL : DistinctLits env) {named c} {o : DeCall} {x w b}
    (hA : named = false → ∀ c cd, env.cls c = some cd → Aligned cd) (hnu : o.numbers = nu) (h : deClsF env r named c o x = .ok w) :
    Shaped env nu.isSome b (.cls c) w := by
  obtain ⟨cd, hc⟩ : ∃ cd, env.cls c = some cd := by
    cases hc : env.cls c with
    | none => unfold deClsF at h; rw [hc] at h; cases h
    | some cd => exact ⟨cd, rfl⟩
  obtain ⟨attrs, rfl⟩ := deClsF_inst h
  refine .cls hc (fun hb f y hf hy hd => ?_) (fun hb f hf => ?_) (fun hb hs f hf y hy hd => ?_)
  · obtain ⟨y', a, h1, h2, h3, h4, h5, -⟩ := cls_attrs (fun hn => hA hn c cd hc) hc hb h hf
    rw [hy] at h1
    cases h1
    have hcx : CxOk env nu (clsDeCx env c cd named o x) := by
      refine ⟨hnu, fun s hs t ht => ?_, hA⟩
      rcases List.mem_append.1 hs with hs | hs
      · exact .inl ⟨s, hs, ht⟩
      · exact .inr ⟨c, cd, s, hc, by simpa using hs, ht⟩
    rcases hr.render _ a y hcx (by rw [h3]; exact ownCx_class hU hL ⟨c, cd, f, hc, hf.mem, .refl⟩) (by rw [h4]; exact hf.deser) h2 with h6 | h6
    · rcases h5 with h5 | h5
      · rw [h5] at h6; cases h6
      · exact (hd (h5 ▸ h6)).elim
    · rw [h3] at h6
      exact h6
  · obtain ⟨y', a, h1, -⟩ := cls_attrs (fun hn => hA hn c cd hc) hc hb h hf
    exact ⟨y', h1⟩
  · unfold deClsF at h
    rw [hc] at h
    dsimp only at h
    split at h
    · cases h
    · rcases construct_checked hs hb.post hb.names h hf hy with h | h
      · exact bearable_conforms _ _ h
      · exact (hd h).elim

theorem shape_at {env : Env} {nu} (hw : CtorsOk env nu) (hU : DistinctUnions env) (hL : DistinctLits env) : ∀ n, ShapeRec env nu (deAt env n)
  | 0 => ⟨fun _ _ _ _ _ _ h => (by cases h), fun _ _ _ _ _ _ _ _ h => (by cases h)⟩
  | n + 1 => by
    have ih := shape_at hw hU hL n
    refine ⟨fun cx a w hc ho ha h => ?_, fun named c o x w b hA hnu h => ?_⟩
    · rw [deAt_render] at h
      by_cases hd : a.dflt = some w
      · exact .inl hd
      · refine .inr ?_
        unfold deRenderF at h
        split at h
        · rename_i hdv _
          split at h
          · exact body_shape ih hw hc ho ha hd h
          · cases h; exact (hd hdv).elim
          · cases h
        · exact body_shape ih hw hc ho ha hd h
    · rw [deAt_cls] at h
      exact cls_shape ih hU hL hA hnu h

/-! ## The value given to from_dict -/

theorem sameClass_shape {env : Env} {fl x t} (h : SameClass x t) (ho : ∀ c, ¬ Occurs c x) : TopShaped env fl t x := by
  cases h with
  | int => exact .prim .int
  | bool => exact .prim .bool
  | float => exact .prim .float
  | str => exact .prim .str
  | none => exact .none
  | list => exact .listB
  | tuple => exact .tupleB
  | deque => exact .dequeB
  | set => exact .setB
  | frozen => exact .setB
  | dict => exact .dictB
  | deflt => exact .dictB
  | counter => exact .counterB
  | enum => exact .enum
  | std => exact .std .std
  | dt => exact .dt .dt
  | inst => exact (ho _ .here).elim

theorem iter_occurs {c x xs} (h : pyIter x = .ok xs) {y} (hy : y ∈ xs) (ho : Occurs c y) : Occurs c x := by
  unfold pyIter at h
  split at h
  · cases h; exact .list hy ho
  · cases h; exact .tuple hy ho
  · cases h; exact .deque hy ho
  · cases h; exact .set hy ho
  · cases h
    obtain ⟨e, he, rfl⟩ := List.mem_map.1 hy
    exact .key he ho
  · cases h
    obtain ⟨s, rfl⟩ : ∃ s, y = .str s := by
      unfold strElems at hy
      obtain ⟨c, -, rfl⟩ := List.mem_map.1 hy
      exact ⟨_, rfl⟩
    cases ho
  · cases h

theorem top_body_shape {env : Env} {nu} {r : DeRec} (hr : ShapeRec env nu r) (hw : CtorsOk env nu) {named re mg}
    (hA : named = false → ∀ c cd, env.cls c = some cd → Aligned cd)
    (ih : ∀ t x w, DistinctTop env t → (∀ c, ¬ Occurs c x) → r.fromObj named re nu .external t x = .ok w → TopShaped env nu.isSome t w)
    {t x w} (hd : DistinctTop env t) (hx : ∀ c, ¬ Occurs c x) (ho : ∀ ts, t = .union ts → t.isOpt = true)
    (h : fromObjBody env r named re nu mg t x = .ok w) : TopShaped env nu.isSome t w := by
  have hels : ∀ {t xs ys}, DistinctTop env t → pyIter x = .ok xs → mapR (fun x => r.fromObj named re nu .external t x) xs = .ok ys →
      ∀ y ∈ ys, TopShaped env nu.isSome t y := fun ht hi h y hy => by
    obtain ⟨a, ha, h1⟩ := mapR_ok_mem h hy
    exact ih _ _ _ ht (fun c hc => hx c (iter_occurs hi ha hc)) h1
  have hitems : ∀ {kvs}, pyItems x = .ok kvs → ∀ e ∈ kvs, (∀ c, ¬ Occurs c e.1) ∧ ∀ c, ¬ Occurs c e.2 := fun hi e he => by
    unfold pyItems at hi
    split at hi
    · cases hi
      exact ⟨fun c hc => hx c (.key he hc), fun c hc => hx c (.value he hc)⟩
    · cases hi
  have hpart : ∀ {s}, PartOf s t → DistinctTop env s := fun hp ts hts => hd ts (hts.trans hp)
  unfold fromObjBody at h
  dsimp only at h
  split at h
  · rename_i s hp
    obtain ⟨_, _, h1, h2, -⟩ := find_first hp
    exact .custom ⟨s, by rw [h1]; simp, h2⟩
  · cases t with
    | cls c => exact .obj (hr.cls _ _ _ _ _ _ hA rfl h)
    | union ts =>
      obtain ⟨t, rfl, ht⟩ := isOpt_shape (ho _ rfl)
      dsimp only at h
      split at h
      · cases h; exact .optNone
      · exact .opt (ih _ _ _ (hpart (.union (by simp) .refl)) hx h)
    | listB k =>
      dsimp only at h
      split at h
      · cases h; exact .listB
      · cases h
    | setB k =>
      dsimp only at h
      split at h
      · obtain ⟨zs, rfl, -, -⟩ := setFrom_shape (mkSet_of h); exact .setB
      · cases h
    | dequeB =>
      dsimp only at h
      split at h
      · cases h; exact .dequeB
      · cases h
    | tupleB =>
      dsimp only at h
      split at h
      · cases h; exact .tupleB
      · cases h
    | tupleV t =>
      dsimp only at h
      split at h
      · cases h; exact .tupleV
      · cases h
    | counterB =>
      obtain ⟨kvs, rfl⟩ := pyCounter_shape h
      exact .counterB
    | dictB k => exact .dictB
    | list k t =>
      dsimp only at h
      split at h
      · split at h
        · cases h
          exact .list (hels (hpart (.list .refl)) ‹_› ‹_›)
        · cases h
      · cases h
    | deque t =>
      dsimp only at h
      split at h
      · split at h
        · cases h
          exact .deque (hels (hpart (.deque .refl)) ‹_› ‹_›)
        · cases h
      · cases h
    | set k t =>
      dsimp only at h
      split at h
      · rename_i hi
        split at h
        · rename_i hys
          obtain ⟨zs, rfl, hz, hp⟩ := setFrom_shape (mkSet_of h)
          exact .set hp (fun z hz' => hels (hpart (.set .refl)) hi hys z (hz z hz'))
        · cases h
      · cases h
    | tuple ts =>
      dsimp only at h
      split at h
      · rename_i xs hxs
        split at h
        · rename_i ys hys
          cases h
          have hl := mapR_ok_length hys
          simp only [List.length_zipIdx] at hl
          have hget : ∀ (i : Nat) a b, xs[i]? = some a → ys[i]? = some b → ∃ t, ts[i]? = some t ∧ TopShaped env nu.isSome t b := by
            intro i a b h1 h2
            have := mapR_ok_get hys _ (zip_get' (zipIdx_get h1) h2)
            dsimp only at this
            split at this
            · rename_i t ht
              exact ⟨t, ht, ih _ _ _ (hpart (.tuple (List.mem_of_getElem? ht) .refl)) (fun c hc => hx c (iter_occurs hxs (List.mem_of_getElem? h1) hc)) this⟩
            · cases this
          refine .tuple ?_ (fun i t b h1 h3 => ?_)
          · by_cases hle : ys.length ≤ ts.length
            · exact hle
            · have h1 : ts.length < xs.length := by omega
              have h2 : ts.length < ys.length := by omega
              obtain ⟨t, ht, -⟩ := hget ts.length _ _ (List.getElem?_eq_getElem h1) (List.getElem?_eq_getElem h2)
              simp at ht
          · have hlt : i < xs.length := by have := (List.getElem?_eq_some_iff.1 h3).1; omega
            obtain ⟨t', h4, h5⟩ := hget i _ b (List.getElem?_eq_getElem hlt) h3
            rw [h1] at h4
            cases h4
            exact h5
        · cases h
      · cases h
    | counter t =>
      dsimp only at h
      split at h
      · rename_i kvs hi
        split at h
        · rename_i es hes
          obtain ⟨zs, rfl, hz, hp⟩ := mapFrom_shape (mkDict_of h)
          refine .counter hp (fun z hz' => ?_)
          obtain ⟨e, he, h1⟩ := (hz z hz').1
          obtain ⟨kv, hkv, h2⟩ := mapR_ok_mem hes he
          split at h2
          · rename_i k' hk
            cases h2
            rw [h1]
            exact ih _ _ _ (hpart (.counter .refl)) (hitems hi kv hkv).1 hk
          · cases h2
        · cases h
      · cases h
    | dict k kt vt =>
      dsimp only at h
      split at h
      · rename_i kvs hi
        split at h
        · rename_i es hes
          have hget : ∀ e ∈ es, TopShaped env nu.isSome kt e.1 ∧ TopShaped env nu.isSome vt e.2 := by
            intro e he
            obtain ⟨kv, hkv, h3⟩ := mapR_ok_mem hes he
            split at h3
            · cases h3
            · rename_i k' hk
              split at h3
              · rename_i w' hw'
                cases h3
                exact ⟨ih _ _ _ (hpart (.key .refl)) (hitems hi kv hkv).1 hk, ih _ _ _ (hpart (.value .refl)) (hitems hi kv hkv).2 hw'⟩
              · cases h3
          obtain ⟨zs, rfl, hz, hp⟩ := mapFrom_shape (mkDict_of h)
          refine .dict hp (by cases k <;> simp) (fun z hz' => ?_) (fun z hz' => ?_)
          · obtain ⟨e, he, h1⟩ := (hz z hz').1
            rw [h1]; exact (hget e he).1
          · obtain ⟨e, he, h1⟩ := (hz z hz').2
            rw [h1]; exact (hget e he).2
        · cases h
      · cases h
    | dt k => exact .dt (hw.dt _ _ _ (liftP_ok h))
    | prim p =>
      cases p with
      | float =>
        dsimp only at h
        split at h
        · exact .prim (hw.number _ _ _ rfl (liftP_ok h))
        · exact .prim (primCall_of hw (liftP_ok h))
      | _ => exact .prim (primCall_of hw (liftP_ok h))
    | newType => exact .newType
    | any => exact .any
    | enum e =>
      dsimp only at h
      split at h
      · rcases enumCall_to (liftP_ok h) with ⟨m, rfl, rfl⟩ | ⟨m, u, h1, h2, rfl⟩ <;> exact .enum
      · cases h
    | std k => exact .std (hw.std _ _ _ (liftP_ok h))
    | _ => cases h

theorem top_step_shape {env : Env} {nu} {r : DeRec} (hr : ShapeRec env nu r) (hw : CtorsOk env nu) {named re tg}
    (hA : named = false → ∀ c cd, env.cls c = some cd → Aligned cd)
    (ih : ∀ t x w, DistinctTop env t → (∀ c, ¬ Occurs c x) → r.fromObj named re nu .external t x = .ok w → TopShaped env nu.isSome t w)
    {t x w} (hd : DistinctTop env t) (hx : ∀ c, ¬ Occurs c x) (h : (if typeIs x t then .ok x else fromObjAt env r named re nu tg t x) = .ok w) :
    TopShaped env nu.isSome t w := by
  by_cases hs : SameClass x t
  · rw [if_pos (typeIs_iff.2 hs)] at h
    cases h
    exact sameClass_shape hs hx
  · rw [if_neg (fun h => hs (typeIs_iff.1 h))] at h
    cases t with
    | gen c as =>
      have h := wrapUser_ok.1 h
      unfold fromObjBody at h
      dsimp only at h
      split at h
      · rename_i s hp
        obtain ⟨_, _, h1, h2, -⟩ := find_first hp
        exact .customGen ⟨s, by rw [h1]; simp, h2⟩
      · exact .gen (hr.cls _ _ _ _ _ _ hA rfl h)
    | union ts =>
      cases ho : (Ty.union ts).isOpt with
      | true =>
        unfold fromObjAt at h
        dsimp only at h
        rw [ho, if_pos rfl] at h
        exact top_body_shape hr hw hA ih hd hx (fun _ _ => ho) (wrapUser_ok.1 h)
      | false =>
        unfold fromObjAt at h
        dsimp only at h
        rw [ho, if_neg (by simp)] at h
        have hown := ownCx_top (tg := tg) (nu := nu) (d := x) (hd ts .refl).1 (hd ts .refl).2
        unfold cacheDeUnion at h
        split at h
        · rename_i us hus
          have : us = ts := hown.unions _ .refl _ hus
          subst this
          obtain ⟨t, ht, hm⟩ := deUnion_member h
          obtain ⟨p, h1, h2, h3, h4⟩ := deMember_ok.1 hm
          refine .union ho ht ?_ h4
          rcases hr.render (cacheDeCx env us tg nu x) (memberArg t p) w ⟨rfl, fun s hs t ht => .inl ⟨s, hs, ht⟩, fun h => by cases h⟩
            (hown.part (.union ht .refl)) (fun g h => by cases h) h3 with h | h
          · cases h
          · exact h
        · cases h
    | _ => exact top_body_shape hr hw hA ih hd hx (fun ts h => by cases h) (wrapUser_ok.1 h)

theorem top_shape_at {env : Env} {nu} (hw : CtorsOk env nu) (hU : DistinctUnions env) (hL : DistinctLits env) {named}
    (hA : named = false → ∀ c cd, env.cls c = some cd → Aligned cd) : ∀ n re tg t x w, DistinctTop env t → (∀ c, ¬ Occurs c x) →
    (deAt env n).fromObj named re nu tg t x = .ok w → TopShaped env nu.isSome t w
  | 0, _, _, _, _, _, _, _, h => by cases h
  | n + 1, re, tg, t, x, w, hd, hx, h => by
    have step := fun t => top_step_shape (shape_at hw hU hL n) hw (named := named) (re := re) (tg := tg) (t := t) (x := x) (w := w) hA
      (fun t x w hd hx h => top_shape_at hw hU hL hA n re .external t x w hd hx h)
    rw [deAt_fromObj] at h
    cases t with
    | alias nm t =>
      refine .alias (step t (distinctTop_inner hd) hx ?_)
      exact h
    | _ => exact step _ hd hx h

end Verif
