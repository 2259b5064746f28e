import Verif.Lemmas.Serializers
/-!
# Which custom deserializer is used at each position of a type
-/

namespace Verif
open Spec Props

/-- The deserializers that count at a position: none if the field says `deserializer=default_deserializer`. -/
def effDe (o : Option DeFn) (S : List ClsDe) : List ClsDe := if o.isSome then [] else S

theorem pickDe_some {S : List ClsDe} {a : DeArg} {s} (h : pickDe S a = some s) : ChosenDe (effDe a.deser S) a.ty s := by
  unfold pickDe at h
  unfold effDe
  cases hs : a.deser with
  | some _ => rw [hs] at h; cases h
  | none =>
    rw [hs] at h
    dsimp only at h
    rw [if_neg (by simp)]
    rw [List.find?_eq_some_iff_append] at h
    obtain ⟨h1, pre, post, h2, h3⟩ := h
    refine ⟨post.reverse, pre.reverse, ?_, h1, fun s' hs' => ?_⟩
    · have := congrArg List.reverse h2
      simpa using this
    · have := h3 s' (List.mem_reverse.1 hs')
      simpa using this

theorem pickDe_none' {S : List ClsDe} {a : DeArg} (h : pickDe S a = none) : NoneForDe (effDe a.deser S) a.ty := by
  intro s hs
  unfold pickDe at h
  unfold effDe at hs
  cases hser : a.deser with
  | some _ => rw [hser] at hs; simp at hs
  | none =>
    rw [hser] at h hs
    dsimp only at h
    rw [if_neg (by simp)] at hs
    rw [List.find?_eq_none] at h
    have := h s (List.mem_reverse.2 hs)
    simpa using this

/-- The argument holds the input `x`; its deserializer does not matter. -/
def Keeps (a : DeArg) (x : Val) : Prop := Holds { a with deser := none } x

theorem Keeps.data {a : DeArg} {x} (h : Keeps a x) : a.data = .ok x := Holds.data (a := { a with deser := none }) h

theorem Keeps.optNone {env : Env} {cx : DeCx} {a : DeArg} {t} (h : Keeps a .none) : optExists env cx a t = .ok false :=
  Holds.optNone (a := { a with deser := none }) h

theorem Keeps.optSome {env : Env} {cx : DeCx} {a : DeArg} {x t} (h : Keeps a x) (hn : x ≠ .none) : optExists env cx a t = .ok true :=
  Holds.optSome (a := { a with deser := none }) h hn

theorem keeps_elem {t nm x ds} : Keeps { ty := t, name := nm, conv := nm, src := .val (.ok x), alias := [], deser := ds } x :=
  ⟨rfl, rfl, rfl, .inr (.inl rfl)⟩

theorem keeps_render {env : Env} {r : DeRec} {cx} {a : DeArg} {x} (h : Keeps a x) : deRenderF env r cx a = deBody env r cx a := by
  unfold deRenderF
  cases hd : a.dflt with
  | none => rfl
  | some dv =>
    rcases h.src with ⟨dk, kvs, hs, hx⟩ | hs | ⟨d, i, hs, hx⟩
    · have hs : a.src = .key (.dict dk kvs) := hs
      have hx : getStr a.conv kvs = some x := hx
      have hal : a.alias = [] := h.alias
      have hfl : a.flatten = false := h.flat
      rw [hs]
      dsimp only
      have : dfltExists env a (.dict dk kvs) = .ok true := by
        unfold dfltExists
        rw [hfl, hal]
        simp [pyIn, hx]
      rw [this]
    · have hs : a.src = .val (.ok x) := hs
      rw [hs]
    · have hs : a.src = .idx d i := hs
      rw [hs]

/-- What an object was read from respects the deserializers of its class. -/
def ObjGotten (env : Env) (c : ClassId) (kvs : List (Val × Val)) (w : Val) : Prop :=
  ∃ cd, env.cls c = some cd ∧ (SimpleDe cd → ∀ f x y, ReadField cd f → getStr (f.conv cd.deCase) kvs = some x → HasAttr w f y →
    (∀ g, f.deserializer = some (.fn g) → g x = .ok y) ∧
    (f.deserializer = some .marker → Gotten env [] f.ty x y) ∧
    (f.deserializer = none → Gotten env (env.gde ++ cd.classDe.toList) f.ty x y))

/-- Every successful rendering uses the responsible deserializer at every position. -/
structure GottenRec (env : Env) (r : DeRec) : Prop where
  render : ∀ cx a x w, cx.named = true → Keeps a x → (∀ g, a.deser ≠ some (.fn g)) → r.render cx a = .ok w →
    Gotten env (effDe a.deser cx.des) a.ty x w
  own : ∀ cx a x w, Keeps a x → ∀ g, a.deser = some (.fn g) → r.render cx a = .ok w → g x = .ok w
  cls : ∀ c o dk kvs w, r.cls true c o (.dict dk kvs) = .ok w → ObjGotten env c kvs w

theorem set_gotten {env : Env} {S : List ClsDe} {k t v xs ys w hs b} (hno : NoneForDe S (.set k t)) (hi : Items v xs)
    (hf : ∀ y ∈ ys, ∃ x ∈ xs, Gotten env S t x y) (h : mkSet hs b ys = .ok w) : Gotten env S (.set k t) v w := by
  unfold mkSet at h
  split at h
  · cases h
    obtain ⟨src, h1, h2⟩ := sources (ys := dedup ys) (fun y hy => hf y (dedup_mem hy))
    exact .set src hno hi .set h1 h2
  · cases h

theorem numKey_plain {t} (h : PlainKey t) : numKey t = none := by
  unfold numKey
  split
  · exact absurd rfl h.1
  · exact absurd rfl h.2
  · rfl

theorem body_gotten {env : Env} {r : DeRec} (hr : GottenRec env r) {cx a v w} (hn : cx.named = true) (hk : Keeps a v)
    (ha : ∀ g, a.deser ≠ some (.fn g)) (h : deBody env r cx a = .ok w) : Gotten env (effDe a.deser cx.des) a.ty v w := by
  have hel : ∀ t nm x y, r.render cx { ty := t, name := nm, conv := nm, src := .val (.ok x), alias := a.alias, deser := a.deser } = .ok y →
      Gotten env (effDe a.deser cx.des) t x y := fun t nm x y hw => by
    have hal : a.alias = [] := hk.alias
    rw [hal] at hw
    exact hr.render cx _ x y hn keeps_elem ha hw
  have hels : ∀ {t nm xs ys}, mapR (fun x => r.render cx { ty := t, name := nm, conv := nm, src := .val (.ok x), alias := a.alias, deser := a.deser }) xs = .ok ys →
      xs.length = ys.length ∧ ∀ p ∈ xs.zip ys, Gotten env (effDe a.deser cx.des) t p.1 p.2 := fun h =>
    ⟨(mapR_ok_length h).symm, fun p hp => hel _ _ p.1 p.2 (mapR_ok_get h p hp)⟩
  have hv := hk.data
  unfold deBody at h
  split at h
  · rename_i s hp
    rw [hv] at h
    exact .chosen (pickDe_some hp) (liftP_ok h)
  · rename_i hp
    have hno := pickDe_none' hp
    split at h
    · rename_i g hg; exact absurd hg (ha g)
    · generalize hty : a.ty = ty at h hno
      cases ty with
      | none => exact .atom hno .none
      | prim p => exact .atom hno .prim
      | newType => exact .atom hno .newType
      | any => exact .atom hno .any
      | tvar => exact .atom hno .tvar
      | enum => exact .atom hno .enum
      | std => exact .atom hno .std
      | dt => exact .atom hno .dt
      | lit => exact .atom hno .lit
      | listB => exact .atom hno .listB
      | setB => exact .atom hno .setB
      | dequeB => exact .atom hno .dequeB
      | counterB => exact .atom hno .counterB
      | dictB => exact .atom hno .dictB
      | tupleB => exact .atom hno .tupleB
      | other => exact .atom hno .other
      | alias nm t => exact .alias hno (hr.render cx { a with ty := t } v w hn ⟨hk.alias, rfl, hk.flat, hk.src⟩ ha h)
      | gen c as =>
        exact .gen hno (hr.render cx { a with ty := .cls c, tyArgs := some (as.map (tyArgStr env)) } v w hn ⟨hk.alias, rfl, hk.flat, hk.src⟩ ha h)
      | cls c =>
        have hfl : a.flatten = false := hk.flat
        dsimp only at h
        rw [hfl] at h
        simp only [Bool.false_eq_true, if_false] at h
        rw [hv] at h
        dsimp only at h
        cases v with
        | dict dk kvs =>
          rw [hn] at h
          obtain ⟨cd, hc, this⟩ := hr.cls _ _ _ _ _ h
          exact .obj hno hc (fun f x y hs h1 h2 h3 => (this hs f x y h1 h2 h3).1) (fun f x y hs h1 h2 h3 => (this hs f x y h1 h2 h3).2.1)
            (fun f x y hs h1 h2 h3 => (this hs f x y h1 h2 h3).2.2)
        | _ => exact .notDict hno (by intro _ _ h; cases h)
      | union ts =>
        cases ho : (Ty.union ts).isOpt with
        | false => exact .atom hno (isOpt_not ho)
        | true =>
          obtain ⟨t, rfl, ht⟩ := isOpt_shape ho
          dsimp only at h
          rw [ho, if_pos rfl] at h
          by_cases hvn : v = .none
          · subst hvn
            rw [hk.optNone] at h
            cases h
            exact .optNone hno
          · rw [hk.optSome hvn] at h
            exact .opt hno hvn (hr.render cx { a with ty := t, dflt := Option.none, tyArgs := Option.none } v w hn ⟨hk.alias, rfl, hk.flat, hk.src⟩ ha h)
      | list k t =>
        dsimp only at h; rw [hv] at h; dsimp only at h
        rcases iter_items (v := v) with ⟨xs, hi⟩ | ho
        · rw [items_iter hi] at h; dsimp only at h
          split at h
          · rename_i ys hys
            cases h
            exact .list hno hi (hels hys).1 (hels hys).2
          · cases h
        · exact .odd hno (by intro c h; cases h) (.list ho)
      | deque t =>
        dsimp only at h; rw [hv] at h; dsimp only at h
        rcases iter_items (v := v) with ⟨xs, hi⟩ | ho
        · rw [items_iter hi] at h; dsimp only at h
          split at h
          · rename_i ys hys
            cases h
            exact .deque hno hi (hels hys).1 (hels hys).2
          · cases h
        · exact .odd hno (by intro c h; cases h) (.deque ho)
      | tupleV t =>
        dsimp only at h; rw [hv] at h; dsimp only at h
        rcases iter_items (v := v) with ⟨xs, hi⟩ | ho
        · rw [items_iter hi] at h; dsimp only at h
          split at h
          · rename_i ys hys
            cases h
            exact .tupleV hno hi (hels hys).1 (hels hys).2
          · cases h
        · exact .odd hno (by intro c h; cases h) (.tupleV ho)
      | set k t =>
        dsimp only at h; rw [hv] at h; dsimp only at h
        rcases iter_items (v := v) with ⟨xs, hi⟩ | ho
        · rw [items_iter hi] at h; dsimp only at h
          split at h
          · rename_i ys hys
            refine set_gotten hno hi (fun y hy => ?_) h
            obtain ⟨x, hx, hxy⟩ := mapR_mem hys hy
            exact ⟨x, hx, hel _ _ _ _ hxy⟩
          · cases h
        · exact .odd hno (by intro c h; cases h) (.set ho)
      | tuple ts =>
        cases ts with
        | nil => cases h
        | cons t0 ts =>
        dsimp only at h
        rw [hv] at h
        by_cases hs : ∃ xs, v = .tuple xs ∨ v = .list xs
        · obtain ⟨xs, hs⟩ := hs
          split at h
          · rename_i ys hys
            cases h
            refine .tuple hno hs (by rw [mapR_ok_length hys]; simp) (fun i t x y h1 h2 h3 => ?_)
            have := mapR_ok_get hys _ (zip_get' (zipIdx_get h1) h3)
            have hix : pyIndex v i = .ok x := by
              rcases hs with rfl | rfl <;> simp [pyIndex, h2]
            dsimp only at this
            rw [hix] at this
            exact hel _ _ _ _ this
          · cases h
        · exact .odd hno (by intro c h; cases h) (.tuple (fun xs e => hs ⟨xs, .inl e⟩) (fun xs e => hs ⟨xs, .inr e⟩))
      | counter t =>
        dsimp only at h; rw [hv] at h; dsimp only at h
        cases v with
        | dict d kvs =>
          dsimp only [pyItems] at h
          split at h
          · rename_i es hes
            unfold mkDict at h
            split at h
            · cases h
              have hf : ∀ y ∈ (dictOf es).map (·.1), ∃ x ∈ kvs.map (·.1), Gotten env (effDe a.deser cx.des) t x y := by
                intro y hy
                obtain ⟨e, he, rfl⟩ := List.mem_map.1 hy
                obtain ⟨e', he', h2⟩ := List.mem_map.1 (dictOf_parts he).1
                obtain ⟨kv, hkv, h3⟩ := mapR_mem hes he'
                split at h3
                · rename_i k' hk
                  cases h3
                  exact ⟨kv.1, List.mem_map_of_mem hkv, h2 ▸ hel _ _ _ _ hk⟩
                · cases h3
              obtain ⟨src, h1, h2⟩ := sources hf
              exact .counter src hno (fun e he => h1 _ (List.mem_map_of_mem he)) (fun e he => h2 _ (List.mem_map_of_mem he))
            · cases h
          · cases h
        | _ => exact .odd hno (by intro c h; cases h) (.counter (by intro _ _ h; cases h))
      | dict k kt vt =>
        dsimp only at h; rw [hv] at h; dsimp only at h
        cases v with
        | dict d kvs =>
          dsimp only [pyItems] at h
          split at h
          · rename_i es hes
            unfold mkDict at h
            split at h
            · cases h
              have hes' : ∀ e ∈ es, ∃ kv ∈ kvs, (PlainKey kt → Gotten env (effDe a.deser cx.des) kt kv.1 e.1) ∧
                  Gotten env (effDe a.deser cx.des) vt kv.2 e.2 := by
                intro e he
                obtain ⟨kv, hkv, h3⟩ := mapR_mem hes he
                refine ⟨kv, hkv, ?_⟩
                split at h3
                · cases h3
                · rename_i k' hk
                  split at h3
                  · rename_i w' hw
                    cases h3
                    refine ⟨fun hpk => ?_, hel _ _ _ _ hw⟩
                    rw [numKey_plain hpk] at hk
                    exact hel _ _ _ _ hk
                  · cases h3
              have hfk : ∀ y ∈ (dictOf es).map (·.1), ∃ x ∈ kvs.map (·.1), PlainKey kt → Gotten env (effDe a.deser cx.des) kt x y := by
                intro y hy
                obtain ⟨e, he, rfl⟩ := List.mem_map.1 hy
                obtain ⟨e', he', h2⟩ := List.mem_map.1 (dictOf_parts he).1
                obtain ⟨kv, hkv, h3, _⟩ := hes' e' he'
                exact ⟨kv.1, List.mem_map_of_mem hkv, h2 ▸ h3⟩
              have hfv : ∀ y ∈ (dictOf es).map (·.2), ∃ x ∈ kvs.map (·.2), Gotten env (effDe a.deser cx.des) vt x y := by
                intro y hy
                obtain ⟨e, he, rfl⟩ := List.mem_map.1 hy
                obtain ⟨e', he', h2⟩ := List.mem_map.1 (dictOf_parts he).2
                obtain ⟨kv, hkv, _, h3⟩ := hes' e' he'
                exact ⟨kv.2, List.mem_map_of_mem hkv, h2 ▸ h3⟩
              obtain ⟨src, h1, h2⟩ := sources hfk
              obtain ⟨vsrc, h3, h4⟩ := sources hfv
              exact .dict src vsrc hno (fun e he => h1 _ (List.mem_map_of_mem he)) (fun e he => h3 _ (List.mem_map_of_mem he))
                (fun e he => h2 _ (List.mem_map_of_mem he)) (fun e he => h4 _ (List.mem_map_of_mem he))
            · cases h
          · cases h
        | _ => exact .odd hno (by intro c h; cases h) (.dict (by intro _ _ h; cases h))

theorem ReadField.renderable {cd : ClassDef} {f} (h : ReadField cd f) : f.renderable = true := by
  unfold FieldDef.renderable
  rw [h.init, h.skip, h.skipDe]; rfl

theorem cls_gotten {env : Env} {r : DeRec} (hr : GottenRec env r) {c o dk kvs w} (h : deClsF env r true c o (.dict dk kvs) = .ok w) :
    ObjGotten env c kvs w := by
  cases hc : env.cls c with
  | none => unfold deClsF at h; rw [hc] at h; cases h
  | some cd =>
    refine ⟨cd, hc, fun hs f x y hf hx hy => ?_⟩
    rw [deClsF_named hc hs.dict] at h
    split at h
    · cases h
    · cases h
    · split at h
      · cases h
      · rename_i ex _
        obtain ⟨attrs, rfl⟩ := decodeCls_inst h
        obtain ⟨val, h1, h2, rfl⟩ := (decodeCls_fieldwise hs.post hs.names).1 h
        obtain ⟨_, _, he, hy⟩ := hy
        cases he
        rw [attrsOf_lookup hs.names hf.mem, ReadField.renderable hf, if_pos rfl] at hy
        cases hy
        have hd := h1 f hf.mem (ReadField.renderable hf)
        rw [deField_plain hf.flat] at hd
        have hd : r.render (clsDeCx env c cd true o (.dict dk kvs)) (plainArg cd f (.dict dk kvs)) = .ok (val f) := by
          cases hdf : f.dflt with
          | none => rw [hdf] at hd; exact catchKey_ok.1 hd
          | some dv => rw [hdf] at hd; exact hd
        have hk : Keeps (plainArg cd f (.dict dk kvs)) x := ⟨hf.alias, rfl, rfl, .inl ⟨dk, kvs, rfl, hx⟩⟩
        have hds : (plainArg cd f (.dict dk kvs)).deser = f.deserializer := rfl
        refine ⟨fun g hg => hr.own _ _ _ _ hk g hg hd, fun hg => ?_, fun hg => ?_⟩
        · have := hr.render _ _ _ _ rfl hk (by rw [hds, hg]; intro g h; cases h) hd
          rw [hds, hg] at this
          exact this
        · have := hr.render _ _ _ _ rfl hk (by rw [hds, hg]; intro g h; cases h) hd
          rw [hds, hg] at this
          exact this

theorem gotten_at {env : Env} : ∀ n, GottenRec env (deAt env n)
  | 0 => ⟨fun _ _ _ _ _ _ _ h => (by cases h), fun _ _ _ _ _ _ _ h => (by cases h), fun _ _ _ _ _ h => (by cases h)⟩
  | n + 1 => by
    refine ⟨fun cx a x w hn hk ha h => ?_, fun cx a x w hk g hg h => ?_, fun c o dk kvs w h => ?_⟩
    · rw [deAt_render, keeps_render hk] at h
      exact body_gotten (gotten_at n) hn hk ha h
    · rw [deAt_render, keeps_render hk] at h
      unfold deBody pickDe at h
      rw [hg, hk.data] at h
      exact liftP_ok h
    · rw [deAt_cls] at h
      exact cls_gotten (gotten_at n) h

end Verif
