import Verif.Lemmas.SeTotal
import Verif.Lemmas.DeMono
/-!
# Deserialization comes to an end
-/

namespace Verif
open Spec

theorem nf_getItem {v k} : NF (pyGetItem v k) := by
  unfold pyGetItem
  repeat' split
  all_goals first | exact .ok | exact nf_py
theorem nf_get {v k} : NF (pyGet v k) := by unfold pyGet; split; exact .ok; exact nf_py
theorem nf_in {v k} : NF (pyIn k v) := by cases v <;> first | exact .ok | exact nf_py
theorem nf_slice {v i} : NF (pySlice v i) := by cases v <;> first | exact .ok | exact nf_py
theorem nf_counter {env : Env} {v} : NF (pyCounter env v) := by
  unfold pyCounter
  split
  · exact .ok
  · split
    · split
      · exact .ok
      · exact nf_py
    · exact nf_of ‹_› nf_iter
theorem nf_byAliases {d ns} : NF (getByAliases d ns) := by
  induction ns with
  | nil => exact .ok
  | cons n ns ih =>
    unfold getByAliases
    have h1 := @nf_in d n
    have h2 := @nf_getItem d n
    split
    · rename_i e he; rw [he] at h1; exact h1.err
    · split
      · exact .ok
      · rename_i e he; rw [he] at h2; exact h2.err
    · exact ih
theorem nf_existsBy {d ns} : NF (existsByAliases d ns) := by
  induction ns with
  | nil => exact .ok
  | cons n ns ih =>
    unfold existsByAliases
    have h1 := @nf_in d n
    split
    · rename_i e he; rw [he] at h1; exact h1.err
    · exact .ok
    · exact ih
theorem nf_project {env : Env} {d a b x y} : NF (project env d a b x y) := by
  unfold project
  have h1 := @nf_items d
  split
  · exact .ok
  · split
    · rename_i e he; rw [he] at h1; exact h1.err
    · exact .ok
theorem nf_payload {env : Env} {tg t d} : NF (unionPayload env tg t d) := by
  unfold unionPayload
  dsimp only
  repeat' split
  all_goals first
    | exact .ok
    | exact nf_serde
    | exact nf_getItem
    | exact nf_of ‹pyIn _ _ = .error _› nf_in
    | exact nf_of ‹pyGetItem _ _ = .error _› nf_getItem
theorem nf_construct {env : Env} {c cd pos kw} : NF (construct env c cd pos kw) := by
  have hu : ∀ {e}, NF (.error (.user (.py e)) : Res Val) := nf_err rfl
  have hs : ∀ {e}, NF (.error (.user (.serde e)) : Res Val) := nf_err rfl
  unfold construct
  dsimp only
  repeat' split
  all_goals first | exact .ok | exact hu | exact hs
theorem nf_unknown {env : Env} {c cd d} : NF (deUnknown env c cd d) := by
  have h1 : NF (orEmptyItems env d) := by
    unfold orEmptyItems; split
    · exact nf_items
    · exact .ok
  unfold deUnknown
  split
  · split
    · exact .ok
    · rename_i e he; rw [he] at h1; exact h1.err
  · exact .ok
theorem nf_extra {env : Env} {c cd d} : NF (deExtra env c cd d) := by
  have h1 : NF (orEmptyItems env d) := by
    unfold orEmptyItems; split
    · exact nf_items
    · exact .ok
  unfold deExtra
  split
  · split
    · exact .ok
    · rename_i e he; rw [he] at h1; exact h1.err
  · exact .ok
theorem nf_splitArgs {fs vs} : NF (splitArgs fs vs) := by
  induction fs generalizing vs with
  | nil => unfold splitArgs; exact .ok
  | cons f fs ih =>
    obtain ⟨f, kw⟩ := f
    cases vs with
    | nil => unfold splitArgs; exact .ok
    | cons v vs =>
      unfold splitArgs
      have := @ih vs
      split
      · rename_i e he; rw [he] at this; exact this.err
      · repeat' split
        all_goals first | exact .ok | exact nf_decor
theorem nf_lit {vs d} : NF (deLit vs d) := by unfold deLit; split; exact .ok; exact nf_serde

theorem nf_data {a : DeArg} (h : ∀ r, a.src = .val r → NF r) : NF a.data := by
  unfold DeArg.data
  split
  · split
    · exact nf_get
    · exact nf_getItem
  · exact nf_index
  · exact h _ ‹_›

theorem nf_primData {cx a} (h : NF a.data) : NF (primData cx a) := by
  unfold primData
  split
  · exact h
  · split
    · exact .ok
    · exact nf_py
    · exact nf_of ‹_› nf_byAliases

/-- The helper of `optExists`. -/
theorem nf_notNone {x : Res Val} (h : NF x) : NF (match x with
    | .ok .none => (.ok false : Res Bool)
    | .ok _ => .ok true
    | .error e => .error e) := by
  split
  · exact .ok
  · exact .ok
  · exact h.err

theorem nf_optExists {env : Env} {cx a t} (h : NF a.data) : NF (optExists env cx a t) := by
  unfold optExists
  dsimp only
  split
  · exact nf_notNone h
  · exact nf_notNone h
  · rename_i d _
    split
    · split
      · split
        · split
          · exact nf_decor
          · split
            · exact .ok
            · rename_i e he
              refine NF.err (α := List Bool) ?_
              rw [← he]
              exact nf_mapR (fun f _ => nf_notNone nf_get)
        · exact nf_decor
      · exact nf_decor
    · split
      · exact nf_notNone nf_get
      · split
        · exact .ok
        · exact .ok
        · exact .ok
        · exact nf_of ‹_› nf_byAliases

theorem nf_dfltExists {env : Env} {a d} : NF (dfltExists env a d) := by
  unfold dfltExists
  split
  · split
    · split
      · split
        · exact nf_decor
        · split
          · exact .ok
          · rename_i e he
            refine NF.err (α := List Bool) ?_
            rw [← he]
            refine nf_mapR (fun f _ => ?_)
            split
            · exact nf_in
            · exact nf_existsBy
      · exact nf_decor
    · exact nf_decor
  · split
    · exact nf_in
    · exact nf_existsBy

theorem nf_genericArg {mg mv vt i} : NF (getGenericArg mg mv vt i) := by
  unfold getGenericArg
  repeat' split
  all_goals first | exact .ok | exact nf_serde | exact nf_py

/-! ## What a rendered expression calls -/

section
variable {env : Env}

/-- Values the argument may deliver to the code rendered for it (or for the annotations inside an alias or Optional). -/
def Delivers (a : DeArg) (v : Val) : Prop :=
  match a.src with
  | .key d => pyGetItem d a.conv = .ok v ∨ (Nullable a.ty ∧ pyGet d a.conv = .ok v) ∨ (a.flatten = true ∧ v = d)
  | .idx d i => pyIndex d i = .ok v ∨ (a.flatten = true ∧ pySlice d i = .ok v)
  | .val r => r = .ok v

theorem nullable_of {t : Ty} (h : t.hasNone = true) : Nullable t := by
  unfold Ty.hasNone at h
  split at h
  · rw [List.any_eq_true] at h
    obtain ⟨x, hx, hn⟩ := h
    have : x = .none := by
      unfold Ty.isNone at hn
      split at hn
      · rfl
      · cases hn
    exact .union (this ▸ hx)
  · cases h

theorem delivers_data {a : DeArg} {v} (h : a.data = .ok v) : Delivers a v := by
  unfold DeArg.data at h
  unfold Delivers
  split at h
  · rename_i hs
    rw [hs]
    split at h
    · rename_i hn
      exact .inr (.inl ⟨nullable_of hn, h⟩)
    · exact .inl h
  · rename_i hs; rw [hs]; exact .inl h
  · rename_i hs; rw [hs]; exact h

/-- The data a nested class is read from. -/
def clsVar (a : DeArg) : Res Val :=
  if a.flatten then
    match a.src with
    | .key d => .ok d
    | .idx d i => pySlice d i
    | .val x => x
  else a.data

theorem delivers_clsVar {a : DeArg} {d} (hd : clsVar a = .ok d) : Delivers a d := by
  unfold clsVar at hd
  split at hd
  · rename_i hf
    unfold Delivers
    split at hd
    · rename_i hs; cases hd; exact .inr (.inr ⟨hf, rfl⟩)
    · exact .inr ⟨hf, hd⟩
    · exact hd
  · exact delivers_data hd

theorem nf_clsVar {a : DeArg} (h : NF a.data) : NF (clsVar a) := by
  unfold clsVar
  split
  · split
    · exact .ok
    · exact nf_slice
    · rename_i x hs
      have : a.data = x := by unfold DeArg.data; rw [hs]
      rw [this] at h
      exact h
  · exact h

/-- The argument of an element of a fixed tuple. -/
def tupleElem (a : DeArg) (it : Ty × Nat) : DeArg :=
  { ty := it.1, name := "data[..]", conv := "data[..]", alias := a.alias, deser := a.deser, src := .val (match a.data with
      | .ok d => pyIndex d it.2
      | .error e => .error e) }

/-- What `deBody` calls, when it calls anything. -/
structure DeCalls (env : Env) (r : DeRec) (cx : DeCx) (a : DeArg) : Prop where
  genC : ∀ c args, a.ty = .gen c args → NF (r.render cx { a with ty := .cls c, tyArgs := some (args.map (tyArgStr env)) })
  aliasC : ∀ nm t, a.ty = .alias nm t → NF (r.render cx { a with ty := t })
  clsC : ∀ c d, a.ty = .cls c → clsVar a = .ok d →
    NF (r.cls cx.named c { mg := cx.mg, mgVars := cx.mgVars, vta := a.tyArgs, reuse := some cx.reuse, numbers := cx.numbers } d)
  optC : ∀ t ts, a.ty = .union (t :: ts) → (Ty.union (t :: ts)).isOpt = true → optExists env cx a t = .ok true →
    NF (r.render cx { a with ty := t, dflt := none, tyArgs := none })
  unionC : ∀ ts us d, a.ty = .union ts → (Ty.union ts).isOpt = false → findUnion env cx.unions (unionFuncName env ts) = some us → a.data = .ok d → ∀ t ∈ us,
    ∀ p, unionPayload env cx.tagging t d = .ok p →
    NF (r.render (cx.inUnion env d) { ty := t, name := "fake_key", conv := "fake_key", src := .key (.dict .plain [(.str "fake_key", p)]) })
  elemC : ∀ t d xs, (∃ k, a.ty = .list k t) ∨ (∃ k, a.ty = .set k t) ∨ a.ty = .deque t ∨ a.ty = .tupleV t → a.data = .ok d → pyIter d = .ok xs → ∀ x ∈ xs,
    NF (r.render cx { ty := t, name := "v", conv := "v", src := .val (.ok x), alias := a.alias, deser := a.deser })
  counterC : ∀ t d kvs, a.ty = .counter t → a.data = .ok d → pyItems d = .ok kvs → ∀ kv ∈ kvs,
    NF (r.render cx { ty := t, name := "k", conv := "k", src := .val (.ok kv.1), alias := a.alias, deser := a.deser })
  dictC : ∀ k kt vt d kvs, a.ty = .dict k kt vt → a.data = .ok d → pyItems d = .ok kvs → ∀ kv ∈ kvs,
    NF (r.render cx { ty := kt, name := "k", conv := "k", src := .val (.ok kv.1), alias := a.alias, deser := a.deser }) ∧
    NF (r.render cx { ty := vt, name := "v", conv := "v", src := .val (.ok kv.2), alias := a.alias, deser := a.deser })
  tupleC : ∀ ts, a.ty = .tuple ts → ∀ it ∈ ts.zipIdx, NF (r.render cx (tupleElem a it))
  tvarC : ∀ x vars t d, a.ty = .tvar x → cx.tvars = some vars → getGenericArg cx.mg cx.mgVars cx.vta (findGenericArg vars x) = .ok t → a.data = .ok d →
    NF (r.fromObj a.src.isNamed (some cx.reuse) cx.numbers .external t d)

theorem nf_deUnion {r : DeRec} {cx : DeCx} {d ts} (h : ∀ t ∈ ts, ∀ p, unionPayload env cx.tagging t d = .ok p →
    NF (r.render cx { ty := t, name := "fake_key", conv := "fake_key", src := .key (.dict .plain [(.str "fake_key", p)]) })) :
    NF (deUnion env r cx d ts) := by
  induction ts with
  | nil => exact nf_serde
  | cons t ts ih =>
    have hm : NF (deMember env r cx t d) := by
      unfold deMember
      split
      · exact nf_of ‹_› nf_payload
      · rename_i p hp
        split
        · exact nf_serde
        · split
          · exact nf_of ‹_› (h t (by simp) p hp)
          · split
            · exact nf_py
            · split
              · exact .ok
              · exact nf_serde
    unfold deUnion
    split
    · exact .ok
    · exact absurd ‹_› hm.ne
    · exact ih (fun t ht => h t (by simp [ht]))

theorem DeCalls.nf {r : DeRec} {cx a} (h : DeCalls env r cx a) (ha : NF a.data) : NF (deBody env r cx a) := by
  have elemNF : ∀ {t} {K : List Val → Res Val}, ((∃ k, a.ty = .list k t) ∨ (∃ k, a.ty = .set k t) ∨ a.ty = .deque t ∨ a.ty = .tupleV t) → (∀ ys, NF (K ys)) →
      NF (match a.data with
        | .ok d => match pyIter d with
          | .ok xs => match mapR (fun x => r.render cx { ty := t, name := "v", conv := "v", src := .val (.ok x), alias := a.alias, deser := a.deser }) xs with
            | .ok ys => K ys
            | .error e => .error e
          | .error e => .error e
        | .error e => .error e) := by
    intro t K ht hK
    split
    · rename_i d hd
      split
      · rename_i xs hx
        split
        · exact hK _
        · exact nf_of ‹_› (nf_mapR (h.elemC t d xs ht hd hx))
      · exact nf_of ‹_› nf_iter
    · exact nf_of ‹_› ha
  have iterNF : ∀ {K : List Val → Res Val}, (∀ ys, NF (K ys)) →
      NF (match a.data with
        | .ok d => match pyIter d with
          | .ok xs => K xs
          | .error e => .error e
        | .error e => .error e) := by
    intro K hK
    split
    · split
      · exact hK _
      · exact nf_of ‹_› nf_iter
    · exact nf_of ‹_› ha
  unfold deBody
  split
  · split
    · exact nf_liftP
    · exact nf_of ‹_› ha
  split
  · split
    · exact nf_liftP
    · exact nf_of ‹_› ha
  dsimp only
  split
  · exact h.genC _ _ ‹_›
  · exact h.aliasC _ _ ‹_›
  · rename_i c hc
    split
    · rename_i d hd; exact h.clsC c d hc hd
    · rename_i e he; exact nf_of (x := clsVar a) he (nf_clsVar ha)
  · rename_i ts hty
    split
    · rename_i ho
      rw [hty] at ho
      split
      · split
        · exact h.optC _ _ hty ho ‹_›
        · exact .ok
        · exact nf_of ‹_› (nf_optExists ha)
      · exact nf_decor
    · rename_i ho
      rw [hty] at ho
      split
      · exact nf_py
      · rename_i us hus
        split
        · rename_i d hd
          exact nf_deUnion (fun t ht p hp => h.unionC ts us d hty (by simpa using ho) hus hd t ht p hp)
        · exact nf_of ‹_› ha
  · exact iterNF (fun _ => .ok)
  · exact elemNF (.inl ⟨_, ‹_›⟩) (fun _ => .ok)
  · exact iterNF (fun _ => nf_mkSet)
  · exact elemNF (.inr (.inl ⟨_, ‹_›⟩)) (fun _ => nf_mkSet)
  · exact iterNF (fun _ => .ok)
  · exact elemNF (.inr (.inr (.inl ‹_›))) (fun _ => .ok)
  · split
    · exact nf_counter
    · exact nf_of ‹_› ha
  · split
    · rename_i hd
      split
      · rename_i hk
        split
        · exact nf_mkDict
        · refine nf_of ‹_› (nf_mapR (fun kv hkv => ?_))
          have := h.counterC _ _ _ ‹_› hd hk kv hkv
          split
          · exact .ok
          · exact nf_of ‹_› this
      · exact nf_of ‹_› nf_items
    · exact nf_of ‹_› ha
  · exact nf_decor
  · exact ha
  · split
    · rename_i hd
      split
      · rename_i hk
        split
        · exact nf_mkDict
        · refine nf_of ‹_› (nf_mapR (fun kv hkv => ?_))
          have := h.dictC _ _ _ _ _ ‹_› hd hk kv hkv
          split
          · rename_i he
            split at he
            · exact nf_of he nf_coerce
            · exact nf_of he this.1
          · split
            · exact .ok
            · exact nf_of ‹_› this.2
      · exact nf_of ‹_› nf_items
    · exact nf_of ‹_› ha
  · exact iterNF (fun _ => .ok)
  · exact elemNF (.inr (.inr (.inr ‹_›))) (fun _ => .ok)
  · exact nf_decor
  · split
    · exact .ok
    · exact nf_of ‹_› (nf_mapR (h.tupleC _ ‹_›))
  · split
    · exact nf_liftP
    · exact nf_of ‹_› (nf_primData ha)
  · split
    · split
      · exact .ok
      · exact nf_liftP
    · exact nf_of ‹_› ha
  · split
    · split
      · exact .ok
      · exact nf_liftP
    · exact nf_of ‹_› ha
  · exact .ok
  · exact ha
  · split
    · exact nf_of ‹_› (nf_primData ha)
    · split
      · exact nf_liftP
      · split
        · exact nf_coerce
        · exact .ok
  · split
    · exact nf_of ‹_› (nf_primData ha)
    · split
      · exact nf_coerce
      · exact .ok
  · split
    · exact nf_decor
    · rename_i vars hv
      split
      · exact nf_of ‹_› nf_genericArg
      · rename_i t ht
        split
        · exact nf_of ‹_› ha
        · exact h.tvarC _ _ _ _ ‹_› hv ht ‹_›
  · split
    · exact nf_py
    · split
      · exact nf_lit
      · exact nf_of ‹_› ha
  · exact nf_decor

theorem DeCalls.render {r : DeRec} {cx a} (h : DeCalls env r cx a) (ha : NF a.data) : NF (deRenderF env r cx a) := by
  unfold deRenderF
  split
  · split
    · exact h.nf ha
    · exact .ok
    · exact nf_of ‹_› nf_dfltExists
  · exact h.nf ha

/-! ## Nesting of the data -/

/-- Elements, keys and values of a container. -/
inductive Child : Val → Val → Prop
  | list {xs x} : x ∈ xs → Child x (.list xs)
  | tuple {xs x} : x ∈ xs → Child x (.tuple xs)
  | deque {xs x} : x ∈ xs → Child x (.deque xs)
  | set {b xs x} : x ∈ xs → Child x (.set b xs)
  | key {k kvs} {e : Val × Val} : e ∈ kvs → Child e.1 (.dict k kvs)
  | value {k kvs} {e : Val × Val} : e ∈ kvs → Child e.2 (.dict k kvs)

/-- The nesting of the data is at most this deep. -/
def Low : Nat → Val → Prop
  | 0, v => ∀ x, ¬ Child x v
  | n + 1, v => ∀ x, Child x v → Low n x

theorem Low.succ {n v} (h : Low n v) : Low (n + 1) v := by
  induction n generalizing v with
  | zero => exact fun x hx => absurd hx (h x)
  | succ n ih => exact fun x hx => ih (h x hx)

theorem Low.child {n v x} (h : Low n v) (hx : Child x v) : ∃ m, n = m + 1 ∧ Low m x := by
  cases n with
  | zero => exact absurd hx (h x)
  | succ n => exact ⟨n, rfl, h x hx⟩

theorem Low.leaf {n v} (h : ∀ x, ¬ Child x v) : Low n v := by
  cases n with
  | zero => exact h
  | succ n => exact fun x hx => absurd hx (h x)

theorem Low.sub {n v v'} (h : Low n v) (hs : ∀ x, Child x v' → Child x v) : Low n v' := by
  cases n with
  | zero => exact fun x hx => h x (hs x hx)
  | succ n => exact fun x hx => h x (hs x hx)

theorem Low.part {n v x} (h : Low n v) (hx : Child x v) : Low n x := by
  obtain ⟨m, rfl, h'⟩ := h.child hx
  exact h'.succ

theorem low_none {n} : Low n .none := .leaf (fun _ h => by cases h)
theorem low_str {n s} : Low n (.str s) := .leaf (fun _ h => by cases h)

theorem child_wt {x v} (h : Child x v) : wt x < wt v := by
  cases h with
  | list h => exact wt_list h
  | tuple h => exact wt_tuple h
  | deque h => exact wt_deque h
  | set h => exact wt_set h
  | key h => exact wt_key h
  | value h => exact wt_value h

theorem low_wt {n v} (h : wt v ≤ n) : Low n v := by
  induction n generalizing v with
  | zero => exact fun x hx => by have := child_wt hx; omega
  | succ n ih => exact fun x hx => ih (by have := child_wt hx; omega)

theorem child_iter {v xs x} (hi : pyIter v = .ok xs) (hx : x ∈ xs) : Child x v ∨ ((∃ s, v = .str s) ∧ ∃ s, x = .str s) := by
  cases v <;> cases hi
  · unfold strElems at hx
    rw [List.mem_map] at hx
    obtain ⟨c, _, rfl⟩ := hx
    exact .inr ⟨⟨_, rfl⟩, _, rfl⟩
  · exact .inl (.list hx)
  · exact .inl (.tuple hx)
  · exact .inl (.deque hx)
  · exact .inl (.set hx)
  · rw [List.mem_map] at hx
    obtain ⟨e, he, rfl⟩ := hx
    exact .inl (.key he)

theorem child_index {v i x} (h : pyIndex v i = .ok x) : Child x v ∨ ((∃ s, v = .str s) ∧ ∃ s, x = .str s) := by
  rcases index_cases h with ⟨xs, h1, h2⟩ | ⟨k, kvs, rfl, e, he, rfl⟩
  · exact child_iter h1 h2
  · exact .inl (.value he)

theorem Low.iter {n v xs x} (h : Low n v) (hi : pyIter v = .ok xs) (hx : x ∈ xs) : Low n x := by
  rcases child_iter hi hx with h1 | ⟨_, s, rfl⟩
  · exact h.part h1
  · exact low_str

theorem Low.index {n v i x} (h : Low n v) (hi : pyIndex v i = .ok x) : Low n x := by
  rcases child_index hi with h1 | ⟨_, s, rfl⟩
  · exact h.part h1
  · exact low_str

theorem child_items {v kvs} {e : Val × Val} (hi : pyItems v = .ok kvs) (he : e ∈ kvs) : Child e.1 v ∧ Child e.2 v := by
  cases v <;> cases hi
  exact ⟨.key he, .value he⟩

theorem getStr_child {k : String} {kvs v} (h : getStr k kvs = some v) (dk) : Child v (.dict dk kvs) := by
  induction kvs with
  | nil => cases h
  | cons e r ih =>
    obtain ⟨k', x⟩ := e
    have step : getStr k r = some v → Child v (.dict dk ((k', x) :: r)) := by
      intro h'
      have := ih h'
      generalize hd : Val.dict dk r = d at this
      cases this <;> cases hd
      · rename_i e he; exact .key (e := e) (by simp [he])
      · rename_i e he; exact .value (e := e) (by simp [he])
    unfold getStr at h
    split at h
    · cases h
    · rename_i heq
      cases heq
      split at h
      · cases h; exact .value (e := (_, v)) List.mem_cons_self
      · exact step h
    · rename_i heq
      cases heq
      exact step h

theorem child_getItem {v k x} (h : pyGetItem v k = .ok x) : Child x v := by
  unfold pyGetItem at h
  split at h
  · split at h
    · cases h; exact getStr_child ‹_› _
    · cases h
  · cases h

theorem get_cases {v k x} (h : pyGet v k = .ok x) : pyGetItem v k = .ok x ∨ (x = .none ∧ ∀ y, pyGetItem v k ≠ .ok y) := by
  unfold pyGet at h
  unfold pyGetItem
  split at h
  · cases hg : getStr k _ with
    | some y => rw [hg] at h; cases h; left; rfl
    | none => rw [hg] at h; cases h; right; exact ⟨rfl, fun y hy => by cases hy⟩
  · cases h

theorem low_project {env : Env} {n d a b x y v} (h : Low n d) (hp : project env d a b x y = .ok v) : Low n v := by
  unfold project at hp
  split at hp
  · cases hp; exact .leaf (fun x hx => by cases hx <;> rename_i h <;> cases h)
  · split at hp
    · cases hp
    · rename_i kvs hk
      cases hp
      cases d <;> cases hk
      refine h.sub (fun x hx => ?_)
      cases hx with
      | key he => exact .key (List.mem_filter.1 he).1
      | value he => exact .value (List.mem_filter.1 he).1

theorem low_slice {n d i v} (h : Low n d) (hp : pySlice d i = .ok v) : Low n v := by
  cases d <;> cases hp
  · exact low_str
  · refine h.sub (fun x hx => ?_)
    cases hx with
    | list hx => exact .list (List.mem_of_mem_drop hx)
  · refine h.sub (fun x hx => ?_)
    cases hx with
    | tuple hx => exact .tuple (List.mem_of_mem_drop hx)

/-- The payload of a union member is the data or in it; None has no tag. -/
theorem payload_cases {env : Env} {tg t d p} (h : unionPayload env tg t d = .ok p) : p = d ∨ Child p d := by
  have hg : ∀ k, pyGetItem d k = .ok p → Child p d := fun k => child_getItem
  unfold unionPayload at h
  dsimp only at h
  repeat' split at h
  all_goals first
    | (cases h; done)
    | exact .inr (hg _ h)
    | (cases h; exact .inl rfl)

theorem getItem_fake {p : Val} {v} (h : pyGetItem (.dict .plain [(.str "fake_key", p)]) "fake_key" = .ok v) : v = p := by
  simp [pyGetItem, getStr] at h
  exact h.symm

/-! ## Arguments without data -/

theorem size_mem {t : Ty} {ts : List Ty} (h : t ∈ ts) : sizeOf t < sizeOf ts := List.sizeOf_lt_of_mem h

/-- Changing the annotation of an argument to one inside an alias or Optional delivers nothing new. -/
theorem delivers_ty {a : DeArg} {t v} {df : Option Val} {ta : Option (List String)} (hn : Nullable t → Nullable a.ty)
    (h : Delivers { a with ty := t, dflt := df, tyArgs := ta } v) : Delivers a v := by
  unfold Delivers at h ⊢
  dsimp only at h
  split at h
  · rcases h with h | ⟨h1, h2⟩ | h
    · exact .inl h
    · exact .inr (.inl ⟨hn h1, h2⟩)
    · exact .inr (.inr h)
  · exact h
  · exact h

theorem opt_shape {t ts} (h : (Ty.union (t :: ts)).isOpt = true) : ts = [.none] := by
  unfold Ty.isOpt at h
  split at h
  · rename_i he; cases he; rfl
  · cases h

theorem opt_nullable {t ts} (h : (Ty.union (t :: ts)).isOpt = true) : Nullable (.union (t :: ts)) := by
  rw [opt_shape h]; exact .union (by simp)

/-- An argument that has nothing to deliver. -/
structure Empty (a : DeArg) : Prop where
  nf : ∀ r, a.src = .val r → NF r
  none : ∀ v, ¬ Delivers a v

theorem emptyEnds : ∀ (t : Ty) cx a, a.ty = t → Empty a → Ev (fun n => NF ((deAt env n).render cx a)) := by
  intro t
  induction hn : sizeOf t using Nat.strongRecOn generalizing t with
  | ind n IH =>
  intro cx a hty he
  subst hn
  subst hty
  have ih : ∀ t', sizeOf t' < sizeOf a.ty → ∀ a', a'.ty = t' → Empty a' → Ev (fun n => NF ((deAt env n).render cx a')) :=
    fun t' hlt a' ht' he' => IH _ hlt t' rfl cx a' ht' he'
  have hnd : ∀ d, a.data ≠ .ok d := fun d hd => he.none d (delivers_data hd)
  have e1 : Ev (fun n => ∀ x : ClassId × List Ty, a.ty = .gen x.1 x.2 →
      NF ((deAt env n).render cx { a with ty := .cls x.1, tyArgs := some (x.2.map (tyArgStr env)) })) := by
    refine Ev.unique (fun ⟨_, _⟩ ⟨_, _⟩ hx hy => ?_) (fun ⟨c, args⟩ hx => ?_)
    · rw [hx] at hy; cases hy; rfl
    · exact ih (.cls c) (by rw [hx]; simp; cases args <;> simp <;> omega) _ rfl
        ⟨he.nf, fun v hv => he.none v (delivers_ty (t := .cls c) (fun h => by cases h) hv)⟩
  have e2 : Ev (fun n => ∀ x : String × Ty, a.ty = .alias x.1 x.2 → NF ((deAt env n).render cx { a with ty := x.2 })) := by
    refine Ev.unique (fun ⟨_, _⟩ ⟨_, _⟩ hx hy => ?_) (fun ⟨nm, t⟩ hx => ?_)
    · rw [hx] at hy; cases hy; rfl
    · exact ih t (by rw [hx]; simp; omega) _ rfl ⟨he.nf, fun v hv => he.none v (delivers_ty (t := t) (fun h => by rw [hx]; exact .alias h) hv)⟩
  have e3 : Ev (fun n => ∀ x : Ty × List Ty, (a.ty = .union (x.1 :: x.2) ∧ (Ty.union (x.1 :: x.2)).isOpt = true) →
      NF ((deAt env n).render cx { a with ty := x.1, dflt := none, tyArgs := none })) := by
    refine Ev.unique (fun ⟨_, _⟩ ⟨_, _⟩ hx hy => ?_) (fun ⟨t, ts⟩ hx => ?_)
    · rw [hx.1] at hy; cases hy.1; rfl
    · obtain ⟨h1, h2⟩ := hx
      dsimp only at h1 h2
      exact ih t (by rw [h1]; simp; omega) _ rfl
        ⟨he.nf, fun v hv => he.none v (delivers_ty (t := t) (fun _ => by rw [h1]; exact opt_nullable h2) hv)⟩
  have e4 : Ev (fun n => ∀ ts, a.ty = .tuple ts → ∀ it ∈ ts.zipIdx, NF ((deAt env n).render cx (tupleElem a it))) := by
    refine Ev.unique (fun _ _ hx hy => ?_) (fun ts hx => Ev.list (fun it hit => ?_))
    · rw [hx] at hy; cases hy; rfl
    · have hm := size_mem (sizeOf_zipIdx hit)
      refine ih it.1 (by rw [hx]; simp; omega) _ rfl ⟨fun r hr => ?_, fun v hv => ?_⟩
      · cases hr
        split
        · exact nf_index
        · exact nf_of ‹_› (nf_data he.nf)
      · unfold Delivers tupleElem at hv
        dsimp only at hv
        split at hv
        · exact hnd _ ‹_›
        · cases hv
  refine (((e1.and e2).and e3).and e4).step (fun n h => ?_)
  obtain ⟨⟨⟨h1, h2⟩, h3⟩, h4⟩ := h
  rw [deAt_render]
  refine DeCalls.render ?_ (nf_data he.nf)
  exact { genC := fun _ _ h => h1 ⟨_, _⟩ h, aliasC := fun _ _ h => h2 ⟨_, _⟩ h, clsC := fun _ d _ h => absurd (delivers_clsVar h) (he.none d),
          optC := fun _ _ h h' _ => h3 ⟨_, _⟩ ⟨h, h'⟩, unionC := fun _ _ d _ _ _ h => absurd h (hnd d), elemC := fun _ d _ _ h => absurd h (hnd d),
          counterC := fun _ d _ _ h => absurd h (hnd d), dictC := fun _ _ _ d _ _ h => absurd h (hnd d), tupleC := h4,
          tvarC := fun _ _ _ d _ _ _ h => absurd h (hnd d) }

/-! ## The induction -/

/-- The data an argument delivers is at most this deep; with `j` it is only the None of a missing key. -/
structure ArgLow (H : Nat) (j : Bool) (cx : DeCx) (a : DeArg) : Prop where
  nf : ∀ r, a.src = .val r → NF r
  low : ∀ v, Delivers a v → Low H v
  none : j = true → a.flatten = false ∧ ∀ v, Delivers a v → v = .none
  inv : a.alias ≠ [] → ∀ d, a.src = .key d → a.flatten = false → d = cx.data

/-- The type arguments of the call in progress. -/
def MgOk (env : Env) (M : Nat) (mg : Option Ty) : Prop := ∀ t, mg = some t → sizeOf t ≤ M ∧ DistinctInside env t

/-- Rendering ends. -/
def RenderC (env : Env) (b : Bool) (H M : Nat) (t : Ty) (j : Bool) : Prop :=
  ∀ cx a, a.ty = t → (b = true → cx.named = true ∧ a.src.isNamed = true) → OwnIn env cx.unions t → MgOk env M cx.mg → ArgLow H j cx a →
    Ev (fun n => NF ((deAt env n).render cx a))

/-- The function of a class ends. -/
def ClsC (env : Env) (b : Bool) (H M : Nat) (c : ClassId) (j : Bool) : Prop :=
  ∀ named o d, (b = true → named = true) → MgOk env M o.mg → Low H d → (j = true → d = .none) → Ev (fun n => NF ((deAt env n).cls named c o d))

/-- `from_obj` ends. -/
def FromC (env : Env) (b : Bool) (H S : Nat) : Prop :=
  ∀ named re nu tg t d, (b = true → named = true) → sizeOf t ≤ S → DistinctInside env t → Low H d →
    Ev (fun n => NF ((deAt env n).fromObj named re nu tg t d))

theorem ArgLow.ty {H j cx} {a : DeArg} {t} {df : Option Val} {ta : Option (List String)} (h : ArgLow H j cx a) (hn : Nullable t → Nullable a.ty) :
    ArgLow H j cx { a with ty := t, dflt := df, tyArgs := ta } :=
  ⟨h.nf, fun v hv => h.low v (delivers_ty hn hv), fun hj => ⟨(h.none hj).1, fun v hv => (h.none hj).2 v (delivers_ty hn hv)⟩, h.inv⟩

theorem getItem_in {d k v} (h : pyGetItem d k = .ok v) : pyIn k d = .ok true := by
  unfold pyGetItem at h
  split at h
  · split at h
    · rename_i hg; simp [pyIn, hg]
    · cases h
  · cases h

theorem notNone_true {x : Res Val} (h : (match x with
    | .ok .none => (.ok false : Res Bool)
    | .ok _ => .ok true
    | .error e => .error e) = .ok true) : ∃ v, x = .ok v ∧ v ≠ .none := by
  split at h
  · cases h
  · rename_i v hv; exact ⟨v, rfl, fun hn => hv hn⟩
  · cases h

/-- An Optional is entered with None only for a nullable annotation inside. -/
theorem optNone {H cx} {a : DeArg} {t ts} (hr : ArgLow H true cx a) (hty : a.ty = .union (t :: ts)) (ho : (Ty.union (t :: ts)).isOpt = true)
    (hx : optExists env cx a t = .ok true) : Nullable t ∨ Empty { a with ty := t, dflt := none, tyArgs := none } := by
  have hnull : Nullable a.ty := by rw [hty]; exact opt_nullable ho
  have hdel : ∀ v, a.data = .ok v → v = .none := fun v hv => (hr.none rfl).2 v (delivers_data hv)
  cases Classical.em (Nullable t) with
  | inl h => exact .inl h
  | inr hnt =>
    right
    refine ⟨hr.nf, fun v hv => ?_⟩
    unfold optExists at hx
    dsimp only at hx
    split at hx
    · obtain ⟨w, hw, hne⟩ := notNone_true hx
      exact hne (hdel w hw)
    · obtain ⟨w, hw, hne⟩ := notNone_true hx
      exact hne (hdel w hw)
    · rename_i d hs
      rw [(hr.none rfl).1] at hx
      have hget : ∀ w, pyGet d a.conv = .ok w → w = .none := fun w hw => (hr.none rfl).2 w (by
        unfold Delivers; rw [hs]; exact .inr (.inl ⟨hnull, hw⟩))
      have hitem : ∀ w, pyGetItem d a.conv = .ok w → w = .none := fun w hw => (hr.none rfl).2 w (by
        unfold Delivers; rw [hs]; exact .inl hw)
      simp only [Bool.false_eq_true, if_false] at hx
      split at hx
      · obtain ⟨w, hw, hne⟩ := notNone_true hx
        exact hne (hget w hw)
      · rename_i hal
        have hd : d = cx.data := hr.inv hal d hs (hr.none rfl).1
        have hv' : pyGetItem d a.conv = .ok v := by
          unfold Delivers at hv
          dsimp only at hv
          rw [hs] at hv
          rcases hv with h | ⟨h, _⟩ | ⟨h, _⟩
          · exact h
          · exact absurd h hnt
          · rw [(hr.none rfl).1] at h; cases h
        have hin := getItem_in hv'
        have hvn := hitem v hv'
        subst hvn
        rw [← hd] at hx
        unfold getByAliases at hx
        rw [hin, hv'] at hx
        cases hx

theorem OwnIn.inUnion {cx : DeCx} {d t} (h : OwnIn env cx.unions t) : OwnIn env (cx.inUnion env d).unions t := h

theorem reads_fake {H j cx t p} (hp : Low H p) (hj : j = true → p = .none) :
    ArgLow H j cx { ty := t, name := "fake_key", conv := "fake_key", src := .key (.dict .plain [(.str "fake_key", p)]) } := by
  have : ∀ v, Delivers { ty := t, name := "fake_key", conv := "fake_key", src := .key (.dict .plain [(.str "fake_key", p)]) } v → v = p := by
    intro v hv
    rcases hv with h | ⟨_, h⟩ | ⟨h, _⟩
    · exact getItem_fake h
    · simp [pyGet, getStr] at h; exact h.symm
    · cases h
  exact ⟨fun r h => by (simp at h), fun v hv => by rw [this v hv]; exact hp, fun h => ⟨rfl, fun v hv => by rw [this v hv]; exact hj h⟩, fun h => absurd rfl h⟩

theorem reads_val {H j cx t nm al} {ds : Option SerFn} {x : Res Val} (hnf : NF x) (h : ∀ v, x = .ok v → Low H v ∧ (j = true → v = .none)) :
    ArgLow H j cx { ty := t, name := nm, conv := nm, src := .val x, alias := al, deser := ds } :=
  ⟨fun r h => by cases h; exact hnf, fun v hv => (h v hv).1, fun hj => ⟨rfl, fun v hv => (h v hv).2 hj⟩, fun _ d hd => by cases hd⟩

theorem generic_size {M mg mv vt i t} (hm : MgOk env M mg) (h : getGenericArg mg mv vt i = .ok t) :
    t = .any ∨ (sizeOf t < M ∧ DistinctInside env t) := by
  unfold getGenericArg at h
  split at h
  · rename_i c args _ _ _
    obtain ⟨h1, h2⟩ := hm _ rfl
    split at h
    · cases h
    · split at h
      · cases h
      · split at h
        · rename_i hget
          cases h
          have hmem := List.mem_of_getElem? hget
          have hs := size_mem hmem
          refine .inr ⟨?_, fun s hs => h2 s (.arg .refl hmem hs)⟩
          simp only [Ty.gen.sizeOf_spec] at h1
          omega
        · cases h; exact .inl rfl
  · cases h; exact .inl rfl

theorem nf_wrapUser {α : Type} {x : Res α} (h : NF x) : NF (wrapUser x) := by
  cases x with
  | ok => exact .ok
  | error e =>
    have := h e rfl
    cases e with
    | fuel => cases this
    | user e => cases e <;> first | exact nf_err rfl | cases this
    | _ => exact nf_err rfl

theorem fromAny {named re nu tg d} : Ev (fun n => NF ((deAt env n).fromObj named re nu tg .any d)) := by
  refine Ev.step (P := fun _ => True) (Ev.of_all (fun _ => trivial)) (fun n _ => ?_)
  rw [deAt_fromObj]
  unfold fromObjF
  dsimp only
  split
  · exact .ok
  · refine nf_wrapUser ?_
    unfold fromObjBody
    dsimp only
    split
    · exact nf_liftP
    · exact .ok

theorem renderStep {b : Bool} {H M : Nat} {t : Ty} {j : Bool}
    (ih : ∀ t' j', Rereads env b (t', j') (t, j) → RenderC env b H M t' j')
    (hcls : ∀ c, t = .cls c → ClsC env b H M c j)
    (lower : ∀ H', H = H' + 1 → ∀ t', RenderC env b H' M t' false)
    (from' : ∀ S, S < M → FromC env b H S) : RenderC env b H M t j := by
  intro cx a hty hb hown hmg hr
  subst hty
  have hlow : ∀ {d}, a.data = .ok d → Low H d := fun hd => hr.low _ (delivers_data hd)
  have hnone : j = true → ∀ d, a.data = .ok d → d = .none := fun hj d hd => (hr.none hj).2 d (delivers_data hd)
  have hnf : NF a.data := nf_data hr.nf
  -- None has no elements, keys or entries
  have hjf : ∀ {d xs}, a.data = .ok d → pyIter d = .ok xs → j = false := by
    intro d xs hd hi
    cases j with
    | false => rfl
    | true => rw [hnone rfl d hd] at hi; cases hi
  have e1 : Ev (fun n => ∀ x : ClassId × List Ty, a.ty = .gen x.1 x.2 →
      NF ((deAt env n).render cx { a with ty := .cls x.1, tyArgs := some (x.2.map (tyArgStr env)) })) := by
    refine Ev.unique (fun ⟨_, _⟩ ⟨_, _⟩ hx hy => ?_) (fun ⟨c, args⟩ hx => ?_)
    · rw [hx] at hy; cases hy; rfl
    · exact ih (.cls c) j (by rw [hx]; exact .origin) cx _ rfl hb ownIn_cls hmg (hr.ty (fun h => by cases h))
  have e2 : Ev (fun n => ∀ x : String × Ty, a.ty = .alias x.1 x.2 → NF ((deAt env n).render cx { a with ty := x.2 })) := by
    refine Ev.unique (fun ⟨_, _⟩ ⟨_, _⟩ hx hy => ?_) (fun ⟨nm, t⟩ hx => ?_)
    · rw [hx] at hy; cases hy; rfl
    · exact ih t j (by rw [hx]; exact .alias) cx _ rfl hb (hown.part (by rw [hx]; exact .alias .refl)) hmg
        (hr.ty (t := t) (fun h => by rw [hx]; exact .alias h))
  have e3 : Ev (fun n => ∀ x : Ty × List Ty, (a.ty = .union (x.1 :: x.2) ∧ (Ty.union (x.1 :: x.2)).isOpt = true ∧ optExists env cx a x.1 = .ok true) →
      NF ((deAt env n).render cx { a with ty := x.1, dflt := none, tyArgs := none })) := by
    refine Ev.unique (fun ⟨_, _⟩ ⟨_, _⟩ hx hy => ?_) (fun ⟨t, ts⟩ hx => ?_)
    · rw [hx.1] at hy; cases hy.1; rfl
    · obtain ⟨h1, h2, h3⟩ := hx
      dsimp only at h1 h2 h3
      have hr' : ArgLow H j cx { a with ty := t, dflt := none, tyArgs := none } := hr.ty (t := t) (fun _ => by rw [h1]; exact opt_nullable h2)
      have hown' : OwnIn env cx.unions t := hown.part (by rw [h1]; exact .union (by simp) .refl)
      cases j with
      | false => exact ih t false (by rw [h1]; exact .member (by simp)) cx _ rfl hb hown' hmg hr'
      | true =>
        rcases optNone hr h1 h2 h3 with hn | he
        · exact ih t true (by rw [h1]; exact .memberNone (by simp) (.inr hn)) cx _ rfl hb hown' hmg hr'
        · exact emptyEnds t cx _ rfl he
  have e4 : Ev (fun n => ∀ x : ClassId × Val, (a.ty = .cls x.1 ∧ clsVar a = .ok x.2) →
      NF ((deAt env n).cls cx.named x.1 { mg := cx.mg, mgVars := cx.mgVars, vta := a.tyArgs, reuse := some cx.reuse, numbers := cx.numbers } x.2)) := by
    refine Ev.unique (fun ⟨_, _⟩ ⟨_, _⟩ hx hy => ?_) (fun ⟨c, d⟩ hx => ?_)
    · rw [hx.1, hx.2] at hy; obtain ⟨h1, h2⟩ := hy; cases h1; cases h2; rfl
    · have hd := delivers_clsVar hx.2
      exact hcls c hx.1 _ _ d (fun h => (hb h).1) hmg (hr.low d hd) (fun hj => (hr.none hj).2 d hd)
  have e5 : Ev (fun n => ∀ x : List Ty × List Ty × Val, (a.ty = .union x.1 ∧ (Ty.union x.1).isOpt = false ∧ findUnion env cx.unions (unionFuncName env x.1) = some x.2.1 ∧
      a.data = .ok x.2.2) → ∀ t ∈ x.2.1, ∀ p, unionPayload env cx.tagging t x.2.2 = .ok p → NF ((deAt env n).render (cx.inUnion env x.2.2)
        { ty := t, name := "fake_key", conv := "fake_key", src := .key (.dict .plain [(.str "fake_key", p)]) })) := by
    refine Ev.unique (fun ⟨_, _, _⟩ ⟨_, _, _⟩ hx hy => ?_) (fun ⟨ts, us, d⟩ hx => ?_)
    · obtain ⟨h1, _, h2, h3⟩ := hx
      obtain ⟨h1', _, h2', h3'⟩ := hy
      dsimp only at *
      rw [h1] at h1'; cases h1'; rw [h3] at h3'; cases h3'; rw [h2] at h2'; cases h2'; rfl
    · obtain ⟨h1, h0, h2, h3⟩ := hx
      dsimp only at *
      have hus : us = ts := hown ts (by rw [h1]; exact .refl) us h2
      subst hus
      refine Ev.list (fun t ht => Ev.unique (fun _ _ hx hy => ?_) (fun p hp => ?_))
      · rw [hx] at hy; cases hy; rfl
      · have hown' : OwnIn env (cx.inUnion env d).unions t := hown.part (s := t) (by rw [h1]; exact .union ht .refl)
        have hpl : Low H p ∧ (j = true → p = .none) := by
          rcases payload_cases hp with rfl | hc
          · exact ⟨hlow h3, fun hj => hnone hj _ h3⟩
          · refine ⟨(hlow h3).part hc, fun hj => ?_⟩
            rw [hnone hj _ h3] at hc; cases hc
        refine ih t j ?_ (cx.inUnion env d) _ rfl (fun _ => ⟨rfl, rfl⟩) hown' (fun _ h => by cases h) (reads_fake hpl.1 hpl.2)
        rw [h1]
        cases j with
        | false => exact .member ht
        | true => exact .memberNone ht (.inl h0)
  have e6 : Ev (fun n => ∀ x : Ty × Val × List Val,
      (((∃ k, a.ty = .list k x.1) ∨ (∃ k, a.ty = .set k x.1) ∨ a.ty = .deque x.1 ∨ a.ty = .tupleV x.1) ∧ a.data = .ok x.2.1 ∧ pyIter x.2.1 = .ok x.2.2) →
      ∀ y ∈ x.2.2, NF ((deAt env n).render cx { ty := x.1, name := "v", conv := "v", src := .val (.ok y), alias := a.alias, deser := a.deser })) := by
    refine Ev.unique (fun ⟨_, _, _⟩ ⟨_, _, _⟩ hx hy => ?_) (fun ⟨t, d, xs⟩ hx => ?_)
    · obtain ⟨h1, h2, h3⟩ := hx
      obtain ⟨h1', h2', h3'⟩ := hy
      dsimp only at *
      rw [h2] at h2'; cases h2'; rw [h3] at h3'; cases h3'
      rcases h1 with ⟨k, h1⟩ | ⟨k, h1⟩ | h1 | h1 <;> rw [h1] at h1' <;> rcases h1' with ⟨k, h1'⟩ | ⟨k, h1'⟩ | h1' | h1' <;> cases h1' <;> rfl
    · obtain ⟨h1, h2, h3⟩ := hx
      dsimp only at *
      have hj := hjf h2 h3
      subst hj
      have hw : PartOf t a.ty ∧ Rereads env b (t, false) (a.ty, false) := by
        rcases h1 with ⟨k, h1⟩ | ⟨k, h1⟩ | h1 | h1 <;> rw [h1]
        · exact ⟨.list .refl, .list⟩
        · exact ⟨.set .refl, .set⟩
        · exact ⟨.deque .refl, .deque⟩
        · exact ⟨.tupleV .refl, .tupleV⟩
      exact Ev.list (fun y hy => ih t false hw.2 cx _ rfl (fun h => ⟨(hb h).1, rfl⟩) (hown.part hw.1) hmg
        (reads_val .ok (fun v hv => by cases hv; exact ⟨(hlow h2).iter h3 hy, fun h => by cases h⟩)))
  have child : ∀ {t' nm x d}, PartOf t' a.ty → a.data = .ok d → Child x d →
      Ev (fun n => NF ((deAt env n).render cx { ty := t', name := nm, conv := nm, src := .val (.ok x), alias := a.alias, deser := a.deser })) := by
    intro t' nm x d hw hd hc
    obtain ⟨m, hm, hlx⟩ := (hlow hd).child hc
    exact lower m hm t' cx _ rfl (fun h => ⟨(hb h).1, rfl⟩) (hown.part hw) hmg (reads_val .ok (fun v hv => by cases hv; exact ⟨hlx, fun h => by cases h⟩))
  have e7 : Ev (fun n => ∀ x : Ty × Val × List (Val × Val), (a.ty = .counter x.1 ∧ a.data = .ok x.2.1 ∧ pyItems x.2.1 = .ok x.2.2) →
      ∀ kv ∈ x.2.2, NF ((deAt env n).render cx { ty := x.1, name := "k", conv := "k", src := .val (.ok kv.1), alias := a.alias, deser := a.deser })) := by
    refine Ev.unique (fun ⟨_, _, _⟩ ⟨_, _, _⟩ hx hy => ?_) (fun ⟨t, d, kvs⟩ hx => ?_)
    · obtain ⟨h1, h2, h3⟩ := hx
      obtain ⟨h1', h2', h3'⟩ := hy
      dsimp only at *
      rw [h1] at h1'; cases h1'; rw [h2] at h2'; cases h2'; rw [h3] at h3'; cases h3'; rfl
    · obtain ⟨h1, h2, h3⟩ := hx
      dsimp only at *
      exact Ev.list (fun kv hkv => child (by rw [h1]; exact .counter .refl) h2 (child_items h3 hkv).1)
  have e8 : Ev (fun n => ∀ x : MapK × Ty × Ty × Val × List (Val × Val), (a.ty = .dict x.1 x.2.1 x.2.2.1 ∧ a.data = .ok x.2.2.2.1 ∧ pyItems x.2.2.2.1 = .ok x.2.2.2.2) →
      ∀ kv ∈ x.2.2.2.2, NF ((deAt env n).render cx { ty := x.2.1, name := "k", conv := "k", src := .val (.ok kv.1), alias := a.alias, deser := a.deser }) ∧
        NF ((deAt env n).render cx { ty := x.2.2.1, name := "v", conv := "v", src := .val (.ok kv.2), alias := a.alias, deser := a.deser })) := by
    refine Ev.unique (fun ⟨_, _, _, _, _⟩ ⟨_, _, _, _, _⟩ hx hy => ?_) (fun ⟨k, kt, vt, d, kvs⟩ hx => ?_)
    · obtain ⟨h1, h2, h3⟩ := hx
      obtain ⟨h1', h2', h3'⟩ := hy
      dsimp only at *
      rw [h1] at h1'; cases h1'; rw [h2] at h2'; cases h2'; rw [h3] at h3'; cases h3'; rfl
    · obtain ⟨h1, h2, h3⟩ := hx
      dsimp only at *
      exact Ev.list (fun kv hkv => Ev.and (child (by rw [h1]; exact .key .refl) h2 (child_items h3 hkv).1)
        (child (by rw [h1]; exact .value .refl) h2 (child_items h3 hkv).2))
  have e9 : Ev (fun n => ∀ ts, a.ty = .tuple ts → ∀ it ∈ ts.zipIdx, NF ((deAt env n).render cx (tupleElem a it))) := by
    refine Ev.unique (fun _ _ hx hy => ?_) (fun ts hx => Ev.list (fun it hit => ?_))
    · rw [hx] at hy; cases hy; rfl
    · have hm := sizeOf_zipIdx hit
      have hnf' : NF (match a.data with
          | .ok d => pyIndex d it.2
          | .error e => .error e) := by
        split
        · exact nf_index
        · exact nf_of ‹_› hnf
      cases j with
      | false =>
        refine ih it.1 false (by rw [hx]; exact .tuple hm) cx _ rfl (fun h => ⟨(hb h).1, rfl⟩) (hown.part (by rw [hx]; exact .tuple hm .refl)) hmg
          (reads_val hnf' (fun v hv => ⟨?_, fun h => by cases h⟩))
        split at hv
        · exact (hlow ‹_›).index hv
        · cases hv
      | true =>
        refine emptyEnds it.1 cx _ rfl ⟨fun r hr => by cases hr; exact hnf', fun v hv => ?_⟩
        unfold Delivers tupleElem at hv
        dsimp only at hv
        split at hv
        · rename_i d hd
          rw [hnone rfl d hd] at hv; cases hv
        · cases hv
  have e10 : Ev (fun n => ∀ x : String × List String × Ty × Val, (a.ty = .tvar x.1 ∧ cx.tvars = some x.2.1 ∧
      getGenericArg cx.mg cx.mgVars cx.vta (findGenericArg x.2.1 x.1) = .ok x.2.2.1 ∧ a.data = .ok x.2.2.2) →
      NF ((deAt env n).fromObj a.src.isNamed (some cx.reuse) cx.numbers .external x.2.2.1 x.2.2.2)) := by
    refine Ev.unique (fun ⟨_, _, _, _⟩ ⟨_, _, _, _⟩ hx hy => ?_) (fun ⟨x, vars, t, d⟩ hx => ?_)
    · obtain ⟨h1, h2, h3, h4⟩ := hx
      obtain ⟨h1', h2', h3', h4'⟩ := hy
      dsimp only at *
      rw [h1] at h1'; cases h1'; rw [h2] at h2'; cases h2'; rw [h3] at h3'; cases h3'; rw [h4] at h4'; cases h4'; rfl
    · obtain ⟨h1, h2, h3, h4⟩ := hx
      dsimp only at *
      rcases generic_size hmg h3 with rfl | ⟨hs, hd⟩
      · exact fromAny
      · exact from' _ hs _ _ _ _ t d (fun h => (hb h).2) (Nat.le_refl _) hd (hlow h4)
  refine (((((((((e1.and e2).and e3).and e4).and e5).and e6).and e7).and e8).and e9).and e10).step (fun n h => ?_)
  obtain ⟨⟨⟨⟨⟨⟨⟨⟨⟨h1, h2⟩, h3⟩, h4⟩, h5⟩, h6⟩, h7⟩, h8⟩, h9⟩, h10⟩ := h
  rw [deAt_render]
  refine DeCalls.render ?_ hnf
  exact { genC := fun _ _ h => h1 ⟨_, _⟩ h, aliasC := fun _ _ h => h2 ⟨_, _⟩ h, clsC := fun _ _ h h' => h4 ⟨_, _⟩ ⟨h, h'⟩,
          optC := fun _ _ h h' h'' => h3 ⟨_, _⟩ ⟨h, h', h''⟩, unionC := fun _ _ _ h h' h'' h''' => h5 ⟨_, _, _⟩ ⟨h, h', h'', h'''⟩,
          elemC := fun _ _ _ h h' h'' => h6 ⟨_, _, _⟩ ⟨h, h', h''⟩, counterC := fun _ _ _ h h' h'' => h7 ⟨_, _, _⟩ ⟨h, h', h''⟩,
          dictC := fun _ _ _ _ _ h h' h'' => h8 ⟨_, _, _, _, _⟩ ⟨h, h', h''⟩, tupleC := h9,
          tvarC := fun _ _ _ _ h h' h'' h''' => h10 ⟨_, _, _, _⟩ ⟨h, h', h'', h'''⟩ }
theorem nf_catchKey {α : Type} {cv} {x : Res α} (h : NF x) : NF (catchKey cv x) := by
  unfold catchKey
  split
  · exact nf_err rfl
  · exact h

theorem clsStep {b : Bool} {H M : Nat} {c : ClassId} {j : Bool} (hU : DistinctUnions env) (hT : PlainTransparent env)
    (ih : ∀ t' j', Rereads env b (t', j') (.cls c, j) → RenderC env b H M t' j')
    (lower : ∀ H', H = H' + 1 → ∀ t', RenderC env b H' M t' false) : ClsC env b H M c j := by
  intro named o data hnamed hmg hlow hnone
  cases hc : env.cls c with
  | none => exact Ev.step (Ev.of_all (P := fun _ => True) (fun _ => trivial)) (fun n _ => by rw [deAt_cls]; simp only [deClsF, hc]; exact nf_py)
  | some cd =>
  have hown : ∀ f ∈ cd.fields, OwnIn env (clsDeCx env c cd named o data).unions f.ty := by
    intro f hf ts hts us hus
    refine hU c ts ⟨c, cd, f, hc, hf, hts⟩ us (unionsOf_iff.1 (findUnion_mem hus)) ?_
    unfold findUnion at hus
    have := List.find?_some hus
    simpa using this
  suffices hargs : Ev (fun n => NF (deArgs env (deAt env n) named c cd o data)) by
    refine hargs.step (fun n h => ?_)
    rw [deAt_cls]
    simp only [deClsF, hc]
    split
    · exact nf_of ‹_› h
    · exact nf_construct
  cases ht : cd.transparent with
  | true =>
    have hf : Ev (fun n => ∀ f ∈ cd.fields, NF ((deAt env n).render (clsDeCx env c cd named o data) (transpArg named f data))) := by
      refine Ev.list (fun f hf => ?_)
      have hff := hT c cd f hc ht hf
      have hdel : ∀ v, Delivers (transpArg named f data) v → v = data := by
        intro v hv
        unfold Delivers transpArg at hv
        cases named with
        | true =>
          dsimp only at hv
          simp only [if_true] at hv
          rcases hv with h | ⟨_, h⟩ | ⟨h, _⟩
          · simp [pyGetItem, getStr] at h; exact h.symm
          · simp [pyGet, getStr] at h; exact h.symm
          · rw [hff] at h; cases h
        | false =>
          dsimp only at hv
          simp only [Bool.false_eq_true, if_false] at hv
          rcases hv with h | ⟨h, _⟩
          · simp [pyIndex] at h; exact h.symm
          · rw [hff] at h; cases h
      refine ih f.ty j (.transparent hc ht hf) _ _ rfl (fun hb => ?_) (hown f hf) hmg ⟨fun r hr => ?_, fun v hv => ?_, fun hj => ⟨hff, fun v hv => ?_⟩, fun h => absurd rfl h⟩
      · have := hnamed hb; subst this; exact ⟨rfl, rfl⟩
      · unfold transpArg at hr; cases named <;> cases hr
      · rw [hdel v hv]; exact hlow
      · rw [hdel v hv]; exact hnone hj
    refine hf.mono (fun n h => ?_)
    unfold deArgs
    dsimp only
    rw [if_pos ht]
    split
    · exact nf_decor
    · rename_i f fs hfs
      have : f ∈ cd.fields := (List.mem_filter.1 (hfs ▸ List.mem_cons_self : f ∈ cd.fields.filter (·.renderable))).1
      split
      · exact nf_of ‹_› (h f this)
      · split <;> exact .ok
  | false =>
  cases named with
  | true =>
    have hf : Ev (fun n => ∀ f ∈ cd.fields, ∀ ex, NF (deField env (deAt env n) (clsDeCx env c cd true o data) c cd ex data f)) := by
      refine Ev.list (fun f hf => ?_)
      have key : ∀ d, (f.flatten = true → Low H d) → (f.flatten = false → d = data) →
          Ev (fun n => NF ((deAt env n).render (clsDeCx env c cd true o data)
            { ty := f.ty, name := f.name, conv := f.conv cd.deCase, src := .key d, alias := f.alias, deser := f.deserializer, flatten := f.flatten, dflt := f.dflt })) := by
        intro d h1 h2
        cases hfl : f.flatten with
        | true =>
          refine ih f.ty false (.flatten hc ht hf hfl) _ _ rfl (fun _ => ⟨rfl, rfl⟩) (hown f hf) hmg
            ⟨fun r hr => (by cases hr), fun v hv => ?_, fun hj => (by cases hj), fun _ d _ h => by cases h⟩
          rcases hv with h | ⟨_, h⟩ | ⟨_, h⟩
          · exact (h1 hfl).part (child_getItem h)
          · rcases get_cases h with h | ⟨rfl, _⟩
            · exact (h1 hfl).part (child_getItem h)
            · exact low_none
          · rw [h]; exact h1 hfl
        | false =>
          have hd := h2 hfl
          subst hd
          cases hg : pyGetItem d (f.conv cd.deCase) with
          | ok v =>
            obtain ⟨m, hm, hlv⟩ := hlow.child (child_getItem hg)
            refine lower m hm f.ty _ _ rfl (fun _ => ⟨rfl, rfl⟩) (hown f hf) hmg
              ⟨fun r hr => (by cases hr), fun w hw => ?_, fun hj => (by cases hj), fun _ x hx _ => by cases hx; rfl⟩
            rcases hw with h | ⟨_, h⟩ | ⟨h, _⟩
            · dsimp only at h; rw [hg] at h; cases h; exact hlv
            · dsimp only at h
              rcases get_cases h with h | ⟨rfl, _⟩
              · rw [hg] at h; cases h; exact hlv
              · exact low_none
            · cases h
          | error e =>
            cases Classical.em (Nullable f.ty ∧ ∃ v, pyGet d (f.conv cd.deCase) = .ok v) with
            | inl h =>
              obtain ⟨hn, v, hv⟩ := h
              cases hj : j with
              | true => rw [hnone hj] at hv; cases hv
              | false =>
                have hvn : ∀ w, Delivers { ty := f.ty, name := f.name, conv := f.conv cd.deCase, src := .key d, alias := f.alias, deser := f.deserializer, flatten := false, dflt := f.dflt } w → w = .none := by
                  intro w hw
                  rcases hw with h | ⟨_, h⟩ | ⟨h, _⟩
                  · dsimp only at h; rw [hg] at h; cases h
                  · dsimp only at h
                    rcases get_cases h with h | ⟨rfl, _⟩
                    · rw [hg] at h; cases h
                    · rfl
                  · cases h
                refine ih f.ty true (hj ▸ .missing hc ht hf hn) _ _ rfl (fun _ => ⟨rfl, rfl⟩) (hown f hf) hmg
                  ⟨fun r hr => (by cases hr), fun w hw => ?_, fun _ => ⟨rfl, hvn⟩, fun _ x hx _ => by cases hx; rfl⟩
                rw [hvn w hw]; exact low_none
            | inr h =>
              refine emptyEnds f.ty _ _ rfl ⟨fun r hr => (by cases hr), fun w hw => ?_⟩
              rcases hw with h' | ⟨h1, h2⟩ | ⟨h', _⟩
              · dsimp only at h'; rw [hg] at h'; cases h'
              · exact h ⟨h1, _, h2⟩
              · cases h'
      have hvar : ∀ d, (match f.flatChild with
          | some ch => project env data (env.known ch) (env.known c) (env.flatDict ch) cd.hasFlatDict
          | Option.none => .ok data) = .ok d → (f.flatten = true → Low H d) ∧ (f.flatten = false → d = data) := by
        intro d hd
        split at hd
        · rename_i ch hch
          refine ⟨fun _ => low_project hlow hd, fun h => ?_⟩
          unfold FieldDef.flatChild at hch
          rw [h] at hch
          cases hch
        · cases hd; exact ⟨fun _ => hlow, fun _ => rfl⟩
      have hren : Ev (fun n => ∀ d, (match f.flatChild with
          | some ch => project env data (env.known ch) (env.known c) (env.flatDict ch) cd.hasFlatDict
          | Option.none => .ok data) = .ok d → NF ((deAt env n).render (clsDeCx env c cd true o data)
            { ty := f.ty, name := f.name, conv := f.conv cd.deCase, src := .key d, alias := f.alias, deser := f.deserializer, flatten := f.flatten, dflt := f.dflt })) :=
        Ev.unique (fun _ _ hx hy => by rw [hx] at hy; cases hy; rfl) (fun d hd => key d (hvar d hd).1 (hvar d hd).2)
      refine hren.mono (fun n h ex => ?_)
      unfold deField
      dsimp only
      split
      · exact .ok
      · split
        · rename_i e he
          split at he
          · exact nf_of he nf_project
          · cases he
        · rename_i d hd
          have := h d (by rw [← hd]; rfl)
          split
          · exact this
          · exact nf_catchKey this
    refine hf.mono (fun n h => ?_)
    unfold deArgs
    dsimp only
    rw [if_neg (by rw [ht]; exact Bool.false_ne_true), if_pos rfl]
    split
    · exact nf_of ‹_› nf_unknown
    · exact nf_serde
    · unfold deNamedArgs
      split
      · exact nf_of ‹_› nf_extra
      · split
        · exact nf_of ‹_› (nf_mapR (fun f hf => h f (List.mem_filter.1 hf).1 _))
        · exact nf_splitArgs
  | false =>
    have hbf : b = false := by
      cases b with
      | false => rfl
      | true => exact absurd (hnamed rfl) (by decide)
    have hf : Ev (fun n => ∀ fi ∈ (cd.fields.filter (·.renderable)).zipIdx, NF ((deAt env n).render (clsDeCx env c cd false o data)
        { ty := fi.1.ty, name := fi.1.name, conv := fi.1.name, src := .idx data fi.2, alias := fi.1.alias, deser := fi.1.deserializer, flatten := fi.1.flatten })) := by
      refine Ev.list (fun fi hfi => ?_)
      have hf : fi.1 ∈ cd.fields := (List.mem_filter.1 (List.fst_mem_of_mem_zipIdx hfi)).1
      cases j with
      | true =>
        have := hnone rfl
        subst this
        refine emptyEnds _ _ _ rfl ⟨fun r hr => (by cases hr), fun v hv => ?_⟩
        rcases hv with h | ⟨_, h⟩ <;> cases h
      | false =>
        refine ih _ false (.position hbf hc ht hf) _ _ rfl (fun h => by rw [hbf] at h; cases h) (hown _ hf) hmg
          ⟨fun r hr => (by cases hr), fun v hv => ?_, fun hj => (by cases hj), fun _ d hd => by cases hd⟩
        rcases hv with h | ⟨_, h⟩
        · exact hlow.index h
        · exact low_slice hlow h
    refine hf.mono (fun n h => ?_)
    unfold deArgs
    dsimp only
    rw [if_neg (by rw [ht]; exact Bool.false_ne_true), if_neg Bool.false_ne_true]
    split
    · exact nf_of ‹_› (nf_mapR h)
    · exact .ok

/-! ## `from_obj` -/

/-- Annotations directly inside one. -/
def parts : Ty → List Ty
  | .union ts => ts
  | .list _ t => [t]
  | .set _ t => [t]
  | .deque t => [t]
  | .counter t => [t]
  | .tuple ts => ts
  | .dict _ kt vt => [kt, vt]
  | _ => []

/-- The data and what is directly inside it. -/
def reach (o : Val) : List Val :=
  o :: ((match pyIter o with
    | .ok xs => xs
    | .error _ => []) ++ (match pyItems o with
    | .ok kvs => kvs.map (·.1) ++ kvs.map (·.2)
    | .error _ => []))

theorem reach_iter {o xs x} (h : pyIter o = .ok xs) (hx : x ∈ xs) : x ∈ reach o := by
  unfold reach; rw [h]; simp [hx]
theorem reach_items {o kvs} {e : Val × Val} (h : pyItems o = .ok kvs) (he : e ∈ kvs) : e.1 ∈ reach o ∧ e.2 ∈ reach o := by
  unfold reach; rw [h]
  constructor
  · refine List.mem_cons_of_mem _ (List.mem_append_right _ (List.mem_append_left _ (List.mem_map.2 ⟨e, he, rfl⟩)))
  · refine List.mem_cons_of_mem _ (List.mem_append_right _ (List.mem_append_right _ (List.mem_map.2 ⟨e, he, rfl⟩)))

theorem Low.reach {n o x} (h : Low n o) (hx : x ∈ Verif.reach o) : Low n x := by
  unfold Verif.reach at hx
  rcases List.mem_cons.1 hx with rfl | hx
  · exact h
  · rcases List.mem_append.1 hx with hx | hx
    · split at hx
      · exact h.iter ‹_› hx
      · cases hx
    · split at hx
      · rename_i kvs hk
        rcases List.mem_append.1 hx with hx | hx <;> obtain ⟨e, he, rfl⟩ := List.mem_map.1 hx
        · exact h.part (child_items hk he).1
        · exact h.part (child_items hk he).2
      · cases hx

theorem parts_size {s t : Ty} (h : s ∈ parts t) : sizeOf s < sizeOf t := by
  cases t <;> simp only [parts] at h
  all_goals first
    | (cases h; done)
    | (have := size_mem h; simp only [Ty.union.sizeOf_spec, Ty.tuple.sizeOf_spec]; omega)
    | (simp at h; subst h; simp; try omega)
    | (simp at h; rcases h with rfl | rfl <;> simp <;> omega)

theorem parts_part {s t : Ty} (h : s ∈ parts t) : PartOf s t := by
  cases t <;> simp only [parts] at h
  all_goals first
    | (cases h; done)
    | exact .union h .refl
    | exact .tuple h .refl
    | (simp at h; subst h; first | exact .list .refl | exact .set .refl | exact .deque .refl | exact .counter .refl)
    | (simp at h; rcases h with rfl | rfl; exact .key .refl; exact .value .refl)

theorem Spec.Inside.up {s t u} (h : Inside s t) (h' : PartOf t u) : Inside s u := by
  cases h with
  | within h => exact .within (h.trans h')
  | arg h1 h2 h3 => exact .arg (h1.trans h') h2 h3

theorem nf_fromObjBody {r : DeRec} {named re nu mg c o} (hc : ∀ k, c = .cls k → NF (r.cls named k { mg := keepGen mg, reuse := re, numbers := nu } o))
    (h : ∀ t ∈ parts c, ∀ x ∈ reach o, NF (r.fromObj named re nu .external t x)) : NF (fromObjBody env r named re nu mg c o) := by
  have elems : ∀ {α : Type} {t} {k : List Val → Res α}, t ∈ parts c → (∀ ys, NF (k ys)) → NF (match pyIter o with
      | .ok xs => match mapR (r.fromObj named re nu .external t) xs with
        | .ok ys => k ys
        | .error e => .error e
      | .error e => .error e) := by
    intro α t k ht hk
    split
    · rename_i xs hxs
      split
      · exact hk _
      · exact nf_of ‹_› (nf_mapR (fun x hx => h t ht x (reach_iter hxs hx)))
    · exact nf_of ‹_› nf_iter
  have iters : ∀ {α : Type} {k : List Val → Res α}, (∀ ys, NF (k ys)) → NF (match pyIter o with
      | .ok xs => k xs
      | .error e => .error e) := by
    intro α k hk
    split
    · exact hk _
    · exact nf_of ‹_› nf_iter
  unfold fromObjBody
  dsimp only
  split
  · exact nf_liftP
  · split
    · exact hc _ rfl
    · split
      · split
        · exact .ok
        · exact h _ List.mem_cons_self _ (List.mem_cons_self)
      · exact nf_py
    · exact iters (fun _ => .ok)
    · exact elems (by simp [parts]) (fun _ => .ok)
    · exact iters (fun _ => nf_mkSet)
    · exact elems (by simp [parts]) (fun _ => nf_mkSet)
    · exact iters (fun _ => .ok)
    · exact elems (by simp [parts]) (fun _ => .ok)
    · exact nf_counter
    · split
      · rename_i kvs hk
        split
        · exact nf_mkDict
        · refine nf_of ‹_› (nf_mapR (fun e he => ?_))
          split
          · exact .ok
          · exact nf_of ‹_› (h _ (by simp [parts]) _ (reach_items hk he).1)
      · exact nf_of ‹_› nf_items
    · exact iters (fun _ => .ok)
    · exact iters (fun _ => .ok)
    · split
      · rename_i xs hxs
        split
        · exact .ok
        · refine nf_of ‹_› (nf_mapR (fun xi hxi => ?_))
          split
          · exact h _ (List.mem_of_getElem? ‹_›) _ (reach_iter hxs (List.fst_mem_of_mem_zipIdx hxi))
          · exact nf_py
      · exact nf_of ‹_› nf_iter
    · exact nf_py
    · exact .ok
    · split
      · rename_i kvs hk
        split
        · exact nf_mkDict
        · refine nf_of ‹_› (nf_mapR (fun e he => ?_))
          split
          · exact nf_of ‹_› (h _ (by simp [parts]) _ (reach_items hk he).1)
          · split
            · exact .ok
            · exact nf_of ‹_› (h _ (by simp [parts]) _ (reach_items hk he).2)
      · exact nf_of ‹_› nf_items
    all_goals first
      | exact nf_liftP
      | exact .ok
      | exact nf_py
      | (split <;> first | exact nf_liftP | exact nf_py | exact .ok)

theorem own_inside {t} (h : DistinctUnionsIn env t) : OwnIn env (env.unionsOfTy t) t := by
  intro ts hts us hus
  refine h ts us hts (unionsIn_sound (fun c us h => ?_) t us (findUnion_mem hus)) ?_
  · exact unionsOf_iff.1 h
  · unfold findUnion at hus
    have := List.find?_some hus
    simpa using this

/-- The context of `cacheDeUnion`. -/
def cacheDeCx (env : Env) (ts : List Ty) (tg : Tagging) (nu : Option (Val → Except PErr Val)) (d : Val) : DeCx :=
  { named := true, data := d, reuse := true, numbers := nu, mg := Option.none, mgVars := Option.none, vta := Option.none, coerce := false,
    unions := env.unionsOfTy (.union ts), lits := env.litsOfTy (.union ts), tagging := tg, des := env.gde, tvars := Option.none }

/-- `from_obj` after an alias is resolved. -/
def fromObjAt (env : Env) (r : DeRec) (named : Bool) (re : Option Bool) (nu : Option (Val → Except PErr Val)) (tg : Tagging) (t : Ty) (d : Val) : Res Val :=
  match t with
  | .gen k args => wrapUser (fromObjBody env r named re nu (.gen k args) (.cls k) d)
  | .union ts =>
    if (Ty.union ts).isOpt then wrapUser (fromObjBody env r named re nu (.union ts) (.union ts) d)
    else cacheDeUnion env r ts tg nu d
  | c => wrapUser (fromObjBody env r named re nu c c d)

theorem fromStep {b : Bool} {H S : Nat} (hcls : ∀ c, ClsC env b H S c false) (hren : ∀ t, RenderC env b H S t false)
    (from' : ∀ S', S' < S → FromC env b H S') : FromC env b H S := by
  -- after an alias is resolved
  have main : ∀ named re nu tg t d, (b = true → named = true) → sizeOf t ≤ S → DistinctInside env t → Low H d →
      Ev (fun n => NF (fromObjAt env (deAt env n) named re nu tg t d)) := by
    intro named re nu tg t d hnamed hs hdi hlow
    have hparts : Ev (fun n => ∀ s ∈ parts t, ∀ x ∈ reach d, NF ((deAt env n).fromObj named re nu .external s x)) := by
      refine Ev.list (fun s hs' => Ev.list (fun x hx => ?_))
      have := parts_size hs'
      exact from' _ (by omega) named re nu .external s x hnamed (Nat.le_refl _) (fun u hu => hdi u (hu.up (parts_part hs'))) (hlow.reach hx)
    have hbody : (∀ k, t ≠ .cls k) → Ev (fun n => NF (wrapUser (fromObjBody env (deAt env n) named re nu t t d))) :=
      fun hnc => hparts.mono (fun n h => nf_wrapUser (nf_fromObjBody (fun k hk => absurd hk (hnc k)) h))
    have hclsb : ∀ k mg, MgOk env S (keepGen mg) → Ev (fun n => NF (wrapUser (fromObjBody env (deAt env n) named re nu mg (.cls k) d))) := by
      intro k mg hmg
      refine (hcls k named { mg := keepGen mg, reuse := re, numbers := nu } d hnamed hmg hlow (fun h => by cases h)).mono (fun n h => ?_)
      exact nf_wrapUser (nf_fromObjBody (fun k' hk' => by cases hk'; exact h) (fun s hs' => by cases hs'))
    cases t with
    | gen k args =>
      dsimp only [fromObjAt]
      refine hclsb k _ (fun t' ht' => ?_)
      cases ht'
      exact ⟨hs, hdi⟩
    | cls k =>
      dsimp only [fromObjAt]
      exact hclsb k _ (fun t' ht' => by cases ht')
    | union ts =>
      dsimp only [fromObjAt]
      cases ho : (Ty.union ts).isOpt with
      | true =>
        simp only [if_true]
        exact hbody (fun k h => by cases h)
      | false =>
        simp only [Bool.false_eq_true, if_false]
        have hown := own_inside (hdi (.union ts) (.within .refl))
        have hm : Ev (fun n => ∀ t ∈ ts, ∀ p, unionPayload env tg t d = .ok p → NF ((deAt env n).render (cacheDeCx env ts tg nu d)
            { ty := t, name := "fake_key", conv := "fake_key", src := .key (.dict .plain [(.str "fake_key", p)]) })) := by
          refine Ev.list (fun t ht => Ev.unique (fun _ _ hx hy => ?_) (fun p hp => ?_))
          · rw [hx] at hy; cases hy; rfl
          · refine hren t (cacheDeCx env ts tg nu d) _ rfl (fun _ => ⟨rfl, rfl⟩) (hown.part (.union ht .refl)) (fun _ h => by cases h) (reads_fake ?_ (fun h => by cases h))
            rcases payload_cases hp with rfl | hc
            · exact hlow
            · exact hlow.part hc
        refine hm.mono (fun n h => ?_)
        unfold cacheDeUnion
        split
        · rename_i us hus
          have := hown ts .refl us hus
          subst this
          exact nf_deUnion h
        · exact nf_py
    | _ => dsimp only [fromObjAt]; exact hbody (fun k h => by cases h)
  intro named re nu tg t d hnamed hs hdi hlow
  have key : ∀ t', (match t with
      | .alias _ t => t
      | c => c) = t' → Ev (fun n => NF ((deAt env n).fromObj named re nu tg t d)) := by
    intro t' ht'
    have h' : sizeOf t' ≤ S ∧ DistinctInside env t' := by
      split at ht'
      · subst ht'
        simp at hs
        exact ⟨by omega, fun u hu => hdi u (hu.up (.alias .refl))⟩
      · subst ht'; exact ⟨hs, hdi⟩
    refine (main named re nu tg t' d hnamed h'.1 h'.2 hlow).step (fun n h => ?_)
    have : (deAt env (n + 1)).fromObj named re nu tg t d = if typeIs d t' = true then .ok d else fromObjAt env (deAt env n) named re nu tg t' d := by
      subst ht'
      cases t <;> rfl
    rw [this]
    split
    · exact .ok
    · exact h
  exact key _ rfl

/-! ## Together -/

theorem deLevel {b : Bool} {H : Nat} (hW : WellFounded (Rereads env b)) (hU : DistinctUnions env) (hT : PlainTransparent env)
    (lower : ∀ H', H = H' + 1 → ∀ M t', RenderC env b H' M t' false) :
    ∀ M, (∀ t j, RenderC env b H M t j) ∧ (∀ c j, ClsC env b H M c j) ∧ FromC env b H M := by
  intro M
  induction M using Nat.strongRecOn with
  | ind M IHM =>
  have from' : ∀ S, S < M → FromC env b H S := fun S hS => (IHM S hS).2.2
  have both : ∀ x : Ty × Bool, RenderC env b H M x.1 x.2 ∧ ∀ c, x.1 = .cls c → ClsC env b H M c x.2 := by
    intro x
    induction x using hW.induction with
    | _ x ih =>
    have hc : ∀ c, x.1 = .cls c → ClsC env b H M c x.2 := by
      intro c hc
      obtain ⟨t, j⟩ := x
      dsimp only at hc ⊢
      subst hc
      exact clsStep hU hT (fun t' j' h => (ih (t', j') h).1) (fun H' h => lower H' h M)
    exact ⟨renderStep (fun t' j' h => (ih (t', j') h).1) hc (fun H' h => lower H' h M) from', hc⟩
  have hr : ∀ t j, RenderC env b H M t j := fun t j => (both (t, j)).1
  have hcl : ∀ c j, ClsC env b H M c j := fun c j => (both (.cls c, j)).2 c rfl
  exact ⟨hr, hcl, fromStep (fun c => hcl c false) (fun t => hr t false) from'⟩

theorem deEnds {b : Bool} (hW : WellFounded (Rereads env b)) (hU : DistinctUnions env) (hT : PlainTransparent env) :
    ∀ H M, (∀ t j, RenderC env b H M t j) ∧ (∀ c j, ClsC env b H M c j) ∧ FromC env b H M := by
  intro H
  induction H with
  | zero => exact deLevel hW hU hT (fun H' h => by cases h)
  | succ H IH => exact deLevel hW hU hT (fun H' h M t => by cases h; exact (IH M).1 t false)

end

end Verif
