import Verif.Lemmas.Names
import Verif.Spec.Frame
/-!
# What the dict template reads of its input
-/

namespace Verif
open Spec

/-! ## Arguments without aliases -/

/-- Two sources that yield the same data, for an annotation that does (`true`) or does not admit None. -/
inductive SrcSim : String → Src → String → Src → Prop
  | key {conv conv' k k' kvs kvs'} : getStr conv kvs = getStr conv' kvs' → SrcSim conv (.key (.dict k kvs)) conv' (.key (.dict k' kvs'))
  | val {conv conv' r} : SrcSim conv (.val r) conv' (.val r)
  | idx {conv conv' d i d' i'} : pyIndex d i = pyIndex d' i' → SrcSim conv (.idx d i) conv' (.idx d' i')

/-- Arguments that are rendered alike: no aliases, not flattened, same data. -/
structure ArgSim (a a' : DeArg) : Prop where
  ty : a'.ty = a.ty
  deser : a'.deser = a.deser
  dflt : a'.dflt = a.dflt
  tyArgs : a'.tyArgs = a.tyArgs
  alias : a.alias = []
  alias' : a'.alias = []
  flatten : a.flatten = false
  flatten' : a'.flatten = false
  src : SrcSim a.conv a.src a'.conv a'.src

theorem data_sim {a a' : DeArg} (h : ArgSim a a') : a'.data = a.data := by
  obtain ⟨ty, name, conv, src, al, deser, fl, dflt, ta⟩ := a
  obtain ⟨ty', name', conv', src', al', deser', fl', dflt', ta'⟩ := a'
  obtain ⟨rfl, _, _, _, _, _, _, _, hs⟩ := h
  unfold DeArg.data
  dsimp only at hs ⊢
  cases hs with
  | key hk => simp only [pyGet, pyGetItem, hk]
  | val => rfl
  | idx h => exact h.symm

/-- All entry points respect `ArgSim` and ignore the function's `data`. -/
def RenderSim (r : DeRec) : Prop := ∀ cx x a a', ArgSim a a' → r.render { cx with data := x } a' = r.render cx a

theorem primData_sim {cx : DeCx} {x a a'} (h : ArgSim a a') : primData { cx with data := x } a' = primData cx a := by
  unfold primData
  rw [h.alias, h.alias']
  exact data_sim h

theorem optExists_sim {env : Env} {cx : DeCx} {x a a' t} (h : ArgSim a a') :
    optExists env { cx with data := x } a' t = optExists env cx a t := by
  unfold optExists
  rw [h.alias, h.alias', h.flatten, h.flatten', data_sim h]
  have hs := h.src
  revert hs
  generalize a.src = s
  generalize a'.src = s'
  intro hs
  cases hs with
  | key hk => simp only [pyGet, hk]; rfl
  | val => rfl
  | idx => rfl

theorem dfltExists_sim {env : Env} {a a' k k' kvs kvs'} (h : ArgSim a a') (hk : getStr a.conv kvs = getStr a'.conv kvs') :
    dfltExists env a' (.dict k' kvs') = dfltExists env a (.dict k kvs) := by
  unfold dfltExists
  rw [h.alias, h.alias', h.flatten, h.flatten']
  simp [pyIn, hk]

theorem deBody_sim {env : Env} {r : DeRec} (hr : RenderSim r) : ∀ cx x a a', ArgSim a a' →
    deBody env r { cx with data := x } a' = deBody env r cx a := by
  intro cx x a a' h
  have h1 := data_sim h
  have h2 := @primData_sim cx x _ _ h
  have h3 := fun t => @optExists_sim env cx x _ _ t h
  obtain ⟨ty, name, conv, src, al, deser, fl, dflt, ta⟩ := a
  obtain ⟨ty', name', conv', src', al', deser', fl', dflt', ta'⟩ := a'
  obtain ⟨e1, e2, e3, e4, e5, e6, e7, e8, hs⟩ := h
  dsimp only at e1 e2 e3 e4 e5 e6 e7 e8 hs
  subst e1 e2 e3 e4 e5 e6 e7 e8
  have hel : ∀ (t : Ty) (nm : String) (y : Res Val),
      r.render { cx with data := x } { ty := t, name := nm, conv := nm, src := .val y, alias := [], deser := deser' } =
      r.render cx { ty := t, name := nm, conv := nm, src := .val y, alias := [], deser := deser' } := by
    intro t nm y
    exact hr cx x _ _ ⟨rfl, rfl, rfl, rfl, rfl, rfl, rfl, rfl, .val⟩
  have hty : ∀ (t : Ty) d ta,
      r.render { cx with data := x } { ty := t, name := name', conv := conv', src := src', alias := [], deser := deser', dflt := d, tyArgs := ta } =
      r.render cx { ty := t, name := name, conv := conv, src := src, alias := [], deser := deser', dflt := d, tyArgs := ta } := by
    intro t d ta
    exact hr cx x _ _ ⟨rfl, rfl, rfl, rfl, rfl, rfl, rfl, rfl, hs⟩
  have hsrc : src'.isNamed = src.isNamed := by cases hs <;> rfl
  have hu : ∀ d, DeCx.inUnion { cx with data := x } env d = DeCx.inUnion cx env d := fun _ => rfl
  have hp : pickDe cx.des { ty := ty', name := name', conv := conv', src := src', alias := [], deser := deser', dflt := dflt', tyArgs := ta' } =
      pickDe cx.des { ty := ty', name := name, conv := conv, src := src, alias := [], deser := deser', dflt := dflt', tyArgs := ta' } := rfl
  unfold deBody
  dsimp only at h1 h2 h3 hel hty hsrc hu hp ⊢
  simp only [hel, hty, h1, h2, h3, hsrc, hu, hp, Bool.false_eq_true, if_false]

theorem renderF_sim {env : Env} {r : DeRec} (hr : RenderSim r) : ∀ cx x a a', ArgSim a a' →
    deRenderF env r { cx with data := x } a' = deRenderF env r cx a := by
  intro cx x a a' h
  unfold deRenderF
  rw [h.dflt, deBody_sim hr cx x a a' h]
  have hs := h.src
  cases hdf : a.dflt with
  | none => cases hsa : a.src <;> cases hsa' : a'.src <;> rfl
  | some dv =>
    cases hsa : a.src <;> cases hsa' : a'.src <;> rw [hsa, hsa'] at hs <;> cases hs
    · rename_i k k' _ _ hk
      dsimp only
      rw [dfltExists_sim (k := k) (k' := k') h hk]

/-- Rendering an argument without aliases depends on the input only through the entry under its wire name. -/
theorem render_sim (env : Env) (n : Nat) : RenderSim (deAt env n) := by
  induction n with
  | zero => intro cx x a a' _; rfl
  | succ n ih => exact renderF_sim ih

/-! ## Arguments with aliases -/

/-- Both inputs hold the same under each of the given names. -/
def Agree (ks : String → Prop) (kvs kvs' : List (Val × Val)) : Prop := ∀ k, ks k → getStr k kvs' = getStr k kvs

theorem getByAliases_agree {k k' kvs kvs'} {ns : List String} (h : ∀ n ∈ ns, getStr n kvs' = getStr n kvs) :
    getByAliases (.dict k' kvs') ns = getByAliases (.dict k kvs) ns := by
  induction ns with
  | nil => rfl
  | cons n ns ih =>
    have hn := h n (by simp)
    unfold getByAliases
    simp only [pyIn, pyGetItem, hn]
    rw [ih (fun m hm => h m (by simp [hm]))]

theorem existsByAliases_agree {k k' kvs kvs'} {ns : List String} (h : ∀ n ∈ ns, getStr n kvs' = getStr n kvs) :
    existsByAliases (.dict k' kvs') ns = existsByAliases (.dict k kvs) ns := by
  induction ns with
  | nil => rfl
  | cons n ns ih =>
    have hn := h n (by simp)
    unfold existsByAliases
    simp only [pyIn, hn]
    rw [ih (fun m hm => h m (by simp [hm]))]

section Alias
variable {env : Env} {r : DeRec} {cx : DeCx} {a : DeArg} {k k' : DictK} {kvs kvs' : List (Val × Val)}

theorem data_agree (hc : getStr a.conv kvs' = getStr a.conv kvs) :
    DeArg.data { a with src := .key (.dict k' kvs') } = DeArg.data { a with src := .key (.dict k kvs) } := by
  unfold DeArg.data
  simp only [pyGet, pyGetItem, hc]

theorem primData_agree (hc : getStr a.conv kvs' = getStr a.conv kvs)
    (ha : a.alias ≠ [] → ∀ n ∈ a.name :: a.alias, getStr n kvs' = getStr n kvs) :
    primData { cx with data := .dict k' kvs' } { a with src := .key (.dict k' kvs') } =
      primData { cx with data := .dict k kvs } { a with src := .key (.dict k kvs) } := by
  unfold primData
  dsimp only
  cases hal : a.alias with
  | nil =>
    have := @data_agree a k k' kvs kvs' hc
    rw [hal] at this
    exact this
  | cons x xs =>
    dsimp only
    rw [← hal, getByAliases_agree (k := k) (ha (by simp [hal]))]

theorem optExists_agree {t : Ty} (hf : a.flatten = false) (hc : getStr a.conv kvs' = getStr a.conv kvs)
    (ha : a.alias ≠ [] → ∀ n ∈ a.name :: a.alias, getStr n kvs' = getStr n kvs) :
    optExists env { cx with data := .dict k' kvs' } { a with src := .key (.dict k' kvs') } t =
      optExists env { cx with data := .dict k kvs } { a with src := .key (.dict k kvs) } t := by
  unfold optExists
  dsimp only
  rw [hf]
  simp only [Bool.false_eq_true, if_false]
  cases hal : a.alias with
  | nil => simp only [pyGet, hc]
  | cons x xs =>
    dsimp only
    rw [← hal, getByAliases_agree (k := k)]
    intro n hn
    rw [List.mem_cons] at hn
    rcases hn with rfl | hn
    · exact hc
    · exact ha (by simp [hal]) n (by simp [hn])

theorem dfltExists_agree (hf : a.flatten = false) (hc : getStr a.conv kvs' = getStr a.conv kvs)
    (ha : a.alias ≠ [] → ∀ n ∈ a.name :: a.alias, getStr n kvs' = getStr n kvs) :
    dfltExists env { a with src := .key (.dict k' kvs') } (.dict k' kvs') =
      dfltExists env { a with src := .key (.dict k kvs) } (.dict k kvs) := by
  unfold dfltExists
  dsimp only
  rw [hf]
  simp only [Bool.false_eq_true, if_false]
  cases hal : a.alias with
  | nil => simp only [pyIn, hc]
  | cons x xs =>
    dsimp only
    rw [← hal, existsByAliases_agree (k := k) (ha (by simp [hal]))]

end Alias

/-- A primitive, NewType or enum argument. -/
def BaseTy : Ty → Prop
  | .prim _ => True
  | .newType _ _ => True
  | .enum _ => True
  | _ => False

theorem deBody_base {env : Env} {r : DeRec} {cx : DeCx} {a : DeArg} {k k' kvs kvs'} (hb : BaseTy a.ty)
    (hc : getStr a.conv kvs' = getStr a.conv kvs)
    (ha : a.alias ≠ [] → ∀ n ∈ a.name :: a.alias, getStr n kvs' = getStr n kvs) :
    deBody env r { cx with data := .dict k' kvs' } { a with src := .key (.dict k' kvs') } =
      deBody env r { cx with data := .dict k kvs } { a with src := .key (.dict k kvs) } := by
  have h1 := @data_agree a k k' kvs kvs' hc
  have h2 := @primData_agree cx a k k' kvs kvs' hc ha
  have hp : pickDe cx.des { a with src := .key (.dict k' kvs') } = pickDe cx.des { a with src := .key (.dict k kvs) } := rfl
  unfold deBody
  dsimp only
  rw [hp, h1]
  cases hty : a.ty <;> rw [hty] at hb <;> simp only [BaseTy] at hb <;> simp only [← hty, h2]

theorem deRender_base {env : Env} {r : DeRec} {cx : DeCx} {a : DeArg} {k k' kvs kvs'} (hb : BaseTy a.ty) (hf : a.flatten = false)
    (hc : getStr a.conv kvs' = getStr a.conv kvs)
    (ha : a.alias ≠ [] → ∀ n ∈ a.name :: a.alias, getStr n kvs' = getStr n kvs) :
    deRenderF env r { cx with data := .dict k' kvs' } { a with src := .key (.dict k' kvs') } =
      deRenderF env r { cx with data := .dict k kvs } { a with src := .key (.dict k kvs) } := by
  unfold deRenderF
  rw [deBody_base (k := k) hb hc ha]
  cases hd : a.dflt with
  | none => rfl
  | some dv =>
    dsimp only
    rw [← hd, dfltExists_agree (k := k) hf hc ha]

theorem render_alias {env : Env} {n : Nat} {cx : DeCx} {a : DeArg} {k k' kvs kvs'} (hb : AliasTy a.ty) (hf : a.flatten = false)
    (hc : getStr a.conv kvs' = getStr a.conv kvs)
    (ha : a.alias ≠ [] → ∀ n ∈ a.name :: a.alias, getStr n kvs' = getStr n kvs) :
    (deAt env n).render { cx with data := .dict k' kvs' } { a with src := .key (.dict k' kvs') } =
      (deAt env n).render { cx with data := .dict k kvs } { a with src := .key (.dict k kvs) } := by
  cases n with
  | zero => rfl
  | succ n =>
  rw [deAt_render, deAt_render]
  by_cases hbb : BaseTy a.ty
  · exact deRender_base hbb hf hc ha
  · obtain ⟨t, hty, hbt⟩ : ∃ t, a.ty = .union [t, .none] ∧ BaseTy t := by
      unfold AliasTy at hb
      split at hb <;> first
        | (rename_i h; exact ⟨_, h, trivial⟩)
        | (rename_i h; rw [h] at hbb; exact absurd trivial hbb)
        | exact hb.elim
    have h1 := @data_agree a k k' kvs kvs' hc
    have hp : pickDe cx.des { a with src := .key (.dict k' kvs') } = pickDe cx.des { a with src := .key (.dict k kvs) } := rfl
    have hr : (deAt env n).render { cx with data := .dict k' kvs' }
        { a with src := .key (.dict k' kvs'), ty := t, dflt := none, tyArgs := none } =
        (deAt env n).render { cx with data := .dict k kvs }
        { a with src := .key (.dict k kvs), ty := t, dflt := none, tyArgs := none } := by
      cases n with
      | zero => rfl
      | succ n => exact deRender_base (a := { a with ty := t, dflt := none, tyArgs := none }) hbt hf hc ha
    have ho := @optExists_agree env cx a k k' kvs kvs' t hf hc ha
    have hiso : (Ty.union [t, .none]).isOpt = true := by
      cases t <;> simp [BaseTy] at hbt <;> rfl
    have hB : deBody env (deAt env n) { cx with data := .dict k' kvs' } { a with src := .key (.dict k' kvs') } =
      deBody env (deAt env n) { cx with data := .dict k kvs } { a with src := .key (.dict k kvs) } := by
      unfold deBody
      dsimp only
      rw [hp, h1]
      cases hpd : pickDe cx.des { a with src := .key (.dict k kvs) } with
      | some s => rfl
      | none =>
        dsimp only
        split
        · rfl
        · rw [hty]
          dsimp only
          rw [← hty]
          have hi : a.ty.isOpt = true := by rw [hty]; exact hiso
          simp only [hi, if_true, ho, hr]
    unfold deRenderF
    rw [hB]
    cases hd : a.dflt with
    | none => rfl
    | some dv =>
      dsimp only
      rw [← hd, dfltExists_agree (k := k) hf hc ha]

/-! ## Flattened dataclasses -/

theorem getStr_filter {p : Val → Bool} {k : String} {kvs : List (Val × Val)} :
    getStr k (kvs.filter (fun kv => p kv.1)) = if p (.str k) then getStr k kvs else none := by
  induction kvs with
  | nil => simp [getStr]
  | cons kv kvs ih =>
    obtain ⟨k', v⟩ := kv
    rw [List.filter_cons]
    cases hp : p k' with
    | false =>
      simp only [Bool.false_eq_true, if_false, ih]
      cases k' <;> simp only [getStr]
      rename_i s
      by_cases hs : s = k
      · subst hs; simp [hp]
      · have : (s == k) = false := by simpa using hs
        simp [this]
    | true =>
      simp only [if_true]
      cases k' <;> simp only [getStr, ih]
      rename_i s
      by_cases hs : s = k
      · subst hs; simp [hp]
      · have : (s == k) = false := by simpa using hs
        simp [this]

/-- The entries of the input that are passed on to a flattened dataclass `ch` of class `c`. -/
def projKeep (env : Env) (c ch : ClassId) (cd : ClassDef) (k : Val) : Bool :=
  if env.flatDict ch || !cd.hasFlatDict then keyKnown (env.known ch) k || !keyKnown (env.known c) k else keyKnown (env.known ch) k

theorem project_dict {env : Env} {k kvs c ch} {cd : ClassDef} :
    project env (.dict k kvs) (env.known ch) (env.known c) (env.flatDict ch) cd.hasFlatDict =
      .ok (.dict .plain (kvs.filter (fun kv => projKeep env c ch cd kv.1))) := by
  unfold project
  cases kvs with
  | nil => rfl
  | cons kv kvs =>
    simp only [truthy, List.isEmpty_cons, Bool.not_false, Bool.not_true, Bool.false_eq_true, if_false, pyItems]
    rfl

theorem optExists_flat {env : Env} {cx : DeCx} {x : Val} {a : DeArg} {k k' kvs kvs' ch} (hf : a.flatten = true)
    (h : ∀ chd g, env.cls ch = some chd → g ∈ chd.fields → getStr g.name kvs' = getStr g.name kvs) :
    optExists env { cx with data := x } { a with src := .key (.dict k' kvs') } (.cls ch) =
      optExists env cx { a with src := .key (.dict k kvs) } (.cls ch) := by
  unfold optExists
  dsimp only
  rw [hf]
  simp only [if_true]
  cases hch : env.cls ch with
  | none => rfl
  | some chd =>
    dsimp only
    have := h chd
    cases hfs : chd.fields with
    | nil => rfl
    | cons g gs =>
      dsimp only
      rw [mapR_congr]
      intro g' hg'
      simp only [pyGet, h chd g' hch (by rw [hfs]; exact hg')]

theorem dfltExists_flat {env : Env} {a : DeArg} {k k' kvs kvs'} (hf : a.flatten = true)
    (h : ∀ ch chd g, a.ty = .cls ch → env.cls ch = some chd → g ∈ chd.fields →
      ∀ n ∈ g.name :: g.alias, getStr n kvs' = getStr n kvs) :
    dfltExists env { a with src := .key (.dict k' kvs') } (.dict k' kvs') =
      dfltExists env { a with src := .key (.dict k kvs) } (.dict k kvs) := by
  unfold dfltExists
  dsimp only
  rw [hf]
  simp only [if_true]
  split
  · rename_i ch hty
    split
    · rename_i chd hch
      split
      · rfl
      · rw [mapR_congr]
        intro g hg
        have hgs := h ch chd g hty hch hg
        split
        · simp only [pyIn, hgs g.name (by simp)]
        · rename_i hal
          exact existsByAliases_agree hgs
    · rfl
  · rfl

/-- A relation between two inputs that class `c` cannot tell apart. -/
structure FrameRel (env : Env) (R : ClassId → List (Val × Val) → List (Val × Val) → Prop) : Prop where
  shown : ∀ {c kvs kvs' cd}, R c kvs kvs' → env.cls c = some cd → cd.transparent = false
  field : ∀ {c kvs kvs' cd f}, R c kvs kvs' → env.cls c = some cd → f ∈ cd.fields → FieldReadsOk env cd f
  agree : ∀ {c kvs kvs' k}, R c kvs kvs' → Reads env c k → getStr k kvs' = getStr k kvs
  unknown : ∀ {c kvs kvs' cd} dk dk', R c kvs kvs' → env.cls c = some cd →
    deUnknown env c cd (.dict dk' kvs') = deUnknown env c cd (.dict dk kvs)
  proj : ∀ {c kvs kvs' cd f ch}, R c kvs kvs' → env.cls c = some cd → f ∈ cd.fields → f.renderable = true →
    inlined f = some ch →
    R ch (kvs.filter (fun kv => projKeep env c ch cd kv.1)) (kvs'.filter (fun kv => projKeep env c ch cd kv.1))

theorem hasFlatDict_false {cd : ClassDef} (h : ∀ f ∈ cd.fields, takesRest f = false) : cd.hasFlatDict = false := by
  unfold ClassDef.hasFlatDict
  rw [List.any_eq_false]
  intro f hf
  rw [flatDict_eq_takesRest, h f hf]
  simp

theorem inlined_ty {f : FieldDef} {ch} (h : inlined f = some ch) :
    f.flatten = true ∧ (f.ty = .cls ch ∨ f.ty = .union [.cls ch, .none]) := by
  unfold inlined at h
  split at h
  · rename_i h1 h2; cases h; exact ⟨h1, .inl h2⟩
  · rename_i h1 h2; cases h; exact ⟨h1, .inr h2⟩
  · cases h

theorem pickDe_none {des : List ClsDe} {a : DeArg} (h : ∀ s ∈ des, s.handles a.ty = false) : pickDe des a = none := by
  unfold pickDe
  split
  · rfl
  · rw [List.find?_eq_none]
    intro s hs
    simp [h s (List.mem_reverse.1 hs)]

theorem deBody_cls {env : Env} {r : DeRec} {cx : DeCx} {a : DeArg} {ch d} (hp : pickDe cx.des a = none) (hd : a.deser = none)
    (hty : a.ty = .cls ch) (hf : a.flatten = true) (hs : a.src = .key d) :
    deBody env r cx a = r.cls cx.named ch { mg := cx.mg, mgVars := cx.mgVars, vta := a.tyArgs, reuse := some cx.reuse,
                                            numbers := cx.numbers } d := by
  unfold deBody
  rw [hp, hd, hty, hf, hs]
  rfl

theorem deBody_opt {env : Env} {r : DeRec} {cx : DeCx} {a : DeArg} {t} (hp : pickDe cx.des a = none)
    (hd : ∀ f, a.deser ≠ some (.fn f)) (hty : a.ty = .union [t, .none]) (ht : t.isNone = false) :
    deBody env r cx a = match optExists env cx a t with
      | .ok true => r.render cx { a with ty := t, dflt := none, tyArgs := none }
      | .ok false => .ok .none
      | .error e => .error e := by
  have hi : a.ty.isOpt = true := by rw [hty]; simp [Ty.isOpt, ht]
  unfold deBody
  rw [hp]
  dsimp only
  split
  · rename_i f hf; exact absurd hf (hd f)
  · rw [hi, hty]
    rfl

/-- A flattened dataclass argument, once the child's own function is known not to distinguish the inputs. -/
theorem render_flat {env : Env} {n : Nat} {cx : DeCx} {x : Val} {a : DeArg} {k k' kvs kvs' ch} (hf : a.flatten = true)
    (hty : a.ty = .cls ch ∨ a.ty = .union [.cls ch, .none]) (hds : a.deser = none)
    (hdes : ∀ s ∈ cx.des, s.handles a.ty = false ∧ s.handles (.cls ch) = false)
    (hcls : ∀ m o, m < n → (deAt env m).cls cx.named ch o (.dict k' kvs') = (deAt env m).cls cx.named ch o (.dict k kvs))
    (hp : ∀ chd g, env.cls ch = some chd → g ∈ chd.fields → ∀ n ∈ g.name :: g.alias, getStr n kvs' = getStr n kvs) :
    (deAt env n).render { cx with data := x } { a with src := .key (.dict k' kvs') } =
      (deAt env n).render cx { a with src := .key (.dict k kvs) } := by
  have hB : ∀ m (b b' : DeArg), m < n → b.flatten = true → b.ty = .cls ch → b.deser = none → b.src = .key (.dict k kvs) →
      b' = { b with src := .key (.dict k' kvs') } →
      deBody env (deAt env m) { cx with data := x } b' = deBody env (deAt env m) cx b := by
    intro m b b' hm h1 h2 h3 h4 h5
    subst h5
    have hh : ∀ s ∈ cx.des, s.handles b.ty = false := fun s hs => by rw [h2]; exact (hdes s hs).2
    rw [deBody_cls (cx := { cx with data := x }) (a := { b with src := .key (.dict k' kvs') }) (pickDe_none hh) h3 h2 h1 rfl, deBody_cls (pickDe_none hh) h3 h2 h1 h4]
    exact hcls m _ hm
  cases n with
  | zero => rfl
  | succ n =>
    rw [deAt_render, deAt_render]
    have hB : deBody env (deAt env n) { cx with data := x } { a with src := .key (.dict k' kvs') } =
        deBody env (deAt env n) cx { a with src := .key (.dict k kvs) } := by
      rcases hty with hty | hty
      · exact hB n _ _ (by omega) hf hty hds rfl rfl
      · have hh : ∀ s ∈ cx.des, s.handles a.ty = false := fun s hs => (hdes s hs).1
        have hd' : ∀ f, a.deser ≠ some (.fn f) := by rw [hds]; intro f h; cases h
        rw [deBody_opt (cx := { cx with data := x }) (a := { a with src := .key (.dict k' kvs') }) (pickDe_none hh) hd' hty rfl,
          deBody_opt (a := { a with src := .key (.dict k kvs) }) (pickDe_none hh) hd' hty rfl,
          optExists_flat (k := k) hf (fun chd g h1 h2 => hp chd g h1 h2 g.name (by simp))]
        have : (deAt env n).render { cx with data := x }
              { a with src := .key (.dict k' kvs'), ty := .cls ch, dflt := none, tyArgs := none } =
            (deAt env n).render cx { a with src := .key (.dict k kvs), ty := .cls ch, dflt := none, tyArgs := none } := by
          cases n with
          | zero => rfl
          | succ n => exact hB n _ _ (by omega) hf rfl hds rfl rfl
        rw [this]
    unfold deRenderF
    rw [hB]
    cases hd : a.dflt with
    | none => rfl
    | some dv =>
      dsimp only
      rw [← hd, dfltExists_flat (k := k) hf]
      intro ch' chd g h1 h2 h3
      rcases hty with hty | hty
      · rw [hty] at h1; cases h1
        exact hp chd g h2 h3
      · rw [hty] at h1; cases h1

/-- **Frame**: a class cannot distinguish related inputs. -/
theorem cls_frame {env : Env} {R} (hR : FrameRel env R) : ∀ n c o k k' kvs kvs', R c kvs kvs' →
    (deAt env n).cls true c o (.dict k' kvs') = (deAt env n).cls true c o (.dict k kvs) := by
  intro n
  induction n using Nat.strongRecOn with
  | ind n ih =>
    intro c o k k' kvs kvs' hr
    cases n with
    | zero => rfl
    | succ n =>
      rw [deAt_cls, deAt_cls]
      cases hc : env.cls c with
      | none => unfold deClsF; rw [hc]
      | some cd =>
        rw [deClsF_some hc, deClsF_some hc]
        have hA : deArgs env (deAt env n) true c cd o (.dict k' kvs') = deArgs env (deAt env n) true c cd o (.dict k kvs) := by
          unfold deArgs
          simp only [hR.shown hr hc, Bool.false_eq_true, if_false, if_true]
          rw [hR.unknown k k' hr hc]
          have hfd : cd.hasFlatDict = false := hasFlatDict_false (fun f hf => (hR.field hr hc hf).rest)
          have hN : deNamedArgs env (deAt env n) (clsDeCx env c cd true o (.dict k' kvs')) c cd (.dict k' kvs') =
              deNamedArgs env (deAt env n) (clsDeCx env c cd true o (.dict k kvs)) c cd (.dict k kvs) := by
            unfold deNamedArgs deExtra
            rw [hfd]
            simp only [Bool.false_eq_true, if_false]
            rw [mapR_congr]
            intro f hf
            rw [List.mem_filter] at hf
            obtain ⟨hf, hfr⟩ := hf
            have hok := hR.field hr hc hf
            unfold deField
            rw [flatDict_eq_takesRest, hok.rest, flatChild_eq_inlined]
            simp only [Bool.false_eq_true, if_false]
            have hren : ∀ d d', (inlined f = none → d = .dict k kvs ∧ d' = .dict k' kvs') →
                (∀ ch, inlined f = some ch → d = .dict .plain (kvs.filter (fun kv => projKeep env c ch cd kv.1)) ∧
                  d' = .dict .plain (kvs'.filter (fun kv => projKeep env c ch cd kv.1))) →
                (deAt env n).render (clsDeCx env c cd true o (.dict k' kvs'))
                  { ty := f.ty, name := f.name, conv := f.conv cd.deCase, src := .key d', alias := f.alias,
                    deser := f.deserializer, flatten := f.flatten, dflt := f.dflt } =
                (deAt env n).render (clsDeCx env c cd true o (.dict k kvs))
                  { ty := f.ty, name := f.name, conv := f.conv cd.deCase, src := .key d, alias := f.alias,
                    deser := f.deserializer, flatten := f.flatten, dflt := f.dflt } := by
              intro d d' h1 h2
              cases hin : inlined f with
              | none =>
                obtain ⟨rfl, rfl⟩ := h1 hin
                have hfl : f.flatten = false := by
                  cases hfl : f.flatten with
                  | false => rfl
                  | true => have := hok.flat hfl; rw [hin] at this; cases this
                have hcv : getStr (f.conv cd.deCase) kvs' = getStr (f.conv cd.deCase) kvs := hR.agree hr (.wire hc hf hfr hin)
                by_cases hal : f.alias = []
                · exact render_sim env n (clsDeCx env c cd true o (.dict k kvs)) _ _ _
                    ⟨rfl, rfl, rfl, rfl, hal, hal, hfl, hfl, .key hcv.symm⟩
                · have hat : AliasTy f.ty := by
                    rcases hok.alias with h | h
                    · exact absurd h hal
                    · exact h
                  exact render_alias (cx := clsDeCx env c cd true o (.dict k kvs))
                    (a := { ty := f.ty, name := f.name, conv := f.conv cd.deCase, src := .key .none, alias := f.alias,
                            deser := f.deserializer, flatten := f.flatten, dflt := f.dflt }) hat hfl hcv (by
                    intro _ m hm
                    exact hR.agree hr (.alias hc hf hfr hal (by simpa using hm)))
              | some ch =>
                obtain ⟨rfl, rfl⟩ := h2 ch hin
                obtain ⟨hds, hal, hde⟩ := hok.plain ch hin
                obtain ⟨hfl, hty⟩ := inlined_ty hin
                refine render_flat (cx := clsDeCx env c cd true o (.dict k kvs))
                  (a := { ty := f.ty, name := f.name, conv := f.conv cd.deCase, src := .key .none, alias := f.alias,
                          deser := f.deserializer, flatten := f.flatten, dflt := f.dflt }) hfl hty hds hde ?_ ?_
                · intro m o' hm
                  exact ih m (by omega) ch o' _ _ _ _ (hR.proj hr hc hf hfr hin)
                · intro chd g hch hg nm hnm
                  have := hR.agree hr (.probe hc hf hfr hin hch hg (by simpa using hnm))
                  rw [getStr_filter, getStr_filter, this]
            cases hin : inlined f with
            | none =>
              dsimp only
              rw [hren (.dict k kvs) (.dict k' kvs') (fun _ => ⟨rfl, rfl⟩) (by intro ch h; rw [hin] at h; cases h)]
            | some ch =>
              dsimp only
              rw [project_dict, project_dict]
              dsimp only
              rw [hren (.dict .plain (kvs.filter (fun kv => projKeep env c ch cd kv.1)))
                (.dict .plain (kvs'.filter (fun kv => projKeep env c ch cd kv.1))) (by intro h; rw [hin] at h; cases h)
                (by intro ch' h; rw [hin] at h; cases h; exact ⟨rfl, rfl⟩)]
          rw [hN]
        rw [hA]

/-- The same for `from_dict`. -/
theorem fromDict_frame {env : Env} {R} (hR : FrameRel env R) {o : DeOpts} {n c k k' kvs kvs'}
    (hg : ∀ s ∈ env.gde, s.handles (.cls c) = false) (hr : R c kvs kvs') :
    fromDict env o n (.cls c) (.dict k' kvs') = fromDict env o n (.cls c) (.dict k kvs) := by
  have hd : ∀ dk kvs as, Val.dict dk kvs ≠ .inst c as := by intro _ _ as h; cases h
  match n with
  | 0 => rfl
  | 1 =>
    unfold fromDict
    rw [fromObj_cls_fuel1 hg (hd _ _), fromObj_cls_fuel1 hg (hd _ _)]
  | m + 2 =>
    rw [fromDict_cls hg (hd _ _), fromDict_cls hg (hd _ _)]
    have := cls_frame hR (m + 1) c (topCall o) k k' kvs kvs' hr
    rw [deAt_cls, deAt_cls] at this
    rw [this]

end Verif
