import Verif.Spec.Generic
import Verif.Lemmas.FieldRun
import Verif.Lemmas.ScopeFree
import Verif.Props.C12
/-!
# Reading below a subscripted generic dataclass
-/

namespace Verif
open Spec Props

theorem lookup_zip_idx {ws : List String} {α : Type} {zs : List α} {x z} (h : (ws.zip zs).lookup x = some z) :
    ws.idxOf x < ws.length ∧ zs[ws.idxOf x]? = some z := by
  induction ws generalizing zs with
  | nil => cases h
  | cons w ws ih =>
    cases zs with
    | nil => cases h
    | cons z' zs =>
      rw [List.zip_cons_cons, List.lookup_cons] at h
      by_cases hx : x = w
      · subst hx
        simp only [beq_self_eq_true] at h
        cases h
        simp
      · have h1 : (x == w) = false := by simpa using hx
        have h2 : (w == x) = false := by simpa using fun e : w = x => hx e.symm
        rw [h1] at h
        obtain ⟨h3, h4⟩ := ih h
        rw [List.idxOf_cons, h2]
        simp only [cond_false, List.length_cons, List.getElem?_cons_succ]
        exact ⟨Nat.succ_lt_succ h3, h4⟩

/-- The context of a generated function below the outermost generic class. -/
structure GCx (c : ClassId) (args : List Ty) (vs : List String) (σ : Binding) (v : Bool) (ro : Bool)
    (nu : Option (Val → Except PErr Val)) (cx : DeCx) : Prop where
  named : cx.named = true
  mg : cx.mg = some (.gen c args)
  mgVars : cx.mgVars = some vs
  reuse : cx.reuse = ro
  numbers : cx.numbers = nu
  des : ∀ s ∈ cx.des, ∀ t, s.handles t = false
  vars : v = true → ∃ ws, cx.tvars = some ws ∧ ∀ x t, σ x = some t →
    getGenericArg cx.mg cx.mgVars cx.vta (findGenericArg ws x) = .ok t

/-- An argument whose data is `x`. -/
structure GArg (a : DeArg) (x : Val) : Prop where
  alias : a.alias = []
  deser : a.deser = none
  flat : a.flatten = false
  src : (∃ dk kvs, a.src = .key (.dict dk kvs) ∧ getStr a.conv kvs = some x) ∨ a.src = .val (.ok x)

/-- `x is not None`. -/
def isNotNone : Val → Bool
  | .none => false
  | _ => true

theorem GArg.data {a x} (h : GArg a x) : a.data = .ok x := by
  unfold DeArg.data
  rcases h.src with ⟨dk, kvs, hs, hx⟩ | hs
  · rw [hs]
    dsimp only
    split
    · simp [pyGet, hx]
    · simp [pyGetItem, hx]
  · rw [hs]

theorem GArg.named {a x} (h : GArg a x) : a.src.isNamed = true := by
  rcases h.src with ⟨dk, kvs, hs, hx⟩ | hs <;> rw [hs] <;> rfl

theorem GArg.exists {env : Env} {cx a x t} (h : GArg a x) : optExists env cx a t = .ok (isNotNone x) := by
  have hd := h.data
  unfold optExists
  rcases h.src with ⟨dk, kvs, hs, hx⟩ | hs
  · rw [hs]
    simp only [h.flat, h.alias, Bool.false_eq_true, if_false, pyGet, hx]
    cases x <;> rfl
  · rw [hs]
    simp only [hd]
    cases x <;> rfl

theorem GArg.retype {a x} (h : GArg a x) (t d ta) : GArg { a with ty := t, dflt := d, tyArgs := ta } x :=
  ⟨h.alias, h.deser, h.flat, h.src⟩

theorem GArg.elem {t nm x} {al : List String} {ds : Option SerFn} (ha : al = []) (hd : ds = none) :
    GArg { ty := t, name := nm, conv := nm, src := .val (.ok x), alias := al, deser := ds } x :=
  ⟨ha, hd, rfl, .inr rfl⟩

theorem GArg.render {env : Env} {m cx a x} (h : GArg a x) : (deAt env (m + 1)).render cx a = deBody env (deAt env m) cx a := by
  rw [deAt_render]
  unfold deRenderF
  rcases h.src with ⟨dk, kvs, hs, hx⟩ | hs
  · rw [hs]
    cases a.dflt with
    | none => rfl
    | some dv =>
      have : dfltExists env a (.dict dk kvs) = .ok true := by
        unfold dfltExists
        simp only [h.flat, h.alias, Bool.false_eq_true, if_false]
        simp [pyIn, hx]
      dsimp only
      rw [this]
  · rw [hs]
    cases a.dflt <;> rfl

theorem dictSet_from {k v : Val} {kvs : List (Val × Val)} {e} (h : e ∈ dictSet k v kvs) :
    e ∈ kvs ∨ (e.2 = v ∧ (e.1 = k ∨ pyEq e.1 k = true)) := by
  induction kvs with
  | nil =>
    rw [dictSet, List.mem_singleton] at h
    subst h; exact .inr ⟨rfl, .inl rfl⟩
  | cons a r ih =>
    obtain ⟨k', v'⟩ := a
    unfold dictSet at h
    split at h
    · rename_i hk
      rcases List.mem_cons.1 h with rfl | h
      · exact .inr ⟨rfl, .inr hk⟩
      · exact .inl (List.mem_cons_of_mem _ h)
    · rcases List.mem_cons.1 h with rfl | h
      · exact .inl (by simp)
      · exact (ih h).imp (List.mem_cons_of_mem _) id

/-- An entry of a dict comprehension comes from an entry with the same value and an equal key. -/
theorem dictOf_from {kvs : List (Val × Val)} {e} (h : e ∈ dictOf kvs) :
    ∃ e' ∈ kvs, e.2 = e'.2 ∧ (e.1 = e'.1 ∨ pyEq e.1 e'.1 = true) := by
  have key : ∀ (l acc : List (Val × Val)), e ∈ l.foldl (fun acc e => dictSet e.1 e.2 acc) acc →
      e ∈ acc ∨ ∃ e' ∈ l, e.2 = e'.2 ∧ (e.1 = e'.1 ∨ pyEq e.1 e'.1 = true) := by
    intro l
    induction l with
    | nil => intro acc h; exact .inl h
    | cons a l ih =>
      intro acc h
      rw [List.foldl_cons] at h
      rcases ih _ h with h | ⟨e', h1, h2⟩
      · rcases dictSet_from h with h | h
        · exact .inl h
        · exact .inr ⟨a, by simp, h⟩
      · exact .inr ⟨e', List.mem_cons_of_mem _ h1, h2⟩
  rcases key kvs [] h with h | h
  · cases h
  · exact h

theorem mkDict_result {hs k es w} (h : mkDict hs k es = .ok w) : w = .dict k (dictOf es) := by
  unfold mkDict at h
  split at h
  · cases h; rfl
  · cases h

/-- A string is read at the annotation `str` as itself. -/
theorem strKey_read {env : Env} {n cx nm s w} (hp : ∀ d ∈ cx.des, ∀ t, d.handles t = false)
    (h : (deAt env n).render cx { ty := .prim .str, name := nm, conv := nm, src := .val (.ok (.str s)) } = .ok w) : w = .str s := by
  cases n with
  | zero => cases h
  | succ n =>
    rw [GArg.render (x := .str s) (GArg.elem rfl rfl)] at h
    unfold deBody at h
    rw [pickDe_none (fun d hd => hp d hd _)] at h
    have : primData cx { ty := .prim .str, name := nm, conv := nm, src := .val (.ok (.str s)) } = .ok (.str s) := rfl
    dsimp only at h
    rw [this] at h
    dsimp only at h
    split at h <;> cases h <;> rfl

theorem covered_ne_none {env : Env} {σ₀ σ v t} (h : Covered env σ₀ σ v t) : t ≠ .none := by
  rintro rfl
  cases h

section
variable {env : Env} {c : ClassId} {args : List Ty} {vs : List String} {ro : Bool} {nu : Option (Val → Except PErr Val)}

/-- The call to the function of a nested generic class. -/
def nestedCall (cx : DeCx) (zs : List String) : DeCall :=
  { mg := cx.mg, mgVars := cx.mgVars, vta := some zs, reuse := some cx.reuse, numbers := cx.numbers }

/-- The context of a nested generic class. -/
theorem GCx.nested {σ v cx b bd ws d} {zs : List String} (hvs : vs ≠ []) (hl : args.length = vs.length) (hcx : GCx c args vs σ v ro nu cx)
    (hG : GenClass env b bd ws) (hz : ∀ z ∈ zs, σ z ≠ none ∧ σ z = bindArgs vs args z) :
    GCx c args vs (bindVars σ ws zs) true ro nu (clsDeCx env b bd true (nestedCall cx zs) d) := by
  have hm : (clsDeCx env b bd true (nestedCall cx zs) d).mgVars = some vs := by
    unfold clsDeCx nestedCall
    dsimp only
    rw [hcx.mgVars]
    cases vs with
    | nil => exact absurd rfl hvs
    | cons _ _ => rfl
  refine ⟨rfl, hcx.mg, hm, hcx.reuse, hcx.numbers, hG.noDe, fun _ => ⟨ws, hG.vars, ?_⟩⟩
  intro x t hx
  rw [hm]
  have h1 : (clsDeCx env b bd true (nestedCall cx zs) d).mg = some (.gen c args) := hcx.mg
  have h2 : (clsDeCx env b bd true (nestedCall cx zs) d).vta = some zs := rfl
  rw [h1, h2]
  unfold bindVars at hx
  cases hk : (ws.zip zs).lookup x with
  | none => rw [hk] at hx; cases hx
  | some z =>
    rw [hk] at hx
    dsimp only at hx
    obtain ⟨h3, h4⟩ := lookup_zip_idx hk
    have hzm : z ∈ zs := List.mem_of_getElem? h4
    rw [(hz z hzm).2] at hx
    obtain ⟨h5, h6⟩ := lookup_zip_idx hx
    unfold findGenericArg getGenericArg
    simp only [h3, if_true, hl, bne_self_eq_false, Bool.false_eq_true, if_false]
    rw [h4]
    dsimp only
    rw [h6]

theorem zip_of_get {α β : Type} {xs : List α} {ys : List β} {i : Nat} {x y} (hx : xs[i]? = some x) (hy : ys[i]? = some y) :
    (x, y) ∈ xs.zip ys := by
  apply List.mem_of_getElem? (i := i)
  rw [List.getElem?_zip_eq_some]
  exact ⟨hx, hy⟩

theorem deBody_cls_data {r : DeRec} {cx : DeCx} {a : DeArg} {b d} (hp : pickDe cx.des a = none) (hd : a.deser = none)
    (hty : a.ty = .cls b) (hf : a.flatten = false) (hs : a.data = .ok d) :
    deBody env r cx a = r.cls cx.named b { mg := cx.mg, mgVars := cx.mgVars, vta := a.tyArgs, reuse := some cx.reuse,
                                           numbers := cx.numbers } d := by
  unfold deBody
  rw [hp, hd, hty, hf]
  dsimp only
  simp only [Bool.false_eq_true, if_false]
  rw [hs]

theorem genNames {zs : List String} : (zs.map Ty.tvar).map (tyArgStr env) = zs := by
  rw [List.map_map]
  conv => rhs; rw [← List.map_id zs]
  rfl

/-- **Reading below a generic class** follows the binding of the type variables. -/
theorem readAs_of_body (hvs : vs ≠ []) (hl : args.length = vs.length) : ∀ n {σ v cx a x w}, GCx c args vs σ v ro nu cx →
    Covered env (bindArgs vs args) σ v a.ty → GArg a x → deBody env (deAt env n) cx a = .ok w →
    ReadAs env { reuse := some ro, numbers := nu } (bindArgs vs args) σ a.ty x w := by
  intro n
  induction n using Nat.strongRecOn with
  | ind n IH =>
  intro σ v cx a x w hcx hcov ha h
  have ih : ∀ {σ v cx a x w}, GCx c args vs σ v ro nu cx → Covered env (bindArgs vs args) σ v a.ty → GArg a x →
      (deAt env n).render cx a = .ok w → ReadAs env { reuse := some ro, numbers := nu } (bindArgs vs args) σ a.ty x w := by
    intro σ v cx a x w h1 h2 h3 h4
    match n with
    | 0 => cases h4
    | m + 1 =>
      rw [h3.render] at h4
      exact IH m (Nat.lt_succ_self m) h1 h2 h3 h4
  have hpk : pickDe cx.des a = none := pickDe_none (fun s hs => hcx.des s hs _)
  have hdata := ha.data
  have hex : ∀ t, optExists env cx a t = _ := fun t => ha.exists
  obtain ⟨ty, name, conv, src, al, deser, fl, dflt, ta⟩ := a
  obtain rfl : al = [] := ha.alias
  obtain rfl : deser = none := ha.deser
  obtain rfl : fl = false := ha.flat
  dsimp only at hcov hdata ⊢
  have hseq : ∀ {t xs ys}, Covered env (bindArgs vs args) σ v t →
      mapR (fun y => (deAt env n).render cx { ty := t, name := "v", conv := "v", src := .val (.ok y) }) xs = .ok ys →
      xs.length = ys.length ∧ ∀ (i : Nat) y z, xs[i]? = some y → ys[i]? = some z →
        ReadAs env { reuse := some ro, numbers := nu } (bindArgs vs args) σ t y z := by
    intro t xs ys hc hm
    refine ⟨(mapR_ok_length hm).symm, fun i y z hy hz => ?_⟩
    have := mapR_ok_get hm
    exact ih (a := { ty := t, name := "v", conv := "v", src := .val (.ok y) }) hcx hc (GArg.elem rfl rfl) (this _ (zip_of_get hy hz))
  unfold deBody at h
  rw [hpk] at h
  dsimp only at h
  cases hcov with
  | var hv hx' =>
    rename_i x' t
    obtain ⟨ws, h1, h2⟩ := hcx.vars hv
    dsimp only at h
    rw [h1] at h
    dsimp only at h
    rw [h2 _ _ hx', hdata] at h
    dsimp only at h
    rw [ha.named, hcx.reuse, hcx.numbers] at h
    exact .var hx' h
  | gen hG hl' hz =>
    rename_i b bd ws zs
    dsimp only at h
    rw [genNames] at h
    by_cases hd : ∀ dk kvs, x ≠ .dict dk kvs
    · exact .notDict hd
    have hd : ∃ dk kvs, x = .dict dk kvs := by
      cases x with
      | dict dk kvs => exact ⟨dk, kvs, rfl⟩
      | _ => exact absurd (fun _ _ e => by cases e) hd
    obtain ⟨dk, kvs, rfl⟩ := hd
    have hga : GArg { ty := .cls b, name := name, conv := conv, src := src, dflt := dflt, tyArgs := some zs } (.dict dk kvs) :=
      ⟨rfl, rfl, rfl, ha.src⟩
    rcases n with _ | _ | m
    · cases h
    · rw [hga.render, deBody_cls_data (pickDe_none (fun s hs => hcx.des s hs _)) rfl rfl rfl hga.data] at h
      cases h
    rw [hga.render, deBody_cls_data (pickDe_none (fun s hs => hcx.des s hs _)) rfl rfl rfl hga.data, hcx.named, deAt_cls] at h
    have hC := hG.plain
    change deClsF env (deAt env m) true b (nestedCall cx zs) (.dict dk kvs) = .ok w at h
    rw [deClsF_named hC.cls hC.dict] at h
    split at h
    · cases h
    · cases h
    · split at h
      · cases h
      · rename_i ex _
        obtain ⟨attrs, rfl⟩ := decodeCls_inst h
        obtain ⟨val, h1, h2, rfl⟩ := (decodeCls_fieldwise hC.post hC.names).1 h
        refine .gen val hG ?_ ?_
        · intro f y hf hy
          rw [attrsOf_lookup hC.names hf.mem, hf.renderable, if_pos rfl]
        · intro f y hf hy hcf
          obtain ⟨m', rfl, hb⟩ := (deField_body hf hy).1 (h1 f hf.mem hf.renderable)
          have hga : GArg (plainArg bd f (.dict dk kvs)) y := ⟨hf.alias, hf.deser, rfl, .inl ⟨dk, kvs, rfl, hy⟩⟩
          exact IH m' (by omega) (hcx.nested hvs hl hG hz) hcf hga hb
  | list hc =>
    rename_i k t
    dsimp only at h
    rw [hdata] at h
    dsimp only at h
    split at h
    · rename_i xs hit
      split at h
      · rename_i ys hm
        cases h
        obtain ⟨h1, h2⟩ := hseq hc hm
        exact .list hit h1 h2
      · cases h
    · cases h
  | deque hc =>
    rename_i t
    dsimp only at h
    rw [hdata] at h
    dsimp only at h
    split at h
    · rename_i xs hit
      split at h
      · rename_i ys hm
        cases h
        obtain ⟨h1, h2⟩ := hseq hc hm
        exact .deque hit h1 h2
      · cases h
    · cases h
  | tupleV hc =>
    rename_i t
    dsimp only at h
    rw [hdata] at h
    dsimp only at h
    split at h
    · rename_i xs hit
      split at h
      · rename_i ys hm
        cases h
        obtain ⟨h1, h2⟩ := hseq hc hm
        exact .tupleV hit h1 h2
      · cases h
    · cases h
  | dict hc =>
    rename_i vt
    dsimp only at h
    rw [hdata] at h
    dsimp only at h
    split at h
    · rename_i kvs hit
      split at h
      · rename_i es hm
        obtain rfl := mkDict_result h
        have hsrc : ∀ e ∈ dictOf es, ∃ kv ∈ kvs, (∀ s, kv.1 = .str s → e.1 = .str s) ∧
            ReadAs env { reuse := some ro, numbers := nu } (bindArgs vs args) σ vt kv.2 e.2 := by
          intro e he
          obtain ⟨e', he', h1, h2⟩ := dictOf_from he
          obtain ⟨kv, hkv, hr⟩ := mapR_mem hm he'
          refine ⟨kv, hkv, ?_, ?_⟩
          · intro s hs
            rw [hs] at hr
            split at hr
            · cases hr
            · rename_i k' hk'
              split at hr
              · cases hr
                have : k' = .str s := strKey_read hcx.des hk'
                subst this
                rcases h2 with h2 | h2
                · exact h2
                · exact pyEq_str_right.1 h2
              · cases hr
          · split at hr
            · cases hr
            · split at hr
              · rename_i w hw
                cases hr
                rw [h1]
                exact ih (a := { ty := vt, name := "v", conv := "v", src := .val (.ok kv.2) }) hcx hc (GArg.elem rfl rfl) hw
              · cases hr
        classical
        refine .dict (fun e => if he : e ∈ dictOf es then (hsrc e he).choose else e) hit ?_ ?_ ?_
        · intro e he
          simp only [he, dif_pos]
          exact (hsrc e he).choose_spec.1
        · intro e he
          simp only [he, dif_pos]
          exact (hsrc e he).choose_spec.2.1
        · intro e he
          simp only [he, dif_pos]
          exact (hsrc e he).choose_spec.2.2
      · cases h
    · cases h
  | opt hc =>
    rename_i t
    dsimp only at h
    rw [isOpt_pair' (covered_ne_none hc)] at h
    simp only [if_true] at h
    rw [hex t] at h
    by_cases hxn : x = .none
    · subst hxn
      cases h
      exact .optNone
    · have : isNotNone x = true := by cases x <;> first | rfl | exact absurd rfl hxn
      rw [this] at h
      dsimp only at h
      exact .optSome hxn (ih hcx hc (ha.retype t none none) h)
end

end Verif
