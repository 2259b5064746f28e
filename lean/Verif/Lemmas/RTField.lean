import Verif.Lemmas.RTCls
import Verif.Lemmas.Agree
import Verif.Lemmas.ScopeFree
import Verif.Lemmas.Default
/-!
# Round trip: the entries of one field
-/

namespace Verif

open Spec

/-- Entries with string keys. -/
def strKeys (es : List (String × Val)) : List (Val × Val) := es.map (fun e => (.str e.1, e.2))

theorem DeCx.data_eq {cx : DeCx} {d} (h : cx.data = d) : cx = { cx with data := d } := by
  subst h; rfl

theorem DeM.data {env : Env} {F : Fmt env} {S cx} (h : DeM F S cx) (d) : DeM F S { cx with data := d } :=
  ⟨h.named, h.reuse, h.numbers, h.coerce, h.unions, h.lits, h.tagging, h.des⟩

/-! ## A field that is present -/

theorem deField_present {env : Env} {F : Fmt env} {S} {cd : ClassDef} {f v w} (hpl : FieldPlain cd f) (hE : Enc env F S f.ty v w) :
    Ev (fun n => ∀ cx c ex dk kvs, DeM F S cx → cx.data = .dict dk kvs → getStr (f.conv cd.deCase) kvs = some (F.wire w) →
      deField env (deAt env n) cx c cd ex (.dict dk kvs) f = .ok v) := by
  refine hE.2.1.mono (fun n hn cx c ex dk kvs hcx hdata hget => ?_)
  have hfl := hpl.noFlatten
  have h1 : f.flatChild = none := by unfold FieldDef.flatChild; rw [hfl]; rfl
  have h2 : f.flatDict = false := by unfold FieldDef.flatDict; rw [hfl]; rfl
  unfold deField
  rw [h1, h2]
  simp only [Bool.false_eq_true, if_false]
  have hr : Reads { ty := f.ty, name := f.name, conv := f.conv cd.deCase, src := .key (.dict dk kvs) : DeArg } (F.wire w) :=
    ⟨rfl, rfl, rfl, rfl, .inr (.inr ⟨dk, kvs, rfl, hget⟩)⟩
  have hren := hn cx _ hcx hr rfl
  have hal : ∀ df, (deAt env n).render cx { ty := f.ty, name := f.name, conv := f.conv cd.deCase, src := .key (.dict dk kvs), alias := f.alias, dflt := df } =
      (deAt env n).render cx { ty := f.ty, name := f.name, conv := f.conv cd.deCase, src := .key (.dict dk kvs), dflt := df } := by
    intro df
    rcases hpl.alias with ha | ⟨ha, hcn⟩
    · rw [ha]
    · by_cases hnil : f.alias = []
      · rw [hnil]
      · have hg' := hget
        rw [hcn] at hg'
        rw [DeCx.data_eq hdata]
        exact render_unalias (cx := cx) (k := dk) (k' := dk) (kvs := kvs) (kvs' := kvs)
          (a := { ty := f.ty, name := f.name, conv := f.conv cd.deCase, src := .key (.dict dk kvs), alias := f.alias, dflt := df })
          ha hnil rfl rfl hcx.des hcn (by
            unfold firstOf; rw [List.findSome?_cons]; dsimp only; rw [hg'])
  rw [hpl.noCustom.2, hfl, hal]
  cases hdf : f.dflt with
  | none => dsimp only; rw [hren]; rfl
  | some dv =>
    dsimp only
    rw [render_dropDflt (d := .dict dk kvs) n _ _ rfl rfl (by
      unfold dfltExists
      simp only [Bool.false_eq_true, if_false, pyIn, hget]; rfl)]
    exact hren

/-! ## A field that is left out -/

theorem deField_missing_dflt {env : Env} {n cx c ex dk kvs} {cd : ClassDef} {f d} (hfl : f.flatten = false) (hal : f.alias = []) (hd : f.dflt = some d)
    (hget : getStr (f.conv cd.deCase) kvs = none) : deField env (deAt env (n + 1)) cx c cd ex (.dict dk kvs) f = .ok d := by
  rw [deField_plain hfl, hd]
  dsimp only
  rw [deAt_render]
  unfold deRenderF plainArg
  rw [hd]
  dsimp only
  unfold dfltExists
  dsimp only
  rw [hal]
  simp [pyIn, hget]

theorem deField_missing_none {env : Env} {F : Fmt env} {S} {cd : ClassDef} {f w} (hpl : FieldPlain cd f) (hE : Enc env F S f.ty .none w)
    (hw : F.wire w = .none) (hty : HasTy env f.ty .none) (hr : NoneRestored env f) :
    Ev (fun n => ∀ cx c ex dk kvs, DeM F S cx → cx.data = .dict dk kvs → getStr (f.conv cd.deCase) kvs = none →
      deField env (deAt env n) cx c cd ex (.dict dk kvs) f = .ok .none) := by
  obtain ⟨hal, hd | ⟨hd, ht | ⟨ts, ht, hm⟩⟩⟩ := hr hty
  · exact Ev.pos.mono (fun n hn cx c ex dk kvs _ _ hget => by
      obtain ⟨m, rfl⟩ := hn
      exact deField_missing_dflt hpl.noFlatten hal hd hget)
  · refine Ev.pos.mono (fun n hn cx c ex dk kvs hcx _ hget => ?_)
    obtain ⟨m, rfl⟩ := hn
    rw [deField_plain hpl.noFlatten, hd]
    dsimp only
    rw [deAt_render]
    unfold deRenderF plainArg
    rw [hd]
    dsimp only
    unfold deBody
    rw [hcx.des, pickDe_nil]
    dsimp only
    rw [hpl.noCustom.2, ht]
    rfl
  · refine hE.2.1.mono (fun n hn cx c ex dk kvs hcx hdata hget => ?_)
    rw [deField_plain hpl.noFlatten, hd]
    dsimp only
    have hz : (deAt env n).render cx (plainArg cd f (.dict dk kvs)) = .ok .none := by
      rw [DeCx.data_eq hdata]
      have h1 := render_null (env := env) (n := n) (cx := cx) (a := plainArg cd f (.dict dk kvs)) (k := dk) (k' := dk) (kvs := kvs)
        (kvs' := (.str (f.conv cd.deCase), .none) :: kvs) (ts := ts) ht
        (by show f.ty.hasNone = true
            rw [ht]
            exact List.any_eq_true.2 ⟨.none, hm, rfl⟩) hal rfl hd hget (by simp [getStr, plainArg])
      refine h1.symm.trans ?_
      refine hn _ _ (hcx.data _) ?_ rfl
      rw [hw]
      exact ⟨hal, hpl.noCustom.2, rfl, hd, .inr (.inr ⟨_, _, rfl, by simp [getStr, plainArg]⟩)⟩
    rw [hz]; rfl

/-! ## When a field is left out -/

theorem enc_det {env : Env} {F : Fmt env} {S t v w w'} (h : Ev (fun n => (seAt env n).render (seCxOf F S) { ty := t, v := .ok v } = .ok w))
    (h' : Ev (fun n => (seAt env n).render (seCxOf F S) { ty := t, v := .ok v } = .ok w')) : w = w' := by
  obtain ⟨n, h1, h2⟩ := (h.and h').exists
  rw [h1] at h2
  exact Except.ok.inj h2

theorem prim_wire {env : Env} {F : Fmt env} {S p v w} (hv : HasTy env (.prim p) v) (h : Enc env F S (.prim p) v w) : w = v := by
  have := enc_det h.1 (Ev.pos.mono (fun n hn => by obtain ⟨m, rfl⟩ := hn; exact scalar_se (.prim) hv m))
  rw [this]; exact (wire_prim F hv).2.1

theorem mapR_nil_inv {α β : Type} {f : α → Res β} {as : List α} (h : mapR f as = .ok []) : as = [] := by
  have := mapR_ok_length h
  exact List.length_eq_zero_iff.1 this.symm

theorem dedup_ne {x : Val} {xs : List Val} : dedup (x :: xs) ≠ [] := by
  have key : ∀ (xs acc : List Val), acc ≠ [] → xs.foldl (fun acc x => if acc.any (fun y => pyEq y x) then acc else acc ++ [x]) acc ≠ [] := by
    intro xs
    induction xs with
    | nil => intro acc h; exact h
    | cons y ys ih =>
      intro acc h
      rw [List.foldl_cons]
      refine ih _ ?_
      split
      · exact h
      · simp
  unfold dedup
  rw [List.foldl_cons]
  exact key _ _ (by simp)

theorem dictSet_ne {k v} {kvs : List (Val × Val)} : dictSet k v kvs ≠ [] := by
  cases kvs with
  | nil => simp [dictSet]
  | cons a kvs => unfold dictSet; split <;> simp

theorem dictOf_ne {x} {xs : List (Val × Val)} : dictOf (x :: xs) ≠ [] := by
  have key : ∀ (xs acc : List (Val × Val)), acc ≠ [] → xs.foldl (fun acc e => dictSet e.1 e.2 acc) acc ≠ [] := by
    intro xs
    induction xs with
    | nil => intro acc h; exact h
    | cons y ys ih => intro acc _; rw [List.foldl_cons]; exact ih _ dictSet_ne
  unfold dictOf
  rw [List.foldl_cons]
  exact key _ _ dictSet_ne

theorem render_inv {env : Env} {F : Fmt env} {S t v w} (h : Enc env F S t v w) :
    ∃ n, renderF env (seAt env n) (seCxOf F S) { ty := t, v := .ok v } = .ok w := by
  obtain ⟨n, hn, m, rfl⟩ := (h.1.and Ev.pos).exists
  exact ⟨m, hn⟩

/-- A value whose serialized form is falsy, or equals the falsy value, is the falsy value. -/
theorem falsy_restored {env : Env} {F : Fmt env} {S t d v w} (hf : Falsy env t d) (hv : HasTy env t v) (h : Enc env F S t v w)
    (hw : truthy env w = false ∨ pyEq w d = true) : v = d := by
  have hsers : (seCxOf F S).sers = [] := rfl
  cases hf with
  | int =>
    have := prim_wire hv h
    subst this
    cases hv with
    | @int i =>
      have : i = 0 := by
        rcases hw with hw | hw
        · simpa [truthy] using hw
        · simp [pyEq, Val.num, Flt.eqv] at hw
          exact Rat.intCast_inj.1 (by simpa using hw)
      rw [this]
  | float =>
    have := prim_wire hv h
    subst this
    cases hv with
    | @float x => cases x <;> simp_all [truthy, pyEq, Val.num, Flt.eqv]
  | bool =>
    have := prim_wire hv h
    subst this
    cases hv with
    | @bool b => cases b <;> simp_all [truthy, pyEq, Val.num, Flt.eqv]
  | str =>
    have := prim_wire hv h
    subst this
    cases hv with
    | str => simp_all [truthy, pyEq]
  | list =>
    obtain ⟨n, hn⟩ := render_inv h
    cases hv with
    | @list _ _ xs hx =>
      unfold renderF at hn
      rw [hsers, pickSer_nil] at hn
      simp only [pyIter] at hn
      split at hn
      · rename_i ys hys
        cases hn
        have : ys = [] := by
          cases ys with
          | nil => rfl
          | cons y ys => simp [truthy, pyEq, pyEqL] at hw
        rw [this] at hys
        rw [mapR_nil_inv hys]
      · cases hn
  | deque =>
    obtain ⟨n, hn⟩ := render_inv h
    cases hv with
    | @deque _ xs hx =>
      unfold renderF at hn
      rw [hsers, pickSer_nil] at hn
      simp only [pyIter] at hn
      split at hn
      · rename_i ys hys
        cases hn
        have : ys = [] := by
          cases ys with
          | nil => rfl
          | cons y ys => simp [truthy, pyEq] at hw
        rw [this] at hys
        rw [mapR_nil_inv hys]
      · cases hn
  | tupleV =>
    obtain ⟨n, hn⟩ := render_inv h
    cases hv with
    | @tupleV _ xs hx =>
      unfold renderF at hn
      rw [hsers, pickSer_nil] at hn
      simp only [pyIter] at hn
      split at hn
      · rename_i ys hys
        cases hn
        have : ys = [] := by
          cases ys with
          | nil => rfl
          | cons y ys => simp [truthy, pyEq, pyEqL] at hw
        rw [this] at hys
        rw [mapR_nil_inv hys]
      · cases hn
  | set =>
    obtain ⟨n, hn⟩ := render_inv h
    cases hv with
    | @set _ _ xs hx =>
      unfold renderF at hn
      rw [hsers, pickSer_nil] at hn
      simp only [pyIter] at hn
      split at hn
      · rename_i ys hys
        have : ys = [] := by
          cases ys with
          | nil => rfl
          | cons y ys =>
            exfalso
            split at hn
            · cases hn; simp [truthy, pyEq] at hw
            · unfold mkSet at hn
              split at hn
              · cases hn
                have := dedup_ne (x := y) (xs := ys)
                cases hd : dedup (y :: ys) with
                | nil => exact this hd
                | cons _ _ => rw [hd] at hw; simp [truthy, pyEq] at hw
              · cases hn
        rw [this] at hys
        rw [mapR_nil_inv hys]
      · cases hn
  | dict =>
    obtain ⟨n, hn⟩ := render_inv h
    cases hv with
    | @dict _ _ _ kvs hx =>
      unfold renderF at hn
      rw [hsers, pickSer_nil] at hn
      simp only [pyItems] at hn
      split at hn
      · rename_i ys hys
        have : ys = [] := by
          cases ys with
          | nil => rfl
          | cons y ys =>
            exfalso
            unfold mkDict at hn
            split at hn
            · cases hn
              have := dictOf_ne (x := y) (xs := ys)
              cases hd : dictOf (y :: ys) with
              | nil => exact this hd
              | cons _ _ => rw [hd] at hw; simp [truthy, pyEq] at hw
            · cases hn
        rw [this] at hys
        rw [mapR_nil_inv hys]
      · cases hn

theorem prim_eq {env : Env} {p v d} (hv : HasTy env (.prim p) v) (hd : HasTy env (.prim p) d) (h : pyEq v d = true) : v = d := by
  cases hv with
  | int => cases hd; simp [pyEq, Val.num, Flt.eqv] at h; rw [h]
  | @float x => cases hd with | @float y => cases x <;> cases y <;> simp_all [pyEq, Val.num, Flt.eqv]
  | @bool x => cases hd with | @bool y => cases x <;> cases y <;> simp_all [pyEq, Val.num, Flt.eqv]
  | str => cases hd; simp_all [pyEq]

theorem asIs_restored {env : Env} {F : Fmt env} {S t d v w} (ht : AsIs t) (hv : HasTy env t v) (hd : HasTy env t d) (h : Enc env F S t v w)
    (hw : pyEq w d = true) : v = d := by
  have hsers : (seCxOf F S).sers = [] := rfl
  cases ht with
  | prim => rw [prim_wire hv h] at hw; exact prim_eq hv hd hw
  | @optPrim p =>
    obtain ⟨n, hn⟩ := render_inv h
    unfold renderF at hn
    rw [hsers, pickSer_nil] at hn
    simp only [isOpt_pair (t := .prim p) (by simp), if_true] at hn
    have hcase : ∀ x, HasTy env (.union [.prim p, .none]) x → x = .none ∨ HasTy env (.prim p) x := by
      intro x hx
      cases hx with
      | union hm hx =>
        rcases List.mem_cons.1 hm with rfl | hm
        · exact .inr hx
        · rw [List.mem_singleton.1 hm] at hx
          cases hx; exact .inl rfl
    rcases hcase v hv with rfl | hv'
    · cases hn
      cases d <;> simp [pyEq] at hw
      rfl
    · have hwv : w = v := by
        have hr : (seAt env n).render (seCxOf F S) { ty := .prim p, v := .ok v } = .ok w := by
          cases hv' <;> exact hn
        cases n with
        | zero => cases hr
        | succ n =>
          rw [scalar_se .prim hv'] at hr
          rw [← Except.ok.inj hr]; exact (wire_prim F hv').2.1
      subst hwv
      rcases hcase d hd with rfl | hd'
      · cases hv' <;> simp [pyEq, Val.num] at hw
      · exact prim_eq hv' hd' hw

/-! ## The entries of a field -/

/-- What the dict based functions of `c` do with field `f` holding `v`: the entries written, and how they are read. -/
structure FieldEnc (env : Env) (F : Fmt env) (c : ClassId) (cd : ClassDef) (f : FieldDef) (v : Val) (es : List (String × Val)) : Prop where
  se : Ev (fun n => ∀ obj (res : List (Val × Val)), getAttr obj f.name = .ok v → (∀ kv ∈ res, ∀ k ∈ wiresOf env cd f, pyEq kv.1 (.str k) = false) →
    seField env (seAt env n) (seCxOf F (scopeOf env true c cd)) cd obj res f = .ok (res ++ strKeys es))
  de : Ev (fun n => ∀ cx dk kvs, DeM F (scopeOf env true c cd) cx → cx.data = .dict dk kvs → (∀ e ∈ es, getStr e.1 kvs = some (F.wire e.2)) →
    (∀ k ∈ wiresOf env cd f, k ∉ es.map (·.1) → getStr k kvs = none) →
    (cd.denyUnknown = true → ∀ kv ∈ kvs, ∃ k ∈ env.known c, kv.1 = .str k) →
    deField env (deAt env n) cx c cd [] (.dict dk kvs) f = .ok v)
  keys : (es.map (·.1)).Sublist (wiresOf env cd f)

theorem inlined_plain {f : FieldDef} (h : f.flatten = false) : inlined f = none := by
  unfold inlined; rw [h]

theorem wiresOf_plain {env : Env} {cd : ClassDef} {f} (h : f.flatten = false) : wiresOf env cd f = [f.conv cd.deCase] := by
  unfold wiresOf; rw [inlined_plain h]

theorem falsy_notInst {env : Env} {t d} (h : Falsy env t d) : ∀ c as, d ≠ .inst c as := by
  cases h <;> (intro c as h; cases h)

theorem asIs_notInst {env : Env} {t d} (h : AsIs t) (hd : HasTy env t d) : ∀ c as, d ≠ .inst c as := by
  cases h with
  | prim => cases hd <;> (intro c as h; cases h)
  | optPrim =>
    cases hd with
    | union hm hx =>
      rcases List.mem_cons.1 hm with rfl | hm
      · cases hx <;> (intro c as h; cases h)
      · rw [List.mem_singleton.1 hm] at hx
        cases hx; intro c as h; cases h

/-- Whether the entry is left out, and if so, that reading restores the value. -/
theorem skip_cases {env : Env} {F : Fmt env} {c} {cd : ClassDef} {f v w} (hpl : FieldPlain cd f) (hru : RuleOk env F cd f)
    (hv : HasTy env f.ty v) (hE : Enc env F (scopeOf env true c cd) f.ty v w) :
    (∀ n, skips env (seAt env n) (seCxOf F (scopeOf env true c cd)) (f.skipRule cd) w = .ok false) ∨
    (∀ n, skips env (seAt env n) (seCxOf F (scopeOf env true c cd)) (f.skipRule cd) w = .ok true) ∧
      Ev (fun n => ∀ cx c' ex dk kvs, DeM F (scopeOf env true c cd) cx → cx.data = .dict dk kvs → getStr (f.conv cd.deCase) kvs = none →
        deField env (deAt env n) cx c' cd ex (.dict dk kvs) f = .ok v) := by
  have hnone : w = .none → NoneRestored env f → Ev (fun n => ∀ cx c' ex dk kvs, DeM F (scopeOf env true c cd) cx → cx.data = .dict dk kvs →
      getStr (f.conv cd.deCase) kvs = none → deField env (deAt env n) cx c' cd ex (.dict dk kvs) f = .ok v) := by
    intro hw hr
    have hwn : F.wire w = .none := by rw [hw]; exact F.wire_none
    have hvn : v = .none := hE.2.2.1 hwn
    rw [hvn] at hE hv ⊢
    exact deField_missing_none hpl hE hwn hv hr
  have hdflt : ∀ d, f.alias = [] → f.dflt = some d → v = d → Ev (fun n => ∀ cx c' ex dk kvs, DeM F (scopeOf env true c cd) cx → cx.data = .dict dk kvs →
      getStr (f.conv cd.deCase) kvs = none → deField env (deAt env n) cx c' cd ex (.dict dk kvs) f = .ok v) := by
    intro d hal hd hvd
    exact Ev.pos.mono (fun n hn cx c' ex dk kvs _ _ hget => by
      obtain ⟨m, rfl⟩ := hn
      rw [hvd]; exact deField_missing_dflt hpl.noFlatten hal hd hget)
  cases hru with
  | never hno hsn =>
    have hrule : f.skipRule cd = .never := by
      unfold FieldDef.skipRule
      rw [hno.1, hno.2.1, hno.2.2.1, hno.2.2.2]; rfl
    rw [hrule]
    by_cases hw : w = .none
    · cases hs : F.skipNone with
      | false => exact .inl (fun n => by rw [hw]; unfold skips; rw [← hs]; rfl)
      | true => exact .inr ⟨fun n => by rw [hw]; unfold skips; rw [← hs]; rfl, hnone hw (hsn hs)⟩
    · exact .inl (fun n => by unfold skips; cases w <;> first | rfl | exact absurd rfl hw)
  | ifNone h1 h2 h3 hr =>
    by_cases hw : w = .none
    · cases h4 : f.skipIfNone.getD cd.skipIfNoneDflt with
      | true =>
        have hrule : f.skipRule cd = .ifNone := by
          unfold FieldDef.skipRule
          rw [h1, h2, h3, h4]; rfl
        rw [hrule, hw]
        exact .inr ⟨fun n => rfl, hnone hw hr⟩
      | false =>
        have hrule : f.skipRule cd = .never := by
          unfold FieldDef.skipRule
          rw [h1, h2, h3, h4]; rfl
        rw [hrule]
        cases hs : F.skipNone with
        | false => exact .inl (fun n => by rw [hw]; unfold skips; rw [← hs]; rfl)
        | true => exact .inr ⟨fun n => by rw [hw]; unfold skips; rw [← hs]; rfl, hnone hw hr⟩
    · refine .inl (fun n => ?_)
      unfold FieldDef.skipRule
      rw [h1, h2, h3]
      dsimp only
      simp only [Bool.false_eq_true, if_false]
      split <;> (unfold skips; cases w <;> first | rfl | exact absurd rfl hw)
  | @ifFalse d h1 h2 hal hd hf =>
    have hrule : f.skipRule cd = .ifFalse := by
      unfold FieldDef.skipRule
      rw [h1, h2]; rfl
    rw [hrule]
    cases ht : truthy env w with
    | true => exact .inl (fun n => by unfold skips; dsimp only; rw [ht]; rfl)
    | false =>
      exact .inr ⟨fun n => by unfold skips; dsimp only; rw [ht]; rfl, hdflt d hal hd (falsy_restored hf hv hE (.inl ht))⟩
  | @ifDefault d h1 h2 h3 hal hd hf =>
    have hrule : f.skipRule cd = .ifDefault (some d) := by
      unfold FieldDef.skipRule
      rw [h1, h2, h3, hd]; rfl
    rw [hrule]
    have hinst : ∀ n, skips env (seAt env n) (seCxOf F (scopeOf env true c cd)) (.ifDefault (some d)) w = .ok (pyEq w d) := by
      intro n
      have hni : ∀ c as, d ≠ .inst c as := by
        rcases hf with hf | ⟨hf, hd'⟩
        · exact falsy_notInst hf
        · exact asIs_notInst hf hd'
      unfold skips
      cases d <;> first | rfl | exact absurd rfl (hni _ _)
    cases hp : pyEq w d with
    | false => exact .inl (fun n => by rw [hinst, hp])
    | true =>
      refine .inr ⟨fun n => by rw [hinst, hp], hdflt d hal hd ?_⟩
      rcases hf with hf | ⟨hf, hd'⟩
      · exact falsy_restored hf hv hE (.inr hp)
      · exact asIs_restored hf hv hd' hE hp

theorem fieldEnc_plain {env : Env} {F : Fmt env} {c} {cd : ClassDef} {f v w} (hpl : FieldPlain cd f) (hru : RuleOk env F cd f)
    (hv : HasTy env f.ty v) (hE : Enc env F (scopeOf env true c cd) f.ty v w) :
    FieldEnc env F c cd f v [(f.conv cd.deCase, w)] ∨ FieldEnc env F c cd f v [] := by
  have hse : ∀ n obj (res : List (Val × Val)), getAttr obj f.name = .ok v →
      (seAt env n).render (seCxOf F (scopeOf env true c cd)) { ty := f.ty, v := .ok v } = .ok w →
      seField env (seAt env (n + 1)) (seCxOf F (scopeOf env true c cd)) cd obj res f =
        match skips env (seAt env (n + 1)) (seCxOf F (scopeOf env true c cd)) (f.skipRule cd) w with
        | .error e => .error e
        | .ok true => .ok res
        | .ok false => .ok (dictSet (.str (f.conv cd.deCase)) w res) := by
    intro n obj res ho hw
    unfold seField
    have ha : seFieldArg f (.ok obj) = { ty := f.ty, v := .ok v } := by
      unfold seFieldArg; dsimp only; rw [hpl.noCustom.1, hpl.noFlatten, ho]
    rw [ha, flat_plain rfl rfl rfl, hw]
    simp only [joinVals]
    rw [plain_lvals hpl.noFlatten, hpl.sameName]
    rfl
  rcases skip_cases hpl hru hv hE with hk | ⟨hk, hde⟩
  · left
    refine ⟨hE.1.step (fun n hn obj res ho hres => ?_), (deField_present hpl hE).mono (fun n hn cx dk kvs hcx hdata hes _ _ => ?_), ?_⟩
    · rw [hse n obj res ho hn, hk]
      dsimp only
      rw [dictSet_new (fun kv hkv => hres kv hkv _ (by rw [wiresOf_plain hpl.noFlatten]; simp))]
      rfl
    · exact hn cx c [] dk kvs hcx hdata (hes (f.conv cd.deCase, w) (by simp))
    · rw [wiresOf_plain hpl.noFlatten]; simp
  · right
    refine ⟨hE.1.step (fun n hn obj res ho hres => ?_), hde.mono (fun n hn cx dk kvs hcx hdata _ hno _ => ?_), ?_⟩
    · rw [hse n obj res ho hn, hk]
      simp [strKeys]
    · exact hn cx c [] dk kvs hcx hdata (hno _ (by rw [wiresOf_plain hpl.noFlatten]; simp) (by simp))
    · simp

end Verif
