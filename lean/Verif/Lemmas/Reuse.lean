import Verif.Spec.Reuse
import Verif.Lemmas.Safe
/-!
# Serialization with and without reuse_instances
-/

namespace Verif
open Spec

theorem Spec.StrungR.rfl' {b} (x : Res Val) : StrungR b x x := by
  cases x with
  | error e => exact .inl ⟨e, rfl, rfl⟩
  | ok v => exact .inr ⟨v, v, rfl, rfl, .same, fun _ => rfl⟩

theorem Spec.StrungR.of_eq {b} {x y : Res Val} (h : x = y) : StrungR b x y := h ▸ .rfl' x

theorem Spec.StrungR.eq {x y : Res Val} (h : StrungR true x y) : x = y := by
  rcases h with ⟨e, h1, h2⟩ | ⟨v, w, h1, h2, _, h3⟩
  · rw [h1, h2]
  · rw [h1, h2, h3 rfl]

theorem Spec.StrungR.weaken {b} {x y : Res Val} (h : StrungR true x y) : StrungR b x y := .of_eq h.eq

theorem Spec.StrungL.rfl' : ∀ xs, StrungL xs xs
  | [] => .nil
  | _ :: xs => .cons .same (Spec.StrungL.rfl' xs)

theorem Spec.StrungD.rfl' : ∀ xs, StrungD xs xs
  | [] => .nil
  | (_, _) :: xs => .cons .same (Spec.StrungD.rfl' xs)

theorem mapR_strung {α : Type} {f g : α → Res Val} {b : Bool} {as : List α} (h : ∀ a ∈ as, StrungR b (f a) (g a)) :
    (∃ e, mapR f as = .error e ∧ mapR g as = .error e) ∨
    ∃ xs ys, mapR f as = .ok xs ∧ mapR g as = .ok ys ∧ StrungL xs ys ∧ (b = true → xs = ys) := by
  induction as with
  | nil => exact .inr ⟨[], [], rfl, rfl, .nil, fun _ => rfl⟩
  | cons a as ih =>
    simp only [mapR]
    rcases h a (by simp) with ⟨e, h1, h2⟩ | ⟨v, w, h1, h2, h3, h4⟩
    · exact .inl ⟨e, by rw [h1], by rw [h2]⟩
    · rcases ih (fun x hx => h x (by simp [hx])) with ⟨e, h5, h6⟩ | ⟨xs, ys, h5, h6, h7, h8⟩
      · exact .inl ⟨e, by rw [h1, h5], by rw [h2, h6]⟩
      · exact .inr ⟨v :: xs, w :: ys, by rw [h1, h5], by rw [h2, h6], .cons h3 h7, fun hb => by rw [h4 hb, h8 hb]⟩

/-- Entries with equal keys and related values. -/
theorem mapR_strungD {f g : Val × Val → Res (Val × Val)} {b : Bool} {kvs : List (Val × Val)}
    (h : ∀ kv ∈ kvs, (∃ e, f kv = .error e ∧ g kv = .error e) ∨
      ∃ k v w, f kv = .ok (k, v) ∧ g kv = .ok (k, w) ∧ Strung v w ∧ (b = true → v = w)) :
    (∃ e, mapR f kvs = .error e ∧ mapR g kvs = .error e) ∨
    ∃ xs ys, mapR f kvs = .ok xs ∧ mapR g kvs = .ok ys ∧ StrungD xs ys ∧ (b = true → xs = ys) := by
  induction kvs with
  | nil => exact .inr ⟨[], [], rfl, rfl, .nil, fun _ => rfl⟩
  | cons a as ih =>
    simp only [mapR]
    rcases h a (by simp) with ⟨e, h1, h2⟩ | ⟨k, v, w, h1, h2, h3, h4⟩
    · exact .inl ⟨e, by rw [h1], by rw [h2]⟩
    · rcases ih (fun x hx => h x (by simp [hx])) with ⟨e, h5, h6⟩ | ⟨xs, ys, h5, h6, h7, h8⟩
      · exact .inl ⟨e, by rw [h1, h5], by rw [h2, h6]⟩
      · exact .inr ⟨(k, v) :: xs, (k, w) :: ys, by rw [h1, h5], by rw [h2, h6], .cons h3 h7, fun hb => by rw [h4 hb, h8 hb]⟩

theorem Spec.StrungD.keys {xs ys} (h : StrungD xs ys) : xs.map (·.1) = ys.map (·.1) := by
  induction xs generalizing ys with
  | nil => cases h; rfl
  | cons e xs ih => cases h with | cons _ h => simp [ih h]

theorem Spec.StrungD.set {k v w xs ys} (hv : Strung v w) (h : StrungD xs ys) : StrungD (dictSet k v xs) (dictSet k w ys) := by
  induction xs generalizing ys with
  | nil => cases h; exact .cons hv .nil
  | cons e xs ih =>
    cases h with
    | cons h1 h =>
      unfold dictSet
      split
      · exact .cons hv h
      · exact .cons h1 (ih h)

theorem Spec.StrungD.of {xs ys : List (Val × Val)} (h : StrungD xs ys) : StrungD (dictOf xs) (dictOf ys) := by
  have : ∀ a b, StrungD a b → StrungD (xs.foldl (fun acc e => dictSet e.1 e.2 acc) a) (ys.foldl (fun acc e => dictSet e.1 e.2 acc) b) := by
    induction xs generalizing ys with
    | nil => cases h; exact fun a b hab => hab
    | cons e xs ih =>
      cases h with
      | cons h1 h => exact fun a b hab => ih h _ _ (.set h1 hab)
  exact this [] [] .nil

theorem mkDict_strung {hs k b xs ys} (h : StrungD xs ys) (he : b = true → xs = ys) : StrungR b (mkDict hs k xs) (mkDict hs k ys) := by
  unfold mkDict
  rw [h.keys]
  split
  · exact .inr ⟨_, _, rfl, rfl, .dict (.of h), fun hb => by rw [he hb]⟩
  · exact .inl ⟨_, rfl, rfl⟩

theorem dict_strung {hs b} {x y : Res (List (Val × Val))} :
    ((∃ e, x = .error e ∧ y = .error e) ∨ ∃ xs ys, x = .ok xs ∧ y = .ok ys ∧ StrungD xs ys ∧ (b = true → xs = ys)) →
    StrungR b (match x with
      | .ok es => mkDict hs .plain es
      | .error e => .error e) (match y with
      | .ok es => mkDict hs .plain es
      | .error e => .error e) := by
  rintro (⟨e, rfl, rfl⟩ | ⟨xs, ys, rfl, rfl, h1, h2⟩)
  · exact .inl ⟨e, rfl, rfl⟩
  · exact mkDict_strung h1 h2

theorem plainDict_strung {b} {x y : Res (List (Val × Val))} :
    ((∃ e, x = .error e ∧ y = .error e) ∨ ∃ xs ys, x = .ok xs ∧ y = .ok ys ∧ StrungD xs ys ∧ (b = true → xs = ys)) →
    StrungR b (match x with
      | .ok es => .ok (.dict .plain es)
      | .error e => .error e) (match y with
      | .ok es => .ok (.dict .plain es)
      | .error e => .error e) := by
  rintro (⟨e, rfl, rfl⟩ | ⟨xs, ys, rfl, rfl, h1, h2⟩)
  · exact .inl ⟨e, rfl, rfl⟩
  · exact .inr ⟨_, _, rfl, rfl, .dict h1, fun hb => by rw [h2 hb]⟩

theorem Spec.StrungD.setItem {d k v w xs ys b} (hd : StrungD xs ys) (hv : Strung v w) (he : b = true → xs = ys ∧ v = w) :
    StrungR b (pySetItem (.dict d xs) k v) (pySetItem (.dict d ys) k w) :=
  .inr ⟨_, _, rfl, rfl, .dict (.set hv hd), fun hb => by rw [(he hb).1, (he hb).2]⟩

theorem setItem_strung {k u v w b} (h : Strung v w) (he : b = true → v = w) : StrungR b (pySetItem v k u) (pySetItem w k u) := by
  cases h with
  | same => exact .rfl' _
  | dict hd => exact hd.setItem .same (fun hb => ⟨by have := he hb; cases this; rfl, rfl⟩)
  | std => exact .inl ⟨_, rfl, rfl⟩
  | dt => exact .inl ⟨_, rfl, rfl⟩
  | list _ => exact .inl ⟨_, rfl, rfl⟩
  | tuple _ => exact .inl ⟨_, rfl, rfl⟩

/-- The two contexts. -/
def SeCx.keep (cx : SeCx) (b : Bool) : SeCx := { cx with reuse := b }

/-- One value each, or the same error. -/
def OneR (b : Bool) (x y : Res (List Val)) : Prop :=
  (∃ e, x = .error e ∧ y = .error e) ∨ ∃ v w, x = .ok [v] ∧ y = .ok [w] ∧ Strung v w ∧ (b = true → v = w)

/-- The argument's value is clean unless it has a serializer of its own. -/
def ArgClean (env : Env) (S : List Ty → Prop) (cv b : Bool) (a : SeArg) : Prop :=
  (∀ g, a.ser ≠ some (.fn g)) → ∀ v, a.v = .ok v → Clean env S cv b a.ty v

/-- What the recursive calls are assumed to do. -/
structure ReuseRec (env : Env) (r : SeRec) : Prop where
  miss : ∀ (cx : SeCx) (a : SeArg) e, a.v = .error e → r.render (cx.keep true) a = r.render (cx.keep false) a
  custom : ∀ (cx : SeCx) (a : SeArg) g, a.ser = some (.fn g) → r.render (cx.keep true) a = r.render (cx.keep false) a
  render : ∀ (cx : SeCx) (S : List Ty → Prop) (a : SeArg) b v, (∀ us ∈ cx.unions, S us) → a.v = .ok v → Clean env S cx.conv b a.ty v →
    StrungR b (r.render (cx.keep true) a) (r.render (cx.keep false) a)
  flat : ∀ (cx : SeCx) (S : List Ty → Prop) (a : SeArg) b, (∀ us ∈ cx.unions, S us) → (a.flatten = true → a.ty.isFlattenDict = true) →
    ArgClean env S cx.conv b a → OneR b (r.flat (cx.keep true) a) (r.flat (cx.keep false) a)
  cls : ∀ nm cv sn b v, CleanObj env cv b v → StrungR b (r.cls nm (some true) cv sn v) (r.cls nm (some false) cv sn v)
  toObj : ∀ nm cv sn c tg v, (c = none ∨ c = some .any ∨ ∃ k, c = some (.cls k)) → CleanTop env cv v →
    StrungR false (r.toObj nm (some true) cv sn c tg v) (r.toObj nm (some false) cv sn c tg v)

section
variable {env : Env}

theorem strung_missing {r : SeRec} (hr : ReuseRec env r) {cx : SeCx} {a : SeArg} {e} (hv : a.v = .error e) :
    renderF env r (cx.keep true) a = renderF env r (cx.keep false) a := by
  have hrec : ∀ t, r.render (cx.keep true) { a with ty := t } = r.render (cx.keep false) { a with ty := t } := fun t => hr.miss cx _ e hv
  have hp : ∀ q, pickSer (cx.keep q).sers a = pickSer cx.sers a := fun _ => rfl
  unfold renderF
  rw [hp, hp]
  split
  · rfl
  · split
    · rfl
    · generalize a.ty = ty
      cases ty <;> first | (rw [hv]; done) | exact hrec _ | skip
      all_goals first | (rename_i k; cases k <;> (rw [hv]; done)) | (rename_i ts; cases ts <;> rw [hv])

theorem strung_custom {r : SeRec} {cx : SeCx} {a : SeArg} {g} (hg : a.ser = some (.fn g)) :
    renderF env r (cx.keep true) a = renderF env r (cx.keep false) a := by
  unfold renderF pickSer
  rw [hg]

theorem strung_union {r : SeRec} (hr : ReuseRec env r) {cx : SeCx} {S : List Ty → Prop} {b} (hS : ∀ us ∈ cx.unions, S us) {v}
    (hv : ∀ c as, v = .inst c as → (env.cls c).isSome) : ∀ {ts : List Ty}, (∀ t ∈ ts, ¬ Foreign env t v → Clean env S cx.conv b t v) →
    StrungR b (seUnion env r (cx.keep true) v ts) (seUnion env r (cx.keep false) v ts) := by
  intro ts
  induction ts with
  | nil => intro _; exact .rfl' _
  | cons t ts ih =>
    intro hf
    unfold seUnion
    split
    · rename_i hi
      have hfit : Clean env S cx.conv b t v := by
        refine hf t (by simp) (fun hfo => ?_)
        rw [isInst_foreign hv hfo] at hi
        cases hi
      rcases hr.render cx S { ty := t, v := .ok v } b v hS rfl hfit with ⟨e, h1, h2⟩ | ⟨x, y, h1, h2, h3, h4⟩
      · rw [h1, h2]; exact .inl ⟨e, rfl, rfl⟩
      · rw [h1, h2]
        dsimp only
        split
        · show StrungR b (match cx.tagging with
            | .external => _
            | .internal tag => _
            | .adjacent tag content => _
            | .untagged => _) (match cx.tagging with
            | .external => _
            | .internal tag => _
            | .adjacent tag content => _
            | .untagged => _)
          cases cx.tagging with
          | external => exact .inr ⟨_, _, rfl, rfl, .dict (.cons h3 .nil), fun hb => by rw [h4 hb]⟩
          | internal tag => exact setItem_strung h3 h4
          | adjacent tag content => exact setItem_strung (.dict (.cons h3 .nil)) (fun hb => by rw [h4 hb])
          | untagged => exact .inr ⟨_, _, rfl, rfl, h3, h4⟩
        · exact .inr ⟨_, _, rfl, rfl, h3, h4⟩
    · exact ih (fun t ht => hf t (by simp [ht]))

theorem strung_render {r : SeRec} (hr : ReuseRec env r) {cx : SeCx} {S : List Ty → Prop} {a : SeArg} {b v}
    (hS : ∀ us ∈ cx.unions, S us) (hv : a.v = .ok v) (hc : Clean env S cx.conv b a.ty v) :
    StrungR b (renderF env r (cx.keep true) a) (renderF env r (cx.keep false) a) := by
  by_cases hser : ∃ g, a.ser = some (.fn g)
  · obtain ⟨g, hg⟩ := hser
    exact .of_eq (strung_custom hg)
  replace hser : ∀ g, a.ser ≠ some (.fn g) := fun g hg => hser ⟨g, hg⟩
  have hat : ∀ t, Clean env S cx.conv b t v → StrungR b (r.render (cx.keep true) { a with ty := t }) (r.render (cx.keep false) { a with ty := t }) :=
    fun t ht => hr.render cx S { a with ty := t } b v hS hv ht
  have hel : ∀ t x b, Clean env S cx.conv b t x → StrungR b (r.render (cx.keep true) { ty := t, ser := a.ser, v := .ok x })
      (r.render (cx.keep false) { ty := t, ser := a.ser, v := .ok x }) :=
    fun t x b hx => hr.render cx S { ty := t, ser := a.ser, v := .ok x } b x hS rfl hx
  have hels : ∀ t (xs : List Val) b, (∀ x ∈ xs, Clean env S cx.conv b t x) → _ := fun t xs b hx =>
    mapR_strung (b := b) (f := fun x => r.render (cx.keep true) { ty := t, ser := a.ser, v := .ok x })
      (g := fun x => r.render (cx.keep false) { ty := t, ser := a.ser, v := .ok x }) (fun x hxm => hel t x b (hx x hxm))
  have hp : ∀ q, pickSer (cx.keep q).sers a = pickSer cx.sers a := fun _ => rfl
  unfold renderF
  rw [hp, hp]
  split
  · exact .rfl' _
  · split
    · exact .rfl' _
    · generalize hty : a.ty = ty at hc
      cases hc with
      | leaf hi =>
        cases hi <;> first | (rw [hv]; exact .rfl' _) | (rename_i k; cases k <;> (rw [hv]; exact .rfl' _))
      | std => rw [hv]; exact .inr ⟨_, _, rfl, rfl, .std, fun h => (nomatch h)⟩
      | dt => rw [hv]; exact .inr ⟨_, _, rfl, rfl, .dt, fun h => (nomatch h)⟩
      | list hi hx =>
        rw [hv]; dsimp only
        rw [items_iter hi]; dsimp only
        rcases hels _ _ _ hx with ⟨e, h1, h2⟩ | ⟨xs, ys, h1, h2, h3, h4⟩ <;> rw [h1, h2]
        · exact .inl ⟨e, rfl, rfl⟩
        · exact .inr ⟨_, _, rfl, rfl, .list h3, fun hb => by rw [h4 hb]⟩
      | deque hi hx =>
        rw [hv]; dsimp only
        rw [items_iter hi]; dsimp only
        rcases hels _ _ _ hx with ⟨e, h1, h2⟩ | ⟨xs, ys, h1, h2, h3, h4⟩ <;> rw [h1, h2]
        · exact .inl ⟨e, rfl, rfl⟩
        · exact .inr ⟨_, _, rfl, rfl, .list h3, fun hb => by rw [h4 hb]⟩
      | tupleV hi hx =>
        rw [hv]; dsimp only
        rw [items_iter hi]; dsimp only
        rcases hels _ _ _ hx with ⟨e, h1, h2⟩ | ⟨xs, ys, h1, h2, h3, h4⟩ <;> rw [h1, h2]
        · exact .inl ⟨e, rfl, rfl⟩
        · exact .inr ⟨_, _, rfl, rfl, .tuple h3, fun hb => by rw [h4 hb]⟩
      | set hcv hi hx =>
        have hcv' : ∀ q, (cx.keep q).conv = false := fun _ => hcv
        rw [hv]; dsimp only
        rw [items_iter hi]; dsimp only
        rw [hcv', hcv']
        rcases hels _ _ true hx with ⟨e, h1, h2⟩ | ⟨xs, ys, h1, h2, h3, h4⟩ <;> rw [h1, h2]
        · exact .inl ⟨e, rfl, rfl⟩
        · rw [h4 rfl]; exact .rfl' _
      | setConv hcv hi hx =>
        have hcv' : ∀ q, (cx.keep q).conv = true := fun _ => hcv
        rw [hv]; dsimp only
        rw [items_iter hi]; dsimp only
        rw [hcv', hcv']
        rcases hels _ _ _ hx with ⟨e, h1, h2⟩ | ⟨xs, ys, h1, h2, h3, h4⟩ <;> rw [h1, h2]
        · exact .inl ⟨e, rfl, rfl⟩
        · exact .inr ⟨_, _, rfl, rfl, .list h3, fun hb => by rw [h4 hb]⟩
      | counter hk =>
        rw [hv]
        simp only [pyItems]
        rename_i t d kvs
        refine dict_strung (mapR_strungD (b := b) (fun kv hkv => ?_))
        rw [(hel t kv.1 true (hk kv hkv)).eq]
        cases r.render (cx.keep false) { ty := t, ser := a.ser, v := .ok kv.1 } with
        | error e => exact .inl ⟨e, rfl, rfl⟩
        | ok k => exact .inr ⟨k, _, _, rfl, rfl, .same, fun _ => rfl⟩
      | dict hk hx =>
        rw [hv]
        simp only [pyItems]
        rename_i k kt vt d kvs
        refine dict_strung (mapR_strungD (b := b) (fun kv hkv => ?_))
        rw [(hel kt kv.1 true (hk kv hkv)).eq]
        cases r.render (cx.keep false) { ty := kt, ser := a.ser, v := .ok kv.1 } with
        | error e => exact .inl ⟨e, rfl, rfl⟩
        | ok k =>
          rcases hel vt kv.2 b (hx kv hkv) with ⟨e, h1, h2⟩ | ⟨v, w, h1, h2, h3, h4⟩ <;> simp only [h1, h2]
          · exact .inl ⟨e, rfl, rfl⟩
          · exact .inr ⟨k, v, w, rfl, rfl, h3, h4⟩
      | tuple hx =>
        rename_i ts xs
        cases ts with
        | nil => exact .rfl' _
        | cons t ts =>
          rw [hv]; dsimp only
          rcases mapR_strung (b := b) (f := fun it : Ty × Nat => r.render (cx.keep true) { ty := it.1, ser := a.ser, v := pyIndex (.tuple xs) it.2 })
            (g := fun it : Ty × Nat => r.render (cx.keep false) { ty := it.1, ser := a.ser, v := pyIndex (.tuple xs) it.2 })
            (as := (t :: ts).zipIdx) (fun it hit => by
              obtain ⟨t', i⟩ := it
              have hti := (List.mem_zipIdx_iff_getElem?.1 hit)
              dsimp only at hti ⊢
              cases hxi : xs[i]? with
              | none =>
                have hpi : pyIndex (.tuple xs) i = .error (.py .index) := by simp [pyIndex, hxi]
                rw [hpi]
                exact .of_eq (hr.miss cx _ _ rfl)
              | some x =>
                have hpi : pyIndex (.tuple xs) i = .ok x := by simp [pyIndex, hxi]
                rw [hpi]
                exact hel _ _ _ (hx i t' x hti hxi)) with ⟨e, h1, h2⟩ | ⟨xs, ys, h1, h2, h3, h4⟩ <;> rw [h1, h2]
          · exact .inl ⟨e, rfl, rfl⟩
          · exact .inr ⟨_, _, rfl, rfl, .tuple h3, fun hb => by rw [h4 hb]⟩
      | optNone ht =>
        rename_i t
        have hopt : (Ty.union [t, .none]).isOpt = true := by
          cases t <;> first | rfl | exact absurd rfl ht
        rw [hv]; dsimp only
        rw [hopt, if_pos rfl, if_pos rfl]
        exact .rfl' _
      | optSome ht h =>
        rename_i t
        have hopt : (Ty.union [t, .none]).isOpt = true := by
          cases t <;> first | rfl | exact absurd rfl ht
        rw [hv]; dsimp only
        rw [hopt, if_pos rfl, if_pos rfl]
        split
        · exact .rfl' _
        · exact hel _ _ _ h
      | union ho hkn hown hm =>
        rename_i ts
        have hfu : ∀ q, findUnion env (cx.keep q).unions (unionFuncName env ts) = findUnion env cx.unions (unionFuncName env ts) := fun _ => rfl
        rw [hv]; dsimp only
        rw [ho, hfu, hfu]
        simp only [Bool.false_eq_true, if_false]
        split
        · rename_i us hus
          have hname := hus
          unfold findUnion at hname
          replace hname := List.find?_some hname
          rw [beq_iff_eq] at hname
          have hus' := hown us (hS us (findUnion_mem hus)) hname
          subst hus'
          exact strung_union hr (cx := cx.inUnion env) hS hkn hm
        · exact .rfl' _
      | cls h => rw [hv]; exact hr.cls _ _ _ _ _ h
      | gen h => exact hat _ (.cls h)
      | alias h => exact hat _ h

/-- What a field contributes when it is not a flattened dataclass. -/
theorem flatF_single {r : SeRec} {cx : SeCx} {a : SeArg} (hf : a.flatten = true → a.ty.isFlattenDict = true) :
    flatF env r cx a = match r.render cx a with
      | .ok v => .ok [v]
      | .error e => .error e := by
  unfold flatF
  dsimp only
  split
  · rfl
  · split
    · rfl
    · split
      · rename_i hfl
        have := hf hfl
        split
        · rename_i c hc; rw [hc] at this; cases this
        · rename_i t hc; rw [hc] at this; cases this
        · rfl
      · rfl

theorem strung_flat {r : SeRec} (hr : ReuseRec env r) {cx : SeCx} {S : List Ty → Prop} {a : SeArg} {b}
    (hS : ∀ us ∈ cx.unions, S us) (hf : a.flatten = true → a.ty.isFlattenDict = true) (hc : ArgClean env S cx.conv b a) :
    OneR b (flatF env r (cx.keep true) a) (flatF env r (cx.keep false) a) := by
  rw [flatF_single hf, flatF_single hf]
  have : StrungR b (r.render (cx.keep true) a) (r.render (cx.keep false) a) := by
    by_cases hser : ∃ g, a.ser = some (.fn g)
    · obtain ⟨g, hg⟩ := hser
      exact .of_eq (hr.custom cx a g hg)
    · cases hv : a.v with
      | error e => exact .of_eq (hr.miss cx a e hv)
      | ok v => exact hr.render cx S a b v hS hv (hc (fun g hg => hser ⟨g, hg⟩) v hv)
  rcases this with ⟨e, h1, h2⟩ | ⟨v, w, h1, h2, h3, h4⟩ <;> rw [h1, h2]
  · exact .inl ⟨e, rfl, rfl⟩
  · exact .inr ⟨v, w, rfl, rfl, h3, h4⟩

theorem clean_flattenDict {S : List Ty → Prop} {cv b t v} (ht : t.isFlattenDict = true) (h : Clean env S cv b t v) : Clean env S cv true t v := by
  cases h with
  | leaf hi => exact .leaf hi
  | dict hk hx =>
    rename_i k kt vt d kvs
    have : kt = .prim .str ∧ vt = .any := by
      unfold Ty.isFlattenDict at ht
      split at ht
      · cases ht
      · rename_i h; cases h
      · rename_i h; cases h; exact ⟨rfl, rfl⟩
      · cases ht
    obtain ⟨rfl, rfl⟩ := this
    exact .dict (fun _ _ => .leaf .prim) (fun _ _ => .leaf .any)
  | _ => cases ht

/-- Entries written so far. -/
def EntsR (b : Bool) (x y : Res (List (Val × Val))) : Prop :=
  (∃ e, x = .error e ∧ y = .error e) ∨ ∃ v w, x = .ok v ∧ y = .ok w ∧ StrungD v w ∧ (b = true → v = w)

theorem EntsR.rfl' {b} (x : Res (List (Val × Val))) : EntsR b x x := by
  cases x with
  | error e => exact .inl ⟨e, rfl, rfl⟩
  | ok v => exact .inr ⟨v, v, rfl, rfl, .rfl' v, fun _ => rfl⟩

theorem StrungD_getVal {k xs ys} (h : StrungD xs ys) : (getVal k xs).isSome = (getVal k ys).isSome := by
  induction xs generalizing ys with
  | nil => cases h; rfl
  | cons e xs ih =>
    cases h with
    | cons _ h =>
      unfold getVal
      split
      · rfl
      · exact ih h

theorem strung_merge {b xs ys kvs} (h : StrungD xs ys) (he : b = true → xs = ys) :
    StrungD (mergeDict xs kvs) (mergeDict ys kvs) ∧ (b = true → mergeDict xs kvs = mergeDict ys kvs) := by
  refine ⟨?_, fun hb => by rw [he hb]⟩
  clear he
  induction kvs generalizing xs ys with
  | nil => exact h
  | cons e kvs ih =>
    obtain ⟨k, v⟩ := e
    unfold mergeDict
    rw [StrungD_getVal h]
    split
    · exact ih h
    · exact ih (.set .same h)

theorem strung_skips {r : SeRec} {cx : SeCx} {cd : ClassDef} {f : FieldDef} {v w} (h : Strung v w) (he : ValueRule cd f → v = w) :
    skips env r (cx.keep true) (f.skipRule cd) v = skips env r (cx.keep false) (f.skipRule cd) w := by
  by_cases hv : ValueRule cd f
  · rw [he hv]; rfl
  · have : f.skipRule cd = .ifNone ∨ f.skipRule cd = .never := by
      unfold FieldDef.skipRule
      have h1 : f.skipIf = none := by
        cases hs : f.skipIf with
        | none => rfl
        | some p => exact absurd (.inl (by rw [hs]; simp)) hv
      have h2 : f.skipIfFalse = false := by
        cases hs : f.skipIfFalse with
        | false => rfl
        | true => exact absurd (.inr (.inl hs)) hv
      have h3 : f.skipIfDefault.getD cd.skipIfDefaultDflt = false := by
        cases hs : f.skipIfDefault.getD cd.skipIfDefaultDflt with
        | false => rfl
        | true => exact absurd (.inr (.inr hs)) hv
      rw [h1, h2, h3]
      dsimp only
      simp only [Bool.false_eq_true, if_false]
      split
      · exact .inl rfl
      · exact .inr rfl
    rcases this with h' | h' <;> rw [h'] <;> cases h <;> rfl

theorem lvals_plain {case n} {f : FieldDef} (h : f.flatten = false) : lvals env case (n + 1) f = [.key (f.conv case)] := by
  unfold lvals FieldDef.flatChild FieldDef.flatDict
  simp [h]

theorem lvals_mark {case n} {f : FieldDef} (h : f.flatten = true) (ht : f.ty.isFlattenDict = true) : lvals env case (n + 1) f = [.mark] := by
  have : f.flatChild = none := by
    unfold FieldDef.flatChild
    split
    · rfl
    · split
      · rename_i h; rw [h] at ht; cases ht
      · rename_i h; rw [h] at ht; cases ht
      · rfl
  unfold lvals FieldDef.flatDict
  simp [h, ht, this]

theorem strung_field {r : SeRec} (hr : ReuseRec env r) {cx : SeCx} {S : List Ty → Prop} {cd obj f b res res'}
    (hS : ∀ us ∈ cx.unions, S us) (hf : f.flatten = true → f.ty.isFlattenDict = true)
    (hc : ∀ q, (q = b ∨ ValueRule cd f ∧ q = true) → ArgClean env S cx.conv q (seFieldArg f (.ok obj)))
    (hd : StrungD res res') (he : b = true → res = res') :
    EntsR b (seField env r (cx.keep true) cd obj res f) (seField env r (cx.keep false) cd obj res' f) := by
  have h0 := hr.flat cx S (seFieldArg f (.ok obj)) b hS hf (hc b (.inl rfl))
  unfold seField
  cases hfl : f.flatten with
  | false =>
    rw [lvals_plain hfl]
    rcases h0 with ⟨e, h1, h2⟩ | ⟨v, w, h1, h2, h3, h4⟩ <;> rw [h1, h2]
    · exact .inl ⟨e, rfl, rfl⟩
    · have hvr : ValueRule cd f → v = w := fun hv => by
        rcases hr.flat cx S (seFieldArg f (.ok obj)) true hS hf (hc true (.inr ⟨hv, rfl⟩)) with ⟨e, h5, _⟩ | ⟨v', w', h5, h6, _, h8⟩
        · rw [h1] at h5; cases h5
        · rw [h1] at h5; rw [h2] at h6; cases h5; cases h6; exact h8 rfl
      simp only [joinVals]
      rw [strung_skips h3 hvr]
      cases skips env r (cx.keep false) (f.skipRule cd) w with
      | error e => exact .inl ⟨e, rfl, rfl⟩
      | ok q =>
        cases q with
        | true => exact .inr ⟨_, _, rfl, rfl, hd, he⟩
        | false => exact .inr ⟨_, _, rfl, rfl, .set h3 hd, fun hb => by rw [h4 hb, he hb]⟩
  | true =>
    rw [lvals_mark hfl (hf hfl)]
    have h0 : OneR true (r.flat (cx.keep true) (seFieldArg f (.ok obj))) (r.flat (cx.keep false) (seFieldArg f (.ok obj))) :=
      hr.flat cx S (seFieldArg f (.ok obj)) true hS hf (fun hn v hv => clean_flattenDict (hf hfl) (hc b (.inl rfl) hn v hv))
    rcases h0 with ⟨e, h1, h2⟩ | ⟨v, w, h1, h2, h3, h4⟩ <;> rw [h1, h2]
    · exact .inl ⟨e, rfl, rfl⟩
    · cases h4 rfl
      simp only [joinVals]
      split
      · split
        · exact .inr ⟨_, _, rfl, rfl, (strung_merge hd he).1, (strung_merge hd he).2⟩
        · exact .inl ⟨_, rfl, rfl⟩
      · exact .inr ⟨_, _, rfl, rfl, hd, he⟩

theorem strung_fields {r : SeRec} (hr : ReuseRec env r) {cx : SeCx} {S : List Ty → Prop} {cd obj b} (hS : ∀ us ∈ cx.unions, S us) :
    ∀ {fs : List FieldDef} {res res'}, (∀ f ∈ fs, f.flatten = true → f.ty.isFlattenDict = true) →
    (∀ f ∈ fs, ∀ q, (q = b ∨ ValueRule cd f ∧ q = true) → ArgClean env S cx.conv q (seFieldArg f (.ok obj))) →
    StrungD res res' → (b = true → res = res') →
    EntsR b (seFields env r (cx.keep true) cd obj res fs) (seFields env r (cx.keep false) cd obj res' fs) := by
  intro fs
  induction fs with
  | nil => intro res res' _ _ hd he; exact .inr ⟨_, _, rfl, rfl, hd, he⟩
  | cons f fs ih =>
    intro res res' hf hc hd he
    unfold seFields
    rcases strung_field hr hS (hf f (by simp)) (hc f (by simp)) hd he with ⟨e, h1, h2⟩ | ⟨v, w, h1, h2, h3, h4⟩ <;> rw [h1, h2]
    · exact .inl ⟨e, rfl, rfl⟩
    · exact ih (fun f hm => hf f (by simp [hm])) (fun f hm => hc f (by simp [hm])) h3 h4

theorem StrungL_append {a b c d : List Val} (h : StrungL a b) (h' : StrungL c d) : StrungL (a ++ c) (b ++ d) := by
  induction a generalizing b with
  | nil => cases h; exact h'
  | cons x a ih => cases h with | cons h1 h => exact .cons h1 (ih h)

theorem concatR_strung {α : Type} {f g : α → Res (List Val)} {b : Bool} {as : List α} (h : ∀ a ∈ as, OneR b (f a) (g a)) :
    (∃ e, concatR f as = .error e ∧ concatR g as = .error e) ∨
    ∃ xs ys, concatR f as = .ok xs ∧ concatR g as = .ok ys ∧ StrungL xs ys ∧ (b = true → xs = ys) := by
  induction as with
  | nil => exact .inr ⟨[], [], rfl, rfl, .nil, fun _ => rfl⟩
  | cons a as ih =>
    simp only [concatR]
    rcases h a (by simp) with ⟨e, h1, h2⟩ | ⟨v, w, h1, h2, h3, h4⟩
    · exact .inl ⟨e, by rw [h1], by rw [h2]⟩
    · rcases ih (fun x hx => h x (by simp [hx])) with ⟨e, h5, h6⟩ | ⟨xs, ys, h5, h6, h7, h8⟩
      · exact .inl ⟨e, by rw [h1, h5], by rw [h2, h6]⟩
      · exact .inr ⟨v :: xs, w :: ys, by rw [h1, h5]; rfl, by rw [h2, h6]; rfl, .cons h3 h7, fun hb => by rw [h4 hb, h8 hb]⟩

theorem strung_cls {r : SeRec} (hr : ReuseRec env r) {nm cv sn b v} (hc : CleanObj env cv b v) :
    StrungR b (clsF env r nm (some true) cv sn v) (clsF env r nm (some false) cv sn v) := by
  cases hc with
  | mk hcd hfl hall =>
    rename_i c cd attrs
    unfold clsF
    dsimp only
    rw [hcd]
    dsimp only
    have hcx : ∀ q, clsSeCx env c cd nm (some q) cv sn = (clsSeCx env c cd nm (some true) cv sn).keep q := fun _ => rfl
    rw [hcx true, hcx false]
    generalize hC : clsSeCx env c cd nm (some true) cv sn = cx
    have hS : ∀ us ∈ cx.unions, (fun us => Reach env true (.cls c) (.union us)) us := fun us hus => by
      rw [← hC] at hus; exact unionsOf_iff.1 hus
    have hcv : cx.conv = cv.getD cd.convDflt := by rw [← hC]; rfl
    have hmem : ∀ f ∈ cd.seFieldsOf, f ∈ cd.fields ∧ f.skip = false ∧ f.skipSer = false := by
      intro f hf
      unfold ClassDef.seFieldsOf at hf
      obtain ⟨hf1, hf2⟩ := List.mem_filter.1 hf
      simp only [Bool.not_eq_true', Bool.or_eq_false_iff] at hf2
      exact ⟨hf1, hf2⟩
    have hF : ∀ f ∈ cd.seFieldsOf, f.flatten = true → f.ty.isFlattenDict = true := fun f hf =>
      hfl f (hmem f hf).1 (hmem f hf).2.1 (hmem f hf).2.2
    have hA : ∀ f ∈ cd.seFieldsOf, ∀ q, (q = b ∨ ValueRule cd f ∧ q = true) →
        ArgClean env (fun us => Reach env true (.cls c) (.union us)) cx.conv q (seFieldArg f (.ok (.inst c attrs))) := by
      intro f hf q hq hno x hx
      obtain ⟨h1, h2, h3⟩ := hmem f hf
      have hx' : getAttr (.inst c attrs) f.name = .ok x := hx
      unfold getAttr at hx'
      dsimp only at hx'
      split at hx'
      · rename_i y hy
        cases hx'
        rw [hcv]
        exact hall f h1 h2 h3 hno x hy q hq
      · cases hx'
    split
    · split
      · exact .rfl' _
      · rename_i f fs hfs
        have hm : f ∈ cd.seFieldsOf := by rw [hfs]; simp
        rcases hr.flat cx _ _ b hS (hF f hm) (hA f hm b (.inl rfl)) with ⟨e, h1, h2⟩ | ⟨v, w, h1, h2, h3, h4⟩ <;> rw [h1, h2]
        · exact .inl ⟨e, rfl, rfl⟩
        · exact .inr ⟨v, w, rfl, rfl, h3, h4⟩
    · split
      · rcases strung_fields hr (cd := cd) (obj := .inst c attrs) (b := b) hS hF hA .nil (fun _ => rfl) with ⟨e, h1, h2⟩ | ⟨v, w, h1, h2, h3, h4⟩ <;> rw [h1, h2]
        · exact .inl ⟨e, rfl, rfl⟩
        · exact .inr ⟨_, _, rfl, rfl, .dict h3, fun hb => by rw [h4 hb]⟩
      · rcases concatR_strung (b := b) (f := fun f => r.flat (cx.keep true) (seFieldArg f (.ok (.inst c attrs))))
          (g := fun f => r.flat (cx.keep false) (seFieldArg f (.ok (.inst c attrs)))) (as := cd.seFieldsOf)
          (fun f hf => hr.flat cx _ _ b hS (hF f hf) (hA f hf b (.inl rfl))) with ⟨e, h1, h2⟩ | ⟨v, w, h1, h2, h3, h4⟩ <;> rw [h1, h2]
        · exact .inl ⟨e, rfl, rfl⟩
        · exact .inr ⟨_, _, rfl, rfl, .tuple h3, fun hb => by rw [h4 hb]⟩

theorem strung_cacheSe {r : SeRec} (hr : ReuseRec env r) {t cv sn v}
    (hc : bearable env t v = true → Clean env (fun _ => True) (cv.getD false) false t v) :
    StrungR false (cacheSe env r t (some true) cv sn v) (cacheSe env r t (some false) cv sn v) := by
  unfold cacheSe
  split
  · rename_i hb
    dsimp only
    let cx : SeCx := { named := true, reuse := true, conv := cv.getD false, skipNone := sn, coerce := false,
                       unions := env.unionsOfTy t, tagging := .external, sers := env.gser }
    have := hr.render cx (fun _ => True) { ty := t, v := .ok v } false v (fun _ _ => trivial) rfl (hc hb)
    unfold SeCx.keep at this
    dsimp only [cx] at this
    simp only [Option.getD_some]
    rcases this with ⟨e, h1, h2⟩ | ⟨v, w, h1, h2, h3, h4⟩ <;> rw [h1, h2]
    · exact .inl ⟨e, rfl, rfl⟩
    · cases h3 <;> first | exact .inr ⟨_, _, rfl, rfl, by first | exact .std | exact .dt, fun h => (nomatch h)⟩ | skip
      · exact .rfl' _
      · rename_i h; exact .inr ⟨_, _, rfl, rfl, .list h, fun h => (nomatch h)⟩
      · rename_i h; exact .inr ⟨_, _, rfl, rfl, .tuple h, fun h => (nomatch h)⟩
      · rename_i h; exact .inr ⟨_, _, rfl, rfl, .dict h, fun h => (nomatch h)⟩
  · exact .rfl' _

theorem strung_wrap {b} {x y : Res Val} (h : StrungR b x y) : StrungR b (wrapAll x) (wrapAll y) := by
  rcases h with ⟨e, rfl, rfl⟩ | ⟨v, w, rfl, rfl, h3, h4⟩
  · exact .rfl' _
  · exact .inr ⟨v, w, rfl, rfl, h3, h4⟩

theorem strung_toObj {r : SeRec} (hr : ReuseRec env r) {nm cv sn c tg v} (hc : c = none ∨ c = some .any ∨ ∃ k, c = some (.cls k))
    (hf : CleanTop env cv v) : StrungR false (toObjF env r nm (some true) cv sn c tg v) (toObjF env r nm (some false) cv sn c tg v) := by
  unfold toObjF
  refine strung_wrap ?_
  rw [toObjBody_eq, toObjBody_eq]
  have : StrungR false (toObjPlain env r nm (some true) cv sn c v) (toObjPlain env r nm (some false) cv sn c v) := by
    have hthis : ∀ x, CleanTop env cv x → _ := fun x hx => hr.toObj nm cv sn none .external x (.inl rfl) hx
    unfold toObjPlain
    dsimp only
    split
    · exact .rfl' _
    · split
      · exact .rfl' _
      · cases hf with
        | scalar hsc => cases hsc <;> exact .rfl' _
        | enum => exact .rfl' _
        | items hi hx =>
          rcases mapR_strung (b := false) (f := fun x => r.toObj nm (some true) cv sn none .external x)
            (g := fun x => r.toObj nm (some false) cv sn none .external x) (fun x hxm => hthis x (hx x hxm)) with
            ⟨e, h1, h2⟩ | ⟨xs', ys, h1, h2, h3, h4⟩
          · cases hi <;> (dsimp only; rw [h1, h2]; exact .inl ⟨e, rfl, rfl⟩)
          · cases hi <;> (dsimp only; rw [h1, h2]; first | exact .inr ⟨_, _, rfl, rfl, .list h3, fun h => (nomatch h)⟩ | exact .inr ⟨_, _, rfl, rfl, .tuple h3, fun h => (nomatch h)⟩)
        | dict hx =>
          dsimp only
          refine plainDict_strung (mapR_strungD (b := false) (fun kv hkv => ?_))
          rcases hthis kv.2 (hx kv hkv) with ⟨e, h1, h2⟩ | ⟨v, w, h1, h2, h3, h4⟩ <;> rw [h1, h2]
          · exact .inl ⟨e, rfl, rfl⟩
          · exact .inr ⟨_, v, w, rfl, rfl, h3, h4⟩
        | std =>
          dsimp only
          refine strung_cacheSe hr (fun hb => ?_)
          rcases hc with rfl | rfl | ⟨k, rfl⟩
          · exact .std
          · exact .std
          · simp [Ty.isAny, bearable, isClsInst] at hb
        | dt =>
          dsimp only
          refine strung_cacheSe hr (fun hb => ?_)
          rcases hc with rfl | rfl | ⟨k, rfl⟩
          · exact .dt
          · exact .dt
          · simp [Ty.isAny, bearable, isClsInst] at hb
        | obj hf =>
          have hf' := hf
          cases hf with
          | mk _ _ _ => exact hr.cls _ _ _ _ _ hf'
  rcases hc with rfl | rfl | ⟨k, rfl⟩ <;> exact this

theorem strung_at : ∀ n, ReuseRec env (seAt env n) := by
  intro n
  induction n with
  | zero => exact ⟨fun _ _ _ _ => rfl, fun _ _ _ _ => rfl, fun _ _ _ _ _ _ _ _ => .rfl' _, fun _ _ _ _ _ _ _ => .inl ⟨_, rfl, rfl⟩,
      fun _ _ _ _ _ _ => .rfl' _, fun _ _ _ _ _ _ _ _ => .rfl' _⟩
  | succ n ih => exact ⟨fun cx a e h => strung_missing ih h, fun cx a g h => strung_custom h, fun cx S a b v hS hv hc => strung_render ih hS hv hc,
      fun cx S a b hS hf hc => strung_flat ih hS hf hc, fun nm cv sn b v h => strung_cls ih h, fun nm cv sn c tg v hc h => strung_toObj ih hc h⟩

end
end Verif
