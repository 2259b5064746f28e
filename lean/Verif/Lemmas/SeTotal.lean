import Verif.Spec.Total
import Verif.Lemmas.SeMono
import Verif.Lemmas.Collect
import Verif.Lemmas.Numbers
/-!
# Serialization comes to an end
-/

namespace Verif
open Spec

/-- The exception is not "out of fuel", nor does unwrapping a `UserError` make it that. -/
def Exc.calm : Exc → Bool
  | .fuel => false
  | .user .fuel => false
  | .user (.user _) => false
  | _ => true

/-- The result is not "out of fuel". -/
def NF {α : Type} (r : Res α) : Prop := ∀ e, r = .error e → e.calm = true

theorem NF.ok {α : Type} {a : α} : NF (.ok a : Res α) := by intro e h; cases h
theorem nf_err {α : Type} {e : Exc} (h : e.calm = true) : NF (.error e : Res α) := by intro e' h'; cases h'; exact h
theorem nf_py {α : Type} {e} : NF (.error (.py e) : Res α) := nf_err rfl
theorem nf_serde {α : Type} {e} : NF (.error (.serde e) : Res α) := nf_err rfl
theorem NF.err {α β : Type} {e} (h : NF (.error e : Res α)) : NF (.error e : Res β) := nf_err (h e rfl)
theorem NF.ne {α : Type} {r : Res α} (h : NF r) : r ≠ .error .fuel := by intro hr; cases h _ hr
theorem nf_of {α β : Type} {x : Res α} {e} (he : x = .error e) (h : NF x) : NF (.error e : Res β) := nf_err (h e he)
theorem nf_liftP {α : Type} {x : Except PErr α} : NF (liftP x) := by
  cases x with
  | ok => exact .ok
  | error => exact nf_py
theorem nf_decor {α : Type} : NF (.error decorErr : Res α) := nf_err rfl

theorem nf_mapR {α β : Type} {f : α → Res β} {xs : List α} (h : ∀ x ∈ xs, NF (f x)) : NF (mapR f xs) := by
  intro e he
  obtain ⟨x, hx, hf⟩ := mapR_error he
  exact h x hx e hf

theorem nf_concatR {α β : Type} {f : α → Res (List β)} {xs : List α} (h : ∀ x ∈ xs, NF (f x)) : NF (concatR f xs) := by
  intro e he
  obtain ⟨x, hx, hf⟩ := concatR_error he
  exact h x hx e hf

theorem nf_mkDict {h k es} : NF (mkDict h k es) := by unfold mkDict; split; exact .ok; exact nf_py
theorem nf_mkSet {h b xs} : NF (mkSet h b xs) := by unfold mkSet; split; exact .ok; exact nf_py
theorem nf_coerce {env : Env} {p v} : NF (coerceObj env p v) := by
  unfold coerceObj; split
  · exact nf_serde
  · split; exact .ok; exact nf_serde
theorem nf_iter {v} : NF (pyIter v) := by cases v <;> first | exact .ok | exact nf_py
theorem nf_items {v} : NF (pyItems v) := by cases v <;> first | exact .ok | exact nf_py
theorem nf_index {v i} : NF (pyIndex v i) := by
  unfold pyIndex
  dsimp only
  repeat' split
  all_goals first | exact .ok | exact nf_py
theorem nf_getAttr {v nm} : NF (getAttr v nm) := by
  unfold getAttr
  repeat' split
  all_goals first | exact .ok | exact nf_py
theorem nf_setItem {x k v} : NF (pySetItem x k v) := by unfold pySetItem; split; exact .ok; exact nf_py

/-! ## Sizes -/

/-- Size of a value; a str counts as small, because its elements are strs again. -/
noncomputable def wt : Val → Nat
  | .str _ => 0
  | v => sizeOf v

theorem wt_le {v} : wt v ≤ sizeOf v := by unfold wt; split <;> omega

theorem wt_box_list {xs} : wt (.list xs) = 1 + sizeOf xs := by simp only [wt, Val.list.sizeOf_spec]
theorem wt_box_tuple {xs} : wt (.tuple xs) = 1 + sizeOf xs := by simp only [wt, Val.tuple.sizeOf_spec]
theorem wt_box_deque {xs} : wt (.deque xs) = 1 + sizeOf xs := by simp only [wt, Val.deque.sizeOf_spec]
theorem wt_box_set {b xs} : sizeOf xs < wt (.set b xs) := by simp only [wt, Val.set.sizeOf_spec]; omega
theorem wt_box_dict {k kvs} : sizeOf kvs < wt (.dict k kvs) := by simp only [wt, Val.dict.sizeOf_spec]; omega
theorem wt_box_inst {c attrs} : sizeOf attrs < wt (.inst c attrs) := by simp only [wt, Val.inst.sizeOf_spec]; omega

theorem wt_list {xs x} (h : x ∈ xs) : wt x < wt (.list xs) := by
  have := List.sizeOf_lt_of_mem h; have := @wt_le x; (rw [wt_box_list]; omega)
theorem wt_tuple {xs x} (h : x ∈ xs) : wt x < wt (.tuple xs) := by
  have := List.sizeOf_lt_of_mem h; have := @wt_le x; (rw [wt_box_tuple]; omega)
theorem wt_deque {xs x} (h : x ∈ xs) : wt x < wt (.deque xs) := by
  have := List.sizeOf_lt_of_mem h; have := @wt_le x; (rw [wt_box_deque]; omega)
theorem wt_set {b xs x} (h : x ∈ xs) : wt x < wt (.set b xs) := by
  have := List.sizeOf_lt_of_mem h; have := @wt_le x; exact Nat.lt_of_le_of_lt (by omega) wt_box_set
theorem wt_key {k kvs} {e : Val × Val} (h : e ∈ kvs) : wt e.1 < wt (.dict k kvs) := by
  have h1 := List.sizeOf_lt_of_mem h
  have h2 := @wt_le e.1
  have h3 : sizeOf e = 1 + sizeOf e.1 + sizeOf e.2 := by cases e; rfl
  exact Nat.lt_of_le_of_lt (by omega) wt_box_dict
theorem wt_value {k kvs} {e : Val × Val} (h : e ∈ kvs) : wt e.2 < wt (.dict k kvs) := by
  have h1 := List.sizeOf_lt_of_mem h
  have h2 := @wt_le e.2
  have h3 : sizeOf e = 1 + sizeOf e.1 + sizeOf e.2 := by cases e; rfl
  exact Nat.lt_of_le_of_lt (by omega) wt_box_dict
theorem wt_attr {c attrs} {e : String × Val} (h : e ∈ attrs) : wt e.2 < wt (.inst c attrs) := by
  have h1 := List.sizeOf_lt_of_mem h
  have h2 := @wt_le e.2
  have h3 : sizeOf e = 1 + sizeOf e.1 + sizeOf e.2 := by cases e; rfl
  exact Nat.lt_of_le_of_lt (by omega) wt_box_inst

theorem wt_strElems {s x} (h : x ∈ strElems s) : wt x = 0 := by
  unfold strElems at h
  rw [List.mem_map] at h
  obtain ⟨c, _, rfl⟩ := h
  rfl

theorem wt_iter {v xs x} (hi : pyIter v = .ok xs) (h : x ∈ xs) : wt x ≤ wt v := by
  cases v <;> cases hi
  · rw [wt_strElems h]; exact Nat.zero_le _
  · exact Nat.le_of_lt (wt_list h)
  · exact Nat.le_of_lt (wt_tuple h)
  · exact Nat.le_of_lt (wt_deque h)
  · exact Nat.le_of_lt (wt_set h)
  · rw [List.mem_map] at h
    obtain ⟨e, he, rfl⟩ := h
    exact Nat.le_of_lt (wt_key he)

theorem getVal_mem {k : Val} : ∀ {kvs : List (Val × Val)} {v}, getVal k kvs = some v → ∃ e ∈ kvs, e.2 = v := by
  intro kvs
  induction kvs with
  | nil => intro v h; cases h
  | cons e r ih =>
    intro v h
    obtain ⟨k', x⟩ := e
    unfold getVal at h
    split at h
    · cases h; exact ⟨_, List.mem_cons_self, rfl⟩
    · obtain ⟨e, he, hv⟩ := ih h; exact ⟨e, by simp [he], hv⟩

theorem index_cases {v i w} (h : pyIndex v i = .ok w) : (∃ xs, pyIter v = .ok xs ∧ w ∈ xs) ∨ ∃ k kvs, v = .dict k kvs ∧ ∃ e ∈ kvs, e.2 = w := by
  have aux : ∀ {xs : List Val}, (match xs[i]? with
      | some v => (Except.ok v : Res Val)
      | none => .error (.py .index)) = .ok w → w ∈ xs := by
    intro xs h
    split at h
    · rename_i he; cases h; exact List.mem_of_getElem? he
    · cases h
  unfold pyIndex at h
  cases v <;> dsimp only at h <;> try (cases h; done)
  all_goals first
    | exact .inl ⟨_, rfl, aux h⟩
    | (split at h
       · rename_i hs; cases h; exact .inr ⟨_, _, rfl, getVal_mem hs⟩
       · cases h)

theorem wt_index {v i w} (h : pyIndex v i = .ok w) : wt w ≤ wt v := by
  rcases index_cases h with ⟨xs, h1, h2⟩ | ⟨k, kvs, rfl, e, he, rfl⟩
  · exact wt_iter h1 h2
  · exact Nat.le_of_lt (wt_value he)

theorem occ_iter {c v xs x} (hi : pyIter v = .ok xs) (h : x ∈ xs) (ho : Occurs c x) : Occurs c v := by
  cases v <;> cases hi
  · unfold strElems at h
    rw [List.mem_map] at h
    obtain ⟨c, _, rfl⟩ := h
    cases ho
  · exact .list h ho
  · exact .tuple h ho
  · exact .deque h ho
  · exact .set h ho
  · rw [List.mem_map] at h
    obtain ⟨e, he, rfl⟩ := h
    exact .key he ho

theorem occ_index {c v i w} (h : pyIndex v i = .ok w) (ho : Occurs c w) : Occurs c v := by
  rcases index_cases h with ⟨xs, h1, h2⟩ | ⟨k, kvs, rfl, e, he, rfl⟩
  · exact occ_iter h1 h2 ho
  · exact .value he ho

theorem attr_mem {attrs : List (String × Val)} {nm v} (h : attrs.lookup nm = some v) : ∃ e ∈ attrs, e.2 = v := by
  induction attrs with
  | nil => cases h
  | cons e r ih =>
    obtain ⟨k, x⟩ := e
    rw [List.lookup_cons] at h
    split at h
    · cases h; exact ⟨_, List.mem_cons_self, rfl⟩
    · obtain ⟨e, he, hv⟩ := ih h; exact ⟨e, by simp [he], hv⟩

/-! ## The induction -/

theorem Spec.PartOf.trans {s t u} (h : PartOf s t) (h' : PartOf t u) : PartOf s u := by
  induction h' with
  | refl => exact h
  | list _ ih => exact .list ih
  | set _ ih => exact .set ih
  | deque _ ih => exact .deque ih
  | counter _ ih => exact .counter ih
  | tuple hm _ ih => exact .tuple hm ih
  | tupleV _ ih => exact .tupleV ih
  | key _ ih => exact .key ih
  | value _ ih => exact .value ih
  | union hm _ ih => exact .union hm ih
  | alias _ ih => exact .alias ih

section
variable {env : Env} {age : ClassId → Nat}

/-- The value has at most this size, and its classes are younger than `R`. -/
def Small (age : ClassId → Nat) (R w : Nat) (v : Val) : Prop := wt v ≤ w ∧ ∀ c, Occurs c v → age c < R

/-- An argument that is small, or failed. -/
structure SmallArg (age : ClassId → Nat) (R w : Nat) (r : Res Val) : Prop where
  nf : NF r
  small : ∀ v, r = .ok v → Small age R w v

theorem SmallArg.ok {R w v} (h : Small age R w v) : SmallArg age R w (.ok v) := ⟨.ok, fun _ e => by cases e; exact h⟩
theorem SmallArg.error {R w e} (h : NF (.error e : Res Val)) : SmallArg age R w (.error e) := ⟨h, fun _ e => by cases e⟩

theorem Small.iter {R w v xs x} (h : Small age R w v) (hi : pyIter v = .ok xs) (hx : x ∈ xs) : Small age R w x :=
  ⟨Nat.le_trans (wt_iter hi hx) h.1, fun c hc => h.2 c (occ_iter hi hx hc)⟩
theorem Small.items {R w v kvs} {e : Val × Val} (h : Small age R w v) (hi : pyItems v = .ok kvs) (hx : e ∈ kvs) : Small age R w e.1 ∧ Small age R w e.2 := by
  cases v <;> cases hi
  exact ⟨⟨Nat.le_trans (Nat.le_of_lt (wt_key hx)) h.1, fun c hc => h.2 c (.key hx hc)⟩,
    ⟨Nat.le_trans (Nat.le_of_lt (wt_value hx)) h.1, fun c hc => h.2 c (.value hx hc)⟩⟩
theorem Small.index {R w v i} (h : Small age R w v) : SmallArg age R w (pyIndex v i) :=
  ⟨nf_index, fun _ hi => ⟨Nat.le_trans (wt_index hi) h.1, fun c hc => h.2 c (occ_index hi hc)⟩⟩

/-- Serializing an instance of size at most `w` comes to an end. -/
def ClsEnds (env : Env) (age : ClassId → Nat) (R w : Nat) : Prop :=
  ∀ v, Small age R w v → ∀ b re cv sn, Ev (fun n => NF ((seAt env n).cls b re cv sn v))

/-- Serializing a value of size at most `w` without annotation comes to an end. -/
def ObjEnds (env : Env) (age : ClassId → Nat) (R w : Nat) : Prop :=
  ∀ v, Small age R w v → ∀ b re cv sn c tg, (c = none ∨ c = some .any) → Ev (fun n => NF ((seAt env n).toObj b re cv sn c tg v))

/-- In this scope the function found for a union of the annotation is its own. -/
def OwnIn (env : Env) (us : List (List Ty)) (t : Ty) : Prop :=
  ∀ ts, PartOf (.union ts) t → ∀ vs, findUnion env us (unionFuncName env ts) = some vs → vs = ts

theorem OwnIn.part {us s t} (h : OwnIn env us t) (hs : PartOf s t) : OwnIn env us s := fun ts hw => h ts (hw.trans hs)

/-- Rendering a value of size at most `w` comes to an end. -/
def RenderEnds (env : Env) (age : ClassId → Nat) (R w : Nat) : Prop :=
  ∀ t cx a, OwnIn env cx.unions t → a.ty = t → SmallArg age R w a.v → Ev (fun n => NF ((seAt env n).render cx a))

/-- The same for the expressions of a field. -/
def FlatEnds (env : Env) (age : ClassId → Nat) (R w : Nat) : Prop :=
  ∀ cx a, (∀ t, Annotated env t → OwnIn env cx.unions t) → Annotated env a.ty → SmallArg age R w a.v → Ev (fun n => NF ((seAt env n).flat cx a))

theorem Spec.Annotated.part {s t} (h : Annotated env t) (hs : PartOf s t) : Annotated env s := by
  obtain ⟨c, cd, f, h1, h2, h3⟩ := h
  exact ⟨c, cd, f, h1, h2, hs.trans h3⟩

theorem nf_seUnion {r : SeRec} {cx v ts} (h : ∀ t ∈ ts, NF (r.render cx { ty := t, v := .ok v })) : NF (seUnion env r cx v ts) := by
  induction ts with
  | nil => exact nf_serde
  | cons t ts ih =>
    unfold seUnion
    split
    · have := h t (by simp)
      split
      · rename_i e he; rw [he] at this; exact this.err
      · split
        · split
          · exact .ok
          · exact nf_setItem
          · exact nf_setItem
          · exact .ok
        · exact .ok
    · exact ih (fun t ht => h t (by simp [ht]))

/-- Custom serializers do not recurse, and a failed argument fails. -/
theorem renderF_custom {r : SeRec} {cx a} (ha : NF a.v) (h : pickSer cx.sers a = none → (∀ g, a.ser ≠ some (.fn g)) → NF (renderF env r cx a)) :
    NF (renderF env r cx a) := by
  cases hp : pickSer cx.sers a with
  | some s =>
    unfold renderF
    rw [hp]
    dsimp only
    split
    · exact nf_liftP
    · rename_i e he; rw [he] at ha; exact ha
  | none =>
    cases hs : a.ser with
    | none => exact h hp (by rw [hs]; intro g hg; cases hg)
    | some s =>
      cases s with
      | marker => exact h hp (by rw [hs]; intro g hg; cases hg)
      | fn g =>
        unfold renderF
        rw [hp]
        simp only [hs]
        split
        · exact nf_liftP
        · rename_i e he; rw [he] at ha; exact ha

/-- What `renderF` calls, when it calls anything. -/
structure Calls (env : Env) (r : SeRec) (cx : SeCx) (a : SeArg) : Prop where
  aliasC : ∀ nm t, a.ty = .alias nm t → NF (r.render cx { a with ty := t })
  genC : ∀ c args, a.ty = .gen c args → NF (r.render cx { a with ty := .cls c })
  clsC : ∀ c v, a.ty = .cls c → a.v = .ok v → NF (r.cls cx.named (some cx.reuse) (some cx.conv) cx.skipNone v)
  objC : ∀ v, a.v = .ok v → NF (r.toObj true (some false) (some false) cx.skipNone (some .any) .external v)
  optC : ∀ t ts v, a.ty = .union (t :: ts) → a.v = .ok v → NF (r.render cx { ty := t, ser := a.ser, v := .ok v })
  unionC : ∀ ts us v, a.ty = .union ts → findUnion env cx.unions (unionFuncName env ts) = some us → a.v = .ok v → ∀ t ∈ us,
    NF (r.render (cx.inUnion env) { ty := t, v := .ok v })
  elemC : ∀ t v xs, (∃ k, a.ty = .list k t) ∨ (∃ k, a.ty = .set k t) ∨ a.ty = .deque t ∨ a.ty = .tupleV t → a.v = .ok v → pyIter v = .ok xs → ∀ x ∈ xs,
    NF (r.render cx { ty := t, ser := a.ser, v := .ok x })
  tupleC : ∀ ts v, a.ty = .tuple ts → a.v = .ok v → ∀ it ∈ ts.zipIdx, NF (r.render cx { ty := it.1, ser := a.ser, v := pyIndex v it.2 })
  counterC : ∀ t v kvs, a.ty = .counter t → a.v = .ok v → pyItems v = .ok kvs → ∀ kv ∈ kvs, NF (r.render cx { ty := t, ser := a.ser, v := .ok kv.1 })
  dictC : ∀ k kt vt v kvs, a.ty = .dict k kt vt → a.v = .ok v → pyItems v = .ok kvs → ∀ kv ∈ kvs,
    NF (r.render cx { ty := kt, ser := a.ser, v := .ok kv.1 }) ∧ NF (r.render cx { ty := vt, ser := a.ser, v := .ok kv.2 })

theorem Calls.nf {r : SeRec} {cx a} (h : Calls env r cx a) (ha : NF a.v) : NF (renderF env r cx a) := by
  refine renderF_custom ha (fun hp hs => ?_)
  unfold renderF
  rw [hp]
  dsimp only
  have elemNF : ∀ {t} {K : List Val → Res Val} v, ((∃ k, a.ty = .list k t) ∨ (∃ k, a.ty = .set k t) ∨ a.ty = .deque t ∨ a.ty = .tupleV t) → a.v = .ok v →
      (∀ ys, NF (K ys)) →
      NF (match pyIter v with
        | .error e => .error e
        | .ok xs => match mapR (fun x => r.render cx { ty := t, ser := a.ser, v := .ok x }) xs with
          | .ok ys => K ys
          | .error e => .error e) := by
    intro t K v ht hv hK
    have hi := @nf_iter v
    split
    · rename_i e he; rw [he] at hi; exact hi.err
    · rename_i xs hx
      have := nf_mapR (h.elemC t v xs ht hv hx)
      split
      · exact hK _
      · rename_i e he; rw [he] at this; exact this.err
  split
  · rename_i f hf; exact absurd hf (hs f)
  split
  · exact .ok
  · exact h.aliasC _ _ ‹_›
  · exact h.genC _ _ ‹_›
  · exact nf_decor
  · exact nf_decor
  · exact nf_decor
  split
  · rename_i e he; rw [he] at ha; exact ha
  rename_i v hv
  split
  · exact h.clsC _ _ ‹_› hv
  · rename_i ts hty
    split
    · split
      · exact .ok
      · split
        · exact h.optC _ _ _ ‹_› hv
        · exact nf_decor
    · split
      · exact nf_seUnion (h.unionC _ _ _ ‹_› ‹_› hv)
      · exact nf_py
  · exact .ok
  · have hi := @nf_iter v
    split
    · exact .ok
    · rename_i e he; rw [he] at hi; exact hi.err
  · exact elemNF v (.inl ⟨_, ‹_›⟩) hv (fun _ => .ok)
  · split
    · have hi := @nf_iter v
      split
      · exact .ok
      · rename_i e he; rw [he] at hi; exact hi.err
    · exact .ok
  · refine elemNF (K := fun ys => if cx.conv then .ok (.list ys) else mkSet env.hash false ys) v (.inr (.inl ⟨_, ‹_›⟩)) hv (fun _ => ?_)
    split
    · exact .ok
    · exact nf_mkSet
  · have hi := @nf_iter v
    split
    · exact .ok
    · rename_i e he; rw [he] at hi; exact hi.err
  · exact elemNF v (.inr (.inr (.inl ‹_›))) hv (fun _ => .ok)
  · split
    · exact .ok
    · exact nf_py
  · have hi := @nf_items v
    split
    · rename_i e he; rw [he] at hi; exact hi.err
    · rename_i kvs hk
      have := h.counterC _ _ _ ‹_› hv hk
      split
      · exact nf_mkDict
      · rename_i e he
        refine NF.err (α := List (Val × Val)) ?_
        rw [← he]
        refine nf_mapR (fun kv hkv => ?_)
        have := this kv hkv
        split
        · exact .ok
        · rename_i e he; rw [he] at this; exact this.err
  · exact .ok
  · have hi := @nf_items v
    split
    · rename_i e he; rw [he] at hi; exact hi.err
    · rename_i kvs hk
      have := h.dictC _ _ _ _ _ ‹_› hv hk
      split
      · exact nf_mkDict
      · rename_i e he
        refine NF.err (α := List (Val × Val)) ?_
        rw [← he]
        refine nf_mapR (fun kv hkv => ?_)
        have := this kv hkv
        split
        · rename_i e he; have h1 := this.1; rw [he] at h1; exact h1.err
        · split
          · exact .ok
          · rename_i e he; have h1 := this.2; rw [he] at h1; exact h1.err
  · exact .ok
  · exact elemNF v (.inr (.inr (.inr ‹_›))) hv (fun _ => .ok)
  · have := nf_mapR (h.tupleC _ _ ‹_› hv)
    split
    · exact .ok
    · rename_i e he; rw [he] at this; exact this.err
  · exact nf_liftP
  · split
    · exact nf_coerce
    · exact .ok
  · split
    · exact nf_coerce
    · exact .ok
  · split <;> exact .ok
  · split
    · exact .ok
    · split
      · exact .ok
      · exact nf_py
  · exact h.objC v hv
  · exact h.objC v hv
  · exact .ok
  · exact nf_decor

theorem Ev.unique {α : Type} {p : α → Prop} {P : α → Nat → Prop} (hu : ∀ x y, p x → p y → x = y) (h : ∀ x, p x → Ev (P x)) :
    Ev (fun n => ∀ x, p x → P x n) := by
  cases Classical.em (∃ x, p x) with
  | inl he =>
    obtain ⟨x, hx⟩ := he
    refine (h x hx).mono (fun n hn y hy => ?_)
    rw [hu y x hy hx]; exact hn
  | inr he => exact Ev.of_all (fun n y hy => absurd ⟨y, hy⟩ he)

theorem Ev.call {P : Nat → Prop} {p : Prop} (h : p → Ev P) : Ev (fun n => p → P n) := by
  cases Classical.em p with
  | inl hp => exact (h hp).mono (fun _ h _ => h)
  | inr hp => exact Ev.of_all (fun _ h => absurd h hp)

theorem ownIn_cls {us c} : OwnIn env us (.cls c) := fun ts h => by cases h

theorem sizeOf_zipIdx {ts : List Ty} {it : Ty × Nat} (h : it ∈ ts.zipIdx) : it.1 ∈ ts := by
  obtain ⟨t, i⟩ := it
  exact List.fst_mem_of_mem_zipIdx h

theorem renderEnds {R w : Nat} (hK : ClsEnds env age R w) (hO : ObjEnds env age R w) : RenderEnds env age R w := by
  intro t
  induction hn : sizeOf t using Nat.strongRecOn generalizing t with
  | ind n IH =>
  intro cx a hown hty hav
  subst hn
  have ih : ∀ t', sizeOf t' < sizeOf a.ty → ∀ cx', OwnIn env cx'.unions t' → ∀ s f x, SmallArg age R w x →
      Ev (fun m => NF ((seAt env m).render cx' { ty := t', ser := s, flatten := f, v := x })) := by
    intro t' hlt cx' hcx s f x hx
    rw [hty] at hlt
    exact IH _ hlt t' rfl cx' _ hcx rfl hx
  rw [← hty] at hown
  clear hty IH t
  have mem : ∀ {t : Ty} {ts : List Ty}, t ∈ ts → sizeOf t < sizeOf ts := fun h => List.sizeOf_lt_of_mem h
  have hcalls : Ev (fun m => Calls env (seAt env m) cx a) := by
    have e1 : Ev (fun m => ∀ x : String × Ty, a.ty = .alias x.1 x.2 → NF ((seAt env m).render cx { a with ty := x.2 })) := by
      refine Ev.unique (fun ⟨_, _⟩ ⟨_, _⟩ hx hy => ?_) (fun x hx => ?_)
      · rw [hx] at hy; cases hy; rfl
      · exact ih x.2 (by rw [hx]; simp; omega) _ (hown.part (by rw [hx]; exact .alias .refl)) _ _ _ hav
    have e2 : Ev (fun m => ∀ x : ClassId × List Ty, a.ty = .gen x.1 x.2 → NF ((seAt env m).render cx { a with ty := .cls x.1 })) := by
      refine Ev.unique (fun ⟨_, _⟩ ⟨_, _⟩ hx hy => ?_) (fun x hx => ?_)
      · rw [hx] at hy; cases hy; rfl
      · exact ih _ (by rw [hx]; simp; cases x.2 <;> simp <;> omega) _ ownIn_cls _ _ _ hav
    have e3 : Ev (fun m => ∀ v, a.v = .ok v → NF ((seAt env m).cls cx.named (some cx.reuse) (some cx.conv) cx.skipNone v)) := by
      refine Ev.unique (fun _ _ hx hy => ?_) (fun v hv => hK v (hav.small v hv) _ _ _ _)
      rw [hx] at hy; cases hy; rfl
    have e4 : Ev (fun m => ∀ v, a.v = .ok v → NF ((seAt env m).toObj true (some false) (some false) cx.skipNone (some .any) .external v)) := by
      refine Ev.unique (fun _ _ hx hy => ?_) (fun v hv => hO v (hav.small v hv) _ _ _ _ _ _ (.inr rfl))
      rw [hx] at hy; cases hy; rfl
    have e5 : Ev (fun m => ∀ x : Ty × List Ty × Val, a.ty = .union (x.1 :: x.2.1) ∧ a.v = .ok x.2.2 →
        NF ((seAt env m).render cx { ty := x.1, ser := a.ser, v := .ok x.2.2 })) := by
      refine Ev.unique (fun ⟨_, _, _⟩ ⟨_, _, _⟩ hx hy => ?_) (fun x hx => ?_)
      · rw [hx.1, hx.2] at hy; obtain ⟨h1, h2⟩ := hy; cases h1; cases h2; rfl
      · exact ih _ (by rw [hx.1]; simp; omega) _ (hown.part (by rw [hx.1]; exact .union (by simp) .refl)) _ _ _ (.ok (hav.small _ hx.2))
    have e6 : Ev (fun m => ∀ x : List Ty × List Ty × Val, (a.ty = .union x.1 ∧ findUnion env cx.unions (unionFuncName env x.1) = some x.2.1 ∧ a.v = .ok x.2.2) →
        ∀ t ∈ x.2.1, NF ((seAt env m).render (cx.inUnion env) { ty := t, v := .ok x.2.2 })) := by
      refine Ev.unique (fun ⟨_, _, _⟩ ⟨_, _, _⟩ hx hy => ?_) (fun ⟨ts, us, v⟩ hx => ?_)
      · obtain ⟨h1, h2, h3⟩ := hx
        obtain ⟨h1', h2', h3'⟩ := hy
        dsimp only at *
        rw [h1] at h1'; cases h1'; rw [h3] at h3'; cases h3'; rw [h2] at h2'; cases h2'; rfl
      · obtain ⟨h1, h2, h3⟩ := hx
        dsimp only at *
        have hus : us = ts := hown ts (by rw [h1]; exact .refl) us h2
        subst hus
        refine Ev.list (fun t ht => ?_)
        have := mem ht
        exact ih t (by rw [h1]; simp; omega) (cx.inUnion env) (hown.part (s := t) (by rw [h1]; exact .union ht .refl)) _ _ _ (.ok (hav.small _ h3))
    have e7 : Ev (fun m => ∀ x : Ty × Val × List Val,
        (((∃ k, a.ty = .list k x.1) ∨ (∃ k, a.ty = .set k x.1) ∨ a.ty = .deque x.1 ∨ a.ty = .tupleV x.1) ∧ a.v = .ok x.2.1 ∧ pyIter x.2.1 = .ok x.2.2) →
        ∀ y ∈ x.2.2, NF ((seAt env m).render cx { ty := x.1, ser := a.ser, v := .ok y })) := by
      refine Ev.unique (fun ⟨_, _, _⟩ ⟨_, _, _⟩ hx hy => ?_) (fun ⟨t, v, xs⟩ hx => ?_)
      · obtain ⟨h1, h2, h3⟩ := hx
        obtain ⟨h1', h2', h3'⟩ := hy
        dsimp only at *
        rw [h2] at h2'; cases h2'; rw [h3] at h3'; cases h3'
        rcases h1 with ⟨k, h1⟩ | ⟨k, h1⟩ | h1 | h1 <;> rw [h1] at h1' <;> rcases h1' with ⟨k, h1'⟩ | ⟨k, h1'⟩ | h1' | h1' <;> cases h1' <;> rfl
      · obtain ⟨h1, h2, h3⟩ := hx
        dsimp only at *
        have hw : PartOf t a.ty ∧ sizeOf t < sizeOf a.ty := by
          rcases h1 with ⟨k, h1⟩ | ⟨k, h1⟩ | h1 | h1 <;> rw [h1]
          · exact ⟨.list .refl, by simp; omega⟩
          · exact ⟨.set .refl, by simp; omega⟩
          · exact ⟨.deque .refl, by simp⟩
          · exact ⟨.tupleV .refl, by simp⟩
        exact Ev.list (fun y hy => ih t hw.2 cx (hown.part hw.1) _ _ _ (.ok ((hav.small _ h2).iter h3 hy)))
    have e8 : Ev (fun m => ∀ x : List Ty × Val, (a.ty = .tuple x.1 ∧ a.v = .ok x.2) → ∀ it ∈ x.1.zipIdx,
        NF ((seAt env m).render cx { ty := it.1, ser := a.ser, v := pyIndex x.2 it.2 })) := by
      refine Ev.unique (fun ⟨_, _⟩ ⟨_, _⟩ hx hy => ?_) (fun ⟨ts, v⟩ hx => ?_)
      · rw [hx.1, hx.2] at hy; obtain ⟨h1, h2⟩ := hy; cases h1; cases h2; rfl
      · obtain ⟨h1, h2⟩ := hx
        dsimp only at *
        refine Ev.list (fun it hit => ?_)
        have := mem (sizeOf_zipIdx hit)
        exact ih it.1 (by rw [h1]; simp; omega) cx (hown.part (by rw [h1]; exact .tuple (sizeOf_zipIdx hit) .refl)) _ _ _ (hav.small _ h2).index
    have e9 : Ev (fun m => ∀ x : Ty × Val × List (Val × Val), (a.ty = .counter x.1 ∧ a.v = .ok x.2.1 ∧ pyItems x.2.1 = .ok x.2.2) →
        ∀ kv ∈ x.2.2, NF ((seAt env m).render cx { ty := x.1, ser := a.ser, v := .ok kv.1 })) := by
      refine Ev.unique (fun ⟨_, _, _⟩ ⟨_, _, _⟩ hx hy => ?_) (fun ⟨t, v, xs⟩ hx => ?_)
      · obtain ⟨h1, h2, h3⟩ := hx
        obtain ⟨h1', h2', h3'⟩ := hy
        dsimp only at *
        rw [h1] at h1'; cases h1'; rw [h2] at h2'; cases h2'; rw [h3] at h3'; cases h3'; rfl
      · obtain ⟨h1, h2, h3⟩ := hx
        dsimp only at *
        exact Ev.list (fun y hy => ih t (by rw [h1]; simp) cx (hown.part (by rw [h1]; exact .counter .refl)) _ _ _ (.ok ((hav.small _ h2).items h3 hy).1))
    have e10 : Ev (fun m => ∀ x : MapK × Ty × Ty × Val × List (Val × Val), (a.ty = .dict x.1 x.2.1 x.2.2.1 ∧ a.v = .ok x.2.2.2.1 ∧ pyItems x.2.2.2.1 = .ok x.2.2.2.2) →
        ∀ kv ∈ x.2.2.2.2, NF ((seAt env m).render cx { ty := x.2.1, ser := a.ser, v := .ok kv.1 }) ∧
          NF ((seAt env m).render cx { ty := x.2.2.1, ser := a.ser, v := .ok kv.2 })) := by
      refine Ev.unique (fun ⟨_, _, _, _, _⟩ ⟨_, _, _, _, _⟩ hx hy => ?_) (fun ⟨k, kt, vt, v, xs⟩ hx => ?_)
      · obtain ⟨h1, h2, h3⟩ := hx
        obtain ⟨h1', h2', h3'⟩ := hy
        dsimp only at *
        rw [h1] at h1'; cases h1'; rw [h2] at h2'; cases h2'; rw [h3] at h3'; cases h3'; rfl
      · obtain ⟨h1, h2, h3⟩ := hx
        dsimp only at *
        refine Ev.list (fun y hy => Ev.and ?_ ?_)
        · exact ih kt (by rw [h1]; simp; omega) cx (hown.part (by rw [h1]; exact .key .refl)) _ _ _ (.ok ((hav.small _ h2).items h3 hy).1)
        · exact ih vt (by rw [h1]; simp; omega) cx (hown.part (by rw [h1]; exact .value .refl)) _ _ _ (.ok ((hav.small _ h2).items h3 hy).2)
    refine (((((((((e1.and e2).and e3).and e4).and e5).and e6).and e7).and e8).and e9).and e10).mono (fun m h => ?_)
    obtain ⟨⟨⟨⟨⟨⟨⟨⟨⟨h1, h2⟩, h3⟩, h4⟩, h5⟩, h6⟩, h7⟩, h8⟩, h9⟩, h10⟩ := h
    exact ⟨fun _ _ h => h1 ⟨_, _⟩ h, fun _ _ h => h2 ⟨_, _⟩ h, fun _ v _ h => h3 v h, h4, fun _ _ _ h h' => h5 ⟨_, _, _⟩ ⟨h, h'⟩,
      fun _ _ _ h h' h'' => h6 ⟨_, _, _⟩ ⟨h, h', h''⟩, fun _ _ _ h h' h'' => h7 ⟨_, _, _⟩ ⟨h, h', h''⟩, fun _ _ h h' => h8 ⟨_, _⟩ ⟨h, h'⟩,
      fun _ _ _ h h' h'' => h9 ⟨_, _, _⟩ ⟨h, h', h''⟩, fun _ _ _ _ _ h h' h'' => h10 ⟨_, _, _, _, _⟩ ⟨h, h', h''⟩⟩
  exact hcalls.step (fun m hm => by rw [seAt_render]; exact hm.nf hav.nf)

/-! ## Fields and classes -/

theorem SmallArg.attr {R w o f} (h : SmallArg age R w o) : SmallArg age R w (seFieldArg f o).v := by
  unfold seFieldArg
  cases o with
  | error e => exact h
  | ok v =>
    refine ⟨nf_getAttr, fun x hx => ?_⟩
    dsimp only [getAttr] at hx
    have hv := h.small v rfl
    split at hx
    · split at hx
      · rename_i hl
        cases hx
        obtain ⟨e, he, rfl⟩ := attr_mem hl
        exact ⟨Nat.le_trans (Nat.le_of_lt (wt_attr he)) hv.1, fun c hc => hv.2 c (.attr he hc)⟩
      · cases hx
    · cases hx

theorem flatEnds {R w : Nat} (hA : OlderFirst env age) (hR : RenderEnds env age R w) : FlatEnds env age R w := by
  have key : ∀ A t cx a, (∀ t, Annotated env t → OwnIn env cx.unions t) → Annotated env a.ty → SmallArg age R w a.v → a.ty = t →
      (a.flatten = true → ∀ c, FlatTo c a.ty → age c < A) → Ev (fun n => NF ((seAt env n).flat cx a)) := by
    intro A
    induction A using Nat.strongRecOn with
    | ind A IHA =>
    intro t
    induction hn : sizeOf t using Nat.strongRecOn generalizing t with
    | ind n IH =>
    intro cx a hcx ha hav hty hfl
    subst hn
    have single := hR a.ty cx a (hcx _ ha) rfl hav
    have hsub : ∀ c cd, a.flatten = true → a.ty = .cls c → env.cls c = some cd → Ev (fun n => ∀ f ∈ cd.fields, NF ((seAt env n).flat cx (seFieldArg f a.v))) := by
      intro c cd hflat hc hcd
      refine Ev.list (fun f hf => ?_)
      refine IHA (age c) (hfl hflat c (by rw [hc]; exact .here)) f.ty cx _ hcx ⟨c, cd, f, hcd, hf, .refl⟩ hav.attr rfl ?_
      intro hff c' hc'
      exact hA.flatten hcd hf hff hc'
    have hopt : ∀ t', a.flatten = true → a.ty = .union [t', .none] → Ev (fun n => NF ((seAt env n).flat cx { a with ty := t' })) := by
      intro t' hflat ht
      refine IH (sizeOf t') ?_ t' rfl cx _ hcx (ha.part (by rw [ht]; exact .union (by simp) .refl)) hav rfl ?_
      · rw [← hty, ht]; simp; omega
      · intro _ c hc
        exact hfl hflat c (by rw [ht]; exact .opt hc)
    have e1 : Ev (fun n => ∀ x : ClassId × ClassDef, (a.flatten = true ∧ a.ty = .cls x.1 ∧ env.cls x.1 = some x.2) →
        ∀ f ∈ x.2.fields, NF ((seAt env n).flat cx (seFieldArg f a.v))) := by
      refine Ev.unique (fun ⟨_, _⟩ ⟨_, _⟩ hx hy => ?_) (fun x hx => hsub x.1 x.2 hx.1 hx.2.1 hx.2.2)
      obtain ⟨_, h2, h3⟩ := hx
      obtain ⟨_, h2', h3'⟩ := hy
      dsimp only at *
      rw [h2] at h2'; cases h2'; rw [h3] at h3'; cases h3'; rfl
    have e2 : Ev (fun n => ∀ t', (a.flatten = true ∧ a.ty = .union [t', .none]) → NF ((seAt env n).flat cx { a with ty := t' })) := by
      refine Ev.unique (fun _ _ hx hy => ?_) (fun x hx => hopt x hx.1 hx.2)
      rw [hx.2] at hy
      obtain ⟨_, h⟩ := hy
      cases h; rfl
    refine ((single.and e1).and e2).step (fun n h => ?_)
    obtain ⟨⟨h0, h1⟩, h2⟩ := h
    rw [seAt_flat]
    unfold flatF
    have hs : NF (match (seAt env n).render cx a with
      | .ok v => (.ok [v] : Res (List Val))
      | .error e => .error e) := by
      split
      · exact .ok
      · rename_i e he; rw [he] at h0; exact h0.err
    dsimp only
    split
    · exact hs
    split
    · exact hs
    split
    · rename_i hflat
      split
      · rename_i c hc
        split
        · rename_i cd hcd
          exact nf_concatR (h1 ⟨c, cd⟩ ⟨hflat, hc, hcd⟩)
        · exact nf_decor
      · rename_i t' ht
        exact h2 t' ⟨hflat, ht⟩
      · exact hs
    · exact hs
  intro cx a hcx ha hav
  cases Classical.em (∃ c, FlatTo c a.ty) with
  | inl h =>
    obtain ⟨c, hc⟩ := h
    have huniq : ∀ c', FlatTo c' a.ty → c' = c := by
      intro c'
      generalize a.ty = t at hc
      intro h'
      clear hcx ha hav
      induction hc with
      | here => cases h'; rfl
      | opt _ ih => cases h' with
        | opt h => exact ih h
    exact key (age c + 1) a.ty cx a hcx ha hav rfl (fun _ c' hc' => by rw [huniq c' hc']; omega)
  | inr h => exact key 0 a.ty cx a hcx ha hav rfl (fun _ c hc => absurd ⟨c, hc⟩ h)

theorem nf_joinVals {vs} : NF (joinVals vs) := by
  unfold joinVals
  split
  · exact nf_decor
  · exact .ok
  · exact .ok

theorem nf_assign {res lvs sub} : NF (assign res lvs sub) := by
  unfold assign
  have := @nf_iter sub
  split
  · exact nf_decor
  · exact .ok
  · split
    · rename_i e he; rw [he] at this; exact this.err
    · split
      · exact .ok
      · exact nf_py

theorem nf_skips {r : SeRec} {cx rule sub} (h : ∀ d, rule = .ifDefault (some d) → NF (r.toObj true none none false none .external d)) :
    NF (skips env r cx rule sub) := by
  unfold skips
  split
  · exact nf_liftP
  · exact .ok
  · split <;> exact .ok
  · exact .ok
  · rename_i d
    have := h d rfl
    split
    · split
      · exact .ok
      · rename_i he; rw [he] at this; exact this.err
      · exact .ok
    · exact .ok
  · split <;> exact .ok

theorem nf_seField {r : SeRec} {cx cd obj res f} (hf : NF (r.flat cx (seFieldArg f (.ok obj))))
    (h : ∀ d, f.skipRule cd = .ifDefault (some d) → NF (r.toObj true none none false none .external d)) : NF (seField env r cx cd obj res f) := by
  unfold seField
  split
  · rename_i e he; rw [he] at hf; exact hf.err
  · rename_i vs _
    have := @nf_joinVals vs
    split
    · rename_i e he; rw [he] at this; exact this.err
    · rename_i sub _
      have := @nf_items sub
      have hs := @nf_skips env r cx (f.skipRule cd) sub h
      split
      · split
        · split
          · exact .ok
          · rename_i e he; rw [he] at this; exact this.err
        · exact .ok
      · split
        · rename_i e he; rw [he] at hs; exact hs.err
        · exact .ok
        · exact nf_assign

theorem nf_seFields {r : SeRec} {cx cd obj fs} (hf : ∀ f ∈ fs, NF (r.flat cx (seFieldArg f (.ok obj))))
    (h : ∀ f ∈ fs, ∀ d, f.skipRule cd = .ifDefault (some d) → NF (r.toObj true none none false none .external d)) :
    ∀ res, NF (seFields env r cx cd obj res fs) := by
  induction fs with
  | nil => exact fun _ => .ok
  | cons f fs ih =>
    intro res
    unfold seFields
    have := @nf_seField env r cx cd obj res f (hf f (by simp)) (h f (by simp))
    split
    · rename_i e he; rw [he] at this; exact this.err
    · exact ih (fun f hf' => hf f (by simp [hf'])) (fun f hf' => h f (by simp [hf'])) _

theorem clsEnds {R w : Nat} (hA : OlderFirst env age) (hU : DistinctUnions env)
    (hF : ∀ w', w' < w → FlatEnds env age R w') (hO : ∀ R', R' < R → ∀ w', ObjEnds env age R' w') : ClsEnds env age R w := by
  intro v hv b re cv sn
  cases v with
  | inst c attrs =>
    cases hc : env.cls c with
    | none => exact Ev.step (Ev.of_all (P := fun _ => True) (fun _ => trivial)) (fun n _ => by rw [seAt_cls]; simp only [clsF, hc]; exact nf_py)
    | some cd =>
      have hw : 0 < w := Nat.lt_of_lt_of_le (Nat.lt_of_le_of_lt (Nat.zero_le _) wt_box_inst) hv.1
      have hage : age c < R := hv.2 c .here
      have hcx : ∀ t, Annotated env t → OwnIn env (clsSeCx env c cd b re cv sn).unions t := by
        intro t ht ts hts us hus
        refine hU c ts (ht.part hts) us (unionsOf_iff.1 (findUnion_mem hus)) ?_
        unfold findUnion at hus
        have := List.find?_some hus
        simpa using this
      have hflat : Ev (fun n => ∀ f ∈ cd.fields, NF ((seAt env n).flat (clsSeCx env c cd b re cv sn) (seFieldArg f (.ok (.inst c attrs))))) := by
        refine Ev.list (fun f hf => hF (w - 1) (by omega) _ _ hcx ⟨c, cd, f, hc, hf, .refl⟩ ?_)
        show SmallArg age R (w - 1) (getAttr (.inst c attrs) f.name)
        refine ⟨nf_getAttr, fun x hx => ?_⟩
        dsimp only [getAttr] at hx
        split at hx
        · rename_i hl
          cases hx
          obtain ⟨e, he, rfl⟩ := attr_mem hl
          have h1 := @wt_attr c _ _ he
          have h2 := hv.1
          exact ⟨by omega, fun c' hc' => hv.2 c' (.attr he hc')⟩
        · cases hx
      have hdef : Ev (fun n => ∀ f ∈ cd.fields, ∀ d, f.skipRule cd = .ifDefault (some d) → NF ((seAt env n).toObj true none none false none .external d)) := by
        refine Ev.list (fun f hf => Ev.unique (fun _ _ hx hy => ?_) (fun d hd => ?_))
        · rw [hx] at hy; cases hy; rfl
        · exact hO (age c) hage (wt d) d ⟨Nat.le_refl _, fun c' hc' => hA.default hc hf hd hc'⟩ _ _ _ _ _ _ (.inl rfl)
      refine (hflat.and hdef).step (fun n h => ?_)
      obtain ⟨h1, h2⟩ := h
      have hsub : ∀ f ∈ cd.seFieldsOf, f ∈ cd.fields := fun f hf => (List.mem_filter.1 hf).1
      rw [seAt_cls]
      unfold clsF
      simp only [hc]
      split
      · split
        · exact nf_decor
        · rename_i f fs hfs
          have := h1 f (hsub f (by rw [hfs]; simp))
          split
          · exact nf_joinVals
          · rename_i e he; rw [he] at this; exact this.err
      · split
        · have := @nf_seFields env (seAt env n) (clsSeCx env c cd b re cv sn) cd (.inst c attrs) cd.seFieldsOf (fun f hf => h1 f (hsub f hf))
            (fun f hf => h2 f (hsub f hf)) []
          split
          · exact .ok
          · rename_i e he; rw [he] at this; exact this.err
        · have := nf_concatR (fun f hf => h1 f (hsub f hf))
          split
          · exact .ok
          · rename_i hb e he
            rw [he] at this; exact this.err
  | _ => exact Ev.step (Ev.of_all (P := fun _ => True) (fun _ => trivial)) (fun n _ => by rw [seAt_cls]; exact nf_py)

theorem nf_wrapAll {α : Type} {x : Res α} (h : NF x) : NF (wrapAll x) := by
  cases x with
  | ok => exact .ok
  | error e => cases e with
    | fuel => exact absurd rfl h.ne
    | _ => exact nf_err rfl

/-- The context of `cacheSe`. -/
def topCx (env : Env) (t : Ty) (re cv : Option Bool) (sn : Bool) : SeCx :=
  { named := true, reuse := re.getD true, conv := cv.getD false, skipNone := sn, coerce := false,
    unions := env.unionsOfTy t, tagging := .external, sers := env.gser }

theorem nf_cacheSe {r : SeRec} {t re cv sn v} (h : NF (r.render (topCx env t re cv sn) { ty := t, v := .ok v })) :
    NF (cacheSe env r t re cv sn v) := by
  unfold cacheSe
  dsimp only
  unfold topCx at h
  split
  · split
    · rename_i e he; rw [he] at h; exact h.err
    · split
      · exact nf_py
      · exact .ok
    · exact .ok
  · exact nf_serde

/-- What `to_obj` calls without a union annotation. -/
structure ObjCalls (env : Env) (r : SeRec) (b : Bool) (re cv : Option Bool) (sn : Bool) (c : Option Ty) (v : Val) : Prop where
  clsC : NF (r.cls b re cv sn v)
  iterC : ∀ xs, pyIter v = .ok xs → (∀ s, v ≠ .str s) → ∀ x ∈ xs, NF (r.toObj b re cv sn none .external x)
  itemC : ∀ kvs, (∃ k, v = .dict k kvs) → ∀ kv ∈ kvs, NF (r.toObj b re cv sn none .external kv.2)
  stdC : ∀ k s, v = .std k s → ∀ cx : SeCx, NF (r.render cx { ty := .std k, v := .ok v })
  dtC : ∀ k s, v = .dt k s → ∀ cx : SeCx, NF (r.render cx { ty := .dt k, v := .ok v })
  tyC : ∀ t, (c = some t ∧ t.isAny = false) → NF (r.render (topCx env t re cv sn) { ty := t, v := .ok v })

theorem ObjCalls.nf {r : SeRec} {b re cv sn c tg v} (h : ObjCalls env r b re cv sn c v)
    (hu : ∀ ts, c = some (.union ts) → (Ty.union ts).isOpt = false → NF (cacheSeUnion env r ts tg v)) : NF (toObjBody env r b re cv sn c tg v) := by
  have hiter : ∀ {xs} {K : List Val → Res Val}, pyIter v = .ok xs → (∀ s, v ≠ .str s) → (∀ ys, NF (K ys)) →
      NF (match mapR (fun x => r.toObj b re cv sn none .external x) xs with
        | .ok ys => K ys
        | .error e => .error e) := by
    intro xs K hi hs hK
    have := nf_mapR (h.iterC xs hi hs)
    split
    · exact hK _
    · rename_i e he; rw [he] at this; exact this.err
  have hplain : ∀ (x : Res Val), NF x → NF (match c with
      | some (.union ts) => if (Ty.union ts).isOpt then x else cacheSeUnion env r ts tg v
      | _ => x) := by
    intro x hx
    split
    · rename_i ts
      cases ho : (Ty.union ts).isOpt
      · exact hu ts rfl ho
      · exact hx
    · exact hx
  unfold toObjBody
  refine hplain _ ?_
  split
  · exact .ok
  split
  · exact nf_liftP
  split
  · exact h.clsC
  · exact hiter rfl (by simp) (fun _ => .ok)
  · exact hiter rfl (by simp) (fun _ => .ok)
  · split
    · exact .ok
    · rename_i e he
      refine NF.err (α := List (Val × Val)) ?_
      rw [← he]
      refine nf_mapR (fun kv hkv => ?_)
      have := h.itemC _ ⟨_, rfl⟩ kv hkv
      dsimp only
      split
      · exact .ok
      · rename_i e he; rw [he] at this; exact this.err
  · exact hiter rfl (by simp) (fun _ => .ok)
  · exact hiter rfl (by simp) (fun _ => .ok)
  · refine nf_cacheSe ?_
    split
    · split
      · exact h.stdC _ _ rfl _
      · rename_i ha
        exact h.tyC _ ⟨rfl, by simpa using ha⟩
    · exact h.stdC _ _ rfl _
  · refine nf_cacheSe ?_
    split
    · split
      · exact h.dtC _ _ rfl _
      · rename_i ha
        exact h.tyC _ ⟨rfl, by simpa using ha⟩
    · exact h.dtC _ _ rfl _
  · exact .ok

theorem wt_step {R w v xs x} (h : Small age R w v) (hs : ∀ s, v ≠ .str s) (hi : pyIter v = .ok xs) (hx : x ∈ xs) :
    0 < w ∧ Small age R (w - 1) x := by
  have h1 : wt x < wt v := by
    cases v <;> cases hi
    · exact absurd rfl (hs _)
    · exact wt_list hx
    · exact wt_tuple hx
    · exact wt_deque hx
    · exact wt_set hx
    · rw [List.mem_map] at hx
      obtain ⟨e, he, rfl⟩ := hx
      exact wt_key he
  have h2 := h.1
  exact ⟨by omega, by omega, fun c hc => h.2 c (occ_iter hi hx hc)⟩

theorem objCalls {R w v b re cv sn c} (hv : Small age R w v) (hK : ClsEnds env age R w) (hO : ∀ w', w' < w → ObjEnds env age R w')
    (ht : ∀ t, (c = some t ∧ t.isAny = false) → Ev (fun n => NF ((seAt env n).render (topCx env t re cv sn) { ty := t, v := .ok v }))) :
    Ev (fun n => ObjCalls env (seAt env n) b re cv sn c v) := by
  have e1 := hK v hv b re cv sn
  have e2 : Ev (fun n => ∀ xs, (pyIter v = .ok xs ∧ ∀ s, v ≠ .str s) → ∀ x ∈ xs, NF ((seAt env n).toObj b re cv sn none .external x)) := by
    refine Ev.unique (fun _ _ hx hy => ?_) (fun xs hxs => Ev.list (fun x hx => ?_))
    · rw [hx.1] at hy; cases hy.1; rfl
    · have := wt_step hv hxs.2 hxs.1 hx
      exact hO (w - 1) (by omega) x this.2 _ _ _ _ _ _ (.inl rfl)
  have e3 : Ev (fun n => ∀ kvs, (∃ k, v = .dict k kvs) → ∀ kv ∈ kvs, NF ((seAt env n).toObj b re cv sn none .external kv.2)) := by
    refine Ev.unique (fun _ _ hx hy => ?_) (fun kvs hxs => Ev.list (fun kv hx => ?_))
    · obtain ⟨k, hx⟩ := hx; obtain ⟨k', hy⟩ := hy
      rw [hx] at hy; cases hy; rfl
    · obtain ⟨k, rfl⟩ := hxs
      have h1 := @wt_value k _ _ hx
      have h2 := hv.1
      exact hO (w - 1) (by omega) kv.2 ⟨by omega, fun c hc => hv.2 c (.value hx hc)⟩ _ _ _ _ _ _ (.inl rfl)
  have leaf : ∀ (t : Ty) (n : Nat) (cx : SeCx), (∀ r, Calls env r cx { ty := t, v := .ok v }) → NF ((seAt env (n + 1)).render cx { ty := t, v := .ok v }) := by
    intro t n cx h
    rw [seAt_render]; exact (h _).nf .ok
  have e4 : Ev (fun n => (∀ k s, v = .std k s → ∀ cx : SeCx, NF ((seAt env n).render cx { ty := .std k, v := .ok v })) ∧
      ∀ k s, v = .dt k s → ∀ cx : SeCx, NF ((seAt env n).render cx { ty := .dt k, v := .ok v })) := by
    refine Ev.step (Ev.of_all (P := fun _ => True) (fun _ => trivial)) (fun n _ => ⟨fun k s _ cx => ?_, fun k s _ cx => ?_⟩)
    all_goals
      rw [seAt_render]
      refine renderF_custom .ok (fun hp _ => ?_)
      unfold renderF
      rw [hp]
      dsimp only
      split
      · exact .ok
      · first
          | exact .ok
          | (split
             · exact .ok
             · exact nf_py)
  have e5 : Ev (fun n => ∀ t, (c = some t ∧ t.isAny = false) → NF ((seAt env n).render (topCx env t re cv sn) { ty := t, v := .ok v })) := by
    refine Ev.unique (fun _ _ hx hy => ?_) ht
    rw [hx.1] at hy; cases hy.1; rfl
  refine ((((e1.and e2).and e3).and e4).and e5).mono (fun n h => ?_)
  obtain ⟨⟨⟨⟨h1, h2⟩, h3⟩, h4⟩, h5⟩ := h
  exact ⟨h1, fun xs hx hs => h2 xs ⟨hx, hs⟩, h3, h4.1, h4.2, h5⟩

theorem objEnds {R w : Nat} (hK : ClsEnds env age R w) (hO : ∀ w', w' < w → ObjEnds env age R w') : ObjEnds env age R w := by
  intro v hv b re cv sn c tg hc
  refine (objCalls (b := b) (re := re) (cv := cv) (sn := sn) (c := c) hv hK hO ?_).step (fun n h => ?_)
  · rintro t ⟨rfl, ht⟩
    rcases hc with h | h <;> cases h
    cases ht
  · rw [seAt_toObj]
    unfold toObjF
    refine nf_wrapAll ?_
    rcases hc with rfl | rfl
    · exact h.nf (fun ts h => by cases h)
    · exact h.nf (fun ts h => by cases h)

theorem allEnds (hA : OlderFirst env age) (hU : DistinctUnions env) : ∀ R w, ClsEnds env age R w ∧ ObjEnds env age R w ∧ RenderEnds env age R w := by
  intro R
  induction R using Nat.strongRecOn with
  | ind R IHR =>
  intro w
  induction w using Nat.strongRecOn with
  | ind w IHw =>
  have hK : ClsEnds env age R w := clsEnds hA hU (fun w' hw' => flatEnds hA (IHw w' hw').2.2) (fun R' hR' w' => (IHR R' hR' w').2.1)
  have hO : ObjEnds env age R w := objEnds hK (fun w' hw' => (IHw w' hw').2.1)
  exact ⟨hK, hO, renderEnds hK hO⟩

/-- Some bound is above the ages of all the classes of a value. -/
theorem age_bound (age : ClassId → Nat) (v : Val) : ∃ R, ∀ c, Occurs c v → age c < R := by
  have lst : ∀ {α : Type} (g : α → Val) (xs : List α), (∀ x ∈ xs, ∃ R, ∀ c, Occurs c (g x) → age c < R) → ∃ R, ∀ x ∈ xs, ∀ c, Occurs c (g x) → age c < R := by
    intro α g xs
    induction xs with
    | nil => exact fun _ => ⟨0, by simp⟩
    | cons x xs ih =>
      intro h
      obtain ⟨R, hR⟩ := h x (by simp)
      obtain ⟨R', hR'⟩ := ih (fun y hy => h y (by simp [hy]))
      refine ⟨R + R', fun y hy c hc => ?_⟩
      rw [List.mem_cons] at hy
      rcases hy with rfl | hy
      · have := hR c hc; omega
      · have := hR' y hy c hc; omega
  induction hn : wt v using Nat.strongRecOn generalizing v with
  | ind n IH =>
  subst hn
  cases v with
  | list xs =>
    obtain ⟨R, hR⟩ := lst id xs (fun x hx => IH _ (wt_list hx) x rfl)
    exact ⟨R, fun c hc => by cases hc with | list h h' => exact hR _ h c h'⟩
  | tuple xs =>
    obtain ⟨R, hR⟩ := lst id xs (fun x hx => IH _ (wt_tuple hx) x rfl)
    exact ⟨R, fun c hc => by cases hc with | tuple h h' => exact hR _ h c h'⟩
  | deque xs =>
    obtain ⟨R, hR⟩ := lst id xs (fun x hx => IH _ (wt_deque hx) x rfl)
    exact ⟨R, fun c hc => by cases hc with | deque h h' => exact hR _ h c h'⟩
  | set b xs =>
    obtain ⟨R, hR⟩ := lst id xs (fun x hx => IH _ (wt_set hx) x rfl)
    exact ⟨R, fun c hc => by cases hc with | set h h' => exact hR _ h c h'⟩
  | dict k kvs =>
    obtain ⟨R, hR⟩ := lst (·.1) kvs (fun x hx => IH _ (wt_key hx) x.1 rfl)
    obtain ⟨R', hR'⟩ := lst (·.2) kvs (fun x hx => IH _ (wt_value hx) x.2 rfl)
    refine ⟨R + R', fun c hc => ?_⟩
    cases hc with
    | key h h' => have := hR _ h c h'; omega
    | value h h' => have := hR' _ h c h'; omega
  | inst d attrs =>
    obtain ⟨R, hR⟩ := lst (·.2) attrs (fun x hx => IH _ (wt_attr hx) x.2 rfl)
    refine ⟨R + (age d + 1), fun c hc => ?_⟩
    cases hc with
    | here => omega
    | attr h h' => have := hR _ h c h'; omega
  | _ => exact ⟨0, fun c hc => by cases hc⟩

/-- The scope of a wrapper: unions reached from the annotation. -/
theorem toObjEnds (hA : OlderFirst env age) (hU : DistinctUnions env) {c : Option Ty}
    (hc : ∀ t, (c = some t ∨ ∃ nm, c = some (.alias nm t)) → OwnIn env (env.unionsOfTy t) t) (b re cv sn tg v) :
    Ev (fun n => NF ((seAt env n).toObj b re cv sn c tg v)) := by
  obtain ⟨R, hR⟩ := age_bound age v
  have hv : Small age R (wt v) v := ⟨Nat.le_refl _, hR⟩
  have H := allEnds hA hU R (wt v)
  generalize hc' : (match c with
      | some (.alias _ t) => some t
      | c => c) = c'
  replace hc : ∀ t, c' = some t → OwnIn env (env.unionsOfTy t) t := by
    intro t ht
    rw [ht] at hc'
    split at hc'
    · cases hc'; exact hc t (.inr ⟨_, rfl⟩)
    · exact hc t (.inl hc')
  have e1 := objCalls (b := b) (re := re) (cv := cv) (sn := sn) (c := c') hv H.1 (fun w' _ => (allEnds hA hU R w').2.1)
    (fun t ht => H.2.2 t _ _ (hc t ht.1) rfl (.ok hv))
  have e2 : Ev (fun n => ∀ x : List Ty × List Ty, (c' = some (.union x.1) ∧ findUnion env (env.unionsOfTy (.union x.1)) (unionFuncName env x.1) = some x.2) →
      ∀ t ∈ x.2, NF ((seAt env n).render (SeCx.mk true false false false false (env.unionsOfTy (.union x.1)) tg env.gser) { ty := t, v := .ok v })) := by
    refine Ev.unique (fun ⟨_, _⟩ ⟨_, _⟩ hx hy => ?_) (fun ⟨ts, us⟩ hx => Ev.list (fun t ht => ?_))
    · obtain ⟨h1, h2⟩ := hx
      obtain ⟨h1', h2'⟩ := hy
      dsimp only at *
      rw [h1] at h1'; cases h1'; rw [h2] at h2'; cases h2'; rfl
    · obtain ⟨h1, h2⟩ := hx
      dsimp only at *
      have hown := hc _ h1
      have hus : us = ts := hown ts .refl us h2
      subst hus
      exact H.2.2 t _ _ (hown.part (.union ht .refl)) rfl (.ok hv)
  refine (e1.and e2).step (fun n h => ?_)
  have hrw : (seAt env (n + 1)).toObj b re cv sn c tg v = wrapAll (toObjBody env (seAt env n) b re cv sn c' tg v) := by rw [← hc']; rfl
  rw [hrw]
  refine nf_wrapAll (h.1.nf (fun ts hts _ => ?_))
  unfold cacheSeUnion
  split
  · rename_i us hus
    exact nf_seUnion (h.2 ⟨ts, us⟩ ⟨hts, hus⟩)
  · exact nf_py
end

end Verif
