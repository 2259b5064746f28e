import Verif.Lemmas.Res
import Verif.Lemmas.Names
import Verif.Spec.RoundTrip
/-!
# Round trip: basic notions and dict/set plumbing
-/

namespace Verif

open Spec

/-! ## Choosing a list of witnesses -/

theorem exists_list {α β : Type} {R : α → β → Prop} {xs : List α} (h : ∀ x ∈ xs, ∃ y, R x y) :
    ∃ ys : List β, xs.length = ys.length ∧ ∀ p ∈ xs.zip ys, R p.1 p.2 := by
  induction xs with
  | nil => exact ⟨[], rfl, by simp⟩
  | cons x xs ih =>
    obtain ⟨y, hy⟩ := h x (by simp)
    obtain ⟨ys, hl, hys⟩ := ih (fun z hz => h z (by simp [hz]))
    refine ⟨y :: ys, by simp [hl], ?_⟩
    intro p hp
    rw [List.zip_cons_cons, List.mem_cons] at hp
    rcases hp with rfl | hp
    · exact hy
    · exact hys p hp

theorem mapR_zip_flip {α β : Type} {f : β → Res α} {as : List α} {bs : List β} (hl : as.length = bs.length)
    (h : ∀ p ∈ as.zip bs, f p.2 = .ok p.1) : mapR f bs = .ok as := by
  refine mapR_zip hl.symm (fun p hp => ?_)
  obtain ⟨i, hi, rfl⟩ := List.getElem_of_mem hp
  have h1 : i < as.length := by simp at hi; omega
  have h2 : i < bs.length := by simp at hi; omega
  have : (as[i], bs[i]) ∈ as.zip bs := by
    rw [List.mem_iff_getElem]
    exact ⟨i, by simp; omega, by simp⟩
  simpa using h _ this

/-! ## Reading data -/

/-- The argument reads `x`, and has no options. -/
def Reads (a : DeArg) (x : Val) : Prop :=
  a.alias = [] ∧ a.deser = none ∧ a.flatten = false ∧ a.dflt = none ∧
  (a.src = .val (.ok x) ∨ (∃ d i, a.src = .idx d i ∧ pyIndex d i = .ok x) ∨
    ∃ k kvs, a.src = .key (.dict k kvs) ∧ getStr a.conv kvs = some x)

theorem Reads.data {a x} (h : Reads a x) : a.data = .ok x := by
  obtain ⟨_, _, _, _, h | ⟨d, i, h, h'⟩ | ⟨k, kvs, h, h'⟩⟩ := h
  · simp [DeArg.data, h]
  · simp [DeArg.data, h, h']
  · simp [DeArg.data, h, pyGet, pyGetItem, h']

theorem Reads.primData {a x cx} (h : Reads a x) : primData cx a = .ok x := by
  unfold Verif.primData; rw [h.1]; exact h.data

theorem Reads.retype {a x} (h : Reads a x) (t : Ty) (ta) : Reads { a with ty := t, dflt := none, tyArgs := ta } x := by
  obtain ⟨h1, h2, h3, _, h5⟩ := h
  exact ⟨h1, h2, h3, rfl, h5⟩

theorem Reads.retype' {a x} (h : Reads a x) (t : Ty) : Reads { a with ty := t } x := by
  obtain ⟨h1, h2, h3, h4, h5⟩ := h
  exact ⟨h1, h2, h3, h4, h5⟩

theorem Reads.val {t nm cv x} : Reads { ty := t, name := nm, conv := cv, src := .val (.ok x) } x :=
  ⟨rfl, rfl, rfl, rfl, .inl rfl⟩

theorem Reads.optExists_none {env cx a t} (h : Reads a .none) : optExists env cx a t = .ok false := by
  have hd := h.data
  obtain ⟨h1, _, h3, _, h | ⟨d, i, h, h'⟩ | ⟨k, kvs, h, h'⟩⟩ := h
  · unfold optExists; simp [h, hd]
  · unfold optExists; simp [h, hd]
  · unfold optExists; simp [h, h3, h1, pyGet, h']

theorem Reads.optExists_some {env cx a t x} (h : Reads a x) (hx : x ≠ .none) : optExists env cx a t = .ok true := by
  have hd := h.data
  obtain ⟨h1, _, h3, _, h | ⟨d, i, h, h'⟩ | ⟨k, kvs, h, h'⟩⟩ := h
  · unfold optExists; simp [h, hd]; try (split <;> simp_all)
  · unfold optExists; simp [h, hd]; try (split <;> simp_all)
  · unfold optExists; simp [h, h3, h1, pyGet, h']; try (split <;> simp_all)

/-! ## Contexts -/

/-- The serialize context of a scope. -/
def seCxOf {env : Env} (F : Fmt env) (S : Scope) : SeCx :=
  { named := S.named, reuse := F.reuse, conv := F.conv, skipNone := F.skipNone, coerce := S.coerce, unions := S.unions,
    tagging := S.tagging, sers := [] }

/-- A deserialize context that belongs to the scope. -/
structure DeM {env : Env} (F : Fmt env) (S : Scope) (cx : DeCx) : Prop where
  named : cx.named = S.named
  reuse : cx.reuse = F.deReuse
  numbers : cx.numbers = F.numbers
  coerce : cx.coerce = S.coerce
  unions : cx.unions = S.unions
  lits : cx.lits = S.lits
  tagging : cx.tagging = S.tagging
  des : cx.des = []

theorem render_reads {env : Env} {n cx a x} (h : Reads a x) :
    (deAt env (n + 1)).render cx a = deBody env (deAt env n) cx a := by
  rw [deAt_render]; unfold deRenderF; rw [h.2.2.2.1]

theorem pickDe_nil {a : DeArg} : pickDe [] a = none := by
  unfold pickDe; split <;> rfl

theorem pickSer_nil {a : SeArg} : pickSer [] a = none := by
  unfold pickSer; split <;> rfl

/-- What serialization of `v` at type `t` gives, and that its wire form deserializes to `v`. -/
def Enc (env : Env) (F : Fmt env) (S : Scope) (t : Ty) (v w : Val) : Prop :=
  Ev (fun n => (seAt env n).render (seCxOf F S) { ty := t, v := .ok v } = .ok w) ∧
  Ev (fun n => ∀ cx a, DeM F S cx → Reads a (F.wire w) → a.ty = t → (deAt env n).render cx a = .ok v) ∧
  (F.wire w = .none → v = .none) ∧ ∀ c as, F.wire w ≠ .inst c as

/-- `v` survives the round trip at type `t`. -/
def RT (env : Env) (F : Fmt env) (S : Scope) (t : Ty) (v : Val) : Prop := ∃ w, Enc env F S t v w

/-! ## Sets and dicts without equal elements -/

theorem dedup_go {acc xs : List Val} (h1 : ∀ a ∈ acc, ∀ x ∈ xs, pyEq a x = false) (h2 : xs.Pairwise (fun a b => pyEq a b = false)) :
    xs.foldl (fun acc x => if acc.any (fun y => pyEq y x) then acc else acc ++ [x]) acc = acc ++ xs := by
  induction xs generalizing acc with
  | nil => simp
  | cons x xs ih =>
    rw [List.foldl_cons]
    have : acc.any (fun y => pyEq y x) = false := by
      rw [Bool.eq_false_iff]
      intro hh
      rw [List.any_eq_true] at hh
      obtain ⟨y, hy, hyx⟩ := hh
      rw [h1 y hy x (by simp)] at hyx; cases hyx
    rw [this]
    rw [List.pairwise_cons] at h2
    have := ih (acc := acc ++ [x]) (by
      intro a ha y hy
      rcases List.mem_append.1 ha with ha | ha
      · exact h1 a ha y (by simp [hy])
      · rw [List.mem_singleton.1 ha]; exact h2.1 y hy) h2.2
    simp only [Bool.false_eq_true, if_false]
    rw [this]; simp

theorem dedup_id {xs : List Val} (h : xs.Pairwise (fun a b => pyEq a b = false)) : dedup xs = xs := by
  have := dedup_go (acc := []) (xs := xs) (by simp) h
  simpa [dedup] using this

theorem dictSet_new {k v : Val} {kvs : List (Val × Val)} (h : ∀ kv ∈ kvs, pyEq kv.1 k = false) : dictSet k v kvs = kvs ++ [(k, v)] := by
  induction kvs with
  | nil => rfl
  | cons a kvs ih =>
    obtain ⟨k', v'⟩ := a
    unfold dictSet
    rw [h (k', v') (by simp)]
    rw [ih (fun kv hkv => h kv (by simp [hkv]))]
    rfl

theorem dictOf_go {acc xs : List (Val × Val)} (h1 : ∀ a ∈ acc, ∀ x ∈ xs, pyEq a.1 x.1 = false)
    (h2 : (xs.map (·.1)).Pairwise (fun a b => pyEq a b = false)) :
    xs.foldl (fun acc e => dictSet e.1 e.2 acc) acc = acc ++ xs := by
  induction xs generalizing acc with
  | nil => simp
  | cons x xs ih =>
    rw [List.foldl_cons, dictSet_new (fun kv hkv => h1 kv hkv x (by simp))]
    rw [List.map_cons, List.pairwise_cons] at h2
    rw [ih (acc := acc ++ [(x.1, x.2)]) ?_ h2.2]
    · simp
    · intro a ha y hy
      rcases List.mem_append.1 ha with ha | ha
      · exact h1 a ha y (by simp [hy])
      · rw [List.mem_singleton.1 ha]; exact h2.1 y.1 (List.mem_map_of_mem hy)

theorem dictOf_id {xs : List (Val × Val)} (h : (xs.map (·.1)).Pairwise (fun a b => pyEq a b = false)) : dictOf xs = xs := by
  have := dictOf_go (acc := []) (xs := xs) (by simp) h
  simpa [dictOf] using this

theorem hashableL_iff {h : ClassId → Bool} {xs : List Val} : hashableL h xs = true ↔ ∀ x ∈ xs, hashable h x = true := by
  induction xs with
  | nil => simp [hashableL]
  | cons x xs ih => simp [hashableL, ih]

/-- Transport of pairwise distinctness along a pairing of two lists. -/
theorem pairwise_transport {α β : Type} {R : α → α → Prop} {Q : β → β → Prop} {P : α → β → Prop}
    (himp : ∀ a b a' b', P a b → P a' b' → R a a' → Q b b') :
    ∀ {xs : List α} {ys : List β}, xs.length = ys.length → (∀ p ∈ xs.zip ys, P p.1 p.2) → xs.Pairwise R → ys.Pairwise Q
  | [], [], _, _, _ => List.Pairwise.nil
  | [], _ :: _, hl, _, _ => by simp at hl
  | _ :: _, [], hl, _, _ => by simp at hl
  | x :: xs, y :: ys, hl, h, hp => by
    rw [List.pairwise_cons] at hp ⊢
    refine ⟨?_, pairwise_transport himp (by simpa using hl) (fun p hp => h p (by simp [hp])) hp.2⟩
    intro y' hy'
    have hl' : xs.length = ys.length := by simpa using hl
    obtain ⟨i, hi, rfl⟩ := List.getElem_of_mem hy'
    have hx : (xs[i]'(by omega), ys[i]) ∈ xs.zip ys := by
      rw [List.mem_iff_getElem]
      exact ⟨i, by simp; omega, by simp⟩
    exact himp x y _ _ (h (x, y) (by simp)) (h _ (List.mem_cons_of_mem _ hx)) (hp.1 _ (List.getElem_mem _))

theorem mem_zip_map {α β γ : Type} {xs : List α} {ys : List β} {f : β → γ} {p : α × γ} (h : p ∈ xs.zip (ys.map f)) :
    ∃ q ∈ xs.zip ys, p.1 = q.1 ∧ p.2 = f q.2 := by
  rw [List.zip_map_right] at h
  obtain ⟨q, hq, rfl⟩ := List.mem_map.1 h
  exact ⟨q, hq, rfl, rfl⟩

theorem mem_of_zip {α β : Type} {xs : List α} {ys : List β} (hl : xs.length = ys.length) {y} (hy : y ∈ ys) :
    ∃ x, (x, y) ∈ xs.zip ys := by
  obtain ⟨i, hi, rfl⟩ := List.getElem_of_mem hy
  exact ⟨xs[i], by rw [List.mem_iff_getElem]; exact ⟨i, by simp; omega, by simp⟩⟩

end Verif
