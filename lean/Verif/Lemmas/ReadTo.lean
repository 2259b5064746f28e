import Verif.Lemmas.Deserializers
import Verif.Lemmas.UnionDe
import Verif.Lemmas.DeTotal
import Verif.Lemmas.Generic
import Verif.Lemmas.Names
import Verif.Lemmas.Frame
import Verif.Lemmas.Alias
import Verif.Props.C28
import Verif.Props.C51
import Verif.Spec.Read
/-!
# What an input is read as
-/

namespace Verif
open Spec Props

/-- The mode in which an argument with this deserializer is rendered. -/
def modeOf (cx : DeCx) (ds : Option SerFn) : ReadMode :=
  { reuse := cx.reuse, numbers := cx.numbers, coerce := cx.coerce, tagging := cx.tagging, des := effDe ds cx.des, named := cx.named }

/-- The functions the context has for the unions and literals of the annotation are their own. -/
structure OwnCx (env : Env) (cx : DeCx) (t : Ty) : Prop where
  unions : ∀ ts, PartOf (.union ts) t → ∀ us, findUnion env cx.unions (unionFuncName env ts) = some us → us = ts
  lits : ∀ vs, PartOf (.lit vs) t → ∀ us, findLit env cx.lits (litFuncName env vs) = some us → us = vs

theorem OwnCx.part {env : Env} {cx : DeCx} {s t} (h : OwnCx env cx t) (hs : PartOf s t) : OwnCx env cx s :=
  ⟨fun ts hw => h.unions ts (hw.trans hs), fun vs hw => h.lits vs (hw.trans hs)⟩

theorem OwnCx.inUnion {env : Env} {cx : DeCx} {d t} (h : OwnCx env cx t) : OwnCx env (cx.inUnion env d) t := ⟨h.unions, h.lits⟩

theorem ownCx_cls {env : Env} {cx : DeCx} {c} : OwnCx env cx (.cls c) := ⟨fun _ h => (by cases h), fun _ h => (by cases h)⟩

theorem ownCx_class {env : Env} {c cd b o d t} (hU : DistinctUnions env) (hL : DistinctLits env) (ht : Annotated env t) :
    OwnCx env (clsDeCx env c cd b o d) t := by
  refine ⟨fun ts hts us hus => ?_, fun vs hvs us hus => ?_⟩
  · refine hU c ts (ht.part hts) us (unionsOf_iff.1 (findUnion_mem hus)) ?_
    unfold findUnion at hus
    simpa using List.find?_some hus
  · have hm : us ∈ env.litsOf c := by
      unfold findLit at hus
      exact List.mem_reverse.1 (List.mem_of_find?_eq_some hus)
    refine hL c vs (ht.part hvs) us (litsOf_iff.1 hm) ?_
    unfold findLit at hus
    simpa using List.find?_some hus

theorem truncRat_truncated {q : Rat} : Truncated q (truncRat q) := by
  have hd : 0 < q.den := Nat.pos_of_ne_zero q.den_nz
  unfold Truncated truncRat
  have habs : (q.num.tdiv q.den).natAbs = q.num.natAbs / q.den := by rw [Int.natAbs_tdiv]; rfl
  rw [habs]
  refine ⟨Nat.div_mul_le_self _ _, by have := Nat.lt_mul_div_succ q.num.natAbs hd; rwa [Nat.mul_comm] at this, ?_⟩
  cases hn : q.num with
  | ofNat a => exact Int.mul_nonneg (Int.natCast_nonneg _) (Int.natCast_nonneg _)
  | negSucc a =>
    have h1 : (Int.negSucc a).tdiv q.den ≤ 0 := by
      exact Int.neg_nonpos_of_nonneg (Int.natCast_nonneg ((a + 1) / q.den))
    exact Int.mul_nonneg_of_nonpos_of_nonpos h1 (by omega)

theorem coerce_converts {env : Env} {p x w} (h : coerceObj env p x = .ok w) (hs : Scalar x) : Converts env p x w := by
  unfold coerceObj at h
  split at h
  · cases h
  · split at h
    · rename_i u hu
      cases h
      unfold primCall at hu
      cases hs with
      | none => exact absurd rfl ‹¬ _›
      | @bool b =>
        cases p <;> cases b <;> cases hu
        · exact .intFalse
        · exact .intTrue
        · exact .floatFalse
        · exact .floatTrue
        · exact .bool
        · exact .bool
        · exact .strBool
        · exact .strBool
      | @int i =>
        cases p with
        | int => cases hu; exact .int
        | float =>
          dsimp only at hu
          split at hu
          · cases hu; exact .floatInt ‹_›
          · cases hu
        | bool =>
          cases hu
          by_cases hi : i = 0
          · subst hi; exact .boolZero
          · have : truthy env (.int i) = true := by simp [truthy, hi]
            rw [this]; exact .boolInt hi
        | str => cases hu; exact .strInt
      | @float x =>
        cases p with
        | int =>
          cases x with
          | fin q => cases hu; exact .intFloat truncRat_truncated
          | inf => cases hu
          | nan => cases hu
        | float => cases hu; exact .float
        | bool =>
          cases hu
          cases x with
          | fin q =>
            by_cases hq : q = 0
            · subst hq; exact .boolFloatZero
            · have : truthy env (.float (.fin q)) = true := by simp [truthy, hq]
              rw [this]; exact .boolFloat (fun h => hq (by cases h; rfl))
          | inf => exact .boolFloat (fun h => (by cases h))
          | nan => exact .boolFloat (fun h => (by cases h))
        | str => cases hu; exact .strFloat
      | @str s =>
        cases p with
        | int =>
          dsimp only at hu
          split at hu
          · cases hu; exact .intStr ‹_›
          · cases hu
        | float =>
          dsimp only at hu
          split at hu
          · cases hu; exact .floatStr ‹_›
          · cases hu
        | bool =>
          cases hu
          by_cases hs : s = ""
          · subst hs; exact .boolEmpty
          · have : truthy env (.str s) = true := by simp [truthy, hs]
            rw [this]; exact .boolStr hs
        | str => cases hu; exact .str
    · cases h

theorem ctorLike_made {env : Env} {v s u} (h : ctorLike env.W v s = .ok u) : MadeLike env v s u := by
  unfold ctorLike at h
  split at h
  · split at h
    · cases h; exact .int ‹_›
    · cases h
  · split at h
    · cases h; exact .float ‹_›
    · cases h
  · cases h; exact .bool
  · cases h; exact .tuple rfl
  · cases h; exact .list rfl
  · exact .std h
  · cases h

theorem enumCall_to {d : EnumDef} {e v w} (h : enumCall d e v = .ok w) :
    (∃ m, v = .enum e m ∧ w = .enum e m) ∨ ∃ m u, (m, u) ∈ d.members ∧ pyEq u v = true ∧ w = .enum e m := by
  have look : (match d.members with
    | [] => .error .type
    | _ => match d.members.find? (fun m => pyEq m.2 v) with
      | some m => .ok (.enum e m.1)
      | Option.none => .error .value : Except PErr Val) = .ok w → ∃ m u, (m, u) ∈ d.members ∧ pyEq u v = true ∧ w = .enum e m := by
    intro h
    split at h
    · cases h
    · split at h
      · rename_i m hm
        cases h
        exact ⟨m.1, m.2, List.mem_of_find?_eq_some hm, by simpa using List.find?_some hm, rfl⟩
      · cases h
  unfold enumCall at h
  dsimp only at h
  split at h
  · rename_i e' m
    split at h
    · rename_i he
      cases h
      have : e' = e := by simpa using he
      subst this
      exact .inl ⟨m, rfl, rfl⟩
    · exact .inr (look h)
  · exact .inr (look h)

theorem deEnum_to {env : Env} {e x w} (h : deEnum env e x = .ok w) : EnumTo env e x w := by
  unfold deEnum at h
  split at h
  · cases h
  · rename_i d hd
    split at h
    · rename_i u hu
      cases h
      rcases enumCall_to hu with ⟨m, rfl, rfl⟩ | ⟨m, u, h1, h2, rfl⟩
      · exact .self
      · exact .value hd h1 h2
    · split at h
      · cases h
      · rename_i m₀ v₀ rest hm
        split at h
        · rcases enumCall_to h with ⟨m, h1, rfl⟩ | ⟨m, u, h1, h2, rfl⟩
          · cases h1
          · exact .items hd h1 h2
        · cases h
        · split at h
          · rename_i u hu
            rcases enumCall_to h with ⟨m, rfl, rfl⟩ | ⟨m, u', h1, h2, rfl⟩
            · exact .madeSelf hd hm (ctorLike_made hu)
            · exact .made hd hm (ctorLike_made hu) h1 h2
          · cases h
        · cases h
    · cases h

theorem getItem_dict {x k p} (h : pyGetItem x k = .ok p) : ∃ dk kvs, x = .dict dk kvs ∧ getStr k kvs = some p := by
  unfold pyGetItem at h
  split at h
  · split at h
    · cases h; exact ⟨_, _, rfl, ‹_›⟩
    · cases h
  · cases h

theorem payload_of {env : Env} {tg t x p} (h : unionPayload env tg t x = .ok p) : PayloadOf env tg t x p := by
  unfold unionPayload at h
  dsimp only at h
  split at h
  · rename_i hc
    obtain ⟨c, rfl⟩ : ∃ c, t = .cls c := by cases t <;> first | exact ⟨_, rfl⟩ | exact absurd hc (by simp [Ty.isCls])
    have hn : typename env (.cls c) = env.clsName c := rfl
    rw [hn] at h
    split at h
    · split at h
      · obtain ⟨dk, kvs, rfl, h1⟩ := getItem_dict h
        exact .external h1
      · cases h
      · cases h
    · split at h
      · split at h
        · rename_i y hy
          obtain ⟨dk, kvs, rfl, h1⟩ := getItem_dict hy
          split at h
          · cases h; exact .internal h1 ‹_›
          · cases h
        · cases h
      · cases h
      · cases h
    · split at h
      · split at h
        · split at h
          · rename_i y hy
            obtain ⟨dk, kvs, rfl, h1⟩ := getItem_dict hy
            split at h
            · obtain ⟨_, _, h3, h2⟩ := getItem_dict h
              cases h3
              exact .adjacent h1 ‹_› h2
            · cases h
          · cases h
        · cases h
        · cases h
      · cases h
      · cases h
    · cases h; exact .untagged
  · rename_i hc
    cases h
    exact .plain (fun c ht => hc (by rw [ht]; rfl))

theorem dedup_covers {xs : List Val} : ∀ y ∈ xs, y ∈ dedup xs ∨ ∃ z ∈ dedup xs, pyEq z y = true := by
  have key : ∀ (l acc : List Val) y, (y ∈ l ∨ y ∈ acc ∨ ∃ z ∈ acc, pyEq z y = true) →
      y ∈ l.foldl (fun acc x => if acc.any (fun y => pyEq y x) then acc else acc ++ [x]) acc ∨
      ∃ z ∈ l.foldl (fun acc x => if acc.any (fun y => pyEq y x) then acc else acc ++ [x]) acc, pyEq z y = true := by
    intro l
    induction l with
    | nil => intro acc y h; rcases h with h | h; · simp at h
             exact h
    | cons x l ih =>
      intro acc y h
      rw [List.foldl_cons]
      apply ih
      split
      · rename_i ha
        rcases h with h | h
        · rcases List.mem_cons.1 h with rfl | h
          · obtain ⟨z, h1, h2⟩ := List.any_eq_true.1 ha
            exact .inr (.inr ⟨z, h1, h2⟩)
          · exact .inl h
        · exact .inr h
      · rcases h with h | h | ⟨z, h1, h2⟩
        · rcases List.mem_cons.1 h with rfl | h
          · exact .inr (.inl (by simp))
          · exact .inl h
        · exact .inr (.inl (by simp [h]))
        · exact .inr (.inr ⟨z, by simp [h1], h2⟩)
  exact fun y hy => key xs [] y (.inl hy)

theorem dedup_distinct {xs : List Val} : (dedup xs).Pairwise (fun a b => pyEq a b = false) := by
  have key : ∀ (xs acc : List Val), acc.Pairwise (fun a b => pyEq a b = false) →
      (xs.foldl (fun acc x => if acc.any (fun y => pyEq y x) then acc else acc ++ [x]) acc).Pairwise (fun a b => pyEq a b = false) := by
    intro xs
    induction xs with
    | nil => exact fun acc h => h
    | cons x xs ih =>
      intro acc h
      simp only [List.foldl_cons]
      split
      · exact ih _ h
      · rename_i ha
        refine ih _ (List.pairwise_append.2 ⟨h, List.pairwise_singleton _ _, fun a h1 b hb => ?_⟩)
        rw [List.mem_singleton.1 hb]
        exact Bool.eq_false_iff.2 fun hh => ha (List.any_eq_true.2 ⟨a, h1, hh⟩)
  exact key xs [] .nil

theorem dictSet_at {k : Val} : ∀ {kvs : List (Val × Val)}, (∃ pre k' v' post, kvs = pre ++ (k', v') :: post ∧ (∀ e ∈ pre, pyEq e.1 k = false) ∧
    pyEq k' k = true ∧ getVal k kvs = some v' ∧ ∀ v, dictSet k v kvs = pre ++ (k', v) :: post) ∨
    ((∀ e ∈ kvs, pyEq e.1 k = false) ∧ getVal k kvs = none ∧ ∀ v, dictSet k v kvs = kvs ++ [(k, v)])
  | [] => .inr ⟨by simp, rfl, fun _ => rfl⟩
  | (k', v') :: r => by
    simp only [dictSet, getVal]
    by_cases hk : pyEq k' k = true
    · exact .inl ⟨[], k', v', r, rfl, by simp, hk, by simp [hk], by simp [hk]⟩
    · simp only [hk]
      rcases dictSet_at (k := k) (kvs := r) with ⟨pre, k₁, v₁, post, rfl, h1, h2, h3, h4⟩ | ⟨h1, h2, h3⟩
      · refine .inl ⟨(k', v') :: pre, k₁, v₁, post, rfl, ?_, h2, by simpa using h3, by simp [h4]⟩
        intro e he
        rcases List.mem_cons.1 he with rfl | he
        · exact Bool.eq_false_iff.2 hk
        · exact h1 e he
      · refine .inr ⟨?_, by simpa using h2, by simp [h3]⟩
        intro e he
        rcases List.mem_cons.1 he with rfl | he
        · exact Bool.eq_false_iff.2 hk
        · exact h1 e he

theorem tally_int {xs kvs} (h : Tally xs kvs) : ∀ e ∈ kvs, ∃ n, e.2 = .int n := by
  induction h with
  | none => simp
  | again _ _ _ ih =>
    intro e he
    rcases List.mem_append.1 he with he | he
    · exact ih e (by simp [he])
    · rcases List.mem_cons.1 he with rfl | he
      · exact ⟨_, rfl⟩
      · exact ih e (by simp [he])
  | new _ _ ih =>
    intro e he
    rcases List.mem_append.1 he with he | he
    · exact ih e he
    · exact ⟨1, by rw [List.mem_singleton.1 he]⟩

theorem countElems_tally : ∀ {xs seen acc}, Tally seen acc → Tally (seen ++ xs) (countElems xs acc)
  | [], seen, acc, h => by simpa [countElems] using h
  | x :: xs, seen, acc, h => by
    unfold countElems
    rw [show seen ++ x :: xs = (seen ++ [x]) ++ xs by simp]
    refine countElems_tally ?_
    rcases dictSet_at (k := x) (kvs := acc) with ⟨pre, k', v', post, rfl, h1, h2, h3, h4⟩ | ⟨h1, h2, h3⟩
    · obtain ⟨i, hi⟩ := tally_int h (k', v') (by simp)
      dsimp only at hi
      subst hi
      rw [h4, h3]
      exact .again h h1 h2
    · rw [h3, h2]
      exact .new h h1

theorem mkSet_of {hs b ys w} (h : mkSet hs b ys = .ok w) : SetFrom b ys w := by
  unfold mkSet at h
  split at h
  · cases h; exact .mk (fun _ => dedup_mem) dedup_covers dedup_distinct
  · cases h

theorem dictSet_covers {k v : Val} {kvs : List (Val × Val)} : (∃ z ∈ dictSet k v kvs, k = z.1 ∨ pyEq z.1 k = true) ∧
    ∀ e ∈ kvs, ∃ z ∈ dictSet k v kvs, z.1 = e.1 := by
  induction kvs with
  | nil => exact ⟨⟨(k, v), by simp [dictSet], .inl rfl⟩, by simp⟩
  | cons a kvs ih =>
    obtain ⟨k', v'⟩ := a
    unfold dictSet
    split
    · rename_i hk
      refine ⟨⟨(k', v), by simp, .inr hk⟩, fun e he => ?_⟩
      rcases List.mem_cons.1 he with rfl | he
      · exact ⟨(k', v), by simp, rfl⟩
      · exact ⟨e, by simp [he], rfl⟩
    · obtain ⟨⟨z, h1, h2⟩, h3⟩ := ih
      refine ⟨⟨z, by simp [h1], h2⟩, fun e he => ?_⟩
      rcases List.mem_cons.1 he with rfl | he
      · exact ⟨_, List.mem_cons_self, rfl⟩
      · obtain ⟨z, h1, h2⟩ := h3 e he
        exact ⟨z, by simp [h1], h2⟩

theorem dictOf_covers {kvs : List (Val × Val)} : ∀ e ∈ kvs, ∃ z ∈ dictOf kvs, e.1 = z.1 ∨ pyEq z.1 e.1 = true := by
  have key : ∀ (l acc : List (Val × Val)) (k : Val), ((∃ e ∈ l, e.1 = k) ∨ ∃ z ∈ acc, k = z.1 ∨ pyEq z.1 k = true) →
      ∃ z ∈ l.foldl (fun acc e => dictSet e.1 e.2 acc) acc, k = z.1 ∨ pyEq z.1 k = true := by
    intro l
    induction l with
    | nil => intro acc k h; rcases h with ⟨_, h, _⟩ | h; · simp at h
             exact h
    | cons x l ih =>
      intro acc k h
      rw [List.foldl_cons]
      apply ih
      rcases h with ⟨e, he, rfl⟩ | ⟨z, h1, h2⟩
      · rcases List.mem_cons.1 he with rfl | he
        · exact .inr dictSet_covers.1
        · exact .inl ⟨e, he, rfl⟩
      · obtain ⟨z', h3, h4⟩ := dictSet_covers.2 z h1
        exact .inr ⟨z', h3, by rw [h4]; exact h2⟩
  exact fun e he => key kvs [] e.1 (.inl ⟨e, he, rfl⟩)

theorem dictOf_distinct {es : List (Val × Val)} : ((dictOf es).map (·.1)).Pairwise (fun a b => pyEq a b = false) := by
  have key : ∀ (es acc : List (Val × Val)), (acc.map (·.1)).Pairwise (fun a b => pyEq a b = false) →
      ((es.foldl (fun acc e => dictSet e.1 e.2 acc) acc).map (·.1)).Pairwise (fun a b => pyEq a b = false) := by
    intro es
    induction es with
    | nil => exact fun acc h => h
    | cons e es ih =>
      intro acc h
      refine ih _ ?_
      dsimp only
      rcases dictSet_at (k := e.1) (kvs := acc) with ⟨pre, k', v', post, rfl, h1, h2, h3, h4⟩ | ⟨h1, h2, h3⟩
      · rw [h4]
        simpa using h
      · rw [h3, List.map_append]
        refine List.pairwise_append.2 ⟨h, List.pairwise_singleton _ _, fun a ha b hb => ?_⟩
        obtain ⟨z, hz, rfl⟩ := List.mem_map.1 ha
        rw [List.mem_singleton.1 hb]
        exact h1 z hz
  exact key es [] .nil

theorem mkDict_of {hs k es w} (h : mkDict hs k es = .ok w) : MapFrom k es w := by
  rw [mkDict_result h]
  refine .mk (fun z hz => ?_) dictOf_covers dictOf_distinct dictOf_id
  obtain ⟨e', h1, h2, h3⟩ := dictOf_from hz
  obtain ⟨e, h4, h5⟩ := List.mem_map.1 (dictOf_parts hz).1
  refine ⟨e, h4, e', h1, by rw [h5, ← h2], by rw [h5]; exact h3⟩

theorem deUnion_member {env : Env} {r : DeRec} {cx d ts w} (h : deUnion env r cx d ts = .ok w) : ∃ t ∈ ts, deMember env r cx t d = .ok w := by
  induction ts with
  | nil => cases h
  | cons t ts ih =>
    unfold deUnion at h
    split at h
    · cases h; exact ⟨t, by simp, ‹_›⟩
    · cases h
    · obtain ⟨t', h1, h2⟩ := ih h
      exact ⟨t', by simp [h1], h2⟩

/-- An argument for which the aliases count. -/
structure Aliased (cx : DeCx) (a : DeArg) (dk : DictK) (kvs : List (Val × Val)) : Prop where
  named : cx.named = true
  alias : a.alias ≠ []
  ty : AliasTy a.ty
  wire : a.conv = a.name
  flat : a.flatten = false
  deser : a.deser = none
  noDe : ∀ t, PartOf t a.ty → NoneForDe cx.des t
  src : a.src = .key (.dict dk kvs)
  data : cx.data = .dict dk kvs

/-- An argument for which there is no input. -/
structure Lost (a : DeArg) : Prop where
  alias : a.alias = []
  flat : a.flatten = false
  src : (∃ d i e, a.src = .idx d i ∧ pyIndex d i = .error e) ∨ ∃ e, a.src = .val (.error e)

theorem Lost.data {a : DeArg} (h : Lost a) : ∃ e, a.data = .error e := by
  unfold DeArg.data
  rcases h.src with ⟨d, i, e, hs, hx⟩ | ⟨e, hs⟩
  · rw [hs]; exact ⟨e, hx⟩
  · rw [hs]; exact ⟨e, rfl⟩

theorem Lost.opt {env : Env} {cx : DeCx} {a : DeArg} {t} (h : Lost a) : ∃ e, optExists env cx a t = .error e := by
  obtain ⟨e, he⟩ := h.data
  unfold optExists
  rcases h.src with ⟨d, i, e', hs, hx⟩ | ⟨e', hs⟩
  all_goals
    rw [hs]
    dsimp only
    rw [he]
    exact ⟨e, rfl⟩

theorem Lost.render {env : Env} {r : DeRec} {cx} {a : DeArg} (h : Lost a) : deRenderF env r cx a = deBody env r cx a := by
  unfold deRenderF
  cases hd : a.dflt with
  | none => rfl
  | some dv => rcases h.src with ⟨d, i, e', hs, hx⟩ | ⟨e', hs⟩ <;> rw [hs]

/-- Nothing is read where there is no input. -/
theorem lost_body {env : Env} {r : DeRec} (hr : ∀ cx a w, Lost a → NeedsItem a.ty → r.render cx a ≠ .ok w) {cx a w} (hl : Lost a) (hn : NeedsItem a.ty) :
    deBody env r cx a ≠ .ok w := by
  intro h
  obtain ⟨e, he⟩ := hl.data
  have hpd : primData cx a = .error e := by unfold primData; rw [hl.alias]; exact he
  unfold deBody at h
  rw [he] at h
  split at h
  · cases h
  · split at h
    · cases h
    · dsimp only at h
      generalize hty : a.ty = ty at h hn
      cases hn with
      | @alias nm t hn => exact hr cx { a with ty := t } w ⟨hl.alias, hl.flat, hl.src⟩ hn h
      | @tuple t ts ht hn =>
        cases ts with
        | nil => cases ht
        | cons t₀ ts =>
          dsimp only at h
          split at h
          · rename_i ys hys
            obtain ⟨i, hi⟩ := List.mem_iff_getElem?.1 ht
            have hz : (t, i) ∈ (t₀ :: ts).zipIdx := by
              rw [List.mem_iff_getElem?]
              exact ⟨i, by rw [List.getElem?_zipIdx, hi]; simp⟩
            obtain ⟨y, hy⟩ := mapR_each hys hz
            exact hr cx { ty := t, name := "data[..]", conv := "data[..]", src := .val (.error e), alias := a.alias, deser := a.deser } y ⟨hl.alias, rfl, .inr ⟨_, rfl⟩⟩ hn hy
          · cases h
      | other h1 h2 h3 =>
        cases ty with
        | none => exact h1 rfl
        | alias nm s => exact h2 _ _ rfl
        | tuple ts => exact h3 _ rfl
        | gen c as => exact hr cx { a with ty := .cls c, tyArgs := some (as.map (tyArgStr env)) } w ⟨hl.alias, hl.flat, hl.src⟩ (.other (by simp) (by simp) (by simp)) h
        | cls c =>
          dsimp only at h
          rw [hl.flat] at h
          simp only [Bool.false_eq_true, if_false] at h
          cases h
        | union ts =>
          dsimp only at h
          split at h
          · split at h
            · obtain ⟨e', he'⟩ := hl.opt (env := env) (cx := cx)
              rw [he'] at h
              cases h
            · cases h
          · split at h <;> cases h
        | dictB k => cases k <;> cases h
        | tvar x =>
          dsimp only at h
          split at h
          · cases h
          · split at h <;> cases h
        | lit vs =>
          dsimp only at h
          split at h <;> cases h
        | prim p => dsimp only at h; rw [hpd] at h; cases h
        | newType nm p => dsimp only at h; rw [hpd] at h; cases h
        | enum e' => dsimp only at h; rw [hpd] at h; cases h
        | _ => cases h

/-- Every successful rendering reads the input as described. -/
structure ReadRec (env : Env) (r : DeRec) : Prop where
  render : ∀ cx a x w, OwnCx env cx a.ty → Keeps a x → (∀ g, a.deser ≠ some (.fn g)) → r.render cx a = .ok w →
    ReadTo env (modeOf cx a.deser) a.ty x w
  own : ∀ cx a x w, Keeps a x → ∀ g, a.deser = some (.fn g) → r.render cx a = .ok w → g x = .ok w
  obj : ∀ c (o : DeCall) x w (m : ReadMode), (∀ cd, env.cls c = some cd → o.reuse.getD cd.reuseDflt = m.reuse) → o.numbers = m.numbers →
    r.cls m.named c o x = .ok w → ObjTo env m c x w
  flat : ∀ c (o : DeCall) dk kvs w (m : ReadMode), m.named = true → (∀ cd, env.cls c = some cd → cd.transparent = false ∧ o.reuse.getD cd.reuseDflt = m.reuse) →
    o.numbers = m.numbers → r.cls true c o (.dict dk kvs) = .ok w → ∀ dk' kvs', (∀ s, Recognised env c s → getStr s kvs = getStr s kvs') →
    ObjTo env m c (.dict dk' kvs') w
  dflt : ∀ cx (a : DeArg) w dv dk kvs, a.alias = [] → a.flatten = false → a.src = .key (.dict dk kvs) → getStr a.conv kvs = none → a.dflt = some dv →
    r.render cx a = .ok w → w = dv
  flatArg : ∀ cx (a : DeArg) ch dk kvs w, cx.named = true → a.flatten = true → a.ty = .cls ch → a.deser = none → a.dflt = none → a.src = .key (.dict dk kvs) →
    NoneForDe cx.des (.cls ch) → (∀ chd, env.cls ch = some chd → chd.transparent = false) → r.render cx a = .ok w →
    ∀ dk' kvs', (∀ s, Recognised env ch s → getStr s kvs = getStr s kvs') → ObjTo env (modeOf cx none) ch (.dict dk' kvs') w
  aliased : ∀ cx (a : DeArg) dk kvs x w, Aliased cx a dk kvs → firstOf (a.name :: a.alias) kvs = some x → r.render cx a = .ok w →
    ReadTo env (modeOf cx none) a.ty x w
  aliasedDflt : ∀ cx (a : DeArg) dk kvs dv w, Aliased cx a dk kvs → firstOf (a.name :: a.alias) kvs = none → a.dflt = some dv → r.render cx a = .ok w → w = dv
  absent : ∀ cx (a : DeArg) t w dk kvs, a.alias = [] → a.flatten = false → a.src = .key (.dict dk kvs) → getStr a.conv kvs = none → a.dflt = none → a.deser = none →
    a.ty = .union [t, .none] → NoneForDe cx.des a.ty → a.ty.isOpt = true → r.render cx a = .ok w → w = .none
  lost : ∀ cx (a : DeArg) w, Lost a → NeedsItem a.ty → r.render cx a ≠ .ok w

theorem body_read {env : Env} {r : DeRec} (hr : ReadRec env r) {cx a v w} (hown : OwnCx env cx a.ty) (hk : Keeps a v)
    (ha : ∀ g, a.deser ≠ some (.fn g)) (h : deBody env r cx a = .ok w) : ReadTo env (modeOf cx a.deser) a.ty v w := by
  have hel : ∀ t nm x y, OwnCx env cx t → r.render cx { ty := t, name := nm, conv := nm, src := .val (.ok x), alias := a.alias, deser := a.deser } = .ok y →
      ReadTo env (modeOf cx a.deser) t x y := fun t nm x y ho hw => by
    have hal : a.alias = [] := hk.alias
    rw [hal] at hw
    exact hr.render cx _ x y ho keeps_elem ha hw
  have hels : ∀ {t nm xs ys}, OwnCx env cx t → mapR (fun x => r.render cx { ty := t, name := nm, conv := nm, src := .val (.ok x), alias := a.alias, deser := a.deser }) xs = .ok ys →
      xs.length = ys.length ∧ ∀ (i : Nat) a' b', xs[i]? = some a' → ys[i]? = some b' → ReadTo env (modeOf cx a.deser) t a' b' := fun ho h =>
    ⟨(mapR_ok_length h).symm, fun i a' b' h1 h2 => hel _ _ a' b' ho (mapR_ok_get h _ (zip_get' h1 h2))⟩
  have hv := hk.data
  have hpd : primData cx a = .ok v := by
    unfold primData
    have hal : a.alias = [] := hk.alias
    rw [hal]
    exact hv
  unfold deBody at h
  split at h
  · rename_i s hp
    rw [hv] at h
    exact .chosen (pickDe_some hp) (liftP_ok h)
  · rename_i hp
    have hno : NoneForDe (modeOf cx a.deser).des a.ty := pickDe_none' hp
    split at h
    · rename_i g hg; exact absurd hg (ha g)
    · generalize hty : a.ty = ty at h hno hown
      cases ty with
      | none => cases h; exact .leaf hno .none
      | prim p =>
        dsimp only at h
        rw [hpd] at h
        dsimp only at h
        split at h
        · rename_i num hnum; exact .leaf hno (.number (m := modeOf cx a.deser) hnum (liftP_ok h))
        · rename_i _ p _ _ hnn
          have hnn' : p = .float → (modeOf cx a.deser).numbers = .none := by
            intro hp
            subst hp
            cases hcn : cx.numbers with
            | none => exact hcn
            | some num => exact (hnn num rfl hcn).elim
          split at h
          · rename_i hc; exact .leaf hno (.coerced hnn' hc (coerce_converts h))
          · rename_i hc; cases h; exact .leaf hno (.same hnn' (by simpa [modeOf] using hc))
      | newType nm p =>
        dsimp only at h
        rw [hpd] at h
        dsimp only at h
        split at h
        · rename_i hc; exact .leaf hno (.newTypeCoerced hc (coerce_converts h))
        · rename_i hc; cases h; exact .leaf hno (.newType (by simpa [modeOf] using hc))
      | any => dsimp only at h; rw [hv] at h; cases h; exact .leaf hno .any
      | tvar => exact .tvar hno
      | enum => dsimp only at h; rw [hpd] at h; exact .leaf hno (.enum (deEnum_to (liftP_ok h)))
      | std k =>
        dsimp only at h; rw [hv] at h; dsimp only at h
        split at h
        · rename_i hc
          cases h
          rw [Bool.and_eq_true] at hc
          exact .leaf hno (.stdKept hc.1 (std_isA.2 hc.2))
        · rename_i hc
          refine .leaf hno (.stdMade (fun ⟨h1, h2⟩ => hc ?_) (liftP_ok h))
          rw [Bool.and_eq_true]; exact ⟨h1, std_isA.1 h2⟩
      | dt k =>
        dsimp only at h; rw [hv] at h; dsimp only at h
        split at h
        · rename_i hc
          cases h
          rw [Bool.and_eq_true] at hc
          exact .leaf hno (.dtKept hc.1 ((dt_isA (env := env)).2 hc.2))
        · rename_i hc
          refine .leaf hno (.dtMade (fun ⟨h1, h2⟩ => hc ?_) (liftP_ok h))
          rw [Bool.and_eq_true]; exact ⟨h1, dt_isA.1 h2⟩
      | lit vs =>
        dsimp only at h
        split at h
        · cases h
        · rename_i us hus
          cases hown.lits _ .refl _ hus
          rw [hv] at h
          dsimp only at h
          unfold deLit at h
          split at h
          · rename_i hl
            cases h
            obtain ⟨l, hl1, hl2⟩ := List.any_eq_true.1 hl
            exact .leaf hno (.lit hl1 hl2)
          · cases h
      | listB =>
        dsimp only at h; rw [hv] at h; dsimp only at h
        split at h
        · rename_i xs hxs; cases h; exact .leaf hno (.listB hxs)
        · cases h
      | setB =>
        dsimp only at h; rw [hv] at h; dsimp only at h
        split at h
        · rename_i xs hxs; exact .leaf hno (.setB hxs (mkSet_of h))
        · cases h
      | dequeB =>
        dsimp only at h; rw [hv] at h; dsimp only at h
        split at h
        · rename_i xs hxs; cases h; exact .leaf hno (.dequeB hxs)
        · cases h
      | tupleB =>
        dsimp only at h; rw [hv] at h; dsimp only at h
        split at h
        · rename_i xs hxs; cases h; exact .leaf hno (.tupleB hxs)
        · cases h
      | counterB =>
        dsimp only at h; rw [hv] at h; dsimp only at h
        unfold pyCounter at h
        split at h
        · cases h; exact .leaf hno .counterB
        · rename_i hnd
          split at h
          · split at h
            · cases h; exact .leaf hno (.counted hnd ‹_› (countElems_tally .none))
            · cases h
          · cases h
      | dictB k =>
        cases k with
        | deflt => cases h
        | _ => dsimp only at h; rw [hv] at h; cases h; exact .leaf hno .dictB
      | other => cases h
      | alias nm t =>
        exact .alias hno (hr.render cx { a with ty := t } v w (hown.part (.alias .refl)) ⟨hk.alias, rfl, hk.flat, hk.src⟩ ha h)
      | gen c as =>
        exact .gen hno (hr.render cx { a with ty := .cls c, tyArgs := some (as.map (tyArgStr env)) } v w ownCx_cls ⟨hk.alias, rfl, hk.flat, hk.src⟩ ha h)
      | cls c =>
        have hfl : a.flatten = false := hk.flat
        dsimp only at h
        rw [hfl] at h
        simp only [Bool.false_eq_true, if_false] at h
        rw [hv] at h
        dsimp only at h
        exact .cls hno (hr.obj _ _ _ _ _ (fun _ _ => rfl) rfl h)
      | union ts =>
        cases ho : (Ty.union ts).isOpt with
        | false =>
          dsimp only at h
          rw [ho, if_neg (by simp)] at h
          split at h
          · cases h
          · rename_i us hus
            cases hown.unions _ .refl _ hus
            rw [hv] at h
            dsimp only at h
            obtain ⟨t, ht, hm⟩ := deUnion_member h
            obtain ⟨p, h1, h2, h3, h4⟩ := deMember_ok.1 hm
            refine .union hno ho ht (payload_of h1) h2 ?_ h4
            exact hr.render (cx.inUnion env v) (memberArg t p) p w (hown.part (.union ht .refl)).inUnion ⟨rfl, rfl, rfl, .inl ⟨_, _, rfl, rfl⟩⟩ (fun g h => (by cases h)) h3
        | true =>
          obtain ⟨t, rfl, ht⟩ := isOpt_shape ho
          dsimp only at h
          rw [ho, if_pos rfl] at h
          by_cases hvn : v = .none
          · subst hvn
            rw [hk.optNone] at h
            cases h
            exact .optNone hno
          · rw [hk.optSome hvn] at h
            exact .opt hno hvn (hr.render cx { a with ty := t, dflt := Option.none, tyArgs := Option.none } v w (hown.part (.union (by simp) .refl))
              ⟨hk.alias, rfl, hk.flat, hk.src⟩ ha h)
      | list k t =>
        dsimp only at h; rw [hv] at h; dsimp only at h
        split at h
        · rename_i xs hi
          split at h
          · rename_i ys hys
            cases h
            have := hels (hown.part (.list .refl)) hys
            exact .list hno hi this.1 this.2
          · cases h
        · cases h
      | deque t =>
        dsimp only at h; rw [hv] at h; dsimp only at h
        split at h
        · rename_i xs hi
          split at h
          · rename_i ys hys
            cases h
            have := hels (hown.part (.deque .refl)) hys
            exact .deque hno hi this.1 this.2
          · cases h
        · cases h
      | tupleV t =>
        dsimp only at h; rw [hv] at h; dsimp only at h
        split at h
        · rename_i xs hi
          split at h
          · rename_i ys hys
            cases h
            have := hels (hown.part (.tupleV .refl)) hys
            exact .tupleV hno hi this.1 this.2
          · cases h
        · cases h
      | set k t =>
        dsimp only at h; rw [hv] at h; dsimp only at h
        split at h
        · rename_i xs hi
          split at h
          · rename_i ys hys
            have := hels (hown.part (.set .refl)) hys
            exact .set hno hi this.1 this.2 (mkSet_of h)
          · cases h
        · cases h
      | tuple ts =>
        cases ts with
        | nil => cases h
        | cons t0 ts =>
        dsimp only at h
        rw [hv] at h
        split at h
        · rename_i ys hys
          cases h
          refine .tuple hno (by rw [mapR_ok_length hys]; simp) (fun i t x y h1 h2 h3 => ?_)
          have := mapR_ok_get hys _ (zip_get' (zipIdx_get h1) h3)
          dsimp only at this
          rw [h2] at this
          exact hel _ _ _ _ (hown.part (.tuple (List.mem_of_getElem? h1) .refl)) this
        · cases h
      | counter t =>
        dsimp only at h; rw [hv] at h; dsimp only at h
        split at h
        · rename_i kvs hi
          split at h
          · rename_i es hes
            have hget : ∀ (i : Nat) a' b', kvs[i]? = some a' → es[i]? = some b' → b'.2 = a'.2 ∧ ReadTo env (modeOf cx a.deser) t a'.1 b'.1 := by
              intro i a' b' h1 h2
              have := mapR_ok_get hes _ (zip_get' h1 h2)
              dsimp only at this
              split at this
              · rename_i k' hk
                cases this
                exact ⟨rfl, hel _ _ _ _ (hown.part (.counter .refl)) hk⟩
              · cases this
            refine .counter hno hi ?_ (fun i a' b' h1 h2 => (hget i a' b' h1 h2).2) (mkDict_of h)
            apply List.ext_getElem?
            intro i
            have hl := mapR_ok_length hes
            rw [List.getElem?_map, List.getElem?_map]
            cases h1 : kvs[i]? with
            | none =>
              have : es[i]? = none := by rw [List.getElem?_eq_none_iff] at h1 ⊢; omega
              rw [this]
            | some a' =>
              cases h2 : es[i]? with
              | none => rw [List.getElem?_eq_none_iff] at h2; have := (List.getElem?_eq_some_iff.1 h1).1; omega
              | some b' => simp [(hget i a' b' h1 h2).1]
          · cases h
        · cases h
      | dict k kt vt =>
        dsimp only at h; rw [hv] at h; dsimp only at h
        split at h
        · rename_i kvs hi
          split at h
          · rename_i es hes
            have hget : ∀ (i : Nat) a' b', kvs[i]? = some a' → es[i]? = some b' →
                (PlainKey kt → ReadTo env (modeOf cx a.deser) kt a'.1 b'.1) ∧
                (∀ p, kt = .prim p → ¬ PlainKey kt → Scalar a'.1 → Converts env p a'.1 b'.1) ∧ ReadTo env (modeOf cx a.deser) vt a'.2 b'.2 := by
              intro i a' b' h1 h2
              have h3 := mapR_ok_get hes _ (zip_get' h1 h2)
              dsimp only at h3
              split at h3
              · cases h3
              · rename_i k' hk
                split at h3
                · rename_i w' hw
                  cases h3
                  refine ⟨fun hpk => ?_, fun p hp hpk => ?_, hel _ _ _ _ (hown.part (.value .refl)) hw⟩
                  · rw [numKey_plain hpk] at hk
                    exact hel _ _ _ _ (hown.part (.key .refl)) hk
                  · subst hp
                    have : numKey (.prim p) = some p := by
                      unfold numKey PlainKey at *
                      cases p <;> first | rfl | exact absurd ⟨by simp, by simp⟩ hpk
                    rw [this] at hk
                    exact coerce_converts hk
                · cases h3
            refine .dict hno hi (mapR_ok_length hes).symm (fun i a' b' h1 h2 => (hget i a' b' h1 h2).1) (fun i a' b' h1 h2 => (hget i a' b' h1 h2).2.1)
              (fun i a' b' h1 h2 => (hget i a' b' h1 h2).2.2) ?_ (mkDict_of h)
            cases k <;> simp
          · cases h
        · cases h

theorem firstOf_agree {ns : List String} {kvs kvs' : List (Val × Val)} (h : ∀ s ∈ ns, getStr s kvs = getStr s kvs') : firstOf ns kvs = firstOf ns kvs' := by
  unfold firstOf
  induction ns with
  | nil => rfl
  | cons n ns ih =>
    simp only [List.findSome?_cons]
    rw [h n (by simp), ih (fun s hs => h s (by simp [hs]))]

theorem base_own {env : Env} {cx t} (h : BaseTy t) : OwnCx env cx t := by
  constructor
  · intro ts hp; cases hp <;> exact h.elim
  · intro ts hp; cases hp <;> exact h.elim

/-- A base type with aliases is read from the first of its names that is present. -/
theorem base_aliased {env : Env} {r : DeRec} {cx} {a : DeArg} {dk kvs x} (h : Aliased cx a dk kvs) (hb : BaseTy a.ty)
    (hx : firstOf (a.name :: a.alias) kvs = some x) :
    deBody env r cx a = deBody env r cx { ty := a.ty, name := a.name, conv := a.name, src := .val (.ok x), alias := [], deser := none } := by
  have hpd : primData cx a = .ok x := by
    unfold primData
    cases hal : a.alias with
    | nil => exact absurd hal h.alias
    | cons b bs =>
      dsimp only
      rw [h.data, getByAliases_first, ← hal, hx]
  have p1 : pickDe cx.des a = none := pickDe_none (h.noDe _ .refl)
  have p2 : pickDe cx.des { ty := a.ty, name := a.name, conv := a.name, src := .val (.ok x), alias := [], deser := none } = none := pickDe_none (h.noDe _ .refl)
  unfold deBody
  rw [p1, p2, h.deser]
  dsimp only
  rw [hpd]
  revert hb
  cases a.ty <;> intro hb <;> first | exact hb.elim | rfl

theorem alias_cases {t : Ty} (h : AliasTy t) : BaseTy t ∨ ∃ u, t = .union [u, .none] ∧ BaseTy u := by
  unfold AliasTy at h
  split at h <;> first
    | exact .inl trivial
    | exact .inr ⟨_, rfl, trivial⟩
    | exact h.elim

theorem base_isOpt {t : Ty} (h : BaseTy t) : (Ty.union [t, .none]).isOpt = true := by
  cases t <;> first | rfl | exact h.elim

theorem base_alias {t : Ty} (h : BaseTy t) : AliasTy t := by
  cases t <;> first | trivial | exact h.elim

/-- Anything but `None`. -/
def isSomeVal : Val → Bool
  | .none => false
  | _ => true

theorem body_aliased {env : Env} {r : DeRec} (hr : ReadRec env r) {cx} {a : DeArg} {dk kvs x w} (h : Aliased cx a dk kvs)
    (hx : firstOf (a.name :: a.alias) kvs = some x) (hw : deBody env r cx a = .ok w) : ReadTo env (modeOf cx none) a.ty x w := by
  rcases alias_cases h.ty with hb | ⟨t, ht, hb⟩
  · rw [base_aliased h hb hx] at hw
    exact body_read (a := { ty := a.ty, name := a.name, conv := a.name, src := .val (.ok x), alias := [], deser := none }) hr (base_own hb) keeps_elem
      (by intro g hg; cases hg) hw
  · have p1 : pickDe cx.des a = none := pickDe_none (h.noDe _ .refl)
    have hno : NoneForDe (modeOf cx none).des a.ty := h.noDe _ .refl
    unfold deBody at hw
    rw [p1, h.deser] at hw
    dsimp only at hw
    rw [ht] at hw hno ⊢
    dsimp only at hw
    rw [if_pos (base_isOpt hb)] at hw
    have hoe : optExists env cx a t = .ok (isSomeVal x) := by
      unfold optExists
      rw [h.src, h.flat]
      dsimp only
      rw [if_neg (by simp)]
      have hx' := hx
      revert hx'
      have := h.alias
      revert this
      generalize a.alias = al
      intro hne hx'
      cases al with
      | nil => exact absurd rfl hne
      | cons b bs =>
        dsimp only
        rw [h.data, h.wire, getByAliases_first, hx']
        cases x <;> rfl
    rw [hoe] at hw
    by_cases hxn : x = .none
    · subst hxn
      cases hw
      exact .optNone hno
    · have : isSomeVal x = true := by cases x <;> first | rfl | exact absurd rfl hxn
      rw [this] at hw
      dsimp only at hw
      refine .opt hno hxn ?_
      exact hr.aliased cx { a with ty := t, deser := none, dflt := none, tyArgs := none } dk kvs x w
        ⟨h.named, h.alias, base_alias hb, h.wire, h.flat, rfl, fun s hs => h.noDe s (by rw [ht]; exact .union (by simp) hs), h.src, h.data⟩ hx hw

theorem obj_flat {env : Env} {r : DeRec} (hr : ReadRec env r) (hU : DistinctUnions env) (hL : DistinctLits env) {c} {o : DeCall} {dk kvs w} {m : ReadMode} (hnm : m.named = true)
    (hcd : ∀ cd, env.cls c = some cd → cd.transparent = false ∧ o.reuse.getD cd.reuseDflt = m.reuse) (hnu : o.numbers = m.numbers)
    (h : deClsF env r true c o (.dict dk kvs) = .ok w) {dk' kvs'} (hag : ∀ s, Recognised env c s → getStr s kvs = getStr s kvs') :
    ObjTo env m c (.dict dk' kvs') w := by
  obtain ⟨cd, hc⟩ : ∃ cd, env.cls c = some cd := by
    cases hc : env.cls c with
    | none => unfold deClsF at h; rw [hc] at h; cases h
    | some cd => exact ⟨cd, rfl⟩
  obtain ⟨ht, hre⟩ := hcd cd hc
  rw [deClsF_named hc ht] at h
  split at h
  · cases h
  · cases h
  · split at h
    · cases h
    · rename_i ex _
      obtain ⟨attrs, rfl⟩ := decodeCls_inst h
      by_cases hs : SimpleDe cd
      · obtain ⟨val, h1, h2, rfl⟩ := (decodeCls_fieldwise hs.post hs.names).1 h
        have hmode : modeOf (clsDeCx env c cd true o (.dict dk kvs)) none = m.enter env cd := by
          unfold modeOf ReadMode.enter clsDeCx effDe
          simp [hre, hnu, hnm]
        have hmode' : modeOf (clsDeCx env c cd true o (.dict dk kvs)) (some .marker) = (m.enter env cd).plain := by
          unfold modeOf ReadMode.enter ReadMode.plain clsDeCx effDe
          simp [hre, hnu, hnm]
        have hrec : ∀ f, ReadField cd f → Recognised env c (f.conv cd.deCase) := fun f hf =>
          .own hc ht hf.mem (by unfold takesRest; rw [hf.flat]; rfl) (by unfold inlined; rw [hf.flat]) (.inl rfl)
        have hlook : ∀ f, f ∈ cd.fields → f.renderable = true → (attrsOf cd.fields val).lookup f.name = some (val f) := fun f hf hre => by
          rw [attrsOf_lookup hs.names hf, hre, if_pos rfl]
        have hdec : ∀ f, ReadField cd f → r.render (clsDeCx env c cd true o (.dict dk kvs)) (plainArg cd f (.dict dk kvs)) = .ok (val f) := fun f hf => by
          have hd := h1 f hf.mem (ReadField.renderable hf)
          rw [deField_plain hf.flat] at hd
          cases hdf : f.dflt with
          | none => rw [hdf] at hd; exact catchKey_ok.1 hd
          | some dv => rw [hdf] at hd; exact hd
        have hkeep : ∀ f x, ReadField cd f → getStr (f.conv cd.deCase) kvs' = some x → Keeps (plainArg cd f (.dict dk kvs)) x := fun f x hf hx =>
          ⟨hf.alias, rfl, rfl, .inl ⟨dk, kvs, rfl, by rw [← hx]; exact hag _ (hrec f hf)⟩⟩
        have hann : ∀ f ∈ cd.fields, OwnCx env (clsDeCx env c cd true o (.dict dk kvs)) f.ty := fun f hf => ownCx_class hU hL ⟨c, cd, f, hc, hf, .refl⟩
        have hare : ∀ f, AliasedField env cd f → f.renderable = true := fun f hf => by unfold FieldDef.renderable; rw [hf.init, hf.skip, hf.skipDe]; rfl
        have hal : ∀ f, AliasedField env cd f → Aliased (clsDeCx env c cd true o (.dict dk kvs)) (plainArg cd f (.dict dk kvs)) dk kvs := fun f hf =>
          ⟨rfl, hf.alias, hf.ty, hf.wire, rfl, hf.deser, hf.noDe, rfl, rfl⟩
        have hafst : ∀ f, AliasedField env cd f → firstOf (f.name :: f.alias) kvs = FirstEntry f kvs' := fun f hf =>
          firstOf_agree (kvs' := kvs') fun s hs => hag s (by
            refine .own hc ht hf.mem (by unfold takesRest; rw [hf.flat]; rfl) (by unfold inlined; rw [hf.flat]) ?_
            rw [hf.wire]
            exact List.mem_cons.1 hs)
        have hadec : ∀ f, AliasedField env cd f → r.render (clsDeCx env c cd true o (.dict dk kvs)) (plainArg cd f (.dict dk kvs)) = .ok (val f) := fun f hf => by
          have hd := h1 f hf.mem (hare f hf)
          rw [deField_plain hf.flat] at hd
          cases hdf : f.dflt with
          | none => rw [hdf] at hd; exact catchKey_ok.1 hd
          | some dv => rw [hdf] at hd; exact hd
        refine .dict hnm hc hs (fun f x y hf hx hy g hg => ?_) (fun f x y hf hx hy hg => ?_) (fun f x y hf hx hy hg => ?_) (fun f d y hf hx hd hy => ?_)
          (fun f ch y hf hy => ?_) (fun f hf hi hsk hsd => ⟨val f, hlook f hf (by unfold FieldDef.renderable; rw [hi, hsk, hsd]; rfl)⟩)
          (fun f x y hf hx hy => ?_) (fun f d y hf hx hd hy => ?_) (fun f t y hf hx hd hty htn hds hno hy => ?_) (fun f hf hor => ?_)
        · rw [hlook f hf.mem (ReadField.renderable hf)] at hy; cases hy
          exact hr.own _ _ _ _ (hkeep f x hf hx) g hg (hdec f hf)
        · rw [hlook f hf.mem (ReadField.renderable hf)] at hy; cases hy
          have := hr.render _ (plainArg cd f (.dict dk kvs)) x (val f) (hann f hf.mem) (hkeep f x hf hx)
            (by show ∀ g, f.deserializer ≠ _; rw [hg]; intro g h; cases h) (hdec f hf)
          have hds : (plainArg cd f (.dict dk kvs)).deser = some .marker := hg
          rw [hds, hmode'] at this
          exact this
        · rw [hlook f hf.mem (ReadField.renderable hf)] at hy; cases hy
          have := hr.render _ (plainArg cd f (.dict dk kvs)) x (val f) (hann f hf.mem) (hkeep f x hf hx)
            (by show ∀ g, f.deserializer ≠ _; rw [hg]; intro g h; cases h) (hdec f hf)
          have hds : (plainArg cd f (.dict dk kvs)).deser = none := hg
          rw [hds, hmode] at this
          exact this
        · rw [hlook f hf.mem (ReadField.renderable hf)] at hy; cases hy
          exact hr.dflt _ (plainArg cd f (.dict dk kvs)) _ _ dk kvs hf.alias rfl rfl ((hag _ (hrec f hf)).trans hx) hd (hdec f hf)
        · have hre : f.renderable = true := by unfold FieldDef.renderable; rw [hf.init, hf.skip, hf.skipDe]; rfl
          rw [hlook f hf.mem hre] at hy; cases hy
          have hd := h1 f hf.mem hre
          have hfd : f.flatDict = false := by unfold FieldDef.flatDict; rw [hf.flat, hf.ty]; rfl
          have hfc : f.flatChild = some ch := by unfold FieldDef.flatChild; rw [hf.flat, hf.ty]; rfl
          unfold deField at hd
          rw [hfd, hfc] at hd
          dsimp only at hd
          rw [project_dict, hf.dflt] at hd
          dsimp only at hd
          rw [if_neg (by simp)] at hd
          have hd := catchKey_ok.1 hd
          rw [← hmode]
          refine hr.flatArg _ _ ch _ _ _ rfl hf.flat hf.ty hf.deser rfl rfl hf.noCls hf.child hd dk' kvs' (fun s hs => ?_)
          rw [getStr_filter]
          have hkn : projKeep env c ch cd (.str s) = true := by
            have : keyKnown (env.known ch) (.str s) = true := keyKnown_iff.2 ⟨s, (known_iff hf.acyclic).2 hs, rfl⟩
            unfold projKeep
            rw [this]
            simp
          rw [hkn, if_pos rfl]
          exact hag s (.child hc ht hf.mem (by unfold takesRest; rw [hf.flat, hf.ty]; rfl) (by unfold inlined; rw [hf.flat, hf.ty]) hs)
        · rw [hlook f hf.mem (hare f hf)] at hy; cases hy
          rw [← hmode]
          exact hr.aliased _ _ dk kvs x _ (hal f hf) ((hafst f hf).trans hx) (hadec f hf)
        · rw [hlook f hf.mem (hare f hf)] at hy; cases hy
          exact hr.aliasedDflt _ _ dk kvs d _ (hal f hf) ((hafst f hf).trans hx) hd (hadec f hf)
        · rw [hlook f hf.mem (ReadField.renderable hf)] at hy; cases hy
          exact hr.absent _ (plainArg cd f (.dict dk kvs)) t _ dk kvs hf.alias rfl rfl ((hag _ (hrec f hf)).trans hx) hd hds hty hno
            (by show f.ty.isOpt = true; rw [hty]; cases t <;> first | rfl | exact absurd rfl htn) (hdec f hf)
        · have : f.renderable = false := by
            unfold FieldDef.renderable
            rcases hor with h | h | h <;> simp [h]
          rw [attrsOf_lookup hs.names hf, this]
          rfl
      · exact .other hc hs (fun f hf => by rw [hf.transparent] at ht; cases ht)

theorem deClsF_inst {env : Env} {r : DeRec} {b c o x w} (h : deClsF env r b c o x = .ok w) : ∃ attrs, w = .inst c attrs := by
  unfold deClsF at h
  split at h
  · cases h
  · split at h
    · cases h
    · unfold construct at h
      dsimp only at h
      split at h
      · cases h
      · split at h
        · cases h
        · split at h
          · cases h
          · split at h
            · cases h; exact ⟨_, rfl⟩
            · split at h
              · cases h; exact ⟨_, rfl⟩
              · cases h

theorem keeps_transp {nm f x} (h : f.flatten = false) : Keeps (transpArg nm f x) x := by
  cases nm
  · exact ⟨rfl, rfl, h, .inr (.inr ⟨_, _, rfl, rfl⟩)⟩
  · exact ⟨rfl, rfl, h, .inl ⟨.plain, _, rfl, rfl⟩⟩

/-- The argument for the field at position `i` in from_tuple. -/
def itemArg (f : FieldDef) (x : Val) (i : Nat) : DeArg :=
  { ty := f.ty, name := f.name, conv := f.name, src := .idx x i, alias := f.alias, deser := f.deserializer, flatten := f.flatten }

theorem obj_seq {env : Env} {r : DeRec} (hr : ReadRec env r) (hU : DistinctUnions env) (hL : DistinctLits env) {c} {cd : ClassDef} {o : DeCall} {x attrs}
    {m : ReadMode} (hnm : m.named = false) (hc : env.cls c = some cd) (hp : Positional cd) (hre : o.reuse.getD cd.reuseDflt = m.reuse)
    (hnu : o.numbers = m.numbers) (h : deClsF env r false c o x = .ok (.inst c attrs)) : ObjTo env m c x (.inst c attrs) := by
  have hfr : cd.fields.filter (·.renderable) = cd.fields.filter (·.init) := by
    apply List.filter_congr
    intro f hf
    unfold FieldDef.renderable
    cases hi : f.init with
    | false => rfl
    | true =>
      obtain ⟨h1, h2, -⟩ := hp.params f hf hi
      rw [h1, h2]; rfl
  have hpp : cd.posParams = cd.fields.filter (·.init) := by
    unfold ClassDef.posParams
    apply List.filter_congr
    intro f hf
    cases hi : f.init with
    | false => rfl
    | true =>
      obtain ⟨-, -, h3⟩ := hp.params f hf hi
      rw [h3]; rfl
  unfold deClsF at h
  rw [hc] at h
  dsimp only at h
  unfold deArgs at h
  dsimp only at h
  rw [hp.dict, if_neg (by simp), if_neg (by simp)] at h
  cases hvs : deTupleArgs r (clsDeCx env c cd false o x) cd x with
  | error e => rw [hvs] at h; cases h
  | ok vs =>
    rw [hvs] at h
    dsimp only at h
    unfold deTupleArgs at hvs
    rw [hfr] at hvs
    have hlen : vs.length = (cd.fields.filter (·.init)).length := by
      have := mapR_ok_length hvs
      rw [List.length_zipIdx] at this
      exact this
    rw [construct_eq (by rw [hpp, hlen]; exact Nat.le_refl _)] at h
    obtain ⟨attrs', h1, h2, -⟩ := constructB_ok hp.post h
    cases h1
    rw [hpp, List.append_nil] at h2
    have hnf : ((cd.fields.filter (·.init)).map (·.name)).Nodup := hp.names.sublist (List.filter_sublist.map _)
    have hitem : ∀ i f, (cd.fields.filter (·.init))[i]? = some f → ∃ v, vs[i]? = some v ∧ attrs.lookup f.name = some v ∧
        r.render (clsDeCx env c cd false o x) (itemArg f x i) = .ok v := fun i f hf => by
      have hi := (List.getElem?_eq_some_iff.1 hf).1
      have hv : vs[i]? = some vs[i] := List.getElem?_eq_getElem (by omega)
      have hm := List.mem_of_getElem? hf
      have hl := initAttrs_lookup h2 hp.names (List.mem_filter.1 hm).1
      unfold attrOf at hl
      rw [(List.mem_filter.1 hm).2, if_pos rfl, lookup_zip_mem hnf (zip_get' (by rw [List.getElem?_map, hf]; rfl) hv)] at hl
      refine ⟨_, hv, hl, ?_⟩
      have := mapR_ok_get hvs ((f, i), vs[i]) (zip_get' (i := i) (by rw [List.getElem?_zipIdx, hf]; simp) hv)
      exact this
    have hmode : modeOf (clsDeCx env c cd false o x) none = m.enter env cd := by
      unfold modeOf ReadMode.enter clsDeCx effDe
      simp [hre, hnu, hnm]
    have hmode' : modeOf (clsDeCx env c cd false o x) (some .marker) = (m.enter env cd).plain := by
      unfold modeOf ReadMode.enter ReadMode.plain clsDeCx effDe
      simp [hre, hnu, hnm]
    have hkeep : ∀ i f a, ItemField cd i f → pyIndex x i = .ok a → Keeps (itemArg f x i) a := fun i f a hf ha =>
      ⟨hf.alias, rfl, hf.flat, .inr (.inr ⟨_, _, rfl, ha⟩)⟩
    have hann : ∀ i f, ItemField cd i f → OwnCx env (clsDeCx env c cd false o x) f.ty := fun i f hf =>
      ownCx_class hU hL ⟨c, cd, f, hc, (List.mem_filter.1 (List.mem_of_getElem? hf.nth)).1, .refl⟩
    refine .seq hnm hc hp (fun i f a y hf ha hy g hg => ?_) (fun i f a y hf ha hy hg => ?_) (fun i f a y hf ha hy hg => ?_)
      (fun i f hf hne => ?_) (fun f hf hi => ?_) (fun f hf hi => ?_)
    · obtain ⟨v, -, h4, h5⟩ := hitem i f hf.nth
      rw [h4] at hy; cases hy
      exact hr.own _ _ _ _ (hkeep i f a hf ha) g hg h5
    · obtain ⟨v, -, h4, h5⟩ := hitem i f hf.nth
      rw [h4] at hy; cases hy
      have := hr.render _ (itemArg f x i) a _ (hann i f hf) (hkeep i f a hf ha) (by show ∀ g, f.deserializer ≠ _; rw [hg]; intro g h; cases h) h5
      have hds : (itemArg f x i).deser = some .marker := hg
      rw [hds, hmode'] at this
      exact this
    · obtain ⟨v, -, h4, h5⟩ := hitem i f hf.nth
      rw [h4] at hy; cases hy
      have := hr.render _ (itemArg f x i) a _ (hann i f hf) (hkeep i f a hf ha) (by show ∀ g, f.deserializer ≠ _; rw [hg]; intro g h; cases h) h5
      have hds : (itemArg f x i).deser = none := hg
      rw [hds, hmode] at this
      exact this
    · cases ha : pyIndex x i with
      | ok a => exact ⟨a, rfl⟩
      | error e =>
        obtain ⟨v, -, -, h5⟩ := hitem i f hf.nth
        exact absurd h5 (hr.lost _ _ _ ⟨hf.alias, hf.flat, .inl ⟨_, _, _, rfl, ha⟩⟩ hne)
    · obtain ⟨i, hi⟩ := List.mem_iff_getElem?.1 (List.mem_filter.2 ⟨hf, hi⟩)
      obtain ⟨v, -, h4, -⟩ := hitem i f hi
      exact ⟨v, h4⟩
    · have hl := initAttrs_lookup h2 hp.names hf
      unfold attrOf at hl
      rw [hi] at hl
      exact hl

theorem obj_read {env : Env} {r : DeRec} (hr : ReadRec env r) (hU : DistinctUnions env) (hL : DistinctLits env) {c} {o : DeCall} {x w} {m : ReadMode}
    (hre : ∀ cd, env.cls c = some cd → o.reuse.getD cd.reuseDflt = m.reuse) (hnu : o.numbers = m.numbers)
    (h : deClsF env r m.named c o x = .ok w) : ObjTo env m c x w := by
  obtain ⟨cd, hc⟩ : ∃ cd, env.cls c = some cd := by
    cases hc : env.cls c with
    | none => unfold deClsF at h; rw [hc] at h; cases h
    | some cd => exact ⟨cd, rfl⟩
  obtain ⟨attrs, rfl⟩ := deClsF_inst h
  cases ht : cd.transparent with
  | false =>
    cases hnm : m.named with
    | true =>
      rw [hnm] at h
      by_cases hx : ∃ dk kvs, x = .dict dk kvs
      · obtain ⟨dk, kvs, rfl⟩ := hx
        exact obj_flat hr hU hL hnm (fun cd' hc' => by rw [hc] at hc'; cases hc'; exact ⟨ht, hre cd hc⟩) hnu h (fun _ _ => rfl)
      · exact .notDict hnm hc ht (fun dk kvs he => hx ⟨dk, kvs, he⟩)
    | false =>
      rw [hnm] at h
      by_cases hp : Positional cd
      · exact obj_seq hr hU hL hnm hc hp (hre cd hc) hnu h
      · exact .unaligned hnm hc ht hp
  | true =>
    by_cases hf : ∃ f, Through cd f
    · obtain ⟨f, hf⟩ := hf
      rw [transp_deCls hc ht hf.names hf.sole] at h
      split at h
      · cases h
      · rename_i v hv
        obtain ⟨attrs', h1, h2, -⟩ := constructB_ok hf.post h
        cases h1
        have hl := initAttrs_lookup h2 hf.names hf.sole.mem
        unfold attrOf at hl
        rw [hf.sole.init, if_pos rfl] at hl
        have hb : ([(f.name, v)] : List (String × Val)).lookup f.name = some v := by simp [List.lookup]
        rw [hb] at hl
        refine .through hc hf hl ?_
        have := hr.render _ (transpArg m.named f x) x v (ownCx_class hU hL ⟨c, cd, f, hc, hf.sole.mem, .refl⟩)
          (keeps_transp hf.flat) (by show ∀ g, f.deserializer ≠ _; rw [hf.deser]; intro g h; cases h) hv
        have hds : (transpArg m.named f x).deser = none := hf.deser
        have hmode : modeOf (clsDeCx env c cd m.named o x) none = m.enter env cd := by
          unfold modeOf ReadMode.enter clsDeCx effDe
          simp [hre cd hc, hnu]
        rw [hds, hmode] at this
        exact this
    · exact .other hc (fun hs => by rw [hs.dict] at ht; cases ht) (fun f h => hf ⟨f, h⟩)

theorem read_at {env : Env} (hU : DistinctUnions env) (hL : DistinctLits env) : ∀ n, ReadRec env (deAt env n)
  | 0 => ⟨fun _ _ _ _ _ _ _ h => (by cases h), fun _ _ _ _ _ _ _ h => (by cases h), fun _ _ _ _ _ _ _ h => (by cases h),
      fun _ _ _ _ _ _ _ _ _ h => (by cases h), fun _ _ _ _ _ _ _ _ _ _ _ h => (by cases h), fun _ _ _ _ _ _ _ _ _ _ _ _ _ _ h => (by cases h),
      fun _ _ _ _ _ _ _ _ h => (by cases h), fun _ _ _ _ _ _ _ _ _ h => (by cases h), fun _ _ _ _ _ _ _ _ _ _ _ _ _ _ _ h => (by cases h), fun _ _ _ _ _ h => (by cases h)⟩
  | n + 1 => by
    have ih := read_at hU hL n
    refine ⟨fun cx a x w ho hk ha h => ?_, fun cx a x w hk g hg h => ?_, fun c o x w m h1 h2 h => ?_, fun c o dk kvs w m h0 h1 h2 h dk' kvs' h5 => ?_,
      fun cx a w dv dk kvs h1 h2 h3 h4 h5 h => ?_, fun cx a ch dk kvs w h1 h2 h3 h4 h5 h6 h7 h8 h dk' kvs' h9 => ?_,
      fun cx a dk kvs x w ha hx h => ?_, fun cx a dk kvs dv w ha hx hd h => ?_, fun cx a t w dk kvs h1 h2 h3 h4 h5 h6 h7 h8 h9 h => ?_, fun cx a w hl hne h => lost_body ih.lost hl hne (hl.render.symm.trans h)⟩
    · rw [deAt_render, keeps_render hk] at h
      exact body_read ih ho hk ha h
    · rw [deAt_render, keeps_render hk] at h
      unfold deBody pickDe at h
      rw [hg, hk.data] at h
      exact liftP_ok h
    · rw [deAt_cls] at h
      exact obj_read ih hU hL h1 h2 h
    · rw [deAt_cls] at h
      exact obj_flat ih hU hL h0 h1 h2 h h5
    · rw [deAt_render] at h
      unfold deRenderF at h
      rw [h5, h3] at h
      dsimp only at h
      have : dfltExists env a (.dict dk kvs) = .ok false := by
        unfold dfltExists
        rw [h2, h1]
        simp [pyIn, h4]
      rw [this] at h
      cases h
      rfl
    · rw [deAt_render, render_nodflt h5, deBody_cls (pickDe_none (fun s hs => by rw [h3]; exact h7 s hs)) h4 h3 h2 h6, h1] at h
      exact ih.flat ch _ dk kvs w _ h1 (fun cd hcd => ⟨h8 cd hcd, rfl⟩) rfl h dk' kvs' h9
    · have hde : ∀ d, a.src = .key d → dfltExists env a d = .ok (firstOf (a.name :: a.alias) kvs).isSome := fun d hd => by
        rw [ha.src] at hd
        cases hd
        unfold dfltExists
        rw [ha.flat, if_neg (by simp)]
        cases hal : a.alias with
        | nil => exact absurd hal ha.alias
        | cons b bs => exact existsByAliases_first
      rw [deAt_render] at h
      unfold deRenderF at h
      split at h
      · rw [hde _ ‹_›, hx] at h
        exact body_aliased ih ha hx h
      · exact body_aliased ih ha hx h
    · rw [deAt_render] at h
      unfold deRenderF at h
      rw [hd, ha.src] at h
      dsimp only at h
      have : dfltExists env a (.dict dk kvs) = .ok false := by
        unfold dfltExists
        rw [ha.flat, if_neg (by simp)]
        cases hal : a.alias with
        | nil => exact absurd hal ha.alias
        | cons b bs =>
          rw [hal] at hx
          have := @existsByAliases_first dk kvs (a.name :: b :: bs)
          rw [hx] at this
          exact this
      rw [this] at h
      cases h
      rfl
    · rw [deAt_render, render_nodflt h5] at h
      unfold deBody at h
      rw [pickDe_none h8, h6] at h
      dsimp only at h
      rw [h7] at h h9
      dsimp only at h
      rw [if_pos h9] at h
      have hoe : optExists env cx a t = .ok false := by
        unfold optExists
        rw [h3, h2]
        dsimp only
        rw [if_neg (by simp), h1]
        simp [pyGet, h4]
      rw [hoe] at h
      cases h
      rfl

/-! ## The value given to from_dict -/

theorem typeIs_iff {x t} : typeIs x t = true ↔ SameClass x t := by
  constructor
  · intro h
    unfold typeIs at h
    split at h <;> first
      | (split at h <;> first | (cases h; done) | constructor | (have := eq_of_beq h; subst this; constructor))
      | cases h
  · intro h
    cases h <;> simp [typeIs]

theorem find_first {S : List ClsDe} {t s} (h : S.find? (fun s => s.handles t) = some s) : FirstDe S t s := by
  obtain ⟨h1, pre, post, h2, h3⟩ := List.find?_eq_some_iff_append.1 h
  refine ⟨pre, post, h2, h1, fun s' hs' => ?_⟩
  simpa using h3 s' hs'

theorem find_nonefor {S : List ClsDe} {t} (h : S.find? (fun s => s.handles t) = none) : NoneForDe S t := by
  rw [List.find?_eq_none] at h
  intro s hs
  simpa using h s hs

theorem primCall_converts {env : Env} {p x w} (h : primCall env p x = .ok w) (hs : Scalar x) (hx : x ≠ .none) : Converts env p x w := by
  refine coerce_converts ?_ hs
  unfold coerceObj
  split
  · exact absurd rfl hx
  · rw [h]

theorem ownCx_top {env : Env} {ts tg nu d} (h1 : DistinctUnionsIn env (.union ts)) (h2 : DistinctLitsIn env (.union ts)) :
    OwnCx env (cacheDeCx env ts tg nu d) (.union ts) := by
  refine ⟨fun us hus => own_inside h1 us hus, fun vs hvs us hus => ?_⟩
  have hm : us ∈ env.litsOfTy (.union ts) := by
    unfold findLit at hus
    exact List.mem_reverse.1 (List.mem_of_find?_eq_some hus)
  refine h2 vs us hvs (litsIn_sound (fun c us h => litsOf_iff.1 h) _ us hm) ?_
  unfold findLit at hus
  simpa using List.find?_some hus

theorem pyCounter_to {env : Env} {nu x w} (h : pyCounter env x = .ok w) : TopLeaf env nu .counterB x w := by
  unfold pyCounter at h
  split at h
  · cases h; exact .counterB
  · rename_i hnd
    split at h
    · split at h
      · cases h; exact .counted hnd ‹_› (countElems_tally .none)
      · cases h
    · cases h

/-- The body of `from_dict`. -/
theorem top_body {env : Env} {r : DeRec} (hr : ReadRec env r) {nm re nu tg mg}
    (ih : ∀ t x w, DistinctTop env t → r.fromObj nm re nu .external t x = .ok w → TopTo env nm re nu .external t x w)
    {t x w} (hd : DistinctTop env t) (hs : ¬ SameClass x t) (ho : ∀ ts, t = .union ts → t.isOpt = true) (h : fromObjBody env r nm re nu mg t x = .ok w) :
    TopTo env nm re nu tg t x w := by
  have hels : ∀ {t xs ys}, DistinctTop env t → mapR (fun x => r.fromObj nm re nu .external t x) xs = .ok ys →
      xs.length = ys.length ∧ ∀ (i : Nat) a' b', xs[i]? = some a' → ys[i]? = some b' → TopTo env nm re nu .external t a' b' := fun ho h =>
    ⟨(mapR_ok_length h).symm, fun i a' b' h1 h2 => ih _ a' b' ho (mapR_ok_get h _ (zip_get' h1 h2))⟩
  have hpart : ∀ {s}, PartOf s t → DistinctTop env s := fun hp ts hts => hd ts (hts.trans hp)
  unfold fromObjBody at h
  dsimp only at h
  split at h
  · rename_i s hp
    exact .handled hs (find_first hp) (liftP_ok h)
  · rename_i hp
    have hno := find_nonefor hp
    cases t with
    | cls c =>
      dsimp only at h
      obtain ⟨cd, hc⟩ : ∃ cd, env.cls c = some cd := by
        cases hr.obj c _ x w { reuse := re.getD (match env.cls c with | some cd => cd.reuseDflt | none => true), numbers := nu, coerce := false, tagging := .external, des := [], named := nm }
          (fun cd hc => by rw [hc]) rfl h <;> exact ⟨_, ‹_›⟩
      exact .cls (m := { reuse := re.getD cd.reuseDflt, numbers := nu, coerce := false, tagging := .external, des := [], named := nm }) hs hno hc rfl rfl rfl
        (hr.obj c _ x w _ (fun cd' hc' => by rw [hc] at hc'; cases hc'; rfl) rfl h)
    | union ts =>
      obtain ⟨t, rfl, ht⟩ := isOpt_shape (ho _ rfl)
      dsimp only at h
      split at h
      · cases h; exact .optNone hno
      · rename_i hxn
        exact .opt hno hxn (ih _ _ _ (hpart (.union (by simp) .refl)) h)
    | listB k =>
      dsimp only at h
      split at h
      · cases h; exact .leaf hs hno (.listB ‹_›)
      · cases h
    | setB k =>
      dsimp only at h
      split at h
      · exact .leaf hs hno (.setB ‹_› (mkSet_of h))
      · cases h
    | dequeB =>
      dsimp only at h
      split at h
      · cases h; exact .leaf hs hno (.dequeB ‹_›)
      · cases h
    | tupleB =>
      dsimp only at h
      split at h
      · cases h; exact .leaf hs hno (.tupleB ‹_›)
      · cases h
    | tupleV t =>
      dsimp only at h
      split at h
      · cases h; exact .leaf hs hno (.tupleV ‹_›)
      · cases h
    | counterB =>
      exact .leaf hs hno (pyCounter_to h)
    | dictB k =>
      cases k with
      | deflt => cases h
      | _ => cases h; exact .leaf hs hno (.dictB (by simp))
    | list k t =>
      dsimp only at h
      split at h
      · split at h
        · cases h
          have := hels (hpart (.list .refl)) ‹_›
          exact .list hno ‹_› this.1 this.2
        · cases h
      · cases h
    | deque t =>
      dsimp only at h
      split at h
      · split at h
        · cases h
          have := hels (hpart (.deque .refl)) ‹_›
          exact .deque hno ‹_› this.1 this.2
        · cases h
      · cases h
    | set k t =>
      dsimp only at h
      split at h
      · split at h
        · have := hels (hpart (.set .refl)) ‹_›
          exact .set hno ‹_› this.1 this.2 (mkSet_of h)
        · cases h
      · cases h
    | tuple ts =>
      dsimp only at h
      split at h
      · rename_i xs hxs
        split at h
        · rename_i ys hys
          cases h
          have hl := mapR_ok_length hys
          simp only [List.length_zipIdx] at hl
          have hget : ∀ (i : Nat) a b, xs[i]? = some a → ys[i]? = some b → ∃ t, ts[i]? = some t ∧ TopTo env nm re nu .external t a b := by
            intro i a b h1 h2
            have := mapR_ok_get hys _ (zip_get' (zipIdx_get h1) h2)
            dsimp only at this
            split at this
            · rename_i t ht
              exact ⟨t, ht, ih _ _ _ (hpart (.tuple (List.mem_of_getElem? ht) .refl)) this⟩
            · cases this
          refine .tuple hno hxs hl.symm ?_ (fun i t a b h1 h2 h3 => ?_)
          · by_cases hle : xs.length ≤ ts.length
            · exact hle
            · have h1 : ts.length < xs.length := by omega
              have h2 : ts.length < ys.length := by omega
              obtain ⟨t, ht, -⟩ := hget ts.length _ _ (List.getElem?_eq_getElem h1) (List.getElem?_eq_getElem h2)
              simp at ht
          · obtain ⟨t', h4, h5⟩ := hget i a b h2 h3
            rw [h1] at h4
            cases h4
            exact h5
        · cases h
      · cases h
    | counter t =>
      dsimp only at h
      split at h
      · rename_i kvs hi
        split at h
        · rename_i es hes
          have hget : ∀ (i : Nat) a' b', kvs[i]? = some a' → es[i]? = some b' → b'.2 = a'.2 ∧ TopTo env nm re nu .external t a'.1 b'.1 := by
            intro i a' b' h1 h2
            have := mapR_ok_get hes _ (zip_get' h1 h2)
            dsimp only at this
            split at this
            · rename_i k' hk
              cases this
              exact ⟨rfl, ih _ _ _ (hpart (.counter .refl)) hk⟩
            · cases this
          refine .counter hno hi ?_ (fun i a' b' h1 h2 => (hget i a' b' h1 h2).2) (mkDict_of h)
          apply List.ext_getElem?
          intro i
          have hl := mapR_ok_length hes
          rw [List.getElem?_map, List.getElem?_map]
          cases h1 : kvs[i]? with
          | none =>
            have : es[i]? = none := by rw [List.getElem?_eq_none_iff] at h1 ⊢; omega
            rw [this]
          | some a' =>
            cases h2 : es[i]? with
            | none => rw [List.getElem?_eq_none_iff] at h2; have := (List.getElem?_eq_some_iff.1 h1).1; omega
            | some b' => simp [(hget i a' b' h1 h2).1]
        · cases h
      · cases h
    | dict k kt vt =>
      dsimp only at h
      split at h
      · rename_i kvs hi
        split at h
        · rename_i es hes
          have hget : ∀ (i : Nat) a' b', kvs[i]? = some a' → es[i]? = some b' → TopTo env nm re nu .external kt a'.1 b'.1 ∧ TopTo env nm re nu .external vt a'.2 b'.2 := by
            intro i a' b' h1 h2
            have h3 := mapR_ok_get hes _ (zip_get' h1 h2)
            dsimp only at h3
            split at h3
            · cases h3
            · rename_i k' hk
              split at h3
              · rename_i w' hw
                cases h3
                exact ⟨ih _ _ _ (hpart (.key .refl)) hk, ih _ _ _ (hpart (.value .refl)) hw⟩
              · cases h3
          refine .dict hno hi (mapR_ok_length hes).symm (fun i a' b' h1 h2 => (hget i a' b' h1 h2).1) (fun i a' b' h1 h2 => (hget i a' b' h1 h2).2) ?_ (mkDict_of h)
          cases k <;> simp
        · cases h
      · cases h
    | dt k => exact .leaf hs hno (.dt (liftP_ok h))
    | prim p =>
      by_cases hpf : p = .float ∧ ∃ num, nu = some num
      · obtain ⟨rfl, num, rfl⟩ := hpf
        exact .leaf hs hno (.number rfl (liftP_ok h))
      · have hpn : p = .float → nu = none := fun hp => by
          cases hn : nu with
          | none => rfl
          | some num => exact absurd ⟨hp, num, hn⟩ hpf
        have hcall : primCall env p x = .ok w := by
          cases p with
          | float => rw [hpn rfl] at h; exact liftP_ok h
          | _ => exact liftP_ok h
        exact .leaf hs hno (.prim hpn (primCall_converts hcall))
    | newType => cases h; exact .leaf hs hno .newType
    | any => cases h; exact .leaf hs hno .any
    | enum e =>
      dsimp only at h
      split at h
      · rename_i d he
        rcases enumCall_to (liftP_ok h) with ⟨m, rfl, rfl⟩ | ⟨m, u, h1, h2, rfl⟩
        · exact absurd .enum hs
        · exact .leaf hs hno (.enum he h1 h2)
      · cases h
    | std k => exact .leaf hs hno (.std (liftP_ok h))
    | _ => cases h

theorem distinctTop_inner {env : Env} {nm t} (h : DistinctTop env (.alias nm t)) : DistinctTop env t := fun ts hts => h ts (.alias hts)

/-- `from_dict` after an alias is resolved. -/
theorem top_step {env : Env} {r : DeRec} (hr : ReadRec env r) {nm re nu tg}
    (ih : ∀ t x w, DistinctTop env t → r.fromObj nm re nu .external t x = .ok w → TopTo env nm re nu .external t x w)
    {t x w} (hd : DistinctTop env t) (h : (if typeIs x t then .ok x else fromObjAt env r nm re nu tg t x) = .ok w) :
    TopTo env nm re nu tg t x w := by
  by_cases hs : SameClass x t
  · rw [if_pos (typeIs_iff.2 hs)] at h
    cases h
    exact .same hs
  · rw [if_neg (fun h => hs (typeIs_iff.1 h))] at h
    cases t with
    | gen c as =>
      have h := wrapUser_ok.1 h
      unfold fromObjBody at h
      dsimp only at h
      split at h
      · rename_i s hp; exact .handledGen (find_first hp) (liftP_ok h)
      · rename_i hp
        obtain ⟨cd, hc⟩ : ∃ cd, env.cls c = some cd := by
          cases hr.obj c _ x w { reuse := re.getD (match env.cls c with | some cd => cd.reuseDflt | none => true), numbers := nu, coerce := false, tagging := .external, des := [], named := nm }
            (fun cd hc => by rw [hc]) rfl h <;> exact ⟨_, ‹_›⟩
        exact .gen (m := { reuse := re.getD cd.reuseDflt, numbers := nu, coerce := false, tagging := .external, des := [], named := nm }) (find_nonefor hp) hc rfl rfl rfl
          (hr.obj c _ x w _ (fun cd' hc' => by rw [hc] at hc'; cases hc'; rfl) rfl h)
    | union ts =>
      cases ho : (Ty.union ts).isOpt with
      | true =>
        unfold fromObjAt at h
        dsimp only at h
        rw [ho, if_pos rfl] at h
        exact top_body hr ih hd hs (fun _ _ => ho) (wrapUser_ok.1 h)
      | false =>
        unfold fromObjAt at h
        dsimp only at h
        rw [ho, if_neg (by simp)] at h
        have hown := ownCx_top (tg := tg) (nu := nu) (d := x) (hd ts .refl).1 (hd ts .refl).2
        unfold cacheDeUnion at h
        split at h
        · rename_i us hus
          have : us = ts := hown.unions _ .refl _ hus
          subst this
          obtain ⟨t, ht, hm⟩ := deUnion_member h
          obtain ⟨p, h1, h2, h3, h4⟩ := deMember_ok.1 hm
          refine .union ho ht (payload_of h1) h2 ?_ h4
          exact hr.render (cacheDeCx env us tg nu x) (memberArg t p) p w (hown.part (.union ht .refl)) ⟨rfl, rfl, rfl, .inl ⟨_, _, rfl, rfl⟩⟩ (fun g h => (by cases h)) h3
        · cases h
    | _ => exact top_body hr ih hd hs (fun ts h => by cases h) (wrapUser_ok.1 h)

theorem top_at {env : Env} (hU : DistinctUnions env) (hL : DistinctLits env) : ∀ n nm re nu tg t x w, DistinctTop env t →
    (deAt env n).fromObj nm re nu tg t x = .ok w → TopTo env nm re nu tg t x w
  | 0, _, _, _, _, _, _, _, _, h => by cases h
  | n + 1, nm, re, nu, tg, t, x, w, hd, h => by
    have step := fun t => top_step (read_at hU hL n) (nm := nm) (re := re) (nu := nu) (tg := tg) (t := t) (x := x) (w := w) (fun t x w hd h => top_at hU hL n nm re nu .external t x w hd h)
    rw [deAt_fromObj] at h
    cases t with
    | alias s t =>
      refine .alias (step t (distinctTop_inner hd) ?_)
      exact h
    | _ => exact step _ hd h

end Verif
