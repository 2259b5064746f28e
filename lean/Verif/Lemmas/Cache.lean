import Verif.Spec.History
import Verif.Lemmas.Rewritten
import Verif.Lemmas.Res
import Verif.Lemmas.DeMono
/-!
# The process-wide caches
-/

namespace Verif
open Spec

/-! ## Wrapper classes -/

theorem Wrappers.after_mem {h : List UnionReq} {q} (hq : q ∈ Wrappers.after h) : q ∈ h := by
  induction h with
  | nil => cases hq
  | cons p h ih =>
    rcases List.mem_cons.1 hq with rfl | hq
    · exact .head _
    · exact .tail _ (ih (List.mem_filter.1 hq).1)

theorem Wrappers.get_own {h : List UnionReq} {ts tg}
    (hT : ∀ q ∈ h, q.2 = tg → tyEq (.union q.1) (.union ts) = true → q.1 = ts) : Wrappers.get (Wrappers.after h) ts tg = ts := by
  unfold Wrappers.get
  split
  · rename_i q hq
    have hs := List.find?_some hq
    simp only [UnionReq.same, Bool.and_eq_true, beq_iff_eq] at hs
    exact hT q (Wrappers.after_mem (List.mem_of_find?_eq_some hq)) hs.2 hs.1
  · rfl

theorem cacheSeUnionIn_own {env r ts tg v} : cacheSeUnionIn env r ts ts tg v = cacheSeUnion env r ts tg v := rfl

theorem cacheDeUnionIn_own {env r ts tg nu d} : cacheDeUnionIn env r ts ts tg nu d = cacheDeUnion env r ts tg nu d := rfl

/-! ## The two deserializers agree on types in `Q` -/

structure InEq (Q : Ty → Prop) (T : Tagging → Prop) (r r' : DeRec) : Prop where
  render : ∀ cx, (∀ t, cx.mg = some t → Q t) → ∀ a, r.render cx a = r'.render cx a
  cls : ∀ b c o v, (∀ t, o.mg = some t → Q t) → r.cls b c o v = r'.cls b c o v
  fromObj : ∀ b re nu tg t v, Q t → T tg → r.fromObj b re nu tg t v = r'.fromObj b re nu tg t v

/-- What `Q` and `T` must satisfy. -/
structure Closed (w : List UnionReq) (Q : Ty → Prop) (T : Tagging → Prop) : Prop where
  any : Q .any
  piece : ∀ t s, Q t → Piece false t s → Q s
  ext : T .external
  own : ∀ ts tg, Q (.union ts) → T tg → Wrappers.get w ts tg = ts

theorem deUnion_inEq {env : Env} {Q T} {r r' : DeRec} (h : InEq Q T r r') {cx : DeCx} (hm : ∀ t, cx.mg = some t → Q t) (d ts) :
    deUnion env r cx d ts = deUnion env r' cx d ts := by
  induction ts with
  | nil => rfl
  | cons t ts ih =>
    unfold deUnion deMember
    simp only [h.render cx hm, ih]

theorem getGenericArg_Q {Q : Ty → Prop} (hany : Q .any) (hp : ∀ t s, Q t → Piece false t s → Q s) {mg vs vta i t} (hm : ∀ t, mg = some t → Q t)
    (h : getGenericArg mg vs vta i = .ok t) : Q t := by
  unfold getGenericArg at h
  split at h
  · rename_i c args vars names
    split at h
    · cases h
    · split at h
      · cases h
      · split at h
        · rename_i t' ht
          rw [← Except.ok.inj h]
          exact hp _ _ (hm _ rfl) (.arg (List.mem_of_getElem? ht))
        · rw [← Except.ok.inj h]; exact hany
  · rw [← Except.ok.inj h]; exact hany

theorem deBody_inEq {env : Env} {w Q T} (hQ : Closed w Q T) {r r' : DeRec} (h : InEq Q T r r') {cx : DeCx} (hm : ∀ t, cx.mg = some t → Q t) (a) :
    deBody env r cx a = deBody env r' cx a := by
  have hc : ∀ b c vta re nu d mv, r.cls b c { mg := cx.mg, mgVars := mv, vta := vta, reuse := re, numbers := nu } d =
      r'.cls b c { mg := cx.mg, mgVars := mv, vta := vta, reuse := re, numbers := nu } d := fun _ _ _ _ _ _ _ => h.cls _ _ _ _ hm
  have hu : ∀ d ts, deUnion env r (cx.inUnion env d) d ts = deUnion env r' (cx.inUnion env d) d ts :=
    fun d ts => deUnion_inEq h (fun t ht => by cases ht) d ts
  unfold deBody
  simp only [h.render cx hm, hc, hu]
  split
  · rfl
  · split
    · rfl
    · split
      all_goals try rfl
      split
      · rfl
      · split
        · rfl
        · rename_i t ht
          split
          · rfl
          · exact h.fromObj _ _ _ _ _ _ (getGenericArg_Q hQ.any hQ.piece hm ht) hQ.ext

theorem deRenderF_inEq {env : Env} {w Q T} (hQ : Closed w Q T) {r r' : DeRec} (h : InEq Q T r r') {cx : DeCx} (hm : ∀ t, cx.mg = some t → Q t) (a) :
    deRenderF env r cx a = deRenderF env r' cx a := by
  unfold deRenderF
  simp only [deBody_inEq hQ h hm]

theorem deClsF_inEq {env : Env} {Q T} {r r' : DeRec} (h : InEq Q T r r') (b c) {o : DeCall} (d) (hm : ∀ t, o.mg = some t → Q t) :
    deClsF env r b c o d = deClsF env r' b c o d := by
  unfold deClsF
  split
  · rfl
  · rename_i cd _
    have hr := h.render (clsDeCx env c cd b o d) hm
    have hf : ∀ ex, (fun f => deField env r (clsDeCx env c cd b o d) c cd ex d f) = (fun f => deField env r' (clsDeCx env c cd b o d) c cd ex d f) := by
      intro ex
      funext f
      unfold deField
      simp only [hr]
    have : deArgs env r b c cd o d = deArgs env r' b c cd o d := by
      unfold deArgs deNamedArgs deTupleArgs
      have hf' : ∀ ex, deField env r (clsDeCx env c cd b o d) c cd ex d = deField env r' (clsDeCx env c cd b o d) c cd ex d := hf
      simp only [hr, hf']
    rw [this]

theorem fromObjBody_inEq {env : Env} {w Q T} (hQ : Closed w Q T) {r r' : DeRec} (h : InEq Q T r r') (b re nu) {mg c} (hg : Q mg)
    (hc : (∃ k, c = .cls k) ∨ Q c) (d) : fromObjBody env r b re nu mg c d = fromObjBody env r' b re nu mg c d := by
  have hk : ∀ t, keepGen mg = some t → Q t := by
    intro t ht
    cases mg with
    | gen c args => rw [← Option.some.inj ht]; exact hg
    | _ => cases ht
  have hf : ∀ s x, Piece false c s → r.fromObj b re nu .external s x = r'.fromObj b re nu .external s x := by
    intro s x hp
    rcases hc with ⟨k, rfl⟩ | hc
    · cases hp
    · exact h.fromObj _ _ _ _ _ _ (hQ.piece _ _ hc hp) hQ.ext
  unfold fromObjBody
  dsimp only
  split
  · rfl
  · cases c with
    | cls k => exact h.cls _ _ _ _ hk
    | union ts =>
      cases ts with
      | nil => rfl
      | cons t ts => simp only [hf t _ (.union (by simp))]
    | list k t => simp only [funext (fun x => hf t x .list)]
    | set k t => simp only [funext (fun x => hf t x .set)]
    | deque t => simp only [funext (fun x => hf t x .deque)]
    | counter t => simp only [hf t _ .counter]
    | dict k kt vt => simp only [hf _ _ .key, hf _ _ .value]
    | tuple ts =>
      dsimp only
      split
      · rename_i xs _
        refine congrArg (fun z : Res (List Val) => match z with
          | .ok ys => Except.ok (Val.tuple ys)
          | .error e => .error e) (mapR_congr (fun xi _ => ?_))
        split
        · rename_i t ht
          exact hf _ _ (.tuple (List.mem_of_getElem? ht))
        · rfl
      · rfl
    | dictB k => cases k <;> rfl
    | prim p => cases p <;> rfl
    | _ => rfl

theorem fromObjIn_inEq {env : Env} {w Q T} (hQ : Closed w Q T) {r r' : DeRec} (h : InEq Q T r r') (b re nu tg) {t} (d) (ht : Q t) (hg : T tg) :
    fromObjIn env w r b re nu tg t d = fromObjF env r' b re nu tg t d := by
  have key : ∀ c, Q c → (if typeIs d c then Except.ok d else
      match c with
      | .gen k args => wrapUser (fromObjBody env r b re nu (.gen k args) (.cls k) d)
      | .union ts =>
        if (Ty.union ts).isOpt then wrapUser (fromObjBody env r b re nu (.union ts) (.union ts) d)
        else cacheDeUnionIn env r (Wrappers.get w ts tg) ts tg nu d
      | c => wrapUser (fromObjBody env r b re nu c c d)) =
      (if typeIs d c then .ok d else
      match c with
      | .gen k args => wrapUser (fromObjBody env r' b re nu (.gen k args) (.cls k) d)
      | .union ts =>
        if (Ty.union ts).isOpt then wrapUser (fromObjBody env r' b re nu (.union ts) (.union ts) d)
        else cacheDeUnion env r' ts tg nu d
      | c => wrapUser (fromObjBody env r' b re nu c c d)) := by
    intro c hc
    split
    · rfl
    · split
      · rw [fromObjBody_inEq hQ h b re nu hc (.inl ⟨_, rfl⟩)]
      · rename_i ts
        split
        · rw [fromObjBody_inEq hQ h b re nu hc (.inr hc)]
        · rw [hQ.own _ _ hc hg, cacheDeUnionIn_own]
          unfold cacheDeUnion
          split
          · exact deUnion_inEq h (fun t ht => by cases ht) _ _
          · rfl
      · rw [fromObjBody_inEq hQ h b re nu hc (.inr hc)]
  unfold fromObjIn fromObjF
  refine key _ ?_
  split
  · exact hQ.piece _ _ ht .alias
  · exact ht

theorem deAtIn_inEq {env : Env} {w Q T} (hQ : Closed w Q T) (n : Nat) : InEq Q T (deAtIn env w n) (deAt env n) := by
  induction n with
  | zero => exact ⟨fun _ _ _ => rfl, fun _ _ _ _ _ => rfl, fun _ _ _ _ _ _ _ _ => rfl⟩
  | succ n ih =>
    exact ⟨fun cx hm a => deRenderF_inEq hQ ih hm a, fun b c o d hm => deClsF_inEq ih b c d hm,
      fun b re nu tg t d ht hg => fromObjIn_inEq hQ ih b re nu tg d ht hg⟩

theorem closed_within {h : List UnionReq} {tg c} (hT : NoTwinBefore h tg c) :
    Closed (Wrappers.after h) (fun t => t = .any ∨ Within false c t) (fun g => g = tg ∨ g = .external) where
  any := .inl rfl
  piece := by
    rintro t s (rfl | ht) hp
    · cases hp
    · exact .inr (ht.snoc hp)
  ext := .inr rfl
  own := by
    rintro ts g (hq | hq) hg
    · cases hq
    · exact Wrappers.get_own (fun q hqm hqg he => hT q hqm (by rcases hg with rfl | rfl <;> simp [hqg]) ts hq (tyEq_rewritten _ _ he))

end Verif
