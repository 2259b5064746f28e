import Verif.Spec.Unions
import Verif.Lemmas.DeMono
import Verif.Lemmas.ScopeFree
import Verif.Lemmas.Agree
import Verif.Lemmas.MapTwin
import Verif.Lemmas.Frame
import Verif.Lemmas.RTBase
import Verif.Lemmas.Default
/-!
# Union deserialize functions
-/

namespace Verif
open Verif.Spec

/-! ## Members as classes of their own -/

theorem isPrimInst_iff {env : Env} {p v} : isPrimInst env p v = true ↔ IsA env (.prim p) v := by
  constructor
  · intro h
    cases v with
    | int i => cases p <;> first | cases h; done | exact .int
    | bool b => cases p <;> first | cases h; done | exact .bool | exact .boolInt
    | float x => cases p <;> first | cases h; done | exact .float
    | str s => cases p <;> first | cases h; done | exact .str
    | enum e m =>
      unfold isPrimInst at h
      dsimp only at h
      split at h
      · rename_i d hd; exact .mixin hd (by simpa using h)
      · cases h
    | _ => cases h
  · intro h
    cases h <;> first | rfl | skip
    rename_i d m hm hd
    simp [isPrimInst, hd, hm]

theorem isInst_nominal {env : Env} {t v} (ht : Nominal env t) (hv : ∀ c as, v = .inst c as → (env.cls c).isSome) : isInst env t v = true ↔ IsA env t v := by
  cases ht with
  | prim => unfold isInst bearable; exact isPrimInst_iff
  | none =>
    unfold isInst bearable
    constructor
    · intro h; cases v <;> first | cases h; done | exact .none
    · intro h; cases h; rfl
  | enum =>
    unfold isInst bearable
    constructor
    · intro h
      cases v <;> first | cases h; done | skip
      simp only [beq_iff_eq] at h
      subst h; exact .enum
    · intro h; cases h; simp
  | std =>
    unfold isInst bearable
    constructor
    · intro h
      cases v <;> first | cases h; done | skip
      simp only [isStdInst, Bool.or_eq_true, beq_iff_eq] at h
      rcases h with rfl | h
      · exact .std
      · exact .stdSub h
    · intro h; cases h <;> simp_all [isStdInst]
  | dt =>
    unfold isInst bearable
    constructor
    · intro h
      cases v <;> first | cases h; done | skip
      simp only [isDtInst, Bool.or_eq_true, Bool.and_eq_true, beq_iff_eq] at h
      rcases h with rfl | ⟨rfl, rfl⟩
      · exact .dt
      · exact .datetime
    · intro h; cases h <;> simp [isDtInst]
  | cls =>
    unfold isInst isClsInst
    constructor
    · intro h
      cases v <;> first | cases h; done | skip
      rename_i c as
      dsimp only at h
      have := hv c as rfl
      split at h
      · rename_i cd hcd; exact .cls hcd (by simpa using h)
      · rename_i hn; rw [hn] at this; cases this
    · intro h
      cases h with
      | cls hc hm => simp [hc, hm]

theorem unionPre_iff {env : Env} {t d} : unionPre env t d = true ↔ InputOk env t d := by
  unfold unionPre
  constructor
  · intro h
    cases t with
    | prim p => exact .prim (isPrimInst_iff.1 (by simpa [isPrimitive, bearable] using h))
    | newType n p => exact .newType (isPrimInst_iff.1 (by simpa [isPrimitive] using h))
    | none =>
      cases d <;> first | exact .none | skip
      all_goals simp [isPrimitive, Ty.isNone, bearable] at h
    | enum e =>
      cases he : env.enm e with
      | none => exact .enum (by intro ed h; rw [he] at h; cases h)
      | some ed =>
        cases hm : ed.mixin with
        | none => exact .enum (by intro ed' h; rw [he] at h; cases h; exact hm)
        | some p =>
          simp only [isPrimitive, he, hm, Option.isSome, Bool.true_or, if_true, bearable] at h
          cases d <;> first | cases h; done | skip
          simp only [beq_iff_eq] at h
          subst h; exact .mixin
    | _ => exact .other (by intros; simp) (by intros; simp) (by simp) (by intros; simp)
  · intro h
    cases h with
    | prim h => simpa [isPrimitive, bearable] using isPrimInst_iff.2 h
    | newType h => simpa [isPrimitive] using isPrimInst_iff.2 h
    | none => rfl
    | mixin => simp [bearable]
    | enum h =>
      rename_i e
      have : isPrimitive env (.enum e) = false := by
        unfold isPrimitive
        dsimp only
        split
        · rename_i ed he; rw [h ed he]; rfl
        · rfl
      simp [this, Ty.isNone]
    | other h1 h2 h3 h4 =>
      have : (isPrimitive env t || t.isNone) = false := by
        cases t <;> first | rfl | skip
        · exact absurd rfl (h1 _)
        · exact absurd rfl (h2 _ _)
        · exact absurd rfl h3
        · exact absurd rfl (h4 _)
      simp [this]

/-- Contexts in which union functions run. -/
structure UCx (env : Env) (re : Bool) (nu : Option (Val → Except PErr Val)) (cx : DeCx) : Prop where
  named : cx.named = true
  reuse : cx.reuse = re
  numbers : cx.numbers = nu
  mg : cx.mg = none
  mgVars : cx.mgVars = none
  vta : cx.vta = none
  coerce : cx.coerce = false
  des : cx.des = env.gde
  tvars : cx.tvars = none

theorem UCx.inUnion {env : Env} {c} {cd : ClassDef} {o : DeOpts} {d d'} (ht : cd.tvars = none) :
    UCx env (o.reuse.getD cd.reuseDflt) o.numbers ((clsDeCx env c cd true (topCall o) d).inUnion env d') :=
  ⟨rfl, rfl, rfl, rfl, rfl, rfl, rfl, rfl, ht⟩

/-- The argument a union function renders for a member. -/
def memberArg (t : Ty) (p : Val) : DeArg :=
  { ty := t, name := "fake_key", conv := "fake_key", src := .key (.dict .plain [(.str "fake_key", p)]) }

/-- The entries of a box's input. -/
def boxed (d : Val) : Val := .dict .plain [(.str "x", d)]

theorem member_box {env : Env} {re nu cx m B nm t p root} {o : DeOpts} (hcx : UCx env re nu cx) (htb : TableOf env root cx.unions cx.lits)
    (hb : env.cls B = some (box nm t cx.tagging)) (hr : Reach env true root t) (ho : OwnFuncs env root t) (ho' : OwnFuncs env (.cls B) t)
    (hre : o.reuse = some re) (hnu : o.numbers = nu) :
    (deAt env m).render cx (memberArg t p) = (deAt env m).render (clsDeCx env B (box nm t cx.tagging) true (topCall o) (boxed p))
        (plainArg (box nm t cx.tagging) { name := "x", ty := t } (boxed p)) := by
  obtain ⟨named, data, reuse, numbers, mg, mgVars, vta, coerce, unions, lits, tagging, des, tvars⟩ := cx
  obtain ⟨h1, h2, h3, h4, h5, h6, h7, h8, h9⟩ := hcx
  dsimp only at h1 h2 h3 h4 h5 h6 h7 h8 h9 htb hb
  subst h1 h2 h3 h4 h5 h6 h7 h8 h9
  have hsim : ArgSim (plainArg (box nm t tagging) { name := "x", ty := t } (boxed p)) (memberArg t p) :=
    ⟨rfl, rfl, rfl, rfl, rfl, rfl, rfl, rfl, .key rfl⟩
  have hr' : Reach env true (.cls B) t := .step (.field (f := { name := "x", ty := t }) hb (by simp [box]) rfl) .refl
  rw [← render_sim env m _ data _ _ hsim]
  refine (render_agree (inside_tables htb tableOf_cls hr hr' ho ho') m
    ⟨true, data, reuse, numbers, none, none, none, false, unions, lits, tagging, env.gde, none⟩ (memberArg t p) (.inl .refl)).trans ?_
  congr 1
  simp [clsDeCx, box, topCall, hre, hnu]

theorem box_fields {nm t tg} : (box nm t tg).deFields = [{ name := "x", ty := t }] := rfl

theorem box_run {env : Env} {o : DeOpts} {m B nm t tg d} (hb : env.cls B = some (box nm t tg)) (hg : NoGlobal env B) :
    fromDict env o (m + 2) (.cls B) (boxed d) = wrapUser (match catchKey "x" ((deAt env m).render (clsDeCx env B (box nm t tg) true (topCall o) (boxed d))
        (plainArg (box nm t tg) { name := "x", ty := t } (boxed d))) with
      | .error e => .error e
      | .ok v => .ok (.inst B [("x", v)])) := by
  rw [fromDict_decode hb rfl rfl rfl hg (by intro as h; cases h)]
  unfold decodeCls
  rw [box_fields]
  unfold mapR
  rw [deField_plain rfl]
  dsimp only
  have hconv : FieldDef.conv { name := "x", ty := t } (box nm t tg).deCase = "x" := rfl
  rw [hconv]
  cases catchKey "x" ((deAt env m).render (clsDeCx env B (box nm t tg) true (topCall o) (boxed d)) (plainArg (box nm t tg) { name := "x", ty := t } (boxed d))) with
  | error e => rfl
  | ok v => rfl

theorem catchKey_fuel {α : Type} {k} {r : Res α} : catchKey k r = .error .fuel ↔ r = .error .fuel := by
  unfold catchKey
  split
  · simp
  · exact Iff.rfl

theorem decodes_iff {env : Env} {o : DeOpts} {B nm t tg d v} (hb : env.cls B = some (box nm t tg)) (hg : NoGlobal env B) :
    Decodes env o B d v ↔ ∃ m, (deAt env m).render (clsDeCx env B (box nm t tg) true (topCall o) (boxed d))
        (plainArg (box nm t tg) { name := "x", ty := t } (boxed d)) = .ok v := by
  constructor
  · rintro ⟨n, h⟩
    match n with
    | 0 | 1 => rw [fromDict_fuel (by omega) hg (by intro as h; cases h)] at h; cases h
    | m + 2 =>
      refine ⟨m, ?_⟩
      have h : fromDict env o (m + 2) (.cls B) (boxed d) = _ := h
      rw [box_run hb hg] at h
      have h := wrapUser_ok.1 h
      split at h
      · cases h
      · rename_i w hw
        have := catchKey_ok.1 hw
        injection h with h
        injection h with _ h
        injection h with h
        injection h with _ h
        rw [this, h]
  · rintro ⟨m, h⟩
    refine ⟨m + 2, ?_⟩
    show fromDict env o (m + 2) (.cls B) (boxed d) = _
    rw [box_run hb hg, h]
    rfl

/-- Exhausted fuel is never turned into a user error. -/
def NoUserFuel : Exc → Prop
  | .user e => e ≠ .fuel ∧ NoUserFuel e
  | _ => True

theorem construct_noUserFuel {env : Env} {c cd pos kw} : ErrIn NoUserFuel (construct env c cd pos kw) := by
  unfold construct
  dsimp only
  repeat' split
  all_goals first | exact ErrIn.ok _ | exact ErrIn.err ⟨by simp, trivial⟩ | exact ErrIn.err trivial

theorem noUserFuel (env : Env) (n : Nat) : DeErrOk (fun _ => True) NoUserFuel (deAt env n) :=
  deAt_errOk ⟨trivial, fun _ => trivial, fun _ => trivial, fun _ => trivial, fun _ => trivial, trivial, fun _ h => h.2,
    fun _ _ _ _ _ _ _ _ _ _ _ => construct_noUserFuel⟩ n

theorem fails_iff {env : Env} {o : DeOpts} {B nm t tg d} (hb : env.cls B = some (box nm t tg)) (hg : NoGlobal env B) :
    Fails env o B d ↔ ∃ m e, (deAt env m).render (clsDeCx env B (box nm t tg) true (topCall o) (boxed d))
        (plainArg (box nm t tg) { name := "x", ty := t } (boxed d)) = .error e ∧ e ≠ .fuel := by
  constructor
  · rintro ⟨n, e, h, he⟩
    match n with
    | 0 | 1 => rw [fromDict_fuel (by omega) hg (by intro as h; cases h)] at h; cases h; exact absurd rfl he
    | m + 2 =>
      have h : fromDict env o (m + 2) (.cls B) (boxed d) = _ := h
      rw [box_run hb hg] at h
      refine ⟨m, ?_⟩
      cases hr : (deAt env m).render (clsDeCx env B (box nm t tg) true (topCall o) (boxed d))
        (plainArg (box nm t tg) { name := "x", ty := t } (boxed d)) with
      | ok v => rw [hr] at h; cases h
      | error e' =>
        refine ⟨e', rfl, ?_⟩
        rintro rfl
        rw [hr] at h
        cases h
        exact he rfl
  · rintro ⟨m, e, h, he⟩
    have hrun := box_run (o := o) (m := m) (d := d) hb hg
    rw [h] at hrun
    have hnf := (noUserFuel env m).render (clsDeCx env B (box nm t tg) true (topCall o) (boxed d)) (plainArg (box nm t tg) { name := "x", ty := t } (boxed d)) trivial trivial _ h
    refine ⟨m + 2, ?_⟩
    show ∃ e, fromDict env o (m + 2) (.cls B) (boxed d) = _ ∧ _
    rw [hrun]
    cases e with
    | py e => cases e <;> exact ⟨_, rfl, by simp⟩
    | user e => exact ⟨_, rfl, hnf.1⟩
    | fuel => exact absurd rfl he
    | _ => exact ⟨_, rfl, by simp⟩

/-! ## One attempt and the whole function -/

theorem deMember_eq {env : Env} {r cx t d} : deMember env r cx t d = match unionPayload env cx.tagging t d with
    | .error e => .error e
    | .ok p =>
      if !unionPre env t p then .error (.serde "ensure") else
      match r.render cx (memberArg t p) with
      | .error e => .error e
      | .ok res => match erase t with
        | none => .error (.py (.raised "NameError"))
        | some t' => if bearable env t' res then .ok res else .error (.serde "ensure") := rfl

theorem deMember_ok {env : Env} {r cx t d v} : deMember env r cx t d = .ok v ↔
    ∃ p, unionPayload env cx.tagging t d = .ok p ∧ InputOk env t p ∧ r.render cx (memberArg t p) = .ok v ∧ Checked env t v := by
  rw [deMember_eq]
  constructor
  · intro h
    split at h
    · cases h
    · rename_i p hp
      split at h
      · cases h
      · rename_i hpre
        split at h
        · cases h
        · rename_i res hres
          split at h
          · cases h
          · rename_i t' ht'
            split at h
            · rename_i hb
              cases h
              exact ⟨p, hp, unionPre_iff.1 (by simpa using hpre), hres, t', ht', hb⟩
            · cases h
  · rintro ⟨p, hp, hpre, hres, t', ht', hb⟩
    rw [hp]
    simp only [unionPre_iff.2 hpre, hres, ht', hb, Bool.not_true, Bool.false_eq_true, if_false, if_true]

theorem deMember_err {env : Env} {r cx t d} (hpf : ∀ e, unionPayload env cx.tagging t d = .error e → e ≠ .fuel) :
    (∃ e, deMember env r cx t d = .error e ∧ e ≠ .fuel) ↔
    (∃ e, unionPayload env cx.tagging t d = .error e) ∨ ∃ p, unionPayload env cx.tagging t d = .ok p ∧
      (¬ InputOk env t p ∨ (∃ e, r.render cx (memberArg t p) = .error e ∧ e ≠ .fuel) ∨ ∃ v, r.render cx (memberArg t p) = .ok v ∧ ¬ Checked env t v) ∧
      (InputOk env t p → r.render cx (memberArg t p) ≠ .error .fuel) := by
  rw [deMember_eq]
  constructor
  · rintro ⟨e, h, he⟩
    split at h
    · rename_i e' hp; exact .inl ⟨e', hp⟩
    · rename_i p hp
      refine .inr ⟨p, hp, ?_⟩
      split at h
      · rename_i hpre
        have hno : ¬ InputOk env t p := by intro hi; simp [unionPre_iff.2 hi] at hpre
        exact ⟨.inl hno, fun hi => absurd hi hno⟩
      · split at h
        · rename_i e' hres; cases h; exact ⟨.inr (.inl ⟨_, hres, he⟩), fun _ => by rw [hres]; simpa using he⟩
        · rename_i res hres
          refine ⟨.inr (.inr ⟨res, hres, ?_⟩), fun _ => by rw [hres]; simp⟩
          rintro ⟨t', ht', hb⟩
          rw [ht'] at h
          simp only [hb, if_true] at h
          cases h
  · rintro (⟨e, hp⟩ | ⟨p, hp, h, hf⟩)
    · rw [hp]; exact ⟨e, rfl, hpf e hp⟩
    · rw [hp]
      dsimp only
      by_cases hi : InputOk env t p
      · simp only [unionPre_iff.2 hi, Bool.not_true, Bool.false_eq_true, if_false]
        rcases h with h | ⟨e, h, he⟩ | ⟨v, h, hch⟩
        · exact absurd hi h
        · rw [h]; exact ⟨e, rfl, he⟩
        · rw [h]
          dsimp only
          split
          · exact ⟨_, rfl, by simp⟩
          · rename_i t' ht'
            split
            · rename_i hb; exact absurd ⟨t', ht', hb⟩ hch
            · exact ⟨_, rfl, by simp⟩
      · have : unionPre env t p = false := by
          cases hu : unionPre env t p with
          | false => rfl
          | true => exact absurd (unionPre_iff.1 hu) hi
        simp only [this, Bool.not_false, if_true]
        exact ⟨_, rfl, by simp⟩

theorem deUnion_ok {env : Env} {r cx d ts v} : deUnion env r cx d ts = .ok v ↔
    ∃ pre t post, ts = pre ++ t :: post ∧ deMember env r cx t d = .ok v ∧ ∀ s ∈ pre, ∃ e, deMember env r cx s d = .error e ∧ e ≠ .fuel := by
  induction ts with
  | nil =>
    unfold deUnion
    constructor
    · intro h; cases h
    · rintro ⟨pre, t, post, h, _⟩; cases pre <;> cases h
  | cons t ts ih =>
    unfold deUnion
    constructor
    · intro h
      split at h
      · rename_i w hw; cases h; exact ⟨[], t, ts, rfl, hw, by simp⟩
      · cases h
      · rename_i e hf he
        obtain ⟨pre, s, post, rfl, h1, h2⟩ := ih.1 h
        refine ⟨t :: pre, s, post, rfl, h1, ?_⟩
        intro x hx
        rcases List.mem_cons.1 hx with rfl | hx
        · exact ⟨e, he, by rintro rfl; exact hf rfl⟩
        · exact h2 x hx
    · rintro ⟨pre, s, post, h, h1, h2⟩
      cases pre with
      | nil =>
        rw [List.nil_append] at h
        injection h with ha hb; subst ha
        rw [h1]
      | cons p pre =>
        rw [List.cons_append] at h
        injection h with ha hb; subst ha
        obtain ⟨e, he, hne⟩ := h2 t (by simp)
        rw [he]
        have := ih.2 ⟨pre, s, post, hb, h1, fun x hx => h2 x (by simp [hx])⟩
        cases e <;> first | exact this | exact absurd rfl hne

theorem deUnion_error {env : Env} {r cx d ts e} (h : deUnion env r cx d ts = .error e) : e = .fuel ∨ e = .serde "union" := by
  induction ts with
  | nil => unfold deUnion at h; cases h; exact .inr rfl
  | cons t ts ih =>
    unfold deUnion at h
    split at h
    · cases h
    · cases h; exact .inl rfl
    · exact ih h

/-- The function of a union is found among those of the annotation that is the union. -/
theorem findUnion_self {env : Env} {ts} {l : List (List Ty)} (h : ts ∈ l) : ∃ us, findUnion env l (unionFuncName env ts) = some us := by
  unfold findUnion
  cases hf : l.reverse.find? (fun us => unionFuncName env us == unionFuncName env ts) with
  | some us => exact ⟨us, rfl⟩
  | none =>
    rw [List.find?_eq_none] at hf
    exact absurd (hf ts (by simpa using h)) (by simp)

theorem self_unionsOfTy {env : Env} {ts} : ts ∈ env.unionsOfTy (.union ts) := by
  unfold Env.unionsOfTy unionsIn
  simp

end Verif
