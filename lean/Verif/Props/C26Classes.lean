import Verif.Props.C23
import Verif.Props.C53
/-!
# C26 for unions of dataclasses

An untagged union of dataclasses reads its input as the first dataclass that `from_dict` itself can read from it. Data that lacks a required key of
every earlier member is therefore read as the right one, whatever else is in it.
-/

namespace Verif.Props
open Verif Verif.Spec

/-- `t` is a dataclass that no global serializer or deserializer takes. -/
structure ClassMember (env : Env) (t : Ty) (c : ClassId) (cd : ClassDef) : Prop where
  ty : t = .cls c
  cls : env.cls c = some cd
  self : c ∈ cd.mro
  glob : NoGlobal env c

theorem member_fails {env : Env} {re nu cx c d} (hcx : UCx env re nu cx) (htg : cx.tagging = .untagged) (hg : NoGlobal env c) (hd : IsData c d)
    (h : ∃ n e, fromDict env { reuse := some re, numbers := nu } n (.cls c) d = .error e ∧ e ≠ .fuel) :
    ∃ m e, deMember env (deAt env m) cx (.cls c) d = .error e ∧ e ≠ .fuel := by
  have hpl : unionPayload env cx.tagging (.cls c) d = .ok d := by rw [htg, unionPayload_untagged]
  have hpf : ∀ e, unionPayload env cx.tagging (.cls c) d = .error e → e ≠ .fuel := by rw [hpl]; intro e h; cases h
  obtain ⟨n, e, h, he⟩ := h
  match n with
  | 0 | 1 => rw [fromDict_fuel (by omega) hg hd] at h; cases h; exact absurd rfl he
  | n + 2 =>
    rw [fromDict_cls hg.de hd] at h
    cases hx : deClsF env (deAt env n) true c (topCall { reuse := some re, numbers := nu }) d with
    | ok v => rw [hx] at h; cases h
    | error e' =>
      have hne : e' ≠ .fuel := by rintro rfl; rw [hx] at h; cases h; exact he rfl
      have hr : (deAt env (n + 2)).render cx (memberArg (.cls c) d) = .error e' := by
        rw [member_cls hcx hg.de, deAt_cls]; exact hx
      refine ⟨n + 2, (deMember_err hpf).2 (.inr ⟨d, hpl, .inr (.inl ⟨e', hr, hne⟩), fun _ => ?_⟩)⟩
      rw [hr]
      intro h
      cases h
      exact hne rfl

/-- Nothing is read from `d` as the dataclass `c`. -/
def Unreadable (env : Env) (o : DeOpts) (c : ClassId) (d : Val) : Prop := ∀ n w, fromDict env o n (.cls c) d ≠ .ok w

/-- Reading comes to an end (see C53). -/
structure Ends (env : Env) : Prop where
  wf : WellFounded (Rereads env true)
  unions : DistinctUnions env
  transp : PlainTransparent env

theorem ends_cls {env : Env} (h : Ends env) (o : DeOpts) (c : ClassId) (d : Val) : Finishes (fun n => fromDict env o n (.cls c) d) := by
  refine C53_from_dict h.wf h.unions h.transp o (.cls c) ?_ d
  intro s hs
  have hcls : ∀ s t, PartOf s t → t = .cls c → s = .cls c := by
    intro s t hp
    cases hp with
    | refl => exact id
    | _ => intro h; cases h
  have : s = .cls c := by
    cases hs with
    | within h => exact hcls _ _ h rfl
    | arg h => cases hcls _ _ h rfl
  subst this
  intro ts us hp
  cases hcls _ _ hp rfl

theorem unreadable_fails {env : Env} (he : Ends env) {o : DeOpts} {c d} (h : Unreadable env o c d) :
    ∃ n e, fromDict env o n (.cls c) d = .error e ∧ e ≠ .fuel := by
  obtain ⟨N, r, hr, hN⟩ := ends_cls he o c d
  have hN := hN N (Nat.le_refl _)
  cases r with
  | ok v => exact absurd hN (h N v)
  | error e => exact ⟨N, e, hN, fun he => hr (by rw [he])⟩

/-- **C26** for dataclasses: an untagged union reads `d` as `v` exactly if the first member that `from_dict` can read `d` as gives `v`. -/
theorem C26_classes_partial {env : Env} {o : DeOpts} {ts d v} (he : Ends env) (ho : (Ty.union ts).isOpt = false) (htg : o.tagging = .untagged)
    (hfind : findUnion env (env.unionsOfTy (.union ts)) (unionFuncName env ts) = some ts) (hts : ∀ t ∈ ts, ∃ c cd, ClassMember env t c cd)
    (hd : ∀ c, IsData c d) :
    (∃ n, fromDict env o n (.union ts) d = .ok v) ↔
      ∃ pre c post, ts = pre ++ .cls c :: post ∧ (∃ n, fromDict env (unionDe o) n (.cls c) d = .ok v) ∧ ∀ c', .cls c' ∈ pre → Unreadable env (unionDe o) c' d := by
  have hcx : UCx env true o.numbers (topUCx env o ts d) := ⟨rfl, rfl, rfl, rfl, rfl, rfl, rfl, rfl, rfl⟩
  have hpl : ∀ c, unionPayload env (topUCx env o ts d).tagging (.cls c) d = .ok d := by
    intro c
    show unionPayload env o.tagging _ _ = _
    rw [htg, unionPayload_untagged]
  have htop : (∃ n, fromDict env o n (.union ts) d = .ok v) ↔ ∃ m, deUnion env (deAt env m) (topUCx env o ts d) d ts = .ok v := by
    constructor
    · rintro ⟨n, h⟩
      cases n with
      | zero => cases h
      | succ n => rw [fromDict_union ho, hfind] at h; exact ⟨n, h⟩
    · rintro ⟨n, h⟩
      exact ⟨n + 1, by rw [fromDict_union ho, hfind]; exact h⟩
  rw [htop, union_fuel]
  constructor
  · rintro ⟨pre, t, post, rfl, h1, h2⟩
    obtain ⟨c, cd, C⟩ := hts t (by simp)
    obtain rfl := C.ty
    refine ⟨pre, c, post, rfl, (member_reads hcx C.cls C.self C.glob (hpl c) (hd c)).1 h1, ?_⟩
    intro c' hc' n w hw
    obtain ⟨k, kd, C'⟩ := hts _ (List.mem_append_left _ hc')
    have hk := C'.ty
    cases hk
    obtain ⟨m, hm⟩ := (member_reads hcx C'.cls C'.self C'.glob (hpl c') (hd c')).2 ⟨n, hw⟩
    obtain ⟨m', e, hm', hf⟩ := h2 _ hc'
    have h3 := (deMember_le (deAt_le' env (Nat.le_max_left m m')) (topUCx env o (pre ++ .cls c :: post) d) (.cls c') d).ok hm
    rcases deMember_le (deAt_le' env (Nat.le_max_right m m')) (topUCx env o (pre ++ .cls c :: post) d) (.cls c') d with x | x
    · rw [hm'] at x; cases x; exact hf rfl
    · rw [hm', h3] at x; cases x
  · rintro ⟨pre, c, post, rfl, h1, h2⟩
    obtain ⟨k, cd, C⟩ := hts (.cls c) (by simp)
    have hk := C.ty
    cases hk
    refine ⟨pre, .cls c, post, rfl, (member_reads hcx C.cls C.self C.glob (hpl c) (hd c)).2 h1, ?_⟩
    intro s hs
    obtain ⟨c', cd', C'⟩ := hts s (List.mem_append_left _ hs)
    obtain rfl := C'.ty
    exact member_fails hcx htg C'.glob (hd c') (unreadable_fails he (h2 c' hs))

/-- A key without which nothing can be read as the dataclass: that of a field without default whose annotation does not make up for it. -/
structure Requires (env : Env) (c : ClassId) (cd : ClassDef) (f : FieldDef) : Prop where
  cls : env.cls c = some cd
  dict : cd.transparent = false
  mem : f ∈ cd.fields
  read : f.renderable = true
  dflt : f.dflt = none
  flat : f.flatten = false
  ty : ¬ AbsentOk f.ty
  alias : f.alias = [] ∨ f.conv cd.deCase = f.name ∧ AliasTy f.ty
  glob : NoGlobal env c

/-- Data without the key of a required field is not read as the dataclass. -/
theorem requires_unreadable {env : Env} {o : DeOpts} {c} {cd : ClassDef} {f dk kvs} (h : Requires env c cd f)
    (habs : ∀ k ∈ f.conv cd.deCase :: f.alias, getStr k kvs = none) : Unreadable env o c (.dict dk kvs) := by
  intro n w hw
  obtain ⟨e, he, _⟩ := C16_missing_partial (o := o) (n := n) (dk := dk) h.cls h.dict h.mem h.read h.dflt h.flat h.ty h.alias h.glob habs
  rw [hw] at he
  cases he

/-- **C26**, told apart by required keys: if a dict lacks a required key of every member before `c`, the union reads it as `from_dict(c, ...)` does. -/
theorem C26_required_partial {env : Env} {o : DeOpts} {ts pre post c dk kvs v} (he : Ends env) (ho : (Ty.union ts).isOpt = false) (htg : o.tagging = .untagged)
    (hfind : findUnion env (env.unionsOfTy (.union ts)) (unionFuncName env ts) = some ts) (hts : ∀ t ∈ ts, ∃ c cd, ClassMember env t c cd)
    (hsplit : ts = pre ++ .cls c :: post)
    (hreq : ∀ c', .cls c' ∈ pre → ∃ cd' f, Requires env c' cd' f ∧ ∀ k ∈ f.conv cd'.deCase :: f.alias, getStr k kvs = none)
    (h : ∃ n, fromDict env (unionDe o) n (.cls c) (.dict dk kvs) = .ok v) : ∃ n, fromDict env o n (.union ts) (.dict dk kvs) = .ok v := by
  refine (C26_classes_partial he ho htg hfind hts (by intro c as h; cases h)).2 ⟨pre, c, post, hsplit, h, ?_⟩
  intro c' hc'
  obtain ⟨cd', f, hr, habs⟩ := hreq c' hc'
  exact requires_unreadable hr habs

end Verif.Props
