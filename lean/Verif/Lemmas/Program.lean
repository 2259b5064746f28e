import Verif.Spec.Program
import Verif.Lemmas.Collect
/-!
# In a supported program every union and literal finds its own function
-/

namespace Verif
open Spec

theorem Spec.ScalarFits.ok {env : Env} {named c} {cd : ClassDef} {t} (h : ScalarFits env t) (hl : ∀ vs, t = .lit vs → Reach env false (.cls c) t)
    (hN : ∀ vs, Reach env false (.cls c) (.lit vs) → OwnLitName env c vs) : ScalarTy env (scopeOf env named c cd) t := by
  cases h with
  | prim => exact .prim
  | newType => exact .newType
  | none => exact .none
  | enum h h' => exact .enum h h'
  | std => exact .std
  | dt => exact .dt
  | lit h => exact .lit h (findLit_own (hl _ rfl) (hN _ (hl _ rfl)))

theorem not_isOpt {ts : List Ty} (h : ∀ t, ts ≠ [t, .none]) : (Ty.union ts).isOpt = false := by
  unfold Ty.isOpt
  split
  · rename_i a e
    cases e
    exact absurd rfl (h a)
  · rfl

theorem Spec.Reach.snoc {env : Env} {al t s u} (h : Reach env al t s) (hp : Part env al s u) : Reach env al t u := h.trans (.step hp .refl)

/-- `t` is reached from the class without crossing an alias, or no literal lies beyond the alias. -/
def LitsSeen (env : Env) (c : ClassId) (t : Ty) : Prop := Reach env false (.cls c) t ∨ ∀ vs, ¬ Reach env true t (.lit vs)

theorem LitsSeen.part {env : Env} {c t s} (h : LitsSeen env c t) (hp : ∀ al, Part env al t s) : LitsSeen env c s := by
  rcases h with h | h
  · exact .inl (h.snoc (hp _))
  · exact .inr (fun vs hr => h vs (.step (hp _) hr))

theorem Spec.Supported.ok {env : Env} {F : Fmt env} {named c} {cd : ClassDef} (hU : ∀ ts, Reach env true (.cls c) (.union ts) → OwnUnionName env c ts)
    (hV : ∀ vs, Reach env false (.cls c) (.lit vs) → OwnLitName env c vs) {t} (h : Supported env F cd.tagging t) :
    Reach env true (.cls c) t → LitsSeen env c t → TyOk env F (scopeOf env named c cd) t := by
  have sc : ∀ {t}, ScalarFits env t → LitsSeen env c t → ScalarTy env (scopeOf env named c cd) t := by
    intro t h hs
    refine h.ok (fun vs e => ?_) hV
    subst e
    rcases hs with hs | hs
    · exact hs
    · exact absurd .refl (hs vs)
  induction h with
  | scalar h => exact fun _ hs => .scalar (sc h hs)
  | list _ ih => exact fun hr hs => .list (ih (hr.snoc .list) (hs.part (fun _ => .list)))
  | deque _ ih => exact fun hr hs => .deque (ih (hr.snoc .deque) (hs.part (fun _ => .deque)))
  | tupleV _ ih => exact fun hr hs => .tupleV (ih (hr.snoc .tupleV) (hs.part (fun _ => .tupleV)))
  | tuple h0 _ ih => exact fun hr hs => .tuple h0 (fun t ht => ih t ht (hr.snoc (.tuple ht)) (hs.part (fun _ => .tuple ht)))
  | setConv hc _ ih => exact fun hr hs => .setConv hc (ih (hr.snoc .set) (hs.part (fun _ => .set)))
  | setRaw hc hr' h => exact fun hr hs => .setRaw hc hr' (sc h (hs.part (fun _ => .set)))
  | dict hk _ ih => exact fun hr hs => .dict hk (ih (hr.snoc .value) (hs.part (fun _ => .value)))
  | counter hk h => exact fun _ _ => .counter hk h
  | opt h0 _ ih => exact fun hr hs => .opt h0 (ih (hr.snoc (.union (.head _))) (hs.part (fun _ => .union (.head _))))
  | union ho hm _ hp hc ht ih =>
    exact fun hr hs => .union (not_isOpt ho) hm (fun t ht => ih t ht (hr.snoc (.union ht)) (hs.part (fun _ => .union ht))) hp hc ht
      (findUnion_own hr (hU _ hr))
  | cls h => exact fun _ _ => .cls h
  | alias _ hl ih => exact fun hr _ => .alias (ih (hr.snoc (.alias rfl)) (.inr hl))
  | any h => exact fun _ _ => .any h
  | listB h => exact fun _ _ => .listB h
  | dictB h => exact fun _ _ => .dictB h

theorem Spec.ProgramFits.ok {env : Env} {F : Fmt env} (hU : ∀ c ts, Reach env true (.cls c) (.union ts) → OwnUnionName env c ts)
    (hV : ∀ c vs, Reach env false (.cls c) (.lit vs) → OwnLitName env c vs) (h : ProgramFits env F) : EnvOk env F where
  classes c cd hc ht := by
    have hf := h.classes c cd hc ht
    have noskip : ∀ f ∈ cd.fields, f.skip = false := fun f hm => by
      cases hf.fields f hm with
      | plain hp _ => exact hp.noSkip.1
      | flat hs _ => exact hs.noSkip.1
    have top : ∀ al, ∀ f ∈ cd.fields, Reach env al (.cls c) f.ty := fun al f hm => .step (.field hc hm (noskip f hm)) .refl
    refine { toClassShape := hf.toClassShape, fields := fun f hm => ?_, types := fun f hm named _ => ?_ }
    · cases hf.fields f hm with
      | plain hp hr => exact .plain hp hr
      | flat hs hty =>
        refine .flat { toFlatShape := hs, types := fun g hg => ⟨?_, (hty g hg).2⟩ }
        have hr : ∀ al, Reach env al (.cls c) g.ty := fun al => by
          have h1 := top al f hm
          rw [hs.ty] at h1
          exact h1.snoc (.field hs.child hg (hs.inner g hg).noSkip.1)
        exact (hty g hg).1.ok (hU c) (hV c) (hr _) (.inl (hr _))
    · exact (hf.types f hm).ok (hU c) (hV c) (top _ f hm) (.inl (top _ f hm))
  wrappers c cd hc ht := by
    obtain ⟨f, hf⟩ := h.wrappers c cd hc ht
    have hr : ∀ al, Reach env al (.cls c) f.ty := fun al => .step (.field hc (by rw [hf.only]; exact .head _) hf.noSkip.1) .refl
    exact ⟨f, { toWrapShape := hf.toWrapShape, type := fun named _ => hf.type.ok (hU c) (hV c) (hr _) (.inl (hr _)) }⟩
  noGlobal := h.noGlobal

end Verif
