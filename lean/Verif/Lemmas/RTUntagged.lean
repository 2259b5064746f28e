import Verif.Lemmas.RTMember
import Verif.Lemmas.MapTwin
/-!
# Round trip: dataclasses that refuse data without tags
-/

namespace Verif

open Spec

theorem Ev.two : Ev (fun n => ∃ m, n = m + 1 + 1) := ⟨2, fun n hn => ⟨n - 2, by omega⟩⟩

theorem getItem_ne_fuel {d : Val} {k e} (h : pyGetItem d k = .error e) : e ≠ .fuel := by
  unfold pyGetItem at h
  split at h
  · split at h
    · cases h
    · cases h; simp
  · cases h; simp

theorem orEmpty_ne_fuel {env : Env} {d e} (h : orEmptyItems env d = .error e) : e ≠ .fuel := by
  unfold orEmptyItems at h
  split at h
  · cases d <;> first | (cases h; done) | (cases h; simp)
  · cases h

/-- A field that needs data fails where there is none. -/
theorem needed_fails {env : Env} {F : Fmt env} {S} {n cx c} {cd : ClassDef} {ex d} {f : FieldDef} (hf : Needed f) (ht : TyOk env F S f.ty) (hdes : cx.des = [])
    (hd : ∀ v, pyGetItem d (f.conv cd.deCase) ≠ .ok v) :
    ∃ e, deField env (deAt env (n + 1)) cx c cd ex d f = .error e ∧ e ≠ .fuel := by
  have hnn : f.ty.hasNone = false := by
    cases hh : f.ty with
    | union ts =>
      simp only [Ty.hasNone]
      rw [Bool.eq_false_iff]
      intro h
      obtain ⟨t, h1, h2⟩ := List.any_eq_true.1 h
      cases t <;> simp [Ty.isNone] at h2
      exact hf.notOpt ts hh h1
    | _ => rfl
  obtain ⟨e, he⟩ : ∃ e, pyGetItem d (f.conv cd.deCase) = .error e := by
    cases h : pyGetItem d (f.conv cd.deCase) with
    | ok v => exact absurd h (hd v)
    | error e => exact ⟨e, rfl⟩
  have hne := getItem_ne_fuel he
  have key : ∃ e', (deAt env (n + 1)).render cx (plainArg cd f d) = .error e' ∧ e' ≠ .fuel := by
    rw [deAt_render]
    unfold deRenderF plainArg
    rw [hf.dflt]
    dsimp only
    generalize ha : ({ ty := f.ty, name := f.name, conv := f.conv cd.deCase, src := .key d, alias := f.alias, deser := f.deserializer, flatten := false, dflt := none } : DeArg) = a
    have hda : a.data = .error e := by
      subst ha; unfold DeArg.data; dsimp only; rw [hnn]; simpa using he
    have hpd : primData cx a = .error e := by
      unfold primData
      rw [show a.alias = [] by subst ha; exact hf.alias]
      exact hda
    have hty : a.ty = f.ty := by subst ha; rfl
    unfold deBody
    rw [hdes, pickDe_nil, show a.deser = none by subst ha; exact hf.noCustom]
    dsimp only
    have hfl : a.flatten = false := by subst ha; rfl
    have hneed := hf.data
    have hno := hf.notOpt
    rw [hda, hpd, hfl, hty]
    generalize f.ty = t at *
    cases ht with
    | scalar hs =>
      cases hs with
      | none => cases hneed
      | lit hl _ =>
        dsimp only
        split
        · exact ⟨_, rfl, by simp⟩
        · exact ⟨_, rfl, hne⟩
      | _ => exact ⟨_, rfl, hne⟩
    | tuple => cases hneed
    | alias => cases hneed
    | any => cases hneed
    | opt => exact absurd (by simp) (hno _ rfl)
    | union ho =>
      dsimp only
      rw [ho]
      simp only [Bool.false_eq_true, if_false]
      split
      · exact ⟨_, rfl, by simp⟩
      · exact ⟨_, rfl, hne⟩
    | _ => exact ⟨_, rfl, hne⟩
  obtain ⟨e', he', hne'⟩ := key
  rw [deField_plain hf.noFlatten, hf.dflt]
  dsimp only
  rw [he']
  unfold catchKey
  split
  · exact ⟨_, rfl, by simp⟩
  · exact ⟨_, rfl, hne'⟩

/-- A field with a default does without its key. -/
theorem dflt_given {env : Env} {n cx c} {cd : ClassDef} {ex dk kvs} {f : FieldDef} {v} (hfl : f.flatten = false) (hal : f.alias = []) (hdf : f.dflt = some v)
    (habs : getStr (f.conv cd.deCase) kvs = none) : deField env (deAt env (n + 1)) cx c cd ex (.dict dk kvs) f = .ok v := by
  rw [deField_plain hfl, hdf]
  dsimp only
  rw [deAt_render]
  unfold deRenderF plainArg
  rw [hdf]
  dsimp only
  have : dfltExists env { ty := f.ty, name := f.name, conv := f.conv cd.deCase, src := .key (.dict dk kvs), alias := f.alias, deser := f.deserializer, flatten := false, dflt := some v } (.dict dk kvs) = .ok false := by
    unfold dfltExists
    dsimp only
    rw [hal]
    simp [pyIn, habs]
  rw [this]

theorem mapR_fails {α β : Type} {g : α → Res β} : ∀ {pre : List α} {x post e}, (∀ a ∈ pre, ∃ b, g a = .ok b) → g x = .error e → mapR g (pre ++ x :: post) = .error e := by
  intro pre
  induction pre with
  | nil => intro x post e _ h; simp [mapR, h]
  | cons a pre ih =>
    intro x post e hp h
    obtain ⟨b, hb⟩ := hp a (by simp)
    rw [List.cons_append]
    unfold mapR
    rw [hb, ih (fun a ha => hp a (by simp [ha])) h]

/-- A dataclass whose fields are read up to one that fails. -/
theorem cls_fails {env : Env} {n c} {cd : ClassDef} {o d} (hc : env.cls c = some cd) (htr : cd.transparent = false) {pre f post} (hs : cd.fields = pre ++ f :: post)
    (hr : f.renderable = true)
    (hpre : ∀ ex, ∀ g ∈ pre, ∃ v, deField env (deAt env n) (clsDeCx env c cd true o d) c cd ex d g = .ok v)
    (hf : ∀ ex, ∃ e, deField env (deAt env n) (clsDeCx env c cd true o d) c cd ex d f = .error e ∧ e ≠ .fuel) :
    ∃ e, deClsF env (deAt env n) true c o d = .error e ∧ e ≠ .fuel := by
  rw [deClsF_named hc htr]
  cases hu : deUnknown env c cd d with
  | error e =>
    refine ⟨e, rfl, ?_⟩
    unfold deUnknown at hu
    split at hu
    · split at hu
      · cases hu
      · rename_i e' he; cases hu; exact orEmpty_ne_fuel he
    · cases hu
  | ok b =>
    cases b with
    | true => exact ⟨_, rfl, by simp⟩
    | false =>
      dsimp only
      cases hx : deExtra env c cd d with
      | error e =>
        refine ⟨e, rfl, ?_⟩
        unfold deExtra at hx
        split at hx
        · split at hx
          · cases hx
          · rename_i e' he; cases hx; exact orEmpty_ne_fuel he
        · cases hx
      | ok ex =>
        dsimp only
        obtain ⟨e, he, hne⟩ := hf ex
        have hsp : cd.deFields = pre.filter (·.renderable) ++ f :: post.filter (·.renderable) := by
          unfold ClassDef.deFields
          rw [hs, List.filter_append, List.filter_cons, hr]
          rfl
        unfold decodeCls
        rw [hsp, mapR_fails (fun g hg => hpre ex g (List.mem_filter.1 hg).1) he]
        exact ⟨e, rfl, hne⟩

theorem Spec.Needed.renderable {f : FieldDef} (h : Needed f) : f.renderable = true := by
  simp [FieldDef.renderable, h.read.1, h.read.2.1, h.read.2.2]

/-- A dataclass that needs another key. -/
theorem lacks_fails {env : Env} {F : Fmt env} {S} {n c} {cd : ClassDef} {o dk kvs ks} (hc : env.cls c = some cd) (htr : cd.transparent = false) (hcd : cd.classDe = none)
    (hg : env.gde = []) (ht : ∀ f ∈ cd.fields, TyOk env F S f.ty) (hl : Lacks cd ks) (hk : ∀ k, k ∉ ks → getStr k kvs = none) :
    ∃ e, deClsF env (deAt env (n + 1)) true c o (.dict dk kvs) = .error e ∧ e ≠ .fuel := by
  obtain ⟨pre, f, post, hs, hf, hnk, hpre⟩ := hl
  refine cls_fails hc htr hs hf.renderable (fun ex g hg => ?_) (fun ex => ?_)
  · obtain ⟨h1, h2, h3, h4⟩ := hpre g hg
    cases hd : g.dflt with
    | none => exact absurd hd h3
    | some v => exact ⟨v, dflt_given h1 h2 hd (hk _ h4)⟩
  · refine needed_fails hf (ht f (by rw [hs]; simp)) (by unfold clsDeCx; dsimp only; rw [hg, hcd]; rfl) ?_
    intro v h
    simp [pyGetItem, hk _ hnk] at h

/-- A dataclass whose first field needs data, given something that is no dict. -/
theorem first_fails {env : Env} {F : Fmt env} {S} {n c} {cd : ClassDef} {o d f post} (hc : env.cls c = some cd) (htr : cd.transparent = false) (hcd : cd.classDe = none)
    (hg : env.gde = []) (ht : ∀ f ∈ cd.fields, TyOk env F S f.ty) (hs : cd.fields = f :: post) (hf : Needed f) (hd : kind d ≠ .dict) :
    ∃ e, deClsF env (deAt env (n + 1)) true c o d = .error e ∧ e ≠ .fuel := by
  refine cls_fails (pre := []) hc htr hs hf.renderable (fun ex g hg => by cases hg) (fun ex => ?_)
  refine needed_fails hf (ht f (by rw [hs]; simp)) (by unfold clsDeCx; dsimp only; rw [hg, hcd]; rfl) ?_
  intro v h
  cases d <;> first | exact hd rfl | (cases h; done)

end Verif
