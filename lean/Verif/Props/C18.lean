import Verif.Lemmas.Frame
import Verif.Lemmas.Named
import Verif.Examples.World
/-!
# C18: unknown keys are ignored; C11: skipped fields never enter
-/

namespace Verif.Props
open Spec

/-- The classes inlined in the dict of `c` through flattened dataclasses. -/
inductive FlatReach (env : Env) : ClassId → ClassId → Prop
  | refl {c} : FlatReach env c c
  | step {c c' cd f ch} : FlatReach env c c' → env.cls c' = some cd → f ∈ cd.fields → inlined f = some ch → FlatReach env c ch

theorem FlatReach.trans {env : Env} {a b c} (h1 : FlatReach env a b) (h2 : FlatReach env b c) : FlatReach env a c := by
  induction h2 with
  | refl => exact h1
  | step _ h3 h4 h5 ih => exact .step ih h3 h4 h5

/-- Class `c` and the dataclasses flattened into it are not transparent and their fields read only the keys of `Reads`. -/
def ReadsOnly (env : Env) (c : ClassId) : Prop :=
  ∀ c' cd, FlatReach env c c' → env.cls c' = some cd → cd.transparent = false ∧ ∀ f ∈ cd.fields, FieldReadsOk env cd f

theorem frame_drop {env : Env} : FrameRel env (fun c kvs kvs' => ReadsOnly env c ∧
    (∀ c' cd, FlatReach env c c' → env.cls c' = some cd → cd.denyUnknown = false) ∧ ∀ k, Reads env c k → getStr k kvs' = getStr k kvs) := by
  refine ⟨?_, ?_, ?_, ?_, ?_⟩
  · intro c kvs kvs' cd h hc; exact (h.1 c cd .refl hc).1
  · intro c kvs kvs' cd f h hc hf; exact (h.1 c cd .refl hc).2 f hf
  · intro c kvs kvs' k h hk; exact h.2.2 k hk
  · intro c kvs kvs' cd dk dk' h hc
    unfold deUnknown
    rw [h.2.1 c cd .refl hc]
    rfl
  · intro c kvs kvs' cd f ch h hc hf hr hin
    have hstep : FlatReach env c ch := .step .refl hc hf hin
    refine ⟨fun c' cd' hc' => h.1 c' cd' (hstep.trans hc'), fun c' cd' hc' => h.2.1 c' cd' (hstep.trans hc'), ?_⟩
    intro k hk
    rw [getStr_filter, getStr_filter, h.2.2 k (.child hc hf hr hin hk)]

/-- **C18**, partial: dropping (equivalently, adding) entries under keys that `Reads` does not list leaves the result of
`from_dict` unchanged, for classes without deny_unknown_fields and flattened dicts.
Missing: the property asks this of every key that is not a wire name or alias; with aliases on container fields, aliases on
renamed fields, or Optional/defaulted flattened dataclasses the code also looks up other keys (see `Findings`). -/
theorem C18_unknown_ignored_partial {env : Env} {o : DeOpts} {n c dk kvs} (p : Val → Bool) (hr : ReadsOnly env c)
    (hdeny : ∀ c' cd, FlatReach env c c' → env.cls c' = some cd → cd.denyUnknown = false) (hg : NoGlobal env c)
    (hp : ∀ k, Reads env c k → p (.str k) = true) :
    fromDict env o n (.cls c) (.dict dk kvs) = fromDict env o n (.cls c) (.dict dk (kvs.filter (fun kv => p kv.1))) := by
  refine fromDict_frame frame_drop hg.de ⟨hr, hdeny, fun k hk => ?_⟩
  rw [getStr_filter, hp k hk]
  rfl

/-- **C18** in full for classes without aliases and without flattened fields: entries under keys that are no field's wire name
have no influence. -/
theorem C18_plain {env : Env} {o : DeOpts} {n c cd dk kvs} (p : Val → Bool) (hc : env.cls c = some cd)
    (htr : cd.transparent = false) (hdeny : cd.denyUnknown = false) (hfl : ∀ f ∈ cd.fields, f.flatten = false)
    (hal : ∀ f ∈ cd.fields, f.alias = []) (hg : NoGlobal env c)
    (hp : ∀ k, Recognised env c k → p (.str k) = true) :
    fromDict env o n (.cls c) (.dict dk kvs) = fromDict env o n (.cls c) (.dict dk (kvs.filter (fun kv => p kv.1))) := by
  have hin : ∀ f ∈ cd.fields, inlined f = none := by
    intro f hf; unfold inlined; rw [hfl f hf]
  have hre : ∀ c', FlatReach env c c' → c' = c := by
    intro c' h
    induction h with
    | refl => rfl
    | step h1 h2 h3 h4 ih =>
      subst ih
      rw [hc] at h2; cases h2
      rw [hin _ h3] at h4; cases h4
  have hrest : ∀ f ∈ cd.fields, takesRest f = false := by
    intro f hf; unfold takesRest; rw [hfl f hf]; rfl
  refine C18_unknown_ignored_partial p ?_ ?_ hg ?_
  · intro c' cd' h1 h2
    rw [hre c' h1, hc] at h2; cases h2
    refine ⟨htr, fun f hf => ⟨.inl (hal f hf), hrest f hf, ?_, ?_⟩⟩
    · intro h; rw [hfl f hf] at h; cases h
    · intro ch h; rw [hin f hf] at h; cases h
  · intro c' cd' h1 h2
    rw [hre c' h1, hc] at h2; cases h2; exact hdeny
  · intro k hk
    apply hp
    cases hk with
    | wire h1 h2 h3 h4 =>
      rw [hc] at h1; cases h1
      exact .own hc htr h2 (hrest _ h2) h4 (.inl rfl)
    | alias h1 h2 h3 h4 h5 =>
      rw [hc] at h1; cases h1
      exact absurd (hal _ h2) h4
    | child h1 h2 h3 h4 h5 => rw [hc] at h1; cases h1; rw [hin _ h2] at h4; cases h4
    | probe h1 h2 h3 h4 h5 => rw [hc] at h1; cases h1; rw [hin _ h2] at h4; cases h4

/-! ## C11 -/

/-- **C11**, first half, partial: two inputs that differ only in entries under the keys (wire name, aliases) of a field marked
`skip` or `skip_deserializing` give the same result, provided no other field reads those keys. Holds with and without
deny_unknown_fields.
Missing: classes with flattened fields, and aliases on types that do not implement them (there the property is false, see `Findings`). -/
theorem C11_no_influence_partial {env : Env} {o : DeOpts} {n c cd f dk dk' kvs kvs'} (hc : env.cls c = some cd)
    (htr : cd.transparent = false) (hfl : ∀ g ∈ cd.fields, g.flatten = false) (hf : f ∈ cd.fields)
    (hal : ∀ g ∈ cd.fields, g.alias = [] ∨ AliasTy g.ty) (hg : NoGlobal env c)
    (hown : ∀ g ∈ cd.fields, g.renderable = true → ∀ k ∈ g.name :: g.conv cd.deCase :: g.alias, k ≠ f.conv cd.deCase ∧ k ∉ f.alias)
    (hd : kvs.filter (fun kv => !keyKnown (f.conv cd.deCase :: f.alias) kv.1) =
      kvs'.filter (fun kv => !keyKnown (f.conv cd.deCase :: f.alias) kv.1)) :
    fromDict env o n (.cls c) (.dict dk' kvs') = fromDict env o n (.cls c) (.dict dk kvs) := by
  have hin : ∀ f ∈ cd.fields, inlined f = none := by
    intro f hf; unfold inlined; rw [hfl f hf]
  have hrest : ∀ f ∈ cd.fields, takesRest f = false := by
    intro f hf; unfold takesRest; rw [hfl f hf]; rfl
  have hget : ∀ k, k ≠ f.conv cd.deCase → k ∉ f.alias → getStr k kvs' = getStr k kvs := by
    intro k h1 h2
    have hp : (!keyKnown (f.conv cd.deCase :: f.alias) (Val.str k)) = true := by
      rw [Bool.not_eq_true']
      cases hk : keyKnown (f.conv cd.deCase :: f.alias) (Val.str k) with
      | false => rfl
      | true =>
        obtain ⟨s, hs, he⟩ := keyKnown_iff.1 hk
        cases he
        rcases List.mem_cons.1 hs with h | h
        · exact absurd h h1
        · exact absurd h h2
    have e1 := @getStr_filter (fun v => !keyKnown (f.conv cd.deCase :: f.alias) v) k kvs
    have e2 := @getStr_filter (fun v => !keyKnown (f.conv cd.deCase :: f.alias) v) k kvs'
    rw [hp] at e1 e2
    simp only [if_true] at e1 e2
    rw [← e1, ← e2, hd]
  have hun : ∀ dk dk', deUnknown env c cd (.dict dk' kvs') = deUnknown env c cd (.dict dk kvs) := by
    intro dk dk'
    unfold deUnknown
    rw [orEmptyItems_dict, orEmptyItems_dict]
    dsimp only
    have hany : ∀ l : List (Val × Val), l.any (fun kv => !keyKnown (env.known c) kv.1) =
        (l.filter (fun kv => !keyKnown (f.conv cd.deCase :: f.alias) kv.1)).any (fun kv => !keyKnown (env.known c) kv.1) := by
      intro l
      rw [List.any_filter]
      congr 1
      funext kv
      cases hk : keyKnown (f.conv cd.deCase :: f.alias) kv.1 with
      | false => simp
      | true =>
        obtain ⟨s, hs, he⟩ := keyKnown_iff.1 hk
        have : keyKnown (env.known c) kv.1 = true := by
          rw [he]
          refine keyKnown_iff.2 ⟨s, ?_, rfl⟩
          unfold Env.known knownCls
          rw [hc]
          simp only [htr, Bool.false_eq_true, if_false]
          rw [List.mem_flatMap]
          refine ⟨f, hf, ?_⟩
          rw [flatDict_eq_takesRest, hrest f hf, flatChild_eq_inlined, hin f hf]
          exact hs
        rw [this]
        rfl
    rw [hany kvs', hany kvs, hd]
  have hR : FrameRel env (fun c' l l' => c' = c ∧ l = kvs ∧ l' = kvs') := by
    refine ⟨?_, ?_, ?_, ?_, ?_⟩
    · rintro c' l l' cd' ⟨rfl, rfl, rfl⟩ h; rw [hc] at h; cases h; exact htr
    · rintro c' l l' cd' g ⟨rfl, rfl, rfl⟩ h hgm
      rw [hc] at h; cases h
      refine ⟨hal g hgm, hrest g hgm, ?_, ?_⟩
      · intro h; rw [hfl g hgm] at h; cases h
      · intro ch h; rw [hin g hgm] at h; cases h
    · rintro c' l l' k ⟨rfl, rfl, rfl⟩ hk
      cases hk with
      | wire h1 h2 h3 h4 =>
        rw [hc] at h1; cases h1
        have q := hown _ h2 h3 _ (.tail _ (.head _))
        exact hget _ q.1 q.2
      | alias h1 h2 h3 h4 h5 =>
        rw [hc] at h1; cases h1
        obtain ⟨q1, q2⟩ := hown _ h2 h3 k (by rcases h5 with rfl | h5 <;> simp [*])
        exact hget _ q1 q2
      | child h1 h2 h3 h4 h5 => rw [hc] at h1; cases h1; rw [hin _ h2] at h4; cases h4
      | probe h1 h2 h3 h4 h5 => rw [hc] at h1; cases h1; rw [hin _ h2] at h4; cases h4
    · rintro c' l l' cd' dk dk' ⟨rfl, rfl, rfl⟩ h
      rw [hc] at h; cases h; exact hun dk dk'
    · rintro c' l l' cd' g ch ⟨rfl, rfl, rfl⟩ h hgm _ hi
      rw [hc] at h; cases h; rw [hin g hgm] at hi; cases hi
  exact fromDict_frame hR hg.de ⟨rfl, rfl, rfl⟩

/-- **C11**, second half: the attribute of a skipped field is its default, whatever the input. -/
theorem C11_default {env : Env} {o : DeOpts} {n c cd f d v} (hc : env.cls c = some cd) (htr : cd.transparent = false)
    (hp : cd.postInit = none) (hn : (cd.fields.map (·.name)).Nodup) (hf : f ∈ cd.fields) (hs : f.skip = true ∨ f.skipDe = true)
    (hg : NoGlobal env c) (hd : IsData c d) (h : fromDict env o n (.cls c) d = .ok v) :
    ∃ attrs, v = .inst c attrs ∧ attrs.lookup f.name = f.dflt := by
  obtain ⟨m, rfl, hm⟩ := fromObj_cls_cases hg.de hd h (by intro h; cases h)
  have hm := wrapUser_ok.1 hm
  rw [deClsF_named hc htr] at hm
  split at hm
  · cases hm
  · cases hm
  · split at hm
    · cases hm
    · obtain ⟨attrs, rfl, _, h2⟩ := decodeCls_ok hp hn hm
      refine ⟨attrs, rfl, h2 f hf ?_⟩
      unfold FieldDef.renderable
      rcases hs with hs | hs <;> simp [hs]

namespace C18Ex
def A : ClassDef :=
  { name := "A", mro := ["A"],
    fields := [{ name := "x", ty := .prim .int, rename := some "X" }, { name := "y", ty := .list .list (.prim .str) },
               { name := "s", ty := .prim .int, dflt := some (.int 7), skipDe := true }] }
def env : Env := Ex.mk [("A", A), ("D", { A with denyUnknown := true })]
theorem noGlobal (c : ClassId) : NoGlobal env c := ⟨by simp [env, Ex.mk], by simp [env, Ex.mk]⟩
theorem flat : ∀ f ∈ A.fields, f.flatten = false := by
  intro f hf; simp [A] at hf; rcases hf with rfl | rfl | rfl <;> rfl
theorem noAlias : ∀ f ∈ A.fields, f.alias = [] := by
  intro f hf; simp [A] at hf; rcases hf with rfl | rfl | rfl <;> rfl

def known : List String := ["X", "y", "s"]
theorem known_ok : ∀ k, Recognised env "A" k → keyKnown known (.str k) = true := by
  intro k h
  apply keyKnown_iff.2
  cases h with
  | own h1 h2 h3 h4 h5 h6 =>
    cases h1
    simp [A] at h3
    rcases h3 with rfl | rfl | rfl <;> simp [FieldDef.conv, A] at h6 <;> simp [known, h6]
  | child h1 h2 h3 h4 h5 h6 =>
    cases h1
    simp [A] at h3
    rcases h3 with rfl | rfl | rfl <;> simp [inlined] at h5
  | transparent h1 h2 => cases h1; cases h2

/-- Extra entries, among them the declared name of the renamed field and a non-string key. -/
example : let d := [(Val.str "x", .str "junk"), (.str "X", .int 1), (.int 0, .none), (.str "y", .list [.str "a"]), (.str "q", .none)]
    fromDict env {} 9 (.cls "A") (.dict .plain d) =
      fromDict env {} 9 (.cls "A") (.dict .plain (d.filter (fun kv => keyKnown known kv.1))) ∧
    fromDict env {} 9 (.cls "A") (.dict .plain d) = .ok (.inst "A" [("x", .int 1), ("y", .list [.str "a"]), ("s", .int 7)]) :=
  ⟨C18_plain _ rfl rfl rfl flat noAlias (noGlobal _) known_ok, rfl⟩

/-- A value for the skipped field is ignored, also under deny_unknown_fields. -/
example : let d := [(Val.str "X", .int 1), (.str "y", .list [.str "a"])]
    fromDict env {} 9 (.cls "D") (.dict .plain (d ++ [(.str "s", .int 99)])) = fromDict env {} 9 (.cls "D") (.dict .plain d) ∧
    fromDict env {} 9 (.cls "D") (.dict .plain d) = .ok (.inst "D" [("x", .int 1), ("y", .list [.str "a"]), ("s", .int 7)]) :=
  ⟨C11_no_influence_partial (cd := { A with denyUnknown := true }) (f := { name := "s", ty := .prim .int, dflt := some (.int 7), skipDe := true })
    rfl rfl flat (by simp [A]) (fun g hg => .inl (noAlias g hg)) (noGlobal _)
    (by intro g hg hr
        simp [A] at hg
        rcases hg with rfl | rfl | rfl
        · simp [FieldDef.conv, A]
        · simp [FieldDef.conv, A]
        · simp [FieldDef.renderable] at hr) rfl, rfl⟩

example : ∃ attrs, Val.inst "A" [("x", .int 1), ("y", .list [.str "a"]), ("s", .int 7)] = .inst "A" attrs ∧
    attrs.lookup "s" = some (.int 7) :=
  C11_default (env := env) (o := {}) (n := 9) (cd := A) (f := { name := "s", ty := .prim .int, dflt := some (.int 7), skipDe := true })
    (d := .dict .plain [(.str "X", .int 1), (.str "y", .list [.str "a"]), (.str "s", .int 99)])
    rfl rfl rfl (by simp [A]) (by simp [A]) (.inr rfl) (noGlobal _) (by intro as h; cases h) rfl
end C18Ex
end Verif.Props
