import Verif.Spec.Globals
import Verif.Lemmas.Res
/-!
# Finding functions by name
-/

namespace Verif
open Spec

theorem lookup_mem {α : Type} {k : String} {x : α} : ∀ {l : List (String × α)}, l.lookup k = some x → (k, x) ∈ l
  | [], h => by simp at h
  | (a, b) :: l, h => by
    rw [List.lookup_cons] at h
    split at h
    · next hk => rw [beq_iff_eq] at hk; cases h; subst hk; simp
    · exact List.mem_cons_of_mem _ (lookup_mem h)

theorem Globals.find_mem {g : Globals} {nm x} (h : g.find nm = some x) : (nm, x) ∈ g := by
  have := lookup_mem h
  simpa using this

theorem flatChild_splices {f : FieldDef} {c} (h : f.flatChild = some c) : f.flatten = true ∧ Splices f.ty c := by
  unfold FieldDef.flatChild at h
  split at h
  · cases h
  · next hf =>
    refine ⟨by simpa using hf, ?_⟩
    split at h
    · next he => cases h; rw [he]; exact .cls
    · next he => cases h; rw [he]; exact .opt
    · cases h

/-- What is registered comes from a field. -/
theorem regsCls_from {env : Env} {c d : ClassId} : ∀ {n cd nm x}, WrittenBy env c d → env.cls d = some cd → (nm, x) ∈ regsCls env n cd →
    ∃ e ce f, WrittenBy env c e ∧ env.cls e = some ce ∧ f ∈ ce.fields ∧ (nm, x) ∈ f.regs ce
  | 0, _, _, _, _, _, h => by cases h
  | n + 1, cd, nm, x, hw, hd, h => by
    unfold regsCls at h
    obtain ⟨f, hf, h⟩ := List.mem_flatMap.1 h
    rcases List.mem_append.1 h with h | h
    · exact ⟨d, cd, f, hw, hd, hf, h⟩
    · split at h
      · next ch hch =>
        split at h
        · next cd' hcd' =>
          exact regsCls_from (.child hw hd hf (flatChild_splices hch).1 (flatChild_splices hch).2) hcd' h
        · cases h
      · cases h

theorem str_append_inj {a b c d : String} (h : a ++ b = c ++ d) : a.toList ++ b.toList = c.toList ++ d.toList := by
  rw [← String.toList_append, ← String.toList_append, h]

theorem str_append_left {a c s : String} (h : a ++ s = c ++ s) : a = c :=
  String.toList_inj.1 (List.append_cancel_right (str_append_inj h))

theorem regs_ser {f : FieldDef} {cd nm s} (h : (nm, GFn.ser s) ∈ f.regs cd) : nm = f.name ++ "_serializer" ∧ f.serializer = some s := by
  unfold FieldDef.regs at h
  rcases List.mem_append.1 h with h | h
  · split at h
    · cases h
    · simp at h
  · split at h
    · cases h
    · next s' hs =>
      simp only [List.mem_singleton, Prod.mk.injEq, GFn.ser.injEq] at h
      exact ⟨h.1, by rw [hs, h.2]⟩

theorem regs_rule {f : FieldDef} {cd nm r} (h : (nm, GFn.rule r) ∈ f.regs cd) : nm = f.name ++ r.suffix ∧ f.skipRule cd = r ∧ r ≠ .never := by
  unfold FieldDef.regs at h
  rcases List.mem_append.1 h with h | h
  · split at h
    · cases h
    · next hn =>
      simp only [List.mem_singleton, Prod.mk.injEq, GFn.rule.injEq] at h
      refine ⟨by rw [h.2]; exact h.1, h.2.symm, ?_⟩
      intro hr
      rw [h.2] at hr
      exact hn hr
  · split at h
    · cases h
    · simp at h

theorem reverse_chars {a b c d : String} (h : a ++ b = c ++ d) : b.toList.reverse ++ a.toList.reverse = d.toList.reverse ++ c.toList.reverse := by
  rw [← List.reverse_append, ← List.reverse_append, str_append_inj h]

/-- The name of a skip predicate gives the field's name and the kind. -/
theorem suffix_inj {a b : String} {r r' : SkipRule} (hr : r ≠ .never) (hr' : r' ≠ .never) (h : a ++ r.suffix = b ++ r'.suffix) :
    a = b ∧ r.suffix = r'.suffix := by
  have hc := reverse_chars h
  cases r <;> cases r' <;> first
    | exact absurd rfl hr
    | exact absurd rfl hr'
    | exact ⟨str_append_left h, rfl⟩
    | (exfalso; simp [SkipRule.suffix] at hc)

theorem skipRule_cases (f : FieldDef) (cd : ClassDef) :
    (∃ p, f.skipIf = some p ∧ f.skipRule cd = .user p) ∨ f.skipRule cd = .ifFalse ∨ f.skipRule cd = .ifDefault f.dflt ∨ f.skipRule cd = .ifNone ∨
      f.skipRule cd = .never := by
  unfold FieldDef.skipRule
  cases f.skipIf with
  | some p => exact .inl ⟨p, rfl, rfl⟩
  | none =>
    dsimp only
    split
    · exact .inr (.inl rfl)
    · split
      · exact .inr (.inr (.inl rfl))
      · split
        · exact .inr (.inr (.inr (.inl rfl)))
        · exact .inr (.inr (.inr (.inr rfl)))

section
variable {env : Env} {c d : ClassId} {cd0 cd : ClassDef} {f : FieldDef}

theorem globals_ser (h : OwnFunctions env) (h0 : env.cls c = some cd0) (hw : WrittenBy env c d) (hd : (d, cd) ∈ env.classes) (hf : f ∈ cd.fields) :
    (env.globals cd0).ser f = f.serializer := by
  unfold Globals.ser
  cases hs : f.serializer with
  | none => rfl
  | some s =>
    cases s with
    | marker => rfl
    | fn p =>
      dsimp only
      cases hg : (env.globals cd0).find (f.name ++ "_serializer") with
      | none => rfl
      | some x =>
        cases x with
        | rule r => rfl
        | ser s' =>
          obtain ⟨e, ce, f', hw', he, hf', hm⟩ := regsCls_from .self h0 (Globals.find_mem hg)
          obtain ⟨hn, hs'⟩ := regs_ser hm
          have hne := h c d e cd ce f f' hw hw' hd (lookup_mem he) hf hf' (str_append_left hn)
          have : s' = .fn p := Classical.byContradiction fun hx => hne (.serializer hs hs' fun hy => hx hy.symm)
          rw [this]

theorem globals_rule (h : OwnFunctions env) (h0 : env.cls c = some cd0) (hw : WrittenBy env c d) (hd : (d, cd) ∈ env.classes) (hf : f ∈ cd.fields) :
    (env.globals cd0).rule f cd = f.skipRule cd := by
  unfold Globals.rule
  by_cases hnv : f.skipRule cd = .never
  · rw [hnv]
  · have key : ∀ r', (env.globals cd0).find (f.name ++ (f.skipRule cd).suffix) = some (.rule r') → r' = f.skipRule cd := by
      intro r' hg
      obtain ⟨e, ce, f', hw', he, hf', hm⟩ := regsCls_from .self h0 (Globals.find_mem hg)
      obtain ⟨hn, hr, hr0⟩ := regs_rule hm
      obtain ⟨hn, hsuf⟩ := suffix_inj hnv hr0 hn
      have hne := h c d e cd ce f f' hw hw' hd (lookup_mem he) hf hf' hn
      subst hr
      rcases skipRule_cases f cd with ⟨p, hp, h1⟩ | h1 | h1 | h1 | h1 <;> rcases skipRule_cases f' ce with ⟨q, hq, h2⟩ | h2 | h2 | h2 | h2 <;>
        rw [h1, h2] at hsuf ⊢ <;> first
        | rfl
        | exact absurd h1 hnv
        | exact absurd h2 hr0
        | (exfalso; simp [SkipRule.suffix] at hsuf; done)
        | (congr 1; exact Classical.byContradiction fun hx => hne (.skipIf hp hq fun hy => hx hy.symm))
        | (congr 1; exact Classical.byContradiction fun hx => hne (.skipDefault h1 h2 fun hy => hx hy.symm))
    revert key
    generalize f.skipRule cd = r at hnv
    intro key
    have : (match (env.globals cd0).find (f.name ++ r.suffix) with
      | some (.rule r') => r'
      | _ => r) = r := by
      split
      · next r' hg => exact key r' hg
      · rfl
    cases r <;> first | exact this | exact absurd rfl hnv

theorem globals_field (h : OwnFunctions env) (h0 : env.cls c = some cd0) (hw : WrittenBy env c d) (hd : (d, cd) ∈ env.classes) (hf : f ∈ cd.fields) :
    (env.globals cd0).field cd f = f := by
  unfold Globals.field
  rw [globals_ser h h0 hw hd hf, globals_rule h h0 hw hd hf]
  rcases skipRule_cases f cd with ⟨p, hp, h1⟩ | h1 | h1 | h1 | h1 <;> rw [h1]
  dsimp only
  rw [← hp]

end

theorem inlined_written {env : Env} {c : ClassId} : ∀ {n d e}, WrittenBy env c d → e ∈ inlinedCls env n d → WrittenBy env c e
  | 0, _, _, _, h => by cases h
  | n + 1, d, e, hw, h => by
    unfold inlinedCls at h
    rcases List.mem_cons.1 h with rfl | h
    · exact hw
    · split at h
      · next cd hd =>
        obtain ⟨f, hf, h⟩ := List.mem_flatMap.1 h
        split at h
        · next ch hch => exact inlined_written (.child hw hd hf (flatChild_splices hch).1 (flatChild_splices hch).2) h
        · cases h
      · cases h

/-- The functions of a class see the classes as they are. -/
theorem seenBy_own {env : Env} (h : OwnFunctions env) : ∀ c, env.seenBy c = env
  | none => rfl
  | some c => by
    unfold Env.seenBy
    dsimp only
    split
    · rfl
    · next cd0 h0 =>
      have : (env.classes.map fun e => if (inlinedCls env (env.classes.length + 1) c).contains e.1 then
          (e.1, { e.2 with fields := e.2.fields.map ((env.globals cd0).field e.2) }) else e) = env.classes := by
        conv => rhs; rw [← List.map_id env.classes]
        refine List.map_congr_left fun e he => ?_
        split
        · next hin =>
          have hw := inlined_written .self (List.contains_iff_mem.1 hin)
          have : e.2.fields.map ((env.globals cd0).field e.2) = e.2.fields := by
            conv => rhs; rw [← List.map_id e.2.fields]
            exact List.map_congr_left fun f hf => globals_field h h0 hw he hf
          rw [this]
          rfl
        · rfl
      rw [this]

/-- Functions found by name are the fields' own ones. -/
theorem seGAt_own {env : Env} (h : OwnFunctions env) : ∀ n c, (seGAt env n).at c = seAt env n
  | 0, _ => rfl
  | n + 1, c => by
    show ({ render := renderF env ((seGAt env n).at Option.none), flat := flatF (env.seenBy c) ((seGAt env n).at c),
            cls := fun nm re cv sn v => clsF (env.seenBy v.clsId) ((seGAt env n).at v.clsId) nm re cv sn v,
            toObj := toObjF env ((seGAt env n).at Option.none) } : SeRec) = _
    simp only [seGAt_own h n, seenBy_own h]
    rfl

end Verif
