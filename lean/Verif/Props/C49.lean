import Verif.Lemmas.Evolve
import Verif.Examples.World
/-!
# C49: adding and removing fields

Full statement: "Adding a field that has a default to a class keeps every previously readable input readable with the same values for
the old fields; removing a field keeps every input readable (without deny_unknown_fields)."

`Extends env c c' cd cd' g` says that `c'` is `c` with the field `g` added. Proved (partial): inputs that do not already have an entry for
the new field stay readable, any input both versions read gives the old fields the same values, and what the larger class reads the
smaller one reads. Conditions: no two different unions or literals of a class share a function name, no literal hides behind a PEP 695 alias,
no flattened fields, and in strict mode the default conforms to the annotation. Without them the statement is false: `C49_false_present`,
`C49_false_default`, `C49_false_clash`, `C49_false_remove`.
-/

namespace Verif.Props
open Verif Spec

section
variable {env : Env} {o : DeOpts} {c c' : ClassId} {cd cd' : ClassDef} {g : FieldDef}

/-- **C49** (partial), adding a field: an input read by the old class that has no entry for the new field is read by the new class; the old
fields get the same values and the new field its default. With or without deny_unknown_fields.
Missing: inputs that already have an entry under the new field's name, see `C49_same_values_partial` and `C49_false_present`. -/
theorem C49_add_partial {n dk kvs v dv} (E : Extends env c c' cd cd' g) (hN : NoNameClash env c) (hN' : NoNameClash env c')
    (hv : ∀ f ∈ cd.fields, LiteralsVisible env f.ty) (hdf : g.dflt = some dv) (hal : g.alias = [] ∨ g.conv cd.deCase = g.name)
    (hb : cd.typeCheck = .strict → bearable env g.ty dv = true)
    (habs : ∀ k ∈ g.conv cd.deCase :: g.alias, getStr k kvs = none)
    (h : fromDict env o n (.cls c) (.dict dk kvs) = .ok v) :
    ∃ m attrs attrs', v = .inst c attrs ∧ fromDict env o m (.cls c') (.dict dk kvs) = .ok (.inst c' attrs') ∧
      (∀ f ∈ cd.fields, attrs'.lookup f.name = attrs.lookup f.name) ∧ attrs'.lookup g.name = some dv := by
  have hd : ∀ c, IsData c (.dict dk kvs) := fun c as h => by cases h
  obtain ⟨attrs, rfl⟩ := fromDict_inst E.old E.dict E.global (hd c) h
  have h := fromDict_mono (show n ≤ n + 1 + 2 by omega) h
  rw [fromDict_fieldwise E.old E.dict (flatten_hasFlatDict E.flatOld) E.post E.namesOld E.global (hd c)] at h
  obtain ⟨hu, val, h1, hB, rfl⟩ := h
  have hgn : ∀ f ∈ cd.fields, f.name ≠ g.name := by
    obtain ⟨pre, post, e1, e2⟩ := E.fields
    have hn := E.names
    rw [e2] at hn
    intro f hf he
    rw [e1, List.mem_append] at hf
    simp only [List.map_append, List.map_cons, List.nodup_append, List.nodup_cons] at hn
    rcases hf with hf | hf
    · exact hn.2.2 f.name (List.mem_map_of_mem hf) g.name (by simp) he
    · exact hn.2.1.1 (he ▸ List.mem_map_of_mem hf)
  let val' : FieldDef → Val := fun f => if f.name = g.name then dv else val f
  have hval : ∀ f ∈ cd.fields, val' f = val f := fun f hf => if_neg (hgn f hf)
  refine ⟨n + 1 + 2, _, attrsOf cd'.fields val', rfl, ?_, ?_, ?_⟩
  · rw [fromDict_fieldwise E.new E.dict' (flatten_hasFlatDict E.flat) E.post' E.names E.global' (hd c')]
    refine ⟨?_, val', ?_, ?_, rfl⟩
    · unfold deUnknown at hu ⊢
      rw [E.deny, flatten_hasFlatDict E.flat]
      rw [flatten_hasFlatDict E.flatOld] at hu
      cases hden : cd.denyUnknown with
      | false => rfl
      | true =>
        rw [hden, orEmptyItems_dict] at hu
        rw [orEmptyItems_dict]
        simp only [Bool.not_false, Bool.and_self, if_true, Except.ok.injEq, List.any_eq_false, Bool.not_eq_true', Bool.not_eq_false] at hu ⊢
        intro kv hkv
        obtain ⟨s, hs, he⟩ := keyKnown_iff.1 (hu kv hkv)
        refine keyKnown_iff.2 ⟨s, ?_, he⟩
        rw [known_flat E.new E.dict' E.flat, List.mem_flatMap, E.deCase]
        rw [known_flat E.old E.dict E.flatOld, List.mem_flatMap] at hs
        obtain ⟨f, hf, hs⟩ := hs
        exact ⟨f, E.mem hf, hs⟩
    · intro f hf hr
      rcases E.mem_cases hf with rfl | hf
      · have : val' f = dv := if_pos rfl
        rw [this]
        exact deField_dflt hdf (E.flat f E.mem_new) (by rw [E.deCase]; exact hal) (by rw [E.deCase]; exact habs)
      · rw [hval f hf, E.field hN hN' hf hr (hv f hf)]
        exact h1 f hf hr
    · refine ⟨?_, E.argsNew, ?_⟩
      · intro f hf hr hi
        rcases E.mem_cases hf with rfl | hf
        · rw [hdf]; simp
        · exact hB.ctor f hf hr hi
      · intro ht f hf hr
        rw [E.check] at ht
        rcases E.mem_cases hf with rfl | hf
        · have : val' f = dv := if_pos rfl
          rw [this]; exact hb ht
        · rw [hval f hf]; exact hB.strict ht f hf hr
  · intro f hf
    rw [attrsOf_lookup E.names (E.mem hf), attrsOf_lookup E.namesOld hf, hval f hf]
  · rw [attrsOf_lookup E.names E.mem_new, hdf]
    split
    · exact congrArg some (if_pos rfl)
    · rfl

/-- **C49** (partial), values: an input that both versions of the class read gives their common fields the same values, whatever it holds
for the other field and whatever the two versions do about unknown keys. -/
theorem C49_same_values_partial {n n' d attrs attrs'} (E : Extends env c c' cd cd' g) (hN : NoNameClash env c) (hN' : NoNameClash env c')
    (hv : ∀ f ∈ cd.fields, LiteralsVisible env f.ty) (hd : IsData c d) (hd' : IsData c' d)
    (h : fromDict env o n (.cls c) d = .ok (.inst c attrs)) (h' : fromDict env o n' (.cls c') d = .ok (.inst c' attrs')) :
    ∀ f ∈ cd.fields, attrs'.lookup f.name = attrs.lookup f.name := by
  have h := fromDict_mono (show n ≤ max n n' + 2 by omega) h
  have h' := fromDict_mono (show n' ≤ max n n' + 2 by omega) h'
  rw [fromDict_fieldwise E.old E.dict (flatten_hasFlatDict E.flatOld) E.post E.namesOld E.global hd] at h
  rw [fromDict_fieldwise E.new E.dict' (flatten_hasFlatDict E.flat) E.post' E.names E.global' hd'] at h'
  obtain ⟨_, val, h1, _, rfl⟩ := h
  obtain ⟨_, val', h1', _, rfl⟩ := h'
  intro f hf
  rw [attrsOf_lookup E.names (E.mem hf), attrsOf_lookup E.namesOld hf]
  split
  · rename_i hr
    have e1 := h1 f hf hr
    have e2 := h1' f (E.mem hf) hr
    rw [E.field hN hN' hf hr (hv f hf), e1] at e2
    rw [Except.ok.inj e2]
  · rfl

/-- **C49** (partial), removing a field: without deny_unknown_fields whatever the class with the field reads, the class without it reads,
with the same values for the remaining fields. Missing: classes where the conditions of the header fail. -/
theorem C49_remove_partial {n d v} (E : Extends env c c' cd cd' g) (hN : NoNameClash env c) (hN' : NoNameClash env c')
    (hv : ∀ f ∈ cd.fields, LiteralsVisible env f.ty) (hdeny : cd.denyUnknown = false) (hd : IsData c d) (hd' : IsData c' d)
    (h : fromDict env o n (.cls c') d = .ok v) :
    ∃ m attrs attrs', v = .inst c' attrs' ∧ fromDict env o m (.cls c) d = .ok (.inst c attrs) ∧
      ∀ f ∈ cd.fields, attrs.lookup f.name = attrs'.lookup f.name := by
  obtain ⟨attrs', rfl⟩ := fromDict_inst E.new E.dict' E.global' hd' h
  have h := fromDict_mono (show n ≤ n + 2 by omega) h
  rw [fromDict_fieldwise E.new E.dict' (flatten_hasFlatDict E.flat) E.post' E.names E.global' hd'] at h
  obtain ⟨_, val, h1, hB, rfl⟩ := h
  refine ⟨n + 2, attrsOf cd.fields val, _, rfl, ?_, ?_⟩
  · rw [fromDict_fieldwise E.old E.dict (flatten_hasFlatDict E.flatOld) E.post E.namesOld E.global hd]
    refine ⟨?_, val, ?_, ⟨?_, E.argsOld, ?_⟩, rfl⟩
    · unfold deUnknown
      rw [hdeny]; rfl
    · intro f hf hr
      rw [← E.field hN hN' hf hr (hv f hf) _ _ []]
      exact h1 f (E.mem hf) hr
    · exact fun f hf => hB.ctor f (E.mem hf)
    · intro ht f hf
      exact hB.strict (E.check.trans ht) f (E.mem hf)
  · intro f hf
    rw [attrsOf_lookup E.namesOld hf, attrsOf_lookup E.names (E.mem hf)]

end

/-! ## Examples and counterexamples -/

namespace C49Ex

def lab : FieldDef := { name := "label", ty := .union [.prim .int, .prim .str], dflt := some (.str "-") }
def fx : FieldDef := { name := "x", ty := .prim .int }
def fu : FieldDef := { name := "u", ty := .union [.prim .str, .prim .bool] }
def cdOld : ClassDef := { name := "Old", mro := ["Old"], fields := [fx, fu] }
def cdNew : ClassDef := { name := "New", mro := ["New"], fields := [fx, lab, fu] }
/-- `y: int = None`. -/
def cdBad : ClassDef := { name := "Bad", mro := ["Bad"], fields := [fx, { name := "y", ty := .prim .int, dflt := some .none }, fu] }
/-- `p: Literal["a-b"]`, and then with `q: Literal["a_b"] = "a_b"`. -/
def cdL1 : ClassDef := { name := "L1", mro := ["L1"], fields := [{ name := "p", ty := .lit [.str "a-b"] }] }
def cdL2 : ClassDef := { name := "L2", mro := ["L2"], fields := [{ name := "p", ty := .lit [.str "a-b"] },
  { name := "q", ty := .lit [.str "a_b"], dflt := some (.str "a_b") }] }
/-- `type L = Literal["x"]`, `a: L`, and the same with `b: Literal["x"]`. -/
def cdA1 : ClassDef := { name := "A1", mro := ["A1"], fields := [{ name := "a", ty := .alias "L" (.lit [.str "x"]) }] }
def cdA2 : ClassDef := { name := "A2", mro := ["A2"], fields := [{ name := "a", ty := .alias "L" (.lit [.str "x"]) },
  { name := "b", ty := .lit [.str "x"] }] }
def env : Env := Ex.mk [("Old", cdOld), ("New", cdNew), ("Bad", cdBad), ("L1", cdL1), ("L2", cdL2), ("A1", cdA1), ("A2", cdA2)]

theorem ext : Extends env "Old" "New" cdOld cdNew lab :=
  ⟨rfl, rfl, ⟨[fx], [fu], rfl, rfl⟩, rfl, rfl, rfl, by simp [cdNew, fx, fu, lab], by decide, by simp [cdNew, fx, fu, lab],
    ⟨by simp [env, Ex.mk], by simp [env, Ex.mk]⟩, ⟨by simp [env, Ex.mk], by simp [env, Ex.mk]⟩⟩

theorem clash {c} (hu : env.unionsOf c = [[.prim .str, .prim .bool]] ∨ env.unionsOf c = [[.prim .int, .prim .str], [.prim .str, .prim .bool]])
    (hl : env.litsOf c = []) : NoNameClash env c := by
  refine ⟨?_, ?_⟩
  · intro ts h us h' he
    rw [← unionsOf_iff] at h h'
    have e : unionFuncName env [.prim .int, .prim .str] ≠ unionFuncName env [.prim .str, .prim .bool] := by decide
    rcases hu with hu | hu
    · rw [hu] at h h'
      simp only [List.mem_singleton] at h h'
      rw [h, h']
    · rw [hu] at h h'
      simp only [List.mem_cons, List.not_mem_nil, or_false] at h h'
      rcases h with rfl | rfl <;> rcases h' with rfl | rfl <;> first | rfl | exact absurd he e | exact absurd he.symm e
  · intro vs h
    rw [← litsOf_iff, hl] at h
    cases h

theorem clashOld : NoNameClash env "Old" := clash (.inl rfl) rfl
theorem clashNew : NoNameClash env "New" := clash (.inr rfl) rfl

theorem visible : ∀ f ∈ cdOld.fields, LiteralsVisible env f.ty := by
  intro f hf vs h
  simp only [cdOld, List.mem_cons, List.not_mem_nil, or_false] at hf
  rcases hf with rfl | rfl
  · cases h with
    | step hp _ => cases hp
  · cases h with
    | step hp h =>
      cases hp with
      | union hm =>
        simp only [List.mem_cons, List.not_mem_nil, or_false] at hm
        rcases hm with rfl | rfl <;> cases h with
          | step hp _ => cases hp

def inp : List (Val × Val) := [(.str "x", .int 1), (.str "u", .bool true)]

end C49Ex

open C49Ex in
example : ∃ m attrs attrs', Val.inst "Old" [("x", .int 1), ("u", .bool true)] = .inst "Old" attrs ∧
    fromDict C49Ex.env {} m (.cls "New") (.dict .plain inp) = .ok (.inst "New" attrs') ∧
      (∀ f ∈ cdOld.fields, attrs'.lookup f.name = attrs.lookup f.name) ∧ attrs'.lookup lab.name = some (.str "-") :=
  C49_add_partial (n := 9) ext clashOld clashNew visible rfl (.inl rfl) (fun _ => rfl) (by simp [lab, FieldDef.conv, cdOld, getStr, inp]) rfl

open C49Ex in
example : ∀ f ∈ cdOld.fields, [("x", Val.int 1), ("label", .int 3), ("u", .bool true)].lookup f.name =
    [("x", Val.int 1), ("u", .bool true)].lookup f.name :=
  C49_same_values_partial (o := {}) (n := 9) (n' := 9) (d := .dict .plain ((.str "label", .int 3) :: inp)) ext clashOld clashNew visible
    (by intro _ h; cases h) (by intro _ h; cases h) rfl rfl

open C49Ex in
example : ∃ m attrs attrs', Val.inst "New" [("x", .int 1), ("label", .int 3), ("u", .bool true)] = .inst "New" attrs' ∧
    fromDict C49Ex.env {} m (.cls "Old") (.dict .plain ((.str "label", .int 3) :: inp)) = .ok (.inst "Old" attrs) ∧
      ∀ f ∈ cdOld.fields, attrs.lookup f.name = attrs'.lookup f.name :=
  C49_remove_partial (n := 9) ext clashOld clashNew visible rfl (by intro _ h; cases h) (by intro _ h; cases h) rfl

/-- An input that already has an entry under the new field's name stops being readable when the entry does not fit the new type. -/
theorem C49_false_present :
    fromDict C49Ex.env {} 9 (.cls "Old") (.dict .plain ((.str "label", .list []) :: C49Ex.inp)) = .ok (.inst "Old" [("x", .int 1), ("u", .bool true)]) ∧
      ∃ e, fromDict C49Ex.env {} 9 (.cls "New") (.dict .plain ((.str "label", .list []) :: C49Ex.inp)) = .error e := ⟨rfl, _, rfl⟩

/-- `y: int = None` under strict checking: adding the field makes every input without it unreadable, default or not. -/
theorem C49_false_default :
    fromDict C49Ex.env {} 9 (.cls "Old") (.dict .plain C49Ex.inp) = .ok (.inst "Old" [("x", .int 1), ("u", .bool true)]) ∧
      ∃ e, fromDict C49Ex.env {} 9 (.cls "Bad") (.dict .plain C49Ex.inp) = .error e := ⟨rfl, _, rfl⟩

/-- Adding `q: Literal["a_b"] = "a_b"` to a class with `p: Literal["a-b"]` makes the old inputs unreadable: both literal functions have one
name. -/
theorem C49_false_clash :
    fromDict C49Ex.env {} 9 (.cls "L1") (.dict .plain [(.str "p", .str "a-b")]) = .ok (.inst "L1" [("p", .str "a-b")]) ∧
      ∃ e, fromDict C49Ex.env {} 9 (.cls "L2") (.dict .plain [(.str "p", .str "a-b")]) = .error e := ⟨rfl, _, rfl⟩

/-- `type L = Literal["x"]`, `a: L`, `b: Literal["x"]`: `a` is read by the function generated for `b`, so without `b` it cannot be read. -/
theorem C49_false_remove :
    fromDict C49Ex.env {} 9 (.cls "A2") (.dict .plain [(.str "a", .str "x"), (.str "b", .str "x")]) =
        .ok (.inst "A2" [("a", .str "x"), ("b", .str "x")]) ∧
      ∃ e, fromDict C49Ex.env {} 9 (.cls "A1") (.dict .plain [(.str "a", .str "x"), (.str "b", .str "x")]) = .error e := ⟨rfl, _, rfl⟩

end Verif.Props
