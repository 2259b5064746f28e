import Verif.Props.C01
import Verif.Props.C18
import Verif.Props.C19
import Verif.Props.C20
import Verif.Lemmas.Safe
/-!
# C50: deny_unknown_fields accepts the class's own output

Full statement: "With deny_unknown_fields, whatever to_dict emits for an object of the class is accepted again by from_dict."

Proved (partial): every key written is one the class recognises, at every depth of flattening, so that on its own output the class behaves as
its copy without deny_unknown_fields (`C50_own_output_partial`); and for the classes of the round-trip theorems the output is accepted
(`C50_accept_partial`). Condition: the name a flattened field is written under (the outer class's case conversion) is the one it is read
under (its own class's), and no flattened dataclass brings a flattened dict with it. Without them the statement is false: `C50_false_case`,
`C50_false_rest`; it is also false for a field left out by a skip rule that has no default: `C50_false_skip`.
-/

namespace Verif.Spec

/-- Every field of `c` and of the dataclasses flattened into it has the same name on both sides. -/
def NamesAgree (env : Env) (case : Option (String → String)) (c : ClassId) : Prop :=
  ∀ c' cd', Props.FlatReach env c c' → env.cls c' = some cd' →
    cd'.transparent = false ∧ ∀ f ∈ cd'.fields, inlined f = none → f.conv case = f.conv cd'.deCase

/-- What a class with a flattened dict does not do: bring it along when it is flattened itself. The class's own flattened dict, which must be
read too, takes every key. -/
def RestOk (env : Env) (cd : ClassDef) : Prop :=
  (∃ f ∈ cd.fields, takesRest f = true ∧ f.renderable = true) ∨ ∀ f ∈ cd.fields, serializable f = true → ¬ HasRest env f

end Verif.Spec

namespace Verif.Props
open Verif Spec

/-- The keys a field writes are recognised by its class. -/
theorem lvals_recognised {env : Env} {case n c} {cd : ClassDef} {f k} (hc : env.cls c = some cd) (hf : f ∈ cd.fields)
    (hN : NamesAgree env case c) (h : LV.key k ∈ lvals env case n f) : Recognised env c k := by
  induction n generalizing c cd f with
  | zero => cases h
  | succ n ih =>
    obtain ⟨htr, hnm⟩ := hN c cd .refl hc
    unfold lvals at h
    rw [flatChild_eq_inlined] at h
    split at h
    · rename_i ch hch
      have hr : takesRest f = false := by
        cases hx : takesRest f with
        | false => rfl
        | true =>
          unfold takesRest at hx
          unfold inlined at hch
          split at hch
          · rename_i _ h2; rw [h2] at hx; simp [Ty.isFlattenDict] at hx
          · rename_i _ h2; rw [h2] at hx; simp [Ty.isFlattenDict] at hx
          · cases hch
      split at h
      · rename_i chd hchd
        obtain ⟨g, hg, hk⟩ := List.mem_flatMap.1 h
        exact .child hc htr hf hr hch (ih hchd hg (fun c' cd' h1 h2 => hN c' cd' (.trans (.step .refl hc hf hch) h1) h2) hk)
      · cases h
    · rename_i hch
      split at h
      · simp at h
      · rename_i hr
        simp only [List.mem_singleton, LV.key.injEq] at h
        refine .own hc htr hf (by simpa [flatDict_eq_takesRest] using hr) hch (.inl ?_)
        rw [h]
        exact hnm f hf hch

theorem assigned_keys {lvs : List LV} {vs : List Val} {e} (h : e ∈ assigned lvs vs) : ∃ k, LV.key k ∈ lvs ∧ e.1 = .str k := by
  induction lvs generalizing vs with
  | nil => cases vs <;> cases h
  | cons l lvs ih =>
    cases vs with
    | nil => cases l <;> cases h
    | cons v vs =>
      cases l with
      | key k =>
        rcases List.mem_cons.1 h with rfl | h
        · exact ⟨k, by simp, rfl⟩
        · obtain ⟨k', h1, h2⟩ := ih h
          exact ⟨k', List.mem_cons_of_mem _ h1, h2⟩
      | mark =>
        obtain ⟨k', h1, h2⟩ := ih h
        exact ⟨k', List.mem_cons_of_mem _ h1, h2⟩

theorem entriesAt_keys {env : Env} {r : SeRec} {cx : SeCx} {cd : ClassDef} {obj} {f : FieldDef} {es e}
    (h : entriesAt env r cx cd obj f = .ok es) (he : e ∈ es) : ∃ k, LV.key k ∈ lvals env cd.seCase (env.classes.length + 1) f ∧ e.1 = .str k := by
  unfold entriesAt at h
  split at h
  · cases h
  · split at h
    · cases h
    · split at h
      · cases h
      · cases h; cases he
      · unfold assignEs at h
        split at h
        · cases h
        · rename_i k hl
          cases h
          rw [List.mem_singleton] at he
          exact ⟨k, by rw [hl]; simp, by rw [he]⟩
        · split at h
          · cases h
          · split at h
            · cases h; exact assigned_keys he
            · cases h

theorem mapR_member {α β : Type} {g : α → Res β} {xs : List α} {ys} (h : mapR g xs = .ok ys) {y} (hy : y ∈ ys) : ∃ x ∈ xs, g x = .ok y := by
  induction xs generalizing ys with
  | nil => cases h; cases hy
  | cons x xs ih =>
    simp only [mapR] at h
    split at h
    · cases h
    · rename_i b hb
      split at h
      · cases h
      · rename_i bs hbs
        cases h
        rcases List.mem_cons.1 hy with rfl | hy
        · exact ⟨x, by simp, hb⟩
        · obtain ⟨x', h1, h2⟩ := ih hbs hy
          exact ⟨x', List.mem_cons_of_mem _ h1, h2⟩

/-- **C50** (partial), names: every key `to_dict` writes, for its own fields or for those of flattened dataclasses at any depth, is one the
class recognises when reading. -/
theorem C50_keys_partial {env : Env} {so : SeOpts} {n c} {cd : ClassDef} {attrs w} (hc : env.cls c = some cd)
    (hN : NamesAgree env cd.seCase c) (hr : ∀ f ∈ cd.fields, serializable f = true → ¬ HasRest env f) (hg : NoGlobal env c) (hu : NotUnion so.c)
    (h : toDict env so n (.inst c attrs) = .ok w) :
    ∃ kvs, w = .dict .plain kvs ∧ ∀ kv ∈ kvs, ∃ s, kv.1 = .str s ∧ Recognised env c s := by
  have hse : ∀ f ∈ cd.seFieldsOf, f ∈ cd.fields ∧ serializable f = true := by
    intro f hf
    rw [seFieldsOf_eq] at hf
    exact List.mem_filter.1 hf
  cases n with
  | zero => cases h
  | succ n =>
    rw [toDict_cls hu hg.ser, wrapAll_ok] at h
    cases n with
    | zero => cases h
    | succ n =>
      rw [cls_entries hc (hN c cd .refl hc).1 (fun f hf => lvals_notMark (hr f (hse f hf).1 (hse f hf).2))] at h
      split at h
      · rename_i ess hm
        cases h
        refine ⟨_, rfl, ?_⟩
        intro kv hkv
        rcases (keys_foldl_put (res := []) .nil (mapR_entries_strKeyed hm) kv.1).1 ⟨kv, hkv, rfl⟩ with ⟨e, he, _⟩ | ⟨x, hx, hxe⟩
        · cases he
        · obtain ⟨es, hes, hxes⟩ := List.mem_flatten.1 hx
          obtain ⟨f, hf, hfe⟩ := mapR_member hm hes
          obtain ⟨k, hk, he⟩ := entriesAt_keys hfe hxes
          exact ⟨k, by rw [← hxe, he], lvals_recognised hc (hse f hf).1 hN hk⟩
      · cases h

theorem toDict_dict {env : Env} {so : SeOpts} {n c} {cd : ClassDef} {attrs w} (hc : env.cls c = some cd) (htr : cd.transparent = false)
    (hg : NoGlobal env c) (hu : NotUnion so.c) (h : toDict env so n (.inst c attrs) = .ok w) : ∃ kvs, w = .dict .plain kvs := by
  cases n with
  | zero => cases h
  | succ n =>
    rw [toDict_cls hu hg.ser, wrapAll_ok] at h
    cases n with
    | zero => cases h
    | succ n =>
      rw [seAt_cls] at h
      unfold clsF at h
      dsimp only at h
      rw [hc] at h
      dsimp only at h
      rw [htr] at h
      simp only [Bool.false_eq_true, if_false, if_true] at h
      split at h
      · cases h; exact ⟨_, rfl⟩
      · cases h

/-- **C50** (partial): on what `to_dict` wrote for an object of the class, `from_dict` with deny_unknown_fields does what it does without
(`c'` is the copy of the class without the option): the same attribute values, or the same exception.
Missing: names that differ between the two directions, and flattened dicts brought along by flattened dataclasses. -/
theorem C50_own_output_partial {env : Env} {so : SeOpts} {o : DeOpts} {n m c c'} {cd : ClassDef} {attrs w}
    (hc : env.cls c = some { cd with denyUnknown := true }) (hc' : env.cls c' = some { cd with denyUnknown := false })
    (hac : FlattenAcyclic env) (ht : SameTables env c c') (hN : NamesAgree env cd.seCase c) (hr : RestOk env cd) (hg : NoGlobal env c)
    (hg' : NoGlobal env c') (hu : NotUnion so.c) (h : toDict env so n (.inst c attrs) = .ok w) :
    fromDict env o m (.cls c') w = asInstOf c' (fromDict env o m (.cls c) w) := by
  rcases hr with ⟨f, hf, h1, h2⟩ | hr
  · obtain ⟨kvs, rfl⟩ := toDict_dict hc (hN c _ .refl hc).1 hg hu h
    have hd : ∀ k as, Val.dict .plain kvs ≠ .inst k as := by intro k as h; cases h
    have ha : ArgsAgree { cd with denyUnknown := true } { cd with denyUnknown := false } := by constructor <;> rfl
    refine fromObj_twin hc hc' ha rfl rfl ht hg hg' (hd c) (hd c') ?_
    have hF : ∀ b, ({ cd with denyUnknown := b } : ClassDef).hasFlatDict = true := by
      intro b
      unfold ClassDef.hasFlatDict
      rw [List.any_eq_true]
      exact ⟨f, hf, by rw [h2, flatDict_eq_takesRest, h1]; rfl⟩
    unfold deUnknown
    rw [hF true, hF false]
    rfl
  · obtain ⟨kvs, rfl, hk⟩ := C50_keys_partial hc hN hr hg hu h
    exact C19_known_unaffected_partial hc hc' hac ht hg hg' hk

/-- **C50** (partial): for the classes of the round-trip theorems (C01), with deny_unknown_fields, the output is written and accepted.
Missing: custom (de)serializers, `skip_if`. -/
theorem C50_accept_partial {env : Env} {so : SeOpts} {o : DeOpts} {c} {cd : ClassDef} {v} (hc : env.cls c = some cd) (_ : cd.denyUnknown = true)
    (hs : so.c = none) (hn : o.numbers = none)
    (hre : so.reuse.getD cd.reuseDflt = true → o.reuse.getD cd.reuseDflt = true)
    (hok : EnvOk env (rawFmt env true (so.reuse.getD cd.reuseDflt) (so.conv.getD cd.convDflt) (o.reuse.getD cd.reuseDflt) hre so.skipNone))
    (hv : HasTy env (.cls c) v) :
    ∃ w, Ev (fun n => toDict env so n v = .ok w ∧ ∃ v', fromDict env o n (.cls c) w = .ok v') := by
  obtain ⟨w, h⟩ := C01_dict_round_trip_partial hc hs hn hre hok hv
  exact ⟨w, h.mono fun n hx => ⟨hx.1, _, hx.2⟩⟩

/-! ## Examples and counterexamples -/

namespace C50Ex

/-- A class with a renamed field, an alias, a skipped field and a flattened dataclass that flattens another one. -/
def In2 : ClassDef := { name := "In2", mro := ["In2"], fields := [{ name := "p", ty := .prim .int }, { name := "q", ty := .prim .int, rename := some "qq" }] }
def In1 : ClassDef := { name := "In1", mro := ["In1"], fields := [{ name := "r", ty := .prim .int }, { name := "i", ty := .cls "In2", flatten := true }] }
def A : ClassDef := { name := "A", mro := ["A"], fields := [{ name := "x", ty := .prim .int, rename := some "ex", alias := ["xx"] },
  { name := "s", ty := .prim .int, skip := true, dflt := some (.int 0) }, { name := "in1", ty := .cls "In1", flatten := true },
  { name := "y", ty := .prim .int, skipIfFalse := true, dflt := some (.int 0) }] }
/-- `rename_all = "upper"` on the outer class only. -/
def U : ClassDef := { name := "U", mro := ["U"], seCase := some (fun _ => "P"), deCase := some (fun _ => "P"), denyUnknown := true, fields := [{ name := "p", ty := .cls "In0", flatten := true }] }
def In0 : ClassDef := { name := "In0", mro := ["In0"], fields := [{ name := "p", ty := .prim .int }] }
/-- A flattened dataclass that has nothing but a flattened dict. -/
def R : ClassDef := { name := "R", mro := ["R"], denyUnknown := true, fields := [{ name := "r", ty := .cls "InR", flatten := true }] }
def InR : ClassDef := { name := "InR", mro := ["InR"], fields := [{ name := "rest", ty := .dict .dict (.prim .str) .any, flatten := true }] }
/-- A skip rule without a default. -/
def S : ClassDef := { name := "S", mro := ["S"], denyUnknown := true, fields := [{ name := "x", ty := .prim .int, skipIfFalse := true }] }
def env : Env := Ex.mk [("In2", In2), ("In1", In1), ("A", { A with denyUnknown := true }), ("A0", { A with denyUnknown := false }),
  ("U", U), ("In0", In0), ("R", R), ("InR", InR), ("S", S)]

theorem noGlobal (c : ClassId) : NoGlobal env c := ⟨by simp [env, Ex.mk], by simp [env, Ex.mk]⟩

def rank (c : ClassId) : Nat := if c = "In1" then 1 else if c = "A" ∨ c = "A0" then 2 else if c = "U" ∨ c = "R" then 1 else 0

theorem mem_env {c cd} (h : env.cls c = some cd) : (c, cd) ∈ env.classes := mem_of_lookup' h

theorem acyclic : FlattenAcyclic env := by
  refine ⟨rank, ?_, ?_⟩
  · intro c
    show rank c ≤ 9
    unfold rank
    repeat' split
    all_goals omega
  · intro c cd f ch hc hf hi
    have h : (env.classes.all fun p => p.2.fields.all fun f => match inlined f with
      | some ch => decide (rank ch < rank p.1)
      | none => true) = true := by decide
    have h := List.all_eq_true.1 (List.all_eq_true.1 h _ (mem_env hc)) f hf
    rw [hi] at h
    exact of_decide_eq_true h

theorem reach {c} (h : FlatReach env "A" c) : c = "A" ∨ c = "In1" ∨ c = "In2" := by
  induction h with
  | refl => exact .inl rfl
  | step h1 h2 h3 h4 ih =>
    rcases ih with rfl | rfl | rfl <;> cases h2 <;> simp only [A, In1, In2, List.mem_cons, List.not_mem_nil, or_false] at h3
    · rcases h3 with rfl | rfl | rfl | rfl <;> simp [inlined] at h4
      exact .inr (.inl h4.symm)
    · rcases h3 with rfl | rfl <;> simp [inlined] at h4
      exact .inr (.inr h4.symm)
    · rcases h3 with rfl | rfl <;> simp [inlined] at h4

theorem names : NamesAgree env A.seCase "A" := by
  intro c' cd' h hc
  rcases reach h with rfl | rfl | rfl <;> cases hc <;> exact ⟨rfl, fun f _ _ => rfl⟩

theorem noRest : ∀ f ∈ A.fields, serializable f = true → ¬ HasRest env f := by
  have h2 : ∀ f ∈ In2.fields, ¬ HasRest env f := by
    intro f hf h
    simp only [In2, List.mem_cons, List.not_mem_nil, or_false] at hf
    rcases hf with rfl | rfl <;> cases h with
      | own h => cases h
      | child h _ _ _ => cases h
  have h1 : ∀ f ∈ In1.fields, ¬ HasRest env f := by
    intro f hf h
    simp only [In1, List.mem_cons, List.not_mem_nil, or_false] at hf
    rcases hf with rfl | rfl
    · cases h with
      | own h => cases h
      | child h _ _ _ => cases h
    · cases h with
      | own h => cases h
      | child h hc hg hr =>
        cases h
        cases hc
        exact h2 _ hg hr
  intro f hf _ h
  simp only [A, List.mem_cons, List.not_mem_nil, or_false] at hf
  rcases hf with rfl | rfl | rfl | rfl
  · cases h with
    | own h => cases h
    | child h _ _ _ => cases h
  · cases h with
    | own h => cases h
    | child h _ _ _ => cases h
  · cases h with
    | own h => cases h
    | child h hc hg hr =>
      cases h
      cases hc
      exact h1 _ hg hr
  · cases h with
    | own h => cases h
    | child h _ _ _ => cases h

/-- `A(x=1, s=9, in1=In1(r=2, i=In2(p=3, q=4)), y=0)` and its dict. -/
def obj : List (String × Val) := [("x", .int 1), ("s", .int 9),
  ("in1", .inst "In1" [("r", .int 2), ("i", .inst "In2" [("p", .int 3), ("q", .int 4)])]), ("y", .int 0)]
def out : Val := .dict .plain [(.str "ex", .int 1), (.str "r", .int 2), (.str "p", .int 3), (.str "qq", .int 4)]

end C50Ex

open C50Ex in
example : ∃ kvs, out = .dict .plain kvs ∧ ∀ kv ∈ kvs, ∃ s, kv.1 = .str s ∧ Recognised C50Ex.env "A" s :=
  C50_keys_partial (so := {}) (n := 12) (attrs := obj) (cd := { A with denyUnknown := true }) rfl names noRest (noGlobal _) (.inl rfl) rfl

open C50Ex in
example : fromDict C50Ex.env {} 9 (.cls "A0") out = asInstOf "A0" (fromDict C50Ex.env {} 9 (.cls "A") out) :=
  C50_own_output_partial (cd := A) (so := {}) (n := 12) (attrs := obj) rfl rfl acyclic ⟨rfl, rfl⟩ names (.inr noRest) (noGlobal _) (noGlobal _)
    (.inl rfl) rfl

/-- The case conversion of the outer class names the flattened field when writing, but not when reading: the output is rejected. -/
theorem C50_false_case : toDict C50Ex.env {} 9 (.inst "U" [("p", .inst "In0" [("p", .int 1)])]) = .ok (.dict .plain [(.str "P", .int 1)]) ∧
    ∃ e, fromDict C50Ex.env {} 9 (.cls "U") (.dict .plain [(.str "P", .int 1)]) = .error e := ⟨rfl, _, rfl⟩

/-- A flattened dataclass whose flattened dict contributes keys: the output is rejected. -/
theorem C50_false_rest : toDict C50Ex.env {} 9 (.inst "R" [("r", .inst "InR" [("rest", .dict .plain [(.str "k", .int 1)])])]) =
      .ok (.dict .plain [(.str "k", .int 1)]) ∧
    ∃ e, fromDict C50Ex.env {} 9 (.cls "R") (.dict .plain [(.str "k", .int 1)]) = .error e := ⟨rfl, _, rfl⟩

/-- A field left out by its skip rule that has no default: the output is rejected. -/
theorem C50_false_skip : toDict C50Ex.env {} 9 (.inst "S" [("x", .int 0)]) = .ok (.dict .plain []) ∧
    ∃ e, fromDict C50Ex.env {} 9 (.cls "S") (.dict .plain []) = .error e := ⟨rfl, _, rfl⟩

namespace C50Ex

/-- `@serde(deny_unknown_fields=True) class N: x: int`. -/
def fn : FieldDef := { name := "x", ty := .prim .int }
def N : ClassDef := { name := "N", mro := ["N"], denyUnknown := true, fields := [fn] }
def envN : Env := Ex.mk [("N", N)]

theorem clsN {c cd} (h : envN.cls c = some cd) : c = "N" ∧ cd = N := by
  simp only [Env.cls, envN, Ex.mk, List.lookup_cons, List.lookup_nil] at h
  split at h
  · rename_i h1; cases h; exact ⟨by simpa using h1, rfl⟩
  · cases h

theorem okN (F : Fmt envN) : EnvOk envN F where
  classes := by
    intro c cd h _
    obtain ⟨rfl, rfl⟩ := clsN h
    exact {
      fields := by
        intro f hf
        cases List.mem_singleton.1 hf
        exact .plain ⟨rfl, ⟨rfl, rfl, rfl⟩, .inl rfl, rfl, ⟨rfl, rfl⟩, rfl⟩ (.never ⟨rfl, rfl, rfl, rfl⟩ (fun _ h => by cases h))
      names := by decide
      wires := by decide
      types := by
        intro f hf named _
        cases List.mem_singleton.1 hf
        exact .scalar .prim
      notTransparent := rfl
      noHook := by intro p h; cases h
      noClassCustom := ⟨rfl, rfl⟩
      mroSelf := by simp [N]
      kwLast := by simp [N]
      kwTuple := by intro _ f hf; cases List.mem_singleton.1 hf; exact ⟨rfl, rfl⟩ }
  wrappers := by
    intro c cd h ht
    obtain ⟨rfl, rfl⟩ := clsN h
    cases ht
  noGlobal := ⟨rfl, rfl⟩

example : ∃ w, Ev (fun n => toDict envN {} n (.inst "N" [("x", .int 1)]) = .ok w ∧ ∃ v', fromDict envN {} n (.cls "N") w = .ok v') :=
  C50_accept_partial (cd := N) (so := {}) (o := {}) rfl rfl rfl rfl (fun h => h) (okN _)
    (.inst (cd := N) rfl rfl (by intro p hp; simp only [N, List.zip_cons_cons, List.zip_nil_right, List.mem_cons, List.not_mem_nil, or_false] at hp; subst hp; exact .int))

end C50Ex

end Verif.Props
