import Verif.Lemmas.FieldRun
import Verif.Lemmas.Collect
import Verif.Lemmas.RTScalar
import Verif.Spec.Unions
import Verif.Props.C34
import Verif.Examples.Lookup
/-!
# C30 Literal fields

"The listed literal" is taken up to Python's `==` by the code, and the input itself is returned. For str, None and enum literals
that is the literal itself; for int and bool literals `1 == True == 1.0`, so that without strict checking `Literal[1]` accepts `True`
and returns it (`C30_false_bool`). With strict checking, and always when the input is neither a bool nor a number, the result is one
of the listed literals.
-/

namespace Verif.Props
open Verif Verif.Spec

/-- Literal arguments: str, int, bool, None or an enum member. -/
inductive LitArg : Val → Prop
  | lit {v} : LitVal v → LitArg v
  | enum {e m} : LitArg (.enum e m)

/-- Bools, ints and floats. -/
inductive NumLike : Val → Prop
  | bool {b} : NumLike (.bool b)
  | int {i} : NumLike (.int i)
  | float {x} : NumLike (.float x)

theorem lit_exact {l x : Val} (hl : LitArg l) (hx : ¬ NumLike x) (h : pyEq l x = true) : l = x := by
  cases hl with
  | lit hl =>
    cases hl <;> cases x <;> first
      | rfl
      | (exfalso; exact hx .bool)
      | (exfalso; exact hx .int)
      | (exfalso; exact hx .float)
      | simp [pyEq, Val.num] at h
    rw [h]
  | enum => cases x <;> simp [pyEq] at h; rw [h.1, h.2]

theorem lit_sameKind {l x : Val} (hl : LitArg l) (h : sameKind l x = true) (he : pyEq l x = true) : l = x := by
  cases hl with
  | lit hl =>
    cases hl <;> cases x <;> simp [sameKind] at h <;> simp [pyEq, Val.num, Flt.eqv] at he
    · rw [he]
    · rw [he]
    · rename_i a b; cases a <;> cases b <;> first | rfl | simp at he
    · rfl
  | enum => cases x <;> simp [sameKind] at h; simp [pyEq] at he; rw [he.1, he.2]

theorem litArg_refl {l : Val} (hl : LitArg l) : pyEq l l = true := by
  cases hl with
  | lit h => exact pyEq_refl_litVal h
  | enum => simp [pyEq]

theorem lit_body {env : Env} {c} {cd : ClassDef} {f vs o dk kvs x} (hf : PlainField env cd f) (hc : env.cls c = some cd) (hty : f.ty = .lit vs)
    (ho : OwnLitName env c vs) (hx : getStr (f.conv cd.deCase) kvs = some x) {r : DeRec} :
    deBody env r (clsDeCx env c cd true o (.dict dk kvs)) (plainArg cd f (.dict dk kvs)) = deLit vs x := by
  unfold deBody
  rw [pickDe_plain hf]
  dsimp only
  have h1 : (plainArg cd f (.dict dk kvs)).deser = none := hf.deser
  have h2 : (plainArg cd f (.dict dk kvs)).ty = .lit vs := hty
  rw [h1, h2]
  dsimp only
  have h3 : findLit env (clsDeCx env c cd true o (.dict dk kvs)).lits (litFuncName env vs) = some vs :=
    findLit_own (.step (.field hc hf.mem hf.skip) (hty ▸ .refl)) ho
  rw [h3]
  dsimp only
  rw [plainArg_data hx]

/-- **C30** (soundness) A Literal field that was decoded holds the input, which equals (`==`) one of the listed literals; with strict
type checking, or if the input is not a bool or a number, it *is* one of them. -/
theorem C30_sound_partial {env : Env} {o : DeOpts} {n c} {cd : ClassDef} {f vs dk kvs x v} (hC : PlainClass env c cd) (hf : PlainField env cd f)
    (hty : f.ty = .lit vs) (ho : OwnLitName env c vs) (hvs : ∀ l ∈ vs, LitArg l) (hx : getStr (f.conv cd.deCase) kvs = some x)
    (h : fromDict env o n (.cls c) (.dict dk kvs) = .ok v) :
    ∃ attrs, v = .inst c attrs ∧ attrs.lookup f.name = some x ∧ (∃ l ∈ vs, pyEq l x = true) ∧
      (cd.typeCheck = .strict ∨ ¬ NumLike x → x ∈ vs) := by
  obtain ⟨attrs, w, m, rfl, hw, hb, ht⟩ := field_run hC hf hx h
  rw [lit_body hf hC.cls hty ho hx] at hb
  unfold deLit at hb
  split at hb
  · rename_i ha
    cases hb
    rw [List.any_eq_true] at ha
    obtain ⟨l, hl, he⟩ := ha
    refine ⟨attrs, rfl, hw, ⟨l, hl, he⟩, ?_⟩
    rintro (hs | hs)
    · have := ht hs
      rw [hty] at this
      unfold bearable at this
      rw [List.any_eq_true] at this
      obtain ⟨l', hl', hk⟩ := this
      rw [Bool.and_eq_true] at hk
      rw [← lit_sameKind (hvs l' hl') hk.1 hk.2]; exact hl'
    · rw [← lit_exact (hvs l hl) hs he]; exact hl
  · cases hb

/-- **C30** (rejection) An input equal to none of the listed literals makes `from_dict` raise, whatever the other fields are; what it
raises is a SerdeError (see C34 for the conditions on the classes). -/
theorem C30_reject {env : Env} {o : DeOpts} {n c} {cd : ClassDef} {f vs dk kvs x} (hC : PlainClass env c cd) (hf : PlainField env cd f)
    (hty : f.ty = .lit vs) (ho : OwnLitName env c vs) (hx : getStr (f.conv cd.deCase) kvs = some x) (hne : ∀ l ∈ vs, pyEq l x = false)
    (hp : ∀ c cd, env.cls c = some cd → cd.postInit = none) (hs : ∀ c cd, env.cls c = some cd → SigOk true cd) :
    ∃ e, fromDict env o n (.cls c) (.dict dk kvs) = .error e ∧ (e = .fuel ∨ e.isSerde = true) := by
  obtain ⟨e, he⟩ := field_fail (n := n) (o := o) hC hf hx (dk := dk) (fun m w => by
    rw [lit_body hf hC.cls hty ho hx]
    unfold deLit
    rw [if_neg]
    · intro h; cases h
    · rw [List.any_eq_true]
      rintro ⟨l, hl, h⟩
      rw [hne l hl] at h; cases h)
  exact ⟨e, he, C34_only_serde hp hs he⟩

/-- **C30** (completeness) Where one input is accepted, replacing the Literal field's value by any listed literal is accepted too, and
the object then holds that literal and is otherwise unchanged. -/
theorem C30_accepts {env : Env} {o : DeOpts} {n c} {cd : ClassDef} {f vs dk kvs kvs' l attrs} (hC : PlainClass env c cd)
    (hf : PlainField env cd f) (hs : Separate cd f) (hty : f.ty = .lit vs) (ho : OwnLitName env c vs) (hl : l ∈ vs) (hla : LitArg l)
    (hd : DifferAt (f.conv cd.deCase) kvs kvs') (hx' : getStr (f.conv cd.deCase) kvs' = some l)
    (h : fromDict env o (n + 3) (.cls c) (.dict dk kvs) = .ok (.inst c attrs)) :
    fromDict env o (n + 3) (.cls c) (.dict dk kvs') = .ok (.inst c (setAttr f.name l attrs)) := by
  refine field_replace hC hf hs hd hx' h ?_ ?_
  · rw [lit_body hf hC.cls hty ho hx']
    unfold deLit
    rw [if_pos]
    rw [List.any_eq_true]
    exact ⟨l, hl, litArg_refl hla⟩
  · intro _
    rw [hty]
    unfold bearable
    rw [List.any_eq_true]
    refine ⟨l, hl, ?_⟩
    rw [litArg_refl hla, Bool.and_true]
    cases hla with
    | lit h => cases h <;> rfl
    | enum => simp [sameKind]

/-- **C30** (completeness, from scratch) A class whose only field is `x : Literal[...]` accepts every listed literal. -/
theorem C30_accepts_box {env : Env} {o : DeOpts} {B nm vs l} (hb : env.cls B = some (box nm (.lit vs))) (hg : NoGlobal env B)
    (hgd : ∀ s ∈ env.gde, s.handles (.lit vs) = false) (hl : l ∈ vs) (hla : LitArg l) : Decodes env o B l l := by
  have hlits : ∀ us, Reach env false (.cls B) (.lit us) → us = vs := by
    intro us h
    cases h with
    | step hp hr =>
      cases hp with
      | field hc hf hs =>
        rw [hb] at hc; cases hc
        simp only [box, List.mem_singleton] at hf
        subst hf
        cases hr with
        | refl => rfl
        | step hp _ => cases hp
  have hf : PlainField env (box nm (.lit vs)) { name := "x", ty := .lit vs } :=
    ⟨by simp [box], rfl, rfl, rfl, rfl, rfl, rfl, by simpa [box] using hgd⟩
  have hC : PlainClass env B (box nm (.lit vs)) := ⟨hb, rfl, rfl, by simp [box], hg⟩
  refine ⟨0 + 3, ?_⟩
  rw [fromDict_fieldwise hb rfl rfl rfl hC.names hg (by intro as h; cases h)]
  refine ⟨rfl, fun _ => l, ?_, ⟨?_, rfl, ?_⟩, rfl⟩
  rotate_left
  · intro f hfm hr _
    simp only [box, List.mem_singleton] at hfm
    subst hfm; cases hr
  rotate_left
  · intro f hfm _
    simp only [box, List.mem_singleton] at hfm
    subst hfm
    refine (deField_body hf (x := l) ?_).2 ⟨0, rfl, ?_⟩
    · simp [getStr, FieldDef.conv, box]
    · rw [lit_body hf hb rfl (fun us h _ => hlits us h) (x := l) (by simp [getStr, FieldDef.conv, box])]
      unfold deLit
      rw [if_pos]
      rw [List.any_eq_true]
      exact ⟨l, hl, litArg_refl hla⟩
  · intro h; cases h

/-! ## Examples -/

namespace C30Ex

def fm : FieldDef := { name := "mode", ty := .lit [.str "fast", .str "slow", .int 1] }
def fn : FieldDef := { name := "n", ty := .prim .int }
def cd : ClassDef := { name := "M", mro := ["M"], fields := [fm, fn] }
/-- As `cd`, without type checking. -/
def cdN : ClassDef := { cd with name := "N", mro := ["N"], typeCheck := .disabled }
def cdB : ClassDef := box "B" fm.ty
def env : Env := Ex.mk [("M", cd), ("N", cdN), ("B", cdB)]

theorem plainC : PlainClass env "M" cd := ⟨rfl, rfl, rfl, by decide, ⟨by simp [env, Ex.mk], by simp [env, Ex.mk]⟩⟩
theorem plainF : PlainField env cd fm := ⟨by simp [cd], rfl, rfl, rfl, rfl, rfl, rfl, by simp [env, Ex.mk, cd]⟩
theorem own : OwnLitName env "M" [.str "fast", .str "slow", .int 1] := by
  intro us h _
  cases h with
  | step hp hr =>
    cases hp with
    | field hc hf hs =>
      cases hc
      simp only [cd, List.mem_cons, List.not_mem_nil, or_false] at hf
      rcases hf with rfl | rfl
      · cases hr with
        | refl => rfl
        | step hp _ => cases hp
      · cases hr with
        | step hp _ => cases hp
theorem args : ∀ l ∈ [Val.str "fast", .str "slow", .int 1], LitArg l := by
  intro l hl
  simp only [List.mem_cons, List.not_mem_nil, or_false] at hl
  rcases hl with rfl | rfl | rfl
  · exact .lit .str
  · exact .lit .str
  · exact .lit .int

theorem run : fromDict env {} 3 (.cls "M") (.dict .plain [(.str "mode", .str "fast"), (.str "n", .int 7)]) =
    .ok (.inst "M" [("mode", .str "fast"), ("n", .int 7)]) := rfl

example : ∃ attrs, Val.inst "M" [("mode", .str "fast"), ("n", .int 7)] = .inst "M" attrs ∧ attrs.lookup "mode" = some (.str "fast") ∧
    (∃ l ∈ [Val.str "fast", .str "slow", .int 1], pyEq l (.str "fast") = true) ∧
    (cd.typeCheck = .strict ∨ ¬ NumLike (.str "fast") → Val.str "fast" ∈ [Val.str "fast", .str "slow", .int 1]) :=
  C30_sound_partial plainC plainF rfl own args rfl run

example : ∃ e, fromDict env {} 9 (.cls "M") (.dict .plain [(.str "mode", .str "medium"), (.str "n", .int 7)]) = .error e ∧
    (e = .fuel ∨ e.isSerde = true) :=
  C30_reject plainC plainF rfl own rfl (by decide) (Ex.all_post rfl) (Ex.all_sig rfl)

theorem sep : Separate cd fm :=
  ⟨by decide, by intro g hg; simp only [cd, List.mem_cons, List.not_mem_nil, or_false] at hg; rcases hg with rfl | rfl <;> exact .inl rfl,
    by intro g hg hne; simp only [cd, List.mem_cons, List.not_mem_nil, or_false] at hg; rcases hg with rfl | rfl
       · exact absurd rfl hne
       · exact ⟨by decide, fun h => absurd rfl h⟩⟩
theorem differ : DifferAt (fm.conv cd.deCase) [(.str "mode", .str "fast"), (.str "n", .int 7)] [(.str "mode", .int 1), (.str "n", .int 7)] :=
  ⟨rfl, by
    intro s hs
    have h1 : ("mode" == s) = false := by simpa using fun h : "mode" = s => hs h.symm
    simp [getStr, h1]⟩

example : fromDict env {} (0 + 3) (.cls "M") (.dict .plain [(.str "mode", .int 1), (.str "n", .int 7)]) =
    .ok (.inst "M" (setAttr "mode" (.int 1) [("mode", .str "fast"), ("n", .int 7)])) :=
  C30_accepts plainC plainF sep rfl own (by simp) (.lit .int) differ rfl run

example : Decodes env {} "B" (.int 1) (.int 1) :=
  C30_accepts_box (nm := "B") rfl ⟨by simp [env, Ex.mk], by simp [env, Ex.mk]⟩ (by simp [env, Ex.mk]) (by simp) (.lit .int)

end C30Ex

/-- **C30 is false without strict type checking**: `Literal["fast", "slow", 1]` accepts `True` and returns it, although it is not
listed. -/
theorem C30_false_bool : ∃ (env : Env) (c : ClassId) (vs : List Val) (cd : ClassDef) (f : FieldDef), env.cls c = some cd ∧ f ∈ cd.fields ∧
    f.ty = .lit vs ∧ (∀ l ∈ vs, l ≠ .bool true) ∧
    fromDict env {} 3 (.cls c) (.dict .plain [(.str "mode", .bool true), (.str "n", .int 7)]) =
      .ok (.inst c [("mode", .bool true), ("n", .int 7)]) :=
  ⟨C30Ex.env, "N", _, C30Ex.cdN, C30Ex.fm, rfl, by simp [C30Ex.cdN, C30Ex.cd], rfl, by simp, rfl⟩

end Verif.Props
