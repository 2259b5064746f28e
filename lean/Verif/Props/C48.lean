import Verif.Lemmas.Twin
import Verif.Examples.World
/-!
# C48: the constructor's exception reaches the caller
-/

namespace Verif.Props
open Spec

/-- Both halves of C48: `c` is class `cd` with `__post_init__ = p`, `c'` the same class without it. If `from_dict(c', d)` decodes the
attributes `attrs`, then `from_dict(c, d)` is what `p` makes of them. -/
theorem from_dict_post_init {env : Env} {o : DeOpts} {n c c'} {cd : ClassDef} {p : List (String × Val) → Except PErr (List (String × Val))} {d attrs}
    (hc : env.cls c = some { cd with postInit := some p }) (hc' : env.cls c' = some { cd with postInit := none })
    (ht : SameTables env c c') (hg : NoGlobal env c) (hg' : NoGlobal env c') (hd : IsData c d) (hd' : IsData c' d)
    (h : fromDict env o n (.cls c') d = .ok (.inst c' attrs)) :
    fromDict env o n (.cls c) d = match p attrs with
      | .ok attrs' => .ok (.inst c attrs')
      | .error e => .error (.py e) := by
  obtain ⟨m, rfl, h1⟩ := fromObj_cls_cases hg'.de hd' h (by simp)
  clear h
  have h := h1
  rw [fromDict_cls hg.de hd]
  rw [wrapUser_ok, deClsF_some hc'] at h
  have ha : ArgsAgree { cd with postInit := some p } { cd with postInit := none } := by constructor <;> rfl
  rw [deArgs_twin hc hc' ha ht (deUnknown_twin hc hc' ha rfl)] at h
  unfold topCall
  rw [deClsF_some hc]
  cases hx : deArgs env (deAt env m) true c { cd with postInit := some p } { reuse := o.reuse, numbers := o.numbers } d with
  | error e => rw [hx] at h; cases h
  | ok pk =>
    obtain ⟨pos, kw⟩ := pk
    rw [hx] at h
    dsimp only at h ⊢
    rw [construct_post h]
    cases p attrs <;> rfl

/-- **C48**: if the input decodes up to the constructor call and the class's own `__post_init__` raises `e`, `from_dict` raises `e`
itself, neither wrapped in `SerdeError` nor swallowed. -/
theorem C48_post_init_exception {env : Env} {o : DeOpts} {n c c'} {cd : ClassDef} {p : List (String × Val) → Except PErr (List (String × Val))} {d attrs e}
    (hc : env.cls c = some { cd with postInit := some p }) (hc' : env.cls c' = some { cd with postInit := none })
    (ht : SameTables env c c') (hg : NoGlobal env c) (hg' : NoGlobal env c') (hd : IsData c d) (hd' : IsData c' d)
    (h : fromDict env o n (.cls c') d = .ok (.inst c' attrs)) (he : p attrs = .error e) :
    fromDict env o n (.cls c) d = .error (.py e) := by
  rw [from_dict_post_init hc hc' ht hg hg' hd hd' h, he]

/-- Companion: when `__post_init__` succeeds its result is what `from_dict` returns. -/
theorem C48_post_init_result {env : Env} {o : DeOpts} {n c c'} {cd : ClassDef} {p : List (String × Val) → Except PErr (List (String × Val))} {d attrs attrs'}
    (hc : env.cls c = some { cd with postInit := some p }) (hc' : env.cls c' = some { cd with postInit := none })
    (ht : SameTables env c c') (hg : NoGlobal env c) (hg' : NoGlobal env c') (hd : IsData c d) (hd' : IsData c' d)
    (h : fromDict env o n (.cls c') d = .ok (.inst c' attrs)) (he : p attrs = .ok attrs') :
    fromDict env o n (.cls c) d = .ok (.inst c attrs') := by
  rw [from_dict_post_init hc hc' ht hg hg' hd hd' h, he]

namespace C48Ex
def A : ClassDef := { name := "A", mro := ["A"], fields := [{ name := "x", ty := .prim .int }] }
def p : List (String × Val) → Except PErr (List (String × Val)) := fun _ => .error (.raised "MyError")
def env : Env := Ex.mk [("A", { A with postInit := some p }), ("A0", { A with postInit := none })]

/-- Every hypothesis of C48 holds here, and the user's own error comes out. -/
example : fromDict env {} 5 (.cls "A") (.dict .plain [(.str "x", .int 1)]) = .error (.py (.raised "MyError")) :=
  C48_post_init_exception (c' := "A0") (cd := A) (p := p) (attrs := [("x", .int 1)]) rfl rfl ⟨rfl, rfl⟩
    ⟨by simp [env, Ex.mk], by simp [env, Ex.mk]⟩ ⟨by simp [env, Ex.mk], by simp [env, Ex.mk]⟩
    (by intro a h; cases h) (by intro a h; cases h) rfl rfl

/-- A `__post_init__` that replaces the attribute. -/
def q : List (String × Val) → Except PErr (List (String × Val)) := fun _ => .ok [("x", .int 9)]
def envQ : Env := Ex.mk [("A", { A with postInit := some q }), ("A0", { A with postInit := none })]

example : fromDict envQ {} 5 (.cls "A") (.dict .plain [(.str "x", .int 1)]) = .ok (.inst "A" [("x", .int 9)]) :=
  C48_post_init_result (c' := "A0") (cd := A) (p := q) (attrs := [("x", .int 1)]) rfl rfl ⟨rfl, rfl⟩
    ⟨by simp [envQ, Ex.mk], by simp [envQ, Ex.mk]⟩ ⟨by simp [envQ, Ex.mk], by simp [envQ, Ex.mk]⟩
    (by intro a h; cases h) (by intro a h; cases h) rfl rfl
end C48Ex
end Verif.Props
