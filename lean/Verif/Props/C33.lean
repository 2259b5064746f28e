import Verif.Lemmas.Coerce
import Verif.Lemmas.FieldRun
import Verif.Lemmas.DeMono
import Verif.Model.Formats
import Verif.Props.C34
import Verif.Examples.Lookup
/-!
# C33: coercion mode

Full statement: "With type_check=coerce, an input of a convertible type is converted with the field type's constructor, an already correct
value is unchanged, and None is rejected for a non-Optional primitive field."

`Converts` describes the constructors on scalar inputs, `Coerced` carries it through Optional, list, deque, tuple and dict. The claim is false
where a number hook is in force: `from_json` does not convert a numeral string for a float field (`C33_false_json_float`), and the members of
a union are not coerced (`C33_false_union`).
-/

namespace Verif.Props
open Verif Spec

theorem holds_field {env : Env} {cd : ClassDef} {f dk kvs x} (hf : PlainField env cd f) (hx : getStr (f.conv cd.deCase) kvs = some x) :
    Holds (plainArg cd f (.dict dk kvs)) x :=
  ⟨hf.alias, hf.deser, rfl, .inl ⟨dk, kvs, rfl, hx⟩⟩

theorem coerce_cx {env : Env} {c} {cd : ClassDef} {o : DeOpts} {d} (hm : cd.typeCheck = .coerce) :
    (clsDeCx env c cd true (topCall o) d).coerce = true := by
  show (cd.typeCheck == .coerce) = true
  rw [hm]; rfl

theorem des_cx {env : Env} {c} {cd : ClassDef} {o : DeOpts} {d} (hg : env.gde = []) (hcd : cd.classDe = none) :
    (clsDeCx env c cd true (topCall o) d).des = [] := by
  show env.gde ++ cd.classDe.toList = []
  rw [hg, hcd]; rfl

/-- **C33** Under coercion, what `from_dict` puts into a field is the converted input. -/
theorem C33_converted {env : Env} {o : DeOpts} {n c} {cd : ClassDef} {f dk kvs x w v} (hC : PlainClass env c cd) (hm : cd.typeCheck = .coerce)
    (hg : env.gde = []) (hcd : cd.classDe = none) (hf : PlainField env cd f) (hx : getStr (f.conv cd.deCase) kvs = some x)
    (hw : Coerced env o.numbers.isSome f.ty x w) (h : fromDict env o n (.cls c) (.dict dk kvs) = .ok v) :
    ∃ attrs, v = .inst c attrs ∧ attrs.lookup f.name = some w := by
  obtain ⟨attrs, w', m, rfl, ha, hb, _⟩ := field_run hC hf hx h
  obtain ⟨N, hN⟩ := coerced_body hw (coerce_cx (env := env) (c := c) (o := o) (d := .dict dk kvs) hm) (des_cx hg hcd) rfl rfl (holds_field hf hx)
  have h1 := (deBody_le (deAt_le' env (Nat.le_max_left m N)) _ _).ok hb
  have h2 := hN (max m N) (Nat.le_max_right m N)
  rw [h2] at h1
  cases h1
  exact ⟨attrs, rfl, ha⟩

/-- **C33** A convertible input is accepted: if the class accepts some value under the field's key, it accepts the convertible one too, and only
this field of the result changes. -/
theorem C33_accepted {env : Env} {o : DeOpts} {n c} {cd : ClassDef} {f dk kvs kvs' x w attrs} (hC : PlainClass env c cd) (hm : cd.typeCheck = .coerce)
    (hg : env.gde = []) (hcd : cd.classDe = none) (hf : PlainField env cd f) (hs : Separate cd f) (hd : DifferAt (f.conv cd.deCase) kvs kvs')
    (hx : getStr (f.conv cd.deCase) kvs' = some x) (hw : Coerced env o.numbers.isSome f.ty x w)
    (h : fromDict env o n (.cls c) (.dict dk kvs) = .ok (.inst c attrs)) :
    ∃ m, fromDict env o m (.cls c) (.dict dk kvs') = .ok (.inst c (setAttr f.name w attrs)) := by
  obtain ⟨N, hN⟩ := coerced_body hw (coerce_cx (env := env) (c := c) (o := o) (d := .dict dk kvs') hm) (des_cx hg hcd) rfl rfl (holds_field hf hx)
  refine ⟨max n N + 3, field_replace hC hf hs hd hx (fromDict_mono (by omega) h) (hN _ (Nat.le_max_right n N)) ?_⟩
  intro h; rw [hm] at h; cases h

/-- **C33** A value that already has the primitive type is kept as it is. -/
theorem C33_unchanged {env : Env} {o : DeOpts} {n c} {cd : ClassDef} {f p dk kvs x v} (hC : PlainClass env c cd) (hm : cd.typeCheck = .coerce)
    (hg : env.gde = []) (hcd : cd.classDe = none) (hf : PlainField env cd f) (hty : f.ty = .prim p ∨ f.ty = .union [.prim p, .none])
    (hnum : o.numbers = none ∨ p ≠ .float) (hx : getStr (f.conv cd.deCase) kvs = some x) (he : Exactly p x)
    (h : fromDict env o n (.cls c) (.dict dk kvs) = .ok v) :
    ∃ attrs, v = .inst c attrs ∧ attrs.lookup f.name = some x := by
  have hcv : Converts env p x x := by cases he <;> constructor
  have hp : o.numbers.isSome = true → p ≠ .float := by
    intro h1
    rcases hnum with h | h
    · rw [h] at h1; cases h1
    · exact h
  have hne : x ≠ .none := by intro h; subst h; cases he
  refine C33_converted hC hm hg hcd hf hx ?_ h
  rcases hty with hty | hty
  · rw [hty]; exact .prim hp hcv
  · rw [hty]; exact .opt (by intro h; cases h) hne (.prim hp hcv)

/-- **C33** An input that cannot be converted, at any position of the field's type, is rejected with SerdeError. -/
theorem C33_rejected {env : Env} {o : DeOpts} {n c} {cd : ClassDef} {f dk kvs x} (hC : PlainClass env c cd) (hm : cd.typeCheck = .coerce)
    (hg : env.gde = []) (hcd : cd.classDe = none) (hf : PlainField env cd f) (hx : getStr (f.conv cd.deCase) kvs = some x)
    (hr : Refused env o.numbers.isSome f.ty x) (hpost : ∀ c cd, env.cls c = some cd → cd.postInit = none)
    (hsig : ∀ c cd, env.cls c = some cd → SigOk true cd) :
    ∃ e, fromDict env o n (.cls c) (.dict dk kvs) = .error e ∧ (e = .fuel ∨ e.isSerde = true) := by
  obtain ⟨e, he⟩ := field_fail (o := o) (n := n) (dk := dk) hC hf hx (fun m w =>
    refused_body hr (coerce_cx (env := env) (c := c) (o := o) (d := .dict dk kvs) hm) (des_cx hg hcd) rfl rfl (holds_field hf hx) m w)
  exact ⟨e, he, C34_only_serde hpost hsig he⟩

/-- **C33** None is rejected for a primitive field that is not Optional, with or without a number hook that rejects None. -/
theorem C33_none {env : Env} {o : DeOpts} {n c} {cd : ClassDef} {f p dk kvs} (hC : PlainClass env c cd) (hm : cd.typeCheck = .coerce)
    (hg : env.gde = []) (hcd : cd.classDe = none) (hf : PlainField env cd f) (hty : f.ty = .prim p)
    (hnum : ∀ num, o.numbers = some num → ∃ e, num .none = .error e) (hx : getStr (f.conv cd.deCase) kvs = some .none)
    (hpost : ∀ c cd, env.cls c = some cd → cd.postInit = none) (hsig : ∀ c cd, env.cls c = some cd → SigOk true cd) :
    ∃ e, fromDict env o n (.cls c) (.dict dk kvs) = .error e ∧ (e = .fuel ∨ e.isSerde = true) := by
  by_cases hp : o.numbers.isSome = true → p ≠ .float
  · exact C33_rejected hC hm hg hcd hf hx (by rw [hty]; exact .prim hp .null) hpost hsig
  · obtain ⟨hp1, hp2⟩ := Classical.not_imp.1 hp
    have hp2 : p = .float := Classical.not_not.1 hp2
    subst hp2
    obtain ⟨num, hnu⟩ := Option.isSome_iff_exists.1 hp1
    obtain ⟨e, he⟩ := field_fail (o := o) (n := n) (dk := dk) hC hf hx (fun m w => by
      have ha := holds_field (dk := dk) hf hx
      unfold deBody
      rw [pickDe_plain hf, ha.deser]
      dsimp only
      have h2 : (plainArg cd f (.dict dk kvs)).ty = .prim .float := hty
      rw [h2]
      dsimp only
      rw [ha.prim]
      have h5 : (clsDeCx env c cd true (topCall o) (.dict dk kvs)).numbers = some num := hnu
      rw [h5]
      dsimp only
      obtain ⟨e, he⟩ := hnum num hnu
      rw [he]
      intro h; cases h)
    exact ⟨e, he, C34_only_serde hpost hsig he⟩

/-! ## Examples and witnesses -/

namespace C33Ex
def cdC : ClassDef := { name := "C", mro := ["C"], typeCheck := .coerce, fields := [{ name := "i", ty := .prim .int },
  { name := "xs", ty := .list .list (.prim .bool) }, { name := "x", ty := .prim .float, dflt := some (.float (.fin 0)) },
  { name := "u", ty := .union [.prim .int, .list .list (.prim .int)], dflt := some (.int 0) }] }
def env : Env := Ex.mk [("C", cdC)]
theorem plain : PlainClass env "C" cdC := ⟨rfl, rfl, rfl, by decide, ⟨by simp [env, Ex.mk], by simp [env, Ex.mk]⟩⟩
def fi : FieldDef := { name := "i", ty := .prim .int }
def fxs : FieldDef := { name := "xs", ty := .list .list (.prim .bool) }
theorem plain_i : PlainField env cdC fi := ⟨by simp [cdC, fi], rfl, rfl, rfl, rfl, rfl, rfl, by simp [env, Ex.mk, cdC]⟩
theorem plain_xs : PlainField env cdC fxs := ⟨by simp [cdC, fxs], rfl, rfl, rfl, rfl, rfl, rfl, by simp [env, Ex.mk, cdC]⟩
def inp : List (Val × Val) := [(.str "i", .str "12"), (.str "xs", .list [.int 3, .str ""])]
def out : List (String × Val) := [("i", .int 12), ("xs", .list [.bool true, .bool false]), ("x", .float (.fin 0)), ("u", .int 0)]
theorem xsC : Coerced env false fxs.ty (.list [.int 3, .str ""]) (.list [.bool true, .bool false]) := by
  refine .list rfl ?_
  intro p hp
  simp only [List.zip_cons_cons, List.zip_nil_right, List.mem_cons, List.not_mem_nil, or_false] at hp
  rcases hp with rfl | rfl
  · exact .prim (by simp) (.boolInt (by decide))
  · exact .prim (by simp) .boolEmpty
end C33Ex

example : ∃ attrs, Val.inst "C" C33Ex.out = .inst "C" attrs ∧ attrs.lookup "xs" = some (.list [.bool true, .bool false]) :=
  C33_converted (env := C33Ex.env) (o := {}) (n := 9) (cd := C33Ex.cdC) (f := C33Ex.fxs) (dk := .plain) (kvs := C33Ex.inp) C33Ex.plain rfl rfl rfl
    C33Ex.plain_xs rfl C33Ex.xsC rfl

example : ∃ m, fromDict C33Ex.env {} m (.cls "C") (.dict .plain [(.str "i", .str "12"), (.str "xs", .list [])]) =
    .ok (.inst "C" (setAttr "i" (.int 12) [("i", .int 1), ("xs", .list []), ("x", .float (.fin 0)), ("u", .int 0)])) :=
  C33_accepted (env := C33Ex.env) (o := {}) (n := 9) (cd := C33Ex.cdC) (f := C33Ex.fi) (dk := .plain)
    (kvs := [(.str "i", .int 1), (.str "xs", .list [])]) (x := .str "12") C33Ex.plain rfl rfl rfl
    C33Ex.plain_i ⟨by simp [C33Ex.cdC], by simp [C33Ex.cdC], by simp [C33Ex.cdC, C33Ex.fi]; decide⟩
    ⟨rfl, by
      intro s hs
      have : ("i" == s) = false := by
        rw [beq_eq_false_iff_ne]; intro h; exact hs h.symm
      simp [getStr, this]⟩ rfl (.prim (by simp) (.intStr rfl)) rfl

example : ∃ attrs, Val.inst "C" [("i", .int 1), ("xs", .list []), ("x", .float (.fin 0)), ("u", .int 0)] = .inst "C" attrs ∧
    attrs.lookup "i" = some (.int 1) :=
  C33_unchanged (env := C33Ex.env) (o := {}) (n := 9) (cd := C33Ex.cdC) (f := C33Ex.fi) (dk := .plain)
    (kvs := [(.str "i", .int 1), (.str "xs", .list [])]) C33Ex.plain rfl rfl rfl C33Ex.plain_i (.inl rfl) (.inl rfl) rfl .int rfl

example : ∃ e, fromDict C33Ex.env {} 9 (.cls "C") (.dict .plain [(.str "i", .int 1), (.str "xs", .list [.bool true, .none])]) = .error e ∧
    (e = .fuel ∨ e.isSerde = true) :=
  C33_rejected (env := C33Ex.env) (o := {}) (n := 9) (cd := C33Ex.cdC) (f := C33Ex.fxs) (dk := .plain) C33Ex.plain rfl rfl rfl C33Ex.plain_xs rfl
    (.list (x := .none) (by simp) (.prim (by simp) .null)) (Ex.all_post rfl) (Ex.all_sig rfl)

example : ∃ e, fromDict C33Ex.env { numbers := some (jsonNumbers Ex.W) } 9 (.cls "C") (.dict .plain [(.str "i", .none)]) = .error e ∧
    (e = .fuel ∨ e.isSerde = true) :=
  C33_none (env := C33Ex.env) (n := 9) (cd := C33Ex.cdC) (f := C33Ex.fi) (dk := .plain) C33Ex.plain rfl rfl rfl C33Ex.plain_i rfl
    (fun num h => by cases h; exact ⟨_, rfl⟩) rfl (Ex.all_post rfl) (Ex.all_sig rfl)

/-- With the JSON number hook a numeral string is not converted for a float field, though `float("15")` would do. -/
theorem C33_false_json_float :
    Converts C33Ex.env .float (.str "15") (.float (.fin 15)) ∧
    fromDict C33Ex.env {} 9 (.cls "C") (.dict .plain [(.str "i", .int 1), (.str "xs", .list []), (.str "x", .str "15")]) =
      .ok (.inst "C" [("i", .int 1), ("xs", .list []), ("x", .float (.fin 15)), ("u", .int 0)]) ∧
    fromDict C33Ex.env { numbers := some (jsonNumbers Ex.W) } 9 (.cls "C")
      (.dict .plain [(.str "i", .int 1), (.str "xs", .list []), (.str "x", .str "15")]) = .error (.wrap (.py .serde)) :=
  ⟨.floatStr rfl, rfl, rfl⟩

/-- The members of a union are not coerced: `"15"` is rejected by `int | list[int]`. -/
theorem C33_false_union :
    fromDict C33Ex.env {} 9 (.cls "C") (.dict .plain [(.str "i", .int 1), (.str "xs", .list []), (.str "u", .str "15")]) =
      .error (.wrap (.serde "union")) := rfl

end Verif.Props
