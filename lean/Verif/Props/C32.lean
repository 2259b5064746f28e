import Verif.Lemmas.Conform
import Verif.Lemmas.FieldRun
import Verif.Props.C34
import Verif.Examples.Lookup
/-!
# C32: strict type checking is sound

Full statement: "With type_check=strict, whenever deserialization returns an object, constructing it has passed the run-time type check:
each field's value is an instance of its declared type (containers checked on a sampled element), and a primitive field holds exactly that
primitive type; otherwise SerdeError is raised."

`Conforms` says what an instance of the declared type is; the sampled elements are chosen by the arbitrary `env.P`. "Exactly" is false of
the code: an int field holds `True` (`C32_false_exact`), as Python's `isinstance` and hence beartype accept it. A field that deserialization
does not pass to the constructor keeps its default, which is not checked (`C32_false_default`).
-/

namespace Verif.Props
open Verif Spec

/-- Whatever calls the function generated for a strict class: the attributes of the object conform or are declared defaults. -/
theorem C32_every_object {env : Env} {n named c} {cd : ClassDef} {call d v} (hc : env.cls c = some cd) (hs : cd.typeCheck = .strict)
    (hp : cd.postInit = none) (hn : (cd.fields.map (·.name)).Nodup) (h : (deAt env n).cls named c call d = .ok v) :
    ∃ attrs, v = .inst c attrs ∧ ∀ f ∈ cd.fields, ∀ w, attrs.lookup f.name = some w → Conforms env f.ty w ∨ f.dflt = some w := by
  cases n with
  | zero => cases h
  | succ n =>
    rw [deAt_cls] at h
    unfold deClsF at h
    rw [hc] at h
    dsimp only at h
    split at h
    · cases h
    · rename_i pos kw _
      have hi : ∃ attrs, v = .inst c attrs := by
        unfold construct at h
        dsimp only at h
        rw [hp] at h
        split at h
        · cases h
        · split at h
          · cases h
          · split at h
            · cases h
            · cases h; exact ⟨_, rfl⟩
      obtain ⟨attrs, rfl⟩ := hi
      refine ⟨attrs, rfl, fun f hf w hl => ?_⟩
      rcases construct_checked hs hp hn h hf hl with h | h
      · exact .inl (bearable_conforms _ _ h)
      · exact .inr h

/-- **C32** `from_dict` and `from_tuple` of a strict class: every attribute of the result conforms to its declared type or is the
declared default. -/
theorem C32_object_partial {env : Env} {o : DeOpts} {n c} {cd : ClassDef} {d v} (hc : env.cls c = some cd) (hs : cd.typeCheck = .strict)
    (hp : cd.postInit = none) (hn : (cd.fields.map (·.name)).Nodup) (hg : NoGlobal env c) (hd : IsData c d)
    (h : fromDict env o n (.cls c) d = .ok v ∨ fromTuple env o n (.cls c) d = .ok v) :
    ∃ attrs, v = .inst c attrs ∧ ∀ f ∈ cd.fields, ∀ w, attrs.lookup f.name = some w → Conforms env f.ty w ∨ f.dflt = some w := by
  have key : ∀ named, (deAt env n).fromObj named o.reuse o.numbers o.tagging (.cls c) d = .ok v →
      ∃ attrs, v = .inst c attrs ∧ ∀ f ∈ cd.fields, ∀ w, attrs.lookup f.name = some w → Conforms env f.ty w ∨ f.dflt = some w := by
    intro named h
    obtain ⟨m, rfl, hm⟩ := fromObj_cls_cases hg.de hd h (by intro h; cases h)
    exact C32_every_object (n := m + 1) hc hs hp hn (wrapUser_ok.1 hm)
  exact h.elim (key true) (key false)

/-- **C32** A strict class with a `__post_init__`: what it is given conforms; the object has the attributes it leaves. -/
theorem C32_post_init_partial {env : Env} {o : DeOpts} {n c} {cd : ClassDef} {d v p} (hc : env.cls c = some cd) (hs : cd.typeCheck = .strict)
    (hp : cd.postInit = some p) (hn : (cd.fields.map (·.name)).Nodup) (hg : NoGlobal env c) (hd : IsData c d)
    (h : fromDict env o n (.cls c) d = .ok v ∨ fromTuple env o n (.cls c) d = .ok v) :
    ∃ given attrs, v = .inst c attrs ∧ p given = .ok attrs ∧ ∀ f ∈ cd.fields, ∀ w, given.lookup f.name = some w → Conforms env f.ty w ∨ f.dflt = some w := by
  have key : ∀ named, (deAt env n).fromObj named o.reuse o.numbers o.tagging (.cls c) d = .ok v →
      ∃ given attrs, v = .inst c attrs ∧ p given = .ok attrs ∧ ∀ f ∈ cd.fields, ∀ w, given.lookup f.name = some w → Conforms env f.ty w ∨ f.dflt = some w := by
    intro named h
    obtain ⟨m, rfl, hm⟩ := fromObj_cls_cases hg.de hd h (by intro h; cases h)
    have h := wrapUser_ok.1 hm
    unfold deClsF at h
    rw [hc] at h
    dsimp only at h
    split at h
    · cases h
    · obtain ⟨given, attrs, h1, h2, _, h3⟩ := construct_checked_post hs hn h
      exact ⟨given, attrs, h1, h3 p hp, fun f hf w hl => (h2 f hf w hl).imp (bearable_conforms _ _) id⟩
  exact h.elim (key true) (key false)

/-- **C32** `from_dict` of a strict class: every field that is read conforms to its declared type, defaults included. -/
theorem C32_read_fields {env : Env} {o : DeOpts} {n c} {cd : ClassDef} {d v} (hC : PlainClass env c cd) (hs : cd.typeCheck = .strict) (hd : IsData c d)
    (h : fromDict env o n (.cls c) d = .ok v) :
    ∃ attrs, v = .inst c attrs ∧ ∀ f ∈ cd.fields, f.init = true → f.skip = false → f.skipDe = false →
      ∃ w, attrs.lookup f.name = some w ∧ Conforms env f.ty w := by
  obtain ⟨m, rfl, hm⟩ := fromObj_cls_cases hC.global.de hd h (by intro h; cases h)
  have hm := wrapUser_ok.1 hm
  rw [deClsF_named hC.cls hC.dict] at hm
  split at hm
  · cases hm
  · cases hm
  · split at hm
    · cases hm
    · obtain ⟨attrs, rfl⟩ := decodeCls_inst hm
      obtain ⟨val, _, h2, rfl⟩ := (decodeCls_fieldwise hC.post hC.names).1 hm
      refine ⟨_, rfl, fun f hf h3 h4 h5 => ?_⟩
      have hr : f.renderable = true := by unfold FieldDef.renderable; rw [h3, h4, h5]; rfl
      refine ⟨val f, ?_, bearable_conforms _ _ (h2.strict hs f hf hr)⟩
      rw [attrsOf_lookup hC.names hf, hr, if_pos rfl]

/-- **C32** A strict primitive field holds the input value itself, and that is an instance of the primitive type. -/
theorem C32_prim {env : Env} {o : DeOpts} {n c} {cd : ClassDef} {f p dk kvs x v} (hC : PlainClass env c cd) (hs : cd.typeCheck = .strict)
    (hf : PlainField env cd f) (hty : f.ty = .prim p) (hnum : o.numbers = none ∨ p ≠ .float) (hx : getStr (f.conv cd.deCase) kvs = some x)
    (h : fromDict env o n (.cls c) (.dict dk kvs) = .ok v) :
    ∃ attrs, v = .inst c attrs ∧ attrs.lookup f.name = some x ∧ IsA env (.prim p) x := by
  obtain ⟨attrs, w, m, rfl, ha, hb, hst⟩ := field_run hC hf hx h
  have h0 := hst hs
  unfold deBody at hb
  rw [pickDe_plain hf] at hb
  dsimp only at hb
  have h1 : (plainArg cd f (.dict dk kvs)).deser = none := hf.deser
  have h2 : (plainArg cd f (.dict dk kvs)).ty = .prim p := hty
  rw [h1, h2] at hb
  dsimp only at hb
  have h3 : ∀ cx, primData cx (plainArg cd f (.dict dk kvs)) = .ok x := by
    intro cx
    unfold primData
    have : (plainArg cd f (.dict dk kvs)).alias = [] := hf.alias
    rw [this]
    exact plainArg_data hx
  rw [h3] at hb
  dsimp only at hb
  have h4 : (clsDeCx env c cd true (topCall o) (.dict dk kvs)).coerce = false := by
    show (cd.typeCheck == .coerce) = false
    rw [hs]; rfl
  have h5 : (clsDeCx env c cd true (topCall o) (.dict dk kvs)).numbers = o.numbers := rfl
  have hw : w = x := by
    rw [h4, h5] at hb
    split at hb
    · rename_i hnu
      rcases hnum with h | h
      · rw [hnu] at h; cases h
      · exact absurd rfl h
    · simp only [Bool.false_eq_true, if_false] at hb
      exact (Except.ok.inj hb).symm
  subst hw
  rw [hty] at h0
  exact ⟨attrs, rfl, ha, isPrimInst_iff.1 h0⟩

/-- **C32** Anything else is rejected with SerdeError. -/
theorem C32_prim_reject {env : Env} {o : DeOpts} {n c} {cd : ClassDef} {f p dk kvs x} (hC : PlainClass env c cd) (hs : cd.typeCheck = .strict)
    (hf : PlainField env cd f) (hty : f.ty = .prim p) (hnum : o.numbers = none ∨ p ≠ .float) (hx : getStr (f.conv cd.deCase) kvs = some x)
    (hno : ¬ IsA env (.prim p) x) (hpost : ∀ c cd, env.cls c = some cd → cd.postInit = none) (hsig : ∀ c cd, env.cls c = some cd → SigOk true cd) :
    ∃ e, fromDict env o n (.cls c) (.dict dk kvs) = .error e ∧ (e = .fuel ∨ e.isSerde = true) := by
  cases h : fromDict env o n (.cls c) (.dict dk kvs) with
  | ok v =>
    obtain ⟨_, _, _, h⟩ := C32_prim hC hs hf hty hnum hx h
    exact absurd h hno
  | error e => exact ⟨e, rfl, C34_only_serde hpost hsig h⟩

/-! ## Witnesses and examples -/

namespace C32Ex
def cdS : ClassDef := { name := "S", mro := ["S"], typeCheck := .strict, fields := [{ name := "i", ty := .prim .int },
  { name := "xs", ty := .list .list (.prim .str), dflt := some (.list []) }] }
/-- A skipped field whose default does not have the declared type. -/
def cdD : ClassDef := { name := "D", mro := ["D"], typeCheck := .strict, fields := [{ name := "i", ty := .prim .int, skip := true, dflt := some (.str "no") }] }
/-- `__post_init__` replaces the value. -/
def post : List (String × Val) → Except PErr (List (String × Val)) := fun _ => .ok [("i", .str "no")]
def cdP : ClassDef := { name := "P", mro := ["P"], typeCheck := .strict, postInit := some post, fields := [{ name := "i", ty := .prim .int }] }
def env : Env := Ex.mk [("S", cdS), ("D", cdD)]
def envP : Env := Ex.mk [("P", cdP)]
theorem plainS : PlainClass env "S" cdS := ⟨rfl, rfl, rfl, by decide, ⟨by simp [env, Ex.mk], by simp [env, Ex.mk]⟩⟩
end C32Ex

example : ∃ attrs, Val.inst "S" [("i", .int 1), ("xs", .list [.str "a"])] = .inst "S" attrs ∧
    ∀ f ∈ C32Ex.cdS.fields, f.init = true → f.skip = false → f.skipDe = false → ∃ w, attrs.lookup f.name = some w ∧ Conforms C32Ex.env f.ty w :=
  C32_read_fields (env := C32Ex.env) (o := {}) (n := 9) (d := .dict .plain [(.str "i", .int 1), (.str "xs", .list [.str "a"])]) C32Ex.plainS rfl
    (fun _ h => by cases h) rfl

example : ∃ attrs, Val.inst "S" [("i", .int 1), ("xs", .list [.str "a"])] = .inst "S" attrs ∧
    ∀ f ∈ C32Ex.cdS.fields, ∀ w, attrs.lookup f.name = some w → Conforms C32Ex.env f.ty w ∨ f.dflt = some w :=
  C32_object_partial (env := C32Ex.env) (o := {}) (n := 9) (d := .tuple [.int 1, .list [.str "a"]]) rfl rfl rfl (by decide)
    ⟨by simp [C32Ex.env, Ex.mk], by simp [C32Ex.env, Ex.mk]⟩ (fun _ h => by cases h) (.inr rfl)

example : ∃ attrs, Val.inst "S" [("i", .int 1), ("xs", .list [])] = .inst "S" attrs ∧ attrs.lookup "i" = some (.int 1) ∧
    IsA C32Ex.env (.prim .int) (.int 1) :=
  C32_prim (env := C32Ex.env) (o := {}) (n := 9) (cd := C32Ex.cdS) (f := { name := "i", ty := .prim .int }) (dk := .plain)
    (kvs := [(.str "i", .int 1)]) C32Ex.plainS rfl ⟨by simp [C32Ex.cdS], rfl, rfl, rfl, rfl, rfl, rfl, by simp [C32Ex.env, Ex.mk, C32Ex.cdS]⟩ rfl
    (.inl rfl) rfl rfl

example : ∃ e, fromDict C32Ex.env {} 9 (.cls "S") (.dict .plain [(.str "i", .str "1")]) = .error e ∧ (e = .fuel ∨ e.isSerde = true) :=
  C32_prim_reject (env := C32Ex.env) (o := {}) (n := 9) (cd := C32Ex.cdS) (f := { name := "i", ty := .prim .int }) (p := .int) (dk := .plain)
    (kvs := [(.str "i", .str "1")]) C32Ex.plainS rfl ⟨by simp [C32Ex.cdS], rfl, rfl, rfl, rfl, rfl, rfl, by simp [C32Ex.env, Ex.mk, C32Ex.cdS]⟩ rfl
    (.inl rfl) rfl (by intro h; cases h) (Ex.all_post rfl) (Ex.all_sig rfl)

example : ∃ given attrs, Val.inst "P" [("i", .str "no")] = .inst "P" attrs ∧ C32Ex.post given = .ok attrs ∧
    ∀ f ∈ C32Ex.cdP.fields, ∀ w, given.lookup f.name = some w → Conforms C32Ex.envP f.ty w ∨ f.dflt = some w :=
  C32_post_init_partial (env := C32Ex.envP) (o := {}) (n := 9) (d := .dict .plain [(.str "i", .int 1)]) rfl rfl rfl (by decide)
    ⟨by simp [C32Ex.envP, Ex.mk], by simp [C32Ex.envP, Ex.mk]⟩ (fun _ h => by cases h) (.inl rfl)

/-- What `__post_init__` assigns is not checked. -/
theorem C32_false_post_init :
    fromDict C32Ex.envP {} 9 (.cls "P") (.dict .plain [(.str "i", .int 1)]) = .ok (.inst "P" [("i", .str "no")]) ∧ ¬ Conforms C32Ex.envP (.prim .int) (.str "no") :=
  ⟨rfl, by intro h; cases h with | prim h => cases h⟩

/-- A strict int field accepts `True` and keeps it. -/
theorem C32_false_exact :
    fromDict C32Ex.env {} 9 (.cls "S") (.dict .plain [(.str "i", .bool true)]) = .ok (.inst "S" [("i", .bool true), ("xs", .list [])]) := rfl

/-- The default of a skipped field is not checked. -/
theorem C32_false_default :
    fromDict C32Ex.env {} 9 (.cls "D") (.dict .plain []) = .ok (.inst "D" [("i", .str "no")]) ∧ ¬ Conforms C32Ex.env (.prim .int) (.str "no") :=
  ⟨rfl, by intro h; cases h with | prim h => cases h⟩

end Verif.Props
