import Verif.Lemmas.Agree
import Verif.Lemmas.FieldRun
import Verif.Lemmas.FieldSe
import Verif.Props.C26
import Verif.Examples.World
/-!
# C44: different unions and literals do not interfere

Full statement: "Two fields of different union (or Literal) types in one class each use their own variants."

The code looks the function of a union or Literal up by a name made from the names of its members. Proved (partial): as long as no two
different unions (or Literals) met in a class have the same function name, what a field reads and writes depends on its own annotation only,
not on the other fields of the class. Without the condition the statement is false: `C44_false_literals`, `C44_false_unions`.
-/

namespace Verif.Spec

/-- No two different unions and no two different literals met in the class have the same function name. -/
structure NoNameClash (env : Env) (c : ClassId) : Prop where
  unions : ∀ ts, Reach env true (.cls c) (.union ts) → OwnUnionName env c ts
  lits : ∀ vs, Reach env false (.cls c) (.lit vs) → OwnLitName env c vs

/-- No literal of the annotation stands behind a PEP 695 alias (those are not collected, C46). -/
def LiteralsVisible (env : Env) (t : Ty) : Prop := ∀ vs, Reach env true t (.lit vs) → Reach env false t (.lit vs)

/-- Two classes with the same class-level settings for reading. -/
structure SameReadSettings (cd cd' : ClassDef) : Prop where
  check : cd'.typeCheck = cd.typeCheck
  tagging : cd'.tagging = cd.tagging
  reuse : cd'.reuseDflt = cd.reuseDflt
  tvars : cd'.tvars = cd.tvars
  deser : cd'.classDe = cd.classDe

/-- Two classes with the same class-level settings for writing. -/
structure SameWriteSettings (cd cd' : ClassDef) : Prop where
  check : cd'.typeCheck = cd.typeCheck
  tagging : cd'.tagging = cd.tagging
  reuse : cd'.reuseDflt = cd.reuseDflt
  conv : cd'.convDflt = cd.convDflt
  ser : cd'.classSer = cd.classSer

end Verif.Spec

namespace Verif.Props
open Verif Spec

theorem shared_field {env : Env} {c c'} {cd cd' : ClassDef} {f f' : FieldDef} (hc : env.cls c = some cd) (hc' : env.cls c' = some cd')
    (hf : f ∈ cd.fields) (hf' : f' ∈ cd'.fields) (hs : f.skip = false) (hs' : f'.skip = false) (hty : f'.ty = f.ty)
    (hv : LiteralsVisible env f.ty) : Shared env c c' f.ty :=
  ⟨.step (.field hc hf hs) .refl, .step (hty ▸ .field hc' hf' hs') .refl,
    fun vs h => ⟨.step (.field hc hf hs) (hv vs h), .step (hty ▸ .field hc' hf' hs') (hv vs h)⟩⟩

theorem own_tables {env : Env} {c c'} (h : NoNameClash env c) (h' : NoNameClash env c') :
    Tables env (Shared env c c') (env.unionsOf c) (env.unionsOf c') (env.litsOf c) (env.litsOf c') :=
  shared_tables h.unions h'.unions h.lits h'.lits

/-- **C44** (partial), reading: two classes that both have a field of the same type read it from the same entry to the same value,
whatever other fields, of whatever union and literal types, they have. Missing: classes where function names clash. -/
theorem C44_read_partial {env : Env} {o : DeOpts} {n n' c c'} {cd cd' : ClassDef} {f f' dk dk' kvs kvs' x v v'} (hC : PlainClass env c cd)
    (hC' : PlainClass env c' cd') (hN : NoNameClash env c) (hN' : NoNameClash env c') (hS : SameReadSettings cd cd')
    (hf : PlainField env cd f) (hf' : PlainField env cd' f') (hty : f'.ty = f.ty) (hdf : f'.dflt = f.dflt) (hv : LiteralsVisible env f.ty)
    (hx : getStr (f.conv cd.deCase) kvs = some x) (hx' : getStr (f'.conv cd'.deCase) kvs' = some x)
    (h : fromDict env o n (.cls c) (.dict dk kvs) = .ok v) (h' : fromDict env o n' (.cls c') (.dict dk' kvs') = .ok v') :
    ∃ attrs attrs' w, v = .inst c attrs ∧ v' = .inst c' attrs' ∧ attrs.lookup f.name = some w ∧ attrs'.lookup f'.name = some w := by
  obtain ⟨attrs, w, m, rfl, ha, hb, _⟩ := field_run hC hf hx h
  obtain ⟨attrs', w', m', rfl, ha', hb', _⟩ := field_run hC' hf' hx' h'
  have hb := (deBody_le (deAt_le' env (Nat.le_max_left m m')) _ _).ok hb
  have hb' := (deBody_le (deAt_le' env (Nat.le_max_right m m')) _ _).ok hb'
  have hsim : ArgSim (plainArg cd f (.dict dk kvs)) (plainArg cd' f' (.dict dk' kvs')) :=
    ⟨hty, by unfold plainArg; dsimp only; rw [hf.deser, hf'.deser], hdf, rfl, hf.alias, hf'.alias, rfl, rfl, .key (hx.trans hx'.symm)⟩
  have hQ : Shared env c c' (plainArg cd f (.dict dk kvs)).ty := shared_field hC.cls hC'.cls hf.mem hf'.mem hf.skip hf'.skip hty hv
  have e1 := deBody_agree (own_tables hN hN') (render_agree (own_tables hN hN') (max m m')) (clsDeCx env c cd true (topCall o) (.dict dk kvs))
    (plainArg cd f (.dict dk kvs)) (.inl hQ)
  have e2 := deBody_sim (env := env) (render_sim env (max m m'))
    { clsDeCx env c cd true (topCall o) (.dict dk kvs) with unions := env.unionsOf c', lits := env.litsOf c' } (.dict dk' kvs') _ _ hsim
  have e3 : clsDeCx env c' cd' true (topCall o) (.dict dk' kvs') =
      { clsDeCx env c cd true (topCall o) (.dict dk kvs) with unions := env.unionsOf c', lits := env.litsOf c', data := .dict dk' kvs' } := by
    unfold clsDeCx
    rw [hS.check, hS.tagging, hS.reuse, hS.tvars, hS.deser]
  rw [e3] at hb'
  have e4 : deBody env (deAt env (max m m')) (clsDeCx env c cd true (topCall o) (.dict dk kvs)) (plainArg cd f (.dict dk kvs)) = .ok w' := by
    rw [← hb']
    exact e1.trans e2.symm
  rw [hb] at e4
  cases e4
  exact ⟨attrs, attrs', w, rfl, rfl, ha, ha'⟩

/-- **C44** (partial), writing: two classes that both have a field of the same type write equal attributes alike. -/
theorem C44_write_partial {env : Env} {so : SeOpts} {n n' c c'} {cd cd' : ClassDef} {f f' attrs attrs' a x x' kvs kvs'} (hC : PlainClass env c cd)
    (hC' : PlainClass env c' cd') (hO : OneEntryEach cd) (hO' : OneEntryEach cd') (hN : NoNameClash env c) (hN' : NoNameClash env c')
    (hS : SameWriteSettings cd cd') (hf : WrittenField env cd f) (hf' : WrittenField env cd' f') (hty : f'.ty = f.ty)
    (hv : LiteralsVisible env f.ty) (hu : NotUnion so.c) (ha : attrs.lookup f.name = some a) (ha' : attrs'.lookup f'.name = some a)
    (h : toDict env so n (.inst c attrs) = .ok (.dict .plain kvs)) (h' : toDict env so n' (.inst c' attrs') = .ok (.dict .plain kvs'))
    (hx : (.str (f.conv cd.seCase), x) ∈ kvs) (hx' : (.str (f'.conv cd'.seCase), x') ∈ kvs') : x' = x := by
  obtain ⟨_, he, h1, _⟩ := written_run hC hO hf hu h
  cases he
  obtain ⟨_, he, h1', _⟩ := written_run hC' hO' hf' hu h'
  cases he
  obtain ⟨m, hm⟩ := h1 x hx
  obtain ⟨m', hm'⟩ := h1' x' hx'
  have hm := ((seAt_mono env (show m + 1 ≤ max m m' + 1 by omega)).render _ _).ok hm
  have hm' := ((seAt_mono env (show m' + 1 ≤ max m m' + 1 by omega)).render _ _).ok hm'
  have hQ : Shared env c c' (seFieldArg f (.ok (.inst c attrs))).ty := shared_field hC.cls hC'.cls hf.mem hf'.mem hf.skip hf'.skip hty hv
  have e1 := seRender_agree (own_tables hN hN') (max m m' + 1) (topSeCx env c cd true so) (seFieldArg f (.ok (.inst c attrs))) (.inl hQ)
  have e2 : seFieldArg f' (.ok (.inst c' attrs')) = seFieldArg f (.ok (.inst c attrs)) := by
    unfold seFieldArg getAttr; dsimp only
    rw [hty, hf.ser, hf'.ser, hf.flat, hf'.flat, ha, ha']
  have e3 : topSeCx env c' cd' true so = { topSeCx env c cd true so with unions := env.unionsOf c' } := by
    unfold topSeCx clsSeCx
    rw [hS.check, hS.tagging, hS.reuse, hS.conv, hS.ser]
  rw [e2, e3] at hm'
  have : (seAt env (max m m' + 1)).render (topSeCx env c cd true so) (seFieldArg f (.ok (.inst c attrs))) = .ok x' := e1.trans hm'
  rw [hm] at this
  cases this; rfl

/-- **C44** (partial) The value of a union field has passed the check of one of the field's own variants, under every tagging. -/
theorem C44_variants_partial {env : Env} {o : DeOpts} {n c} {cd : ClassDef} {f ts dk kvs x v} (hC : PlainClass env c cd) (hN : NoNameClash env c)
    (hf : PlainField env cd f) (hty : f.ty = .union ts) (ho : (Ty.union ts).isOpt = false)
    (hx : getStr (f.conv cd.deCase) kvs = some x) (h : fromDict env o n (.cls c) (.dict dk kvs) = .ok v) :
    ∃ attrs w t, v = .inst c attrs ∧ attrs.lookup f.name = some w ∧ t ∈ ts ∧ Checked env t w := by
  have hr : Reach env true (.cls c) (.union ts) := .step (.field hC.cls hf.mem hf.skip) (hty ▸ .refl)
  obtain ⟨attrs, w, m, rfl, ha, hd⟩ := field_union_run hC.cls hC.dict hC.post hC.names hf.mem hf.renderable hC.global hty ho hf.flat hf.alias hf.deser
    (by rw [← hty]; exact hf.noCls) (findUnion_own hr (hN.unions _ hr)) hx h
  obtain ⟨pre, t, post, rfl, hm, _⟩ := deUnion_ok.1 hd
  obtain ⟨_, _, _, _, hch⟩ := deMember_ok.1 hm
  exact ⟨attrs, w, t, rfl, ha, by simp, hch⟩

/-! ## Witnesses and examples -/

namespace C44Ex
def oneTwo : List Ty := [.prim .int, .prim .str]
def twoOne : List Ty := [.prim .str, .prim .bool]
/-- Two union fields and a Literal, and a class with one of the unions alone. -/
def cdA : ClassDef := { name := "A", mro := ["A"], fields := [{ name := "x", ty := .union oneTwo }, { name := "y", ty := .union twoOne },
  { name := "z", ty := .lit [.str "a"] }] }
def cdB : ClassDef := { name := "B", mro := ["B"], fields := [{ name := "q", ty := .union twoOne }] }
/-- `p: Literal["a-b"]; q: Literal["a_b"]`, type_check=disabled. -/
def cdL : ClassDef := { name := "L", mro := ["L"], typeCheck := .disabled, fields := [{ name := "p", ty := .lit [.str "a-b"] }, { name := "q", ty := .lit [.str "a_b"] }] }
/-- Two modules each define a class `Foo`: `p: Union[m1.Foo, int]; q: Union[m2.Foo, int]`, and the same with `p` alone. -/
def cd1 : ClassDef := { name := "Foo", mro := ["m1.Foo"], fields := [{ name := "a", ty := .prim .int }] }
def cd2 : ClassDef := { name := "Foo", mro := ["m2.Foo"], fields := [{ name := "b", ty := .prim .int }] }
def cdU : ClassDef := { name := "U", mro := ["U"], fields := [{ name := "p", ty := .union [.cls "m1.Foo", .prim .int] },
  { name := "q", ty := .union [.cls "m2.Foo", .prim .int] }] }
def cdV : ClassDef := { name := "V", mro := ["V"], fields := [{ name := "p", ty := .union [.cls "m1.Foo", .prim .int] }] }
def env : Env := Ex.mk [("A", cdA), ("B", cdB), ("L", cdL), ("m1.Foo", cd1), ("m2.Foo", cd2), ("U", cdU), ("V", cdV)]

theorem plain_ok {c : ClassId} {cd : ClassDef} (h : env.cls c = some cd) (h1 : cd.transparent = false) (h2 : cd.postInit = none)
    (h3 : (cd.fields.map (·.name)).Nodup) : PlainClass env c cd := ⟨h, h1, h2, h3, ⟨by simp [env, Ex.mk], by simp [env, Ex.mk]⟩⟩

theorem clashA : NoNameClash env "A" where
  unions := by
    intro ts hr us hr' hn
    have h : ts ∈ [oneTwo, twoOne] := (unionsOf_iff (env := env) (c := "A")).2 hr
    have h' : us ∈ [oneTwo, twoOne] := (unionsOf_iff (env := env) (c := "A")).2 hr'
    simp only [List.mem_cons, List.not_mem_nil, or_false] at h h'
    rcases h with rfl | rfl <;> rcases h' with rfl | rfl
    · rfl
    · exact absurd hn (by decide)
    · exact absurd hn (by decide)
    · rfl
  lits := by
    intro ts hr us hr' hn
    have h : ts ∈ [[Val.str "a"]] := (litsOf_iff (env := env) (c := "A")).2 hr
    have h' : us ∈ [[Val.str "a"]] := (litsOf_iff (env := env) (c := "A")).2 hr'
    simp only [List.mem_cons, List.not_mem_nil, or_false] at h h'
    rw [h, h']

theorem clashB : NoNameClash env "B" where
  unions := by
    intro ts hr us hr' hn
    have h : ts ∈ [twoOne] := (unionsOf_iff (env := env) (c := "B")).2 hr
    have h' : us ∈ [twoOne] := (unionsOf_iff (env := env) (c := "B")).2 hr'
    simp only [List.mem_cons, List.not_mem_nil, or_false] at h h'
    rw [h, h']
  lits := by
    intro ts hr
    have h : ts ∈ ([] : List (List Val)) := (litsOf_iff (env := env) (c := "B")).2 hr
    cases h

theorem visible : LiteralsVisible env (.union twoOne) := by
  intro vs h
  cases h with
  | step hp hr =>
    cases hp with
    | union hm =>
      simp only [twoOne, List.mem_cons, List.not_mem_nil, or_false] at hm
      rcases hm with rfl | rfl <;> cases hr with | step hp _ => cases hp
end C44Ex

example : ∃ attrs attrs' w, Val.inst "A" [("x", .int 1), ("y", .bool true), ("z", .str "a")] = .inst "A" attrs ∧
    Val.inst "B" [("q", .bool true)] = .inst "B" attrs' ∧ attrs.lookup "y" = some w ∧ attrs'.lookup "q" = some w :=
  C44_read_partial (env := C44Ex.env) (o := {}) (n := 9) (n' := 9) (dk := .plain) (dk' := .plain) (cd := C44Ex.cdA) (cd' := C44Ex.cdB)
    (f := { name := "y", ty := .union C44Ex.twoOne }) (f' := { name := "q", ty := .union C44Ex.twoOne })
    (kvs := [(.str "x", .int 1), (.str "y", .bool true), (.str "z", .str "a")]) (kvs' := [(.str "q", .bool true)])
    (C44Ex.plain_ok rfl rfl rfl (by decide)) (C44Ex.plain_ok rfl rfl rfl (by decide)) C44Ex.clashA C44Ex.clashB ⟨rfl, rfl, rfl, rfl, rfl⟩
    ⟨by simp [C44Ex.cdA], rfl, rfl, rfl, rfl, rfl, rfl, by simp [C44Ex.env, Ex.mk, C44Ex.cdA]⟩
    ⟨by simp [C44Ex.cdB], rfl, rfl, rfl, rfl, rfl, rfl, by simp [C44Ex.env, Ex.mk, C44Ex.cdB]⟩ rfl rfl C44Ex.visible rfl rfl rfl rfl

example : Val.bool true = Val.bool true :=
  C44_write_partial (env := C44Ex.env) (so := {}) (n := 9) (n' := 9) (cd := C44Ex.cdA) (cd' := C44Ex.cdB) (c := "A") (c' := "B")
    (f := { name := "y", ty := .union C44Ex.twoOne }) (f' := { name := "q", ty := .union C44Ex.twoOne }) (a := .bool true)
    (attrs := [("x", .int 1), ("y", .bool true), ("z", .str "a")]) (attrs' := [("q", .bool true)])
    (kvs := [(.str "x", .int 1), (.str "y", .bool true), (.str "z", .str "a")]) (kvs' := [(.str "q", .bool true)])
    (C44Ex.plain_ok rfl rfl rfl (by decide)) (C44Ex.plain_ok rfl rfl rfl (by decide)) ⟨by simp [C44Ex.cdA], by decide⟩ ⟨by simp [C44Ex.cdB], by decide⟩
    C44Ex.clashA C44Ex.clashB ⟨rfl, rfl, rfl, rfl, rfl⟩
    ⟨by simp [C44Ex.cdA], rfl, rfl, rfl, rfl, by simp [C44Ex.env, Ex.mk, C44Ex.cdA]⟩
    ⟨by simp [C44Ex.cdB], rfl, rfl, rfl, rfl, by simp [C44Ex.env, Ex.mk, C44Ex.cdB]⟩ rfl C44Ex.visible (.inl rfl) rfl rfl rfl rfl
    (by simp [FieldDef.conv, C44Ex.cdA]) (by simp [FieldDef.conv, C44Ex.cdB])

example : ∃ attrs w t, Val.inst "A" [("x", .int 1), ("y", .bool true), ("z", .str "a")] = .inst "A" attrs ∧ attrs.lookup "y" = some w ∧
    t ∈ C44Ex.twoOne ∧ Checked C44Ex.env t w :=
  C44_variants_partial (env := C44Ex.env) (o := {}) (n := 9) (dk := .plain) (cd := C44Ex.cdA) (f := { name := "y", ty := .union C44Ex.twoOne })
    (kvs := [(.str "x", .int 1), (.str "y", .bool true), (.str "z", .str "a")]) (C44Ex.plain_ok rfl rfl rfl (by decide)) C44Ex.clashA
    ⟨by simp [C44Ex.cdA], rfl, rfl, rfl, rfl, rfl, rfl, by simp [C44Ex.env, Ex.mk, C44Ex.cdA]⟩ rfl rfl rfl rfl

/-- `p: Literal["a-b"]; q: Literal["a_b"]`: both functions are called the same, so `p` rejects its only value and takes the other's. -/
theorem C44_false_literals :
    (∃ e, fromDict C44Ex.env {} 9 (.cls "L") (.dict .plain [(.str "p", .str "a-b"), (.str "q", .str "a_b")]) = .error e) ∧
      fromDict C44Ex.env {} 9 (.cls "L") (.dict .plain [(.str "p", .str "a_b"), (.str "q", .str "a_b")]) =
        .ok (.inst "L" [("p", .str "a_b"), ("q", .str "a_b")]) := ⟨⟨_, rfl⟩, rfl⟩

/-- Unions over two classes of the same name: the field `p` cannot be written or read in the class that has both, and can in the class
that has `p` alone. -/
theorem C44_false_unions :
    (∃ e, toDict C44Ex.env {} 9 (.inst "U" [("p", .inst "m1.Foo" [("a", .int 1)]), ("q", .int 2)]) = .error e) ∧
      (∃ e, fromDict C44Ex.env {} 9 (.cls "U") (.dict .plain [(.str "p", .dict .plain [(.str "Foo", .dict .plain [(.str "a", .int 1)])]), (.str "q", .int 2)]) =
        .error e) ∧
      toDict C44Ex.env {} 9 (.inst "V" [("p", .inst "m1.Foo" [("a", .int 1)])]) =
        .ok (.dict .plain [(.str "p", .dict .plain [(.str "Foo", .dict .plain [(.str "a", .int 1)])])]) ∧
      fromDict C44Ex.env {} 9 (.cls "V") (.dict .plain [(.str "p", .dict .plain [(.str "Foo", .dict .plain [(.str "a", .int 1)])])]) =
        .ok (.inst "V" [("p", .inst "m1.Foo" [("a", .int 1)])]) := ⟨⟨_, rfl⟩, ⟨_, rfl⟩, rfl, rfl⟩

end Verif.Props
