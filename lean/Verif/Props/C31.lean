import Verif.Lemmas.FieldSe
import Verif.Lemmas.FieldRun
import Verif.Lemmas.RTCont
import Verif.Examples.World
/-!
# C31: enums

Full statement: "An enum member is serialized as its value and deserialized back to the same member; as a mapping key it survives
conversion of its value to a string, as long as no two members have equal values."

Proved for enums whose member values are strings, ints, bools or floats, pairwise different under Python equality (`EnumOk`). The mapping-key
half through strings needs all values to have one kind, str, int or float (`C31_key_read_partial`): with bool values
(`C31_false_bool_key`) or values of mixed kinds (`C31_false_mixed_key`) it is false of the code.
-/

namespace Verif.Props
open Verif Spec

/-- `k` is the value `w` or, if `w` is a number, a text Python parses as `w`. -/
inductive KeyForm (env : Env) : Val → Val → Prop
  | same {w} : KeyForm env w w
  | int {i s} : env.W.intOfStr s = some i → KeyForm env (.int i) (.str s)
  | float {x s} : env.W.floatOfStr s = some x → KeyForm env (.float x) (.str s)

/-- All member values are ints, all are floats or all are strings. -/
def OneKind (d : EnumDef) : Prop :=
  (∀ m ∈ d.members, ∃ i, m.2 = .int i) ∨ (∀ m ∈ d.members, ∃ x, m.2 = .float x) ∨ ∀ m ∈ d.members, ∃ s, m.2 = .str s

theorem deEnum_form {env : Env} {d : EnumDef} {e m w k} (he : env.enm e = some d) (hd : EnumOk d) (h : (m, w) ∈ d.members)
    (hk : KeyForm env w k) (ho : k = w ∨ OneKind d) : deEnum env e k = .ok (.enum e m) := by
  rcases ho with rfl | ho
  · exact deEnum_value he hd h
  · cases hk with
    | same => exact deEnum_value he hd h
    | int hs =>
      rcases ho with ho | ho | ho
      · exact deEnum_int he hd ho h hs
      · obtain ⟨_, h⟩ := ho _ h; cases h
      · obtain ⟨_, h⟩ := ho _ h; cases h
    | float hs =>
      rcases ho with ho | ho | ho
      · obtain ⟨_, h⟩ := ho _ h; cases h
      · exact deEnum_float he hd ho h hs
      · obtain ⟨_, h⟩ := ho _ h; cases h

/-- **C31** A field holding an enum member is written as the member's value. -/
theorem C31_written {env : Env} {so : SeOpts} {n c} {cd : ClassDef} {f e m w attrs out} {d : EnumDef} (hC : PlainClass env c cd)
    (ho : OneEntryEach cd) (hf : WrittenField env cd f) (hu : NotUnion so.c) (hty : f.ty = .enum e) (he : env.enm e = some d) (hd : EnumOk d)
    (hm : (m, w) ∈ d.members) (ha : attrs.lookup f.name = some (.enum e m)) (h : toDict env so n (.inst c attrs) = .ok out) :
    ∃ kvs, out = .dict .plain kvs ∧ (∀ x, (.str (f.conv cd.seCase), x) ∈ kvs → x = w) ∧
      (¬ HasRule cd f → so.skipNone = false → (.str (f.conv cd.seCase), w) ∈ kvs) := by
  obtain ⟨kvs, rfl, h1, h2⟩ := written_run hC ho hf hu h
  have key : ∀ x, (.str (f.conv cd.seCase), x) ∈ kvs → x = w := by
    intro x hx
    obtain ⟨k, hk⟩ := h1 x hx
    rw [seAt_render] at hk
    unfold renderF at hk
    rw [pickSer_plain hf] at hk
    dsimp only at hk
    have e1 : (seFieldArg f (.ok (.inst c attrs))).ser = none := hf.ser
    have e2 : (seFieldArg f (.ok (.inst c attrs))).ty = .enum e := hty
    have e3 : (seFieldArg f (.ok (.inst c attrs))).v = .ok (.enum e m) := by
      unfold seFieldArg getAttr; dsimp only; rw [ha]
    rw [e1, e2, e3] at hk
    dsimp only at hk
    rw [enumValue_member he hd hm] at hk
    cases hk; rfl
  refine ⟨kvs, rfl, key, fun hr hs => ?_⟩
  obtain ⟨x, hx⟩ := h2 hr hs
  rw [← key x hx]; exact hx

/-- **C31** A member's value (or the text of its number) in the input is read back as that member. -/
theorem C31_read {env : Env} {o : DeOpts} {n c} {cd : ClassDef} {f e m w x dk kvs v} {d : EnumDef} (hC : PlainClass env c cd)
    (hf : PlainField env cd f) (hty : f.ty = .enum e) (he : env.enm e = some d) (hd : EnumOk d) (hm : (m, w) ∈ d.members)
    (hx : getStr (f.conv cd.deCase) kvs = some x) (hk : KeyForm env w x) (hone : x = w ∨ OneKind d)
    (h : fromDict env o n (.cls c) (.dict dk kvs) = .ok v) : ∃ attrs, v = .inst c attrs ∧ attrs.lookup f.name = some (.enum e m) := by
  obtain ⟨attrs, y, k, rfl, ha, hb, _⟩ := field_run hC hf hx h
  refine ⟨attrs, rfl, ?_⟩
  unfold deBody at hb
  rw [pickDe_plain hf] at hb
  dsimp only at hb
  have h1 : (plainArg cd f (.dict dk kvs)).deser = none := hf.deser
  have h2 : (plainArg cd f (.dict dk kvs)).ty = .enum e := hty
  rw [h1, h2] at hb
  dsimp only at hb
  have h3 : ∀ cx, primData cx (plainArg cd f (.dict dk kvs)) = .ok x := by
    intro cx
    unfold primData
    have : (plainArg cd f (.dict dk kvs)).alias = [] := hf.alias
    rw [this]
    exact plainArg_data hx
  rw [h3] at hb
  dsimp only at hb
  rw [deEnum_form he hd hm hk hone] at hb
  cases hb
  exact ha

/-- **C31** A value that is no member's value and no text of one is rejected. -/
theorem C31_reject {env : Env} {o : DeOpts} {n c} {cd : ClassDef} {f e x dk kvs} {d : EnumDef} (hC : PlainClass env c cd)
    (hf : PlainField env cd f) (hty : f.ty = .enum e) (he : env.enm e = some d)
    (hx : getStr (f.conv cd.deCase) kvs = some x) (hno : ∀ m ∈ d.members, pyEq m.2 x = false) (hs : ∀ s, x ≠ .str s) (hl : ∀ xs, x ≠ .list xs)
    (hen : ∀ e m, x ≠ .enum e m) :
    ∃ er, fromDict env o n (.cls c) (.dict dk kvs) = .error er := by
  refine field_fail hC hf hx (fun m w hb => ?_)
  unfold deBody at hb
  rw [pickDe_plain hf] at hb
  dsimp only at hb
  have h1 : (plainArg cd f (.dict dk kvs)).deser = none := hf.deser
  have h2 : (plainArg cd f (.dict dk kvs)).ty = .enum e := hty
  rw [h1, h2] at hb
  dsimp only at hb
  have h3 : ∀ cx, primData cx (plainArg cd f (.dict dk kvs)) = .ok x := by
    intro cx
    unfold primData
    have : (plainArg cd f (.dict dk kvs)).alias = [] := hf.alias
    rw [this]
    exact plainArg_data hx
  rw [h3] at hb
  dsimp only at hb
  unfold deEnum at hb
  rw [he] at hb
  dsimp only at hb
  have h4 : enumCall d e x = .error .type ∨ enumCall d e x = .error .value := by
    have hnone : d.members.find? (fun m => pyEq m.2 x) = none := List.find?_eq_none.2 (fun p hp => by simp [hno p hp])
    unfold enumCall
    rw [hnone]
    cases x with
    | enum e' m => exact absurd rfl (hen _ _)
    | _ => cases d.members with
      | nil => exact .inl rfl
      | cons => exact .inr rfl
  rcases h4 with h4 | h4
  · rw [h4] at hb; cases hb
  · rw [h4] at hb
    dsimp only at hb
    cases hm : d.members with
    | nil => rw [hm] at hb; cases hb
    | cons p ps =>
      rw [hm] at hb
      cases x with
      | str s => exact hs _ rfl
      | list xs => exact hl _ rfl
      | _ => cases hb

/-! ## Mapping keys -/

theorem hashableL_enums {h : ClassId → Bool} {e} {ms : List String} : hashableL h (ms.map (Val.enum e)) = true := by
  induction ms with
  | nil => rfl
  | cons m ms ih => simp [hashableL, hashable, ih]

theorem enums_distinct {e} {ms : List String} (h : ms.Nodup) : (ms.map (Val.enum e)).Pairwise (fun a b => pyEq a b = false) := by
  rw [List.pairwise_map]
  refine h.imp ?_
  intro a b hab
  simp [pyEq, hab]

theorem mapR_keys {g : Val × Val → Res (Val × Val)} {ps : List (Val × Val)} {qs key} (h : mapR g ps = .ok qs)
    (hk : ∀ p ∈ ps, ∀ q, g p = .ok q → q.1 = key p) : qs.map (·.1) = ps.map key := by
  induction ps generalizing qs with
  | nil => cases h; rfl
  | cons p ps ih =>
    unfold mapR at h
    cases hg : g p with
    | error e => rw [hg] at h; cases h
    | ok q =>
      rw [hg] at h
      dsimp only at h
      cases hr : mapR g ps with
      | error e => rw [hr] at h; cases h
      | ok qs' =>
        rw [hr] at h
        cases h
        simp only [List.map_cons]
        rw [hk p (by simp) q hg, ih hr (fun p hp => hk p (List.mem_cons_of_mem _ hp))]

/-- **C31** (partial) A mapping keyed by members of an enum is read from the members' values or, for numbers, their texts: the keys of the
result are the members, in the order of the input. Missing: enums with values of mixed kinds or bool values, when the keys have become
strings. -/
theorem C31_key_read_partial {env : Env} {o : DeOpts} {n c} {cd : ClassDef} {f e k vt dk dk' kvs v} {d : EnumDef} {key : Val → Val → String}
    {es : List (Val × Val)} (hC : PlainClass env c cd)
    (hf : PlainField env cd f) (hty : f.ty = .dict k (.enum e) vt) (he : env.enm e = some d) (hd : EnumOk d)
    (hno : ∀ s ∈ env.gde ++ cd.classDe.toList, s.handles (.enum e) = false)
    (hx : getStr (f.conv cd.deCase) kvs = some (.dict dk' es))
    (hk : ∀ p ∈ es, ∃ w, (key p.1 p.2, w) ∈ d.members ∧ KeyForm env w p.1 ∧ (p.1 = w ∨ OneKind d))
    (hn : (es.map (fun p => key p.1 p.2)).Nodup)
    (h : fromDict env o n (.cls c) (.dict dk kvs) = .ok v) :
    ∃ attrs k' es', v = .inst c attrs ∧ attrs.lookup f.name = some (.dict k' es') ∧
      es'.map (·.1) = es.map (fun p => .enum e (key p.1 p.2)) := by
  obtain ⟨attrs, y, m, rfl, ha, hb, _⟩ := field_run hC hf hx h
  unfold deBody at hb
  rw [pickDe_plain hf] at hb
  dsimp only at hb
  have h1 : (plainArg cd f (.dict dk kvs)).deser = none := hf.deser
  have h2 : (plainArg cd f (.dict dk kvs)).ty = .dict k (.enum e) vt := hty
  have h4 : (plainArg cd f (.dict dk kvs)).alias = [] := hf.alias
  rw [h1, h2] at hb
  dsimp only at hb
  rw [plainArg_data hx, h4] at hb
  simp only [pyItems, numKey] at hb
  split at hb
  · rename_i es' hes
    have hkeys := mapR_keys (key := fun p => .enum e (key p.1 p.2)) hes (by
      intro p hp q hq
      obtain ⟨w, hw1, hw2, hw3⟩ := hk p hp
      cases m with
      | zero => cases hq
      | succ m =>
      split at hq
      · cases hq
      · rename_i k' hk'
        have hk'' : k' = .enum e (key p.1 p.2) := by
          rw [deAt_render] at hk'
          unfold deRenderF deBody at hk'
          dsimp only at hk'
          have hp : pickDe (clsDeCx env c cd true (topCall o) (.dict dk kvs)).des
              { ty := Ty.enum e, name := "k", conv := "k", src := .val (.ok p.1) } = none := by
            unfold pickDe
            dsimp only
            rw [List.find?_eq_none]
            intro s hs
            rw [hno s (by rw [List.mem_reverse] at hs; exact hs)]
            simp
          rw [hp] at hk'
          dsimp only [primData, DeArg.data] at hk'
          rw [deEnum_form he hd hw1 hw2 hw3] at hk'
          cases hk'; rfl
        split at hq
        · cases hq; exact hk''
        · cases hq)
    have heq : es.map (fun p => Val.enum e (key p.1 p.2)) = (es.map (fun p => key p.1 p.2)).map (Val.enum e) := by simp
    rw [mkDict_id (by rw [hkeys, heq]; exact hashableL_enums) (by rw [hkeys, heq]; exact enums_distinct hn)] at hb
    cases hb
    exact ⟨attrs, _, es', rfl, ha, hkeys⟩
  · cases hb

theorem hashableL_vals {h : ClassId → Bool} {vs : List Val} (hv : ∀ v ∈ vs, EnumVal v) : hashableL h vs = true := by
  induction vs with
  | nil => rfl
  | cons v vs ih =>
    unfold hashableL
    rw [ih (fun v h => hv v (List.mem_cons_of_mem _ h))]
    cases hv v (by simp) <;> rfl

/-- **C31** A mapping keyed by members of an enum is written with the members' values as keys, in order. -/
theorem C31_key_written {env : Env} {so : SeOpts} {n c} {cd : ClassDef} {f e k k' vt attrs out} {d : EnumDef} {val : Val → Val}
    {es : List (Val × Val)} (hC : PlainClass env c cd)
    (ho : OneEntryEach cd) (hf : WrittenField env cd f) (hu : NotUnion so.c) (hty : f.ty = .dict k (.enum e) vt) (he : env.enm e = some d)
    (hd : EnumOk d) (hno : ∀ s ∈ env.gser ++ cd.classSer.toList, s.handles (.enum e) = false)
    (hk : ∀ p ∈ es, ∃ m, p.1 = .enum e m ∧ (m, val p.1) ∈ d.members) (hn : (es.map (·.1)).Nodup)
    (ha : attrs.lookup f.name = some (.dict k' es)) (h : toDict env so n (.inst c attrs) = .ok out) :
    ∃ kvs, out = .dict .plain kvs ∧
      ∀ x, (.str (f.conv cd.seCase), x) ∈ kvs → ∃ es', x = .dict .plain es' ∧ es'.map (·.1) = es.map (fun p => val p.1) := by
  obtain ⟨kvs, rfl, h1, _⟩ := written_run hC ho hf hu h
  refine ⟨kvs, rfl, fun x hx => ?_⟩
  obtain ⟨m, hm⟩ := h1 x hx
  rw [seAt_render] at hm
  unfold renderF at hm
  rw [pickSer_plain hf] at hm
  dsimp only at hm
  have e1 : (seFieldArg f (.ok (.inst c attrs))).ser = none := hf.ser
  have e2 : (seFieldArg f (.ok (.inst c attrs))).ty = .dict k (.enum e) vt := hty
  have e3 : (seFieldArg f (.ok (.inst c attrs))).v = .ok (.dict k' es) := by
    unfold seFieldArg getAttr; dsimp only; rw [ha]
  rw [e1, e2, e3] at hm
  simp only [pyItems] at hm
  split at hm
  · rename_i es' hes
    have hkeys := mapR_keys (key := fun p => val p.1) hes (by
      intro p hp q hq
      obtain ⟨m', hw1, hw2⟩ := hk p hp
      cases m with
      | zero => cases hq
      | succ m =>
      split at hq
      · cases hq
      · rename_i k' hk'
        have hk'' : k' = val p.1 := by
          rw [seAt_render] at hk'
          unfold renderF at hk'
          dsimp only at hk'
          have hp : pickSer (topSeCx env c cd true so).sers { ty := Ty.enum e, ser := none, v := .ok p.1 } = none := by
            unfold pickSer
            dsimp only
            rw [List.find?_eq_none]
            intro s hs
            rw [hno s (by rw [List.mem_reverse] at hs; exact hs)]
            simp
          rw [hp] at hk'
          dsimp only at hk'
          have h0 := @enumValue_member env d e (env.enums.length) he hd _ _ hw2
          rw [hw1] at hk' h0 ⊢
          rw [h0] at hk'
          cases hk'; rfl
        split at hq
        · cases hq; exact hk''
        · cases hq)
    have heq : es.map (fun p => val p.1) = (es.map (·.1)).map val := by simp
    rw [mkDict_id (by
        rw [hkeys]
        refine hashableL_vals ?_
        intro v hv
        rw [List.mem_map] at hv
        obtain ⟨p, hp, rfl⟩ := hv
        obtain ⟨m', _, h2⟩ := hk p hp
        exact hd.vals _ h2) (by
        rw [hkeys, heq, List.pairwise_map]
        refine hn.imp_of_mem ?_
        intro a b hma hmb hab
        rw [List.mem_map] at hma hmb
        obtain ⟨p, hp, rfl⟩ := hma
        obtain ⟨q, hq, rfl⟩ := hmb
        obtain ⟨m1, a1, a2⟩ := hk p hp
        obtain ⟨m2, b1, b2⟩ := hk q hq
        cases hpe : pyEq (val p.1) (val q.1) with
        | false => rfl
        | true =>
          have := enum_same hd a2 b2 hpe
          rw [a1, b1, this] at hab
          exact absurd rfl hab)] at hm
    cases hm
    exact ⟨es', rfl, hkeys⟩
  · cases hm

/-! ## Witnesses and examples -/

namespace C31Ex
/-- `class C: a: E; m: dict[E, int]` for an int-valued enum, `class B: m: dict[F, int]` for a bool-valued one, `class M: m: dict[G, int]`
for values of mixed kinds. -/
def cdC : ClassDef := { name := "C", mro := ["C"], fields := [{ name := "a", ty := .enum "E" }, { name := "m", ty := .dict .dict (.enum "E") (.prim .int) }] }
def cdB : ClassDef := { name := "B", mro := ["B"], fields := [{ name := "m", ty := .dict .dict (.enum "F") (.prim .int) }] }
def cdM : ClassDef := { name := "M", mro := ["M"], fields := [{ name := "m", ty := .dict .dict (.enum "G") (.prim .int) }] }
def dE : EnumDef := { name := "E", members := [("ONE", .int 1), ("TWO", .int 2)] }
def env : Env := { Ex.mk [("C", cdC), ("B", cdB), ("M", cdM)] with
  enums := [("E", dE), ("F", { name := "F", members := [("YES", .bool true), ("NO", .bool false)] }),
    ("G", { name := "G", members := [("A", .int 1), ("B", .str "1"), ("C", .str "x")] })] }
theorem plainC : PlainClass env "C" cdC := ⟨rfl, rfl, rfl, by decide, ⟨by simp [env, Ex.mk], by simp [env, Ex.mk]⟩⟩
theorem okE : EnumOk dE := ⟨by intro m hm; simp [dE] at hm; rcases hm with rfl | rfl <;> constructor, by decide, by simp [dE]; rfl⟩
end C31Ex

example : ∃ kvs, Val.dict .plain [(.str "a", .int 2), (.str "m", .dict .plain [(.int 1, .int 5)])] = .dict .plain kvs ∧
    (∀ x, (.str "a", x) ∈ kvs → x = .int 2) ∧ (¬ HasRule C31Ex.cdC { name := "a", ty := .enum "E" } → false = false → (.str "a", .int 2) ∈ kvs) :=
  C31_written (env := C31Ex.env) (so := {}) (n := 9) (c := "C") (cd := C31Ex.cdC) (f := { name := "a", ty := .enum "E" }) (d := C31Ex.dE) (m := "TWO")
    (attrs := [("a", .enum "E" "TWO"), ("m", .dict .plain [(.enum "E" "ONE", .int 5)])]) C31Ex.plainC
    ⟨by simp [C31Ex.cdC], by decide⟩ ⟨by simp [C31Ex.cdC], rfl, rfl, rfl, rfl, by simp [C31Ex.env, Ex.mk, C31Ex.cdC]⟩ (.inl rfl) rfl rfl C31Ex.okE
    (by simp [C31Ex.dE]) rfl rfl

/-- The keys arrive as strings, as from JSON. -/
example : ∃ attrs k' es', Val.inst "C" [("a", .enum "E" "TWO"), ("m", .dict .plain [(.enum "E" "ONE", .int 5)])] = .inst "C" attrs ∧
    attrs.lookup "m" = some (.dict k' es') ∧ es'.map (·.1) = [.enum "E" "ONE"] :=
  C31_key_read_partial (env := C31Ex.env) (o := {}) (n := 9) (c := "C") (cd := C31Ex.cdC) (f := { name := "m", ty := .dict .dict (.enum "E") (.prim .int) })
    (d := C31Ex.dE) (dk := .plain) (dk' := .plain) (kvs := [(.str "a", .int 2), (.str "m", .dict .plain [(.str "1", .int 5)])])
    (key := fun _ _ => "ONE") (es := [(.str "1", .int 5)]) C31Ex.plainC
    ⟨by simp [C31Ex.cdC], rfl, rfl, rfl, rfl, rfl, rfl, by simp [C31Ex.env, Ex.mk, C31Ex.cdC]⟩ rfl rfl C31Ex.okE (by simp [C31Ex.env, Ex.mk, C31Ex.cdC])
    rfl (by intro p hp; simp at hp; subst hp; exact ⟨.int 1, by simp [C31Ex.dE], .int rfl, .inr (.inl (by simp [C31Ex.dE]))⟩) (by simp) rfl

example : ∃ attrs, Val.inst "C" [("a", .enum "E" "TWO"), ("m", .dict .plain [])] = .inst "C" attrs ∧ attrs.lookup "a" = some (.enum "E" "TWO") :=
  C31_read (env := C31Ex.env) (o := {}) (n := 9) (c := "C") (cd := C31Ex.cdC) (f := { name := "a", ty := .enum "E" })
    (d := C31Ex.dE) (dk := .plain) (kvs := [(.str "a", .str "2"), (.str "m", .dict .plain [])]) (w := .int 2) C31Ex.plainC
    ⟨by simp [C31Ex.cdC], rfl, rfl, rfl, rfl, rfl, rfl, by simp [C31Ex.env, Ex.mk, C31Ex.cdC]⟩ rfl rfl C31Ex.okE (by simp [C31Ex.dE])
    rfl (.int rfl) (.inr (.inl (by simp [C31Ex.dE]))) rfl

example : ∃ er, fromDict C31Ex.env {} 9 (.cls "C") (.dict .plain [(.str "a", .int 3), (.str "m", .dict .plain [])]) = .error er :=
  C31_reject (env := C31Ex.env) (o := {}) (n := 9) (c := "C") (cd := C31Ex.cdC) (f := { name := "a", ty := .enum "E" })
    (d := C31Ex.dE) (dk := .plain) (kvs := [(.str "a", .int 3), (.str "m", .dict .plain [])]) C31Ex.plainC
    ⟨by simp [C31Ex.cdC], rfl, rfl, rfl, rfl, rfl, rfl, by simp [C31Ex.env, Ex.mk, C31Ex.cdC]⟩ rfl rfl rfl (by intro m hm; simp [C31Ex.dE] at hm; rcases hm with rfl | rfl <;> rfl) nofun nofun nofun

example : ∃ kvs, Val.dict .plain [(.str "a", .int 2), (.str "m", .dict .plain [(.int 1, .int 5)])] = .dict .plain kvs ∧
    ∀ x, (.str "m", x) ∈ kvs → ∃ es', x = .dict .plain es' ∧ es'.map (·.1) = [.int 1] :=
  C31_key_written (env := C31Ex.env) (so := {}) (n := 9) (c := "C") (cd := C31Ex.cdC) (f := { name := "m", ty := .dict .dict (.enum "E") (.prim .int) })
    (d := C31Ex.dE) (val := fun _ => .int 1) (es := [(.enum "E" "ONE", .int 5)])
    (attrs := [("a", .enum "E" "TWO"), ("m", .dict .plain [(.enum "E" "ONE", .int 5)])]) C31Ex.plainC
    ⟨by simp [C31Ex.cdC], by decide⟩ ⟨by simp [C31Ex.cdC], rfl, rfl, rfl, rfl, by simp [C31Ex.env, Ex.mk, C31Ex.cdC]⟩ (.inl rfl) rfl rfl C31Ex.okE
    (by simp [C31Ex.env, Ex.mk, C31Ex.cdC]) (by simp [C31Ex.dE]) (by simp) rfl rfl

/-- A bool-valued enum as mapping key: once `False` has become the text "False" it is read back as the member with value `True`. -/
theorem C31_false_bool_key :
    toDict C31Ex.env {} 9 (.inst "B" [("m", .dict .plain [(.enum "F" "NO", .int 5)])]) =
        .ok (.dict .plain [(.str "m", .dict .plain [(.bool false, .int 5)])]) ∧
      fromDict C31Ex.env {} 9 (.cls "B") (.dict .plain [(.str "m", .dict .plain [(.str "False", .int 5)])]) =
        .ok (.inst "B" [("m", .dict .plain [(.enum "F" "YES", .int 5)])]) := ⟨rfl, rfl⟩

/-- Values of mixed kinds: the text "1" of the value 1 is the value of another member. -/
theorem C31_false_mixed_key :
    toDict C31Ex.env {} 9 (.inst "M" [("m", .dict .plain [(.enum "G" "A", .int 5)])]) =
        .ok (.dict .plain [(.str "m", .dict .plain [(.int 1, .int 5)])]) ∧
      fromDict C31Ex.env {} 9 (.cls "M") (.dict .plain [(.str "m", .dict .plain [(.str "1", .int 5)])]) =
        .ok (.inst "M" [("m", .dict .plain [(.enum "G" "B", .int 5)])]) := ⟨rfl, rfl⟩

end Verif.Props
