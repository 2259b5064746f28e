import Verif.Lemmas.Numbers
import Verif.Lemmas.UnionDe
import Verif.Lemmas.FieldRun
import Verif.Lemmas.FieldSe
import Verif.Lemmas.DeMono
import Verif.Lemmas.RTTop
import Verif.Lemmas.Coerce
import Verif.Props.C34
import Verif.Examples.Lookup
/-!
# C40: JSON numbers into float fields

Full statement: "from_json accepts an integer literal for a float field and yields the equal float, rejects booleans, and leaves every other type
alone; a float written by to_json is read back equal."

Proved for float fields of a class, and for all classes as far as the last-but-one part is concerned. "Equal" needs `float(n) == n`, which fails
for integers that no float represents (`C40_false_rounded`).
-/

namespace Verif.Props
open Verif Spec

/-- A float field under a number hook holds what the hook makes of the input. -/
theorem hook_field {env : Env} {o : DeOpts} {n c} {cd : ClassDef} {f num dk kvs x v} (hC : PlainClass env c cd) (hf : PlainField env cd f)
    (hty : f.ty = .prim .float) (ho : o.numbers = some num) (hx : getStr (f.conv cd.deCase) kvs = some x)
    (h : fromDict env o n (.cls c) (.dict dk kvs) = .ok v) :
    ∃ attrs w, v = .inst c attrs ∧ num x = .ok w ∧ attrs.lookup f.name = some w := by
  obtain ⟨attrs, w, m, rfl, ha, hb, _⟩ := field_run hC hf hx h
  refine ⟨attrs, w, rfl, ?_, ha⟩
  unfold deBody at hb
  rw [pickDe_plain hf] at hb
  dsimp only at hb
  have h1 : (plainArg cd f (.dict dk kvs)).deser = none := hf.deser
  have h2 : (plainArg cd f (.dict dk kvs)).ty = .prim .float := hty
  have h3 : Holds (plainArg cd f (.dict dk kvs)) x := ⟨hf.alias, hf.deser, rfl, .inl ⟨dk, kvs, rfl, hx⟩⟩
  rw [h1, h2] at hb
  dsimp only at hb
  rw [h3.prim] at hb
  have h4 : (clsDeCx env c cd true (topCall o) (.dict dk kvs)).numbers = some num := ho
  rw [h4] at hb
  dsimp only at hb
  cases hn : num x with
  | ok y => rw [hn] at hb; cases hb; rfl
  | error e => rw [hn] at hb; cases hb

theorem fromJson_dict {env : Env} {K n c s cn tg d v} (hd : K.dec s = .ok d) (h : fromJson env K n c s cn tg = .ok v) :
    fromDict env { reuse := some false, numbers := if cn then some (jsonNumbers env.W) else none, tagging := tg } n c d = .ok v := by
  unfold fromJson decodeDict at h
  rw [hd] at h
  exact h

/-- **C40** An integer in the JSON text becomes `float(i)`. -/
theorem C40_int {env : Env} {K n c} {cd : ClassDef} {f s dk kvs i v} (hC : PlainClass env c cd) (hf : PlainField env cd f)
    (hty : f.ty = .prim .float) (hd : K.dec s = .ok (.dict dk kvs)) (hx : getStr (f.conv cd.deCase) kvs = some (.int i))
    (h : fromJson env K n (.cls c) s = .ok v) :
    ∃ attrs x, v = .inst c attrs ∧ env.W.floatOfInt i = some x ∧ attrs.lookup f.name = some (.float x) := by
  obtain ⟨attrs, w, h1, h2, h3⟩ := hook_field hC hf hty rfl hx (fromJson_dict hd h)
  simp only [jsonNumbers, floatOf] at h2
  split at h2
  · rename_i x hfx
    cases h2
    exact ⟨attrs, x, h1, hfx, h3⟩
  · cases h2

/-- **C40** If a float represents the integer, the result equals it. -/
theorem C40_int_equal_partial {env : Env} {K n c} {cd : ClassDef} {f s dk kvs i v} (hC : PlainClass env c cd) (hf : PlainField env cd f)
    (hty : f.ty = .prim .float) (hd : K.dec s = .ok (.dict dk kvs)) (hx : getStr (f.conv cd.deCase) kvs = some (.int i))
    (hrep : env.W.floatOfInt i = some (.fin i)) (h : fromJson env K n (.cls c) s = .ok v) :
    ∃ attrs w, v = .inst c attrs ∧ attrs.lookup f.name = some w ∧ pyEq w (.int i) = true ∧ ∃ x, w = .float x := by
  obtain ⟨attrs, x, h1, h2, h3⟩ := C40_int hC hf hty hd hx h
  rw [hrep] at h2
  cases h2
  exact ⟨attrs, _, h1, h3, by simp [pyEq, Val.num, Flt.eqv], _, rfl⟩

/-- **C40** An integer is accepted wherever another value of the float field is. -/
theorem C40_int_accepted {env : Env} {K n c} {cd : ClassDef} {f s s' dk kvs kvs' i x attrs} (hC : PlainClass env c cd) (hf : PlainField env cd f)
    (hs : Separate cd f) (hty : f.ty = .prim .float) (hd : K.dec s = .ok (.dict dk kvs)) (hd' : K.dec s' = .ok (.dict dk kvs'))
    (hdiff : DifferAt (f.conv cd.deCase) kvs kvs') (hx : getStr (f.conv cd.deCase) kvs' = some (.int i)) (hfl : env.W.floatOfInt i = some x)
    (h : fromJson env K n (.cls c) s = .ok (.inst c attrs)) :
    ∃ m, fromJson env K m (.cls c) s' = .ok (.inst c (setAttr f.name (.float x) attrs)) := by
  refine ⟨n + 3, ?_⟩
  have h0 := fromDict_mono (Nat.le_add_right n 3) (fromJson_dict hd h)
  unfold fromJson decodeDict
  rw [hd']
  refine field_replace hC hf hs hdiff hx h0 ?_ (fun _ => by rw [hty]; rfl)
  unfold deBody
  rw [pickDe_plain hf]
  dsimp only
  have h1 : (plainArg cd f (.dict dk kvs')).deser = none := hf.deser
  have h2 : (plainArg cd f (.dict dk kvs')).ty = .prim .float := hty
  have h3 : Holds (plainArg cd f (.dict dk kvs')) (.int i) := ⟨hf.alias, hf.deser, rfl, .inl ⟨dk, kvs', rfl, hx⟩⟩
  rw [h1, h2]
  dsimp only
  rw [h3.prim]
  show liftP (jsonNumbers env.W (.int i)) = _
  simp only [jsonNumbers, floatOf, hfl]
  rfl

/-- Anything but an int or a float. -/
inductive NotNumber : Val → Prop
  | bool {b} : NotNumber (.bool b)
  | none : NotNumber .none
  | str {s} : NotNumber (.str s)
  | list {xs} : NotNumber (.list xs)
  | dict {k kvs} : NotNumber (.dict k kvs)

/-- **C40** A boolean (or anything else that is not a number) is rejected for a float field, with SerdeError. -/
theorem C40_reject {env : Env} {K n c} {cd : ClassDef} {f s dk kvs x} (hC : PlainClass env c cd) (hf : PlainField env cd f)
    (hty : f.ty = .prim .float) (hd : K.dec s = .ok (.dict dk kvs)) (hx : getStr (f.conv cd.deCase) kvs = some x) (hb : NotNumber x)
    (hpost : ∀ c cd, env.cls c = some cd → cd.postInit = none) (hsig : ∀ c cd, env.cls c = some cd → SigOk true cd) :
    ∃ e, fromJson env K n (.cls c) s = .error e ∧ (e = .fuel ∨ e.isSerde = true) := by
  cases h : fromJson env K n (.cls c) s with
  | ok v =>
    obtain ⟨_, w, _, h2, _⟩ := hook_field hC hf hty rfl hx (fromJson_dict hd h)
    cases hb <;> cases h2
  | error e =>
    refine ⟨e, rfl, ?_⟩
    unfold fromJson decodeDict at h
    rw [hd] at h
    exact C34_only_serde hpost hsig h

/-- **C40** The number handling has no influence on a class in which no float occurs: not on the result, not on the error. -/
theorem C40_other_types {env : Env} {K n c s} (hfree : FloatFree env (.cls c)) :
    fromJson env K n (.cls c) s true = fromJson env K n (.cls c) s false := by
  unfold fromJson decodeDict
  cases hd : liftP (K.dec s) with
  | error e => rfl
  | ok d =>
    dsimp only
    cases n with
    | zero => rfl
    | succ n =>
      unfold fromDict
      rw [deAt_fromObj, deAt_fromObj]
      unfold fromObjF
      dsimp only
      split
      · rfl
      · unfold fromObjBody
        dsimp only
        split
        · rfl
        · exact congrArg _ ((numFree env n).cls true c { mg := keepGen (.cls c), reuse := some false } _ _ d hfree)

/-- **C40** In a class that has float fields too, a field in which no float occurs gets the same value. -/
theorem C40_other_field {env : Env} {o : DeOpts} {num n n' c} {cd : ClassDef} {f dk kvs x v v'} (hC : PlainClass env c cd) (hf : PlainField env cd f)
    (hfree : FloatFree env f.ty) (hun : ∀ us, Reach env true (.cls c) (.union us) → FloatFree env (.union us))
    (hx : getStr (f.conv cd.deCase) kvs = some x)
    (h : fromDict env { o with numbers := num } n (.cls c) (.dict dk kvs) = .ok v)
    (h' : fromDict env { o with numbers := none } n' (.cls c) (.dict dk kvs) = .ok v') :
    ∃ attrs attrs', v = .inst c attrs ∧ v' = .inst c attrs' ∧ attrs.lookup f.name = attrs'.lookup f.name := by
  obtain ⟨attrs, w, m, rfl, ha, hb, _⟩ := field_run hC hf hx h
  obtain ⟨attrs', w', m', rfl, ha', hb', _⟩ := field_run hC hf hx h'
  refine ⟨attrs, attrs', rfl, rfl, ?_⟩
  have h1 := (deBody_le (deAt_le' env (Nat.le_max_left m m')) _ _).ok hb
  have h2 := (deBody_le (deAt_le' env (Nat.le_max_right m m')) _ _).ok hb'
  have h3 := deBody_num (numFree env (max m m')) (clsDeCx env c cd true (topCall o) (.dict dk kvs)) num none (plainArg cd f (.dict dk kvs))
    (fun us hus t ht => (hun us (unionsOf_iff.1 hus)).part (.union ht)) hfree
  have h4 : w = w' := Except.ok.inj (h1.symm.trans (h3.trans h2))
  rw [ha, ha', h4]

/-- **C40** A float in the JSON text is kept as it is. -/
theorem C40_float_read {env : Env} {K n c} {cd : ClassDef} {f s dk kvs x v} (hC : PlainClass env c cd) (hf : PlainField env cd f)
    (hty : f.ty = .prim .float) (hd : K.dec s = .ok (.dict dk kvs)) (hx : getStr (f.conv cd.deCase) kvs = some (.float x))
    (h : fromJson env K n (.cls c) s = .ok v) :
    ∃ attrs, v = .inst c attrs ∧ attrs.lookup f.name = some (.float x) := by
  obtain ⟨attrs, w, h1, h2, h3⟩ := hook_field hC hf hty rfl hx (fromJson_dict hd h)
  cases h2
  exact ⟨attrs, h1, h3⟩

theorem getStr_of_nodup {kvs : List (Val × Val)} {ks : List String} (hk : kvs.map (·.1) = ks.map Val.str) (hn : ks.Nodup) {s x}
    (h : (.str s, x) ∈ kvs) : getStr s kvs = some x := by
  induction kvs generalizing ks with
  | nil => cases h
  | cons e kvs ih =>
    obtain ⟨k, y⟩ := e
    cases ks with
    | nil => simp at hk
    | cons t ks =>
      simp only [List.map_cons, List.cons.injEq] at hk
      obtain ⟨rfl, hk⟩ := hk
      rw [List.nodup_cons] at hn
      simp only [getStr]
      rcases List.mem_cons.1 h with h | h
      · cases h; simp
      · have hne : t ≠ s := by
          rintro rfl
          have := List.mem_map_of_mem (f := (·.1)) h
          rw [hk] at this
          obtain ⟨t', ht', he⟩ := List.mem_map.1 this
          cases he
          exact hn.1 ht'
        simp [hne, ih hk hn.2 h]

/-- **C40** A float written by `to_json` is read back: for any codec that keeps the written dict up to what JSON cannot express. -/
theorem C40_float_round_trip {env : Env} {K n m c} {cd : ClassDef} {f attrs x w s v} (hC : PlainClass env c cd) (hone : OneEntryEach cd)
    (hse : WrittenField env cd f) (hf : PlainField env cd f) (hwire : f.conv cd.seCase = f.conv cd.deCase) (hty : f.ty = .prim .float)
    (hr : ¬ HasRule cd f) (ha : attrs.lookup f.name = some (.float x))
    (hw : toDict env ({} : FmtOpts).se n (.inst c attrs) = .ok w) (he : K.enc w = .ok s) (hd : K.dec s = .ok (jsonWire env.W w))
    (h : fromJson env K m (.cls c) s = .ok v) :
    toJson env K {} n (.inst c attrs) = .ok s ∧ ∃ attrs', v = .inst c attrs' ∧ attrs'.lookup f.name = some (.float x) := by
  have hu : NotUnion ({} : FmtOpts).se.c := .inl rfl
  obtain ⟨kvs, rfl, h1, h2⟩ := written_run hC hone hse hu hw
  obtain ⟨ks, hks, hnd⟩ := written_keys hC hone hu hw
  obtain ⟨y, hy⟩ := h2 hr rfl
  obtain ⟨m', hm'⟩ := h1 y hy
  have hyx : y = .float x := by
    rw [seAt_render] at hm'
    unfold renderF at hm'
    rw [pickSer_plain hse] at hm'
    have e1 : (seFieldArg f (.ok (.inst c attrs))).ser = none := hse.ser
    have e2 : (seFieldArg f (.ok (.inst c attrs))).ty = .prim .float := hty
    have e3 : (seFieldArg f (.ok (.inst c attrs))).v = .ok (.float x) := by
      show (match attrs.lookup f.name with | some v => Except.ok v | none => _) = _
      rw [ha]
    dsimp only at hm'
    rw [e1, e2, e3] at hm'
    dsimp only at hm'
    split at hm'
    · exact (Except.ok.inj hm').symm
    · exact (Except.ok.inj hm').symm
  subst hyx
  refine ⟨by unfold toJson encodeDict; rw [hw]; dsimp only; rw [he]; rfl, ?_⟩
  have hkeys : (jsonWireD env.W kvs).map (·.1) = ks.map Val.str := by
    rw [jsonWireD_map, List.map_map]
    have : kvs.map ((fun kv : Val × Val => kv.1) ∘ fun kv => (jsonKey env.W kv.1, jsonWire env.W kv.2)) = (kvs.map (·.1)).map (jsonKey env.W) := by
      rw [List.map_map]; rfl
    rw [this, hks, List.map_map]
    rfl
  have hpw : ((jsonWireD env.W kvs).map (·.1)).Pairwise (fun a b => pyEq a b = false) := by
    rw [hkeys, List.pairwise_map]
    exact hnd.imp (fun {a b} hne => by simp [pyEq, hne])
  have hmem : (Val.str (f.conv cd.deCase), Val.float x) ∈ jsonWireD env.W kvs := by
    rw [jsonWireD_map, List.mem_map]
    rw [hwire] at hy
    exact ⟨_, hy, rfl⟩
  have hd' : K.dec s = .ok (.dict .plain (jsonWireD env.W kvs)) := by
    rw [hd]
    simp only [jsonWire, dictOf_id hpw]
  exact C40_float_read hC hf hty hd' (getStr_of_nodup hkeys hnd hmem) h

/-! ## NewTypes over float -/

/-- The number handling passes by fields whose annotation is a NewType over float: unchecked, the field holds what stands in the text, a bool too. -/
theorem C40_newtype_as_is {env : Env} {K n c} {cd : ClassDef} {f nm s dk kvs x v} (hC : PlainClass env c cd) (hf : PlainField env cd f)
    (hty : f.ty = .newType nm .float) (ht : cd.typeCheck ≠ .coerce) (hd : K.dec s = .ok (.dict dk kvs)) (hx : getStr (f.conv cd.deCase) kvs = some x)
    (h : fromJson env K n (.cls c) s = .ok v) :
    ∃ attrs, v = .inst c attrs ∧ attrs.lookup f.name = some x ∧ (cd.typeCheck = .strict → IsA env (.prim .float) x) := by
  obtain ⟨attrs, w, m, rfl, ha, hb, hst⟩ := field_run hC hf hx (fromJson_dict hd h)
  unfold deBody at hb
  rw [pickDe_plain hf] at hb
  dsimp only at hb
  have h1 : (plainArg cd f (.dict dk kvs)).deser = none := hf.deser
  have h2 : (plainArg cd f (.dict dk kvs)).ty = .newType nm .float := hty
  have h3 : Holds (plainArg cd f (.dict dk kvs)) x := ⟨hf.alias, hf.deser, rfl, .inl ⟨dk, kvs, rfl, hx⟩⟩
  rw [h1, h2] at hb
  dsimp only at hb
  rw [h3.prim] at hb
  have h4 : ∀ o, (clsDeCx env c cd true o (.dict dk kvs)).coerce = false := by
    intro o
    show (cd.typeCheck == .coerce) = false
    cases hc : cd.typeCheck <;> simp_all
  dsimp only at hb
  rw [h4] at hb
  cases hb
  refine ⟨attrs, rfl, ha, fun hs => ?_⟩
  have := hst hs
  rw [hty] at this
  exact isPrimInst_iff.1 this

/-- With strict type checking, the default, an integer in the text is therefore refused. -/
theorem C40_newtype_refused {env : Env} {K n c} {cd : ClassDef} {f nm s dk kvs i} (hC : PlainClass env c cd) (hf : PlainField env cd f)
    (hty : f.ty = .newType nm .float) (hs : cd.typeCheck = .strict) (hd : K.dec s = .ok (.dict dk kvs))
    (hx : getStr (f.conv cd.deCase) kvs = some (.int i))
    (hpost : ∀ c cd, env.cls c = some cd → cd.postInit = none) (hsig : ∀ c cd, env.cls c = some cd → SigOk true cd) :
    ∃ e, fromJson env K n (.cls c) s = .error e ∧ (e = .fuel ∨ e.isSerde = true) := by
  cases h : fromJson env K n (.cls c) s with
  | ok v =>
    obtain ⟨_, _, _, h2⟩ := C40_newtype_as_is hC hf hty (by rw [hs]; simp) hd hx h
    cases h2 hs
  | error e =>
    refine ⟨e, rfl, ?_⟩
    unfold fromJson decodeDict at h
    rw [hd] at h
    exact C34_only_serde hpost hsig h

/-! ## Examples and witnesses -/

namespace C40Ex
def cdF : ClassDef := { name := "F", mro := ["F"], fields := [{ name := "x", ty := .prim .float }, { name := "n", ty := .prim .int }] }
def cdI : ClassDef := { name := "I", mro := ["I"], fields := [{ name := "n", ty := .prim .int }, { name := "ss", ty := .list .list (.prim .str) }] }
def env : Env := Ex.mk [("F", cdF), ("I", cdI)]
def fx : FieldDef := { name := "x", ty := .prim .float }
theorem plain : PlainClass env "F" cdF := ⟨rfl, rfl, rfl, by decide, ⟨by simp [env, Ex.mk], by simp [env, Ex.mk]⟩⟩
theorem plain_x : PlainField env cdF fx := ⟨by simp [cdF, fx], rfl, rfl, rfl, rfl, rfl, rfl, by simp [env, Ex.mk, cdF]⟩
theorem written_x : WrittenField env cdF fx := ⟨by simp [cdF, fx], rfl, rfl, rfl, rfl, by simp [env, Ex.mk, cdF]⟩
def inp (x : Val) : Val := .dict .plain [(.str "x", x), (.str "n", .int 1)]
/-- A codec whose only text stands for the given value. -/
def K (d : Val) : Codec := ⟨fun _ => .ok "t", fun _ => .ok d⟩
theorem free : FloatFree env (.cls "I") := by
  intro u hu
  have key : ∀ t u, (t = .cls "I" ∨ t = .prim .int ∨ t = .prim .str ∨ t = .list .list (.prim .str)) → Reach env true t u →
      (u = .cls "I" ∨ u = .prim .int ∨ u = .prim .str ∨ u = .list .list (.prim .str)) := by
    intro t u ht hr
    induction hr with
    | refl => exact ht
    | step hp _ ih =>
      apply ih
      rcases ht with rfl | rfl | rfl | rfl
      · cases hp with
        | field hc hf _ =>
          have : some cdI = some _ := hc
          cases this
          simp only [cdI, List.mem_cons, List.not_mem_nil, or_false] at hf
          rcases hf with rfl | rfl <;> simp
      · cases hp
      · cases hp
      · cases hp; simp
  rcases key _ _ (.inl rfl) hu with rfl | rfl | rfl | rfl <;> simp
end C40Ex

example : ∃ attrs x, Val.inst "F" [("x", .float (.fin 3)), ("n", .int 1)] = .inst "F" attrs ∧ Ex.W.floatOfInt 3 = some x ∧
    attrs.lookup "x" = some (.float x) :=
  C40_int (env := C40Ex.env) (K := C40Ex.K (C40Ex.inp (.int 3))) (n := 9) (s := "t") (i := 3) C40Ex.plain C40Ex.plain_x rfl rfl rfl rfl

example : ∃ attrs w, Val.inst "F" [("x", .float (.fin 3)), ("n", .int 1)] = .inst "F" attrs ∧ attrs.lookup "x" = some w ∧ pyEq w (.int 3) = true ∧
    ∃ x, w = .float x :=
  C40_int_equal_partial (env := C40Ex.env) (K := C40Ex.K (C40Ex.inp (.int 3))) (n := 9) (s := "t") C40Ex.plain C40Ex.plain_x rfl rfl rfl rfl rfl

example : ∃ m, fromJson C40Ex.env ⟨fun _ => .ok "t", fun s => .ok (C40Ex.inp (if s = "t" then .float (.fin 1) else .int 3))⟩ m (.cls "F") "u" =
    .ok (.inst "F" (setAttr "x" (.float (.fin 3)) [("x", .float (.fin 1)), ("n", .int 1)])) :=
  C40_int_accepted (env := C40Ex.env) (n := 9) (s := "t") (s' := "u") (i := 3) (dk := .plain)
    (kvs := [(.str "x", .float (.fin 1)), (.str "n", .int 1)]) (kvs' := [(.str "x", .int 3), (.str "n", .int 1)]) C40Ex.plain C40Ex.plain_x
    ⟨by simp [C40Ex.cdF], by simp [C40Ex.cdF], by simp [C40Ex.cdF, C40Ex.fx]; decide⟩ rfl rfl rfl
    ⟨rfl, by
      intro s hs
      have : ("x" == s) = false := by
        rw [beq_eq_false_iff_ne]; intro h; exact hs h.symm
      simp [getStr, this]⟩ rfl rfl rfl

example : ∃ e, fromJson C40Ex.env (C40Ex.K (C40Ex.inp (.bool true))) 9 (.cls "F") "t" = .error e ∧ (e = .fuel ∨ e.isSerde = true) :=
  C40_reject (env := C40Ex.env) (n := 9) C40Ex.plain C40Ex.plain_x rfl rfl rfl .bool (Ex.all_post rfl) (Ex.all_sig rfl)

example (K : Codec) (s : String) : fromJson C40Ex.env K 9 (.cls "I") s true = fromJson C40Ex.env K 9 (.cls "I") s false := C40_other_types C40Ex.free

example : ∃ attrs attrs', Val.inst "F" [("x", .float (.fin 3)), ("n", .int 1)] = .inst "F" attrs ∧
    Val.inst "F" [("x", .float (.fin 3)), ("n", .int 1)] = .inst "F" attrs' ∧ attrs.lookup "n" = attrs'.lookup "n" :=
  C40_other_field (env := C40Ex.env) (o := {}) (num := some (jsonNumbers Ex.W)) (n := 9) (n' := 9) (cd := C40Ex.cdF) (f := { name := "n", ty := .prim .int }) (dk := .plain)
    (kvs := [(.str "x", .float (.fin 3)), (.str "n", .int 1)]) C40Ex.plain
    ⟨by simp [C40Ex.cdF], rfl, rfl, rfl, rfl, rfl, rfl, by simp [C40Ex.env, Ex.mk, C40Ex.cdF]⟩
    (by
      intro u hu
      cases hu with
      | refl => simp
      | step hp _ => cases hp)
    (by
      intro us hr
      have := unionsOf_iff.2 hr
      have e : C40Ex.env.unionsOf "F" = [] := rfl
      rw [e] at this; cases this) rfl rfl rfl

example : toJson C40Ex.env (C40Ex.K (C40Ex.inp (.float (.fin 3)))) {} 9 (.inst "F" [("x", .float (.fin 3)), ("n", .int 1)]) = .ok "t" ∧
    ∃ attrs, Val.inst "F" [("x", .float (.fin 3)), ("n", .int 1)] = .inst "F" attrs ∧ attrs.lookup "x" = some (.float (.fin 3)) :=
  C40_float_round_trip (env := C40Ex.env) (n := 9) (m := 9) (w := C40Ex.inp (.float (.fin 3))) C40Ex.plain
    ⟨by simp [C40Ex.cdF], by decide⟩ C40Ex.written_x C40Ex.plain_x rfl rfl (by simp [HasRule, C40Ex.fx, C40Ex.cdF, skipsDefault, skipsNone]) rfl rfl rfl rfl rfl

namespace C40Ex
/-- `Meters = NewType("Meters", float)`, `class M: x: Meters`, and the same with type_check=disabled. -/
def cdM (t : TypeCheck) : ClassDef := { name := "M", mro := ["M"], fields := [{ name := "x", ty := .newType "Meters" .float }], typeCheck := t }
def envM (t : TypeCheck) : Env := Ex.mk [("M", cdM t)]
theorem plainM (t) : PlainClass (envM t) "M" (cdM t) := ⟨rfl, rfl, rfl, by simp [cdM], ⟨by simp [envM, Ex.mk], by simp [envM, Ex.mk]⟩⟩
theorem plain_m (t) : PlainField (envM t) (cdM t) { name := "x", ty := .newType "Meters" .float } :=
  ⟨by simp [cdM], rfl, rfl, rfl, rfl, rfl, rfl, by simp [envM, Ex.mk, cdM]⟩
end C40Ex

example : ∃ attrs, Val.inst "M" [("x", .bool true)] = .inst "M" attrs ∧ attrs.lookup "x" = some (.bool true) ∧
    (TypeCheck.disabled = .strict → IsA (C40Ex.envM .disabled) (.prim .float) (.bool true)) :=
  C40_newtype_as_is (env := C40Ex.envM .disabled) (K := C40Ex.K (.dict .plain [(.str "x", .bool true)])) (n := 9) (s := "t") (C40Ex.plainM _) (C40Ex.plain_m _)
    rfl (by simp [C40Ex.cdM]) rfl rfl rfl

example : ∃ e, fromJson (C40Ex.envM .strict) (C40Ex.K (.dict .plain [(.str "x", .int 1)])) 9 (.cls "M") "t" = .error e ∧ (e = .fuel ∨ e.isSerde = true) :=
  C40_newtype_refused (C40Ex.plainM _) (C40Ex.plain_m _) rfl rfl rfl rfl (Ex.all_post rfl) (Ex.all_sig rfl)

/-- For a NewType over float the statement is false: an integer literal is refused under strict checking, and without a check an int or a bool is kept. -/
theorem C40_false_newtype :
    (∃ e, fromJson (C40Ex.envM .strict) (C40Ex.K (.dict .plain [(.str "x", .int 1)])) 9 (.cls "M") "t" = .error e ∧ e.isSerde = true) ∧
    fromJson (C40Ex.envM .disabled) (C40Ex.K (.dict .plain [(.str "x", .int 1)])) 9 (.cls "M") "t" = .ok (.inst "M" [("x", .int 1)]) ∧
    fromJson (C40Ex.envM .disabled) (C40Ex.K (.dict .plain [(.str "x", .bool true)])) 9 (.cls "M") "t" = .ok (.inst "M" [("x", .bool true)]) :=
  ⟨⟨_, rfl, rfl⟩, rfl, rfl⟩

/-- An integer no float represents: in a world where `float(9007199254740993)` is `9007199254740992.0`, as in Python, the result differs
from the input. -/
theorem C40_false_rounded :
    let W : World := { Ex.W with floatOfInt := fun i => some (.fin (if i = 9007199254740993 then (9007199254740992 : Int) else i : Int)) }
    let env : Env := { C40Ex.env with W := W }
    fromJson env (C40Ex.K (C40Ex.inp (.int 9007199254740993))) 9 (.cls "F") "t" =
        .ok (.inst "F" [("x", .float (.fin 9007199254740992)), ("n", .int 1)]) ∧
      pyEq (.float (.fin 9007199254740992)) (.int 9007199254740993) = false := by
  refine ⟨rfl, ?_⟩
  rfl

end Verif.Props
