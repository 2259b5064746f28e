import Verif.Lemmas.ClassVars
import Verif.Props.C18
import Verif.Props.C01
import Verif.Props.C61
/-!
# C62: serialize_class_var

Full statement: "With serialize_class_var=True, to_dict gives, after the entries of the fields, one entry per class variable under its converted name with
the serialized form of the class's value, left out when it is None under skip_none; to_tuple appends the forms in order. Nothing else changes. Reading
ignores class variables, so an object that round trips without the option round trips with it. Without the option class variables are not written."

Proved (partial) for classes without flattened fields whose names do not clash, when no object of such a class is nested in another one. The statement is
false when the class flattens a dataclass that has class variables (`C62_false_flatten`, `C62_false_flatten_tuple`), when a class variable is annotated with
a union (`C62_false_union`), and for the round trip when unknown fields are denied (`C62_false_deny`).
-/

namespace Verif.Props
open Verif Spec

/-- **C62** Without the option class variables are not written. -/
theorem C62_off {env : Env} {vs : Vars} {o : SeOpts} {n v} (h : ∀ c, vs.on c = false) :
    toDictV env vs o n v = toDict env o n v ∧ toTupleV env vs o n v = toTuple env o n v :=
  ⟨congrArg (fun r : SeRec => r.toObj true o.reuse o.conv o.skipNone o.c o.tagging v) (seVAt_off h n),
    congrArg (fun r : SeRec => r.toObj false o.reuse o.conv o.skipNone o.c o.tagging v) (seVAt_off h n)⟩

/-- **C62** The option of some classes has no effect on values in which no object of these classes occurs. -/
theorem C62_elsewhere {env : Env} {vs : Vars} {o : SeOpts} {n v} (hD : PlainDefaults env vs) (hv : FreeOfVars vs v) :
    toDictV env vs o n v = toDict env o n v ∧ toTupleV env vs o n v = toTuple env o n v :=
  ⟨(seVAt_free hD n).toObj true o.reuse o.conv o.skipNone o.c o.tagging v hv, (seVAt_free hD n).toObj false o.reuse o.conv o.skipNone o.c o.tagging v hv⟩

theorem toObj_inst {env : Env} {r : SeRec} {nm re cv sn tg c attrs} (hg : NoneFor env.gser (.cls c)) :
    toObjF env r nm re cv sn none tg (.inst c attrs) = wrapAll (r.cls nm re cv sn (.inst c attrs)) := by
  have hf : env.gser.find? (fun s => s.handles (typeOf (.inst c attrs))) = none := List.find?_eq_none.2 (fun s hs => by
    have := hg s hs
    simpa [typeOf] using this)
  unfold toObjF toObjBody
  dsimp only
  rw [hf]

/-- **C62** to_dict with the option: what it gives without the option, then the class variables. -/
theorem C62_to_dict_partial {env : Env} {vs : Vars} {o : SeOpts} {n c cd attrs w} (hU : DistinctUnions env) (hD : PlainDefaults env vs)
    (hc : VarsOk env vs c cd) (hon : vs.on c = true) (ho : o.c = none) (ha : ∀ e ∈ attrs, FreeOfVars vs e.2)
    (h : toDictV env vs o n (.inst c attrs) = .ok w) :
    ∃ es zs, toDict env o n (.inst c attrs) = .ok (.dict .plain es) ∧ w = .dict .plain (es ++ zs) ∧
      (∀ e ∈ es, ∃ f ∈ cd.fields, serializable f = true ∧ e.1 = .str (f.conv cd.seCase)) ∧
      VarEntries env (OutGiven.inside env cd ⟨true, o.reuse, o.conv, o.skipNone⟩) cd (vs.vars c) zs := by
  unfold toDictV at h
  unfold toDict
  match n with
  | 0 => cases h
  | 1 =>
    rw [seVAt_toObj, ho, toObj_inst hc.handler, wrapAll_ok] at h
    cases h
  | n + 2 =>
    rw [seVAt_toObj, ho, toObj_inst hc.handler, wrapAll_ok] at h
    obtain ⟨es, zs, h1, h2, h3, h4⟩ := cls_vars hU hD hc hon ha h
    refine ⟨es, zs, ?_, h2, h3, h4⟩
    rw [seAt_toObj, ho, toObj_inst hc.handler, wrapAll_ok]
    exact h1

/-- **C62** to_tuple with the option. -/
theorem C62_to_tuple_partial {env : Env} {vs : Vars} {o : SeOpts} {n c cd attrs w} (hU : DistinctUnions env) (hD : PlainDefaults env vs)
    (hc : VarsOk env vs c cd) (hon : vs.on c = true) (ho : o.c = none) (ha : ∀ e ∈ attrs, FreeOfVars vs e.2)
    (h : toTupleV env vs o n (.inst c attrs) = .ok w) :
    ∃ ws zs, toTuple env o n (.inst c attrs) = .ok (.tuple ws) ∧ w = .tuple (ws ++ zs) ∧ zs.length = (vs.vars c).length ∧
      ∀ (i : Nat) x z, (vs.vars c)[i]? = some x → zs[i]? = some z →
        OutTo env (OutGiven.inside env cd ⟨false, o.reuse, o.conv, o.skipNone⟩) x.ty x.val z := by
  unfold toTupleV at h
  unfold toTuple
  match n with
  | 0 => cases h
  | 1 =>
    rw [seVAt_toObj, ho, toObj_inst hc.handler, wrapAll_ok] at h
    cases h
  | n + 2 =>
    rw [seVAt_toObj, ho, toObj_inst hc.handler, wrapAll_ok] at h
    obtain ⟨ws, zs, h1, h2⟩ := row_vars hU hD hc hon ha h
    refine ⟨ws, zs, ?_, h2⟩
    rw [seAt_toObj, ho, toObj_inst hc.handler, wrapAll_ok]
    exact h1

theorem varEntries_keys {env : Env} {m cd xs zs} (h : VarEntries env m cd xs zs) : ∀ e ∈ zs, ∃ x ∈ xs, e.1 = .str (varKey cd x) := by
  induction h with
  | nil => intro e he; cases he
  | out _ _ _ ih => intro e he; obtain ⟨x, hx, h⟩ := ih e he; exact ⟨x, by simp [hx], h⟩
  | entry _ _ _ ih =>
    intro e he
    rcases List.mem_cons.1 he with rfl | he
    · exact ⟨_, by simp, rfl⟩
    · obtain ⟨x, hx, h⟩ := ih e he; exact ⟨x, by simp [hx], h⟩

/-- **C62** from_dict ignores the class variables: from what to_dict gives with the option it reads what it reads from what to_dict gives without. -/
theorem C62_read_partial {env : Env} {vs : Vars} {so : SeOpts} {o : DeOpts} {n m c cd attrs w} (hU : DistinctUnions env) (hD : PlainDefaults env vs)
    (hc : VarsOk env vs c cd) (hon : vs.on c = true) (ho : so.c = none) (ha : ∀ e ∈ attrs, FreeOfVars vs e.2)
    (hdeny : cd.denyUnknown = false) (hal : ∀ f ∈ cd.fields, f.alias = []) (hg : NoGlobal env c) (hk : ∀ x ∈ vs.vars c, ¬ Recognised env c (varKey cd x))
    (h : toDictV env vs so n (.inst c attrs) = .ok w) :
    ∃ w', toDict env so n (.inst c attrs) = .ok w' ∧ fromDict env o m (.cls c) w = fromDict env o m (.cls c) w' := by
  obtain ⟨es, zs, h1, rfl, h3, h4⟩ := C62_to_dict_partial hU hD hc hon ho ha h
  refine ⟨_, h1, ?_⟩
  rw [C18_plain (fun k => !keyKnown ((vs.vars c).map (varKey cd)) k) hc.found hc.notThrough hdeny hc.unflat hal hg (by
    intro k hr
    rw [Bool.not_eq_true', Bool.eq_false_iff]
    intro hkk
    obtain ⟨s, hs, hks⟩ := keyKnown_iff.1 hkk
    obtain ⟨x, hx, rfl⟩ := List.mem_map.1 hs
    exact hk x hx (Val.str.inj hks ▸ hr))]
  congr 2
  rw [List.filter_append, List.filter_eq_self.2, List.filter_eq_nil_iff.2, List.append_nil]
  · intro e he
    obtain ⟨x, hx, hz⟩ := varEntries_keys h4 e he
    rw [hz, Bool.not_eq_true, Bool.not_eq_false']
    exact keyKnown_iff.2 ⟨_, List.mem_map_of_mem hx, rfl⟩
  · intro e he
    obtain ⟨f, hf, hs, hz⟩ := h3 e he
    rw [hz, Bool.not_eq_true', Bool.eq_false_iff]
    intro hkk
    obtain ⟨s, hs', hks⟩ := keyKnown_iff.1 hkk
    obtain ⟨x, hx, rfl⟩ := List.mem_map.1 hs'
    exact hc.apart f hf hs x hx (Val.str.inj hks)

/-- **C62** The round trip with the option. -/
theorem C62_round_trip_partial {env : Env} {vs : Vars} {so : SeOpts} {o : DeOpts} {n c cd attrs w} (hU : DistinctUnions env) (hD : PlainDefaults env vs)
    (hc : VarsOk env vs c cd) (hon : vs.on c = true) (ho : so.c = none) (ha : ∀ e ∈ attrs, FreeOfVars vs e.2)
    (hdeny : cd.denyUnknown = false) (hal : ∀ f ∈ cd.fields, f.alias = []) (hg : NoGlobal env c) (hk : ∀ x ∈ vs.vars c, ¬ Recognised env c (varKey cd x))
    (hn : o.numbers = none) (hre : so.reuse.getD cd.reuseDflt = true → o.reuse.getD cd.reuseDflt = true)
    (hok : EnvOk env (rawFmt env true (so.reuse.getD cd.reuseDflt) (so.conv.getD cd.convDflt) (o.reuse.getD cd.reuseDflt) hre so.skipNone))
    (hv : HasTy env (.cls c) (.inst c attrs)) (h : toDictV env vs so n (.inst c attrs) = .ok w) :
    Ev (fun m => fromDict env o m (.cls c) w = .ok (.inst c attrs)) := by
  obtain ⟨w', h'⟩ := C01_dict_round_trip_partial hc.found ho hn hre hok hv
  refine h'.mono fun m hm => ?_
  obtain ⟨w'', h1, h2⟩ := C62_read_partial (o := o) (m := m) hU hD hc hon ho ha hdeny hal hg hk h
  rw [h2, ← toDict_det hm.1 h1]
  exact hm.2

/-! ## Examples -/

namespace C62Ex

/-- `class A: x: int; tags: list[str]` with `kind: ClassVar[str] = "a"`, `due: ClassVar[date]`, `limit: ClassVar[Optional[int]] = None`. -/
def cdA : ClassDef := { name := "A", mro := ["A"], fields := [{ name := "x", ty := .prim .int }, { name := "tags", ty := .list .list (.prim .str) }] }
def varsA : List VarDef :=
  [⟨"kind", .prim .str, .str "a"⟩, ⟨"due", .dt .date, .dt .date "2020-01-01"⟩, ⟨"limit", .union [.prim .int, .none], .none⟩]
def env : Env := Ex.mk [("A", cdA)]
def vs : Vars := { vars := fun c => if c == "A" then varsA else [], on := fun c => c == "A" }
def attrs : List (String × Val) := [("x", .int 1), ("tags", .list [.str "t"])]
def es : List (Val × Val) := [(.str "x", .int 1), (.str "tags", .list [.str "t"])]

theorem cls_cases {c cd} (h : env.cls c = some cd) : c = "A" ∧ cd = cdA := by
  simp only [Env.cls, env, Ex.mk, List.lookup_cons, List.lookup_nil] at h
  split at h
  · rename_i h1; cases h; exact ⟨by simpa using h1, rfl⟩
  · cases h

theorem field_cases {P : FieldDef → Prop} (h1 : P cdA.fields[0]) (h2 : P cdA.fields[1]) : ∀ f ∈ cdA.fields, P f := by
  intro f hf
  simp only [cdA, List.mem_cons, List.not_mem_nil, or_false] at hf
  rcases hf with rfl | rfl
  · exact h1
  · exact h2

theorem no_union {c ts} : ¬ Reach env true (.cls c) (.union ts) := by
  intro h
  have h := unionsOf_iff.2 h
  by_cases hc : c = "A"
  · subst hc; exact absurd h (by rw [show env.unionsOf "A" = [] from rfl]; simp)
  · have : env.cls c = none := by
      cases h' : env.cls c with
      | none => rfl
      | some cd => exact absurd (cls_cases h').1 hc
    have h := unionsOf_iff.1 h
    cases h with
    | step hp _ =>
      cases hp with
      | field h1 => rw [this] at h1; cases h1

theorem hU : DistinctUnions env := fun _ _ _ _ h _ => absurd h no_union

theorem hD : PlainDefaults env vs := by
  intro c cd hc f hf d hd
  obtain ⟨rfl, rfl⟩ := cls_cases hc
  revert hd
  exact field_cases (P := fun f => f.dflt = some d → FreeOfVars vs d) (by intro h; cases h) (by intro h; cases h) f hf

theorem var_cases {P : VarDef → Prop} (h1 : P varsA[0]) (h2 : P varsA[1]) (h3 : P varsA[2]) : ∀ x ∈ vs.vars "A", P x := by
  intro x hx
  simp only [vs, varsA, beq_self_eq_true, if_true, List.mem_cons, List.not_mem_nil, or_false] at hx
  rcases hx with rfl | rfl | rfl
  · exact h1
  · exact h2
  · exact h3

theorem ok : VarsOk env vs "A" cdA where
  found := rfl
  notThrough := rfl
  unflat := field_cases rfl rfl
  once := by decide
  wires := by decide
  apart := field_cases (fun _ => var_cases (by decide) (by decide) (by decide)) (fun _ => var_cases (by decide) (by decide) (by decide))
  unions := fun _ _ _ _ _ h _ => absurd h no_union
  vals := var_cases (by intro c h; cases h) (by intro c h; cases h) (by intro c h; cases h)
  handler := by intro s hs; cases hs

theorem free : ∀ e ∈ attrs, FreeOfVars vs e.2 := by
  intro e he
  simp only [attrs, List.mem_cons, List.not_mem_nil, or_false] at he
  rcases he with rfl | rfl
  · intro c h; cases h
  · intro c h
    cases h with
    | list hm h => simp only [List.mem_cons, List.not_mem_nil, or_false] at hm; subst hm; cases h

theorem run : toDictV env vs { reuse := some false } 9 (.inst "A" attrs) =
    .ok (.dict .plain (es ++ [(.str "kind", .str "a"), (.str "due", .str "2020-01-01"), (.str "limit", .none)])) := rfl

theorem runSkip : toDictV env vs { skipNone := true } 9 (.inst "A" attrs) =
    .ok (.dict .plain (es ++ [(.str "kind", .str "a"), (.str "due", .dt .date "2020-01-01")])) := rfl

example : toDictV env { vs with on := fun _ => false } {} 9 (.inst "A" attrs) = .ok (.dict .plain es) := (C62_off fun _ => rfl).1.trans rfl

example : toDictV env vs {} 9 (.list [.int 1]) = toDict env {} 9 (.list [.int 1]) :=
  (C62_elsewhere hD (by
    intro c h
    cases h with
    | list hm h => simp only [List.mem_cons, List.not_mem_nil, or_false] at hm; subst hm; cases h)).1

/-- `limit` is left out. -/
example : ∃ es zs, toDict env { skipNone := true } 9 (.inst "A" attrs) = .ok (.dict .plain es) ∧
    Val.dict .plain (C62Ex.es ++ [(.str "kind", .str "a"), (.str "due", .dt .date "2020-01-01")]) = .dict .plain (es ++ zs) ∧
    (∀ e ∈ es, ∃ f ∈ cdA.fields, serializable f = true ∧ e.1 = .str (f.conv cdA.seCase)) ∧
    VarEntries env (OutGiven.inside env cdA ⟨true, none, none, true⟩) cdA (vs.vars "A") zs :=
  C62_to_dict_partial hU hD ok rfl rfl free runSkip

example := C62_to_tuple_partial (n := 9) (o := {}) hU hD ok rfl rfl free
  (show toTupleV env vs {} 9 (.inst "A" attrs) = .ok (.tuple [.int 1, .list [.str "t"], .str "a", .dt .date "2020-01-01", .none]) from rfl)

theorem known : ∀ x ∈ vs.vars "A", ¬ Recognised env "A" (varKey cdA x) := by
  have : ∀ k, Recognised env "A" k → k = "x" ∨ k = "tags" := by
    intro k h
    cases h with
    | own h1 h2 h3 h4 h5 h6 =>
      cases h1
      simp [cdA] at h3
      rcases h3 with rfl | rfl <;> simp [FieldDef.conv, cdA] at h6 <;> simp [h6]
    | child h1 h2 h3 h4 h5 h6 =>
      cases h1
      simp [cdA] at h3
      rcases h3 with rfl | rfl <;> simp [inlined] at h5
    | transparent h1 h2 => cases h1; cases h2
  exact var_cases (fun h => by rcases this _ h with h | h <;> exact absurd h (by decide)) (fun h => by rcases this _ h with h | h <;> exact absurd h (by decide))
    (fun h => by rcases this _ h with h | h <;> exact absurd h (by decide))

theorem noGlobal : NoGlobal env "A" := ⟨by simp [env, Ex.mk], by simp [env, Ex.mk]⟩

example := C62_read_partial (o := {}) (m := 9) hU hD ok rfl rfl free rfl (field_cases rfl rfl) noGlobal known run

theorem fieldPlain : ∀ g ∈ cdA.fields, FieldPlain cdA g :=
  field_cases ⟨rfl, ⟨rfl, rfl, rfl⟩, .inl rfl, rfl, ⟨rfl, rfl⟩, rfl⟩ ⟨rfl, ⟨rfl, rfl, rfl⟩, .inl rfl, rfl, ⟨rfl, rfl⟩, rfl⟩

theorem classOk (F : Fmt env) : ClassOk env F "A" cdA where
  fields := field_cases (.plain (fieldPlain _ (by simp)) (.never ⟨rfl, rfl, rfl, rfl⟩ (fun _ h => by cases h)))
    (.plain (fieldPlain _ (by simp)) (.never ⟨rfl, rfl, rfl, rfl⟩ (fun _ h => by cases h)))
  names := by decide
  wires := by decide
  types := field_cases (fun _ _ => .scalar .prim) (fun _ _ => .list (.scalar .prim))
  notTransparent := rfl
  noHook := by intro p h; cases h
  noClassCustom := ⟨rfl, rfl⟩
  mroSelf := by simp [cdA]
  kwLast := by simp [cdA]
  kwTuple := fun _ => field_cases ⟨rfl, rfl⟩ ⟨rfl, rfl⟩

theorem envOk (F : Fmt env) : EnvOk env F where
  classes := by
    intro c cd hc _
    obtain ⟨rfl, rfl⟩ := cls_cases hc
    exact classOk F
  wrappers := by
    intro c cd hc ht
    obtain ⟨rfl, rfl⟩ := cls_cases hc
    cases ht
  noGlobal := ⟨rfl, rfl⟩

theorem ty : HasTy env (.cls "A") (.inst "A" attrs) := by
  refine .inst (cd := cdA) rfl rfl ?_
  intro p hp
  simp only [cdA, attrs, List.zip_cons_cons, List.zip_nil_right, List.mem_cons, List.not_mem_nil, or_false] at hp
  rcases hp with rfl | rfl
  · exact .int
  · exact .list (by intro x hx; simp only [List.mem_cons, List.not_mem_nil, or_false] at hx; subst hx; exact .str)

example : Ev (fun m => fromDict env {} m (.cls "A")
    (.dict .plain (es ++ [(.str "kind", .str "a"), (.str "due", .str "2020-01-01"), (.str "limit", .none)])) = .ok (.inst "A" attrs)) :=
  C62_round_trip_partial (so := { reuse := some false }) hU hD ok rfl rfl free rfl (field_cases rfl rfl) noGlobal known rfl (fun h => by cases h) (envOk _) ty run

end C62Ex

/-! ## Where the statement fails -/

namespace C62No

/-- `class P: x: int` with `kind: ClassVar[str] = "p"`. -/
def cdP : ClassDef := { name := "P", mro := ["P"], fields := [{ name := "x", ty := .prim .int }] }
/-- `class Q: p: P = field(flatten=True); y: int`. -/
def cdQ : ClassDef := { name := "Q", mro := ["Q"], fields := [{ name := "p", ty := .cls "P", flatten := true }, { name := "y", ty := .prim .int }] }
/-- `class R: p: P = field(flatten=True)`. -/
def cdR : ClassDef := { name := "R", mro := ["R"], fields := [{ name := "p", ty := .cls "P", flatten := true }] }
/-- A class with `kind: ClassVar[Union[int, str]] = 1`. -/
def cdU : ClassDef := { name := "U", mro := ["U"], fields := [{ name := "x", ty := .prim .int }] }
/-- The class `P` with deny_unknown_fields. -/
def cdD : ClassDef := { name := "D", mro := ["D"], denyUnknown := true, fields := [{ name := "x", ty := .prim .int }] }
def env : Env := Ex.mk [("P", cdP), ("Q", cdQ), ("R", cdR), ("U", cdU), ("D", cdD)]
def vs : Vars :=
  { vars := fun c => if c == "P" || c == "D" then [⟨"kind", .prim .str, .str "p"⟩] else if c == "U" then [⟨"kind", .union [.prim .int, .prim .str], .int 1⟩] else []
    on := fun c => c != "P" }
def p : Val := .inst "P" [("x", .int 1)]

end C62No

open C62No in
/-- **C62** fails for a class that flattens a dataclass with class variables: to_dict, which works without the option, raises. The targets of the
assignment in the generated function include the class variable, the values do not. -/
theorem C62_false_flatten : toDict env {} 9 (.inst "R" [("p", p)]) = .ok (.dict .plain [(.str "x", .int 1)]) ∧
    ∀ n, ∃ e, toDictV env vs {} (n + 9) (.inst "R" [("p", p)]) = .error e ∧ e ≠ .fuel := by
  refine ⟨rfl, fun n => ⟨_, rfl, by intro h; cases h⟩⟩

open C62No in
/-- **C62** to_tuple puts the class variable of a flattened dataclass, which itself lacks the option, in front of the next field. The class with the option has
no class variables. -/
theorem C62_false_flatten_tuple : vs.vars "Q" = [] ∧ vs.on "P" = false ∧ toTuple env {} 9 (.inst "Q" [("p", p), ("y", .int 2)]) = .ok (.tuple [.int 1, .int 2]) ∧
    toTupleV env vs {} 9 (.inst "Q" [("p", p), ("y", .int 2)]) = .ok (.tuple [.int 1, .str "p", .int 2]) := by
  refine ⟨rfl, rfl, rfl, rfl⟩

open C62No in
/-- **C62** fails for a class variable annotated with a union: there is no function for the union, to_dict raises. -/
theorem C62_false_union : toDict env {} 9 (.inst "U" [("x", .int 1)]) = .ok (.dict .plain [(.str "x", .int 1)]) ∧
    ∀ n, ∃ e, toDictV env vs {} (n + 9) (.inst "U" [("x", .int 1)]) = .error e ∧ e ≠ .fuel := by
  refine ⟨rfl, fun n => ⟨_, rfl, by intro h; cases h⟩⟩

open C62No in
/-- **C62** With deny_unknown_fields from_dict refuses what to_dict gives. -/
theorem C62_false_deny : toDictV env vs {} 9 (.inst "D" [("x", .int 1)]) = .ok (.dict .plain [(.str "x", .int 1), (.str "kind", .str "p")]) ∧
    ∀ n, ∃ e, fromDict env {} (n + 9) (.cls "D") (.dict .plain [(.str "x", .int 1), (.str "kind", .str "p")]) = .error e ∧ e ≠ .fuel := by
  refine ⟨rfl, fun n => ⟨_, rfl, by intro h; cases h⟩⟩

end Verif.Props
