import Verif.Lemmas.FormMain
import Verif.Props.C75
import Verif.Props.C63
/-!
# C79: objects that can be written

Full statement: "An object all of whose attributes are of their annotated types can be written: to_dict and to_tuple raise nothing, and return the form the
annotations, the options and the rules of its class give it. So do the functions of the formats, if their library takes that form."

Proved (partial) for the values of `FormOf` (`Spec/Form.lean`), which describes at the same time which values can be written and what their form is: any
nesting of containers, Optionals, unions of classes and scalars, aliases, generics, Any, objects with renamed, skipped, flattened and transparent fields. It asks
that elements of sets that stay sets and keys of mappings have hashable forms, that values of enum members are hashable, that members of unions can be told by
class, and that the predicates and serializers of the user return. Without the first two the statement is false: `C79_false_set`, `C79_false_key`,
`C79_false_enum`.
-/

namespace Verif.Props
open Verif Spec

theorem toForm_written {env : Env} (hF : FlattenAcyclic env) {nm} {o : SeOpts} (hc : o.c = none ∨ o.c = some .any) {v w}
    (h : FormOf env (.any ⟨nm, o.reuse, o.conv, o.skipNone⟩) v w) : ∃ N, ∀ n ≥ N, toForm nm env o n v = .ok w := by
  obtain ⟨rank, hle, hr⟩ := hF
  obtain ⟨N, hN⟩ := forms_main hle hr h
  exact ⟨N, fun n hn => by rw [toForm_obj]; exact hN n hn o.c o.tagging hc⟩

theorem toForm_le {env : Env} {nm} {o : SeOpts} {n m v} (h : n ≤ m) : Le (toForm nm env o n v) (toForm nm env o m v) := by
  rw [toForm_obj, toForm_obj]
  exact (seAt_mono env h).toObj _ _ _ _ _ _ _

/-- **C79** `to_dict` returns the form. -/
theorem C79_to_dict_partial {env : Env} (hF : FlattenAcyclic env) {o : SeOpts} (hc : o.c = none ∨ o.c = some .any) {v w}
    (h : FormOf env (.any ⟨true, o.reuse, o.conv, o.skipNone⟩) v w) : ∃ N, ∀ n ≥ N, toDict env o n v = .ok w :=
  toForm_written (nm := true) hF hc h

/-- **C79** `to_tuple` returns the form. -/
theorem C79_to_tuple_partial {env : Env} (hF : FlattenAcyclic env) {o : SeOpts} (hc : o.c = none ∨ o.c = some .any) {v w}
    (h : FormOf env (.any ⟨false, o.reuse, o.conv, o.skipNone⟩) v w) : ∃ N, ∀ n ≥ N, toTuple env o n v = .ok w :=
  toForm_written (nm := false) hF hc h

/-- **C79** Nothing else is returned and nothing raised, however far the evaluation is followed. -/
theorem C79_only_partial {env : Env} (hF : FlattenAcyclic env) {nm} {o : SeOpts} (hc : o.c = none ∨ o.c = some .any) {v w}
    (h : FormOf env (.any ⟨nm, o.reuse, o.conv, o.skipNone⟩) v w) (n : Nat) : toForm nm env o n v = .ok w ∨ toForm nm env o n v = .error .fuel := by
  obtain ⟨N, hN⟩ := toForm_written hF hc h
  rcases toForm_le (Nat.le_max_left n N) with h1 | h1
  · exact .inr h1
  · exact .inl (h1.trans (hN _ (Nat.le_max_right n N)))

/-- **C79** A value has one form. -/
theorem C79_one_form_partial {env : Env} (hF : FlattenAcyclic env) {nm re cv sn v w w'} (h : FormOf env (.any ⟨nm, re, cv, sn⟩) v w)
    (h' : FormOf env (.any ⟨nm, re, cv, sn⟩) v w') : w = w' := by
  obtain ⟨N, hN⟩ := toForm_written (o := { reuse := re, conv := cv, skipNone := sn }) hF (.inl rfl) h
  obtain ⟨M, hM⟩ := toForm_written (o := { reuse := re, conv := cv, skipNone := sn }) hF (.inl rfl) h'
  have := (hN _ (Nat.le_max_left N M)).symm.trans (hM _ (Nat.le_max_right N M))
  injection this

theorem encodeDict_written {env : Env} (hF : FlattenAcyclic env) {o : SeOpts} (hc : o.c = none ∨ o.c = some .any) {v w} {K : Codec} {s}
    (h : FormOf env (.any ⟨true, o.reuse, o.conv, o.skipNone⟩) v w) (hK : K.enc w = .ok s) : ∃ N, ∀ n ≥ N, encodeDict env K o n v = .ok s := by
  obtain ⟨N, hN⟩ := C79_to_dict_partial hF hc h
  refine ⟨N, fun n hn => ?_⟩
  unfold encodeDict
  rw [hN n hn]
  dsimp only
  rw [hK]
  rfl

/-- **C79** to_json, to_yaml and to_toml return what their library makes of the form; to_pickle what it makes of the form without `skip_none`. -/
theorem C79_formats_partial {env : Env} (hF : FlattenAcyclic env) {o : FmtOpts} (hc : o.c = none ∨ o.c = some .any) {v w u} {K : Codec} {s p}
    (h : FormOf env (.any ⟨true, some o.reuse, some o.conv, o.skipNone⟩) v w) (hK : K.enc w = .ok s)
    (hu : FormOf env (.any ⟨true, some o.reuse, some o.conv, false⟩) v u) (hp : K.enc u = .ok p) :
    ∃ N, ∀ n ≥ N, toJson env K o n v = .ok s ∧ toYaml env K o n v = .ok s ∧ toToml env K n v o = .ok s ∧ toPickle env K o n v = .ok p := by
  obtain ⟨N, hN⟩ := encodeDict_written (o := o.se) hF hc h hK
  obtain ⟨M, hM⟩ := encodeDict_written (o := { o.se with skipNone := false }) hF hc hu hp
  exact ⟨max N M, fun n hn => ⟨hN n (by omega), hN n (by omega), hN n (by omega), hM n (by omega)⟩⟩

/-- **C79** to_msgpack without `ext_dict` returns what msgpack makes of the form. -/
theorem C79_msgpack_partial {env : Env} (hF : FlattenAcyclic env) {o : MpOpts} (hc : o.c = none ∨ o.c = some .any) (he : o.ext = none) {v w} {K : MpCodec} {s}
    (h : FormOf env (.any ⟨o.named, some o.reuse, some o.conv, false⟩) v w) (hK : K.pack w = .ok s) : ∃ N, ∀ n ≥ N, toMsgpack env K o n v = .ok s := by
  obtain ⟨N, hN⟩ := toForm_written (o := { reuse := some o.reuse, conv := some o.conv, c := o.c }) hF hc h
  refine ⟨N, fun n hn => ?_⟩
  have := hN n hn
  unfold toForm at this
  unfold toMsgpack
  dsimp only
  rw [he, this]
  dsimp only
  rw [hK]
  rfl

/-! ## A case -/

namespace C79Ex

abbrev envD := C63Ex.env

theorem noRule {cd : ClassDef} {f : FieldDef} {b env} (h1 : f.skipIf = none) (h2 : f.skipIfFalse = false) (h3 : skipsDefault cd f = false) (h4 : b ≠ .none) {sn} :
    ¬ LeftOut env sn cd f b := by
  intro h
  cases h with
  | user h _ => rw [h1] at h; cases h
  | ifFalse _ h _ => rw [h2] at h; cases h
  | ifDefault _ _ h _ _ => rw [h3] at h; cases h
  | ifNone => exact h4 rfl
  | absent => exact h4 rfl

def vals (as : List (String × Val)) (f : FieldDef) : Val := (as.lookup f.name).getD .none

theorem none' {S : List ClsSer} (h : S = []) {t} : NoneFor S t := by subst h; intro s hs; cases hs

/-- A point. -/
theorem point {g : OutGiven} (hg : g.named = true) (i j : Int) :
    FormOf envD (.obj g) (.inst "Point" [("x", .int i), ("y", .int j)]) (.dict .plain [(.str "x", .int i), (.str "y", .int j)]) := by
  refine FormOf.object (cd := C63Ex.Point) (val := vals [("x", .int i), ("y", .int j)]) (dk := fun _ => .plain)
    (es := fun f => [(.str f.name, vals [("x", .int i), ("y", .int j)] f)]) (kept := fun _ => true) rfl hg rfl ?_ ?_ ?_ ?_ ?_ ?_ ?_ ?_ ?_
  · intro f hf h1 h2 h3
    simp only [C63Ex.Point, List.mem_cons, List.not_mem_nil, or_false] at hf
    rcases hf with rfl | rfl <;> cases h3
  case refine_9 =>
    show List.Pairwise _ [Val.str "x", Val.str "y"]
    decide
  all_goals
    intro f hf
    have hf := (List.mem_filter.1 hf).1
    simp only [C63Ex.Point, List.mem_cons, List.not_mem_nil, or_false] at hf
    rcases hf with rfl | rfl
  · rfl
  · rfl
  · intro _; exact .field rfl (by simp) (.leaf (none' rfl) (.prim rfl))
  · intro _; exact .field rfl (by simp) (.leaf (none' rfl) (.prim rfl))
  · simp
  · simp
  · intro _ p hp; cases hp
  · intro _ p hp; cases hp
  · intro _; simp only [Bool.true_eq_false, false_iff]; exact noRule rfl rfl rfl (fun h => by cases h)
  · intro _; simp only [Bool.true_eq_false, false_iff]; exact noRule rfl rfl rfl (fun h => by cases h)
  · intro h; cases h
  · intro h; cases h
  · intro h; cases h
  · intro h; cases h

/-- The attributes of the document of C63. -/
def attrs : List (String × Val) :=
  [("title", .str "t"), ("pts", .list [.inst "Point" [("x", .int 1), ("y", .int 0)], .inst "Point" [("x", .int 2), ("y", .int 5)]]),
    ("kind", .str "b"), ("value", .str "s"), ("meta", .inst "Meta" [("author", .str "me"), ("note", .none)]), ("seen", .bool false)]

def forms : List (String × List (Val × Val)) :=
  [("title", [(.str "title", .str "t")]),
   ("pts", [(.str "points", .list [.dict .plain [(.str "x", .int 1), (.str "y", .int 0)], .dict .plain [(.str "x", .int 2), (.str "y", .int 5)]])]),
   ("kind", [(.str "kind", .str "b")]), ("value", [(.str "value", .str "s")]), ("meta", [(.str "author", .str "me"), (.str "note", .none)])]

def form (f : FieldDef) : List (Val × Val) := (forms.lookup f.name).getD []

/-- The fields of the document, each with its entries: an object is a dict in dict form. -/
theorem parts {m : OutMode} (hm : m.named = true) (hs : m.sers = []) (hc : m.coerce = false) {f} (hf : f ∈ outFields C63Ex.Doc) :
    FormOf envD (.field "Doc" m none f) (vals attrs f) (.dict .plain (form f)) := by
  obtain ⟨hf, hser⟩ := List.mem_filter.1 hf
  simp only [C63Ex.Doc, List.mem_cons, List.not_mem_nil, or_false] at hf
  rcases hf with rfl | rfl | rfl | rfl | rfl | rfl
  · exact .field rfl (by simp [C63Ex.ftitle]) (.leaf (none' hs) (.prim hc))
  · refine .field rfl (by simp [C63Ex.fpts]) (.list (none' hs) .list rfl ?_)
    intro p hp
    simp at hp
    rcases hp with rfl | rfl <;> exact .cls (none' hs) (point hm _ _)
  · exact .field rfl (by simp [C63Ex.fkind]) (.leaf (none' hs) .lit)
  · refine .field rfl (by simp [C63Ex.fvalue]) (.union (pre := [.prim .int]) (t := .prim .str) (post := []) (none' hs) rfl C63Ex.hasUnion rfl (by intro c as h; cases h)
      ?_ .prim .str (.leaf (none' rfl) (.prim rfl)) (.plain (by simp)))
    intro s hs
    simp at hs
    subst hs
    exact ⟨.prim, fun h => by cases h⟩
  · refine .inner (cd := C63Ex.Meta) (val := vals [("author", .str "me"), ("note", .none)])
      (es := fun f => [(.str f.name, vals [("author", .str "me"), ("note", .none)] f)]) rfl ?_ rfl ?_ ?_
    · exact ⟨fun _ => ⟨_, rfl⟩, fun _ => by simp [C63Ex.fmeta], fun _ _ => ⟨none' hs, fun _ _ => none' hs⟩⟩
    all_goals
      intro f hf
      simp only [C63Ex.Meta, List.mem_cons, List.not_mem_nil, or_false] at hf
      rcases hf with rfl | rfl
    · rfl
    · rfl
    · exact .field rfl (by simp) (.leaf (none' hs) (.prim hc))
    · exact .field rfl (by simp) (.optNone (none' hs) (by simp))
  · cases hser

def docDict : Val := .dict .plain
  [(.str "title", .str "t"), (.str "points", .list [.dict .plain [(.str "x", .int 1), (.str "y", .int 0)], .dict .plain [(.str "x", .int 2), (.str "y", .int 5)]]),
   (.str "kind", .str "b"), (.str "value", .str "s"), (.str "author", .str "me"), (.str "note", .none)]

/-- The document in dict form. -/
theorem doc {g : OutGiven} (hg : g.named = true) : FormOf envD (.any g) C63Ex.obj docDict := by
  refine .anyObj (none' rfl) (FormOf.object (cd := C63Ex.Doc) (val := vals attrs) (dk := fun _ => .plain) (es := form) (kept := fun _ => true) rfl hg rfl ?_ ?_ ?_ ?_ ?_ ?_ ?_ ?_ ?_)
  · intro f hf h1 h2 h3
    simp only [C63Ex.Doc, List.mem_cons, List.not_mem_nil, or_false] at hf
    rcases hf with rfl | rfl | rfl | rfl | rfl | rfl <;> cases h3
  case refine_3 => exact fun f hf _ => parts hg rfl rfl hf
  case refine_9 => decide
  all_goals
    intro f hf
    obtain ⟨hf, hser⟩ := List.mem_filter.1 hf
    simp only [C63Ex.Doc, List.mem_cons, List.not_mem_nil, or_false] at hf
    rcases hf with rfl | rfl | rfl | rfl | rfl | rfl
  all_goals first
    | (cases hser; done)
    | rfl
    | (intro h; cases h; done)
    | exact fun _ => List.cons_ne_nil _ _
    | (intro _ p hp; cases hp; done)
    | (intro _; simp only [Bool.true_eq_false, false_iff]; exact noRule rfl rfl rfl (fun h => by cases h))

example : ∃ N, ∀ n ≥ N, toDict envD { skipNone := true } n C63Ex.obj = .ok docDict := C79_to_dict_partial C63Ex.acyclic (.inl rfl) (doc rfl)
example (n : Nat) : toForm true envD {} n C63Ex.obj = .ok docDict ∨ toForm true envD {} n C63Ex.obj = .error .fuel := C79_only_partial C63Ex.acyclic (.inl rfl) (doc rfl) n
example {w} (h : FormOf envD (.any ⟨true, none, none, false⟩) C63Ex.obj w) : w = docDict := C79_one_form_partial C63Ex.acyclic h (doc rfl)
example {K : Codec} {s} (hK : K.enc docDict = .ok s) : ∃ N, ∀ n ≥ N, toJson envD K { skipNone := true } n C63Ex.obj = .ok s ∧
    toYaml envD K { skipNone := true } n C63Ex.obj = .ok s ∧ toToml envD K n C63Ex.obj { skipNone := true } = .ok s ∧ toPickle envD K { skipNone := true } n C63Ex.obj = .ok s :=
  C79_formats_partial C63Ex.acyclic (.inl rfl) (doc rfl) hK (doc rfl) hK
example {K : MpCodec} {s} (hK : K.pack docDict = .ok s) : ∃ N, ∀ n ≥ N, toMsgpack envD K {} n C63Ex.obj = .ok s :=
  C79_msgpack_partial C63Ex.acyclic (.inl rfl) rfl (doc rfl) hK
/-- In tuple form, a list of objects. -/
example : ∃ N, ∀ n ≥ N, toTuple envD {} n (.list [.inst "Point" [("x", .int 1), ("y", .int 2)]]) = .ok (.list [.tuple [.int 1, .int 2]]) := by
  refine C79_to_tuple_partial C63Ex.acyclic (.inl rfl) (.anyList (none' rfl) rfl ?_)
  intro p hp
  simp at hp
  subst hp
  refine .anyObj (none' rfl) (FormOf.row (cd := C63Ex.Point) (val := vals [("x", .int 1), ("y", .int 2)])
    (es := fun f => [(.str f.name, vals [("x", .int 1), ("y", .int 2)] f)]) rfl rfl rfl ?_ ?_)
  all_goals
    intro f hf
    have hf := (List.mem_filter.1 hf).1
    simp only [C63Ex.Point, List.mem_cons, List.not_mem_nil, or_false] at hf
    rcases hf with rfl | rfl
  · rfl
  · rfl
  · exact .field rfl (by simp) (.leaf (none' rfl) (.prim rfl))
  · exact .field rfl (by simp) (.leaf (none' rfl) (.prim rfl))

end C79Ex

/-! ## Witnesses -/

theorem never_written {env : Env} {o : SeOpts} {k v e} (h : toDict env o k v = .error e) (he : e ≠ .fuel) (n : Nat) (w : Val) : toDict env o n v ≠ .ok w := by
  intro hw
  have h1 := toDict_mono (Nat.le_max_left n k) hw
  rcases toForm_le (nm := true) (env := env) (o := o) (v := v) (Nat.le_max_right n k) with h2 | h2
  · have h2 : toDict env o k v = .error .fuel := h2
    rw [h] at h2
    exact he (by injection h2)
  · have h2 : toDict env o k v = toDict env o (max n k) v := h2
    rw [h, h1] at h2
    cases h2

namespace C79Ex

/-- `@dataclass(frozen=True) class P: x: int`. -/
def P : ClassDef := { name := "P", mro := ["P"], hashable := true, fields := [{ name := "x", ty := .prim .int }] }
/-- `class S: ps: set[P]`. -/
def S : ClassDef := { name := "S", mro := ["S"], fields := [{ name := "ps", ty := .set .set (.cls "P") }] }
/-- `class D: at: dict[P, int]`. -/
def D : ClassDef := { name := "D", mro := ["D"], fields := [{ name := "at", ty := .dict .dict (.cls "P") (.prim .int) }] }
/-- `class E(Enum): A = [1]`. -/
def E : EnumDef := { name := "E", members := [("A", .list [.int 1])] }
/-- `class N: e: E`. -/
def N : ClassDef := { name := "N", mro := ["N"], fields := [{ name := "e", ty := .enum "E" }] }
def env : Env := { Ex.mk [("P", P), ("S", S), ("D", D), ("N", N)] with enums := [("E", E)] }
def p : Val := .inst "P" [("x", .int 1)]

end C79Ex

open C79Ex in
/-- **C79** fails for a set of dataclasses: `to_dict(S({P(1)}))` raises TypeError, a dict is no element of a set. -/
theorem C79_false_set : Conforms env (.set .set (.cls "P")) (.set false [p]) ∧ Conforms env (.prim .int) (.int 1) ∧
    (∀ n w, toDict env {} n (.inst "S" [("ps", .set false [p])]) ≠ .ok w) ∧ ∃ w, toDict env { conv := some true } 9 (.inst "S" [("ps", .set false [p])]) = .ok w :=
  ⟨.set (.set (by decide)) (by intro x hx; cases hx; exact .self), .prim .int, never_written (k := 9) (e := .wrap (.py .type)) rfl (by simp), _, rfl⟩

open C79Ex in
/-- **C79** fails for dataclasses as keys. -/
theorem C79_false_key : Conforms env (.dict .dict (.cls "P") (.prim .int)) (.dict .plain [(p, .int 1)]) ∧
    ∀ n w, toDict env {} n (.inst "D" [("at", .dict .plain [(p, .int 1)])]) ≠ .ok w :=
  ⟨.dict (.dict (by decide)) (by intro x hx; cases hx; exact .self) (by intro x hx; cases hx; exact .prim .int),
    never_written (k := 9) (e := .wrap (.py .type)) rfl (by simp)⟩

open C79Ex in
/-- **C79** fails for enum members with unhashable values. -/
theorem C79_false_enum : Conforms env (.enum "E") (.enum "E" "A") ∧ ∀ n w, toDict env {} n (.inst "N" [("e", .enum "E" "A")]) ≠ .ok w :=
  ⟨.enum, never_written (k := 9) (e := .wrap (.py .type)) rfl (by simp)⟩

end Verif.Props
