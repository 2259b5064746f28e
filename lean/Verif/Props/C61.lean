import Verif.Lemmas.Goes
import Verif.Props.C54
import Verif.Examples.World
/-!
# C61: what to_dict and to_tuple return

Full statement: "If to_dict or to_tuple returns, then at every position of the result stands what the annotation at that position makes of the value at
that position: primitives unchanged (converted in a coercing class), enum members by value, dates and str-convertible values as text (kept with
reuse_instances), containers element by element, sets as lists with convert_sets, unions through the first member that fits, tagged if it is a dataclass,
Any and TypeVars by the run-time type, objects according to their own class with one entry per field that is not left out. The options reach every nested
object; coercion and tagging are those of the innermost class."

Proved (partial) for programs whose union functions have distinct names; objects of classes that use custom serializers for what they flatten, flatten a
dataclass with a flattened dict, flatten in a transparent class or compare with a dataclass default are left open. Without the first condition the statement is false: `C61_false`.
-/

namespace Verif.Spec

/-- `to_dict` or `to_tuple`. -/
def toForm (named : Bool) (env : Env) (o : SeOpts) (n : Nat) (v : Val) : Res Val := if named then toDict env o n v else toTuple env o n v

end Verif.Spec

namespace Verif.Props
open Verif Spec

theorem toForm_obj {nm} {env : Env} {o : SeOpts} {n v} : toForm nm env o n v = (seAt env n).toObj nm o.reuse o.conv o.skipNone o.c o.tagging v := by
  cases nm <;> rfl

/-- **C61** What to_dict returns. -/
theorem C61_to_dict_partial {env : Env} {o : SeOpts} {n v w} (hU : DistinctUnions env) (hT : ∀ t, behind o.c = some t → DistinctUnionsIn env t)
    (h : toDict env o n v = .ok w) : OutTop env ⟨true, o.reuse, o.conv, o.skipNone⟩ o.tagging (behind o.c) v w :=
  top_out hU hT h

/-- **C61** What to_tuple returns. -/
theorem C61_to_tuple_partial {env : Env} {o : SeOpts} {n v w} (hU : DistinctUnions env) (hT : ∀ t, behind o.c = some t → DistinctUnionsIn env t)
    (h : toTuple env o n v = .ok w) : OutTop env ⟨false, o.reuse, o.conv, o.skipNone⟩ o.tagging (behind o.c) v w :=
  top_out hU hT h

/-- **C61** Wherever steps lead to elements, to values of mappings, to fields of nested and transparent objects, to objects in unions: the form found there is what the annotation
there makes of the value there. The options are the ones given, or those of the first class; coercion and tagging those of the class around that position. -/
theorem C61_anywhere_partial {nm} {env : Env} {o : SeOpts} {n v w top cd' t' v' w'} (hU : DistinctUnions env) (hg : env.gser = []) (hc : o.c = none)
    (h : toForm nm env o n v = .ok w) (hl : TopGoes env nm top cd' t' v' w' v w) :
    OutTo env (.within nm (o.reuse.getD top.reuseDflt) (o.conv.getD top.convDflt) o.skipNone cd') t' v' w' := by
  rw [toForm_obj] at h
  have h := top_out hU (by rw [hc]; intro t ht; cases ht) h
  rw [hc] at h
  cases h with
  | plain _ h => exact topGoes_out hg hl h

theorem outTo_leaf {env : Env} {nm re cv sn cd t v w} (h : OutTo env (.within nm re cv sn cd) t v w) (h1 : ∀ ts, t ≠ .tuple ts)
    (h2 : ∀ k s, t ≠ .list k s) (h3 : ∀ s, t ≠ .deque s) (h4 : ∀ s, t ≠ .tupleV s) (h5 : ∀ k s, t ≠ .set k s) (h6 : ∀ s, t ≠ .counter s)
    (h7 : ∀ k a b, t ≠ .dict k a b) (h8 : ∀ ts, t ≠ .union ts) (h9 : ∀ a b, t ≠ .alias a b) (h10 : ∀ a b, t ≠ .gen a b) (h11 : ∀ a, t ≠ .cls a)
    (h12 : ∀ a, t ≠ .tvar a) (h13 : t ≠ .any) : OutLeaf env (.within nm re cv sn cd) t v w := by
  cases h with
  | chosen hc _ => exact (no_chosenSe hc).elim
  | leaf _ h => exact h
  | tuple => exact (h1 _ rfl).elim
  | list => exact (h2 _ _ rfl).elim
  | deque => exact (h3 _ rfl).elim
  | tupleV => exact (h4 _ rfl).elim
  | setList => exact (h5 _ _ rfl).elim
  | set => exact (h5 _ _ rfl).elim
  | counter => exact (h6 _ rfl).elim
  | dict => exact (h7 _ _ _ rfl).elim
  | optNone => exact (h8 _ rfl).elim
  | opt => exact (h8 _ rfl).elim
  | union => exact (h8 _ rfl).elim
  | alias => exact (h9 _ _ rfl).elim
  | gen => exact (h10 _ _ rfl).elim
  | cls => exact (h11 _ rfl).elim
  | tvar => exact (h12 _ rfl).elim
  | any => exact (h13 rfl).elim

/-- **C36** At every date of the result, however deep: the instance itself with `reuse_instances`, its text otherwise. -/
theorem C36_date_anywhere_partial {nm} {env : Env} {o : SeOpts} {n v w top cd' k v' w'} (hU : DistinctUnions env) (hg : env.gser = []) (hc : o.c = none)
    (h : toForm nm env o n v = .ok w) (hl : TopGoes env nm top cd' (.dt k) v' w' v w) :
    (o.reuse.getD top.reuseDflt = true → w' = v') ∧ (o.reuse.getD top.reuseDflt = false → ∃ k' s, v' = .dt k' s ∧ w' = .str s) := by
  have := outTo_leaf (C61_anywhere_partial hU hg hc h hl) (by simp) (by simp) (by simp) (by simp) (by simp) (by simp) (by simp) (by simp)
    (by simp) (by simp) (by simp) (by simp) (by simp)
  cases this with
  | dtKept h1 => exact ⟨fun _ => rfl, fun h2 => absurd (h2.symm.trans h1) (by decide)⟩
  | dtText h1 => exact ⟨fun h2 => absurd (h2.symm.trans h1) (by decide), fun _ => ⟨_, _, rfl, rfl⟩⟩

/-- **C36** The same for UUIDs, paths, addresses and decimals. -/
theorem C36_std_anywhere_partial {nm} {env : Env} {o : SeOpts} {n v w top cd' k k' s w'} (hU : DistinctUnions env) (hg : env.gser = []) (hc : o.c = none)
    (h : toForm nm env o n v = .ok w) (hl : TopGoes env nm top cd' (.std k) (.std k' s) w' v w) :
    (o.reuse.getD top.reuseDflt = true → w' = .std k' s) ∧ (o.reuse.getD top.reuseDflt = false → w' = .str s) := by
  have := outTo_leaf (C61_anywhere_partial hU hg hc h hl) (by simp) (by simp) (by simp) (by simp) (by simp) (by simp) (by simp) (by simp)
    (by simp) (by simp) (by simp) (by simp) (by simp)
  cases this with
  | stdKept h1 => exact ⟨fun _ => rfl, fun h2 => absurd (h2.symm.trans h1) (by decide)⟩
  | stdText h1 => exact ⟨fun h2 => absurd (h2.symm.trans h1) (by decide), fun _ => rfl⟩
  | stdOther _ h1 => exact absurd rfl (h1 _ _)

/-- **C37** At every set of the result, however deep: a list with `convert_sets`, a set otherwise. -/
theorem C37_anywhere_partial {nm} {env : Env} {o : SeOpts} {n v w top cd' k t v' w'} (hU : DistinctUnions env) (hg : env.gser = []) (hc : o.c = none)
    (h : toForm nm env o n v = .ok w) (hl : TopGoes env nm top cd' (.set k t) v' w' v w) :
    (o.conv.getD top.convDflt = true → ∃ ys, w' = .list ys) ∧ (o.conv.getD top.convDflt = false → ∃ ys, w' = .set false ys) := by
  have := C61_anywhere_partial hU hg hc h hl
  cases this with
  | chosen hc _ => exact (no_chosenSe hc).elim
  | leaf _ h => cases h
  | setList _ h1 => exact ⟨fun _ => ⟨_, rfl⟩, fun h2 => absurd (h2.symm.trans h1) (by decide)⟩
  | set _ h1 _ _ _ h3 => exact ⟨fun h2 => absurd (h2.symm.trans h1) (by decide), fun _ => by cases h3; exact ⟨_, rfl⟩⟩

/-- **C31** At every enum of the result, however deep: the value of the member. -/
theorem C31_write_anywhere_partial {nm} {env : Env} {o : SeOpts} {n v w top cd' e d m u w'} (hU : DistinctUnions env) (hg : env.gser = []) (hc : o.c = none)
    (h : toForm nm env o n v = .ok w) (hl : TopGoes env nm top cd' (.enum e) (.enum e m) w' v w) (hd : env.enm e = some d) (hm : d.members.lookup m = some u)
    (hu : ∀ e' m', u ≠ .enum e' m') : w' = u := by
  have := outTo_leaf (C61_anywhere_partial hU hg hc h hl) (by simp) (by simp) (by simp) (by simp) (by simp) (by simp) (by simp) (by simp)
    (by simp) (by simp) (by simp) (by simp) (by simp)
  cases this with
  | enum h1 =>
    cases h1 with
    | value h2 h3 => rw [hd] at h2; cases h2; rw [hm] at h3; cases h3; rfl
    | again h2 h3 => rw [hd] at h2; cases h2; rw [hm] at h3; cases h3; exact absurd rfl (hu _ _)
    | called h2 => exact absurd rfl (h2 _ _)

/-- **C33** At every primitive of the result, however deep: converted if the class around that position coerces, the value itself otherwise. -/
theorem C33_write_anywhere_partial {nm} {env : Env} {o : SeOpts} {n v w top cd' p v' w'} (hU : DistinctUnions env) (hg : env.gser = []) (hc : o.c = none)
    (h : toForm nm env o n v = .ok w) (hl : TopGoes env nm top cd' (.prim p) v' w' v w) :
    (cd'.typeCheck = .coerce → Scalar v' → Converts env p v' w') ∧ (cd'.typeCheck ≠ .coerce → w' = v') := by
  have := outTo_leaf (C61_anywhere_partial hU hg hc h hl) (by simp) (by simp) (by simp) (by simp) (by simp) (by simp) (by simp) (by simp)
    (by simp) (by simp) (by simp) (by simp) (by simp)
  cases this with
  | coerced h1 _ h2 =>
    refine ⟨fun _ => h2, fun h3 => ?_⟩
    have : (cd'.typeCheck == .coerce) = true := h1
    cases htc : cd'.typeCheck with
    | disabled => rw [htc] at this; cases this
    | coerce => exact (h3 htc).elim
    | strict => rw [htc] at this; cases this
  | same h1 =>
    refine ⟨fun h3 => ?_, fun _ => rfl⟩
    have : (cd'.typeCheck == .coerce) = false := h1
    rw [h3] at this
    cases this

/-- **C61** At every object of the dict form, however deep, every field is either one to be left out, or has its entry; and no entry is that of a field to be
left out. -/
theorem C61_entries_partial {env : Env} {o : SeOpts} {n v w top cd' c₀ c cd attrs es} (hU : DistinctUnions env) (hg : env.gser = []) (hc : o.c = none)
    (h : toDict env o n v = .ok w) (hl : TopGoes env true top cd' (.cls c₀) (.inst c attrs) (.dict .plain es) v w) (hD : DirectSe env c cd) {f}
    (hf : f ∈ cd.fields.filter serializable) :
    (∃ b, OutField env (.within true (o.reuse.getD top.reuseDflt) (o.conv.getD top.convDflt) o.skipNone cd) f (attrs.lookup f.name) b ∧
      (LeftOut env o.skipNone cd f b ∨ (.str (f.conv cd.seCase), b) ∈ es)) ∧
    ∀ b, (.str (f.conv cd.seCase), b) ∈ es → ¬ LeftOut env o.skipNone cd f b := by
  have := C61_anywhere_partial hU hg hc (nm := true) h hl
  cases this with
  | chosen hc _ => exact (no_chosenSe hc).elim
  | leaf _ h => cases h
  | cls _ h =>
    have h := obj_direct rfl hD h
    rw [inside_within hg hD.noSer] at h
    exact ⟨outFields_each h hf, fun b hb => (outFields_entry h hD.simple.entries.wires hf hb).2⟩

/-- **C14** With `skip_none`, no object of the dict form, however deep, has an entry None for a field without a rule of its own. -/
theorem C14_anywhere_partial {env : Env} {o : SeOpts} {n v w top cd' c₀ c cd attrs es} (hU : DistinctUnions env) (hg : env.gser = []) (hc : o.c = none)
    (hs : o.skipNone = true) (h : toDict env o n v = .ok w) (hl : TopGoes env true top cd' (.cls c₀) (.inst c attrs) (.dict .plain es) v w)
    (hD : DirectSe env c cd) {f} (hf : f ∈ cd.fields.filter serializable) (hr : ¬ HasRule cd f) : (.str (f.conv cd.seCase), .none) ∉ es :=
  fun hb => (C61_entries_partial hU hg hc h hl hD hf).2 _ hb (.absent hr hs)

/-- **C61** Behind `Any` and behind a type variable: whatever is found there at run time, lists, mappings and objects, is written in dict form, by the classes of the
objects, with the same `skip_none`, but as if `reuse_instances` and `convert_sets_to_lists` were false. -/
theorem C61_behind_any_partial {nm} {env : Env} {o : SeOpts} {n v w top cd' top' cd'' t v' w' t'' v'' w''} (hU : DistinctUnions env) (hg : env.gser = []) (hc : o.c = none)
    (h : toForm nm env o n v = .ok w) (ht : t = .any ∨ ∃ x, t = .tvar x) (hl : TopGoes env nm top cd' t v' w' v w) (hl' : TopGoes env true top' cd'' t'' v'' w'' v' w') :
    OutTo env (.within true false false o.skipNone cd'') t'' v'' w'' := by
  have := C61_anywhere_partial hU hg hc h hl
  have ha : OutAny env ⟨true, some false, some false, o.skipNone⟩ v' w' := by
    rcases ht with rfl | ⟨x, rfl⟩
    · cases this with
      | chosen hc _ => exact (no_chosenSe hc).elim
      | leaf _ h => cases h
      | any _ h => exact h
    · cases this with
      | chosen hc _ => exact (no_chosenSe hc).elim
      | leaf _ h => cases h
      | tvar _ h => exact h
  exact topGoes_out hg hl' ha

/-- **C14** The same for objects behind `Any` and type variables. -/
theorem C14_behind_any_partial {env : Env} {o : SeOpts} {n v w top cd' top' cd'' t v' w' c₀ c cd attrs es} (hU : DistinctUnions env) (hg : env.gser = []) (hc : o.c = none)
    (hs : o.skipNone = true) (h : toDict env o n v = .ok w) (ht : t = .any ∨ ∃ x, t = .tvar x) (hl : TopGoes env true top cd' t v' w' v w)
    (hl' : TopGoes env true top' cd'' (.cls c₀) (.inst c attrs) (.dict .plain es) v' w')
    (hD : DirectSe env c cd) {f} (hf : f ∈ cd.fields.filter serializable) (hr : ¬ HasRule cd f) : (.str (f.conv cd.seCase), .none) ∉ es := by
  have := C61_behind_any_partial hU hg hc (nm := true) h ht hl hl'
  cases this with
  | chosen hc _ => exact (no_chosenSe hc).elim
  | leaf _ h => cases h
  | cls _ h =>
    have h := obj_direct rfl hD h
    rw [inside_within hg hD.noSer] at h
    exact fun hb => (outFields_entry h hD.simple.entries.wires hf hb).2 (.absent hr hs)

/-- **C12** No object of the dict form, however deep, has an entry for which the `skip_if` function of the field is true. -/
theorem C12_anywhere_partial {env : Env} {o : SeOpts} {n v w top cd' c₀ c cd attrs es} (hU : DistinctUnions env) (hg : env.gser = []) (hc : o.c = none)
    (h : toDict env o n v = .ok w) (hl : TopGoes env true top cd' (.cls c₀) (.inst c attrs) (.dict .plain es) v w)
    (hD : DirectSe env c cd) {f p b} (hf : f ∈ cd.fields.filter serializable) (hr : f.skipIf = some p) (hb : (.str (f.conv cd.seCase), b) ∈ es) :
    p b ≠ .ok true :=
  fun hp => (C61_entries_partial hU hg hc h hl hD hf).2 _ hb (.user hr hp)

/-! ## Examples -/

namespace C61Ex

/-- A class with leaves of several kinds that coerces. -/
def cdI : ClassDef :=
  { name := "I", mro := ["I"], typeCheck := .coerce, fields := [
    { name := "n", ty := .prim .int },
    { name := "color", ty := .enum "E" },
    { name := "day", ty := .dt .date },
    { name := "id", ty := .std "UUID" },
    { name := "tags", ty := .set .set (.prim .str) },
    { name := "note", ty := .union [.prim .str, .none] },
    { name := "size", ty := .prim .int, skipIf := some (fun v => .ok (pyEq v (.int 0))) },
    { name := "u", ty := .union [.cls "A", .cls "W"] }] }

def cdA : ClassDef := { name := "A", mro := ["A"], fields := [{ name := "x", ty := .prim .int }] }

/-- A transparent wrapper. -/
def cdW : ClassDef := { name := "W", mro := ["W"], transparent := true, fields := [{ name := "r", ty := .any }] }

/-- A class around them. -/
def cdO : ClassDef :=
  { name := "O", mro := ["O"], fields := [
    { name := "items", ty := .list .list (.cls "I") },
    { name := "m", ty := .dict .dict (.prim .str) (.cls "W") }] }

def env : Env :=
  { W := Ex.W, P := Ex.P, classes := [("I", cdI), ("A", cdA), ("W", cdW), ("O", cdO)], enums := [("E", { name := "E", members := [("RED", .int 1), ("BLUE", .int 2)] })] }

def attrsI : List (String × Val) :=
  [("n", .str "12"), ("color", .enum "E" "BLUE"), ("day", .dt .date "2020-01-01"), ("id", .std "UUID" "u"), ("tags", .set false [.str "a"]), ("note", .none),
    ("size", .int 0), ("u", .inst "A" [("x", .int 1)])]

def esI : List (Val × Val) :=
  [(.str "n", .int 12), (.str "color", .int 2), (.str "day", .str "2020-01-01"), (.str "id", .str "u"), (.str "tags", .list [.str "a"]),
    (.str "u", .dict .plain [(.str "A", .dict .plain [(.str "x", .int 1)])])]

def vO : Val := .inst "O" [("items", .list [.inst "I" attrsI]), ("m", .dict .plain [(.str "k", .inst "W" [("r", .tuple [.int 5])])])]

def wO : Val := .dict .plain [(.str "items", .list [.dict .plain esI]), (.str "m", .dict .plain [(.str "k", .tuple [.int 5])])]

def o : SeOpts := { reuse := some false, conv := some true, skipNone := true }

theorem run : toDict env o 20 (.list [vO]) = .ok (.list [wO]) := rfl

theorem cls_cases {c cd} (h : env.cls c = some cd) :
    (c = "I" ∧ cd = cdI) ∨ (c = "A" ∧ cd = cdA) ∨ (c = "W" ∧ cd = cdW) ∨ (c = "O" ∧ cd = cdO) := by
  simp only [Env.cls, env, List.lookup_cons, List.lookup_nil] at h
  split at h
  · rename_i h1; cases h; exact .inl ⟨by simpa using h1, rfl⟩
  · split at h
    · rename_i h1; cases h; exact .inr (.inl ⟨by simpa using h1, rfl⟩)
    · split at h
      · rename_i h1; cases h; exact .inr (.inr (.inl ⟨by simpa using h1, rfl⟩))
      · split at h
        · rename_i h1; cases h; exact .inr (.inr (.inr ⟨by simpa using h1, rfl⟩))
        · cases h

theorem the_unions {ts} (h : Annotated env (.union ts)) : ts = [.prim .str, .none] ∨ ts = [.cls "A", .cls "W"] := by
  obtain ⟨c, cd, f, hc, hf, hw⟩ := h
  rcases cls_cases hc with ⟨rfl, rfl⟩ | ⟨rfl, rfl⟩ | ⟨rfl, rfl⟩ | ⟨rfl, rfl⟩
  · simp only [cdI, List.mem_cons, List.not_mem_nil, or_false] at hf
    rcases hf with rfl | rfl | rfl | rfl | rfl | rfl | rfl | rfl
    · cases hw
    · cases hw
    · cases hw
    · cases hw
    · cases hw with | set h => cases h
    · cases hw with
      | refl => exact .inl rfl
      | union hm h =>
        simp only [List.mem_cons, List.not_mem_nil, or_false] at hm
        rcases hm with rfl | rfl <;> cases h
    · cases hw
    · cases hw with
      | refl => exact .inr rfl
      | union hm h =>
        simp only [List.mem_cons, List.not_mem_nil, or_false] at hm
        rcases hm with rfl | rfl <;> cases h
  · simp only [cdA, List.mem_cons, List.not_mem_nil, or_false] at hf
    subst hf; cases hw
  · simp only [cdW, List.mem_cons, List.not_mem_nil, or_false] at hf
    subst hf; cases hw
  · simp only [cdO, List.mem_cons, List.not_mem_nil, or_false] at hf
    rcases hf with rfl | rfl
    · cases hw with | list h => cases h
    · cases hw with
      | key h => cases h
      | value h => cases h

theorem hU : DistinctUnions env := distinctUnions_of (fun _ _ h h' hn => by
  rcases the_unions h with rfl | rfl <;> rcases the_unions h' with rfl | rfl <;> first | rfl | exact absurd hn (by decide))

example : OutTop env ⟨true, some false, some true, true⟩ .external none (.list [vO]) (.list [wO]) :=
  C61_to_dict_partial (o := o) hU (by intro t ht; cases ht) run

example : OutTop env ⟨false, none, none, false⟩ .external none (.inst "A" [("x", .int 1)]) (.tuple [.int 1]) :=
  C61_to_tuple_partial (o := {}) (n := 9) hU (by intro t ht; cases ht) rfl

/-- A union as explicit type. -/
example : OutTop env ⟨true, none, none, false⟩ (.internal "t") (some (.union [.cls "A", .cls "W"])) (.inst "A" [("x", .int 1)])
    (.dict .plain [(.str "x", .int 1), (.str "t", .str "A")]) :=
  C61_to_dict_partial (o := { c := some (.union [.cls "A", .cls "W"]), tagging := .internal "t" }) (n := 9) hU (by
    intro t ht
    cases ht
    intro ts us h hr hn
    cases h with
    | refl =>
      rcases reach_written hr (.inr ⟨"I", cdI, _, rfl, List.mem_of_getElem? (i := 7) rfl, .refl⟩) with ⟨_, h⟩ | h
      · cases h
      · rcases the_unions h with rfl | rfl
        · exact absurd hn (by decide)
        · rfl
    | union hm h =>
      simp only [List.mem_cons, List.not_mem_nil, or_false] at hm
      rcases hm with rfl | rfl <;> cases h) rfl

theorem directO : DirectSe env "O" cdO := by
  refine ⟨rfl, ⟨rfl, by decide, by decide⟩, ?_, rfl⟩
  intro f hf _ _ hd c as
  simp [cdO] at hf
  rcases hf with rfl | rfl <;> cases hd
theorem directI : DirectSe env "I" cdI := by
  refine ⟨rfl, ⟨rfl, by decide, by decide⟩, ?_, rfl⟩
  intro f hf _ _ hd c as
  simp [cdI] at hf
  rcases hf with rfl | rfl | rfl | rfl | rfl | rfl | rfl | rfl <;> cases hd

/-- From the outermost list to the element of a field. -/
theorem toItem {cd' t' v' w'} (h : Goes env true cd' t' v' w' cdO (.cls "I") (.inst "I" attrsI) (.dict .plain esI)) :
    TopGoes env true cdO cd' t' v' w' (.list [vO]) (.list [wO]) :=
  .list (i := 0) rfl rfl (.obj rfl (.field (f := cdO.fields[0]) (b := .list [.dict .plain esI]) rfl directO (by simp [cdO, serializable]) (by simp [cdO]) rfl
    (by simp [cdO, FieldDef.conv]) (.list (i := 0) rfl rfl rfl h)))

theorem plainI (i : Fin 8) (g) : cdI.fields[i].serializer ≠ some (.fn g) := by
  have : ∀ i : Fin 8, cdI.fields[i].serializer.isNone = true := by decide
  have := this i
  intro h
  rw [h] at this
  cases this

theorem memI (i : Fin 8) : cdI.fields[i] ∈ cdI.fields.filter serializable := by
  refine List.mem_filter.2 ⟨by simp, ?_⟩
  revert i
  decide

/-- On to a field of that element. -/
theorem toI (i : Fin 8) {a b} (ha : attrsI.lookup cdI.fields[i].name = some a) (hb : (.str (cdI.fields[i].conv cdI.seCase), b) ∈ esI) {cd' t' v' w'}
    (h : Goes env true cd' t' v' w' cdI cdI.fields[i].ty a b) : TopGoes env true cdO cd' t' v' w' (.list [vO]) (.list [wO]) :=
  toItem (.field rfl directI (memI i) (plainI i) ha hb h)

example : OutTo env (.within true false true true cdI) (.dt .date) (.dt .date "2020-01-01") (.str "2020-01-01") :=
  C61_anywhere_partial (nm := true) (o := o) hU rfl rfl run (toI 2 rfl (List.mem_of_getElem? (i := 2) rfl) .here)
example : ∃ k s, Val.dt .date "2020-01-01" = .dt k s ∧ Val.str "2020-01-01" = .str s :=
  (C36_date_anywhere_partial (nm := true) (o := o) hU rfl rfl run (toI 2 rfl (List.mem_of_getElem? (i := 2) rfl) .here)).2 rfl
theorem directA : DirectSe env "A" cdA := by
  refine ⟨rfl, ⟨rfl, by decide, by decide⟩, ?_, rfl⟩
  intro f hf _ _ hd c as
  simp [cdA] at hf
  subst hf
  cases hd
/-- On to the object that is a member of the union. -/
theorem toA {cd' t' v' w'} (h : Goes env true cd' t' v' w' cdI (.cls "A") (.inst "A" [("x", .int 1)]) (.dict .plain [(.str "x", .int 1)])) :
    TopGoes env true cdO cd' t' v' w' (.list [vO]) (.list [wO]) :=
  toI 7 rfl (List.mem_of_getElem? (i := 5) rfl) (.member rfl (by intro s h; cases h) (by
    intro s hs
    have hs : s ∈ [Ty.cls "A", Ty.cls "W"] := hs
    simp only [List.mem_cons, List.not_mem_nil, or_false] at hs
    rcases hs with rfl | rfl <;> exact .cls) rfl .external h)
example : OutTo env (.within true false true true cdA) (.prim .int) (.int 1) (.int 1) :=
  C61_anywhere_partial (nm := true) (o := o) hU rfl rfl run
    (toA (.field (f := cdA.fields[0]) rfl directA (by simp [cdA, serializable]) (by simp [cdA]) rfl (by simp [cdA, FieldDef.conv]) .here))
example : (.str "x", .none) ∉ [(Val.str "x", Val.int 1)] :=
  C14_anywhere_partial (o := o) (f := cdA.fields[0]) hU rfl rfl rfl run (toA .here) directA (by simp [cdA, serializable]) (by unfold HasRule; decide)
example : Val.str "u" = .str "u" :=
  (C36_std_anywhere_partial (nm := true) (o := o) hU rfl rfl run (toI 3 rfl (List.mem_of_getElem? (i := 3) rfl) .here)).2 rfl
example : ∃ ys, Val.list [.str "a"] = .list ys :=
  (C37_anywhere_partial (nm := true) (o := o) hU rfl rfl run (toI 4 rfl (List.mem_of_getElem? (i := 4) rfl) .here)).1 rfl
example : Val.int 2 = .int 2 :=
  C31_write_anywhere_partial (nm := true) (o := o) (m := "BLUE") hU rfl rfl run (toI 1 rfl (List.mem_of_getElem? (i := 1) rfl) .here) rfl rfl (by simp)
example : Converts env .int (.str "12") (.int 12) :=
  (C33_write_anywhere_partial (nm := true) (o := o) hU rfl rfl run (toI 0 rfl (List.mem_of_getElem? (i := 0) rfl) .here)).1 rfl .str
example : (∃ b, OutField env (.within true false true true cdI) cdI.fields[5] (some .none) b ∧
    (LeftOut env true cdI cdI.fields[5] b ∨ (.str (cdI.fields[5].conv cdI.seCase), b) ∈ esI)) ∧
    ∀ b, (.str (cdI.fields[5].conv cdI.seCase), b) ∈ esI → ¬ LeftOut env true cdI cdI.fields[5] b :=
  C61_entries_partial (o := o) hU rfl rfl run (toItem .here) directI (memI 5)
example : (.str "note", .none) ∉ esI :=
  C14_anywhere_partial (o := o) hU rfl rfl rfl run (toItem .here) directI (memI 5) (by unfold HasRule; decide)
example {b} (hb : (.str "size", b) ∈ esI) : (fun v => Except.ok (ε := PErr) (pyEq v (.int 0))) b ≠ .ok true :=
  C12_anywhere_partial (o := o) hU rfl rfl run (toItem .here) directI (memI 6) rfl hb

/-- Behind `Any`: the field of the wrapper holds an object. -/
def vW : Val := .inst "W" [("r", .list [.inst "A" [("x", .int 1)]])]
def wW : Val := .list [.dict .plain [(.str "x", .int 1)]]

theorem runW : toDict env o 20 vW = .ok wW := rfl

theorem toAny : TopGoes env true cdW cdW .any (.list [.inst "A" [("x", .int 1)]]) wW vW wW :=
  .obj rfl (.through (f := cdW.fields[0]) rfl rfl rfl rfl rfl (by simp [cdW]) rfl .here)

example : OutTo env (.within true false false true cdA) (.cls "A") (.inst "A" [("x", .int 1)]) (.dict .plain [(.str "x", .int 1)]) :=
  C61_behind_any_partial (nm := true) (o := o) hU rfl rfl runW (.inl rfl) toAny (.list (i := 0) rfl rfl (.obj rfl .here))
example : (.str "x", .none) ∉ [(Val.str "x", Val.int 1)] :=
  C14_behind_any_partial (o := o) (top' := cdA) (cd'' := cdA) (c₀ := "A") (attrs := [("x", .int 1)]) (f := cdA.fields[0]) hU rfl rfl rfl runW (.inl rfl) toAny
    (.list (i := 0) rfl rfl (.obj rfl .here)) directA (by simp [cdA, serializable]) (by unfold HasRule; decide)

end C61Ex

/-! ## Witness -/

namespace C61Clash

/-- A base class, a subclass of it named `Foo`, and a `Foo` from another module. -/
def cdB : ClassDef := { name := "Base", mro := ["Base"], fields := [{ name := "a", ty := .prim .int }] }
def cdF : ClassDef := { name := "Foo", mro := ["m1.Foo", "Base"], fields := [{ name := "a", ty := .prim .int }] }
def cdG : ClassDef := { name := "Foo", mro := ["m2.Foo"], fields := [{ name := "a", ty := .prim .int }] }
/-- `p: Union[m1.Foo, Base]; q: Union[m2.Foo, Base]`. -/
def cdU : ClassDef :=
  { name := "U", mro := ["U"], fields := [{ name := "p", ty := .union [.cls "m1.Foo", .cls "Base"] }, { name := "q", ty := .union [.cls "m2.Foo", .cls "Base"] }] }
def env : Env := Ex.mk [("Base", cdB), ("m1.Foo", cdF), ("m2.Foo", cdG), ("U", cdU)]
def v : Val := .inst "U" [("p", .inst "m1.Foo" [("a", .int 1)]), ("q", .inst "Base" [("a", .int 2)])]
def w : Val :=
  .dict .plain [(.str "p", .dict .plain [(.str "Base", .dict .plain [(.str "a", .int 1)])]), (.str "q", .dict .plain [(.str "Base", .dict .plain [(.str "a", .int 2)])])]

end C61Clash

/-- Two unions with functions of the same name: the object of the first member of `p` is written as if it were one of the second. -/
theorem C61_false : toDict C61Clash.env {} 9 C61Clash.v = .ok C61Clash.w ∧
    ¬ OutTop C61Clash.env ⟨true, none, none, false⟩ .external none C61Clash.v C61Clash.w := by
  refine ⟨rfl, fun h => ?_⟩
  cases h with
  | plain _ h =>
    cases h with
    | chosen _ _ h => exact no_firstSe h
    | obj _ h =>
      cases h with
      | other hc h =>
        cases hc
        refine h rfl rfl ⟨⟨rfl, by decide, by decide⟩, ?_⟩
        intro f hf _ _ hd c as
        simp [C61Clash.cdU] at hf
        rcases hf with rfl | rfl <;> cases hd
      | through hc ht => cases hc; cases ht
      | spliced hc _ hs => cases hc; exact hs ⟨rfl, by decide, by decide⟩
      | dict hc _ _ _ h =>
        cases hc
        have hp := (outFields_entry (f := C61Clash.cdU.fields[0]) (b := .dict .plain [(.str "Base", .dict .plain [(.str "a", .int 1)])]) h (by decide)
          (by simp [C61Clash.cdU, serializable]) (by simp [C61Clash.cdU, FieldDef.conv])).1
        generalize hx : List.lookup (α := String) (β := Val) _ _ = x at hp
        cases hp with
        | fn h => cases h
        | marker h => cases h
        | field _ h =>
          cases hx
          generalize hty : FieldDef.ty _ = ty at h
          cases h with
          | chosen h => exact no_chosenSe h
          | leaf _ h => subst hty; cases h
          | @union _ pre t post _ _ _ _ _ _ hpre _ htag =>
            cases pre with
            | nil =>
              cases hty
              generalize hk : Val.str "Base" = k at htag
              cases htag with
              | plain h => exact absurd rfl (h _)
              | external => injection hk with hk; exact absurd hk (by decide)
            | cons s pre =>
              simp only [List.cons_append] at hty
              injection hty with hty
              injection hty with hs
              subst hs
              exact hpre _ List.mem_cons_self .cls (by intro c as h; cases h; rfl) (.cls rfl (by decide))
          | _ => cases hty

end Verif.Props
