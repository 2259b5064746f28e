import Verif.Lemmas.Deserializers
import Verif.Examples.World
/-!
# C39: priority of custom (de)serializers

"A field's own serializer is used in preference to a class-level one, which is used in preference to a globally registered one; among
globals the most recently registered one wins, at every position of the type."

`C39_serialize_partial` and `C39_deserialize_partial` state it for all positions: the components of containers, Optional, type aliases and
the fields of nested dataclasses. The three consequences for one field are spelled out as `C39_field`, `C39_class`, `C39_global`, and for
deserialization as `C39_field_de`, `C39_class_de`, `C39_global_de`.

Members of unions: `C39Union.lean`. Missing: unions inside containers, flattened fields, type variables and values below `Any`.

The full statement is false: `C39_false_first` (to_dict of a value looks the serializers up in the other order), `C39_false_union` (inside a
union the class-level serializer is not used at all) and `C39_false_key` (a deserializer for int is not used for int keys of a dict).
-/

namespace Verif.Props
open Spec

theorem toDict_served {env : Env} {so : SeOpts} {n c attrs w} (hg : NoGlobal env c) (hu : NotUnion so.c)
    (h : toDict env so n (.inst c attrs) = .ok w ∨ toTuple env so n (.inst c attrs) = .ok w) : ObjServed env c attrs w := by
  cases n with
  | zero => rcases h with h | h <;> cases h
  | succ n =>
    rcases h with h | h
    · rw [toDict_cls hu hg.ser, wrapAll_ok] at h
      exact (served_at n).2 _ _ _ _ _ _ _ h
    · rw [toTuple_cls hu hg.ser, wrapAll_ok] at h
      exact (served_at n).2 _ _ _ _ _ _ _ h

/-- Whatever `to_dict` or `to_tuple` writes for a field was produced by the responsible serializer at every position of the type: the field's
own one; or, if it has none, the class's before the global ones and the last registered global first; or, if the field says
`serializer=default_serializer`, none. -/
theorem C39_serialize_partial {env : Env} {so : SeOpts} {n c} {cd : ClassDef} {attrs w} (hc : env.cls c = some cd) (hs : SimpleSe cd)
    (hg : NoGlobal env c) (hu : NotUnion so.c) (h : toDict env so n (.inst c attrs) = .ok w ∨ toTuple env so n (.inst c attrs) = .ok w)
    {f a x} (hx : Slot cd w f x) (ha : attrs.lookup f.name = some a) :
    (∀ g, f.serializer = some (.fn g) → g a = .ok x) ∧ (f.serializer = some .marker → Served env [] f.ty a x) ∧
      (f.serializer = none → Served env (env.gser ++ cd.classSer.toList) f.ty a x) := by
  obtain ⟨cd', hc', this⟩ := toDict_served hg hu h
  rw [hc] at hc'
  cases hc'
  exact this hs f a x hx ha

/-- The field's own serializer is used, whatever else is registered. -/
theorem C39_field {env : Env} {so : SeOpts} {n c} {cd : ClassDef} {attrs w} (hc : env.cls c = some cd) (hs : SimpleSe cd)
    (hg : NoGlobal env c) (hu : NotUnion so.c) (h : toDict env so n (.inst c attrs) = .ok w ∨ toTuple env so n (.inst c attrs) = .ok w)
    {f a x g} (hx : Slot cd w f x) (ha : attrs.lookup f.name = some a) (hf : f.serializer = some (.fn g)) : g a = .ok x :=
  (C39_serialize_partial hc hs hg hu h hx ha).1 g hf

theorem chosen_unique {S : List ClsSer} {t s} (h : Chosen S t s) {env : Env} {v w} (hs : Served env S t v w) : s.run v = .ok w := by
  obtain ⟨pre, post, rfl, hh, hp⟩ := h
  have hno : NoneFor (pre ++ s :: post) t → False := fun hn => by
    have := hn s (by simp)
    rw [hh] at this; cases this
  generalize hS : pre ++ s :: post = S at hs
  cases hs with
  | chosen hch hr =>
    obtain ⟨pre', post', he, hh', hp'⟩ := hch
    subst hS
    rcases List.append_eq_append_iff.1 he with ⟨l, h1, h2⟩ | ⟨l, h1, h2⟩
    · cases l with
      | nil =>
        rw [List.nil_append] at h2
        cases h2
        exact hr
      | cons y l =>
        rw [List.cons_append] at h2
        cases h2
        have := hp _ (List.mem_append_right l (.head _))
        rw [hh'] at this; cases this
    · cases l with
      | nil =>
        rw [List.nil_append] at h2
        cases h2
        exact hr
      | cons y l =>
        rw [List.cons_append] at h2
        cases h2
        have := hp' _ (List.mem_append_right l (.head _))
        rw [hh] at this; cases this
  | list hn => subst hS; exact (hno hn).elim
  | deque hn => subst hS; exact (hno hn).elim
  | tupleV hn => subst hS; exact (hno hn).elim
  | tuple hn => subst hS; exact (hno hn).elim
  | set _ hn => subst hS; exact (hno hn).elim
  | counter _ hn => subst hS; exact (hno hn).elim
  | dict _ _ hn => subst hS; exact (hno hn).elim
  | optNone hn => subst hS; exact (hno hn).elim
  | opt hn => subst hS; exact (hno hn).elim
  | alias hn => subst hS; exact (hno hn).elim
  | gen hn => subst hS; exact (hno hn).elim
  | obj hn => subst hS; exact (hno hn).elim
  | atom hn => subst hS; exact (hno hn).elim
  | odd hn => subst hS; exact (hno hn).elim

/-- A class-level serializer registered for the type of the field is used before any global one. -/
theorem C39_class {env : Env} {so : SeOpts} {n c} {cd : ClassDef} {attrs w} (hc : env.cls c = some cd) (hs : SimpleSe cd)
    (hg : NoGlobal env c) (hu : NotUnion so.c) (h : toDict env so n (.inst c attrs) = .ok w ∨ toTuple env so n (.inst c attrs) = .ok w)
    {f a x s} (hx : Slot cd w f x) (ha : attrs.lookup f.name = some a) (hf : f.serializer = none) (hcs : cd.classSer = some s)
    (hh : s.handles f.ty = true) : s.run a = .ok x := by
  have := (C39_serialize_partial hc hs hg hu h hx ha).2.2 hf
  rw [hcs] at this
  exact chosen_unique ⟨env.gser, [], rfl, hh, by simp⟩ this

/-- Otherwise the global serializer that was registered last for the type of the field is used. -/
theorem C39_global {env : Env} {so : SeOpts} {n c} {cd : ClassDef} {attrs w} (hc : env.cls c = some cd) (hs : SimpleSe cd)
    (hg : NoGlobal env c) (hu : NotUnion so.c) (h : toDict env so n (.inst c attrs) = .ok w ∨ toTuple env so n (.inst c attrs) = .ok w)
    {f a x s older newer} (hx : Slot cd w f x) (ha : attrs.lookup f.name = some a) (hf : f.serializer = none)
    (hcs : ∀ s, cd.classSer = some s → s.handles f.ty = false) (hgs : env.gser = older ++ s :: newer) (hh : s.handles f.ty = true)
    (hnew : ∀ s ∈ newer, s.handles f.ty = false) : s.run a = .ok x := by
  have := (C39_serialize_partial hc hs hg hu h hx ha).2.2 hf
  rw [hgs, List.append_assoc, List.cons_append] at this
  refine chosen_unique ⟨older, newer ++ cd.classSer.toList, rfl, hh, fun s' hs' => ?_⟩ this
  rcases List.mem_append.1 hs' with h | h
  · exact hnew s' h
  · exact hcs s' (Option.mem_toList.1 h)

/-! ## Deserialization -/

/-- Whatever `from_dict` puts into a field whose key is present was produced by the responsible deserializer at every position of the type. -/
theorem C39_deserialize_partial {env : Env} {o : DeOpts} {n c} {cd : ClassDef} {dk kvs v} (hc : env.cls c = some cd) (hs : SimpleDe cd)
    (hg : NoGlobal env c) (h : fromDict env o n (.cls c) (.dict dk kvs) = .ok v) {f x y} (hf : ReadField cd f)
    (hx : getStr (f.conv cd.deCase) kvs = some x) (hy : HasAttr v f y) :
    (∀ g, f.deserializer = some (.fn g) → g x = .ok y) ∧ (f.deserializer = some .marker → Gotten env [] f.ty x y) ∧
      (f.deserializer = none → Gotten env (env.gde ++ cd.classDe.toList) f.ty x y) := by
  obtain ⟨m, rfl, hm⟩ := fromObj_cls_cases hg.de (by intro as h; cases h) h (by intro h; cases h)
  obtain ⟨cd', hc', this⟩ := cls_gotten (gotten_at m) (wrapUser_ok.1 hm)
  rw [hc] at hc'
  cases hc'
  exact this hs f x y hf hx hy

/-- The field's own deserializer is used, whatever else is registered. -/
theorem C39_field_de {env : Env} {o : DeOpts} {n c} {cd : ClassDef} {dk kvs v} (hc : env.cls c = some cd) (hs : SimpleDe cd)
    (hg : NoGlobal env c) (h : fromDict env o n (.cls c) (.dict dk kvs) = .ok v) {f x y g} (hf : ReadField cd f)
    (hx : getStr (f.conv cd.deCase) kvs = some x) (hy : HasAttr v f y) (hd : f.deserializer = some (.fn g)) : g x = .ok y :=
  (C39_deserialize_partial hc hs hg h hf hx hy).1 g hd

theorem chosenDe_unique {S : List ClsDe} {t s} (h : ChosenDe S t s) {env : Env} {v w} (hs : Gotten env S t v w) : s.run t v = .ok w := by
  obtain ⟨pre, post, rfl, hh, hp⟩ := h
  have hno : NoneForDe (pre ++ s :: post) t → False := fun hn => by
    have := hn s (by simp)
    rw [hh] at this; cases this
  generalize hS : pre ++ s :: post = S at hs
  cases hs with
  | chosen hch hr =>
    obtain ⟨pre', post', he, hh', hp'⟩ := hch
    subst hS
    rcases List.append_eq_append_iff.1 he with ⟨l, h1, h2⟩ | ⟨l, h1, h2⟩
    · cases l with
      | nil =>
        rw [List.nil_append] at h2
        cases h2
        exact hr
      | cons y l =>
        rw [List.cons_append] at h2
        cases h2
        have := hp _ (List.mem_append_right l (.head _))
        rw [hh'] at this; cases this
    · cases l with
      | nil =>
        rw [List.nil_append] at h2
        cases h2
        exact hr
      | cons y l =>
        rw [List.cons_append] at h2
        cases h2
        have := hp' _ (List.mem_append_right l (.head _))
        rw [hh] at this; cases this
  | list hn => subst hS; exact (hno hn).elim
  | deque hn => subst hS; exact (hno hn).elim
  | tupleV hn => subst hS; exact (hno hn).elim
  | tuple hn => subst hS; exact (hno hn).elim
  | set _ hn => subst hS; exact (hno hn).elim
  | counter _ hn => subst hS; exact (hno hn).elim
  | dict _ _ hn => subst hS; exact (hno hn).elim
  | optNone hn => subst hS; exact (hno hn).elim
  | opt hn => subst hS; exact (hno hn).elim
  | alias hn => subst hS; exact (hno hn).elim
  | gen hn => subst hS; exact (hno hn).elim
  | obj hn => subst hS; exact (hno hn).elim
  | notDict hn => subst hS; exact (hno hn).elim
  | atom hn => subst hS; exact (hno hn).elim
  | odd hn => subst hS; exact (hno hn).elim

/-- A class-level deserializer registered for the type of the field is used before any global one. -/
theorem C39_class_de {env : Env} {o : DeOpts} {n c} {cd : ClassDef} {dk kvs v} (hc : env.cls c = some cd) (hs : SimpleDe cd)
    (hg : NoGlobal env c) (h : fromDict env o n (.cls c) (.dict dk kvs) = .ok v) {f x y s} (hf : ReadField cd f)
    (hx : getStr (f.conv cd.deCase) kvs = some x) (hy : HasAttr v f y) (hd : f.deserializer = none) (hcs : cd.classDe = some s)
    (hh : s.handles f.ty = true) : s.run f.ty x = .ok y := by
  have := (C39_deserialize_partial hc hs hg h hf hx hy).2.2 hd
  rw [hcs] at this
  exact chosenDe_unique ⟨env.gde, [], rfl, hh, by simp⟩ this

/-- Otherwise the global deserializer that was registered last for the type of the field is used. -/
theorem C39_global_de {env : Env} {o : DeOpts} {n c} {cd : ClassDef} {dk kvs v} (hc : env.cls c = some cd) (hs : SimpleDe cd)
    (hg : NoGlobal env c) (h : fromDict env o n (.cls c) (.dict dk kvs) = .ok v) {f x y s older newer} (hf : ReadField cd f)
    (hx : getStr (f.conv cd.deCase) kvs = some x) (hy : HasAttr v f y) (hd : f.deserializer = none)
    (hcs : ∀ s, cd.classDe = some s → s.handles f.ty = false) (hgs : env.gde = older ++ s :: newer) (hh : s.handles f.ty = true)
    (hnew : ∀ s ∈ newer, s.handles f.ty = false) : s.run f.ty x = .ok y := by
  have := (C39_deserialize_partial hc hs hg h hf hx hy).2.2 hd
  rw [hgs, List.append_assoc, List.cons_append] at this
  refine chosenDe_unique ⟨older, newer ++ cd.classDe.toList, rfl, hh, fun s' hs' => ?_⟩ this
  rcases List.mem_append.1 hs' with h | h
  · exact hnew s' h
  · exact hcs s' (Option.mem_toList.1 h)

/-! ## Examples and counterexamples -/
namespace C39Ex

/-- A serializer for int that returns a fixed string. -/
def ints (s : String) : ClsSer := { handles := fun t => match t with | .prim .int => true | _ => false, run := fun _ => .ok (.str s) }

/-- A deserializer for int that returns a fixed number. -/
def intsDe (i : Int) : ClsDe := { handles := fun t => match t with | .prim .int => true | _ => false, run := fun _ _ => .ok (.int i) }

def fx : FieldDef := { name := "x", ty := .list .list (.prim .int) }
def fy : FieldDef := { name := "y", ty := .prim .int, serializer := some (.fn (fun _ => .ok (.str "own"))), deserializer := some (.fn (fun _ => .ok (.int 7))) }
def fz : FieldDef := { name := "z", ty := .prim .int }

/-- `@serde(class_serializer=...) class A: x: list[int]; y: int = field(serializer=...); z: int`. -/
def cdA : ClassDef := { name := "A", mro := ["A"], classSer := some (ints "class"), classDe := some (intsDe 3), fields := [fx, fy, fz] }

/-- Without class-level serializer. -/
def cdB : ClassDef := { name := "B", mro := ["B"], fields := [fx, fz] }

def env : Env := { Ex.mk [("A", cdA), ("B", cdB)] with gser := [ints "first", ints "second"], gde := [intsDe 1, intsDe 2] }

def objA : Val := .inst "A" [("x", .list [.int 1]), ("y", .int 2), ("z", .int 3)]
def outA : Val := .dict .plain [(.str "x", .list [.str "class"]), (.str "y", .str "own"), (.str "z", .str "class")]
def objB : Val := .inst "B" [("x", .list [.int 1]), ("z", .int 3)]
def outB : Val := .dict .plain [(.str "x", .list [.str "second"]), (.str "z", .str "second")]

theorem runA : toDict env {} 10 objA = .ok outA := by rfl
theorem runB : toDict env {} 10 objB = .ok outB := by rfl

theorem glob (c : ClassId) : NoGlobal env c := by
  constructor <;> intro s hs
  · rcases List.mem_cons.1 hs with rfl | hs
    · rfl
    · rw [List.mem_singleton] at hs; subst hs; rfl
  · rcases List.mem_cons.1 hs with rfl | hs
    · rfl
    · rw [List.mem_singleton] at hs; subst hs; rfl

theorem simpleA : SimpleSe cdA := ⟨rfl, by simp [cdA, fx, fy, fz], by decide⟩
theorem simpleB : SimpleSe cdB := ⟨rfl, by simp [cdB, fx, fz], by decide⟩

/-- The class-level serializer is used inside the list. -/
example : Served env ([ints "first", ints "second"] ++ [ints "class"]) fx.ty (.list [.int 1]) (.list [.str "class"]) :=
  (C39_serialize_partial (env := env) (cd := cdA) (so := {}) rfl simpleA (glob "A") (.inl rfl) (.inl runA) (f := fx)
    (.inl ⟨_, rfl, by simp [cdA, serializable, fx, fy, fz], .head _⟩) rfl).2.2 rfl

example : (Except.ok (.str "own") : Except PErr Val) = .ok (.str "own") :=
  C39_field (env := env) (cd := cdA) (so := {}) rfl simpleA (glob "A") (.inl rfl) (.inl runA) (f := fy) (a := .int 2)
    (.inl ⟨_, rfl, by simp [cdA, serializable, fx, fy, fz], .tail _ (.head _)⟩) rfl rfl

example : (ints "class").run (.int 3) = .ok (.str "class") :=
  C39_class (env := env) (cd := cdA) (so := {}) rfl simpleA (glob "A") (.inl rfl) (.inl runA) (f := fz)
    (.inl ⟨_, rfl, by simp [cdA, serializable, fx, fy, fz], .tail _ (.tail _ (.head _))⟩) rfl rfl rfl rfl

example : (ints "second").run (.int 3) = .ok (.str "second") :=
  C39_global (env := env) (cd := cdB) (so := {}) rfl simpleB (glob "B") (.inl rfl) (.inl runB) (f := fz) (older := [ints "first"]) (newer := [])
    (.inl ⟨_, rfl, by simp [cdB, serializable, fx, fz], .tail _ (.head _)⟩) rfl rfl (by simp [cdB]) rfl rfl (by simp)

def inp : Val := .dict .plain [(.str "x", .list [.int 1]), (.str "y", .int 2), (.str "z", .int 3)]
def gotA : Val := .inst "A" [("x", .list [.int 3]), ("y", .int 7), ("z", .int 3)]
def gotB : Val := .inst "B" [("x", .list [.int 2]), ("z", .int 2)]

theorem deA : fromDict env {} 10 (.cls "A") inp = .ok gotA := by rfl
theorem deB : fromDict env {} 10 (.cls "B") inp = .ok gotB := by rfl

theorem simpleDeA : SimpleDe cdA := ⟨rfl, rfl, by decide⟩
theorem simpleDeB : SimpleDe cdB := ⟨rfl, rfl, by decide⟩

example : Gotten env ([intsDe 1, intsDe 2] ++ [intsDe 3]) fx.ty (.list [.int 1]) (.list [.int 3]) :=
  (C39_deserialize_partial (env := env) (cd := cdA) (o := {}) rfl simpleDeA (glob "A") deA (f := fx) ⟨by simp [cdA], rfl, rfl, rfl, rfl, rfl⟩ rfl
    ⟨_, _, rfl, rfl⟩).2.2 rfl

example : (Except.ok (.int 7) : Except PErr Val) = .ok (.int 7) :=
  C39_field_de (env := env) (cd := cdA) (o := {}) rfl simpleDeA (glob "A") deA (f := fy) (x := .int 2) ⟨by simp [cdA], rfl, rfl, rfl, rfl, rfl⟩ rfl
    ⟨_, _, rfl, rfl⟩ rfl

example : (intsDe 3).run fz.ty (.int 3) = .ok (.int 3) :=
  C39_class_de (env := env) (cd := cdA) (o := {}) rfl simpleDeA (glob "A") deA (f := fz) (x := .int 3) ⟨by simp [cdA], rfl, rfl, rfl, rfl, rfl⟩ rfl
    ⟨_, _, rfl, rfl⟩ rfl rfl rfl

example : (intsDe 2).run fz.ty (.int 3) = .ok (.int 2) :=
  C39_global_de (env := env) (cd := cdB) (o := {}) rfl simpleDeB (glob "B") deB (f := fz) (x := .int 3) (older := [intsDe 1]) (newer := [])
    ⟨by simp [cdB], rfl, rfl, rfl, rfl, rfl⟩ rfl ⟨_, _, rfl, rfl⟩ rfl (by simp [cdB]) rfl rfl (by simp)

end C39Ex

open C39Ex in
/-- `to_dict(5)` with two registered serializers for int uses the one registered first, a field of type int the one registered last. -/
theorem C39_false_first : ∃ (env : Env) (s s' : ClsSer), env.gser = [s, s'] ∧ s.handles (.prim .int) = true ∧ s'.handles (.prim .int) = true ∧
    s.run (.int 5) ≠ s'.run (.int 5) ∧ toDict env {} 5 (.int 5) = liftP (s.run (.int 5)) :=
  ⟨env, ints "first", ints "second", rfl, rfl, rfl, by simp [ints], rfl⟩

namespace C39Ex

def fu : FieldDef := { name := "u", ty := .union [.prim .int, .prim .str] }

/-- `@serde(class_serializer=...) class U: u: int | str`. -/
def cdU : ClassDef := { name := "U", mro := ["U"], classSer := some (ints "class"), fields := [fu] }
def envU : Env := Ex.mk [("U", cdU)]

/-- `class D: d: dict[int, str]`. -/
def cdD : ClassDef := { name := "D", mro := ["D"], fields := [{ name := "d", ty := .dict .dict (.prim .int) (.prim .str) }] }
def envD : Env := { Ex.mk [("D", cdD)] with gde := [intsDe 1] }

end C39Ex

open C39Ex in
/-- A class-level serializer for int is not used for an int in a field of type `int | str`. -/
theorem C39_false_union : ∃ (env : Env) (cd : ClassDef) (s : ClsSer), env.cls "U" = some cd ∧ cd.classSer = some s ∧ s.handles (.prim .int) = true ∧
    s.run (.int 1) = .ok (.str "class") ∧ cd.fields.map (·.ty) = [.union [.prim .int, .prim .str]] ∧
    toDict env {} 10 (.inst "U" [("u", .int 1)]) = .ok (.dict .plain [(.str "u", .int 1)]) :=
  ⟨envU, cdU, ints "class", rfl, rfl, rfl, rfl, rfl, rfl⟩

open C39Ex in
/-- A global deserializer for int is not used for the keys of a `dict[int, str]`. -/
theorem C39_false_key : ∃ (env : Env) (cd : ClassDef) (s : ClsDe), env.cls "D" = some cd ∧ env.gde = [s] ∧ s.handles (.prim .int) = true ∧
    s.run (.prim .int) (.int 5) = .ok (.int 1) ∧ cd.fields.map (·.ty) = [.dict .dict (.prim .int) (.prim .str)] ∧
    fromDict env {} 10 (.cls "D") (.dict .plain [(.str "d", .dict .plain [(.int 5, .str "a")])]) =
      .ok (.inst "D" [("d", .dict .plain [(.int 5, .str "a")])]) :=
  ⟨envD, cdD, intsDe 1, rfl, rfl, rfl, rfl, rfl, rfl⟩

end Verif.Props
