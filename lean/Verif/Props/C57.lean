import Verif.Lemmas.LegacyDe
import Verif.Props.C54
import Verif.Examples.World
/-!
# C57: the deserializer= function of a class
-/

namespace Verif.Props
open Spec

theorem field_renderable {f : FieldDef} (h1 : f.init = true) (h2 : f.skip = false) (h3 : f.skipDe = false) : f.renderable = true := by
  unfold FieldDef.renderable
  rw [h1, h2, h3]; rfl

/-- **C57** `from_dict` on a class with `deserializer=g`: for a field without a deserializer of its own and without a matching class-level or global one,
`g` is called with what stands under the field's name, or None if nothing does. What `g` returns becomes the attribute. If `g` skips, a missing key means the
default, and a present one is read as the annotation says (stated for annotations without dataclasses, type variables and unions other than Optional). -/
theorem C57_asked_partial {env : Env} {leg : Legacy} {o : DeOpts} {n c} {cd : ClassDef} {g dk kvs v} (hU : DistinctUnions env) (hL : DistinctLits env)
    (hc : env.cls c = some cd) (hs : SimpleDe cd) (hg : NoGlobal env c) (hl : leg.de c = some g)
    (h : fromDictL env leg o n (.cls c) (.dict dk kvs) = .ok v) {f y} (hf : PlainRead cd f) (hno : f.deserializer = none)
    (hcl : NoneForDe (env.gde ++ cd.classDe.toList) f.ty) (hy : HasAttr v f y) :
    (∀ r, g (shown env f.ty) ((getStr (f.conv cd.deCase) kvs).getD .none) = some r → r = .ok y) ∧
    (g (shown env f.ty) ((getStr (f.conv cd.deCase) kvs).getD .none) = none → f.alias = [] →
      (∀ dv, getStr (f.conv cd.deCase) kvs = none → f.dflt = some dv → y = dv) ∧
      (∀ x, getStr (f.conv cd.deCase) kvs = some x → Inert f.ty → ReadTo env (ReadMode.afterSkip env o cd) f.ty x y)) := by
  obtain ⟨m, hm⟩ := legacy_field hc hs hg hl h hf.mem (field_renderable hf.init hf.skip hf.skipDe) hf.flat hy
  have hp : pickDe (clsDeCx env c cd true (topCall o) (.dict dk kvs)).des (plainArg cd f (.dict dk kvs)) = none := pickDe_none hcl
  unfold legDeField at hm
  rw [hp] at hm
  have hds : (plainArg cd f (.dict dk kvs)).deser = none := hno
  rw [hds, shown_origin] at hm
  simp only [Option.isSome_none, Bool.or_self, Bool.false_eq_true, if_false] at hm
  unfold legRun at hm
  rw [dataOr_plain] at hm
  dsimp only at hm
  refine ⟨fun r hr => ?_, fun hr hal => ⟨fun dv hget hd => ?_, fun x hx hi => ?_⟩⟩
  · rw [show g (shown env (plainArg cd f (.dict dk kvs)).ty) _ = some r from hr] at hm
    cases r with
    | ok z => cases hm; rfl
    | error e => cases hm
  · rw [show g (shown env (plainArg cd f (.dict dk kvs)).ty) _ = none from hr] at hm
    dsimp only at hm
    cases m with
    | zero => cases hm
    | succ m =>
      rw [deLAt_render, deRenderF_missing hal hd hget] at hm
      cases hm; rfl
  · rw [show g (shown env (plainArg cd f (.dict dk kvs)).ty) _ = none from hr] at hm
    dsimp only at hm
    rw [deLAt_inert _ _ _ hi] at hm
    have hown : OwnCx env (clsDeCx env c cd true (topCall o) (.dict dk kvs)) f.ty := ownCx_class hU hL ⟨c, cd, f, hc, hf.mem, .refl⟩
    have := (read_at hU hL m).render { clsDeCx env c cd true (topCall o) (.dict dk kvs) with des := env.gde } (plainArg cd f (.dict dk kvs)) x y
      ⟨hown.unions, hown.lits⟩ (keeps_plain hal hx) (by rw [hds]; intro g h; cases h) hm
    rw [hds] at this
    exact this

/-- **C57** The function is not asked for a field that has a deserializer of its own or a matching class-level or global one. With
`deserializer=default_deserializer` nothing custom counts. -/
theorem C57_not_asked_partial {env : Env} {leg : Legacy} {o : DeOpts} {n c} {cd : ClassDef} {g dk kvs v} (hU : DistinctUnions env) (hL : DistinctLits env)
    (hc : env.cls c = some cd) (hs : SimpleDe cd) (hg : NoGlobal env c) (hl : leg.de c = some g)
    (h : fromDictL env leg o n (.cls c) (.dict dk kvs) = .ok v) {f x y} (hf : ReadField cd f) (hx : getStr (f.conv cd.deCase) kvs = some x)
    (hy : HasAttr v f y) :
    (∀ k, f.deserializer = some (.fn k) → k x = .ok y) ∧
    (f.deserializer = some .marker → Inert f.ty → ReadTo env (ReadMode.afterSkip env o cd).plain f.ty x y) ∧
    (∀ s, f.deserializer = none → ChosenDe (env.gde ++ cd.classDe.toList) f.ty s → s.run f.ty x = .ok y) := by
  obtain ⟨m, hm⟩ := legacy_field hc hs hg hl h hf.mem (ReadField.renderable hf) hf.flat hy
  have hk := keeps_plain (cd := cd) (dk := dk) hf.alias hx
  unfold legDeField at hm
  refine ⟨fun k hk' => ?_, fun hk' hi => ?_, fun s hno hch => ?_⟩
  · have hds : (plainArg cd f (.dict dk kvs)).deser = some (.fn k) := hk'
    rw [hds] at hm
    simp only [Option.isSome_some, Bool.true_or, if_true] at hm
    cases m with
    | zero => cases hm
    | succ m =>
      rw [deLAt_render, keeps_render hk] at hm
      unfold deBody pickDe at hm
      rw [hds] at hm
      dsimp only at hm
      rw [hk.data] at hm
      exact liftP_ok hm
  · have hds : (plainArg cd f (.dict dk kvs)).deser = some .marker := hk'
    rw [hds] at hm
    simp only [Option.isSome_some, Bool.true_or, if_true] at hm
    rw [deLAt_inert _ _ _ hi] at hm
    have := (read_at hU hL m).render (clsDeCx env c cd true (topCall o) (.dict dk kvs)) (plainArg cd f (.dict dk kvs)) x y
      (ownCx_class hU hL ⟨c, cd, f, hc, hf.mem, .refl⟩) hk (by rw [hds]; intro g h; cases h) hm
    rw [hds] at this
    exact this
  · have hds : (plainArg cd f (.dict dk kvs)).deser = none := hno
    have hp : pickDe (clsDeCx env c cd true (topCall o) (.dict dk kvs)).des (plainArg cd f (.dict dk kvs)) = some s := by
      obtain ⟨pre, post, he, hh, hpo⟩ := hch
      unfold pickDe
      rw [hds]
      dsimp only
      rw [show (clsDeCx env c cd true (topCall o) (.dict dk kvs)).des = pre ++ s :: post from he, List.reverse_append, List.reverse_cons,
        List.append_assoc, List.find?_append, List.find?_eq_none.2 (by intro s' hs'; rw [show s'.handles (plainArg cd f (.dict dk kvs)).ty = false from hpo s' (List.mem_reverse.1 hs')]; simp)]
      simp only [List.singleton_append, Option.none_or]
      rw [List.find?_cons]
      rw [show s.handles (plainArg cd f (.dict dk kvs)).ty = true from hh]
    rw [hp] at hm
    simp only [Option.isSome_some, Bool.or_true, if_true] at hm
    cases m with
    | zero => cases hm
    | succ m =>
      rw [deLAt_render, keeps_render hk] at hm
      unfold deBody at hm
      rw [hp] at hm
      dsimp only at hm
      rw [hk.data] at hm
      exact liftP_ok hm

/-! ## Examples and counterexamples -/
namespace C57Ex

/-- Ten times the number, for ints; skips everything else, and also zero. -/
def tens : LegFn := fun t v => if t == "int" then
    match v with
    | .int 0 => none
    | .int i => some (.ok (.int (10 * i)))
    | .none => some (.ok (.int 1))
    | _ => some (.error .type)
  else none

def fa : FieldDef := { name := "a", ty := .prim .int }
def fb : FieldDef := { name := "b", ty := .prim .int, dflt := some (.int 5) }
def fc : FieldDef := { name := "c", ty := .list .list (.prim .int) }
def fd : FieldDef := { name := "d", ty := .prim .int, deserializer := some (.fn (fun _ => .ok (.int 7))) }
def fe : FieldDef := { name := "e", ty := .prim .str }
def ff : FieldDef := { name := "f", ty := .prim .int, deserializer := some .marker }
def fg : FieldDef := { name := "g", ty := .prim .bool, dflt := some (.bool true) }
def fh : FieldDef := { name := "h", ty := .prim .int, alias := ["hh"] }

/-- For strings. -/
def strs : ClsDe := { handles := fun t => match t with | .prim .str => true | _ => false, run := fun _ _ => .ok (.str "cls") }

/-- `@serde(deserializer=tens, class_deserializer=...) class A: ...`. -/
def cdA : ClassDef := { name := "A", mro := ["A"], classDe := some strs, fields := [fa, fc, fd, fe, ff, fb, fg, fh] }

/-- `@serde(deserializer=..., class_deserializer=<ints>) class B: c: list[int]`. -/
def cdB : ClassDef := { name := "B", mro := ["B"], classDe := some { handles := fun t => match t with | .prim .int => true | _ => false, run := fun _ _ => .ok (.int 3) }, fields := [fc] }

def cdI : ClassDef := { name := "I", mro := ["I"], fields := [fa] }
/-- `class F: i: I = field(flatten=True)`. -/
def cdF : ClassDef := { name := "F", mro := ["F"], typeCheck := .disabled, fields := [{ name := "i", ty := .cls "I", flatten := true }] }

def env : Env := Ex.mk [("A", cdA), ("B", cdB), ("I", cdI), ("F", cdF)]
def leg : Legacy := { de := fun c => if c == "A" then some tens else none }

def inp : Val := .dict .plain [(.str "a", .int 4), (.str "c", .list [.int 2]), (.str "d", .int 0), (.str "e", .str "x"), (.str "f", .int 6), (.str "hh", .int 8)]
def out : Val := .inst "A" [("a", .int 40), ("c", .list [.int 2]), ("d", .int 7), ("e", .str "cls"), ("f", .int 6), ("b", .int 1), ("g", .bool true), ("h", .int 1)]

theorem run : fromDictL env leg {} 10 (.cls "A") inp = .ok out := by rfl

theorem cls_cases {c : ClassId} {cd : ClassDef} (h : env.cls c = some cd) : cd = cdA ∨ cd = cdB ∨ cd = cdI ∨ cd = cdF := by
  simp only [env, Ex.mk, Env.cls, List.lookup] at h
  split at h
  · cases h; exact .inl rfl
  · split at h
    · cases h; exact .inr (.inl rfl)
    · split at h
      · cases h; exact .inr (.inr (.inl rfl))
      · split at h
        · cases h; exact .inr (.inr (.inr rfl))
        · cases h

theorem no_union {ts} (h : Annotated env (.union ts)) : False := by
  obtain ⟨c, cd, f, hc, hf, hp⟩ := h
  rcases cls_cases hc with rfl | rfl | rfl | rfl
  · simp only [cdA, List.mem_cons, List.not_mem_nil, or_false] at hf
    rcases hf with rfl | rfl | rfl | rfl | rfl | rfl | rfl | rfl <;> cases hp
    rename_i hp; cases hp
  · simp only [cdB, List.mem_cons, List.not_mem_nil, or_false] at hf
    subst hf; cases hp; rename_i hp; cases hp
  · simp only [cdI, List.mem_cons, List.not_mem_nil, or_false] at hf
    subst hf; cases hp
  · simp only [cdF, List.mem_cons, List.not_mem_nil, or_false] at hf
    subst hf; cases hp

theorem no_lit {vs} (h : Annotated env (.lit vs)) : False := by
  obtain ⟨c, cd, f, hc, hf, hp⟩ := h
  rcases cls_cases hc with rfl | rfl | rfl | rfl
  · simp only [cdA, List.mem_cons, List.not_mem_nil, or_false] at hf
    rcases hf with rfl | rfl | rfl | rfl | rfl | rfl | rfl | rfl <;> cases hp
    rename_i hp; cases hp
  · simp only [cdB, List.mem_cons, List.not_mem_nil, or_false] at hf
    subst hf; cases hp; rename_i hp; cases hp
  · simp only [cdI, List.mem_cons, List.not_mem_nil, or_false] at hf
    subst hf; cases hp
  · simp only [cdF, List.mem_cons, List.not_mem_nil, or_false] at hf
    subst hf; cases hp

theorem hU : DistinctUnions env := distinctUnions_of (fun _ _ h => (no_union h).elim)
theorem hL : DistinctLits env := distinctLits_of (fun _ _ h => (no_lit h).elim)
theorem glob : NoGlobal env "A" := ⟨by simp [env, Ex.mk], by simp [env, Ex.mk]⟩
theorem simpleA : SimpleDe cdA := ⟨rfl, rfl, by decide⟩

theorem none_for {t} (h : strs.handles t = false) : NoneForDe (env.gde ++ cdA.classDe.toList) t := by
  intro s hs
  rw [show env.gde ++ cdA.classDe.toList = [strs] from rfl] at hs
  rw [List.mem_singleton.1 hs]; exact h

/-- `a` is what the function returned. -/
example : (Except.ok (.int 40) : Except PErr Val) = .ok (.int 40) :=
  (C57_asked_partial hU hL (cd := cdA) (g := tens) rfl simpleA glob rfl run (f := fa) ⟨by simp [cdA], rfl, rfl, rfl, rfl⟩ rfl (none_for rfl) ⟨_, _, rfl, rfl⟩).1 _ rfl

/-- `c` is read as without the function, which skips lists. -/
example : ReadTo env (ReadMode.afterSkip env {} cdA) fc.ty (.list [.int 2]) (.list [.int 2]) :=
  ((C57_asked_partial hU hL (cd := cdA) (g := tens) rfl simpleA glob rfl run (f := fc) ⟨by simp [cdA], rfl, rfl, rfl, rfl⟩ rfl (none_for rfl) ⟨_, _, rfl, rfl⟩).2 rfl rfl).2 _ rfl (by
    intro s hs
    cases hs with
    | refl => exact ⟨nofun, nofun, nofun, nofun⟩
    | list hs => cases hs; exact ⟨nofun, nofun, nofun, nofun⟩)

/-- `g` is missing, and the function skips bools: the default. -/
example : Val.bool true = .bool true :=
  ((C57_asked_partial hU hL (cd := cdA) (g := tens) rfl simpleA glob rfl run (f := fg) ⟨by simp [cdA], rfl, rfl, rfl, rfl⟩ rfl (none_for rfl) ⟨_, _, rfl, rfl⟩).2 rfl rfl).1 _ rfl rfl

/-- `d`, `e` and `f` are not the function's business. -/
example : (Except.ok (.int 7) : Except PErr Val) = .ok (.int 7) :=
  (C57_not_asked_partial hU hL (cd := cdA) (g := tens) rfl simpleA glob rfl run (f := fd) (x := .int 0) ⟨by simp [cdA], rfl, rfl, rfl, rfl, rfl⟩ rfl ⟨_, _, rfl, rfl⟩).1 _ rfl
example : strs.run fe.ty (.str "x") = .ok (.str "cls") :=
  (C57_not_asked_partial hU hL (cd := cdA) (g := tens) rfl simpleA glob rfl run (f := fe) ⟨by simp [cdA], rfl, rfl, rfl, rfl, rfl⟩ rfl ⟨_, _, rfl, rfl⟩).2.2 strs rfl
    ⟨[], [], rfl, rfl, by simp⟩
example : ReadTo env (ReadMode.afterSkip env {} cdA).plain ff.ty (.int 6) (.int 6) :=
  (C57_not_asked_partial hU hL (cd := cdA) (g := tens) rfl simpleA glob rfl run (f := ff) ⟨by simp [cdA], rfl, rfl, rfl, rfl, rfl⟩ rfl ⟨_, _, rfl, rfl⟩).2.1 rfl
    (by intro s hs; cases hs; exact ⟨nofun, nofun, nofun, nofun⟩)

/-- A function that skips everything. -/
def skip : LegFn := fun _ _ => none
def legSkip : Legacy := { de := fun _ => some skip }

/-- A function that returns what it gets. -/
def same : LegFn := fun t v => if t == "I" then some (.ok v) else none
def legSame : Legacy := { de := fun c => if c == "F" then some same else none }

end C57Ex

open C57Ex in
/-- A missing key with a default: the function is called with None, and its result is used rather than the default. -/
theorem C57_false_default : ∃ (env : Env) (leg : Legacy) (cd : ClassDef) (f : FieldDef) (d y : Val) (kvs : List (Val × Val)) (v : Val), env.cls "A" = some cd ∧
    f ∈ cd.fields ∧ f.dflt = some d ∧ getStr f.name kvs = none ∧ f.alias = [] ∧ fromDictL env leg {} 10 (.cls "A") (.dict .plain kvs) = .ok v ∧ HasAttr v f y ∧ y ≠ d :=
  ⟨env, leg, cdA, fb, .int 5, .int 1, _, out, rfl, by simp [cdA], rfl, rfl, rfl, run, ⟨_, _, rfl, rfl⟩, by simp⟩

open C57Ex in
/-- A field given under its alias: the function is called with None. -/
theorem C57_false_alias : ∃ (env : Env) (leg : Legacy) (cd : ClassDef) (f : FieldDef) (g : LegFn) (y : Val) (kvs : List (Val × Val)) (v : Val), env.cls "A" = some cd ∧
    f ∈ cd.fields ∧ leg.de "A" = some g ∧ f.alias = ["hh"] ∧ getStr "hh" kvs = some (.int 8) ∧ g (shown env f.ty) (.int 8) = some (.ok (.int 80)) ∧
    fromDictL env leg {} 10 (.cls "A") (.dict .plain kvs) = .ok v ∧ HasAttr v f y ∧ y ≠ .int 80 :=
  ⟨env, leg, cdA, fh, tens, .int 1, _, out, rfl, by simp [cdA], rfl, rfl, rfl, rfl, run, ⟨_, _, rfl, rfl⟩, by simp⟩

open C57Ex in
/-- The function is not asked for the elements of a list. -/
theorem C57_false_elements : ∃ (env : Env) (leg : Legacy) (cd : ClassDef) (f : FieldDef) (g : LegFn) (kvs : List (Val × Val)) (v : Val), env.cls "A" = some cd ∧
    f ∈ cd.fields ∧ leg.de "A" = some g ∧ f.ty = .list .list (.prim .int) ∧ getStr f.name kvs = some (.list [.int 2]) ∧ g (shown env (.prim .int)) (.int 2) = some (.ok (.int 20)) ∧
    fromDictL env leg {} 10 (.cls "A") (.dict .plain kvs) = .ok v ∧ HasAttr v f (.list [.int 2]) :=
  ⟨env, leg, cdA, fc, tens, _, out, rfl, by simp [cdA], rfl, rfl, rfl, rfl, run, ⟨_, _, rfl, rfl⟩⟩

open C57Ex in
/-- A function that always skips still changes the result: the `class_deserializer` is no longer used for the elements of a list. -/
theorem C57_false_skip : ∃ (env : Env) (leg : Legacy) (g : LegFn) (d v v' : Val), leg.de "B" = some g ∧ (∀ t x, g t x = none) ∧
    fromDictL env leg {} 10 (.cls "B") d = .ok v ∧ fromDictL env {} {} 10 (.cls "B") d = .ok v' ∧
    v = .inst "B" [("c", .list [.int 2])] ∧ v' = .inst "B" [("c", .list [.int 3])] :=
  ⟨env, legSkip, skip, .dict .plain [(.str "c", .list [.int 2])], _, _, rfl, fun _ _ => rfl, rfl, rfl, rfl, rfl⟩

open C57Ex in
/-- For a flattened dataclass the function is called with None: its fields are not under the name of the flattened field. -/
theorem C57_false_flatten : ∃ (env : Env) (leg : Legacy) (g : LegFn) (d : Val), leg.de "F" = some g ∧ (∀ x, g "I" x = some (.ok x)) ∧
    fromDictL env leg {} 10 (.cls "F") d = .ok (.inst "F" [("i", .none)]) ∧ fromDictL env {} {} 10 (.cls "F") d = .ok (.inst "F" [("i", .inst "I" [("a", .int 1)])]) :=
  ⟨env, legSame, same, .dict .plain [(.str "a", .int 1)], rfl, fun _ => rfl, rfl, rfl⟩

end Verif.Props
