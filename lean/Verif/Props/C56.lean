import Verif.Lemmas.LegacyDe
import Verif.Props.C39
/-!
# C56: the serializer= function of a class
-/

namespace Verif.Props
open Spec

/-- The mode in which the fields of an object given to `to_dict` are written. -/
def topMode (env : Env) (leg : Legacy) (so : SeOpts) (c : ClassId) (cd : ClassDef) : WriteMode :=
  { reuse := so.reuse.getD cd.reuseDflt, conv := so.conv.getD cd.convDflt, coerce := cd.typeCheck == .coerce, asks := leg.ser c,
    sers := env.gser ++ cd.classSer.toList }

/-- **C56** What `to_dict` or `to_tuple` writes for a field. A serializer of the field's own is used and nothing else is asked. Otherwise, at every position of the annotation, a
matching class-level or global serializer comes first, then the class's `serializer=` function, and only where it skips is the value written in the default way, with the function
asked again for the components; objects of other classes are written with those classes' own functions (`WriteTo`). -/
theorem C56_written_partial {env : Env} {leg : Legacy} {so : SeOpts} {n c} {cd : ClassDef} {attrs w} (hc : env.cls c = some cd) (hs : SimpleSe cd)
    (hg : NoGlobal env c) (hu : NotUnion so.c) (h : toDictL env leg so n (.inst c attrs) = .ok w ∨ toTupleL env leg so n (.inst c attrs) = .ok w)
    {f a x} (hx : Slot cd w f x) (ha : attrs.lookup f.name = some a) :
    (∀ g, f.serializer = some (.fn g) → g a = .ok x) ∧
    (f.serializer = some .marker → WriteTo env leg (topMode env leg so c cd).plain f.ty a x) ∧
    (f.serializer = none → WriteTo env leg (topMode env leg so c cd) f.ty a x) := by
  have key : ∃ b m, (seLAt env leg (m + 1)).cls b so.reuse so.conv so.skipNone (.inst c attrs) = .ok w := by
    match n, h with
    | 0, h => rcases h with h | h <;> cases h
    | 1, h =>
      rcases h with h | h
      · unfold toDictL at h; rw [toObjL_inst hu hg.ser] at h; cases h
      · unfold toTupleL at h; rw [toObjL_inst hu hg.ser] at h; cases h
    | n + 2, h =>
      rcases h with h | h
      · unfold toDictL at h; rw [toObjL_inst hu hg.ser, wrapAll_ok] at h; exact ⟨_, _, h⟩
      · unfold toTupleL at h; rw [toObjL_inst hu hg.ser, wrapAll_ok] at h; exact ⟨_, _, h⟩
  obtain ⟨b, m, hm⟩ := key
  obtain ⟨c', attrs', he, cd', hc', hw⟩ := (writes_at m).2 b so.reuse so.conv so.skipNone _ w (topMode env leg so c cd) hm
  cases he
  rw [hc] at hc'; cases hc'
  exact hw rfl rfl hs f a x hx ha

/-- **C56** The function's answer for a field is what is written, unless the field or a registered serializer takes precedence. -/
theorem C56_asked_partial {env : Env} {leg : Legacy} {so : SeOpts} {n c} {cd : ClassDef} {attrs w} (hc : env.cls c = some cd) (hs : SimpleSe cd)
    (hg : NoGlobal env c) (hu : NotUnion so.c) (h : toDictL env leg so n (.inst c attrs) = .ok w ∨ toTupleL env leg so n (.inst c attrs) = .ok w)
    {f a x g r} (hx : Slot cd w f x) (ha : attrs.lookup f.name = some a) (hno : f.serializer = none) (hcl : NoneFor (env.gser ++ cd.classSer.toList) f.ty)
    (hl : leg.ser c = some g) (hr : g (shown env f.ty) a = some r) : r = .ok x :=
  writeTo_asked ((C56_written_partial hc hs hg hu h hx ha).2.2 hno) hcl hl hr

/-- **C56** For the elements of a list it is the same, wherever the function skips the list. -/
theorem C56_elements_partial {env : Env} {leg : Legacy} {so : SeOpts} {n c} {cd : ClassDef} {attrs w} (hc : env.cls c = some cd) (hs : SimpleSe cd)
    (hg : NoGlobal env c) (hu : NotUnion so.c) (h : toDictL env leg so n (.inst c attrs) = .ok w ∨ toTupleL env leg so n (.inst c attrs) = .ok w)
    {f x g k t} {vs : List Val} (hx : Slot cd w f x) (ht : f.ty = .list k t) (ha : attrs.lookup f.name = some (.list vs)) (hno : f.serializer = none)
    (hcl : NoneFor (env.gser ++ cd.classSer.toList) f.ty) (hct : NoneFor (env.gser ++ cd.classSer.toList) t)
    (hl : leg.ser c = some g) (hr : g (shown env f.ty) (.list vs) = none) :
    ∃ ys, x = .list ys ∧ vs.length = ys.length ∧ ∀ (i : Nat) a y r, vs[i]? = some a → ys[i]? = some y → g (shown env t) a = some r → r = .ok y := by
  have := (C56_written_partial hc hs hg hu h hx ha).2.2 hno
  rw [ht] at this hcl hr
  exact writeTo_list this hcl hct hl hr

/-- **C56** Without functions the extended entry points are the ones all other properties speak of. -/
theorem C56_no_functions {env : Env} {leg : Legacy} (hs : ∀ c, leg.ser c = none) (hd : ∀ c, leg.de c = none) (so : SeOpts) (o : DeOpts) (n : Nat) (c : Ty) (v : Val) :
    toDictL env leg so n v = toDict env so n v ∧ toTupleL env leg so n v = toTuple env so n v ∧
    fromDictL env leg o n c v = fromDict env o n c v ∧ fromTupleL env leg o n c v = fromTuple env o n c v := by
  have h1 := seLAt_none (env := env) hs n
  have h2 := deLAt_none (env := env) hd n
  refine ⟨?_, ?_, ?_, ?_⟩
  · show ((seLAt env leg n).at none).toObj _ _ _ _ _ _ _ = _
    rw [h1]; rfl
  · show ((seLAt env leg n).at none).toObj _ _ _ _ _ _ _ = _
    rw [h1]; rfl
  · unfold fromDictL; rw [h2]; rfl
  · unfold fromTupleL; rw [h2]; rfl

/-! ## Examples and counterexamples -/
namespace C56Ex

/-- Ten times the number, for ints; skips zero and everything else. -/
def tens : LegFn := fun t v => if t == "int" then
    match v with
    | .int 0 => none
    | .int i => some (.ok (.int (10 * i)))
    | _ => some (.error .type)
  else none

def fa : FieldDef := { name := "a", ty := .prim .int }
def fc : FieldDef := { name := "c", ty := .list .list (.prim .int) }
def fd : FieldDef := { name := "d", ty := .prim .int, serializer := some (.fn (fun _ => .ok (.str "seven"))) }
def fe : FieldDef := { name := "e", ty := .prim .str }
def ff : FieldDef := { name := "f", ty := .prim .int, serializer := some .marker }
def fo : FieldDef := { name := "o", ty := .union [.prim .int, .none] }
def fu : FieldDef := { name := "u", ty := .union [.prim .int, .prim .str] }
def fb : FieldDef := { name := "b", ty := .cls "B" }

def strs : ClsSer := { handles := fun t => match t with | .prim .str => true | _ => false, run := fun _ => .ok (.str "cls") }

def cdA : ClassDef := { name := "A", mro := ["A"], classSer := some strs, fields := [fa, fc, fd, fe, ff, fo, fu, fb] }
def cdB : ClassDef := { name := "B", mro := ["B"], fields := [fa] }
def cdP : ClassDef := { name := "P", mro := ["P"], fields := [fa, fe] }
/-- `class F: p: P = field(flatten=True)`. -/
def cdF : ClassDef := { name := "F", mro := ["F"], fields := [{ name := "p", ty := .cls "P", flatten := true }] }

def env : Env := Ex.mk [("A", cdA), ("B", cdB), ("P", cdP), ("F", cdF)]
def leg : Legacy := { ser := fun c => if c == "A" || c == "F" then some tens else none }

def obj : Val := .inst "A" [("a", .int 4), ("c", .list [.int 2, .int 0]), ("d", .int 7), ("e", .str "x"), ("f", .int 6), ("o", .int 5), ("u", .int 3),
  ("b", .inst "B" [("a", .int 9)])]
def out : Val := .dict .plain [(.str "a", .int 40), (.str "c", .list [.int 20, .int 0]), (.str "d", .str "seven"), (.str "e", .str "cls"), (.str "f", .int 6),
  (.str "o", .int 50), (.str "u", .int 3), (.str "b", .dict .plain [(.str "a", .int 9)])]

theorem run : toDictL env leg {} 12 obj = .ok out := by rfl
theorem glob : NoGlobal env "A" := ⟨by simp [env, Ex.mk], by simp [env, Ex.mk]⟩
theorem simpleA : SimpleSe cdA := ⟨rfl, by simp [cdA, fa, fc, fd, fe, ff, fo, fu, fb], by decide⟩

theorem none_for {t} (h : strs.handles t = false) : NoneFor (env.gser ++ cdA.classSer.toList) t := by
  intro s hs
  rw [show env.gser ++ cdA.classSer.toList = [strs] from rfl] at hs
  rw [List.mem_singleton.1 hs]; exact h

example : (Except.ok (.int 40) : Except PErr Val) = .ok (.int 40) :=
  C56_asked_partial (cd := cdA) (g := tens) rfl simpleA glob (.inl rfl) (.inl run) (f := fa) (.inl ⟨_, rfl, by simp [cdA, serializable, fa], .head _⟩) rfl rfl (none_for rfl) rfl rfl

example : ∃ ys, Val.list [.int 20, .int 0] = .list ys ∧ [Val.int 2, .int 0].length = ys.length ∧
    ∀ (i : Nat) a y r, [Val.int 2, .int 0][i]? = some a → ys[i]? = some y → tens "int" a = some r → r = .ok y :=
  C56_elements_partial (cd := cdA) (g := tens) rfl simpleA glob (.inl rfl) (.inl run) (f := fc) (.inl ⟨_, rfl, by simp [cdA, serializable, fc], .tail _ (.head _)⟩) rfl rfl rfl
    (none_for rfl) (none_for rfl) rfl rfl

/-- No class has functions of its own. -/
example : toDictL env {} {} 12 obj = toDict env {} 12 obj := (C56_no_functions (leg := {}) (fun _ => rfl) (fun _ => rfl) {} {} 12 (.cls "A") obj).1

end C56Ex

open C56Ex in
/-- Inside a union that is not an Optional the function is not asked. -/
theorem C56_false_union : ∃ (env : Env) (leg : Legacy) (cd : ClassDef) (f : FieldDef) (g : LegFn) (attrs : List (String × Val)) (w : Val), env.cls "A" = some cd ∧ SimpleSe cd ∧
    NoGlobal env "A" ∧ leg.ser "A" = some g ∧ toDictL env leg {} 12 (.inst "A" attrs) = .ok w ∧ Slot cd w f (.int 3) ∧ attrs.lookup f.name = some (.int 3) ∧
    f.ty = .union [.prim .int, .prim .str] ∧ g (shown env f.ty) (.int 3) = none ∧ g (shown env (.prim .int)) (.int 3) = some (.ok (.int 30)) :=
  ⟨env, leg, cdA, fu, tens, _, out, rfl, simpleA, glob, rfl, run, .inl ⟨_, rfl, by simp [cdA, serializable, fu], .tail _ (.tail _ (.tail _ (.tail _ (.tail _ (.tail _ (.head _))))))⟩, rfl, rfl, rfl, rfl⟩

open C56Ex in
/-- A class with a function cannot flatten a dataclass of two fields, whatever the function does: the call around the spliced entries is not valid. -/
theorem C56_false_flatten : ∃ (env : Env) (leg : Legacy) (g : LegFn) (v w : Val), leg.ser "F" = some g ∧ (∀ x, g "P" x = none) ∧
    toDict env {} 12 v = .ok w ∧ ∀ n w', toDictL env leg {} n v ≠ .ok w' := by
  refine ⟨env, leg, tens, .inst "F" [("p", .inst "P" [("a", .int 4), ("e", .str "x")])], .dict .plain [(.str "a", .int 4), (.str "e", .str "x")], rfl, fun _ => rfl, rfl, ?_⟩
  intro n w' h
  match n, h with
  | 0, h => cases h
  | 1, h => cases h
  | 2, h => cases h
  | 3, h => cases h
  | n + 4, h => cases h

end Verif.Props
