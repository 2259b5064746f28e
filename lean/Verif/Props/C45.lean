import Verif.Lemmas.Generic
import Verif.Lemmas.FieldSe
import Verif.Examples.World
/-!
# C45: generic classes

Full statement: "A generic class Foo[T1..Tn] applied to arguments (de)serializes like the class with the type variables replaced by the
arguments, at every nesting depth."

`ReadAs` says what "like the class with the variables replaced" means for reading: at a type variable the value is what `from_dict` makes
of the input at the argument. Proved (partial): this holds at every depth below the outermost class (`C45_nested_partial`) for annotations
in `Covered`: variables reach the nested classes under the names they have in the outermost class. Writing ignores the arguments:
a variable is written by the class of the value, a subscripted class like the class itself (`C45_write_var_partial`,
`C45_write_gen_partial`).

Otherwise the statement is false: a variable used directly in the outermost class is read as `Any` (`C45_false_top`), so is one bound to a
concrete argument inside a class (`C45_false_concrete`), one that is passed on under another name (`C45_false_renamed`) or inside a union
(`C45_false_union`); permuted names are bound to the wrong argument (`C45_false_swapped`); primitives at a variable are converted even in
strict mode (`C45_false_strict`); options do not reach values written at a variable (`C45_false_options`).
-/

namespace Verif.Props
open Verif Spec

/-- **C45** (partial), reading: in an object read by `from_dict(Foo[args], ...)`, everything under a covered field is read with the type
variables standing for the arguments, however deep.
Missing: variables used directly in `Foo` and the other exceptions above; that a readable input is accepted. -/
theorem C45_nested_partial {env : Env} {o : DeOpts} {n c} {cd : ClassDef} {vs args f dk kvs x v} (hC : GenClass env c cd vs) (hvs : vs ≠ [])
    (hl : args.length = vs.length) (hf : PlainField env cd f)
    (hcov : Covered env (bindArgs vs args) (bindArgs vs args) false f.ty) (hx : getStr (f.conv cd.deCase) kvs = some x)
    (h : fromDict env o n (.gen c args) (.dict dk kvs) = .ok v) :
    ∃ attrs w, v = .inst c attrs ∧ attrs.lookup f.name = some w ∧
      ReadAs env { reuse := some (o.reuse.getD cd.reuseDflt), numbers := o.numbers } (bindArgs vs args) (bindArgs vs args) f.ty x w := by
  have hP := hC.plain
  unfold fromDict at h
  rcases n with _ | _ | m
  · cases h
  · rw [deAt_fromObj] at h
    unfold fromObjF at h
    have : typeIs (.dict dk kvs) (.gen c args) = false := rfl
    dsimp only at h
    rw [this] at h
    simp only [Bool.false_eq_true, if_false] at h
    have h := wrapUser_ok.1 h
    unfold fromObjBody at h
    rw [show env.gde.find? (fun s => s.handles (.cls c)) = none from
      List.find?_eq_none.2 (fun s hs => by simp [hP.global.de s hs])] at h
    cases h
  · rw [deAt_fromObj] at h
    unfold fromObjF at h
    have : typeIs (.dict dk kvs) (.gen c args) = false := rfl
    dsimp only at h
    rw [this] at h
    simp only [Bool.false_eq_true, if_false] at h
    have h := wrapUser_ok.1 h
    unfold fromObjBody at h
    rw [show env.gde.find? (fun s => s.handles (.cls c)) = none from
      List.find?_eq_none.2 (fun s hs => by simp [hP.global.de s hs])] at h
    dsimp only at h
    rw [deAt_cls, deClsF_named hP.cls hP.dict] at h
    split at h
    · cases h
    · cases h
    · split at h
      · cases h
      · rename_i ex _
        obtain ⟨attrs, rfl⟩ := decodeCls_inst h
        obtain ⟨val, h1, h2, rfl⟩ := (decodeCls_fieldwise hP.post hP.names).1 h
        obtain ⟨m', rfl, hb⟩ := (deField_body hf hx).1 (h1 f hf.mem hf.renderable)
        refine ⟨_, val f, rfl, ?_, ?_⟩
        · rw [attrsOf_lookup hP.names hf.mem, hf.renderable, if_pos rfl]
        · have hga : GArg (plainArg cd f (.dict dk kvs)) x := ⟨hf.alias, hf.deser, rfl, .inl ⟨dk, kvs, rfl, hx⟩⟩
          refine readAs_of_body hvs hl m' ⟨rfl, rfl, ?_, rfl, rfl, hC.noDe, fun h => by cases h⟩ hcov hga hb
          exact hC.vars

/-- **C45** (partial), writing a type variable: the entry is what `to_dict` writes for the value alone (with `reuse_instances` and
`convert_sets` off). Missing: fields with skip rules omitted, flattened fields; options are not passed on, see `C45_false_options`. -/
theorem C45_write_var_partial {env : Env} {so : SeOpts} {n c} {cd : ClassDef} {f attrs w x v} (hC : PlainClass env c cd) (ho : OneEntryEach cd)
    (hf : WrittenField env cd f) (hu : NotUnion so.c) (ht : f.ty = .tvar x) (hv : attrs.lookup f.name = some v)
    (h : toDict env so n (.inst c attrs) = .ok w) :
    ∃ kvs, w = .dict .plain kvs ∧ ∀ y, (.str (f.conv cd.seCase), y) ∈ kvs →
      ∃ m, toDict env { reuse := some false, conv := some false, skipNone := so.skipNone, c := some .any } m v = .ok y := by
  obtain ⟨kvs, rfl, h1, _⟩ := written_run hC ho hf hu h
  refine ⟨kvs, rfl, fun y hy => ?_⟩
  obtain ⟨m, hm⟩ := h1 y hy
  rw [seAt_render] at hm
  unfold renderF at hm
  rw [pickSer_plain hf] at hm
  have h2 : (seFieldArg f (.ok (.inst c attrs))).ser = none := hf.ser
  have h3 : (seFieldArg f (.ok (.inst c attrs))).ty = .tvar x := ht
  have h4 : (seFieldArg f (.ok (.inst c attrs))).v = .ok v := by
    unfold seFieldArg getAttr
    dsimp only
    rw [hv]
  dsimp only at hm
  rw [h2, h3, h4] at hm
  exact ⟨m, hm⟩

/-- **C45** (partial), writing a subscripted class: the entry is what the class without arguments writes.
Missing: fields with skip rules omitted, flattened fields. -/
theorem C45_write_gen_partial {env : Env} {so : SeOpts} {n c} {cd : ClassDef} {f attrs w b args b' as} (hC : PlainClass env c cd)
    (ho : OneEntryEach cd) (hf : WrittenField env cd f) (hu : NotUnion so.c) (ht : f.ty = .gen b args)
    (hv : attrs.lookup f.name = some (.inst b' as)) (hs : ∀ s ∈ env.gser ++ cd.classSer.toList, s.handles (.cls b) = false)
    (hg : ∀ s ∈ env.gser, s.handles (.cls b') = false) (h : toDict env so n (.inst c attrs) = .ok w) :
    ∃ kvs, w = .dict .plain kvs ∧ ∀ y, (.str (f.conv cd.seCase), y) ∈ kvs →
      ∃ m, toDict env { reuse := some (so.reuse.getD cd.reuseDflt), conv := some (so.conv.getD cd.convDflt), skipNone := so.skipNone } m
        (.inst b' as) = .ok y := by
  obtain ⟨kvs, rfl, h1, _⟩ := written_run hC ho hf hu h
  refine ⟨kvs, rfl, fun y hy => ?_⟩
  obtain ⟨m, hm⟩ := h1 y hy
  rw [seAt_render] at hm
  unfold renderF at hm
  rw [pickSer_plain hf] at hm
  have h2 : (seFieldArg f (.ok (.inst c attrs))).ser = none := hf.ser
  have h3 : (seFieldArg f (.ok (.inst c attrs))).ty = .gen b args := ht
  have h4 : (seFieldArg f (.ok (.inst c attrs))).v = .ok (.inst b' as) := by
    unfold seFieldArg getAttr
    dsimp only
    rw [hv]
  dsimp only at hm
  rw [h2, h3] at hm
  dsimp only at hm
  cases m with
  | zero => cases hm
  | succ m =>
    rw [seAt_render] at hm
    unfold renderF at hm
    have h5 : pickSer (topSeCx env c cd true so).sers { seFieldArg f (.ok (.inst c attrs)) with ty := .cls b } = none := by
      unfold pickSer
      dsimp only
      rw [h2]
      dsimp only
      rw [List.find?_eq_none]
      intro s hs'
      rw [hs s (by rw [List.mem_reverse] at hs'; exact hs')]
      simp
    dsimp only at hm
    rw [← h2, h5] at hm
    dsimp only at hm
    rw [h4] at hm
    refine ⟨m + 1, ?_⟩
    rw [toDict_cls (.inl rfl) hg, wrapAll_ok]
    exact hm

namespace C45Ex

/-- `class A: n: int`, `class B: s: str`. -/
def cdA : ClassDef := { name := "A", mro := ["A"], fields := [{ name := "n", ty := .prim .int }] }
def cdB : ClassDef := { name := "B", mro := ["B"], fields := [{ name := "s", ty := .prim .str }] }
/-- `class Box(Generic[T]): v: T`. -/
def fv : FieldDef := { name := "v", ty := .tvar "T" }
def cdBox : ClassDef := { name := "Box", mro := ["Box"], fields := [fv], tvars := some ["T"] }
/-- `class Mid(Generic[T]): xs: list[Box[T]]`. -/
def fxs : FieldDef := { name := "xs", ty := .list .list (.gen "Box" [.tvar "T"]) }
def cdMid : ClassDef := { name := "Mid", mro := ["Mid"], fields := [fxs], tvars := some ["T"] }
/-- `class Top(Generic[T]): mid: Mid[T]`. -/
def fmid : FieldDef := { name := "mid", ty := .gen "Mid" [.tvar "T"] }
def cdTop : ClassDef := { name := "Top", mro := ["Top"], fields := [fmid], tvars := some ["T"] }
/-- `class Holder: box: Box[A]`. -/
def cdHolder : ClassDef := { name := "Holder", mro := ["Holder"], fields := [{ name := "box", ty := .gen "Box" [.cls "A"] }] }
/-- `class Ren(Generic[U]): box: Box[U]`, `class RenTop(Generic[T]): ren: Ren[T]`. -/
def cdRen : ClassDef := { name := "Ren", mro := ["Ren"], fields := [{ name := "box", ty := .gen "Box" [.tvar "U"] }], tvars := some ["U"] }
def cdRenTop : ClassDef := { name := "RenTop", mro := ["RenTop"], fields := [{ name := "ren", ty := .gen "Ren" [.tvar "T"] }], tvars := some ["T"] }
/-- `class Swap(Generic[T, U]): box: Box[T]`, `class SwapTop(Generic[T, U]): swap: Swap[U, T]`. -/
def cdSwap : ClassDef := { name := "Swap", mro := ["Swap"], fields := [{ name := "box", ty := .gen "Box" [.tvar "T"] }], tvars := some ["T", "U"] }
def cdSwapTop : ClassDef := { name := "SwapTop", mro := ["SwapTop"], fields := [{ name := "swap", ty := .gen "Swap" [.tvar "U", .tvar "T"] }], tvars := some ["T", "U"] }
/-- `class UTop(Generic[T]): u: Union[Box[T], str]`. -/
def cdU : ClassDef := { name := "UTop", mro := ["UTop"], fields := [{ name := "u", ty := .union [.gen "Box" [.tvar "T"], .prim .str] }], tvars := some ["T"] }
/-- `class BoxTop(Generic[T]): box: Box[T]`. -/
def cdBoxTop : ClassDef := { name := "BoxTop", mro := ["BoxTop"], fields := [{ name := "box", ty := .gen "Box" [.tvar "T"] }], tvars := some ["T"] }
/-- The classes with the variables replaced by hand: `class StrBox: v: str`, `class DateBox: v: datetime`. -/
def cdStrBox : ClassDef := { name := "StrBox", mro := ["StrBox"], fields := [{ name := "v", ty := .prim .str }] }
def cdDateBox : ClassDef := { name := "DateBox", mro := ["DateBox"], fields := [{ name := "v", ty := .dt .datetime }] }

def env : Env := Ex.mk [("A", cdA), ("B", cdB), ("Box", cdBox), ("Mid", cdMid), ("Top", cdTop), ("Holder", cdHolder), ("Ren", cdRen),
  ("RenTop", cdRenTop), ("Swap", cdSwap), ("SwapTop", cdSwapTop), ("UTop", cdU), ("BoxTop", cdBoxTop), ("StrBox", cdStrBox), ("DateBox", cdDateBox)]

/-- `{"n": 1}`, `{"s": "x"}`. -/
def a1 : Val := .dict .plain [(.str "n", .int 1)]
def b1 : Val := .dict .plain [(.str "s", .str "x")]
def one (k : String) (v : Val) : Val := .dict .plain [(.str k, v)]

theorem box : GenClass env "Box" cdBox ["T"] :=
  ⟨⟨rfl, rfl, rfl, by decide, ⟨by simp [env, Ex.mk], by simp [env, Ex.mk]⟩⟩, rfl, by simp [env, Ex.mk, cdBox]⟩
theorem mid : GenClass env "Mid" cdMid ["T"] :=
  ⟨⟨rfl, rfl, rfl, by decide, ⟨by simp [env, Ex.mk], by simp [env, Ex.mk]⟩⟩, rfl, by simp [env, Ex.mk, cdMid]⟩
theorem top : GenClass env "Top" cdTop ["T"] :=
  ⟨⟨rfl, rfl, rfl, by decide, ⟨by simp [env, Ex.mk], by simp [env, Ex.mk]⟩⟩, rfl, by simp [env, Ex.mk, cdTop]⟩

/-- The argument reaches `Top[A].mid.xs[i].v`, three classes down. -/
theorem read : fromDict env {} 30 (.gen "Top" [.cls "A"]) (one "mid" (one "xs" (.list [one "v" a1]))) =
    .ok (.inst "Top" [("mid", .inst "Mid" [("xs", .list [.inst "Box" [("v", .inst "A" [("n", .int 1)])]])])]) := rfl

end C45Ex

/-- `C45_nested_partial` applies to the field `mid` of `Top[A]`. -/
example : ∃ attrs w, Val.inst "Top" [("mid", .inst "Mid" [("xs", .list [.inst "Box" [("v", .inst "A" [("n", .int 1)])]])])] = .inst "Top" attrs ∧
    attrs.lookup "mid" = some w ∧ ReadAs C45Ex.env { reuse := some true } (bindArgs ["T"] [.cls "A"]) (bindArgs ["T"] [.cls "A"])
      (.gen "Mid" [.tvar "T"]) (C45Ex.one "xs" (.list [C45Ex.one "v" C45Ex.a1])) w :=
  C45_nested_partial (f := C45Ex.fmid) C45Ex.top (by decide) rfl ⟨by simp [C45Ex.cdTop], rfl, rfl, rfl, rfl, rfl, rfl, by simp [C45Ex.env, Ex.mk, C45Ex.cdTop]⟩
    (.gen (zs := ["T"]) C45Ex.mid rfl (by intro z hz; rw [List.mem_singleton] at hz; subst hz; exact ⟨by simp [bindArgs], rfl⟩)) rfl C45Ex.read

/-- ... and below it `xs` of `Mid[T]` and `v` of `Box[T]` are covered, so that `ReadAs` speaks about them. -/
example : Covered C45Ex.env (bindArgs ["T"] [.cls "A"]) (bindVars (bindArgs ["T"] [.cls "A"]) ["T"] ["T"]) true C45Ex.fxs.ty ∧
    Covered C45Ex.env (bindArgs ["T"] [.cls "A"]) (bindVars (bindVars (bindArgs ["T"] [.cls "A"]) ["T"] ["T"]) ["T"] ["T"]) true C45Ex.fv.ty :=
  ⟨.list (.gen (zs := ["T"]) C45Ex.box rfl (by intro z hz; rw [List.mem_singleton] at hz; subst hz; exact ⟨by simp [bindVars, bindArgs], rfl⟩)),
    .var (t := .cls "A") rfl rfl⟩

/-- `C45_write_var_partial` applies to `Box(A(1))`. -/
example : ∃ kvs, C45Ex.one "v" C45Ex.a1 = .dict .plain kvs ∧ ∀ y, (.str "v", y) ∈ kvs →
    ∃ m, toDict C45Ex.env { reuse := some false, conv := some false, c := some .any } m (.inst "A" [("n", .int 1)]) = .ok y :=
  C45_write_var_partial (f := C45Ex.fv) (so := {}) (n := 20) (attrs := [("v", .inst "A" [("n", .int 1)])]) C45Ex.box.plain
    ⟨by simp [C45Ex.cdBox, C45Ex.fv], by decide⟩ ⟨by simp [C45Ex.cdBox], rfl, rfl, rfl, rfl, by simp [C45Ex.env, Ex.mk, C45Ex.cdBox]⟩
    (.inl rfl) rfl rfl rfl

/-- `C45_write_gen_partial` applies to `Top(Mid([]))`. -/
example : ∃ kvs, C45Ex.one "mid" (C45Ex.one "xs" (.list [])) = .dict .plain kvs ∧ ∀ y, (.str "mid", y) ∈ kvs →
    ∃ m, toDict C45Ex.env { reuse := some true, conv := some false } m (.inst "Mid" [("xs", .list [])]) = .ok y :=
  C45_write_gen_partial (f := C45Ex.fmid) (so := {}) (n := 20) (attrs := [("mid", .inst "Mid" [("xs", .list [])])]) C45Ex.top.plain
    ⟨by simp [C45Ex.cdTop, C45Ex.fmid], by decide⟩ ⟨by simp [C45Ex.cdTop], rfl, rfl, rfl, rfl, by simp [C45Ex.env, Ex.mk, C45Ex.cdTop]⟩
    (.inl rfl) rfl rfl (by simp [C45Ex.env, Ex.mk, C45Ex.cdTop]) (by simp [C45Ex.env, Ex.mk]) rfl

/-- `from_dict(Box[A], {"v": {"n": 1}})` leaves the dict as it is. -/
theorem C45_false_top : fromDict C45Ex.env {} 30 (.gen "Box" [.cls "A"]) (C45Ex.one "v" C45Ex.a1) = .ok (.inst "Box" [("v", C45Ex.a1)]) := rfl

/-- `box: Box[A]` in a class that is not generic: the dict under `v` is left as it is. -/
theorem C45_false_concrete : fromDict C45Ex.env {} 30 (.cls "Holder") (C45Ex.one "box" (C45Ex.one "v" C45Ex.a1)) =
    .ok (.inst "Holder" [("box", .inst "Box" [("v", C45Ex.a1)])]) := rfl

/-- The variable is called `U` in the class between: the dict under `v` is left as it is. -/
theorem C45_false_renamed : fromDict C45Ex.env {} 30 (.gen "RenTop" [.cls "A"]) (C45Ex.one "ren" (C45Ex.one "box" (C45Ex.one "v" C45Ex.a1))) =
    .ok (.inst "RenTop" [("ren", .inst "Ren" [("box", .inst "Box" [("v", C45Ex.a1)])])]) := rfl

/-- `SwapTop[A, B].swap` is a `Swap[B, A]`, its `box` a `Box[B]`; but the box is read as a `Box[A]`: the right input is rejected, the wrong one
accepted. -/
theorem C45_false_swapped :
    (∃ e, fromDict C45Ex.env {} 30 (.gen "SwapTop" [.cls "A", .cls "B"]) (C45Ex.one "swap" (C45Ex.one "box" (C45Ex.one "v" C45Ex.b1))) = .error e) ∧
    fromDict C45Ex.env {} 30 (.gen "SwapTop" [.cls "A", .cls "B"]) (C45Ex.one "swap" (C45Ex.one "box" (C45Ex.one "v" C45Ex.a1))) =
      .ok (.inst "SwapTop" [("swap", .inst "Swap" [("box", .inst "Box" [("v", .inst "A" [("n", .int 1)])])])]) := ⟨⟨_, rfl⟩, rfl⟩

/-- Inside a union the argument is forgotten: the dict under `v` is left as it is. -/
theorem C45_false_union : fromDict C45Ex.env {} 30 (.gen "UTop" [.cls "A"]) (C45Ex.one "u" (C45Ex.one "v" C45Ex.a1)) =
    .ok (.inst "UTop" [("u", .inst "Box" [("v", C45Ex.a1)])]) := rfl

/-- `BoxTop[str]` reads `True` as "True" although the classes are strict; the class with the variable replaced rejects it. -/
theorem C45_false_strict :
    fromDict C45Ex.env {} 30 (.gen "BoxTop" [.prim .str]) (C45Ex.one "box" (C45Ex.one "v" (.bool true))) =
      .ok (.inst "BoxTop" [("box", .inst "Box" [("v", .str "True")])]) ∧
    ∃ e, fromDict C45Ex.env {} 30 (.cls "StrBox") (C45Ex.one "v" (.bool true)) = .error e := ⟨rfl, _, rfl⟩

/-- `to_dict` keeps a datetime by default; at a type variable it does not. -/
theorem C45_false_options :
    toDict C45Ex.env {} 20 (.inst "DateBox" [("v", .dt .datetime "2020-01-01T00:00:00")]) = .ok (C45Ex.one "v" (.dt .datetime "2020-01-01T00:00:00")) ∧
    toDict C45Ex.env {} 20 (.inst "Box" [("v", .dt .datetime "2020-01-01T00:00:00")]) = .ok (C45Ex.one "v" (.str "2020-01-01T00:00:00")) := ⟨rfl, rfl⟩

end Verif.Props
