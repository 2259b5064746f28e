import Verif.Lemmas.AliasTwin
import Verif.Lemmas.Default
import Verif.Lemmas.Frame
import Verif.Lemmas.FieldRun
import Verif.Lemmas.FieldSe
import Verif.Lemmas.ReadTo
import Verif.Props.C15
import Verif.Props.C53
import Verif.Examples.World
/-!
# C87: a type alias means what it stands for

Full statement: "An annotation that uses a PEP 695 alias (`type T = X`), at the top or anywhere inside, is read and written as the annotation with `X` in its
place."

Proved (partial) for aliases at the top and as elements, values, keys and Optional arguments at any depth (`Unfolds`), for classes without class
(de)serializers: two fields of a class whose annotations differ only in aliases read the same data as the same value and write the same value as the same data.
A class and its copy with aliases replaced read all data alike, refusing the same data with the same exceptions (`C87_copy_partial`, `C87_copy_ends_partial`),
and write alike (`C87_copy_write_partial`); the same for rows (`C87_copy_tuple_partial`).
False inside other unions: a member that mentions an alias is never taken (`C87_member_refused`, `C87_false_union`); for numeric dict keys
(`C87_false_key`); and for an alias of an alias passed to `from_dict` (`C87_false_twice`). Literals behind aliases: `C63_false_literal_alias`.
-/

namespace Verif.Props
open Verif Verif.Spec

/-- **C87** Reading: two fields of a class whose annotations differ only in aliases get the same value from the same data, or from no data if their defaults are the
same. -/
theorem C87_read_partial {env : Env} {o : DeOpts} {n c} {cd : ClassDef} {f g : FieldDef} {dk kvs v} (hC : PlainClass env c cd) (hf : PlainField env cd f)
    (hg : PlainField env cd g) (hn : env.gde = [] ∧ cd.classDe = none) (hu : Unfolds f.ty g.ty)
    (hx : getStr (f.conv cd.deCase) kvs = getStr (g.conv cd.deCase) kvs) (hd : f.dflt = g.dflt ∨ ∃ x, getStr (f.conv cd.deCase) kvs = some x)
    (h : fromDict env o n (.cls c) (.dict dk kvs) = .ok v) :
    ∃ attrs w, v = .inst c attrs ∧ attrs.lookup f.name = some w ∧ attrs.lookup g.name = some w := by
  have hdata : IsData c (.dict dk kvs) := by intro as h; cases h
  obtain ⟨attrs, rfl, -, h1⟩ := fromDict_attr hC.cls hC.dict hC.post hC.names hf.mem hC.global hdata h
  obtain ⟨attrs', e, -, h2⟩ := fromDict_attr hC.cls hC.dict hC.post hC.names hg.mem hC.global hdata h
  cases e
  obtain ⟨m, ex, w, r1, l1⟩ := h1 hf.renderable
  obtain ⟨m', ex', w', r2, l2⟩ := h2 hg.renderable
  refine ⟨attrs, w, rfl, l1, ?_⟩
  have strip : ∀ {m ex w} {f : FieldDef}, PlainField env cd f →
      deField env (deAt env m) (clsDeCx env c cd true (topCall o) (.dict dk kvs)) c cd ex (.dict dk kvs) f = .ok w →
      (deAt env m).render (clsDeCx env c cd true (topCall o) (.dict dk kvs)) (plainArg cd f (.dict dk kvs)) = .ok w := by
    intro m ex w f hf h
    rw [deField_plain hf.flat] at h
    cases hdf : f.dflt with
    | none => rw [hdf] at h; exact catchKey_ok.1 h
    | some dv => rw [hdf] at h; exact h
  have r1 := ((deAt_le' env (Nat.le_max_left m m')).render _ _).ok (strip hf r1)
  have r2 := ((deAt_le' env (Nat.le_max_right m m')).render _ _).ok (strip hg r2)
  generalize max m m' = k at r1 r2
  have hdes : (clsDeCx env c cd true (topCall o) (.dict dk kvs)).des = [] := by
    show env.gde ++ cd.classDe.toList = []
    rw [hn.1, hn.2]; rfl
  have same : w = w' := by
    rcases hd with hd | ⟨x, hp⟩
    · have a1 := (unfolds_de env k _ (plainArg cd f (.dict dk kvs)) g.ty hdes hf.deser rfl hu).ok r1
      have := render_sim env k (clsDeCx env c cd true (topCall o) (.dict dk kvs)) (.dict dk kvs) { plainArg cd f (.dict dk kvs) with ty := g.ty }
        (plainArg cd g (.dict dk kvs)) ⟨rfl, hg.deser.trans hf.deser.symm, hd.symm, rfl, hf.alias, hg.alias, rfl, rfl, .key hx⟩
      have e : (deAt env k).render (clsDeCx env c cd true (topCall o) (.dict dk kvs)) (plainArg cd g (.dict dk kvs)) = .ok w := this.trans a1
      rw [e] at r2; cases r2; rfl
    · have ex : ∀ {f : FieldDef}, PlainField env cd f → getStr (f.conv cd.deCase) kvs = some x →
          dfltExists env (plainArg cd f (.dict dk kvs)) (.dict dk kvs) = .ok true := by
        intro f hf hx
        unfold dfltExists plainArg
        dsimp only
        simp only [hf.alias, Bool.false_eq_true, if_false]
        simp [pyIn, hx]
      rw [render_dropDflt k _ _ _ rfl rfl (ex hf hp)] at r1
      rw [render_dropDflt k _ _ _ rfl rfl (ex hg (hx.symm.trans hp))] at r2
      have a1 := (unfolds_de env k _ { plainArg cd f (.dict dk kvs) with dflt := none } g.ty hdes hf.deser rfl hu).ok r1
      have := render_sim env k (clsDeCx env c cd true (topCall o) (.dict dk kvs)) (.dict dk kvs)
        { plainArg cd f (.dict dk kvs) with ty := g.ty, dflt := none } { plainArg cd g (.dict dk kvs) with dflt := none }
        ⟨rfl, hg.deser.trans hf.deser.symm, rfl, rfl, hf.alias, hg.alias, rfl, rfl, .key hx⟩
      have e : (deAt env k).render (clsDeCx env c cd true (topCall o) (.dict dk kvs)) { plainArg cd g (.dict dk kvs) with dflt := none } = .ok w :=
        this.trans a1
      rw [e] at r2; cases r2; rfl
  rw [same]; exact l2

/-- **C87** A class and its copy with aliases replaced give the same object or the same exception on all data. -/
theorem C87_copy_partial {env : Env} {o : DeOpts} {n c c'} {cd : ClassDef} {nm mro τ d r} (h : AliasCopy env c c' cd nm mro τ) (hg : NoGlobal env c)
    (hg' : NoGlobal env c') (hd : IsData c d) (hd' : IsData c' d) (hr : fromDict env o n (.cls c) d = r) (hf : r ≠ .error .fuel) :
    fromDict env o n (.cls c') d = asInstOf c' r := by
  subst hr
  rcases copy_fromDict h (o := o) (n := n) hg hg' hd hd' with e | e
  · exfalso
    apply hf
    generalize fromDict env o n (.cls c) d = r at e
    cases r with
    | error x => exact e
    | ok v => cases v <;> cases e
  · exact e.symm

/-- **C87** The same for `from_tuple`. -/
theorem C87_copy_tuple_partial {env : Env} {o : DeOpts} {n c c'} {cd : ClassDef} {nm mro τ d r} (h : AliasCopy env c c' cd nm mro τ) (hg : NoGlobal env c)
    (hg' : NoGlobal env c') (hd : IsData c d) (hd' : IsData c' d) (hr : fromTuple env o n (.cls c) d = r) (hf : r ≠ .error .fuel) :
    fromTuple env o n (.cls c') d = asInstOf c' r := by
  subst hr
  rcases copy_fromTuple h (o := o) (n := n) hg hg' hd hd' with e | e
  · exfalso
    apply hf
    generalize fromTuple env o n (.cls c) d = r at e
    cases r with
    | error x => exact e
    | ok v => cases v <;> cases e
  · exact e.symm

/-- **C87** Objects of the class and of its copy with the same attributes are written as the same data, or refused with the same exception. -/
theorem C87_copy_write_partial {env : Env} {so : SeOpts} {n c c'} {cd : ClassDef} {nm mro τ attrs r} (h : AliasCopy env c c' cd nm mro τ)
    (hs : NoSerializers env cd) (hu : NotUnion so.c) (hg : NoGlobal env c) (hg' : NoGlobal env c') (hf : r ≠ .error .fuel) :
    (toDict env so n (.inst c attrs) = r → toDict env so n (.inst c' attrs) = r) ∧
      (toTuple env so n (.inst c attrs) = r → toTuple env so n (.inst c' attrs) = r) := by
  obtain ⟨h1, h2⟩ := copy_toObj h hs (so := so) (n := n) (attrs := attrs) hu hg hg'
  constructor
  · intro hr
    rcases h1 with e | e
    · exact absurd (hr.symm.trans e) hf
    · exact e.symm.trans hr
  · intro hr
    rcases h2 with e | e
    · exact absurd (hr.symm.trans e) hf
    · exact e.symm.trans hr

/-- **C87** Where reading ends for the class (see C53), it ends for the copy, with the same object or exception. -/
theorem C87_copy_ends_partial {env : Env} {o : DeOpts} {c c'} {cd : ClassDef} {nm mro τ d} (h : AliasCopy env c c' cd nm mro τ) (hg : NoGlobal env c)
    (hg' : NoGlobal env c') (hd : IsData c d) (hd' : IsData c' d) (hW : WellFounded (Rereads env true)) (hU : DistinctUnions env)
    (hT : PlainTransparent env) (ht : DistinctInside env (.cls c)) :
    ∃ N r, r ≠ .error .fuel ∧ ∀ n, N ≤ n → fromDict env o n (.cls c) d = r ∧ fromDict env o n (.cls c') d = asInstOf c' r := by
  obtain ⟨N, r, hr, hn⟩ := C53_from_dict hW hU hT o (.cls c) ht d
  exact ⟨N, r, hr, fun n hN => ⟨hn n hN, C87_copy_partial h hg hg' hd hd' (hn n hN) hr⟩⟩

/-- **C87** Writing: two fields of a class whose annotations differ only in aliases write the same value as the same data. -/
theorem C87_write_partial {env : Env} {so : SeOpts} {n c} {cd : ClassDef} {f g : FieldDef} {attrs kvs x y} (hC : PlainClass env c cd) (ho : OneEntryEach cd)
    (hf : WrittenField env cd f) (hg : WrittenField env cd g) (hn : env.gser = [] ∧ cd.classSer = none) (hu : Unfolds f.ty g.ty) (hnu : NotUnion so.c)
    (hv : attrs.lookup f.name = attrs.lookup g.name) (h : toDict env so n (.inst c attrs) = .ok (.dict .plain kvs))
    (hx : (.str (f.conv cd.seCase), x) ∈ kvs) (hy : (.str (g.conv cd.seCase), y) ∈ kvs) : x = y := by
  obtain ⟨_, e, h1, -⟩ := written_run hC ho hf hnu h
  cases e
  obtain ⟨_, e, h2, -⟩ := written_run hC ho hg hnu h
  cases e
  obtain ⟨m, r1⟩ := h1 x hx
  obtain ⟨m', r2⟩ := h2 y hy
  have r1 := ((seAt_mono env (Nat.le_max_left (m + 1) (m' + 1))).render _ _).ok r1
  have r2 := ((seAt_mono env (Nat.le_max_right (m + 1) (m' + 1))).render _ _).ok r2
  have hs : (topSeCx env c cd true so).sers = [] := by
    show env.gser ++ cd.classSer.toList = []
    rw [hn.1, hn.2]; rfl
  have a1 := (unfolds_se env _ _ (seFieldArg f (.ok (.inst c attrs))) g.ty hs hf.ser hu).ok r1
  have e : ({ seFieldArg f (.ok (.inst c attrs)) with ty := g.ty } : SeArg) = seFieldArg g (.ok (.inst c attrs)) := by
    unfold seFieldArg getAttr
    dsimp only
    rw [hf.ser, hg.ser, hf.flat, hg.flat, hv]
  rw [e, r2] at a1
  cases a1; rfl

/-- **C87** An alias passed to `from_dict` or `from_tuple` is read as what it stands for, unless that is an alias again. -/
theorem C87_top_partial {env : Env} {o : DeOpts} {n nm d} {t : Ty} (ht : ∀ nm u, t ≠ .alias nm u) :
    fromDict env o n (.alias nm t) d = fromDict env o n t d ∧ fromTuple env o n (.alias nm t) d = fromTuple env o n t d := by
  have key : ∀ b, (deAt env n).fromObj b o.reuse o.numbers o.tagging (.alias nm t) d = (deAt env n).fromObj b o.reuse o.numbers o.tagging t d := by
    intro b
    cases n with
    | zero => rfl
    | succ n => cases t <;> first | rfl | exact absurd rfl (ht _ _)
  exact ⟨key _, key _⟩

theorem erase_none {t : Ty} (h : Mentions t) : erase t = none := by
  have lst : ∀ {ts : List Ty} {t}, t ∈ ts → erase t = none → eraseL ts = none := by
    intro ts t ht h
    induction ts with
    | nil => cases ht
    | cons u us ih =>
      unfold eraseL
      rcases List.mem_cons.1 ht with rfl | hm
      · rw [h]
      · rw [ih hm]; cases erase u <;> rfl
  induction h with
  | alias => rfl
  | list _ ih => unfold erase; rw [ih]; rfl
  | set _ ih => unfold erase; rw [ih]; rfl
  | deque _ ih => unfold erase; rw [ih]; rfl
  | tupleV _ ih => unfold erase; rw [ih]; rfl
  | tuple hm _ ih => unfold erase; rw [lst hm ih]; rfl
  | union hm _ ih => unfold erase; rw [lst hm ih]; rfl
  | key _ ih => unfold erase; rw [ih]
  | @value k kt vt _ ih => unfold erase; rw [ih]; cases erase kt <;> rfl

/-- **C87** The opposite holds in unions: a union field all of whose members mention aliases refuses all data. -/
theorem C87_member_refused {env : Env} {o : DeOpts} {n c} {cd : ClassDef} {f : FieldDef} {ts dk kvs x} (hC : PlainClass env c cd) (hf : PlainField env cd f)
    (hty : f.ty = .union ts) (hno : (Ty.union ts).isOpt = false) (hown : OwnUnionName env c ts) (hm : ∀ t ∈ ts, Mentions t)
    (hx : getStr (f.conv cd.deCase) kvs = some x) : ∃ e, fromDict env o n (.cls c) (.dict dk kvs) = .error e := by
  refine field_fail hC hf hx fun m w h => ?_
  unfold deBody at h
  rw [pickDe_plain hf] at h
  have hds : (plainArg cd f (.dict dk kvs)).deser = none := hf.deser
  have hpt : (plainArg cd f (.dict dk kvs)).ty = .union ts := hty
  rw [hds, hpt] at h
  dsimp only at h
  rw [hno] at h
  simp only [Bool.false_eq_true, if_false] at h
  split at h
  · cases h
  · rename_i us hus
    have : us = ts := by
      refine hown us (unionsOf_iff.1 (findUnion_mem hus)) ?_
      unfold findUnion at hus
      simpa using List.find?_some hus
    subst this
    split at h
    · obtain ⟨t, ht, hd⟩ := deUnion_member h
      unfold deMember at hd
      rw [erase_none (hm t ht)] at hd
      split at hd
      · cases hd
      · split at hd
        · cases hd
        · split at hd
          · cases hd
          · cases hd
    · cases h

/-! ## Examples -/

namespace C87Ex

/-- `type Num = int` -/
def al : Ty := .alias "Num" (.prim .int)

def fa : FieldDef := { name := "a", ty := .list .list (.union [al, .none]) }
def fb : FieldDef := { name := "b", ty := .list .list (.union [.prim .int, .none]) }
def fk : FieldDef := { name := "k", ty := .dict .dict al (.prim .str) }
def fl : FieldDef := { name := "k", ty := .dict .dict (.prim .int) (.prim .str) }
def fu : FieldDef := { name := "u", ty := .union [al, .prim .str] }
def fw : FieldDef := { name := "u", ty := .union [.prim .int, .prim .str] }
def fx : FieldDef := { name := "u", ty := .union [al, .list .list al] }

def cdA : ClassDef := { name := "A", mro := ["A"], fields := [fa, fb], typeCheck := .strict }
def cdK : ClassDef := { name := "K", mro := ["K"], fields := [fk], typeCheck := .disabled }
def cdL : ClassDef := { name := "L", mro := ["L"], fields := [fl], typeCheck := .disabled }
def cdU : ClassDef := { name := "U", mro := ["U"], fields := [fu] }
def cdW : ClassDef := { name := "W", mro := ["W"], fields := [fw] }
def cdX : ClassDef := { name := "X", mro := ["X"], fields := [fx] }
def env : Env := Ex.mk [("A", cdA), ("K", cdK), ("L", cdL), ("U", cdU), ("W", cdW), ("X", cdX)]

def ls : Val := .list [.int 1, .none]
def dat : List (Val × Val) := [(.str "a", ls), (.str "b", ls)]
def obj : Val := .inst "A" [("a", ls), ("b", ls)]

theorem plainA : PlainClass env "A" cdA := ⟨rfl, rfl, rfl, by decide, ⟨by simp [env, Ex.mk], by simp [env, Ex.mk]⟩⟩
theorem plainX : PlainClass env "X" cdX := ⟨rfl, rfl, rfl, by decide, ⟨by simp [env, Ex.mk], by simp [env, Ex.mk]⟩⟩
theorem plain_a : PlainField env cdA fa := ⟨by simp [cdA], rfl, rfl, rfl, rfl, rfl, rfl, by simp [env, Ex.mk, cdA]⟩
theorem plain_b : PlainField env cdA fb := ⟨by simp [cdA], rfl, rfl, rfl, rfl, rfl, rfl, by simp [env, Ex.mk, cdA]⟩
theorem plain_x : PlainField env cdX fx := ⟨by simp [cdX], rfl, rfl, rfl, rfl, rfl, rfl, by simp [env, Ex.mk, cdX]⟩
theorem unf : Unfolds fa.ty fb.ty := .list (.opt (.alias .same) (by intro h; cases h))
theorem own_x : OwnUnionName env "X" [al, .list .list al] := by
  intro us h _
  have h := unionsOf_iff.2 h
  have e : env.unionsOf "X" = [[al, .list .list al]] := rfl
  rw [e] at h
  simpa using h

theorem runA : fromDict env {} 12 (.cls "A") (.dict .plain dat) = .ok obj := rfl
theorem outA : toDict env {} 12 obj = .ok (.dict .plain dat) := rfl

end C87Ex

open C87Ex

example : ∃ attrs w, obj = .inst "A" attrs ∧ attrs.lookup "a" = some w ∧ attrs.lookup "b" = some w :=
  C87_read_partial plainA plain_a plain_b ⟨rfl, rfl⟩ unf rfl (.inl rfl) runA

example : ls = ls :=
  C87_write_partial (f := fa) (g := fb) plainA ⟨by decide, by decide⟩ ⟨by simp [cdA], rfl, rfl, rfl, rfl, by simp [C87Ex.env, Ex.mk, cdA]⟩
    ⟨by simp [cdA], rfl, rfl, rfl, rfl, by simp [C87Ex.env, Ex.mk, cdA]⟩ ⟨rfl, rfl⟩ unf (.inl rfl) rfl outA (.head _) (.tail _ (.head _))

example : fromDict C87Ex.env {} 12 (.alias "T" (.cls "A")) (.dict .plain dat) = .ok obj :=
  (C87_top_partial (by intro _ _ h; cases h)).1.trans runA

example : ∃ e, fromDict C87Ex.env {} 12 (.cls "X") (.dict .plain [(.str "u", .int 1)]) = .error e :=
  C87_member_refused (f := fx) plainX plain_x rfl rfl own_x
    (by intro t ht; simp only [List.mem_cons, List.not_mem_nil, or_false] at ht; rcases ht with rfl | rfl; exact .alias; exact .list .alias) rfl

namespace C87Copy

/-- `type Num = int`, `a: list[Num | None]`. -/
def f : FieldDef := { name := "a", ty := .list .list (.union [al, .none]) }

/-- `list[int | None]`. -/
def τ (_ : FieldDef) : Ty := .list .list (.union [.prim .int, .none])

def cdA : ClassDef := { name := "A", mro := ["A"], fields := [f], typeCheck := .strict }
def cdB : ClassDef := renamedCopy cdA "B" ["B"] (cdA.fields.map (retyped τ))
def env : Env := Ex.mk [("A", cdA), ("B", cdB)]

theorem cls_cases {c cd} (h : env.cls c = some cd) : cd.transparent = false ∧ (cd.fields = [f] ∨ cd.fields = [retyped τ f]) := by
  simp only [Env.cls, env, Ex.mk, List.lookup_cons, List.lookup_nil] at h
  split at h
  · cases h; exact ⟨rfl, .inl rfl⟩
  · split at h
    · cases h; exact ⟨rfl, .inr rfl⟩
    · cases h

theorem own {root} {t : Ty} (ht : t = al ∨ t = .prim .int) : OwnFuncs env root (.list .list (.union [t, .none])) := by
  have key : ∀ u, OccursIn (.list .list (.union [t, .none])) u → (∀ ts, u = .union ts → (Ty.union ts).isOpt = true) ∧ ∀ vs, u ≠ .lit vs := by
    intro u h
    cases h with
    | refl => exact ⟨fun ts e => (by cases e), fun vs e => (by cases e)⟩
    | list h => cases h with
      | refl => exact ⟨fun ts e => (by cases e; rcases ht with rfl | rfl <;> rfl), fun vs e => (by cases e)⟩
      | union hm h =>
        simp only [List.mem_cons, List.not_mem_nil, or_false] at hm
        rcases hm with rfl | rfl
        · rcases ht with rfl | rfl
          · cases h with
            | refl => exact ⟨fun ts e => (by cases e), fun vs e => (by cases e)⟩
            | alias h => cases h; exact ⟨fun ts e => (by cases e), fun vs e => (by cases e)⟩
          · cases h; exact ⟨fun ts e => (by cases e), fun vs e => (by cases e)⟩
        · cases h; exact ⟨fun ts e => (by cases e), fun vs e => (by cases e)⟩
  refine ⟨fun ts h hp => ?_, fun vs h => absurd rfl ((key _ h).2 vs)⟩
  rw [(key _ h).1 ts rfl] at hp
  cases hp

theorem copy : AliasCopy env "A" "B" cdA "B" ["B"] τ := by
  have one : ∀ {P : FieldDef → Prop}, P f → ∀ g ∈ cdA.fields, P g := by
    intro P h g hg
    simp only [cdA, List.mem_cons, List.not_mem_nil, or_false] at hg
    subst hg; exact h
  exact ⟨rfl, rfl, rfl, one (.list (.opt (.alias .same) (by intro h; cases h))), one rfl, one rfl, ⟨rfl, rfl⟩, one (own (.inl rfl)), one (own (.inr rfl))⟩

theorem noSer : NoSerializers env cdA := ⟨by
  intro g hg
  simp only [cdA, List.mem_cons, List.not_mem_nil, or_false] at hg
  subst hg; rfl, rfl, rfl⟩

theorem global {c} : NoGlobal env c := ⟨by simp [env, Ex.mk], by simp [env, Ex.mk]⟩

theorem ranked : Ranked env true (fun _ _ => 0) := by
  constructor
  · intro c cd f j hc ht _
    rw [(cls_cases hc).1] at ht; cases ht
  · intro c cd f j hc _ hf hfl
    rcases (cls_cases hc).2 with e | e <;> rw [e] at hf <;> simp only [List.mem_cons, List.not_mem_nil, or_false] at hf <;> subst hf <;> cases hfl
  · intro c cd f hc _ hf hn
    rcases (cls_cases hc).2 with e | e <;> rw [e] at hf <;> simp only [List.mem_cons, List.not_mem_nil, or_false] at hf <;> subst hf <;> cases hn
  · intro c cd f hb
    cases hb

theorem plain : PlainTransparent env := by
  intro c cd f hc ht
  rw [(cls_cases hc).1] at ht; cases ht

theorem the_union {ts} (h : Annotated env (.union ts)) : ts = [al, .none] ∨ ts = [.prim .int, .none] := by
  obtain ⟨c, cd, f, hc, hf, hw⟩ := h
  rcases (cls_cases hc).2 with e | e <;> rw [e] at hf <;> simp only [List.mem_cons, List.not_mem_nil, or_false] at hf <;> subst hf
  · cases hw with
    | list h => cases h with
      | refl => exact .inl rfl
      | union hm h =>
        simp only [List.mem_cons, List.not_mem_nil, or_false] at hm
        rcases hm with rfl | rfl
        · cases h with
          | alias h => cases h
        · cases h
  · cases hw with
    | list h => cases h with
      | refl => exact .inr rfl
      | union hm h =>
        simp only [List.mem_cons, List.not_mem_nil, or_false] at hm
        rcases hm with rfl | rfl <;> cases h

theorem distinct : DistinctUnions env := by
  intro c ts h us hr hn
  rcases the_union h with rfl | rfl <;> rcases the_union (reach_annotated hr (.inl ⟨c, rfl⟩)) with rfl | rfl <;>
    first | rfl | exact absurd hn (by decide)

def good : Val := .dict .plain [(.str "a", .list [.int 1, .none])]
def bad : Val := .dict .plain [(.str "a", .list [Val.str "x"])]

end C87Copy

open C87Copy in
example : fromDict C87Copy.env {} 12 (.cls "B") good = .ok (.inst "B" [("a", .list [.int 1, .none])]) :=
  C87_copy_partial copy global global (by intro _ h; cases h) (by intro _ h; cases h) (r := .ok (.inst "A" [("a", .list [.int 1, .none])])) rfl
    (by intro h; cases h)

open C87Copy in
example : ∃ e, fromDict C87Copy.env {} 12 (.cls "B") bad = .error e ∧ fromDict C87Copy.env {} 12 (.cls "A") bad = .error e :=
  ⟨_, C87_copy_partial copy global global (by intro _ h; cases h) (by intro _ h; cases h) rfl (by intro h; cases h), rfl⟩

open C87Copy in
example : fromTuple C87Copy.env {} 12 (.cls "B") (.tuple [.list [.int 1, .none]]) = .ok (.inst "B" [("a", .list [.int 1, .none])]) :=
  C87_copy_tuple_partial copy global global (by intro _ h; cases h) (by intro _ h; cases h) (r := .ok (.inst "A" [("a", .list [.int 1, .none])])) rfl
    (by intro h; cases h)

open C87Copy in
example : toDict C87Copy.env {} 12 (.inst "B" [("a", .list [.int 1, .none])]) = .ok good ∧
    toTuple C87Copy.env {} 12 (.inst "B" [("a", .list [.int 1, .none])]) = .ok (.tuple [.list [.int 1, .none]]) :=
  ⟨(C87_copy_write_partial (r := .ok good) copy noSer (.inl rfl) global global (by intro h; cases h)).1 rfl,
    (C87_copy_write_partial (r := .ok (.tuple [.list [.int 1, .none]])) copy noSer (.inl rfl) global global (by intro h; cases h)).2 rfl⟩

open C87Copy in
example (o : DeOpts) (k : DictK) (kvs : List (Val × Val)) : ∃ N r, r ≠ .error .fuel ∧ ∀ n, N ≤ n → fromDict C87Copy.env o n (.cls "A") (.dict k kvs) = r ∧
    fromDict C87Copy.env o n (.cls "B") (.dict k kvs) = asInstOf "B" r :=
  C87_copy_ends_partial copy global global (by intro _ h; cases h) (by intro _ h; cases h) (C53_rank ranked) distinct plain distinctInside_cls

/-- **C87** is false in unions: `1` is refused for `Num | str`, and accepted for `int | str`. -/
theorem C87_false_union : (∃ e, fromDict C87Ex.env {} 12 (.cls "U") (.dict .plain [(.str "u", .int 1)]) = .error e ∧ e ≠ .fuel) ∧
    fromDict C87Ex.env {} 12 (.cls "W") (.dict .plain [(.str "u", .int 1)]) = .ok (.inst "W" [("u", .int 1)]) :=
  ⟨⟨_, rfl, by intro h; cases h⟩, rfl⟩

/-- **C87** is false for numeric dict keys: the key `"1"` is kept for `dict[Num, str]`, and made a number for `dict[int, str]`. -/
theorem C87_false_key : fromDict C87Ex.env {} 12 (.cls "K") (.dict .plain [(.str "k", .dict .plain [(.str "1", .str "x")])]) =
      .ok (.inst "K" [("k", .dict .plain [(.str "1", .str "x")])]) ∧
    fromDict C87Ex.env {} 12 (.cls "L") (.dict .plain [(.str "k", .dict .plain [(.str "1", .str "x")])]) =
      .ok (.inst "L" [("k", .dict .plain [(.int 1, .str "x")])]) := ⟨rfl, rfl⟩

/-- **C87** is false for an alias of an alias of a class passed to `from_dict`. -/
theorem C87_false_twice : (∃ e, fromDict C87Ex.env {} 12 (.alias "S" (.alias "T" (.cls "A"))) (.dict .plain dat) = .error e ∧ e ≠ .fuel) ∧
    fromDict C87Ex.env {} 12 (.alias "T" (.cls "A")) (.dict .plain dat) = .ok obj := ⟨⟨_, rfl, by intro h; cases h⟩, rfl⟩

end Verif.Props
