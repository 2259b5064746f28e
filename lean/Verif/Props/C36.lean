import Verif.Lemmas.Reuse
import Verif.Lemmas.FieldSe
import Verif.Lemmas.RTScalar
import Verif.Examples.Lookup
/-!
# C36: reuse_instances

Full statement: "With reuse_instances=True dates and str-convertible standard values are left as they are; with False they become strings;
nothing else in the output depends on the flag."

* `C36_nothing_else_partial`, `C36_tuple_partial`: the two outputs (or errors) agree except that some dates and str-convertible values are
  replaced by their strings. Missing: flattened dataclasses. The other side conditions of `Clean` exclude cases where the statement fails: a rule
  that leaves out a field depending on its written value (`C36_false_skip`), and dates as mapping keys, which may collide once they are strings
  (`C36_false_keys`).
* `C36_strings_partial`: with False, no date or str-convertible value is left.
* `C36_written_partial`: an attribute built from dates, str-convertible values and primitives by containers is written with those values kept
  (True) or turned into strings (False).
-/

namespace Verif.Props
open Verif Spec

/-- **C36** The output of `to_dict` depends on the flag only by strings in place of dates and str-convertible values. -/
theorem C36_nothing_else_partial {env : Env} {o : SeOpts} {n v} (hc : o.c = none ∨ ∃ c, o.c = some (.cls c)) (hv : CleanTop env o.conv v) :
    StrungR false (toDict env { o with reuse := some true } n v) (toDict env { o with reuse := some false } n v) :=
  (strung_at n).toObj true o.conv o.skipNone o.c o.tagging v (by rcases hc with h | h; exact .inl h; exact .inr (.inr h)) hv

/-- **C36** The same for `to_tuple`. -/
theorem C36_tuple_partial {env : Env} {o : SeOpts} {n v} (hc : o.c = none ∨ ∃ c, o.c = some (.cls c)) (hv : CleanTop env o.conv v) :
    StrungR false (toTuple env { o with reuse := some true } n v) (toTuple env { o with reuse := some false } n v) :=
  (strung_at n).toObj false o.conv o.skipNone o.c o.tagging v (by rcases hc with h | h; exact .inl h; exact .inr (.inr h)) hv

theorem shape_noDate : Shape NoDate where
  scalar v h := .scalar h
  list xs := ⟨fun h => by cases h with | scalar h => cases h | list h => exact h, .list⟩
  tuple xs := ⟨fun h => by cases h with | scalar h => cases h | tuple h => exact h, .tuple⟩
  dict k kvs := ⟨fun h => by cases h with | scalar h => cases h | dict h h' => exact ⟨h, h'⟩, fun h => .dict h.1 h.2⟩
  deque xs h := by cases h with | scalar h => cases h | deque h => exact h
  set b xs h := by cases h with | scalar h => cases h | set h => exact h

/-- **C36** With reuse_instances=False no date or str-convertible value is left in the output. -/
theorem C36_strings_partial {env : Env} {o : SeOpts} {n v w} (hs : SersOk env NoDate) (he : EnumsOk env NoDate) (hre : o.reuse = some false)
    (hc : o.c = none ∨ ∃ c, o.c = some (.cls c)) (hv : Free env NoDate (some false) o.conv v) (h : toDict env o n v = .ok w) : NoDate w :=
  (good_at shape_noDate he hs n).toObj _ _ _ _ _ _ _ _ (by rcases hc with hc | hc; exact .inl hc; exact .inr (.inr hc)) hv (by rw [← hre]; exact h)

theorem writtenL_of {keep : Bool} {f : Val → Res Val} : ∀ {xs ys : List Val}, (∀ x ∈ xs, ∀ y, f x = .ok y → Written keep x y) → mapR f xs = .ok ys →
    WrittenL keep xs ys := by
  intro xs
  induction xs with
  | nil => intro ys _ h; cases h; exact .nil
  | cons x xs ih =>
    intro ys hf h
    simp only [mapR] at h
    cases hx : f x with
    | error e => rw [hx] at h; cases h
    | ok y =>
      rw [hx] at h; dsimp only at h
      cases hr : mapR f xs with
      | error e => rw [hr] at h; cases h
      | ok ys' => rw [hr] at h; cases h; exact .cons (hf x (by simp) y hx) (ih (fun x hx => hf x (by simp [hx])) hr)

theorem writtenD_of {keep : Bool} {f : Val × Val → Res (Val × Val)} : ∀ {xs ys : List (Val × Val)},
    (∀ x ∈ xs, ∀ y, f x = .ok y → y.1 = x.1 ∧ Written keep x.2 y.2) → mapR f xs = .ok ys → WrittenD keep xs ys ∧ ys.map (·.1) = xs.map (·.1) := by
  intro xs
  induction xs with
  | nil => intro ys _ h; cases h; exact ⟨.nil, rfl⟩
  | cons x xs ih =>
    intro ys hf h
    simp only [mapR] at h
    cases hx : f x with
    | error e => rw [hx] at h; cases h
    | ok y =>
      rw [hx] at h; dsimp only at h
      cases hr : mapR f xs with
      | error e => rw [hr] at h; cases h
      | ok ys' =>
        rw [hr] at h; cases h
        obtain ⟨h1, h2⟩ := ih (fun x hx => hf x (by simp [hx])) hr
        obtain ⟨h3, h4⟩ := hf x (by simp) y hx
        obtain ⟨k, v⟩ := x
        obtain ⟨k', w⟩ := y
        cases h3
        exact ⟨.cons h4 h1, by simp [h2]⟩

theorem scalar_of_prim {env : Env} {p v} (h : HasTy env (.prim p) v) : Scalar v := by cases h <;> constructor

/-- Rendering such an annotation. -/
theorem render_written {env : Env} {t} (ht : Dated t) : ∀ {v}, HasTy env t v → ∀ {n} {cx : SeCx} {a : SeArg} {w}, cx.sers = [] → a.ty = t → a.ser = none →
    a.v = .ok v → (seAt env n).render cx a = .ok w → Written cx.reuse v w := by
  induction ht with
  | prim =>
    intro v hv n cx a w hs hty hser hav h
    cases n with
    | zero => cases h
    | succ n =>
      rw [seAt_render] at h
      unfold renderF pickSer at h
      rw [hser, hs, hty, hav] at h
      simp only [List.reverse_nil, List.find?_nil] at h
      rw [coerceObj_prim hv] at h
      split at h <;> (cases h; exact .scalar (scalar_of_prim hv))
  | std =>
    intro v hv n cx a w hs hty hser hav h
    cases n with
    | zero => cases h
    | succ n =>
      rw [seAt_render] at h
      unfold renderF pickSer at h
      rw [hser, hs, hty, hav] at h
      simp only [List.reverse_nil, List.find?_nil] at h
      cases hv with
      | std _ =>
        rename_i k s _
        have := @Written.std cx.reuse k s
        cases hr : cx.reuse <;> (rw [hr] at h this; cases h; exact this)
  | dt =>
    intro v hv n cx a w hs hty hser hav h
    cases n with
    | zero => cases h
    | succ n =>
      rw [seAt_render] at h
      unfold renderF pickSer at h
      rw [hser, hs, hty, hav] at h
      simp only [List.reverse_nil, List.find?_nil] at h
      cases hv with
      | dt _ =>
        rename_i k s _
        have := @Written.dt cx.reuse k s
        cases hr : cx.reuse <;> (rw [hr] at h this; cases h; exact this)
  | list _ ih =>
    intro v hv n cx a w hs hty hser hav h
    cases n with
    | zero => cases h
    | succ n =>
      rw [seAt_render] at h
      unfold renderF pickSer at h
      rw [hser, hs, hty, hav] at h
      simp only [List.reverse_nil, List.find?_nil] at h
      cases hv with
      | list hx =>
        simp only [pyIter] at h
        split at h
        · rename_i ys hys; cases h
          exact .list (writtenL_of (fun x hxm y hy => ih (hx x hxm) hs rfl rfl rfl hy) hys)
        · cases h
  | deque _ ih =>
    intro v hv n cx a w hs hty hser hav h
    cases n with
    | zero => cases h
    | succ n =>
      rw [seAt_render] at h
      unfold renderF pickSer at h
      rw [hser, hs, hty, hav] at h
      simp only [List.reverse_nil, List.find?_nil] at h
      cases hv with
      | deque hx =>
        simp only [pyIter] at h
        split at h
        · rename_i ys hys; cases h
          exact .deque (writtenL_of (fun x hxm y hy => ih (hx x hxm) hs rfl rfl rfl hy) hys)
        · cases h
  | tupleV _ ih =>
    intro v hv n cx a w hs hty hser hav h
    cases n with
    | zero => cases h
    | succ n =>
      rw [seAt_render] at h
      unfold renderF pickSer at h
      rw [hser, hs, hty, hav] at h
      simp only [List.reverse_nil, List.find?_nil] at h
      cases hv with
      | tupleV hx =>
        simp only [pyIter] at h
        split at h
        · rename_i ys hys; cases h
          exact .tuple (writtenL_of (fun x hxm y hy => ih (hx x hxm) hs rfl rfl rfl hy) hys)
        · cases h
  | opt hne hd ih =>
    intro v hv n cx a w hs hty hser hav h
    rename_i t
    have hopt : (Ty.union [t, .none]).isOpt = true := by
      cases t <;> first | rfl | exact absurd rfl hne
    cases n with
    | zero => cases h
    | succ n =>
      rw [seAt_render] at h
      unfold renderF pickSer at h
      rw [hser, hs, hty, hav] at h
      simp only [List.reverse_nil, List.find?_nil] at h
      rw [hopt, if_pos rfl] at h
      split at h
      · cases h; exact .scalar .none
      · rename_i hnn
        cases hv with
        | union hm hv =>
          simp only [List.mem_cons, List.not_mem_nil, or_false] at hm
          rcases hm with rfl | rfl
          · exact ih hv hs rfl rfl rfl h
          · cases hv; exact absurd rfl hnn
  | dict _ ih =>
    intro v hv n cx a w hs hty hser hav h
    rename_i k p vt _
    cases n with
    | zero => cases h
    | succ n =>
      rw [seAt_render] at h
      unfold renderF pickSer at h
      rw [hser, hs, hty, hav] at h
      simp only [List.reverse_nil, List.find?_nil] at h
      cases hv with
      | dict hk hx hh hd =>
        simp only [pyItems] at h
        split at h
        · rename_i es hes
          obtain ⟨h1, h2⟩ := writtenD_of (keep := cx.reuse) (fun kv hkv y hy => by
            split at hy
            · cases hy
            · rename_i k' hk'
              split at hy
              · rename_i w' hw'
                cases hy
                refine ⟨?_, ih (hx kv hkv) hs rfl rfl rfl hw'⟩
                cases n with
                | zero => cases hk'
                | succ n =>
                  rw [seAt_render] at hk'
                  unfold renderF pickSer at hk'
                  rw [hs] at hk'
                  simp only [List.reverse_nil, List.find?_nil] at hk'
                  rw [coerceObj_prim (hk kv hkv)] at hk'
                  split at hk' <;> (cases hk'; rfl)
              · cases hy) hes
          unfold mkDict at h
          split at h
          · cases h
            rw [dictOf_id (by rw [h2]; exact hd.imp (fun h => h.1))]
            exact .dict h1
          · cases h
        · cases h

/-- **C36** What `to_dict` writes for such an attribute: with True the values are kept, with False they are strings. -/
theorem C36_written_partial {env : Env} {so : SeOpts} {n c} {cd : ClassDef} {f attrs v w} (hC : PlainClass env c cd) (ho : OneEntryEach cd)
    (hf : WrittenField env cd f) (hs : env.gser = [] ∧ cd.classSer = none) (hu : NotUnion so.c) (ht : Dated f.ty) (hv : HasTy env f.ty v)
    (ha : attrs.lookup f.name = some v) (h : toDict env so n (.inst c attrs) = .ok w) :
    ∃ kvs, w = .dict .plain kvs ∧ (∀ x, (.str (f.conv cd.seCase), x) ∈ kvs → Written (so.reuse.getD cd.reuseDflt) v x) ∧
      (¬ HasRule cd f → so.skipNone = false → ∃ x, (.str (f.conv cd.seCase), x) ∈ kvs) := by
  obtain ⟨kvs, h1, h2, h3⟩ := written_run hC ho hf hu h
  refine ⟨kvs, h1, fun x hx => ?_, h3⟩
  obtain ⟨m, hm⟩ := h2 x hx
  refine render_written ht hv (cx := topSeCx env c cd true so) (by show env.gser ++ cd.classSer.toList = []; rw [hs.1, hs.2]; rfl) rfl hf.ser ?_ hm
  show getAttr (.inst c attrs) f.name = .ok v
  unfold getAttr
  dsimp only
  rw [ha]

/-! ## Examples and witnesses -/

namespace C36Ex
def fd : FieldDef := { name := "d", ty := .list .list (.dt .date) }
def cdA : ClassDef := { name := "A", mro := ["A"], fields := [fd, { name := "u", ty := .union [.std "UUID", .none] }] }
def cdB : ClassDef := { name := "B", mro := ["B"], fields := [{ name := "a", ty := .dict .dict (.prim .str) (.cls "A") }] }
def cdS : ClassDef := { name := "S", mro := ["S"], fields := [{ name := "d", ty := .dt .date, dflt := some (.dt .date "2020-01-01"), skipIfDefault := some true }] }
def cdK : ClassDef := { name := "K", mro := ["K"], fields := [{ name := "m", ty := .dict .dict (.union [.std "UUID", .prim .str]) (.prim .int) }] }
def env : Env := Ex.mk [("A", cdA), ("B", cdB), ("S", cdS), ("K", cdK)]
def a : Val := .inst "A" [("d", .list [.dt .date "2020-01-01"]), ("u", .std "UUID" "x")]
def b : Val := .inst "B" [("a", .dict .plain [(.str "k", a)])]

theorem clean_a {q} : CleanObj env q false a := by
  refine .mk (cd := cdA) rfl ?_ ?_
  · simp [cdA, fd]
  · intro f hf _ _ _ x hx b hb
    simp only [cdA, List.mem_cons, List.not_mem_nil, or_false] at hf
    rcases hf with rfl | rfl
    · cases hx
      rcases hb with rfl | ⟨hb, _⟩
      · exact .list .list (by intro x hx; simp only [List.mem_singleton] at hx; subst hx; exact .dt)
      · simp [ValueRule, fd, cdA] at hb
    · cases hx
      rcases hb with rfl | ⟨hb, _⟩
      · exact .optSome (by simp) .std
      · simp [ValueRule, cdA] at hb

theorem clean_b {q} : CleanObj env q false b := by
  refine .mk (cd := cdB) rfl ?_ ?_
  · simp [cdB]
  · intro f hf _ _ _ x hx b hb
    simp only [cdB, List.mem_cons, List.not_mem_nil, or_false] at hf
    subst hf
    cases hx
    rcases hb with rfl | ⟨hb, _⟩
    · refine .dict (fun _ _ => .leaf .prim) ?_
      intro e he
      simp only [List.mem_singleton] at he
      subst he
      exact .cls clean_a
    · simp [ValueRule, cdB] at hb

example : StrungR false (toDict env { reuse := some true } 9 b) (toDict env { reuse := some false } 9 b) :=
  C36_nothing_else_partial (o := {}) (.inl rfl) (.obj clean_b)
example : StrungR false (toTuple env { reuse := some true } 9 (.list [b])) (toTuple env { reuse := some false } 9 (.list [b])) :=
  C36_tuple_partial (o := {}) (.inl rfl) (.items .list (by intro x hx; simp only [List.mem_singleton] at hx; subst hx; exact .obj clean_b))
example : toDict env { reuse := some true } 9 b = .ok (.dict .plain [(.str "a", .dict .plain [(.str "k",
    .dict .plain [(.str "d", .list [.dt .date "2020-01-01"]), (.str "u", .std "UUID" "x")])])]) := rfl
example : toDict env { reuse := some false } 9 b = .ok (.dict .plain [(.str "a", .dict .plain [(.str "k",
    .dict .plain [(.str "d", .list [.str "2020-01-01"]), (.str "u", .str "x")])])]) := rfl

theorem plainA : PlainClass env "A" cdA := ⟨rfl, rfl, rfl, by decide, ⟨by simp [env, Ex.mk], by simp [env, Ex.mk]⟩⟩
example : ∃ kvs, toDict env { reuse := some true } 9 a = .ok (.dict .plain kvs) ∧ ∃ x, (.str "d", x) ∈ kvs ∧ Written true (.list [.dt .date "2020-01-01"]) x := by
  obtain ⟨kvs, h1, h2, h3⟩ := C36_written_partial (env := env) (so := { reuse := some true }) (n := 9) (c := "A") (cd := cdA) (f := fd)
    (attrs := [("d", .list [.dt .date "2020-01-01"]), ("u", .std "UUID" "x")]) (v := .list [.dt .date "2020-01-01"])
    (w := .dict .plain [(.str "d", .list [.dt .date "2020-01-01"]), (.str "u", .std "UUID" "x")])
    plainA ⟨by simp [cdA, fd], by decide⟩ ⟨by simp [cdA], rfl, rfl, rfl, rfl, by simp [env, Ex.mk, cdA]⟩ ⟨rfl, rfl⟩ (.inl rfl) (.list .dt)
    (.list (by intro x hx; simp only [List.mem_singleton] at hx; subst hx; exact .dt rfl)) rfl rfl
  obtain ⟨x, hx⟩ := h3 (by simp [HasRule, skipsDefault, skipsNone, fd, cdA]) rfl
  exact ⟨kvs, by rw [← h1]; rfl, x, hx, h2 x hx⟩

theorem fits_a {G : Val → Prop} {cv} : FitsObj env G (some false) cv a := by
  refine .mk (cd := cdA) rfl (fun f hf _ _ _ x hx => ?_)
  simp only [cdA, List.mem_cons, List.not_mem_nil, or_false] at hf
  rcases hf with rfl | rfl <;> cases hx <;> refine .plain ?_
  · exact .list .list (by intro x hx; simp only [List.mem_singleton] at hx; subst hx; exact .dt (fun h => (nomatch h)))
  · exact .optSome (by simp) (.std (fun h => (nomatch h)))
example : NoDate (.dict .plain [(.str "d", .list [.str "2020-01-01"]), (.str "u", .str "x")]) := by
  refine C36_strings_partial (env := env) (o := { reuse := some false }) (n := 9) (v := a) ⟨by simp [env, Ex.mk], ?_, ?_⟩ ?_ rfl (.inl rfl) (.obj fits_a) rfl
  · intro c cd s hc hs
    have : ∀ p ∈ env.classes, p.2.classSer = none := by simp [env, Ex.mk, cdA, cdB, cdS, cdK]
    have := this (c, cd) (mem_of_lookup' hc)
    rw [hs] at this; cases this
  · intro c cd f g hc hf hs
    have : ∀ p ∈ env.classes, ∀ f ∈ p.2.fields, f.serializer = none := by simp [env, Ex.mk, cdA, cdB, cdS, cdK, fd]
    have := this (c, cd) (mem_of_lookup' hc) f hf
    rw [hs] at this; cases this
  · intro e d m w he; cases he
end C36Ex

open C36Ex in
/-- **C36 is false with skip_if_default**: a date equal to the default is left out with True and written with False, because the default is compared
with the written value. -/
theorem C36_false_skip :
    toDict env { reuse := some true } 9 (.inst "S" [("d", .dt .date "2020-01-01")]) = .ok (.dict .plain []) ∧
    toDict env { reuse := some false } 9 (.inst "S" [("d", .dt .date "2020-01-01")]) = .ok (.dict .plain [(.str "d", .str "2020-01-01")]) :=
  ⟨rfl, rfl⟩

open C36Ex in
/-- **C36 is false for mapping keys**: a UUID and the string it prints as are two keys with True and one with False. -/
theorem C36_false_keys :
    toDict env { reuse := some true } 9 (.inst "K" [("m", .dict .plain [(.std "UUID" "x", .int 1), (.str "x", .int 2)])]) =
      .ok (.dict .plain [(.str "m", .dict .plain [(.std "UUID" "x", .int 1), (.str "x", .int 2)])]) ∧
    toDict env { reuse := some false } 9 (.inst "K" [("m", .dict .plain [(.std "UUID" "x", .int 1), (.str "x", .int 2)])]) =
      .ok (.dict .plain [(.str "m", .dict .plain [(.str "x", .int 2)])]) :=
  ⟨rfl, rfl⟩

end Verif.Props
