import Verif.Lemmas.Throw
import Verif.Props.C63
/-!
# The exceptions of nested constructors

`Throws` (Spec/Throw) says that somewhere in the data there is an object whose `__post_init__` raises `e`, all that is read before it being
valid. C48 is about the class `from_dict` is called with; here the object may be anywhere below it.
-/

namespace Verif.Props
open Verif.Spec

/-- **C77** An exception that the `__post_init__` of a nested object raises leaves `from_dict` as it is, through fields, flattened fields,
transparent classes, lists, sets, tuples, dicts and Optional; what comes after the object is not looked at. -/
theorem C77_nested_partial {env : Env} (hg : env.gde = []) (hF : FlattenAcyclic env) {c} {cd : ClassDef} (hc : env.cls c = some cd) {m : Place} {x e}
    (hx : ∀ as, x ≠ .inst c as) (hm : m.named = true) (h : Throws env m (.cls c) x e) :
    ∃ N, ∀ n ≥ N, ∀ o : DeOpts, o.reuse.getD cd.reuseDflt = m.reuse → o.numbers = m.numbers → fromDict env o n (.cls c) x = .error (.py e) :=
  fromDict_throws hg hF hc hx hm h

/-- **C77** No other outcome is possible: `from_dict` does not return, and raises nothing else. -/
theorem C77_only_partial {env : Env} (hg : env.gde = []) (hF : FlattenAcyclic env) {c} {cd : ClassDef} (hc : env.cls c = some cd) {m : Place} {x e}
    (hx : ∀ as, x ≠ .inst c as) (hm : m.named = true) (h : Throws env m (.cls c) x e) {o : DeOpts} (hre : o.reuse.getD cd.reuseDflt = m.reuse) (hnu : o.numbers = m.numbers)
    {n r} (hr : fromDict env o n (.cls c) x = r) (hn : r ≠ .error .fuel) : r = .error (.py e) := by
  obtain ⟨N, hN⟩ := fromDict_throws hg hF hc hx hm h
  exact fromDict_det hr (hN N (Nat.le_refl _) o hre hnu) hn (by simp)

/-- **C77** `from_json` raises it too. -/
theorem C77_json_partial {env : Env} (hg : env.gde = []) (hF : FlattenAcyclic env) {c} {cd : ClassDef} (hc : env.cls c = some cd) {m : Place} {x e}
    (hx : ∀ as, x ≠ .inst c as) (hm : m.named = true) (hre : m.reuse = false) (hnu : m.numbers = some (jsonNumbers env.W)) (h : Throws env m (.cls c) x e) {K : Codec} {s}
    (hs : K.dec s = .ok x) : ∃ N, ∀ n ≥ N, ∀ tg, fromJson env K n (.cls c) s true tg = .error (.py e) := by
  obtain ⟨N, hN⟩ := fromDict_throws hg hF hc hx hm h
  refine ⟨N, fun n hn tg => ?_⟩
  unfold fromJson decodeDict
  rw [hs]
  exact hN n hn _ (by rw [hre]; rfl) (by rw [hnu]; rfl)

/-- **C77** `from_tuple` raises it too, where objects are rows. -/
theorem C77_from_tuple_partial {env : Env} (hg : env.gde = []) (hF : FlattenAcyclic env) {c} {cd : ClassDef} (hc : env.cls c = some cd) {m : Place} {x e}
    (hx : ∀ as, x ≠ .inst c as) (hm : m.named = false) (h : Throws env m (.cls c) x e) :
    ∃ N, ∀ n ≥ N, ∀ o : DeOpts, o.reuse.getD cd.reuseDflt = m.reuse → o.numbers = m.numbers → fromTuple env o n (.cls c) x = .error (.py e) :=
  fromTuple_throws hg hF hc hx hm h

/-- **C77** is false where `from_dict` is called with a list of classes: the exception is always wrapped in `SerdeError`, since each item is
read by a call of its own, which has taken the exception out of its `UserError`. -/
theorem C77_false_list {env : Env} (hg : env.gde = []) (hF : FlattenAcyclic env) {c} {cd : ClassDef} (hc : env.cls c = some cd) {m : Place} {k : SeqK}
    {x pre y post vs e} (hi : Items x (pre ++ y :: post)) (hl : pre.length = vs.length) (hx : ∀ z ∈ pre ++ [y], ∀ as, z ≠ .inst c as)
    (hm : m.named = true) (hv : ∀ p ∈ pre.zip vs, Valid env m (.cls c) p.1 p.2) (h : Throws env m (.cls c) y e) :
    ∃ N, ∀ n ≥ N, ∀ o : DeOpts, o.reuse.getD cd.reuseDflt = m.reuse → o.numbers = m.numbers →
      fromDict env o n (.list k (.cls c)) x = .error (.wrap (.py e)) := by
  have he : Ev (fun n => ∀ p ∈ pre.zip vs, ∀ o : DeOpts, o.reuse.getD cd.reuseDflt = m.reuse → o.numbers = m.numbers → fromDict env o n (.cls c) p.1 = .ok p.2) :=
    Ev.list (fun p hp => fromDict_valid hg hF hc (hx p.1 (by simp [(List.of_mem_zip hp).1])) hm (hv p hp))
  refine Ev.step (he.and (fromDict_throws hg hF hc (hx y (by simp)) hm h)) ?_
  rintro n ⟨hn1, hn2⟩ o h1 h2
  unfold fromDict
  have hmap : mapR ((deAt env n).fromObj true o.reuse o.numbers .external (.cls c)) (pre ++ y :: post) = .error (.py e) := by
    refine mapR_stops (fun z hz => ?_) (hn2 { o with tagging := .external } h1 h2)
    obtain ⟨v, hzv⟩ := zip_some hl hz
    exact ⟨v, hn1 _ hzv { o with tagging := .external } h1 h2⟩
  rw [fromObj_list hg hi, hmap]
  rfl

namespace C77Ex
/-- `class Even: n: int`, whose `__post_init__` halves `n`, or raises. -/
def half : List (String × Val) → Except PErr (List (String × Val))
  | [("n", .int 4)] => .ok [("n", .int 2)]
  | _ => .error (.raised "ValueError")

def Even : ClassDef := { name := "Even", mro := ["Even"], fields := [{ name := "n", ty := .prim .int }], postInit := some half }
/-- `class Line: label: str; evens: list[Optional[Even]]; more: int`. -/
def flabel : FieldDef := { name := "label", ty := .prim .str }
def fevens : FieldDef := { name := "evens", ty := .list .list (.union [.cls "Even", .none]), rename := some "E" }
def fmore : FieldDef := { name := "more", ty := .prim .int }
def Line : ClassDef := { name := "Line", mro := ["Line"], fields := [flabel, fevens, fmore] }
/-- `class Odd: n: int`. -/
def Odd : ClassDef := { name := "Odd", mro := ["Odd"], fields := [{ name := "n", ty := .prim .int }] }
/-- `class Pick: v: Even | Odd`, untagged. -/
def Pick : ClassDef := { name := "Pick", mro := ["Pick"], tagging := .untagged, fields := [{ name := "v", ty := .union [.cls "Even", .cls "Odd"] }] }
/-- `class Box(Generic[T]): v: T` and `class Top(Generic[T]): box: Box[T]`. -/
def Box : ClassDef := { name := "Box", mro := ["Box"], tvars := some ["T"], fields := [{ name := "v", ty := .tvar "T" }] }
def Top : ClassDef := { name := "Top", mro := ["Top"], tvars := some ["T"], fields := [{ name := "box", ty := .gen "Box" [.tvar "T"] }] }
def env : Env := Ex.mk [("Even", Even), ("Line", Line), ("Odd", Odd), ("Pick", Pick), ("Box", Box), ("Top", Top)]

def even (i : Int) : Val := .dict .plain [(.str "n", .int i)]
/-- The second item cannot be built; the third makes no sense, and `more` is missing. -/
def data : List (Val × Val) := [(.str "label", .str "a"), (.str "E", .list [even 4, even 3, .str "?"])]
def place : Place := { cls := "Line", reuse := true, numbers := none, coerce := false, tagging := .external }

theorem cls_cases {c cd} (h : env.cls c = some cd) : cd = Even ∨ cd = Line ∨ cd = Odd ∨ cd = Pick ∨ cd = Box ∨ cd = Top := by
  simp only [Env.cls, env, Ex.mk, List.lookup_cons, List.lookup_nil] at h
  repeat (split at h; · cases h; simp)
  cases h

theorem acyclic : FlattenAcyclic env := by
  refine ⟨fun _ => 0, fun _ => Nat.zero_le _, fun c cd f ch hc hf hi => ?_⟩
  rcases cls_cases hc with rfl | rfl | rfl | rfl | rfl | rfl <;>
    simp only [Even, Line, Odd, Pick, Box, Top, flabel, fevens, fmore, List.mem_cons, List.not_mem_nil, or_false] at hf
  case inr.inl => rcases hf with rfl | rfl | rfl <;> cases hi
  all_goals cases hf; cases hi

theorem even_read (m : Place) (i : Int) : FieldRead env m "Even" Even [(.str "n", .int i)] { name := "n", ty := .prim .int } (.int i) :=
  .inl ⟨⟨rfl, rfl, .inl rfl⟩, .inl ⟨.int i, C63Ex.entry (by simp [getStr]; rfl), .leaf (.prim (fun h => by cases h) .int)⟩⟩

theorem opens_even (kvs) : Opens env "Even" Even kvs := ⟨rfl, rfl, rfl, fun h => by cases h⟩

theorem even_valid (m : Place) (hm : m.named = true) : Valid env m (.cls "Even") (even 4) (.inst "Even" [("n", .int 2)]) := by
  refine Valid.object (cd := Even) (val := fun _ => .int 4) (sub := fun _ => []) hm rfl ⟨rfl, by decide, rfl, by decide, by decide⟩ rfl (fun h => by cases h)
    ?_ ?_ ?_ ?_ ?_ ?_
  all_goals intro f hf; cases List.mem_singleton.1 hf
  · intro h; exact absurd ⟨rfl, rfl, rfl⟩ h
  · intro _; exact .inl ⟨rfl, rfl, .inl rfl⟩
  · intro _ _; exact .inl ⟨.int 4, C63Ex.entry rfl⟩
  · intro _ _ x he
    cases C63Ex.entry_det he (C63Ex.entry (x := .int 4) rfl)
    exact .leaf (.prim (fun h => by cases h) .int)
  · intro _ ch hi; cases hi.flat
  · intro _ ch hi; cases hi.flat

theorem even_throws (m : Place) (hm : m.named = true) : Throws env m (.cls "Even") (even 3) (.raised "ValueError") := by
  refine .post (cd := Even) (p := half) (val := fun _ => .int 3) hm (opens_even _) (by decide) (by decide) ?_ ?_ rfl rfl
  all_goals intro f hf; cases List.mem_singleton.1 hf
  · intro h; exact absurd ⟨rfl, rfl, rfl⟩ h
  · intro _; exact even_read m 3

theorem line_throws : Throws env place (.cls "Line") (.dict .plain data) (.raised "ValueError") := by
  refine .field (cd := Line) (pre := [flabel]) (f := fevens) (post := [fmore]) (x := .list [even 4, even 3, .str "?"]) (val := fun _ => .str "a")
    rfl ⟨rfl, rfl, rfl, fun h => by cases h⟩ rfl ?_ ⟨rfl, rfl, rfl⟩ ⟨rfl, rfl, .inl rfl⟩ (C63Ex.entry rfl) ?_
  · intro g hg _
    cases List.mem_singleton.1 hg
    exact .inl ⟨⟨rfl, rfl, .inl rfl⟩, .inl ⟨.str "a", C63Ex.entry rfl, .leaf (.prim (fun h => by cases h) .str)⟩⟩
  · refine .item (pre := [even 4]) (y := even 3) (post := [.str "?"]) (vs := [.inst "Even" [("n", .int 2)]]) .list .list rfl ?_ (fun _ h => by cases h) ?_
    · intro p hp
      cases List.mem_singleton.1 hp
      exact .opt (by simp) (by simp [even]) (even_valid _ rfl)
    · exact .opt (by simp) (by simp [even]) (even_throws _ rfl)

end C77Ex

namespace C77Ex
def rows : Place := { place with named := false }
def evenRow (i : Int) : Val := .list [.int i]

theorem param1 {cd : ClassDef} {f} (h : cd.fields.filter (·.init) = [f]) {i k} (hp : Param cd i k) : i = 0 ∧ k = f := by
  unfold Param at hp
  rw [h] at hp
  match i, hp with
  | 0, hp => exact ⟨rfl, (Option.some.inj hp).symm⟩

theorem even_row : RowClass Even := ⟨rfl, by decide, rfl, by intro f hf _; cases List.mem_singleton.1 hf; exact ⟨⟨rfl, rfl, rfl⟩, rfl⟩⟩

theorem evenRow_valid (m : Place) (hm : m.named = false) : Valid env m (.cls "Even") (evenRow 4) (.inst "Even" [("n", .int 2)]) := by
  refine .row (cd := Even) (val := fun _ => .int 4) hm rfl even_row (by decide) (.inl rfl) rfl ?_ ?_ ?_
  · intro f hf h; cases List.mem_singleton.1 hf; cases h
  · intro i f hp
    obtain ⟨rfl, rfl⟩ := param1 (cd := Even) rfl hp
    exact ⟨rfl, rfl, _, rfl, .inl rfl⟩
  · intro i f y hp _ hy
    obtain ⟨rfl, rfl⟩ := param1 (cd := Even) rfl hp
    cases hy
    exact .leaf (.prim (fun h => by cases h) .int)

theorem evenRow_throws (m : Place) (hm : m.named = false) : Throws env m (.cls "Even") (evenRow 3) (.raised "ValueError") := by
  refine .rowPost (cd := Even) (p := half) (val := fun _ => .int 3) hm rfl even_row (.inl rfl) ?_ ?_ rfl rfl
  · intro f hf h; cases List.mem_singleton.1 hf; cases h
  · intro i f hp
    obtain ⟨rfl, rfl⟩ := param1 (cd := Even) rfl hp
    exact ⟨rfl, rfl, _, rfl, .inl ⟨rfl, .leaf (.prim (fun h => by cases h) .int)⟩⟩

theorem lineRow_throws : Throws env rows (.cls "Line") (.list [.str "a", .list [evenRow 4, evenRow 3, .str "?"]]) (.raised "ValueError") := by
  refine .rowItem (cd := Line) (i := 1) (f := fevens) (val := fun _ => .str "a") rfl rfl
    ⟨rfl, by decide, rfl, ?_⟩ (.inl rfl) rfl ?_ rfl rfl rfl rfl ?_
  · intro f hf _
    simp only [Line, List.mem_cons, List.not_mem_nil, or_false] at hf
    rcases hf with rfl | rfl | rfl <;> exact ⟨⟨rfl, rfl, rfl⟩, rfl⟩
  · intro j g hj hp
    obtain rfl : j = 0 := by omega
    cases hp
    exact ⟨rfl, rfl, _, rfl, .inl ⟨rfl, .leaf (.prim (fun h => by cases h) .str)⟩⟩
  · refine .item (pre := [evenRow 4]) (y := evenRow 3) (post := [.str "?"]) (vs := [.inst "Even" [("n", .int 2)]]) .list .list rfl ?_ (fun _ h => by cases h) ?_
    · intro p hp
      cases List.mem_singleton.1 hp
      exact .opt (by simp) (by simp [evenRow]) (evenRow_valid _ rfl)
    · exact .opt (by simp) (by simp [evenRow]) (evenRow_throws _ rfl)

end C77Ex

open C77Ex in
/-- The error of the second item of the second item comes out, though the row is too short and the third makes no sense. -/
example : ∃ N, ∀ n ≥ N, ∀ o : DeOpts, o.reuse.getD true = true → o.numbers = none →
    fromTuple C77Ex.env o n (.cls "Line") (.list [.str "a", .list [evenRow 4, evenRow 3, .str "?"]]) = .error (.py (.raised "ValueError")) :=
  C77_from_tuple_partial rfl acyclic (cd := Line) rfl (by intro as h; cases h) rfl lineRow_throws

open C77Ex in
example : fromTuple C77Ex.env {} 10 (.cls "Line") (.list [.str "a", .list [evenRow 4, evenRow 3, .str "?"]]) = .error (.py (.raised "ValueError")) := rfl

open C77Ex in
/-- The error of the second item comes out. -/
example : ∃ N, ∀ n ≥ N, ∀ o : DeOpts, o.reuse.getD true = true → o.numbers = none →
    fromDict C77Ex.env o n (.cls "Line") (.dict .plain data) = .error (.py (.raised "ValueError")) :=
  C77_nested_partial rfl acyclic (cd := Line) rfl (by intro as h; cases h) rfl line_throws

open C77Ex in
example {n r} (h : fromDict C77Ex.env {} n (.cls "Line") (.dict .plain data) = r) (hn : r ≠ .error .fuel) : r = .error (.py (.raised "ValueError")) :=
  C77_only_partial rfl acyclic (cd := Line) rfl (by intro as h; cases h) rfl line_throws rfl rfl h hn

open C77Ex in
example : fromDict C77Ex.env {} 10 (.cls "Line") (.dict .plain data) = .error (.py (.raised "ValueError")) := rfl

open C77Ex in
example (K : Codec) (s) (hs : K.dec s = .ok (even 3)) : ∃ N, ∀ n ≥ N, ∀ tg, fromJson C77Ex.env K n (.cls "Even") s true tg = .error (.py (.raised "ValueError")) :=
  C77_json_partial (m := { place with reuse := false, numbers := some (jsonNumbers Ex.W) }) rfl acyclic (cd := Even) rfl (by intro as h; cases h) rfl rfl rfl (even_throws _ rfl) hs

open C77Ex in
/-- With `from_dict(list[Even], ...)` it is a `SerdeError`. -/
example : ∃ N, ∀ n ≥ N, ∀ o : DeOpts, o.reuse.getD true = true → o.numbers = none →
    fromDict C77Ex.env o n (.list .list (.cls "Even")) (.list [even 4, even 3, .str "?"]) = .error (.wrap (.py (.raised "ValueError"))) :=
  C77_false_list (m := place) (pre := [even 4]) (y := even 3) (post := [.str "?"]) (vs := [.inst "Even" [("n", .int 2)]]) rfl acyclic (cd := Even) rfl
    .list rfl (by simp [even]) rfl (by simpa using even_valid _ rfl) (even_throws _ rfl)

open C77Ex in
/-- **C77** is false in a union: the exception is swallowed, and the next member is taken. -/
theorem C77_false_union : ∃ (env : Env) (p : List (String × Val) → Except PErr (List (String × Val))) (cd : ClassDef) (d : Val), env.cls "Even" = some cd ∧ cd.postInit = some p ∧
    p [("n", .int 3)] = .error (.raised "ValueError") ∧ fromDict env {} 10 (.cls "Even") d = .error (.py (.raised "ValueError")) ∧
    fromDict env {} 10 (.cls "Pick") (.dict .plain [(.str "v", d)]) = .ok (.inst "Pick" [("v", .inst "Odd" [("n", .int 3)])]) :=
  ⟨C77Ex.env, half, Even, even 3, rfl, rfl, rfl, rfl, rfl⟩

open C77Ex in
/-- **C77** is false behind a type variable: what is annotated `T` is read by a call of `from_dict` of its own, and the exception is wrapped. -/
theorem C77_false_tvar : ∃ (env : Env) (d : Val), fromDict env {} 10 (.cls "Even") d = .error (.py (.raised "ValueError")) ∧
    fromDict env {} 10 (.gen "Top" [.cls "Even"]) (.dict .plain [(.str "box", .dict .plain [(.str "v", d)])]) = .error (.wrap (.py (.raised "ValueError"))) :=
  ⟨C77Ex.env, even 3, rfl, rfl⟩

end Verif.Props
