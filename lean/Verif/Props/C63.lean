import Verif.Lemmas.AcceptMain
import Verif.Props.C55
import Verif.Examples.World
/-!
# Valid data is accepted

`Valid` (Spec/Accept) says which data is valid for an annotation, and for which value it stands. The statement behind these theorems is that
`from_dict` returns that value. C54 says what has been read once `from_dict` succeeded; here it is success that is proved.
-/

namespace Verif.Props
open Verif.Spec

/-- **C63** `from_dict` accepts valid data for a class, and returns the object it stands for, whatever the options are. -/
theorem C63_from_dict_partial {env : Env} (hg : env.gde = []) (hF : FlattenAcyclic env) {c} {cd : ClassDef} (hc : env.cls c = some cd) {m : Place} {x v}
    (hx : ∀ as, x ≠ .inst c as) (hm : m.named = true) (h : Valid env m (.cls c) x v) :
    ∃ N, ∀ n ≥ N, ∀ o : DeOpts, o.reuse.getD cd.reuseDflt = m.reuse → o.numbers = m.numbers → fromDict env o n (.cls c) x = .ok v :=
  fromDict_valid hg hF hc hx hm h

/-- **C63** Nothing else is returned for valid data: no exception, and no other value, with any depth of calls that suffices. -/
theorem C63_only_partial {env : Env} (hg : env.gde = []) (hF : FlattenAcyclic env) {c} {cd : ClassDef} (hc : env.cls c = some cd) {m : Place} {x v}
    (hx : ∀ as, x ≠ .inst c as) (hm : m.named = true) (h : Valid env m (.cls c) x v) {o : DeOpts} (hre : o.reuse.getD cd.reuseDflt = m.reuse) (hnu : o.numbers = m.numbers)
    {n r} (hr : fromDict env o n (.cls c) x = r) (hn : r ≠ .error .fuel) : r = .ok v := by
  obtain ⟨N, hN⟩ := fromDict_valid hg hF hc hx hm h
  exact fromDict_det hr (hN N (Nat.le_refl _) o hre hnu) hn (by simp)

theorem fromObj_list {env : Env} (hg : env.gde = []) {n named re nu tg t} {k : SeqK} {x xs} (hi : Items x xs) :
    (deAt env (n + 1)).fromObj named re nu tg (.list k t) x = wrapUser (match mapR ((deAt env n).fromObj named re nu .external t) xs with
      | .ok ys => .ok (.list ys)
      | .error e => .error e) := by
  rw [deAt_fromObj]
  unfold fromObjF
  have : typeIs x (.list k t) = false := by cases hi <;> rfl
  dsimp only
  rw [this]
  simp only [Bool.false_eq_true, if_false]
  unfold fromObjBody
  rw [hg]
  dsimp only [List.find?]
  rw [pyIter_items hi]
  rfl

/-- **C63** `from_dict(list[C], data)` accepts a sequence of valid items. -/
theorem C63_list_partial {env : Env} (hg : env.gde = []) (hF : FlattenAcyclic env) {c} {cd : ClassDef} (hc : env.cls c = some cd) {m : Place} {k : SeqK} {x xs vs}
    (hi : Items x xs) (hl : xs.length = vs.length) (hx : ∀ y ∈ xs, ∀ as, y ≠ .inst c as) (hm : m.named = true) (h : ∀ p ∈ xs.zip vs, Valid env m (.cls c) p.1 p.2) :
    ∃ N, ∀ n ≥ N, ∀ o : DeOpts, o.reuse.getD cd.reuseDflt = m.reuse → o.numbers = m.numbers → fromDict env o n (.list k (.cls c)) x = .ok (.list vs) := by
  have he : Ev (fun n => ∀ p ∈ xs.zip vs, ∀ o : DeOpts, o.reuse.getD cd.reuseDflt = m.reuse → o.numbers = m.numbers → fromDict env o n (.cls c) p.1 = .ok p.2) :=
    Ev.list (fun p hp => fromDict_valid hg hF hc (hx p.1 (List.of_mem_zip hp).1) hm (h p hp))
  refine Ev.step he ?_
  intro n hn o h1 h2
  unfold fromDict
  have hmap : mapR ((deAt env n).fromObj true o.reuse o.numbers .external (.cls c)) xs = .ok vs :=
    mapR_zip hl (fun p hp => hn p hp { o with tagging := .external } h1 h2)
  rw [fromObj_list hg hi, hmap]
  rfl

/-- **C63** `from_dict(Optional[C], data)` accepts None and valid data. -/
theorem C63_optional_partial {env : Env} (hg : env.gde = []) (hF : FlattenAcyclic env) {c} {cd : ClassDef} (hc : env.cls c = some cd) {m : Place} {x v}
    (hx : ∀ as, x ≠ .inst c as) (hm : m.named = true) (h : Valid env m (.cls c) x v) (hn : x ≠ .none) :
    ∃ N, ∀ n ≥ N, ∀ o : DeOpts, o.reuse.getD cd.reuseDflt = m.reuse → o.numbers = m.numbers →
      fromDict env o n (.union [.cls c, .none]) x = .ok v ∧ fromDict env o n (.union [.cls c, .none]) .none = .ok .none := by
  refine Ev.step (fromDict_valid hg hF hc hx hm h) ?_
  intro n hn' o h1 h2
  have ht : ∀ y, typeIs y (.union [.cls c, .none]) = false := fun y => by cases y <;> rfl
  have ho : (Ty.union [.cls c, .none]).isOpt = true := isOpt_pair (by simp)
  have := hn' { o with tagging := .external } h1 h2
  unfold fromDict at this ⊢
  constructor
  · rw [deAt_fromObj]
    unfold fromObjF
    simp only [ht, ho, Bool.false_eq_true, if_false, if_true]
    unfold fromObjBody
    rw [hg]
    dsimp only [List.find?]
    split
    · exact absurd rfl hn
    · dsimp only at this
      rw [this]; rfl
  · rw [deAt_fromObj]
    unfold fromObjF
    simp only [ht, ho, Bool.false_eq_true, if_false, if_true]
    unfold fromObjBody
    rw [hg]
    rfl

/-- **C63** `from_json` accepts a text that decodes to valid data; numbers are made floats where floats are annotated. -/
theorem C63_json_partial {env : Env} (hg : env.gde = []) (hF : FlattenAcyclic env) {c} {cd : ClassDef} (hc : env.cls c = some cd) {m : Place} {x v}
    (hx : ∀ as, x ≠ .inst c as) (hm : m.named = true) (hre : m.reuse = false) (hnu : m.numbers = some (jsonNumbers env.W)) (h : Valid env m (.cls c) x v) {K : Codec} {s}
    (hs : K.dec s = .ok x) : ∃ N, ∀ n ≥ N, ∀ tg, fromJson env K n (.cls c) s true tg = .ok v := by
  obtain ⟨N, hN⟩ := fromDict_valid hg hF hc hx hm h
  refine ⟨N, fun n hn tg => ?_⟩
  unfold fromJson decodeDict
  rw [hs]
  exact hN n hn _ (by rw [hre]; rfl) (by rw [hnu]; rfl)

/-- **C63** `from_tuple` reads rows: objects are lists or tuples with one item per parameter of the constructor, all the way down (objects in unions are
dicts); further items are ignored. -/
theorem C63_from_tuple_partial {env : Env} (hg : env.gde = []) (hF : FlattenAcyclic env) {c} {cd : ClassDef} (hc : env.cls c = some cd) {m : Place} {x v}
    (hx : ∀ as, x ≠ .inst c as) (hm : m.named = false) (h : Valid env m (.cls c) x v) :
    ∃ N, ∀ n ≥ N, ∀ o : DeOpts, o.reuse.getD cd.reuseDflt = m.reuse → o.numbers = m.numbers → fromTuple env o n (.cls c) x = .ok v :=
  fromTuple_valid hg hF hc hx hm h

/-- **C63** `from_msgpack` accepts what it has unpacked: dicts or, with `named=False`, rows. -/
theorem C63_msgpack_partial {env : Env} (hg : env.gde = []) (hF : FlattenAcyclic env) {c} {cd : ClassDef} (hc : env.cls c = some cd) {m : Place} {x v}
    (hx : ∀ as, x ≠ .inst c as) (hre : m.reuse = false) (hnu : m.numbers = none) (h : Valid env m (.cls c) x v) {K : MpCodec} {s}
    (hs : K.unpack s = .ok (.val x)) : ∃ N, ∀ n ≥ N, fromMsgpack env K m.named n (.cls c) s = .ok v := by
  have hk : ∀ n, fromMsgpack env K m.named n (.cls c) s =
      if m.named then fromDict env { reuse := some false } n (.cls c) x else fromTuple env { reuse := some false } n (.cls c) x := by
    intro n
    unfold fromMsgpack fromMsgpackPlain
    rw [hs]
    rfl
  cases hm : m.named with
  | true =>
    obtain ⟨N, hN⟩ := fromDict_valid hg hF hc hx hm h
    refine ⟨N, fun n hn => ?_⟩
    have := hk n
    rw [hm] at this
    rw [this]
    exact hN n hn _ (by rw [hre]; rfl) (by rw [hnu])
  | false =>
    obtain ⟨N, hN⟩ := fromTuple_valid hg hF hc hx hm h
    refine ⟨N, fun n hn => ?_⟩
    have := hk n
    rw [hm] at this
    rw [this]
    exact hN n hn _ (by rw [hre]; rfl) (by rw [hnu])

namespace C63Ex

/-- `class Point: x: int; y: int = 0`, denying unknown keys. -/
def Point : ClassDef :=
  { name := "Point", mro := ["Point"], denyUnknown := true, fields := [{ name := "x", ty := .prim .int }, { name := "y", ty := .prim .int, dflt := some (.int 0) }] }

/-- `class Meta: author: str; note: Optional[str]`. -/
def Meta : ClassDef :=
  { name := "Meta", mro := ["Meta"], fields := [{ name := "author", ty := .prim .str }, { name := "note", ty := .union [.prim .str, .none] }] }

def ftitle : FieldDef := { name := "title", ty := .prim .str, alias := ["name"] }
def fpts : FieldDef := { name := "pts", ty := .list .list (.cls "Point"), rename := some "points" }
def fkind : FieldDef := { name := "kind", ty := .lit [.str "a", .str "b"] }
def fvalue : FieldDef := { name := "value", ty := .union [.prim .int, .prim .str] }
def fmeta : FieldDef := { name := "meta", ty := .cls "Meta", flatten := true }
def fseen : FieldDef := { name := "seen", ty := .prim .bool, dflt := some (.bool false), skip := true }

/-- A strict class with an aliased field, a list of objects, a literal, a union, a flattened dataclass and a skipped field. -/
def Doc : ClassDef := { name := "Doc", mro := ["Doc"], fields := [ftitle, fpts, fkind, fvalue, fmeta, fseen] }

def env : Env := { W := Ex.W, P := Ex.P, classes := [("Point", Point), ("Meta", Meta), ("Doc", Doc)], enums := [] }

def data : List (Val × Val) :=
  [(.str "name", .str "t"), (.str "points", .list [.dict .plain [(.str "x", .int 1)], .dict .plain [(.str "y", .int 5), (.str "x", .int 2)]]),
   (.str "kind", .str "b"), (.str "value", .str "s"), (.str "author", .str "me"), (.str "extra", .none)]

def obj : Val :=
  .inst "Doc" [("title", .str "t"), ("pts", .list [.inst "Point" [("x", .int 1), ("y", .int 0)], .inst "Point" [("x", .int 2), ("y", .int 5)]]),
    ("kind", .str "b"), ("value", .str "s"), ("meta", .inst "Meta" [("author", .str "me"), ("note", .none)]), ("seen", .bool false)]

def place : Place := { cls := "Doc", reuse := true, numbers := none, coerce := false, tagging := .external }

theorem cls_cases {c cd} (h : env.cls c = some cd) : (c = "Point" ∧ cd = Point) ∨ (c = "Meta" ∧ cd = Meta) ∨ (c = "Doc" ∧ cd = Doc) := by
  simp only [Env.cls, env, List.lookup_cons, List.lookup_nil] at h
  split at h
  · rename_i h1; cases h; exact .inl ⟨by simpa using h1, rfl⟩
  · split at h
    · rename_i h1; cases h; exact .inr (.inl ⟨by simpa using h1, rfl⟩)
    · split at h
      · rename_i h1; cases h; exact .inr (.inr ⟨by simpa using h1, rfl⟩)
      · cases h

theorem acyclic : FlattenAcyclic env := by
  refine ⟨fun c => if c = "Doc" then 1 else 0, fun c => ?_, fun c cd f ch hc hf hi => ?_⟩
  · dsimp only; split
    · show 1 ≤ 3; omega
    · exact Nat.zero_le _
  · rcases cls_cases hc with ⟨rfl, rfl⟩ | ⟨rfl, rfl⟩ | ⟨rfl, rfl⟩
    · simp only [Point, List.mem_cons, List.not_mem_nil, or_false] at hf
      rcases hf with rfl | rfl <;> cases hi
    · simp only [Meta, List.mem_cons, List.not_mem_nil, or_false] at hf
      rcases hf with rfl | rfl <;> cases hi
    · simp only [Doc, List.mem_cons, List.not_mem_nil, or_false] at hf
      rcases hf with rfl | rfl | rfl | rfl | rfl | rfl <;> cases hi
      decide

/-- The unions and literals of the class. -/
theorem reach {al u} (h : Reach env al (.cls "Doc") u) : (∀ ts, u = .union ts → ts = [.prim .int, .prim .str] ∨ ts = [.prim .str, .none]) ∧
    ∀ vs, u = .lit vs → vs = [.str "a", .str "b"] := by
  have point : ∀ {u}, Reach env al (.cls "Point") u → u = .cls "Point" ∨ u = .prim .int := by
    intro u h
    cases h with
    | refl => exact .inl rfl
    | step hp hr =>
      cases hp with
      | field hc hf hs =>
        cases hc
        simp only [Point, List.mem_cons, List.not_mem_nil, or_false] at hf
        rcases hf with rfl | rfl
        all_goals
          cases hr with
          | refl => exact .inr rfl
          | step hp _ => cases hp
  have meta' : ∀ {u}, Reach env al (.cls "Meta") u → u = .cls "Meta" ∨ u = .prim .str ∨ u = .none ∨ u = .union [.prim .str, .none] := by
    intro u h
    cases h with
    | refl => exact .inl rfl
    | step hp hr =>
      cases hp with
      | field hc hf hs =>
        cases hc
        simp only [Meta, List.mem_cons, List.not_mem_nil, or_false] at hf
        rcases hf with rfl | rfl
        · cases hr with
          | refl => exact .inr (.inl rfl)
          | step hp _ => cases hp
        · cases hr with
          | refl => exact .inr (.inr (.inr rfl))
          | step hp hr =>
            cases hp with
            | union hm =>
              simp only [List.mem_cons, List.not_mem_nil, or_false] at hm
              rcases hm with rfl | rfl
              · cases hr with
                | refl => exact .inr (.inl rfl)
                | step hp _ => cases hp
              · cases hr with
                | refl => exact .inr (.inr (.inl rfl))
                | step hp _ => cases hp
  cases h with
  | refl => exact ⟨fun _ h => (by cases h), fun _ h => (by cases h)⟩
  | step hp hr =>
    cases hp with
    | field hc hf hs =>
      cases hc
      simp only [Doc, List.mem_cons, List.not_mem_nil, or_false] at hf
      rcases hf with rfl | rfl | rfl | rfl | rfl | rfl
      · cases hr with
        | refl => exact ⟨fun _ h => (by cases h), fun _ h => (by cases h)⟩
        | step hp _ => cases hp
      · cases hr with
        | refl => exact ⟨fun _ h => (by cases h), fun _ h => (by cases h)⟩
        | step hp hr =>
          cases hp with
          | list => rcases point hr with rfl | rfl <;> exact ⟨fun _ h => (by cases h), fun _ h => (by cases h)⟩
      · cases hr with
        | refl => exact ⟨fun _ h => (by cases h), fun _ h => (by cases h; rfl)⟩
        | step hp _ => cases hp
      · cases hr with
        | refl => exact ⟨fun _ h => (by cases h; exact .inl rfl), fun _ h => (by cases h)⟩
        | step hp hr =>
          cases hp with
          | union hm =>
            simp only [List.mem_cons, List.not_mem_nil, or_false] at hm
            rcases hm with rfl | rfl
            all_goals
              cases hr with
              | refl => exact ⟨fun _ h => (by cases h), fun _ h => (by cases h)⟩
              | step hp _ => cases hp
      · rcases meta' hr with rfl | rfl | rfl | rfl
        · exact ⟨fun _ h => (by cases h), fun _ h => (by cases h)⟩
        · exact ⟨fun _ h => (by cases h), fun _ h => (by cases h)⟩
        · exact ⟨fun _ h => (by cases h), fun _ h => (by cases h)⟩
        · exact ⟨fun _ h => (by cases h; exact .inr rfl), fun _ h => (by cases h)⟩
      · cases hs

theorem hasLit : HasLit env "Doc" [.str "a", .str "b"] :=
  ⟨.step (.field (f := fkind) rfl (by simp [Doc]) rfl) .refl, fun us h _ => (reach h).2 us rfl⟩

theorem hasUnion : HasUnion env "Doc" [.prim .int, .prim .str] := by
  refine ⟨.step (.field (f := fvalue) rfl (by simp [Doc]) rfl) .refl, fun us h hn => ?_⟩
  rcases (reach h).1 us rfl with rfl | rfl
  · rfl
  · exact absurd hn (by decide)

theorem entry {cd : ClassDef} {f : FieldDef} {kvs x} (h : getStr (f.conv cd.deCase) kvs = some x) : Entry cd f kvs x :=
  ⟨[], _, _, rfl, by simp, h⟩

theorem entry_det {cd : ClassDef} {f : FieldDef} {kvs x y} (h : Entry cd f kvs x) (h' : Entry cd f kvs y) : x = y := by
  have := (entry_first h).symm.trans (entry_first h')
  exact Option.some.inj this

theorem own {cd : ClassDef} {f : FieldDef} (h1 : f.flatten = false) (h2 : f.deserializer = none) (h3 : f.alias = []) : OwnEntry cd f := ⟨h1, h2, .inl h3⟩

/-- A point, with or without `y`. -/
theorem point (m : Place) (hm : m.named = true) (kvs : List (Val × Val)) (i j : Int) (hx : getStr "x" kvs = some (.int i)) (hk : ∀ kv ∈ kvs, kv.1 = .str "x" ∨ kv.1 = .str "y")
    (hy : getStr "y" kvs = some (.int j) ∨ getStr "y" kvs = none ∧ j = 0) :
    Valid env m (.cls "Point") (.dict .plain kvs) (.inst "Point" [("x", .int i), ("y", .int j)]) := by
  refine Valid.object (cd := Point) (val := fun f => if f.name = "x" then .int i else .int j) (sub := fun _ => []) hm rfl ⟨rfl, by decide, rfl, by decide, by decide⟩ rfl
    ?_ ?_ ?_ ?_ ?_ ?_ ?_
  · refine fun _ => .inr (fun kv hkv => ?_)
    rcases hk kv hkv with h | h
    · exact ⟨"x", .own (cd := Point) (f := { name := "x", ty := .prim .int }) rfl rfl (by simp [Point]) rfl rfl (.inl rfl), h⟩
    · exact ⟨"y", .own (cd := Point) (f := { name := "y", ty := .prim .int, dflt := some (.int 0) }) rfl rfl (by simp [Point]) rfl rfl (.inl rfl), h⟩
  · intro f hf hr
    simp only [Point, List.mem_cons, List.not_mem_nil, or_false] at hf
    rcases hf with rfl | rfl <;> exact absurd ⟨rfl, rfl, rfl⟩ hr
  · intro f hf _
    simp only [Point, List.mem_cons, List.not_mem_nil, or_false] at hf
    rcases hf with rfl | rfl <;> exact .inl (own rfl rfl rfl)
  · intro f hf _ _
    simp only [Point, List.mem_cons, List.not_mem_nil, or_false] at hf
    rcases hf with rfl | rfl
    · exact .inl ⟨_, entry hx⟩
    · rcases hy with hy | ⟨hy, rfl⟩
      · exact .inl ⟨_, entry hy⟩
      · refine .inr ⟨fun k hk => ?_, .dflt rfl (fun _ => rfl)⟩
        cases List.mem_singleton.1 hk; exact hy
  · intro f hf _ _ x he
    simp only [Point, List.mem_cons, List.not_mem_nil, or_false] at hf
    rcases hf with rfl | rfl
    · cases entry_det he (entry hx)
      exact .leaf (.prim (fun h => by cases h) .int)
    · rcases hy with hy | ⟨hy, rfl⟩
      · cases entry_det he (entry hy)
        exact .leaf (.prim (fun h => by cases h) .int)
      · have := entry_first he
        rw [noEntry_first (fun k hk => by cases List.mem_singleton.1 hk; exact hy)] at this
        cases this
  all_goals
    intro f hf _ ch hi
    simp only [Point, List.mem_cons, List.not_mem_nil, or_false] at hf
    rcases hf with rfl | rfl <;> exact absurd hi.flat (by simp)

theorem meta' (m : Place) (hm : m.named = true) : Valid env m (.cls "Meta") (.dict .plain data) (.inst "Meta" [("author", .str "me"), ("note", .none)]) := by
  refine Valid.object (cd := Meta) (val := fun f => if f.name = "author" then .str "me" else .none) (sub := fun _ => []) hm rfl ⟨rfl, by decide, rfl, by decide, by decide⟩ rfl
    (fun h => by cases h) ?_ ?_ ?_ ?_ ?_ ?_
  · intro f hf hr
    simp only [Meta, List.mem_cons, List.not_mem_nil, or_false] at hf
    rcases hf with rfl | rfl <;> exact absurd ⟨rfl, rfl, rfl⟩ hr
  · intro f hf _
    simp only [Meta, List.mem_cons, List.not_mem_nil, or_false] at hf
    rcases hf with rfl | rfl <;> exact .inl (own rfl rfl rfl)
  · intro f hf _ _
    simp only [Meta, List.mem_cons, List.not_mem_nil, or_false] at hf
    rcases hf with rfl | rfl
    · exact .inl ⟨.str "me", entry rfl⟩
    · refine .inr ⟨fun k hk => ?_, .opt rfl rfl rfl (by simp)⟩
      cases List.mem_singleton.1 hk; rfl
  · intro f hf _ _ x he
    simp only [Meta, List.mem_cons, List.not_mem_nil, or_false] at hf
    rcases hf with rfl | rfl
    · cases entry_det he (entry (x := .str "me") rfl)
      exact .leaf (.prim (fun h => by cases h) .str)
    · have := entry_first he
      cases this
  all_goals
    intro f hf _ ch hi
    simp only [Meta, List.mem_cons, List.not_mem_nil, or_false] at hf
    rcases hf with rfl | rfl <;> exact absurd hi.flat (by simp)

/-- What the fields of `Doc` stand for. -/
def val (f : FieldDef) : Val :=
  if f.name = "title" then .str "t" else
  if f.name = "pts" then .list [.inst "Point" [("x", .int 1), ("y", .int 0)], .inst "Point" [("x", .int 2), ("y", .int 5)]] else
  if f.name = "kind" then .str "b" else if f.name = "value" then .str "s" else
  if f.name = "meta" then .inst "Meta" [("author", .str "me"), ("note", .none)] else .bool false

theorem doc : Valid env place (.cls "Doc") (.dict .plain data) obj := by
  refine Valid.object (cd := Doc) (val := val) (sub := fun _ => data) rfl rfl ⟨rfl, by decide, rfl, by decide, by decide⟩ rfl (fun h => by cases h) ?_ ?_ ?_ ?_ ?_ ?_
  · intro f hf hr
    simp only [Doc, List.mem_cons, List.not_mem_nil, or_false] at hf
    rcases hf with rfl | rfl | rfl | rfl | rfl | rfl
    case inr.inr.inr.inr.inr => rfl
    all_goals exact absurd ⟨rfl, rfl, rfl⟩ hr
  · intro f hf hr
    simp only [Doc, List.mem_cons, List.not_mem_nil, or_false] at hf
    rcases hf with rfl | rfl | rfl | rfl | rfl | rfl
    · exact .inl ⟨rfl, rfl, .inr ⟨trivial, rfl⟩⟩
    · exact .inl (own rfl rfl rfl)
    · exact .inl (own rfl rfl rfl)
    · exact .inl (own rfl rfl rfl)
    · exact .inr (.inl ⟨"Meta", rfl, rfl, rfl, rfl⟩)
    · cases hr.2.1
  · intro f hf hr ho
    simp only [Doc, List.mem_cons, List.not_mem_nil, or_false] at hf
    rcases hf with rfl | rfl | rfl | rfl | rfl | rfl
    · exact .inl ⟨.str "t", ["title"], "name", [], rfl, by simp [data, getStr], rfl⟩
    · exact .inl ⟨_, entry rfl⟩
    · exact .inl ⟨_, entry rfl⟩
    · exact .inl ⟨_, entry rfl⟩
    · cases ho.flat
    · cases hr.2.1
  · intro f hf hr ho x he
    simp only [Doc, List.mem_cons, List.not_mem_nil, or_false] at hf
    rcases hf with rfl | rfl | rfl | rfl | rfl | rfl
    · cases entry_first he
      exact .leaf (.prim (fun h => by cases h) .str)
    · cases entry_first he
      refine .list .list rfl (fun p hp => ?_)
      simp only [List.zip_cons_cons, List.zip_nil_right, List.mem_cons, List.not_mem_nil, or_false] at hp
      rcases hp with rfl | rfl
      · exact point _ rfl _ 1 0 rfl (by simp) (.inr ⟨rfl, rfl⟩)
      · exact point _ rfl _ 2 5 rfl (by simp) (.inl rfl)
    · cases entry_first he
      exact .leaf (.lit hasLit .str (by simp))
    · cases entry_first he
      refine .union (pre := [.prim .int]) (t := .prim .str) (post := []) (p := .str "s") rfl hasUnion rfl ?_ (.plain (by simp)) (.prim .str)
        (.leaf (.prim (fun h => by cases h) .str)) ⟨.prim .str, rfl, rfl⟩
      intro u hu
      cases List.mem_singleton.1 hu
      exact .prim (fun h => by cases h)
    · cases ho.flat
    · cases hr.2.1
  · intro f hf hr ch hi
    simp only [Doc, List.mem_cons, List.not_mem_nil, or_false] at hf
    rcases hf with rfl | rfl | rfl | rfl | rfl | rfl
    case inr.inr.inr.inr.inl =>
      cases hi.ty
      exact ⟨⟨fun _ _ => rfl, fun _ h _ => h⟩, fun chd h => by cases h; exact ⟨rfl, by decide⟩⟩
    case inr.inr.inr.inr.inr => cases hr.2.1
    all_goals cases hi.flat
  · intro f hf hr ch hi
    simp only [Doc, List.mem_cons, List.not_mem_nil, or_false] at hf
    rcases hf with rfl | rfl | rfl | rfl | rfl | rfl
    case inr.inr.inr.inr.inl =>
      cases hi.ty
      exact meta' _ rfl
    case inr.inr.inr.inr.inr => cases hr.2.1
    all_goals cases hi.flat

/-- `class Open: id: int; size: int = field(deserializer=double); rest: dict[str, Any] = field(flatten=True)`, denying unknown keys. -/
def fid : FieldDef := { name := "id", ty := .prim .int }
def double : Val → Except PErr Val
  | .int i => .ok (.int (i + i))
  | _ => .error .type
def fsize : FieldDef := { name := "size", ty := .prim .int, deserializer := some (.fn double) }
def frest : FieldDef := { name := "rest", ty := .dict .dict (.prim .str) .any, flatten := true }
def Open : ClassDef := { name := "Open", mro := ["Open"], denyUnknown := true, fields := [fid, fsize, frest] }

def openEnv : Env := { W := Ex.W, P := Ex.P, classes := [("Open", Open)], enums := [] }

theorem open_cls {c cd} (h : openEnv.cls c = some cd) : c = "Open" ∧ cd = Open := by
  simp only [Env.cls, openEnv, List.lookup_cons, List.lookup_nil] at h
  split at h
  · rename_i h1; cases h; exact ⟨by simpa using h1, rfl⟩
  · cases h

theorem open_acyclic : FlattenAcyclic openEnv := by
  refine ⟨fun _ => 0, fun _ => Nat.zero_le _, fun c cd f ch hc hf hi => ?_⟩
  obtain ⟨rfl, rfl⟩ := open_cls hc
  simp only [Open, List.mem_cons, List.not_mem_nil, or_false] at hf
  rcases hf with rfl | rfl | rfl <;> cases hi

theorem open_known {k} (h : Recognised openEnv "Open" k) : k = "id" ∨ k = "size" := by
  cases h with
  | own hc _ hf hr _ hk =>
    obtain ⟨-, rfl⟩ := open_cls hc
    simp only [Open, List.mem_cons, List.not_mem_nil, or_false] at hf
    rcases hf with rfl | rfl | rfl
    · rcases hk with rfl | hk
      · exact .inl rfl
      · cases hk
    · rcases hk with rfl | hk
      · exact .inr rfl
      · cases hk
    · cases hr
  | transparent hc ht =>
    obtain ⟨-, rfl⟩ := open_cls hc
    cases ht
  | child hc _ hf _ hi _ =>
    obtain ⟨-, rfl⟩ := open_cls hc
    simp only [Open, List.mem_cons, List.not_mem_nil, or_false] at hf
    rcases hf with rfl | rfl | rfl <;> cases hi

def openData : List (Val × Val) := [(.str "a", .none), (.str "id", .int 1), (.str "size", .int 21), (.str "b", .list [])]

def openVal (f : FieldDef) : Val :=
  if f.name = "id" then .int 1 else if f.name = "size" then .int 42 else .dict .plain [(.str "a", .none), (.str "b", .list [])]

theorem opened : Valid openEnv { place with cls := "Open" } (.cls "Open") (.dict .plain openData)
    (.inst "Open" [("id", .int 1), ("size", .int 42), ("rest", .dict .plain [(.str "a", .none), (.str "b", .list [])])]) := by
  refine Valid.object (cd := Open) (val := openVal) (sub := fun _ => []) rfl rfl ⟨rfl, by decide, rfl, by decide, by decide⟩ rfl
    (fun _ => .inl ⟨frest, by simp [Open], ⟨rfl, rfl, rfl⟩, rfl⟩) ?_ ?_ ?_ ?_ ?_ ?_
  · intro f hf hr
    simp only [Open, List.mem_cons, List.not_mem_nil, or_false] at hf
    rcases hf with rfl | rfl | rfl <;> exact absurd ⟨rfl, rfl, rfl⟩ hr
  · intro f hf _
    simp only [Open, List.mem_cons, List.not_mem_nil, or_false] at hf
    rcases hf with rfl | rfl | rfl
    · exact .inl (own rfl rfl rfl)
    · exact .inr (.inr (.own (h := double) (x := .int 21) rfl rfl rfl rfl rfl (fun _ => rfl)))
    · refine .inr (.inr (.rest rfl ?_ (fun _ => rfl)))
      have ha : ¬ ∃ k, Recognised openEnv "Open" k ∧ Val.str "a" = .str k := by
        rintro ⟨k, hk, he⟩; cases he; rcases open_known hk with h | h <;> simp at h
      have hb : ¬ ∃ k, Recognised openEnv "Open" k ∧ Val.str "b" = .str k := by
        rintro ⟨k, hk, he⟩; cases he; rcases open_known hk with h | h <;> simp at h
      exact .other ha (.known ⟨"id", .own (cd := Open) (f := fid) rfl rfl (by simp [Open]) rfl rfl (.inl rfl), rfl⟩
        (.known ⟨"size", .own (cd := Open) (f := fsize) rfl rfl (by simp [Open]) rfl rfl (.inl rfl), rfl⟩ (.other hb .nil)))
  · intro f hf _ ho
    simp only [Open, List.mem_cons, List.not_mem_nil, or_false] at hf
    rcases hf with rfl | rfl | rfl
    · exact .inl ⟨.int 1, entry rfl⟩
    · cases ho.noCustom
    · cases ho.flat
  · intro f hf _ ho x he
    simp only [Open, List.mem_cons, List.not_mem_nil, or_false] at hf
    rcases hf with rfl | rfl | rfl
    · cases entry_first he
      exact .leaf (.prim (fun h => by cases h) .int)
    · cases ho.noCustom
    · cases ho.flat
  all_goals
    intro f hf _ ch hi
    simp only [Open, List.mem_cons, List.not_mem_nil, or_false] at hf
    rcases hf with rfl | rfl | rfl
    · cases hi.flat
    · cases hi.flat
    · cases hi.ty

/-- `class Rate: r: float`, read from JSON. -/
def frate : FieldDef := { name := "r", ty := .prim .float }
def Rate : ClassDef := { name := "Rate", mro := ["Rate"], fields := [frate] }
def rateEnv : Env := { W := Ex.W, P := Ex.P, classes := [("Rate", Rate)], enums := [] }

theorem rate_acyclic : FlattenAcyclic rateEnv := by
  refine ⟨fun _ => 0, fun _ => Nat.zero_le _, fun c cd f ch hc hf hi => ?_⟩
  simp only [Env.cls, rateEnv, List.lookup_cons, List.lookup_nil] at hc
  split at hc
  · cases hc
    simp only [Rate, List.mem_cons, List.not_mem_nil, or_false] at hf
    subst hf; cases hi
  · cases hc

def jsonPlace : Place := { cls := "Rate", reuse := false, numbers := some (jsonNumbers Ex.W), coerce := false, tagging := .external }

theorem rated : Valid rateEnv jsonPlace (.cls "Rate") (.dict .plain [(.str "r", .int 3)]) (.inst "Rate" [("r", .float (.fin 3))]) := by
  refine Valid.object (cd := Rate) (val := fun _ => .float (.fin 3)) (sub := fun _ => []) rfl rfl ⟨rfl, by decide, rfl, by decide, by decide⟩ rfl
    (fun h => by cases h) ?_ ?_ ?_ ?_ ?_ ?_
  all_goals
    intro f hf hr
    simp only [Rate, List.mem_cons, List.not_mem_nil, or_false] at hf
    subst hf
  · exact absurd ⟨rfl, rfl, rfl⟩ hr
  · exact .inl (own rfl rfl rfl)
  · exact fun _ => .inl ⟨_, entry rfl⟩
  · intro _ x he
    cases entry_first he
    exact .leaf (.number rfl rfl)
  · intro ch hi; cases hi.flat
  · intro ch hi; cases hi.flat

end C63Ex

/-- An integer in JSON text for a float. -/
example : ∃ N, ∀ n ≥ N, ∀ tg, fromJson C63Ex.rateEnv ⟨fun _ => .error .type, fun _ => .ok (.dict .plain [(.str "r", .int 3)])⟩ n (.cls "Rate") "{}" true tg =
    .ok (.inst "Rate" [("r", .float (.fin 3))]) :=
  C63_json_partial rfl C63Ex.rate_acyclic (cd := C63Ex.Rate) rfl (by intro as h; cases h) rfl rfl rfl C63Ex.rated rfl

/-- The rest goes to the flattened dict, and a field with a function of its own gets what that returns. -/
example : ∃ N, ∀ n ≥ N, ∀ o : DeOpts, o.reuse.getD true = true → o.numbers = none → fromDict C63Ex.openEnv o n (.cls "Open") (.dict .plain C63Ex.openData) =
    .ok (.inst "Open" [("id", .int 1), ("size", .int 42), ("rest", .dict .plain [(.str "a", .none), (.str "b", .list [])])]) :=
  C63_from_dict_partial rfl C63Ex.open_acyclic (cd := C63Ex.Open) rfl (by intro as h; cases h) rfl C63Ex.opened

/-- A document is read with all its parts. -/
example : ∃ N, ∀ n ≥ N, ∀ o : DeOpts, o.reuse.getD true = true → o.numbers = none → fromDict C63Ex.env o n (.cls "Doc") (.dict .plain C63Ex.data) = .ok C63Ex.obj :=
  C63_from_dict_partial rfl C63Ex.acyclic (cd := C63Ex.Doc) rfl (by intro as h; cases h) rfl C63Ex.doc

example {n r} (h : fromDict C63Ex.env {} n (.cls "Doc") (.dict .plain C63Ex.data) = r) (hn : r ≠ .error .fuel) : r = .ok C63Ex.obj :=
  C63_only_partial rfl C63Ex.acyclic (cd := C63Ex.Doc) rfl (by intro as h; cases h) rfl C63Ex.doc rfl rfl h hn

example : ∃ N, ∀ n ≥ N, ∀ o : DeOpts, o.reuse.getD true = true → o.numbers = none →
    fromDict C63Ex.env o n (.list .list (.cls "Doc")) (.tuple [.dict .plain C63Ex.data]) = .ok (.list [C63Ex.obj]) :=
  C63_list_partial (m := C63Ex.place) (xs := [.dict .plain C63Ex.data]) rfl C63Ex.acyclic (cd := C63Ex.Doc) rfl .tuple rfl (by simp) rfl (by simpa using C63Ex.doc)

example : ∃ N, ∀ n ≥ N, ∀ o : DeOpts, o.reuse.getD true = true → o.numbers = none →
    fromDict C63Ex.env o n (.union [.cls "Doc", .none]) (.dict .plain C63Ex.data) = .ok C63Ex.obj ∧ fromDict C63Ex.env o n (.union [.cls "Doc", .none]) .none = .ok .none :=
  C63_optional_partial rfl C63Ex.acyclic (cd := C63Ex.Doc) rfl (by intro as h; cases h) rfl C63Ex.doc (by simp)

namespace C63Ex

/-- `class Pair: a: int; b: int`, a class `W(transparent)` around it, and `class Row: pairs: list[W]; size: int (doubled); v: int | str; seen: bool (not a parameter)`. -/
def Pair : ClassDef := { name := "Pair", mro := ["Pair"], fields := [{ name := "a", ty := .prim .int }, { name := "b", ty := .prim .int, dflt := some (.int 0) }] }
def fw : FieldDef := { name := "w", ty := .cls "Pair" }
def Wrap : ClassDef := { name := "W", mro := ["W"], transparent := true, fields := [fw] }
def fpairs : FieldDef := { name := "pairs", ty := .list .list (.cls "W") }
def fseen' : FieldDef := { name := "seen", ty := .prim .bool, dflt := some (.bool false), init := false }
def Row : ClassDef := { name := "Row", mro := ["Row"], fields := [fseen', fpairs, fsize, fvalue] }

def rowEnv : Env := { W := Ex.W, P := Ex.P, classes := [("Pair", Pair), ("W", Wrap), ("Row", Row)], enums := [] }

def rowPlace : Place := { cls := "Row", reuse := true, numbers := none, coerce := false, tagging := .external, named := false }

/-- The last item belongs to no parameter. -/
def rowData : Val := .tuple [.list [.list [.int 1, .int 2], .tuple [.int 3, .int 4]], .int 21, .str "s", .none]

def rowVal (f : FieldDef) : Val :=
  if f.name = "pairs" then .list [.inst "W" [("w", .inst "Pair" [("a", .int 1), ("b", .int 2)])], .inst "W" [("w", .inst "Pair" [("a", .int 3), ("b", .int 4)])]]
  else if f.name = "size" then .int 42 else if f.name = "seen" then .bool false else .str "s"

theorem row_cls {c cd} (h : rowEnv.cls c = some cd) : cd = Pair ∨ cd = Wrap ∨ cd = Row := by
  simp only [Env.cls, rowEnv, List.lookup_cons, List.lookup_nil] at h
  repeat (split at h; · cases h; simp)
  cases h

theorem row_acyclic : FlattenAcyclic rowEnv := by
  refine ⟨fun _ => 0, fun _ => Nat.zero_le _, fun c cd f ch hc hf hi => ?_⟩
  rcases row_cls hc with rfl | rfl | rfl <;> simp only [Pair, Wrap, Row, List.mem_cons, List.not_mem_nil, or_false] at hf
  · rcases hf with rfl | rfl <;> cases hi
  · cases hf; cases hi
  · rcases hf with rfl | rfl | rfl | rfl <;> cases hi

theorem param2 {cd : ClassDef} {f g} (h : cd.fields.filter (·.init) = [f, g]) {i k} (hp : Param cd i k) : (i = 0 ∧ k = f) ∨ (i = 1 ∧ k = g) := by
  unfold Param at hp
  rw [h] at hp
  match i, hp with
  | 0, hp => exact .inl ⟨rfl, (Option.some.inj hp).symm⟩
  | 1, hp => exact .inr ⟨rfl, (Option.some.inj hp).symm⟩

theorem param3 {cd : ClassDef} {f g k} (h : cd.fields.filter (·.init) = [f, g, k]) {i l} (hp : Param cd i l) : (i = 0 ∧ l = f) ∨ (i = 1 ∧ l = g) ∨ (i = 2 ∧ l = k) := by
  unfold Param at hp
  rw [h] at hp
  match i, hp with
  | 0, hp => exact .inl ⟨rfl, (Option.some.inj hp).symm⟩
  | 1, hp => exact .inr (.inl ⟨rfl, (Option.some.inj hp).symm⟩)
  | 2, hp => exact .inr (.inr ⟨rfl, (Option.some.inj hp).symm⟩)

theorem pair (m : Place) (hm : m.named = false) {x} (i j : Int) (hx : x = .list [.int i, .int j] ∨ x = .tuple [.int i, .int j]) :
    Valid rowEnv m (.cls "Pair") x (.inst "Pair" [("a", .int i), ("b", .int j)]) := by
  refine Valid.row (cd := Pair) (val := fun f => if f.name = "a" then .int i else .int j) hm rfl
    ⟨rfl, by decide, rfl, ?_⟩ (by decide) hx rfl ?_ ?_ ?_
  · intro f hf _
    simp only [Pair, List.mem_cons, List.not_mem_nil, or_false] at hf
    rcases hf with rfl | rfl <;> exact ⟨⟨rfl, rfl, rfl⟩, rfl⟩
  · intro f hf h
    simp only [Pair, List.mem_cons, List.not_mem_nil, or_false] at hf
    rcases hf with rfl | rfl <;> cases h
  · intro k f hp
    rcases param2 (cd := Pair) rfl hp with ⟨rfl, rfl⟩ | ⟨rfl, rfl⟩
    · exact ⟨rfl, rfl, .int i, rfl, .inl rfl⟩
    · exact ⟨rfl, rfl, .int j, rfl, .inl rfl⟩
  · intro k f y hp _ hy
    rcases param2 (cd := Pair) rfl hp with ⟨rfl, rfl⟩ | ⟨rfl, rfl⟩ <;> cases hy <;> exact .leaf (.prim (fun h => by cases h) .int)

theorem wrapped (m : Place) (hm : m.named = false) {x v} (h : Valid rowEnv (m.enter "W" Wrap) (.cls "Pair") x v) : Valid rowEnv m (.cls "W") x (.inst "W" [("w", v)]) :=
  .through (cd := Wrap) (f := fw) rfl rfl (by decide) rfl (by decide) rfl ⟨by simp [Wrap], rfl, rfl, rfl, rfl, by simp [Wrap]⟩ rfl rfl h rfl

theorem row_reach {t} (h : Reach rowEnv true (.cls "Row") t) : ∀ us, t = .union us → us = [.prim .int, .prim .str] := by
  have pair : ∀ {s}, Reach rowEnv true (.cls "Pair") s → ∀ us, s ≠ .union us := by
    intro s h
    cases h with
    | refl => intro us h; cases h
    | step hp hr =>
      cases hp with
      | field hc hf _ =>
        cases hc
        simp only [Pair, List.mem_cons, List.not_mem_nil, or_false] at hf
        rcases hf with rfl | rfl
        all_goals
          cases hr with
          | refl => intro us h; cases h
          | step hp _ => cases hp
  have wrap : ∀ {s}, Reach rowEnv true (.cls "W") s → ∀ us, s ≠ .union us := by
    intro s h
    cases h with
    | refl => intro us h; cases h
    | step hp hr =>
      cases hp with
      | field hc hf _ =>
        cases hc
        cases List.mem_singleton.1 hf
        exact pair hr
  cases h with
  | refl => intro us h; cases h
  | step hp hr =>
    cases hp with
    | field hc hf _ =>
      cases hc
      simp only [Row, List.mem_cons, List.not_mem_nil, or_false] at hf
      rcases hf with rfl | rfl | rfl | rfl
      · cases hr with
        | refl => intro us h; cases h
        | step hp _ => cases hp
      · cases hr with
        | refl => intro us h; cases h
        | step hp hr =>
          cases hp with
          | list => intro us h; exact absurd h (wrap hr us)
      · cases hr with
        | refl => intro us h; cases h
        | step hp _ => cases hp
      · cases hr with
        | refl => intro us h; cases h; rfl
        | step hp hr =>
          cases hp with
          | union hm =>
            simp only [List.mem_cons, List.not_mem_nil, or_false] at hm
            rcases hm with rfl | rfl
            all_goals
              cases hr with
              | refl => intro us h; cases h
              | step hp _ => cases hp

theorem rowValue : Valid rowEnv (rowPlace.enter "Row" Row) fvalue.ty (.str "s") (.str "s") := by
  refine .union (pre := [.prim .int]) (t := .prim .str) (post := []) (p := .str "s") rfl
    ⟨.step (.field (f := fvalue) rfl (by simp [Row]) rfl) .refl, fun us h _ => row_reach h us rfl⟩ rfl ?_ (.plain (by simp)) (.prim .str)
    (.leaf (.prim (fun h => by cases h) .str)) ⟨.prim .str, rfl, rfl⟩
  intro u hu
  cases List.mem_singleton.1 hu
  exact .prim (fun h => by cases h)

theorem row : Valid rowEnv rowPlace (.cls "Row") rowData
    (.inst "Row" [("seen", .bool false), ("pairs", rowVal fpairs), ("size", .int 42), ("value", .str "s")]) := by
  refine Valid.row (cd := Row) (val := rowVal) (xs := [.list [.list [.int 1, .int 2], .tuple [.int 3, .int 4]], .int 21, .str "s", .none]) rfl rfl
    ⟨rfl, by decide, rfl, ?_⟩ (by decide) (.inr rfl) rfl ?_ ?_ ?_
  · intro f hf h
    simp only [Row, List.mem_cons, List.not_mem_nil, or_false] at hf
    rcases hf with rfl | rfl | rfl | rfl
    · cases h
    all_goals exact ⟨⟨rfl, rfl, rfl⟩, rfl⟩
  · intro f hf h
    simp only [Row, List.mem_cons, List.not_mem_nil, or_false] at hf
    rcases hf with rfl | rfl | rfl | rfl
    · rfl
    all_goals cases h
  · intro k f hp
    rcases param3 (cd := Row) (f := fpairs) (g := fsize) (k := fvalue) rfl hp with ⟨rfl, rfl⟩ | ⟨rfl, rfl⟩ | ⟨rfl, rfl⟩
    · exact ⟨rfl, rfl, _, rfl, .inl rfl⟩
    · exact ⟨rfl, rfl, .int 21, rfl, .inr ⟨double, rfl, rfl, fun _ => rfl⟩⟩
    · exact ⟨rfl, rfl, _, rfl, .inl rfl⟩
  · intro k f y hp hde hy
    rcases param3 (cd := Row) (f := fpairs) (g := fsize) (k := fvalue) rfl hp with ⟨rfl, rfl⟩ | ⟨rfl, rfl⟩ | ⟨rfl, rfl⟩
    · cases hy
      refine .list .list rfl ?_
      intro p hp
      rcases List.mem_cons.1 hp with rfl | hp
      · exact wrapped _ rfl (pair _ rfl 1 2 (.inl rfl))
      · cases List.mem_singleton.1 hp
        exact wrapped _ rfl (pair _ rfl 3 4 (.inr rfl))
    · cases hde
    · cases hy; exact rowValue

end C63Ex

/-- Rows within a row, a transparent class, a field with a function of its own, a union, and an item too many. -/
example : ∃ N, ∀ n ≥ N, ∀ o : DeOpts, o.reuse.getD true = true → o.numbers = none → fromTuple C63Ex.rowEnv o n (.cls "Row") C63Ex.rowData =
    .ok (.inst "Row" [("seen", .bool false), ("pairs", C63Ex.rowVal C63Ex.fpairs), ("size", .int 42), ("value", .str "s")]) :=
  C63_from_tuple_partial rfl C63Ex.row_acyclic (cd := C63Ex.Row) rfl (by intro as h; cases h) rfl C63Ex.row

example : fromTuple C63Ex.rowEnv {} 10 (.cls "Row") C63Ex.rowData =
    .ok (.inst "Row" [("seen", .bool false), ("pairs", C63Ex.rowVal C63Ex.fpairs), ("size", .int 42), ("value", .str "s")]) := rfl

/-- Arrays in msgpack. -/
example (K : MpCodec) (s) (hs : K.unpack s = .ok (.val (.list [.int 1, .int 2]))) :
    ∃ N, ∀ n ≥ N, fromMsgpack C63Ex.rowEnv K false n (.cls "Pair") s = .ok (.inst "Pair" [("a", .int 1), ("b", .int 2)]) :=
  C63_msgpack_partial (m := { C63Ex.rowPlace with reuse := false }) rfl C63Ex.row_acyclic (cd := C63Ex.Pair) rfl (by intro as h; cases h) rfl rfl
    (C63Ex.pair _ rfl 1 2 (.inl rfl)) hs

/-! ## Where plainly good data is not accepted -/

theorem never_ok {env : Env} {o : DeOpts} {k t x e} (h : fromDict env o k t x = .error e) (he : e ≠ .fuel) : ∀ n w, fromDict env o n t x ≠ .ok w := by
  intro n w hw
  have := fromDict_det h hw (by simpa using he) (by simp)
  cases this

namespace C63Ex

/-- `class B: s: frozenset` (bare), `class L: l: Lit` with `type Lit = Literal["x"]`. -/
def bad : Env := Ex.mk [("B", { name := "B", mro := ["B"], fields := [{ name := "s", ty := .setB .frozen }] }),
  ("L", { name := "L", mro := ["L"], fields := [{ name := "l", ty := .alias "Lit" (.lit [.str "x"]) }] })]

/-- `class P: m: M = field(flatten=True)`, where `M` (one field `a: str`) denies unknown keys and `P` does not. -/
def deny : Env := Ex.mk [("M", { name := "M", mro := ["M"], denyUnknown := true, fields := [{ name := "a", ty := .prim .str }] }),
  ("P", { name := "P", mro := ["P"], fields := [{ name := "m", ty := .cls "M", flatten := true }] })]

end C63Ex

/-- **C63 fails for a bare `frozenset`**: it is read as a set, which the strict class of the field then refuses, whatever the data is. -/
theorem C63_false_frozenset : ∀ n w, fromDict C63Ex.bad {} n (.cls "B") (.dict .plain [(.str "s", .list [.str "a"])]) ≠ .ok w :=
  never_ok (k := 5) (e := .serde "type") rfl (by simp)

/-- **C63 fails for a literal behind a PEP 695 alias**: the one value the annotation allows is refused (the message says that the entry is missing). -/
theorem C63_false_literal_alias : ∀ n w, fromDict C63Ex.bad {} n (.cls "L") (.dict .plain [(.str "l", .str "x")]) ≠ .ok w :=
  never_ok (k := 6) (e := .wrap (.missing "l")) rfl (by simp)

/-- **C63 fails for a flattened dataclass that denies unknown keys**: a key that the class it is flattened into would ignore is passed on to it. -/
theorem C63_false_deny_child : (∀ n w, fromDict C63Ex.deny {} n (.cls "P") (.dict .plain [(.str "a", .str "x"), (.str "b", .int 1)]) ≠ .ok w) ∧
    fromDict C63Ex.deny {} 6 (.cls "P") (.dict .plain [(.str "a", .str "x")]) = .ok (.inst "P" [("m", .inst "M" [("a", .str "x")])]) :=
  ⟨never_ok (k := 6) (e := .wrap (.serde "unknown")) rfl (by simp), rfl⟩

end Verif.Props
