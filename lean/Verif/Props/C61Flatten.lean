import Verif.Props.C61
/-!
# C61 and C22: what is written for a class that flattens dataclasses

Full statements: C61 "If to_dict or to_tuple returns, then at every position of the result stands what the annotation at that position makes of the value at
that position …"; C22 "A class with flattened dataclass fields whose keys do not clash satisfies from_dict(C, to_dict(obj)) == obj, and its dict has the
children's keys inline."

Here: what the dict and the tuple contain for objects whose class flattens dicts, dataclasses, Optional dataclasses and dataclasses that flatten further ones.
Partial: no flattened dicts in flattened dataclasses, no custom serializers of the class or global ones, union functions with distinct names.
-/

namespace Verif.Spec

/-- `dd` is a dataclass flattened into one of these fields, directly or through others, and `attrs'` are the attributes the object has there. -/
inductive InlinedObj (env : Env) : List FieldDef → List (String × Val) → ClassDef → List (String × Val) → Prop
  | here {fs attrs f ch dd} : f ∈ fs → inlined f = some ch → env.cls ch = some dd → InlinedObj env fs attrs dd (held (attrs.lookup f.name))
  | deeper {fs attrs f ch cd dd attrs'} : f ∈ fs → inlined f = some ch → env.cls ch = some cd → InlinedObj env cd.fields (held (attrs.lookup f.name)) dd attrs' →
      InlinedObj env fs attrs dd attrs'

end Verif.Spec

namespace Verif.Props
open Verif Spec

theorem parts_one {env : Env} {m : OutMode} {f attrs y} (hf : f.flatten = false) (h : OutField env m f (attrs.lookup f.name) y) :
    OutParts env m [f] attrs [(f, y)] := .plain (.inl hf) h .nil

theorem unflat_notRest {f : FieldDef} (h : f.flatten = false) : takesRest f = false := by unfold takesRest; rw [h]; rfl

theorem fields_entries {env : Env} {m : OutMode} {cd attrs} : ∀ {fs es}, (∀ f ∈ fs, f.flatten = false) → OutFields env m cd attrs fs es →
    OutEntries env m cd attrs fs es := by
  intro fs
  induction fs with
  | nil => intro es _ h; cases h; exact .nil
  | cons f fs ih =>
    intro es hf h
    have ih := fun es => ih (es := es) (fun g hg => hf g (by simp [hg]))
    cases h with
    | out h1 h2 h3 => exact .out (unflat_notRest (hf f (by simp))) (parts_one (hf f (by simp)) h1) h2 (ih _ h3)
    | entry h1 h2 h3 => exact .entries (unflat_notRest (hf f (by simp))) (parts_one (hf f (by simp)) h1) h2 (ih _ h3)

theorem rows_parts {env : Env} {m : OutMode} {attrs} : ∀ {fs : List FieldDef} {ys : List Val}, (∀ f ∈ fs, f.flatten = false) → fs.length = ys.length →
    (∀ (i : Nat) f y, fs[i]? = some f → ys[i]? = some y → OutField env m f (attrs.lookup f.name) y) → ∃ ps, OutParts env m fs attrs ps ∧ ys = ps.map (·.2) := by
  intro fs
  induction fs with
  | nil => intro ys _ hl _; cases ys with | nil => exact ⟨[], .nil, rfl⟩ | cons _ _ => cases hl
  | cons f fs ih =>
    intro ys hf hl h
    cases ys with
    | nil => cases hl
    | cons y ys =>
      obtain ⟨ps, h1, rfl⟩ := ih (ys := ys) (fun g hg => hf g (by simp [hg])) (by simpa using hl) (fun i g z hg hz => h (i + 1) g z (by simpa using hg) (by simpa using hz))
      exact ⟨(f, y) :: ps, .plain (.inl (hf f (by simp))) (h 0 f y rfl rfl) h1, rfl⟩

theorem top_obj {env : Env} {g : OutGiven} {tg c attrs w} (hg : env.gser = []) (h : OutTop env g tg none (.inst c attrs) w) : OutObj env g (.inst c attrs) w := by
  cases h with
  | plain _ h =>
    cases h with
    | chosen _ _ h => rw [hg] at h; exact (no_firstSe h).elim
    | scalar _ h => cases h
    | obj _ h => exact h

theorem entries_apart {es : List (Val × Val)} {k : FieldDef → String} {fs : List FieldDef} (hk : (fs.map k).Nodup) (h : (es.map (·.1)).Sublist (fs.map (fun f => Val.str (k f)))) :
    (es.map (·.1)).Pairwise (fun a b => pyEq a b = false) := by
  refine List.Pairwise.sublist h ?_
  rw [List.pairwise_map]
  unfold List.Nodup at hk
  rw [List.pairwise_map] at hk
  refine hk.imp fun {a b} hne => ?_
  rw [Bool.eq_false_iff]
  intro he
  rw [pyEq_str_right] at he
  exact hne (Val.str.inj he)

theorem outFields_sublist {env : Env} {m : OutMode} {cd attrs} : ∀ {fs es}, OutFields env m cd attrs fs es →
    (es.map (·.1)).Sublist (fs.map (fun f => Val.str (f.conv cd.seCase))) := by
  intro fs
  induction fs with
  | nil => intro es h; cases h; exact List.Sublist.slnil
  | cons f fs ih =>
    intro es h
    cases h with
    | out _ _ h => exact (ih h).cons _
    | entry _ _ h => exact (ih h).cons_cons _

/-- **C61** The dict of an object: for every field, in order, its entries; a flattened dataclass contributes one for each of its fields and those of the dataclasses
flattened into it, under names converted by the enclosing class, or none if the skip rule of the flattened field says so. A flattened dict contributes its own
entries. -/
theorem C61_flatten_partial {env : Env} {o : SeOpts} {n c cd attrs w} (hU : DistinctUnions env) (hg : env.gser = []) (hs : o.c = none) (hc : env.cls c = some cd)
    (ht : cd.transparent = false) (hcs : cd.classSer = none) (hS : SplicesAll env [] c) (hp : PlainSkips cd) (h : toDict env o n (.inst c attrs) = .ok w) :
    ∃ es, OutEntries env (.within true (o.reuse.getD cd.reuseDflt) (o.conv.getD cd.convDflt) o.skipNone cd) cd attrs (cd.fields.filter serializable) es ∧
      MapFrom .plain es w := by
  have h := C61_to_dict_partial hU (by rw [hs]; intro t ht; cases ht) h
  rw [hs] at h
  have h := top_obj hg h
  have hin : OutGiven.inside env cd ⟨true, o.reuse, o.conv, o.skipNone⟩ = .within true (o.reuse.getD cd.reuseDflt) (o.conv.getD cd.convDflt) o.skipNone cd :=
    inside_within hg hcs
  cases h with
  | @dict _ _ _ _ es hc' _ hs _ h =>
    cases hc.symm.trans hc'
    rw [hin] at h
    refine ⟨_, fields_entries (fun f hf => hs.entries.flat f (List.mem_filter.1 hf).1) h, ?_⟩
    have hid := dictOf_id (entries_apart hs.entries.wires (outFields_sublist h))
    have hmap := dictOf_map (es := es)
    rw [hid] at hmap
    exact hmap
  | tuple _ hn => cases hn
  | row _ hn => cases hn
  | through hc' ht' => cases hc.symm.trans hc'; rw [ht] at ht'; cases ht'
  | spliced hc' _ _ _ _ _ h hm => cases hc.symm.trans hc'; rw [hin] at h; exact ⟨_, h, hm⟩
  | other hc' _ _ h => cases hc.symm.trans hc'; rw [hin] at h; exact absurd hp (h ht hS).2

/-- **C61** The tuple of an object: the forms of its fields in order, those of a flattened dataclass in its place. -/
theorem C61_flatten_tuple_partial {env : Env} {o : SeOpts} {n c cd attrs w} (hU : DistinctUnions env) (hg : env.gser = []) (hs : o.c = none) (hc : env.cls c = some cd)
    (ht : cd.transparent = false) (hcs : cd.classSer = none) (hS : SplicesAll env [] c) (h : toTuple env o n (.inst c attrs) = .ok w) :
    ∃ ps, OutParts env (.within false (o.reuse.getD cd.reuseDflt) (o.conv.getD cd.convDflt) o.skipNone cd) (cd.fields.filter serializable) attrs ps ∧
      w = .tuple (ps.map (·.2)) := by
  have h := C61_to_tuple_partial hU (by rw [hs]; intro t ht; cases ht) h
  rw [hs] at h
  have h := top_obj hg h
  have hin : OutGiven.inside env cd ⟨false, o.reuse, o.conv, o.skipNone⟩ = .within false (o.reuse.getD cd.reuseDflt) (o.conv.getD cd.convDflt) o.skipNone cd :=
    inside_within hg hcs
  cases h with
  | dict _ hn => cases hn
  | spliced _ hn => cases hn
  | tuple hc' _ hs hl h =>
    cases hc.symm.trans hc'
    rw [hin] at h
    obtain ⟨ps, h1, h2⟩ := rows_parts (fun f hf => hs.entries.flat f (List.mem_filter.1 hf).1) hl h
    exact ⟨ps, h1, by rw [h2]⟩
  | row hc' _ _ _ _ h => cases hc.symm.trans hc'; rw [hin] at h; exact ⟨_, h, rfl⟩
  | through hc' ht' => cases hc.symm.trans hc'; rw [ht] at ht'; cases ht'
  | other hc' _ _ h => cases hc.symm.trans hc'; rw [hin] at h; have := (h ht hS).1; cases this

theorem parts_plain {env : Env} {m : OutMode} {g} : ∀ {fs attrs ps}, OutParts env m fs attrs ps → g ∈ fs → g.flatten = false →
    ∃ y, OutField env m g (attrs.lookup g.name) y ∧ (g, y) ∈ ps := by
  intro fs
  induction fs with
  | nil => intro attrs ps _ hg; cases hg
  | cons f fs ih =>
    intro attrs ps h hg hfl
    cases h with
    | plain _ hy h =>
      rcases List.mem_cons.1 hg with rfl | hg
      · exact ⟨_, hy, by simp⟩
      · obtain ⟨y, h1, h2⟩ := ih h hg hfl
        exact ⟨y, h1, by simp [h2]⟩
    | inner hi _ _ h =>
      rcases List.mem_cons.1 hg with rfl | hg
      · have := (inlined_ty hi).1; rw [hfl] at this; cases this
      · obtain ⟨y, h1, h2⟩ := ih h hg hfl
        exact ⟨y, h1, by simp [h2]⟩

theorem parts_inner {env : Env} {m : OutMode} {f ch cd} : ∀ {fs attrs ps}, OutParts env m fs attrs ps → f ∈ fs → inlined f = some ch → env.cls ch = some cd →
    ∃ qs, OutParts env m cd.fields (held (attrs.lookup f.name)) qs ∧ ∀ q ∈ qs, q ∈ ps := by
  intro fs
  induction fs with
  | nil => intro attrs ps _ hg; cases hg
  | cons g fs ih =>
    intro attrs ps h hg hi hc
    cases h with
    | plain hfl _ h =>
      rcases List.mem_cons.1 hg with rfl | hg
      · rcases hfl with hfl | hfl
        · have := (inlined_ty hi).1; rw [hfl] at this; cases this
        · have : takesRest f = false := by unfold takesRest; rcases (inlined_ty hi).2 with h | h <;> (rw [h]; simp [Ty.isFlattenDict])
          rw [hfl] at this; cases this
      · obtain ⟨qs, h1, h2⟩ := ih h hg hi hc
        exact ⟨qs, h1, fun q hq => by simp [h2 q hq]⟩
    | inner hi' hc' hq h =>
      rcases List.mem_cons.1 hg with rfl | hg
      · cases hi.symm.trans hi'
        cases hc.symm.trans hc'
        exact ⟨_, hq, fun q hq => List.mem_append_left _ hq⟩
      · obtain ⟨qs, h1, h2⟩ := ih h hg hi hc
        exact ⟨qs, h1, fun q hq => List.mem_append_right _ (h2 q hq)⟩

theorem parts_inlined {env : Env} {m : OutMode} {fs attrs ps dd attrs' g} (h : OutParts env m fs attrs ps) (hi : InlinedObj env fs attrs dd attrs') (hg : g ∈ dd.fields)
    (hfl : g.flatten = false) : ∃ y, OutField env m g (attrs'.lookup g.name) y ∧ (g, y) ∈ ps := by
  induction hi generalizing ps with
  | here hf h1 h2 =>
    obtain ⟨qs, h3, h4⟩ := parts_inner h hf h1 h2
    obtain ⟨y, h5, h6⟩ := parts_plain h3 hg hfl
    exact ⟨y, h5, h4 _ h6⟩
  | deeper hf h1 h2 _ ih =>
    obtain ⟨qs, h3, h4⟩ := parts_inner h hf h1 h2
    obtain ⟨y, h5, h6⟩ := ih h3 hg
    exact ⟨y, h5, h4 _ h6⟩

theorem entries_of {env : Env} {m : OutMode} {cd attrs f} (hnr : takesRest f = false) (hno : ∀ y, ¬ LeftOut env m.skipNone cd f y) : ∀ {fs es}, OutEntries env m cd attrs fs es → f ∈ fs →
    ∃ ps, OutParts env m [f] attrs ps ∧ ∀ p ∈ ps, (Val.str (p.1.conv cd.seCase), p.2) ∈ es := by
  intro fs
  induction fs with
  | nil => intro es _ hf; cases hf
  | cons g fs ih =>
    intro es h hf
    cases h with
    | rest hrest _ _ _ h =>
      rcases List.mem_cons.1 hf with rfl | hf
      · rw [hnr] at hrest; cases hrest
      · obtain ⟨qs, h1, h2⟩ := ih h hf
        exact ⟨qs, h1, fun p hp => List.mem_append_right _ (h2 p hp)⟩
    | out _ _ hl h =>
      rcases List.mem_cons.1 hf with rfl | hf
      · exact absurd hl (hno _)
      · exact ih h hf
    | @entries _ _ _ _ _ ps _ _ hps _ h =>
      rcases List.mem_cons.1 hf with rfl | hf
      · exact ⟨ps, hps, fun p hp => List.mem_append_left _ (List.mem_map.2 ⟨p, hp, rfl⟩)⟩
      · obtain ⟨qs, h1, h2⟩ := ih h hf
        exact ⟨qs, h1, fun p hp => List.mem_append_right _ (h2 p hp)⟩

theorem inlinedObj_notRest {env : Env} {f attrs dd attrs'} (h : InlinedObj env [f] attrs dd attrs') : takesRest f = false := by
  have : ∃ ch, inlined f = some ch := by
    cases h with
    | here hf h1 => rw [List.mem_singleton.1 hf] at h1; exact ⟨_, h1⟩
    | deeper hf h1 => rw [List.mem_singleton.1 hf] at h1; exact ⟨_, h1⟩
  obtain ⟨ch, hch⟩ := this
  unfold takesRest
  rcases (inlined_ty hch).2 with h | h <;> (rw [h]; simp [Ty.isFlattenDict])

theorem never_out {env : Env} {cd f y} (h : ¬ HasRule cd f) : ¬ LeftOut env false cd f y := by
  intro hl
  cases hl with
  | user h1 => exact h (.inl (by rw [h1]; rfl))
  | ifFalse _ h1 => exact h (.inr (.inl h1))
  | ifDefault _ _ h1 => exact h (.inr (.inr (.inl h1)))
  | ifNone _ _ _ h1 => exact h (.inr (.inr (.inr h1)))
  | absent _ h1 => cases h1

/-- **C22** The dict has the fields of every flattened dataclass inline, at any depth of flattening: under its name, converted by the enclosing class, stands what the
annotation of the field makes of the attribute. -/
theorem C22_inline_partial {env : Env} {o : SeOpts} {n c cd attrs w f dd attrs' g} (hU : DistinctUnions env) (hg : env.gser = []) (hs : o.c = none)
    (hsn : o.skipNone = false) (hc : env.cls c = some cd) (ht : cd.transparent = false) (hcs : cd.classSer = none) (hS : SplicesAll env [] c) (hp : PlainSkips cd)
    (h : toDict env o n (.inst c attrs) = .ok w) (hf : f ∈ cd.fields.filter serializable) (hr : ¬ HasRule cd f) (hi : InlinedObj env [f] attrs dd attrs')
    (hm : g ∈ dd.fields) (hfl : g.flatten = false) :
    ∃ es y, MapFrom .plain es w ∧ (.str (g.conv cd.seCase), y) ∈ es ∧
      OutField env (.within true (o.reuse.getD cd.reuseDflt) (o.conv.getD cd.convDflt) false cd) g (attrs'.lookup g.name) y := by
  obtain ⟨es, h1, h2⟩ := C61_flatten_partial hU hg hs hc ht hcs hS hp h
  rw [hsn] at h1
  obtain ⟨ps, h3, h4⟩ := entries_of (inlinedObj_notRest hi) (fun y => never_out hr) h1 hf
  obtain ⟨y, h5, h6⟩ := parts_inlined h3 hi hm hfl
  exact ⟨es, y, h2, h4 _ h6, h5⟩

/-! ## Examples -/

namespace C61FlatEx

/-- A dataclass with a date and a field it would skip itself. -/
def cdJ : ClassDef := { name := "J", mro := ["J"], fields := [{ name := "day", ty := .dt .date }, { name := "z", ty := .prim .int, skip := true, dflt := some (.int 0) }] }
/-- A dataclass that flattens it. -/
def cdI : ClassDef := { name := "I", mro := ["I"], fields := [{ name := "x", ty := .list .list (.prim .int) }, { name := "j", ty := .cls "J", flatten := true }] }
def cdK : ClassDef := { name := "K", mro := ["K"], fields := [{ name := "k", ty := .prim .str }] }
/-- A class that flattens a dataclass, an Optional one and a dict. -/
def cdP : ClassDef :=
  { name := "P", mro := ["P"], fields := [{ name := "a", ty := .prim .int }, { name := "i", ty := .cls "I", flatten := true },
    { name := "k", ty := .union [.cls "K", .none], flatten := true, skipIfFalse := true },
    { name := "more", ty := .dict .dict (.prim .str) .any, flatten := true }] }
def env : Env := Ex.mk [("J", cdJ), ("I", cdI), ("K", cdK), ("P", cdP)]

def attrs : List (String × Val) :=
  [("a", .int 1), ("i", .inst "I" [("x", .list [.int 2]), ("j", .inst "J" [("day", .dt .date "2020-01-01"), ("z", .int 3)])]), ("k", .inst "K" [("k", .str "")]),
    ("more", .dict .plain [(.str "n", .dt .date "2021-01-01"), (.str "a", .int 9)])]
def w : Val := .dict .plain [(.str "a", .int 1), (.str "x", .list [.int 2]), (.str "day", .str "2020-01-01"), (.str "z", .int 3), (.str "n", .str "2021-01-01")]

theorem cls_cases {c cd} (h : env.cls c = some cd) : (c = "J" ∧ cd = cdJ) ∨ (c = "I" ∧ cd = cdI) ∨ (c = "K" ∧ cd = cdK) ∨ (c = "P" ∧ cd = cdP) := by
  simp only [Env.cls, env, Ex.mk, List.lookup_cons, List.lookup_nil] at h
  split at h
  · rename_i h1; cases h; exact .inl ⟨by simpa using h1, rfl⟩
  · split at h
    · rename_i h1; cases h; exact .inr (.inl ⟨by simpa using h1, rfl⟩)
    · split at h
      · rename_i h1; cases h; exact .inr (.inr (.inl ⟨by simpa using h1, rfl⟩))
      · split at h
        · rename_i h1; cases h; exact .inr (.inr (.inr ⟨by simpa using h1, rfl⟩))
        · cases h

theorem the_fields {c cd f} (h : env.cls c = some cd) (hf : f ∈ cd.fields) : f ∈ cdJ.fields ++ cdI.fields ++ cdK.fields ++ cdP.fields := by
  rcases cls_cases h with ⟨_, rfl⟩ | ⟨_, rfl⟩ | ⟨_, rfl⟩ | ⟨_, rfl⟩ <;> simp [hf]

theorem hU : DistinctUnions env := by
  have the : ∀ ts, Annotated env (.union ts) → ts = [.cls "K", .none] := by
    rintro ts ⟨c, cd, f, hc, hf, hw⟩
    have := the_fields hc hf
    simp only [cdJ, cdI, cdK, cdP, List.cons_append, List.nil_append, List.mem_cons, List.not_mem_nil, or_false] at this
    rcases this with rfl | rfl | rfl | rfl | rfl | rfl | rfl | rfl | rfl
    · cases hw
    · cases hw
    · cases hw with | list h => cases h
    · cases hw
    · cases hw
    · cases hw
    · cases hw
    · cases hw with
      | refl => rfl
      | union hm h =>
        simp only [List.mem_cons, List.not_mem_nil, or_false] at hm
        rcases hm with rfl | rfl <;> cases h
    · cases hw with
      | key h => cases h
      | value h => cases h
  exact distinctUnions_of (fun _ _ h h' _ => by rw [the _ h, the _ h'])

/-- How deep the flattening goes. -/
def rank (c : ClassId) : Nat := if c = "P" then 2 else if c = "I" then 1 else 0

theorem spliced_of {f : FieldDef} (h : f ∈ cdJ.fields ++ cdI.fields ++ cdK.fields ++ cdP.fields) : takesRest f = true ∨ SplicedField [] f := by
  simp only [cdJ, cdI, cdK, cdP, List.cons_append, List.nil_append, List.mem_cons, List.not_mem_nil, or_false] at h
  have fin : ∀ {f : FieldDef}, (f.flatten = true → ∃ ch, inlined f = some ch) → f.serializer = none → SplicedField [] f := fun h1 h2 =>
    ⟨h1, fun _ g hg => (by rw [h2] at hg; cases hg), fun _ _ => ⟨fun s hs => (by cases hs), fun ch _ s hs => (by cases hs)⟩⟩
  rcases h with rfl | rfl | rfl | rfl | rfl | rfl | rfl | rfl | rfl <;>
    first | exact .inl rfl | (right; exact fin (fun h => (by first | cases h; done | exact ⟨_, rfl⟩)) rfl)

theorem splices : SplicesAll env [] "P" := by
  refine ⟨⟨rank, ?_, ?_⟩, fun cd f hc hf => spliced_of (the_fields hc hf), ?_⟩
  · intro c; unfold rank; split
    · decide
    · split <;> decide
  · intro c cd f ch hc hf hi
    rcases cls_cases hc with ⟨rfl, rfl⟩ | ⟨rfl, rfl⟩ | ⟨rfl, rfl⟩ | ⟨rfl, rfl⟩ <;>
      simp only [cdJ, cdI, cdK, cdP, List.mem_cons, List.not_mem_nil, or_false] at hf
    · rcases hf with rfl | rfl <;> cases hi
    · rcases hf with rfl | rfl <;> cases hi; decide
    · subst hf; cases hi
    · rcases hf with rfl | rfl | rfl | rfl <;> cases hi <;> decide
  · have down : ∀ c d, InlinesTo env c d → c ≠ "P" → d ≠ "P" := by
      intro c d h
      induction h with
      | refl => exact id
      | step hc hf hi _ ih =>
        intro hne
        refine ih ?_
        rcases cls_cases hc with ⟨rfl, rfl⟩ | ⟨rfl, rfl⟩ | ⟨rfl, rfl⟩ | ⟨rfl, rfl⟩ <;>
          simp only [cdJ, cdI, cdK, cdP, List.mem_cons, List.not_mem_nil, or_false] at hf
        · rcases hf with rfl | rfl <;> cases hi
        · rcases hf with rfl | rfl <;> cases hi; decide
        · subst hf; cases hi
        · exact absurd rfl hne
    intro cd f ch d dd g hc hf hi hd hdd hg
    cases hc
    have hne : ch ≠ "P" := by
      simp only [cdP, List.mem_cons, List.not_mem_nil, or_false] at hf
      rcases hf with rfl | rfl | rfl | rfl <;> cases hi <;> decide
    refine (spliced_of (the_fields hdd hg)).resolve_left ?_
    have hdne := down _ _ hd hne
    rcases cls_cases hdd with ⟨rfl, rfl⟩ | ⟨rfl, rfl⟩ | ⟨rfl, rfl⟩ | ⟨rfl, rfl⟩ <;>
      simp only [cdJ, cdI, cdK, cdP, List.mem_cons, List.not_mem_nil, or_false] at hg
    · rcases hg with rfl | rfl <;> decide
    · rcases hg with rfl | rfl <;> decide
    · subst hg; decide
    · exact absurd rfl hdne

theorem plain : PlainSkips cdP := by
  intro f hf _ _ hd
  simp only [cdP, List.mem_cons, List.not_mem_nil, or_false] at hf
  rcases hf with rfl | rfl | rfl | rfl <;> cases hd

def opts : SeOpts := { reuse := some false }

theorem run : toDict env opts 20 (.inst "P" attrs) = .ok w := rfl

/-- The Optional dataclass holds one field, which is false, and is left out. -/
example : ∃ es, OutEntries env (.within true false false false cdP) cdP attrs (cdP.fields.filter serializable) es ∧ MapFrom .plain es w :=
  C61_flatten_partial (o := opts) hU rfl rfl rfl rfl rfl splices plain run

example : ∃ ps, OutParts env (.within false false false false cdP) (cdP.fields.filter serializable) attrs ps ∧
    Val.tuple [.int 1, .list [.int 2], .str "2020-01-01", .int 3, .str "", .dict .plain [(.str "n", .str "2021-01-01"), (.str "a", .int 9)]] = .tuple (ps.map (·.2)) :=
  C61_flatten_tuple_partial (o := opts) (n := 20) (cd := cdP) (attrs := attrs) hU rfl rfl rfl rfl rfl splices rfl

/-- A field of the dataclass that is flattened into the flattened one. -/
example : ∃ es y, MapFrom .plain es w ∧ (.str "day", y) ∈ es ∧
    OutField env (.within true false false false cdP) cdJ.fields[0] ((held (some (.inst "J" [("day", .dt .date "2020-01-01"), ("z", .int 3)]))).lookup "day") y :=
  C22_inline_partial (o := opts) (f := cdP.fields[1]) (dd := cdJ) (g := cdJ.fields[0]) hU rfl rfl rfl rfl rfl rfl splices plain run
    (by simp [cdP, serializable]) (by simp [HasRule, cdP, skipsDefault, skipsNone])
    (.deeper (cd := cdI) (List.mem_singleton.2 rfl) rfl rfl (.here (f := cdI.fields[1]) (by simp [cdI]) rfl rfl)) (by simp [cdJ]) rfl

end C61FlatEx

end Verif.Props
