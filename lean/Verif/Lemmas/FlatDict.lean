import Verif.Lemmas.SeGen
import Verif.Lemmas.Names
/-!
# Dict entries: what assignment and merging keep
-/

namespace Verif

/-- No two entries of a dict have equal keys. -/
abbrev Distinct (kvs : List (Val × Val)) : Prop := kvs.Pairwise (fun a b => pyEq a.1 b.1 = false)

theorem mem_dictSet {s : String} {v : Val} {kvs : List (Val × Val)} (hd : Distinct kvs) {e} :
    e ∈ dictSet (.str s) v kvs ↔ e = (.str s, v) ∨ e ∈ kvs ∧ e.1 ≠ .str s := by
  induction kvs with
  | nil => simp [dictSet]
  | cons kv kvs ih =>
    obtain ⟨k, w⟩ := kv
    rw [Distinct, List.pairwise_cons] at hd
    unfold dictSet
    split
    · rename_i hp
      rw [pyEq_str_right] at hp
      subst hp
      have hne : ∀ e ∈ kvs, e.1 ≠ .str s := by
        intro e he h
        have := hd.1 e he
        dsimp only at this
        rw [h, pyEq_str_right.2 rfl] at this
        cases this
      simp only [List.mem_cons]
      constructor
      · rintro (rfl | he)
        · exact .inl rfl
        · exact .inr ⟨.inr he, hne e he⟩
      · rintro (rfl | ⟨rfl | he, h⟩)
        · exact .inl rfl
        · exact absurd rfl h
        · exact .inr he
    · rename_i hp
      have hk : k ≠ .str s := fun h => hp (pyEq_str_right.2 h)
      simp only [List.mem_cons, ih hd.2]
      constructor
      · rintro (rfl | rfl | ⟨he, h⟩)
        · exact .inr ⟨.inl rfl, hk⟩
        · exact .inl rfl
        · exact .inr ⟨.inr he, h⟩
      · rintro (rfl | ⟨rfl | he, h⟩)
        · exact .inr (.inl rfl)
        · exact .inl rfl
        · exact .inr (.inr ⟨he, h⟩)

theorem dictSet_keys {k v : Val} {kvs : List (Val × Val)} :
    (dictSet k v kvs).map (·.1) = kvs.map (·.1) ∨ (dictSet k v kvs = kvs ++ [(k, v)] ∧ ∀ e ∈ kvs, pyEq e.1 k = false) := by
  induction kvs with
  | nil => exact .inr ⟨rfl, by simp⟩
  | cons kv kvs ih =>
    obtain ⟨k', v'⟩ := kv
    unfold dictSet
    split
    · exact .inl rfl
    · rename_i hp
      rcases ih with ih | ⟨ih, hn⟩
      · left; simp [ih]
      · right
        refine ⟨by rw [ih]; rfl, ?_⟩
        intro e he
        rcases List.mem_cons.1 he with rfl | he
        · exact Bool.eq_false_iff.2 hp
        · exact hn e he

theorem Distinct.map {kvs kvs' : List (Val × Val)} (h : Distinct kvs) (hk : kvs'.map (·.1) = kvs.map (·.1)) : Distinct kvs' := by
  have h1 : (kvs.map (·.1)).Pairwise (fun a b => pyEq a b = false) := List.pairwise_map.2 h
  rw [← hk] at h1
  exact List.pairwise_map.1 h1

theorem Distinct.snoc {kvs : List (Val × Val)} {e} (h : Distinct kvs) (hn : ∀ x ∈ kvs, pyEq x.1 e.1 = false) : Distinct (kvs ++ [e]) := by
  rw [Distinct, List.pairwise_append]
  exact ⟨h, List.pairwise_singleton _ _, fun a ha b hb => by rw [List.mem_singleton.1 hb]; exact hn a ha⟩

theorem distinct_dictSet {k v : Val} {kvs : List (Val × Val)} (h : Distinct kvs) : Distinct (dictSet k v kvs) := by
  rcases dictSet_keys (k := k) (v := v) (kvs := kvs) with hk | ⟨hk, hn⟩
  · exact h.map hk
  · rw [hk]; exact h.snoc hn

theorem getVal_none {k : Val} {kvs : List (Val × Val)} : getVal k kvs = none ↔ ∀ e ∈ kvs, pyEq e.1 k = false := by
  induction kvs with
  | nil => simp [getVal]
  | cons kv kvs ih =>
    obtain ⟨k', v⟩ := kv
    unfold getVal
    split
    · rename_i hp
      constructor
      · intro h; cases h
      · intro h; have := h (k', v) (by simp); dsimp only at this; rw [hp] at this; cases this
    · rename_i hp
      rw [ih]
      constructor
      · intro h e he
        rcases List.mem_cons.1 he with rfl | he
        · exact Bool.eq_false_iff.2 hp
        · exact h e he
      · intro h e he; exact h e (by simp [he])

/-- Merging appends the entries whose keys are new. -/
theorem mergeDict_eq {res ex : List (Val × Val)} (hd : Distinct ex) :
    mergeDict res ex = res ++ ex.filter (fun e => (getVal e.1 res).isNone) := by
  induction ex generalizing res with
  | nil => simp [mergeDict]
  | cons kv ex ih =>
    obtain ⟨k, v⟩ := kv
    rw [Distinct, List.pairwise_cons] at hd
    unfold mergeDict
    cases hg : getVal k res with
    | some x =>
      simp only [Option.isSome_some, if_true]
      rw [ih hd.2]
      simp [hg]
    | none =>
      simp only [Option.isSome_none, Bool.false_eq_true, if_false]
      rw [dictSet_new (fun e he => getVal_none.1 hg e he), ih hd.2]
      simp only [List.append_assoc, List.cons_append, List.nil_append]
      rw [List.filter_cons]
      simp only [hg, Option.isNone_none, if_true]
      congr 2
      refine List.filter_congr ?_
      intro e he
      have h1 := hd.1 e he
      dsimp only at h1
      rw [Bool.eq_iff_iff, Option.isNone_iff_eq_none, Option.isNone_iff_eq_none, getVal_none, getVal_none]
      constructor
      · intro h x hx; exact h x (List.mem_append.2 (.inl hx))
      · intro h x hx
        rcases List.mem_append.1 hx with hx | hx
        · exact h x hx
        · rw [List.mem_singleton.1 hx]; exact h1

theorem distinct_mergeDict {res ex : List (Val × Val)} (hr : Distinct res) (hd : Distinct ex) : Distinct (mergeDict res ex) := by
  rw [mergeDict_eq hd, Distinct, List.pairwise_append]
  refine ⟨hr, hd.filter _, ?_⟩
  intro a ha b hb
  have := (List.mem_filter.1 hb).2
  rw [Option.isNone_iff_eq_none, getVal_none] at this
  exact this a ha

/-- Assign an entry. -/
def putE (acc : List (Val × Val)) (e : Val × Val) : List (Val × Val) := dictSet e.1 e.2 acc

/-- All keys are strings. -/
abbrev StrKeyed (es : List (Val × Val)) : Prop := ∀ e ∈ es, ∃ s, e.1 = .str s

theorem distinct_foldl {es res : List (Val × Val)} (hr : Distinct res) : Distinct (es.foldl putE res) := by
  induction es generalizing res with
  | nil => exact hr
  | cons e es ih => exact ih (distinct_dictSet hr)

/-- Later assignments under string keys: the assigned entries, and what they did not overwrite. -/
theorem mem_foldl_put {es res : List (Val × Val)} (hr : Distinct res) (hs : StrKeyed es) (e) :
    e ∈ es.foldl putE res ↔ e ∈ es.foldl putE [] ∨ e ∈ res ∧ ∀ x ∈ es, e.1 ≠ x.1 := by
  induction es generalizing res with
  | nil => simp
  | cons a es ih =>
    obtain ⟨s, hk⟩ := hs a (by simp)
    obtain ⟨k, v⟩ := a
    dsimp only at hk
    subst hk
    have hs' : StrKeyed es := fun x hx => hs x (by simp [hx])
    rw [List.foldl_cons, List.foldl_cons, ih (res := putE res (.str s, v)) (distinct_dictSet hr) hs',
      ih (res := putE [] (.str s, v)) (distinct_dictSet .nil) hs']
    unfold putE
    rw [mem_dictSet hr, mem_dictSet .nil]
    simp only [List.mem_cons, List.not_mem_nil, false_and, or_false]
    constructor
    · rintro (h | ⟨rfl | ⟨h1, h2⟩, h3⟩)
      · exact .inl (.inl h)
      · exact .inl (.inr ⟨rfl, h3⟩)
      · refine .inr ⟨h1, ?_⟩
        rintro x (rfl | hx)
        · exact h2
        · exact h3 x hx
    · rintro ((h | ⟨rfl, h⟩) | ⟨h1, h2⟩)
      · exact .inl h
      · exact .inr ⟨.inl rfl, h⟩
      · exact .inr ⟨.inr ⟨h1, h2 _ (.inl rfl)⟩, fun x hx => h2 x (.inr hx)⟩

theorem keys_foldl_put {es res : List (Val × Val)} (hr : Distinct res) (hs : StrKeyed es) (k : Val) :
    (∃ e ∈ es.foldl putE res, e.1 = k) ↔ (∃ e ∈ res, e.1 = k) ∨ ∃ x ∈ es, x.1 = k := by
  induction es generalizing res with
  | nil => simp
  | cons a es ih =>
    obtain ⟨s, hk⟩ := hs a (by simp)
    obtain ⟨k', v⟩ := a
    dsimp only at hk
    subst hk
    rw [List.foldl_cons, ih (res := putE res (.str s, v)) (distinct_dictSet hr) (fun x hx => hs x (by simp [hx]))]
    unfold putE
    simp only [mem_dictSet hr, List.mem_cons]
    constructor
    · rintro (⟨e, rfl | ⟨h, _⟩, he⟩ | ⟨x, hx, he⟩)
      · exact .inr ⟨_, .inl rfl, he⟩
      · exact .inl ⟨e, h, he⟩
      · exact .inr ⟨x, .inr hx, he⟩
    · rintro (⟨e, h, he⟩ | ⟨x, rfl | hx, he⟩)
      · by_cases hks : e.1 = .str s
        · exact .inl ⟨_, .inl rfl, by rw [← he, hks]⟩
        · exact .inl ⟨e, .inr ⟨h, hks⟩, he⟩
      · exact .inl ⟨_, .inl rfl, he⟩
      · exact .inr ⟨x, hx, he⟩

/-- The keys a list of targets gets, with the unpacked values. -/
def assigned : List LV → List Val → List (Val × Val)
  | .key k :: ls, v :: vs => (.str k, v) :: assigned ls vs
  | .mark :: ls, _ :: vs => assigned ls vs
  | _, _ => []

theorem assignAll_eq {lvs : List LV} {vs : List Val} {res} : assignAll res lvs vs = (assigned lvs vs).foldl putE res := by
  induction lvs generalizing vs res with
  | nil => cases vs <;> rfl
  | cons l lvs ih =>
    cases vs with
    | nil => cases l <;> rfl
    | cons v vs =>
      cases l with
      | key k => exact ih
      | mark => exact ih

theorem assigned_strKeyed {lvs : List LV} {vs : List Val} : StrKeyed (assigned lvs vs) := by
  induction lvs generalizing vs with
  | nil => intro e he; cases vs <;> cases he
  | cons l lvs ih =>
    cases vs with
    | nil => intro e he; cases l <;> cases he
    | cons v vs =>
      cases l with
      | key k =>
        intro e he
        rcases List.mem_cons.1 he with rfl | he
        · exact ⟨k, rfl⟩
        · exact ih e he
      | mark => exact ih

/-- The entries assigned for a value, `assign` without the dict. -/
def assignEs (lvs : List LV) (sub : Val) : Res (List (Val × Val)) :=
  match lvs with
  | [] => .error decorErr
  | [.key k] => .ok [(.str k, sub)]
  | lvs => match pyIter sub with
    | .error e => .error e
    | .ok vs => if vs.length == lvs.length then .ok (assigned lvs vs) else .error (.py .value)

theorem assign_eq {lvs : List LV} {sub : Val} {res} : assign res lvs sub = match assignEs lvs sub with
    | .error e => .error e
    | .ok es => .ok (es.foldl putE res) := by
  have key : ∀ lvs : List LV, (match pyIter sub with
      | .error e => (.error e : Res (List (Val × Val)))
      | .ok vs => if vs.length == lvs.length then .ok (assignAll res lvs vs) else .error (.py .value)) =
      match (match pyIter sub with
        | .error e => (.error e : Res (List (Val × Val)))
        | .ok vs => if vs.length == lvs.length then .ok (assigned lvs vs) else .error (.py .value)) with
      | .error e => .error e
      | .ok es => .ok (es.foldl putE res) := by
    intro lvs
    cases pyIter sub with
    | error e => rfl
    | ok vs =>
      dsimp only
      rw [assignAll_eq]
      cases vs.length == lvs.length <;> rfl
  match lvs with
  | [] => rfl
  | [.key k] => rfl
  | [.mark] => exact key [.mark]
  | .key a :: b :: r => exact key (.key a :: b :: r)
  | .mark :: b :: r => exact key (.mark :: b :: r)

theorem assignEs_strKeyed {lvs : List LV} {sub : Val} {es} (h : assignEs lvs sub = .ok es) : StrKeyed es := by
  unfold assignEs at h
  split at h
  · cases h
  · cases h; intro e he; rw [List.mem_singleton.1 he]; exact ⟨_, rfl⟩
  · split at h
    · cases h
    · split at h
      · cases h; exact assigned_strKeyed
      · cases h

/-- What a field contributes to the dict, if it is not a flattened dict. -/
def entriesAt (env : Env) (r : SeRec) (cx : SeCx) (cd : ClassDef) (obj : Val) (f : FieldDef) : Res (List (Val × Val)) :=
  match r.flat cx (seFieldArg f (.ok obj)) with
  | .error e => .error e
  | .ok vs => match joinVals vs with
    | .error e => .error e
    | .ok sub => match skips env r cx (f.skipRule cd) sub with
      | .error e => .error e
      | .ok true => .ok []
      | .ok false => assignEs (lvals env cd.seCase (env.classes.length + 1) f) sub

theorem seField_entries {env : Env} {r : SeRec} {cx : SeCx} {cd : ClassDef} {obj res} {f : FieldDef}
    (h : lvals env cd.seCase (env.classes.length + 1) f ≠ [.mark]) :
    seField env r cx cd obj res f = match entriesAt env r cx cd obj f with
      | .error e => .error e
      | .ok es => .ok (es.foldl putE res) := by
  unfold seField entriesAt
  cases r.flat cx (seFieldArg f (.ok obj)) with
  | error e => rfl
  | ok vs =>
    dsimp only
    cases joinVals vs with
    | error e => rfl
    | ok sub =>
      dsimp only
      split
      · rename_i hl; exact absurd hl h
      · cases skips env r cx (f.skipRule cd) sub with
        | error e => rfl
        | ok b => cases b with
          | true => rfl
          | false => exact assign_eq

theorem entriesAt_strKeyed {env : Env} {r : SeRec} {cx : SeCx} {cd : ClassDef} {obj} {f : FieldDef} {es}
    (h : entriesAt env r cx cd obj f = .ok es) : StrKeyed es := by
  unfold entriesAt at h
  split at h
  · cases h
  · split at h
    · cases h
    · split at h
      · cases h
      · cases h; intro e he; cases he
      · exact assignEs_strKeyed h

theorem seFields_entries {env : Env} {r : SeRec} {cx : SeCx} {cd : ClassDef} {obj} {fs : List FieldDef}
    (h : ∀ f ∈ fs, lvals env cd.seCase (env.classes.length + 1) f ≠ [.mark]) (res) :
    seFields env r cx cd obj res fs = match mapR (entriesAt env r cx cd obj) fs with
      | .error e => .error e
      | .ok ess => .ok (ess.flatten.foldl putE res) := by
  induction fs generalizing res with
  | nil => rfl
  | cons f fs ih =>
    unfold seFields
    rw [seField_entries (h f (by simp))]
    simp only [mapR]
    cases entriesAt env r cx cd obj f with
    | error e => rfl
    | ok es =>
      dsimp only
      rw [ih (fun g hg => h g (by simp [hg]))]
      cases mapR (entriesAt env r cx cd obj) fs with
      | error e => rfl
      | ok ess => simp [List.foldl_append]

theorem mapR_entries_strKeyed {env : Env} {r : SeRec} {cx : SeCx} {cd : ClassDef} {obj} {fs : List FieldDef} {ess}
    (h : mapR (entriesAt env r cx cd obj) fs = .ok ess) : StrKeyed ess.flatten := by
  intro e he
  obtain ⟨es, hes, he'⟩ := List.mem_flatten.1 he
  clear he
  induction fs generalizing ess with
  | nil => cases h; cases hes
  | cons f fs ih =>
    simp only [mapR] at h
    split at h
    · cases h
    · rename_i es1 h1
      split at h
      · cases h
      · rename_i ess' h2
        cases h
        rcases List.mem_cons.1 hes with rfl | hes
        · exact entriesAt_strKeyed h1 e he'
        · exact ih h2 hes

theorem seFields_append {env : Env} {r : SeRec} {cx : SeCx} {cd : ClassDef} {obj res} {as bs : List FieldDef} :
    seFields env r cx cd obj res (as ++ bs) = match seFields env r cx cd obj res as with
      | .error e => .error e
      | .ok res' => seFields env r cx cd obj res' bs := by
  induction as generalizing res with
  | nil => rfl
  | cons a as ih =>
    simp only [List.cons_append, seFields]
    cases seField env r cx cd obj res a with
    | error e => rfl
    | ok res' => exact ih

/-- The rendering of a flattened dict's value does not depend on the union table, nor on the flatten flag. -/
theorem render_leaf {env : Env} {m} {cx : SeCx} {u} {a : SeArg} (h : a.ty = .prim .str ∨ a.ty = .any) :
    (seAt env m).render { cx with unions := u } a = (seAt env m).render cx a := by
  cases m with
  | zero => rfl
  | succ m =>
    rw [seAt_render, seAt_render]
    unfold renderF
    dsimp only
    rcases h with h | h <;> rw [h]

theorem mapR_congr' {α β : Type} {f g : α → Res β} (h : ∀ a, f a = g a) (xs : List α) : mapR f xs = mapR g xs := by
  have : f = g := funext h
  rw [this]

theorem render_flatDict {env : Env} {m} {cx : SeCx} {u b} {a : SeArg} (h : a.ty.isFlattenDict = true) :
    (seAt env m).render { cx with unions := u } { a with flatten := b } = (seAt env m).render cx a := by
  obtain ⟨ty, ser, fl, v⟩ := a
  dsimp only at h ⊢
  cases m with
  | zero => rfl
  | succ m =>
    rw [seAt_render, seAt_render]
    have hk : ∀ (ser : Option SerFn) x, (seAt env m).render { cx with unions := u } { ty := .prim .str, ser := ser, v := .ok x } =
        (seAt env m).render cx { ty := .prim .str, ser := ser, v := .ok x } := fun ser x => render_leaf (.inl rfl)
    have hv : ∀ (ser : Option SerFn) x, (seAt env m).render { cx with unions := u } { ty := .any, ser := ser, v := .ok x } =
        (seAt env m).render cx { ty := .any, ser := ser, v := .ok x } := fun ser x => render_leaf (.inr rfl)
    have hp : pickSer cx.sers { ty := ty, ser := ser, flatten := b, v := v } = pickSer cx.sers { ty := ty, ser := ser, flatten := fl, v := v } := rfl
    unfold renderF
    dsimp only
    rw [hp]
    cases pickSer cx.sers { ty := ty, ser := ser, flatten := fl, v := v } with
    | some s => rfl
    | none =>
      dsimp only
      unfold Ty.isFlattenDict at h
      split at h
      · cases h
      · rename_i k _
        cases ser with
        | none => cases k <;> rfl
        | some s => cases s <;> cases k <;> rfl
      · simp only [hk, hv]
      · cases h

/-- A flattened dict contributes one value. -/
theorem flat_flatDict {env : Env} {m} {cx : SeCx} {a : SeArg} (h : a.ty.isFlattenDict = true) :
    (seAt env (m + 1)).flat cx a = match (seAt env m).render cx a with
      | .ok v => .ok [v]
      | .error e => .error e := by
  obtain ⟨ty, ser, fl, v⟩ := a
  dsimp only at h
  rw [seAt_flat]
  unfold flatF
  dsimp only
  unfold Ty.isFlattenDict at h
  split
  · rfl
  · split
    · rfl
    · split
      · split at h
        · cases h
        · rfl
        · rfl
        · cases h
      · rfl

end Verif
