import Verif.Props.C57Tuple
import Verif.Props.C62
import Verif.Props.C34
import Verif.Lemmas.Default
import Verif.Spec.Row
/-!
# C86: from_tuple reads by position

Full statement: "from_tuple gives the i-th constructor field what it reads at position i of the tuple or list. Further elements are ignored, with
deny_unknown_fields too. If a position is missing, SerdeError is raised, even if the field has a default."

Proved (partial) for classes that are not transparent, without flattened fields and aliases. A field annotated None takes a position but does not look at
it (`C86_false_none`); a class with an alias cannot be read from tuples (`C86_alias_refused`, `C86_false_alias`).
-/

namespace Verif.Props
open Verif Verif.Spec

theorem rowFields_eq {cd : ClassDef} : cd.fields.filter (·.renderable) = rowFields cd := by
  unfold rowFields
  apply List.filter_congr
  intro f _
  unfold FieldDef.renderable
  cases f.init <;> cases f.skip <;> cases f.skipDe <;> rfl

theorem row_index {x xs} (h : Row x xs) (i : Nat) : pyIndex x i = match xs[i]? with | some v => .ok v | none => .error (.py .index) := by
  rcases h with rfl | rfl <;> rfl

theorem row_data {c x xs} (h : Row x xs) : ∀ as, x ≠ .inst c as := by
  rcases h with rfl | rfl <;> intro as h <;> cases h

theorem row_cls {env : Env} {n c} {cd : ClassDef} {o : DeCall} {x x'} (hc : env.cls c = some cd) (ht : cd.transparent = false)
    (hfl : ∀ f ∈ cd.fields, f.flatten = false) (hal : ∀ f ∈ cd.fields, f.alias = [])
    (h : ∀ i < (rowFields cd).length, pyIndex x i = pyIndex x' i) : deClsF env (deAt env n) false c o x' = deClsF env (deAt env n) false c o x := by
  unfold deClsF
  rw [hc]
  dsimp only
  unfold deArgs
  dsimp only
  rw [ht]
  simp only [Bool.false_eq_true, if_false]
  have : deTupleArgs (deAt env n) (clsDeCx env c cd false o x') cd x' = deTupleArgs (deAt env n) (clsDeCx env c cd false o x) cd x := by
    unfold deTupleArgs
    rw [rowFields_eq]
    refine mapR_congr fun fi hfi => ?_
    have hm : fi.1 ∈ cd.fields := (List.mem_filter.1 (List.fst_mem_of_mem_zipIdx hfi)).1
    have hi : fi.2 < (rowFields cd).length := by
      have := List.snd_lt_of_mem_zipIdx hfi
      omega
    exact render_sim env n (clsDeCx env c cd false o x) x' _ _
      ⟨rfl, rfl, rfl, rfl, hal _ hm, hal _ hm, hfl _ hm, hfl _ hm, .idx (h _ hi)⟩
  rw [this]

/-- **C86** from_tuple looks only at the positions of the fields: inputs that agree there give the same result, be it an object or an exception. -/
theorem C86_positions_partial {env : Env} {o : DeOpts} {n c} {cd : ClassDef} {x x' xs xs'} (hc : env.cls c = some cd) (ht : cd.transparent = false)
    (hfl : ∀ f ∈ cd.fields, f.flatten = false) (hal : ∀ f ∈ cd.fields, f.alias = []) (hg : NoGlobal env c)
    (hx : Row x xs) (hx' : Row x' xs') (h : ∀ i < (rowFields cd).length, xs[i]? = xs'[i]?) :
    fromTuple env o n (.cls c) x = fromTuple env o n (.cls c) x' := by
  match n with
  | 0 => rfl
  | 1 =>
    unfold fromTuple
    rw [fromObj_cls_fuel1 hg.de (row_data hx), fromObj_cls_fuel1 hg.de (row_data hx')]
  | n + 2 =>
    rw [fromTuple_cls hg.de (row_data hx), fromTuple_cls hg.de (row_data hx'), row_cls hc ht hfl hal]
    intro i hi
    rw [row_index hx, row_index hx', h i hi]

/-- **C86** Further elements are ignored. -/
theorem C86_surplus_partial {env : Env} {o : DeOpts} {n c} {cd : ClassDef} {xs ys} (hc : env.cls c = some cd) (ht : cd.transparent = false)
    (hfl : ∀ f ∈ cd.fields, f.flatten = false) (hal : ∀ f ∈ cd.fields, f.alias = []) (hg : NoGlobal env c) (hl : (rowFields cd).length ≤ xs.length) :
    fromTuple env o n (.cls c) (.tuple (xs ++ ys)) = fromTuple env o n (.cls c) (.tuple xs) :=
  C86_positions_partial hc ht hfl hal hg (.inl rfl) (.inl rfl) fun i hi => by rw [List.getElem?_append_left (by omega)]

/-- **C86** What a field gets depends on its own position only: two inputs with the same element there give objects with the same attribute. -/
theorem C86_own_position_partial {env : Env} {o : DeOpts} {n c} {cd : ClassDef} {x x' xs xs' v v'} (hc : env.cls c = some cd) (hs : SimpleDe cd)
    (hA : Aligned cd) (hg : NoGlobal env c) (hx : Row x xs) (hx' : Row x' xs')
    (h : fromTuple env o n (.cls c) x = .ok v) (h' : fromTuple env o n (.cls c) x' = .ok v')
    {f : FieldDef} {i : Nat} (hf : (rowFields cd)[i]? = some f) (hfl : f.flatten = false) (hal : f.alias = []) (hi : xs[i]? = xs'[i]?) :
    ∃ attrs attrs' y, v = .inst c attrs ∧ v' = .inst c attrs' ∧ attrs.lookup f.name = some y ∧ attrs'.lookup f.name = some y := by
  have inst : ∀ {m x v}, deClsF env (deAt env m) false c (topCall o) x = .ok v → ∃ as, v = .inst c as := by
    intro m x v h
    unfold deClsF at h
    rw [hc] at h
    dsimp only at h
    split at h
    · cases h
    · unfold construct at h
      dsimp only at h
      split at h
      · cases h
      · split at h
        · cases h
        · split at h
          · cases h
          · rw [hs.post] at h
            cases h; exact ⟨_, rfl⟩
  match n with
  | 0 => cases h
  | 1 => unfold fromTuple at h; rw [fromObj_cls_fuel1 hg.de (row_data hx)] at h; cases h
  | n + 2 =>
    rw [fromTuple_cls hg.de (row_data hx), wrapUser_ok] at h
    rw [fromTuple_cls hg.de (row_data hx'), wrapUser_ok] at h'
    obtain ⟨as, rfl⟩ := inst h
    obtain ⟨as', rfl⟩ := inst h'
    have hren : rowFields cd = cd.fields.filter (·.init) := by
      unfold rowFields
      apply List.filter_congr
      intro g hg
      cases hi : g.init with
      | false => rfl
      | true =>
        obtain ⟨h1, h2, _⟩ := hA g hg hi
        rw [h1, h2]; rfl
    rw [hren] at hf
    obtain ⟨y, h1, h2⟩ := tuple_field hA hc hs h hf
    obtain ⟨y', h1', h2'⟩ := tuple_field hA hc hs h' hf
    have := render_sim env n (clsDeCx env c cd false (topCall o) x) x' (tupleArg f x i) (tupleArg f x' i)
      ⟨rfl, rfl, rfl, rfl, hal, hal, hfl, hfl, .idx (by rw [row_index hx, row_index hx', hi])⟩
    have e : (deAt env n).render (clsDeCx env c cd false (topCall o) x') (tupleArg f x' i) = .ok y := this.trans h2
    rw [h2'] at e
    cases e
    exact ⟨as, as', y, rfl, rfl, h1, h1'⟩

/-- Rendering fails if the data is missing. -/
theorem render_missing {env : Env} {e} : ∀ (n : Nat) (cx : DeCx) (a : DeArg), (a.src = .val (.error e) ∨ ∃ d i, a.src = .idx d i ∧ pyIndex d i = .error e) →
    a.alias = [] → a.flatten = false → Looks a.ty → ∃ e', (deAt env n).render cx a = .error e' := by
  intro n
  induction n with
  | zero => intro cx a _ _ _ _; exact ⟨_, rfl⟩
  | succ n ih =>
    intro cx a hsrc hal hfl hl
    have hbody : (deAt env (n + 1)).render cx a = deBody env (deAt env n) cx a := by
      show deRenderF env (deAt env n) cx a = _
      unfold deRenderF
      rcases hsrc with h | ⟨d, i, h, _⟩ <;> rw [h] <;> cases a.dflt <;> rfl
    have hd : a.data = .error e := by
      unfold DeArg.data
      rcases hsrc with h | ⟨d, i, h, h'⟩ <;> rw [h]
      exact h'
    have hpd : primData cx a = .error e := by unfold primData; rw [hal]; exact hd
    have hopt : ∀ t, optExists env cx a t = .error e := by
      intro t
      unfold optExists
      rcases hsrc with h | ⟨d, i, h, _⟩ <;> rw [h] <;> dsimp only <;> rw [hd]
    rw [hbody]
    unfold deBody
    split
    · rw [hd]; exact ⟨_, rfl⟩
    · split
      · rw [hd]; exact ⟨_, rfl⟩
      · dsimp only
        split <;> rename_i hty <;> try (rw [hd]; exact ⟨_, rfl⟩)
        all_goals first
          | exact ⟨_, rfl⟩
          | (rw [hpd]; exact ⟨_, rfl⟩)
          | skip
        · exact ih cx _ hsrc hal hfl (.other (by intro h; cases h) (by intro _ _ h; cases h) (by intro _ h; cases h))
        · refine ih cx _ hsrc hal hfl ?_
          rw [hty] at hl
          cases hl with
          | alias h => exact h
          | other _ h _ => exact absurd rfl (h _ _)
        · rw [hfl, hd]; exact ⟨_, rfl⟩
        · split
          · split
            · rw [hopt]; exact ⟨_, rfl⟩
            · exact ⟨_, rfl⟩
          · split
            · exact ⟨_, rfl⟩
            · rw [hd]; exact ⟨_, rfl⟩
        · rw [hty] at hl
          cases hl with
          | other _ _ h => exact absurd rfl (h _)
          | tuple hm h =>
            obtain ⟨i, hi⟩ := List.getElem?_of_mem hm
            rw [hd]
            dsimp only
            obtain ⟨e1, h1⟩ := ih cx { ty := _, name := "data[..]", conv := "data[..]", src := .val (.error e), alias := a.alias, deser := a.deser }
              (.inl rfl) hal rfl h
            obtain ⟨e2, h2⟩ := mapR_error_of (f := fun (it : Ty × Nat) => (deAt env n).render cx
              { ty := it.1, name := "data[..]", conv := "data[..]", src := .val (.error e), alias := a.alias, deser := a.deser })
              (List.mem_of_getElem? (zipIdx_get hi)) h1
            rw [h2]
            exact ⟨_, rfl⟩
        · rw [hty] at hl
          cases hl with
          | other h _ _ => exact absurd rfl h
        · split
          · exact ⟨_, rfl⟩
          · split
            · exact ⟨_, rfl⟩
            · rw [hd]; exact ⟨_, rfl⟩
        · split
          · exact ⟨_, rfl⟩
          · rw [hd]; exact ⟨_, rfl⟩

theorem row_refused {env : Env} {o : DeOpts} {n c} {cd : ClassDef} {x xs} {f : FieldDef} {i : Nat} (hc : env.cls c = some cd) (ht : cd.transparent = false)
    (hg : NoGlobal env c) (hp : ∀ c cd, env.cls c = some cd → cd.postInit = none) (hs : ∀ c cd, env.cls c = some cd → SigOk false cd)
    (hx : Row x xs) (hf : (rowFields cd)[i]? = some f)
    (h : ∀ n, ∃ e, (deAt env n).render (clsDeCx env c cd false (topCall o) x) (tupleArg f x i) = .error e) :
    ∃ e, fromTuple env o n (.cls c) x = .error e ∧ (e = .fuel ∨ e.isSerde = true) := by
  have : ∃ e, fromTuple env o n (.cls c) x = .error e := by
    match n with
    | 0 => exact ⟨_, rfl⟩
    | 1 => unfold fromTuple; rw [fromObj_cls_fuel1 hg.de (row_data hx)]; exact ⟨_, rfl⟩
    | n + 2 =>
      rw [fromTuple_cls hg.de (row_data hx)]
      obtain ⟨e1, h1⟩ := h n
      obtain ⟨e2, h2⟩ := mapR_error_of (f := fun (fi : FieldDef × Nat) => (deAt env n).render (clsDeCx env c cd false (topCall o) x) (tupleArg fi.1 x fi.2))
        (List.mem_of_getElem? (zipIdx_get hf)) h1
      have h3 : deTupleArgs (deAt env n) (clsDeCx env c cd false (topCall o) x) cd x = .error e2 := by
        unfold deTupleArgs
        rw [rowFields_eq]
        exact h2
      have h4 : deClsF env (deAt env n) false c (topCall o) x = .error e2 := by
        unfold deClsF
        rw [hc]
        dsimp only
        unfold deArgs
        dsimp only
        rw [ht]
        simp only [Bool.false_eq_true, if_false]
        rw [h3]
      rw [h4]
      unfold wrapUser
      cases e2 <;> exact ⟨_, rfl⟩
  obtain ⟨e, h⟩ := this
  refine ⟨e, h, ?_⟩
  rcases C34_from_tuple h with h | h | ⟨c', cd, p, _, _, hc, hpp, _⟩ | ⟨_, c', cd, hc, hns⟩
  · exact .inl h
  · exact .inr h
  · rw [hp c' cd hc] at hpp; cases hpp
  · exact absurd (hs c' cd hc) hns

/-- **C86** If the position of a field is missing, SerdeError is raised, whether or not the field has a default. -/
theorem C86_short_partial {env : Env} {o : DeOpts} {n c} {cd : ClassDef} {x xs} {f : FieldDef} {i : Nat} (hc : env.cls c = some cd) (ht : cd.transparent = false)
    (hg : NoGlobal env c) (hp : ∀ c cd, env.cls c = some cd → cd.postInit = none) (hs : ∀ c cd, env.cls c = some cd → SigOk false cd)
    (hx : Row x xs) (hf : (rowFields cd)[i]? = some f) (hfl : f.flatten = false) (hal : f.alias = []) (hl : Looks f.ty) (hi : xs.length ≤ i) :
    ∃ e, fromTuple env o n (.cls c) x = .error e ∧ (e = .fuel ∨ e.isSerde = true) :=
  row_refused hc ht hg hp hs hx hf fun n =>
    render_missing n (clsDeCx env c cd false (topCall o) x) (tupleArg f x i) (.inr ⟨x, i, rfl, by rw [row_index hx, List.getElem?_eq_none hi]⟩) hal hfl hl

theorem row_aliases {x xs} (h : Row x xs) : ∀ ns v, getByAliases x ns ≠ .ok (some v)
  | [], v => by intro h; cases h
  | k :: ns, v => by
    have ih := row_aliases h ns v
    unfold getByAliases
    rcases h with rfl | rfl
    all_goals
      intro he
      unfold pyIn at he
      dsimp only at he
      split at he
      · cases he
      · cases he
      · exact ih he

/-- **C86** fails for aliases: if a field that takes a number, text, enum member or NewType has one, from_tuple refuses every tuple and list. The generated
code looks for the names of the field among the elements. -/
theorem C86_alias_refused {env : Env} {o : DeOpts} {n c} {cd : ClassDef} {x xs} {f : FieldDef} {i : Nat} (hc : env.cls c = some cd) (ht : cd.transparent = false)
    (hg : NoGlobal env c) (hp : ∀ c cd, env.cls c = some cd → cd.postInit = none) (hs : ∀ c cd, env.cls c = some cd → SigOk false cd)
    (hx : Row x xs) (hf : (rowFields cd)[i]? = some f) (hal : f.alias ≠ [])
    (hty : (∃ p, f.ty = .prim p) ∨ (∃ e, f.ty = .enum e) ∨ (∃ nm p, f.ty = .newType nm p)) (hde : f.deserializer = none)
    (hcl : NoneForDe (env.gde ++ cd.classDe.toList) f.ty) :
    ∃ e, fromTuple env o n (.cls c) x = .error e ∧ (e = .fuel ∨ e.isSerde = true) := by
  refine row_refused hc ht hg hp hs hx hf fun n => ?_
  cases n with
  | zero => exact ⟨_, rfl⟩
  | succ n =>
    have hpd : ∃ e, primData (clsDeCx env c cd false (topCall o) x) (tupleArg f x i) = .error e := by
      unfold primData
      split
      · rename_i h; exact absurd h hal
      · split
        · rename_i h; exact absurd h (row_aliases hx _ _)
        · exact ⟨_, rfl⟩
        · exact ⟨_, rfl⟩
    obtain ⟨e, hpd⟩ := hpd
    show ∃ e, deBody env (deAt env n) (clsDeCx env c cd false (topCall o) x) (tupleArg f x i) = .error e
    unfold deBody
    rw [show pickDe (clsDeCx env c cd false (topCall o) x).des (tupleArg f x i) = none from pickDe_none (a := tupleArg f x i) hcl, show (tupleArg f x i).deser = none from hde]
    dsimp only
    rcases hty with ⟨p, h⟩ | ⟨p, h⟩ | ⟨nm, p, h⟩ <;> rw [show (tupleArg f x i).ty = f.ty from rfl, h] <;> dsimp only <;> rw [hpd] <;> exact ⟨_, rfl⟩

/-! ## C62: class variables -/

theorem concatR_single {α : Type} {f : α → Res (List Val)} : ∀ {as : List α} {ws}, (∀ a ∈ as, ∀ zs, f a = .ok zs → zs.length = 1) → concatR f as = .ok ws → ws.length = as.length
  | [], ws, _, h => by cases h; rfl
  | a :: as, ws, hf, h => by
    rw [concatR] at h
    split at h
    · cases h
    · rename_i zs hz
      split at h
      · cases h
      · rename_i zs' hz'
        cases h
        rw [List.length_append, hf a (by simp) zs hz, concatR_single (fun b hb => hf b (by simp [hb])) hz']
        simp [Nat.add_comm]

theorem flat_single {env : Env} {n cx} {a : SeArg} {zs} (h : a.flatten = false) (hz : (seAt env n).flat cx a = .ok zs) : zs.length = 1 := by
  cases n with
  | zero => cases hz
  | succ n =>
    change flatF env (seAt env n) cx a = _ at hz
    unfold flatF at hz
    dsimp only at hz
    rw [h] at hz
    have : ∀ {r : Res Val}, (match r with | .ok v => (.ok [v] : Res (List Val)) | .error e => .error e) = .ok zs → zs.length = 1 := by
      intro r hr
      cases r with
      | ok v => cases hr; rfl
      | error e => cases hr
    split at hz
    · exact this hz
    · split at hz
      · exact this hz
      · exact this hz

/-- to_tuple gives one element for each written field. -/
theorem toTuple_length {env : Env} {o : SeOpts} {n c} {cd : ClassDef} {attrs ws} (hc : env.cls c = some cd) (ht : cd.transparent = false)
    (hfl : ∀ f ∈ cd.fields, f.flatten = false) (hg : NoneFor env.gser (.cls c)) (ho : o.c = none)
    (h : toTuple env o n (.inst c attrs) = .ok (.tuple ws)) : ws.length = (cd.fields.filter serializable).length := by
  unfold toTuple at h
  match n with
  | 0 => cases h
  | 1 =>
    rw [seAt_toObj, ho, toObj_inst hg, wrapAll_ok] at h
    cases h
  | n + 2 =>
    rw [seAt_toObj, ho, toObj_inst hg, wrapAll_ok, seAt_cls] at h
    unfold clsF at h
    dsimp only at h
    rw [hc] at h
    dsimp only at h
    rw [ht] at h
    simp only [Bool.false_eq_true, if_false] at h
    split at h
    · rename_i ws' hws
      cases h
      rw [← seFieldsOf_eq]
      refine concatR_single (fun f hf zs hz => ?_) hws
      exact flat_single (hfl f (List.mem_filter.1 (by rw [← seFieldsOf_eq]; exact hf)).1) hz
    · cases h

/-- **C62** from_tuple ignores the class variables, with deny_unknown_fields too, if every field that is read is written. -/
theorem C62_read_tuple_partial {env : Env} {vs : Vars} {so : SeOpts} {o : DeOpts} {n m c cd attrs w} (hU : DistinctUnions env) (hD : PlainDefaults env vs)
    (hc : VarsOk env vs c cd) (hon : vs.on c = true) (ho : so.c = none) (ha : ∀ e ∈ attrs, FreeOfVars vs e.2)
    (hal : ∀ f ∈ cd.fields, f.alias = []) (hg : NoGlobal env c) (hw : ∀ f ∈ rowFields cd, serializable f = true)
    (h : toTupleV env vs so n (.inst c attrs) = .ok w) :
    ∃ w', toTuple env so n (.inst c attrs) = .ok w' ∧ fromTuple env o m (.cls c) w = fromTuple env o m (.cls c) w' := by
  obtain ⟨ws, zs, h1, rfl, -, -⟩ := C62_to_tuple_partial hU hD hc hon ho ha h
  refine ⟨_, h1, C86_surplus_partial hc.found hc.notThrough hc.unflat hal hg ?_⟩
  rw [toTuple_length hc.found hc.notThrough hc.unflat hc.handler ho h1]
  unfold rowFields at hw ⊢
  rw [← List.countP_eq_length_filter, ← List.countP_eq_length_filter]
  exact List.countP_mono_left fun f hf hp => hw f (List.mem_filter.2 ⟨hf, hp⟩)

theorem toTuple_det {env : Env} {so n m v w w'} (h : toTuple env so n v = .ok w) (h' : toTuple env so m v = .ok w') : w = w' := by
  have h1 := toTuple_mono (Nat.le_max_left n m) h
  have h2 := toTuple_mono (Nat.le_max_right n m) h'
  rw [h1] at h2; cases h2; rfl

/-- **C62** The round trip through tuples with the option. -/
theorem C62_tuple_round_trip_partial {env : Env} {vs : Vars} {so : SeOpts} {o : DeOpts} {n c cd attrs w} (hU : DistinctUnions env) (hD : PlainDefaults env vs)
    (hc : VarsOk env vs c cd) (hon : vs.on c = true) (ho : so.c = none) (ha : ∀ e ∈ attrs, FreeOfVars vs e.2)
    (hal : ∀ f ∈ cd.fields, f.alias = []) (hg : NoGlobal env c) (hw : ∀ f ∈ rowFields cd, serializable f = true)
    (hn : o.numbers = none) (hre : so.reuse.getD cd.reuseDflt = true → o.reuse.getD cd.reuseDflt = true)
    (hok : EnvOk env (rawFmt env false (so.reuse.getD cd.reuseDflt) (so.conv.getD cd.convDflt) (o.reuse.getD cd.reuseDflt) hre so.skipNone))
    (hv : HasTy env (.cls c) (.inst c attrs)) (h : toTupleV env vs so n (.inst c attrs) = .ok w) :
    Ev (fun m => fromTuple env o m (.cls c) w = .ok (.inst c attrs)) := by
  obtain ⟨w', h'⟩ := C02_tuple_round_trip_partial hc.found ho hn hre hok hv
  refine h'.mono fun m hm => ?_
  obtain ⟨w'', h1, h2⟩ := C62_read_tuple_partial (o := o) (m := m) hU hD hc hon ho ha hal hg hw h
  rw [h2, ← toTuple_det hm.1 h1]
  exact hm.2

/-! ## Examples -/

namespace C86Ex

/-- `class A: a: int; b: Optional[str] = "x"; s: str = field(init=False, default="s"); d: date`, deny_unknown_fields. -/
def cdA : ClassDef :=
  { name := "A", mro := ["A"], denyUnknown := true
    fields := [{ name := "a", ty := .prim .int }, { name := "b", ty := .union [.prim .str, .none], dflt := some (.str "x") },
      { name := "s", ty := .prim .str, init := false, dflt := some (.str "s") }, { name := "d", ty := .dt .date, dflt := some (.dt .date "2000-01-01") }] }
/-- `class L: a: int = field(alias=["id"])`. -/
def cdL : ClassDef := { name := "L", mro := ["L"], fields := [{ name := "a", ty := .prim .int, alias := ["id"] }] }
/-- `class N: a: int; n: None`. -/
def cdN : ClassDef := { name := "N", mro := ["N"], fields := [{ name := "a", ty := .prim .int }, { name := "n", ty := .none }] }
def env : Env := Ex.mk [("A", cdA), ("N", cdN), ("L", cdL)]

theorem cases {P : FieldDef → Prop} (h1 : P cdA.fields[0]) (h2 : P cdA.fields[1]) (h3 : P cdA.fields[2]) (h4 : P cdA.fields[3]) : ∀ f ∈ cdA.fields, P f := by
  intro f hf
  simp only [cdA, List.mem_cons, List.not_mem_nil, or_false] at hf
  rcases hf with rfl | rfl | rfl | rfl
  · exact h1
  · exact h2
  · exact h3
  · exact h4

theorem noGlobal : NoGlobal env "A" := ⟨by simp [env, Ex.mk], by simp [env, Ex.mk]⟩

theorem run : fromTuple env {} 9 (.cls "A") (.tuple [.int 1, .none, .str "2020-02-02"]) =
    .ok (.inst "A" [("a", .int 1), ("b", .none), ("s", .str "s"), ("d", .dt .date "2020-02-02")]) := rfl

theorem run2 : fromTuple env {} 9 (.cls "A") (.list [.int 7, .str "y", .str "2020-02-02", .int 4]) =
    .ok (.inst "A" [("a", .int 7), ("b", .str "y"), ("s", .str "s"), ("d", .dt .date "2020-02-02")]) := rfl

example : fromTuple env {} 9 (.cls "A") (.tuple [.int 1, .none, .str "2020-02-02"]) = fromTuple env {} 9 (.cls "A") (.list [.int 1, .none, .str "2020-02-02", .int 5]) :=
  C86_positions_partial (cd := cdA) rfl rfl (cases rfl rfl rfl rfl) (cases rfl rfl rfl rfl) noGlobal (.inl rfl) (.inr rfl) (by
    intro i hi
    have hi : i < 3 := hi
    match i with
    | 0 => rfl
    | 1 => rfl
    | 2 => rfl
    | n + 3 => omega)

/-- deny_unknown_fields does not help. -/
example : fromTuple env {} 9 (.cls "A") (.tuple ([.int 1, .none, .str "2020-02-02"] ++ [.str "more"])) =
    .ok (.inst "A" [("a", .int 1), ("b", .none), ("s", .str "s"), ("d", .dt .date "2020-02-02")]) :=
  (C86_surplus_partial (cd := cdA) rfl rfl (cases rfl rfl rfl rfl) (cases rfl rfl rfl rfl) noGlobal (by decide)).trans run

theorem simple : SimpleDe cdA := ⟨rfl, rfl, by decide⟩
theorem aligned : Aligned cdA := cases (fun _ => ⟨rfl, rfl, rfl⟩) (fun _ => ⟨rfl, rfl, rfl⟩) (fun _ => ⟨rfl, rfl, rfl⟩) (fun _ => ⟨rfl, rfl, rfl⟩)

example := C86_own_position_partial (cd := cdA) (f := cdA.fields[3]) (i := 2) rfl simple aligned noGlobal (.inl rfl) (.inr rfl) run run2 rfl rfl rfl rfl

theorem clsCases {c cd} (h : env.cls c = some cd) : cd = cdA ∨ cd = cdN ∨ cd = cdL := by
  simp only [Env.cls, env, Ex.mk, List.lookup_cons, List.lookup_nil] at h
  split at h
  · cases h; exact .inl rfl
  · split at h
    · cases h; exact .inr (.inl rfl)
    · split at h
      · cases h; exact .inr (.inr rfl)
      · cases h

theorem post : ∀ c cd, env.cls c = some cd → cd.postInit = none := by
  intro c cd h; rcases clsCases h with rfl | rfl | rfl <;> rfl

theorem sigs : ∀ c cd, env.cls c = some cd → SigOk false cd := by
  intro c cd h
  rcases clsCases h with rfl | rfl | rfl
  · refine ⟨cases (fun _ => ⟨rfl, rfl⟩) (fun _ => ⟨rfl, rfl⟩) (fun _ => ⟨rfl, rfl⟩) (fun _ => ⟨rfl, rfl⟩), by intro h; cases h⟩
  · refine ⟨?_, by intro h; cases h⟩
    intro f hf _
    simp only [cdN, List.mem_cons, List.not_mem_nil, or_false] at hf
    rcases hf with rfl | rfl <;> exact ⟨rfl, rfl⟩
  · refine ⟨?_, by intro h; cases h⟩
    intro f hf _
    simp only [cdL, List.mem_cons, List.not_mem_nil, or_false] at hf
    subst hf; exact ⟨rfl, rfl⟩

/-- The last field has a default, still it must be given. -/
example : ∃ e, fromTuple env {} 9 (.cls "A") (.tuple [.int 1, .none]) = .error e ∧ (e = .fuel ∨ e.isSerde = true) :=
  C86_short_partial (cd := cdA) (f := cdA.fields[3]) (i := 2) rfl rfl noGlobal post sigs
    (.inl rfl) rfl rfl rfl (.other (by intro h; cases h) (by intro _ _ h; cases h) (by intro _ h; cases h)) (by decide)

/-- `to_tuple(L(1))` cannot be read, nor can any other tuple. -/
example (xs : List Val) (n : Nat) : ∃ e, fromTuple env {} n (.cls "L") (.tuple xs) = .error e ∧ (e = .fuel ∨ e.isSerde = true) :=
  C86_alias_refused (cd := cdL) (f := cdL.fields[0]) (i := 0) rfl rfl ⟨by simp [env, Ex.mk], by simp [env, Ex.mk]⟩ post sigs (.inl rfl) rfl
    (by intro h; cases h) (.inl ⟨_, rfl⟩) rfl (by intro s hs; simp [env, Ex.mk, cdL] at hs)

end C86Ex

namespace C62Ex

theorem written : ∀ f ∈ rowFields cdA, serializable f = true := fun f hf => field_cases (P := fun f => serializable f = true) rfl rfl f (List.mem_filter.1 hf).1

theorem trun : toTupleV env vs { reuse := some false } 9 (.inst "A" attrs) =
    .ok (.tuple [.int 1, .list [.str "t"], .str "a", .str "2020-01-01", .none]) := rfl

example := C62_read_tuple_partial (o := {}) (m := 9) hU hD ok rfl rfl free (field_cases rfl rfl) noGlobal written trun

example : Ev (fun m => fromTuple env {} m (.cls "A") (.tuple [.int 1, .list [.str "t"], .str "a", .str "2020-01-01", .none]) = .ok (.inst "A" attrs)) :=
  C62_tuple_round_trip_partial (so := { reuse := some false }) hU hD ok rfl rfl free (field_cases rfl rfl) noGlobal written rfl (fun h => by cases h) (envOk _) ty trun

end C62Ex

/-- **C86** fails for a field annotated None: its position may be missing. -/
theorem C86_false_none : (rowFields C86Ex.cdN).length = 2 ∧ ∀ n, fromTuple C86Ex.env {} (n + 9) (.cls "N") (.tuple [.int 1]) = .ok (.inst "N" [("a", .int 1), ("n", .none)]) :=
  ⟨rfl, fun _ => rfl⟩

/-- **C86** and C02 fail for a field with an alias: from_tuple refuses what to_tuple gives. -/
theorem C86_false_alias : toTuple C86Ex.env {} 9 (.inst "L" [("a", .int 1)]) = .ok (.tuple [.int 1]) ∧
    ∀ n, ∃ e, fromTuple C86Ex.env {} (n + 9) (.cls "L") (.tuple [.int 1]) = .error e ∧ e ≠ .fuel :=
  ⟨rfl, fun _ => ⟨_, rfl, by intro h; cases h⟩⟩

end Verif.Props
