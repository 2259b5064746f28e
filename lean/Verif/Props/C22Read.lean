import Verif.Props.C54
/-!
# C22 (and C15, C17): flattened dataclasses that are Optional or have a default

The keys of such a dataclass may all be absent. The code then compares the declared names of its fields with the keys of the input.
-/

namespace Verif.Props
open Spec

/-- A flattened dataclass `ch`, to be read from a dict, not claimed by a custom deserializer. -/
structure FlatRead (env : Env) (cd : ClassDef) (f : FieldDef) (ch : ClassId) (chd : ClassDef) : Prop where
  mem : f ∈ cd.fields
  init : f.init = true
  skip : f.skip = false
  skipDe : f.skipDe = false
  flat : f.flatten = true
  deser : f.deserializer = none
  noDe : NoneForDe (env.gde ++ cd.classDe.toList) f.ty
  noCls : NoneForDe (env.gde ++ cd.classDe.toList) (.cls ch)
  child : env.cls ch = some chd
  dict : chd.transparent = false
  some : chd.fields ≠ []

/-- The argument rendered for a flattened dataclass. -/
def flatArgOf (cd : ClassDef) (f : FieldDef) (kvs : List (Val × Val)) : DeArg :=
  { ty := f.ty, name := f.name, conv := f.conv cd.deCase, src := .key (.dict .plain kvs), alias := f.alias, deser := f.deserializer, flatten := f.flatten, dflt := f.dflt }

theorem flat_rendered {env : Env} {o : DeOpts} {n c ch} {cd chd : ClassDef} {f : FieldDef} {dk kvs v y} (hc : env.cls c = some cd) (hs : SimpleDe cd) (hg : NoGlobal env c)
    (hf : FlatRead env cd f ch chd) (hty : f.ty = .cls ch ∨ f.ty = .union [.cls ch, .none]) (h : fromDict env o n (.cls c) (.dict dk kvs) = .ok v) (hy : HasAttr v f y) :
    ∃ m, (deAt env m).render (clsDeCx env c cd true (topCall o) (.dict dk kvs)) (flatArgOf cd f (kvs.filter (fun kv => projKeep env c ch cd kv.1))) = .ok y := by
  obtain ⟨attrs, rfl, _, h2⟩ := fromDict_attr hc hs.dict hs.post hs.names hf.mem hg (by intro as h; cases h) h
  have hre : f.renderable = true := by unfold FieldDef.renderable; rw [hf.init, hf.skip, hf.skipDe]; rfl
  obtain ⟨m, ex, w, ha, hb⟩ := h2 hre
  obtain ⟨c', attrs', he, hl⟩ := hy
  cases he
  rw [hl] at hb
  cases hb
  refine ⟨m, ?_⟩
  have hfd : f.flatDict = false := by
    unfold FieldDef.flatDict; rw [hf.flat]
    rcases hty with h | h <;> rw [h] <;> rfl
  have hfc : f.flatChild = .some ch := by
    unfold FieldDef.flatChild; rw [hf.flat]
    rcases hty with h | h <;> rw [h] <;> rfl
  unfold deField at ha
  rw [hfd, hfc] at ha
  dsimp only at ha
  rw [project_dict] at ha
  dsimp only at ha
  rw [if_neg (by simp)] at ha
  cases hd : f.dflt with
  | none =>
    rw [hd] at ha
    unfold flatArgOf
    rw [hd]
    exact catchKey_ok.1 ha
  | some dv =>
    rw [hd] at ha
    unfold flatArgOf
    rw [hd]
    exact ha

/-- Reading what is kept for the child is reading the whole input. -/
theorem flat_child {env : Env} (hU : DistinctUnions env) (hL : DistinctLits env) (hac : FlattenAcyclic env) {o : DeOpts} {m c ch} {cd chd : ClassDef} {dk kvs y} {call : DeCall}
    (hre : call.reuse = some (o.reuse.getD cd.reuseDflt)) (hnu : call.numbers = o.numbers) (hch : env.cls ch = some chd) (ht : chd.transparent = false)
    (h : (deAt env m).cls true ch call (.dict .plain (kvs.filter (fun kv => projKeep env c ch cd kv.1))) = .ok y) :
    ObjTo env { reuse := o.reuse.getD cd.reuseDflt, numbers := o.numbers, coerce := false, tagging := .external, des := [] } ch (.dict dk kvs) y := by
  refine (read_at hU hL m).flat ch _ .plain _ y _ rfl (fun cd' h => ?_) hnu h dk kvs (fun s hs => ?_)
  · rw [hch] at h; cases h; exact ⟨ht, by rw [hre]; rfl⟩
  · rw [getStr_filter]
    have : keyKnown (env.known ch) (.str s) = true := keyKnown_iff.2 ⟨s, (known_iff hac).2 hs, rfl⟩
    have hkn : projKeep env c ch cd (.str s) = true := by
      unfold projKeep
      rw [this]; simp
    rw [hkn, if_pos rfl]

/-- The mode in which a flattened dataclass is read; the rest of the mode is its own. -/
def flatMode (o : DeOpts) (cd : ClassDef) : ReadMode :=
  { reuse := o.reuse.getD cd.reuseDflt, numbers := o.numbers, coerce := false, tagging := .external, des := [] }

theorem mapR_ok_of {α β : Type} {f : α → Res β} {g : α → β} : ∀ {xs : List α}, (∀ x ∈ xs, f x = .ok (g x)) → mapR f xs = .ok (xs.map g)
  | [], _ => rfl
  | x :: xs, h => by
    unfold mapR
    rw [h x (.head _), mapR_ok_of (fun y hy => h y (.tail _ hy))]
    rfl

theorem get_kept {p : Val → Bool} {k : String} {kvs : List (Val × Val)} {x} (h : getStr k (kvs.filter (fun kv => p kv.1)) = some x) : getStr k kvs = some x := by
  rw [getStr_filter] at h
  split at h
  · exact h
  · cases h

/-- The given names are recognised by the child, so they are kept. -/
theorem kept_name {env : Env} (hac : FlattenAcyclic env) {c ch} {cd : ClassDef} {kvs} {k : String} (h : Recognised env ch k) :
    getStr k (kvs.filter (fun kv => projKeep env c ch cd kv.1)) = getStr k kvs := by
  rw [getStr_filter]
  have : keyKnown (env.known ch) (.str k) = true := keyKnown_iff.2 ⟨k, (known_iff hac).2 h, rfl⟩
  have hkn : projKeep env c ch cd (.str k) = true := by
    unfold projKeep
    rw [this]; simp
  rw [hkn, if_pos rfl]

theorem optExists_fields {env : Env} {cx : DeCx} {a : DeArg} {ch} {chd : ClassDef} {kvs} (hfl : a.flatten = true) (hsrc : a.src = .key (.dict .plain kvs))
    (hch : env.cls ch = some chd) (hne : chd.fields ≠ []) :
    ∃ b, optExists env cx a (.cls ch) = .ok b ∧ (b = true ↔ ∀ g ∈ chd.fields, ∃ x, getStr g.name kvs = some x ∧ x ≠ .none) := by
  unfold optExists
  rw [hsrc, hfl]
  dsimp only
  rw [if_pos rfl, hch]
  dsimp only
  cases hfs : chd.fields with
  | nil => exact absurd hfs hne
  | cons g gs =>
    dsimp only
    rw [mapR_ok_of (g := fun f : FieldDef => isNotNone ((getStr f.name kvs).getD .none))]
    · refine ⟨_, rfl, ?_⟩
      rw [List.all_map]
      simp only [List.all_eq_true, Function.comp, id_eq]
      constructor
      · intro h g' hg'
        have := h g' hg'
        cases hk : getStr g'.name kvs with
        | none => rw [hk] at this; cases this
        | some x =>
          refine ⟨x, rfl, ?_⟩
          rintro rfl
          rw [hk] at this; cases this
      · intro h g' hg'
        obtain ⟨x, hx, hne⟩ := h g' hg'
        rw [hx]
        cases x <;> first | rfl | exact absurd rfl hne
    · intro g' _
      unfold pyGet
      dsimp only
      generalize (getStr g'.name kvs).getD .none = x
      cases x <;> rfl

theorem existsByAliases_dict {dk kvs} : ∀ (ns : List String), ∃ b, existsByAliases (.dict dk kvs) ns = .ok b ∧ (b = true ↔ ∃ k ∈ ns, getStr k kvs ≠ none)
  | [] => ⟨false, rfl, by simp⟩
  | n :: ns => by
    obtain ⟨b, h1, h2⟩ := existsByAliases_dict (dk := dk) (kvs := kvs) ns
    unfold existsByAliases pyIn
    cases hk : getStr n kvs with
    | none =>
      refine ⟨b, ?_, ?_⟩
      · dsimp only; rw [hk]; exact h1
      · rw [h2]; simp [hk]
    | some x => exact ⟨true, (by dsimp only; rw [hk]; rfl), by simp [hk]⟩

theorem dfltExists_fields {env : Env} {a : DeArg} {ch} {chd : ClassDef} {dk kvs} (hfl : a.flatten = true) (hty : a.ty = .cls ch) (hch : env.cls ch = some chd) (hne : chd.fields ≠ []) :
    ∃ b, dfltExists env a (.dict dk kvs) = .ok b ∧ (b = true ↔ ∀ g ∈ chd.fields, ∃ k ∈ g.name :: g.alias, getStr k kvs ≠ none) := by
  unfold dfltExists
  rw [hty, hfl]
  dsimp only
  rw [if_pos rfl, hch]
  dsimp only
  cases hfs : chd.fields with
  | nil => exact absurd hfs hne
  | cons g gs =>
    dsimp only
    rw [mapR_ok_of (g := fun f : FieldDef => (f.name :: f.alias).any (fun k => (getStr k kvs).isSome))]
    · refine ⟨_, rfl, ?_⟩
      rw [List.all_map]
      simp only [List.all_eq_true, Function.comp, id_eq, List.any_eq_true]
      simp only [Option.isSome_iff_ne_none]
    · intro g' _
      split
      · rename_i hal
        unfold pyIn
        rw [hal]; simp
      · rename_i hal
        obtain ⟨b, h1, h2⟩ := existsByAliases_dict (dk := dk) (kvs := kvs) (g'.name :: g'.alias)
        rw [h1]
        congr 1
        rw [Bool.eq_iff_iff, h2]
        simp only [List.any_eq_true, Option.isSome_iff_ne_none]

/-- **C22**, Optional: if the input has a value for every field of the flattened dataclass, the attribute is the object read from the same input; if one is missing
or null, the attribute is None. The fields of the dataclass must not be renamed, since the declared names are looked up. -/
theorem C22_optional_partial {env : Env} {o : DeOpts} {n c ch} {cd chd : ClassDef} {f : FieldDef} {dk kvs v y} (hU : DistinctUnions env) (hL : DistinctLits env)
    (hac : FlattenAcyclic env) (hc : env.cls c = some cd) (hs : SimpleDe cd) (hg : NoGlobal env c) (hf : FlatRead env cd f ch chd)
    (hty : f.ty = .union [.cls ch, .none]) (hd : f.dflt = none) (h : fromDict env o n (.cls c) (.dict dk kvs) = .ok v) (hy : HasAttr v f y) :
    ((∃ g ∈ chd.fields, getStr g.name kvs = none ∨ getStr g.name kvs = some .none) → y = .none) ∧
    ((∀ g ∈ chd.fields, Recognised env ch g.name) → (∀ g ∈ chd.fields, ∃ x, getStr g.name kvs = some x ∧ x ≠ .none) →
      ObjTo env (flatMode o cd) ch (.dict dk kvs) y) := by
  obtain ⟨m, hm⟩ := flat_rendered hc hs hg hf (.inr hty) h hy
  cases m with
  | zero => cases hm
  | succ m =>
    rw [deAt_render, render_nodflt (by exact hd), deBody_opt (pickDe_none (by exact hf.noDe)) (by intro g hg; rw [show (flatArgOf cd f _).deser = f.deserializer from rfl, hf.deser] at hg; cases hg)
      (by exact hty) rfl] at hm
    obtain ⟨b, hb, hbi⟩ := optExists_fields (env := env) (cx := clsDeCx env c cd true (topCall o) (.dict dk kvs))
      (a := flatArgOf cd f (kvs.filter (fun kv => projKeep env c ch cd kv.1))) hf.flat rfl hf.child hf.some
    rw [hb] at hm
    constructor
    · rintro ⟨g, hgm, hgv⟩
      have : b = false := by
        cases b with
        | false => rfl
        | true =>
          obtain ⟨x, hx, hxn⟩ := hbi.1 rfl g hgm
          have hx := get_kept hx
          rcases hgv with h | h <;> rw [h] at hx <;> cases hx
          exact absurd rfl hxn
      rw [this] at hm
      cases hm; rfl
    · intro hrec hall
      have : b = true := hbi.2 (fun g hgm => by rw [kept_name hac (hrec g hgm)]; exact hall g hgm)
      rw [this] at hm
      dsimp only at hm
      cases m with
      | zero => cases hm
      | succ m =>
        rw [deAt_render, render_nodflt rfl, deBody_cls (pickDe_none (by exact hf.noCls)) (by exact hf.deser) rfl (by exact hf.flat) rfl] at hm
        exact flat_child hU hL hac rfl rfl hf.child hf.dict hm

/-- **C22**, default: if the input has a key for every field of the flattened dataclass, the attribute is the object read from the same input; if one of the fields has none of its
keys in the input, the attribute is the default. The fields of the dataclass must not be renamed, since the declared names are looked up. -/
theorem C22_default_partial {env : Env} {o : DeOpts} {n c ch} {cd chd : ClassDef} {f : FieldDef} {dk kvs v y dv} (hU : DistinctUnions env) (hL : DistinctLits env)
    (hac : FlattenAcyclic env) (hc : env.cls c = some cd) (hs : SimpleDe cd) (hg : NoGlobal env c) (hf : FlatRead env cd f ch chd)
    (hty : f.ty = .cls ch) (hd : f.dflt = some dv) (h : fromDict env o n (.cls c) (.dict dk kvs) = .ok v) (hy : HasAttr v f y) :
    ((∃ g ∈ chd.fields, ∀ k ∈ g.name :: g.alias, getStr k kvs = none) → y = dv) ∧
    ((∀ g ∈ chd.fields, ∀ k ∈ g.name :: g.alias, Recognised env ch k) → (∀ g ∈ chd.fields, ∃ k ∈ g.name :: g.alias, getStr k kvs ≠ none) →
      ObjTo env (flatMode o cd) ch (.dict dk kvs) y) := by
  obtain ⟨m, hm⟩ := flat_rendered hc hs hg hf (.inl hty) h hy
  cases m with
  | zero => cases hm
  | succ m =>
    obtain ⟨b, hb, hbi⟩ := dfltExists_fields (env := env) (dk := .plain) (kvs := kvs.filter (fun kv => projKeep env c ch cd kv.1))
      (a := flatArgOf cd f (kvs.filter (fun kv => projKeep env c ch cd kv.1))) hf.flat hty hf.child hf.some
    rw [deAt_render] at hm
    unfold deRenderF at hm
    rw [show (flatArgOf cd f (kvs.filter (fun kv => projKeep env c ch cd kv.1))).dflt = some dv from hd] at hm
    rw [show (flatArgOf cd f (kvs.filter (fun kv => projKeep env c ch cd kv.1))).src = .key (.dict .plain (kvs.filter (fun kv => projKeep env c ch cd kv.1))) from rfl] at hm
    dsimp only at hm
    rw [hb] at hm
    constructor
    · rintro ⟨g, hgm, hgv⟩
      have : b = false := by
        cases b with
        | false => rfl
        | true =>
          obtain ⟨k, hk, hkn⟩ := hbi.1 rfl g hgm
          cases hx : getStr k (kvs.filter (fun kv => projKeep env c ch cd kv.1)) with
          | none => exact absurd hx hkn
          | some x => have := get_kept hx; rw [hgv k hk] at this; cases this
      rw [this] at hm
      cases hm; rfl
    · intro hrec hall
      have : b = true := hbi.2 (fun g hgm => by
        obtain ⟨k, hk, hkn⟩ := hall g hgm
        exact ⟨k, hk, by rw [kept_name hac (hrec g hgm k hk)]; exact hkn⟩)
      rw [this] at hm
      dsimp only at hm
      rw [deBody_cls (pickDe_none (by rw [show (flatArgOf cd f _).ty = f.ty from rfl, hty]; exact hf.noCls)) (by exact hf.deser) (by exact hty) (by exact hf.flat) rfl] at hm
      exact flat_child hU hL hac rfl rfl hf.child hf.dict hm

/-! ## Examples and counterexamples -/
namespace C22ReadEx

def fa : FieldDef := { name := "a", ty := .prim .int }
def fb : FieldDef := { name := "b", ty := .prim .int, alias := ["bb"] }
def cdI : ClassDef := { name := "I", mro := ["I"], fields := [fa, fb] }
def fo : FieldDef := { name := "i", ty := .union [.cls "I", .none], flatten := true }
def fd : FieldDef := { name := "i", ty := .cls "I", flatten := true, dflt := some (.inst "I" [("a", .int 0), ("b", .int 0)]) }
/-- `i: Optional[I] = field(flatten=True)`. -/
def cdO : ClassDef := { name := "O", mro := ["O"], fields := [fo] }
/-- `i: I = field(flatten=True, default=I(0, 0))`. -/
def cdD : ClassDef := { name := "D", mro := ["D"], fields := [fd] }
def fr : FieldDef := { name := "x", ty := .prim .int, rename := some "y" }
def cdR : ClassDef := { name := "R", mro := ["R"], fields := [fr] }
/-- `r: Optional[R] = field(flatten=True)`, where `R` renames its field. -/
def cdP : ClassDef := { name := "P", mro := ["P"], fields := [{ name := "r", ty := .union [.cls "R", .none], flatten := true }] }
def cdQ : ClassDef := { name := "Q", mro := ["Q"], fields := [{ name := "r", ty := .cls "R", flatten := true, dflt := some (.inst "R" [("x", .int 0)]) }] }

def env : Env := Ex.mk [("I", cdI), ("O", cdO), ("D", cdD), ("R", cdR), ("P", cdP), ("Q", cdQ)]

theorem cls_cases {c : ClassId} {cd : ClassDef} (h : env.cls c = some cd) : (c = "I" ∧ cd = cdI) ∨ (c = "O" ∧ cd = cdO) ∨ (c = "D" ∧ cd = cdD) ∨ (c = "R" ∧ cd = cdR) ∨ (c = "P" ∧ cd = cdP) ∨ (c = "Q" ∧ cd = cdQ) := by
  simp only [env, Ex.mk, Env.cls, List.lookup] at h
  repeat (split at h; · (rename_i hb; have hb := eq_of_beq hb; cases h; simp [hb]))
  cases h

theorem ann {t} (h : Annotated env t) : t = .prim .int ∨ t = .cls "I" ∨ t = .cls "R" ∨ t = .union [.cls "I", .none] ∨ t = .union [.cls "R", .none] ∨ t = .none := by
  obtain ⟨c, cd, f, hc, hf, hp⟩ := h
  rcases cls_cases hc with ⟨_, rfl⟩ | ⟨_, rfl⟩ | ⟨_, rfl⟩ | ⟨_, rfl⟩ | ⟨_, rfl⟩ | ⟨_, rfl⟩ <;>
    simp only [cdI, cdO, cdD, cdR, cdP, cdQ, List.mem_cons, List.not_mem_nil, or_false] at hf
  · rcases hf with rfl | rfl <;> cases hp <;> exact .inl rfl
  · subst hf
    cases hp with
    | refl => simp [fo]
    | union hm hp =>
      simp only [List.mem_cons, List.not_mem_nil, or_false] at hm
      rcases hm with rfl | rfl <;> cases hp <;> simp
  · subst hf; cases hp; simp [fd]
  · subst hf; cases hp; exact .inl rfl
  · subst hf
    cases hp with
    | refl => simp
    | union hm hp =>
      simp only [List.mem_cons, List.not_mem_nil, or_false] at hm
      rcases hm with rfl | rfl <;> cases hp <;> simp
  · subst hf; cases hp; simp

theorem hU : DistinctUnions env := distinctUnions_of (fun ts us h1 h2 he => by
  rcases ann h1 with h | h | h | h | h | h <;> cases h <;> rcases ann h2 with h | h | h | h | h | h <;> cases h <;> first | rfl | exact absurd he (by decide))
theorem hL : DistinctLits env := distinctLits_of (fun ts us h1 => by
  rcases ann h1 with h | h | h | h | h | h <;> cases h)
theorem glob (c) : NoGlobal env c := ⟨by simp [env, Ex.mk], by simp [env, Ex.mk]⟩
theorem acyclic : FlattenAcyclic env := by
  refine ⟨fun c => if c = "I" ∨ c = "R" then 0 else 1, fun c => by dsimp only; split <;> simp [env, Ex.mk], ?_⟩
  intro c cd f ch hc hf hi
  rcases cls_cases hc with ⟨rfl, rfl⟩ | ⟨rfl, rfl⟩ | ⟨rfl, rfl⟩ | ⟨rfl, rfl⟩ | ⟨rfl, rfl⟩ | ⟨rfl, rfl⟩ <;>
    simp only [cdI, cdO, cdD, cdR, cdP, cdQ, List.mem_cons, List.not_mem_nil, or_false] at hf
  · rcases hf with rfl | rfl <;> cases hi
  · subst hf; cases hi; decide
  · subst hf; cases hi; decide
  · subst hf; cases hi
  · subst hf; cases hi; decide
  · subst hf; cases hi; decide

theorem recog : ∀ g ∈ cdI.fields, ∀ k ∈ g.name :: g.alias, Recognised env "I" k := by
  intro g hg k hk
  refine .own (cd := cdI) (f := g) rfl rfl hg ?_ ?_ ?_
  all_goals
    simp only [cdI, List.mem_cons, List.not_mem_nil, or_false] at hg
    rcases hg with rfl | rfl
  all_goals first
    | rfl
    | (simp only [fa, fb, List.mem_cons, List.not_mem_nil, or_false] at hk
       first
         | (subst hk; exact .inl rfl)
         | (rcases hk with rfl | rfl <;> first | exact .inl rfl | exact .inr (.head _)))

theorem flatO : FlatRead env cdO fo "I" cdI :=
  ⟨by simp [cdO], rfl, rfl, rfl, rfl, rfl, (by intro s hs; cases hs), (by intro s hs; cases hs), rfl, rfl, by simp [cdI]⟩
theorem flatD : FlatRead env cdD fd "I" cdI :=
  ⟨by simp [cdD], rfl, rfl, rfl, rfl, rfl, (by intro s hs; cases hs), (by intro s hs; cases hs), rfl, rfl, by simp [cdI]⟩

def full : List (Val × Val) := [(.str "a", .int 1), (.str "b", .int 2)]
def half : List (Val × Val) := [(.str "a", .int 1)]

example : ObjTo env (flatMode {} cdO) "I" (.dict .plain full) (.inst "I" [("a", .int 1), ("b", .int 2)]) :=
  (C22_optional_partial (o := {}) (n := 10) (c := "O") (v := .inst "O" [("i", .inst "I" [("a", .int 1), ("b", .int 2)])]) hU hL acyclic rfl ⟨rfl, rfl, by decide⟩ (glob _) flatO rfl rfl rfl
    ⟨_, _, rfl, rfl⟩).2 (fun g hg => recog g hg _ (.head _)) (by
      intro g hg
      simp only [cdI, List.mem_cons, List.not_mem_nil, or_false] at hg
      rcases hg with rfl | rfl
      · exact ⟨.int 1, rfl, nofun⟩
      · exact ⟨.int 2, rfl, nofun⟩)
example : Val.none = Val.none :=
  (C22_optional_partial (o := {}) (n := 10) (c := "O") (dk := .plain) (kvs := half) (v := .inst "O" [("i", .none)]) hU hL acyclic rfl ⟨rfl, rfl, by decide⟩ (glob _) flatO rfl rfl rfl
    ⟨_, _, rfl, rfl⟩).1 ⟨fb, by simp [cdI], .inl rfl⟩
example : ObjTo env (flatMode {} cdD) "I" (.dict .plain full) (.inst "I" [("a", .int 1), ("b", .int 2)]) :=
  (C22_default_partial (o := {}) (n := 10) (c := "D") (v := .inst "D" [("i", .inst "I" [("a", .int 1), ("b", .int 2)])]) hU hL acyclic rfl ⟨rfl, rfl, by decide⟩ (glob _) flatD rfl rfl rfl
    ⟨_, _, rfl, rfl⟩).2 recog (by
      intro g hg
      simp only [cdI, List.mem_cons, List.not_mem_nil, or_false] at hg
      rcases hg with rfl | rfl
      · exact ⟨"a", .head _, nofun⟩
      · exact ⟨"b", .head _, nofun⟩)
example : Val.inst "I" [("a", .int 0), ("b", .int 0)] = .inst "I" [("a", .int 0), ("b", .int 0)] :=
  (C22_default_partial (o := {}) (n := 10) (c := "D") (dk := .plain) (kvs := half) (v := .inst "D" [("i", .inst "I" [("a", .int 0), ("b", .int 0)])]) hU hL acyclic rfl ⟨rfl, rfl, by decide⟩ (glob _)
    flatD rfl rfl rfl ⟨_, _, rfl, rfl⟩).1 ⟨fb, by simp [cdI], by intro k hk; simp only [fb, List.mem_cons, List.not_mem_nil, or_false] at hk; rcases hk with rfl | rfl <;> rfl⟩

end C22ReadEx

open C22ReadEx in
/-- C22 and C09 fail for an Optional flattened dataclass with a renamed field: what `to_dict` wrote is read back as None. -/
theorem C22_false_optional_renamed : ∃ (env : Env) (c ch : ClassId) (cd : ClassDef) (f : FieldDef) (i w : Val), env.cls c = some cd ∧ f ∈ cd.fields ∧ f.flatten = true ∧
    f.ty = .union [.cls ch, .none] ∧ toDict env {} 10 (.inst c [(f.name, i)]) = .ok w ∧ fromDict env {} 10 (.cls c) w = .ok (.inst c [(f.name, .none)]) ∧ i ≠ .none :=
  ⟨env, "P", "R", cdP, _, .inst "R" [("x", .int 7)], _, rfl, .head _, rfl, rfl, rfl, rfl, nofun⟩

open C22ReadEx in
/-- The same with a default: what `to_dict` wrote is read back as the default. -/
theorem C22_false_default_renamed : ∃ (env : Env) (c ch : ClassId) (cd : ClassDef) (f : FieldDef) (i w d : Val), env.cls c = some cd ∧ f ∈ cd.fields ∧ f.flatten = true ∧
    f.ty = .cls ch ∧ f.dflt = some d ∧ toDict env {} 10 (.inst c [(f.name, i)]) = .ok w ∧ fromDict env {} 10 (.cls c) w = .ok (.inst c [(f.name, d)]) ∧ i ≠ d :=
  ⟨env, "Q", "R", cdQ, _, .inst "R" [("x", .int 7)], _, _, rfl, .head _, rfl, rfl, rfl, rfl, rfl, by intro h; injection h with _ h; injection h with h; injection h with _ h; injection h with h; revert h; decide⟩

open C22ReadEx in
/-- C15 fails for a flattened dataclass with a default: a key that is given is ignored when another one is missing. -/
theorem C22_false_default_half : ∃ (env : Env) (c ch : ClassId) (cd : ClassDef) (f : FieldDef) (kvs : List (Val × Val)) (d : Val), env.cls c = some cd ∧ f ∈ cd.fields ∧ f.ty = .cls ch ∧
    f.dflt = some d ∧ getStr "a" kvs = some (.int 1) ∧ fromDict env {} 10 (.cls c) (.dict .plain kvs) = .ok (.inst c [(f.name, d)]) ∧ d = .inst ch [("a", .int 0), ("b", .int 0)] :=
  ⟨env, "D", "I", cdD, fd, half, _, rfl, .head _, rfl, rfl, rfl, rfl, rfl⟩

end Verif.Props
