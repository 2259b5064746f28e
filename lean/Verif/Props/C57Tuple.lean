import Verif.Props.C57
import Verif.Lemmas.Shape
/-!
# C57 for from_tuple
-/

namespace Verif.Props
open Verif Verif.Spec

/-- The arguments of `from_iter`: the field reads one position of the input. -/
def tupleArg (f : FieldDef) (x : Val) (i : Nat) : DeArg :=
  { ty := f.ty, name := f.name, conv := f.name, src := .idx x i, alias := f.alias, deser := f.deserializer, flatten := f.flatten }

/-- An object read by `from_iter` holds, for the i-th field of the constructor, what that field makes of position i. -/
theorem tuple_field {env : Env} {r : DeRec} {c} {cd : ClassDef} {o : DeCall} {x attrs} (hA : Aligned cd) (hc : env.cls c = some cd) (hs : SimpleDe cd)
    (h : deClsF env r false c o x = .ok (.inst c attrs)) {f i} (hf : (cd.fields.filter (·.init))[i]? = some f) :
    ∃ y, attrs.lookup f.name = some y ∧ r.render (clsDeCx env c cd false o x) (tupleArg f x i) = .ok y := by
  have hren : cd.fields.filter (·.init) = cd.fields.filter (·.renderable) := by
    apply List.filter_congr
    intro g hg
    unfold FieldDef.renderable
    cases hi : g.init with
    | false => rfl
    | true =>
      obtain ⟨h1, h2, _⟩ := hA g hg hi
      rw [h1, h2]; rfl
  rw [hren] at hf
  have hfm := List.mem_of_getElem? hf
  obtain ⟨hmem, hrd⟩ := List.mem_filter.1 hfm
  have hinit : f.init = true := by
    unfold FieldDef.renderable at hrd
    cases hi : f.init with
    | true => rfl
    | false => rw [hi] at hrd; cases hrd
  unfold deClsF at h
  rw [hc] at h
  dsimp only at h
  unfold deArgs at h
  dsimp only at h
  rw [hs.dict] at h
  simp only [Bool.false_eq_true, if_false] at h
  split at h
  · cases h
  · rename_i pos kw hargs
    split at hargs
    · cases hargs
    · rename_i vs hvs
      cases hargs
      unfold deTupleArgs at hvs
      have hl := mapR_ok_length hvs
      simp only [List.length_zipIdx] at hl
      have hpp := aligned_params hA
      rw [construct_eq (by rw [hpp]; omega), List.append_nil, hpp] at h
      obtain ⟨attrs', h1, h2, -⟩ := constructB_ok hs.post h
      cases h1
      have hlk := initAttrs_lookup h2 hs.names hmem
      unfold attrOf at hlk
      rw [hinit, if_pos rfl] at hlk
      have hi : i < (cd.fields.filter (·.renderable)).length := by
        rw [List.getElem?_eq_some_iff] at hf; exact hf.1
      have hvi : pos[i]? = some (pos[i]'(by omega)) := List.getElem?_eq_getElem (by omega)
      have hrun := mapR_ok_get hvs _ (zip_get' (zipIdx_get hf) hvi)
      have hz : ((cd.fields.filter (·.renderable)).map (·.name)).Nodup := hs.names.sublist ((List.filter_sublist).map _)
      have hbd : (((cd.fields.filter (·.renderable)).map (·.name)).zip pos).lookup f.name = some (pos[i]'(by omega)) :=
        lookup_zip_mem hz (zip_get' (by rw [List.getElem?_map, hf]; rfl) hvi)
      rw [hbd] at hlk
      exact ⟨_, hlk, hrun⟩

theorem legacy_tuple_field {env : Env} {leg : Legacy} {o : DeOpts} {n c} {cd : ClassDef} {g x v} (hc : env.cls c = some cd) (hs : SimpleDe cd)
    (hA : Aligned cd) (hg : NoGlobal env c) (hl : leg.de c = some g) (hx : ∀ as, x ≠ .inst c as) (h : fromTupleL env leg o n (.cls c) x = .ok v)
    {f i y} (hf : (cd.fields.filter (·.init))[i]? = some f) (hy : HasAttr v f y) :
    ∃ m, legDeField env g (deLAt env leg m) (clsDeCx env c cd false { reuse := o.reuse, numbers := o.numbers } x) (tupleArg f x i) = .ok y := by
  unfold fromTupleL at h
  cases n with
  | zero => cases h
  | succ n =>
    rw [fromObjL_cls hg.de hx] at h
    have h := wrapUser_ok.1 h
    cases n with
    | zero => cases h
    | succ m =>
      rw [deLAt_cls] at h
      unfold deClsL at h
      rw [hl] at h
      dsimp only at h
      obtain ⟨c', attrs, rfl, hy⟩ := hy
      have hcc : c' = c := by
        unfold deClsF at h
        rw [hc] at h
        dsimp only at h
        split at h
        · cases h
        · unfold construct at h
          dsimp only at h
          split at h
          · cases h
          · split at h
            · cases h
            · split at h
              · cases h
              · rw [hs.post] at h
                cases h; rfl
      subst hcc
      obtain ⟨y', h1, h2⟩ := tuple_field hA hc hs h hf
      rw [hy] at h1
      cases h1
      exact ⟨m, h2⟩

/-- The mode after a skip in `from_tuple`. -/
def _root_.Verif.Spec.ReadMode.afterSkipTuple (env : Env) (o : DeOpts) (cd : ClassDef) : ReadMode :=
  { reuse := o.reuse.getD cd.reuseDflt, numbers := o.numbers, coerce := cd.typeCheck == .coerce, tagging := cd.tagging, des := env.gde, named := false }

/-- **C57** for `from_tuple`: the function is called with the i-th element for the i-th field of the constructor, and its answer becomes the attribute.
If it skips, the element is read as the annotation says. Stated for classes all of whose constructor fields are read by position. -/
theorem C57_tuple_asked_partial {env : Env} {leg : Legacy} {o : DeOpts} {n c} {cd : ClassDef} {g x v} (hU : DistinctUnions env) (hL : DistinctLits env)
    (hc : env.cls c = some cd) (hs : SimpleDe cd) (hA : Aligned cd) (hg : NoGlobal env c) (hl : leg.de c = some g)
    (hxi : ∀ as, x ≠ .inst c as) (h : fromTupleL env leg o n (.cls c) x = .ok v)
    {f i z y} (hf : (cd.fields.filter (·.init))[i]? = some f) (hno : f.deserializer = none)
    (hcl : NoneForDe (env.gde ++ cd.classDe.toList) f.ty) (hz : pyIndex x i = .ok z) (hy : HasAttr v f y) :
    (∀ r, g (shown env f.ty) z = some r → r = .ok y) ∧
    (g (shown env f.ty) z = none → f.alias = [] → f.flatten = false → Inert f.ty → ReadTo env (ReadMode.afterSkipTuple env o cd) f.ty z y) := by
  obtain ⟨m, hm⟩ := legacy_tuple_field hc hs hA hg hl hxi h hf hy
  have hp : pickDe (clsDeCx env c cd false { reuse := o.reuse, numbers := o.numbers } x).des (tupleArg f x i) = none := pickDe_none hcl
  unfold legDeField at hm
  rw [hp] at hm
  have hds : (tupleArg f x i).deser = none := hno
  rw [hds, shown_origin] at hm
  simp only [Option.isSome_none, Bool.or_self, Bool.false_eq_true, if_false] at hm
  unfold legRun at hm
  have hda : (tupleArg f x i).dataOr = .ok z := hz
  rw [hda] at hm
  dsimp only at hm
  refine ⟨fun r hr => ?_, fun hr hal hfl hi => ?_⟩
  · rw [show g (shown env (tupleArg f x i).ty) _ = some r from hr] at hm
    cases r with
    | ok z => cases hm; rfl
    | error e => cases hm
  · rw [show g (shown env (tupleArg f x i).ty) _ = none from hr] at hm
    dsimp only at hm
    rw [deLAt_inert _ _ _ hi] at hm
    have hown : OwnCx env (clsDeCx env c cd false { reuse := o.reuse, numbers := o.numbers } x) f.ty :=
      ownCx_class hU hL ⟨c, cd, f, hc, (List.mem_filter.1 (List.mem_of_getElem? hf)).1, .refl⟩
    have hk : Keeps (tupleArg f x i) z := ⟨hal, rfl, hfl, .inr (.inr ⟨x, i, rfl, hz⟩)⟩
    have := (read_at hU hL m).render { clsDeCx env c cd false { reuse := o.reuse, numbers := o.numbers } x with des := env.gde } (tupleArg f x i) z y
      ⟨hown.unions, hown.lits⟩ hk (by rw [hds]; intro g h; cases h) hm
    rw [hds] at this
    exact this

/-- **C57** for `from_tuple`: what has precedence over the function. -/
theorem C57_tuple_not_asked_partial {env : Env} {leg : Legacy} {o : DeOpts} {n c} {cd : ClassDef} {g x v}
    (hc : env.cls c = some cd) (hs : SimpleDe cd) (hA : Aligned cd) (hg : NoGlobal env c) (hl : leg.de c = some g)
    (hxi : ∀ as, x ≠ .inst c as) (h : fromTupleL env leg o n (.cls c) x = .ok v)
    {f i z y} (hf : (cd.fields.filter (·.init))[i]? = some f) (hal : f.alias = []) (hfl : f.flatten = false) (hz : pyIndex x i = .ok z) (hy : HasAttr v f y) :
    (∀ k, f.deserializer = some (.fn k) → k z = .ok y) ∧
    (∀ s, f.deserializer = none → ChosenDe (env.gde ++ cd.classDe.toList) f.ty s → s.run f.ty z = .ok y) := by
  obtain ⟨m, hm⟩ := legacy_tuple_field hc hs hA hg hl hxi h hf hy
  have hk : Keeps (tupleArg f x i) z := ⟨hal, rfl, hfl, .inr (.inr ⟨x, i, rfl, hz⟩)⟩
  unfold legDeField at hm
  refine ⟨fun k hk' => ?_, fun s hno hch => ?_⟩
  · have hds : (tupleArg f x i).deser = some (.fn k) := hk'
    rw [hds] at hm
    simp only [Option.isSome_some, Bool.true_or, if_true] at hm
    cases m with
    | zero => cases hm
    | succ m =>
      rw [deLAt_render, keeps_render hk] at hm
      unfold deBody pickDe at hm
      rw [hds] at hm
      dsimp only at hm
      rw [hk.data] at hm
      exact liftP_ok hm
  · have hds : (tupleArg f x i).deser = none := hno
    have hp : pickDe (clsDeCx env c cd false { reuse := o.reuse, numbers := o.numbers } x).des (tupleArg f x i) = some s := by
      obtain ⟨pre, post, he, hh, hpo⟩ := hch
      unfold pickDe
      rw [hds]
      dsimp only
      rw [show (clsDeCx env c cd false { reuse := o.reuse, numbers := o.numbers } x).des = pre ++ s :: post from he, List.reverse_append, List.reverse_cons,
        List.append_assoc, List.find?_append, List.find?_eq_none.2 (by intro s' hs'; rw [show s'.handles (tupleArg f x i).ty = false from hpo s' (List.mem_reverse.1 hs')]; simp)]
      simp only [List.singleton_append, Option.none_or]
      rw [List.find?_cons]
      rw [show s.handles (tupleArg f x i).ty = true from hh]
    rw [hp] at hm
    simp only [Option.isSome_some, Bool.or_true, if_true] at hm
    cases m with
    | zero => cases hm
    | succ m =>
      rw [deLAt_render, keeps_render hk] at hm
      unfold deBody at hm
      rw [hp] at hm
      dsimp only at hm
      rw [hk.data] at hm
      exact liftP_ok hm

namespace C57Ex
def tinp : Val := .tuple [.int 4, .list [.int 2], .int 0, .str "x", .int 6, .int 2, .bool false, .int 8]
def tout : Val := .inst "A" [("a", .int 40), ("c", .list [.int 2]), ("d", .int 7), ("e", .str "cls"), ("f", .int 6), ("b", .int 20), ("g", .bool false), ("h", .int 80)]
theorem trun : fromTupleL env leg {} 10 (.cls "A") tinp = .ok tout := by rfl
theorem alignedA : Aligned cdA := by
  intro f hf _
  simp only [cdA, List.mem_cons, List.not_mem_nil, or_false] at hf
  rcases hf with rfl | rfl | rfl | rfl | rfl | rfl | rfl | rfl <;> exact ⟨rfl, rfl, rfl⟩

/-- `a` is what the function made of the first element. -/
example : (Except.ok (.int 40) : Except PErr Val) = .ok (.int 40) :=
  (C57_tuple_asked_partial hU hL (cd := cdA) (g := tens) rfl simpleA alignedA glob rfl (by intro as h; cases h) trun (f := fa) (i := 0) rfl rfl (none_for rfl) rfl ⟨_, _, rfl, rfl⟩).1 _ rfl

/-- `c` is read as without the function. -/
example : ReadTo env (ReadMode.afterSkipTuple env {} cdA) fc.ty (.list [.int 2]) (.list [.int 2]) :=
  (C57_tuple_asked_partial hU hL (cd := cdA) (g := tens) rfl simpleA alignedA glob rfl (by intro as h; cases h) trun (f := fc) (i := 1) rfl rfl (none_for rfl) rfl ⟨_, _, rfl, rfl⟩).2 rfl rfl rfl
    (by
      intro s hs
      cases hs with
      | refl => exact ⟨nofun, nofun, nofun, nofun⟩
      | list hs => cases hs; exact ⟨nofun, nofun, nofun, nofun⟩)

example : (Except.ok (.int 7) : Except PErr Val) = .ok (.int 7) :=
  (C57_tuple_not_asked_partial (cd := cdA) (g := tens) rfl simpleA alignedA glob rfl (by intro as h; cases h) trun (f := fd) (i := 2) (z := .int 0) rfl rfl rfl rfl ⟨_, _, rfl, rfl⟩).1 _ rfl
example : strs.run fe.ty (.str "x") = .ok (.str "cls") :=
  (C57_tuple_not_asked_partial (cd := cdA) (g := tens) rfl simpleA alignedA glob rfl (by intro as h; cases h) trun (f := fe) (i := 3) rfl rfl rfl rfl ⟨_, _, rfl, rfl⟩).2 strs rfl
    ⟨[], [], rfl, rfl, by simp⟩
end C57Ex

end Verif.Props
