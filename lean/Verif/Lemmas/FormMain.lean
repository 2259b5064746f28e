import Verif.Lemmas.Form
/-!
# Fields, objects and values of unknown annotation that can be written
-/

namespace Verif
open Spec Props

theorem concatR_ok {α β : Type} {f : α → Res (List β)} {g : α → List β} : ∀ {as : List α}, (∀ a ∈ as, f a = .ok (g a)) → concatR f as = .ok (as.flatMap g)
  | [], _ => rfl
  | a :: as, h => by
    rw [concatR, h a (by simp)]
    dsimp only
    rw [concatR_ok (fun b hb => h b (by simp [hb]))]
    rfl

/-- The entries a field stands for. -/
def namedParts (ps : List (String × Val)) : List (Val × Val) := ps.map (fun p => (.str p.1, p.2))

theorem named_snd (ps : List (String × Val)) : (namedParts ps).map (·.2) = ps.map (·.2) := by
  unfold namedParts
  rw [List.map_map]
  rfl

/-- The argument for the value of a field. -/
abbrev fieldArg (f : FieldDef) (x : Val) : SeArg := { ty := f.ty, ser := f.serializer, flatten := f.flatten, v := .ok x }

/-- The field is written as these entries. -/
def FieldForms (env : Env) (rank : ClassId → Nat) (c : ClassId) (m : OutMode) (case : Option (String → String)) (f : FieldDef) (x w : Val) : Prop :=
  ∃ ps : List (String × Val), w = .dict .plain (namedParts ps) ∧
    (∀ n, 0 < n → (∀ ch, inlined f = some ch → rank ch + 1 < n) → lvals env case n f = ps.map (fun p => LV.key p.1)) ∧
    Ev (fun n => ∀ cx, outMode cx none = m → cx.unions = env.unionsOf c → (seAt env n).flat cx (fieldArg f x) = .ok (ps.map (·.2)))

theorem flat_single {env : Env} {r : SeRec} {cx a y} (hf : a.flatten = false ∨ a.ty.isFlattenDict = true) (h : r.render cx a = .ok y) : flatF env r cx a = .ok [y] := by
  unfold flatF
  dsimp only
  rw [h]
  dsimp only
  split
  · rfl
  · split
    · rfl
    · rcases hf with hf | hf
      · rw [hf]; rfl
      · split
        · split
          · rename_i ht; rw [ht] at hf; cases hf
          · rename_i ht; rw [ht] at hf; cases hf
          · rfl
        · rfl

theorem atField_mode {cx : SeCx} {m : OutMode} {f : FieldDef} (h : outMode cx none = m) : outMode cx f.serializer = m.atField f := by
  unfold OutMode.atField
  rw [← h]
  cases f.serializer <;> rfl

theorem fieldFn_forms {env : Env} {rank c m case} {f : FieldDef} {g x y} (hf : f.flatten = false) (hs : f.serializer = some (.fn g)) (hg : g x = .ok y) :
    FieldForms env rank c m case f x (.dict .plain [(.str (f.conv case), y)]) := by
  refine ⟨[(f.conv case, y)], rfl, fun n hn _ => ?_, ?_⟩
  · obtain ⟨k, rfl⟩ : ∃ k, n = k + 1 := ⟨n - 1, by omega⟩
    rw [lvals_unflat hf]
    rfl
  · have : Ev (fun n => ∀ cx, (seAt env n).render cx (fieldArg f x) = .ok y) := by
      refine (Ev.of_all (P := fun _ => True) (fun _ => trivial)).step (fun n _ cx => ?_)
      show renderF env (seAt env n) cx _ = _
      unfold renderF pickSer
      dsimp only
      rw [hs]
      dsimp only
      rw [hg]
      rfl
    exact this.step (fun n hn cx _ _ => flat_single (.inl hf) (hn cx))

theorem field_forms {env : Env} {rank c m case} {f : FieldDef} {x y} (hf : f.flatten = false) (hs : ∀ g, f.serializer ≠ some (.fn g))
    (h : Forms env c (m.atField f) f.ty x y) : FieldForms env rank c m case f x (.dict .plain [(.str (f.conv case), y)]) := by
  refine ⟨[(f.conv case, y)], rfl, fun n hn _ => ?_, ?_⟩
  · obtain ⟨k, rfl⟩ : ∃ k, n = k + 1 := ⟨n - 1, by omega⟩
    rw [lvals_unflat hf]
    rfl
  · exact h.step (fun n hn cx hm hu => flat_single (.inl hf) (hn cx _ ⟨atField_mode hm, hu, hs⟩ rfl rfl))

theorem choose_on {α β : Type} [Nonempty β] {P : α → β → Prop} {as : List α} (h : ∀ a ∈ as, ∃ b, P a b) : ∃ F : α → β, ∀ a ∈ as, P a (F a) := by
  classical
  refine ⟨fun a => if ha : a ∈ as then (h a ha).choose else Classical.choice inferInstance, fun a ha => ?_⟩
  dsimp only
  rw [dif_pos ha]
  exact (h a ha).choose_spec

theorem flatMap_on {α β : Type} {f g : α → List β} : ∀ {as : List α}, (∀ a ∈ as, f a = g a) → as.flatMap f = as.flatMap g
  | [], _ => rfl
  | a :: as, h => by rw [List.flatMap_cons, List.flatMap_cons, h a (by simp), flatMap_on (fun b hb => h b (by simp [hb]))]

theorem named_flatMap {α : Type} {F : α → List (String × Val)} {as : List α} : as.flatMap (fun a => namedParts (F a)) = namedParts (as.flatMap F) := by
  unfold namedParts
  rw [List.map_flatMap]

theorem inner_forms {env : Env} {rank c m case} {f : FieldDef} {ch cd d attrs} {val : FieldDef → Val} {es : FieldDef → List (Val × Val)}
    (hrank : ∀ c cd f ch, env.cls c = some cd → f ∈ cd.fields → inlined f = some ch → rank ch < rank c)
    (hch : inlined f = some ch) (hS : SplicedField m.sers f) (hc : env.cls ch = some cd) (hattr : ∀ g ∈ cd.fields, attrs.lookup g.name = some (val g))
    (h : ∀ g ∈ cd.fields, FieldForms env rank c m case g (val g) (.dict .plain (es g))) :
    FieldForms env rank c m case f (.inst d attrs) (.dict .plain (cd.fields.flatMap es)) := by
  obtain ⟨PS, hPS⟩ := choose_on h
  obtain ⟨hfl, hty⟩ := inlined_ty hch
  refine ⟨cd.fields.flatMap PS, ?_, fun n hn hb => ?_, ?_⟩
  · rw [← named_flatMap, flatMap_on (fun g hg => ?_)]
    have := (hPS g hg).1
    injection this
  · obtain ⟨k, rfl⟩ : ∃ k, n = k + 1 := ⟨n - 1, by omega⟩
    have hk := hb ch hch
    rw [lvals, flatChild_some hch]
    dsimp only
    rw [hc]
    dsimp only
    rw [List.map_flatMap]
    refine flatMap_on (fun g hg => (hPS g hg).2.1 k (by omega) (fun ch' hch' => ?_))
    have := hrank ch cd g ch' hc hg hch'
    omega
  · have hall := Ev.list (fun g hg => (hPS g hg).2.2)
    have hser : ∀ cx : SeCx, outMode cx none = m → cx.sers = m.sers := fun cx hm => by rw [← hm]; rfl
    have hcore : Ev (fun n => ∀ cx : SeCx, outMode cx none = m → cx.unions = env.unionsOf c → ∀ a : SeArg, a.ser = f.serializer → a.flatten = true →
        a.ty = .cls ch → a.v = .ok (.inst d attrs) → (seAt env n).flat cx a = .ok ((cd.fields.flatMap PS).map (·.2))) := by
      refine hall.step (fun n hn cx hm hu a ha hafl haty hav => ?_)
      show flatF env (seAt env n) cx a = _
      unfold flatF
      dsimp only
      have hp : pickSer cx.sers a = none := pickSer_noneFor (fun he => by
        rw [hser cx hm, haty]
        exact (hS.noSer hfl (by rw [← ha]; exact he)).2 ch hch)
      rw [hp, if_neg (by simp)]
      split
      · rename_i g hg; exact absurd (by rw [← ha]; exact hg) (hS.noFn hfl g)
      rw [hafl, if_pos rfl, haty]
      dsimp only
      rw [hc, List.map_flatMap]
      dsimp only
      refine concatR_ok (fun g hg => ?_)
      have hv : seFieldArg g a.v = fieldArg g (val g) := by
        unfold seFieldArg
        rw [hav]
        dsimp only [getAttr]
        rw [hattr g hg]
      rw [hv]
      exact hn g hg cx hm hu
    rcases hty with hty | hty
    · exact hcore.mono (fun n hn cx hm hu => hn cx hm hu _ rfl hfl hty rfl)
    · refine hcore.step (fun n hn cx hm hu => ?_)
      show flatF env (seAt env n) cx _ = _
      unfold flatF
      dsimp only
      have hp : pickSer cx.sers (fieldArg f (.inst d attrs)) = none := pickSer_noneFor (fun he => by
        rw [hser cx hm]
        exact (hS.noSer hfl he).1)
      rw [hp, if_neg (by simp)]
      split
      · rename_i g hg; exact absurd hg (hS.noFn hfl g)
      rw [if_pos hfl, hty]
      exact hn cx hm hu _ rfl hfl rfl rfl

theorem skips_answers {env : Env} {r : SeRec} {cx : SeCx} {cd : ClassDef} {f : FieldDef} {y} (hp : PlainSkips cd) (hf : f ∈ cd.fields)
    (hu : ∀ p, f.skipIf = some p → ∃ b, p y = .ok b) : ∃ b, skips env r cx (f.skipRule cd) y = .ok b := by
  have hd : f.skipIfDefault.getD cd.skipIfDefaultDflt = skipsDefault cd f := by unfold skipsDefault; cases f.skipIfDefault <;> rfl
  unfold FieldDef.skipRule
  rw [hd]
  cases h1 : f.skipIf with
  | some p =>
    obtain ⟨b, hb⟩ := hu p h1
    exact ⟨b, by dsimp only [skips]; rw [hb]; rfl⟩
  | none =>
    dsimp only
    cases h2 : f.skipIfFalse with
    | true => exact ⟨_, rfl⟩
    | false =>
      rw [if_neg (by simp)]
      cases h3 : skipsDefault cd f with
      | true =>
        rw [if_pos rfl]
        cases h4 : f.dflt with
        | none => exact ⟨_, rfl⟩
        | some d =>
          unfold skips
          cases d <;> first | exact ⟨_, rfl⟩ | exact absurd h4 (hp f hf h1 h2 h3 _ _)
      | false =>
        rw [if_neg (by simp)]
        split
        · unfold skips; cases y <;> exact ⟨_, rfl⟩
        · unfold skips; cases y <;> exact ⟨_, rfl⟩

theorem joinVals_ok {ws : List Val} (h : ws ≠ []) : joinVals ws = .ok (together ws) := by
  match ws, h with
  | [w], _ => rfl
  | _ :: _ :: _, _ => rfl

theorem assign_named {ps : List (String × Val)} {res : List (Val × Val)} (h : ps ≠ []) :
    assign res (ps.map (fun p => LV.key p.1)) (together (ps.map (·.2))) = .ok ((namedParts ps).foldl (fun acc e => dictSet e.1 e.2 acc) res) := by
  match ps, h with
  | [p], _ => rfl
  | p :: q :: ps, _ =>
    have : assign res ((p :: q :: ps).map (fun p => LV.key p.1)) (together ((p :: q :: ps).map (·.2))) =
        .ok (assignAll res ((p :: q :: ps).map (fun p => LV.key p.1)) ((p :: q :: ps).map (·.2))) := by
      dsimp only [assign, together, List.map, pyIter]
      rw [if_pos (by simp)]
    rw [this, assignAll_keys]
    rfl

/-- One field of an object in dict form: its entries, if it is not left out, are added. -/
theorem fields_run {env : Env} {r : SeRec} {cx : SeCx} {c} {cd : ClassDef} {attrs} {es : FieldDef → List (Val × Val)} {kept : FieldDef → Bool} :
    ∀ (fs : List FieldDef) (es0 res : List (Val × Val)),
      (∀ f ∈ fs, ∀ es0 res, Builds es0 res → ∃ res', seField env r cx cd (.inst c attrs) res f = .ok res' ∧ Builds (es0 ++ if kept f then es f else []) res') →
      Builds es0 res → ∃ res', seFields env r cx cd (.inst c attrs) res fs = .ok res' ∧ Builds (es0 ++ (fs.filter kept).flatMap es) res'
  | [], es0, res, _, hB => ⟨res, rfl, by simpa using hB⟩
  | f :: fs, es0, res, h, hB => by
    obtain ⟨res1, h1, h2⟩ := h f (by simp) es0 res hB
    obtain ⟨res2, h3, h4⟩ := fields_run fs _ res1 (fun g hg => h g (by simp [hg])) h2
    refine ⟨res2, by rw [seFields, h1]; exact h3, ?_⟩
    cases hk : kept f with
    | true =>
      rw [hk, if_pos rfl] at h4
      rw [List.filter_cons_of_pos hk, List.flatMap_cons, ← List.append_assoc]
      exact h4
    | false =>
      rw [hk, if_neg (by simp), List.append_nil] at h4
      rw [List.filter_cons_of_neg (by rw [hk]; simp)]
      exact h4

theorem object_forms {env : Env} {rank : ClassId → Nat} (hle : ∀ c, rank c ≤ env.classes.length)
    (hrank : ∀ c cd f ch, env.cls c = some cd → f ∈ cd.fields → inlined f = some ch → rank ch < rank c)
    {g : OutGiven} {c cd attrs} {val : FieldDef → Val} {dk : FieldDef → DictK} {es : FieldDef → List (Val × Val)} {kept : FieldDef → Bool} (hc : env.cls c = some cd)
    (hg : g.named = true) (ht : cd.transparent = false) (hp : PlainSkips cd) (hattr : ∀ f ∈ outFields cd, attrs.lookup f.name = some (val f))
    (hf : ∀ f ∈ outFields cd, takesRest f = false → FieldForms env rank c (g.inside env cd) cd.seCase f (val f) (.dict .plain (es f)))
    (hne : ∀ f ∈ outFields cd, takesRest f = false → es f ≠ [])
    (hu : ∀ f ∈ outFields cd, takesRest f = false → ∀ p, f.skipIf = some p → ∃ b, p (together ((es f).map (·.2))) = .ok b)
    (hk : ∀ f ∈ outFields cd, takesRest f = false → (kept f = false ↔ LeftOut env g.skipNone cd f (together ((es f).map (·.2)))))
    (hr : ∀ f ∈ outFields cd, takesRest f = true → kept f = true ∧ ∀ h, f.serializer ≠ some (.fn h))
    (hrf : ∀ f ∈ outFields cd, takesRest f = true → Forms env c ((g.inside env cd).atField f) f.ty (val f) (.dict (dk f) (es f)))
    (hd : ((((outFields cd).filter kept).flatMap es).map (·.1)).Pairwise (fun a b => pyEq a b = false)) :
    ObjForms env g (.inst c attrs) (.dict .plain (((outFields cd).filter kept).flatMap es)) := by
  obtain ⟨PS, hPS⟩ := choose_on (as := (outFields cd).filter (fun f => !takesRest f)) (fun f hf' => by
    have h1 := (List.mem_filter.1 hf').1
    have h2 : takesRest f = false := by simpa using (List.mem_filter.1 hf').2
    exact hf f h1 h2)
  have hPS : ∀ f ∈ outFields cd, takesRest f = false → _ := fun f h1 h2 => hPS f (List.mem_filter.2 ⟨h1, by simp [h2]⟩)
  have e1 : Ev (fun n => ∀ f ∈ outFields cd, takesRest f = false → ∀ cx, outMode cx none = g.inside env cd → cx.unions = env.unionsOf c →
      (seAt env n).flat cx (fieldArg f (val f)) = .ok ((PS f).map (·.2))) := Ev.list (fun f h1 => Ev.call (fun h2 => (hPS f h1 h2).2.2))
  have e2 : Ev (fun n => ∀ f ∈ outFields cd, takesRest f = true → ∀ cx a, SeP env c ((g.inside env cd).atField f) cx a → a.ty = f.ty → a.v = .ok (val f) →
      (seAt env n).render cx a = .ok (.dict (dk f) (es f))) := Ev.list (fun f h1 => Ev.call (fun h2 => hrf f h1 h2))
  have e2' : Ev (fun n => ∀ f ∈ outFields cd, takesRest f = true → ∀ cx, outMode cx none = g.inside env cd → cx.unions = env.unionsOf c →
      (seAt env n).flat cx (fieldArg f (val f)) = .ok [.dict (dk f) (es f)]) :=
    e2.step (fun n hn f h1 h2 cx hm hu' => flat_single (.inr (by unfold takesRest at h2; simp at h2; exact h2.2))
      (hn f h1 h2 cx _ ⟨atField_mode hm, hu', (hr f h1 h2).2⟩ rfl rfl))
  refine (e1.and e2').step (fun n hn => ?_)
  rw [show (seAt env (n + 1)).cls = clsF env (seAt env n) from rfl]
  unfold clsF
  dsimp only
  rw [hc]
  dsimp only
  rw [if_neg (by rw [ht]; simp), hg, if_pos rfl, seFieldsOf_eq]
  have hm : outMode (clsSeCx env c cd true g.reuse g.conv g.skipNone) none = g.inside env cd := by rw [← hg]; rfl
  have harg : ∀ f ∈ outFields cd, seFieldArg f (.ok (.inst c attrs)) = fieldArg f (val f) := fun f hf' => by
    unfold seFieldArg
    dsimp only [getAttr]
    rw [hattr f hf']
  obtain ⟨res', h1, h2⟩ := fields_run (env := env) (r := seAt env n) (cx := clsSeCx env c cd true g.reuse g.conv g.skipNone) (c := c) (cd := cd) (attrs := attrs)
    (es := es) (kept := kept) (outFields cd) [] [] (fun f hmem es0 res hB => by
      have hcd : f ∈ cd.fields := (List.mem_filter.1 hmem).1
      unfold seField
      rw [harg f hmem]
      cases hrest : takesRest f with
      | true =>
        have hty : f.ty.isFlattenDict = true := by unfold takesRest at hrest; simp at hrest; exact hrest.2
        have hlv : lvals env cd.seCase (env.classes.length + 1) f = [.mark] := by
          have h1 : f.flatChild = none := by
            unfold FieldDef.flatChild
            split
            · rfl
            · split
              · rename_i h; rw [h] at hty; cases hty
              · rename_i h; rw [h] at hty; cases hty
              · rfl
          rw [lvals, h1]
          dsimp only
          rw [if_pos (show f.flatDict = true from hrest)]
        rw [hn.2 f hmem hrest _ hm rfl]
        dsimp only [joinVals]
        rw [hlv, (hr f hmem hrest).1, if_pos rfl]
        dsimp only
        split
        · dsimp only [pyItems]
          exact ⟨_, rfl, hB.merge⟩
        · rename_i hf
          have : es f = [] := by
            cases he : es f with
            | nil => rfl
            | cons e l => rw [he] at hf; exact absurd rfl hf
          rw [this, List.append_nil]
          exact ⟨_, rfl, hB⟩
      | false =>
        obtain ⟨hw, hlv, _⟩ := hPS f hmem hrest
        have hes : es f = namedParts (PS f) := by injection hw
        have hne' : PS f ≠ [] := fun h => hne f hmem hrest (by rw [hes, h]; rfl)
        rw [hn.1 f hmem hrest _ hm rfl]
        dsimp only
        rw [joinVals_ok (by simpa using hne')]
        dsimp only
        have hname := hlv (env.classes.length + 1) (by omega) (fun ch hch => by
          have h1 := hrank c cd f ch hc hcd hch
          have h2 := hle c
          omega)
        rw [hname]
        have htog : together ((es f).map (·.2)) = together ((PS f).map (·.2)) := by rw [hes, named_snd]
        obtain ⟨b, hb⟩ := skips_answers (env := env) (r := seAt env n) (y := together ((PS f).map (·.2))) (cx := clsSeCx env c cd true g.reuse g.conv g.skipNone) hp hcd
          (fun p hp' => by rw [← htog]; exact hu f hmem hrest p hp')
        have hiff := skips_out hp hcd hb
        rw [← htog] at hiff
        have hkf := hk f hmem hrest
        split
        · rename_i hm'
          match hps : PS f, hne' with
          | _ :: _, _ => rw [hps] at hm'; cases hm'
        · rw [hb]
          cases b with
          | true =>
            have : kept f = false := hkf.2 (hiff.1 rfl)
            rw [this, if_neg (by simp), List.append_nil]
            exact ⟨_, rfl, hB⟩
          | false =>
            have : kept f = true := by
              cases hkk : kept f with
              | true => rfl
              | false => exact absurd (hiff.2 (hkf.1 hkk)) (by simp)
            rw [this, if_pos rfl]
            dsimp only
            rw [assign_named hne', hes]
            exact ⟨_, rfl, hB.sets⟩) Builds.nil
  rw [h1]
  have := h2.same (by simpa using hd)
  rw [this]
  rfl

theorem row_forms {env : Env} {rank : ClassId → Nat} {g : OutGiven} {c cd attrs} {val : FieldDef → Val} {es : FieldDef → List (Val × Val)} (hc : env.cls c = some cd)
    (hg : g.named = false) (ht : cd.transparent = false) (hattr : ∀ f ∈ outFields cd, attrs.lookup f.name = some (val f))
    (hf : ∀ f ∈ outFields cd, FieldForms env rank c (g.inside env cd) cd.seCase f (val f) (.dict .plain (es f))) :
    ObjForms env g (.inst c attrs) (.tuple (((outFields cd).flatMap es).map (·.2))) := by
  obtain ⟨PS, hPS⟩ := choose_on hf
  refine (Ev.list (fun f h1 => (hPS f h1).2.2)).step (fun n hn => ?_)
  rw [show (seAt env (n + 1)).cls = clsF env (seAt env n) from rfl]
  unfold clsF
  dsimp only
  rw [hc]
  dsimp only
  rw [if_neg (by rw [ht]; simp), hg, if_neg (by simp), seFieldsOf_eq]
  have hm : outMode (clsSeCx env c cd false g.reuse g.conv g.skipNone) none = g.inside env cd := by rw [← hg]; rfl
  rw [concatR_ok (g := fun f => (es f).map (·.2)) (fun f hmem => by
    have harg : seFieldArg f (.ok (.inst c attrs)) = fieldArg f (val f) := by
      unfold seFieldArg
      dsimp only [getAttr]
      rw [hattr f hmem]
    have hes : es f = namedParts (PS f) := by have := (hPS f hmem).1; injection this
    rw [harg, hn f hmem _ hm rfl, hes, named_snd])]
  rw [List.map_flatMap]

theorem through_forms {env : Env} {rank : ClassId → Nat} {g : OutGiven} {c cd attrs f rest x k w} (hc : env.cls c = some cd) (ht : cd.transparent = true)
    (hfs : outFields cd = f :: rest) (hattr : attrs.lookup f.name = some x)
    (hf : FieldForms env rank c (g.inside env cd) cd.seCase f x (.dict .plain [(k, w)])) : ObjForms env g (.inst c attrs) w := by
  obtain ⟨ps, h1, _, h3⟩ := hf
  have h1 : [(k, w)] = namedParts ps := by injection h1
  have h2 : ps.map (·.2) = [w] := by rw [← named_snd, ← h1]; rfl
  refine h3.step (fun n hn => ?_)
  rw [show (seAt env (n + 1)).cls = clsF env (seAt env n) from rfl]
  unfold clsF
  dsimp only
  rw [hc]
  dsimp only
  rw [if_pos ht, seFieldsOf_eq]
  have harg : seFieldArg f (.ok (.inst c attrs)) = fieldArg f x := by
    unfold seFieldArg
    dsimp only [getAttr]
    rw [hattr]
  have hfs' : cd.fields.filter serializable = f :: rest := hfs
  rw [hfs']
  dsimp only
  rw [harg, hn _ outMode_cls rfl, h2]
  rfl

/-! ## Values written by their own class -/

theorem toObj_plain {env : Env} {n nm re cv sn c tg v} (hc : c = none ∨ c = some .any) :
    (seAt env (n + 1)).toObj nm re cv sn c tg v = wrapAll (toObjPlain env (seAt env n) nm re cv sn c v) := by
  show toObjF env (seAt env n) nm re cv sn c tg v = _
  unfold toObjF
  rw [toObjBody_eq]
  rcases hc with rfl | rfl <;> rfl

theorem find_none {S : List ClsSer} {t} (h : NoneFor S t) : S.find? (fun s => s.handles t) = none := by
  rw [List.find?_eq_none]
  intro s hs
  simp [h s hs]

theorem anyOf {env : Env} {g : OutGiven} {v w} (h : Ev (fun n => ∀ c, (c = none ∨ c = some .any) → toObjPlain env (seAt env n) g.named g.reuse g.conv g.skipNone c v = .ok w)) :
    AnyForms env g v w := by
  refine h.step (fun n hn c tg hc => ?_)
  rw [toObj_plain hc, hn c hc]
  rfl

theorem anyElems {env : Env} {g : OutGiven} {xs ys : List Val} (hl : xs.length = ys.length) (h : ∀ p ∈ xs.zip ys, AnyForms env g p.1 p.2) :
    Ev (fun n => mapR (fun x => (seAt env n).toObj g.named g.reuse g.conv g.skipNone none .external x) xs = .ok ys) :=
  (Ev.list h).mono (fun _ hn => mapR_zip hl (fun p hp => hn p hp none .external (.inl rfl)))

theorem anySeq {env : Env} {g : OutGiven} {v w} {xs ys : List Val} (hno : NoneFor env.gser (typeOf v)) (hl : xs.length = ys.length)
    (h : ∀ p ∈ xs.zip ys, AnyForms env g p.1 p.2)
    (hv : (v = .list xs ∧ w = .list ys) ∨ (v = .tuple xs ∧ w = .tuple ys) ∨ (∃ b, v = .set b xs) ∧ w = .list ys ∨ v = .deque xs ∧ w = .list ys) : AnyForms env g v w := by
  refine anyOf ((anyElems hl h).mono (fun n hn c _ => ?_))
  unfold toObjPlain
  rcases hv with ⟨rfl, rfl⟩ | ⟨rfl, rfl⟩ | ⟨⟨b, rfl⟩, rfl⟩ | ⟨rfl, rfl⟩ <;> (dsimp only; rw [find_none hno]; dsimp only; rw [hn])

theorem anyDict_forms {env : Env} {g : OutGiven} {k} {kvs es : List (Val × Val)} (hno : NoneFor env.gser (typeOf (.dict k kvs))) (hk : kvs.map (·.1) = es.map (·.1))
    (h : ∀ p ∈ kvs.zip es, AnyForms env g p.1.2 p.2.2) : AnyForms env g (.dict k kvs) (.dict .plain es) := by
  have hl : kvs.length = es.length := by simpa using congrArg List.length hk
  refine anyOf ((Ev.list h).mono (fun n hn c _ => ?_))
  unfold toObjPlain
  dsimp only
  rw [find_none hno]
  dsimp only
  rw [mapR_zip (bs := es) hl (fun p hp => ?_)]
  rw [hn p hp none .external (.inl rfl)]
  dsimp only
  obtain ⟨i, hi, rfl⟩ := List.getElem_of_mem hp
  simp at hi
  have : (kvs.map (·.1))[i]? = (es.map (·.1))[i]? := by rw [hk]
  simp only [List.getElem?_map] at this
  rw [List.getElem?_eq_getElem (show i < kvs.length by omega), List.getElem?_eq_getElem (show i < es.length by omega)] at this
  simp at this
  simp [this]

theorem anyText_forms {env : Env} {g : OutGiven} {v t w} (hno : NoneFor env.gser t) (ht : (∃ k s, v = .std k s ∧ t = .std k ∧ w = if g.reuse = some false then .str s else v) ∨
    (∃ k s, v = .dt k s ∧ t = .dt k ∧ w = if g.reuse = some false then .str s else v)) : AnyForms env g v w := by
  have hre : ∀ x y : Val, (if (g.reuse.getD true) = true then (.ok x : Res Val) else .ok y) = .ok (if g.reuse = some false then y else x) := by
    intro x y
    cases hg : g.reuse with
    | none => rfl
    | some b => cases b <;> rfl
  refine anyOf ((Ev.pos).mono (fun n hn c hc => ?_))
  obtain ⟨m, rfl⟩ := hn
  rcases ht with ⟨k, s, rfl, rfl, rfl⟩ | ⟨k, s, rfl, rfl, rfl⟩
  · have key : cacheSe env (seAt env (m + 1)) (.std k) g.reuse g.conv g.skipNone (.std k s) = .ok (if g.reuse = some false then .str s else .std k s) := by
      unfold cacheSe
      rw [if_pos (by simp [bearable, isStdInst])]
      dsimp only
      have : ∀ cx : SeCx, cx.sers = env.gser → cx.reuse = g.reuse.getD true → (seAt env (m + 1)).render cx { ty := .std k, v := .ok (.std k s) } = .ok (if g.reuse = some false then .str s else .std k s) := by
        intro cx h1 h2
        show renderF env (seAt env m) cx _ = _
        unfold renderF
        rw [pickSer_noneFor (fun _ => by rw [h1]; exact hno)]
        dsimp only
        rw [h2, ← hre]
        rfl
      rw [this _ rfl rfl]
      split
      · rename_i h; cases h
      · rename_i h
        have h := Except.ok.inj h
        split at h <;> cases h
      · rename_i h; cases h; rfl
    unfold toObjPlain
    dsimp only
    rw [find_none (show NoneFor env.gser (typeOf (.std k s)) from hno)]
    rcases hc with rfl | rfl <;> exact key
  · have key : cacheSe env (seAt env (m + 1)) (.dt k) g.reuse g.conv g.skipNone (.dt k s) = .ok (if g.reuse = some false then .str s else .dt k s) := by
      unfold cacheSe
      rw [if_pos (by simp [bearable, isDtInst])]
      dsimp only
      have : ∀ cx : SeCx, cx.sers = env.gser → cx.reuse = g.reuse.getD true → (seAt env (m + 1)).render cx { ty := .dt k, v := .ok (.dt k s) } = .ok (if g.reuse = some false then .str s else .dt k s) := by
        intro cx h1 h2
        show renderF env (seAt env m) cx _ = _
        unfold renderF
        rw [pickSer_noneFor (fun _ => by rw [h1]; exact hno)]
        dsimp only
        rw [h2, ← hre]
      rw [this _ rfl rfl]
      split
      · rename_i h; cases h
      · rename_i h
        have h := Except.ok.inj h
        split at h <;> cases h
      · rename_i h; cases h; rfl
    unfold toObjPlain
    dsimp only
    rw [find_none (show NoneFor env.gser (typeOf (.dt k s)) from hno)]
    rcases hc with rfl | rfl <;> exact key

/-- The form of a value is what is written. -/
def Goal (env : Env) (rank : ClassId → Nat) : WPos → Val → Val → Prop
  | .at c m t, v, w => Forms env c m t v w
  | .field c m case f, v, w => FieldForms env rank c m case f v w
  | .obj g, v, w => ObjForms env g v w
  | .any g, v, w => AnyForms env g v w

theorem forms_main {env : Env} {rank : ClassId → Nat} (hle : ∀ c, rank c ≤ env.classes.length)
    (hrank : ∀ c cd f ch, env.cls c = some cd → f ∈ cd.fields → inlined f = some ch → rank ch < rank c) {P v w} (h : FormOf env P v w) : Goal env rank P v w := by
  induction h with
  | chosen h1 h2 => exact chosen_forms h1 h2
  | leaf h1 h2 => exact leaf_forms h1 h2
  | list h1 h2 h3 _ ih => exact list_forms h1 h2 h3 ih
  | deque h1 h2 h3 _ ih => exact deque_forms h1 h2 h3 ih
  | tupleV h1 h2 h3 _ ih => exact tupleV_forms h1 h2 h3 ih
  | tuple h1 h2 h3 h4 h5 _ ih => exact tuple_forms h1 h2 h3 h4 h5 ih
  | setList h1 h2 h3 h4 _ ih => exact setList_forms h1 h2 h3 h4 ih
  | set h1 h2 h3 h4 _ h6 h7 ih => exact set_forms h1 h2 h3 h4 ih h6 h7
  | counter h1 h2 _ h4 h5 h6 ih => exact counter_forms h1 h2 ih h4 h5 h6
  | dict h1 h2 _ _ h5 h6 ih ih' => exact dict_forms h1 h2 ih ih' h5 h6
  | optNone h1 h2 => exact opt_forms h1 h2 (.inl ⟨rfl, rfl⟩)
  | opt h1 h2 h3 _ ih => exact opt_forms h1 h2 (.inr ⟨h3, ih⟩)
  | union h1 h2 h3 h4 h5 h6 h7 h8 _ h10 ih => exact union_forms h1 h2 h3 h4 h5 h6 h7 h8 ih h10
  | alias h1 _ ih => exact alias_forms h1 ih
  | gen h1 _ ih => exact gen_forms h1 ih
  | cls h1 _ ih => exact cls_forms h1 ih
  | any h1 _ ih => exact any_forms (.inl rfl) h1 ih
  | tvar h1 _ ih => exact any_forms (.inr ⟨_, rfl⟩) h1 ih
  | fieldFn h1 h2 h3 => exact fieldFn_forms h1 h2 h3
  | field h1 h2 _ ih => exact field_forms h1 h2 ih
  | inner h1 h2 h3 h4 _ ih => exact inner_forms hrank h1 h2 h3 h4 ih
  | object h1 h2 h3 h4 h5 _ h7 h8 h9 h10 _ h12 ih ih' => exact object_forms hle hrank h1 h2 h3 h4 h5 ih h7 h8 h9 h10 ih' h12
  | row h1 h2 h3 h4 _ ih => exact row_forms h1 h2 h3 h4 ih
  | through h1 h2 h3 _ h5 _ ih => exact through_forms h1 h2 h3 h5 ih
  | anyNone => exact anyOf (Ev.of_all (fun _ _ _ => rfl))
  | @anyChosen g v t s w h1 h2 h3 h4 =>
    refine anyOf (Ev.of_all (fun n c _ => ?_))
    have hf : env.gser.find? (fun s => s.handles (typeOf v)) = some s := by
      rw [typeOf_iff.1 h2, List.find?_eq_some_iff_append]
      obtain ⟨pre, post, e, h, hp⟩ := h3
      exact ⟨h, pre, post, e, fun x hx => by simp [hp x hx]⟩
    unfold toObjPlain
    cases v <;> first | exact absurd rfl h1 | (dsimp only; rw [hf]; dsimp only; rw [h4]; rfl)
  | anyObj h1 _ ih =>
    refine anyOf (Ev.mono ih (fun n hn c _ => ?_))
    unfold toObjPlain
    dsimp only
    rw [find_none (show NoneFor env.gser (typeOf (.inst _ _)) from h1)]
    exact hn
  | anyList h1 h2 _ ih => exact anySeq h1 h2 ih (.inl ⟨rfl, rfl⟩)
  | anyTuple h1 h2 _ ih => exact anySeq h1 h2 ih (.inr (.inl ⟨rfl, rfl⟩))
  | anySet h1 h2 _ ih => exact anySeq (h1 _ (typeOf_iff.2 rfl)) h2 ih (.inr (.inr (.inl ⟨⟨_, rfl⟩, rfl⟩)))
  | anyDeque h1 h2 _ ih => exact anySeq h1 h2 ih (.inr (.inr (.inr ⟨rfl, rfl⟩)))
  | anyDict h1 h2 _ ih => exact anyDict_forms (h1 _ (typeOf_iff.2 rfl)) h2 ih
  | anyStd h1 => exact anyText_forms h1 (.inl ⟨_, _, rfl, rfl, rfl⟩)
  | anyDt h1 => exact anyText_forms h1 (.inr ⟨_, _, rfl, rfl, rfl⟩)
  | anyEnum h1 =>
    refine anyOf (Ev.of_all (fun n c _ => ?_))
    unfold toObjPlain
    dsimp only
    rw [find_none (show NoneFor env.gser (typeOf (.enum _ _)) from h1)]
  | anyScalar h1 h2 =>
    refine anyOf (Ev.of_all (fun n c _ => ?_))
    have h1 := h1 _ (typeOf_iff.2 rfl)
    unfold toObjPlain
    cases h2 <;> first | rfl | (dsimp only; rw [find_none h1])

end Verif
