import Verif.Spec.Vars
import Verif.Lemmas.WriteTo
import Verif.Lemmas.Safe
import Verif.Lemmas.DeTotal
import Verif.Lemmas.Agree
/-!
# Class variables
-/

namespace Verif
open Spec

theorem seVAt_render {env vs n} : (seVAt env vs (n + 1)).render = renderF env ((seVAt env vs n).at false) := rfl
theorem seVAt_flat {env vs n} : (seVAt env vs (n + 1)).flat = flatV env vs (seVAt env vs n) := rfl
theorem seVAt_cls {env vs n} : (seVAt env vs (n + 1)).cls = clsV env vs (seVAt env vs n) := rfl
theorem seVAt_toObj {env vs n} : (seVAt env vs (n + 1)).toObj = toObjF env ((seVAt env vs n).at false) := rfl

/-! ## Without the option the layer changes nothing -/

theorem flatV_false {env : Env} {vs : Vars} {R : VSeRec} : flatV env vs R false = flatF env (R.at false) := by
  funext cx a
  unfold flatV
  split
  · split <;> rename_i h
    · exact h.symm
    · exact h.symm
  · rfl

theorem lvalsV_false {env : Env} {vs : Vars} {case} : ∀ n, lvalsV env vs false case n = lvals env case n
  | 0 => rfl
  | n + 1 => by
    funext f
    unfold lvalsV lvals
    rw [lvalsV_false n]
    cases f.flatChild with
    | none => rfl
    | some c =>
      dsimp only
      cases env.cls c with
      | none => rfl
      | some cd => simp

theorem seFieldsV_false {env : Env} {vs : Vars} {R : VSeRec} {cx cd obj} : ∀ fs res, seFieldsV env vs false R cx cd obj res fs = seFields env (R.at false) cx cd obj res fs
  | [], _ => rfl
  | f :: fs, res => by
    have hf : seFieldV env vs false R cx cd obj res f = seField env (R.at false) cx cd obj res f := by
      unfold seFieldV seField
      rw [lvalsV_false]
      rfl
    unfold seFieldsV seFields
    rw [hf]
    cases seField env (R.at false) cx cd obj res f with
    | error e => rfl
    | ok res' => exact seFieldsV_false fs res'

/-- An object of a class without the option. -/
theorem clsV_off {env : Env} {vs : Vars} {R : VSeRec} {named re cv sn v} (h : ∀ c attrs, v = .inst c attrs → vs.on c = false) :
    clsV env vs R named re cv sn v = clsF env (R.at false) named re cv sn v := by
  cases v with
  | inst c attrs =>
    have h := h c attrs rfl
    unfold clsV clsF Vars.written
    simp only [h, Bool.false_and]
    cases env.cls c with
    | none => rfl
    | some cd =>
      dsimp only
      split
      · rfl
      · split
        · rw [seFieldsV_false]
          cases seFields env (R.at false) (clsSeCx env c cd named re cv sn) cd (.inst c attrs) [] cd.seFieldsOf <;> rfl
        · show (match concatR (fun f => (R.at false).flat _ _) _ with | .error e => _ | .ok ws => _) = _
          cases concatR (fun f => (R.at false).flat (clsSeCx env c cd named re cv sn) (seFieldArg f (.ok (.inst c attrs)))) cd.seFieldsOf with
          | error e => rfl
          | ok ws => simp [mapR]
  | _ => rfl

/-- Serialization is that of `Model/Se.lean` where no class has the option. -/
theorem seVAt_off {env : Env} {vs : Vars} (h : ∀ c, vs.on c = false) : ∀ n, (seVAt env vs n).at false = seAt env n
  | 0 => rfl
  | n + 1 => by
    have ih := seVAt_off (env := env) h n
    have hc : clsV env vs (seVAt env vs n) = clsF env ((seVAt env vs n).at false) := by
      funext named re cv sn v
      exact clsV_off fun c _ _ => h c
    show ({ render := renderF env ((seVAt env vs n).at false), flat := flatV env vs (seVAt env vs n) false, cls := clsV env vs (seVAt env vs n),
            toObj := toObjF env ((seVAt env vs n).at false) } : SeRec) = _
    rw [flatV_false, hc, ih]
    rfl

/-! ## Calls on values with a property -/

/-- A property of values that parts inherit. -/
structure PartsClosed (P : Val → Prop) : Prop where
  child : ∀ x v, Child x v → P v → P x
  attr : ∀ c attrs nm x, attrs.lookup nm = some x → P (.inst c attrs) → P x
  str : ∀ s, P (.str s)

theorem PartsClosed.iter {P} (hP : PartsClosed P) {v xs} (hv : P v) (h : pyIter v = .ok xs) : ∀ x ∈ xs, P x := by
  intro x hx
  rcases child_iter h hx with h | ⟨-, s, rfl⟩
  · exact hP.child _ _ h hv
  · exact hP.str s

theorem PartsClosed.index {P} (hP : PartsClosed P) {v i x} (hv : P v) (h : pyIndex v i = .ok x) : P x := by
  rcases child_index h with h | ⟨-, s, rfl⟩
  · exact hP.child _ _ h hv
  · exact hP.str s

theorem PartsClosed.items {P} (hP : PartsClosed P) {v kvs} (hv : P v) (h : pyItems v = .ok kvs) : ∀ e ∈ kvs, P e.1 ∧ P e.2 :=
  fun _ he => ⟨hP.child _ _ (child_items h he).1 hv, hP.child _ _ (child_items h he).2 hv⟩

/-- The functions agree on values with the property. -/
structure AgreeOn (P : Val → Prop) (r r' : SeRec) : Prop where
  render : ∀ cx a, (∀ v, a.v = .ok v → P v) → r.render cx a = r'.render cx a
  flat : ∀ cx a, (∀ v, a.v = .ok v → P v) → r.flat cx a = r'.flat cx a
  cls : ∀ nm re cv sn v, P v → r.cls nm re cv sn v = r'.cls nm re cv sn v
  toObj : ∀ nm re cv sn c tg v, P v → r.toObj nm re cv sn c tg v = r'.toObj nm re cv sn c tg v

theorem seUnion_on {env : Env} {P r r'} (h : AgreeOn P r r') {cx v} (hv : P v) : ∀ ts, seUnion env r cx v ts = seUnion env r' cx v ts
  | [] => rfl
  | t :: ts => by
    unfold seUnion
    rw [h.render cx { ty := t, v := .ok v } (by intro x hx; cases hx; exact hv), seUnion_on h hv ts]

theorem elems_on {P} (hP : PartsClosed P) {r r'} (h : AgreeOn P r r') {cx t ser v xs} (hv : P v) (hi : pyIter v = .ok xs) :
    mapR (fun x => r.render cx { ty := t, ser := ser, v := .ok x }) xs = mapR (fun x => r'.render cx { ty := t, ser := ser, v := .ok x }) xs :=
  mapR_congr fun x hx => h.render _ _ (by intro y hy; cases hy; exact hP.iter hv hi x hx)

theorem renderF_on {env : Env} {P} (hP : PartsClosed P) {r r'} (h : AgreeOn P r r') {cx a} (ha : ∀ v, a.v = .ok v → P v) :
    renderF env r cx a = renderF env r' cx a := by
  obtain ⟨ty, ser, fl, v⟩ := a
  dsimp only at ha
  unfold renderF
  have hty : ∀ t, r.render cx { ty := t, ser := ser, flatten := fl, v := v } = r'.render cx { ty := t, ser := ser, flatten := fl, v := v } :=
    fun t => h.render _ _ ha
  cases v with
  | error e =>
    cases ty <;> simp only [hty]
  | ok v =>
    have hv := ha v rfl
    have hel : ∀ t ser, r.render cx { ty := t, ser := ser, v := .ok v } = r'.render cx { ty := t, ser := ser, v := .ok v } :=
      fun t ser => h.render _ _ (by intro y hy; cases hy; exact hv)
    have hit : ∀ t, (match pyIter v with
        | .error e => (.error e : Res (List Val))
        | .ok xs => mapR (fun x => r.render cx { ty := t, ser := ser, v := .ok x }) xs) = (match pyIter v with
        | .error e => .error e
        | .ok xs => mapR (fun x => r'.render cx { ty := t, ser := ser, v := .ok x }) xs) := by
      intro t
      cases hi : pyIter v with
      | error e => rfl
      | ok xs => exact elems_on hP h hv hi
    dsimp only
    cases ty with
    | gen c args => simp only [hty]
    | alias nm t => simp only [hty]
    | list k t | set k t | deque t | tupleV t =>
      cases hi : pyIter v with
      | error e => rfl
      | ok xs => simp only [elems_on hP h hv hi]
    | counter t =>
      cases hi : pyItems v with
      | error e => rfl
      | ok kvs =>
        have : mapR (fun kv : Val × Val => match r.render cx { ty := t, ser := ser, v := .ok kv.1 } with
            | .ok k => (.ok (k, kv.2) : Res (Val × Val))
            | .error e => .error e) kvs = mapR (fun kv : Val × Val => match r'.render cx { ty := t, ser := ser, v := .ok kv.1 } with
            | .ok k => .ok (k, kv.2)
            | .error e => .error e) kvs :=
          mapR_congr fun kv hkv => by rw [h.render _ { ty := t, ser := ser, v := .ok kv.1 } (by intro y hy; cases hy; exact (hP.items hv hi kv hkv).1)]
        dsimp only
        generalize hA : mapR _ kvs = A
        generalize hB : mapR _ kvs = B
        have e : A = B := hA.symm.trans (this.trans hB)
        subst e
        rfl
    | dict k kt vt =>
      cases hi : pyItems v with
      | error e => rfl
      | ok kvs =>
        have : mapR (fun kv : Val × Val => match r.render cx { ty := kt, ser := ser, v := .ok kv.1 } with
            | .error e => (.error e : Res (Val × Val))
            | .ok k => match r.render cx { ty := vt, ser := ser, v := .ok kv.2 } with
              | .ok w => .ok (k, w)
              | .error e => .error e) kvs = mapR (fun kv : Val × Val => match r'.render cx { ty := kt, ser := ser, v := .ok kv.1 } with
            | .error e => .error e
            | .ok k => match r'.render cx { ty := vt, ser := ser, v := .ok kv.2 } with
              | .ok w => .ok (k, w)
              | .error e => .error e) kvs :=
          mapR_congr fun kv hkv => by
            rw [h.render _ { ty := kt, ser := ser, v := .ok kv.1 } (by intro y hy; cases hy; exact (hP.items hv hi kv hkv).1),
              h.render _ { ty := vt, ser := ser, v := .ok kv.2 } (by intro y hy; cases hy; exact (hP.items hv hi kv hkv).2)]
        dsimp only
        generalize hA : mapR _ kvs = A
        generalize hB : mapR _ kvs = B
        have e : A = B := hA.symm.trans (this.trans hB)
        subst e
        rfl
    | tuple ts =>
      have : mapR (fun it : Ty × Nat => r.render cx { ty := it.1, ser := ser, v := pyIndex v it.2 }) ts.zipIdx =
          mapR (fun it : Ty × Nat => r'.render cx { ty := it.1, ser := ser, v := pyIndex v it.2 }) ts.zipIdx :=
        mapR_congr fun it _ => h.render _ _ fun y hy => hP.index hv hy
      cases ts with
      | nil => rfl
      | cons t ts => dsimp only; simp only [this]
    | dictB k => cases k <;> rfl
    | listB k => cases k <;> rfl
    | union ts =>
      simp only [seUnion_on h hv]
      cases v <;> cases ts <;> simp only [hel]
    | cls c => simp only [h.cls _ _ _ _ _ hv]
    | any => simp only [h.toObj _ _ _ _ _ _ _ hv]
    | tvar nm => simp only [h.toObj _ _ _ _ _ _ _ hv]
    | _ => rfl

theorem fieldArg_on {P} (hP : PartsClosed P) {f : FieldDef} {v : Res Val} (hv : ∀ x, v = .ok x → P x) : ∀ x, (seFieldArg f v).v = .ok x → P x := by
  intro x hx
  unfold seFieldArg getAttr at hx
  dsimp only at hx
  split at hx
  · split at hx
    · split at hx
      · cases hx; exact hP.attr _ _ _ _ ‹_› (hv _ rfl)
      · cases hx
    · cases hx
  · cases hx

theorem flatF_on {env : Env} {P} (hP : PartsClosed P) {r r'} (h : AgreeOn P r r') {cx a} (ha : ∀ v, a.v = .ok v → P v) :
    flatF env r cx a = flatF env r' cx a := by
  unfold flatF
  rw [h.render cx a ha]
  have hf : ∀ fs : List FieldDef, concatR (fun f => r.flat cx (seFieldArg f a.v)) fs = concatR (fun f => r'.flat cx (seFieldArg f a.v)) fs :=
    fun fs => concatR_congr fun f _ => h.flat _ _ (fieldArg_on hP ha)
  have ht : ∀ t, r.flat cx { a with ty := t } = r'.flat cx { a with ty := t } := fun t => h.flat _ _ ha
  simp only [hf, ht]

/-- The default values of the class are among them. -/
def DefaultsIn (P : Val → Prop) (cd : ClassDef) : Prop := ∀ f ∈ cd.fields, ∀ d, f.dflt = some d → P d

theorem skips_on {env : Env} {P} {r r'} (h : AgreeOn P r r') {cx cd} {f : FieldDef} {w} (hd : ∀ d, f.dflt = some d → P d) :
    skips env r cx (f.skipRule cd) w = skips env r' cx (f.skipRule cd) w := by
  unfold FieldDef.skipRule
  cases f.skipIf with
  | some p => rfl
  | none =>
    dsimp only
    split
    · rfl
    · split
      · cases hx : f.dflt with
        | none => rfl
        | some d =>
          unfold skips
          cases d with
          | inst c attrs => dsimp only; rw [h.toObj _ _ _ _ _ _ _ (hd _ hx)]
          | _ => rfl
      · split <;> rfl

theorem seFields_on {env : Env} {P} {r r'} (h : AgreeOn P r r') {cx cd obj} (ho : ∀ (f : FieldDef) x, (seFieldArg f (.ok obj)).v = .ok x → P x) :
    ∀ fs res, (∀ f ∈ fs, ∀ d, f.dflt = some d → P d) → seFields env r cx cd obj res fs = seFields env r' cx cd obj res fs
  | [], _, _ => rfl
  | f :: fs, res, hd => by
    have hf : seField env r cx cd obj res f = seField env r' cx cd obj res f := by
      unfold seField
      rw [h.flat cx _ (ho f)]
      simp only [skips_on h (hd f (by simp))]
    unfold seFields
    rw [hf]
    cases seField env r' cx cd obj res f with
    | error e => rfl
    | ok res' => exact seFields_on h ho fs res' fun g hg => hd g (by simp [hg])

theorem clsF_on {env : Env} {P} (hP : PartsClosed P) {r r'} (h : AgreeOn P r r') (hD : ∀ c cd, env.cls c = some cd → DefaultsIn P cd) {nm re cv sn v} (hv : P v) :
    clsF env r nm re cv sn v = clsF env r' nm re cv sn v := by
  unfold clsF
  have hfl : ∀ cx f, r.flat cx (seFieldArg f (.ok v)) = r'.flat cx (seFieldArg f (.ok v)) :=
    fun cx f => h.flat cx _ (fieldArg_on hP (by intro x hx; cases hx; exact hv))
  cases v with
  | inst c attrs =>
    dsimp only
    cases hc : env.cls c with
    | none => rfl
    | some cd =>
      dsimp only
      rw [seFields_on h (fun f => fieldArg_on hP (by intro x hx; cases hx; exact hv)) cd.seFieldsOf [] fun f hf => hD c cd hc f (List.mem_filter.1 hf).1]
      simp only [hfl]
  | _ => rfl

theorem cacheSe_on {env : Env} {P r r'} (h : AgreeOn P r r') {t re cv sn v} (hv : P v) : cacheSe env r t re cv sn v = cacheSe env r' t re cv sn v := by
  unfold cacheSe
  simp only [h.render _ { ty := t, v := .ok v } (by intro x hx; cases hx; exact hv)]

theorem toObjF_on {env : Env} {P} (hP : PartsClosed P) {r r'} (h : AgreeOn P r r') {nm re cv sn c tg v} (hv : P v) :
    toObjF env r nm re cv sn c tg v = toObjF env r' nm re cv sn c tg v := by
  unfold toObjF
  congr 1
  generalize (match c with | some (.alias _ t) => some t | c => c) = c
  have hels : ∀ xs : List Val, (∀ x ∈ xs, Child x v) → mapR (fun x => r.toObj nm re cv sn none .external x) xs = mapR (fun x => r'.toObj nm re cv sn none .external x) xs :=
    fun xs hx => mapR_congr fun x hx' => h.toObj _ _ _ _ _ _ _ (hP.child _ _ (hx x hx') hv)
  unfold toObjBody cacheSeUnion
  simp only [seUnion_on h hv]
  cases v with
  | inst c attrs => simp only [h.cls _ _ _ _ _ hv]
  | list xs => simp only [hels xs fun x hx => .list hx]
  | tuple xs => simp only [hels xs fun x hx => .tuple hx]
  | set b xs => simp only [hels xs fun x hx => .set hx]
  | deque xs => simp only [hels xs fun x hx => .deque hx]
  | dict k kvs =>
    have : mapR (fun kv : Val × Val => match r.toObj nm re cv sn none .external kv.2 with
        | .ok w => (.ok (kv.1, w) : Res (Val × Val))
        | .error e => .error e) kvs = mapR (fun kv : Val × Val => match r'.toObj nm re cv sn none .external kv.2 with
        | .ok w => .ok (kv.1, w)
        | .error e => .error e) kvs :=
      mapR_congr fun kv hkv => by rw [h.toObj _ _ _ _ _ _ _ (hP.child _ _ (.value hkv) hv)]
    dsimp only
    generalize hA : mapR _ kvs = A
    generalize hB : mapR _ kvs = B
    have e : A = B := hA.symm.trans (this.trans hB)
    subst e
    rfl
  | std k s => simp only [cacheSe_on h hv]
  | dt k s => simp only [cacheSe_on h hv]
  | _ => rfl

/-! ## Values without such objects -/

theorem freeOfVars_closed {vs : Vars} : PartsClosed (FreeOfVars vs) where
  child := by
    intro x v hc hv c ho
    refine hv c ?_
    cases hc with
    | list h => exact .list h ho
    | tuple h => exact .tuple h ho
    | deque h => exact .deque h ho
    | set h => exact .set h ho
    | key h => exact .key h ho
    | value h => exact .value h ho
  attr := by
    intro c attrs nm x hl hv c' ho
    exact hv c' (.attr (mem_of_lookup' hl) ho)
  str := by intro s c h; cases h

/-- Such values are written as if the option did not exist. -/
theorem seVAt_free {env : Env} {vs : Vars} (hD : PlainDefaults env vs) : ∀ n, AgreeOn (FreeOfVars vs) ((seVAt env vs n).at false) (seAt env n)
  | 0 => ⟨fun _ _ _ => rfl, fun _ _ _ => rfl, fun _ _ _ _ _ _ => rfl, fun _ _ _ _ _ _ _ _ => rfl⟩
  | n + 1 => by
    have ih := seVAt_free hD n
    refine ⟨fun cx a ha => renderF_on freeOfVars_closed ih ha, fun cx a ha => ?_, fun nm re cv sn v hv => ?_, fun nm re cv sn c tg v hv => toObjF_on freeOfVars_closed ih hv⟩
    · show flatV env vs (seVAt env vs n) false cx a = flatF env (seAt env n) cx a
      rw [flatV_false]
      exact flatF_on freeOfVars_closed ih ha
    · show clsV env vs (seVAt env vs n) nm re cv sn v = clsF env (seAt env n) nm re cv sn v
      rw [clsV_off (by rintro c attrs rfl; exact hv c .here)]
      exact clsF_on freeOfVars_closed ih hD hv

/-! ## An object of a class with the option -/

theorem flatV_unflat {env : Env} {vs : Vars} {R : VSeRec} {b cx} {a : SeArg} (h : a.flatten = false) : flatV env vs R b cx a = flatF env (R.at false) cx a := by
  have hs : flatV.splitFlat a cx = none := by unfold flatV.splitFlat; rw [h]; rfl
  unfold flatV
  rw [hs]
  unfold flatF
  rw [h]
  rfl

theorem lvalsV_unflat {env : Env} {vs : Vars} {b case n f} (h : f.flatten = false) : lvalsV env vs b case (n + 1) f = lvals env case (n + 1) f := by
  unfold lvalsV lvals FieldDef.flatChild
  rw [h]
  rfl

theorem seFieldsV_unflat {env : Env} {vs : Vars} {b} {R : VSeRec} {cx cd obj} : ∀ fs res, (∀ f ∈ fs, f.flatten = false) →
    seFieldsV env vs b R cx cd obj res fs = seFields env (R.at false) cx cd obj res fs
  | [], _, _ => rfl
  | f :: fs, res, h => by
    have hf : seFieldV env vs b R cx cd obj res f = seField env (R.at false) cx cd obj res f := by
      unfold seFieldV seField
      rw [lvalsV_unflat (h f (by simp))]
      rfl
    unfold seFieldsV seFields
    rw [hf]
    cases seField env (R.at false) cx cd obj res f with
    | error e => rfl
    | ok res' => exact seFieldsV_unflat fs res' fun g hg => h g (by simp [hg])

/-- Without flattening, the keys are the names of the fields. -/
theorem seFields_wires {env : Env} {r : SeRec} {cx cd obj} : ∀ (fs : List FieldDef) res res', (∀ f ∈ fs, f.flatten = false) →
    seFields env r cx cd obj res fs = .ok res' → ∀ e ∈ res', (∃ e' ∈ res, e.1 = e'.1) ∨ ∃ f ∈ fs, e.1 = .str (f.conv cd.seCase)
  | [], res, res', _, h => by cases h; exact fun e he => .inl ⟨e, he, rfl⟩
  | f :: fs, res, res', hfl, h => by
    unfold seFields at h
    cases hf : seField env r cx cd obj res f with
    | error e => rw [hf] at h; cases h
    | ok res1 =>
      rw [hf] at h
      intro e he
      have h1 : ∀ e ∈ res1, (∃ e' ∈ res, e.1 = e'.1) ∨ e.1 = .str (f.conv cd.seCase) := by
        unfold seField at hf
        rw [lvals_unflat (hfl f (by simp))] at hf
        dsimp only at hf
        split at hf
        · cases hf
        · split at hf
          · cases hf
          · split at hf
            · cases hf
            · cases hf; exact fun e he => .inl ⟨e, he, rfl⟩
            · dsimp only [assign] at hf
              cases hf
              intro e he
              rcases dictSet_from he with h | ⟨-, h | h⟩
              · exact .inl ⟨e, h, rfl⟩
              · exact .inr h
              · exact .inr (by rw [pyEq_str_right] at h; exact h)
      rcases seFields_wires fs res1 res' (fun g hg => hfl g (by simp [hg])) h e he with ⟨e', he', hk⟩ | ⟨g, hg, hk⟩
      · rcases h1 e' he' with ⟨e'', he'', hk'⟩ | hk'
        · exact .inl ⟨e'', he'', hk.trans hk'⟩
        · exact .inr ⟨f, by simp, hk.trans hk'⟩
      · exact .inr ⟨g, by simp [hg], hk⟩

theorem attr_self {vs : Vars} {c attrs x} (h : ((vs.vars c).map (·.name)).Nodup) (hx : x ∈ vs.vars c) : vs.attr (.ok (.inst c attrs)) x.name = .ok x.val := by
  have : ∀ xs : List VarDef, (xs.map (·.name)).Nodup → x ∈ xs → xs.find? (fun y => y.name == x.name) = some x := by
    intro xs
    induction xs with
    | nil => intro _ h; cases h
    | cons y ys ih =>
      intro hn hx
      rw [List.map_cons, List.nodup_cons] at hn
      rw [List.find?_cons]
      rcases List.mem_cons.1 hx with rfl | hx
      · simp
      · have : (y.name == x.name) = false := by
          rw [beq_eq_false_iff_ne]
          intro e
          exact hn.1 (e ▸ List.mem_map_of_mem hx)
        rw [this]
        exact ih hn.2 hx
  unfold Vars.attr
  dsimp only
  rw [this _ h hx]

theorem ownSe_var {env : Env} {vs : Vars} {c cd nm re cv sn x} (h : VarsOk env vs c cd) (hx : x ∈ vs.vars c) :
    OwnSe env (clsSeCx env c cd nm re cv sn) x.ty := by
  intro ts hts us hus
  refine h.unions x hx ts hts us (unionsOf_iff.1 (findUnion_mem hus)) ?_
  unfold findUnion at hus
  simpa using List.find?_some hus

/-- What rendering a class variable gives. -/
theorem var_out {env : Env} {vs : Vars} {c cd attrs nm re cv sn x w n} (hU : DistinctUnions env) (hD : PlainDefaults env vs) (h : VarsOk env vs c cd)
    (hx : x ∈ vs.vars c)
    (hr : (seVAt env vs n).render (clsSeCx env c cd nm re cv sn) (vs.arg x (.ok (.inst c attrs))) = .ok w) :
    OutTo env (OutGiven.inside env cd ⟨nm, re, cv, sn⟩) x.ty x.val w := by
  have hv : (vs.arg x (.ok (.inst c attrs))).v = .ok x.val := attr_self (attrs := attrs) h.once hx
  have he := (seVAt_free hD n).render (clsSeCx env c cd nm re cv sn) (vs.arg x (.ok (.inst c attrs))) (by rw [hv]; intro v hv; cases hv; exact h.vals x hx)
  have hr : (seAt env n).render (clsSeCx env c cd nm re cv sn) (vs.arg x (.ok (.inst c attrs))) = .ok w := he.symm.trans hr
  exact ((out_at hU n).render _ _ _ (ownSe_var h hx) hr).value _ hv (by intro g hg; cases hg)

theorem varKey_eq {cd : ClassDef} {x : VarDef} : x.field.conv cd.seCase = varKey cd x := rfl

theorem seVars_out {env : Env} {vs : Vars} {c cd attrs nm re cv sn n} (hU : DistinctUnions env) (hD : PlainDefaults env vs) (h : VarsOk env vs c cd) :
    ∀ (xs : List VarDef) (res res' : List (Val × Val)), (∀ x ∈ xs, x ∈ vs.vars c) → (xs.map (varKey cd)).Nodup →
      (∀ e ∈ res, ∀ x ∈ xs, pyEq e.1 (.str (varKey cd x)) = false) →
      seVars vs (seVAt env vs n) (clsSeCx env c cd nm re cv sn) cd (.inst c attrs) res xs = .ok res' →
      ∃ zs, res' = res ++ zs ∧ VarEntries env (OutGiven.inside env cd ⟨nm, re, cv, sn⟩) cd xs zs
  | [], res, res', _, _, _, h => by cases h; exact ⟨[], by simp, .nil⟩
  | x :: xs, res, res', hxs, hnd, hnew, hs => by
    rw [List.map_cons, List.nodup_cons] at hnd
    have hput : ∀ w, (seVAt env vs n).render (clsSeCx env c cd nm re cv sn) (vs.arg x (.ok (.inst c attrs))) = .ok w →
        (sn = true → w ≠ .none) →
        seVars vs (seVAt env vs n) (clsSeCx env c cd nm re cv sn) cd (.inst c attrs) (dictSet (.str (varKey cd x)) w res) xs = .ok res' →
        ∃ zs, res' = res ++ zs ∧ VarEntries env (OutGiven.inside env cd ⟨nm, re, cv, sn⟩) cd (x :: xs) zs := by
      intro w hw hne hs
      rw [dictSet_new (fun kv hkv => hnew kv hkv x (by simp))] at hs
      obtain ⟨zs, h1, h2⟩ := seVars_out hU hD h xs _ res' (fun y hy => hxs y (by simp [hy])) hnd.2 (fun a ha y hy => by
        rcases List.mem_append.1 ha with ha | ha
        · exact hnew a ha y (by simp [hy])
        · rw [List.mem_singleton.1 ha, Bool.eq_false_iff]
          intro hpe
          rw [pyEq_str_right] at hpe
          exact hnd.1 (Val.str.inj hpe ▸ List.mem_map_of_mem hy)) hs
      exact ⟨_ :: zs, by rw [h1]; simp, .entry (var_out hU hD h (hxs x (by simp)) hw) hne h2⟩
    unfold seVars at hs
    cases hw : (seVAt env vs n).render (clsSeCx env c cd nm re cv sn) (vs.arg x (.ok (.inst c attrs))) with
    | error e => rw [hw] at hs; cases hs
    | ok w =>
      rw [hw] at hs
      by_cases hwn : w = .none
      · subst hwn
        dsimp only at hs
        cases hsn : (clsSeCx env c cd nm re cv sn).skipNone with
        | true =>
          rw [hsn, if_pos rfl] at hs
          obtain ⟨zs, h1, h2⟩ := seVars_out hU hD h xs res res' (fun y hy => hxs y (by simp [hy])) hnd.2 (fun a ha y hy => hnew a ha y (by simp [hy])) hs
          exact ⟨zs, h1, .out hsn (var_out hU hD h (hxs x (by simp)) hw) h2⟩
        | false =>
          rw [hsn] at hs
          exact hput _ hw (fun e => by rw [show sn = false from hsn] at e; cases e) hs
      · refine hput w hw (fun _ => hwn) ?_
        cases w <;> first | exact hs | exact absurd rfl hwn

theorem field_free {vs : Vars} {c attrs} (h : ∀ e ∈ attrs, FreeOfVars vs e.2) (f : FieldDef) : ∀ x, (seFieldArg f (.ok (.inst c attrs))).v = .ok x → FreeOfVars vs x := by
  intro x hx
  unfold seFieldArg getAttr at hx
  dsimp only at hx
  split at hx
  · cases hx; exact h _ (mem_of_lookup' ‹_›)
  · cases hx

/-- The two forms of an object of a class with the option. -/
theorem cls_vars {env : Env} {vs : Vars} {c cd attrs re cv sn w n} (hU : DistinctUnions env) (hD : PlainDefaults env vs) (h : VarsOk env vs c cd)
    (hon : vs.on c = true) (ha : ∀ e ∈ attrs, FreeOfVars vs e.2) (hw : (seVAt env vs (n + 1)).cls true re cv sn (.inst c attrs) = .ok w) :
    ∃ es zs, (seAt env (n + 1)).cls true re cv sn (.inst c attrs) = .ok (.dict .plain es) ∧ w = .dict .plain (es ++ zs) ∧
      (∀ e ∈ es, ∃ f ∈ cd.fields, serializable f = true ∧ e.1 = .str (f.conv cd.seCase)) ∧
      VarEntries env (OutGiven.inside env cd ⟨true, re, cv, sn⟩) cd (vs.vars c) zs := by
  rw [seVAt_cls] at hw
  rw [seAt_cls]
  unfold clsV Vars.written at hw
  unfold clsF
  dsimp only at hw ⊢
  have hmem : ∀ f ∈ cd.seFieldsOf, f ∈ cd.fields ∧ serializable f = true := fun f hf => List.mem_filter.1 (by rw [← seFieldsOf_eq]; exact hf)
  rw [h.found] at hw ⊢
  dsimp only at hw ⊢
  rw [h.notThrough, hon, seFieldsV_unflat _ _ fun f hf => h.unflat f (hmem f hf).1,
    seFields_on (seVAt_free hD n) (field_free ha) _ _ fun f hf => hD c cd h.found f (hmem f hf).1] at hw
  rw [h.notThrough]
  simp only [Bool.false_eq_true, if_false, if_true] at hw ⊢
  cases hs : seFields env (seAt env n) (clsSeCx env c cd true re cv sn) cd (.inst c attrs) [] cd.seFieldsOf with
  | error e => rw [hs] at hw; cases hw
  | ok es =>
    rw [hs] at hw
    dsimp only at hw
    have hk : ∀ e ∈ es, ∃ f ∈ cd.fields, serializable f = true ∧ e.1 = .str (f.conv cd.seCase) := by
      intro e he
      rcases seFields_wires _ _ _ (fun f hf => h.unflat f (hmem f hf).1) hs e he with ⟨_, h0, _⟩ | ⟨f, hf, hk⟩
      · cases h0
      · exact ⟨f, (hmem f hf).1, (hmem f hf).2, hk⟩
    split at hw
    · rename_i res hres
      cases hw
      obtain ⟨zs, rfl, hz⟩ := seVars_out hU hD h (vs.vars c) es res (fun x hx => hx) h.wires (fun e he x hx => by
        obtain ⟨f, hf, hsf, hk⟩ := hk e he
        rw [hk, Bool.eq_false_iff]
        intro hpe
        rw [pyEq_str_right] at hpe
        exact h.apart f hf hsf x hx (Val.str.inj hpe)) hres
      exact ⟨es, zs, rfl, rfl, hk, hz⟩
    · cases hw

theorem row_vars {env : Env} {vs : Vars} {c cd attrs re cv sn w n} (hU : DistinctUnions env) (hD : PlainDefaults env vs) (h : VarsOk env vs c cd)
    (hon : vs.on c = true) (ha : ∀ e ∈ attrs, FreeOfVars vs e.2) (hw : (seVAt env vs (n + 1)).cls false re cv sn (.inst c attrs) = .ok w) :
    ∃ ws zs, (seAt env (n + 1)).cls false re cv sn (.inst c attrs) = .ok (.tuple ws) ∧ w = .tuple (ws ++ zs) ∧ zs.length = (vs.vars c).length ∧
      ∀ (i : Nat) x z, (vs.vars c)[i]? = some x → zs[i]? = some z → OutTo env (OutGiven.inside env cd ⟨false, re, cv, sn⟩) x.ty x.val z := by
  rw [seVAt_cls] at hw
  rw [seAt_cls]
  unfold clsV Vars.written at hw
  unfold clsF
  dsimp only at hw ⊢
  have hmem : ∀ f ∈ cd.seFieldsOf, f ∈ cd.fields ∧ serializable f = true := fun f hf => List.mem_filter.1 (by rw [← seFieldsOf_eq]; exact hf)
  rw [h.found] at hw ⊢
  dsimp only at hw ⊢
  rw [h.notThrough, hon] at hw
  rw [h.notThrough]
  simp only [Bool.false_eq_true, if_false, if_true] at hw ⊢
  have hc : concatR (fun f => (seVAt env vs n).flat true (clsSeCx env c cd false re cv sn) (seFieldArg f (.ok (.inst c attrs)))) cd.seFieldsOf =
      concatR (fun f => (seAt env n).flat (clsSeCx env c cd false re cv sn) (seFieldArg f (.ok (.inst c attrs)))) cd.seFieldsOf :=
    concatR_congr fun f hf => by
      cases n with
      | zero => rfl
      | succ n =>
        rw [seVAt_flat, flatV_unflat (h.unflat f (hmem f hf).1)]
        exact flatF_on freeOfVars_closed (seVAt_free hD n) (field_free ha f)
  rw [hc] at hw
  split at hw
  · cases hw
  · rename_i ws hws
    rw [hws]
    split at hw
    · rename_i zs hzs
      cases hw
      refine ⟨ws, zs, rfl, rfl, mapR_ok_length hzs, fun i x z hx hz => ?_⟩
      exact var_out hU hD h (List.mem_of_getElem? hx) (mapR_pos hzs hx hz)
    · cases hw

end Verif
