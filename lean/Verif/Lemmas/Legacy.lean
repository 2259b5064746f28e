import Verif.Spec.Legacy
import Verif.Lemmas.Serializers
import Verif.Lemmas.ReadTo
/-!
# Class-level `serializer=` and `deserializer=` functions
-/

namespace Verif
open Spec Props

theorem seLAt_render {env leg n} : (seLAt env leg (n + 1)).render = renderL env (seLAt env leg n) := rfl
theorem seLAt_flat {env leg n} : (seLAt env leg (n + 1)).flat = flatL env (seLAt env leg n) := rfl
theorem seLAt_cls {env leg n} : (seLAt env leg (n + 1)).cls = clsL env leg (seLAt env leg n) := rfl
theorem seLAt_toObj {env leg n} : (seLAt env leg (n + 1)).toObj = toObjF env ((seLAt env leg n).at none) := rfl

/-! ## Without functions the layer changes nothing -/

theorem legInner_none (t : Ty) : legInner none t = none := by
  unfold legInner
  split
  · split <;> rfl
  · rfl

theorem legUsed_none {sers a} : legUsed none sers a = none := by
  unfold legUsed; split <;> rfl

theorem renderL_none {env : Env} {R : LSeRec} : renderL env R none = renderF env (R.at none) := by
  funext cx a
  unfold renderL
  rw [legInner_none, legUsed_none]

theorem flatL_none {env : Env} {R : LSeRec} : flatL env R none = flatF env (R.at none) := by
  funext cx a
  unfold flatL
  rw [legUsed_none]

/-- Serialization is that of `Model/Se.lean` where no class has a function. -/
theorem seLAt_none {env : Env} {leg : Legacy} (h : ∀ c, leg.ser c = none) : ∀ n, (seLAt env leg n).at none = seAt env n
  | 0 => rfl
  | n + 1 => by
    have ih := seLAt_none (env := env) h n
    have hc : clsL env leg (seLAt env leg n) = clsF env ((seLAt env leg n).at none) := by
      funext named re cv sn v
      unfold clsL
      cases v with
      | inst c attrs => dsimp only; rw [h c]
      | _ => rfl
    show ({ render := renderL env (seLAt env leg n) none, flat := flatL env (seLAt env leg n) none, cls := clsL env leg (seLAt env leg n),
            toObj := toObjF env ((seLAt env leg n).at none) } : SeRec) = _
    rw [renderL_none, flatL_none, hc, ih]
    rfl

/-- Deserialization is that of `Model/De.lean` where no class has a function. -/
theorem deLAt_none {env : Env} {leg : Legacy} (h : ∀ c, leg.de c = none) : ∀ n, deLAt env leg n = deAt env n
  | 0 => rfl
  | n + 1 => by
    have ih := deLAt_none (env := env) h n
    have hc : deClsL env leg (deLAt env leg n) = deClsF env (deLAt env leg n) := by
      funext named c o d
      unfold deClsL
      rw [h c]
    show ({ render := deRenderF env (deLAt env leg n), cls := deClsL env leg (deLAt env leg n), fromObj := fromObjF env (deLAt env leg n) } : DeRec) = _
    rw [hc, ih]
    rfl

/-! ## What is written -/

/-- How values are written where a renderer carries `lg`. -/
def writeMode (lg : Option LegFn) (cx : SeCx) (ser : Option SerFn) : WriteMode :=
  { reuse := cx.reuse, conv := cx.conv, coerce := cx.coerce, asks := if ser.isSome then none else lg, sers := effSer ser cx.sers }

/-- What an object was written as respects the functions of its class. -/
def ObjWritten (env : Env) (leg : Legacy) (re cv : Option Bool) (m : WriteMode) (c : ClassId) (attrs : List (String × Val)) (w : Val) : Prop :=
  ∃ cd, env.cls c = some cd ∧ (m.reuse = re.getD cd.reuseDflt → m.conv = cv.getD cd.convDflt → SimpleSe cd → ∀ f a x, Slot cd w f x → attrs.lookup f.name = some a →
    (∀ g, f.serializer = some (.fn g) → g a = .ok x) ∧
    (f.serializer = some .marker → WriteTo env leg (m.enter env leg c cd).plain f.ty a x) ∧
    (f.serializer = none → WriteTo env leg (m.enter env leg c cd) f.ty a x))

def RenderWrites (env : Env) (leg : Legacy) (R : LSeRec) : Prop :=
  ∀ lg cx a v w, a.v = .ok v → (∀ g, a.ser ≠ some (.fn g)) → R.render lg cx a = .ok w → WriteTo env leg (writeMode lg cx a.ser) a.ty v w

def ClsWrites (env : Env) (leg : Legacy) (R : LSeRec) : Prop :=
  ∀ named re cv sn v w (m : WriteMode), R.cls named re cv sn v = .ok w → ∃ c attrs, v = .inst c attrs ∧ ObjWritten env leg re cv m c attrs w

theorem shown_origin {env : Env} (t : Ty) : typename env t.origin = shown env t := by
  cases t <;> rfl

theorem mapR_pos {α β : Type} {f : α → Res β} {xs ys} (h : mapR f xs = .ok ys) {i : Nat} {a b} (ha : xs[i]? = some a) (hb : ys[i]? = some b) :
    f a = .ok b := mapR_ok_get h _ (zip_get' ha hb)

theorem render_writes {env : Env} {leg : Legacy} {R : LSeRec} (hr : RenderWrites env leg R) (hcl : ClsWrites env leg R) {lg cx a v w}
    (hv : a.v = .ok v) (ha : ∀ g, a.ser ≠ some (.fn g)) (hp : pickSer cx.sers a = none)
    (hno : Unclaimed env (writeMode lg cx a.ser) a.ty v) (h : renderF env (R.at (legInner lg a.ty)) cx a = .ok w) :
    WriteTo env leg (writeMode lg cx a.ser) a.ty v w := by
  have hat : ∀ t, R.render lg cx { a with ty := t } = .ok w → WriteTo env leg (writeMode lg cx a.ser) t v w := fun t hw =>
    hr lg cx { a with ty := t } v w hv ha hw
  have hel : ∀ t x y, R.render lg cx { ty := t, ser := a.ser, v := .ok x } = .ok y → WriteTo env leg (writeMode lg cx a.ser) t x y :=
    fun t x y hw => hr lg cx { ty := t, ser := a.ser, v := .ok x } x y rfl ha hw
  have hels : ∀ t xs ys, mapR (fun x => R.render lg cx { ty := t, ser := a.ser, v := .ok x }) xs = .ok ys →
      xs.length = ys.length ∧ ∀ (i : Nat) x y, xs[i]? = some x → ys[i]? = some y → WriteTo env leg (writeMode lg cx a.ser) t x y :=
    fun t xs ys hw => ⟨(mapR_ok_length hw).symm, fun i x y hx hy => hel t x y (mapR_pos hw hx hy)⟩
  unfold renderF at h
  rw [hp] at h
  dsimp only at h
  split at h
  · rename_i g hg; exact absurd hg (ha g)
  · generalize hty : a.ty = ty at h hno
    cases ty with
    | none => cases h; exact .leaf hno .none
    | prim p =>
      rw [hv] at h; dsimp only at h
      cases hco : cx.coerce with
      | true => exact .unsaid hno (.prim hco)
      | false =>
        rw [hco] at h
        cases h; exact .leaf hno (.prim hco)
    | newType nm p =>
      rw [hv] at h; dsimp only at h
      cases hco : cx.coerce with
      | true => exact .unsaid hno (.newType hco)
      | false =>
        rw [hco] at h
        cases h; exact .leaf hno (.newType hco)
    | any => exact .unsaid hno .any
    | tvar => exact .unsaid hno .tvar
    | enum => exact .unsaid hno .enum
    | std =>
      rw [hv] at h; dsimp only at h
      split at h
      · rename_i hre; cases h; exact .leaf hno (.stdKept hre)
      · rename_i hre; cases h; exact .leaf hno (.stdText (Bool.eq_false_iff.2 hre))
    | dt =>
      rw [hv] at h; dsimp only at h
      split at h
      · rename_i hre; cases h; exact .leaf hno (.dtKept hre)
      · rename_i hre
        split at h
        · cases h; exact .leaf hno (.dtText (Bool.eq_false_iff.2 hre))
        · cases h
    | lit => rw [hv] at h; cases h; exact .leaf hno .lit
    | listB k =>
      rw [hv] at h
      cases k with
      | list => cases h; exact .leaf hno .listB
      | _ =>
        dsimp only at h
        split at h
        · rename_i xs hxs; cases h; exact .leaf hno (.listLike (by decide) hxs)
        · cases h
    | setB k =>
      rw [hv] at h; dsimp only at h
      split at h
      · rename_i hc
        split at h
        · rename_i xs hxs; cases h; exact .leaf hno (.setList hc hxs)
        · cases h
      · rename_i hc; cases h; exact .leaf hno (.setB (Bool.eq_false_iff.2 hc))
    | dequeB =>
      rw [hv] at h; dsimp only at h
      split at h
      · rename_i xs hxs; cases h; exact .leaf hno (.dequeB hxs)
      · cases h
    | counterB =>
      rw [hv] at h; dsimp only at h
      split at h
      · cases h; exact .leaf hno .counterB
      · cases h
    | dictB k =>
      rw [hv] at h
      cases k with
      | deflt => cases h
      | _ => cases h; exact .leaf hno .dictB
    | tupleB => rw [hv] at h; cases h; exact .leaf hno .tupleB
    | other => cases h
    | alias nm t => exact .alias hno (hat t h)
    | gen c as => exact .gen hno (hat _ h)
    | cls c =>
      rw [hv] at h; dsimp only at h
      obtain ⟨c', attrs, rfl, cd, hc, this⟩ := hcl _ _ _ _ _ _ (writeMode lg cx a.ser) h
      exact .obj hno hc (fun f x y hs hsl hl => (this rfl rfl hs f x y hsl hl).1) (fun f x y hs hsl hl => (this rfl rfl hs f x y hsl hl).2.1)
        (fun f x y hs hsl hl => (this rfl rfl hs f x y hsl hl).2.2)
    | union ts =>
      cases ho : (Ty.union ts).isOpt with
      | false =>
        have := isOpt_not ho
        cases this with
        | union h => exact .unsaid hno (.union h)
        | optNone => exact .unsaid hno .optNone
      | true =>
        obtain ⟨t, rfl, ht⟩ := isOpt_shape ho
        rw [hv] at h; dsimp only at h
        rw [ho, if_pos rfl] at h
        have hin : legInner lg (.union [t, .none]) = lg := by unfold legInner; dsimp only; rw [ho, if_pos rfl]
        rw [hin] at h
        split at h
        · cases h; exact .optNone hno
        · rename_i hvn
          exact .opt hno hvn (hel _ _ _ h)
    | list k t =>
      rw [hv] at h; dsimp only at h
      split at h
      · cases h
      · rename_i xs hxs
        split at h
        · rename_i ys hys
          cases h
          exact .list hno hxs (hels t xs ys hys).1 (hels t xs ys hys).2
        · cases h
    | deque t =>
      rw [hv] at h; dsimp only at h
      split at h
      · cases h
      · rename_i xs hxs
        split at h
        · rename_i ys hys
          cases h
          exact .deque hno hxs (hels t xs ys hys).1 (hels t xs ys hys).2
        · cases h
    | tupleV t =>
      rw [hv] at h; dsimp only at h
      split at h
      · cases h
      · rename_i xs hxs
        split at h
        · rename_i ys hys
          cases h
          exact .tupleV hno hxs (hels t xs ys hys).1 (hels t xs ys hys).2
        · cases h
    | set k t =>
      rw [hv] at h; dsimp only at h
      split at h
      · cases h
      · rename_i xs hxs
        split at h
        · rename_i ys hys
          split at h
          · rename_i hc
            cases h
            exact .setList hno hc hxs (hels t xs ys hys).1 (hels t xs ys hys).2
          · rename_i hc
            exact .set hno (Bool.eq_false_iff.2 hc) hxs (hels t xs ys hys).1 (hels t xs ys hys).2 (mkSet_of h)
        · cases h
    | tuple ts =>
      cases ts with
      | nil => cases h
      | cons t0 ts =>
      rw [hv] at h; dsimp only at h
      split at h
      · rename_i ys hys
        cases h
        refine .tuple hno (by rw [mapR_ok_length hys]; simp) (fun i t x y h1 h2 h3 => ?_)
        have := mapR_pos hys (zipIdx_get h1) h3
        dsimp only at this
        rw [h2] at this
        exact hel _ _ _ this
      · cases h
    | counter t =>
      rw [hv] at h; dsimp only at h
      split at h
      · cases h
      · rename_i kvs hkvs
        split at h
        · rename_i es hes
          have key : ∀ (i : Nat) a' b, kvs[i]? = some a' → es[i]? = some b → R.render lg cx { ty := t, ser := a.ser, v := .ok a'.1 } = .ok b.1 ∧ a'.2 = b.2 := by
            intro i a' b h1 h2
            have := mapR_pos hes h1 h2
            split at this
            · rename_i k' hk; cases this; exact ⟨hk, rfl⟩
            · cases this
          refine .counter hno hkvs ?_ (fun i a' b h1 h2 => hel _ _ _ (key i a' b h1 h2).1) (mkDict_of h)
          apply List.ext_getElem?
          intro i
          have hl : kvs.length = es.length := (mapR_ok_length hes).symm
          simp only [List.getElem?_map]
          cases h1 : kvs[i]? with
          | none =>
            have : es[i]? = none := by
              rw [List.getElem?_eq_none_iff] at h1 ⊢
              rwa [← hl]
            rw [this]
          | some a' =>
            have hi : i < es.length := by
              rw [← hl]
              exact (List.getElem?_eq_some_iff.1 h1).1
            have h2 : es[i]? = some es[i] := List.getElem?_eq_getElem hi
            rw [h2]
            simp only [Option.map_some]
            rw [(key i a' es[i] h1 h2).2]
        · cases h
    | dict k kt vt =>
      rw [hv] at h; dsimp only at h
      split at h
      · cases h
      · rename_i kvs hkvs
        split at h
        · rename_i es hes
          have key : ∀ (i : Nat) a' b, kvs[i]? = some a' → es[i]? = some b → R.render lg cx { ty := kt, ser := a.ser, v := .ok a'.1 } = .ok b.1 ∧
              R.render lg cx { ty := vt, ser := a.ser, v := .ok a'.2 } = .ok b.2 := by
            intro i a' b h1 h2
            have := mapR_pos hes h1 h2
            split at this
            · cases this
            · rename_i k' hk
              split at this
              · rename_i w' hw; cases this; exact ⟨hk, hw⟩
              · cases this
          exact .dict hno hkvs (mapR_ok_length hes).symm (fun i a' b h1 h2 => hel _ _ _ (key i a' b h1 h2).1)
            (fun i a' b h1 h2 => hel _ _ _ (key i a' b h1 h2).2) (mkDict_of h)
        · cases h

theorem renderL_writes {env : Env} {leg : Legacy} {R : LSeRec} (hr : RenderWrites env leg R) (hcl : ClsWrites env leg R) {lg cx a v w}
    (hv : a.v = .ok v) (ha : ∀ g, a.ser ≠ some (.fn g)) (h : renderL env R lg cx a = .ok w) :
    WriteTo env leg (writeMode lg cx a.ser) a.ty v w := by
  unfold renderL at h
  dsimp only at h
  cases hp : pickSer cx.sers a with
  | some s =>
    have hu : legUsed lg cx.sers a = none := by unfold legUsed; rw [hp]; simp
    rw [hu] at h
    dsimp only at h
    unfold renderF at h
    rw [hp] at h
    dsimp only at h
    rw [hv] at h
    exact .chosen (pickSer_some hp) (liftP_ok h)
  | none =>
    have hno := pickSer_none' hp
    cases hs : a.ser with
    | some sf =>
      have hu : legUsed lg cx.sers a = none := by unfold legUsed; rw [hs]; simp
      rw [hu] at h
      have := render_writes hr hcl hv ha hp ⟨hno, fun f hf => by unfold writeMode at hf; rw [hs] at hf; cases hf⟩ h
      rwa [hs] at this
    | none =>
      have hu : legUsed lg cx.sers a = lg := by unfold legUsed; rw [hs, hp]; rfl
      rw [hu] at h
      cases lg with
      | none =>
        have := render_writes hr hcl hv ha hp ⟨hno, fun f hf => by unfold writeMode at hf; rw [hs] at hf; cases hf⟩ h
        rwa [hs] at this
      | some f =>
        dsimp only at h
        unfold legRun at h
        rw [hv, shown_origin] at h
        dsimp only at h
        cases hf : f (shown env a.ty) v with
        | some r =>
          rw [hf] at h
          rw [hs] at hno
          cases r with
          | error e => cases h
          | ok y => cases h; exact .asked hno rfl hf
        | none =>
          rw [hf] at h
          have := render_writes hr hcl hv ha hp ⟨hno, fun f' hf' => by
            unfold writeMode at hf'; rw [hs] at hf'; cases hf'; exact hf⟩ h
          rwa [hs] at this

theorem flatL_unflat {env : Env} {R : LSeRec} {lg cx} {a : SeArg} (h : a.flatten = false) :
    flatL env R lg cx a = match R.render lg cx a with
      | .ok v => .ok [v]
      | .error e => .error e := by
  have hs : splicedClass a = none := by unfold splicedClass; rw [h]; rfl
  have hf : flatF env (R.at lg) cx a = match R.render lg cx a with
      | .ok v => .ok [v]
      | .error e => .error e := by
    unfold flatF
    dsimp only
    rw [h]
    split
    · rfl
    · split <;> rfl
  unfold flatL
  rw [hs]
  split
  · rename_i h'; cases h'
  · exact hf

/-- One field. -/
theorem field_writes {env : Env} {leg : Legacy} {R : LSeRec} {n} (hR : R = seLAt env leg n) (hr : RenderWrites env leg R) {lg cx} {f : FieldDef} {c attrs a x} {m : WriteMode}
    (hm : writeMode lg cx none = m) (hl : attrs.lookup f.name = some a) (h : R.render lg cx (seFieldArg f (.ok (.inst c attrs))) = .ok x) :
    (∀ g, f.serializer = some (.fn g) → g a = .ok x) ∧ (f.serializer = some .marker → WriteTo env leg m.plain f.ty a x) ∧
      (f.serializer = none → WriteTo env leg m f.ty a x) := by
  subst hm
  have hv := seFieldArg_attr (c := c) hl
  refine ⟨fun g hg => ?_, fun hg => ?_, fun hg => ?_⟩
  · subst hR
    have hs : (seFieldArg f (.ok (.inst c attrs))).ser = some (.fn g) := hg
    cases n with
    | zero => cases h
    | succ n =>
      rw [seLAt_render] at h
      unfold renderL at h
      have hu : legUsed lg cx.sers (seFieldArg f (.ok (.inst c attrs))) = none := by unfold legUsed; rw [hs]; rfl
      rw [hu] at h
      dsimp only at h
      unfold renderF pickSer at h
      rw [hs, hv] at h
      exact liftP_ok h
  · have hs : (seFieldArg f (.ok (.inst c attrs))).ser = some .marker := hg
    have := hr lg cx _ a x hv (by rw [hs]; intro g h; cases h) h
    rw [hs] at this
    exact this
  · have hs : (seFieldArg f (.ok (.inst c attrs))).ser = none := hg
    have := hr lg cx _ a x hv (by rw [hs]; intro g h; cases h) h
    rw [hs] at this
    exact this

/-- The entries written field by field, for any renderer that renders fields without splicing. -/
theorem fields_written {env : Env} {r : SeRec} {cx} {cd : ClassDef} {obj} {P : FieldDef → Val → Prop} :
    ∀ (fs : List FieldDef) (res res' : List (Val × Val)),
      (∀ f ∈ fs, f.flatten = false) → (∀ f ∈ fs, ∀ vs, r.flat cx (seFieldArg f (.ok obj)) = .ok vs → ∃ x, vs = [x] ∧ P f x) →
      (fs.map (fun f => f.conv cd.seCase)).Nodup → (∀ e ∈ res, ∀ f ∈ fs, pyEq e.1 (.str (f.conv cd.seCase)) = false) →
      seFields env r cx cd obj res fs = .ok res' →
      ∀ e ∈ res', e ∈ res ∨ ∃ f ∈ fs, e.1 = .str (f.conv cd.seCase) ∧ P f e.2
  | [], res, res', _, _, _, _, h, e, he => by
    unfold seFields at h
    cases h
    exact .inl he
  | f :: fs, res, res', hfl, hP, hn, hd, h, e, he => by
    unfold seFields at h
    split at h
    · cases h
    · rename_i res1 h1
      rw [List.map_cons, List.nodup_cons] at hn
      have hrest : ∀ res2 : List (Val × Val), (∀ e ∈ res2, e ∈ res ∨ e.1 = .str (f.conv cd.seCase)) → ∀ e ∈ res2, ∀ g ∈ fs, pyEq e.1 (.str (g.conv cd.seCase)) = false := by
        intro res2 h2 e' he' g hg
        rcases h2 e' he' with h3 | h3
        · exact hd e' h3 g (by simp [hg])
        · rw [h3, Bool.eq_false_iff]
          intro hp
          rw [pyEq_str_right] at hp
          exact hn.1 (List.mem_map.2 ⟨g, hg, (Val.str.inj hp).symm⟩)
      have hone : ∀ e ∈ res1, e ∈ res ∨ (e.1 = .str (f.conv cd.seCase) ∧ P f e.2) := by
        unfold seField at h1
        split at h1
        · cases h1
        · rename_i vs hvs
          obtain ⟨x, rfl, hx⟩ := hP f (by simp) vs hvs
          rw [lvals_unflat (hfl f (by simp))] at h1
          dsimp only [joinVals] at h1
          split at h1
          · cases h1
          · cases h1; exact fun e he => .inl he
          · unfold assign at h1
            cases h1
            rw [dictSet_new (fun kv hkv => hd kv hkv f (by simp))]
            intro e he
            rcases List.mem_append.1 he with he | he
            · exact .inl he
            · rw [List.mem_singleton.1 he]; exact .inr ⟨rfl, hx⟩
      have ih := fields_written fs res1 res' (fun g hg => hfl g (by simp [hg])) (fun g hg => hP g (by simp [hg])) hn.2
        (hrest res1 (fun e he => (hone e he).imp id (·.1))) h e he
      rcases ih with ih | ⟨g, hg, ih⟩
      · rcases hone e ih with h2 | h2
        · exact .inl h2
        · exact .inr ⟨f, by simp, h2⟩
      · exact .inr ⟨g, by simp [hg], ih⟩

theorem concat_rows {r : SeRec} {cx obj} {P : FieldDef → Val → Prop} : ∀ (fs : List FieldDef) (ws : List Val),
    (∀ f ∈ fs, ∀ vs, r.flat cx (seFieldArg f (.ok obj)) = .ok vs → ∃ x, vs = [x] ∧ P f x) →
    concatR (fun f => r.flat cx (seFieldArg f (.ok obj))) fs = .ok ws → ∀ (i : Nat) f x, fs[i]? = some f → ws[i]? = some x → P f x
  | [], ws, _, h, i, f, x, hf, hx => by simp at hf
  | g :: fs, ws, hP, h, i, f, x, hf, hx => by
    simp only [concatR] at h
    split at h
    · cases h
    · rename_i vs hvs
      obtain ⟨y, rfl, hy⟩ := hP g (by simp) vs hvs
      split at h
      · cases h
      · rename_i ws' hws
        cases h
        cases i with
        | zero =>
          simp at hf hx
          subst hf; subst hx; exact hy
        | succ i =>
          simp at hf hx
          exact concat_rows fs ws' (fun f hf => hP f (by simp [hf])) hws i f x hf hx

theorem cls_writes {env : Env} {leg : Legacy} {n} (hr : ∀ m, m ≤ n → RenderWrites env leg (seLAt env leg m)) : ClsWrites env leg (seLAt env leg (n + 1)) := by
  intro named re cv sn v w m h
  rw [seLAt_cls] at h
  unfold clsL clsF at h
  cases v with
  | inst c attrs =>
    refine ⟨c, attrs, rfl, ?_⟩
    dsimp only at h
    cases hc : env.cls c with
    | none => rw [hc] at h; cases h
    | some cd =>
      rw [hc] at h
      dsimp only at h
      refine ⟨cd, hc, fun hre hcv hs f a x hsl hl => ?_⟩
      rw [hs.dict] at h
      have hfl : ∀ f ∈ cd.seFieldsOf, f.flatten = false := fun f hf => hs.entries.flat f (by rw [seFieldsOf_eq] at hf; exact (List.mem_filter.1 hf).1)
      have hn' : (cd.seFieldsOf.map (fun f => f.conv cd.seCase)).Nodup := by rw [seFieldsOf_eq]; exact hs.entries.wires
      have hP : ∀ f ∈ cd.seFieldsOf, ∀ vs, ((seLAt env leg n).at (leg.ser c)).flat (clsSeCx env c cd named re cv sn)
          (seFieldArg f (.ok (.inst c attrs))) = .ok vs → ∃ x, vs = [x] ∧ ∀ a, attrs.lookup f.name = some a →
            ((∀ g, f.serializer = some (.fn g) → g a = .ok x) ∧ (f.serializer = some .marker → WriteTo env leg (m.enter env leg c cd).plain f.ty a x) ∧
      (f.serializer = none → WriteTo env leg (m.enter env leg c cd) f.ty a x)) := by
        intro f hf vs hvs
        cases n with
        | zero => cases hvs
        | succ k =>
          have hvs : flatL env (seLAt env leg k) (leg.ser c) (clsSeCx env c cd named re cv sn) (seFieldArg f (.ok (.inst c attrs))) = .ok vs := hvs
          rw [flatL_unflat (a := seFieldArg f (.ok (.inst c attrs))) (hfl f hf)] at hvs
          split at hvs
          · rename_i x hx
            cases hvs
            refine ⟨x, rfl, fun a ha => field_writes rfl (hr k (Nat.le_succ k)) ?_ ha hx⟩
            unfold writeMode WriteMode.enter clsSeCx
            dsimp only
            rw [hre, hcv]; rfl
          · cases hvs
      cases named with
      | true =>
        simp only [Bool.false_eq_true, if_false, if_true] at h
        split at h
        · rename_i res hres
          cases h
          rcases hsl with ⟨kvs, he, hf, hx⟩ | ⟨ws, i, he, _⟩
          · cases he
            rcases fields_written _ _ _ hfl hP hn' (by simp) hres _ hx with hx | ⟨g, hg, hk, hx⟩
            · cases hx
            · have : f = g := inj_of_nodup_map hn' (by rw [seFieldsOf_eq]; exact hf) hg (Val.str.inj hk)
              subst this
              exact hx a hl
          · cases he
        · cases h
      | false =>
        simp only [Bool.false_eq_true, if_false] at h
        split at h
        · rename_i ws hws
          cases h
          rcases hsl with ⟨kvs, he, hf, hx⟩ | ⟨ws', i, he, hi, hx⟩
          · cases he
          · cases he
            exact concat_rows _ _ hP hws i f x (by rw [seFieldsOf_eq]; exact hi) hx a hl
        · cases h
  | _ => cases h

theorem writes_at {env : Env} {leg : Legacy} : ∀ n, (∀ m, m ≤ n → RenderWrites env leg (seLAt env leg m)) ∧ ClsWrites env leg (seLAt env leg (n + 1))
  | 0 => by
    have h0 : ∀ m, m ≤ 0 → RenderWrites env leg (seLAt env leg m) := by
      intro m hm lg cx a v w _ _ h
      have : m = 0 := by omega
      subst this
      cases h
    exact ⟨h0, cls_writes h0⟩
  | n + 1 => by
    obtain ⟨ih1, ih2⟩ := writes_at (env := env) (leg := leg) n
    have h1 : ∀ m, m ≤ n + 1 → RenderWrites env leg (seLAt env leg m) := by
      intro m hm
      by_cases h : m ≤ n
      · exact ih1 m h
      · have : m = n + 1 := by omega
        subst this
        intro lg cx a v w hv ha h
        rw [seLAt_render] at h
        refine renderL_writes (ih1 n (Nat.le_refl n)) ?_ hv ha h
        cases n with
        | zero =>
          intro named re cv sn v w m h
          cases h
        | succ k => exact (writes_at k).2
    exact ⟨h1, cls_writes h1⟩

end Verif
