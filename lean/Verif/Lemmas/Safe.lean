import Verif.Spec.Safe
import Verif.Lemmas.SeGen
import Verif.Lemmas.SeMono
import Verif.Lemmas.Collect
import Verif.Lemmas.UnionDe
import Verif.Lemmas.Numbers
import Verif.Props.C12
/-!
# What occurs in serialized data
-/

namespace Verif
open Spec

section
variable {env : Env} {G : Val → Prop}

theorem items_iter {v xs} (h : Items v xs) : pyIter v = .ok xs := by cases h <;> rfl

theorem Spec.Shape.iter (hG : Shape G) {v xs} (hv : G v) (h : pyIter v = .ok xs) : ∀ x ∈ xs, G x := by
  cases v <;> try (cases h; done)
  · rename_i s
    cases h
    intro x hx
    unfold strElems at hx
    obtain ⟨c, _, rfl⟩ := List.mem_map.1 hx
    exact hG.scalar _ .str
  · cases h; exact (hG.list _).1 hv
  · cases h; exact (hG.tuple _).1 hv
  · cases h; exact hG.deque _ hv
  · cases h; exact hG.set _ _ hv
  · cases h
    intro x hx
    obtain ⟨e, he, rfl⟩ := List.mem_map.1 hx
    exact ((hG.dict _ _).1 hv).1 e he

def GoodEs (G : Val → Prop) (kvs : List (Val × Val)) : Prop := (∀ e ∈ kvs, G e.1) ∧ ∀ e ∈ kvs, G e.2

theorem goodEs_set {k v : Val} {kvs} (hk : G k) (hv : G v) (h : GoodEs G kvs) : GoodEs G (dictSet k v kvs) := by
  induction kvs with
  | nil =>
    constructor <;> (intro e he; rw [dictSet, List.mem_singleton] at he; subst he; assumption)
  | cons a r ih =>
    obtain ⟨k', v'⟩ := a
    have hr : GoodEs G r := ⟨fun e he => h.1 e (by simp [he]), fun e he => h.2 e (by simp [he])⟩
    have h1 := h.1 (k', v') (by simp)
    have h2 := h.2 (k', v') (by simp)
    unfold dictSet
    split
    · constructor <;> (intro e he; rcases List.mem_cons.1 he with rfl | he)
      · exact h1
      · exact hr.1 e he
      · exact hv
      · exact hr.2 e he
    · constructor <;> (intro e he; rcases List.mem_cons.1 he with rfl | he)
      · exact h1
      · exact (ih hr).1 e he
      · exact h2
      · exact (ih hr).2 e he

theorem goodEs_dictOf {kvs : List (Val × Val)} (h : GoodEs G kvs) : GoodEs G (dictOf kvs) := by
  unfold dictOf
  have : ∀ acc, GoodEs G acc → GoodEs G (kvs.foldl (fun acc e => dictSet e.1 e.2 acc) acc) := by
    induction kvs with
    | nil => intro acc ha; exact ha
    | cons e r ih =>
      intro acc ha
      exact ih ⟨fun e he => h.1 e (by simp [he]), fun e he => h.2 e (by simp [he])⟩ _ (goodEs_set (h.1 e (by simp)) (h.2 e (by simp)) ha)
  exact this [] ⟨by simp, by simp⟩

theorem good_mkDict (hG : Shape G) {hs k kvs w} (h : GoodEs G kvs) (hw : mkDict hs k kvs = .ok w) : G w := by
  unfold mkDict at hw
  split at hw
  · cases hw; exact (hG.dict _ _).2 (goodEs_dictOf h)
  · cases hw

theorem goodEs_merge {res kvs : List (Val × Val)} (hr : GoodEs G res) (h : GoodEs G kvs) : GoodEs G (mergeDict res kvs) := by
  induction kvs generalizing res with
  | nil => exact hr
  | cons e r ih =>
    obtain ⟨k, v⟩ := e
    unfold mergeDict
    refine ih ?_ ⟨fun e he => h.1 e (by simp [he]), fun e he => h.2 e (by simp [he])⟩
    split
    · exact hr
    · exact goodEs_set (h.1 (k, v) (by simp)) (h.2 (k, v) (by simp)) hr

theorem goodEs_assignAll (hG : Shape G) {res : List (Val × Val)} {lvs vs} (hr : GoodEs G res) (h : ∀ v ∈ vs, G v) : GoodEs G (assignAll res lvs vs) := by
  induction lvs generalizing res vs with
  | nil => unfold assignAll; exact hr
  | cons l lvs ih =>
    cases vs with
    | nil => cases l <;> exact hr
    | cons v vs =>
      have hvs : ∀ v ∈ vs, G v := fun v hv => h v (by simp [hv])
      cases l with
      | key k => exact ih (goodEs_set (hG.scalar _ .str) (h v (by simp)) hr) hvs
      | mark => exact ih hr hvs

theorem goodEs_assign (hG : Shape G) {res : List (Val × Val)} {lvs sub res'} (hr : GoodEs G res) (hs : G sub) (h : assign res lvs sub = .ok res') :
    GoodEs G res' := by
  unfold assign at h
  split at h
  · cases h
  · cases h; exact goodEs_set (hG.scalar _ .str) hs hr
  · split at h
    · cases h
    · rename_i vs hvs
      split at h
      · cases h; exact goodEs_assignAll hG hr (hG.iter hs hvs)
      · cases h

theorem good_join (hG : Shape G) {vs w} (h : ∀ v ∈ vs, G v) (hw : joinVals vs = .ok w) : G w := by
  unfold joinVals at hw
  split at hw
  · cases hw
  · cases hw; exact h _ (by simp)
  · cases hw; exact (hG.tuple _).2 h

theorem good_concat {α : Type} {f : α → Res (List Val)} {as : List α} {vs} (hf : ∀ a ∈ as, ∀ ws, f a = .ok ws → ∀ w ∈ ws, G w)
    (h : concatR f as = .ok vs) : ∀ v ∈ vs, G v := by
  induction as generalizing vs with
  | nil => cases h; intro v hv; cases hv
  | cons a as ih =>
    simp only [concatR] at h
    cases ha : f a with
    | error e => rw [ha] at h; cases h
    | ok ws =>
      rw [ha] at h
      dsimp only at h
      cases hc : concatR f as with
      | error e => rw [hc] at h; cases h
      | ok us =>
        rw [hc] at h
        cases h
        intro v hv
        rcases List.mem_append.1 hv with hv | hv
        · exact hf a (by simp) _ ha v hv
        · exact ih (fun a ha => hf a (by simp [ha])) hc v hv

theorem good_mapR {f : Val → Res Val} {xs : List Val} {ys} (hf : ∀ x ∈ xs, ∀ y, f x = .ok y → G y) (h : mapR f xs = .ok ys) : ∀ y ∈ ys, G y := by
  intro y hy
  obtain ⟨x, hx, hxy⟩ := Props.mapR_mem h hy
  exact hf x hx y hxy

theorem mem_of_lookup' {α : Type} {l : List (String × α)} {m w} (h : l.lookup m = some w) : (m, w) ∈ l := by
  induction l with
  | nil => cases h
  | cons e l ih =>
    obtain ⟨k, x⟩ := e
    simp only [List.lookup] at h
    split at h
    · rename_i hb
      cases h
      rw [beq_iff_eq] at hb
      subst hb
      simp
    · exact List.mem_cons_of_mem _ (ih h)

theorem good_enumValue (hE : EnumsOk env G) : ∀ {n e e' m w}, enumValue env e n (.enum e' m) = .ok w → G w := by
  intro n
  induction n with
  | zero => intro e e' m w h; cases h
  | succ n ih =>
    intro e e' m w h
    unfold enumValue at h
    split at h
    · cases h
    · dsimp only at h
      split at h
      · rename_i d hd
        split at h
        · rename_i w' hw'
          split at h
          · cases h
          · split at h
            · exact ih h
            · rename_i hne
              cases h
              refine hE e' d m _ hd ?_ (fun e'' m' he => hne e'' m' he)
              exact mem_of_lookup' hw'
        · cases h
      · cases h

theorem good_coerce (hG : Shape G) {p v w} (hv : Scalar v) (h : coerceObj env p v = .ok w) : G w := by
  apply hG.scalar
  cases hv with
  | none => cases h
  | bool => cases p <;> cases h <;> constructor
  | int =>
    rename_i i
    cases p <;> try (cases h; constructor; done)
    simp only [coerceObj, primCall] at h
    cases hf : env.W.floatOfInt i <;> (rw [hf] at h; cases h)
    exact .float
  | float =>
    rename_i x
    cases p <;> try (cases h; constructor; done)
    cases x <;> cases h
    exact .int
  | str =>
    rename_i s
    cases p <;> try (cases h; constructor; done)
    · simp only [coerceObj, primCall] at h
      cases hf : env.W.intOfStr s <;> (rw [hf] at h; cases h)
      exact .int
    · simp only [coerceObj, primCall] at h
      cases hf : env.W.floatOfStr s <;> (rw [hf] at h; cases h)
      exact .float

theorem isInst_otherKind {t v} (h : OtherKind t v) : isInst env t v = false := by
  cases h <;> cases v <;> first | rfl | skip
  all_goals simp_all

theorem isInst_foreign {t v} (hv : ∀ c as, v = .inst c as → (env.cls c).isSome) (h : Foreign env t v) : isInst env t v = false := by
  rcases h with ⟨hn, ha⟩ | h
  · cases hi : isInst env t v with
    | false => rfl
    | true => exact absurd ((isInst_nominal hn hv).1 hi) ha
  · exact isInst_otherKind h

/-- Serializers in scope return good values. -/
def GoodSers (G : Val → Prop) (sers : List ClsSer) : Prop := ∀ s ∈ sers, ∀ v w, s.run v = .ok w → G w

/-- The argument's value conforms, or its own serializer returns good values. -/
structure ArgOk (G : Val → Prop) (sers : List ClsSer) (F : Ty → Val → Prop) (a : SeArg) : Prop where
  custom : ∀ g, a.ser = some (.fn g) → ∀ v w, g v = .ok w → G w
  fits : (∀ g, a.ser ≠ some (.fn g)) → pickSer sers a = none → ∀ v, a.v = .ok v → F a.ty v

/-- What the recursive calls are assumed to return. -/
structure SafeRec (env : Env) (G : Val → Prop) (r : SeRec) : Prop where
  render : ∀ (cx : SeCx) (S : List Ty → Prop) (a : SeArg) w, GoodSers G cx.sers → (∀ us ∈ cx.unions, S us) →
    ArgOk G cx.sers (Fits env G S cx.reuse cx.conv) a → r.render cx a = .ok w → G w
  flat : ∀ (cx : SeCx) (S : List Ty → Prop) (a : SeArg) ws, GoodSers G cx.sers → (∀ us ∈ cx.unions, S us) →
    ArgOk G cx.sers (FitsField env G S cx.reuse cx.conv a.flatten) a → r.flat cx a = .ok ws → ∀ w ∈ ws, G w
  cls : ∀ b re cv sn v w, FitsObj env G re cv v → r.cls b re cv sn v = .ok w → G w
  toObj : ∀ b re cv sn c tg v w, (c = none ∨ c = some .any ∨ ∃ k, c = some (.cls k)) → Free env G re cv v → r.toObj b re cv sn c tg v = .ok w → G w

theorem good_union (hG : Shape G) {r : SeRec} (hr : SafeRec env G r) {cx : SeCx} {S : List Ty → Prop} (hs : GoodSers G cx.sers)
    (hS : ∀ us ∈ cx.unions, S us) {v w} (hv : ∀ c as, v = .inst c as → (env.cls c).isSome) :
    ∀ {ts : List Ty}, (∀ t ∈ ts, ¬ Foreign env t v → Fits env G S cx.reuse cx.conv t v) → seUnion env r cx v ts = .ok w → G w := by
  intro ts
  induction ts with
  | nil => intro _ h; cases h
  | cons t ts ih =>
    intro hf h
    unfold seUnion at h
    split at h
    · rename_i hi
      have hfit : Fits env G S cx.reuse cx.conv t v := by
        refine hf t (by simp) (fun hfo => ?_)
        rw [isInst_foreign hv hfo] at hi
        cases hi
      cases hres : r.render cx { ty := t, v := .ok v } with
      | error e => rw [hres] at h; cases h
      | ok res =>
        rw [hres] at h
        dsimp only at h
        have hgr : G res := hr.render cx S { ty := t, v := .ok v } res hs hS ⟨by simp, fun _ _ u hu => by cases hu; exact hfit⟩ hres
        have hone : ∀ (k : String) (d : DictK), G (.dict d [(.str k, res)]) := fun k d => (hG.dict _ _).2
          ⟨by intro e he; rw [List.mem_singleton] at he; subst he; exact hG.scalar _ .str, by intro e he; rw [List.mem_singleton] at he; subst he; exact hgr⟩
        have hset : ∀ (x : Val) (k : String) (u : Val), G x → G u → pySetItem x k u = .ok w → G w := by
          intro x k u hx hu he
          unfold pySetItem at he
          split at he
          · cases he
            exact (hG.dict _ _).2 (goodEs_set (hG.scalar _ .str) hu ((hG.dict _ _).1 hx))
          · cases he
        split at h
        · split at h
          · cases h; exact (hG.dict _ _).2
              ⟨by intro e he; rw [List.mem_singleton] at he; subst he; exact hG.scalar _ .str, by intro e he; rw [List.mem_singleton] at he; subst he; exact hgr⟩
          · exact hset _ _ _ hgr (hG.scalar _ .str) h
          · exact hset _ _ _ (hone _ _) (hG.scalar _ .str) h
          · cases h; exact hgr
        · cases h; exact hgr
    · exact ih (fun t ht => hf t (by simp [ht])) h

theorem pickSer_mem {sers : List ClsSer} {a : SeArg} {s} (h : pickSer sers a = some s) : s ∈ sers := by
  unfold pickSer at h
  split at h
  · cases h
  · simpa using List.mem_of_find?_eq_some h

theorem liftP_ok {α : Type} {x : Except PErr α} {w} (h : liftP x = .ok w) : x = .ok w := by
  cases x with
  | ok y => cases h; rfl
  | error e => cases h

theorem good_missing (hG : Shape G) {r : SeRec} (hr : SafeRec env G r) {cx : SeCx} {a : SeArg} {e w}
    (hs : GoodSers G cx.sers) (hv : a.v = .error e) (h : renderF env r cx a = .ok w) : G w := by
  have hrec : ∀ t, (∀ g, a.ser ≠ some (.fn g)) → r.render cx { a with ty := t } = .ok w → G w := fun t hser ht =>
    hr.render cx (fun _ => True) { a with ty := t } w hs (fun _ _ => trivial)
      ⟨fun g hg => absurd hg (hser g), fun _ _ u hu => by have : a.v = .ok u := hu; rw [hv] at this; cases this⟩ ht
  unfold renderF at h
  rw [hv] at h
  split at h
  · cases h
  · split at h
    · cases h
    · rename_i hser
      have hser : ∀ g, a.ser ≠ some (.fn g) := hser
      split at h <;> first | (cases h; done) | skip
      · cases h; exact hG.scalar _ .none
      · exact hrec _ hser (by rw [hv]; exact h)
      · exact hrec _ hser (by rw [hv]; exact h)

theorem good_render (hG : Shape G) (hE : EnumsOk env G) (hgs : GoodSers G env.gser) {r : SeRec} (hr : SafeRec env G r) {cx : SeCx} {S : List Ty → Prop}
    {a : SeArg} {w} (hs : GoodSers G cx.sers) (hS : ∀ us ∈ cx.unions, S us) (ha : ArgOk G cx.sers (Fits env G S cx.reuse cx.conv) a)
    (h : renderF env r cx a = .ok w) : G w := by
  cases hv : a.v with
  | error e => exact good_missing hG hr hs hv h
  | ok v =>
  by_cases hser : ∃ g, a.ser = some (.fn g)
  · obtain ⟨g, hg⟩ := hser
    unfold renderF pickSer at h
    rw [hg, hv] at h
    exact ha.custom g hg v w (liftP_ok h)
  replace hser : ∀ g, a.ser ≠ some (.fn g) := fun g hg => hser ⟨g, hg⟩
  have hat : ∀ t, Fits env G S cx.reuse cx.conv t v → r.render cx { a with ty := t } = .ok w → G w := fun t ht hw =>
    hr.render cx S { a with ty := t } w hs hS ⟨fun g hg => absurd hg (hser g), fun _ _ u hu => by
      have : a.v = .ok u := hu
      rw [hv] at this; cases this; exact ht⟩ hw
  have hel : ∀ t, ∀ x y, Fits env G S cx.reuse cx.conv t x → r.render cx { ty := t, ser := a.ser, v := .ok x } = .ok y → G y :=
    fun t x y hx hy => hr.render cx S { ty := t, ser := a.ser, v := .ok x } y hs hS
      ⟨fun g hg => absurd hg (hser g), fun _ _ u hu => by cases hu; exact hx⟩ hy
  have hels : ∀ t (xs ys : List Val), (∀ x ∈ xs, Fits env G S cx.reuse cx.conv t x) →
      mapR (fun x => r.render cx { ty := t, ser := a.ser, v := .ok x }) xs = .ok ys → ∀ y ∈ ys, G y :=
    fun t xs ys hx hy => good_mapR (fun x hxm y => hel t x y (hx x hxm)) hy
  unfold renderF at h
  split at h
  · rename_i s hp
    rw [hv] at h
    exact hs s (pickSer_mem hp) v w (liftP_ok h)
  · rename_i hp
    have hf := ha.fits hser hp v hv
    split at h
    · rename_i g hg; exact absurd hg (hser g)
    · generalize hty : a.ty = ty at h hf
      cases hf with
      | none => cases h; exact hG.scalar _ .none
      | alias hf => exact hat _ hf h
      | gen hf => exact hat _ (.cls hf) h
      | cls hf => rw [hv] at h; exact hr.cls _ _ _ _ _ _ hf h
      | prim hsc =>
        rw [hv] at h; dsimp only at h
        split at h
        · exact good_coerce hG hsc h
        · cases h; exact hG.scalar _ hsc
      | newType hsc =>
        rw [hv] at h; dsimp only at h
        split at h
        · exact good_coerce hG hsc h
        · cases h; exact hG.scalar _ hsc
      | any hf => rw [hv] at h; exact hr.toObj _ _ _ _ _ _ _ _ (.inr (.inl rfl)) hf h
      | tvar hf => rw [hv] at h; exact hr.toObj _ _ _ _ _ _ _ _ (.inr (.inl rfl)) hf h
      | list hi hx =>
        rw [hv] at h; dsimp only at h
        rw [items_iter hi] at h; dsimp only at h
        split at h
        · rename_i ys hys; cases h; exact (hG.list _).2 (hels _ _ _ hx hys)
        · cases h
      | listB hg =>
        rw [hv] at h
        rename_i k
        cases k <;> dsimp only at h
        · cases h; exact hg
        all_goals
          split at h
          · rename_i xs hxs; cases h; exact (hG.list _).2 (hG.iter hg hxs)
          · cases h
      | set hcv hi hx =>
        rw [hv] at h; dsimp only at h
        rw [items_iter hi] at h; dsimp only at h
        split at h
        · rename_i ys hys
          rw [if_pos hcv] at h
          cases h; exact (hG.list _).2 (hels _ _ _ hx hys)
        · cases h
      | setB hcv hi hx =>
        rw [hv] at h; dsimp only at h
        rw [items_iter hi, if_pos hcv] at h
        cases h; exact (hG.list _).2 hx
      | deque hi hx =>
        rw [hv] at h; dsimp only at h
        rw [items_iter hi] at h; dsimp only at h
        split at h
        · rename_i ys hys; cases h; exact (hG.list _).2 (hels _ _ _ hx hys)
        · cases h
      | dequeB hi hx =>
        rw [hv] at h; dsimp only at h
        rw [items_iter hi] at h
        cases h; exact (hG.list _).2 hx
      | counter hk hx =>
        rw [hv] at h
        simp only [pyItems] at h
        split at h
        · rename_i es hes
          refine good_mkDict hG ⟨fun e he => ?_, fun e he => ?_⟩ h
          all_goals
            obtain ⟨kv, hkv, he'⟩ := Props.mapR_mem hes he
            split at he'
            · rename_i y hy
              cases he'
              first | exact hel _ _ _ (hk kv hkv) hy | exact hx kv hkv
            · cases he'
        · cases h
      | counterB hk hx =>
        rw [hv] at h
        cases h
        exact (hG.dict _ _).2 ⟨hk, hx⟩
      | tuple hx =>
        rename_i ts xs
        cases ts with
        | nil => cases h
        | cons t ts =>
          rw [hv] at h; dsimp only at h
          split at h
          · rename_i ys hys
            cases h
            refine (hG.tuple _).2 (fun y hy => ?_)
            obtain ⟨it, hit, hy'⟩ := Props.mapR_mem hys hy
            obtain ⟨t', i⟩ := it
            have hti := (List.mem_zipIdx_iff_getElem?.1 hit)
            dsimp only at hy' hti
            cases hxi : xs[i]? with
            | none =>
              have hpi : pyIndex (.tuple xs) i = .error (.py .index) := by simp [pyIndex, hxi]
              rw [hpi] at hy'
              exact hr.render cx S { ty := t', ser := a.ser, v := .error (.py .index) } y hs hS
                ⟨fun g hg => absurd hg (hser g), fun _ _ u hu => by cases hu⟩ hy'
            | some x =>
              have hpi : pyIndex (.tuple xs) i = .ok x := by simp [pyIndex, hxi]
              rw [hpi] at hy'
              exact hel _ _ _ (hx i t' x hti hxi) hy'
          · cases h
      | tupleV hi hx =>
        rw [hv] at h; dsimp only at h
        rw [items_iter hi] at h; dsimp only at h
        split at h
        · rename_i ys hys; cases h; exact (hG.tuple _).2 (hels _ _ _ hx hys)
        · cases h
      | tupleB hg => rw [hv] at h; cases h; exact hg
      | dict hk hx =>
        rw [hv] at h
        simp only [pyItems] at h
        split at h
        · rename_i es hes
          refine good_mkDict hG ⟨fun e he => ?_, fun e he => ?_⟩ h
          all_goals
            obtain ⟨kv, hkv, he'⟩ := Props.mapR_mem hes he
            split at he'
            · cases he'
            · rename_i y hy
              split at he'
              · rename_i z hz
                cases he'
                first | exact hel _ _ _ (hk kv hkv) hy | exact hel _ _ _ (hx kv hkv) hz
              · cases he'
        · cases h
      | dictB hg =>
        rename_i k
        cases k <;> first | (cases h; done) | (rw [hv] at h; cases h; exact hg)
      | enum =>
        rw [hv] at h
        exact good_enumValue hE (liftP_ok h)
      | std hg =>
        rw [hv] at h; dsimp only at h
        split at h
        · rename_i hre; cases h; exact hg hre
        · cases h; exact hG.scalar _ .str
      | dt hg =>
        rw [hv] at h; dsimp only at h
        split at h
        · rename_i hre; cases h; exact hg hre
        · split at h
          · cases h; exact hG.scalar _ .str
          · cases h
      | lit hg => rw [hv] at h; cases h; exact hg
      | optNone ht =>
        rw [hv] at h; dsimp only at h
        rename_i t
        have hopt : (Ty.union [t, .none]).isOpt = true := by
          cases t <;> first | rfl | exact absurd rfl ht
        rw [hopt, if_pos rfl] at h
        cases h; exact hG.scalar _ .none
      | optSome ht hf =>
        rw [hv] at h; dsimp only at h
        rename_i t
        have hopt : (Ty.union [t, .none]).isOpt = true := by
          cases t <;> first | rfl | exact absurd rfl ht
        rw [hopt, if_pos rfl] at h
        split at h
        · cases h; exact hG.scalar _ .none
        · exact hel _ _ _ hf h
      | union ho hkn hown hm =>
        rw [hv] at h; dsimp only at h
        rw [ho] at h
        simp only [Bool.false_eq_true, if_false] at h
        split at h
        · rename_i us hus
          have hname := hus
          unfold findUnion at hname
          replace hname := List.find?_some hname
          rw [beq_iff_eq] at hname
          have hus' := hown us (hS us (findUnion_mem hus)) hname
          subst hus'
          exact good_union hG hr (cx := cx.inUnion env) hgs hS hkn hm h
        · cases h

theorem good_flat {r : SeRec} (hr : SafeRec env G r) (hse : SersOk env G) {cx : SeCx} {S : List Ty → Prop}
    {a : SeArg} {ws} (hs : GoodSers G cx.sers) (hS : ∀ us ∈ cx.unions, S us) (ha : ArgOk G cx.sers (FitsField env G S cx.reuse cx.conv a.flatten) a)
    (h : flatF env r cx a = .ok ws) : ∀ w ∈ ws, G w := by
  have single : ArgOk G cx.sers (Fits env G S cx.reuse cx.conv) a → ∀ ws, (match r.render cx a with
      | .ok v => (.ok [v] : Res (List Val))
      | .error e => .error e) = .ok ws → ∀ w ∈ ws, G w := by
    intro ha ws h
    split at h
    · rename_i v hv
      cases h
      intro w hw
      rw [List.mem_singleton] at hw
      subst hw
      exact hr.render cx S a _ hs hS ha hv
    · cases h
  unfold flatF at h
  dsimp only at h
  split at h
  · rename_i hp
    exact single ⟨ha.custom, fun _ hn => by rw [hn] at hp; cases hp⟩ ws h
  · split at h
    · rename_i g hg
      exact single ⟨ha.custom, fun hno => absurd hg (hno g)⟩ ws h
    · rename_i hp _ hser
      have hser : ∀ g, a.ser ≠ some (.fn g) := hser
      have hp : pickSer cx.sers a = none := by simpa using hp
      have hrest : ∀ F : Ty → Val → Prop, (∀ v, a.v = .ok v → F a.ty v) → ArgOk G cx.sers F a :=
        fun F hF => ⟨ha.custom, fun _ _ => hF⟩
      split at h
      · rename_i hfl
        split at h
        · rename_i c hc
          split at h
          · rename_i cd hcd
            refine good_concat (fun f hf ws hws => ?_) h
            refine hr.flat cx S (seFieldArg f a.v) ws hs hS ⟨fun g hg => hse.field c cd f g hcd hf hg, fun hno _ x hx => ?_⟩ hws
            cases hv : a.v with
            | error e =>
              have : (seFieldArg f a.v).v = .error e := by rw [hv]; rfl
              rw [this] at hx; cases hx
            | ok v =>
              have hfit := ha.fits hser hp v hv
              rw [hfl, hc] at hfit
              have hx' : getAttr v f.name = .ok x := by
                have : (seFieldArg f a.v).v = getAttr v f.name := by rw [hv]; rfl
                rw [← this]; exact hx
              cases hfit with
              | flatDict ht _ => cases ht
              | flatCls hc' hall =>
                have e : some _ = some cd := hc'.symm.trans hcd
                cases e
                unfold getAttr at hx'
                dsimp only at hx'
                split at hx'
                · rename_i y hy
                  cases hx'
                  exact hall f hf hno x hy
                · cases hx'
          · cases h
        · rename_i t hc
          refine hr.flat cx S { a with ty := t } ws hs hS ⟨ha.custom, fun _ _ v hv => ?_⟩ h
          have hfit := ha.fits hser hp v hv
          rw [hfl, hc] at hfit
          cases hfit with
          | flatDict ht _ => cases ht
          | flatOpt hf =>
            show FitsField env G S cx.reuse cx.conv a.flatten t v
            rw [hfl]; exact hf
        · rename_i hn1 hn2
          refine single (hrest _ (fun v hv => ?_)) ws h
          have hfit := ha.fits hser hp v hv
          rw [hfl] at hfit
          generalize hty : a.ty = ty at hfit
          cases hfit with
          | flatDict _ hf => exact hf
          | flatCls _ _ => exact absurd hty (hn1 _)
          | flatOpt _ => exact absurd hty (hn2 _)
      · rename_i hfl
        refine single (hrest _ (fun v hv => ?_)) ws h
        have hfit := ha.fits hser hp v hv
        rw [Bool.not_eq_true] at hfl
        rw [hfl] at hfit
        cases hfit with
        | plain hf => exact hf

theorem good_field (hG : Shape G) {r : SeRec} (hr : SafeRec env G r) {cx : SeCx} {S : List Ty → Prop} {cd obj res f res'}
    (hs : GoodSers G cx.sers) (hS : ∀ us ∈ cx.unions, S us)
    (ha : ArgOk G cx.sers (FitsField env G S cx.reuse cx.conv f.flatten) (seFieldArg f (.ok obj))) (hres : GoodEs G res)
    (h : seField env r cx cd obj res f = .ok res') : GoodEs G res' := by
  unfold seField at h
  split at h
  · cases h
  · rename_i vs hvs
    split at h
    · cases h
    · rename_i sub hsub
      have hg : G sub := good_join hG (hr.flat cx S _ vs hs hS ha hvs) hsub
      split at h
      · split at h
        · split at h
          · rename_i kvs hk
            cases h
            unfold pyItems at hk
            split at hk
            · cases hk; exact goodEs_merge hres ((hG.dict _ _).1 hg)
            · cases hk
          · cases h
        · cases h; exact hres
      · split at h
        · cases h
        · cases h; exact hres
        · exact goodEs_assign hG hres hg h

theorem good_fields (hG : Shape G) {r : SeRec} (hr : SafeRec env G r) {cx : SeCx} {S : List Ty → Prop} {cd obj}
    (hs : GoodSers G cx.sers) (hS : ∀ us ∈ cx.unions, S us) : ∀ {fs : List FieldDef} {res res'},
    (∀ f ∈ fs, ArgOk G cx.sers (FitsField env G S cx.reuse cx.conv f.flatten) (seFieldArg f (.ok obj))) → GoodEs G res →
    seFields env r cx cd obj res fs = .ok res' → GoodEs G res' := by
  intro fs
  induction fs with
  | nil => intro res res' _ hres h; cases h; exact hres
  | cons f fs ih =>
    intro res res' ha hres h
    unfold seFields at h
    split at h
    · cases h
    · rename_i res1 h1
      exact ih (fun g hg => ha g (by simp [hg])) (good_field hG hr hs hS (ha f (by simp)) hres h1) h

theorem good_cls (hG : Shape G) (hse : SersOk env G) {r : SeRec} (hr : SafeRec env G r) {b re cv sn v w}
    (hf : FitsObj env G re cv v) (h : clsF env r b re cv sn v = .ok w) : G w := by
  cases hf with
  | mk hc hall =>
    rename_i c cd attrs
    unfold clsF at h
    dsimp only at h
    rw [hc] at h
    dsimp only at h
    have hs : GoodSers G (clsSeCx env c cd b re cv sn).sers := by
      intro s hs v w hw
      rcases List.mem_append.1 hs with hs | hs
      · exact hse.global s hs v w hw
      · cases hcs : cd.classSer with
        | none => rw [hcs] at hs; cases hs
        | some s' =>
          rw [hcs] at hs
          simp only [Option.toList, List.mem_singleton] at hs
          subst hs
          exact hse.cls c cd s hc hcs v w hw
    have hS : ∀ us ∈ (clsSeCx env c cd b re cv sn).unions, (fun us => Reach env true (.cls c) (.union us)) us := fun us hus => unionsOf_iff.1 hus
    have ha : ∀ f ∈ cd.seFieldsOf, ArgOk G (clsSeCx env c cd b re cv sn).sers (FitsField env G (fun us => Reach env true (.cls c) (.union us))
        (clsSeCx env c cd b re cv sn).reuse (clsSeCx env c cd b re cv sn).conv f.flatten) (seFieldArg f (.ok (.inst c attrs))) := by
      intro f hf
      unfold ClassDef.seFieldsOf at hf
      obtain ⟨hf1, hf2⟩ := List.mem_filter.1 hf
      simp only [Bool.not_eq_true', Bool.or_eq_false_iff] at hf2
      refine ⟨fun g hg => hse.field c cd f g hc hf1 hg, fun hno _ x hx => ?_⟩
      have hx' : getAttr (.inst c attrs) f.name = .ok x := hx
      unfold getAttr at hx'
      dsimp only at hx'
      split at hx'
      · rename_i y hy
        cases hx'
        exact hall f hf1 hf2.1 hf2.2 hno x hy
      · cases hx'
    split at h
    · split at h
      · cases h
      · rename_i f fs hfs
        split at h
        · rename_i vs hvs
          exact good_join hG (hr.flat _ _ _ vs hs hS (ha f (by rw [hfs]; simp)) hvs) h
        · cases h
    · split at h
      · split at h
        · rename_i res hres
          cases h
          exact (hG.dict _ _).2 (good_fields hG hr hs hS ha ⟨by simp, by simp⟩ hres)
        · cases h
      · split at h
        · rename_i vs hvs
          cases h
          exact (hG.tuple _).2 (good_concat (fun f hf ws hws => hr.flat _ _ _ ws hs hS (ha f hf) hws) hvs)
        · cases h

theorem good_cacheSe {r : SeRec} (hr : SafeRec env G r) (hgs : GoodSers G env.gser) {t re cv sn v w}
    (hf : bearable env t v = true → Fits env G (fun _ => True) (re.getD true) (cv.getD false) t v) (h : cacheSe env r t re cv sn v = .ok w) : G w := by
  unfold cacheSe at h
  split at h
  · rename_i hb
    dsimp only at h
    have key := fun cx w (hc : cx.sers = env.gser) (hr1 : cx.reuse = re.getD true) (hr2 : cx.conv = cv.getD false) hw =>
      hr.render cx (fun _ => True) { ty := t, v := .ok v } w (by rw [hc]; exact hgs) (fun _ _ => trivial)
      ⟨fun g hg => (nomatch (show (none : Option SerFn) = some (.fn g) from hg)), fun _ _ u hu => by cases hu; rw [hr1, hr2]; exact hf hb⟩ hw
    split at h
    · cases h
    · rename_i hw
      split at h
      · cases h
      · cases h; exact key _ _ rfl rfl rfl hw
    · rename_i hw
      cases h; exact key _ _ rfl rfl rfl hw
  · cases h

theorem good_toObj (hG : Shape G) {r : SeRec} (hr : SafeRec env G r) (hgs : GoodSers G env.gser) {b re cv sn c tg v w}
    (hc : c = none ∨ c = some .any ∨ ∃ k, c = some (.cls k)) (hf : Free env G re cv v) (h : toObjF env r b re cv sn c tg v = .ok w) : G w := by
  unfold toObjF at h
  rw [wrapAll_ok] at h
  rw [toObjBody_eq] at h
  replace h : toObjPlain env r b re cv sn c v = .ok w := by
    rcases hc with rfl | rfl | ⟨k, rfl⟩ <;> exact h
  have hthis : ∀ x y, Free env G re cv x → r.toObj b re cv sn none .external x = .ok y → G y := fun x y hx hy => hr.toObj _ _ _ _ _ _ _ _ (.inl rfl) hx hy
  unfold toObjPlain at h
  dsimp only at h
  split at h
  · cases h; exact hG.scalar _ .none
  · split at h
    · rename_i s hs
      exact hgs s (List.mem_of_find?_eq_some hs) v w (liftP_ok h)
    · cases hf with
      | scalar hsc => cases hsc <;> (cases h; exact hG.scalar _ (by constructor))
      | enum hg => cases h; exact hg
      | items hi hx =>
        cases hi <;> dsimp only at h <;> split at h <;> first | (cases h; done) | skip
        all_goals
          rename_i ys hys
          cases h
          first
            | exact (hG.list _).2 (good_mapR (fun x hxm y => hthis x y (hx x hxm)) hys)
            | exact (hG.tuple _).2 (good_mapR (fun x hxm y => hthis x y (hx x hxm)) hys)
      | dict hk hx =>
        dsimp only at h
        split at h
        · rename_i es hes
          cases h
          refine (hG.dict _ _).2 ⟨fun e he => ?_, fun e he => ?_⟩
          all_goals
            obtain ⟨kv, hkv, he'⟩ := Props.mapR_mem hes he
            split at he'
            · rename_i y hy
              cases he'
              first | exact hk kv hkv | exact hthis _ _ (hx kv hkv) hy
            · cases he'
        · cases h
      | std hg =>
        dsimp only at h
        refine good_cacheSe hr hgs (fun hb => ?_) h
        rcases hc with rfl | rfl | ⟨k, rfl⟩
        · exact .std (fun hre => hg (by rintro rfl; cases hre))
        · exact .std (fun hre => hg (by rintro rfl; cases hre))
        · simp [Ty.isAny, bearable, isClsInst] at hb
      | dt hg =>
        dsimp only at h
        refine good_cacheSe hr hgs (fun hb => ?_) h
        rcases hc with rfl | rfl | ⟨k, rfl⟩
        · exact .dt (fun hre => hg (by rintro rfl; cases hre))
        · exact .dt (fun hre => hg (by rintro rfl; cases hre))
        · simp [Ty.isAny, bearable, isClsInst] at hb
      | obj hf =>
        have hf' := hf
        cases hf with
        | mk _ _ => exact hr.cls _ _ _ _ _ _ hf' h

/-- Serialization keeps to `G`. -/
theorem good_at (hG : Shape G) (hE : EnumsOk env G) (hse : SersOk env G) : ∀ n, SafeRec env G (seAt env n) := by
  intro n
  induction n with
  | zero => constructor <;> (intros; rename_i h; first | (cases h; done) | (rename_i h' _; cases h'))
  | succ n ih =>
    exact ⟨fun cx S a w hs hS ha h => good_render hG hE hse.global ih hs hS ha h,
      fun cx S a ws hs hS ha h => good_flat ih hse hs hS ha h,
      fun b re cv sn v w hf h => good_cls hG hse ih hf h,
      fun b re cv sn c tg v w hc hf h => good_toObj hG ih hse.global hc hf h⟩

end
end Verif
