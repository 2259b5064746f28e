import Verif.Lemmas.RTMain
import Verif.Lemmas.ReadTo
import Verif.Spec.Accept
/-!
# Valid data is accepted
-/

namespace Verif

open Spec

/-! ## The value has the annotated type -/

theorem converts_ofPrim {env : Env} {p x w} (h : Converts env p x w) : OfPrim p w := by
  cases h <;> constructor

theorem ofPrim_bearable {env : Env} {p w} (h : OfPrim p w) : isPrimInst env p w = true := by
  cases h <;> rfl

theorem isA_std {env : Env} {k v} (h : IsA env (.std k) v) : isStdInst env k v = true := by
  cases h with
  | std => simp [isStdInst]
  | stdSub h => simp [isStdInst, h]

theorem isA_dt {env : Env} {k v} (h : IsA env (.dt k) v) : isDtInst k v = true := by
  cases h <;> simp_all [isDtInst]

theorem validLeaf_bearable {env : Env} {m t x v} (h : ValidLeaf env m t x v) : bearable env t v = true := by
  cases h with
  | prim _ h => simpa [bearable] using ofPrim_bearable h
  | number _ _ => rfl
  | coerced _ _ h => simpa [bearable] using ofPrim_bearable (converts_ofPrim h)
  | newType h => simpa [bearable] using ofPrim_bearable h
  | newTypeCoerced _ h => simpa [bearable] using ofPrim_bearable (converts_ofPrim h)
  | none => rfl
  | any => simp [bearable]
  | enum => simp [bearable]
  | member => simp [bearable]
  | std _ h => simpa [bearable] using isA_std h
  | stdKept _ h => simpa [bearable] using isA_std h
  | dt _ h => simpa [bearable] using isA_dt h
  | dtKept _ h => simpa [bearable] using isA_dt h
  | lit _ hl hm =>
    simp only [bearable]
    refine List.any_eq_true.2 ⟨_, hm, ?_⟩
    rw [pyEq_refl_litVal hl]
    cases hl <;> rfl
  | listB => simp [bearable, seqInst]
  | dequeB => simp [bearable]
  | tupleB => simp [bearable]
  | @setB k x xs hk => cases k <;> simp_all [bearable, setInst]
  | counterB => simp [bearable]
  | @dictB k dk kvs hk => cases k <;> simp_all [bearable, mapInst]

theorem bearableZip_zip {env : Env} : ∀ {ts : List Ty} {xs vs : List Val}, ts.length = xs.length → ts.length = vs.length →
    (∀ p ∈ ts.zip (xs.zip vs), bearable env p.1 p.2.2 = true) → bearableZip env ts vs = true
  | [], _, [], _, _, _ => by simp [bearableZip]
  | [], _, _ :: _, _, h, _ => by cases h
  | _ :: _, [], _, h, _, _ => by cases h
  | _ :: _, _ :: _, [], _, h, _ => by cases h
  | t :: ts, x :: xs, v :: vs, h1, h2, h => by
    simp only [bearableZip, Bool.and_eq_true]
    exact ⟨h (t, x, v) (by simp), bearableZip_zip (xs := xs) (by simpa using h1) (by simpa using h2) (fun p hp => h p (by simp [hp]))⟩

theorem zip_right {α β : Type} {xs : List α} {ys : List β} (hl : xs.length = ys.length) {P : α × β → Prop} (h : ∀ p ∈ xs.zip ys, P p) {y} (hy : y ∈ ys) :
    ∃ x, P (x, y) := by
  obtain ⟨x, hx⟩ := mem_of_zip hl hy
  exact ⟨x, h _ hx⟩

theorem valid_bearable {env : Env} {m t x v} (h : Valid env m t x v) : bearable env t v = true := by
  induction h with
  | leaf h => exact validLeaf_bearable h
  | list hi hl h ih =>
    simp only [bearable, seqInst]
    split
    · rename_i y hy
      obtain ⟨x, hx⟩ := zip_right hl ih (env.P.pick_mem _ _ hy)
      exact hx
    · rfl
  | deque hi hl h ih =>
    simp only [bearable]
    split
    · rename_i y hy
      obtain ⟨x, hx⟩ := zip_right hl ih (env.P.pick_mem _ _ hy)
      exact hx
    · rfl
  | tupleV hi hl h ih =>
    simp only [bearable]
    split
    · rename_i y hy
      obtain ⟨x, hx⟩ := zip_right hl ih (env.P.pick_mem _ _ hy)
      exact hx
    · rfl
  | tuple hne hx hl hl' h ih =>
    simp only [bearable]
    exact bearableZip_zip hl hl' ih
  | @set m k t x xs vs hi hl h hh hd ih =>
    have hs : setInst k (.set (k == .frozen) vs) = some vs := by cases k <;> rfl
    simp only [bearable, hs]
    split
    · rename_i y hy
      obtain ⟨x, hx⟩ := zip_right hl ih (env.P.pick_mem _ _ hy)
      exact hx
    · rfl
  | @dict m k kt vt dk kvs es hl hk hn hv hh hd ihk ihv =>
    have hs : mapInst k (.dict (if k = .deflt then .deflt (typename env vt) else .plain) es) = some es := by cases k <;> rfl
    simp only [bearable, hs]
    split
    · rename_i kv hkv
      obtain ⟨x, hx⟩ := mem_of_zip hl (env.P.pickKV_mem _ _ hkv)
      rw [ihv _ hx, Bool.and_true]
      by_cases hp : PlainKey kt
      · exact ihk _ hx hp
      · have : kt = .prim .int ∨ kt = .prim .float := by
          unfold PlainKey at hp
          by_cases h1 : kt = .prim .int
          · exact .inl h1
          · by_cases h2 : kt = .prim .float
            · exact .inr h2
            · exact absurd ⟨h1, h2⟩ hp
        rcases this with rfl | rfl
        · simpa [bearable] using ofPrim_bearable (converts_ofPrim (hn _ hx _ rfl hp))
        · simpa [bearable] using ofPrim_bearable (converts_ofPrim (hn _ hx _ rfl hp))
    · rfl
  | counter hl hk hc hh hd ih =>
    simp only [bearable]
    split
    · rename_i kv hkv
      obtain ⟨x, hx⟩ := mem_of_zip hl (env.P.pickKV_mem _ _ hkv)
      exact ih _ hx
    · rfl
  | optNone _ => simp [bearable, bearableAny]
  | opt _ _ _ ih => simp [bearable, bearableAny, ih]
  | @union m ts pre t post x p v ho hu he hp hpl hi hv hc ih =>
    simp only [bearable]
    rw [bearableAny_iff]
    exact ⟨t, by rw [he]; simp, ih⟩
  | alias _ ih => simpa [bearable] using ih
  | gen _ ih => simpa [bearable] using ih
  | object _ hc hr _ _ _ _ _ _ _ _ _ _ =>
    simp only [bearable, isClsInst, hc]
    simpa using hr.self
  | row _ hc _ hs _ _ _ _ _ _ =>
    simp only [bearable, isClsInst, hc]
    simpa using hs
  | through hc _ _ _ hs _ _ _ _ _ _ _ =>
    simp only [bearable, isClsInst, hc]
    simpa using hs

/-! ## Places and contexts -/

/-- The context belongs to the place. -/
structure DeP (env : Env) (m : Place) (cx : DeCx) : Prop where
  named : cx.named = m.named
  reuse : cx.reuse = m.reuse
  numbers : cx.numbers = m.numbers
  coerce : cx.coerce = m.coerce
  unions : cx.unions = env.unionsOf m.cls
  lits : cx.lits = env.litsOf m.cls
  tagging : cx.tagging = m.tagging
  des : cx.des = []

theorem DeP.data {env : Env} {m cx} (h : DeP env m cx) (d) : DeP env m { cx with data := d } :=
  ⟨h.named, h.reuse, h.numbers, h.coerce, h.unions, h.lits, h.tagging, h.des⟩

theorem DeP.inUnion {env : Env} {m cx} (hg : env.gde = []) (h : DeP env m cx) (d) : DeP env m.member (cx.inUnion env d) :=
  ⟨rfl, h.reuse, h.numbers, rfl, h.unions, h.lits, h.tagging, hg⟩

theorem deP_cls {env : Env} {m : Place} {c} {cd : ClassDef} {b o d} (hb : b = m.named) (hg : env.gde = []) (hs : cd.classDe = none)
    (hre : o.reuse.getD cd.reuseDflt = m.reuse) (hnu : o.numbers = m.numbers) : DeP env (m.enter c cd) (clsDeCx env c cd b o d) := by
  unfold clsDeCx Place.enter
  constructor <;> simp_all

/-- Wherever the data is read at this place, this comes out. -/
def Gets (env : Env) (m : Place) (t : Ty) (x : Val) (w : Res Val) : Prop :=
  Ev (fun n => ∀ cx a, DeP env m cx → Reads a x → a.ty = t → (deAt env n).render cx a = w)

/-- Wherever the data is read at this place, the value comes out. -/
abbrev Gives (env : Env) (m : Place) (t : Ty) (x v : Val) : Prop := Gets env m t x (.ok v)

theorem pyIter_items {x xs} (h : Items x xs) : pyIter x = .ok xs := by cases h <;> rfl

/-! ## Leaves -/

theorem leaf_gives {env : Env} {m t x v} (h : ValidLeaf env m t x v) : Gives env m t x v := by
  refine Ev.pos.mono ?_
  rintro n ⟨n, rfl⟩ cx a hcx hr hty
  rw [render_reads hr]
  unfold deBody
  rw [hcx.des, pickDe_nil, hr.2.1]
  dsimp only
  rw [hty]
  cases h with
  | @prim p x hn ho =>
    dsimp only
    rw [hr.primData]
    dsimp only
    have hc : coerceObj env p x = .ok x := coerceObj_prim (by cases ho <;> constructor)
    split
    · rename_i num hnum
      rw [hcx.numbers, hn rfl] at hnum
      cases hnum
    · rw [hc]; simp
  | number hn hx =>
    dsimp only
    rw [hr.primData]
    dsimp only
    rw [hcx.numbers, hn]
    dsimp only
    rw [hx]; rfl
  | @coerced p x w hn hco hw =>
    dsimp only
    rw [hr.primData]
    dsimp only
    split
    · rename_i num hnum
      rw [hcx.numbers, hn rfl] at hnum
      cases hnum
    · rw [hcx.coerce, hco, if_pos rfl, converts_coerce hw]
  | @newType nm p x ho =>
    dsimp only
    rw [hr.primData]
    dsimp only
    have hc : coerceObj env p x = .ok x := coerceObj_prim (by cases ho <;> constructor)
    rw [hc]; simp
  | newTypeCoerced hco hw =>
    dsimp only
    rw [hr.primData]
    dsimp only
    rw [hcx.coerce, hco, if_pos rfl, converts_coerce hw]
  | none => rfl
  | any => exact hr.data
  | enum he hd hm =>
    dsimp only
    rw [hr.primData]
    dsimp only
    rw [deEnum_value he hd hm]; rfl
  | @member e mem he =>
    dsimp only
    rw [hr.primData]
    dsimp only
    obtain ⟨d, hd⟩ := Option.ne_none_iff_exists'.1 he
    unfold deEnum
    rw [hd]
    dsimp only
    have : enumCall d e (.enum e mem) = .ok (.enum e mem) := by unfold enumCall; simp
    rw [this]; rfl
  | std hs _ =>
    dsimp only
    rw [hr.data]
    dsimp only
    have : ∀ k s, isStdInst env k (.str s) = false := fun k s => rfl
    rw [this, Bool.and_false]
    simp only [Bool.false_eq_true, if_false]
    unfold stdCall
    rw [hs]; rfl
  | stdKept hre hi =>
    dsimp only
    rw [hr.data]
    dsimp only
    rw [hcx.reuse, hre, isA_std hi]; rfl
  | dt hs _ =>
    dsimp only
    rw [hr.data]
    dsimp only
    have : ∀ k s, isDtInst k (.str s) = false := fun k s => rfl
    rw [this, Bool.and_false]
    simp only [Bool.false_eq_true, if_false]
    rw [hs]; rfl
  | dtKept hre hi =>
    dsimp only
    rw [hr.data]
    dsimp only
    rw [hcx.reuse, hre, isA_dt hi]; rfl
  | lit hl hv hm =>
    dsimp only
    rw [hcx.lits, findLit_own hl.1 hl.2]
    dsimp only
    rw [hr.data]
    dsimp only
    unfold deLit
    rw [if_pos (List.any_eq_true (p := fun l => pyEq l x).2 ⟨_, hm, pyEq_refl_litVal hv⟩)]
  | listB hi => dsimp only; rw [hr.data]; dsimp only; rw [pyIter_items hi]
  | dequeB hi => dsimp only; rw [hr.data]; dsimp only; rw [pyIter_items hi]
  | tupleB hi => dsimp only; rw [hr.data]; dsimp only; rw [pyIter_items hi]
  | setB _ hi hh hd => dsimp only; rw [hr.data]; dsimp only; rw [pyIter_items hi]; exact mkSet_id hh hd
  | counterB => dsimp only; rw [hr.data]; rfl
  | @dictB k dk kvs hk =>
    cases k <;> first | exact absurd rfl hk | exact hr.data

/-! ## Containers -/

theorem elems_give {env : Env} {m t} {xs vs : List Val} (hl : xs.length = vs.length) (h : ∀ p ∈ xs.zip vs, Gives env m t p.1 p.2) :
    Ev (fun n => ∀ cx nm, DeP env m cx →
      mapR (fun x => (deAt env n).render cx { ty := t, name := nm, conv := nm, src := .val (.ok x), alias := [], deser := none }) xs = .ok vs) := by
  refine (Ev.list h).mono (fun n hn cx nm hcx => ?_)
  exact mapR_zip hl (fun p hp => hn p hp cx _ hcx Reads.val rfl)

theorem list_gives {env : Env} {m k t x xs vs} (hi : Items x xs) (hl : xs.length = vs.length) (h : ∀ p ∈ xs.zip vs, Gives env m t p.1 p.2) :
    Gives env m (.list k t) x (.list vs) := by
  refine (elems_give hl h).step ?_
  intro n hn cx a hcx hr hty
  rw [render_reads hr]
  unfold deBody
  rw [hcx.des, pickDe_nil, hr.2.1, hr.1]
  dsimp only
  rw [hty]
  dsimp only
  rw [hr.data]
  dsimp only
  rw [pyIter_items hi]
  dsimp only
  rw [hn cx "v" hcx]

theorem deque_gives {env : Env} {m t x xs vs} (hi : Items x xs) (hl : xs.length = vs.length) (h : ∀ p ∈ xs.zip vs, Gives env m t p.1 p.2) :
    Gives env m (.deque t) x (.deque vs) := by
  refine (elems_give hl h).step ?_
  intro n hn cx a hcx hr hty
  rw [render_reads hr]
  unfold deBody
  rw [hcx.des, pickDe_nil, hr.2.1, hr.1]
  dsimp only
  rw [hty]
  dsimp only
  rw [hr.data]
  dsimp only
  rw [pyIter_items hi]
  dsimp only
  rw [hn cx "v" hcx]

theorem tupleV_gives {env : Env} {m t x xs vs} (hi : Items x xs) (hl : xs.length = vs.length) (h : ∀ p ∈ xs.zip vs, Gives env m t p.1 p.2) :
    Gives env m (.tupleV t) x (.tuple vs) := by
  refine (elems_give hl h).step ?_
  intro n hn cx a hcx hr hty
  rw [render_reads hr]
  unfold deBody
  rw [hcx.des, pickDe_nil, hr.2.1, hr.1]
  dsimp only
  rw [hty]
  dsimp only
  rw [hr.data]
  dsimp only
  rw [pyIter_items hi]
  dsimp only
  rw [hn cx "v" hcx]

theorem set_gives {env : Env} {m k t x xs vs} (hi : Items x xs) (hl : xs.length = vs.length) (h : ∀ p ∈ xs.zip vs, Gives env m t p.1 p.2)
    (hh : hashableL env.hash vs = true) (hd : AllDistinct vs) : Gives env m (.set k t) x (.set (k == .frozen) vs) := by
  refine (elems_give hl h).step ?_
  intro n hn cx a hcx hr hty
  rw [render_reads hr]
  unfold deBody
  rw [hcx.des, pickDe_nil, hr.2.1, hr.1]
  dsimp only
  rw [hty]
  dsimp only
  rw [hr.data]
  dsimp only
  rw [pyIter_items hi]
  dsimp only
  rw [hn cx "v" hcx]
  exact mkSet_id hh hd

theorem tuple_gives {env : Env} {m ts x xs vs} (hne : ts ≠ []) (hx : x = .list xs ∨ x = .tuple xs) (hl : ts.length = xs.length) (hl' : ts.length = vs.length)
    (h : ∀ p ∈ ts.zip (xs.zip vs), Gives env m p.1 p.2.1 p.2.2) : Gives env m (.tuple ts) x (.tuple vs) := by
  refine (Ev.list h).step ?_
  intro n hn cx a hcx hr hty
  rw [render_reads hr]
  unfold deBody
  rw [hcx.des, pickDe_nil, hr.2.1, hr.1]
  dsimp only
  rw [hty, hr.data]
  dsimp only
  have key : mapR (fun it : Ty × Nat => (deAt env n).render cx { ty := it.1, name := "data[..]", conv := "data[..]", src := .val (pyIndex x it.2), alias := [], deser := none }) ts.zipIdx = .ok vs := by
    refine mapR_zip (by simp [hl']) (fun p hp => ?_)
    obtain ⟨i, hi, rfl⟩ := List.getElem_of_mem hp
    simp at hi
    have h1 : i < ts.length := by omega
    have h2 : i < xs.length := by omega
    have h3 : i < vs.length := by omega
    have hm : (ts[i], xs[i], vs[i]) ∈ ts.zip (xs.zip vs) := by
      have := zip_get (xs := ts) (ys := xs.zip vs) (i := i) h1 (by simp; omega)
      simpa using this
    simp only [List.getElem_zip, List.getElem_zipIdx, Nat.zero_add]
    rw [pyIndex_arr hx (List.getElem?_eq_getElem h2)]
    exact hn _ hm cx _ hcx Reads.val rfl
  cases ts with
  | nil => exact absurd rfl hne
  | cons t ts => dsimp only; rw [key]

theorem dict_gives {env : Env} {m k kt vt dk} {kvs es : List (Val × Val)} (hl : kvs.length = es.length)
    (hk : ∀ p ∈ kvs.zip es, PlainKey kt → Gives env m kt p.1.1 p.2.1)
    (hn : ∀ p ∈ kvs.zip es, ∀ q, kt = .prim q → ¬ PlainKey kt → Converts env q p.1.1 p.2.1)
    (hv : ∀ p ∈ kvs.zip es, Gives env m vt p.1.2 p.2.2) (hh : hashableL env.hash (es.map (·.1)) = true) (hd : AllDistinct (es.map (·.1))) :
    Gives env m (.dict k kt vt) (.dict dk kvs) (.dict (if k = .deflt then .deflt (typename env vt) else .plain) es) := by
  have hk' : Ev (fun n => ∀ p ∈ kvs.zip es, PlainKey kt → ∀ cx a, DeP env m cx → Reads a p.1.1 → a.ty = kt → (deAt env n).render cx a = .ok p.2.1) :=
    Ev.list (fun p hp => Ev.call (hk p hp))
  refine (hk'.and (Ev.list hv)).step ?_
  rintro n ⟨hnk, hnv⟩ cx a hcx hr hty
  rw [render_reads hr]
  unfold deBody
  rw [hcx.des, pickDe_nil, hr.2.1, hr.1]
  dsimp only
  rw [hty]
  dsimp only
  rw [hr.data]
  simp only [pyItems]
  rw [mapR_zip (bs := es) hl]
  · dsimp only
    rw [mkDict_id hh (allDistinct_pyEq hd)]
    cases k <;> rfl
  · intro p hp
    have hvp := hnv p hp cx { ty := vt, name := "v", conv := "v", src := .val (.ok p.1.2) } hcx Reads.val rfl
    by_cases hpk : PlainKey kt
    · rw [numKey_plain hpk]
      dsimp only
      rw [hnk p hp hpk cx _ hcx Reads.val rfl]
      dsimp only
      rw [hvp]
    · have : ∃ q, kt = .prim q ∧ numKey kt = some q := by
        unfold PlainKey at hpk
        by_cases h1 : kt = .prim .int
        · exact ⟨.int, h1, by rw [h1]; rfl⟩
        · by_cases h2 : kt = .prim .float
          · exact ⟨.float, h2, by rw [h2]; rfl⟩
          · exact absurd ⟨h1, h2⟩ hpk
      obtain ⟨q, hq, hnum⟩ := this
      rw [hnum]
      dsimp only
      rw [converts_coerce (hn p hp q hq hpk)]
      dsimp only
      rw [hvp]

theorem counter_gives {env : Env} {m t dk} {kvs es : List (Val × Val)} (hl : kvs.length = es.length) (hk : ∀ p ∈ kvs.zip es, Gives env m t p.1.1 p.2.1)
    (hc : ∀ p ∈ kvs.zip es, p.2.2 = p.1.2) (hh : hashableL env.hash (es.map (·.1)) = true) (hd : AllDistinct (es.map (·.1))) :
    Gives env m (.counter t) (.dict dk kvs) (.dict .counter es) := by
  refine (Ev.list hk).step ?_
  intro n hn cx a hcx hr hty
  rw [render_reads hr]
  unfold deBody
  rw [hcx.des, pickDe_nil, hr.2.1, hr.1]
  dsimp only
  rw [hty]
  dsimp only
  rw [hr.data]
  simp only [pyItems]
  rw [mapR_zip (bs := es) hl]
  · dsimp only
    exact mkDict_id hh (allDistinct_pyEq hd)
  · intro p hp
    rw [hn p hp cx _ hcx Reads.val rfl]
    dsimp only
    rw [← hc p hp]

/-! ## Unions -/

theorem optNone_gives {env : Env} {m t} (hne : t ≠ .none) : Gives env m (.union [t, .none]) .none .none := by
  refine Ev.pos.mono ?_
  rintro n ⟨n, rfl⟩ cx a hcx hr hty
  rw [render_reads hr]
  unfold deBody
  rw [hcx.des, pickDe_nil]
  dsimp only
  rw [hr.2.1]
  dsimp only
  rw [hty]
  simp [isOpt_pair hne, hr.optExists_none]

theorem opt_gets {env : Env} {m t x w} (hne : t ≠ .none) (hx : x ≠ .none) (h : Gets env m t x w) : Gets env m (.union [t, .none]) x w := by
  refine Ev.step h ?_
  intro n hn cx a hcx hr hty
  rw [render_reads hr]
  unfold deBody
  rw [hcx.des, pickDe_nil]
  dsimp only
  rw [hr.2.1]
  dsimp only
  rw [hty]
  simp only [isOpt_pair hne, if_true]
  rw [hr.optExists_some hx]
  exact hn cx _ hcx ⟨hr.1, rfl, hr.2.2.1, rfl, hr.2.2.2.2⟩ rfl

theorem payload_ok {env : Env} {tg t x p} (h : PayloadOf env tg t x p) : unionPayload env tg t x = .ok p := by
  cases h with
  | plain hn =>
    unfold unionPayload
    cases t <;> first | rfl | exact absurd rfl (hn _)
  | untagged =>
    unfold unionPayload
    cases t.isCls <;> rfl
  | external hg =>
    unfold unionPayload
    simp only [Ty.isCls, if_true, pyIn, pyGetItem, typename]
    simp [hg]
  | internal hg he =>
    unfold unionPayload
    simp only [Ty.isCls, if_true, pyIn, pyGetItem, typename]
    simp [hg, he]
  | adjacent hg he hp =>
    unfold unionPayload
    simp only [Ty.isCls, if_true, pyIn, pyGetItem, typename]
    simp [hg, he, hp]

theorem turnedDown_err {env : Env} {m u x} (h : TurnedDown env m u x) {n cx} (hcx : DeP env m cx) :
    ∃ e, deMember env (deAt env (n + 1)) cx u x = .error e ∧ e ≠ .fuel := by
  have fetch : ∀ {u : Ty}, (∀ c, u ≠ .cls c) → (∃ e, (deAt env (n + 1)).render cx (memberArg u x) = .error e ∧ e ≠ .fuel) →
      ∃ e, deMember env (deAt env (n + 1)) cx u x = .error e ∧ e ≠ .fuel := by
    rintro u hu ⟨e, he, hf⟩
    rw [deMember_eq, payload_ok (.plain hu)]
    dsimp only
    split
    · exact ⟨_, rfl, by simp⟩
    · rw [he]; exact ⟨e, rfl, hf⟩
  have pre : ∀ {u : Ty}, (∀ c, u ≠ .cls c) → ¬ InputOk env u x → ∃ e, deMember env (deAt env (n + 1)) cx u x = .error e ∧ e ≠ .fuel := by
    intro u hu hn
    rw [deMember_eq, payload_ok (.plain hu)]
    dsimp only
    have : unionPre env u x = false := by
      cases hp : unionPre env u x with
      | false => rfl
      | true => exact absurd (unionPre_iff.1 hp) hn
    rw [this]
    exact ⟨_, rfl, by simp⟩
  have rd : ∀ u, Reads (memberArg u x) x := fun u => ⟨rfl, rfl, rfl, rfl, .inr (.inr ⟨_, _, rfl, by simp [getStr, memberArg]⟩)⟩
  have body : ∀ u, (deAt env (n + 1)).render cx (memberArg u x) = deBody env (deAt env n) cx (memberArg u x) := fun u => render_reads (rd u)
  have iter : (∀ xs, pyIter x ≠ .ok xs) → ∃ e, pyIter x = .error e ∧ e ≠ .fuel := by
    intro hx
    cases x <;> first | exact absurd rfl (hx _) | exact ⟨_, rfl, by simp⟩
  cases h with
  | prim hn => exact pre (by intro c h; cases h) (by intro h; cases h with | prim h => exact hn h | other h => exact h _ rfl)
  | newType hn => exact pre (by intro c h; cases h) (by intro h; cases h with | newType h => exact hn h | other _ h => exact h _ _ rfl)
  | none hn => exact pre (by intro c h; cases h) (by intro h; cases h with | none => exact hn rfl | other _ _ h => exact h rfl)
  | @tagged c _ hn =>
    rw [deMember_eq, hcx.tagging]
    cases hp : unionPayload env m.tagging (.cls c) x with
    | ok p => exact absurd (payload_of hp) (hn p)
    | error e => exact ⟨e, rfl, by have := @nf_payload env m.tagging (.cls c) x; rw [hp] at this; exact fun h => by have := this e rfl; rw [h] at this; cases this⟩
  | @lit vs x hl hn =>
    refine fetch (by intro c h; cases h) ?_
    rw [body]
    unfold deBody
    rw [hcx.des, pickDe_nil]
    simp only [memberArg]
    rw [hcx.lits, findLit_own hl.1 hl.2]
    dsimp only
    have := (rd (.lit vs)).data
    unfold memberArg at this
    rw [this]
    dsimp only
    unfold deLit
    rw [if_neg (by rw [List.any_eq_true]; rintro ⟨l, hl, he⟩; rw [hn l hl] at he; cases he)]
    exact ⟨_, rfl, by simp⟩
  | @list k t x hx =>
    obtain ⟨e, he, hf⟩ := iter hx
    refine fetch (by intro c h; cases h) ⟨e, ?_, hf⟩
    rw [body]
    unfold deBody
    rw [hcx.des, pickDe_nil]
    simp only [memberArg]
    have := (rd (.list k t)).data
    unfold memberArg at this
    rw [this]
    dsimp only
    rw [he]
  | @set k t x hx =>
    obtain ⟨e, he, hf⟩ := iter hx
    refine fetch (by intro c h; cases h) ⟨e, ?_, hf⟩
    rw [body]
    unfold deBody
    rw [hcx.des, pickDe_nil]
    simp only [memberArg]
    have := (rd (.set k t)).data
    unfold memberArg at this
    rw [this]
    dsimp only
    rw [he]
  | @tupleV t x hx =>
    obtain ⟨e, he, hf⟩ := iter hx
    refine fetch (by intro c h; cases h) ⟨e, ?_, hf⟩
    rw [body]
    unfold deBody
    rw [hcx.des, pickDe_nil]
    simp only [memberArg]
    have := (rd (.tupleV t)).data
    unfold memberArg at this
    rw [this]
    dsimp only
    rw [he]
  | @dict k kt vt x hx =>
    have : ∃ e, pyItems x = .error e ∧ e ≠ .fuel := by
      cases x <;> first | exact absurd rfl (hx _ _) | exact ⟨_, rfl, by simp⟩
    obtain ⟨e, he, hf⟩ := this
    refine fetch (by intro c h; cases h) ⟨e, ?_, hf⟩
    rw [body]
    unfold deBody
    rw [hcx.des, pickDe_nil]
    simp only [memberArg]
    have := (rd (.dict k kt vt)).data
    unfold memberArg at this
    rw [this]
    dsimp only
    rw [he]

theorem deUnion_skip {env : Env} {r : DeRec} {cx d ts} : ∀ {pre : List Ty}, (∀ u ∈ pre, ∃ e, deMember env r cx u d = .error e ∧ e ≠ .fuel) →
    deUnion env r cx d (pre ++ ts) = deUnion env r cx d ts
  | [], _ => rfl
  | u :: pre, h => by
    obtain ⟨e, he, hf⟩ := h u (by simp)
    rw [List.cons_append, deUnion, he]
    cases e <;> first | exact absurd rfl hf | exact deUnion_skip (fun u hu => h u (by simp [hu]))

theorem union_gives {env : Env} (hg : env.gde = []) {m ts pre t post x p v} (ho : (Ty.union ts).isOpt = false) (hu : HasUnion env m.cls ts)
    (he : ts = pre ++ t :: post) (hpre : ∀ u ∈ pre, TurnedDown env m.member u x) (hp : PayloadOf env m.tagging t x p) (hi : InputOk env t p)
    (h : Gives env m.member t p v) (hc : Checked env t v) : Gives env m (.union ts) x v := by
  refine (Ev.and h Ev.pos).step ?_
  rintro n ⟨hn, n, rfl⟩ cx a hcx hr hty
  rw [render_reads hr]
  unfold deBody
  rw [hcx.des, pickDe_nil]
  dsimp only
  rw [hr.2.1]
  dsimp only
  rw [hty]
  dsimp only
  rw [ho, hcx.unions, findUnion_own hu.1 hu.2]
  simp only [Bool.false_eq_true, if_false]
  rw [hr.data]
  dsimp only
  rw [he, deUnion_skip (fun u hu => turnedDown_err (hpre u hu) (hcx.inUnion hg x))]
  have hok : deMember env (deAt env (n + 1)) (cx.inUnion env x) t x = .ok v :=
    deMember_ok.2 ⟨p, by rw [(hcx.inUnion hg x).tagging]; exact payload_ok hp, hi,
      hn _ _ (hcx.inUnion hg x) ⟨rfl, rfl, rfl, rfl, .inr (.inr ⟨_, _, rfl, by simp [getStr, memberArg]⟩)⟩ rfl, hc⟩
  rw [deUnion, hok]

/-! ## Objects -/

theorem splitArgs_kws : ∀ {L : List (FieldDef × Bool)} {vs : List Val}, (∀ p ∈ L, p.2 = true) → ∃ ks, splitArgs L vs = .ok ([], ks)
  | [], _, _ => ⟨[], by simp [splitArgs]⟩
  | (f, kw) :: L, [], _ => ⟨[], by simp [splitArgs]⟩
  | (f, kw) :: L, v :: vs, h => by
    obtain ⟨ks, hks⟩ := splitArgs_kws (L := L) (vs := vs) (fun p hp => h p (by simp [hp]))
    have : kw = true := h (f, kw) (by simp)
    rw [this]
    exact ⟨(f.name, v) :: ks, by simp only [splitArgs, hks]; rfl⟩

theorem splitArgs_last : ∀ {L : List (FieldDef × Bool)} {vs : List Val}, L.Pairwise (fun p q => p.2 = true → q.2 = true) → ∃ r, splitArgs L vs = .ok r
  | [], _, _ => ⟨([], []), by simp [splitArgs]⟩
  | (f, kw) :: L, [], _ => ⟨([], []), by simp [splitArgs]⟩
  | (f, true) :: L, v :: vs, h => by
    rw [List.pairwise_cons] at h
    obtain ⟨ks, hks⟩ := splitArgs_kws (L := (f, true) :: L) (vs := v :: vs) (by
      intro p hp
      rcases List.mem_cons.1 hp with rfl | hp
      · rfl
      · exact h.1 p hp rfl)
    exact ⟨_, hks⟩
  | (f, false) :: L, v :: vs, h => by
    rw [List.pairwise_cons] at h
    obtain ⟨⟨ps, ks⟩, hks⟩ := splitArgs_last (L := L) (vs := vs) h.2
    exact ⟨(v :: ps, ks), by simp only [splitArgs, hks]; rfl⟩

theorem forceKw_flag : ∀ {b : Bool} {fs : List FieldDef} {p}, p ∈ forceKw b fs → p.1 ∈ fs ∧ (b = true ∨ p.1.kwOnly = true → p.2 = true)
  | _, [], p, h => by simp [forceKw] at h
  | b, f :: fs, p, h => by
    unfold forceKw at h
    rcases List.mem_cons.1 h with rfl | h
    · refine ⟨by simp, ?_⟩
      rintro (rfl | h) <;> simp_all
    · obtain ⟨h1, h2⟩ := forceKw_flag h
      refine ⟨by simp [h1], ?_⟩
      rintro (rfl | h)
      · exact h2 (.inl (by simp))
      · exact h2 (.inr h)

theorem forceKw_last : ∀ {b : Bool} {fs : List FieldDef}, fs.Pairwise (fun f g => f.kwOnly = true → g.kwOnly = true) →
    (forceKw b fs).Pairwise (fun p q => p.2 = true → q.2 = true)
  | _, [], _ => by simp [forceKw]
  | b, f :: fs, h => by
    rw [List.pairwise_cons] at h
    unfold forceKw
    refine List.pairwise_cons.2 ⟨?_, forceKw_last h.2⟩
    intro q hq hp
    obtain ⟨h1, h2⟩ := forceKw_flag hq
    simp only [Bool.or_eq_true] at hp
    rcases hp with hp | hp
    · exact h2 (.inl (by simpa using hp))
    · exact h2 (.inr (h.1 _ h1 hp))

theorem kwBad_last {cd : ClassDef} (h : cd.fields.Pairwise (fun f g => f.kwOnly = true → g.kwOnly = true)) : kwBad cd = false := by
  unfold kwBad
  obtain ⟨r, hr⟩ := splitArgs_last (vs := cd.deFields.map (fun _ => Val.none)) ((forceKw_last (b := false) h).sublist List.filter_sublist)
  rw [hr]

theorem isRead_iff {f : FieldDef} : IsRead f ↔ f.renderable = true := by
  unfold IsRead FieldDef.renderable
  cases f.init <;> cases f.skip <;> cases f.skipDe <;> simp

theorem attrsOf_all {val : FieldDef → Val} : ∀ {fs : List FieldDef}, (∀ f ∈ fs, ¬ IsRead f → f.dflt = some (val f)) →
    attrsOf fs val = fs.map (fun f => (f.name, val f))
  | [], _ => rfl
  | f :: fs, h => by
    have ih := attrsOf_all (fs := fs) (fun g hg => h g (by simp [hg]))
    unfold attrsOf
    by_cases hf : IsRead f
    · rw [isRead_iff.1 hf]
      simp [ih]
    · have : f.renderable = false := by
        cases hr : f.renderable with
        | false => rfl
        | true => exact absurd (isRead_iff.2 hr) hf
      rw [this, h f (by simp) hf]
      simp [ih]

theorem entry_first {cd : ClassDef} {f : FieldDef} {kvs x} (h : Entry cd f kvs x) : firstOf (f.conv cd.deCase :: f.alias) kvs = some x := by
  obtain ⟨pre, k, post, he, hp, hk⟩ := h
  rw [he]
  unfold firstOf
  rw [List.findSome?_append]
  have : pre.findSome? (fun n => getStr n kvs) = none := List.findSome?_eq_none_iff.2 hp
  rw [this, List.findSome?_cons, hk]
  rfl

theorem noEntry_first {cd : ClassDef} {f : FieldDef} {kvs} (h : NoEntry cd f kvs) : firstOf (f.conv cd.deCase :: f.alias) kvs = none :=
  List.findSome?_eq_none_iff.2 h

/-- What is found for the field, in a dict with the same entries under its names. -/
theorem firstOf_congr {ns : List String} {kvs kvs' : List (Val × Val)} (h : ∀ k ∈ ns, getStr k kvs' = getStr k kvs) : firstOf ns kvs' = firstOf ns kvs := by
  induction ns with
  | nil => rfl
  | cons n ns ih =>
    unfold firstOf at *
    rw [List.findSome?_cons, List.findSome?_cons, h n (by simp), ih (fun k hk => h k (by simp [hk]))]

theorem catchKey_other {α : Type} {conv} {w : Res α} (h : w ≠ .error (.py .key)) : catchKey conv w = w := by
  unfold catchKey
  split
  · exact absurd rfl h
  · rfl

theorem own_field {env : Env} {m c} {cd : ClassDef} {f x w} (ho : OwnEntry cd f) (hk : w ≠ .error (.py .key)) (h : Gets env m f.ty x w) :
    Ev (fun n => ∀ cx ex dk kvs, DeP env m cx → cx.data = .dict dk kvs → firstOf (f.conv cd.deCase :: f.alias) kvs = some x →
      deField env (deAt env n) cx c cd ex (.dict dk kvs) f = w) := by
  refine Ev.mono h (fun n hn cx ex dk kvs hcx hdata hget => ?_)
  rw [deField_plain ho.flat]
  have main : (deAt env n).render cx (plainArg cd f (.dict dk kvs)) = w := by
    have key : ∀ (cx' : DeCx) (dk' : DictK) (kvs' : List (Val × Val)), DeP env m cx' → getStr (f.conv cd.deCase) kvs' = some x →
        (deAt env n).render cx' { plainArg cd f (.dict dk' kvs') with alias := [] } = w := by
      intro cx' dk' kvs' hcx' hg
      have hr : Reads { plainArg cd f (.dict dk' kvs') with alias := [], dflt := none } x :=
        ⟨rfl, ho.noCustom, rfl, rfl, .inr (.inr ⟨dk', kvs', rfl, hg⟩)⟩
      have := hn cx' _ hcx' hr rfl
      cases hd : f.dflt with
      | none =>
        have he : ({ plainArg cd f (.dict dk' kvs') with alias := [] } : DeArg) = { plainArg cd f (.dict dk' kvs') with alias := [], dflt := none } := by
          unfold plainArg; rw [hd]
        rw [he]; exact this
      | some dv =>
        have he : ({ plainArg cd f (.dict dk' kvs') with alias := [] } : DeArg) = { plainArg cd f (.dict dk' kvs') with alias := [], dflt := some dv } := by
          unfold plainArg; rw [hd]
        rw [he, render_dropDflt (d := .dict dk' kvs') n _ _ rfl rfl (by
          unfold dfltExists plainArg
          dsimp only
          simp only [Bool.false_eq_true, if_false, pyIn, hg]; rfl)]
        exact this
    by_cases hnil : f.alias = []
    · have he : plainArg cd f (.dict dk kvs) = { plainArg cd f (.dict dk kvs) with alias := [] } := by unfold plainArg; rw [hnil]
      rw [he]
      refine key cx dk kvs hcx ?_
      rw [hnil] at hget
      unfold firstOf at hget
      rw [List.findSome?_cons] at hget
      cases hg : getStr (f.conv cd.deCase) kvs with
      | none => rw [hg] at hget; cases hget
      | some y => rw [hg] at hget; exact hget
    · obtain ⟨ha, hcn⟩ := ho.alias.resolve_left hnil
      rw [DeCx.data_eq hdata]
      have := render_unalias (env := env) (n := n) (cx := cx) (k := dk) (k' := .plain) (kvs := kvs) (kvs' := [(.str f.name, x)])
          (a := plainArg cd f (.dict dk kvs)) ha hnil rfl ho.noCustom hcx.des hcn (by
            rw [hcn] at hget
            refine Eq.trans ?_ hget.symm
            simp [getStr, plainArg])
      refine this.trans ?_
      exact key _ .plain [(.str f.name, x)] (hcx.data _) (by rw [hcn]; simp [getStr])
  cases hd : f.dflt with
  | none => dsimp only; rw [main]; exact catchKey_other hk
  | some dv => exact main

theorem filled_field {env : Env} {m c} {cd : ClassDef} {f v} (ho : OwnEntry cd f) (h : Filled env cd f v) :
    Ev (fun n => ∀ cx ex dk kvs, DeP env m cx → cx.data = .dict dk kvs → firstOf (f.conv cd.deCase :: f.alias) kvs = none →
      deField env (deAt env n) cx c cd ex (.dict dk kvs) f = .ok v) := by
  refine Ev.pos.mono ?_
  rintro n ⟨n, rfl⟩ cx ex dk kvs hcx hdata hget
  have hconv : getStr (f.conv cd.deCase) kvs = none := by
    unfold firstOf at hget
    exact List.findSome?_eq_none_iff.1 hget _ (by simp)
  cases h with
  | dflt hd hb =>
    by_cases hnil : f.alias = []
    · exact deField_missing_dflt ho.flat hnil hd hconv
    · obtain ⟨ha, hcn⟩ := ho.alias.resolve_left hnil
      rw [deField_plain ho.flat, hd]
      dsimp only
      rw [deAt_render]
      unfold deRenderF plainArg
      rw [hd]
      dsimp only
      have : dfltExists env { ty := f.ty, name := f.name, conv := f.conv cd.deCase, src := .key (.dict dk kvs), alias := f.alias, deser := f.deserializer, dflt := some v } (.dict dk kvs) = .ok false := by
        unfold dfltExists
        dsimp only
        simp only [Bool.false_eq_true, if_false]
        rw [hcn] at hget
        cases hal : f.alias with
        | nil => exact absurd hal hnil
        | cons b bs =>
          rw [hal] at hget
          rw [existsByAliases_first, hget]; rfl
      simp only [this]
  | none hd hal ht =>
    rw [deField_plain ho.flat, hd]
    dsimp only
    rw [deAt_render]
    unfold deRenderF plainArg
    rw [hd]
    dsimp only
    unfold deBody
    rw [hcx.des, pickDe_nil]
    dsimp only
    rw [ho.noCustom, ht]
    rfl
  | @opt t hd hal ht hne =>
    rw [deField_plain ho.flat, hd]
    dsimp only
    rw [deAt_render]
    unfold deRenderF plainArg
    rw [hd]
    dsimp only
    unfold deBody
    rw [hcx.des, pickDe_nil]
    dsimp only
    rw [ho.noCustom, ht]
    simp only [isOpt_pair hne, if_true]
    have : optExists env cx { ty := .union [t, .none], name := f.name, conv := f.conv cd.deCase, src := .key (.dict dk kvs), alias := f.alias, deser := none, dflt := none } t = .ok false := by
      unfold optExists
      simp only [hal, Bool.false_eq_true, if_false, pyGet, hconv]
      rfl
    rw [this]
    rfl

/-- What the function of the class makes of the data. -/
def ClsGets (env : Env) (m : Place) (c : ClassId) (x : Val) (w : Res Val) : Prop :=
  Ev (fun n => ∀ o : DeCall, (∀ cd, env.cls c = some cd → o.reuse.getD cd.reuseDflt = m.reuse) → o.numbers = m.numbers →
    (deAt env n).cls m.named c o x = w)

/-- A part of the dict that has the entries the class recognises; all of it if the class takes the rest. -/
structure IsPart (env : Env) (c : ClassId) (kvs kvs' : List (Val × Val)) : Prop where
  same : ∀ k, Recognised env c k → getStr k kvs' = getStr k kvs
  mem : ∀ kv ∈ kvs', kv ∈ kvs
  rest : ∀ cd f, env.cls c = some cd → f ∈ cd.fields → takesRest f = true → kvs' = kvs

theorem IsPart.refl {env : Env} {c kvs} : IsPart env c kvs kvs := ⟨fun _ _ => rfl, fun _ h => h, fun _ _ _ _ _ => rfl⟩

theorem restOf_iff {env : Env} (hF : FlattenAcyclic env) {c kvs rest} (h : RestOf env c kvs rest) :
    rest = kvs.filter (fun kv => !keyKnown (env.known c) kv.1) := by
  have kn : ∀ k : Val, keyKnown (env.known c) k = true ↔ ∃ s, Recognised env c s ∧ k = .str s := by
    intro k
    rw [keyKnown_iff]
    exact exists_congr (fun s => and_congr_left (fun _ => known_iff hF))
  induction h with
  | nil => rfl
  | @known kv kvs rest hk _ ih =>
    rw [List.filter_cons, (kn kv.1).2 hk, ih]; rfl
  | @other kv kvs rest hk _ ih =>
    have : keyKnown (env.known c) kv.1 = false := by
      cases hx : keyKnown (env.known c) kv.1 with
      | false => rfl
      | true => exact absurd ((kn kv.1).1 hx) hk
    rw [List.filter_cons, this, ← ih]; rfl

/-- The entries that the code keeps for a flattened dict. -/
def extraOf (env : Env) (c : ClassId) (cd : ClassDef) (kvs : List (Val × Val)) : List (Val × Val) :=
  if cd.hasFlatDict then kvs.filter (fun kv => !keyKnown (env.known c) kv.1) else []

theorem deExtra_dict {env : Env} {c} {cd : ClassDef} {dk kvs} : deExtra env c cd (.dict dk kvs) = .ok (extraOf env c cd kvs) := by
  unfold deExtra extraOf
  rw [orEmptyItems_dict]
  cases cd.hasFlatDict <;> rfl

theorem hasFlatDict_of {cd : ClassDef} {f : FieldDef} (hf : f ∈ cd.fields) (hr : IsRead f) (ht : takesRest f = true) : cd.hasFlatDict = true := by
  unfold ClassDef.hasFlatDict
  rw [List.any_eq_true]
  exact ⟨f, hf, by rw [isRead_iff.1 hr, flatDict_eq_takesRest, ht]; rfl⟩

theorem notDenied_ok {env : Env} (hF : FlattenAcyclic env) {c} {cd : ClassDef} {kvs kvs' dk} (h : NotDenied env c cd kvs) (hm : ∀ kv ∈ kvs', kv ∈ kvs) :
    deUnknown env c cd (.dict dk kvs') = .ok false := by
  unfold deUnknown
  cases hdn : cd.denyUnknown with
  | false => rfl
  | true =>
    rcases h hdn with ⟨f, hf, hr, ht⟩ | hk
    · rw [hasFlatDict_of hf hr ht]; rfl
    · cases cd.hasFlatDict with
      | true => rfl
      | false =>
        simp only [Bool.not_false, Bool.and_self, if_true, orEmptyItems_dict]
        congr 1
        rw [List.any_eq_false]
        intro kv hkv
        obtain ⟨k, hk, he⟩ := hk kv (hm kv hkv)
        have : keyKnown (env.known c) kv.1 = true := keyKnown_iff.2 ⟨k, (known_iff hF).2 hk, he⟩
        simp [this]

theorem special_bearable {env : Env} {c} {cd : ClassDef} {kvs f v} (h : Special env c cd kvs f v) (hs : cd.typeCheck = .strict) : bearable env f.ty v = true := by
  cases h with
  | rest _ _ hb => exact hb hs
  | own _ _ _ _ _ hb => exact hb hs
  | dflt _ _ _ _ _ hb => exact hb hs

theorem special_field {env : Env} (hF : FlattenAcyclic env) {m c} {cd : ClassDef} {f v kvs} (hc : env.cls c = some cd) (ht : cd.transparent = false) (hf : f ∈ cd.fields)
    (hr : IsRead f) (h : Special env c cd kvs f v) :
    Ev (fun n => ∀ cx dk kvs', DeP env m cx → cx.data = .dict dk kvs' → IsPart env c kvs kvs' →
      deField env (deAt env n) cx c cd (extraOf env c cd kvs') (.dict dk kvs') f = .ok v) := by
  refine Ev.pos.mono ?_
  rintro n ⟨n, rfl⟩ cx dk kvs' hcx hdata hp
  have hrec : f.flatten = false → Recognised env c (f.conv cd.deCase) := fun hfl =>
    .own hc ht hf (by unfold takesRest; rw [hfl]; rfl) (by unfold inlined; rw [hfl]) (.inl rfl)
  cases h with
  | rest htr hre _ =>
    unfold deField
    rw [flatDict_eq_takesRest, htr, if_pos rfl]
    unfold extraOf
    rw [hasFlatDict_of hf hr htr, if_pos rfl, restOf_iff hF hre, hp.rest cd f hc hf htr]
  | @own h x v hfl hde hal hget hh _ =>
    have hget' : getStr (f.conv cd.deCase) kvs' = some x := by rw [hp.same _ (hrec hfl)]; exact hget
    have hbody : ∀ a : DeArg, a.deser = some (.fn h) → a.src = .key (.dict dk kvs') → a.conv = f.conv cd.deCase → deBody env (deAt env n) cx a = .ok v := by
      intro a h1 h2 h3
      unfold deBody
      rw [hcx.des, pickDe_nil, h1]
      dsimp only
      have : a.data = .ok x := by
        unfold DeArg.data
        rw [h2]
        dsimp only
        rw [h3]
        simp [pyGet, pyGetItem, hget']
      rw [this]
      dsimp only
      rw [hh]; rfl
    rw [deField_plain hfl]
    cases hd : f.dflt with
    | none =>
      dsimp only
      have : (deAt env (n + 1)).render cx (plainArg cd f (.dict dk kvs')) = .ok v := by
        rw [deAt_render]
        unfold deRenderF plainArg
        rw [hd]
        dsimp only
        exact hbody _ hde rfl rfl
      rw [this]; rfl
    | some dv =>
      dsimp only
      rw [deAt_render]
      unfold deRenderF plainArg
      rw [hd]
      dsimp only
      have : dfltExists env { ty := f.ty, name := f.name, conv := f.conv cd.deCase, src := .key (.dict dk kvs'), alias := f.alias, deser := f.deserializer, dflt := some dv } (.dict dk kvs') = .ok true := by
        unfold dfltExists
        dsimp only
        rw [hal]
        simp only [Bool.false_eq_true, if_false, pyIn, hget']; rfl
      rw [this]
      dsimp only
      exact hbody _ hde rfl rfl
  | dflt hfl hde hal hget hd _ =>
    exact deField_missing_dflt hfl hal hd (by rw [hp.same _ (hrec hfl)]; exact hget)

/-- What the function of the class makes of any part of the dict that has the entries the class recognises. -/
def PartGets (env : Env) (m : Place) (c : ClassId) (kvs : List (Val × Val)) (w : Res Val) : Prop :=
  Ev (fun n => ∀ (o : DeCall) dk' kvs', (∀ cd, env.cls c = some cd → o.reuse.getD cd.reuseDflt = m.reuse) → o.numbers = m.numbers →
    IsPart env c kvs kvs' → (deAt env n).cls true c o (.dict dk' kvs') = w)

/-- The function of the class reads the data. -/
abbrev ClsGives (env : Env) (m : Place) (c : ClassId) (x v : Val) : Prop := ClsGets env m c x (.ok v)

/-- The function of the class reads the data from any such part. -/
abbrev PartGives (env : Env) (m : Place) (c : ClassId) (kvs : List (Val × Val)) (v : Val) : Prop := PartGets env m c kvs (.ok v)

theorem cls_gets {env : Env} {m c x w} (h : ClsGets env m c x w) : Gets env m (.cls c) x w := by
  refine Ev.step h ?_
  intro n hn cx a hcx hr hty
  rw [render_reads hr]
  unfold deBody
  rw [hcx.des, pickDe_nil, hr.2.1]
  dsimp only
  rw [hty]
  dsimp only
  rw [hr.2.2.1, hr.data]
  simp only [Bool.false_eq_true, if_false]
  rw [hcx.named]
  exact hn _ (fun cd _ => by simp [hcx.reuse]) hcx.numbers

theorem inlined_field {env : Env} (hF : FlattenAcyclic env) {m : Place} {c} (hnm : m.named = true) {cd : ClassDef} {f ch w kvs0 sub} (hc : env.cls c = some cd) (ht : cd.transparent = false) (hf : f ∈ cd.fields)
    (hi : Inlined f ch) (hp : ChildPart env c ch kvs0 sub) (hfb : Flattenable env ch) (hk : w ≠ .error (.py .key)) (h : PartGets env m ch sub w) :
    Ev (fun n => ∀ cx ex dk kvs, DeP env m cx → cx.data = .dict dk kvs → IsPart env c kvs0 kvs →
      deField env (deAt env n) cx c cd ex (.dict dk kvs) f = w) := by
  refine Ev.step h ?_
  intro n hn cx ex dk kvs hcx hdata ⟨hag, hsub, _⟩
  have hfd : f.flatDict = false := by unfold FieldDef.flatDict; rw [hi.flat, hi.ty]; rfl
  have hfc : f.flatChild = some ch := by unfold FieldDef.flatChild; rw [hi.flat, hi.ty]; rfl
  unfold deField
  rw [hfd, hfc]
  dsimp only
  rw [project_dict, hi.dflt]
  dsimp only
  rw [if_neg (by simp)]
  suffices hw : (deAt env (n + 1)).render cx { ty := f.ty, name := f.name, conv := f.conv cd.deCase, src := .key (.dict .plain (kvs.filter (fun kv => projKeep env c ch cd kv.1))), alias := f.alias, deser := f.deserializer, flatten := f.flatten, dflt := none } = w by
    rw [hw]; exact catchKey_other hk
  rw [deAt_render]
  unfold deRenderF
  dsimp only
  unfold deBody
  rw [hcx.des, pickDe_nil]
  dsimp only
  rw [hi.noCustom, hi.ty, hi.flat]
  simp only [if_true]
  rw [hcx.named, hnm]
  refine hn _ _ _ (fun cd _ => by simp [hcx.reuse]) hcx.numbers ⟨?_, ?_, fun chd g hch hg ht' => by rw [(hfb chd hch).2 g hg] at ht'; cases ht'⟩
  · intro k hk
    rw [getStr_filter]
    have hkn : projKeep env c ch cd (.str k) = true := by
      have : keyKnown (env.known ch) (.str k) = true := keyKnown_iff.2 ⟨k, (known_iff hF).2 hk, rfl⟩
      unfold projKeep
      rw [this]
      simp
    rw [hkn, if_pos rfl, hp.same k hk]
    exact hag k (.child hc ht hf (by unfold takesRest; rw [hi.flat, hi.ty]; rfl) (by unfold inlined; rw [hi.flat, hi.ty]) hk)
  · intro kv hkv
    obtain ⟨h1, h2⟩ := List.mem_filter.1 hkv
    refine hp.all kv (hsub kv h1) ?_
    unfold projKeep at h2
    have kn : ∀ c, keyKnown (env.known c) kv.1 = true ↔ ∃ k, Recognised env c k ∧ kv.1 = .str k := by
      intro c
      rw [keyKnown_iff]
      exact exists_congr (fun k => and_congr_left (fun _ => known_iff hF))
    by_cases hch : keyKnown (env.known ch) kv.1 = true
    · exact .inl ((kn ch).1 hch)
    · refine .inr (fun h => ?_)
      have hk := (kn c).2 h
      have hch' : keyKnown (env.known ch) kv.1 = false := by simpa using hch
      rw [hk, hch'] at h2
      simp at h2

/-- What comes of the constructor when the attributes are set: the object, as `__post_init__` leaves it, or what `__post_init__` raises. -/
def afterInit (c : ClassId) (cd : ClassDef) (attrs : List (String × Val)) : Res Val :=
  match cd.postInit with
  | none => .ok (.inst c attrs)
  | some p => match p attrs with
    | .ok attrs' => .ok (.inst c attrs')
    | .error e => .error (.user (.py e))

theorem afterInit_made {c} {cd : ClassDef} {attrs attrs'} (h : Made cd attrs attrs') : afterInit c cd attrs = .ok (.inst c attrs') := by
  unfold Made at h
  unfold afterInit
  cases hp : cd.postInit with
  | none => rw [hp] at h; dsimp only at h ⊢; rw [h]
  | some p => rw [hp] at h; dsimp only at h ⊢; rw [h]

theorem decodeCls_init {env : Env} {r : DeRec} {c} {cd : ClassDef} {o ex d} {val : FieldDef → Val} (hn : (cd.fields.map (·.name)).Nodup)
    (hf : ∀ f ∈ cd.fields, f.renderable = true → deField env r (clsDeCx env c cd true o d) c cd ex d f = .ok (val f)) (hB : Built env cd val) :
    decodeCls env r c cd o ex d = afterInit c cd (attrsOf cd.fields val) := by
  have h0 := (decodeCls_fieldwise (cd := { cd with postInit := none }) (o := o) (attrs := attrsOf cd.fields val) (env := env) (r := r) (c := c) (ex := ex) (d := d) rfl hn).2
    ⟨val, hf, ⟨hB.ctor, hB.args, hB.strict⟩, rfl⟩
  have hm := (mapR_val (g := deField env r (clsDeCx env c cd true o d) c cd ex d) (fs := cd.deFields)).2
    ⟨val, fun f hf' => hf f (List.mem_filter.1 hf').1 (List.mem_filter.1 hf').2, rfl⟩
  have h1 : decodeCls env r c { cd with postInit := none } o ex d =
      constructB env c { cd with postInit := none } ((cd.deFields.map (·.name)).zip (cd.deFields.map val)) := by
    have hm' : mapR (deField env r (clsDeCx env c { cd with postInit := none } true o d) c { cd with postInit := none } ex d)
        ({ cd with postInit := none } : ClassDef).deFields = .ok (cd.deFields.map val) := hm
    have hk : kwBad { cd with postInit := none } = false := hB.args
    unfold decodeCls
    rw [hm', hk]
    rfl
  rw [h1] at h0
  obtain ⟨attrs', he, hi, hb⟩ := constructB_ok rfl h0
  cases he
  unfold decodeCls
  rw [hm, hB.args]
  dsimp only
  rw [if_neg (by simp)]
  unfold constructB
  rw [if_neg]
  · have : initAttrs ((cd.deFields.map (·.name)).zip (cd.deFields.map val)) cd.fields = .ok (attrsOf cd.fields val) := hi
    rw [this]
    rfl
  · intro hx
    simp only [Bool.and_eq_true, beq_iff_eq, Bool.not_eq_true'] at hx
    have h3 : argsBearable env cd ((cd.deFields.map (·.name)).zip (cd.deFields.map val)) = true := by
      have hargs := argsBearable_zip (env := env) (val := val) hn (fs := cd.deFields) (fun f hf => (List.mem_filter.1 hf).1)
      exact hargs.2 (fun f hf => hB.strict hx.1 f (List.mem_filter.1 hf).1 (List.mem_filter.1 hf).2)
    rw [h3] at hx
    cases hx.2

theorem object_gets {env : Env} (hg : env.gde = []) (hF : FlattenAcyclic env) {m : Place} {c} {cd : ClassDef} {kvs} {val : FieldDef → Val} {sub : FieldDef → List (Val × Val)}
    (hnm : m.named = true) (hc : env.cls c = some cd) (hr : Readable c cd)
    (hdeny : NotDenied env c cd kvs)
    (hskip : ∀ f ∈ cd.fields, ¬ IsRead f → f.dflt = some (val f))
    (hkind : ∀ f ∈ cd.fields, IsRead f → OwnEntry cd f ∨ (∃ ch, Inlined f ch) ∨ Special env c cd kvs f (val f))
    (hpres : ∀ f ∈ cd.fields, IsRead f → OwnEntry cd f → (∃ x, Entry cd f kvs x) ∨ NoEntry cd f kvs ∧ Filled env cd f (val f))
    (hval : ∀ f ∈ cd.fields, IsRead f → OwnEntry cd f → ∀ x, Entry cd f kvs x → Gives env (m.enter c cd) f.ty x (val f))
    (hpart : ∀ f ∈ cd.fields, IsRead f → ∀ ch, Inlined f ch → ChildPart env c ch kvs (sub f) ∧ Flattenable env ch)
    (hin : ∀ f ∈ cd.fields, IsRead f → ∀ ch, Inlined f ch → PartGives env (m.enter c cd) ch (sub f) (val f))
    (hbe : cd.typeCheck = .strict → ∀ f ∈ cd.fields, IsRead f → bearable env f.ty (val f) = true) :
    PartGets env m c kvs (afterInit c cd (cd.fields.map (fun f => (f.name, val f)))) := by
  have hfield : ∀ f ∈ cd.fields, Ev (fun n => IsRead f → ∀ cx dk kvs', DeP env (m.enter c cd) cx → cx.data = .dict dk kvs' → IsPart env c kvs kvs' →
      deField env (deAt env n) cx c cd (extraOf env c cd kvs') (.dict dk kvs') f = .ok (val f)) := by
    intro f hf
    by_cases hrd : IsRead f
    · rcases hkind f hf hrd with ho | ⟨ch, hi⟩ | hs
      · have hrec : ∀ k ∈ f.conv cd.deCase :: f.alias, Recognised env c k := fun k hk =>
          .own hc hr.dict hf (by unfold takesRest; rw [ho.flat]; rfl) (by unfold inlined; rw [ho.flat]) (List.mem_cons.1 hk)
        rcases hpres f hf hrd ho with ⟨x, hx⟩ | ⟨hno, hfl⟩
        · refine (own_field (c := c) ho (by simp) (hval f hf hrd ho x hx)).mono (fun n hn _ cx dk kvs' hcx hd hp => ?_)
          exact hn cx _ dk kvs' hcx hd (by rw [firstOf_congr (fun k hk => hp.same k (hrec k hk))]; exact entry_first hx)
        · refine (filled_field (c := c) (m := m.enter c cd) ho hfl).mono (fun n hn _ cx dk kvs' hcx hd hp => ?_)
          exact hn cx _ dk kvs' hcx hd (by rw [firstOf_congr (fun k hk => hp.same k (hrec k hk))]; exact noEntry_first hno)
      · exact (inlined_field hF (m := m.enter c cd) hnm hc hr.dict hf hi (hpart f hf hrd ch hi).1 (hpart f hf hrd ch hi).2 (by simp) (hin f hf hrd ch hi)).mono (fun n hn _ cx dk kvs' hcx hd hp =>
          hn cx _ dk kvs' hcx hd hp)
      · exact (special_field hF hc hr.dict hf hrd hs).mono (fun n hn _ => hn)
    · exact Ev.of_all (fun n h => absurd h hrd)
  refine (Ev.list hfield).step ?_
  intro n hn o dk' kvs' hre hnu hp
  rw [deAt_cls, deClsF_named hc hr.dict, notDenied_ok hF hdeny hp.mem, deExtra_dict]
  dsimp only
  rw [decodeCls_init (val := val) hr.names ?_ ⟨?_, kwBad_last hr.kwLast, ?_⟩, attrsOf_all hskip]
  · intro f hf hrd
    exact hn f hf (isRead_iff.2 hrd) _ _ _ (deP_cls hnm.symm hg hr.noDe (hre cd hc) hnu) rfl hp
  · intro f hf hrd _
    rw [hskip f hf (fun h => by rw [isRead_iff.1 h] at hrd; cases hrd)]
    simp
  · intro hs f hf hrd
    exact hbe hs f hf (isRead_iff.2 hrd)

end Verif
