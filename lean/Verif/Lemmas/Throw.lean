import Verif.Lemmas.AcceptMain
import Verif.Spec.Throw
/-!
# An object that cannot be built: its exception comes out wherever the object is
-/

namespace Verif

open Spec

/-- What the generated code passes on when a constructor raises. -/
abbrev raised (e : PErr) : Res Val := .error (.user (.py e))

theorem mapR_stops {α β : Type} {f : α → Res β} {e} : ∀ {pre : List α} {y post}, (∀ x ∈ pre, ∃ v, f x = .ok v) → f y = .error e →
    mapR f (pre ++ y :: post) = .error e
  | [], y, post, _, hy => by rw [List.nil_append, mapR, hy]
  | x :: pre, y, post, h, hy => by
    obtain ⟨v, hv⟩ := h x (by simp)
    rw [List.cons_append, mapR, hv]
    dsimp only
    rw [mapR_stops (fun x hx => h x (by simp [hx])) hy]

theorem zip_some {α β : Type} {as : List α} {bs : List β} (hl : as.length = bs.length) {a} (ha : a ∈ as) : ∃ b, (a, b) ∈ as.zip bs := by
  obtain ⟨i, hi, rfl⟩ := List.getElem_of_mem ha
  exact ⟨bs[i]'(by omega), zip_get hi (by omega)⟩

theorem items_throw {env : Env} {m t pre y post vs e} (hl : pre.length = vs.length) (h : ∀ p ∈ pre.zip vs, Gives env m t p.1 p.2)
    (hy : Gets env m t y (raised e)) :
    Ev (fun n => ∀ cx nm, DeP env m cx → mapR (fun x => (deAt env n).render cx { ty := t, name := nm, conv := nm, src := .val (.ok x), alias := [], deser := none })
      (pre ++ y :: post) = .error (.user (.py e))) := by
  refine ((Ev.list h).and hy).mono (fun n hn cx nm hcx => ?_)
  refine mapR_stops (fun x hx => ?_) (hn.2 cx _ hcx Reads.val rfl)
  obtain ⟨v, hv⟩ := zip_some hl hx
  exact ⟨v, hn.1 (x, v) hv cx _ hcx Reads.val rfl⟩

theorem item_throw {env : Env} {m T t x pre y post vs e} (hT : ItemsOf T t) (hi : Items x (pre ++ y :: post)) (hl : pre.length = vs.length)
    (h : ∀ p ∈ pre.zip vs, Gives env m t p.1 p.2) (hy : Gets env m t y (raised e)) : Gets env m T x (raised e) := by
  refine (items_throw (post := post) hl h hy).step ?_
  intro n hn cx a hcx hr hty
  rw [render_reads hr]
  unfold deBody
  rw [hcx.des, pickDe_nil, hr.2.1, hr.1]
  dsimp only
  rw [hty]
  cases hT <;>
  · dsimp only
    rw [hr.data]
    dsimp only
    rw [pyIter_items hi]
    dsimp only
    rw [hn cx "v" hcx]

theorem tuple_throw {env : Env} {m tpre t tpost x pre y post vs e} (hx : x = .list (pre ++ y :: post) ∨ x = .tuple (pre ++ y :: post))
    (hl : tpre.length = pre.length) (hl' : pre.length = vs.length) (h : ∀ p ∈ tpre.zip (pre.zip vs), Gives env m p.1 p.2.1 p.2.2)
    (hy : Gets env m t y (raised e)) : Gets env m (.tuple (tpre ++ t :: tpost)) x (raised e) := by
  refine ((Ev.list h).and hy).step ?_
  rintro n ⟨hn, hny⟩ cx a hcx hr hty
  rw [render_reads hr]
  unfold deBody
  rw [hcx.des, pickDe_nil, hr.2.1, hr.1]
  dsimp only
  rw [hty, hr.data]
  dsimp only
  have key : mapR (fun it : Ty × Nat => (deAt env n).render cx { ty := it.1, name := "data[..]", conv := "data[..]", src := .val (pyIndex x it.2), alias := [], deser := none }) (tpre ++ t :: tpost).zipIdx = .error (.user (.py e)) := by
    rw [List.zipIdx_append, List.zipIdx_cons]
    refine mapR_stops ?_ ?_
    · intro it hit
      obtain ⟨i, hi, rfl⟩ := List.getElem_of_mem hit
      simp at hi
      have h1 : i < tpre.length := by omega
      have h2 : i < pre.length := by omega
      have h3 : i < vs.length := by omega
      have hm : (tpre[i], pre[i], vs[i]) ∈ tpre.zip (pre.zip vs) := by
        have := zip_get (xs := tpre) (ys := pre.zip vs) (i := i) h1 (by simp; omega)
        simpa using this
      refine ⟨vs[i], ?_⟩
      simp only [List.getElem_zipIdx, Nat.zero_add]
      rw [pyIndex_arr (x := pre[i]) hx (by rw [List.getElem?_append_left h2]; exact List.getElem?_eq_getElem h2)]
      exact hn _ hm cx _ hcx Reads.val rfl
    · dsimp only
      rw [pyIndex_arr (x := y) hx (by rw [Nat.zero_add, hl]; simp)]
      exact hny cx _ hcx Reads.val rfl
  cases hts : tpre ++ t :: tpost with
  | nil => simp at hts
  | cons t' ts' => rw [hts] at key; dsimp only; rw [key]

theorem keyRead_gives {env : Env} {m kt x v} (hg : env.gde = []) (hF : FlattenAcyclic env) (h : KeyRead env m kt x v) :
    Ev (fun n => ∀ cx, DeP env m cx → (match numKey kt with
      | some p => coerceObj env p x
      | none => (deAt env n).render cx { ty := kt, name := "k", conv := "k", src := .val (.ok x), alias := [], deser := none }) = .ok v) := by
  rcases h with ⟨hp, hv⟩ | ⟨q, hq, hp, hc⟩
  · refine (accepts_main hg hF hv).gives.mono (fun n hn cx hcx => ?_)
    rw [numKey_plain hp]
    exact hn cx _ hcx Reads.val rfl
  · refine Ev.of_all (fun n cx _ => ?_)
    have : numKey kt = some q := by
      unfold PlainKey at hp
      by_cases h1 : kt = .prim .int
      · rw [hq] at h1; cases h1; rw [hq]; rfl
      · by_cases h2 : kt = .prim .float
        · rw [hq] at h2; cases h2; rw [hq]; rfl
        · exact absurd ⟨h1, h2⟩ hp
    rw [this]
    exact converts_coerce hc

/-- Key and value of one entry. -/
def entryRead (env : Env) (n : Nat) (cx : DeCx) (kt vt : Ty) (kv : Val × Val) : Res (Val × Val) :=
  match (match numKey kt with
      | some p => coerceObj env p kv.1
      | none => (deAt env n).render cx { ty := kt, name := "k", conv := "k", src := .val (.ok kv.1), alias := [], deser := none }) with
  | .error e => .error e
  | .ok k' => match (deAt env n).render cx { ty := vt, name := "v", conv := "v", src := .val (.ok kv.2), alias := [], deser := none } with
    | .ok w => .ok (k', w)
    | .error e => .error e

theorem dict_throw {env : Env} (hg : env.gde = []) (hF : FlattenAcyclic env) {m k kt vt dk pre kv post e} {es : List (Val × Val)} (hl : pre.length = es.length)
    (h : ∀ p ∈ pre.zip es, KeyRead env m kt p.1.1 p.2.1 ∧ Valid env m vt p.1.2 p.2.2)
    (hb : Ev (fun n => ∀ cx, DeP env m cx → entryRead env n cx kt vt kv = .error (.user (.py e)))) :
    Gets env m (.dict k kt vt) (.dict dk (pre ++ kv :: post)) (raised e) := by
  have h1 := Ev.list (fun p hp => keyRead_gives hg hF (h p hp).1)
  have h2 := Ev.list (fun p hp => (accepts_main hg hF (h p hp).2).gives)
  refine ((h1.and h2).and hb).step ?_
  rintro n ⟨⟨hn1, hn2⟩, hn3⟩ cx a hcx hr hty
  rw [render_reads hr]
  unfold deBody
  rw [hcx.des, pickDe_nil, hr.2.1, hr.1]
  dsimp only
  rw [hty]
  dsimp only
  rw [hr.data]
  simp only [pyItems]
  rw [mapR_stops (e := .user (.py e))]
  · intro x hx
    obtain ⟨v, hv⟩ := zip_some hl hx
    refine ⟨v, ?_⟩
    have : entryRead env n cx kt vt x = .ok v := by
      unfold entryRead
      rw [hn1 _ hv cx hcx]
      dsimp only
      rw [hn2 _ hv cx _ hcx Reads.val rfl]
    exact this
  · exact hn3 cx hcx

theorem counter_throw {env : Env} {m t dk pre kx y post e} {es : List Val} (hl : pre.length = es.length)
    (h : ∀ p ∈ pre.zip es, Gives env m t p.1.1 p.2) (hy : Gets env m t kx (raised e)) :
    Gets env m (.counter t) (.dict dk (pre ++ (kx, y) :: post)) (raised e) := by
  refine ((Ev.list h).and hy).step ?_
  rintro n ⟨hn1, hn2⟩ cx a hcx hr hty
  rw [render_reads hr]
  unfold deBody
  rw [hcx.des, pickDe_nil, hr.2.1, hr.1]
  dsimp only
  rw [hty]
  dsimp only
  rw [hr.data]
  simp only [pyItems]
  rw [mapR_stops (e := .user (.py e))]
  · intro x hx
    obtain ⟨v, hv⟩ := zip_some hl hx
    rw [hn1 _ hv cx _ hcx Reads.val rfl]
    exact ⟨_, rfl⟩
  · dsimp only
    rw [hn2 cx _ hcx Reads.val rfl]

/-! ## Objects -/

/-- The generated code for one field gives `w`, from any part of the dict that has the entries the class recognises. -/
def FieldGets (env : Env) (m : Place) (c : ClassId) (cd : ClassDef) (kvs : List (Val × Val)) (f : FieldDef) (w : Res Val) : Prop :=
  Ev (fun n => ∀ cx dk kvs', DeP env (m.enter c cd) cx → cx.data = .dict dk kvs' → IsPart env c kvs kvs' →
      deField env (deAt env n) cx c cd (extraOf env c cd kvs') (.dict dk kvs') f = w)

theorem own_gets {env : Env} {m : Place} {c} {cd : ClassDef} {kvs f x w} (ho : Opens env c cd kvs) (hf : f ∈ cd.fields) (hw : OwnEntry cd f) (hx : Entry cd f kvs x)
    (hk : w ≠ .error (.py .key)) (h : Gets env (m.enter c cd) f.ty x w) : FieldGets env m c cd kvs f w := by
  refine (own_field (c := c) hw hk h).mono (fun n hn cx dk kvs' hcx hd hp => ?_)
  refine hn cx _ dk kvs' hcx hd ?_
  rw [firstOf_congr (fun k hk => hp.same k (.own ho.cls ho.dict hf (by unfold takesRest; rw [hw.flat]; rfl) (by unfold Spec.inlined; rw [hw.flat]) (List.mem_cons.1 hk)))]
  exact entry_first hx

theorem fieldRead_gets {env : Env} (hg : env.gde = []) (hF : FlattenAcyclic env) {m : Place} {c} {cd : ClassDef} {kvs f v} (hnm : m.named = true) (ho : Opens env c cd kvs) (hf : f ∈ cd.fields) (hr : IsRead f)
    (h : FieldRead env m c cd kvs f v) : FieldGets env m c cd kvs f (.ok v) := by
  rcases h with ⟨hw, ⟨x, hx, hv⟩ | ⟨hno, hfl⟩⟩ | ⟨ch, dk, sub, hi, hp, ht, hv⟩ | hsp
  · exact own_gets ho hf hw hx (by simp) (accepts_main hg hF hv).gives
  · refine (filled_field (c := c) (m := m.enter c cd) hw hfl).mono (fun n hn cx dk kvs' hcx hd hp => ?_)
    refine hn cx _ dk kvs' hcx hd ?_
    rw [firstOf_congr (fun k hk => hp.same k (.own ho.cls ho.dict hf (by unfold takesRest; rw [hw.flat]; rfl) (by unfold Spec.inlined; rw [hw.flat]) (List.mem_cons.1 hk)))]
    exact noEntry_first hno
  · exact (inlined_field (m := m.enter c cd) hF hnm ho.cls ho.dict hf hi hp ht (by simp) ((accepts_main hg hF hv).part hnm ch dk sub rfl rfl (fun chd h => (ht chd h).1))).mono
      (fun n hn cx dk kvs' hcx hd hp => hn cx _ dk kvs' hcx hd hp)
  · exact special_field hF ho.cls ho.dict hf hr hsp

theorem fieldRead_bearable {env : Env} {m : Place} {c} {cd : ClassDef} {kvs f v} (h : FieldRead env m c cd kvs f v) (hs : cd.typeCheck = .strict) :
    bearable env f.ty v = true := by
  rcases h with ⟨hw, ⟨x, hx, hv⟩ | ⟨hno, hfl⟩⟩ | ⟨ch, dk, sub, hi, hp, ht, hv⟩ | hsp
  · exact valid_bearable hv
  · cases hfl with
    | dflt _ hb => exact hb hs
    | none _ _ ht => rw [ht]; rfl
    | opt _ _ ht _ => rw [ht]; simp [bearable, bearableAny]
  · rw [hi.ty]; exact valid_bearable hv
  · exact special_bearable hsp hs

theorem opens_cls {env : Env} (hF : FlattenAcyclic env) {c} {cd : ClassDef} {kvs} (ho : Opens env c cd kvs) {r : DeRec} {oc dk kvs'} (hs : ∀ kv ∈ kvs', kv ∈ kvs) :
    deClsF env r true c oc (.dict dk kvs') = decodeCls env r c cd oc (extraOf env c cd kvs') (.dict dk kvs') := by
  rw [deClsF_named ho.cls ho.dict, notDenied_ok hF ho.known hs, deExtra_dict]

theorem field_throw {env : Env} (hg : env.gde = []) (hF : FlattenAcyclic env) {m : Place} {c} {cd : ClassDef} {kvs pre f post e} {val : FieldDef → Val}
    (hnm : m.named = true) (ho : Opens env c cd kvs) (hfs : cd.fields = pre ++ f :: post) (hpre : ∀ g ∈ pre, IsRead g → FieldRead env m c cd kvs g (val g)) (hr : IsRead f)
    (h : FieldGets env m c cd kvs f (raised e)) : PartGets env m c kvs (raised e) := by
  have hp : ∀ g ∈ pre, Ev (fun n => IsRead g → ∀ cx dk kvs', DeP env (m.enter c cd) cx → cx.data = .dict dk kvs' → IsPart env c kvs kvs' →
      deField env (deAt env n) cx c cd (extraOf env c cd kvs') (.dict dk kvs') g = .ok (val g)) := by
    intro g hgm
    by_cases hrd : IsRead g
    · exact (fieldRead_gets hg hF hnm ho (by rw [hfs]; simp [hgm]) hrd (hpre g hgm hrd)).mono (fun n hn _ => hn)
    · exact Ev.of_all (fun n h => absurd h hrd)
  refine ((Ev.list hp).and h).step ?_
  rintro n ⟨hn1, hn2⟩ oc dk' kvs' hre hnu hpt
  rw [deAt_cls, opens_cls hF ho hpt.mem]
  unfold decodeCls
  have hcx := deP_cls (c := c) (d := .dict dk' kvs') hnm.symm hg ho.noDe (hre cd ho.cls) hnu
  have hfilter : cd.deFields = pre.filter (·.renderable) ++ f :: post.filter (·.renderable) := by
    unfold ClassDef.deFields
    rw [hfs, List.filter_append, List.filter_cons, if_pos (isRead_iff.1 hr)]
  rw [hfilter, mapR_stops (e := .user (.py e))]
  · intro g hgm
    obtain ⟨h1, h2⟩ := List.mem_filter.1 hgm
    exact ⟨_, hn1 g h1 (isRead_iff.2 h2) _ _ _ hcx rfl hpt⟩
  · exact hn2 _ _ _ hcx rfl hpt

theorem post_throw {env : Env} (hg : env.gde = []) (hF : FlattenAcyclic env) {m : Place} {c} {cd : ClassDef} {kvs p e} {val : FieldDef → Val}
    (hnm : m.named = true) (ho : Opens env c cd kvs) (hn : (cd.fields.map (·.name)).Nodup) (hkw : cd.fields.Pairwise (fun f g => f.kwOnly = true → g.kwOnly = true))
    (hskip : ∀ f ∈ cd.fields, ¬ IsRead f → f.dflt = some (val f)) (hread : ∀ f ∈ cd.fields, IsRead f → FieldRead env m c cd kvs f (val f))
    (hp : cd.postInit = some p) (he : p (cd.fields.map (fun f => (f.name, val f))) = .error e) : PartGets env m c kvs (raised e) := by
  have hf : ∀ g ∈ cd.fields, Ev (fun n => IsRead g → ∀ cx dk kvs', DeP env (m.enter c cd) cx → cx.data = .dict dk kvs' → IsPart env c kvs kvs' →
      deField env (deAt env n) cx c cd (extraOf env c cd kvs') (.dict dk kvs') g = .ok (val g)) := by
    intro g hgm
    by_cases hrd : IsRead g
    · exact (fieldRead_gets hg hF hnm ho hgm hrd (hread g hgm hrd)).mono (fun n hn _ => hn)
    · exact Ev.of_all (fun n h => absurd h hrd)
  refine (Ev.list hf).step ?_
  intro n hn1 oc dk' kvs' hre hnu hpt
  rw [deAt_cls, opens_cls hF ho hpt.mem]
  have hcx := deP_cls (c := c) (d := .dict dk' kvs') hnm.symm hg ho.noDe (hre cd ho.cls) hnu
  rw [decodeCls_init (val := val) hn ?_ ⟨?_, kwBad_last hkw, ?_⟩, attrsOf_all hskip]
  · unfold afterInit
    rw [hp]
    dsimp only
    rw [he]
  · intro f hf hrd
    exact hn1 f hf (isRead_iff.2 hrd) _ _ _ hcx rfl hpt
  · intro f hf hrd _
    rw [hskip f hf (fun h => by rw [isRead_iff.1 h] at hrd; cases hrd)]
    simp
  · intro hs f hf hrd
    exact fieldRead_bearable (hread f hf (isRead_iff.2 hrd)) hs

/-! ## Rows -/

theorem itemRead_gets {env : Env} (hg : env.gde = []) (hF : FlattenAcyclic env) {m : Place} {c} {cd : ClassDef} {xs i f v} (h : ItemRead env m c cd xs i f v) :
    ItemGets env (m.enter c cd) xs i f (.ok v) := by
  obtain ⟨hfl, hal, x, hx, ⟨hde, hv⟩ | hown⟩ := h
  · exact item_gets hfl hal hde hx (accepts_main hg hF hv).gives
  · exact ownItem_gets hx hown

theorem rowPost_throw {env : Env} (hg : env.gde = []) (hF : FlattenAcyclic env) {m : Place} {c} {cd : ClassDef} {x xs p e} {val : FieldDef → Val}
    (hnm : m.named = false) (hc : env.cls c = some cd) (hr : RowClass cd) (hx : x = .list xs ∨ x = .tuple xs)
    (hskip : ∀ f ∈ cd.fields, f.init = false → f.dflt = some (val f)) (hread : ∀ i f, Param cd i f → ItemRead env m c cd xs i f (val f))
    (hp : cd.postInit = some p) (he : p (cd.fields.map (fun f => (f.name, val f))) = .error e) : ClsGets env m c x (raised e) := by
  have h := row_gets hg hnm hc hr hx hskip (fun i f hp => itemRead_gets hg hF (hread i f hp)) (fun hs i f hp => by
    obtain ⟨_, _, y, _, ⟨_, hv⟩ | ⟨_, _, _, hb⟩⟩ := hread i f hp
    · exact valid_bearable hv
    · exact hb hs)
  unfold afterInit at h
  rw [hp] at h
  dsimp only at h
  rw [he] at h
  exact h

theorem rowItem_throw {env : Env} (hg : env.gde = []) (hF : FlattenAcyclic env) {m : Place} {c} {cd : ClassDef} {x xs i f e} {val : FieldDef → Val}
    (hnm : m.named = false) (hc : env.cls c = some cd) (hr : RowClass cd) (hx : x = .list xs ∨ x = .tuple xs) (hpar : Param cd i f)
    (hpre : ∀ j g, j < i → Param cd j g → ItemRead env m c cd xs j g (val g)) (h : ItemGets env (m.enter c cd) xs i f (raised e)) :
    ClsGets env m c x (raised e) := by
  have hp : ∀ gj ∈ ((cd.fields.filter (·.init)).take i).zipIdx, ItemGets env (m.enter c cd) xs gj.2 gj.1 (.ok (val gj.1)) := by
    rintro ⟨g, j⟩ hgj
    have h1 := List.mem_zipIdx_iff_getElem?.1 hgj
    dsimp only at h1
    rw [List.getElem?_take] at h1
    split at h1
    · rename_i hj
      exact itemRead_gets hg hF (hpre j g hj h1)
    · cases h1
  refine ((Ev.list hp).and h).step ?_
  rintro n ⟨hn1, hn2⟩ o hre hnu
  rw [deAt_cls, hnm, deClsF_row hc hr]
  have hcx := deP_cls (c := c) (d := x) hnm.symm hg hr.noDe (hre cd hc) hnu
  have hlen : i < (cd.fields.filter (·.init)).length := (List.getElem?_eq_some_iff.1 hpar).1
  have hsplit : cd.fields.filter (·.init) = (cd.fields.filter (·.init)).take i ++ f :: (cd.fields.filter (·.init)).drop (i + 1) := by
    have he : (cd.fields.filter (·.init))[i] = f := (List.getElem?_eq_some_iff.1 hpar).2
    rw [← he, ← List.drop_eq_getElem_cons hlen, List.take_append_drop]
  have hmap : mapR (fun fi : FieldDef × Nat => (deAt env n).render (clsDeCx env c cd false o x) (rowArg fi.1 fi.2 x)) (cd.fields.filter (·.init)).zipIdx =
      .error (.user (.py e)) := by
    rw [hsplit, List.zipIdx_append, List.zipIdx_cons]
    refine mapR_stops (fun gj hgj => ⟨_, hn1 gj hgj _ x hcx hx⟩) ?_
    have hl : ((cd.fields.filter (·.init)).take i).length = i := by rw [List.length_take]; omega
    dsimp only
    rw [Nat.zero_add, hl]
    exact hn2 _ x hcx hx
  rw [hmap]

/-! ## Everywhere -/

/-- The exception comes out wherever the data is read; and, for a class, of the functions of the class. -/
structure Raises (env : Env) (m : Place) (t : Ty) (x : Val) (e : PErr) : Prop where
  gets : Gets env m t x (raised e)
  cls : ∀ c, t = .cls c → ClsGets env m c x (raised e)
  part : m.named = true → ∀ c dk kvs, t = .cls c → x = .dict dk kvs → (∀ cd, env.cls c = some cd → cd.transparent = false) → PartGets env m c kvs (raised e)

theorem Raises.other {env : Env} {m t x e} (h : Gets env m t x (raised e)) (ht : ∀ c, t ≠ .cls c) : Raises env m t x e :=
  ⟨h, fun c h => absurd h (ht c), fun _ c _ _ h => absurd h (ht c)⟩

theorem Raises.ofPart {env : Env} {m : Place} {c dk kvs e} (hnm : m.named = true) (h : PartGets env m c kvs (raised e)) : Raises env m (.cls c) (.dict dk kvs) e := by
  have hcg : ClsGets env m c (.dict dk kvs) (raised e) := Ev.mono h (fun n hn o hre hnu => by rw [hnm]; exact hn o dk kvs hre hnu .refl)
  refine ⟨cls_gets hcg, fun c' h' => ?_, fun _ c' dk' kvs' h' h'' _ => ?_⟩
  · cases h'; exact hcg
  · cases h'; cases h''; exact h

theorem Raises.ofCls {env : Env} {m c cd x e} (hc : env.cls c = some cd) (ht : cd.transparent = true) (h : ClsGets env m c x (raised e)) :
    Raises env m (.cls c) x e := by
  refine ⟨cls_gets h, fun c' h' => ?_, fun _ c' dk' kvs' h' _ htr => ?_⟩
  · cases h'; exact h
  · cases h'; rw [htr cd hc] at ht; cases ht

theorem Raises.ofRow {env : Env} {m : Place} {c x e} (hnm : m.named = false) (h : ClsGets env m c x (raised e)) : Raises env m (.cls c) x e := by
  refine ⟨cls_gets h, fun c' h' => ?_, fun h' => by rw [hnm] at h'; cases h'⟩
  cases h'; exact h

theorem throws_notPrim {env : Env} {m p x e} : ¬ Throws env m (.prim p) x e := by
  intro h
  cases h with
  | item hT => cases hT

theorem throws_main {env : Env} (hg : env.gde = []) (hF : FlattenAcyclic env) {m t x e} (h : Throws env m t x e) : Raises env m t x e := by
  induction h with
  | post hnm ho hn hkw hskip hread hp he => exact .ofPart hnm (post_throw hg hF hnm ho hn hkw hskip hread hp he)
  | field hnm ho hfs hpre hr hw hx _ ih =>
    exact .ofPart hnm (field_throw hg hF hnm ho hfs hpre hr (own_gets ho (by rw [hfs]; simp) hw hx (by simp) ih.gets))
  | inlined hnm ho hfs hpre hr hi hp ht _ ih =>
    refine .ofPart hnm (field_throw hg hF hnm ho hfs hpre hr ?_)
    exact (inlined_field hF (m := Place.enter _ _ _) hnm ho.cls ho.dict (by rw [hfs]; simp) hi hp ht (by simp) (ih.part hnm _ _ _ rfl rfl (fun chd h => (ht chd h).1))).mono
      (fun n hn cx dk kvs' hcx hd hp => hn cx _ dk kvs' hcx hd hp)
  | rowPost hnm hc hr hx hskip hread hp he => exact .ofRow hnm (rowPost_throw hg hF hnm hc hr hx hskip hread hp he)
  | rowItem hnm hc hr hx hpar hpre hfl hal hde hy _ ih => exact .ofRow hnm (rowItem_throw hg hF hnm hc hr hx hpar hpre (item_gets hfl hal hde hy ih.gets))
  | @throughPost m c cd f p x v e ho hfs hv hp he =>
    refine .ofCls ho.cls ho.transparent ?_
    have := through_gets (m := m) hg ho.cls ho.transparent ho.names ho.noDe hfs ho.sole ho.flat ho.noCustom (accepts_main hg hF hv).gives (valid_bearable hv)
    unfold afterInit at this
    rw [hp] at this
    dsimp only at this
    rw [he] at this
    exact this
  | through ho _ ih =>
    exact .ofCls ho.cls ho.transparent (through_field hg ho.cls ho.transparent ho.names ho.noDe ho.sole ho.flat ho.noCustom ih.gets)
  | item hT hi hl hv _ _ ih =>
    exact .other (item_throw hT hi hl (fun p hp => (accepts_main hg hF (hv p hp)).gives) ih.gets) (by intro c hc; subst hc; cases hT)
  | tuple hx hl hl' hv _ ih =>
    exact .other (tuple_throw hx hl hl' (fun p hp => (accepts_main hg hF (hv p hp)).gives) ih.gets) (by intro c hc; cases hc)
  | dictValue hl hv _ hk _ ih =>
    refine .other (dict_throw hg hF hl hv ?_) (by intro c hc; cases hc)
    refine ((keyRead_gives hg hF hk).and ih.gets).mono (fun n hn cx hcx => ?_)
    unfold entryRead
    rw [hn.1 cx hcx]
    dsimp only
    rw [hn.2 cx _ hcx Reads.val rfl]
  | dictKey hl hv _ hk ih =>
    refine .other (dict_throw hg hF hl hv ?_) (by intro c hc; cases hc)
    refine ih.gets.mono (fun n hn cx hcx => ?_)
    unfold entryRead
    rw [numKey_plain ⟨fun h => throws_notPrim (h ▸ hk), fun h => throws_notPrim (h ▸ hk)⟩]
    dsimp only
    rw [hn cx _ hcx Reads.val rfl]
  | counterKey hl hv _ _ ih =>
    exact .other (counter_throw hl (fun p hp => (accepts_main hg hF (hv p hp)).gives) ih.gets) (by intro c hc; cases hc)
  | opt hne hx _ ih => exact .other (opt_gets hne hx ih.gets) (by intro c hc; cases hc)
  | alias _ ih =>
    refine .other ?_ (by intro c hc; cases hc)
    refine Ev.step ih.gets ?_
    intro n hn cx a hcx hr hty
    rw [render_reads hr]
    unfold deBody
    rw [hcx.des, pickDe_nil, hr.2.1]
    dsimp only
    rw [hty]
    exact hn cx _ hcx ⟨hr.1, rfl, hr.2.2.1, hr.2.2.2.1, hr.2.2.2.2⟩ rfl
  | gen _ ih =>
    refine .other ?_ (by intro c hc; cases hc)
    refine Ev.step ih.gets ?_
    intro n hn cx a hcx hr hty
    rw [render_reads hr]
    unfold deBody
    rw [hcx.des, pickDe_nil, hr.2.1]
    dsimp only
    rw [hty]
    exact hn cx _ hcx ⟨hr.1, rfl, hr.2.2.1, hr.2.2.2.1, hr.2.2.2.2⟩ rfl

theorem fromDict_throws {env : Env} (hg : env.gde = []) (hF : FlattenAcyclic env) {c} {cd : ClassDef} {m x e} (hc : env.cls c = some cd) (hx : ∀ as, x ≠ .inst c as)
    (hnm : m.named = true) (h : Throws env m (.cls c) x e) :
    Ev (fun n => ∀ o : DeOpts, o.reuse.getD cd.reuseDflt = m.reuse → o.numbers = m.numbers → fromDict env o n (.cls c) x = .error (.py e)) := by
  obtain ⟨N, hN⟩ := (throws_main hg hF h).cls c rfl
  refine ⟨N + 2, fun n hn o h1 h2 => ?_⟩
  obtain ⟨m, rfl⟩ : ∃ m, n = m + 2 := ⟨n - 2, by omega⟩
  rw [fromDict_cls (by rw [hg]; simp) hx]
  have := hN (m + 1) (by omega) (topCall o) (fun cd' h => by rw [hc] at h; cases h; exact h1) h2
  rw [deAt_cls, hnm] at this
  rw [this]; rfl

theorem fromTuple_throws {env : Env} (hg : env.gde = []) (hF : FlattenAcyclic env) {c} {cd : ClassDef} {m x e} (hc : env.cls c = some cd) (hx : ∀ as, x ≠ .inst c as)
    (hnm : m.named = false) (h : Throws env m (.cls c) x e) :
    Ev (fun n => ∀ o : DeOpts, o.reuse.getD cd.reuseDflt = m.reuse → o.numbers = m.numbers → fromTuple env o n (.cls c) x = .error (.py e)) := by
  obtain ⟨N, hN⟩ := (throws_main hg hF h).cls c rfl
  refine ⟨N + 2, fun n hn o h1 h2 => ?_⟩
  obtain ⟨m, rfl⟩ : ∃ m, n = m + 2 := ⟨n - 2, by omega⟩
  rw [fromTuple_cls (by rw [hg]; simp) hx]
  have := hN (m + 1) (by omega) (topCall o) (fun cd' h => by rw [hc] at h; cases h; exact h1) h2
  rw [deAt_cls, hnm] at this
  rw [this]; rfl

end Verif
