import Verif.Spec.Serializers
import Verif.Lemmas.FieldSe
import Verif.Lemmas.FieldRun
import Verif.Lemmas.Coerce
import Verif.Lemmas.Safe
import Verif.Props.C12
/-!
# Which custom (de)serializer is used at each position of a type
-/

namespace Verif
open Spec Props

theorem dictSet_parts {k v : Val} {kvs : List (Val × Val)} {e} (h : e ∈ dictSet k v kvs) :
    (e.1 = k ∨ e.1 ∈ kvs.map (·.1)) ∧ (e.2 = v ∨ e.2 ∈ kvs.map (·.2)) := by
  induction kvs with
  | nil =>
    rw [dictSet, List.mem_singleton] at h
    subst h; exact ⟨.inl rfl, .inl rfl⟩
  | cons a r ih =>
    obtain ⟨k', v'⟩ := a
    unfold dictSet at h
    split at h
    · rcases List.mem_cons.1 h with rfl | h
      · exact ⟨.inr (by simp), .inl rfl⟩
      · exact ⟨.inr (by simp only [List.map_cons, List.mem_cons]; exact .inr (List.mem_map_of_mem h)),
          .inr (by simp only [List.map_cons, List.mem_cons]; exact .inr (List.mem_map_of_mem h))⟩
    · rcases List.mem_cons.1 h with rfl | h
      · exact ⟨.inr (by simp), .inr (by simp)⟩
      · obtain ⟨h1, h2⟩ := ih h
        refine ⟨h1.imp id ?_, h2.imp id ?_⟩ <;>
          (intro hh; simp only [List.map_cons, List.mem_cons]; exact .inr hh)

theorem dictOf_parts {kvs : List (Val × Val)} {e} (h : e ∈ dictOf kvs) : e.1 ∈ kvs.map (·.1) ∧ e.2 ∈ kvs.map (·.2) := by
  have key : ∀ (l acc : List (Val × Val)), e ∈ l.foldl (fun acc e => dictSet e.1 e.2 acc) acc →
      (e.1 ∈ acc.map (·.1) ∨ e.1 ∈ l.map (·.1)) ∧ (e.2 ∈ acc.map (·.2) ∨ e.2 ∈ l.map (·.2)) := by
    intro l
    induction l with
    | nil => intro acc h; exact ⟨.inl (List.mem_map_of_mem h), .inl (List.mem_map_of_mem h)⟩
    | cons a l ih =>
      intro acc h
      obtain ⟨h1, h2⟩ := ih _ h
      refine ⟨?_, ?_⟩
      · rcases h1 with h1 | h1
        · obtain ⟨b, hb, h1⟩ := List.mem_map.1 h1
          rcases (dictSet_parts hb).1 with h | h
          · rw [← h1, h]; exact .inr (by simp)
          · rw [← h1]; exact .inl h
        · exact .inr (by simp only [List.map_cons, List.mem_cons]; exact .inr h1)
      · rcases h2 with h2 | h2
        · obtain ⟨b, hb, h2⟩ := List.mem_map.1 h2
          rcases (dictSet_parts hb).2 with h | h
          · rw [← h2, h]; exact .inr (by simp)
          · rw [← h2]; exact .inl h
        · exact .inr (by simp only [List.map_cons, List.mem_cons]; exact .inr h2)
  have := key kvs [] h
  simpa using this

theorem dedup_mem {xs : List Val} {y} (h : y ∈ dedup xs) : y ∈ xs := by
  have key : ∀ (l acc : List Val), y ∈ l.foldl (fun acc x => if acc.any (fun y => pyEq y x) then acc else acc ++ [x]) acc → y ∈ acc ∨ y ∈ l := by
    intro l
    induction l with
    | nil => intro acc h; exact .inl h
    | cons a l ih =>
      intro acc h
      rcases ih _ h with h | h
      · dsimp only at h
        split at h
        · exact .inl h
        · rcases List.mem_append.1 h with h | h
          · exact .inl h
          · rw [List.mem_singleton] at h; exact .inr (by rw [h]; simp)
      · exact .inr (by simp [h])
  simpa using key xs [] h

open Classical in
/-- For every output a position it came from. -/
theorem sources {R : Val → Val → Prop} {xs ys : List Val} (h : ∀ y ∈ ys, ∃ x ∈ xs, R x y) :
    ∃ src : Val → Val, (∀ y ∈ ys, src y ∈ xs) ∧ ∀ y ∈ ys, R (src y) y := by
  refine ⟨fun y => if hy : ∃ x ∈ xs, R x y then hy.choose else .none, fun y hy => ?_, fun y hy => ?_⟩
  · dsimp only; rw [dif_pos (h y hy)]; exact (h y hy).choose_spec.1
  · dsimp only; rw [dif_pos (h y hy)]; exact (h y hy).choose_spec.2

theorem iter_items {v : Val} : (∃ xs, Items v xs) ∨ ∀ xs, ¬ Items v xs := by
  by_cases h : ∃ xs, Items v xs
  · exact .inl h
  · exact .inr (fun xs hx => h ⟨xs, hx⟩)

/-- The serializers that count at a position: none if the field says `serializer=default_serializer`. -/
def effSer (o : Option SerFn) (S : List ClsSer) : List ClsSer := if o.isSome then [] else S

theorem pickSer_some {S : List ClsSer} {a : SeArg} {s} (h : pickSer S a = some s) : Chosen (effSer a.ser S) a.ty s := by
  unfold pickSer at h
  unfold effSer
  cases hs : a.ser with
  | some _ => rw [hs] at h; cases h
  | none =>
    rw [hs] at h
    dsimp only at h
    rw [if_neg (by simp)]
    rw [List.find?_eq_some_iff_append] at h
    obtain ⟨h1, pre, post, h2, h3⟩ := h
    refine ⟨post.reverse, pre.reverse, ?_, h1, fun s' hs' => ?_⟩
    · have := congrArg List.reverse h2
      simpa using this
    · have := h3 s' (List.mem_reverse.1 hs')
      simpa using this

theorem pickSer_none' {S : List ClsSer} {a : SeArg} (h : pickSer S a = none) : NoneFor (effSer a.ser S) a.ty := by
  intro s hs
  unfold pickSer at h
  unfold effSer at hs
  cases hser : a.ser with
  | some _ => rw [hser] at hs; simp at hs
  | none =>
    rw [hser] at h hs
    dsimp only at h
    rw [if_neg (by simp)] at hs
    rw [List.find?_eq_none] at h
    have := h s (List.mem_reverse.2 hs)
    simpa using this

/-- The element type of an argument. -/
def SeArg.elem (a : SeArg) (t : Ty) (x : Val) : SeArg := { ty := t, ser := a.ser, v := .ok x }

/-- What an object was serialized to respects the serializers of its class. -/
def ObjServed (env : Env) (c : ClassId) (attrs : List (String × Val)) (w : Val) : Prop :=
  ∃ cd, env.cls c = some cd ∧ (SimpleSe cd → ∀ f a x, Slot cd w f x → attrs.lookup f.name = some a →
    (∀ g, f.serializer = some (.fn g) → g a = .ok x) ∧
    (f.serializer = some .marker → Served env [] f.ty a x) ∧
    (f.serializer = none → Served env (env.gser ++ cd.classSer.toList) f.ty a x))

/-- Every successful rendering puts the responsible serializer's result at every position. -/
def ServedRec (env : Env) (r : SeRec) : Prop :=
  (∀ cx a v w, a.v = .ok v → (∀ g, a.ser ≠ some (.fn g)) → r.render cx a = .ok w → Served env (effSer a.ser cx.sers) a.ty v w) ∧
  ∀ named re cv sn c attrs w, r.cls named re cv sn (.inst c attrs) = .ok w → ObjServed env c attrs w

theorem elems_served {env : Env} {r : SeRec} (hr : ServedRec env r) {cx} {a : SeArg} {t xs ys} (ha : ∀ g, a.ser ≠ some (.fn g))
    (h : mapR (fun x => r.render cx { ty := t, ser := a.ser, v := .ok x }) xs = .ok ys) :
    xs.length = ys.length ∧ ∀ p ∈ xs.zip ys, Served env (effSer a.ser cx.sers) t p.1 p.2 :=
  ⟨(mapR_ok_length h).symm, fun p hp => hr.1 cx { ty := t, ser := a.ser, v := .ok p.1 } p.1 p.2 rfl ha (mapR_ok_get h p hp)⟩

theorem elems_from {env : Env} {r : SeRec} (hr : ServedRec env r) {cx} {a : SeArg} {t xs ys} (ha : ∀ g, a.ser ≠ some (.fn g))
    (h : mapR (fun x => r.render cx { ty := t, ser := a.ser, v := .ok x }) xs = .ok ys) :
    ∀ y ∈ ys, ∃ x ∈ xs, Served env (effSer a.ser cx.sers) t x y := by
  intro y hy
  obtain ⟨x, hx, hxy⟩ := mapR_mem h hy
  exact ⟨x, hx, hr.1 cx { ty := t, ser := a.ser, v := .ok x } x y rfl ha hxy⟩

theorem isOpt_shape {ts : List Ty} (h : (Ty.union ts).isOpt = true) : ∃ t, ts = [t, .none] ∧ t ≠ .none := by
  unfold Ty.isOpt at h
  split at h
  · rename_i t heq
    cases heq
    refine ⟨_, rfl, ?_⟩
    rintro rfl
    revert h; decide
  · cases h

theorem isOpt_not {ts : List Ty} (h : (Ty.union ts).isOpt = false) : Atom (.union ts) := by
  by_cases hh : ∃ t, ts = [t, .none]
  · obtain ⟨t, rfl⟩ := hh
    cases t with
    | none => exact .optNone
    | _ => cases h
  · exact .union (fun t ht => hh ⟨t, ht⟩)

theorem odd_iter {v : Val} (h : ∀ xs, ¬ Items v xs) : (∀ xs, v ≠ .list xs) ∧ (∀ xs, v ≠ .tuple xs) :=
  ⟨fun xs e => h xs (e ▸ .list), fun xs e => h xs (e ▸ .tuple)⟩

theorem zipIdx_get {α : Type} {ts : List α} {i : Nat} {t} (h : ts[i]? = some t) : ts.zipIdx[i]? = some (t, i) := by
  simp [List.getElem?_zipIdx, h]

theorem zip_get' {α β : Type} {as : List α} {bs : List β} {i : Nat} {a b} (ha : as[i]? = some a) (hb : bs[i]? = some b) : (a, b) ∈ as.zip bs := by
  have : (as.zip bs)[i]? = some (a, b) := by simp [List.getElem?_zip_eq_some, ha, hb]
  exact List.mem_of_getElem? this

theorem set_served {env : Env} {S : List ClsSer} {k t v xs ys w hs b} (hno : NoneFor S (.set k t)) (hi : Items v xs)
    (hf : ∀ y ∈ ys, ∃ x ∈ xs, Served env S t x y) (h : mkSet hs b ys = .ok w) : Served env S (.set k t) v w := by
  unfold mkSet at h
  split at h
  · cases h
    obtain ⟨src, h1, h2⟩ := sources (ys := dedup ys) (fun y hy => hf y (dedup_mem hy))
    exact .set src hno hi .set h1 h2
  · cases h

theorem render_served {env : Env} {r : SeRec} (hr : ServedRec env r) {cx a v w} (hv : a.v = .ok v) (ha : ∀ g, a.ser ≠ some (.fn g))
    (h : renderF env r cx a = .ok w) : Served env (effSer a.ser cx.sers) a.ty v w := by
  have hat : ∀ t, r.render cx { a with ty := t } = .ok w → Served env (effSer a.ser cx.sers) t v w := fun t hw =>
    hr.1 cx { a with ty := t } v w hv ha hw
  have hel : ∀ t x y, r.render cx { ty := t, ser := a.ser, v := .ok x } = .ok y → Served env (effSer a.ser cx.sers) t x y := fun t x y hw =>
    hr.1 cx { ty := t, ser := a.ser, v := .ok x } x y rfl ha hw
  unfold renderF at h
  split at h
  · rename_i s hp
    rw [hv] at h
    exact .chosen (pickSer_some hp) (liftP_ok h)
  · rename_i hp
    have hno := pickSer_none' hp
    split at h
    · rename_i g hg; exact absurd hg (ha g)
    · generalize hty : a.ty = ty at h hno
      cases ty with
      | none => exact .atom hno .none
      | prim p => exact .atom hno .prim
      | newType => exact .atom hno .newType
      | any => exact .atom hno .any
      | tvar => exact .atom hno .tvar
      | enum => exact .atom hno .enum
      | std => exact .atom hno .std
      | dt => exact .atom hno .dt
      | lit => exact .atom hno .lit
      | listB => exact .atom hno .listB
      | setB => exact .atom hno .setB
      | dequeB => exact .atom hno .dequeB
      | counterB => exact .atom hno .counterB
      | dictB => exact .atom hno .dictB
      | tupleB => exact .atom hno .tupleB
      | other => exact .atom hno .other
      | alias nm t => exact .alias hno (hat t h)
      | gen c as => exact .gen hno (hat _ h)
      | cls c =>
        rw [hv] at h; dsimp only at h
        cases v with
        | inst c' attrs =>
          obtain ⟨cd, hc, this⟩ := hr.2 _ _ _ _ _ _ _ h
          exact .obj hno hc (fun f x y hs hsl hl => (this hs f x y hsl hl).1) (fun f x y hs hsl hl => (this hs f x y hsl hl).2.1)
            (fun f x y hs hsl hl => (this hs f x y hsl hl).2.2)
        | _ => exact .odd hno (.cls (by intro _ _ h; cases h))
      | union ts =>
        cases ho : (Ty.union ts).isOpt with
        | false => exact .atom hno (isOpt_not ho)
        | true =>
          obtain ⟨t, rfl, ht⟩ := isOpt_shape ho
          rw [hv] at h; dsimp only at h
          rw [ho, if_pos rfl] at h
          split at h
          · cases h; exact .optNone hno
          · rename_i hvn
            exact .opt hno hvn (hel _ _ _ h)
      | list k t =>
        rw [hv] at h; dsimp only at h
        rcases iter_items (v := v) with ⟨xs, hi⟩ | ho
        · rw [items_iter hi] at h; dsimp only at h
          split at h
          · rename_i ys hys
            cases h
            exact .list hno hi (elems_served hr ha hys).1 (elems_served hr ha hys).2
          · cases h
        · exact .odd hno (.list ho)
      | deque t =>
        rw [hv] at h; dsimp only at h
        rcases iter_items (v := v) with ⟨xs, hi⟩ | ho
        · rw [items_iter hi] at h; dsimp only at h
          split at h
          · rename_i ys hys
            cases h
            exact .deque hno hi (elems_served hr ha hys).1 (elems_served hr ha hys).2
          · cases h
        · exact .odd hno (.deque ho)
      | tupleV t =>
        rw [hv] at h; dsimp only at h
        rcases iter_items (v := v) with ⟨xs, hi⟩ | ho
        · rw [items_iter hi] at h; dsimp only at h
          split at h
          · rename_i ys hys
            cases h
            exact .tupleV hno hi (elems_served hr ha hys).1 (elems_served hr ha hys).2
          · cases h
        · exact .odd hno (.tupleV ho)
      | set k t =>
        rw [hv] at h; dsimp only at h
        rcases iter_items (v := v) with ⟨xs, hi⟩ | ho
        · rw [items_iter hi] at h; dsimp only at h
          split at h
          · rename_i ys hys
            have hf := elems_from hr ha hys
            split at h
            · cases h
              obtain ⟨src, h1, h2⟩ := sources hf
              exact .set src hno hi .list h1 h2
            · exact set_served hno hi hf h
          · cases h
        · exact .odd hno (.set ho)
      | tuple ts =>
        cases ts with
        | nil => cases h
        | cons t0 ts =>
        rw [hv] at h; dsimp only at h
        by_cases hs : ∃ xs, v = .tuple xs ∨ v = .list xs
        · obtain ⟨xs, hs⟩ := hs
          split at h
          · rename_i ys hys
            cases h
            refine .tuple hno hs (by rw [mapR_ok_length hys]; simp) (fun i t x y h1 h2 h3 => ?_)
            have := mapR_ok_get hys _ (zip_get' (zipIdx_get h1) h3)
            have hix : pyIndex v i = .ok x := by
              rcases hs with rfl | rfl <;> simp [pyIndex, h2]
            dsimp only at this
            rw [hix] at this
            exact hel _ _ _ this
          · cases h
        · exact .odd hno (.tuple (fun xs e => hs ⟨xs, .inl e⟩) (fun xs e => hs ⟨xs, .inr e⟩))
      | counter t =>
        rw [hv] at h; dsimp only at h
        cases v with
        | dict d kvs =>
          dsimp only [pyItems] at h
          split at h
          · rename_i es hes
            unfold mkDict at h
            split at h
            · cases h
              have hf : ∀ y ∈ (dictOf es).map (·.1), ∃ x ∈ kvs.map (·.1), Served env (effSer a.ser cx.sers) t x y := by
                intro y hy
                obtain ⟨e, he, rfl⟩ := List.mem_map.1 hy
                obtain ⟨e', he', h2⟩ := List.mem_map.1 (dictOf_parts he).1
                obtain ⟨kv, hkv, h3⟩ := mapR_mem hes he'
                split at h3
                · rename_i k' hk
                  cases h3
                  exact ⟨kv.1, List.mem_map_of_mem hkv, h2 ▸ hel _ _ _ hk⟩
                · cases h3
              obtain ⟨src, h1, h2⟩ := sources hf
              exact .counter src hno (fun e he => h1 _ (List.mem_map_of_mem he)) (fun e he => h2 _ (List.mem_map_of_mem he))
            · cases h
          · cases h
        | _ => exact .odd hno (.counter (by intro _ _ h; cases h))
      | dict k kt vt =>
        rw [hv] at h; dsimp only at h
        cases v with
        | dict d kvs =>
          dsimp only [pyItems] at h
          split at h
          · rename_i es hes
            unfold mkDict at h
            split at h
            · cases h
              have hes' : ∀ e ∈ es, ∃ kv ∈ kvs, Served env (effSer a.ser cx.sers) kt kv.1 e.1 ∧ Served env (effSer a.ser cx.sers) vt kv.2 e.2 := by
                intro e he
                obtain ⟨kv, hkv, h3⟩ := mapR_mem hes he
                refine ⟨kv, hkv, ?_⟩
                split at h3
                · cases h3
                · rename_i k' hk
                  split at h3
                  · rename_i w' hw
                    cases h3
                    exact ⟨hel _ _ _ hk, hel _ _ _ hw⟩
                  · cases h3
              have hfk : ∀ y ∈ (dictOf es).map (·.1), ∃ x ∈ kvs.map (·.1), Served env (effSer a.ser cx.sers) kt x y := by
                intro y hy
                obtain ⟨e, he, rfl⟩ := List.mem_map.1 hy
                obtain ⟨e', he', h2⟩ := List.mem_map.1 (dictOf_parts he).1
                obtain ⟨kv, hkv, h3, _⟩ := hes' e' he'
                exact ⟨kv.1, List.mem_map_of_mem hkv, h2 ▸ h3⟩
              have hfv : ∀ y ∈ (dictOf es).map (·.2), ∃ x ∈ kvs.map (·.2), Served env (effSer a.ser cx.sers) vt x y := by
                intro y hy
                obtain ⟨e, he, rfl⟩ := List.mem_map.1 hy
                obtain ⟨e', he', h2⟩ := List.mem_map.1 (dictOf_parts he).2
                obtain ⟨kv, hkv, _, h3⟩ := hes' e' he'
                exact ⟨kv.2, List.mem_map_of_mem hkv, h2 ▸ h3⟩
              obtain ⟨src, h1, h2⟩ := sources hfk
              obtain ⟨vsrc, h3, h4⟩ := sources hfv
              exact .dict src vsrc hno (fun e he => h1 _ (List.mem_map_of_mem he)) (fun e he => h3 _ (List.mem_map_of_mem he))
                (fun e he => h2 _ (List.mem_map_of_mem he)) (fun e he => h4 _ (List.mem_map_of_mem he))
            · cases h
          · cases h
        | _ => exact .odd hno (.dict (by intro _ _ h; cases h))

theorem seFieldArg_attr {f : FieldDef} {c attrs a} (h : attrs.lookup f.name = some a) : (seFieldArg f (.ok (.inst c attrs))).v = .ok a := by
  show getAttr (.inst c attrs) f.name = .ok a
  unfold getAttr; dsimp only; rw [h]

/-- One rendered field. -/
theorem field_served {env : Env} {n cx} {f : FieldDef} {S c attrs a x} (hcx : cx.sers = S)
    (hr : ∀ cx a v w, a.v = .ok v → (∀ g, a.ser ≠ some (.fn g)) → (seAt env n).render cx a = .ok w → Served env (effSer a.ser cx.sers) a.ty v w)
    (hl : attrs.lookup f.name = some a) (h : (seAt env n).render cx (seFieldArg f (.ok (.inst c attrs))) = .ok x) :
    (∀ g, f.serializer = some (.fn g) → g a = .ok x) ∧ (f.serializer = some .marker → Served env [] f.ty a x) ∧
      (f.serializer = none → Served env S f.ty a x) := by
  subst hcx
  have hv := seFieldArg_attr (c := c) hl
  refine ⟨fun g hg => ?_, fun hg => ?_, fun hg => ?_⟩
  · cases n with
    | zero => cases h
    | succ n =>
      rw [seAt_render] at h
      unfold renderF pickSer at h
      have hs : (seFieldArg f (.ok (.inst c attrs))).ser = some (.fn g) := hg
      rw [hs, hv] at h
      exact liftP_ok h
  · have hs : (seFieldArg f (.ok (.inst c attrs))).ser = some .marker := hg
    have := hr cx _ a x hv (by rw [hs]; intro g h; cases h) h
    rw [hs] at this
    exact this
  · have hs : (seFieldArg f (.ok (.inst c attrs))).ser = none := hg
    have := hr cx _ a x hv (by rw [hs]; intro g h; cases h) h
    rw [hs] at this
    exact this

theorem cls_served {env : Env} {n}
    (hr : ∀ cx a v w, a.v = .ok v → (∀ g, a.ser ≠ some (.fn g)) → (seAt env n).render cx a = .ok w → Served env (effSer a.ser cx.sers) a.ty v w)
    {named re cv sn c attrs w} (h : (seAt env n).cls named re cv sn (.inst c attrs) = .ok w) : ObjServed env c attrs w := by
  have h := ((seAt_mono env (Nat.le_add_right n 2)).cls _ _ _ _ _).ok h
  cases hc : env.cls c with
  | none =>
    rw [seAt_cls] at h
    unfold clsF at h
    dsimp only at h
    rw [hc] at h
    cases h
  | some cd =>
    refine ⟨cd, hc, fun hs f a x hsl hl => ?_⟩
    have hfl : ∀ f ∈ cd.seFieldsOf, f.flatten = false := fun f hf => hs.entries.flat f (by rw [seFieldsOf_eq] at hf; exact (List.mem_filter.1 hf).1)
    have hn' : (cd.seFieldsOf.map (fun f => f.conv cd.seCase)).Nodup := by rw [seFieldsOf_eq]; exact hs.entries.wires
    cases named with
    | true =>
      rw [cls_emit hc hs.dict hfl] at h
      split at h
      · rename_i os hos
        cases h
        rw [foldl_addEntry (by simp) (mapR_emit_pairwise hn' hos), List.nil_append] at hsl
        obtain ⟨L, h1, h2, h3, _⟩ := emit_list hos
        rcases hsl with ⟨kvs, he, hf, hx⟩ | ⟨ws, i, he, _⟩
        · cases he
          rw [h1, List.mem_map] at hx
          obtain ⟨⟨g, y⟩, hp, he⟩ := hx
          simp only [Prod.mk.injEq, Val.str.injEq] at he
          obtain ⟨hk, rfl⟩ := he
          have hg : g ∈ cd.seFieldsOf := h2.subset (List.mem_map_of_mem (f := (·.1)) hp)
          have : g = f := inj_of_nodup_map hn' hg (by rw [seFieldsOf_eq]; exact hf) hk
          subst this
          exact field_served rfl hr hl (h3 _ hp)
        · cases he
      · cases h
    | false =>
      rw [cls_rows hc hs.dict hfl] at h
      split at h
      · rename_i ws hws
        cases h
        rcases hsl with ⟨kvs, he, hf, hx⟩ | ⟨ws', i, he, hi, hx⟩
        · cases he
        · cases he
          rw [seFieldsOf_eq] at hws
          exact field_served rfl hr hl (mapR_ok_get hws _ (zip_get' hi hx))
      · cases h

theorem served_at {env : Env} : ∀ n, ServedRec env (seAt env n)
  | 0 => ⟨fun _ _ _ _ _ _ h => (by cases h), fun _ _ _ _ _ _ _ h => (by cases h)⟩
  | n + 1 => by
    have h1 : ∀ cx a v w, a.v = .ok v → (∀ g, a.ser ≠ some (.fn g)) → (seAt env (n + 1)).render cx a = .ok w →
        Served env (effSer a.ser cx.sers) a.ty v w := fun cx a v w hv ha h => by
      rw [seAt_render] at h
      exact render_served (served_at n) hv ha h
    exact ⟨h1, fun _ _ _ _ _ _ _ h => cls_served h1 h⟩

end Verif
