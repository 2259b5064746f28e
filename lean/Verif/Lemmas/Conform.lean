import Verif.Spec.Conform
import Verif.Lemmas.UnionDe
import Verif.Lemmas.Fieldwise
/-!
# What passes the run-time type check conforms to the annotation
-/

namespace Verif
open Spec

theorem seqInst_of {k v xs} (h : seqInst k v = some xs) : SeqOf k v xs := by
  unfold seqInst at h
  cases v with
  | list ys => cases h; exact .list
  | deque ys => cases k <;> cases h <;> exact .deque (by decide)
  | tuple ys => cases k <;> cases h; exact .tuple
  | str s => cases k <;> cases h; exact .str
  | _ => cases h

theorem setInst_of {k v xs} (h : setInst k v = some xs) : SetOf k v xs := by
  unfold setInst at h
  cases v with
  | set f ys => cases f <;> cases k <;> cases h <;> first | exact .frozen | exact .abstract | exact .set (by decide)
  | _ => cases h

theorem mapInst_of {k v kvs} (h : mapInst k v = some kvs) : MapOf k v kvs := by
  unfold mapInst at h
  cases v with
  | dict d es =>
    cases k with
    | deflt => cases d <;> cases h; exact .deflt
    | _ => cases h; exact .dict (by decide)
  | _ => cases h

theorem sameKind_eq {l v} (h : sameKind l v = true) (he : pyEq l v = true) : l = v := by
  cases l <;> cases v <;> simp [sameKind] at h <;> simp [pyEq, Val.num, Flt.eqv] at he
  · rfl
  · rename_i a b; cases a <;> cases b <;> first | rfl | simp at he
  · rw [he]
  · rw [he]
  · rw [he.1, he.2]

theorem clsInst_of {env : Env} {c v} (h : isClsInst env c v = true) : IsA env (.cls c) v ∨ ∃ as, v = .inst c as := by
  unfold isClsInst at h
  cases v with
  | inst d as =>
    dsimp only at h
    cases hd : env.cls d with
    | none => rw [hd] at h; simp at h; subst h; exact .inr ⟨_, rfl⟩
    | some cd => rw [hd] at h; simp at h; exact .inl (.cls hd h)
  | _ => cases h

theorem stdInst_of {env : Env} {k v} (h : isStdInst env k v = true) : IsA env (.std k) v := by
  unfold isStdInst at h
  cases v with
  | std k' s =>
    simp only [Bool.or_eq_true, beq_iff_eq] at h
    rcases h with rfl | h
    · exact .std
    · exact .stdSub h
  | _ => cases h

theorem dtInst_of {env : Env} {k v} (h : isDtInst k v = true) : IsA env (.dt k) v := by
  unfold isDtInst at h
  cases v with
  | dt k' s =>
    simp only [Bool.or_eq_true, Bool.and_eq_true, beq_iff_eq] at h
    rcases h with rfl | ⟨rfl, rfl⟩
    · exact .dt
    · exact .datetime
  | _ => cases h

mutual
theorem bearable_conforms {env : Env} : ∀ (t : Ty) (v : Val), bearable env t v = true → Conforms env t v := fun t v h => by
  cases t with
  | prim p => unfold bearable at h; exact .prim (isPrimInst_iff.1 h)
  | newType n p => unfold bearable at h; exact .newType (isPrimInst_iff.1 h)
  | none => unfold bearable at h; cases v <;> first | exact .none | cases h
  | any => exact .any
  | list k t =>
    unfold bearable at h
    split at h
    · rename_i xs hx
      refine .list (seqInst_of hx) (fun x hp => ?_)
      rw [hp] at h
      exact bearable_conforms t x h
    · cases h
  | listB k =>
    unfold bearable at h
    obtain ⟨xs, hx⟩ := Option.isSome_iff_exists.1 h
    exact .listB (seqInst_of hx)
  | set k t =>
    unfold bearable at h
    split at h
    · rename_i xs hx
      refine .set (setInst_of hx) (fun x hp => ?_)
      rw [hp] at h
      exact bearable_conforms t x h
    · cases h
  | setB k =>
    unfold bearable at h
    obtain ⟨xs, hx⟩ := Option.isSome_iff_exists.1 h
    exact .setB (setInst_of hx)
  | deque t =>
    unfold bearable at h
    split at h
    · refine .deque (fun x hp => ?_)
      rw [hp] at h
      exact bearable_conforms t x h
    · cases h
  | dequeB => unfold bearable at h; split at h; exact .dequeB; cases h
  | counter t =>
    unfold bearable at h
    split at h
    · refine .counter (fun kv hp => ?_)
      rw [hp] at h
      exact bearable_conforms t kv.1 h
    · cases h
  | counterB => unfold bearable at h; split at h; exact .counterB; cases h
  | tuple ts =>
    unfold bearable at h
    split at h
    · rename_i xs
      obtain ⟨h1, h2⟩ := bearableZip_conforms ts xs h
      exact .tuple h1 h2
    · cases h
  | tupleV t =>
    unfold bearable at h
    split at h
    · refine .tupleV (fun x hp => ?_)
      rw [hp] at h
      exact bearable_conforms t x h
    · cases h
  | tupleB => unfold bearable at h; split at h; exact .tupleB; cases h
  | dict k kt vt =>
    unfold bearable at h
    split at h
    · rename_i kvs hx
      refine .dict (mapInst_of hx) (fun kv hp => ?_) (fun kv hp => ?_)
      · rw [hp] at h
        dsimp only at h
        rw [Bool.and_eq_true] at h
        exact bearable_conforms kt kv.1 h.1
      · rw [hp] at h
        dsimp only at h
        rw [Bool.and_eq_true] at h
        exact bearable_conforms vt kv.2 h.2
    · cases h
  | dictB k =>
    unfold bearable at h
    obtain ⟨xs, hx⟩ := Option.isSome_iff_exists.1 h
    exact .dictB (mapInst_of hx)
  | enum e =>
    unfold bearable at h
    split at h
    · simp at h; subst h; exact .enum
    · cases h
  | std k => unfold bearable at h; exact .std (stdInst_of h)
  | dt k => unfold bearable at h; exact .dt (dtInst_of h)
  | lit vs =>
    unfold bearable at h
    rw [List.any_eq_true] at h
    obtain ⟨l, hl, h⟩ := h
    rw [Bool.and_eq_true] at h
    exact .lit (sameKind_eq h.1 h.2 ▸ hl)
  | union ts =>
    unfold bearable at h
    obtain ⟨t, ht, hc⟩ := bearableAny_conforms ts v h
    exact .union ht hc
  | cls c =>
    unfold bearable at h
    rcases clsInst_of h with h | ⟨as, rfl⟩
    · exact .cls h
    · exact .self
  | gen c args =>
    unfold bearable at h
    rcases clsInst_of h with h | ⟨as, rfl⟩
    · exact .gen h
    · exact .genSelf
  | tvar x => exact .tvar
  | alias n t => unfold bearable at h; exact .alias (bearable_conforms t v h)
  | other s => exact .other
theorem bearableZip_conforms {env : Env} : ∀ (ts : List Ty) (xs : List Val), bearableZip env ts xs = true →
    ts.length = xs.length ∧ ∀ p ∈ ts.zip xs, Conforms env p.1 p.2 := fun ts xs h => by
  cases ts with
  | nil => cases xs with
    | nil => exact ⟨rfl, by simp⟩
    | cons => unfold bearableZip at h; cases h
  | cons t ts => cases xs with
    | nil => unfold bearableZip at h; cases h
    | cons x xs =>
      unfold bearableZip at h
      rw [Bool.and_eq_true] at h
      obtain ⟨h1, h2⟩ := bearableZip_conforms ts xs h.2
      refine ⟨by simp [h1], fun p hp => ?_⟩
      rw [List.zip_cons_cons, List.mem_cons] at hp
      rcases hp with rfl | hp
      · exact bearable_conforms t x h.1
      · exact h2 p hp
theorem bearableAny_conforms {env : Env} : ∀ (ts : List Ty) (v : Val), bearableAny env ts v = true → ∃ t ∈ ts, Conforms env t v := fun ts v h => by
  cases ts with
  | nil => unfold bearableAny at h; cases h
  | cons t ts =>
    unfold bearableAny at h
    rw [Bool.or_eq_true] at h
    rcases h with h | h
    · exact ⟨t, by simp, bearable_conforms t v h⟩
    · obtain ⟨s, hs, hc⟩ := bearableAny_conforms ts v h
      exact ⟨s, List.mem_cons_of_mem _ hs, hc⟩
end

/-! ## The constructor -/

theorem argsBearable_lookup {env : Env} {cd : ClassDef} {bound : List (String × Val)} {f w} (hn : (cd.fields.map (·.name)).Nodup) (hf : f ∈ cd.fields)
    (h : argsBearable env cd bound = true) (hl : bound.lookup f.name = some w) : bearable env f.ty w = true := by
  induction bound with
  | nil => cases hl
  | cons p bound ih =>
    obtain ⟨k, v⟩ := p
    unfold argsBearable at h
    rw [Bool.and_eq_true] at h
    rw [List.lookup_cons] at hl
    split at hl
    · rename_i he
      cases hl
      have he := eq_of_beq he
      have hfind : cd.fields.find? (fun g => g.name == k) = some f := by
        cases hq : cd.fields.find? (fun g => g.name == k) with
        | none => rw [List.find?_eq_none] at hq; exact absurd (hq f hf) (by simp [he])
        | some g =>
          have h1 := List.find?_some hq
          have h2 := List.mem_of_find?_eq_some hq
          rw [inj_of_nodup_map hn h2 hf (by rw [he]; simpa using h1)]
      rw [hfind] at h
      exact h.1
    · exact ih h.2 hl

theorem initAttrs_origin {bound : List (String × Val)} {fs : List FieldDef} {attrs} (hn : (fs.map (·.name)).Nodup) (h : initAttrs bound fs = .ok attrs)
    {f w} (hf : f ∈ fs) (hl : attrs.lookup f.name = some w) :
    (f.init = true ∧ bound.lookup f.name = some w) ∨ (f.dflt = some w ∧ (f.init = true → bound.lookup f.name = none)) := by
  induction fs generalizing attrs with
  | nil => cases hf
  | cons g fs ih =>
    rw [List.map_cons, List.nodup_cons] at hn
    unfold initAttrs at h
    dsimp only at h
    have key : ∀ {as : List (String × Val)}, initAttrs bound fs = .ok as → ∀ k, k ∉ fs.map (·.name) → as.lookup k = none := by
      intro as has k hk
      clear h ih hf hl
      induction fs generalizing as with
      | nil => cases has; rfl
      | cons g' fs ih =>
        unfold initAttrs at has
        dsimp only at has
        rw [List.map_cons, List.mem_cons, not_or] at hk
        rw [List.map_cons, List.mem_cons, not_or, List.nodup_cons] at hn
        split at has
        · rename_i v r _ hr
          cases has
          rw [List.lookup_cons]
          have : (k == g'.name) = false := by simpa using hk.1
          rw [this]
          exact ih ⟨hn.1.2, hn.2.2⟩ hr hk.2
        · rename_i r _ hr; cases has; exact ih ⟨hn.1.2, hn.2.2⟩ hr hk.2
        · cases has
        · cases has
    split at h
    · rename_i v r hv hr
      cases h
      rw [List.lookup_cons] at hl
      rcases List.mem_cons.1 hf with rfl | hf'
      · rw [beq_self_eq_true] at hl
        cases hl
        split at hv
        · rename_i hi
          split at hv
          · rename_i v' hb; cases hv; exact .inl ⟨hi, hb⟩
          · rename_i hb
            split at hv
            · rename_i d hd; cases hv; exact .inr ⟨hd, fun _ => hb⟩
            · cases hv
        · rename_i hi; exact .inr ⟨Except.ok.inj hv, fun h => absurd h hi⟩
      · have : (f.name == g.name) = false := by
          rw [beq_eq_false_iff_ne]
          intro he
          exact hn.1 (he ▸ List.mem_map_of_mem hf')
        rw [this] at hl
        exact ih hn.2 hr hf' hl
    · rename_i r hv hr
      cases h
      rcases List.mem_cons.1 hf with rfl | hf'
      · rw [key hr _ hn.1] at hl; cases hl
      · exact ih hn.2 hr hf' hl
    · cases h
    · cases h

/-- In strict mode every attribute of a constructed object has been checked or is the declared default. -/
theorem construct_checked {env : Env} {c} {cd : ClassDef} {pos kw attrs} (hs : cd.typeCheck = .strict) (hp : cd.postInit = none)
    (hn : (cd.fields.map (·.name)).Nodup) (h : construct env c cd pos kw = .ok (.inst c attrs)) {f w} (hf : f ∈ cd.fields)
    (hl : attrs.lookup f.name = some w) : bearable env f.ty w = true ∨ f.dflt = some w := by
  unfold construct at h
  dsimp only at h
  rw [hs, hp] at h
  split at h
  · cases h
  · rename_i hb
    split at h
    · cases h
    · split at h
      · cases h
      · rename_i as has
        cases h
        have hb : argsBearable env cd ((cd.posParams.map (·.name)).zip pos ++ kw) = true := by
          revert hb; simp
        rcases initAttrs_origin hn has hf hl with ⟨_, h⟩ | ⟨h, _⟩
        · exact .inl (argsBearable_lookup hn hf hb h)
        · exact .inr h

/-- With a `__post_init__`: what it was given has been checked. -/
theorem construct_checked_post {env : Env} {c} {cd : ClassDef} {pos kw v} (hs : cd.typeCheck = .strict)
    (hn : (cd.fields.map (·.name)).Nodup) (h : construct env c cd pos kw = .ok v) :
    ∃ as attrs, v = .inst c attrs ∧ (∀ f ∈ cd.fields, ∀ w, as.lookup f.name = some w → bearable env f.ty w = true ∨ f.dflt = some w) ∧
      (cd.postInit = none → attrs = as) ∧ ∀ p, cd.postInit = some p → p as = .ok attrs := by
  unfold construct at h
  dsimp only at h
  rw [hs] at h
  split at h
  · cases h
  · rename_i hb
    split at h
    · cases h
    · split at h
      · cases h
      · rename_i as has
        have hb : argsBearable env cd ((cd.posParams.map (·.name)).zip pos ++ kw) = true := by
          revert hb; simp
        have key : ∀ f ∈ cd.fields, ∀ w, as.lookup f.name = some w → bearable env f.ty w = true ∨ f.dflt = some w := by
          intro f hf w hl
          rcases initAttrs_origin hn has hf hl with ⟨_, h⟩ | ⟨h, _⟩
          · exact .inl (argsBearable_lookup hn hf hb h)
          · exact .inr h
        split at h
        · rename_i hp
          cases h
          exact ⟨as, as, rfl, key, fun _ => rfl, fun p h => by rw [hp] at h; cases h⟩
        · rename_i p hp
          split at h
          · rename_i attrs hpa
            cases h
            exact ⟨as, attrs, rfl, key, fun h => by (rw [hp] at h; cases h), fun q h => by (rw [hp] at h; cases h; exact hpa)⟩
          · cases h

end Verif
