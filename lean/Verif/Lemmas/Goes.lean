import Verif.Lemmas.WriteTo
import Verif.Lemmas.Follow
/-!
# From the form of a value to the forms inside it
-/

namespace Verif
open Spec Props

theorem no_chosenSe {t s} (h : Chosen [] t s) : False := by
  obtain ⟨pre, post, h, -⟩ := h
  simp at h

theorem no_firstSe {t s} (h : FirstFor [] t s) : False := by
  obtain ⟨pre, post, h, -⟩ := h
  simp at h

theorem out_str {env : Env} {m s w} (hd : m.sers = []) (h : OutTo env m (.prim .str) (.str s) w) : w = .str s := by
  cases h with
  | chosen h => rw [hd] at h; exact (no_chosenSe h).elim
  | leaf _ h =>
    cases h with
    | coerced _ _ h => cases h .str; rfl
    | same => rfl

theorem outFields_keys {env : Env} {m cd attrs} : ∀ {fs es}, OutFields env m cd attrs fs es → ∀ e ∈ es, ∃ f ∈ fs, e.1 = .str (f.conv cd.seCase) := by
  intro fs
  induction fs with
  | nil => intro es h e he; cases h; cases he
  | cons f fs ih =>
    intro es h e he
    cases h with
    | out _ _ h => obtain ⟨g, hg, h1⟩ := ih h e he; exact ⟨g, by simp [hg], h1⟩
    | entry _ _ h =>
      rcases List.mem_cons.1 he with rfl | he
      · exact ⟨f, by simp, rfl⟩
      · obtain ⟨g, hg, h1⟩ := ih h e he; exact ⟨g, by simp [hg], h1⟩

/-- The entry under the wire name of a field is the form of the field, and the field is not one to be left out. -/
theorem outFields_entry {env : Env} {m cd attrs f b} : ∀ {fs es}, OutFields env m cd attrs fs es → (fs.map (fun f => f.conv cd.seCase)).Nodup → f ∈ fs →
    (.str (f.conv cd.seCase), b) ∈ es → OutField env m f (attrs.lookup f.name) b ∧ ¬ LeftOut env m.skipNone cd f b := by
  intro fs
  induction fs with
  | nil => intro es _ _ hf; cases hf
  | cons g fs ih =>
    intro es h hn hf hb
    rw [List.map_cons, List.nodup_cons] at hn
    have hlate : ∀ {es}, OutFields env m cd attrs fs es → (Val.str (f.conv cd.seCase), b) ∈ es → f ∈ fs := by
      intro es' h' hb'
      rcases List.mem_cons.1 hf with rfl | hf
      · obtain ⟨g, hg, h1⟩ := outFields_keys h' _ hb'
        exact absurd (Val.str.inj h1 ▸ List.mem_map_of_mem hg) hn.1
      · exact hf
    cases h with
    | out _ _ h => exact ih h hn.2 (hlate h hb) hb
    | entry h1 h2 h =>
      rcases List.mem_cons.1 hb with hb | hb
      · have hk := Val.str.inj (congrArg Prod.fst hb)
        rcases List.mem_cons.1 hf with rfl | hf
        · cases hb; exact ⟨h1, h2⟩
        · exact absurd (hk ▸ List.mem_map_of_mem (f := fun f : FieldDef => f.conv cd.seCase) hf) hn.1
      · exact ih h hn.2 (hlate h hb) hb

/-- Every field is left out or has its entry. -/
theorem outFields_each {env : Env} {m cd attrs f} : ∀ {fs es}, OutFields env m cd attrs fs es → f ∈ fs →
    ∃ b, OutField env m f (attrs.lookup f.name) b ∧ (LeftOut env m.skipNone cd f b ∨ (.str (f.conv cd.seCase), b) ∈ es) := by
  intro fs
  induction fs with
  | nil => intro es _ hf; cases hf
  | cons g fs ih =>
    intro es h hf
    cases h with
    | out h1 h2 h =>
      rcases List.mem_cons.1 hf with rfl | hf
      · exact ⟨_, h1, .inl h2⟩
      · exact ih h hf
    | entry h1 h2 h =>
      rcases List.mem_cons.1 hf with rfl | hf
      · exact ⟨_, h1, .inr (by simp)⟩
      · obtain ⟨b, h3, h4⟩ := ih h hf
        exact ⟨b, h3, h4.imp id (fun h => by simp [h])⟩

theorem inside_within {env : Env} {g : OutGiven} {cd : ClassDef} (hg : env.gser = []) (hc : cd.classSer = none) :
    g.inside env cd = .within g.named (g.reuse.getD cd.reuseDflt) (g.conv.getD cd.convDflt) g.skipNone cd := by
  unfold OutGiven.inside OutMode.within
  rw [hg, hc]
  rfl

theorem plain_within {nm re cv sn cd} : (OutMode.within nm re cv sn cd).plain = .within nm re cv sn cd := rfl

theorem field_within {env : Env} {nm re cv sn cd f a b} (h : OutField env (.within nm re cv sn cd) f (some a) b) (hf : ∀ g, f.serializer ≠ some (.fn g)) :
    OutTo env (.within nm re cv sn cd) f.ty a b := by
  cases h with
  | fn h => exact absurd h (hf _)
  | marker _ h => exact h
  | field _ h => exact h

theorem obj_direct {env : Env} {g : OutGiven} {c cd attrs es} (hn : g.named = true) (hD : DirectSe env c cd) (h : OutObj env g (.inst c attrs) (.dict .plain es)) :
    OutFields env (g.inside env cd) cd attrs (cd.fields.filter serializable) es := by
  cases h with
  | dict hc _ _ _ h => have := hD.cls.symm.trans hc; cases this; exact h
  | through hc ht => have := hD.cls.symm.trans hc; cases this; rw [hD.simple.dict] at ht; cases ht
  | spliced hc _ hs => have := hD.cls.symm.trans hc; cases this; exact absurd hD.simple hs
  | other hc h => have := hD.cls.symm.trans hc; cases this; exact absurd ⟨hD.simple, hD.skips⟩ (h hD.simple.dict hn)

theorem goes_out {env : Env} (hg : env.gser = []) {nm re cv sn} {cd' : ClassDef} {t' v' w'} {cd : ClassDef} {t v w} (hl : Goes env nm cd' t' v' w' cd t v w) :
    OutTo env (.within nm re cv sn cd) t v w → OutTo env (.within nm re cv sn cd') t' v' w' := by
  induction hl with
  | here => exact id
  | list hx ha hb _ ih =>
    intro h
    cases h with
    | chosen h => exact (no_chosenSe h).elim
    | leaf _ h => cases h
    | list _ hi hl hr => rw [hx] at hi; cases hi; exact ih (hr _ _ _ ha hb)
  | deque hx ha hb _ ih =>
    intro h
    cases h with
    | chosen h => exact (no_chosenSe h).elim
    | leaf _ h => cases h
    | deque _ hi hl hr => rw [hx] at hi; cases hi; exact ih (hr _ _ _ ha hb)
  | tupleV hx ha hb _ ih =>
    intro h
    cases h with
    | chosen h => exact (no_chosenSe h).elim
    | leaf _ h => cases h
    | tupleV _ hi hl hr => rw [hx] at hi; cases hi; exact ih (hr _ _ _ ha hb)
  | tuple ht ha hb _ ih =>
    intro h
    cases h with
    | chosen h => exact (no_chosenSe h).elim
    | leaf _ h => cases h
    | tuple _ _ hr => exact ih (hr _ _ _ _ ht ha hb)
  | set hx ha hb _ ih =>
    intro h
    generalize hw : Val.list _ = w at h
    cases h with
    | chosen h => exact (no_chosenSe h).elim
    | leaf _ h => cases h
    | setList _ _ hi hl hr => cases hw; rw [hx] at hi; cases hi; exact ih (hr _ _ _ ha hb)
    | set _ _ _ _ _ h => subst hw; cases h
  | @value cd k vt dk kvs es s a b ks hk hn ha hb _ ih =>
    intro h
    cases h with
    | chosen h => exact (no_chosenSe h).elim
    | leaf _ h => cases h
    | @dict _ _ _ _ _ kvs' es' _ _ hi hl hkr hvr hm =>
      cases hi
      have hkk : ∀ (i : Nat) x y, kvs[i]? = some x → es'[i]? = some y → x.1 = y.1 := fun i x y hx hy => by
        obtain ⟨s, hs⟩ := str_at hk hx
        have := hkr i x y hx hy
        rw [hs] at this ⊢
        exact (out_str rfl this).symm
      have := values_apart hk hn hl hkk hm
      subst this
      obtain ⟨i, h1, h2⟩ := getStr_pair hl hkk ha hb
      exact ih (hvr i _ _ h1 h2)
  | opt ht hx _ ih =>
    intro h
    generalize hm : OutMode.within nm re cv sn _ = m at h
    generalize hty : Ty.union _ = ty at h
    cases h with
    | chosen h => subst hm; exact (no_chosenSe h).elim
    | leaf _ h => subst hm; subst hty; cases h
    | optNone => exact absurd rfl hx
    | opt _ _ h => cases hty; subst hm; exact ih h
    | union _ ho => rw [← hty, opt_isOpt ht] at ho; cases ho
    | _ => cases hty
  | alias _ ih =>
    intro h
    cases h with
    | chosen h => exact (no_chosenSe h).elim
    | leaf _ h => cases h
    | alias _ h => exact ih h
  | gen _ ih =>
    intro h
    cases h with
    | chosen h => exact (no_chosenSe h).elim
    | leaf _ h => cases h
    | gen _ h => exact ih h
  | @member cd ts d attrs r w hn ho hN hk hw _ ih =>
    intro h
    generalize hm : OutMode.within nm re cv sn _ = m at h
    generalize hty : Ty.union _ = ty at h
    cases h with
    | chosen h => subst hm; exact (no_chosenSe h).elim
    | leaf _ h => subst hm; subst hty; cases h
    | opt => cases hty; exact absurd rfl (ho _)
    | @union _ pre t post _ r' _ _ _ hi _ h ht =>
      cases hty
      subst hm
      have hi := hi (hN t (by simp)) (by intro c as e; cases e; exact hk)
      have hc : ∃ c, t = .cls c := by
        cases hi with
        | _ => exact ⟨_, rfl⟩
      obtain ⟨c, rfl⟩ := hc
      have hr : r' = r := by
        have hwt : Unmarks cd.tagging r w := hw
        have htt : TaggedAs env cd.tagging (.cls c) r' w := ht
        generalize cd.tagging = tg at hwt htt
        cases htt with
        | plain hp => exact absurd rfl (hp _)
        | untagged => cases hwt; rfl
        | external => cases hwt; rfl
        | internal => cases hwt
        | adjacent => cases hwt; rfl
        | clash => cases hwt
      subst hr
      refine ih ?_
      cases h with
      | chosen h => have h : Chosen env.gser _ _ := h; rw [hg] at h; exact (no_chosenSe h).elim
      | leaf _ h => cases h
      | cls _ h =>
        refine .cls (by intro s hs; cases hs) ?_
        rw [hn]
        exact h
    | _ => cases hty
  | field hn hD hf hs ha hb _ ih =>
    intro h
    cases h with
    | chosen h => exact (no_chosenSe h).elim
    | leaf _ h => cases h
    | cls _ h =>
      have := (outFields_entry (obj_direct hn hD h) hD.simple.entries.wires hf hb).1
      rw [inside_within hg hD.noSer, ha] at this
      exact ih (field_within this hs)
  | row hn hD hf hs ha hb _ ih =>
    intro h
    cases h with
    | chosen h => exact (no_chosenSe h).elim
    | leaf _ h => cases h
    | cls _ h =>
      cases h with
      | tuple hc _ _ _ h =>
        have := hD.cls.symm.trans hc; cases this
        have := h _ _ _ hf hb
        rw [inside_within hg hD.noSer, ha] at this
        exact ih (field_within this hs)
      | through hc ht => have := hD.cls.symm.trans hc; cases this; rw [hD.simple.dict] at ht; cases ht
      | spliced hc _ hs => have := hD.cls.symm.trans hc; cases this; exact absurd hD.simple hs
      | row hc _ hs => have := hD.cls.symm.trans hc; cases this; exact absurd hD.simple hs
      | other hc _ h => have := hD.cls.symm.trans hc; cases this; exact absurd hD.simple (h hD.simple.dict hn)
  | through hc hcs htr hfs hfl hs ha _ ih =>
    intro h
    cases h with
    | chosen h => exact (no_chosenSe h).elim
    | leaf _ h => cases h
    | cls _ h =>
      generalize hv : Val.inst _ _ = v at h
      cases h with
      | dict hc' _ hs => cases hv; have := hc.symm.trans hc'; cases this; rw [hs.dict] at htr; cases htr
      | tuple hc' _ hs => cases hv; have := hc.symm.trans hc'; cases this; rw [hs.dict] at htr; cases htr
      | through hc' _ hfs' _ h =>
        cases hv
        have := hc.symm.trans hc'; cases this
        rw [hfs] at hfs'; cases hfs'
        rw [inside_within hg hcs, ha] at h
        exact ih (field_within h hs)
      | spliced hc' _ _ ht => cases hv; have := hc.symm.trans hc'; cases this; rw [ht] at htr; cases htr
      | row hc' _ _ ht => cases hv; have := hc.symm.trans hc'; cases this; rw [ht] at htr; cases htr
      | other hc' _ _ _ h =>
        cases hv
        have := hc.symm.trans hc'; cases this
        rw [h htr _ _ hfs] at hfl; cases hfl

/-- An object is written the same way under any annotation, options that are not given being those of its class. -/
theorem obj_given {env : Env} {g : OutGiven} {c cd attrs w} (hc : env.cls c = some cd) (h : OutObj env g (.inst c attrs) w) :
    OutObj env ⟨g.named, some (g.reuse.getD cd.reuseDflt), some (g.conv.getD cd.convDflt), g.skipNone⟩ (.inst c attrs) w := by
  have hi : (⟨g.named, some (g.reuse.getD cd.reuseDflt), some (g.conv.getD cd.convDflt), g.skipNone⟩ : OutGiven).inside env cd = g.inside env cd := rfl
  cases h with
  | dict hc' hn hs hp h => have := hc.symm.trans hc'; cases this; exact .dict hc hn hs hp (by rw [hi]; exact h)
  | tuple hc' hn hs hl h => have := hc.symm.trans hc'; cases this; exact .tuple hc hn hs hl (by rw [hi]; exact h)
  | through hc' ht hfs hfl h => have := hc.symm.trans hc'; cases this; exact .through hc ht hfs hfl (by rw [hi]; exact h)
  | spliced hc' hn hs ht hS hp h hm => have := hc.symm.trans hc'; cases this; exact .spliced hc hn hs ht (by rw [hi]; exact hS) hp (by rw [hi]; exact h) hm
  | row hc' hn hs ht hS h => have := hc.symm.trans hc'; cases this; exact .row hc hn hs ht (by rw [hi]; exact hS) (by rw [hi]; exact h)
  | other hc' h1 h2 h3 h4 => have := hc.symm.trans hc'; cases this; exact .other hc h1 h2 (by rw [hi]; exact h3) h4

theorem topGoes_out {env : Env} (hg : env.gser = []) {nm re cv sn} {top cd' : ClassDef} {t' v' w' v w} (hl : TopGoes env nm top cd' t' v' w' v w) :
    OutAny env ⟨nm, re, cv, sn⟩ v w → OutTo env (.within nm (re.getD top.reuseDflt) (cv.getD top.convDflt) sn cd') t' v' w' := by
  have hch : ∀ {t s}, FirstFor env.gser t s → False := fun h => no_firstSe (hg ▸ h)
  induction hl with
  | @obj c attrs w hc hl =>
    intro h
    refine goes_out hg hl (.cls (by intro s hs; cases hs) ?_)
    cases h with
    | chosen _ _ h => exact (hch h).elim
    | obj _ h => exact obj_given hc h
    | scalar _ h => cases h
  | list ha hb _ ih =>
    intro h
    cases h with
    | chosen _ _ h => exact (hch h).elim
    | list _ _ h => exact ih (h _ _ _ ha hb)
    | scalar _ h => cases h
  | tuple ha hb _ ih =>
    intro h
    cases h with
    | chosen _ _ h => exact (hch h).elim
    | tuple _ _ h => exact ih (h _ _ _ ha hb)
    | scalar _ h => cases h
  | value ha hb _ ih =>
    intro h
    cases h with
    | chosen _ _ h => exact (hch h).elim
    | dict _ _ h => exact ih (h _ _ _ ha hb)
    | scalar _ h => cases h

end Verif
