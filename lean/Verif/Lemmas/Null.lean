import Verif.Lemmas.Truth
import Verif.Spec.Null
import Verif.Lemmas.Goes
/-!
# Output without None
-/

namespace Verif
open Spec Props

theorem nullFree_iter {v xs} (h : NullFree v) (hi : pyIter v = .ok xs) : ∀ x ∈ xs, NullFree x := by
  cases h <;> (try (cases hi; done)) <;> cases hi <;> try assumption
  · intro x hx
    unfold strElems at hx
    obtain ⟨_, _, rfl⟩ := List.mem_map.1 hx
    exact .str
  · rename_i h _
    intro x hx
    obtain ⟨e, he, rfl⟩ := List.mem_map.1 hx
    exact h e he

theorem nullFree_scalar {v} (h : Scalar v) (hn : v ≠ .none) : NullFree v := by
  cases h with
  | none => exact absurd rfl hn
  | bool => exact .bool
  | int => exact .int
  | float => exact .float
  | str => exact .str

theorem converts_nullFree {env : Env} {p v w} (h : Converts env p v w) : NullFree w := by
  cases h <;> first | exact .bool | exact .int | exact .float | exact .str

theorem enumOut_nullFree {env : Env} (hE : EnumsSolid env) {e v w} (h : EnumOut env e v w) : NullFree w := by
  have hl : ∀ {l : List (String × Val)} {m w}, l.lookup m = some w → (m, w) ∈ l := by
    intro l m w h
    induction l with
    | nil => cases h
    | cons a l ih =>
      rw [List.lookup_cons] at h
      split at h
      · rename_i hb
        cases h
        rw [beq_iff_eq] at hb
        subst hb; simp
      · exact List.mem_cons_of_mem _ (ih h)
  induction h with
  | value he hm _ => exact hE _ _ _ _ he (hl hm)
  | again _ _ _ ih => exact ih
  | called _ he _ _ hm => exact hE _ _ _ _ he (hl hm)

theorem tagged_nullFree {env : Env} {tg t r w} (h : TaggedAs env tg t r w) (hr : NullFree r) : NullFree w := by
  cases h with
  | plain => exact hr
  | untagged => exact hr
  | external => exact .dict (by simp [NullFree.str]) (by simp [hr])
  | internal =>
    cases hr with
    | dict h1 h2 =>
      refine .dict (fun e he => ?_) (fun e he => ?_)
      · rcases (dictSet_parts he).1 with h | h
        · rw [h]; exact .str
        · obtain ⟨e', he', h⟩ := List.mem_map.1 h; rw [← h]; exact h1 _ he'
      · rcases (dictSet_parts he).2 with h | h
        · rw [h]; exact .str
        · obtain ⟨e', he', h⟩ := List.mem_map.1 h; rw [← h]; exact h2 _ he'
  | adjacent => exact .dict (by simp [NullFree.str]) (by simp [hr, NullFree.str])
  | clash => exact .dict (by simp [NullFree.str]) (by simp [NullFree.str])

theorem pairs_all {α β : Type} {xs : List α} {ys : List β} {R : α → β → Prop} {P : β → Prop} (hl : xs.length = ys.length)
    (hr : ∀ (i : Nat) a b, xs[i]? = some a → ys[i]? = some b → R a b) (h : ∀ a ∈ xs, ∀ b, R a b → P b) : ∀ b ∈ ys, P b := by
  intro b hb
  obtain ⟨i, hi, rfl⟩ := List.getElem_of_mem hb
  have hx : i < xs.length := by omega
  exact h xs[i] (List.getElem_mem hx) _ (hr i _ _ (List.getElem?_eq_getElem hx) (List.getElem?_eq_getElem hi))

theorem mapFrom_nullFree {k es w} (h : MapFrom k es w) (h1 : ∀ e ∈ es, NullFree e.1) (h2 : ∀ e ∈ es, NullFree e.2) : NullFree w := by
  cases h with
  | mk h _ _ _ =>
    refine .dict (fun z hz => ?_) (fun z hz => ?_)
    · obtain ⟨e, he, e', he', rfl, -⟩ := h z hz; exact h1 e he
    · obtain ⟨e, he, e', he', rfl, -⟩ := h z hz; exact h2 e' he'

theorem setFrom_nullFree {b ys w} (h : SetFrom b ys w) (h1 : ∀ y ∈ ys, NullFree y) : NullFree w := by
  cases h with
  | mk h _ _ => exact .set fun z hz => h1 z (h z hz)

theorem drops_leftOut {env : Env} {cd f} (h : DropsNone cd f) : LeftOut env true cd f .none := by
  obtain ⟨h1, h⟩ := h
  cases h2 : f.skipIfFalse with
  | true => exact .ifFalse h1 h2 .none
  | false =>
    cases h3 : skipsDefault cd f with
    | true =>
      rcases h with h | h | h
      · rw [h2] at h; cases h
      · rw [h3] at h; cases h
      · exact .ifDefault h1 h2 h3 h rfl
    | false =>
      cases h4 : skipsNone cd f with
      | true => exact .ifNone h1 h2 h3 h4
      | false =>
        refine .absent ?_ rfl
        rintro (h | h | h | h)
        · rw [h1] at h; cases h
        · rw [h2] at h; cases h
        · rw [h3] at h; cases h
        · rw [h4] at h; cases h

theorem outFields_nullFree {env : Env} {m cd attrs} (hs : m.skipNone = true) : ∀ {fs es}, OutFields env m cd attrs fs es →
    (∀ f ∈ fs, ∀ y, OutField env m f (attrs.lookup f.name) y → NullFree y ∨ y = .none ∧ DropsNone cd f) →
    (∀ e ∈ es, NullFree e.1) ∧ ∀ e ∈ es, NullFree e.2 := by
  intro fs
  induction fs with
  | nil => intro es h _; cases h; exact ⟨by simp, by simp⟩
  | cons f fs ih =>
    intro es h hf
    cases h with
    | out _ _ h => exact ih h fun g hg => hf g (by simp [hg])
    | entry h1 h2 h =>
      obtain ⟨i1, i2⟩ := ih h fun g hg => hf g (by simp [hg])
      rcases hf f (by simp) _ h1 with h3 | ⟨rfl, h3⟩
      · refine ⟨fun e he => ?_, fun e he => ?_⟩
        · rcases List.mem_cons.1 he with rfl | he
          · exact .str
          · exact i1 e he
        · rcases List.mem_cons.1 he with rfl | he
          · exact h3
          · exact i2 e he
      · rw [hs] at h2
        exact absurd (drops_leftOut h3) h2

/-- The mode is that of dict form with `skip_none` and without custom serializers. -/
structure Dropping (m : OutMode) : Prop where
  named : m.named = true
  skip : m.skipNone = true
  sers : m.sers = []

theorem Dropping.member {env : Env} (hg : env.gser = []) {m} (h : Dropping m) : Dropping (m.member env) := ⟨rfl, h.skip, hg⟩
theorem Dropping.plain {m} (h : Dropping m) : Dropping m.plain := ⟨h.named, h.skip, rfl⟩
theorem Dropping.inside {env : Env} (hg : env.gser = []) {cd} {g : OutGiven} (hn : g.named = true) (hs : g.skipNone = true) (hc : cd.classSer = none) :
    Dropping (g.inside env cd) := ⟨hn, hs, by unfold OutGiven.inside; dsimp only; rw [hg, hc]; rfl⟩

/-- What holds of the form of a `Solid` value. -/
def SolidOut (env : Env) (t : Ty) (v : Val) : Prop := ∀ m w, Dropping m → OutTo env m t v w → NullFree w
/-- What holds of the form of a `Lax` value. -/
def LaxOut (env : Env) (t : Ty) (v : Val) : Prop := ∀ m w, Dropping m → OutTo env m t v w → NullFree w ∨ w = .none

theorem field_nullFree {env : Env} {m : OutMode} {cd f} {attrs : List (String × Val)} {y} (hm : Dropping m) (h : OutField env m f (attrs.lookup f.name) y)
    (h0 : attrs.lookup f.name = none → DropsNone cd f)
    (h1 : ∀ g x y, f.serializer = some (.fn g) → attrs.lookup f.name = some x → g x = .ok y → NullFree y)
    (h2 : ∀ x, (∀ g, f.serializer ≠ some (.fn g)) → attrs.lookup f.name = some x → ¬ DropsNone cd f → SolidOut env f.ty x)
    (h3 : ∀ x, (∀ g, f.serializer ≠ some (.fn g)) → attrs.lookup f.name = some x → DropsNone cd f → LaxOut env f.ty x) :
    NullFree y ∨ y = .none ∧ DropsNone cd f := by
  have key : ∀ {m'} {x}, Dropping m' → (∀ g, f.serializer ≠ some (.fn g)) → attrs.lookup f.name = some x → OutTo env m' f.ty x y →
      NullFree y ∨ y = .none ∧ DropsNone cd f := by
    intro m' x hm' hf hx h
    by_cases hd : DropsNone cd f
    · exact (h3 x hf hx hd _ _ hm' h).imp id fun h => ⟨h, hd⟩
    · exact .inl (h2 x hf hx hd _ _ hm' h)
  generalize hx : attrs.lookup f.name = o at h
  cases h with
  | fn hs hy => exact .inl (h1 _ _ _ hs hx hy)
  | marker hs h => exact key hm.plain (by rw [hs]; intro g hg; cases hg) hx h
  | field hs h => exact key hm (by rw [hs]; intro g hg; cases hg) hx h
  | missing => exact .inr ⟨rfl, h0 hx⟩

theorem solid_any {env : Env} (hg : env.gser = []) (hE : EnumsSolid env) {v} (hv : SolidAny env v) {g : OutGiven} {w} (hn : g.named = true)
    (hs : g.skipNone = true) (h : OutAny env g v w) : NullFree w := by
  refine SolidAny.rec (env := env) (motive_1 := fun t v _ => SolidOut env t v) (motive_2 := fun t v _ => LaxOut env t v)
    (motive_3 := fun v _ => ∀ g w, g.named = true → g.skipNone = true → OutObj env g v w → NullFree w)
    (motive_4 := fun v _ => ∀ g w, g.named = true → g.skipNone = true → OutAny env g v w → NullFree w)
    ?_ ?_ ?_ ?_ ?_ ?_ ?_ ?_ ?_ ?_ ?_ ?_ ?_ ?_ ?_ ?_ ?_ ?_ ?_ ?_ ?_ ?_ ?_ ?_ ?_ ?_  ?_ ?_ ?_ ?_ ?_  ?_ ?_  ?_ ?_ ?_ ?_ ?_ ?_ ?_ ?_ ?_ ?_ hv g w hn hs h
  · intro p v h1 h2 m w hm h
    cases h with
    | chosen h => rw [hm.sers] at h; exact (no_chosenSe h).elim
    | leaf _ h => cases h with | coerced _ _ h => exact converts_nullFree (h h1) | same _ => exact h2
  · intro n p v h1 h2 m w hm h
    cases h with
    | chosen h => rw [hm.sers] at h; exact (no_chosenSe h).elim
    | leaf _ h => cases h with | newTypeCoerced _ _ h => exact converts_nullFree (h h1) | newType _ => exact h2
  · intro e v m w hm h
    cases h with
    | chosen h => rw [hm.sers] at h; exact (no_chosenSe h).elim
    | leaf _ h => cases h with | enum h => exact enumOut_nullFree hE h
  · intro k v h1 m w hm h
    cases h with
    | chosen h => rw [hm.sers] at h; exact (no_chosenSe h).elim
    | leaf _ h => cases h with | stdKept _ => exact h1 | stdText _ => exact .str | stdOther _ _ => exact .str
  · intro k v h1 m w hm h
    cases h with
    | chosen h => rw [hm.sers] at h; exact (no_chosenSe h).elim
    | leaf _ h => cases h with | dtKept _ => exact h1 | dtText _ => exact .str
  · intro vs v h1 m w hm h
    cases h with
    | chosen h => rw [hm.sers] at h; exact (no_chosenSe h).elim
    | leaf _ h => cases h with | lit => exact h1
  · intro k v h1 m w hm h
    cases h with
    | chosen h => rw [hm.sers] at h; exact (no_chosenSe h).elim
    | leaf _ h => cases h with | list => exact h1 | listLike _ hi => exact .list (nullFree_iter h1 hi)
  · intro k v h1 m w hm h
    cases h with
    | chosen h => rw [hm.sers] at h; exact (no_chosenSe h).elim
    | leaf _ h => cases h with | set _ => exact h1 | setList _ hi => exact .list (nullFree_iter h1 hi)
  · intro v h1 m w hm h
    cases h with
    | chosen h => rw [hm.sers] at h; exact (no_chosenSe h).elim
    | leaf _ h => cases h with | deque hi => exact .list (nullFree_iter h1 hi)
  · intro v h1 m w hm h
    cases h with
    | chosen h => rw [hm.sers] at h; exact (no_chosenSe h).elim
    | leaf _ h => cases h with | counter => cases h1 with | dict h1 h2 => exact .dict h1 h2
  · intro k v h1 m w hm h
    cases h with
    | chosen h => rw [hm.sers] at h; exact (no_chosenSe h).elim
    | leaf _ h => cases h with | dict => exact h1
  · intro v h1 m w hm h
    cases h with
    | chosen h => rw [hm.sers] at h; exact (no_chosenSe h).elim
    | leaf _ h => cases h with | tuple => exact h1
  · intro k t v _ ih m w hm h
    cases h with
    | chosen h => rw [hm.sers] at h; exact (no_chosenSe h).elim
    | leaf _ h => cases h
    | list _ hi hl hr => exact .list (pairs_all hl hr fun a ha b hb => ih _ hi a ha _ _ hm hb)
  · intro t v _ ih m w hm h
    cases h with
    | chosen h => rw [hm.sers] at h; exact (no_chosenSe h).elim
    | leaf _ h => cases h
    | deque _ hi hl hr => exact .list (pairs_all hl hr fun a ha b hb => ih _ hi a ha _ _ hm hb)
  · intro t v _ ih m w hm h
    cases h with
    | chosen h => rw [hm.sers] at h; exact (no_chosenSe h).elim
    | leaf _ h => cases h
    | tupleV _ hi hl hr => exact .tuple (pairs_all hl hr fun a ha b hb => ih _ hi a ha _ _ hm hb)
  · intro k t v _ ih m w hm h
    cases h with
    | chosen h => rw [hm.sers] at h; exact (no_chosenSe h).elim
    | leaf _ h => cases h
    | setList _ _ hi hl hr => exact .list (pairs_all hl hr fun a ha b hb => ih _ hi a ha _ _ hm hb)
    | set _ _ hi hl hr hs => exact setFrom_nullFree hs (pairs_all hl hr fun a ha b hb => ih _ hi a ha _ _ hm hb)
  · intro ts v h1 _ ih m w hm h
    cases h with
    | chosen h => rw [hm.sers] at h; exact (no_chosenSe h).elim
    | leaf _ h => cases h
    | tuple _ hl hr =>
      refine .tuple fun y hy => ?_
      obtain ⟨i, hi, rfl⟩ := List.getElem_of_mem hy
      have ht := List.getElem?_eq_getElem (l := ts) (i := i) (by omega)
      obtain ⟨a, ha⟩ := h1 i _ ht
      exact ih i _ a ht ha _ _ hm (hr i _ a _ ht ha (List.getElem?_eq_getElem hi))
  · intro t v h1 _ ih m w hm h
    cases h with
    | chosen h => rw [hm.sers] at h; exact (no_chosenSe h).elim
    | leaf _ h => cases h
    | @counter _ _ _ kvs es _ _ hi hk hr hw =>
      refine mapFrom_nullFree hw (pairs_all (by simpa using congrArg List.length hk) hr fun a ha b hb => ih _ hi a ha _ _ hm hb) fun e he => ?_
      have : e.2 ∈ kvs.map (·.2) := hk ▸ List.mem_map_of_mem (f := (·.2)) he
      obtain ⟨e', he', h⟩ := List.mem_map.1 this
      rw [← h]; exact h1 _ hi e' he'
  · intro k kt vt v _ _ ih1 ih2 m w hm h
    cases h with
    | chosen h => rw [hm.sers] at h; exact (no_chosenSe h).elim
    | leaf _ h => cases h
    | dict _ hi hl hr1 hr2 hw =>
      exact mapFrom_nullFree hw (pairs_all hl hr1 fun a ha b hb => ih1 _ hi a ha _ _ hm hb) (pairs_all hl hr2 fun a ha b hb => ih2 _ hi a ha _ _ hm hb)
  · intro t v ht hne _ ih m w hm h
    have ho := isOpt_pair ht
    generalize he : Ty.union [t, .none] = u at h
    cases h with
    | chosen h => rw [hm.sers] at h; exact (no_chosenSe h).elim
    | leaf _ h => subst he; cases h
    | optNone _ => exact absurd rfl hne
    | opt _ _ h => cases he; exact ih _ _ hm h
    | union _ ho' => rw [← he, ho] at ho'; cases ho'
    | _ => cases he
  · intro ts v ho hk _ ih m w hm h
    generalize he : Ty.union ts = u at h
    cases h with
    | chosen h => rw [hm.sers] at h; exact (no_chosenSe h).elim
    | leaf _ h => subst he; cases h
    | optNone _ => cases he; exact absurd rfl (ho _)
    | opt _ _ _ => cases he; exact absurd rfl (ho _)
    | union _ _ hA _ h ht =>
      cases he
      exact tagged_nullFree ht (ih _ (by simp) (fun hn => hA hn hk) _ _ (hm.member hg) h)
    | _ => cases he
  · intro n t v _ ih m w hm h
    cases h with
    | chosen h => rw [hm.sers] at h; exact (no_chosenSe h).elim
    | leaf _ h => cases h
    | alias _ h => exact ih _ _ hm h
  · intro c as v _ ih m w hm h
    cases h with
    | chosen h => rw [hm.sers] at h; exact (no_chosenSe h).elim
    | leaf _ h => cases h
    | gen _ h => exact ih _ _ hm h
  · intro c v _ ih m w hm h
    cases h with
    | chosen h => rw [hm.sers] at h; exact (no_chosenSe h).elim
    | leaf _ h => cases h
    | cls _ h => exact ih _ _ hm.named hm.skip h
  · intro v _ ih m w hm h
    cases h with
    | chosen h => rw [hm.sers] at h; exact (no_chosenSe h).elim
    | leaf _ h => cases h
    | any _ h => exact ih _ _ rfl hm.skip h
  · intro x v _ ih m w hm h
    cases h with
    | chosen h => rw [hm.sers] at h; exact (no_chosenSe h).elim
    | leaf _ h => cases h
    | tvar _ h => exact ih _ _ rfl hm.skip h
  · intro t v _ ih m w hm h
    exact .inl (ih _ _ hm h)
  · intro v m w hm h
    cases h with
    | chosen h => rw [hm.sers] at h; exact (no_chosenSe h).elim
    | leaf _ h => cases h with | none => exact .inr rfl
  · intro t ht m w hm h
    have ho := isOpt_pair ht
    generalize he : Ty.union [t, .none] = u at h
    cases h with
    | chosen h => rw [hm.sers] at h; exact (no_chosenSe h).elim
    | leaf _ h => subst he; cases h
    | optNone _ => exact .inr rfl
    | opt _ hne h => exact absurd rfl hne
    | union _ ho' => rw [← he, ho] at ho'; cases ho'
    | _ => cases he
  · intro ts ho hts m w hm h
    generalize he : Ty.union ts = u at h
    cases h with
    | chosen h => rw [hm.sers] at h; exact (no_chosenSe h).elim
    | leaf _ h => subst he; cases h
    | optNone _ => exact .inr rfl
    | opt _ hne h => exact absurd rfl hne
    | union _ _ hA _ h ht =>
      cases he
      have hN := hts _ (by simp) fun hn => hA hn (by intro c as h; cases h)
      subst hN
      cases h with
      | chosen h => rw [(hm.member hg).sers] at h; exact (no_chosenSe h).elim
      | leaf _ h =>
        cases h with
        | none =>
          generalize m.tagging = tg at ht
          cases ht <;> exact .inr rfl
    | _ => cases he
  · intro n t v _ ih m w hm h
    cases h with
    | chosen h => rw [hm.sers] at h; exact (no_chosenSe h).elim
    | leaf _ h => cases h
    | alias _ h => exact ih _ _ hm h
  · intro c cd attrs hc hcs hS hP h0 h1 _ _ ih1 ih2 g w hn hs h
    cases h with
    | dict hc' _ _ _ h =>
      cases hc.symm.trans hc'
      have hm := Dropping.inside (env := env) hg hn hs hcs
      have := outFields_nullFree hm.skip h fun f hf y hy => field_nullFree hm hy (h0 f hf) (h1 f hf) (ih1 f hf) (ih2 f hf)
      exact .dict this.1 this.2
    | tuple _ hn' => rw [hn] at hn'; cases hn'
    | through hc' ht => cases hc.symm.trans hc'; rw [hS.dict] at ht; cases ht
    | spliced hc' _ hS' => cases hc.symm.trans hc'; exact absurd hS hS'
    | row _ hn' => rw [hn] at hn'; cases hn'
    | other hc' h => cases hc.symm.trans hc'; exact absurd ⟨hS, hP⟩ (h hS.dict hn)
  · intro c cd f rest attrs x hc hcs ht hf hfl hser hx _ ih g w hn hs h
    cases h with
    | dict hc' _ hS => cases hc.symm.trans hc'; rw [hS.dict] at ht; cases ht
    | tuple _ hn' => rw [hn] at hn'; cases hn'
    | through hc' _ hf' _ h =>
      cases hc.symm.trans hc'
      rw [hf] at hf'; cases hf'
      have hm := Dropping.inside (env := env) hg hn hs hcs
      rw [hx] at h
      cases h with
      | fn h => exact absurd h (hser _)
      | marker _ h => exact ih _ _ hm.plain h
      | field _ h => exact ih _ _ hm h
    | spliced hc' _ _ ht' => cases hc.symm.trans hc'; rw [ht'] at ht; cases ht
    | row _ hn' => rw [hn] at hn'; cases hn'
    | other hc' _ _ _ h => cases hc.symm.trans hc'; have := h ht _ _ hf; rw [hfl] at this; cases this
  · intro c attrs _ ih g w hn hs h
    cases h with
    | chosen _ _ h => rw [hg] at h; exact (no_firstSe h).elim
    | obj _ h => exact ih _ _ hn hs h
    | scalar _ h => cases h
  · intro xs _ ih g w hn hs h
    cases h with
    | chosen _ _ h => rw [hg] at h; exact (no_firstSe h).elim
    | list _ hl hr => exact .list (pairs_all hl hr fun a ha b hb => ih a ha _ _ hn hs hb)
    | scalar _ h => cases h
  · intro xs _ ih g w hn hs h
    cases h with
    | chosen _ _ h => rw [hg] at h; exact (no_firstSe h).elim
    | tuple _ hl hr => exact .tuple (pairs_all hl hr fun a ha b hb => ih a ha _ _ hn hs hb)
    | scalar _ h => cases h
  · intro b xs _ ih g w hn hs h
    cases h with
    | chosen _ _ h => rw [hg] at h; exact (no_firstSe h).elim
    | set _ hl hr => exact .list (pairs_all hl hr fun a ha b hb => ih a ha _ _ hn hs hb)
    | scalar _ h => cases h
  · intro xs _ ih g w hn hs h
    cases h with
    | chosen _ _ h => rw [hg] at h; exact (no_firstSe h).elim
    | deque _ hl hr => exact .list (pairs_all hl hr fun a ha b hb => ih a ha _ _ hn hs hb)
    | scalar _ h => cases h
  · intro k kvs h1 _ ih g w hn hs h
    cases h with
    | chosen _ _ h => rw [hg] at h; exact (no_firstSe h).elim
    | @dict _ _ _ es _ hk hr =>
      refine .dict (fun e he => ?_) (pairs_all (by simpa using congrArg List.length hk) hr fun a ha b hb => ih a ha _ _ hn hs hb)
      have : e.1 ∈ kvs.map (·.1) := hk ▸ List.mem_map_of_mem (f := (·.1)) he
      obtain ⟨e', he', h⟩ := List.mem_map.1 this
      rw [← h]; exact h1 e' he'
    | scalar _ h => cases h
  · intro e m g w hn hs h
    cases h with
    | chosen _ _ h => rw [hg] at h; exact (no_firstSe h).elim
    | enum _ => exact .enum
    | scalar _ h => cases h
  · intro k s g w hn hs h
    cases h with
    | chosen _ _ h => rw [hg] at h; exact (no_firstSe h).elim
    | stdKept _ _ => exact .std
    | stdText _ _ => exact .str
    | scalar _ h => cases h
  · intro k s g w hn hs h
    cases h with
    | chosen _ _ h => rw [hg] at h; exact (no_firstSe h).elim
    | dtKept _ _ => exact .dt
    | dtText _ _ => exact .str
    | scalar _ h => cases h
  · intro v hv hne g w hn hs h
    have key : w = v := by
      cases hv with
      | none => exact absurd rfl hne
      | bool => cases h with | chosen _ _ h => rw [hg] at h; exact (no_firstSe h).elim | scalar => rfl
      | int => cases h with | chosen _ _ h => rw [hg] at h; exact (no_firstSe h).elim | scalar => rfl
      | float => cases h with | chosen _ _ h => rw [hg] at h; exact (no_firstSe h).elim | scalar => rfl
      | str => cases h with | chosen _ _ h => rw [hg] at h; exact (no_firstSe h).elim | scalar => rfl
    rw [key]; exact nullFree_scalar hv hne

end Verif
