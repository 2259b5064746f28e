import Verif.Spec.FuncName
import Verif.Lemmas.Memo
/-!
# Function names determine their unions and literals
-/

namespace Verif
open Spec

/-- A character of a function name. -/
def sanChar (c : Char) : Char := if c.isAlphanum then c else '_'

/-- The characters of a text as they appear in a function name. -/
def san (s : String) : List Char := s.toList.map sanChar

theorem san_append (a b : String) : san (a ++ b) = san a ++ san b := by simp [san]

theorem san_plain {s : String} (h : ∀ ch ∈ s.toList, ch.isAlphanum = true) : san s = s.toList := by
  unfold san
  have : ∀ l : List Char, (∀ ch ∈ l, ch.isAlphanum = true) → l.map sanChar = l := by
    intro l hl
    induction l with
    | nil => rfl
    | cons a l ih => simp [sanChar, hl a (by simp), ih fun ch h => hl ch (by simp [h])]
  exact this _ h

theorem sanitize_inj {a b : String} (h : sanitize a = sanitize b) : san a = san b := String.ofList_injective h

/-- `sep.intercalate l` on character lists. -/
def joined (sep : List Char) : List (List Char) → List Char
  | [] => []
  | [a] => a
  | a :: b :: r => a ++ sep ++ joined sep (b :: r)

theorem intercalate_joined (sep : List Char) : ∀ l, sep.intercalate l = joined sep l
  | [] => rfl
  | [a] => by simp [joined, List.intercalate]
  | a :: b :: r => by
    have := intercalate_joined sep (b :: r)
    simp only [List.intercalate, List.intersperse, joined] at this ⊢
    simp [this]

theorem san_intercalate (sep : String) (l : List String) : san (sep.intercalate l) = joined (san sep) (l.map san) := by
  unfold san
  rw [String.toList_intercalate, intercalate_joined]
  induction l with
  | nil => rfl
  | cons a l ih =>
    cases l with
    | nil => rfl
    | cons b r =>
      simp only [List.map_cons, joined, List.map_append] at ih ⊢
      rw [ih]

/-- Nothing, or something that begins with an underscore. -/
def Stops (r : List Char) : Prop := r = [] ∨ ∃ x, r = '_' :: x

theorem token {a b r r' : List Char} (ha : ∀ c ∈ a, c.isAlphanum = true) (hb : ∀ c ∈ b, c.isAlphanum = true) (hr : Stops r) (hr' : Stops r')
    (h : a ++ r = b ++ r') : a = b ∧ r = r' := by
  induction a generalizing b with
  | nil =>
    cases b with
    | nil => exact ⟨rfl, h⟩
    | cons y b =>
      have hy := hb y (by simp)
      rcases hr with rfl | ⟨x, rfl⟩
      · cases h
      · rw [List.nil_append, List.cons_append] at h
        rw [← (List.cons.inj h).1] at hy
        cases hy
  | cons x a ih =>
    have hx := ha x (by simp)
    cases b with
    | nil =>
      rcases hr' with rfl | ⟨y, rfl⟩
      · cases h
      · rw [List.nil_append, List.cons_append] at h
        rw [(List.cons.inj h).1] at hx
        cases hx
    | cons y b =>
      rw [List.cons_append, List.cons_append] at h
      obtain ⟨e, h⟩ := List.cons.inj h
      obtain ⟨e', h⟩ := ih (fun c hc => ha c (by simp [hc])) (fun c hc => hb c (by simp [hc])) h
      exact ⟨by rw [e, e'], h⟩

theorem joined_reverse (sep : List Char) : ∀ l, (joined sep l).reverse = joined sep.reverse (l.map List.reverse).reverse := by
  have snoc : ∀ (sep a : List Char) (l : List (List Char)), l ≠ [] → joined sep (l ++ [a]) = joined sep l ++ sep ++ a := by
    intro sep a l hl
    induction l with
    | nil => exact absurd rfl hl
    | cons b l ih =>
      cases l with
      | nil => simp [joined]
      | cons c r => 
        have := ih (by simp)
        simp only [List.cons_append, joined] at this ⊢
        rw [this]; simp
  intro l
  induction l with
  | nil => rfl
  | cons a l ih =>
    cases l with
    | nil => simp [joined]
    | cons b r =>
      have hne : ((b :: r).map List.reverse).reverse ≠ [] := by simp
      rw [List.map_cons, List.reverse_cons, snoc _ _ _ hne, ← ih]
      simp [joined]

/-- The name of an annotation read backwards. -/
def back (env : Env) (t : Ty) : List Char := (san (typename env t)).reverse

theorem typenames_map {env : Env} : ∀ ts, typenames env ts = ts.map (typename env)
  | [] => rfl
  | t :: ts => by rw [typenames, typenames_map ts]; rfl

theorem typenamesU_map {env : Env} : ∀ ts : List Ty, (∀ t ∈ ts, t.isNone = false) → typenamesU env ts = ts.map (typename env)
  | [], _ => rfl
  | [a], _ => rfl
  | a :: b :: r, h => by
    have hb := h b (by simp)
    have ih := typenamesU_map (env := env) r fun t ht => h t (by simp [ht])
    cases b <;> first | (simp only [typenamesU, ih, List.map_cons]; done) | cases hb

theorem leaf_typename {env : Env} {t s} (h : leafName env t = some s) : typename env t = s := by
  unfold leafName at h
  split at h <;> cases h <;> rfl

theorem node_typename {env : Env} {t h cs} (hp : headParts t = some (h, cs)) :
    san (typename env t) = san h ++ '_' :: (joined ['_', '_'] (cs.map fun c => san (typename env c)) ++ ['_']) := by
  have close : san "]" = ['_'] := by decide
  have comma : san ", " = ['_', '_'] := by decide
  unfold headParts at hp
  split at hp
  · cases hp
    rw [typename, san_append, san_append, close, show san "list[" = san "list" ++ ['_'] by decide]
    simp [joined]
  · cases hp
    rw [typename, san_append, san_append, close, show san "set[" = san "set" ++ ['_'] by decide]
    simp [joined]
  · cases hp
    rw [typename, san_append, san_append, close, show san "deque[" = san "deque" ++ ['_'] by decide]
    simp [joined]
  · cases hp
    rw [typename, san_append, san_append, san_append, san_append, close, comma, show san "dict[" = san "dict" ++ ['_'] by decide]
    simp [joined]
  · cases hp
    rw [typename, san_append, san_append, close, san_intercalate, comma, typenames_map, show san "tuple[" = san "tuple" ++ ['_'] by decide]
    simp [Function.comp_def]
  · cases hp
    rw [typename, san_append, san_append, close, show san "Optional[" = san "Optional" ++ ['_'] by decide]
    simp [joined]
  · rename_i ts hne
    split at hp
    · rename_i ha
      cases hp
      have : ∀ t ∈ cs, t.isNone = false := by
        intro t ht
        have := List.all_eq_true.1 ha t ht
        simpa using this
      rw [typename_union (by intro a h; subst h; exact hne a rfl), typenamesU_map _ this, san_append, san_append, close, san_intercalate, comma,
        show san "Union[" = san "Union" ++ ['_'] by decide]
      simp [Function.comp_def]
    · cases hp
  · cases hp

theorem head_plain {t h cs} (hp : headParts t = some (h, cs)) : h ≠ "" ∧ ∀ ch ∈ h.toList, ch.isAlphanum = true := by
  unfold headParts at hp
  split at hp
  · cases hp; decide
  · cases hp; decide
  · cases hp; decide
  · cases hp; decide
  · cases hp; decide
  · cases hp; decide
  · split at hp <;> cases hp; decide
  · cases hp

/-- The annotation with this head and these components. -/
def unhead (h : String) (cs : List Ty) : Ty :=
  if h = "list" then .list .list (cs.headD .none) else
  if h = "set" then .set .set (cs.headD .none) else
  if h = "deque" then .deque (cs.headD .none) else
  if h = "dict" then .dict .dict (cs.headD .none) (cs.getLastD .none) else
  if h = "tuple" then .tuple cs else
  if h = "Optional" then .union [cs.headD .none, .none] else .union cs

theorem head_back {t h cs} (hp : headParts t = some (h, cs)) : unhead h cs = t := by
  unfold headParts at hp
  split at hp
  · cases hp; rfl
  · cases hp; rfl
  · cases hp; rfl
  · cases hp; rfl
  · cases hp; rfl
  · cases hp; rfl
  · split at hp <;> cases hp; rfl
  · cases hp

theorem back_leaf {env : Env} {t s} (h : leafName env t = some s) (hs : Plain s) :
    back env t = s.toList.reverse ∧ (∀ ch ∈ back env t, ch.isAlphanum = true) ∧ back env t ≠ [] := by
  have e : back env t = s.toList.reverse := by rw [back, leaf_typename h, san_plain hs.2]
  refine ⟨e, ?_, ?_⟩
  · intro ch hc
    rw [e] at hc
    exact hs.2 ch (List.mem_reverse.1 hc)
  · rw [e]
    intro h
    exact hs.1 (String.toList_inj.1 (by rw [List.reverse_eq_nil_iff.1 h]; rfl))

theorem back_node {env : Env} {t h cs} (hp : headParts t = some (h, cs)) :
    back env t = '_' :: (joined ['_', '_'] (cs.reverse.map (back env)) ++ '_' :: h.toList.reverse) := by
  have e : san h = h.toList := san_plain (head_plain hp).2
  rw [back, node_typename hp, e, List.reverse_append, List.reverse_cons, List.reverse_append, joined_reverse]
  simp [List.map_reverse, Function.comp_def, show back env = fun x => (san (typename env x)).reverse from rfl]

/-- Components, the last one first, up to the head. -/
theorem parts_back {env : Env} {L} {as : List Ty}
    (ih : ∀ a ∈ as, ∀ {b r r'}, BuiltFrom L b → Stops r → Stops r' → back env a ++ r = back env b ++ r' → a = b ∧ r = r') :
    ∀ {bs : List Ty} {h h' : List Char} {r r'}, as ≠ [] → bs ≠ [] → (∀ b ∈ bs, BuiltFrom L b) → h ≠ [] → h' ≠ [] → (∀ c ∈ h, c.isAlphanum = true) →
      (∀ c ∈ h', c.isAlphanum = true) → Stops r → Stops r' →
      joined ['_', '_'] (as.map (back env)) ++ '_' :: (h ++ r) = joined ['_', '_'] (bs.map (back env)) ++ '_' :: (h' ++ r') → as = bs ∧ h = h' ∧ r = r' := by
  induction as with
  | nil => intro bs h h' r r' hn; exact absurd rfl hn
  | cons a as iha =>
    intro bs h h' r r' _ hbn hb hh hh' hp hp' hr hr' he
    have clash : ∀ {x : List Char} {k : List Char} {q}, k ≠ [] → (∀ c ∈ k, c.isAlphanum = true) → '_' :: (k ++ q) ≠ '_' :: '_' :: x := by
      intro x k q hk hc he
      cases k with
      | nil => exact hk rfl
      | cons y k =>
        have := hc y (by simp)
        rw [List.cons_append] at he
        rw [(List.cons.inj (List.cons.inj he).2).1] at this
        cases this
    cases bs with
    | nil => exact absurd rfl hbn
    | cons b bs =>
      have hab := @ih a (by simp) b
      cases as with
      | nil =>
        cases bs with
        | nil =>
          obtain ⟨e1, e2⟩ := hab (hb b (by simp)) (.inr ⟨_, rfl⟩) (.inr ⟨_, rfl⟩) he
          obtain ⟨e3, e4⟩ := token hp hp' hr hr' (List.cons.inj e2).2
          exact ⟨by rw [e1], e3, e4⟩
        | cons b' bs =>
          simp only [List.map_cons, List.map_nil, joined, List.append_assoc, List.cons_append, List.nil_append] at he
          obtain ⟨_, e2⟩ := hab (hb b (by simp)) (.inr ⟨_, rfl⟩) (.inr ⟨_, rfl⟩) he
          exact absurd e2 (clash hh hp)
      | cons a' as =>
        cases bs with
        | nil =>
          simp only [List.map_cons, List.map_nil, joined, List.append_assoc, List.cons_append, List.nil_append] at he
          obtain ⟨_, e2⟩ := hab (hb b (by simp)) (.inr ⟨_, rfl⟩) (.inr ⟨_, rfl⟩) he
          exact absurd e2.symm (clash hh' hp')
        | cons b' bs =>
          simp only [List.map_cons, joined, List.append_assoc, List.cons_append, List.nil_append] at he
          obtain ⟨e1, e2⟩ := hab (hb b (by simp)) (.inr ⟨_, rfl⟩) (.inr ⟨_, rfl⟩) he
          have e2 := (List.cons.inj (List.cons.inj e2).2).2
          obtain ⟨e3, e4⟩ := iha (bs := b' :: bs) (fun x hx => ih x (List.mem_cons_of_mem _ hx)) (by simp) (by simp)
            (fun x hx => hb x (List.mem_cons_of_mem _ hx)) hh hh' hp hp' hr hr' (by simpa only [List.map_cons] using e2)
          exact ⟨by rw [e1, e3], e4⟩

/-- Names read backwards: where one ends, the other ends. -/
theorem back_inj {env : Env} {L} (hL : NamesApart env L) {t} (ht : BuiltFrom L t) : ∀ {u r r'}, BuiltFrom L u → Stops r → Stops r' →
    back env t ++ r = back env u ++ r' → t = u ∧ r = r' := by
  have leafNode : ∀ {t u : Ty} {r r' h cs}, L t → headParts u = some (h, cs) → back env t ++ r ≠ back env u ++ r' := by
    intro t u r r' h cs hl hp he
    obtain ⟨s, hs, hpl⟩ := hL.plain t hl
    obtain ⟨_, ha, hne⟩ := back_leaf hs hpl
    rw [back_node hp] at he
    cases hb : back env t with
    | nil => exact hne hb
    | cons x xs =>
      rw [hb] at he ha
      rw [List.cons_append, List.cons_append] at he
      have := ha x (by simp)
      rw [(List.cons.inj he).1] at this
      cases this
  induction ht with
  | leaf hl =>
    intro u r r' hu hr hr' he
    cases hu with
    | leaf hl' =>
      obtain ⟨s, hs, hpl⟩ := hL.plain _ hl
      obtain ⟨s', hs', hpl'⟩ := hL.plain _ hl'
      obtain ⟨e, ha, _⟩ := back_leaf hs hpl
      obtain ⟨e', ha', _⟩ := back_leaf hs' hpl'
      obtain ⟨h1, h2⟩ := token ha ha' hr hr' he
      rw [e, e'] at h1
      have : s = s' := String.toList_inj.1 (List.reverse_inj.1 h1)
      subst this
      exact ⟨hL.apart _ _ _ hl hl' hs hs', h2⟩
    | node hp => exact absurd he (leafNode hl hp)
  | node hp hne hc ih =>
    intro u r r' hu hr hr' he
    cases hu with
    | leaf hl' => exact absurd he.symm (leafNode hl' hp)
    | node hp' hne' hc' =>
      rw [back_node hp, back_node hp'] at he
      simp only [List.append_assoc, List.cons_append] at he
      have he := (List.cons.inj he).2
      have hh := head_plain hp
      have hh' := head_plain hp'
      have nz : ∀ {s : String}, s ≠ "" → s.toList.reverse ≠ [] := by
        intro s hs h
        exact hs (String.toList_inj.1 (by rw [List.reverse_eq_nil_iff.1 h]; rfl))
      obtain ⟨e1, e2, e3⟩ := parts_back (fun a ha => ih a (List.mem_reverse.1 ha)) (by simpa using hne) (by simpa using hne')
        (fun b hb => hc' b (List.mem_reverse.1 hb)) (nz hh.1) (nz hh'.1) (fun c h => hh.2 c (List.mem_reverse.1 h)) (fun c h => hh'.2 c (List.mem_reverse.1 h))
        hr hr' he
      have e2 := String.toList_inj.1 (List.reverse_inj.1 e2)
      have e1 := List.reverse_inj.1 e1
      subst e1 e2
      exact ⟨(head_back hp).symm.trans (head_back hp'), e3⟩

theorem back_ne {env : Env} {L} (hL : NamesApart env L) {t} (ht : BuiltFrom L t) : back env t ≠ [] := by
  cases ht with
  | leaf hl =>
    obtain ⟨s, hs, hpl⟩ := hL.plain _ hl
    exact (back_leaf hs hpl).2.2
  | node hp => rw [back_node hp]; simp

theorem names_inj {env : Env} {L} (hL : NamesApart env L) : ∀ {as bs : List Ty}, (∀ a ∈ as, BuiltFrom L a) → (∀ b ∈ bs, BuiltFrom L b) →
    joined ['_'] (as.map (back env)) = joined ['_'] (bs.map (back env)) → as = bs := by
  have ne : ∀ {a as}, BuiltFrom L a → joined ['_'] ((a :: as).map (back env)) ≠ [] := by
    intro a as ha h
    cases as with
    | nil => exact back_ne hL ha h
    | cons b r => simp [joined] at h
  intro as
  induction as with
  | nil =>
    intro bs _ hb h
    cases bs with
    | nil => rfl
    | cons b bs => exact absurd h.symm (ne (hb b (by simp)))
  | cons a as ih =>
    intro bs ha hb h
    cases bs with
    | nil => exact absurd h (ne (ha a (by simp)))
    | cons b bs =>
      have hab := @back_inj env L hL a (ha a (by simp)) b
      have ht : ∀ {a : Ty} {as : List Ty}, ∃ r, joined ['_'] ((a :: as).map (back env)) = back env a ++ r ∧ Stops r ∧
          (as = [] → r = []) ∧ (as ≠ [] → r = '_' :: joined ['_'] (as.map (back env))) := by
        intro a as
        cases as with
        | nil => exact ⟨[], by simp [joined], .inl rfl, fun _ => rfl, fun h => absurd rfl h⟩
        | cons b r => exact ⟨'_' :: joined ['_'] ((b :: r).map (back env)), by simp [joined], .inr ⟨_, rfl⟩, by simp, fun _ => rfl⟩
      obtain ⟨r, e, hr, r0, r1⟩ := @ht a as
      obtain ⟨r', e', hr', r0', r1'⟩ := @ht b bs
      rw [e, e'] at h
      obtain ⟨h1, h2⟩ := hab (hb b (by simp)) hr hr' h
      subst h1
      by_cases ha0 : as = []
      · by_cases hb0 : bs = []
        · rw [ha0, hb0]
        · rw [r0 ha0, r1' hb0] at h2; cases h2
      · by_cases hb0 : bs = []
        · rw [r1 ha0, r0' hb0] at h2; cases h2
        · rw [r1 ha0, r1' hb0] at h2
          rw [ih (fun x hx => ha x (by simp [hx])) (fun x hx => hb x (by simp [hx])) (List.cons.inj h2).2]

theorem unionName_inj {env : Env} {L} (hL : NamesApart env L) {ts us : List Ty} (ht : ∀ t ∈ ts, BuiltFrom L t) (hu : ∀ t ∈ us, BuiltFrom L t)
    (h : unionFuncName env ts = unionFuncName env us) : ts = us := by
  have h := sanitize_inj h
  have dash : san "_" = ['_'] := by decide
  rw [san_intercalate, san_intercalate, dash, typenames_map, typenames_map] at h
  have h := congrArg List.reverse h
  rw [joined_reverse, joined_reverse] at h
  have e : ∀ ts : List Ty, (((ts.map (typename env)).map san).map List.reverse).reverse = ts.reverse.map (back env) := by
    intro ts; simp [back, Function.comp_def]
  rw [e, e] at h
  have := names_inj hL (fun a ha => ht a (List.mem_reverse.1 ha)) (fun a ha => hu a (List.mem_reverse.1 ha)) h
  exact List.reverse_inj.1 this

/-! ## Literals -/

/-- Words of letters and digits joined by underscores. -/
theorem words_inj : ∀ {as bs : List (List Char)}, (∀ a ∈ as, ∀ c ∈ a, c.isAlphanum = true) → (∀ b ∈ bs, ∀ c ∈ b, c.isAlphanum = true) → as ≠ [] → bs ≠ [] →
    joined ['_'] as = joined ['_'] bs → as = bs := by
  intro as
  induction as with
  | nil => intro bs _ _ h; exact absurd rfl h
  | cons a as ih =>
    intro bs ha hb _ hn h
    cases bs with
    | nil => exact absurd rfl hn
    | cons b bs =>
      have ht : ∀ {a : List Char} {as : List (List Char)}, ∃ r, joined ['_'] (a :: as) = a ++ r ∧ Stops r ∧ (as = [] → r = []) ∧
          (as ≠ [] → r = '_' :: joined ['_'] as) := by
        intro a as
        cases as with
        | nil => exact ⟨[], by simp [joined], .inl rfl, fun _ => rfl, fun h => absurd rfl h⟩
        | cons b r => exact ⟨'_' :: joined ['_'] (b :: r), by simp [joined], .inr ⟨_, rfl⟩, by simp, fun _ => rfl⟩
      obtain ⟨r, e, hr, r0, r1⟩ := @ht a as
      obtain ⟨r', e', hr', r0', r1'⟩ := @ht b bs
      rw [e, e'] at h
      obtain ⟨h1, h2⟩ := token (ha a (by simp)) (hb b (by simp)) hr hr' h
      subst h1
      by_cases ha0 : as = []
      · by_cases hb0 : bs = []
        · rw [ha0, hb0]
        · rw [r0 ha0, r1' hb0] at h2; cases h2
      · by_cases hb0 : bs = []
        · rw [r1 ha0, r0' hb0] at h2; cases h2
        · rw [r1 ha0, r1' hb0] at h2
          rw [ih (fun x hx => ha x (by simp [hx])) (fun x hx => hb x (by simp [hx])) ha0 hb0 (List.cons.inj h2).2]

/-- The words of a literal: text and type of each value. -/
def litWords (env : Env) : List Val → List (List Char)
  | [] => []
  | v :: r => (litStr env.W v).toList :: (litTypeName env v).toList :: litWords env r

theorem plainLit_words {env : Env} {v} (h : PlainLit env v) :
    (∀ c ∈ (litStr env.W v).toList, c.isAlphanum = true) ∧ ∀ c ∈ (litTypeName env v).toList, c.isAlphanum = true := by
  cases h with
  | str h => exact ⟨h, by show ∀ c ∈ "str".toList, _; decide⟩
  | int h => exact ⟨h, by show ∀ c ∈ "int".toList, _; decide⟩

theorem litWords_plain {env : Env} : ∀ {vs}, (∀ v ∈ vs, PlainLit env v) → ∀ a ∈ litWords env vs, ∀ c ∈ a, c.isAlphanum = true
  | [], _, a, ha => by cases ha
  | v :: r, h, a, ha => by
    have hv := plainLit_words (h v (by simp))
    rcases List.mem_cons.1 ha with rfl | ha
    · exact hv.1
    · rcases List.mem_cons.1 ha with rfl | ha
      · exact hv.2
      · exact litWords_plain (fun v hv => h v (by simp [hv])) a ha

theorem litName_words {env : Env} : ∀ {vs : List Val}, (∀ v ∈ vs, PlainLit env v) →
    joined ['_'] ((vs.map fun a => litStr env.W a ++ "_" ++ litTypeName env a).map san) = joined ['_'] (litWords env vs)
  | [], _ => rfl
  | [v], h => by
    have hv := plainLit_words (h v (by simp))
    have e : san (litStr env.W v ++ "_" ++ litTypeName env v) = (litStr env.W v).toList ++ ['_'] ++ (litTypeName env v).toList := by
      rw [san_append, san_append, san_plain hv.1, san_plain hv.2, show san "_" = ['_'] by decide]
    simp [joined, litWords, e]
  | v :: u :: r, h => by
    have hv := plainLit_words (h v (by simp))
    have e : san (litStr env.W v ++ "_" ++ litTypeName env v) = (litStr env.W v).toList ++ ['_'] ++ (litTypeName env v).toList := by
      rw [san_append, san_append, san_plain hv.1, san_plain hv.2, show san "_" = ['_'] by decide]
    have ih := litName_words (vs := u :: r) fun x hx => h x (List.mem_cons_of_mem _ hx)
    simp only [List.map_cons, joined, litWords] at ih ⊢
    rw [ih, e]
    simp

theorem litWords_inj {env : Env} (hi : IntsApart env.W) : ∀ {vs us}, (∀ v ∈ vs, PlainLit env v) → (∀ v ∈ us, PlainLit env v) →
    litWords env vs = litWords env us → vs = us
  | [], [], _, _, _ => rfl
  | [], _ :: _, _, _, h => by cases h
  | _ :: _, [], _, _, h => by cases h
  | v :: vs, u :: us, hv, hu, h => by
    have h1 := String.toList_inj.1 (List.cons.inj h).1
    have h2 := String.toList_inj.1 (List.cons.inj (List.cons.inj h).2).1
    have h3 := litWords_inj hi (fun x hx => hv x (by simp [hx])) (fun x hx => hu x (by simp [hx])) (List.cons.inj (List.cons.inj h).2).2
    have : v = u := by
      cases hv v (by simp) with
      | str _ =>
        cases hu u (by simp) with
        | str _ => exact congrArg Val.str h1
        | int _ => exact absurd h2 (by show "str" ≠ "int"; decide)
      | int _ =>
        cases hu u (by simp) with
        | str _ => exact absurd h2 (by show "int" ≠ "str"; decide)
        | int _ => exact congrArg Val.int (hi _ _ h1)
    rw [this, h3]

theorem litName_inj {env : Env} (hi : IntsApart env.W) {vs us : List Val} (hv : ∀ v ∈ vs, PlainLit env v) (hu : ∀ v ∈ us, PlainLit env v)
    (h0 : vs ≠ []) (h0' : us ≠ []) (h : litFuncName env vs = litFuncName env us) : vs = us := by
  have h := sanitize_inj h
  rw [san_intercalate, san_intercalate, show san "_" = ['_'] by decide, litName_words hv, litName_words hu] at h
  have ne : ∀ {vs}, vs ≠ [] → litWords env vs ≠ [] := by
    intro vs h
    cases vs with
    | nil => exact absurd rfl h
    | cons v r => simp [litWords]
  exact litWords_inj hi hv hu (words_inj (litWords_plain hv) (litWords_plain hu) (ne h0) (ne h0') h)

end Verif
