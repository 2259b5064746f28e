import Verif.Lemmas.WriteTo
import Verif.Lemmas.AcceptMain
import Verif.Spec.Form
/-!
# Values that can be written are written
-/

namespace Verif
open Spec Props

/-- The argument is written inside the class `c` in this mode. -/
structure SeP (env : Env) (c : ClassId) (m : OutMode) (cx : SeCx) (a : SeArg) : Prop where
  mode : outMode cx a.ser = m
  unions : cx.unions = env.unionsOf c
  noFn : ∀ g, a.ser ≠ some (.fn g)

theorem SeP.elem {env : Env} {c m cx a} (h : SeP env c m cx a) {t v} : SeP env c m cx { ty := t, ser := a.ser, v := v } := ⟨h.mode, h.unions, h.noFn⟩

theorem SeP.sers {env : Env} {c m cx a} (h : SeP env c m cx a) : m.sers = effSer a.ser cx.sers := by rw [← h.mode]; rfl

theorem SeP.pick {env : Env} {c m cx a t} (h : SeP env c m cx a) (ht : a.ty = t) (hn : NoneFor m.sers t) : pickSer cx.sers a = none := by
  refine pickSer_noneFor (fun hs => ?_)
  rw [h.sers, hs] at hn
  rw [ht]
  exact hn

theorem pickSer_chosen {S : List ClsSer} {a : SeArg} {s} (h : Chosen (effSer a.ser S) a.ty s) : pickSer S a = some s := by
  obtain ⟨pre, post, h1, h2, h3⟩ := h
  cases hs : a.ser with
  | some x => rw [hs] at h1; simp [effSer] at h1
  | none =>
    rw [hs] at h1
    have h1 : S = pre ++ s :: post := h1
    unfold pickSer
    rw [hs]
    dsimp only
    rw [List.find?_eq_some_iff_append]
    refine ⟨h2, post.reverse, pre.reverse, by rw [h1]; simp, fun x hx => ?_⟩
    have := h3 x (List.mem_reverse.1 hx)
    simp [this]

/-- Such a value is written as `w`, whatever the fuel, if it is enough. -/
def Forms (env : Env) (c : ClassId) (m : OutMode) (t : Ty) (v w : Val) : Prop :=
  Ev (fun n => ∀ cx a, SeP env c m cx a → a.ty = t → a.v = .ok v → (seAt env n).render cx a = .ok w)

theorem enumValue_direct {env : Env} {e e' d mem w} {n : Nat} (he : env.enm e' = some d) (hm : d.members.lookup mem = some w) (hw : ∀ e'' m', w ≠ .enum e'' m')
    (hh : hashable env.hash w = true) : enumValue env e (n + 1) (.enum e' mem) = .ok w := by
  unfold enumValue
  rw [if_neg (by simp [hashable])]
  dsimp only
  rw [he]
  dsimp only
  rw [hm]
  dsimp only
  rw [if_neg (by simp [hh])]
  cases w <;> first | rfl | exact absurd rfl (hw _ _)

theorem leaf_forms {env : Env} {c m t v w} (hno : NoneFor m.sers t) (h : FormLeaf env m t v w) : Forms env c m t v w := by
  refine (Ev.of_all (P := fun _ => True) (fun _ => trivial)).step (fun n _ cx a hP hty hv => ?_)
  show renderF env (seAt env n) cx a = _
  have hm := hP.mode
  have hre : cx.reuse = m.reuse := by rw [← hm]; rfl
  have hcv : cx.conv = m.conv := by rw [← hm]; rfl
  have hco : cx.coerce = m.coerce := by rw [← hm]; rfl
  unfold renderF
  rw [hP.pick hty hno]
  dsimp only
  split
  · rename_i g hg; exact absurd hg (hP.noFn g)
  rw [hty, hv]
  cases h with
  | none => rfl
  | prim h => dsimp only; rw [hco, h]; rfl
  | coerced h hc => dsimp only; rw [hco, h, if_pos rfl]; exact converts_coerce hc
  | newType h => dsimp only; rw [hco, h]; rfl
  | newTypeCoerced h hc => dsimp only; rw [hco, h, if_pos rfl]; exact converts_coerce hc
  | enum h1 h2 h3 h4 => dsimp only; rw [enumValue_direct h1 h2 h3 h4]; rfl
  | stdKept h => dsimp only; rw [hre, h]; rfl
  | stdText h => dsimp only; rw [hre, h]; rfl
  | dtKept h => dsimp only; rw [hre, h]; rfl
  | dtText h => dsimp only; rw [hre, h]; rfl
  | lit => rfl
  | list => rfl
  | @listLike k v xs hk hi =>
    dsimp only
    cases k with
    | list => exact absurd rfl hk
    | _ => dsimp only; rw [pyIter_items hi]
  | set h => dsimp only; rw [hcv, h]; rfl
  | setList h hi => dsimp only; rw [hcv, h, if_pos rfl, pyIter_items hi]
  | deque hi => dsimp only; rw [pyIter_items hi]
  | counter => rfl
  | @dict k v hk => cases k <;> first | rfl | exact absurd rfl hk
  | tuple => rfl

theorem chosen_forms {env : Env} {c m t s v w} (h : Chosen m.sers t s) (hr : s.run v = .ok w) : Forms env c m t v w := by
  refine (Ev.of_all (P := fun _ => True) (fun _ => trivial)).step (fun n _ cx a hP hty hv => ?_)
  show renderF env (seAt env n) cx a = _
  unfold renderF
  rw [hP.sers, ← hty] at h
  rw [pickSer_chosen h, hv]
  dsimp only
  rw [hr]
  rfl

theorem elems_form {env : Env} {c m t xs ys} (hl : xs.length = ys.length) (h : ∀ p ∈ xs.zip ys, Forms env c m t p.1 p.2) :
    Ev (fun n => ∀ cx a, SeP env c m cx a → mapR (fun x => (seAt env n).render cx { ty := t, ser := a.ser, v := .ok x }) xs = .ok ys) :=
  (Ev.list h).mono (fun _ hn cx _ hP => mapR_zip hl (fun p hp => hn p hp cx _ hP.elem rfl rfl))

theorem list_forms {env : Env} {c m k t v xs ys} (hno : NoneFor m.sers (.list k t)) (hi : Items v xs) (hl : xs.length = ys.length)
    (h : ∀ p ∈ xs.zip ys, Forms env c m t p.1 p.2) : Forms env c m (.list k t) v (.list ys) := by
  refine (elems_form hl h).step (fun n hn cx a hP hty hv => ?_)
  show renderF env (seAt env n) cx a = _
  unfold renderF
  rw [hP.pick hty hno]
  dsimp only
  split
  · rename_i g hg; exact absurd hg (hP.noFn g)
  rw [hty, hv]
  dsimp only
  rw [pyIter_items hi]
  dsimp only
  rw [hn cx a hP]

theorem deque_forms {env : Env} {c m t v xs ys} (hno : NoneFor m.sers (.deque t)) (hi : Items v xs) (hl : xs.length = ys.length)
    (h : ∀ p ∈ xs.zip ys, Forms env c m t p.1 p.2) : Forms env c m (.deque t) v (.list ys) := by
  refine (elems_form hl h).step (fun n hn cx a hP hty hv => ?_)
  show renderF env (seAt env n) cx a = _
  unfold renderF
  rw [hP.pick hty hno]
  dsimp only
  split
  · rename_i g hg; exact absurd hg (hP.noFn g)
  rw [hty, hv]
  dsimp only
  rw [pyIter_items hi]
  dsimp only
  rw [hn cx a hP]

theorem tupleV_forms {env : Env} {c m t v xs ys} (hno : NoneFor m.sers (.tupleV t)) (hi : Items v xs) (hl : xs.length = ys.length)
    (h : ∀ p ∈ xs.zip ys, Forms env c m t p.1 p.2) : Forms env c m (.tupleV t) v (.tuple ys) := by
  refine (elems_form hl h).step (fun n hn cx a hP hty hv => ?_)
  show renderF env (seAt env n) cx a = _
  unfold renderF
  rw [hP.pick hty hno]
  dsimp only
  split
  · rename_i g hg; exact absurd hg (hP.noFn g)
  rw [hty, hv]
  dsimp only
  rw [pyIter_items hi]
  dsimp only
  rw [hn cx a hP]

theorem setList_forms {env : Env} {c m k t v xs ys} (hno : NoneFor m.sers (.set k t)) (hcv : m.conv = true) (hi : Items v xs) (hl : xs.length = ys.length)
    (h : ∀ p ∈ xs.zip ys, Forms env c m t p.1 p.2) : Forms env c m (.set k t) v (.list ys) := by
  refine (elems_form hl h).step (fun n hn cx a hP hty hv => ?_)
  show renderF env (seAt env n) cx a = _
  have hc : cx.conv = true := by rw [← hcv, ← hP.mode]; rfl
  unfold renderF
  rw [hP.pick hty hno]
  dsimp only
  split
  · rename_i g hg; exact absurd hg (hP.noFn g)
  rw [hty, hv]
  dsimp only
  rw [pyIter_items hi]
  dsimp only
  rw [hn cx a hP]
  dsimp only
  rw [if_pos hc]

theorem set_forms {env : Env} {c m k t v xs ys} (hno : NoneFor m.sers (.set k t)) (hcv : m.conv = false) (hi : Items v xs) (hl : xs.length = ys.length)
    (h : ∀ p ∈ xs.zip ys, Forms env c m t p.1 p.2) (hh : hashableL env.hash ys = true) (hd : AllDistinct ys) : Forms env c m (.set k t) v (.set false ys) := by
  refine (elems_form hl h).step (fun n hn cx a hP hty hv => ?_)
  show renderF env (seAt env n) cx a = _
  have hc : cx.conv = false := by rw [← hcv, ← hP.mode]; rfl
  unfold renderF
  rw [hP.pick hty hno]
  dsimp only
  split
  · rename_i g hg; exact absurd hg (hP.noFn g)
  rw [hty, hv]
  dsimp only
  rw [pyIter_items hi]
  dsimp only
  rw [hn cx a hP]
  dsimp only
  rw [if_neg (by rw [hc]; simp)]
  exact mkSet_id hh hd

theorem tuple_forms {env : Env} {c m ts v xs ys} (hno : NoneFor m.sers (.tuple ts)) (hne : ts ≠ []) (hx : v = .list xs ∨ v = .tuple xs)
    (hl : ts.length = xs.length) (hl' : ts.length = ys.length) (h : ∀ p ∈ ts.zip (xs.zip ys), Forms env c m p.1 p.2.1 p.2.2) :
    Forms env c m (.tuple ts) v (.tuple ys) := by
  refine (Ev.list h).step (fun n hn cx a hP hty hv => ?_)
  show renderF env (seAt env n) cx a = _
  have key : mapR (fun it : Ty × Nat => (seAt env n).render cx { ty := it.1, ser := a.ser, v := pyIndex v it.2 }) ts.zipIdx = .ok ys := by
    refine mapR_zip (by simp [hl']) (fun p hp => ?_)
    obtain ⟨i, hi, rfl⟩ := List.getElem_of_mem hp
    simp at hi
    have h1 : i < ts.length := by omega
    have h2 : i < xs.length := by omega
    have h3 : i < ys.length := by omega
    have hm : (ts[i], xs[i], ys[i]) ∈ ts.zip (xs.zip ys) := by
      have := zip_get (xs := ts) (ys := xs.zip ys) (i := i) h1 (by simp; omega)
      simpa using this
    simp only [List.getElem_zip, List.getElem_zipIdx, Nat.zero_add]
    rw [pyIndex_arr hx (List.getElem?_eq_getElem h2)]
    exact hn _ hm cx _ hP.elem rfl rfl
  unfold renderF
  rw [hP.pick hty hno]
  dsimp only
  split
  · rename_i g hg; exact absurd hg (hP.noFn g)
  rw [hty, hv]
  cases ts with
  | nil => exact absurd rfl hne
  | cons t ts => dsimp only; rw [key]

theorem counter_forms {env : Env} {c m t dk} {kvs es : List (Val × Val)} (hno : NoneFor m.sers (.counter t)) (hl : kvs.length = es.length)
    (hk : ∀ p ∈ kvs.zip es, Forms env c m t p.1.1 p.2.1) (hc : ∀ p ∈ kvs.zip es, p.2.2 = p.1.2) (hh : hashableL env.hash (es.map (·.1)) = true)
    (hd : AllDistinct (es.map (·.1))) : Forms env c m (.counter t) (.dict dk kvs) (.dict .plain es) := by
  refine (Ev.list hk).step (fun n hn cx a hP hty hv => ?_)
  show renderF env (seAt env n) cx a = _
  unfold renderF
  rw [hP.pick hty hno]
  dsimp only
  split
  · rename_i g hg; exact absurd hg (hP.noFn g)
  rw [hty, hv]
  simp only [pyItems]
  rw [mapR_zip (bs := es) hl]
  · dsimp only
    rw [mkDict_id hh (allDistinct_pyEq hd)]
  · intro p hp
    rw [hn p hp cx _ hP.elem rfl rfl]
    dsimp only
    rw [← hc p hp]

theorem dict_forms {env : Env} {c m k kt vt dk} {kvs es : List (Val × Val)} (hno : NoneFor m.sers (.dict k kt vt)) (hl : kvs.length = es.length)
    (hk : ∀ p ∈ kvs.zip es, Forms env c m kt p.1.1 p.2.1) (hv' : ∀ p ∈ kvs.zip es, Forms env c m vt p.1.2 p.2.2)
    (hh : hashableL env.hash (es.map (·.1)) = true) (hd : AllDistinct (es.map (·.1))) : Forms env c m (.dict k kt vt) (.dict dk kvs) (.dict .plain es) := by
  refine ((Ev.list hk).and (Ev.list hv')).step (fun n hn cx a hP hty hv => ?_)
  show renderF env (seAt env n) cx a = _
  unfold renderF
  rw [hP.pick hty hno]
  dsimp only
  split
  · rename_i g hg; exact absurd hg (hP.noFn g)
  rw [hty, hv]
  simp only [pyItems]
  rw [mapR_zip (bs := es) hl]
  · dsimp only
    rw [mkDict_id hh (allDistinct_pyEq hd)]
  · intro p hp
    rw [hn.1 p hp cx _ hP.elem rfl rfl]
    dsimp only
    rw [hn.2 p hp cx _ hP.elem rfl rfl]

theorem isOpt_opt {t : Ty} (h : t ≠ .none) : (Ty.union [t, .none]).isOpt = true := by
  cases t <;> first | rfl | exact absurd rfl h

theorem opt_forms {env : Env} {c m t v w} (hno : NoneFor m.sers (.union [t, .none])) (ht : t ≠ .none) (hvn : v = .none ∧ w = .none ∨ v ≠ .none ∧ Forms env c m t v w) :
    Forms env c m (.union [t, .none]) v w := by
  have : Ev (fun n => v = .none ∧ w = .none ∨ v ≠ .none ∧ ∀ cx a, SeP env c m cx a → a.ty = t → a.v = .ok v → (seAt env n).render cx a = .ok w) := by
    rcases hvn with h | ⟨h1, h2⟩
    · exact Ev.of_all (fun _ => .inl h)
    · exact h2.mono (fun _ hn => .inr ⟨h1, hn⟩)
  refine this.step (fun n hn cx a hP hty hv => ?_)
  show renderF env (seAt env n) cx a = _
  unfold renderF
  rw [hP.pick hty hno]
  dsimp only
  split
  · rename_i g hg; exact absurd hg (hP.noFn g)
  rw [hty, hv]
  dsimp only
  rw [if_pos (isOpt_opt ht)]
  rcases hn with ⟨rfl, rfl⟩ | ⟨h1, h2⟩
  · rfl
  · have := h2 cx _ (hP.elem (t := t) (v := .ok v)) rfl rfl
    cases v <;> first | exact absurd rfl h1 | exact this

/-- The last step of a union function. -/
def markMember (env : Env) (tg : Tagging) (t : Ty) (r : Val) : Res Val :=
  if t.isCls then
    match tg with
    | .external => .ok (.dict .plain [(.str (typename env t), r)])
    | .internal tag => pySetItem r tag (.str (typename env t))
    | .adjacent tag content => pySetItem (.dict .plain [(.str content, r)]) tag (.str (typename env t))
    | .untagged => .ok r
  else .ok r

theorem tagged_of {env : Env} {tg : Tagging} {t r w} (h : TaggedAs env tg t r w) : markMember env tg t r = .ok w := by
  unfold markMember
  cases h with
  | plain h =>
    rw [if_neg]
    intro hc
    cases t <;> first | exact h _ rfl | exact absurd hc (by simp [Ty.isCls])
  | untagged => split <;> rfl
  | external => rfl
  | internal => rfl
  | @adjacent tag content c r ht =>
    have hne : pyEq (.str content) (.str tag) = false := by
      rw [Bool.eq_false_iff]
      intro hp
      rw [pyEq_str_right] at hp
      exact ht (Val.str.inj hp).symm
    have : dictSet (.str tag) (.str (env.clsName c)) [(.str content, r)] = [(.str content, r), (.str tag, .str (env.clsName c))] := by
      simp [dictSet, hne]
    rw [← this]
    rfl
  | @clash tag c r =>
    have : dictSet (.str tag) (.str (env.clsName c)) [(.str tag, r)] = [(.str tag, .str (env.clsName c))] := by
      simp [dictSet, pyEq_str_right.2 rfl]
    rw [← this]
    rfl

theorem seUnion_run {env : Env} {r : SeRec} {cx : SeCx} {v t post u w} : ∀ {pre : List Ty}, (∀ s ∈ pre, isInst env s v = false) → isInst env t v = true →
    r.render cx { ty := t, v := .ok v } = .ok u → TaggedAs env cx.tagging t u w → seUnion env r cx v (pre ++ t :: post) = .ok w
  | [], _, ht, hr, htag => by
    rw [List.nil_append, seUnion, if_pos ht, hr]
    exact tagged_of htag
  | s :: pre, hp, ht, hr, htag => by
    rw [List.cons_append, seUnion, if_neg (by rw [hp s (by simp)]; simp)]
    exact seUnion_run (fun s hs => hp s (by simp [hs])) ht hr htag

theorem union_forms {env : Env} {c m ts pre t post v u w} (hno : NoneFor m.sers (.union ts)) (ho : (Ty.union ts).isOpt = false) (hu : HasUnion env c ts)
    (hts : ts = pre ++ t :: post) (hk : KnownObj env v) (hpre : ∀ s ∈ pre, Nominal env s ∧ ¬ IsA env s v) (ht : Nominal env t) (hi : IsA env t v)
    (h : Forms env c (m.member env) t v u) (htag : TaggedAs env m.tagging t u w) : Forms env c m (.union ts) v w := by
  refine h.step (fun n hn cx a hP hty hv => ?_)
  show renderF env (seAt env n) cx a = _
  unfold renderF
  rw [hP.pick hty hno]
  dsimp only
  split
  · rename_i g hg; exact absurd hg (hP.noFn g)
  rw [hty, hv]
  dsimp only
  rw [if_neg (by rw [ho]; simp), hP.unions, findUnion_own hu.1 hu.2]
  dsimp only
  rw [hts]
  refine seUnion_run (fun s hs => ?_) ((isInst_nominal ht hk).2 hi) (hn (cx.inUnion env) _ ⟨?_, hP.unions, by simp⟩ rfl rfl) ?_
  · cases hb : isInst env s v with
    | false => rfl
    | true => exact absurd ((isInst_nominal (hpre s hs).1 hk).1 hb) (hpre s hs).2
  · rw [← hP.mode]; rfl
  · have : (cx.inUnion env).tagging = m.tagging := by rw [← hP.mode]; rfl
    rw [this]
    exact htag

theorem alias_forms {env : Env} {c m nm t v w} (hno : NoneFor m.sers (.alias nm t)) (h : Forms env c m t v w) : Forms env c m (.alias nm t) v w := by
  refine h.step (fun n hn cx a hP hty hv => ?_)
  show renderF env (seAt env n) cx a = _
  unfold renderF
  rw [hP.pick hty hno]
  dsimp only
  split
  · rename_i g hg; exact absurd hg (hP.noFn g)
  rw [hty]
  exact hn cx _ ⟨hP.mode, hP.unions, hP.noFn⟩ rfl hv

theorem gen_forms {env : Env} {c m d as v w} (hno : NoneFor m.sers (.gen d as)) (h : Forms env c m (.cls d) v w) : Forms env c m (.gen d as) v w := by
  refine h.step (fun n hn cx a hP hty hv => ?_)
  show renderF env (seAt env n) cx a = _
  unfold renderF
  rw [hP.pick hty hno]
  dsimp only
  split
  · rename_i g hg; exact absurd hg (hP.noFn g)
  rw [hty]
  exact hn cx _ ⟨hP.mode, hP.unions, hP.noFn⟩ rfl hv

/-- An object is written as `w`. -/
def ObjForms (env : Env) (g : OutGiven) (v w : Val) : Prop := Ev (fun n => (seAt env n).cls g.named g.reuse g.conv g.skipNone v = .ok w)

/-- A value is written as `w` according to its own class. -/
def AnyForms (env : Env) (g : OutGiven) (v w : Val) : Prop :=
  Ev (fun n => ∀ c tg, (c = none ∨ c = some .any) → (seAt env n).toObj g.named g.reuse g.conv g.skipNone c tg v = .ok w)

theorem cls_forms {env : Env} {c m d v w} (hno : NoneFor m.sers (.cls d)) (h : ObjForms env m.given v w) : Forms env c m (.cls d) v w := by
  refine h.step (fun n hn cx a hP hty hv => ?_)
  show renderF env (seAt env n) cx a = _
  unfold renderF
  rw [hP.pick hty hno]
  dsimp only
  split
  · rename_i g hg; exact absurd hg (hP.noFn g)
  rw [hty, hv]
  dsimp only
  rw [← hn, ← hP.mode]
  rfl

theorem any_forms {env : Env} {c m t v w} (ht : t = .any ∨ ∃ x, t = .tvar x) (hno : NoneFor m.sers t) (h : AnyForms env m.anything v w) : Forms env c m t v w := by
  refine h.step (fun n hn cx a hP hty hv => ?_)
  show renderF env (seAt env n) cx a = _
  unfold renderF
  rw [hP.pick hty hno]
  dsimp only
  split
  · rename_i g hg; exact absurd hg (hP.noFn g)
  rw [hty, hv]
  have := hn (some .any) .external (.inr rfl)
  rw [← hP.mode] at this
  rcases ht with rfl | ⟨x, rfl⟩ <;> exact this

end Verif
