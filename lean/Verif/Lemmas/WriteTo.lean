import Verif.Lemmas.Truth
import Verif.Lemmas.ReadTo
import Verif.Lemmas.Legacy
import Verif.Spec.Write
/-!
# What a value is written as
-/

namespace Verif
open Spec Props

/-- The mode in which an argument with this `serializer=` is rendered. -/
def outMode (cx : SeCx) (ser : Option SerFn) : OutMode :=
  { named := cx.named, reuse := cx.reuse, conv := cx.conv, skipNone := cx.skipNone, coerce := cx.coerce, tagging := cx.tagging, sers := effSer ser cx.sers }

/-- The functions the context has for the unions of the annotation are their own. -/
def OwnSe (env : Env) (cx : SeCx) (t : Ty) : Prop :=
  ∀ ts, PartOf (.union ts) t → ∀ us, findUnion env cx.unions (unionFuncName env ts) = some us → us = ts

theorem OwnSe.part {env : Env} {cx : SeCx} {s t} (h : OwnSe env cx t) (hs : PartOf s t) : OwnSe env cx s := fun ts hw => h ts (hw.trans hs)

theorem OwnSe.inUnion {env : Env} {cx : SeCx} {t} (h : OwnSe env cx t) : OwnSe env (cx.inUnion env) t := h

theorem ownSe_cls {env : Env} {cx : SeCx} {c} : OwnSe env cx (.cls c) := fun _ h => (by cases h)

theorem ownSe_class {env : Env} {c cd b re cv sn t} (hU : DistinctUnions env) (ht : Annotated env t) :
    OwnSe env (clsSeCx env c cd b re cv sn) t := by
  intro ts hts us hus
  refine hU c ts (ht.part hts) us (unionsOf_iff.1 (findUnion_mem hus)) ?_
  unfold findUnion at hus
  simpa using List.find?_some hus

/-- What rendering an argument gives. -/
structure OutArg (env : Env) (cx : SeCx) (a : SeArg) (w : Val) : Prop where
  value : ∀ v, a.v = .ok v → (∀ g, a.ser ≠ some (.fn g)) → OutTo env (outMode cx a.ser) a.ty v w
  fn : ∀ v g, a.v = .ok v → a.ser = some (.fn g) → g v = .ok w
  missing : ∀ e, a.v = .error e → w = .none

/-- The attributes of the value of an argument. -/
def heldR : Res Val → List (String × Val)
  | .ok x => held (some x)
  | .error _ => []

/-- The argument is a flattened dataclass that is replaced by its fields, and so are those flattened into it. -/
structure SpliceArg (env : Env) (cx : SeCx) (a : SeArg) (ch : ClassId) : Prop where
  flat : a.flatten = true
  ty : a.ty = .cls ch ∨ a.ty = .union [.cls ch, .none]
  noFn : ∀ g, a.ser ≠ some (.fn g)
  noSer : a.ser = none → NoneFor cx.sers a.ty ∧ NoneFor cx.sers (.cls ch)
  own : ∀ t, Annotated env t → OwnSe env cx t
  fields : ∀ d dd f, InlinesTo env ch d → env.cls d = some dd → f ∈ dd.fields → SplicedField cx.sers f

/-- Every successful call writes what is described. -/
structure OutRec (env : Env) (r : SeRec) : Prop where
  render : ∀ cx a w, OwnSe env cx a.ty → r.render cx a = .ok w → OutArg env cx a w
  flat : ∀ cx a ws, (a.flatten = false ∨ a.ty.isFlattenDict = true) → OwnSe env cx a.ty → r.flat cx a = .ok ws → ∃ w, ws = [w] ∧ OutArg env cx a w
  splice : ∀ cx a ch ws, SpliceArg env cx a ch → r.flat cx a = .ok ws →
    ∃ cd ps, env.cls ch = some cd ∧ OutParts env (outMode cx none) cd.fields (heldR a.v) ps ∧ ws = ps.map (·.2)
  cls : ∀ nm re cv sn v w, r.cls nm re cv sn v = .ok w → OutObj env ⟨nm, re, cv, sn⟩ v w
  toObj : ∀ nm re cv sn c tg v w, (c = none ∨ c = some .any) → r.toObj nm re cv sn c tg v = .ok w → OutAny env ⟨nm, re, cv, sn⟩ v w

theorem enumValue_out {env : Env} : ∀ n e v w, enumValue env e n v = .ok w → EnumOut env e v w
  | 0, _, _, _, h => by cases h
  | n + 1, e, v, w, h => by
    unfold enumValue at h
    split at h
    · cases h
    · split at h
      · rename_i e' m _
        split at h
        · rename_i d hd
          split at h
          · rename_i u hu
            split at h
            · cases h
            · split at h
              · exact .again hd hu (enumValue_out n _ _ _ h)
              · rename_i hne
                cases h
                exact .value hd hu hne
          · cases h
        · cases h
      · rename_i hne
        split at h
        · rename_i d hd
          split at h
          · rename_i e' m hm
            split at h
            · rename_i u hu
              cases h
              rcases enumCall_to hm with ⟨m', rfl, _⟩ | ⟨m', u', h1, h2, h3⟩
              · exact absurd rfl (hne _ _)
              · cases h3
                exact .called hne hd h1 h2 hu
            · cases h
          · cases h
          · cases h
        · cases h

theorem coerceObj_not_none {env : Env} {p v w} (h : coerceObj env p v = .ok w) : v ≠ .none := by
  rintro rfl
  cases h

theorem tagged_as {env : Env} {tg : Tagging} {t r w} (h : (if t.isCls then
    match tg with
    | .external => .ok (.dict .plain [(.str (typename env t), r)])
    | .internal tag => pySetItem r tag (.str (typename env t))
    | .adjacent tag content => pySetItem (.dict .plain [(.str content, r)]) tag (.str (typename env t))
    | .untagged => .ok r
    else (.ok r : Res Val)) = .ok w) : TaggedAs env tg t r w := by
  split at h
  · rename_i hc
    obtain ⟨c, rfl⟩ : ∃ c, t = .cls c := by cases t <;> first | exact ⟨_, rfl⟩ | exact absurd hc (by simp [Ty.isCls])
    have hn : typename env (.cls c) = env.clsName c := rfl
    rw [hn] at h
    cases tg with
    | external => cases h; exact .external
    | internal tag =>
      dsimp only at h
      unfold pySetItem at h
      split at h
      · cases h; exact .internal
      · cases h
    | adjacent tag content =>
      dsimp only [pySetItem] at h
      cases h
      by_cases ht : tag = content
      · subst ht
        have : dictSet (.str tag) (.str (env.clsName c)) [(.str tag, r)] = [(.str tag, .str (env.clsName c))] := by
          simp [dictSet, pyEq_str_right.2 rfl]
        rw [this]
        exact .clash
      · have hne : pyEq (.str content) (.str tag) = false := by
          rw [Bool.eq_false_iff]
          intro hp
          rw [pyEq_str_right] at hp
          exact ht (Val.str.inj hp).symm
        have : dictSet (.str tag) (.str (env.clsName c)) [(.str content, r)] = [(.str content, r), (.str tag, .str (env.clsName c))] := by
          simp [dictSet, hne]
        rw [this]
        exact .adjacent ht
    | untagged => cases h; exact .untagged
  · rename_i hc
    cases h
    exact .plain (fun c ht => hc (by rw [ht]; rfl))

theorem seUnion_out {env : Env} {r : SeRec} {cx : SeCx} {v w} : ∀ ts, seUnion env r cx v ts = .ok w → ∃ pre t post u, ts = pre ++ t :: post ∧
    isInst env t v = true ∧ (∀ s ∈ pre, isInst env s v = false) ∧ r.render cx { ty := t, v := .ok v } = .ok u ∧ TaggedAs env cx.tagging t u w
  | [], h => by cases h
  | t :: ts, h => by
    unfold seUnion at h
    split at h
    · rename_i hi
      split at h
      · cases h
      · rename_i u hu
        exact ⟨[], t, ts, u, rfl, hi, by simp, hu, tagged_as h⟩
    · rename_i hi
      obtain ⟨pre, s, post, u, rfl, h1, h2, h3, h4⟩ := seUnion_out ts h
      refine ⟨t :: pre, s, post, u, rfl, h1, ?_, h3, h4⟩
      intro s' hs'
      rcases List.mem_cons.1 hs' with rfl | hs'
      · simpa using hi
      · exact h2 _ hs'

theorem union_out {env : Env} {r : SeRec} (hr : OutRec env r) {cx : SeCx} {m : OutMode} {ts v w} (hm : outMode (cx.inUnion env) none = m.member env)
    (htg : cx.tagging = m.tagging) (hno : NoneFor m.sers (.union ts)) (ho : (Ty.union ts).isOpt = false) (hown : OwnSe env cx (.union ts))
    (h : seUnion env r (cx.inUnion env) v ts = .ok w) : OutTo env m (.union ts) v w := by
  obtain ⟨pre, t, post, u, rfl, h1, h2, h3, h4⟩ := seUnion_out ts h
  have hout := (hr.render (cx.inUnion env) _ _ (hown.part (.union (t := t) (List.mem_append_right _ List.mem_cons_self) .refl)) h3).value v rfl (by simp)
  dsimp only at hout
  rw [hm] at hout
  have h4' : TaggedAs env m.tagging t u w := by rw [← htg]; exact h4
  refine .union hno ho (fun hn hv => (isInst_nominal hn hv).1 h1) (fun s hs hn hv ha => ?_) hout h4'
  have := (isInst_nominal hn hv).2 ha
  rw [h2 s hs] at this
  cases this

theorem render_out {env : Env} {r : SeRec} (hr : OutRec env r) {cx a v w} (hown : OwnSe env cx a.ty) (hv : a.v = .ok v) (ha : ∀ g, a.ser ≠ some (.fn g))
    (h : renderF env r cx a = .ok w) : OutTo env (outMode cx a.ser) a.ty v w := by
  have hat : ∀ t, OwnSe env cx t → r.render cx { a with ty := t } = .ok w → OutTo env (outMode cx a.ser) t v w := fun t ho hw =>
    (hr.render cx { a with ty := t } w ho hw).value v hv ha
  have hel : ∀ t x y, OwnSe env cx t → r.render cx { ty := t, ser := a.ser, v := .ok x } = .ok y → OutTo env (outMode cx a.ser) t x y := fun t x y ho hw =>
    (hr.render cx { ty := t, ser := a.ser, v := .ok x } y ho hw).value x rfl ha
  have hels : ∀ {t xs ys}, OwnSe env cx t → mapR (fun x => r.render cx { ty := t, ser := a.ser, v := .ok x }) xs = .ok ys →
      xs.length = ys.length ∧ ∀ (i : Nat) a' b', xs[i]? = some a' → ys[i]? = some b' → OutTo env (outMode cx a.ser) t a' b' := fun ho h =>
    ⟨(mapR_ok_length h).symm, fun i a' b' h1 h2 => hel _ a' b' ho (mapR_pos h h1 h2)⟩
  unfold renderF at h
  split at h
  · rename_i s hp
    rw [hv] at h
    exact .chosen (pickSer_some hp) (liftP_ok h)
  · rename_i hp
    have hno : NoneFor (outMode cx a.ser).sers a.ty := pickSer_none' hp
    split at h
    · rename_i g hg; exact absurd hg (ha g)
    · generalize hty : a.ty = ty at h hno hown
      cases ty with
      | none => cases h; exact .leaf hno .none
      | alias nm t => exact .alias hno (hat t (hown.part (.alias .refl)) h)
      | gen c as => exact .gen hno (hat _ ownSe_cls h)
      | other => cases h
      | prim p =>
        rw [hv] at h; dsimp only at h
        split at h
        · exact .leaf hno (.coerced ‹_› (coerceObj_not_none h) (coerce_converts h))
        · cases h; exact .leaf hno (.same (Bool.eq_false_iff.2 ‹_›))
      | newType nm p =>
        rw [hv] at h; dsimp only at h
        split at h
        · exact .leaf hno (.newTypeCoerced ‹_› (coerceObj_not_none h) (coerce_converts h))
        · cases h; exact .leaf hno (.newType (Bool.eq_false_iff.2 ‹_›))
      | any =>
        rw [hv] at h; dsimp only at h
        exact .any hno (hr.toObj _ _ _ _ _ _ _ _ (.inr rfl) h)
      | tvar x =>
        rw [hv] at h; dsimp only at h
        exact .tvar hno (hr.toObj _ _ _ _ _ _ _ _ (.inr rfl) h)
      | enum e =>
        rw [hv] at h; dsimp only at h
        exact .leaf hno (.enum (enumValue_out _ _ _ _ (liftP_ok h)))
      | std k =>
        rw [hv] at h; dsimp only at h
        split at h
        · cases h; exact .leaf hno (.stdKept ‹_›)
        · rename_i hre
          have hre : cx.reuse = false := by simpa using hre
          cases h
          by_cases hs : ∃ k' s, v = .std k' s
          · obtain ⟨k', s, rfl⟩ := hs
            exact .leaf hno (.stdText hre)
          · exact .leaf hno (.stdOther hre (fun k' s e => hs ⟨k', s, e⟩))
      | dt k =>
        rw [hv] at h; dsimp only at h
        split at h
        · cases h; exact .leaf hno (.dtKept ‹_›)
        · rename_i hre
          have hre : cx.reuse = false := by simpa using hre
          split at h
          · cases h; exact .leaf hno (.dtText hre)
          · cases h
      | lit vs =>
        rw [hv] at h; dsimp only at h
        cases h; exact .leaf hno .lit
      | listB k =>
        rw [hv] at h
        by_cases hk : k = .list
        · subst hk; dsimp only at h; cases h; exact .leaf hno .list
        · have : ∃ xs, pyIter v = .ok xs ∧ w = .list xs := by
            cases k <;> first | exact absurd rfl hk | skip
            all_goals
              dsimp only at h
              split at h
              · cases h; exact ⟨_, ‹_›, rfl⟩
              · cases h
          obtain ⟨xs, h1, rfl⟩ := this
          exact .leaf hno (.listLike hk h1)
      | setB k =>
        rw [hv] at h; dsimp only at h
        split at h
        · split at h
          · cases h; exact .leaf hno (.setList ‹_› ‹_›)
          · cases h
        · cases h; exact .leaf hno (.set (Bool.eq_false_iff.2 ‹_›))
      | dequeB =>
        rw [hv] at h; dsimp only at h
        split at h
        · cases h; exact .leaf hno (.deque ‹_›)
        · cases h
      | counterB =>
        rw [hv] at h; dsimp only at h
        split at h
        · cases h; exact .leaf hno .counter
        · cases h
      | dictB k =>
        rw [hv] at h
        cases k <;> first | cases h; exact .leaf hno .dict | cases h
      | tupleB =>
        rw [hv] at h; dsimp only at h
        cases h; exact .leaf hno .tuple
      | cls c =>
        rw [hv] at h; dsimp only at h
        exact .cls hno (hr.cls _ _ _ _ _ _ h)
      | union ts =>
        rw [hv] at h; dsimp only at h
        cases ho : (Ty.union ts).isOpt with
        | true =>
          obtain ⟨t, rfl, ht⟩ := isOpt_shape ho
          rw [ho, if_pos rfl] at h
          split at h
          · cases h; exact .optNone hno
          · rename_i hvn
            exact .opt hno hvn (hel _ _ _ (hown.part (.union (t := t) (by simp) .refl)) h)
        | false =>
          rw [ho, if_neg (by simp)] at h
          split at h
          · rename_i us hus
            have := hown ts .refl us hus
            subst this
            exact union_out hr rfl rfl hno ho hown h
          · cases h
      | list k t =>
        rw [hv] at h; dsimp only at h
        split at h
        · cases h
        · rename_i xs hi
          split at h
          · rename_i ys hys
            cases h
            obtain ⟨h1, h2⟩ := hels (hown.part (.list .refl)) hys
            exact .list hno hi h1 h2
          · cases h
      | deque t =>
        rw [hv] at h; dsimp only at h
        split at h
        · cases h
        · rename_i xs hi
          split at h
          · rename_i ys hys
            cases h
            obtain ⟨h1, h2⟩ := hels (hown.part (.deque .refl)) hys
            exact .deque hno hi h1 h2
          · cases h
      | tupleV t =>
        rw [hv] at h; dsimp only at h
        split at h
        · cases h
        · rename_i xs hi
          split at h
          · rename_i ys hys
            cases h
            obtain ⟨h1, h2⟩ := hels (hown.part (.tupleV .refl)) hys
            exact .tupleV hno hi h1 h2
          · cases h
      | set k t =>
        rw [hv] at h; dsimp only at h
        split at h
        · cases h
        · rename_i xs hi
          split at h
          · rename_i ys hys
            obtain ⟨h1, h2⟩ := hels (hown.part (.set .refl)) hys
            split at h
            · cases h; exact .setList hno ‹_› hi h1 h2
            · exact .set hno (Bool.eq_false_iff.2 ‹_›) hi h1 h2 (mkSet_of h)
          · cases h
      | tuple ts =>
        cases ts with
        | nil => cases h
        | cons t0 ts =>
        rw [hv] at h; dsimp only at h
        split at h
        · rename_i ys hys
          cases h
          refine .tuple hno (by rw [mapR_ok_length hys]; simp) (fun i t x y h1 h2 h3 => ?_)
          have := mapR_pos hys (zipIdx_get h1) h3
          dsimp only at this
          rw [h2] at this
          exact hel _ _ _ (hown.part (.tuple (List.mem_of_getElem? h1) .refl)) this
        · cases h
      | counter t =>
        rw [hv] at h; dsimp only at h
        split at h
        · cases h
        · rename_i kvs hi
          split at h
          · rename_i es hes
            have hlen := mapR_ok_length hes
            refine .counter hno hi ?_ (fun i a' b' h1 h2 => ?_) (mkDict_of h)
            · apply List.ext_getElem?
              intro i
              simp only [List.getElem?_map]
              by_cases hlt : i < kvs.length
              · have hlt' : i < es.length := by omega
                rw [List.getElem?_eq_getElem hlt, List.getElem?_eq_getElem hlt']
                have := mapR_pos hes (List.getElem?_eq_getElem hlt) (List.getElem?_eq_getElem hlt')
                split at this
                · rename_i k hk
                  have := Except.ok.inj this
                  simp [← this]
                · cases this
              · rw [List.getElem?_eq_none (by omega), List.getElem?_eq_none (by omega)]
            · have := mapR_pos hes h1 h2
              split at this
              · rename_i k hk
                cases this
                exact hel _ _ _ (hown.part (.counter .refl)) hk
              · cases this
          · cases h
      | dict k kt vt =>
        rw [hv] at h; dsimp only at h
        split at h
        · cases h
        · rename_i kvs hi
          split at h
          · rename_i es hes
            have key : ∀ (i : Nat) a' b', kvs[i]? = some a' → es[i]? = some b' → OutTo env (outMode cx a.ser) kt a'.1 b'.1 ∧ OutTo env (outMode cx a.ser) vt a'.2 b'.2 := by
              intro i a' b' h1 h2
              have := mapR_pos hes h1 h2
              split at this
              · cases this
              · rename_i k' hk
                split at this
                · rename_i w' hw
                  cases this
                  exact ⟨hel _ _ _ (hown.part (.key .refl)) hk, hel _ _ _ (hown.part (.value .refl)) hw⟩
                · cases this
            exact .dict hno hi (mapR_ok_length hes).symm (fun i a' b' h1 h2 => (key i a' b' h1 h2).1) (fun i a' b' h1 h2 => (key i a' b' h1 h2).2) (mkDict_of h)
          · cases h

theorem missing_out {env : Env} {r : SeRec} (hr : OutRec env r) {cx a w e} (hown : OwnSe env cx a.ty) (hv : a.v = .error e)
    (h : renderF env r cx a = .ok w) : w = .none := by
  unfold renderF at h
  split at h
  · rw [hv] at h; cases h
  · split at h
    · rw [hv] at h; cases h
    · generalize hty : a.ty = ty at h hown
      cases ty
      case none => cases h; rfl
      case alias nm t => exact (hr.render cx { a with ty := t } w (hown.part (.alias .refl)) h).missing e hv
      case gen c as => exact (hr.render cx { a with ty := .cls c } w ownSe_cls h).missing e hv
      case tuple ts => cases ts <;> (rw [hv] at h; cases h)
      case dictB k => cases k <;> (rw [hv] at h; cases h)
      all_goals (rw [hv] at h; cases h)

theorem arg_out {env : Env} {r : SeRec} (hr : OutRec env r) {cx a w} (hown : OwnSe env cx a.ty) (h : renderF env r cx a = .ok w) : OutArg env cx a w := by
  refine ⟨fun v hv ha => render_out hr hown hv ha h, fun v g hv hg => ?_, fun e he => missing_out hr hown he h⟩
  unfold renderF at h
  split at h
  · rename_i s hp
    unfold pickSer at hp
    rw [hg] at hp
    cases hp
  · rw [hg, hv] at h
    exact liftP_ok h

theorem flat_out {env : Env} {r : SeRec} (hr : OutRec env r) {cx a ws} (hf : a.flatten = false ∨ a.ty.isFlattenDict = true) (hown : OwnSe env cx a.ty)
    (h : flatF env r cx a = .ok ws) : ∃ w, ws = [w] ∧ OutArg env cx a w := by
  have key : (match r.render cx a with
      | .ok v => .ok [v]
      | .error e => .error e : Res (List Val)) = .ok ws → ∃ w, ws = [w] ∧ OutArg env cx a w := by
    intro h
    split at h
    · rename_i v hv
      cases h
      exact ⟨v, rfl, hr.render cx a v hown hv⟩
    · cases h
  unfold flatF at h
  dsimp only at h
  split at h
  · exact key h
  · split at h
    · exact key h
    · rcases hf with hf | hf
      · rw [hf] at h
        exact key h
      · split at h
        · split at h
          · rename_i hty; rw [hty] at hf; cases hf
          · rename_i hty; rw [hty] at hf; cases hf
          · exact key h
        · exact key h

theorem heldR_field {f : FieldDef} {v : Res Val} : heldR (seFieldArg f v).v = held ((heldR v).lookup f.name) := by
  cases v with
  | error e => rfl
  | ok x =>
    cases x with
    | inst c attrs =>
      show heldR (getAttr (.inst c attrs) f.name) = held (attrs.lookup f.name)
      unfold getAttr
      dsimp only
      cases attrs.lookup f.name <;> rfl
    | _ => rfl

theorem argOut_field {env : Env} {cx : SeCx} {f : FieldDef} {v : Res Val} {y} (h : OutArg env cx (seFieldArg f v) y) :
    OutField env (outMode cx none) f ((heldR v).lookup f.name) y := by
  cases ha : (heldR v).lookup f.name with
  | none =>
    have : ∃ e, (seFieldArg f v).v = .error e := by
      cases v with
      | error e => exact ⟨e, rfl⟩
      | ok x =>
        cases x with
        | inst c attrs =>
          refine ⟨.py .attr, ?_⟩
          have ha : attrs.lookup f.name = none := ha
          unfold seFieldArg getAttr
          dsimp only
          rw [ha]
        | _ => exact ⟨_, rfl⟩
    obtain ⟨e, he⟩ := this
    rw [h.missing e he]
    exact .missing
  | some x =>
    have hv : (seFieldArg f v).v = .ok x := by
      cases v with
      | error e => cases ha
      | ok z =>
        cases z with
        | inst c attrs => exact seFieldArg_attr (c := c) ha
        | _ => cases ha
    cases hs : f.serializer with
    | none =>
      have := h.value x hv (by intro g; show f.serializer ≠ _; rw [hs]; simp)
      have hm : outMode cx (seFieldArg f v).ser = outMode cx none := by
        show outMode cx f.serializer = _
        rw [hs]
      rw [hm] at this
      exact .field hs this
    | some k =>
      cases k with
      | fn g => exact .fn hs (h.fn x g hv hs)
      | marker =>
        have := h.value x hv (by intro g; show f.serializer ≠ _; rw [hs]; simp)
        have hm : outMode cx (seFieldArg f v).ser = (outMode cx none).plain := by
          show outMode cx f.serializer = _
          rw [hs]; rfl
        rw [hm] at this
        exact .marker hs this

theorem field_out {env : Env} {cx : SeCx} {f : FieldDef} {c attrs y} (h : OutArg env cx (seFieldArg f (.ok (.inst c attrs))) y) :
    OutField env (outMode cx none) f (attrs.lookup f.name) y := argOut_field h

/-- What the fields of an object, or of what stands in its place, are written as. -/
theorem parts_out {env : Env} {r : SeRec} (hr : OutRec env r) {cx : SeCx} {v : Res Val} (hown : ∀ t, Annotated env t → OwnSe env cx t) :
    ∀ (fs : List FieldDef) (ws : List Val), (∀ f ∈ fs, Annotated env f.ty) → (∀ f ∈ fs, takesRest f = true ∨ SplicedField cx.sers f) →
      (∀ f ∈ fs, ∀ ch, inlined f = some ch → ∀ d dd g, InlinesTo env ch d → env.cls d = some dd → g ∈ dd.fields → SplicedField cx.sers g) →
      concatR (fun f => r.flat cx (seFieldArg f v)) fs = .ok ws →
      ∃ ps, OutParts env (outMode cx none) fs (heldR v) ps ∧ ws = ps.map (·.2)
  | [], ws, _, _, _, h => by cases h; exact ⟨[], .nil, rfl⟩
  | f :: fs, ws, han, hsp, hin, h => by
    simp only [concatR] at h
    cases hv : r.flat cx (seFieldArg f v) with
    | error e => rw [hv] at h; cases h
    | ok vs =>
      rw [hv] at h
      dsimp only at h
      split at h
      · cases h
      · rename_i ws' hws
        cases h
        obtain ⟨ps, h1, h2⟩ := parts_out hr hown fs ws' (fun g hg => han g (by simp [hg])) (fun g hg => hsp g (by simp [hg]))
          (fun g hg => hin g (by simp [hg])) hws
        by_cases hpl : f.flatten = false ∨ takesRest f = true
        · obtain ⟨y, rfl, hy⟩ := hr.flat cx _ vs (by
            rcases hpl with h | h
            · exact .inl h
            · exact .inr (by unfold takesRest at h; simp at h; exact h.2)) (hown _ (han f (by simp))) hv
          exact ⟨(f, y) :: ps, .plain hpl (argOut_field hy) h1, by rw [h2]; rfl⟩
        · have hfl : f.flatten = true := by
            cases hh : f.flatten with
            | true => rfl
            | false => exact absurd (.inl hh) hpl
          have hs := (hsp f (by simp)).resolve_left (fun h => hpl (.inr h))
          obtain ⟨ch, hch⟩ := hs.dataclass hfl
          obtain ⟨cd, qs, h3, h4, rfl⟩ := hr.splice cx (seFieldArg f v) ch vs
            ⟨hfl, (inlined_ty hch).2, hs.noFn hfl, fun he => ⟨(hs.noSer hfl he).1, (hs.noSer hfl he).2 ch hch⟩, hown, hin f (by simp) ch hch⟩ hv
          rw [heldR_field] at h4
          exact ⟨qs ++ ps, .inner hch h3 h4 h1, by rw [h2, List.map_append]⟩

theorem pickSer_noneFor {S : List ClsSer} {a : SeArg} (h : a.ser = none → NoneFor S a.ty) : pickSer S a = none := by
  unfold pickSer
  cases hs : a.ser with
  | some _ => rfl
  | none =>
    dsimp only
    rw [List.find?_eq_none]
    intro s hs'
    simp [h hs s (List.mem_reverse.1 hs')]

theorem splice_out {env : Env} {r : SeRec} (hr : OutRec env r) {cx a ch ws} (ha : SpliceArg env cx a ch) (h : flatF env r cx a = .ok ws) :
    ∃ cd ps, env.cls ch = some cd ∧ OutParts env (outMode cx none) cd.fields (heldR a.v) ps ∧ ws = ps.map (·.2) := by
  unfold flatF at h
  dsimp only at h
  rw [pickSer_noneFor (fun he => (ha.noSer he).1)] at h
  rw [if_neg (by simp)] at h
  split at h
  · rename_i g hg; exact absurd hg (ha.noFn g)
  · rw [ha.flat, if_pos rfl] at h
    rcases ha.ty with hty | hty
    · rw [hty] at h
      dsimp only at h
      split at h
      · rename_i cd hc
        obtain ⟨ps, h1, h2⟩ := parts_out hr ha.own cd.fields ws (fun f hf => ⟨ch, cd, f, hc, hf, .refl⟩) (fun f hf => .inr (ha.fields ch cd f .refl hc hf))
          (fun f hf ch' hch d dd g hd => ha.fields d dd g (.step hc hf hch hd)) h
        exact ⟨cd, ps, hc, h1, h2⟩
      · cases h
    · rw [hty] at h
      dsimp only at h
      exact hr.splice cx { a with ty := .cls ch, flatten := true } ch ws ⟨rfl, .inl rfl, ha.noFn, fun he => ⟨(ha.noSer he).2, (ha.noSer he).2⟩, ha.own, ha.fields⟩ h

theorem skips_out {env : Env} {r : SeRec} {cx : SeCx} {cd : ClassDef} {f : FieldDef} {y b} (hp : PlainSkips cd) (hf : f ∈ cd.fields)
    (h : skips env r cx (f.skipRule cd) y = .ok b) : b = true ↔ LeftOut env cx.skipNone cd f y := by
  have hd : f.skipIfDefault.getD cd.skipIfDefaultDflt = skipsDefault cd f := by unfold skipsDefault; cases f.skipIfDefault <;> rfl
  have hn : f.skipIfNone.getD cd.skipIfNoneDflt = skipsNone cd f := by unfold skipsNone; cases f.skipIfNone <;> rfl
  unfold FieldDef.skipRule at h
  rw [hd, hn] at h
  cases h1 : f.skipIf with
  | some p =>
    rw [h1] at h
    dsimp only [skips] at h
    have h := liftP_ok h
    refine ⟨fun hb => .user h1 (by rw [h, hb]), fun hl => ?_⟩
    cases hl with
    | user h2 h3 => rw [h1] at h2; cases h2; rw [h] at h3; exact Except.ok.inj h3
    | ifFalse h2 => rw [h1] at h2; cases h2
    | ifDefault h2 => rw [h1] at h2; cases h2
    | ifNone h2 => rw [h1] at h2; cases h2
    | absent h2 => exact absurd (.inl (by rw [h1]; rfl)) h2
  | none =>
    rw [h1] at h
    dsimp only at h
    cases h2 : f.skipIfFalse with
    | true =>
      rw [h2, if_pos rfl] at h
      cases h
      refine ⟨fun hb => .ifFalse h1 h2 (truthy_false_iff.1 (by simpa using hb)), fun hl => ?_⟩
      cases hl with
      | user h3 => rw [h1] at h3; cases h3
      | ifFalse _ _ h3 => rw [truthy_false_iff.2 h3]; rfl
      | ifDefault _ h3 => rw [h2] at h3; cases h3
      | ifNone _ h3 => rw [h2] at h3; cases h3
      | absent h3 => exact absurd (.inr (.inl h2)) h3
    | false =>
      rw [h2, if_neg (by simp)] at h
      cases h3 : skipsDefault cd f with
      | true =>
        rw [h3, if_pos rfl] at h
        have hfin : ∀ d, f.dflt = some d → (∀ c as, d ≠ .inst c as) → b = pyEq y d := by
          intro d hd hi
          rw [hd] at h
          unfold skips at h
          cases d <;> first | exact (Except.ok.inj h).symm | exact absurd rfl (hi _ _)
        refine ⟨fun hb => ?_, fun hl => ?_⟩
        · cases h4 : f.dflt with
          | none => rw [h4] at h; dsimp only [skips] at h; cases h; cases hb
          | some d =>
            have := hfin d h4 (fun c as e => hp f hf h1 h2 h3 c as (by rw [h4, e]))
            exact .ifDefault h1 h2 h3 h4 (by rw [← this, hb])
        · cases hl with
          | user h5 => rw [h1] at h5; cases h5
          | ifFalse _ h5 => rw [h2] at h5; cases h5
          | ifDefault _ _ _ h5 h6 => rw [hfin _ h5 (fun c as e => hp f hf h1 h2 h3 c as (by rw [h5, e])), h6]
          | ifNone _ _ h5 => rw [h3] at h5; cases h5
          | absent h5 => exact absurd (.inr (.inr (.inl h3))) h5
      | false =>
        rw [h3, if_neg (by simp)] at h
        cases h4 : skipsNone cd f with
        | true =>
          rw [h4, if_pos rfl] at h
          refine ⟨fun hb => ?_, fun hl => ?_⟩
          · subst hb
            unfold skips at h
            cases y <;> first | exact .ifNone h1 h2 h3 h4 | cases h
          · cases hl with
            | user h5 => rw [h1] at h5; cases h5
            | ifFalse _ h5 => rw [h2] at h5; cases h5
            | ifDefault _ _ h5 => rw [h3] at h5; cases h5
            | ifNone => cases h; rfl
            | absent h5 => exact absurd (.inr (.inr (.inr h4))) h5
        | false =>
          rw [h4, if_neg (by simp)] at h
          have hno : ¬ HasRule cd f := by
            unfold HasRule
            rw [h1, h2, h3, h4]
            simp
          refine ⟨fun hb => ?_, fun hl => ?_⟩
          · subst hb
            unfold skips at h
            cases y <;> first | exact .absent hno (Except.ok.inj h) | cases h
          · cases hl with
            | user h5 => rw [h1] at h5; cases h5
            | ifFalse _ h5 => rw [h2] at h5; cases h5
            | ifDefault _ _ h5 => rw [h3] at h5; cases h5
            | ifNone _ _ _ h5 => rw [h4] at h5; cases h5
            | absent _ h5 => unfold skips at h; dsimp only at h; rw [h5] at h; cases h; rfl

theorem fields_out {env : Env} {r : SeRec} (hr : OutRec env r) {cx : SeCx} {cd : ClassDef} {c attrs} (hp : PlainSkips cd) :
    ∀ (fs : List FieldDef) (res res' : List (Val × Val)), (∀ f ∈ fs, f ∈ cd.fields ∧ f.flatten = false ∧ OwnSe env cx f.ty) →
      (fs.map (fun f => f.conv cd.seCase)).Nodup → (∀ a ∈ res, ∀ f ∈ fs, pyEq a.1 (.str (f.conv cd.seCase)) = false) →
      seFields env r cx cd (.inst c attrs) res fs = .ok res' →
      ∃ es, res' = res ++ es ∧ OutFields env (outMode cx none) cd attrs fs es
  | [], res, res', _, _, _, h => by cases h; exact ⟨[], by simp, .nil⟩
  | f :: fs, res, res', hfs, hnd, hnew, h => by
    obtain ⟨hmem, hfl, hown⟩ := hfs f (by simp)
    rw [List.map_cons, List.nodup_cons] at hnd
    unfold seFields seField at h
    cases hv : r.flat cx (seFieldArg f (.ok (.inst c attrs))) with
    | error e => rw [hv] at h; cases h
    | ok vs =>
      obtain ⟨y, rfl, hy⟩ := hr.flat cx _ vs (.inl hfl) hown hv
      rw [hv, lvals_unflat hfl] at h
      dsimp only [joinVals] at h
      have hfo := field_out hy
      cases hsk : skips env r cx (f.skipRule cd) y with
      | error e => rw [hsk] at h; cases h
      | ok b =>
        have hiff := skips_out hp hmem hsk
        rw [hsk] at h
        cases b with
        | true =>
          dsimp only at h
          obtain ⟨es, h1, h2⟩ := fields_out hr hp fs res res' (fun g hg => hfs g (by simp [hg])) hnd.2 (fun a ha g hg => hnew a ha g (by simp [hg])) h
          exact ⟨es, h1, .out hfo (hiff.1 rfl) h2⟩
        | false =>
          dsimp only [assign] at h
          rw [dictSet_new (fun kv hkv => hnew kv hkv f (by simp))] at h
          obtain ⟨es, h1, h2⟩ := fields_out hr hp fs _ res' (fun g hg => hfs g (by simp [hg])) hnd.2 (fun a ha g hg => by
            rcases List.mem_append.1 ha with ha | ha
            · exact hnew a ha g (by simp [hg])
            · rw [List.mem_singleton.1 ha, Bool.eq_false_iff]
              intro hpe
              rw [pyEq_str_right] at hpe
              exact hnd.1 (Val.str.inj hpe ▸ List.mem_map_of_mem hg)) h
          exact ⟨_ :: es, by rw [h1]; simp, .entry hfo (fun hl => by have := hiff.2 hl; cases this) h2⟩

theorem rows_out {env : Env} {r : SeRec} (hr : OutRec env r) {cx : SeCx} {c attrs} : ∀ (fs : List FieldDef) (ws : List Val),
    (∀ f ∈ fs, f.flatten = false ∧ OwnSe env cx f.ty) → concatR (fun f => r.flat cx (seFieldArg f (.ok (.inst c attrs)))) fs = .ok ws →
    fs.length = ws.length ∧ ∀ (i : Nat) f y, fs[i]? = some f → ws[i]? = some y → OutField env (outMode cx none) f (attrs.lookup f.name) y
  | [], ws, _, h => by cases h; exact ⟨rfl, by simp⟩
  | f :: fs, ws, hfs, h => by
    obtain ⟨hfl, hown⟩ := hfs f (by simp)
    simp only [concatR] at h
    cases hv : r.flat cx (seFieldArg f (.ok (.inst c attrs))) with
    | error e => rw [hv] at h; cases h
    | ok vs =>
      obtain ⟨y, rfl, hy⟩ := hr.flat cx _ vs (.inl hfl) hown hv
      rw [hv] at h
      dsimp only at h
      split at h
      · cases h
      · rename_i ws' hws
        cases h
        obtain ⟨h1, h2⟩ := rows_out hr fs ws' (fun g hg => hfs g (by simp [hg])) hws
        refine ⟨by simp [h1], fun i g z hg hz => ?_⟩
        cases i with
        | zero =>
          simp at hg hz
          subst hg; subst hz
          exact field_out hy
        | succ i => exact h2 i g z (by simpa using hg) (by simpa using hz)

theorem flatChild_none {f : FieldDef} (h : f.flatten = false) : f.flatChild = none := by unfold FieldDef.flatChild; rw [h]; rfl

theorem flatChild_some {f : FieldDef} {ch} (h : inlined f = some ch) : f.flatChild = some ch := by
  obtain ⟨h1, h2⟩ := inlined_ty h
  unfold FieldDef.flatChild
  rw [h1]
  rcases h2 with h2 | h2 <;> (rw [h2]; rfl)

theorem Spec.SplicedField.notRest {S : List ClsSer} {f : FieldDef} (h : SplicedField S f) : takesRest f = false := by
  cases hfl : f.flatten with
  | false => unfold takesRest; rw [hfl]; rfl
  | true =>
    obtain ⟨ch, hch⟩ := h.dataclass hfl
    unfold takesRest
    rcases (inlined_ty hch).2 with h | h <;> (rw [h]; simp [Ty.isFlattenDict])

/-- The names under which the parts of a field are stored. -/
theorem parts_names {env : Env} {case : Option (String → String)} {rank : ClassId → Nat} {m S}
    (hrank : ∀ c cd f ch, env.cls c = some cd → f ∈ cd.fields → inlined f = some ch → rank ch < rank c) :
    ∀ n (fs : List FieldDef) attrs ps, (∀ f ∈ fs, 0 < n ∧ ∀ ch, inlined f = some ch → rank ch + 1 < n) → (∀ f ∈ fs, takesRest f = false) →
      (∀ f ∈ fs, ∀ ch, inlined f = some ch → ∀ d dd g, InlinesTo env ch d → env.cls d = some dd → g ∈ dd.fields → SplicedField S g) → OutParts env m fs attrs ps →
      fs.flatMap (lvals env case n) = ps.map (fun p => LV.key (p.1.conv case))
  | n, [], attrs, ps, _, _, _, h => by cases h; rfl
  | 0, f :: fs, attrs, ps, hn, _, _, h => absurd (hn f (by simp)).1 (by simp)
  | n + 1, f :: fs, attrs, ps, hn, hnr, hin, h => by
    rw [List.flatMap_cons]
    cases h with
    | plain hf hy hps =>
      have hf : f.flatten = false := hf.resolve_right (by rw [hnr f (by simp)]; simp)
      rw [parts_names hrank (n + 1) fs attrs _ (fun g hg => hn g (by simp [hg])) (fun g hg => hnr g (by simp [hg])) (fun g hg => hin g (by simp [hg])) hps, lvals_unflat hf]
      rfl
    | inner hch hc hqs hps =>
      rw [parts_names hrank (n + 1) fs attrs _ (fun g hg => hn g (by simp [hg])) (fun g hg => hnr g (by simp [hg])) (fun g hg => hin g (by simp [hg])) hps, List.map_append]
      congr 1
      rw [lvals, flatChild_some hch]
      dsimp only
      rw [hc]
      dsimp only
      have hb := (hn f (by simp)).2 _ hch
      refine parts_names hrank n _ _ _ (fun g hg => ⟨by omega, fun ch' hch' => ?_⟩) (fun g hg => ?_)
        (fun g hg ch' hch' d dd g' hd => hin f (by simp) _ hch d dd g' (.step hc hg hch' hd)) hqs
      · have := hrank _ _ _ _ hc hg hch'
        omega
      · exact (hin f (by simp) _ hch _ _ g .refl hc hg).notRest
termination_by n fs => (n, fs.length)

theorem assignAll_keys {β : Type} {k : β → String} {w : β → Val} : ∀ (ps : List β) (res : List (Val × Val)),
    assignAll res (ps.map (fun p => LV.key (k p))) (ps.map w) = (ps.map (fun p => (Val.str (k p), w p))).foldl (fun acc e => dictSet e.1 e.2 acc) res
  | [], res => rfl
  | p :: ps, res => by
    show assignAll (dictSet (.str (k p)) (w p) res) _ _ = _
    rw [assignAll_keys ps]
    rfl

theorem joinVals_together {ws sub} (h : joinVals ws = .ok sub) : sub = together ws := by
  unfold joinVals at h
  split at h
  · cases h
  · cases h; rfl
  · rename_i h1 h2
    cases h
    unfold together
    split
    · exact absurd rfl (h2 _)
    · rfl

theorem assign_keys {β : Type} {k : β → String} {w : β → Val} {ps : List β} {res res' : List (Val × Val)} {sub} (hj : joinVals (ps.map w) = .ok sub)
    (h : assign res (ps.map (fun p => LV.key (k p))) sub = .ok res') :
    res' = (ps.map (fun p => (Val.str (k p), w p))).foldl (fun acc e => dictSet e.1 e.2 acc) res := by
  match ps, hj, h with
  | [], hj, h => cases hj
  | [p], hj, h => cases hj; cases h; rfl
  | p :: q :: ps, hj, h =>
    cases hj
    rw [← assignAll_keys]
    dsimp only [assign, pyIter, List.map] at h
    split at h
    · cases h; rfl
    · cases h

/-- The dict holds these entries, some key having taken the value of another entry with an equal key. -/
structure Builds (es res : List (Val × Val)) : Prop where
  from_ : ∀ z ∈ res, ∃ e ∈ es, ∃ e' ∈ es, z = (e.1, e'.2) ∧ (e.1 = e'.1 ∨ pyEq e.1 e'.1 = true)
  covers : ∀ e ∈ es, ∃ z ∈ res, e.1 = z.1 ∨ pyEq z.1 e.1 = true
  apart : (res.map (·.1)).Pairwise (fun a b => pyEq a b = false)
  same : (es.map (·.1)).Pairwise (fun a b => pyEq a b = false) → res = es

theorem Builds.toMap {es res} (h : Builds es res) : MapFrom .plain es (.dict .plain res) := .mk h.from_ h.covers h.apart h.same

theorem Builds.nil : Builds [] [] := ⟨by simp, by simp, by simp, fun _ => rfl⟩

theorem pairwise_snoc {es : List (Val × Val)} {k v : Val} (h : ((es ++ [(k, v)]).map (·.1)).Pairwise (fun a b => pyEq a b = false)) :
    (es.map (·.1)).Pairwise (fun a b => pyEq a b = false) ∧ ∀ e ∈ es, pyEq e.1 k = false := by
  rw [List.map_append, List.pairwise_append] at h
  exact ⟨h.1, fun e he => h.2.2 _ (List.mem_map_of_mem he) k (by simp)⟩

theorem Builds.set {es res k v} (h : Builds es res) : Builds (es ++ [(k, v)]) (dictSet k v res) := by
  have hkey : ∀ z ∈ res, ∃ e ∈ es, e.1 = z.1 := fun z hz => by obtain ⟨e, h1, _, _, rfl, _⟩ := h.from_ z hz; exact ⟨e, h1, rfl⟩
  refine ⟨fun z hz => ?_, fun e he => ?_, ?_, fun hp => ?_⟩
  · rcases dictSet_at (k := k) (kvs := res) with ⟨pre, k', v', post, rfl, h1, h2, h3, h4⟩ | ⟨h1, h2, h3⟩
    · rw [h4] at hz
      have old : z ∈ pre ++ (k', v') :: post → ∃ e ∈ es ++ [(k, v)], ∃ e' ∈ es ++ [(k, v)], z = (e.1, e'.2) ∧ (e.1 = e'.1 ∨ pyEq e.1 e'.1 = true) := fun hz => by
        obtain ⟨e, h1, e', h2, h3⟩ := h.from_ z hz
        exact ⟨e, by simp [h1], e', by simp [h2], h3⟩
      rcases List.mem_append.1 hz with hz | hz
      · exact old (List.mem_append_left _ hz)
      · rcases List.mem_cons.1 hz with rfl | hz
        · obtain ⟨e, h5, h6⟩ := hkey (k', v') (by simp)
          exact ⟨e, by simp [h5], (k, v), by simp, by rw [h6], .inr (by rw [h6]; exact h2)⟩
        · exact old (by simp [hz])
    · rw [h3] at hz
      rcases List.mem_append.1 hz with hz | hz
      · obtain ⟨e, h1, e', h2, h3⟩ := h.from_ z hz
        exact ⟨e, by simp [h1], e', by simp [h2], h3⟩
      · rw [List.mem_singleton.1 hz]
        exact ⟨(k, v), by simp, (k, v), by simp, rfl, .inl rfl⟩
  · rcases List.mem_append.1 he with he | he
    · obtain ⟨z, h1, h2⟩ := h.covers e he
      obtain ⟨z', h3, h4⟩ := (dictSet_covers (k := k) (v := v)).2 z h1
      exact ⟨z', h3, by rw [h4]; exact h2⟩
    · rw [List.mem_singleton.1 he]
      exact dictSet_covers.1
  · rcases dictSet_at (k := k) (kvs := res) with ⟨pre, k', v', post, rfl, h1, h2, h3, h4⟩ | ⟨h1, h2, h3⟩
    · rw [h4]
      have := h.apart
      simpa using this
    · rw [h3, List.map_append, List.pairwise_append]
      refine ⟨h.apart, by simp, fun a ha b hb => ?_⟩
      obtain ⟨e, he, rfl⟩ := List.mem_map.1 ha
      simp at hb
      subst hb
      exact h1 e he
  · obtain ⟨h1, h2⟩ := pairwise_snoc hp
    rw [h.same h1]
    exact dictSet_new h2

theorem Builds.keep {es res k v} (h : Builds es res) (hk : (getVal k res).isSome = true) : Builds (es ++ [(k, v)]) res := by
  rcases dictSet_at (k := k) (kvs := res) with ⟨pre, k', v', post, hres, h1, h2, h3, h4⟩ | ⟨h1, h2, h3⟩
  · refine ⟨fun z hz => ?_, fun e he => ?_, h.apart, fun hp => ?_⟩
    · obtain ⟨e, h1, e', h2, h3⟩ := h.from_ z hz
      exact ⟨e, by simp [h1], e', by simp [h2], h3⟩
    · rcases List.mem_append.1 he with he | he
      · exact h.covers e he
      · rw [List.mem_singleton.1 he]
        exact ⟨(k', v'), by rw [hres]; simp, .inr h2⟩
    · obtain ⟨h5, h6⟩ := pairwise_snoc hp
      have := h6 (k', v') (by rw [← h.same h5, hres]; simp)
      rw [show pyEq k' k = false from this] at h2
      cases h2
  · rw [h2] at hk; cases hk

theorem Builds.sets {es res} : ∀ {xs : List (Val × Val)}, Builds es res → Builds (es ++ xs) (xs.foldl (fun acc e => dictSet e.1 e.2 acc) res) := by
  intro xs
  induction xs generalizing es res with
  | nil => intro h; simpa using h
  | cons x xs ih =>
    intro h
    have := ih (h.set (k := x.1) (v := x.2))
    simpa using this

theorem Builds.merge {es res} : ∀ {xs : List (Val × Val)}, Builds es res → Builds (es ++ xs) (mergeDict res xs) := by
  intro xs
  induction xs generalizing es res with
  | nil => intro h; simpa [mergeDict] using h
  | cons x xs ih =>
    intro h
    obtain ⟨k, v⟩ := x
    unfold mergeDict
    by_cases hk : (getVal k res).isSome = true
    · rw [if_pos hk]
      have := ih (h.keep (v := v) hk)
      simpa using this
    · rw [if_neg hk]
      have := ih (h.set (k := k) (v := v))
      simpa using this

theorem entries_out {env : Env} {r : SeRec} (hr : OutRec env r) {cx : SeCx} {cd : ClassDef} {c attrs} (hp : PlainSkips cd) (hc : env.cls c = some cd)
    (hown : ∀ t, Annotated env t → OwnSe env cx t) (hS : SplicesAll env cx.sers c) :
    ∀ (fs : List FieldDef) (es0 res res' : List (Val × Val)), (∀ f ∈ fs, f ∈ cd.fields) → Builds es0 res → seFields env r cx cd (.inst c attrs) res fs = .ok res' →
      ∃ es, Builds (es0 ++ es) res' ∧ OutEntries env (outMode cx none) cd attrs fs es
  | [], es0, res, res', _, hB, h => by cases h; exact ⟨[], by simpa using hB, .nil⟩
  | f :: fs, es0, res, res', hfs, hB, h => by
    have hmem := hfs f (by simp)
    obtain ⟨rank, hle, hrank⟩ := hS.acyclic
    unfold seFields seField at h
    cases hv : r.flat cx (seFieldArg f (.ok (.inst c attrs))) with
    | error e => rw [hv] at h; cases h
    | ok vs =>
      cases hrest : takesRest f with
      | true =>
        have hty : f.ty.isFlattenDict = true := by unfold takesRest at hrest; simp at hrest; exact hrest.2
        have hlv : lvals env cd.seCase (env.classes.length + 1) f = [.mark] := by
          have h1 : f.flatChild = none := by
            unfold FieldDef.flatChild
            split
            · rfl
            · split
              · rename_i h; rw [h] at hty; cases hty
              · rename_i h; rw [h] at hty; cases hty
              · rfl
          rw [lvals, h1]
          dsimp only
          rw [if_pos (show f.flatDict = true from hrest)]
        obtain ⟨y, rfl, hy⟩ := hr.flat cx _ vs (.inr hty) (hown _ ⟨c, cd, f, hc, hmem, .refl⟩) hv
        have hfo := field_out hy
        rw [hv, hlv] at h
        dsimp only [joinVals] at h
        cases htr : truthy env y with
        | false =>
          rw [htr, if_neg (by simp)] at h
          dsimp only at h
          obtain ⟨es, h1, h2⟩ := entries_out hr hp hc hown hS fs es0 res res' (fun g hg => hfs g (by simp [hg])) hB h
          exact ⟨es, h1, .rest (kvs := []) hrest hfo (fun h => absurd (truthy_false_iff.1 htr) h) (fun _ => rfl) h2⟩
        | true =>
          rw [htr, if_pos rfl] at h
          cases hit : pyItems y with
          | error e => rw [hit] at h; cases h
          | ok kvs =>
            rw [hit] at h
            dsimp only at h
            obtain ⟨es, h1, h2⟩ := entries_out hr hp hc hown hS fs (es0 ++ kvs) _ res' (fun g hg => hfs g (by simp [hg])) hB.merge h
            refine ⟨kvs ++ es, by rw [← List.append_assoc]; exact h1, .rest hrest hfo (fun _ => ?_) (fun h => absurd h (truthy_true_iff.1 htr)) h2⟩
            cases y <;> first | cases hit; done | exact ⟨_, by cases hit; rfl⟩
      | false =>
      have hcat : concatR (fun f => r.flat cx (seFieldArg f (.ok (.inst c attrs)))) [f] = .ok vs := by
        simp [concatR, hv]
      obtain ⟨ps, hps, rfl⟩ := parts_out hr hown [f] vs (by simpa using ⟨c, cd, f, hc, hmem, .refl⟩) (by simpa using hS.own cd f hc hmem)
        (fun g hg ch hch d dd g' hd => by rw [List.mem_singleton.1 hg] at hch; exact hS.inner cd f ch d dd g' hc hmem hch hd) hcat
      have hnames : lvals env cd.seCase (env.classes.length + 1) f = ps.map (fun p => LV.key (p.1.conv cd.seCase)) := by
        have := parts_names (case := cd.seCase) hrank (env.classes.length + 1) [f] _ ps (fun g hg => ⟨by omega, fun ch hch => by
          rw [List.mem_singleton.1 hg] at hch
          have h1 := hrank c cd f ch hc hmem hch
          have h2 := hle c
          omega⟩) (by simpa using hrest) (fun g hg ch hch d dd g' hd => by rw [List.mem_singleton.1 hg] at hch; exact hS.inner cd f ch d dd g' hc hmem hch hd) hps
        simpa using this
      rw [hv, hnames] at h
      dsimp only at h
      cases hj : joinVals (ps.map (·.2)) with
      | error e => rw [hj] at h; cases h
      | ok sub =>
        rw [hj] at h
        dsimp only at h
        have hsub := joinVals_together hj
        split at h
        · cases h
        · rename_i res1 hres1
          split at hres1
          · rename_i hm
            match ps, hm with
            | [], hm => cases hm
            | _ :: _, hm => cases hm
          · cases hsk : skips env r cx (f.skipRule cd) sub with
            | error e => rw [hsk] at hres1; cases hres1
            | ok b =>
              have hiff := skips_out hp hmem hsk
              rw [hsub] at hiff
              rw [hsk] at hres1
              cases b with
              | true =>
                cases hres1
                obtain ⟨es, h1, h2⟩ := entries_out hr hp hc hown hS fs es0 _ res' (fun g hg => hfs g (by simp [hg])) hB h
                exact ⟨es, h1, .out hrest hps (hiff.1 rfl) h2⟩
              | false =>
                have := assign_keys (k := fun p : FieldDef × Val => p.1.conv cd.seCase) hj hres1
                subst this
                obtain ⟨es, h1, h2⟩ := entries_out hr hp hc hown hS fs _ _ res' (fun g hg => hfs g (by simp [hg])) hB.sets h
                exact ⟨_ ++ es, by rw [← List.append_assoc]; exact h1, .entries hrest hps (fun hl => by have := hiff.2 hl; cases this) h2⟩

theorem dictOf_map {es : List (Val × Val)} : MapFrom .plain es (.dict .plain (dictOf es)) :=
  .mk (fun _ hz =>
    let ⟨e', h1, h2, h3⟩ := dictOf_from hz
    let ⟨e, h4, h5⟩ := List.mem_map.1 (dictOf_parts hz).1
    ⟨e, h4, e', h1, by rw [h5, ← h2], by rw [h5]; exact h3⟩) dictOf_covers dictOf_distinct dictOf_id

theorem seFieldsOf_eq {cd : ClassDef} : cd.seFieldsOf = cd.fields.filter serializable := by
  unfold ClassDef.seFieldsOf
  congr 1
  funext f
  unfold serializable
  cases f.skip <;> cases f.skipSer <;> rfl

theorem outMode_cls {env : Env} {c} {cd : ClassDef} {nm re cv sn} :
    outMode (clsSeCx env c cd nm re cv sn) none = OutGiven.inside env cd ⟨nm, re, cv, sn⟩ := rfl

theorem obj_out {env : Env} {r : SeRec} (hr : OutRec env r) (hU : DistinctUnions env) {nm re cv sn v w} (h : clsF env r nm re cv sn v = .ok w) :
    OutObj env ⟨nm, re, cv, sn⟩ v w := by
  unfold clsF at h
  split at h
  · rename_i c attrs
    split at h
    · cases h
    · rename_i cd hc
      dsimp only at h
      rw [seFieldsOf_eq] at h
      have hown : ∀ f ∈ cd.fields, OwnSe env (clsSeCx env c cd nm re cv sn) f.ty := fun f hf => ownSe_class hU ⟨c, cd, f, hc, hf, .refl⟩
      cases ht : cd.transparent with
      | true =>
        rw [ht, if_pos rfl] at h
        cases hfs : cd.fields.filter serializable with
        | nil => rw [hfs] at h; cases h
        | cons f rest =>
          rw [hfs] at h
          dsimp only at h
          have hmem : f ∈ cd.fields := (List.mem_filter.1 (hfs ▸ List.mem_cons_self : f ∈ cd.fields.filter serializable)).1
          cases hfl : f.flatten with
          | true => exact .other hc (by simp [ht]) (by simp [ht]) (by simp [ht]) (fun _ g rest' hg => by rw [hfs] at hg; cases hg; exact hfl)
          | false =>
            split at h
            · rename_i vs hvs
              obtain ⟨y, rfl, hy⟩ := hr.flat _ _ vs (.inl hfl) (hown f hmem) hvs
              cases h
              exact .through hc ht hfs hfl (field_out hy)
            · cases h
      | false =>
        rw [ht, if_neg (by simp)] at h
        by_cases hs : OneEntryEach cd
        · have hall : ∀ f ∈ cd.fields.filter serializable, f ∈ cd.fields ∧ f.flatten = false ∧ OwnSe env (clsSeCx env c cd nm re cv sn) f.ty := fun f hf =>
            have hm := (List.mem_filter.1 hf).1
            ⟨hm, hs.flat f hm, hown f hm⟩
          cases nm with
          | true =>
            rw [if_pos rfl] at h
            by_cases hp : PlainSkips cd
            · split at h
              · rename_i res hres
                cases h
                obtain ⟨es, h1, h2⟩ := fields_out hr hp _ [] res hall hs.wires (by simp) hres
                rw [h1]
                exact .dict hc rfl ⟨ht, hs⟩ hp h2
              · cases h
            · exact .other hc (fun _ _ hh => hp hh.2) (fun _ hh => by cases hh) (fun _ _ => ⟨rfl, hp⟩) (by simp [ht])
          | false =>
            rw [if_neg (by simp)] at h
            split at h
            · rename_i ws hws
              cases h
              obtain ⟨h1, h2⟩ := rows_out hr _ ws (fun f hf => (hall f hf).2) hws
              exact .tuple hc rfl ⟨ht, hs⟩ h1 h2
            · cases h
        · have hns : ¬ SimpleSe cd := fun hh => hs hh.entries
          have hown' : ∀ t, Annotated env t → OwnSe env (clsSeCx env c cd nm re cv sn) t := fun t hat => ownSe_class hU hat
          by_cases hS : SplicesAll env (OutGiven.inside env cd ⟨nm, re, cv, sn⟩).sers c
          · cases nm with
            | true =>
              rw [if_pos rfl] at h
              by_cases hp : PlainSkips cd
              · split at h
                · rename_i res hres
                  cases h
                  obtain ⟨es, h1, h2⟩ := entries_out hr hp hc hown' hS _ [] [] res (fun f hf => (List.mem_filter.1 hf).1) .nil hres
                  exact .spliced hc rfl hns ht hS hp h2 h1.toMap
                · cases h
              · exact .other hc (fun _ _ hh => hp hh.2) (fun _ hh => by cases hh) (fun _ _ => ⟨rfl, hp⟩) (by simp [ht])
            | false =>
              rw [if_neg (by simp)] at h
              split at h
              · rename_i ws hws
                cases h
                obtain ⟨ps, h1, rfl⟩ := parts_out hr hown' _ ws (fun f hf => ⟨c, cd, f, hc, (List.mem_filter.1 hf).1, .refl⟩)
                  (fun f hf => hS.own cd f hc (List.mem_filter.1 hf).1)
                  (fun f hf ch hch d dd g hd => hS.inner cd f ch d dd g hc (List.mem_filter.1 hf).1 hch hd) hws
                exact .row hc rfl hns ht hS h1
              · cases h
          · exact .other hc (fun _ _ hh => hns hh.1) (fun _ _ hh => hns hh) (fun _ hh => absurd hh hS) (by simp [ht])
  · cases h

theorem typeOf_iff {v t} : SameClass v t ↔ typeOf v = t := by
  constructor
  · intro h; cases h <;> rfl
  · rintro rfl
    cases v with
    | set b xs => cases b <;> constructor
    | dict k kvs => cases k <;> constructor
    | _ => constructor

theorem find_first_ser {S : List ClsSer} {t s} (h : S.find? (fun s => s.handles t) = some s) : FirstFor S t s := by
  obtain ⟨h1, pre, post, rfl, h2⟩ := List.find?_eq_some_iff_append.1 h
  exact ⟨pre, post, rfl, h1, fun s' hs' => by simpa using h2 s' hs'⟩

theorem find_nonefor_ser {S : List ClsSer} {t} (h : S.find? (fun s => s.handles t) = none) : NoneFor S t := by
  intro s hs
  simpa using List.find?_eq_none.1 h s hs

theorem cacheSe_out {env : Env} {r : SeRec} (hr : OutRec env r) {t nm re cv sn v w} (hU : DistinctUnionsIn env t) (h : cacheSe env r t re cv sn v = .ok w) :
    OutTo env (OutGiven.annotated env ⟨nm, re, cv, sn⟩) t v w := by
  unfold cacheSe at h
  split at h
  · dsimp only at h
    have key : ∀ w', r.render { named := true, reuse := re.getD true, conv := cv.getD false, skipNone := sn, coerce := false, unions := env.unionsOfTy t, tagging := .external, sers := env.gser } { ty := t, v := .ok v } = .ok w' →
        OutTo env (OutGiven.annotated env ⟨nm, re, cv, sn⟩) t v w' := fun w' hw => (hr.render _ _ _ (fun us hus => own_inside hU us hus) hw).value v rfl (by simp)
    split at h
    · cases h
    · rename_i hw
      split at h
      · cases h
      · cases h; exact key _ hw
    · rename_i hw
      cases h; exact key _ hw
  · cases h

theorem text_out {env : Env} {g : OutGiven} {t v w} (hno : NoneFor env.gser t) (ht : SameClass v t) (hv : Texty v) (h : OutTo env (g.annotated env) t v w) :
    OutAny env g v w := by
  have hre : ∀ {b}, (OutGiven.annotated env g).reuse = b → (b = true → g.reuse ≠ some false) ∧ (b = false → g.reuse = some false) := by
    intro b hb
    unfold OutGiven.annotated at hb
    dsimp only at hb
    subst hb
    cases g.reuse with
    | none => simp
    | some b => cases b <;> simp
  cases hv with
  | std =>
    cases ht
    cases h with
    | chosen hc _ =>
      obtain ⟨pre, post, h1, h2, h3⟩ := hc
      rw [hno _ (h1 ▸ List.mem_append_right pre List.mem_cons_self : _ ∈ (OutGiven.annotated env g).sers)] at h2
      cases h2
    | leaf _ hl =>
      cases hl with
      | stdKept h => exact .stdKept hno ((hre h).1 rfl)
      | stdText h => exact .stdText hno ((hre h).2 rfl)
      | stdOther _ h => exact absurd rfl (h _ _)
  | dt =>
    cases ht
    cases h with
    | chosen hc _ =>
      obtain ⟨pre, post, h1, h2, h3⟩ := hc
      rw [hno _ (h1 ▸ List.mem_append_right pre List.mem_cons_self : _ ∈ (OutGiven.annotated env g).sers)] at h2
      cases h2
    | leaf _ hl =>
      cases hl with
      | dtKept h => exact .dtKept hno ((hre h).1 rfl)
      | dtText h => exact .dtText hno ((hre h).2 rfl)

theorem plain_out {env : Env} {r : SeRec} (hr : OutRec env r) {nm re cv sn c v w} (hc : c = none ∨ c = some .any)
    (h : toObjPlain env r nm re cv sn c v = .ok w) : OutAny env ⟨nm, re, cv, sn⟩ v w := by
  have hU : ∀ t, ((∃ k, t = Ty.std k) ∨ ∃ k, t = Ty.dt k) → DistinctUnionsIn env t := by
    rintro t (⟨k, rfl⟩ | ⟨k, rfl⟩) ts us h <;> cases h
  have hels : ∀ {xs ys}, mapR (fun x => r.toObj nm re cv sn none .external x) xs = .ok ys →
      xs.length = ys.length ∧ ∀ (i : Nat) a b, xs[i]? = some a → ys[i]? = some b → OutAny env ⟨nm, re, cv, sn⟩ a b := fun h =>
    ⟨(mapR_ok_length h).symm, fun i a b h1 h2 => hr.toObj _ _ _ _ _ _ _ _ (.inl rfl) (mapR_pos h h1 h2)⟩
  by_cases hvn : v = .none
  · subst hvn
    unfold toObjPlain at h
    dsimp only at h
    cases h
    exact .none
  cases hf : env.gser.find? (fun s => s.handles (typeOf v)) with
  | some s =>
    have : liftP (s.run v) = .ok w := by
      unfold toObjPlain at h
      cases v <;> first | exact absurd rfl hvn | (dsimp only at h; rw [hf] at h; exact h)
    exact .chosen hvn (typeOf_iff.2 rfl) (find_first_ser hf) (liftP_ok this)
  | none =>
    have hno : NoneFor env.gser (typeOf v) := find_nonefor_ser hf
    have hno' : ∀ t, SameClass v t → NoneFor env.gser t := fun t ht => by rw [← typeOf_iff.1 ht]; exact hno
    unfold toObjPlain at h
    cases v with
    | none => exact absurd rfl hvn
    | bool b => dsimp only at h; rw [hf] at h; cases h; exact .scalar hno' .bool
    | int i => dsimp only at h; rw [hf] at h; cases h; exact .scalar hno' .int
    | float x => dsimp only at h; rw [hf] at h; cases h; exact .scalar hno' .float
    | str s => dsimp only at h; rw [hf] at h; cases h; exact .scalar hno' .str
    | enum e m => dsimp only at h; rw [hf] at h; cases h; exact .enum hno
    | inst c attrs => dsimp only at h; rw [hf] at h; exact .obj hno (hr.cls _ _ _ _ _ _ h)
    | list xs =>
      dsimp only at h; rw [hf] at h; dsimp only at h
      split at h
      · cases h; obtain ⟨h1, h2⟩ := hels ‹_›; exact .list hno h1 h2
      · cases h
    | tuple xs =>
      dsimp only at h; rw [hf] at h; dsimp only at h
      split at h
      · cases h; obtain ⟨h1, h2⟩ := hels ‹_›; exact .tuple hno h1 h2
      · cases h
    | set b xs =>
      dsimp only at h; rw [hf] at h; dsimp only at h
      split at h
      · cases h; obtain ⟨h1, h2⟩ := hels ‹_›; exact .set hno' h1 h2
      · cases h
    | deque xs =>
      dsimp only at h; rw [hf] at h; dsimp only at h
      split at h
      · cases h; obtain ⟨h1, h2⟩ := hels ‹_›; exact .deque hno h1 h2
      · cases h
    | dict k kvs =>
      dsimp only at h; rw [hf] at h; dsimp only at h
      split at h
      · rename_i es hes
        cases h
        have hlen := mapR_ok_length hes
        have key : ∀ (i : Nat) a b, kvs[i]? = some a → es[i]? = some b → a.1 = b.1 ∧ OutAny env ⟨nm, re, cv, sn⟩ a.2 b.2 := by
          intro i a b h1 h2
          have := mapR_pos hes h1 h2
          split at this
          · rename_i w' hw
            cases this
            exact ⟨rfl, hr.toObj _ _ _ _ _ _ _ _ (.inl rfl) hw⟩
          · cases this
        refine .dict hno' ?_ (fun i a b h1 h2 => (key i a b h1 h2).2)
        apply List.ext_getElem?
        intro i
        simp only [List.getElem?_map]
        by_cases hlt : i < kvs.length
        · have hlt' : i < es.length := by omega
          have := key i _ _ (List.getElem?_eq_getElem hlt) (List.getElem?_eq_getElem hlt')
          rw [List.getElem?_eq_getElem hlt, List.getElem?_eq_getElem hlt']
          simp [this.1]
        · rw [List.getElem?_eq_none (by omega), List.getElem?_eq_none (by omega)]
      · cases h
    | std k s =>
      dsimp only at h; rw [hf] at h; dsimp only at h
      have h' : cacheSe env r (.std k) re cv sn (.std k s) = .ok w := by rcases hc with rfl | rfl <;> exact h
      exact text_out hno .std .std (cacheSe_out hr (hU _ (.inl ⟨_, rfl⟩)) h')
    | dt k s =>
      dsimp only at h; rw [hf] at h; dsimp only at h
      have h' : cacheSe env r (.dt k) re cv sn (.dt k s) = .ok w := by rcases hc with rfl | rfl <;> exact h
      exact text_out hno .dt .dt (cacheSe_out hr (hU _ (.inr ⟨_, rfl⟩)) h')

theorem out_at {env : Env} (hU : DistinctUnions env) : ∀ n, OutRec env (seAt env n)
  | 0 => ⟨fun _ _ _ _ h => (by cases h), fun _ _ _ _ _ h => (by cases h), fun _ _ _ _ _ h => (by cases h), fun _ _ _ _ _ _ h => (by cases h), fun _ _ _ _ _ _ _ _ _ h => (by cases h)⟩
  | n + 1 => by
    have hr := out_at hU n
    refine ⟨fun cx a w ho h => arg_out hr ho h, fun cx a ws hf ho h => flat_out hr hf ho h, fun cx a ch ws ha h => splice_out hr ha h, fun nm re cv sn v w h => obj_out hr hU h, fun nm re cv sn c tg v w hc h => ?_⟩
    rw [seAt_toObj] at h
    unfold toObjF at h
    rw [wrapAll_ok] at h
    rcases hc with rfl | rfl
    · rw [toObjBody_eq] at h; exact plain_out hr (.inl rfl) h
    · rw [toObjBody_eq] at h; exact plain_out hr (.inr rfl) h

/-- Unions that occur in the annotation given to to_dict have functions of their own. -/
theorem top_out {env : Env} (hU : DistinctUnions env) {n nm re cv sn c tg v w} (ht : ∀ t, behind c = some t → DistinctUnionsIn env t)
    (h : (seAt env n).toObj nm re cv sn c tg v = .ok w) : OutTop env ⟨nm, re, cv, sn⟩ tg (behind c) v w := by
  cases n with
  | zero => cases h
  | succ n =>
    have hr := out_at hU n
    rw [seAt_toObj] at h
    unfold toObjF at h
    rw [wrapAll_ok] at h
    have h : toObjBody env (seAt env n) nm re cv sn (behind c) tg v = .ok w := by
      rw [← h]
      clear h ht
      cases c with
      | none => rfl
      | some t => cases t <;> rfl
    rw [toObjBody_eq] at h
    generalize behind c = c at h ht
    have hpl : ∀ t, c = some t → ¬ ProperUnion t → toObjPlain env (seAt env n) nm re cv sn c v = .ok w → OutTop env ⟨nm, re, cv, sn⟩ tg c v w := by
      rintro t rfl hp h
      by_cases hany : t = .any
      · subst hany
        exact .plain (fun t ht => by cases ht; exact ⟨hp, fun h => absurd rfl h⟩) (plain_out hr (.inr rfl) h)
      have hti : t.isAny = false := by cases t <;> first | rfl | exact absurd rfl hany
      by_cases htx : Texty v
      · cases hf : env.gser.find? (fun s => s.handles (typeOf v)) with
        | some s =>
          have : liftP (s.run v) = .ok w := by
            unfold toObjPlain at h
            cases htx <;> (dsimp only at h; rw [hf] at h; exact h)
          exact .handled hp htx (typeOf_iff.2 rfl) (find_first_ser hf) (liftP_ok this)
        | none =>
          have hno' : ∀ t, SameClass v t → NoneFor env.gser t := fun t ht => by rw [← typeOf_iff.1 ht]; exact find_nonefor_ser hf
          have : cacheSe env (seAt env n) t re cv sn v = .ok w := by
            unfold toObjPlain at h
            cases htx <;> (dsimp only at h; rw [hf] at h; dsimp only at h; rw [hti] at h; exact h)
          exact .text hp hany htx hno' (cacheSe_out hr (ht t rfl) this)
      · have : toObjPlain env (seAt env n) nm re cv sn none v = .ok w := by
          rw [← h]
          unfold toObjPlain
          cases v <;> first | rfl | exact absurd Texty.std htx | exact absurd Texty.dt htx
        exact .plain (fun t ht => by cases ht; exact ⟨hp, fun _ => htx⟩) (plain_out hr (.inl rfl) this)
    split at h
    · rename_i ts
      split at h
      · rename_i ho
        exact hpl _ rfl (by rintro ⟨ts', h1, h2⟩; cases h1; rw [ho] at h2; cases h2) h
      · rename_i ho
        have ho : (Ty.union ts).isOpt = false := by simpa using ho
        unfold cacheSeUnion at h
        split at h
        · rename_i us hus
          have := own_inside (ht _ rfl) ts .refl us hus
          subst this
          dsimp only at h
          obtain ⟨pre, t, post, u, rfl, h1, h2, h3, h4⟩ := seUnion_out _ h
          have hout := (hr.render _ _ _ (fun us' hus' => own_inside (ht _ rfl) us' (hus'.trans (.union (t := t) (List.mem_append_right _ List.mem_cons_self) .refl))) h3).value v rfl (by simp)
          refine .union ⟨_, rfl, ho⟩ (fun hn hv => (isInst_nominal hn hv).1 h1) (fun s hs hn hv ha => ?_) hout h4
          have := (isInst_nominal hn hv).2 ha
          rw [h2 s hs] at this
          cases this
        · cases h
    · rename_i hnu
      cases c with
      | none => exact .plain (by intro t ht; cases ht) (plain_out hr (.inl rfl) h)
      | some t => exact hpl t rfl (by rintro ⟨ts, rfl, _⟩; exact hnu ts rfl) h

end Verif
