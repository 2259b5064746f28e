import Verif.Lemmas.UnionDe
import Verif.Lemmas.UnionSe
import Verif.Props.C05
import Verif.Props.C15
import Verif.Props.C34
import Verif.Examples.World
/-!
# C26 Untagged: the first fitting variant wins; C27 unions fail cleanly

C26 is stated through classes with one field: a member `t` of the union accepts an input `d` when a class whose only field has
type `t` decodes `d` (with the type checks of the union function), and the union decodes `d` to what the first accepting member
gives. Members may be any annotations, including containers of further unions and literals. What is missing (`_partial`) are unions that share their
function name with another union of the class: there the property is false (`C26_false_clash`).

C27 on the deserializing side holds of every union and input. On the serializing side it is proved for members that are
primitives, None, enums, dataclasses, and str-convertible or date/time classes; for containers and literals the code's
`is_instance` looks at the first element only (or at nothing), see `C27_false_literal` and `C27_false_list`.
-/

namespace Verif.Props
open Verif Verif.Spec

/-- `bx` names, for every member, a class with one field of that type, in which the unions and literals of the member have their own
functions. -/
def Boxes (env : Env) (bx : Ty → ClassId) (ts : List Ty) : Prop :=
  ∀ t ∈ ts, ∃ nm, env.cls (bx t) = some (box nm t .untagged) ∧ NoGlobal env (bx t) ∧ OwnFuncs env (.cls (bx t)) t

/-- A member cannot both reject and accept. -/
theorem rejects_accepts {env : Env} {o : DeOpts} {bx d t v} (hr : Rejects env o bx d t) : ¬ Accepts env o bx d t v := by
  rintro ⟨hi, ⟨n, hn⟩, hc⟩
  rcases hr with h | ⟨m, e, hm, he⟩ | ⟨w, ⟨m, hm⟩, hnc⟩
  · exact h hi
  · have := fromDict_det hn hm (by simp) (by simpa using he)
    cases this
  · have := fromDict_det hn hm (by simp) (by simp)
    injection this with this
    injection this with _ this
    injection this with this
    injection this with _ this
    subst this
    exact hnc hc

theorem unionPayload_untagged {env : Env} {t d} : unionPayload env .untagged t d = .ok d := by
  unfold unionPayload
  dsimp only
  split <;> rfl

theorem _root_.Verif.Spec.OwnFuncs.member {env : Env} {root ts t} (h : OwnFuncs env root (.union ts)) (ht : t ∈ ts) : OwnFuncs env root t :=
  ⟨fun us hi => h.unions us (.union ht hi), fun vs hi => h.lits vs (.union ht hi)⟩

theorem member_accepts {env : Env} {o : DeOpts} {cx re nu bx ts root d t v} (hcx : UCx env re nu cx) (htg : cx.tagging = .untagged)
    (htb : TableOf env root cx.unions cx.lits) (hroot : Reach env true root (.union ts)) (ho : OwnFuncs env root (.union ts)) (hbx : Boxes env bx ts) (hre : o.reuse = some re) (hnu : o.numbers = nu) (ht : t ∈ ts) :
    (∃ m, deMember env (deAt env m) cx t d = .ok v) ↔ Accepts env o bx d t v := by
  obtain ⟨nm, hb, hg, hof⟩ := hbx t ht
  rw [← htg] at hb
  have hbox := fun m => member_box (m := m) (p := d) hcx htb hb (reach_snoc hroot (.union ht)) (ho.member ht) hof hre hnu
  unfold Accepts
  rw [decodes_iff hb hg]
  constructor
  · rintro ⟨m, h⟩
    obtain ⟨p, hp, h1, h2, h3⟩ := deMember_ok.1 h
    rw [htg, unionPayload_untagged] at hp
    cases hp
    rw [hbox] at h2
    exact ⟨h1, ⟨m, h2⟩, h3⟩
  · rintro ⟨h1, ⟨m, h2⟩, h3⟩
    rw [← hbox] at h2
    exact ⟨m, deMember_ok.2 ⟨d, by rw [htg, unionPayload_untagged], h1, h2, h3⟩⟩

theorem member_rejects {env : Env} {o : DeOpts} {cx re nu bx ts root d t} (hcx : UCx env re nu cx) (htg : cx.tagging = .untagged)
    (htb : TableOf env root cx.unions cx.lits) (hroot : Reach env true root (.union ts)) (ho : OwnFuncs env root (.union ts)) (hbx : Boxes env bx ts) (hre : o.reuse = some re) (hnu : o.numbers = nu) (ht : t ∈ ts) :
    (∃ m e, deMember env (deAt env m) cx t d = .error e ∧ e ≠ .fuel) ↔ Rejects env o bx d t := by
  obtain ⟨nm, hb, hg, hof⟩ := hbx t ht
  rw [← htg] at hb
  have hbox := fun m => member_box (m := m) (p := d) hcx htb hb (reach_snoc hroot (.union ht)) (ho.member ht) hof hre hnu
  have hpl : unionPayload env cx.tagging t d = .ok d := by rw [htg, unionPayload_untagged]
  have hpf : ∀ e, unionPayload env cx.tagging t d = .error e → e ≠ .fuel := by rw [hpl]; intro e h; cases h
  unfold Rejects
  rw [fails_iff hb hg]
  simp only [decodes_iff hb hg]
  constructor
  · rintro ⟨m, h⟩
    rcases (deMember_err hpf).1 h with ⟨e, h⟩ | ⟨p, hp, h, _⟩
    · rw [hpl] at h; cases h
    · rw [hpl] at hp
      cases hp
      rw [hbox] at h
      rcases h with h | ⟨e, h⟩ | ⟨v, h, hc⟩
      · exact .inl h
      · exact .inr (.inl ⟨m, e, h⟩)
      · exact .inr (.inr ⟨v, ⟨m, h⟩, hc⟩)
  · rintro (h | ⟨m, e, h, he⟩ | ⟨v, ⟨m, h⟩, hc⟩)
    · refine ⟨0, (deMember_err hpf).2 (.inr ⟨d, hpl, .inl h, fun hi => absurd hi h⟩)⟩
    · refine ⟨m, (deMember_err hpf).2 (.inr ⟨d, hpl, .inr (.inl ⟨e, by rw [hbox]; exact h, he⟩), fun _ => ?_⟩)⟩
      rw [hbox, h]; simpa using he
    · refine ⟨m, (deMember_err hpf).2 (.inr ⟨d, hpl, .inr (.inr ⟨v, by rw [hbox]; exact h, hc⟩), fun _ => ?_⟩)⟩
      rw [hbox, h]; simp

/-- With enough fuel for every member, the first one that does not fail decides. -/
theorem union_fuel {env : Env} {cx d ts v} : (∃ m, deUnion env (deAt env m) cx d ts = .ok v) ↔
    ∃ pre t post, ts = pre ++ t :: post ∧ (∃ m, deMember env (deAt env m) cx t d = .ok v) ∧
      ∀ s ∈ pre, ∃ m e, deMember env (deAt env m) cx s d = .error e ∧ e ≠ .fuel := by
  constructor
  · rintro ⟨m, h⟩
    obtain ⟨pre, t, post, rfl, h1, h2⟩ := deUnion_ok.1 h
    exact ⟨pre, t, post, rfl, ⟨m, h1⟩, fun s hs => ⟨m, h2 s hs⟩⟩
  · rintro ⟨pre, t, post, rfl, ⟨m, h1⟩, h2⟩
    have hev : Ev (fun n => ∀ s ∈ pre, ∃ e, deMember env (deAt env n) cx s d = .error e ∧ e ≠ .fuel) := by
      refine Ev.list fun s hs => ?_
      obtain ⟨k, e, h, he⟩ := h2 s hs
      refine ⟨k, fun n hn => ⟨e, ?_, he⟩⟩
      rcases deMember_le (deAt_le' env hn) cx s d with x | x
      · rw [h] at x; injection x with x; exact absurd x he
      · rw [← x, h]
    obtain ⟨k, hk⟩ := hev
    refine ⟨max k m, deUnion_ok.2 ⟨pre, t, post, rfl, ?_, hk _ (Nat.le_max_left _ _)⟩⟩
    exact (deMember_le (deAt_le' env (Nat.le_max_right k m)) cx t d).ok h1

theorem union_firstFit {env : Env} {o : DeOpts} {cx re nu bx ts root d v} (hcx : UCx env re nu cx) (htg : cx.tagging = .untagged)
    (htb : TableOf env root cx.unions cx.lits) (hroot : Reach env true root (.union ts)) (ho : OwnFuncs env root (.union ts)) (hbx : Boxes env bx ts) (hre : o.reuse = some re) (hnu : o.numbers = nu) :
    (∃ m, deUnion env (deAt env m) cx d ts = .ok v) ↔ FirstFit (Accepts env o bx d) (Rejects env o bx d) ts v := by
  rw [union_fuel]
  unfold FirstFit
  constructor
  · rintro ⟨pre, t, post, rfl, h1, h2⟩
    exact ⟨pre, t, post, rfl, (member_accepts hcx htg htb hroot ho hbx hre hnu (by simp)).1 h1,
      fun s hsm => (member_rejects hcx htg htb hroot ho hbx hre hnu (by simp [hsm])).1 (h2 s hsm)⟩
  · rintro ⟨pre, t, post, rfl, h1, h2⟩
    exact ⟨pre, t, post, rfl, (member_accepts hcx htg htb hroot ho hbx hre hnu (by simp)).2 h1,
      fun s hsm => (member_rejects hcx htg htb hroot ho hbx hre hnu (by simp [hsm])).2 (h2 s hsm)⟩

/-- The context of a union function called by `from_dict`. -/
def topUCx (env : Env) (o : DeOpts) (ts : List Ty) (d : Val) : DeCx :=
  { named := true, data := d, reuse := true, numbers := o.numbers, mg := none, mgVars := none, vta := none, coerce := false,
    unions := env.unionsOfTy (.union ts), lits := env.litsOfTy (.union ts), tagging := o.tagging, des := env.gde, tvars := none }

theorem fromDict_union {env : Env} {o : DeOpts} {n ts d} (ho : (Ty.union ts).isOpt = false) :
    fromDict env o (n + 1) (.union ts) d = match findUnion env (env.unionsOfTy (.union ts)) (unionFuncName env ts) with
      | some us => deUnion env (deAt env n) (topUCx env o ts d) d us
      | none => .error (.py .key) := by
  have ht : typeIs d (.union ts) = false := by unfold typeIs; rfl
  unfold fromDict
  rw [deAt_fromObj]
  unfold fromObjF
  dsimp only
  rw [ht, ho]
  simp only [Bool.false_eq_true, if_false]
  rfl

/-- **C26** for `from_dict(Untagged(Union[...]), d)`: the result is `v` exactly when the first member accepting `d` gives `v`.
Members may be any annotations, with unions and literals of their own. Restricted to unions that share no function name with another union
in them. -/
theorem C26_from_dict_partial {env : Env} {o : DeOpts} {bx ts d v} (ho : (Ty.union ts).isOpt = false) (htg : o.tagging = .untagged)
    (hown : OwnFuncs env (.union ts) (.union ts)) (hbx : Boxes env bx ts) :
    (∃ n, fromDict env o n (.union ts) d = .ok v) ↔
      FirstFit (Accepts env { o with reuse := some true } bx d) (Rejects env { o with reuse := some true } bx d) ts v := by
  have hfind : findUnion env (env.unionsOfTy (.union ts)) (unionFuncName env ts) = some ts := tableOf_ty.find .refl hown .refl ho
  rw [← union_firstFit (o := { o with reuse := some true }) (cx := topUCx env o ts d) (re := true) (nu := o.numbers) ⟨rfl, rfl, rfl, rfl, rfl, rfl, rfl, rfl, rfl⟩ htg
    (root := .union ts) tableOf_ty .refl hown hbx rfl rfl]
  constructor
  · rintro ⟨n, h⟩
    cases n with
    | zero => cases h
    | succ n => rw [fromDict_union ho, hfind] at h; exact ⟨n, h⟩
  · rintro ⟨n, h⟩
    exact ⟨n + 1, by rw [fromDict_union ho, hfind]; exact h⟩

/-- A union field is decoded by the union function, from the entry under its wire name. -/
theorem field_union_run {env : Env} {o : DeOpts} {n c} {cd : ClassDef} {f ts dk kvs d v} (hc : env.cls c = some cd) (htr : cd.transparent = false)
    (hp : cd.postInit = none) (hn : (cd.fields.map (·.name)).Nodup) (hf : f ∈ cd.fields) (hr : f.renderable = true) (hg : NoGlobal env c)
    (hty : f.ty = .union ts) (ho : (Ty.union ts).isOpt = false) (hfl : f.flatten = false) (hal : f.alias = []) (hde : f.deserializer = none)
    (hgd : ∀ s ∈ env.gde ++ cd.classDe.toList, s.handles (.union ts) = false)
    (hfind : findUnion env (env.unionsOf c) (unionFuncName env ts) = some ts)
    (hkey : getStr (f.conv cd.deCase) kvs = some d) (h : fromDict env o n (.cls c) (.dict dk kvs) = .ok v) :
    ∃ attrs w m, v = .inst c attrs ∧ attrs.lookup f.name = some w ∧
      deUnion env (deAt env m) ((clsDeCx env c cd true (topCall o) (.dict dk kvs)).inUnion env d) d ts = .ok w := by
  obtain ⟨attrs, rfl, _, h2⟩ := fromDict_attr hc htr hp hn hf hg (by intro as h; cases h) h
  obtain ⟨m, ex, w, ha, hb⟩ := h2 hr
  rw [deField_plain hfl] at ha
  have ha : (deAt env m).render (clsDeCx env c cd true (topCall o) (.dict dk kvs)) (plainArg cd f (.dict dk kvs)) = .ok w := by
    cases hd : f.dflt with
    | some x => rw [hd] at ha; exact ha
    | none => rw [hd] at ha; exact catchKey_ok.1 ha
  have hdata : (plainArg cd f (.dict dk kvs)).data = .ok d := by
    unfold plainArg DeArg.data
    dsimp only
    rw [hty]
    split
    · simp [pyGet, hkey]
    · simp [pyGetItem, hkey]
  cases m with
  | zero => cases ha
  | succ m =>
    rw [deAt_render] at ha
    have ha : deBody env (deAt env m) (clsDeCx env c cd true (topCall o) (.dict dk kvs)) (plainArg cd f (.dict dk kvs)) = .ok w := by
      unfold deRenderF at ha
      cases hd : f.dflt with
      | none =>
        have : (plainArg cd f (.dict dk kvs)).dflt = none := hd
        rw [this] at ha; exact ha
      | some dv =>
        have h1 : (plainArg cd f (.dict dk kvs)).dflt = some dv := hd
        rw [h1] at ha
        have h2 : dfltExists env (plainArg cd f (.dict dk kvs)) (.dict dk kvs) = .ok true := by
          unfold dfltExists plainArg
          dsimp only
          simp only [hal, Bool.false_eq_true, if_false]
          simp [pyIn, hkey]
        have h3 : (plainArg cd f (.dict dk kvs)).src = .key (.dict dk kvs) := rfl
        rw [h3] at ha
        dsimp only at ha
        rw [h2] at ha
        exact ha
    unfold deBody at ha
    have hpick : pickDe (clsDeCx env c cd true (topCall o) (.dict dk kvs)).des (plainArg cd f (.dict dk kvs)) = none := by
      unfold pickDe plainArg
      dsimp only
      rw [hde]
      dsimp only
      rw [List.find?_eq_none]
      intro s hs
      rw [hty, hgd s (by rw [List.mem_reverse] at hs; exact hs)]
      simp
    rw [hpick] at ha
    have hds : (plainArg cd f (.dict dk kvs)).deser = none := hde
    have ht : (plainArg cd f (.dict dk kvs)).ty = .union ts := hty
    rw [hds] at ha
    dsimp only at ha
    rw [ht] at ha
    dsimp only at ha
    rw [ho, hdata] at ha
    have hu : (clsDeCx env c cd true (topCall o) (.dict dk kvs)).unions = env.unionsOf c := rfl
    rw [hu, hfind] at ha
    simp only [Bool.false_eq_true, if_false] at ha
    exact ⟨attrs, w, m, rfl, hb, ha⟩

/-- **C26** for a field of an untagged class: a decoded object's field holds what the first accepting member made of the entry
under the field's wire name. -/
theorem C26_field_partial {env : Env} {o : DeOpts} {n c} {cd : ClassDef} {f bx ts dk kvs d v} (hc : env.cls c = some cd) (htr : cd.transparent = false)
    (hp : cd.postInit = none) (hn : (cd.fields.map (·.name)).Nodup) (hf : f ∈ cd.fields) (hr : f.renderable = true) (hg : NoGlobal env c)
    (hty : f.ty = .union ts) (ho : (Ty.union ts).isOpt = false) (htg : cd.tagging = .untagged) (htv : cd.tvars = none)
    (hfl : f.flatten = false) (hal : f.alias = []) (hde : f.deserializer = none)
    (hgd : ∀ s ∈ env.gde ++ cd.classDe.toList, s.handles (.union ts) = false)
    (hskip : f.skip = false) (hown : OwnFuncs env (.cls c) (.union ts)) (hbx : Boxes env bx ts)
    (hkey : getStr (f.conv cd.deCase) kvs = some d) (h : fromDict env o n (.cls c) (.dict dk kvs) = .ok v) :
    ∃ attrs w, v = .inst c attrs ∧ attrs.lookup f.name = some w ∧
      FirstFit (Accepts env { o with reuse := some (o.reuse.getD cd.reuseDflt) } bx d)
        (Rejects env { o with reuse := some (o.reuse.getD cd.reuseDflt) } bx d) ts w := by
  have hreach : Reach env true (.cls c) (.union ts) := .step (.field hc hf hskip) (hty ▸ .refl)
  obtain ⟨attrs, w, m, rfl, hb, ha⟩ := field_union_run hc htr hp hn hf hr hg hty ho hfl hal hde hgd (tableOf_cls.find hreach hown .refl ho) hkey h
  exact ⟨attrs, w, rfl, hb, (union_firstFit (UCx.inUnion htv) htg (root := .cls c) tableOf_cls hreach hown hbx rfl rfl).1 ⟨m, ha⟩⟩

/-- **C27**, deserializing `from_dict(Union[...], d)`, every tagging: an error is a SerdeError. -/
theorem C27_from_dict {env : Env} {o : DeOpts} {n ts d e} (ho : (Ty.union ts).isOpt = false)
    (h : fromDict env o n (.union ts) d = .error e) : e = .fuel ∨ e.isSerde = true := by
  cases n with
  | zero => cases h; exact .inl rfl
  | succ n =>
    rw [fromDict_union ho] at h
    obtain ⟨us, hus⟩ := findUnion_self (env := env) self_unionsOfTy (ts := ts)
    rw [hus] at h
    rcases deUnion_error h with rfl | rfl
    · exact .inl rfl
    · exact .inr rfl

theorem seUnion_refuse {env : Env} {v} (hv : ∀ c as, v = .inst c as → (env.cls c).isSome) {r cx us} (h1 : ∀ t ∈ us, Nominal env t)
    (h2 : ∀ t ∈ us, ¬ IsA env t v) : seUnion env r cx v us = .error (.serde "union") := by
  induction us with
  | nil => rfl
  | cons t us ih =>
    unfold seUnion
    have : isInst env t v = false := by
      cases hi : isInst env t v with
      | false => rfl
      | true => exact absurd ((isInst_nominal (h1 t (by simp)) hv).1 hi) (h2 t (by simp))
    rw [this]
    simp only [Bool.false_eq_true, if_false]
    exact ih (fun x hx => h1 x (by simp [hx])) (fun x hx => h2 x (by simp [hx]))

/-- **C27**, serializing `to_dict(v, Union[...])`, every tagging: a value that is an instance of no variant is not serialized,
and the error is a SerdeError. -/
theorem C27_to_dict_partial {env : Env} {o : SeOpts} {n ts v} (ho : (Ty.union ts).isOpt = false) (hc : o.c = some (.union ts))
    (hfind : findUnion env (env.unionsOfTy (.union ts)) (unionFuncName env ts) = some ts)
    (hno : ∀ t ∈ ts, Nominal env t) (hv : ∀ c as, v = .inst c as → (env.cls c).isSome) (hnot : ∀ t ∈ ts, ¬ IsA env t v) :
    ∃ e, toDict env o n v = .error e ∧ (e = .fuel ∨ e.isSerde = true) := by
  cases n with
  | zero => exact ⟨_, rfl, .inl rfl⟩
  | succ n =>
    rw [toDict_union ho hc hfind, seUnion_refuse hv hno hnot]
    exact ⟨_, rfl, .inr rfl⟩

/-- **C27**, serializing an object with a union field that holds an instance of no variant: SerdeError, every tagging. -/
theorem C27_field_to_dict_partial {env : Env} {o : SeOpts} {n c} {cd : ClassDef} {attrs f ts v} (hc : env.cls c = some cd) (htr : cd.transparent = false)
    (hfl : ∀ g ∈ cd.fields, g.flatten = false) (hn : (cd.seFieldsOf.map (fun g => g.conv cd.seCase)).Nodup)
    (hu : NotUnion o.c) (hg : NoGlobal env c) (hf : f ∈ cd.fields) (hser : serializable f = true)
    (hty : f.ty = .union ts) (ho : (Ty.union ts).isOpt = false) (hse : f.serializer = none)
    (hsers : ∀ s ∈ env.gser ++ cd.classSer.toList, s.handles (.union ts) = false) (hv : attrs.lookup f.name = some v)
    (hfind : findUnion env (env.unionsOf c) (unionFuncName env ts) = some ts)
    (hno : ∀ t ∈ ts, Nominal env t) (hcls : ∀ k as, v = .inst k as → (env.cls k).isSome) (hnot : ∀ t ∈ ts, ¬ IsA env t v) :
    ∃ e, toDict env o n (.inst c attrs) = .error e ∧ (e = .fuel ∨ e.isSerde = true) := by
  cases h : toDict env o n (.inst c attrs) with
  | error e => exact ⟨e, rfl, C35_to_dict h⟩
  | ok w =>
    exfalso
    have hfs : f ∈ cd.seFieldsOf := by rw [seFieldsOf_eq]; exact List.mem_filter.2 ⟨hf, hser⟩
    rcases toDict_low hc htr hu hg.ser h with ⟨m, rfl⟩ | h0
    · obtain ⟨os, hos, _⟩ := (toDict_emit hc htr (fun g hg' => hfl g (List.mem_filter.1 hg').1) hu hg.ser hn).1 h
      have herr : ∃ e, emitAt env m (topSeCx env c cd true o) cd (.inst c attrs) f = .error e := by
        unfold emitAt
        cases m with
        | zero => exact ⟨_, rfl⟩
        | succ m =>
          rw [render_unionField hty ho hse hsers hv hfind, seUnion_refuse hcls hno hnot]
          exact ⟨_, rfl⟩
      obtain ⟨e, he⟩ := herr
      obtain ⟨e', he'⟩ := mapR_error_of hfs he
      rw [he'] at hos
      cases hos
    · rw [h0] at hfs; cases hfs

/-! ## Examples and counterexamples -/

namespace C26Ex

/-- `class A: x: int`, `class B: x: int; y: str`; `class U: u: Union[list[Union[B, A]], B, A, Literal["k"], int]` untagged; one box per member. -/
def A : ClassDef := { name := "A", mro := ["A"], fields := [{ name := "x", ty := .prim .int }] }
def B : ClassDef := { name := "B", mro := ["B"], fields := [{ name := "x", ty := .prim .int }, { name := "y", ty := .prim .str }] }
def ba : Ty := .list .list (.union [.cls "B", .cls "A"])
def ts : List Ty := [ba, .cls "B", .cls "A", .lit [.str "k"], .prim .int]
def U : ClassDef := { name := "U", mro := ["U"], tagging := .untagged, fields := [{ name := "u", ty := .union ts }] }
/-- `class N: u: Union[B, A, int]`. -/
def nts : List Ty := [.cls "B", .cls "A", .prim .int]
def N : ClassDef := { name := "N", mro := ["N"], fields := [{ name := "u", ty := .union nts }] }
def bx : Ty → ClassId
  | .list _ _ => "XL"
  | .cls "A" => "XA"
  | .cls "B" => "XB"
  | .lit _ => "XK"
  | _ => "XI"
def env : Env := Ex.mk [("A", A), ("B", B), ("U", U), ("N", N), ("XL", box "XL" ba .untagged), ("XA", box "XA" (.cls "A") .untagged),
  ("XB", box "XB" (.cls "B") .untagged), ("XK", box "XK" (.lit [.str "k"]) .untagged), ("XI", box "XI" (.prim .int) .untagged)]

/-- Distinct names in the tables are enough. -/
theorem own {root t us ls} (h : TableOf env root us ls) (hr : Reach env true root t)
    (hu : ∀ a ∈ us, ∀ b ∈ us, unionFuncName env b = unionFuncName env a → b = a) (hl : ∀ vs, OccursIn t (.lit vs) → vs ∈ ls)
    (hl2 : ∀ a ∈ ls, ∀ b ∈ ls, litFuncName env b = litFuncName env a → b = a) : OwnFuncs env root t :=
  ⟨fun us' hi _ vs hv => hu us' ((h.unions _).2 (hr.trans hi.reach)) vs ((h.unions _).2 hv),
    fun vs hi => ⟨(h.lits _).1 (hl vs hi), fun ws hw => hl2 vs (hl vs hi) ws ((h.lits _).2 hw)⟩⟩

theorem noLit_ba {vs} : ¬ OccursIn ba (.lit vs) := by
  intro h
  cases h with
  | list h => cases h with
    | union hm h =>
      simp only [List.mem_cons, List.not_mem_nil, or_false] at hm
      rcases hm with rfl | rfl <;> cases h

theorem lit_ts {vs} (h : OccursIn (.union ts) (.lit vs)) : vs ∈ [[Val.str "k"]] := by
  cases h with
  | union hm h =>
    simp only [ts, List.mem_cons, List.not_mem_nil, or_false] at hm
    rcases hm with rfl | rfl | rfl | rfl | rfl
    · exact absurd h noLit_ba
    all_goals cases h
    exact List.mem_cons_self

theorem two : ∀ a ∈ [ts, [.cls "B", .cls "A"]], ∀ b ∈ [ts, [.cls "B", .cls "A"]], unionFuncName env b = unionFuncName env a → b = a := by
  intro a ha b hb hn
  simp only [List.mem_cons, List.not_mem_nil, or_false] at ha hb
  rcases ha with rfl | rfl <;> rcases hb with rfl | rfl <;> first | rfl | exact absurd hn (by decide)

theorem one {α : Type} {x : α} {nm : α → String} : ∀ a ∈ [x], ∀ b ∈ [x], nm b = nm a → b = a := by
  intro a ha b hb _
  rw [List.mem_singleton.1 ha, List.mem_singleton.1 hb]

theorem ownTop : OwnFuncs env (.union ts) (.union ts) :=
  own (us := [ts, [.cls "B", .cls "A"]]) (ls := [[.str "k"]]) (tableOf_ty (env := env) (t := .union ts)) .refl two (fun _ h => lit_ts h) one

theorem ownU : OwnFuncs env (.cls "U") (.union ts) :=
  own (us := [ts, [.cls "B", .cls "A"]]) (ls := [[.str "k"]]) (tableOf_cls (env := env) (c := "U"))
    (.step (.field (cd := U) (f := { name := "u", ty := .union ts }) rfl (by simp [U]) rfl) .refl) two (fun _ h => lit_ts h) one

theorem noGlobal {c} : NoGlobal env c := ⟨by simp [env, Ex.mk], by simp [env, Ex.mk]⟩

theorem boxes : Boxes env bx ts := by
  intro t ht
  simp only [ts, List.mem_cons, List.not_mem_nil, or_false] at ht
  rcases ht with rfl | rfl | rfl | rfl | rfl
  · exact ⟨"XL", rfl, noGlobal, own (us := [[.cls "B", .cls "A"]]) (ls := []) (tableOf_cls (env := env) (c := "XL"))
      (.step (.field (cd := box "XL" ba .untagged) (f := { name := "x", ty := ba }) rfl (by simp [box]) rfl) .refl) one
      (fun _ h => absurd h noLit_ba) (by simp)⟩
  · exact ⟨"XB", rfl, noGlobal, ownFuncs_of_free .cls⟩
  · exact ⟨"XA", rfl, noGlobal, ownFuncs_of_free .cls⟩
  · exact ⟨"XK", rfl, noGlobal, own (us := []) (ls := [[.str "k"]]) (tableOf_cls (env := env) (c := "XK"))
      (.step (.field (cd := box "XK" (.lit [.str "k"]) .untagged) (f := { name := "x", ty := .lit [.str "k"] }) rfl (by simp [box]) rfl) .refl) (by simp)
      (fun _ h => by cases h; simp) one⟩
  · exact ⟨"XI", rfl, noGlobal, ownFuncs_of_free .prim⟩

/-- `{"x": 3}` is no list and does not fit `B`, it fits `A`. -/
def d : Val := .dict .plain [(.str "x", .int 3)]
/-- `[{"x": 3}, {"x": 4, "y": "s"}]` fits the list, whose elements are read as unions. -/
def dl : Val := .list [d, .dict .plain [(.str "x", .int 4), (.str "y", .str "s")]]

example : FirstFit (Accepts env { reuse := some true, tagging := .untagged } bx d) (Rejects env { reuse := some true, tagging := .untagged } bx d) ts
    (.inst "A" [("x", .int 3)]) :=
  (C26_from_dict_partial (env := env) (o := { tagging := .untagged }) rfl rfl ownTop boxes).1 ⟨9, rfl⟩

example : FirstFit (Accepts env { reuse := some true, tagging := .untagged } bx dl) (Rejects env { reuse := some true, tagging := .untagged } bx dl) ts
    (.list [.inst "A" [("x", .int 3)], .inst "B" [("x", .int 4), ("y", .str "s")]]) :=
  (C26_from_dict_partial (env := env) (o := { tagging := .untagged }) rfl rfl ownTop boxes).1 ⟨12, rfl⟩

example : ∃ attrs w, Val.inst "U" [("u", .inst "A" [("x", .int 3)])] = .inst "U" attrs ∧ attrs.lookup "u" = some w ∧
    FirstFit (Accepts env { reuse := some true } bx d) (Rejects env { reuse := some true } bx d) ts w :=
  C26_field_partial (env := env) (o := {}) (n := 9) (c := "U") (cd := U) (f := { name := "u", ty := .union ts }) (dk := .plain)
    (kvs := [(.str "u", d)]) rfl rfl rfl (by decide) (by simp [U]) rfl noGlobal rfl rfl rfl rfl rfl rfl rfl
    (by simp [env, Ex.mk, U]) rfl ownU boxes rfl rfl

/-- No variant accepts a string. -/
example : fromDict env { tagging := .untagged } 9 (.union ts) (.str "s") = .error (.serde "union") := rfl
example : (Exc.serde "union") = .fuel ∨ (Exc.serde "union").isSerde = true :=
  C27_from_dict (env := env) (o := { tagging := .untagged }) (n := 9) (ts := ts) (d := .str "s") rfl rfl

theorem nominal : ∀ t ∈ nts, Nominal env t := by
  intro t ht
  simp only [nts, List.mem_cons, List.not_mem_nil, or_false] at ht
  rcases ht with rfl | rfl | rfl
  · exact .cls
  · exact .cls
  · exact .prim

theorem strNot : ∀ t ∈ nts, ¬ IsA env t (.str "s") := by
  intro t ht
  simp only [nts, List.mem_cons, List.not_mem_nil, or_false] at ht
  rcases ht with rfl | rfl | rfl <;> (intro h; cases h)

/-- A string is no instance of `Union[B, A, int]`. -/
example : ∃ e, toDict env { c := some (.union nts) } 9 (.str "s") = .error e ∧ (e = .fuel ∨ e.isSerde = true) :=
  C27_to_dict_partial (env := env) (o := { c := some (.union nts) }) rfl rfl rfl nominal (by intro c as h; cases h) strNot

example : ∃ e, toDict env {} 9 (.inst "N" [("u", .str "s")]) = .error e ∧ (e = .fuel ∨ e.isSerde = true) :=
  C27_field_to_dict_partial (env := env) (o := {}) (n := 9) (c := "N") (cd := N) (f := { name := "u", ty := .union nts }) (ts := nts) (v := .str "s") rfl rfl
    (by simp [N]) (by decide) (.inl rfl) ⟨by simp [env, Ex.mk], by simp [env, Ex.mk]⟩ (by simp [N]) rfl rfl rfl rfl (by simp [env, Ex.mk, N]) rfl rfl
    nominal (by intro c as h; cases h) strNot

/-- Two modules each define a class `Foo`: `p: Union[m1.Foo, int]; q: Union[m2.Foo, int]`, untagged. -/
def cd1 : ClassDef := { name := "Foo", mro := ["m1.Foo"], fields := [{ name := "a", ty := .prim .int }] }
def cd2 : ClassDef := { name := "Foo", mro := ["m2.Foo"], fields := [{ name := "a", ty := .prim .int }] }
def Q : ClassDef := { name := "Q", mro := ["Q"], tagging := .untagged, typeCheck := .disabled,
                      fields := [{ name := "p", ty := .union [.cls "m1.Foo", .prim .int] }, { name := "q", ty := .union [.cls "m2.Foo", .prim .int] }] }
def bq : Ty → ClassId
  | .cls _ => "XF"
  | _ => "XI"
def envQ : Env := Ex.mk [("m1.Foo", cd1), ("m2.Foo", cd2), ("Q", Q), ("XF", box "XF" (.cls "m1.Foo") .untagged), ("XI", box "XI" (.prim .int) .untagged)]

theorem boxesQ : Boxes envQ bq [.cls "m1.Foo", .prim .int] := by
  intro t ht
  simp only [List.mem_cons, List.not_mem_nil, or_false] at ht
  rcases ht with rfl | rfl
  · exact ⟨"XF", rfl, ⟨by simp [envQ, Ex.mk], by simp [envQ, Ex.mk]⟩, ownFuncs_of_free .cls⟩
  · exact ⟨"XI", rfl, ⟨by simp [envQ, Ex.mk], by simp [envQ, Ex.mk]⟩, ownFuncs_of_free .prim⟩

end C26Ex

/-- **C26 is false when two unions of a class share a function name**: the field `p` is read by the variants of `q`, though the first variant of
its own accepts the data. -/
theorem C26_false_clash : ¬ ∀ (env : Env) (o : DeOpts) (n : Nat) (c : ClassId) (cd : ClassDef) (f : FieldDef) (bx : Ty → ClassId) (ts : List Ty)
    (kvs : List (Val × Val)) (d w : Val) (attrs : List (String × Val)), env.cls c = some cd → f ∈ cd.fields → f.ty = .union ts → cd.tagging = .untagged →
    Boxes env bx ts → getStr (f.conv cd.deCase) kvs = some d → fromDict env o n (.cls c) (.dict .plain kvs) = .ok (.inst c attrs) →
    attrs.lookup f.name = some w →
    FirstFit (Accepts env { o with reuse := some (o.reuse.getD cd.reuseDflt) } bx d) (Rejects env { o with reuse := some (o.reuse.getD cd.reuseDflt) } bx d) ts w := by
  intro h
  have h := h C26Ex.envQ {} 12 "Q" C26Ex.Q { name := "p", ty := .union [.cls "m1.Foo", .prim .int] } C26Ex.bq [.cls "m1.Foo", .prim .int]
    [(.str "p", .dict .plain [(.str "a", .int 1)]), (.str "q", .int 2)] (.dict .plain [(.str "a", .int 1)]) (.inst "m2.Foo" [("a", .int 1)])
    [("p", .inst "m2.Foo" [("a", .int 1)]), ("q", .int 2)] rfl (by simp [C26Ex.Q]) rfl rfl C26Ex.boxesQ rfl rfl rfl
  have hok : Accepts C26Ex.envQ { reuse := some true } C26Ex.bq (.dict .plain [(.str "a", .int 1)]) (.cls "m1.Foo") (.inst "m1.Foo" [("a", .int 1)]) :=
    ⟨.other (by simp) (by simp) (by simp) (by simp), ⟨9, rfl⟩, ⟨_, rfl, rfl⟩⟩
  obtain ⟨pre, t, post, he, ha, hr⟩ := h
  cases pre with
  | nil =>
    cases he
    obtain ⟨_, ⟨n, hn⟩, _⟩ := ha
    obtain ⟨_, ⟨m, hm⟩, _⟩ := hok
    have := fromDict_det hn hm (by simp) (by simp)
    simp at this
  | cons s pre =>
    injection he with he _
    subst he
    exact rejects_accepts (hr _ List.mem_cons_self) hok

/-- **C27 is false for literals**: `to_dict(A(3), Union[Literal["a"], int])`: the object is neither the literal nor an int, but
`is_instance(_, Literal[..])` is always true (/repo/serde/core.py:402-403) and the object itself is returned. -/
theorem C27_false_literal : ∃ (env : Env) (ts : List Ty) (v : Val), bearable env (.union ts) v = false ∧
    toDict env { c := some (.union ts) } 9 v = .ok v :=
  ⟨C26Ex.env, [.lit [.str "a"], .prim .int], .inst "A" [("x", .int 3)], rfl, rfl⟩

/-- **C27 is false for containers**: `to_dict([1, "a"], Union[list[int], str])`: only the first element is looked at
(/repo/serde/core.py:430-449). -/
theorem C27_false_list : ∃ (env : Env) (ts : List Ty) (v : Val), ts = [.list .list (.prim .int), .prim .str] ∧
    v = .list [.int 1, .str "a"] ∧ toDict env { c := some (.union ts) } 9 v = .ok v :=
  ⟨C26Ex.env, [.list .list (.prim .int), .prim .str], .list [.int 1, .str "a"], rfl, rfl, rfl⟩

end Verif.Props
