import Verif.Props.C26
import Verif.Props.C40
/-!
# C40: JSON numbers into fields annotated with unions

A union function tests the type of the input before it reads a primitive member, so `float(n)` is never reached with an integer: an integer
literal is refused for `Union[float, str]`, though it is accepted for `float`.
-/

namespace Verif.Props
open Verif Verif.Spec

/-- Members are primitives, NewTypes of primitives, or None. -/
inductive FlatMember : Ty → Prop
  | prim {p} : FlatMember (.prim p)
  | newType {n p} : FlatMember (.newType n p)
  | none : FlatMember .none

/-- Values of this primitive type are wanted by the member. -/
inductive Wants : Ty → Prim → Prop
  | prim {p} : Wants (.prim p) p
  | newType {n p} : Wants (.newType n p) p

theorem flat_payload {env : Env} {tg t d} (ht : FlatMember t) : unionPayload env tg t d = .ok d := by
  cases ht <;> (unfold unionPayload; simp [Ty.isCls])

/-- What a member of a union accepts is of its type. -/
theorem flat_wants {env : Env} {r cx t d w} (ht : FlatMember t) (h : deMember env r cx t d = .ok w) :
    (∃ p, Wants t p ∧ IsA env (.prim p) d) ∨ (t = .none ∧ d = .none) := by
  obtain ⟨p, hp, hi, _, _⟩ := deMember_ok.1 h
  rw [flat_payload ht] at hp
  cases hp
  cases ht with
  | prim => cases hi with
    | prim hi => exact .inl ⟨_, .prim, hi⟩
    | other h1 _ _ _ => exact absurd rfl (h1 _)
  | newType => cases hi with
    | newType hi => exact .inl ⟨_, .newType, hi⟩
    | other _ h1 _ _ => exact absurd rfl (h1 _ _)
  | none => cases hi with
    | none => exact .inr ⟨rfl, rfl⟩
    | other _ _ h1 _ => exact absurd rfl h1

/-- **C40** A union field without a member for the value refuses it: nothing is converted. -/
theorem C40_union_refused {env : Env} {K n c} {cd : ClassDef} {f ts s dk kvs d cn tg} (hC : PlainClass env c cd) (hf : PlainField env cd f)
    (hty : f.ty = .union ts) (ho : (Ty.union ts).isOpt = false) (hown : OwnFuncs env (.cls c) (.union ts)) (hm : ∀ t ∈ ts, FlatMember t)
    (hno : ∀ t ∈ ts, ∀ p, Wants t p → ¬ IsA env (.prim p) d) (hnn : .none ∈ ts → d ≠ .none)
    (hd : K.dec s = .ok (.dict dk kvs)) (hx : getStr (f.conv cd.deCase) kvs = some d)
    (hpost : ∀ c cd, env.cls c = some cd → cd.postInit = none) (hsig : ∀ c cd, env.cls c = some cd → SigOk true cd) :
    ∃ e, fromJson env K n (.cls c) s cn tg = .error e ∧ (e = .fuel ∨ e.isSerde = true) := by
  cases h : fromJson env K n (.cls c) s cn tg with
  | ok v =>
    exfalso
    have hreach : Reach env true (.cls c) (.union ts) := .step (.field hC.cls hf.mem hf.skip) (hty ▸ .refl)
    obtain ⟨_, w, m, _, _, hu⟩ := field_union_run hC.cls hC.dict hC.post hC.names hf.mem (by simp [FieldDef.renderable, hf.init, hf.skip, hf.skipDe]) hC.global hty ho
      hf.flat hf.alias hf.deser (hty ▸ hf.noCls) (tableOf_cls.find hreach hown .refl ho) hx (fromJson_dict hd h)
    obtain ⟨pre, t, post, rfl, hok, _⟩ := deUnion_ok.1 hu
    have hmem : t ∈ pre ++ t :: post := by simp
    rcases flat_wants (hm t hmem) hok with ⟨p, hp, hi⟩ | ⟨rfl, rfl⟩
    · exact hno t hmem p hp hi
    · exact hnn hmem rfl
  | error e =>
    refine ⟨e, rfl, ?_⟩
    unfold fromJson decodeDict at h
    rw [hd] at h
    exact C34_only_serde hpost hsig h

/-- **C40** An integer literal is refused for a union of primitives without int. -/
theorem C40_union_int_refused {env : Env} {K n c} {cd : ClassDef} {f ts s dk kvs i cn tg} (hC : PlainClass env c cd) (hf : PlainField env cd f)
    (hty : f.ty = .union ts) (ho : (Ty.union ts).isOpt = false) (hown : OwnFuncs env (.cls c) (.union ts)) (hm : ∀ t ∈ ts, FlatMember t)
    (hno : ∀ t ∈ ts, ¬ Wants t .int)
    (hd : K.dec s = .ok (.dict dk kvs)) (hx : getStr (f.conv cd.deCase) kvs = some (.int i))
    (hpost : ∀ c cd, env.cls c = some cd → cd.postInit = none) (hsig : ∀ c cd, env.cls c = some cd → SigOk true cd) :
    ∃ e, fromJson env K n (.cls c) s cn tg = .error e ∧ (e = .fuel ∨ e.isSerde = true) :=
  C40_union_refused hC hf hty ho hown hm (by intro t ht p hp hi; cases hi; exact hno t ht hp) (by intro _ h; cases h) hd hx hpost hsig

/-- **C40** A boolean is refused for a union of primitives without int and bool. -/
theorem C40_union_bool_refused {env : Env} {K n c} {cd : ClassDef} {f ts s dk kvs b cn tg} (hC : PlainClass env c cd) (hf : PlainField env cd f)
    (hty : f.ty = .union ts) (ho : (Ty.union ts).isOpt = false) (hown : OwnFuncs env (.cls c) (.union ts)) (hm : ∀ t ∈ ts, FlatMember t)
    (hno : ∀ t ∈ ts, ¬ Wants t .int ∧ ¬ Wants t .bool)
    (hd : K.dec s = .ok (.dict dk kvs)) (hx : getStr (f.conv cd.deCase) kvs = some (.bool b))
    (hpost : ∀ c cd, env.cls c = some cd → cd.postInit = none) (hsig : ∀ c cd, env.cls c = some cd → SigOk true cd) :
    ∃ e, fromJson env K n (.cls c) s cn tg = .error e ∧ (e = .fuel ∨ e.isSerde = true) :=
  C40_union_refused hC hf hty ho hown hm
    (by intro t ht p hp hi; cases hi <;> first | exact (hno t ht).2 hp | exact (hno t ht).1 hp) (by intro _ h; cases h) hd hx hpost hsig

/-- The numbers of a JSON text. -/
inductive JsonNumber : Val → Prop
  | int {i} : JsonNumber (.int i)
  | float {x} : JsonNumber (.float x)

theorem member_keeps {env : Env} {m cx t d w} (ht : FlatMember t) (hd : JsonNumber d) (hco : cx.coerce = false)
    (hnu : cx.numbers = none ∨ cx.numbers = some (jsonNumbers env.W)) (hdes : ∀ s ∈ cx.des, s.handles t = false)
    (h : deMember env (deAt env m) cx t d = .ok w) : w = d := by
  have hw := flat_wants ht h
  obtain ⟨p, hp, hi, hr, _⟩ := deMember_ok.1 h
  rw [flat_payload ht] at hp
  cases hp
  cases m with
  | zero => cases hr
  | succ m =>
    have hreads : Reads (memberArg t d) d := ⟨rfl, rfl, rfl, rfl, .inr (.inr ⟨.plain, _, rfl, by simp [memberArg, getStr]⟩)⟩
    rw [render_reads hreads] at hr
    unfold deBody at hr
    have hpick : pickDe cx.des (memberArg t d) = none := by
      unfold pickDe memberArg
      dsimp only
      rw [List.find?_eq_none]
      intro s hs
      rw [hdes s (by simpa using hs)]
      simp
    have hty : (memberArg t d).ty = t := rfl
    have hde : (memberArg t d).deser = none := rfl
    rw [hpick, hde, hty] at hr
    dsimp only at hr
    cases ht with
    | none =>
      rcases hw with ⟨p, hp, _⟩ | ⟨_, rfl⟩
      · cases hp
      · cases hd
    | newType =>
      rw [hreads.primData, hco] at hr
      simp only [Bool.false_eq_true, if_false] at hr
      cases hr; rfl
    | prim =>
      rw [hreads.primData, hco] at hr
      simp only [Bool.false_eq_true, if_false] at hr
      rcases hw with ⟨p, hp, hi⟩ | ⟨h, _⟩
      · cases hp
        split at hr
        · rcases hnu with hnu | hnu <;> simp only [hnu, Option.some.injEq, reduceCtorEq] at *
          · subst_vars
            cases hd <;> cases hi
            cases hr; rfl
        · cases hr; rfl
      · cases h

/-- **C40** A number read into a union of primitives stays the number it is, and some member has its type. -/
theorem C40_union_kept_partial {env : Env} {K n c} {cd : ClassDef} {f ts s dk kvs d v cn tg} (hC : PlainClass env c cd) (hf : PlainField env cd f)
    (hty : f.ty = .union ts) (ho : (Ty.union ts).isOpt = false) (hown : OwnFuncs env (.cls c) (.union ts)) (hm : ∀ t ∈ ts, FlatMember t)
    (hgl : ∀ s ∈ env.gde, ∀ t ∈ ts, s.handles t = false) (hnum : JsonNumber d)
    (hd : K.dec s = .ok (.dict dk kvs)) (hx : getStr (f.conv cd.deCase) kvs = some d) (h : fromJson env K n (.cls c) s cn tg = .ok v) :
    ∃ attrs t p, v = .inst c attrs ∧ attrs.lookup f.name = some d ∧ t ∈ ts ∧ Wants t p ∧ IsA env (.prim p) d := by
  have hreach : Reach env true (.cls c) (.union ts) := .step (.field hC.cls hf.mem hf.skip) (hty ▸ .refl)
  obtain ⟨attrs, w, m, rfl, ha, hu⟩ := field_union_run hC.cls hC.dict hC.post hC.names hf.mem (by simp [FieldDef.renderable, hf.init, hf.skip, hf.skipDe]) hC.global hty ho
    hf.flat hf.alias hf.deser (hty ▸ hf.noCls) (tableOf_cls.find hreach hown .refl ho) hx (fromJson_dict hd h)
  obtain ⟨pre, t, post, rfl, hok, _⟩ := deUnion_ok.1 hu
  have hmem : t ∈ pre ++ t :: post := by simp
  have hw : w = d := member_keeps (hm t hmem) hnum rfl
    (by cases cn with
        | true => exact .inr rfl
        | false => exact .inl rfl) (fun s hs => hgl s hs t hmem) hok
  subst hw
  rcases flat_wants (hm t hmem) hok with ⟨p, hp, hi⟩ | ⟨_, rfl⟩
  · exact ⟨attrs, t, p, rfl, ha, hmem, hp, hi⟩
  · cases hnum

namespace C40Ex
/-- `class U: x: Union[float, str]` and `class V: x: Union[float, int]`. -/
def cdU : ClassDef := { name := "U", mro := ["U"], fields := [{ name := "x", ty := .union [.prim .float, .prim .str] }] }
def cdV : ClassDef := { name := "V", mro := ["V"], fields := [{ name := "x", ty := .union [.prim .float, .prim .int] }] }
def envU : Env := Ex.mk [("U", cdU), ("V", cdV)]
theorem plainU : PlainClass envU "U" cdU := ⟨rfl, rfl, rfl, by simp [cdU], ⟨by simp [envU, Ex.mk], by simp [envU, Ex.mk]⟩⟩
theorem plainV : PlainClass envU "V" cdV := ⟨rfl, rfl, rfl, by simp [cdV], ⟨by simp [envU, Ex.mk], by simp [envU, Ex.mk]⟩⟩
theorem plain_u : PlainField envU cdU { name := "x", ty := .union [.prim .float, .prim .str] } :=
  ⟨by simp [cdU], rfl, rfl, rfl, rfl, rfl, rfl, by simp [envU, Ex.mk, cdU]⟩
theorem plain_v : PlainField envU cdV { name := "x", ty := .union [.prim .float, .prim .int] } :=
  ⟨by simp [cdV], rfl, rfl, rfl, rfl, rfl, rfl, by simp [envU, Ex.mk, cdV]⟩
/-- One union with primitive members and no literal. -/
theorem ownOne {c p q} (he : envU.unionsOf c = [[.prim p, .prim q]]) : OwnFuncs envU (.cls c) (.union [.prim p, .prim q]) := by
  have hocc : ∀ {u}, OccursIn (.union [.prim p, .prim q]) u → u = .union [.prim p, .prim q] ∨ u = .prim p ∨ u = .prim q := by
    intro u h
    cases h with
    | refl => exact .inl rfl
    | union hm h =>
      simp only [List.mem_cons, List.not_mem_nil, or_false] at hm
      rcases hm with rfl | rfl <;> cases h <;> simp
  refine ⟨fun ts hi hp us hr _ => ?_, fun vs hi => ?_⟩
  · have := unionsOf_iff.2 hr
    rw [he, List.mem_singleton] at this
    rcases hocc hi with h | h | h <;> cases h
    exact this
  · rcases hocc hi with h | h | h <;> cases h
theorem ownU : OwnFuncs envU (.cls "U") (.union [.prim .float, .prim .str]) := ownOne rfl
theorem ownV : OwnFuncs envU (.cls "V") (.union [.prim .float, .prim .int]) := ownOne rfl
end C40Ex

example : ∃ e, fromJson C40Ex.envU (C40Ex.K (.dict .plain [(.str "x", .int 3)])) 9 (.cls "U") "t" = .error e ∧ (e = .fuel ∨ e.isSerde = true) :=
  C40_union_int_refused C40Ex.plainU C40Ex.plain_u rfl rfl C40Ex.ownU
    (by simp only [List.mem_cons, List.not_mem_nil, or_false]; rintro t (rfl | rfl) <;> exact .prim)
    (by simp only [List.mem_cons, List.not_mem_nil, or_false]; rintro t (rfl | rfl) h <;> cases h) rfl rfl (Ex.all_post rfl) (Ex.all_sig rfl)

example : ∃ e, fromJson C40Ex.envU (C40Ex.K (.dict .plain [(.str "x", .bool true)])) 9 (.cls "U") "t" = .error e ∧ (e = .fuel ∨ e.isSerde = true) :=
  C40_union_bool_refused C40Ex.plainU C40Ex.plain_u rfl rfl C40Ex.ownU
    (by simp only [List.mem_cons, List.not_mem_nil, or_false]; rintro t (rfl | rfl) <;> exact .prim)
    (by simp only [List.mem_cons, List.not_mem_nil, or_false]; rintro t (rfl | rfl) <;> exact ⟨(by intro h; cases h), (by intro h; cases h)⟩)
    rfl rfl (Ex.all_post rfl) (Ex.all_sig rfl)

example : ∃ attrs t p, Val.inst "V" [("x", .int 3)] = .inst "V" attrs ∧ attrs.lookup "x" = some (.int 3) ∧
    t ∈ [Ty.prim .float, .prim .int] ∧ Wants t p ∧ IsA C40Ex.envU (.prim p) (.int 3) :=
  C40_union_kept_partial (K := C40Ex.K (.dict .plain [(.str "x", .int 3)])) (n := 9) (s := "t") (cn := true) (tg := .external) C40Ex.plainV C40Ex.plain_v rfl rfl C40Ex.ownV
    (by simp only [List.mem_cons, List.not_mem_nil, or_false]; rintro t (rfl | rfl) <;> exact .prim)
    (by simp [C40Ex.envU, Ex.mk]) .int rfl rfl rfl

/-- For a float in a union the statement is false: `3` is refused for `Union[float, str]`, with `3.0` accepted. -/
theorem C40_false_union :
    (∃ e, fromJson C40Ex.envU (C40Ex.K (.dict .plain [(.str "x", .int 3)])) 9 (.cls "U") "t" = .error e ∧ e.isSerde = true) ∧
    fromJson C40Ex.envU (C40Ex.K (.dict .plain [(.str "x", .float (.fin 3))])) 9 (.cls "U") "t" = .ok (.inst "U" [("x", .float (.fin 3))]) :=
  ⟨⟨_, rfl, rfl⟩, rfl⟩

end Verif.Props
