import Verif.Lemmas.RTUntagged
/-!
# Round trip: dataclass-typed values and unions
-/

namespace Verif

open Spec

/-! ## Dataclasses as values -/

theorem strKeys_pairwise {es : List (String × Val)} (h : (es.map (·.1)).Nodup) (f : Val → Val) :
    ((es.map (fun e => (Val.str e.1, f e.2))).map (·.1)).Pairwise (fun a b => pyEq a b = false) := by
  rw [List.map_map, List.pairwise_map]
  have : es.Pairwise (fun a b => a.1 ≠ b.1) := by
    have h' := h
    unfold List.Nodup at h'
    rwa [List.pairwise_map] at h'
  refine this.imp ?_
  intro a b hab
  rw [Bool.eq_false_iff]
  intro hp
  exact hab (Val.str.inj (pyEq_str_right.1 hp))

theorem strKeys_ne {es : List (String × Val)} (h : (es.map (·.1)).Nodup) (f : Val → Val) :
    ((es.map (fun e => (Val.str e.1, f e.2))).map (·.1)).Pairwise (· ≠ ·) := by
  rw [List.map_map, List.pairwise_map]
  have : es.Pairwise (fun a b => a.1 ≠ b.1) := by
    have h' := h
    unfold List.Nodup at h'
    rwa [List.pairwise_map] at h'
  refine this.imp ?_
  intro a b hab hp
  exact hab (Val.str.inj hp)

theorem wire_strKeys {env : Env} (F : Fmt env) {es : List (String × Val)} (h : (es.map (·.1)).Nodup) :
    F.wire (.dict .plain (strKeys es)) = .dict .plain (es.map (fun e => (.str e.1, F.wire e.2))) := by
  have : (strKeys es).map (fun kv => (F.key kv.1, F.wire kv.2)) = es.map (fun e => (.str e.1, F.wire e.2)) := by
    rw [strKeys, List.map_map]
    refine List.map_congr_left (fun e _ => ?_)
    simp [F.key_str]
  rw [F.wire_dict, this]
  have := strKeys_pairwise h id
  rw [List.map_map] at this
  rw [strKeys, List.map_map]
  refine (List.map_congr_left (fun e _ => ?_)) ▸ this
  simp [F.key_str]

theorem getStr_strKeys {es : List (String × Val)} (h : (es.map (·.1)).Nodup) (f : Val → Val) {e} (he : e ∈ es) :
    getStr e.1 (es.map (fun e => (Val.str e.1, f e.2))) = some (f e.2) :=
  getStr_of_mem (strKeys_ne h f) (List.mem_map.2 ⟨e, he, rfl⟩)

theorem ClsEnc.nodup {env : Env} {F : Fmt env} {c} {cd : ClassDef} {v es} (h : ClsEnc env F c cd v es) (hok : ClassOk env F c cd) :
    (es.map (·.1)).Nodup := h.keys.nodup hok.wires

/-- The conditions under which the entries `es` of `c` are read back from `kvs`. -/
structure Carries (env : Env) (F : Fmt env) (c : ClassId) (cd : ClassDef) (es : List (String × Val)) (kvs : List (Val × Val)) : Prop where
  present : ∀ e ∈ es, getStr e.1 kvs = some (F.wire e.2)
  absent : ∀ k ∈ wires env cd, k ∉ es.map (·.1) → getStr k kvs = none
  deny : cd.denyUnknown = true → ∀ kv ∈ kvs, ∃ k ∈ env.known c, kv.1 = .str k

theorem getStr_none {k : String} {xs : List (Val × Val)} (h : ∀ kv ∈ xs, kv.1 ≠ .str k) : getStr k xs = none := by
  induction xs with
  | nil => rfl
  | cons a xs ih =>
    obtain ⟨k', v'⟩ := a
    have h1 := h (k', v') (by simp)
    have h2 := ih (fun kv hkv => h kv (by simp [hkv]))
    cases k' <;> simp_all [getStr]

theorem getStr_strKeys_none {es : List (String × Val)} (f : Val → Val) {k} (h : k ∉ es.map (·.1)) :
    getStr k (es.map (fun e => (Val.str e.1, f e.2))) = none := by
  refine getStr_none (fun kv hkv hk => ?_)
  obtain ⟨e, he, rfl⟩ := List.mem_map.1 hkv
  exact h (List.mem_map.2 ⟨e, he, Val.str.inj hk⟩)

/-- They hold of the entries themselves. -/
theorem ClsEnc.holds {env : Env} {F : Fmt env} {c} {cd : ClassDef} {v es} (h : ClsEnc env F c cd v es) (hok : ClassOk env F c cd) :
    Carries env F c cd es (es.map (fun e => (.str e.1, F.wire e.2))) where
  present := fun e he => getStr_strKeys (h.nodup hok) _ he
  absent := fun k _ hk => getStr_strKeys_none _ hk
  deny := fun _ kv hkv => by
    obtain ⟨e, he, rfl⟩ := List.mem_map.1 hkv
    exact ⟨e.1, h.known _ (h.keys.subset (List.mem_map.2 ⟨e, he, rfl⟩)), rfl⟩

/-- A dataclass value in a dict based scope. -/
theorem enc_cls_named {env : Env} {F : Fmt env} {S c} {cd : ClassDef} (hok : ClassOk env F c cd)
    (hS : S.named = true) {v es} (h : ClsEnc env F c cd v es) : Enc env F S (.cls c) v (.dict .plain (strKeys es)) := by
  have hnd := h.nodup hok
  refine ⟨h.se.step ?_, h.de.step ?_, ?_⟩
  · intro n hn
    rw [seAt_render]
    unfold renderF
    have h0 : (seCxOf F S).sers = [] := rfl
    rw [h0, pickSer_nil]
    have hN : (seCxOf F S).named = true := hS
    simp only [hN]
    exact hn _ _ rfl rfl
  · intro n hn cx a hcx hr hty
    rw [render_reads hr]
    unfold deBody
    rw [hcx.des, pickDe_nil, hr.2.1, hr.1]
    dsimp only
    rw [hty]
    dsimp only
    rw [hr.2.2.1, hr.data, hcx.named, hS, hcx.reuse, hcx.numbers, wire_strKeys F hnd]
    simp only [Bool.false_eq_true, if_false]
    have hh := h.holds hok
    exact hn _ _ _ rfl rfl hh.present hh.absent hh.deny
  · rw [wire_strKeys F hnd]; exact ⟨fun hh => (by cases hh), fun _ _ hh => (by cases hh)⟩

/-- A dataclass value in a tuple based scope. -/
theorem rt_cls_tuple {env : Env} {F : Fmt env} {S c} {cd : ClassDef} (hc : env.cls c = some cd) (htr : cd.transparent = false) (hok : EnvOk env F)
    (hF : F.named = false) (hS : S.named = false) {attrs : List (String × Val)} (hn : attrs.map (·.1) = cd.fields.map (·.name))
    (h : ∀ p ∈ cd.fields.zip attrs, RT env F (scopeOf env false c cd) p.1.ty p.2.2 ∧ bearable env p.1.ty p.2.2 = true)
    (hP : ∀ p ∈ cd.fields.zip attrs, ∀ ch chd, p.1.ty = .cls ch → env.cls ch = some chd → chd.transparent = false → ∃ L, PartsT env F ch chd p.2.2 L) :
    RT env F S (.cls c) (.inst c attrs) := by
  obtain ⟨_, ws, h1, h2⟩ := cls_tuple_all hF hok hc htr hn h hP
  refine ⟨.tuple ws, h1.step ?_, h2.step ?_, ?_⟩
  · intro n hn
    rw [seAt_render]
    unfold renderF
    have h0 : (seCxOf F S).sers = [] := rfl
    rw [h0, pickSer_nil]
    have hN : (seCxOf F S).named = false := hS
    simp only [hN]
    exact hn _ _ rfl rfl
  · intro n hn cx a hcx hr hty
    rw [render_reads hr]
    unfold deBody
    rw [hcx.des, pickDe_nil, hr.2.1, hr.1]
    dsimp only
    rw [hty]
    dsimp only
    rw [hr.2.2.1, hr.data, hcx.named, hS, hcx.reuse, hcx.numbers]
    simp only [Bool.false_eq_true, if_false]
    exact hn _ _ rfl rfl (F.wire_tuple ws)
  · rcases F.wire_tuple ws with h | h <;> rw [h] <;> exact ⟨fun hh => (by cases hh), fun _ _ hh => (by cases hh)⟩

/-! ## Unions: members that do not match -/

theorem pyIn_scalar {v : Val} {k b} (hv : ∀ d kvs, v ≠ .dict d kvs) (_ : pyIn k v = .ok b) : ∃ e, pyGetItem v k = .error e ∧ e ≠ .fuel := by
  cases v with
  | dict d kvs => exact absurd rfl (hv d kvs)
  | _ => exact ⟨_, rfl, by simp⟩

/-- A value that is not a mapping is never a tagged dataclass. -/
theorem payload_scalar {env : Env} {tg c} {v : Val} (htg : tg ≠ .untagged) (hv : ∀ d kvs, v ≠ .dict d kvs) :
    ∃ e, unionPayload env tg (.cls c) v = .error e ∧ e ≠ .fuel := by
  have hin : ∀ k, (∃ b, pyIn k v = .ok b) ∨ ∃ e, pyIn k v = .error e ∧ e ≠ .fuel := by
    intro k
    cases v <;> simp [pyIn]
  have hget : ∀ k, ∃ e, pyGetItem v k = .error e ∧ e ≠ .fuel := by
    intro k
    cases v with
    | dict d kvs => exact absurd rfl (hv d kvs)
    | _ => exact ⟨_, rfl, by simp⟩
  unfold unionPayload
  simp only [Ty.isCls, if_true]
  cases tg with
  | untagged => exact absurd rfl htg
  | external =>
    dsimp only
    rcases hin (typename env (.cls c)) with ⟨b, hb⟩ | ⟨e, he, hne⟩
    · rw [hb]
      cases b with
      | true => exact hget _
      | false => exact ⟨_, rfl, by simp⟩
    · rw [he]; exact ⟨_, rfl, hne⟩
  | internal tag =>
    dsimp only
    rcases hin tag with ⟨b, hb⟩ | ⟨e, he, hne⟩
    · rw [hb]
      cases b with
      | true =>
        obtain ⟨e, he, hne⟩ := hget tag
        dsimp only; rw [he]; exact ⟨_, rfl, hne⟩
      | false => exact ⟨_, rfl, by simp⟩
    · rw [he]; exact ⟨_, rfl, hne⟩
  | adjacent tag content =>
    dsimp only
    rcases hin tag with ⟨b, hb⟩ | ⟨e, he, hne⟩
    · rw [hb]
      cases b with
      | true =>
        dsimp only
        rcases hin content with ⟨b, hb⟩ | ⟨e, he, hne⟩
        · rw [hb]
          cases b with
          | true =>
            obtain ⟨e, he, hne⟩ := hget tag
            dsimp only; rw [he]; exact ⟨_, rfl, hne⟩
          | false => exact ⟨_, rfl, by simp⟩
        · rw [he]; exact ⟨_, rfl, hne⟩
      | false => exact ⟨_, rfl, by simp⟩
    · rw [he]; exact ⟨_, rfl, hne⟩

/-- The first success decides, if every earlier attempt fails or succeeds with the same value. -/
theorem deUnion_first {env : Env} {r cx data v t} {pre post : List Ty}
    (h : ∀ t ∈ pre, deMember env r cx t data = .ok v ∨ ∃ e, deMember env r cx t data = .error e ∧ e ≠ .fuel)
    (hown : deMember env r cx t data = .ok v) : deUnion env r cx data (pre ++ t :: post) = .ok v := by
  induction pre with
  | nil => rw [List.nil_append]; unfold deUnion; rw [hown]
  | cons s pre ih =>
    rw [List.cons_append]
    unfold deUnion
    rcases h s (by simp) with h1 | ⟨e, h1, hne⟩
    · rw [h1]
    · rw [h1]
      have := ih (fun t' ht' => h t' (by simp [ht']))
      cases e with
      | fuel => exact absurd rfl hne
      | _ => exact this

/-- What a member of a union writes. -/
def seMember (env : Env) (r : SeRec) (cx : SeCx) (v : Val) (t : Ty) : Res Val :=
  match r.render cx { ty := t, v := .ok v } with
  | .error e => .error e
  | .ok res =>
    if t.isCls then
      match cx.tagging with
      | .external => .ok (.dict .plain [(.str (typename env t), res)])
      | .internal tag => pySetItem res tag (.str (typename env t))
      | .adjacent tag content => pySetItem (.dict .plain [(.str content, res)]) tag (.str (typename env t))
      | .untagged => .ok res
    else .ok res

theorem seUnion_cons {env : Env} {r cx v t ts} :
    seUnion env r cx v (t :: ts) = if isInst env t v then seMember env r cx v t else seUnion env r cx v ts := rfl

/-- A member writes the value, if every earlier one writes the same or does not take it for an instance. -/
theorem seUnion_first {env : Env} {r cx v w t} {pre post : List Ty}
    (h : ∀ t ∈ pre, isInst env t v = false ∨ seMember env r cx v t = .ok w) (hi : isInst env t v = true)
    (hown : seMember env r cx v t = .ok w) : seUnion env r cx v (pre ++ t :: post) = .ok w := by
  induction pre with
  | nil => rw [List.nil_append, seUnion_cons, hi, if_pos rfl, hown]
  | cons s pre ih =>
    rw [List.cons_append, seUnion_cons]
    have ih := ih (fun t' ht' => h t' (by simp [ht']))
    rcases h s (by simp) with h1 | h1
    · rw [h1]; exact ih
    · rw [h1, ih]; split <;> rfl

/-- A scalar of a union: int, float, bool, str or None. -/
inductive UScalar : Val → Prop
  | int {i} : UScalar (.int i)
  | float {x} : UScalar (.float x)
  | bool {b} : UScalar (.bool b)
  | str {s} : UScalar (.str s)
  | none : UScalar .none

theorem UScalar.notDict {v} (h : UScalar v) : ∀ d kvs, v ≠ .dict d kvs := by
  intro d kvs e; subst e; cases h

theorem UScalar.wire {env : Env} (F : Fmt env) {v} (h : UScalar v) : F.wire v = v := by
  cases h
  · exact F.wire_int _
  · exact F.wire_float _
  · exact F.wire_bool _
  · exact F.wire_str _
  · exact F.wire_none

/-- Scope of union functions. -/
theorem DeM.inUnion {env : Env} {F : Fmt env} {S cx} (h : DeM F S cx) (hg : env.gde = []) (d) : DeM F S.inUnion (cx.inUnion env d) := by
  constructor
  · rfl
  · exact h.reuse
  · exact h.numbers
  · rfl
  · exact h.unions
  · exact h.lits
  · exact h.tagging
  · exact hg

theorem seCx_inUnion {env : Env} (F : Fmt env) (S) (hg : env.gser = []) : (seCxOf F S).inUnion env = seCxOf F S.inUnion := by
  unfold SeCx.inUnion; rw [hg]; rfl

theorem prim_de {env : Env} {F : Fmt env} {S : Scope} {p v n cx a} (hb : bearable env (.prim p) v = true) (hv : UScalar v)
    (hcx : DeM F S cx) (hco : S.coerce = false) (hr : Reads a v) (hty : a.ty = .prim p) : (deAt env (n + 1)).render cx a = .ok v := by
  rw [render_reads hr]
  unfold deBody
  rw [hcx.des, pickDe_nil, hr.2.1, hr.1]
  dsimp only
  rw [hty]
  dsimp only
  rw [hr.primData, hcx.coerce, hco, hcx.numbers]
  dsimp only
  cases hnum : F.numbers with
  | none => cases p <;> rfl
  | some num =>
    cases p with
    | float =>
      cases hv with
      | float => dsimp only; rw [F.numbers_float num hnum]; rfl
      | _ => simp [bearable, isPrimInst] at hb
    | _ => rfl

/-! ## Unions: data that a member rejects -/

theorem deMember_pre {env : Env} {r cx t d} (hc : t.isCls = false) (h : unionPre env t d = false) :
    ∃ e, deMember env r cx t d = .error e ∧ e ≠ .fuel := by
  refine ⟨.serde "ensure", ?_, by simp⟩
  unfold deMember unionPayload
  rw [hc]
  simp only [Bool.false_eq_true, if_false]
  rw [h]; rfl

theorem deMember_render {env : Env} {r : DeRec} {cx t d e} (hc : t.isCls = false) (h : r.render cx (fakeArg t d) = .error e) (hne : e ≠ .fuel) :
    ∃ e, deMember env r cx t d = .error e ∧ e ≠ .fuel := by
  cases hp : unionPre env t d with
  | false => exact deMember_pre hc hp
  | true =>
    refine ⟨e, ?_, hne⟩
    unfold deMember unionPayload
    rw [hc]
    simp only [Bool.false_eq_true, if_false]
    rw [hp]
    unfold fakeArg at h
    simp only [Bool.not_true, Bool.false_eq_true, if_false]
    rw [h]

theorem deMember_of {env : Env} {r : DeRec} {cx t t' d v} (hc : t.isCls = false) (hp : unionPre env t d = true)
    (h : r.render cx (fakeArg t d) = .ok v) (he : erase t = some t') (hb : bearable env t' v = true) : deMember env r cx t d = .ok v := by
  unfold deMember unionPayload
  rw [hc]
  simp only [Bool.false_eq_true, if_false]
  rw [hp]
  unfold fakeArg at h
  simp only [Bool.not_true, Bool.false_eq_true, if_false]
  rw [h, he]
  simp only [hb, if_true]

/-- Rendering a member without options. -/
theorem fake_render {env : Env} {F : Fmt env} {S cx t d} (hcx : DeM F S cx) (n) :
    (deAt env (n + 1)).render cx (fakeArg t d) = deBody env (deAt env n) cx (fakeArg t d) := render_reads fakeArg_reads

/-- The body of a type that needs data fails when there is none. -/
theorem member_noData {env : Env} {F : Fmt env} {S t n cx e nm} (ht : TyOk env F S t) (hcx : DeM F S cx) (hn : needsData t = true)
    (hne : e ≠ .fuel) : ∃ e', (deAt env (n + 1)).render cx { ty := t, name := nm, conv := nm, src := .val (.error e) } = .error e' ∧ e' ≠ .fuel := by
  rw [deAt_render]
  unfold deRenderF
  dsimp only
  unfold deBody
  rw [hcx.des, pickDe_nil]
  dsimp only
  cases ht with
  | scalar hs =>
    cases hs with
    | none => cases hn
    | lit hl hf =>
      dsimp only
      rw [hcx.lits, hf]
      exact ⟨_, rfl, hne⟩
    | _ => exact ⟨_, rfl, hne⟩
  | tuple => cases hn
  | alias => cases hn
  | opt hne' _ =>
    dsimp only
    rw [isOpt_pair hne']
    exact ⟨_, rfl, hne⟩
  | union ho _ _ _ _ _ hf =>
    dsimp only
    rw [ho, hcx.unions, hf]
    exact ⟨_, rfl, hne⟩
  | _ => exact ⟨_, rfl, hne⟩

theorem iter_atom {d : Val} (h : (kind d).atom = true) : pyIter d = .error (.py .type) := by
  cases d <;> first | rfl | cases h

theorem index_atom {d : Val} (h : (kind d).atom = true) (i) : pyIndex d i = .error (.py .type) := by
  cases d <;> first | rfl | cases h

theorem items_other {d : Val} (h : kind d ≠ .dict) : pyItems d = .error (.py .attr) := by
  cases d <;> first | rfl | exact absurd rfl h

/-- An enum fails on data that is no str, and no number unless it has numeric values. -/
theorem deEnum_rejects {env : Env} {e} {d : EnumDef} {x : Val} (he : env.enm e = some d) (hd : EnumOk d) (hs : kind x ≠ .str) (hen : kind x ≠ .enum)
    (hn : (kind x).numeric = true → d.members.any (fun m => (kind m.2).numeric) = false) : ∃ p, deEnum env e x = .error p := by
  have hlook : d.members.find? (fun m => pyEq m.2 x) = none := by
    rw [List.find?_eq_none]
    intro m hm
    have hv := hd.vals m hm
    have hmn : (kind x).numeric = true → (kind m.2).numeric = false := by
      intro hx
      have := hn hx
      rw [List.any_eq_false] at this
      simpa using this m hm
    intro hp
    cases hv' : m.2 with
    | _ => rw [hv'] at hv hp hmn; cases x <;> first | (cases hv; done) | simp_all [pyEq, Val.num, kind, Kind.numeric]
  have hcall : ∃ p, enumCall d e x = .error p ∧ (p = .value ∨ p = .type) := by
    unfold enumCall
    dsimp only
    have : ∃ p, (match d.members with
        | [] => Except.error PErr.type
        | _ => match d.members.find? (fun (m : String × Val) => pyEq m.2 x) with
          | some m => Except.ok (Val.enum e m.1)
          | Option.none => .error .value) = .error p ∧ (p = .value ∨ p = .type) := by
      rw [hlook]
      split
      · exact ⟨_, rfl, .inr rfl⟩
      · exact ⟨_, rfl, .inl rfl⟩
    cases x with
    | enum => exact absurd rfl hen
    | _ => exact this
  obtain ⟨p, hp, hp'⟩ := hcall
  unfold deEnum
  rw [he]
  dsimp only
  rw [hp]
  rcases hp' with rfl | rfl
  · dsimp only
    split
    · exact ⟨_, rfl⟩
    · rename_i a proto ms hms
      have hv := hd.vals (a, proto) (by rw [hms]; simp)
      split
      · cases hv
      · exact absurd rfl hs
      · exact absurd rfl hs
      · exact ⟨_, rfl⟩
  · exact ⟨_, rfl⟩

/-- A member that does not take data of this kind fails on it. -/
theorem member_rejects {env : Env} {F : Fmt env} {S t d n cx} (hut : UnionMember env t) (ht : TyOk env F S t) (hcx : DeM F S.inUnion cx)
    (htg : t.isCls = true → S.tagging ≠ .untagged) (hen : kind d ≠ .enum) (hk : takes env t (kind d) = false) :
    ∃ e, deMember env (deAt env (n + 1 + 1)) cx t d = .error e ∧ e ≠ .fuel := by
  have hfr : ∀ t', deBody env (deAt env (n + 1)) cx (fakeArg t' d) = (deAt env (n + 1 + 1)).render cx (fakeArg t' d) :=
    fun t' => (fake_render hcx (n + 1)).symm
  have hbody : ∀ t', (deAt env (n + 1 + 1)).render cx (fakeArg t' d) = deBody env (deAt env (n + 1)) cx (fakeArg t' d) := fun t' => (hfr t').symm
  cases hut with
  | @prim p =>
    refine deMember_pre rfl ?_
    unfold unionPre
    cases p <;> cases d <;> first | rfl | (simp [takes, kind] at hk; done) | exact absurd rfl hen
  | none =>
    refine deMember_pre rfl ?_
    unfold unionPre
    cases d <;> first | rfl | (simp [takes, kind] at hk; done)
  | lit => simp [takes] at hk
  | @enum e dd he hmix =>
    cases ht with | scalar hs =>
    cases hs with | enum he' hd =>
    obtain ⟨p, hp⟩ := deEnum_rejects (x := d) he' hd (by intro h; simp [takes, h] at hk) hen (by
      intro h
      simp only [takes, he'] at hk
      simpa [h] using (Bool.or_eq_false_iff.1 hk).2)
    refine deMember_render (e := .py p) rfl ?_ (by simp)
    rw [hbody]
    unfold deBody
    rw [hcx.des, pickDe_nil]
    dsimp only
    rw [show (fakeArg (.enum e) d).ty = .enum e from rfl]
    dsimp only
    rw [fakeArg_reads.2.1, fakeArg_reads.primData]
    dsimp only
    rw [hp]; rfl
  | std => simp [takes] at hk
  | dt => simp [takes] at hk
  | @list k t =>
    refine deMember_render (e := .py .type) rfl ?_ (by simp)
    rw [hbody]
    unfold deBody
    rw [hcx.des, pickDe_nil, fakeArg_reads.2.1, fakeArg_reads.data]
    dsimp only
    rw [show (fakeArg (.list k t) d).ty = .list k t from rfl]
    dsimp only
    rw [iter_atom (by simpa [takes] using hk)]
  | @deque t =>
    refine deMember_render (e := .py .type) rfl ?_ (by simp)
    rw [hbody]
    unfold deBody
    rw [hcx.des, pickDe_nil, fakeArg_reads.2.1, fakeArg_reads.data]
    dsimp only
    rw [show (fakeArg (.deque t) d).ty = .deque t from rfl]
    dsimp only
    rw [iter_atom (by simpa [takes] using hk)]
  | @tupleV t =>
    refine deMember_render (e := .py .type) rfl ?_ (by simp)
    rw [hbody]
    unfold deBody
    rw [hcx.des, pickDe_nil, fakeArg_reads.2.1, fakeArg_reads.data]
    dsimp only
    rw [show (fakeArg (.tupleV t) d).ty = .tupleV t from rfl]
    dsimp only
    rw [iter_atom (by simpa [takes] using hk)]
  | @set k t =>
    refine deMember_render (e := .py .type) rfl ?_ (by simp)
    rw [hbody]
    unfold deBody
    rw [hcx.des, pickDe_nil, fakeArg_reads.2.1, fakeArg_reads.data]
    dsimp only
    rw [show (fakeArg (.set k t) d).ty = .set k t from rfl]
    dsimp only
    rw [iter_atom (by simpa [takes] using hk)]
  | @tuple ts =>
    cases ts with
    | nil => simp [takes] at hk
    | cons t ts =>
      simp only [takes, Bool.or_eq_false_iff, Bool.not_eq_false'] at hk
      cases ht with
      | scalar hs => cases hs
      | tuple _ ht =>
        obtain ⟨e, he, hne⟩ := member_noData (n := n) (nm := "data[..]") (e := .py .type) (tyOk_inUnion (ht t (by simp))) hcx hk.1 (by simp)
        refine deMember_render (e := e) rfl ?_ hne
        rw [hbody]
        unfold deBody
        rw [hcx.des, pickDe_nil, fakeArg_reads.2.1, fakeArg_reads.data]
        dsimp only
        rw [show (fakeArg (.tuple (t :: ts)) d).ty = .tuple (t :: ts) from rfl]
        dsimp only [List.zipIdx_cons, mapR]
        rw [index_atom hk.2, fakeArg_reads.1]
        rw [he]
  | @dict k kt vt =>
    refine deMember_render (e := .py .attr) rfl ?_ (by simp)
    rw [hbody]
    unfold deBody
    rw [hcx.des, pickDe_nil, fakeArg_reads.2.1, fakeArg_reads.data]
    dsimp only
    rw [show (fakeArg (.dict k kt vt) d).ty = .dict k kt vt from rfl]
    dsimp only
    rw [items_other (by simpa [takes] using hk)]
  | @counter t =>
    refine deMember_render (e := .py .attr) rfl ?_ (by simp)
    rw [hbody]
    unfold deBody
    rw [hcx.des, pickDe_nil, fakeArg_reads.2.1, fakeArg_reads.data]
    dsimp only
    rw [show (fakeArg (.counter t) d).ty = .counter t from rfl]
    dsimp only
    rw [items_other (by simpa [takes] using hk)]
  | @cls c cd hc =>
    have htg' : cx.tagging ≠ .untagged := by rw [hcx.tagging]; exact htg rfl
    obtain ⟨e, he, hne⟩ := payload_scalar (env := env) (c := c) (v := d) htg' (by
      intro k kvs h; subst h; simp [takes, kind] at hk)
    refine ⟨e, ?_, hne⟩
    unfold deMember
    rw [he]

/-- A str-convertible class that only accepts strings fails on other data. -/
theorem text_rejects {env : Env} {F : Fmt env} {S : Scope} {t d n cx} (ht : TextOnly env t) (hcx : DeM F S.inUnion cx)
    (h1 : kind d ≠ .str) (h2 : kind d ≠ .text) : ∃ e, deMember env (deAt env (n + 1)) cx t d = .error e ∧ e ≠ .fuel := by
  cases t with
  | std k =>
    obtain ⟨p, hp⟩ := ht d h1 h2
    refine deMember_render (e := .py p) rfl ?_ (by simp)
    rw [fake_render hcx]
    unfold deBody
    rw [hcx.des, pickDe_nil, fakeArg_reads.2.1, fakeArg_reads.data]
    dsimp only
    rw [show (fakeArg (.std k) d).ty = .std k from rfl]
    dsimp only
    have : isStdInst env k d = false := by cases d <;> first | rfl | exact absurd rfl h2
    rw [this]
    simp [stdCall, hp, liftP]
  | dt k =>
    obtain ⟨p, hp⟩ := ht d h1 h2
    refine deMember_render (e := .py p) rfl ?_ (by simp)
    rw [fake_render hcx]
    unfold deBody
    rw [hcx.des, pickDe_nil, fakeArg_reads.2.1, fakeArg_reads.data]
    dsimp only
    rw [show (fakeArg (.dt k) d).ty = .dt k from rfl]
    dsimp only
    have : isDtInst k d = false := by cases d <;> first | rfl | exact absurd rfl h2
    rw [this]
    simp [hp, liftP]
  | _ => exact ht.elim

/-! ## Unions: scalars that are written and read as they are -/

theorem asIs_scalar {env : Env} {F : Fmt env} {S t v} (ha : asIs t = true) (ht : TyOk env F S t) (hv : HasTy env t v) :
    UScalar v ∧ ScalarTy env S t := by
  cases ht with
  | scalar hs =>
    refine ⟨?_, hs⟩
    cases hs with
    | prim => cases hv <;> constructor
    | none => cases hv; constructor
    | lit hl _ =>
      cases hv with | lit hm =>
      cases hl _ hm <;> constructor
    | _ => cases ha
  | _ => cases ha

theorem UScalar.scalarWire {env : Env} (F : Fmt env) {v} (h : UScalar v) : scalarWire env F v = v := by cases h <;> rfl

/-- A member that writes values as they are. -/
theorem asIs_se {env : Env} {F : Fmt env} {S : Scope} {t v n} (ha : asIs t = true) (hi : isInst env t v = true) :
    seMember env (seAt env (n + 1)) (seCxOf F S.inUnion) v t = .ok v := by
  have hr : (seAt env (n + 1)).render (seCxOf F S.inUnion) { ty := t, v := .ok v } = .ok v := by
    rw [seAt_render]
    unfold renderF
    have h0 : (seCxOf F S.inUnion).sers = [] := rfl
    rw [h0, pickSer_nil]
    cases t with
    | prim => rfl
    | none =>
      have : v = .none := by
        simp only [isInst, bearable] at hi
        split at hi
        · rfl
        · cases hi
      subst this; rfl
    | lit => rfl
    | _ => cases ha
  have hc : t.isCls = false := by cases t <;> first | rfl | cases ha
  unfold seMember
  rw [hr, hc]; rfl

/-- A member that reads values as they are returns the data or fails. -/
theorem asIs_de {env : Env} {F : Fmt env} {S t v n cx} (ha : asIs t = true) (ht : TyOk env F S t) (hcx : DeM F S.inUnion cx) (hv : UScalar v) :
    deMember env (deAt env (n + 1)) cx t v = .ok v ∨ ∃ e, deMember env (deAt env (n + 1)) cx t v = .error e ∧ e ≠ .fuel := by
  cases t with
  | prim p =>
    cases hb : bearable env (.prim p) v with
    | true =>
      refine .inl (deMember_of rfl ?_ (prim_de hb hv hcx rfl fakeArg_reads rfl) rfl hb)
      unfold unionPre; simp only [hb]; split <;> rfl
    | false => exact .inr (deMember_pre rfl (by unfold unionPre; simp [isPrimitive, hb]))
  | none =>
    cases hb : bearable env .none v with
    | true =>
      have : v = .none := by
        simp only [bearable] at hb
        split at hb
        · rfl
        · cases hb
      subst this
      refine .inl (deMember_of rfl (by unfold unionPre; simp [Ty.isNone, hb]) ?_ rfl hb)
      rw [fake_render hcx]
      unfold deBody
      rw [hcx.des, pickDe_nil]
      rfl
    | false => exact .inr (deMember_pre rfl (by unfold unionPre; simp [isPrimitive, Ty.isNone, hb]))
  | lit vs =>
    cases ht with | scalar hs =>
    cases hs with | lit hl hf =>
    have hr : (deAt env (n + 1)).render cx (fakeArg (.lit vs) v) = deLit vs v := by
      rw [fake_render hcx]
      unfold deBody
      rw [hcx.des, pickDe_nil, fakeArg_reads.2.1, fakeArg_reads.data]
      dsimp only
      rw [show (fakeArg (.lit vs) v).ty = .lit vs from rfl]
      dsimp only
      rw [hcx.lits, show S.inUnion.lits = S.lits from rfl, hf]
    unfold deLit at hr
    split at hr
    · cases hb : bearable env (.lit vs) v with
      | true => exact .inl (deMember_of rfl rfl hr rfl hb)
      | false =>
        right
        refine ⟨.serde "ensure", ?_, by simp⟩
        unfold fakeArg at hr
        unfold deMember unionPayload
        simp only [Ty.isCls, Bool.false_eq_true, if_false]
        rw [show unionPre env (.lit vs) v = true from rfl]
        simp only [Bool.not_true, Bool.false_eq_true, if_false]
        rw [hr]
        simp [erase, hb]
    · exact .inr (deMember_render rfl hr (by simp))
  | _ => cases ha

/-! ## Unions: members other than dataclasses -/

theorem writes_noEnum {env : Env} {F : Fmt env} {S t} (hu : UnionMember env t) (ht : TyOk env F S t) : .enum ∉ writes env F t := by
  cases hu with
  | @prim p => cases p <;> simp [writes]
  | lit =>
    cases ht with | scalar hs =>
    cases hs with | lit hl _ =>
    intro h
    obtain ⟨v, hv, hk⟩ := List.mem_map.1 h
    cases hl v hv <;> cases hk
  | enum =>
    cases ht with | scalar hs =>
    cases hs with | enum he hd =>
    simp only [writes, he]
    intro h
    obtain ⟨m, hm, hk⟩ := List.mem_map.1 h
    have := hd.vals m hm
    generalize m.2 = x at this hk
    cases this <;> cases hk
  | std => simp only [writes]; split <;> simp
  | dt => simp only [writes]; split <;> simp
  | set => simp only [writes]; split <;> simp
  | _ => simp [writes]

/-- Without tags, a dataclass fails as a member if its `from_dict` fails. -/
theorem untagged_member {env : Env} {F : Fmt env} {S : Scope} {c d n cx} (hS : S.tagging = .untagged) (hcx : DeM F S.inUnion cx)
    (h : ∀ o, ∃ e, deClsF env (deAt env n) true c o d = .error e ∧ e ≠ .fuel) :
    ∃ e, deMember env (deAt env (n + 1 + 1)) cx (.cls c) d = .error e ∧ e ≠ .fuel := by
  obtain ⟨e, he, hne⟩ := h ⟨cx.mg, cx.mgVars, (fakeArg (.cls c) d).tyArgs, some F.deReuse, F.numbers⟩
  refine ⟨e, ?_, hne⟩
  unfold deMember unionPayload
  rw [hcx.tagging, show S.inUnion.tagging = S.tagging from rfl, hS]
  simp only [Ty.isCls, if_true]
  rw [show unionPre env (.cls c) d = true from rfl]
  simp only [Bool.not_true, Bool.false_eq_true, if_false]
  have : (deAt env (n + 1 + 1)).render cx (fakeArg (.cls c) d) = .error e := by
    rw [fake_render hcx]
    unfold deBody
    rw [hcx.des, pickDe_nil, fakeArg_reads.2.1, fakeArg_reads.1]
    dsimp only
    rw [show (fakeArg (.cls c) d).ty = .cls c from rfl]
    dsimp only
    rw [fakeArg_reads.2.2.1, fakeArg_reads.data, hcx.named, hcx.reuse, hcx.numbers]
    simp only [Bool.false_eq_true, if_false]
    rw [show S.inUnion.named = true from rfl, deAt_cls]
    exact he
  unfold fakeArg at this
  rw [this]

/-- Without tags, a dataclass that comes before another member refuses what is written for that. -/
theorem untagged_refuses {env : Env} {F : Fmt env} {S : Scope} {c u d n cx} {cd : ClassDef} (hok : EnvOk env F) (hS : S.tagging = .untagged) (hcx : DeM F S.inUnion cx)
    (hc : env.cls c = some cd) (htr : cd.transparent = false) (hk : KeyApart env (.cls c) u) (hu : u.isCls = false) (hd : kind d ≠ .dict) :
    ∃ e, deMember env (deAt env (n + 1 + 1 + 1)) cx (.cls c) d = .error e ∧ e ≠ .fuel := by
  obtain ⟨f, post, hs, hf⟩ := (hk c cd rfl hc).2 hu
  have hcok := hok.classes c cd hc htr
  exact untagged_member hS hcx (fun o => first_fails hc htr hcok.noClassCustom.2 hok.noGlobal.2 (fun f hf => hcok.types f hf true (.inr rfl)) hs hf hd)

theorem untagged_lacks {env : Env} {F : Fmt env} {S : Scope} {c n cx dk kvs ks} {cd : ClassDef} (hok : EnvOk env F) (hS : S.tagging = .untagged) (hcx : DeM F S.inUnion cx)
    (hc : env.cls c = some cd) (htr : cd.transparent = false) (hl : Lacks cd ks) (hd : ∀ k, k ∉ ks → getStr k kvs = none) :
    ∃ e, deMember env (deAt env (n + 1 + 1 + 1)) cx (.cls c) (.dict dk kvs) = .error e ∧ e ≠ .fuel := by
  have hcok := hok.classes c cd hc htr
  exact untagged_member hS hcx (fun o => lacks_fails hc htr hcok.noClassCustom.2 hok.noGlobal.2 (fun f hf => hcok.types f hf true (.inr rfl)) hl hd)

/-- What an earlier member makes of a value of a later one. -/
theorem earlier {env : Env} {F : Fmt env} {S t u v} (hut : UnionMember env t) (huu : UnionMember env u)
    (ht : TyOk env F S t) (hu : TyOk env F S u) (hv : HasTy env u v) (ha : Apart env F t u)
    (htg : t.isCls = true → S.tagging ≠ .untagged ∨ ∀ d, kind d ≠ .dict → ∀ n cx, DeM F S.inUnion cx →
      ∃ e, deMember env (deAt env (n + 1 + 1 + 1)) cx t d = .error e ∧ e ≠ .fuel)
    (has : ¬(asIs t = true ∧ asIs u = true)) (hcl : ¬(t.isCls = true ∧ u.isCls = true)) :
    isInst env t v = false ∧ ∀ d, kind d ∈ writes env F u → ∀ n cx, DeM F S.inUnion cx →
      ∃ e, deMember env (deAt env (n + 1 + 1 + 1)) cx t d = .error e ∧ e ≠ .fuel := by
  rcases ha with ha | ⟨ho, h1, h2⟩
  · unfold apart at ha
    rw [Bool.or_eq_true, Bool.or_eq_true, Bool.and_eq_true, Bool.and_eq_true] at ha
    rcases ha with (ha | ha) | ha
    · exact absurd ha has
    · exact absurd ha hcl
    · refine ⟨apart_inst hut huu hu hv ha, fun d hd n cx hcx => ?_⟩
      rw [List.all_eq_true] at ha
      have hk : takes env t (kind d) = false := by simpa using ha _ hd
      by_cases hS : t.isCls = true → S.tagging ≠ .untagged
      · refine member_rejects hut ht hcx hS ?_ hk
        intro h
        rw [h] at hd
        exact writes_noEnum huu hu hd
      · have hcl' : t.isCls = true := by
          cases h : t.isCls with
          | true => rfl
          | false => exact absurd (fun h' => absurd h' (by rw [h]; simp)) hS
        rcases htg hcl' with h | h
        · exact absurd (fun _ => h) hS
        · refine h d ?_ n cx hcx
          intro hd'
          rw [hd'] at hk
          cases t <;> first | (cases hcl'; done) | simp [takes] at hk
  · refine ⟨?_, fun d hd n cx hcx => text_rejects ho hcx (fun h => h1 (h ▸ hd)) (fun h => h2 (h ▸ hd))⟩
    have hno : ∀ {k s}, v ≠ .std k s ∧ ∀ {k s}, v ≠ .dt k s := by
      have hk : kind v ≠ .text := by
        intro hk
        cases huu with
        | std => simp only [writes] at h1 h2; cases hr : F.reuse <;> simp [hr] at h1 h2
        | dt => simp only [writes] at h1 h2; cases hr : F.reuse <;> simp [hr] at h1 h2
        | lit =>
          cases hu with | scalar hs =>
          cases hs with | lit hl _ =>
          cases hv with | lit hm =>
          cases hl _ hm <;> cases hk
        | _ => cases hv <;> cases hk
      intro k s
      exact ⟨fun h => hk (by rw [h]; rfl), fun h => hk (by rw [h]; rfl)⟩
    cases t with
    | std k => cases v <;> first | rfl | exact absurd rfl (hno (k := "") (s := "")).1 | (exfalso; exact (@hno _ _).1 rfl)
    | dt k => cases v <;> first | rfl | (exfalso; exact (hno (k := "") (s := "")).2 rfl)
    | _ => exact ho.elim

/-- A value of a member other than a dataclass comes back unchanged. -/
theorem rt_union_other {env : Env} {F : Fmt env} {S ts u v w} (hok : EnvOk env F) (hcls : ∀ c cd, env.cls c = some cd → c ∈ cd.mro)
    (hopt : (Ty.union ts).isOpt = false) (hum : ∀ t ∈ ts, UnionMember env t) (hts : ∀ t ∈ ts, TyOk env F S t) (hp : ts.Pairwise (Apart env F))
    (htag : ∀ c cd, .cls c ∈ ts → env.cls c = some cd → TagOk env S.tagging ts cd)
    (hfind : findUnion env S.unions (unionFuncName env ts) = some ts) (hmem : u ∈ ts) (hc : u.isCls = false) (hv : HasTy env u v)
    (hw : Enc env F S.inUnion u v w) : RT env F S (.union ts) v := by
  have hg := hok.noGlobal
  have huu := hum u hmem
  have hu := hts u hmem
  have hkind := enc_kind huu hc (tyOk_inUnion hu) hv hw
  have hinst := isInst_hasTy hcls hv S hu
  have hname : NameOk u := by
    cases huu with
    | prim => exact .prim
    | none => exact .none
    | lit => exact .lit
    | enum => exact .enum
    | std => exact .std
    | dt => exact .dt
    | list h => exact .list h
    | deque h => exact .deque h
    | tupleV h => exact .tupleV h
    | tuple h => exact .tuple h
    | set h h' => exact .set h h'
    | dict h h' => exact .dict h h'
    | counter => exact .counter
    | cls => exact .cls
  obtain ⟨u', he⟩ := hname.erase
  have hbear := erase_hasTy hcls hv S hu hname u' he
  have hasis : asIs u = true → UScalar v ∧ w = v := by
    intro ha
    obtain ⟨h1, h2⟩ := asIs_scalar ha (tyOk_inUnion hu) hv
    exact ⟨h1, by rw [hw.unique (enc_scalar h2 hv), h1.scalarWire F]⟩
  have hpre : unionPre env u (F.wire w) = true := by
    cases huu with
    | prim =>
      obtain ⟨h1, h2⟩ := hasis rfl
      rw [h2, h1.wire F]
      unfold unionPre
      have := bearable_hasTy (F := F) hcls hv S hu
      simp only [this]; split <;> rfl
    | none =>
      obtain ⟨h1, h2⟩ := hasis rfl
      rw [h2, h1.wire F]
      cases hv; rfl
    | enum he' hm => unfold unionPre; simp [isPrimitive, he', hm, Ty.isNone]
    | _ => rfl
  obtain ⟨pre, post, rfl⟩ := List.append_of_mem hmem
  have hap : ∀ t ∈ pre, Apart env F t u := fun t ht => (List.pairwise_append.1 hp).2.2 t ht u (by simp)
  have htg : ∀ t ∈ pre, t.isCls = true → S.tagging ≠ .untagged ∨ ∀ d, kind d ≠ .dict → ∀ n cx, DeM F S.inUnion cx →
      ∃ e, deMember env (deAt env (n + 1 + 1 + 1)) cx t d = .error e ∧ e ≠ .fuel := by
    intro t ht hct
    by_cases hS : S.tagging = .untagged
    · right
      have htm : t ∈ pre ++ u :: post := by simp [ht]
      cases hum t htm with
      | @cls c cd hcd htr =>
        have hK := htag c cd htm hcd
        rw [hS] at hK
        exact fun d hd n cx hcx => untagged_refuses hok hS hcx hcd htr ((List.pairwise_append.1 hK).2.2 _ ht u (by simp)) hc hd
      | _ => cases hct
    · exact .inl hS
  refine ⟨w, (hw.1.and Ev.pos).step (fun n hn => ?_),
    ((hw.2.1.and Ev.two).step (Q := fun n => (∀ cx a, DeM F S.inUnion cx → Reads a (F.wire w) → a.ty = u → (deAt env n).render cx a = .ok v) ∧ ∃ m, n = m + 1 + 1 + 1)
      (fun n hn => ?_)).step (fun n hn cx a hcx hr hty => ?_), hw.2.2⟩
  · obtain ⟨hn, m, rfl⟩ := hn
    rw [seAt_render]
    unfold renderF
    have h0 : (seCxOf F S).sers = [] := rfl
    rw [h0, pickSer_nil]
    dsimp only
    rw [hopt]
    simp only [Bool.false_eq_true, if_false]
    have hun : (seCxOf F S).unions = S.unions := rfl
    rw [hun, hfind, seCx_inUnion F S hg.1]
    dsimp only
    refine seUnion_first (fun t ht => ?_) hinst (by unfold seMember; rw [hn, hc]; rfl)
    have htm : t ∈ pre ++ u :: post := by simp [ht]
    by_cases ha : asIs t = true ∧ asIs u = true
    · obtain ⟨h1, h2⟩ := hasis ha.2
      cases hi : isInst env t v with
      | false => exact .inl rfl
      | true => right; rw [h2]; exact asIs_se ha.1 hi
    · exact .inl (earlier (hum t htm) huu (hts t htm) hu hv (hap t ht) (htg t ht) ha (by rw [hc]; simp)).1
  · obtain ⟨hn, m, rfl⟩ := hn
    refine ⟨?_, m, rfl⟩
    intro cx a hcx hr hty
    rw [render_reads hr]
    have := hn cx a hcx hr hty
    rw [render_reads hr] at this
    exact (deBody_le (deAt_le' env (by omega)) _ _).ok this
  · obtain ⟨hn, m, rfl⟩ := hn
    rw [render_reads hr]
    unfold deBody
    rw [hcx.des, pickDe_nil, hr.2.1, hr.1]
    dsimp only
    rw [hty]
    dsimp only
    rw [hopt]
    simp only [Bool.false_eq_true, if_false]
    rw [hcx.unions, hfind, hr.data]
    dsimp only
    have hcx' := hcx.inUnion hg.2 (F.wire w)
    refine deUnion_first (fun t ht => ?_) (deMember_of hc hpre (hn _ _ hcx' fakeArg_reads rfl) he hbear)
    have htm : t ∈ pre ++ u :: post := by simp [ht]
    by_cases ha : asIs t = true ∧ asIs u = true
    · obtain ⟨h1, h2⟩ := hasis ha.2
      rw [h2, h1.wire F] at hcx' ⊢
      exact asIs_de (n := m + 1 + 1) ha.1 (hts t htm) hcx' h1
    · exact .inr ((earlier (hum t htm) huu (hts t htm) hu hv (hap t ht) (htg t ht) ha (by rw [hc]; simp)).2 _ hkind m _ hcx')

/-! ## Unions: dataclass members -/

/-- The dict in which a variant is wrapped. -/
def tagged (env : Env) (tg : Tagging) (c : ClassId) (es : List (String × Val)) : List (String × Val) :=
  match tg with
  | .external => [(env.clsName c, .dict .plain (strKeys es))]
  | .internal tag => es ++ [(tag, .str (env.clsName c))]
  | .adjacent tag content => [(content, .dict .plain (strKeys es)), (tag, .str (env.clsName c))]
  | .untagged => es

theorem clsName_eq {env : Env} {c} {cd : ClassDef} (h : env.cls c = some cd) : env.clsName c = cd.name := by
  simp [Env.clsName, h]

theorem tagged_nodup {env : Env} {tg ts c} {cd : ClassDef} {es : List (String × Val)} (ht : TagOk env tg ts cd)
    (hk : (es.map (·.1)).Sublist (wires env cd)) (hn : (es.map (·.1)).Nodup) :
    ((tagged env tg c es).map (·.1)).Nodup := by
  cases tg with
  | external => simp [tagged]
  | internal tag =>
    simp only [tagged, List.map_append, List.map_cons, List.map_nil]
    rw [List.nodup_append]
    refine ⟨hn, by simp, ?_⟩
    intro a ha b hb
    rw [List.mem_singleton.1 hb]
    intro hab
    rw [hab] at ha
    exact ht.2 (hk.subset ha)
  | adjacent tag content =>
    have : content ≠ tag := fun h => ht h.symm
    simp [tagged, this]
  | untagged => exact hn

/-- The data of a tagged variant. -/
def taggedData (env : Env) (F : Fmt env) (tg : Tagging) (c : ClassId) (es : List (String × Val)) : Val :=
  .dict .plain ((tagged env tg c es).map (fun e => (Val.str e.1, F.wire e.2)))

theorem getStr_append_left {k : String} {xs ys : List (Val × Val)} {v} (h : getStr k xs = some v) : getStr k (xs ++ ys) = some v := by
  induction xs with
  | nil => simp [getStr] at h
  | cons a xs ih =>
    obtain ⟨k', v'⟩ := a
    cases k' <;> simp_all [getStr]
    split at h <;> simp_all

theorem getStr_append_right {k : String} {xs ys : List (Val × Val)} (h : getStr k xs = none) : getStr k (xs ++ ys) = getStr k ys := by
  induction xs with
  | nil => rfl
  | cons a xs ih =>
    obtain ⟨k', v'⟩ := a
    cases k' with
    | str s =>
      simp only [getStr, List.cons_append] at h ⊢
      split at h
      · cases h
      · rename_i hne; rw [if_neg hne]; exact ih h
    | _ => simp only [getStr, List.cons_append] at h ⊢; exact ih h

theorem internal_tag {env : Env} {F : Fmt env} {tag c} {cd : ClassDef} {es : List (String × Val)}
    (ht : tag ∉ wires env cd) (hk : (es.map (·.1)).Sublist (wires env cd)) :
    getStr tag ((es ++ [(tag, Val.str (env.clsName c))]).map (fun e => (Val.str e.1, F.wire e.2))) = some (.str (env.clsName c)) := by
  rw [List.map_append, getStr_append_right]
  · simp [getStr, F.wire_str]
  · refine getStr_none (fun kv hkv => ?_)
    obtain ⟨e, he, rfl⟩ := List.mem_map.1 hkv
    intro h
    have : e.1 ∈ es.map (·.1) := List.mem_map.2 ⟨e, he, rfl⟩
    rw [Val.str.inj h] at this
    exact ht (hk.subset this)

theorem payload_own {env : Env} {F : Fmt env} {tg ts c} {cd : ClassDef} {es : List (String × Val)} (ht : TagOk env tg ts cd)
    (hk : (es.map (·.1)).Sublist (wires env cd)) (hnd : (es.map (·.1)).Nodup)
    (hplain : Carries env F c cd es (es.map (fun e => (.str e.1, F.wire e.2)))) :
    ∃ kvs, unionPayload env tg (.cls c) (taggedData env F tg c es) = .ok (.dict .plain kvs) ∧ Carries env F c cd es kvs := by
  have hw := wire_strKeys F hnd
  have hty : typename env (.cls c) = env.clsName c := rfl
  cases tg with
  | external =>
    refine ⟨_, ?_, hplain⟩
    simp [unionPayload, Ty.isCls, taggedData, tagged, pyIn, pyGetItem, getStr, hty, hw]
  | internal tag =>
    have hg := internal_tag (env := env) (F := F) (c := c) ht.2 hk
    refine ⟨(es ++ [(tag, Val.str (env.clsName c))]).map (fun e => (Val.str e.1, F.wire e.2)), ?_, ?_, ?_, ?_⟩
    · unfold unionPayload taggedData tagged
      simp only [Ty.isCls, if_true, pyIn, pyGetItem]
      rw [hg]
      simp [hty, pyEq]
    · intro e he
      rw [List.map_append]
      exact getStr_append_left (getStr_strKeys hnd _ he)
    · intro k hk' hnot
      refine getStr_strKeys_none _ ?_
      rw [List.map_append, List.mem_append]
      rintro (h | h)
      · exact hnot h
      · rw [List.mem_singleton.1 h] at hk'; exact ht.2 hk'
    · intro hd; rw [ht.1] at hd; cases hd
  | adjacent tag content =>
    have hne : content ≠ tag := fun h => ht h.symm
    refine ⟨_, ?_, hplain⟩
    simp [unionPayload, Ty.isCls, taggedData, tagged, pyIn, pyGetItem, getStr, hty, hw, hne, F.wire_str, pyEq]
  | untagged => exact ⟨_, rfl, hplain⟩

theorem payload_other {env : Env} {F : Fmt env} {tg ts c c'} {cd : ClassDef} {es : List (String × Val)} (ht : TagOk env tg ts cd) (htg : tg ≠ .untagged)
    (hk : (es.map (·.1)).Sublist (wires env cd)) (hne : env.clsName c ≠ env.clsName c') :
    ∃ e, unionPayload env tg (.cls c') (taggedData env F tg c es) = .error e ∧ e ≠ .fuel := by
  have hty : typename env (.cls c') = env.clsName c' := rfl
  have hne' : env.clsName c' ≠ env.clsName c := fun h => hne h.symm
  cases tg with
  | external =>
    refine ⟨.serde "ensure", ?_, by simp⟩
    simp [unionPayload, Ty.isCls, taggedData, tagged, pyIn, getStr, hty, hne]
  | internal tag =>
    have hg := internal_tag (env := env) (F := F) (c := c) ht.2 hk
    refine ⟨.serde "ensure", ?_, by simp⟩
    unfold unionPayload taggedData tagged
    simp only [Ty.isCls, if_true, pyIn, pyGetItem]
    rw [hg]
    simp [hty, pyEq, hne']
  | adjacent tag content =>
    have hne1 : content ≠ tag := fun h => ht h.symm
    refine ⟨.serde "ensure", ?_, by simp⟩
    simp [unionPayload, Ty.isCls, taggedData, tagged, pyIn, pyGetItem, getStr, hty, hne1, F.wire_str, pyEq, hne']
  | untagged => exact absurd rfl htg

theorem fakeCls {env : Env} {F : Fmt env} {S : Scope} {c} {cd : ClassDef} {v es} (h : ClsEnc env F c cd v es) :
    Ev (fun n => ∀ cx k kvs, DeM F S.inUnion cx → Carries env F c cd es kvs →
      (deAt env n).render cx (fakeArg (.cls c) (.dict k kvs)) = .ok v) := by
  refine h.de.step (fun n hn cx k kvs hcx hh => ?_)
  have hr := fakeArg_reads (t := .cls c) (p := .dict k kvs)
  rw [render_reads hr]
  unfold deBody
  rw [hcx.des, pickDe_nil, hr.2.1, hr.1]
  dsimp only
  rw [show (fakeArg (.cls c) (.dict k kvs)).ty = .cls c from rfl]
  dsimp only
  rw [hr.2.2.1, hr.data, hcx.named, hcx.reuse, hcx.numbers]
  simp only [Bool.false_eq_true, if_false]
  exact hn _ _ _ rfl rfl hh.present hh.absent hh.deny

/-- A dataclass variant of a union comes back unchanged. -/
theorem rt_union_cls {env : Env} {F : Fmt env} {S : Scope} {ts c} {cd : ClassDef} {attrs} (hok : EnvOk env F)
    (hc : env.cls c = some cd) (htr : cd.transparent = false) (hopt : (Ty.union ts).isOpt = false) (hum : ∀ t ∈ ts, UnionMember env t)
    (hts : ∀ t ∈ ts, TyOk env F S t) (hp : ts.Pairwise (Apart env F))
    (hdis : ∀ c' cd', .cls c' ∈ ts → env.cls c' = some cd' → cd.name = cd'.name ∨ c' ∈ cd.mro → c = c')
    (htag : TagOk env S.tagging ts cd) (hfind : findUnion env S.unions (unionFuncName env ts) = some ts) (hmem : .cls c ∈ ts) {es}
    (henc : ClsEnc env F c cd (.inst c attrs) es)
    (hv : HasTy env (.cls c) (.inst c attrs)) : RT env F S (.union ts) (.inst c attrs) := by
  have hg := hok.noGlobal
  have hcok := hok.classes c cd hc htr
  have hE := enc_cls_named (S := S.inUnion) hcok rfl henc
  have hnd := henc.nodup hcok
  have htn := tagged_nodup (env := env) (c := c) htag henc.keys hnd
  have hinst : ∀ c', isClsInst env c' (.inst c attrs) = true ↔ c' ∈ cd.mro := by
    intro c'; simp [isClsInst, hc]
  have hP := fakeCls (S := S) henc
  obtain ⟨pre, post, rfl⟩ := List.append_of_mem hmem
  have hap : ∀ t ∈ pre, Apart env F t (.cls c) := fun t ht => (List.pairwise_append.1 hp).2.2 t ht _ (by simp)
  have hearly : ∀ t ∈ pre, t.isCls = false → isInst env t (.inst c attrs) = false ∧ ∀ d, kind d ∈ [Kind.dict] → ∀ n cx, DeM F S.inUnion cx →
      ∃ e, deMember env (deAt env (n + 1 + 1 + 1)) cx t d = .error e ∧ e ≠ .fuel := by
    intro t ht hc
    have htm : t ∈ pre ++ .cls c :: post := by simp [ht]
    exact earlier (hum t htm) (hum _ hmem) (hts t htm) (hts _ hmem) hv (hap t ht) (fun h => by rw [hc] at h; cases h) (by rintro ⟨_, h⟩; cases h)
      (by rw [hc]; simp)
  refine ⟨.dict .plain (strKeys (tagged env S.tagging c es)), hE.1.step (fun n hn => ?_),
    ((hP.and Ev.two).step (Q := fun n => (∀ cx k kvs, DeM F S.inUnion cx → Carries env F c cd es kvs →
        (deAt env n).render cx (fakeArg (.cls c) (.dict k kvs)) = .ok (.inst c attrs)) ∧ ∃ m, n = m + 1 + 1 + 1)
      (fun n hn => ?_)).step (fun n hn cx a hcx hr hty => ?_), by rw [wire_strKeys F htn]; exact ⟨fun hh => (by cases hh), fun _ _ hh => (by cases hh)⟩⟩
  · have hown : seMember env (seAt env n) (seCxOf F S.inUnion) (.inst c attrs) (.cls c) =
        .ok (.dict .plain (strKeys (tagged env S.tagging c es))) := by
      unfold seMember
      rw [hn]
      simp only [if_true, Ty.isCls]
      have hT : (seCxOf F S.inUnion).tagging = S.tagging := rfl
      rw [hT]
      have hty : typename env (.cls c) = env.clsName c := rfl
      cases hS : S.tagging with
      | external => rfl
      | untagged => rfl
      | internal tag =>
        dsimp only
        rw [hS] at htn
        simp only [pySetItem, tagged, hty]
        rw [dictSet_new]
        · simp [strKeys]
        · intro kv hkv
          obtain ⟨e, he, rfl⟩ := List.mem_map.1 hkv
          rw [Bool.eq_false_iff]
          intro hp
          have := Val.str.inj (pyEq_str_right.1 hp)
          simp only [tagged, List.map_append, List.map_cons, List.map_nil] at htn
          rw [List.nodup_append] at htn
          exact htn.2.2 _ (List.mem_map.2 ⟨e, he, rfl⟩) tag (by simp) this
      | adjacent tag content =>
        dsimp only
        rw [hS] at htag
        simp only [pySetItem, tagged, hty]
        rw [dictSet_new]
        · rfl
        · intro kv hkv
          rw [List.mem_singleton.1 hkv]
          rw [Bool.eq_false_iff]
          intro hp
          exact htag (Val.str.inj (pyEq_str_right.1 hp)).symm
    rw [seAt_render]
    unfold renderF
    have h0 : (seCxOf F S).sers = [] := rfl
    rw [h0, pickSer_nil]
    dsimp only
    rw [hopt]
    simp only [Bool.false_eq_true, if_false]
    have hun : (seCxOf F S).unions = S.unions := rfl
    rw [hun, hfind, seCx_inUnion F S hg.1]
    dsimp only
    refine seUnion_first (fun t ht => ?_) (by simp only [isInst]; exact (hinst c).2 hcok.mroSelf) ?_
    · have htm : t ∈ pre ++ .cls c :: post := by simp [ht]
      cases hc' : t.isCls with
      | false => exact .inl (hearly t ht hc').1
      | true =>
        cases hum t htm with
        | @cls c' cd' hcd' =>
          by_cases hcc : c = c'
          · subst hcc; exact .inr hown
          · left
            simp only [isInst]
            rw [Bool.eq_false_iff]
            intro h
            exact hcc (hdis c' cd' htm hcd' (.inr ((hinst c').1 h)))
        | _ => cases hc'
    · exact hown
  · obtain ⟨hn, m, rfl⟩ := hn
    refine ⟨?_, m, rfl⟩
    intro cx k kvs hcx hh
    have := hn cx k kvs hcx hh
    rw [render_reads fakeArg_reads] at this ⊢
    exact (deBody_le (deAt_le' env (by omega)) _ _).ok this
  · obtain ⟨hn, m, rfl⟩ := hn
    rw [wire_strKeys F htn] at hr
    rw [render_reads hr]
    unfold deBody
    rw [hcx.des, pickDe_nil, hr.2.1, hr.1]
    dsimp only
    rw [hty]
    dsimp only
    rw [hopt]
    simp only [Bool.false_eq_true, if_false]
    rw [hcx.unions, hfind, hr.data]
    dsimp only
    generalize hdata : Val.dict .plain ((tagged env S.tagging c es).map (fun e => (Val.str e.1, F.wire e.2))) = data
    change taggedData env F S.tagging c es = data at hdata
    have hcx' := hcx.inUnion hg.2 data
    have hT : (cx.inUnion env data).tagging = S.tagging := hcx'.tagging
    have hown : deMember env (deAt env (m + 1 + 1 + 1)) (cx.inUnion env data) (.cls c) data = .ok (.inst c attrs) := by
      unfold deMember
      obtain ⟨kvs, hp, h1⟩ := payload_own (env := env) (F := F) (c := c) htag henc.keys hnd (henc.holds hcok)
      rw [hT, ← hdata, hp]
      dsimp only
      have hpre : unionPre env (.cls c) (.dict .plain kvs) = true := rfl
      rw [hpre]
      have := hn _ .plain kvs hcx' h1
      unfold fakeArg at this
      rw [hdata, this]
      have hb : bearable env (.cls c) (.inst c attrs) = true := by simp only [bearable]; exact (hinst c).2 hcok.mroSelf
      simp [erase, hb]
    refine deUnion_first (fun t ht => ?_) hown
    have htm : t ∈ pre ++ .cls c :: post := by simp [ht]
    cases hc' : t.isCls with
    | false => exact .inr ((hearly t ht hc').2 data (by rw [← hdata]; simp [taggedData, kind]) m _ hcx')
    | true =>
      cases hum t htm with
      | @cls c' cd' hcd' htr' =>
        by_cases hcc : c = c'
        · subst hcc; exact .inl hown
        · right
          by_cases hS : S.tagging = .untagged
          · have hK := htag
            rw [hS] at hK
            rcases ((List.pairwise_append.1 hK).2.2 _ ht (.cls c) (by simp) c' cd' rfl hcd').1 c cd rfl hc with h | h
            · exact absurd h hcc
            · rw [← hdata, hS] at hcx' ⊢
              refine untagged_lacks (n := m) hok hS hcx' hcd' htr' h (fun k hk => getStr_strKeys_none _ ?_)
              exact fun hm => hk (henc.keys.subset hm)
          have hne : env.clsName c ≠ env.clsName c' := by
            rw [clsName_eq hc, clsName_eq hcd']
            intro h
            exact hcc (hdis c' cd' htm hcd' (.inl h))
          obtain ⟨e, he, hne⟩ := payload_other (env := env) (F := F) (es := es) htag hS henc.keys hne
          refine ⟨e, ?_, hne⟩
          unfold deMember
          rw [hT, ← hdata, he]
      | _ => cases hc'

end Verif
