import Verif.Lemmas.RTFlat
/-!
# Round trip: which member of a union writes and reads a value
-/

namespace Verif

open Spec

/-! ## Scopes of union functions -/

theorem tyOk_inUnion {env : Env} {F : Fmt env} {S t} (h : TyOk env F S t) : TyOk env F S.inUnion t := by
  have hsc : ∀ {S t}, ScalarTy env S t → ScalarTy env S.inUnion t := by
    intro S t h
    cases h with
    | prim => exact .prim
    | newType => exact .newType
    | none => exact .none
    | enum h1 h2 => exact .enum h1 h2
    | std => exact .std
    | dt => exact .dt
    | lit h1 h2 => exact .lit h1 h2
  induction h with
  | scalar h => exact .scalar (hsc h)
  | list _ ih => exact .list ih
  | deque _ ih => exact .deque ih
  | tupleV _ ih => exact .tupleV ih
  | tuple hne _ ih => exact .tuple hne ih
  | setConv hc _ ih => exact .setConv hc ih
  | setRaw hc hr h => exact .setRaw hc hr (hsc h)
  | dict hk _ ih => exact .dict hk ih
  | counter hk hn => exact .counter hk hn
  | opt hne _ ih => exact .opt hne ih
  | union ho hu _ hp hd ht hf ih => exact .union ho hu ih hp hd ht hf
  | cls hc => exact .cls hc
  | alias _ ih => exact .alias ih
  | any h => exact .any h
  | listB h => exact .listB h
  | dictB h => exact .dictB h

/-! ## The name of a type as an annotation -/

theorem eraseL_of {ts : List Ty} (h : ∀ t ∈ ts, ∃ t', erase t = some t') : ∃ ts', eraseL ts = some ts' := by
  induction ts with
  | nil => exact ⟨[], rfl⟩
  | cons t ts ih =>
    obtain ⟨t', ht⟩ := h t (by simp)
    obtain ⟨ts', hts⟩ := ih (fun s hs => h s (by simp [hs]))
    exact ⟨t' :: ts', by simp [eraseL, ht, hts]⟩

theorem eraseL_mem {ts ts' : List Ty} (h : eraseL ts = some ts') {t} (ht : t ∈ ts) : ∃ t' ∈ ts', erase t = some t' := by
  induction ts generalizing ts' with
  | nil => cases ht
  | cons s ts ih =>
    unfold eraseL at h
    split at h
    · rename_i a as ha has
      cases h
      rcases List.mem_cons.1 ht with rfl | ht
      · exact ⟨a, by simp, ha⟩
      · obtain ⟨t', h1, h2⟩ := ih has ht
        exact ⟨t', by simp [h1], h2⟩
    · cases h

theorem eraseL_zip {ts ts' : List Ty} (h : eraseL ts = some ts') {xs : List Val} (hl : ts.length = xs.length) {P : Ty → Val → Prop}
    (hP : ∀ p ∈ ts.zip xs, ∀ t', erase p.1 = some t' → P t' p.2) : ts'.length = xs.length ∧ ∀ p ∈ ts'.zip xs, P p.1 p.2 := by
  induction ts generalizing ts' xs with
  | nil => cases h; cases xs <;> simp_all
  | cons s ts ih =>
    unfold eraseL at h
    split at h
    · rename_i a as ha has
      cases h
      cases xs with
      | nil => simp at hl
      | cons x xs =>
        obtain ⟨h1, h2⟩ := ih has (by simpa using hl) (fun p hp => hP p (by simp [hp]))
        refine ⟨by simp [h1], fun p hp => ?_⟩
        rw [List.zip_cons_cons, List.mem_cons] at hp
        rcases hp with rfl | hp
        · exact hP (s, x) (by simp) _ ha
        · exact h2 p hp
    · cases h

theorem Spec.NameOk.erase {t} (h : NameOk t) : ∃ t', Verif.erase t = some t' := by
  induction h with
  | list _ ih => obtain ⟨t', h⟩ := ih; exact ⟨_, by simp [Verif.erase, h]; rfl⟩
  | deque _ ih => obtain ⟨t', h⟩ := ih; exact ⟨_, by simp [Verif.erase, h]; rfl⟩
  | tupleV _ ih => obtain ⟨t', h⟩ := ih; exact ⟨_, by simp [Verif.erase, h]; rfl⟩
  | set _ _ ih => obtain ⟨t', h⟩ := ih; exact ⟨_, by simp [Verif.erase, h]; rfl⟩
  | tuple _ ih => obtain ⟨t', h⟩ := eraseL_of ih; exact ⟨_, by simp [Verif.erase, h]; rfl⟩
  | union _ ih => obtain ⟨t', h⟩ := eraseL_of ih; exact ⟨_, by simp [Verif.erase, h]; rfl⟩
  | dict _ _ ih ih' =>
    obtain ⟨k', h⟩ := ih
    obtain ⟨v', h'⟩ := ih'
    exact ⟨_, by simp [Verif.erase, h, h']; rfl⟩
  | _ => exact ⟨_, rfl⟩

/-- The annotation that the name of the type denotes accepts its values. -/
theorem erase_hasTy {env : Env} {F : Fmt env} (hcls : ∀ c cd, env.cls c = some cd → c ∈ cd.mro) {t v} (hv : HasTy env t v) :
    ∀ S, TyOk env F S t → NameOk t → ∀ t', erase t = some t' → bearable env t' v = true := by
  induction hv with
  | int => intro S _ _ t' h; cases h; rfl
  | float => intro S _ _ t' h; cases h; rfl
  | bool => intro S _ _ t' h; cases h; rfl
  | str => intro S _ _ t' h; cases h; rfl
  | newType hv ih => intro S _ _ t' h; cases h; cases hv <;> rfl
  | none => intro S _ _ t' h; cases h; rfl
  | @list k t xs h ih =>
    intro S ht hn t' he
    cases hn with | list hn =>
    obtain ⟨s, hs⟩ := hn.erase
    simp only [erase, hs, Option.map_some, Option.some.injEq] at he
    subst he
    cases ht with
    | scalar ht => cases ht
    | list ht =>
      simp only [bearable, seqInst]
      split
      · rename_i x hx; exact ih x (env.P.pick_mem _ _ hx) S ht hn _ hs
      · rfl
  | @deque t xs h ih =>
    intro S ht hn t' he
    cases hn with | deque hn =>
    obtain ⟨s, hs⟩ := hn.erase
    simp only [erase, hs, Option.map_some, Option.some.injEq] at he
    subst he
    cases ht with
    | scalar ht => cases ht
    | deque ht =>
      simp only [bearable]
      split
      · rename_i x hx; exact ih x (env.P.pick_mem _ _ hx) S ht hn _ hs
      · rfl
  | @set k t xs h hh hd ih =>
    intro S ht hn t' he
    cases hn with | set hk hn =>
    obtain ⟨s, hs⟩ := hn.erase
    simp only [erase, hs, Option.map_some, Option.some.injEq] at he
    subst he
    have hs' : setInst .set (.set (k == .frozen) xs) = some xs := by cases k <;> first | rfl | exact absurd rfl hk
    cases ht with
    | scalar ht => cases ht
    | setConv _ ht =>
      simp only [bearable, hs']
      split
      · rename_i x hx; exact ih x (env.P.pick_mem _ _ hx) S ht hn _ hs
      · rfl
    | setRaw _ _ ht =>
      simp only [bearable, hs']
      split
      · rename_i x hx; exact ih x (env.P.pick_mem _ _ hx) S (.scalar ht) hn _ hs
      · rfl
  | @tupleV t xs h ih =>
    intro S ht hn t' he
    cases hn with | tupleV hn =>
    obtain ⟨s, hs⟩ := hn.erase
    simp only [erase, hs, Option.map_some, Option.some.injEq] at he
    subst he
    cases ht with
    | scalar ht => cases ht
    | tupleV ht =>
      simp only [bearable]
      split
      · rename_i x hx; exact ih x (env.P.pick_mem _ _ hx) S ht hn _ hs
      · rfl
  | @tuple ts xs hl h ih =>
    intro S ht hn t' he
    cases hn with | tuple hn =>
    obtain ⟨ss, hs⟩ := eraseL_of (fun t ht => (hn t ht).erase)
    simp only [erase, hs, Option.map_some, Option.some.injEq] at he
    subst he
    cases ht with
    | scalar ht => cases ht
    | tuple _ ht =>
      simp only [bearable]
      have := eraseL_zip hs hl (P := fun t v => bearable env t v = true)
        (fun p hp t' he => ih p hp S (ht p.1 (List.of_mem_zip hp).1) (hn p.1 (List.of_mem_zip hp).1) _ he)
      exact bearableZip_of this.1 this.2
  | @dict k kt vt kvs hk hv hh hd ihk ihv =>
    intro S ht hn t' he
    cases hn with | dict hn hn' =>
    obtain ⟨s, hs⟩ := hn.erase
    obtain ⟨s', hs'⟩ := hn'.erase
    simp only [erase, hs, hs', Option.some.injEq] at he
    subst he
    cases ht with
    | scalar ht => cases ht
    | dict hkt hvt =>
      simp only [bearable, mapInst]
      split
      · rename_i kv hkv
        have hm := env.P.pickKV_mem _ _ hkv
        rw [ihk kv hm S (.scalar (hkt.scalar S)) hn _ hs, ihv kv hm S hvt hn' _ hs']; rfl
      · rfl
  | @counter t kvs hk hv hh hd ihk =>
    intro S ht hn t' he
    cases he
    rfl
  | any => intro S _ _ t' h; cases h; rfl
  | listB => intro S _ _ t' h; cases h; rfl
  | dictB => intro S _ _ t' h; cases h; rfl
  | enum he hm => intro S _ _ t' h; cases h; simp [bearable]
  | std hs => intro S _ _ t' h; cases h; simp [bearable, isStdInst]
  | dt hs => intro S _ _ t' h; cases h; simp [bearable, isDtInst]
  | lit hm =>
    intro S ht _ t' h
    cases h
    cases ht with
    | scalar ht => exact scalar_bearable ht (.lit hm)
  | @union ts t v hm hv ih =>
    intro S ht hn t' he
    cases hn with | union hn =>
    obtain ⟨ss, hs⟩ := eraseL_of (fun t ht => (hn t ht).erase)
    simp only [erase, hs, Option.map_some, Option.some.injEq] at he
    subst he
    obtain ⟨s, hsm, hse⟩ := eraseL_mem hs hm
    simp only [bearable]
    rw [bearableAny_iff]
    refine ⟨s, hsm, ?_⟩
    cases ht with
    | scalar ht => cases ht
    | opt _ ht =>
      rcases List.mem_cons.1 hm with rfl | hm
      · exact ih S ht (hn _ (by simp)) _ hse
      · rw [List.mem_singleton.1 hm] at hv hse
        cases hse
        cases hv; rfl
    | union _ _ ht _ _ _ _ => exact ih S (ht t hm) (hn t hm) _ hse
  | alias h ih => intro S _ hn; cases hn
  | @inst c cd attrs hc hn h ih =>
    intro S _ _ t' he
    cases he
    simp only [bearable, isClsInst, hc]
    simpa using hcls c cd hc

/-! ## A value is an instance of its own type -/

theorem isInstAny_iff {env : Env} {ts v} : isInstAny env ts v = true ↔ ∃ t ∈ ts, isInst env t v = true := by
  induction ts with
  | nil => simp [isInstAny]
  | cons t ts ih => simp [isInstAny, ih]

theorem isInstZip_of {env : Env} : ∀ {ts : List Ty} {xs : List Val}, ts.length = xs.length →
    (∀ p ∈ ts.zip xs, isInst env p.1 p.2 = true) → isInstZip env ts xs = true
  | [], [], _, _ => rfl
  | [], _ :: _, h, _ => by simp at h
  | _ :: _, [], h, _ => by simp at h
  | t :: ts, x :: xs, hl, h => by
    unfold isInstZip
    rw [h (t, x) (by simp), isInstZip_of (by simpa using hl) (fun p hp => h p (by simp [hp]))]; rfl

theorem isInst_hasTy {env : Env} {F : Fmt env} (hcls : ∀ c cd, env.cls c = some cd → c ∈ cd.mro) {t v} (hv : HasTy env t v) :
    ∀ S, TyOk env F S t → isInst env t v = true := by
  have hb := bearable_hasTy (F := F) hcls hv
  induction hv with
  | int => intro S _; rfl
  | float => intro S _; rfl
  | bool => intro S _; rfl
  | str => intro S _; rfl
  | newType hv ih => intro S _; cases hv <;> rfl
  | none => intro S _; rfl
  | @list k t xs h ih =>
    intro S ht
    cases ht with
    | scalar ht => cases ht
    | list ht =>
      cases xs with
      | nil => rfl
      | cons x xs => exact ih x (by simp) (bearable_hasTy hcls (h x (by simp))) S ht
  | @deque t xs h ih =>
    intro S ht
    cases ht with
    | scalar ht => cases ht
    | deque ht =>
      cases xs with
      | nil => rfl
      | cons x xs => exact ih x (by simp) (bearable_hasTy hcls (h x (by simp))) S ht
  | @set k t xs h hh hd ih =>
    intro S ht
    cases ht with
    | scalar ht => cases ht
    | setConv _ ht =>
      cases xs with
      | nil => rfl
      | cons x xs => exact ih x (by simp) (bearable_hasTy hcls (h x (by simp))) S ht
    | setRaw _ _ ht =>
      cases xs with
      | nil => rfl
      | cons x xs => exact ih x (by simp) (bearable_hasTy hcls (h x (by simp))) S (.scalar ht)
  | @tupleV t xs h ih =>
    intro S ht
    cases ht with
    | scalar ht => cases ht
    | tupleV ht =>
      simp only [isInst, List.all_eq_true]
      exact fun x hx => ih x hx (bearable_hasTy hcls (h x hx)) S ht
  | @tuple ts xs hl h ih =>
    intro S ht
    cases ht with
    | scalar ht => cases ht
    | tuple _ ht =>
      simp only [isInst]
      exact isInstZip_of hl (fun p hp => ih p hp (bearable_hasTy hcls (h p hp)) S (ht p.1 (List.of_mem_zip hp).1))
  | @dict k kt vt kvs hk hv hh hd ihk ihv =>
    intro S ht
    cases ht with
    | scalar ht => cases ht
    | dict hkt hvt =>
      cases kvs with
      | nil => rfl
      | cons kv kvs =>
        simp only [isInst]
        rw [ihk kv (by simp) (bearable_hasTy hcls (hk kv (by simp))) S (.scalar (hkt.scalar S)),
          ihv kv (by simp) (bearable_hasTy hcls (hv kv (by simp))) S hvt]; rfl
  | @counter t kvs hk hv hh hd ihk =>
    intro S ht
    cases ht with
    | scalar ht => cases ht
    | counter hkt _ =>
      cases kvs with
      | nil => rfl
      | cons kv kvs => exact ihk kv (by simp) (bearable_hasTy hcls (hk kv (by simp))) S (.scalar (hkt.scalar S))
  | any => intro S _; rfl
  | listB => intro S _; rfl
  | dictB => intro S _; rfl
  | enum he hm => exact hb
  | std hs => exact hb
  | dt hs => exact hb
  | lit hm => intro S _; rfl
  | @union ts t v hm hv ih =>
    intro S ht
    simp only [isInst]
    rw [isInstAny_iff]
    refine ⟨t, hm, ?_⟩
    cases ht with
    | scalar ht => cases ht
    | opt _ ht =>
      rcases List.mem_cons.1 hm with rfl | hm
      · exact ih (bearable_hasTy hcls hv) S ht
      · rw [List.mem_singleton.1 hm]
        rw [List.mem_singleton.1 hm] at hv
        cases hv; rfl
    | union _ _ ht _ _ _ _ => exact ih (bearable_hasTy hcls hv) S (ht t hm)
  | alias h ih => exact hb
  | @inst c cd attrs hc hn h ih => exact hb

/-! ## The kind of data as which a value is written -/

/-- Some deserialize context of a scope. -/
def deCxOf {env : Env} (F : Fmt env) (S : Scope) : DeCx :=
  { named := S.named, data := .none, reuse := F.deReuse, numbers := F.numbers, mg := none, mgVars := none, vta := none, coerce := S.coerce,
    unions := S.unions, lits := S.lits, tagging := S.tagging, des := [], tvars := none }

theorem deCxOf_deM {env : Env} (F : Fmt env) (S : Scope) : DeM F S (deCxOf F S) := ⟨rfl, rfl, rfl, rfl, rfl, rfl, rfl, rfl⟩

/-- The argument with which a union member is rendered. -/
def fakeArg (t : Ty) (p : Val) : DeArg :=
  { ty := t, name := "fake_key", conv := "fake_key", src := .key (.dict .plain [(.str "fake_key", p)]) }

theorem fakeArg_reads {t p} : Reads (fakeArg t p) p := ⟨rfl, rfl, rfl, rfl, .inr (.inr ⟨_, _, rfl, by simp [getStr, fakeArg]⟩)⟩

theorem Enc.unique {env : Env} {F : Fmt env} {S t v w w'} (h : Enc env F S t v w) (h' : Enc env F S t v w') : w = w' := by
  obtain ⟨n, h1, h2⟩ := (h.1.and h'.1).exists
  rw [h1] at h2
  exact Except.ok.inj h2

theorem kind_list {env : Env} (F : Fmt env) (xs) : kind (F.wire (.list xs)) = .seq := by
  rcases F.wire_list xs with h | h <;> rw [h] <;> rfl

theorem kind_tuple {env : Env} (F : Fmt env) (xs) : kind (F.wire (.tuple xs)) = .seq := by
  rcases F.wire_tuple xs with h | h <;> rw [h] <;> rfl

theorem kind_items {d : Val} {kvs} (h : pyItems d = .ok kvs) : kind d = .dict := by
  cases d <;> first | rfl | cases h

/-- Members of a union are written as data of one of the kinds `writes` lists. -/
theorem enc_kind {env : Env} {F : Fmt env} {S t v w} (hu : UnionMember env t) (hc : t.isCls = false) (ht : TyOk env F S t)
    (hv : HasTy env t v) (h : Enc env F S t v w) : kind (F.wire w) ∈ writes env F t := by
  have hscalar : ScalarTy env S t → w = scalarWire env F v ∧ F.wire w = scalarWire env F v := by
    intro hs
    have := h.unique (enc_scalar hs hv)
    exact ⟨this, by rw [this]; exact wire_scalar hs hv⟩
  obtain ⟨n, ⟨hn, hd⟩, m, rfl⟩ := ((h.1.and h.2.1).and Ev.pos).exists
  rw [seAt_render] at hn
  unfold renderF at hn
  have h0 : (seCxOf F S).sers = [] := rfl
  rw [h0, pickSer_nil] at hn
  dsimp only at hn
  have hdict : ∀ {kvs : List (Val × Val)}, (∃ kvs', pyItems (F.wire w) = .ok kvs') → kind (F.wire w) ∈ [Kind.dict] := by
    intro _ ⟨_, h⟩
    rw [kind_items h]; simp
  have hde := hd (deCxOf F S) (fakeArg t (F.wire w)) (deCxOf_deM F S) fakeArg_reads rfl
  rw [render_reads fakeArg_reads] at hde
  unfold deBody at hde
  rw [(deCxOf_deM F S).des, pickDe_nil, fakeArg_reads.2.1, fakeArg_reads.1] at hde
  dsimp only at hde
  rw [show (fakeArg t (F.wire w)).ty = t from rfl, fakeArg_reads.data] at hde
  clear hd
  cases hu with
  | @prim p =>
    obtain ⟨_, h2⟩ := hscalar .prim
    rw [h2, (wire_prim F hv).2.1]
    cases hv <;> simp [writes, kind]
  | none =>
    obtain ⟨_, h2⟩ := hscalar .none
    rw [h2]
    cases hv; simp [writes, kind, scalarWire]
  | @lit vs =>
    cases ht with | scalar ht =>
    obtain ⟨_, h2⟩ := hscalar ht
    cases ht with | lit hl _ =>
    cases hv with | lit hm =>
    rw [h2, scalarWire_lit (hl _ hm)]
    exact List.mem_map_of_mem hm
  | enum he _ =>
    cases ht with | scalar ht =>
    obtain ⟨_, h2⟩ := hscalar ht
    cases ht with | enum he' hd =>
    cases hv with | enum he'' hm =>
    rw [he'] at he''; cases he''
    rw [h2, scalarWire_enum he' hd hm]
    simp only [writes, he']
    exact List.mem_map.2 ⟨_, hm, rfl⟩
  | std =>
    obtain ⟨_, h2⟩ := hscalar .std
    rw [h2]
    cases hv
    rw [scalarWire_std]
    cases hr : F.reuse <;> simp [writes, hr, kind]
  | dt =>
    obtain ⟨_, h2⟩ := hscalar .dt
    rw [h2]
    cases hv
    rw [scalarWire_dt]
    cases hr : F.reuse <;> simp [writes, hr, kind]
  | list =>
    cases hv with | list hx =>
    dsimp only [pyIter] at hn
    split at hn
    · cases hn; rw [kind_list]; simp [writes]
    · cases hn
  | deque =>
    cases hv with | deque hx =>
    dsimp only [pyIter] at hn
    split at hn
    · cases hn; rw [kind_list]; simp [writes]
    · cases hn
  | tupleV =>
    cases hv with | tupleV hx =>
    dsimp only [pyIter] at hn
    split at hn
    · cases hn; rw [kind_tuple]; simp [writes]
    · cases hn
  | @tuple ts =>
    cases ts with
    | nil => cases hn
    | cons t ts =>
      dsimp only at hn
      split at hn
      · cases hn; rw [kind_tuple]; simp [writes]
      · cases hn
  | set =>
    cases hv with | set hx =>
    dsimp only [pyIter] at hn
    split at hn
    · have hcv : (seCxOf F S).conv = F.conv := rfl
      rw [hcv] at hn
      cases hconv : F.conv with
      | true =>
        rw [hconv] at hn
        cases hn; rw [kind_list]; simp [writes, hconv]
      | false =>
        rw [hconv] at hn
        simp only [Bool.false_eq_true, if_false, mkSet] at hn
        split at hn
        · cases hn
          have hraw : F.raw = true := by
            cases ht with
            | scalar ht => cases ht
            | setConv h _ => rw [hconv] at h; cases h
            | setRaw _ h _ => exact h
          rw [F.raw_wire hraw]
          simp [writes, hconv, kind]
        · cases hn
    · cases hn
  | dict =>
    dsimp only at hde
    split at hde
    · rename_i kvs hk; exact hdict (kvs := []) ⟨_, hk⟩
    · cases hde
  | counter =>
    dsimp only at hde
    split at hde
    · rename_i kvs hk; exact hdict (kvs := []) ⟨_, hk⟩
    · cases hde
  | cls => cases hc

/-! ## Values that are not instances of a member -/

/-- A member that does not accept the data of a value does not take the value for one of its instances. -/
theorem apart_inst {env : Env} {F : Fmt env} {S t u v} (hut : UnionMember env t) (huu : UnionMember env u) (hu : TyOk env F S u)
    (hv : HasTy env u v) (ha : (writes env F u).all (fun k => !takes env t k) = true) : isInst env t v = false := by
  rw [List.all_eq_true] at ha
  have hscalar : ∀ {k}, kind v = k → k ∈ writes env F u → takes env t k = false := fun _ h => by simpa using ha _ h
  cases huu with
  | @prim p =>
    have : takes env t (kind v) = false := by
      cases hv <;> simpa [writes, kind] using ha
    cases hut with
    | @prim p' => cases hv <;> cases p' <;> simp_all [takes, kind, isInst, bearable, isPrimInst]
    | @tuple ts => cases hv <;> rfl
    | _ => cases hv <;> first | rfl | simp_all [takes, kind, isInst, bearable]
  | none =>
    cases hv
    have := ha .none (by simp [writes])
    cases hut with
    | @tuple ts => rfl
    | _ => first | rfl | simp [takes] at this
  | @lit vs =>
    cases hu with | scalar hs =>
    cases hs with | lit hl _ =>
    cases hv with | lit hm =>
    have h1 : takes env t (kind v) = false := by simpa using ha (kind v) (List.mem_map_of_mem hm)
    have h2 := hl _ hm
    cases hut with
    | @prim p' => cases h2 <;> cases p' <;> simp_all [takes, kind, isInst, bearable, isPrimInst]
    | @tuple ts => cases h2 <;> rfl
    | _ => cases h2 <;> first | rfl | simp_all [takes, kind, isInst, bearable]
  | @enum e d he hmix =>
    cases hv with | @enum _ d' m w he' hm =>
    rw [he] at he'; cases he'
    have h1 : takes env t (kind w) = false := by
      have : kind w ∈ writes env F (.enum e) := by simp only [writes, he]; exact List.mem_map.2 ⟨_, hm, rfl⟩
      simpa using ha _ this
    cases hu with | scalar hs =>
    cases hs with | enum he' hd =>
    rw [he] at he'; cases he'
    have h2 := hd.vals _ hm
    cases hut with
    | @prim p' => simp [isInst, bearable, isPrimInst, he, hmix]
    | @tuple ts => rfl
    | @enum e' d' he' hmix' =>
      simp only [isInst, bearable]
      rw [beq_eq_false_iff_ne]
      intro heq
      subst heq
      have hany : kind w ≠ .str → d.members.any (fun m => (kind m.2).numeric) = true := by
        intro hne
        refine List.any_eq_true.2 ⟨_, hm, ?_⟩
        cases h2 <;> first | rfl | exact absurd rfl hne
      simp only [takes, he] at h1
      by_cases hs : kind w = .str
      · rw [hs] at h1; simp at h1
      · rw [hany hs] at h1
        cases h2 <;> simp [kind, Kind.numeric] at h1 hs
    | lit => simp [takes] at h1
    | _ => rfl
  | std =>
    cases hv
    have h1 : takes env t .text = false ∨ takes env t .str = false := by
      simp only [writes] at ha
      split at ha
      · exact .inl (by simpa using ha)
      · exact .inr (by simpa using ha)
    cases hut with
    | @tuple ts => rfl
    | std => simp [takes] at h1
    | lit => simp [takes] at h1
    | _ => rfl
  | dt =>
    cases hv
    have h1 : takes env t .text = false ∨ takes env t .str = false := by
      simp only [writes] at ha
      split at ha
      · exact .inl (by simpa using ha)
      · exact .inr (by simpa using ha)
    cases hut with
    | @tuple ts => rfl
    | dt => simp [takes] at h1
    | lit => simp [takes] at h1
    | _ => rfl
  | list =>
    cases hv
    have h1 : takes env t .seq = false := by simpa [writes] using ha
    cases hut with
    | @tuple ts => rfl
    | lit => simp [takes] at h1
    | list => simp [takes, Kind.atom] at h1
    | _ => rfl
  | deque =>
    cases hv
    have h1 : takes env t .seq = false := by simpa [writes] using ha
    cases hut with
    | @tuple ts => rfl
    | lit => simp [takes] at h1
    | list => simp [takes, Kind.atom] at h1
    | deque => simp [takes, Kind.atom] at h1
    | _ => rfl
  | tupleV =>
    cases hv
    have h1 : takes env t .seq = false := by simpa [writes] using ha
    cases hut with
    | @tuple ts => cases ts <;> simp [takes, Kind.atom] at h1
    | lit => simp [takes] at h1
    | list => simp [takes, Kind.atom] at h1
    | tupleV => simp [takes, Kind.atom] at h1
    | _ => rfl
  | tuple =>
    cases hv
    have h1 : takes env t .seq = false := by simpa [writes] using ha
    cases hut with
    | @tuple ts => cases ts <;> simp [takes, Kind.atom] at h1
    | lit => simp [takes] at h1
    | list => simp [takes, Kind.atom] at h1
    | tupleV => simp [takes, Kind.atom] at h1
    | _ => rfl
  | set =>
    cases hv
    have h1 : takes env t .seq = false ∨ takes env t .set = false := by
      simp only [writes] at ha
      split at ha
      · exact .inl (by simpa using ha)
      · exact .inr (by simpa using ha)
    cases hut with
    | @tuple ts => rfl
    | lit => simp [takes] at h1
    | set => simp [takes, Kind.atom] at h1
    | _ => rfl
  | dict =>
    cases hv
    have h1 : takes env t .dict = false := by simpa [writes] using ha
    cases hut with
    | @tuple ts => rfl
    | lit => simp [takes] at h1
    | dict => simp [takes] at h1
    | counter => simp [takes] at h1
    | _ => rfl
  | counter =>
    cases hv
    have h1 : takes env t .dict = false := by simpa [writes] using ha
    cases hut with
    | @tuple ts => rfl
    | lit => simp [takes] at h1
    | dict => simp [takes] at h1
    | counter => simp [takes] at h1
    | _ => rfl
  | cls =>
    cases hv
    have h1 : takes env t .dict = false := by simpa [writes] using ha
    cases hut with
    | @tuple ts => rfl
    | lit => simp [takes] at h1
    | cls => simp [takes] at h1
    | _ => rfl

end Verif
