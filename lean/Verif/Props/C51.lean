import Verif.Lemmas.ReuseDe
import Verif.Lemmas.Generic
import Verif.Lemmas.Conform
import Verif.Examples.Lookup
/-!
# C51: reuse_instances when reading

Full statement: "With reuse_instances=True from_dict and from_tuple keep a value that already is an instance of the date or str-convertible
class asked for; with False, and for every other input, they call the parser (constructor) of the class on it. On input without such
instances the option makes no difference."

* `C51_no_difference`, `C51_no_difference_tuple`: the last sentence, for every annotation and every input without dates.
* `C51_read_partial`: the first sentence for the fields of dataclasses, nested to any depth. Missing: values behind unions, sets, mapping keys,
  type variables and flattened dataclasses.
* At the top level (`from_dict(date, ...)`, `from_dict(list[date], ...)`) the option is ignored: `C51_false_top`, `C51_false_top_parsed`.
-/

namespace Verif.Props
open Verif Spec

/-- **C51** On input without dates and str-convertible values, reuse_instances makes no difference to from_dict. -/
theorem C51_no_difference {env : Env} {o : DeOpts} {n t d} (b b' : Option Bool) (hd : NoDate d) :
    fromDict env { o with reuse := b } n t d = fromDict env { o with reuse := b' } n t d :=
  (blind_at n).fromObj _ _ _ _ _ _ _ hd

/-- **C51** Nor to from_tuple. -/
theorem C51_no_difference_tuple {env : Env} {o : DeOpts} {n t d} (b b' : Option Bool) (hd : NoDate d) :
    fromTuple env { o with reuse := b } n t d = fromTuple env { o with reuse := b' } n t d :=
  (blind_at n).fromObj _ _ _ _ _ _ _ hd

theorem std_isA {env : Env} {k d} : IsA env (.std k) d ↔ isStdInst env k d = true := by
  constructor
  · intro h
    cases h with
    | std => simp [isStdInst]
    | stdSub h => simp [isStdInst, h]
  · exact stdInst_of

theorem dt_isA {env : Env} {k d} : IsA env (.dt k) d ↔ isDtInst k d = true := by
  constructor
  · intro h
    cases h with
    | dt => simp [isDtInst]
    | datetime => rfl
  · exact dtInst_of

theorem dates_ne_none {env : Env} {t} (h : Dates env t) : t ≠ .none := by
  rintro rfl
  cases h

theorem liftP_ok' {x : Except PErr Val} {w} (h : liftP x = .ok w) : x = .ok w := by
  cases x with
  | error e => cases h
  | ok v => cases h; rfl

/-- Reading at such an annotation. -/
theorem readDates_of_body {env : Env} {keep : Bool} : ∀ n {cx a x w}, cx.named = true → cx.reuse = keep → (∀ s ∈ cx.des, ∀ t, s.handles t = false) →
    Dates env a.ty → GArg a x → deBody env (deAt env n) cx a = .ok w → ReadDates env keep a.ty x w := by
  intro n
  induction n using Nat.strongRecOn with
  | ind n IH =>
  intro cx a x w hnm hre hdes hcov ha h
  have ih : ∀ {a x w}, Dates env a.ty → GArg a x → (deAt env n).render cx a = .ok w → ReadDates env keep a.ty x w := by
    intro a x w h2 h3 h4
    match n with
    | 0 => cases h4
    | m + 1 =>
      rw [h3.render] at h4
      exact IH m (Nat.lt_succ_self m) hnm hre hdes h2 h3 h4
  have hpk : pickDe cx.des a = none := pickDe_none (fun s hs => hdes s hs _)
  have hdata := ha.data
  have hex : ∀ t, optExists env cx a t = _ := fun t => ha.exists
  obtain ⟨ty, name, conv, src, al, deser, fl, dflt, ta⟩ := a
  obtain rfl : al = [] := ha.alias
  obtain rfl : deser = none := ha.deser
  obtain rfl : fl = false := ha.flat
  dsimp only at hcov hdata ⊢
  have hseq : ∀ {t xs ys}, Dates env t →
      mapR (fun y => (deAt env n).render cx { ty := t, name := "v", conv := "v", src := .val (.ok y) }) xs = .ok ys →
      xs.length = ys.length ∧ ∀ (i : Nat) y z, xs[i]? = some y → ys[i]? = some z → ReadDates env keep t y z := by
    intro t xs ys hc hm
    refine ⟨(mapR_ok_length hm).symm, fun i y z hy hz => ?_⟩
    have := mapR_ok_get hm
    exact ih (a := { ty := t, name := "v", conv := "v", src := .val (.ok y) }) hc (GArg.elem rfl rfl) (this _ (zip_of_get hy hz))
  unfold deBody at h
  rw [hpk] at h
  dsimp only at h
  cases hcov with
  | std =>
    rename_i k
    dsimp only at h
    rw [hdata, hre] at h
    dsimp only at h
    split at h
    · rename_i hk
      rw [Bool.and_eq_true] at hk
      cases h
      exact .stdKept hk.1 (std_isA.2 hk.2)
    · rename_i hk
      exact .stdMade (fun hh => hk (by rw [hh.1, std_isA.1 hh.2]; rfl)) (liftP_ok' h)
  | dt =>
    rename_i k
    dsimp only at h
    rw [hdata, hre] at h
    dsimp only at h
    split at h
    · rename_i hk
      rw [Bool.and_eq_true] at hk
      cases h
      exact .dtKept hk.1 (dt_isA.2 hk.2)
    · rename_i hk
      exact .dtMade (fun hh => hk (by rw [hh.1, dt_isA.1 hh.2]; rfl)) (liftP_ok' h)
  | cls hB =>
    rename_i c cd
    by_cases hd : ∀ dk kvs, x ≠ .dict dk kvs
    · exact .notDict hd
    have hd : ∃ dk kvs, x = .dict dk kvs := by
      cases x with
      | dict dk kvs => exact ⟨dk, kvs, rfl⟩
      | _ => exact absurd (fun _ _ e => by cases e) hd
    obtain ⟨dk, kvs, rfl⟩ := hd
    dsimp only at h
    simp only [Bool.false_eq_true, if_false] at h
    rw [hdata] at h
    dsimp only at h
    rcases n with _ | m
    · cases h
    rw [hnm, deAt_cls] at h
    have hC := hB.plain
    rw [deClsF_named hC.cls hC.dict] at h
    split at h
    · cases h
    · cases h
    · split at h
      · cases h
      · rename_i ex _
        obtain ⟨attrs, rfl⟩ := decodeCls_inst h
        obtain ⟨val, h1, h2, rfl⟩ := (decodeCls_fieldwise hC.post hC.names).1 h
        refine .cls val hB ?_ ?_
        · intro f y hf hy
          rw [attrsOf_lookup hC.names hf.mem, hf.renderable, if_pos rfl]
        · intro f y hf hy hcf
          obtain ⟨m', rfl, hb⟩ := (deField_body hf hy).1 (h1 f hf.mem hf.renderable)
          have hga : GArg (plainArg cd f (.dict dk kvs)) y := ⟨hf.alias, hf.deser, rfl, .inl ⟨dk, kvs, rfl, hy⟩⟩
          refine IH m' (by omega) ?_ ?_ ?_ hcf hga hb
          · rfl
          · exact hre
          · exact hB.noDe
  | list hc =>
    rename_i k t
    dsimp only at h
    rw [hdata] at h
    dsimp only at h
    split at h
    · rename_i xs hit
      split at h
      · rename_i ys hm
        cases h
        obtain ⟨h1, h2⟩ := hseq hc hm
        exact .list hit h1 h2
      · cases h
    · cases h
  | deque hc =>
    rename_i t
    dsimp only at h
    rw [hdata] at h
    dsimp only at h
    split at h
    · rename_i xs hit
      split at h
      · rename_i ys hm
        cases h
        obtain ⟨h1, h2⟩ := hseq hc hm
        exact .deque hit h1 h2
      · cases h
    · cases h
  | tupleV hc =>
    rename_i t
    dsimp only at h
    rw [hdata] at h
    dsimp only at h
    split at h
    · rename_i xs hit
      split at h
      · rename_i ys hm
        cases h
        obtain ⟨h1, h2⟩ := hseq hc hm
        exact .tupleV hit h1 h2
      · cases h
    · cases h
  | dict hc =>
    rename_i k kt vt
    dsimp only at h
    rw [hdata] at h
    dsimp only at h
    split at h
    · rename_i kvs hit
      split at h
      · rename_i es hm
        obtain rfl := mkDict_result h
        have hsrc : ∀ e ∈ dictOf es, ∃ kv ∈ kvs, ReadDates env keep vt kv.2 e.2 := by
          intro e he
          obtain ⟨e', he', h1, h2⟩ := dictOf_from he
          obtain ⟨kv, hkv, hr⟩ := mapR_mem hm he'
          refine ⟨kv, hkv, ?_⟩
          split at hr
          · cases hr
          · split at hr
            · rename_i w hw
              cases hr
              rw [h1]
              exact ih (a := { ty := vt, name := "v", conv := "v", src := .val (.ok kv.2) }) hc (GArg.elem rfl rfl) hw
            · cases hr
        classical
        refine .dict (fun e => if he : e ∈ dictOf es then (hsrc e he).choose else e) hit ?_ ?_
        · intro e he
          simp only [he, dif_pos]
          exact (hsrc e he).choose_spec.1
        · intro e he
          simp only [he, dif_pos]
          exact (hsrc e he).choose_spec.2
      · cases h
    · cases h
  | opt hc =>
    rename_i t
    dsimp only at h
    rw [isOpt_pair' (dates_ne_none hc)] at h
    simp only [if_true] at h
    rw [hex t] at h
    by_cases hxn : x = .none
    · subst hxn
      cases h
      exact .optNone
    · have : isNotNone x = true := by cases x <;> first | rfl | exact absurd rfl hxn
      rw [this] at h
      dsimp only at h
      exact .optSome hxn (ih hc (ha.retype t none none) h)

/-- **C51** (partial) What from_dict put into a field with such an annotation: the option given, or the class's own setting, decides for
everything below the field.
Missing: unions other than Optional, sets, fixed-size tuples, mapping keys, type variables, flattened dataclasses. -/
theorem C51_read_partial {env : Env} {o : DeOpts} {n c} {cd : ClassDef} {f dk kvs x v} (hC : BareClass env c cd) (hf : PlainField env cd f)
    (ht : Dates env f.ty) (hx : getStr (f.conv cd.deCase) kvs = some x) (h : fromDict env o n (.cls c) (.dict dk kvs) = .ok v) :
    ∃ attrs w, v = .inst c attrs ∧ attrs.lookup f.name = some w ∧ ReadDates env (o.reuse.getD cd.reuseDflt) f.ty x w := by
  obtain ⟨attrs, w, m, rfl, hl, hb, _⟩ := field_run hC.plain hf hx h
  exact ⟨attrs, w, rfl, hl, readDates_of_body m rfl rfl hC.noDe ht ⟨hf.alias, hf.deser, rfl, .inl ⟨dk, kvs, rfl, hx⟩⟩ hb⟩

/-! ## Examples and witnesses -/

namespace C51Ex
def fd : FieldDef := { name := "d", ty := .list .list (.dt .date) }
def cdA : ClassDef := { name := "A", mro := ["A"], fields := [fd, { name := "u", ty := .union [.std "UUID", .none] }] }
def fa : FieldDef := { name := "a", ty := .dict .dict (.prim .str) (.cls "A") }
def cdB : ClassDef := { name := "B", mro := ["B"], fields := [fa] }
def env : Env := Ex.mk [("A", cdA), ("B", cdB)]
def data (d : Val) : Val := .dict .plain [(.str "a", .dict .plain [(.str "k", .dict .plain [(.str "d", .list [d]), (.str "u", .none)])])]
def obj (d : Val) : Val := .inst "B" [("a", .dict .plain [(.str "k", .inst "A" [("d", .list [d]), ("u", .none)])])]

theorem bareA : BareClass env "A" cdA :=
  ⟨⟨rfl, rfl, rfl, by decide, ⟨by simp [env, Ex.mk], by simp [env, Ex.mk]⟩⟩, by simp [env, Ex.mk, cdA]⟩
theorem bareB : BareClass env "B" cdB :=
  ⟨⟨rfl, rfl, rfl, by decide, ⟨by simp [env, Ex.mk], by simp [env, Ex.mk]⟩⟩, by simp [env, Ex.mk, cdB]⟩

example : fromDict env { reuse := some true } 20 (.cls "B") (data (.str "2020-01-01")) = .ok (obj (.dt .date "2020-01-01")) := rfl
example : fromDict env { reuse := some false } 20 (.cls "B") (data (.str "2020-01-01")) = .ok (obj (.dt .date "2020-01-01")) :=
  (C51_no_difference (o := {}) (some false) (some true) (.dict (by simp; exact .str) (by
    simp only [List.mem_singleton, forall_eq]
    refine .dict (by simp; exact .str) ?_
    simp only [List.mem_singleton, forall_eq]
    refine .dict (by simp; exact ⟨.str, .str⟩) ?_
    simp only [List.mem_cons, List.not_mem_nil, or_false, forall_eq_or_imp, forall_eq]
    exact ⟨.list (by simp; exact .str), .scalar .none⟩))).trans rfl
example : fromDict env { reuse := some true } 20 (.cls "B") (data (.dt .date "2020-01-01")) = .ok (obj (.dt .date "2020-01-01")) := rfl

example : ∃ attrs w, obj (.dt .date "2020-01-01") = .inst "B" attrs ∧ attrs.lookup "a" = some w ∧
    ReadDates env true fa.ty (.dict .plain [(.str "k", .dict .plain [(.str "d", .list [.dt .date "2020-01-01"]), (.str "u", .none)])]) w :=
  C51_read_partial (env := env) (o := { reuse := some true }) (n := 20) (c := "B") (cd := cdB) (f := fa) (dk := .plain)
    (kvs := [(.str "a", .dict .plain [(.str "k", .dict .plain [(.str "d", .list [.dt .date "2020-01-01"]), (.str "u", .none)])])]) bareB
    ⟨by simp [cdB], rfl, rfl, rfl, rfl, rfl, rfl, by simp [env, Ex.mk, cdB]⟩ (.dict (.cls bareA)) rfl rfl
end C51Ex

open C51Ex in
/-- **C51 is false at the top level**: `from_dict(list[date], [date(...)], reuse_instances=False)` keeps the date (`from_obj` returns a value
whose type is the one asked for), although the parser would refuse it. -/
theorem C51_false_top :
    fromDict env { reuse := some false } 20 (.list .list (.dt .date)) (.list [.dt .date "2020-01-01"]) = .ok (.list [.dt .date "2020-01-01"]) ∧
    env.W.dtParse .date (.dt .date "2020-01-01") = .error .type :=
  ⟨rfl, rfl⟩

open C51Ex in
/-- **C51 is false at the top level**: a datetime is a date, and a field of type `list[date]` keeps it with reuse_instances=True, but
`from_dict(list[date], ...)` hands it to the parser, which refuses. -/
theorem C51_false_top_parsed :
    IsA env (.dt .date) (.dt .datetime "2020-01-01T00:00:00") ∧
    fromDict env { reuse := some true } 20 (.cls "A") (.dict .plain [(.str "d", .list [.dt .datetime "2020-01-01T00:00:00"]), (.str "u", .none)]) =
      .ok (.inst "A" [("d", .list [.dt .datetime "2020-01-01T00:00:00"]), ("u", .none)]) ∧
    ∃ e, fromDict env { reuse := some true } 20 (.list .list (.dt .date)) (.list [.dt .datetime "2020-01-01T00:00:00"]) = .error e :=
  ⟨.datetime, rfl, _, rfl⟩

end Verif.Props
