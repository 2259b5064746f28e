import Verif.Lemmas.RTUnion
import Verif.Lemmas.RTWrap
import Verif.Lemmas.FromDict
/-!
# Round trip: all supported types, and the entry points
-/

namespace Verif

open Spec

theorem Spec.EnvOk.mroSelf {env : Env} {F : Fmt env} (hok : EnvOk env F) (c cd) (hc : env.cls c = some cd) : c ∈ cd.mro := by
  cases ht : cd.transparent with
  | false => exact (hok.classes c cd hc ht).mroSelf
  | true =>
    obtain ⟨f, hf⟩ := hok.wrappers c cd hc ht
    exact hf.mroSelf

theorem Spec.EnvOk.types {env : Env} {F : Fmt env} (hok : EnvOk env F) {c cd} (hc : env.cls c = some cd) {f} (hf : f ∈ cd.fields) {named}
    (hS : named = F.named ∨ named = true) : TyOk env F (scopeOf env named c cd) f.ty := by
  cases ht : cd.transparent with
  | false => exact (hok.classes c cd hc ht).types f hf named hS
  | true =>
    obtain ⟨g, hg⟩ := hok.wrappers c cd hc ht
    rw [hg.only, List.mem_singleton] at hf
    rw [hf]
    exact hg.type named hS

theorem scopeOf_named {env : Env} {named c cd} : (scopeOf env named c cd).named = named := rfl

/-- Every well-typed value of a supported type survives serialization followed by deserialization. -/
theorem rt_main' {env : Env} {F : Fmt env} (hok : EnvOk env F) {t v} (hv : HasTy env t v) :
    (∀ S, (S.named = F.named ∨ S.named = true) → TyOk env F S t → RT env F S t v) ∧
    ∀ c cd, t = .cls c → env.cls c = some cd → cd.transparent = false →
      ((∃ L, Parts env F c cd v L) ∧ (F.named = false → ∃ L, PartsT env F c cd v L)) ∧ ∃ es, ClsEnc env F c cd v es := by
  have hbear : ∀ {t v}, HasTy env t v → ∀ S, TyOk env F S t → bearable env t v = true :=
    fun hv => bearable_hasTy (F := F) hok.mroSelf hv
  induction hv with
  | int => exact ⟨fun S hS ht => (by cases ht with | scalar ht => exact ⟨_, enc_scalar ht .int⟩), fun _ _ h => by cases h⟩
  | float => exact ⟨fun S hS ht => (by cases ht with | scalar ht => exact ⟨_, enc_scalar ht .float⟩), fun _ _ h => by cases h⟩
  | bool => exact ⟨fun S hS ht => (by cases ht with | scalar ht => exact ⟨_, enc_scalar ht .bool⟩), fun _ _ h => by cases h⟩
  | str => exact ⟨fun S hS ht => (by cases ht with | scalar ht => exact ⟨_, enc_scalar ht .str⟩), fun _ _ h => by cases h⟩
  | newType hv ih => exact ⟨fun S hS ht => (by cases ht with | scalar ht => exact ⟨_, enc_scalar ht (.newType hv)⟩), fun _ _ h => by cases h⟩
  | none => exact ⟨fun S hS ht => (by cases ht with | scalar ht => exact ⟨_, enc_scalar ht .none⟩), fun _ _ h => by cases h⟩
  | enum he hm => exact ⟨fun S hS ht => (by cases ht with | scalar ht => exact ⟨_, enc_scalar ht (.enum he hm)⟩), fun _ _ h => by cases h⟩
  | std hs => exact ⟨fun S hS ht => (by cases ht with | scalar ht => exact ⟨_, enc_scalar ht (.std hs)⟩), fun _ _ h => by cases h⟩
  | dt hs => exact ⟨fun S hS ht => (by cases ht with | scalar ht => exact ⟨_, enc_scalar ht (.dt hs)⟩), fun _ _ h => by cases h⟩
  | lit hm => exact ⟨fun S hS ht => (by cases ht with | scalar ht => exact ⟨_, enc_scalar ht (.lit hm)⟩), fun _ _ h => by cases h⟩
  | list h ih =>
    refine ⟨fun S hS ht => ?_, fun _ _ h => by cases h⟩
    cases ht with
    | scalar ht => cases ht
    | list ht => exact rt_list (fun x hx => (ih x hx).1 S hS ht)
  | deque h ih =>
    refine ⟨fun S hS ht => ?_, fun _ _ h => by cases h⟩
    cases ht with
    | scalar ht => cases ht
    | deque ht => exact rt_deque (fun x hx => (ih x hx).1 S hS ht)
  | set h hh hd ih =>
    refine ⟨fun S hS ht => ?_, fun _ _ h => by cases h⟩
    cases ht with
    | scalar ht => cases ht
    | setConv hc ht => exact rt_setConv hc (fun x hx => (ih x hx).1 S hS ht) hh hd
    | setRaw hc hr ht => exact rt_setRaw hc hr ht h hh hd
  | tupleV h ih =>
    refine ⟨fun S hS ht => ?_, fun _ _ h => by cases h⟩
    cases ht with
    | scalar ht => cases ht
    | tupleV ht => exact rt_tupleV (fun x hx => (ih x hx).1 S hS ht)
  | tuple hl h ih =>
    refine ⟨fun S hS ht => ?_, fun _ _ h => by cases h⟩
    cases ht with
    | scalar ht => cases ht
    | tuple hne ht => exact rt_tuple hne hl (fun p hp => (ih p hp).1 S hS (ht p.1 (List.of_mem_zip hp).1))
  | dict hk hv hh hd ihk ihv =>
    refine ⟨fun S hS ht => ?_, fun _ _ h => by cases h⟩
    cases ht with
    | scalar ht => cases ht
    | dict hkt hvt => exact rt_dict hkt hk (fun kv hkv => (ihv kv hkv).1 S hS hvt) hh hd
  | counter hk hv hh hd ihk =>
    refine ⟨fun S hS ht => ?_, fun _ _ h => by cases h⟩
    cases ht with
    | scalar ht => cases ht
    | counter hkt hnum => exact rt_counter hkt hnum hk hv hh hd
  | any h =>
    refine ⟨fun S hS ht => ?_, fun _ _ h => by cases h⟩
    cases ht with
    | scalar ht => cases ht
    | any hl => exact rt_any hok.noGlobal hl h
  | listB h =>
    refine ⟨fun S hS ht => ?_, fun _ _ h => by cases h⟩
    cases ht with
    | scalar ht => cases ht
    | listB hl => exact rt_listB hl h
  | dictB h =>
    refine ⟨fun S hS ht => ?_, fun _ _ h => by cases h⟩
    cases ht with
    | scalar ht => cases ht
    | dictB hl => exact rt_dictB hl h
  | alias h ih =>
    refine ⟨fun S hS ht => ?_, fun _ _ h => by cases h⟩
    cases ht with
    | scalar ht => cases ht
    | alias ht => exact rt_alias (ih.1 S hS ht)
  | @inst c cd attrs hc hn h ih =>
    have hfs : ∀ named, (named = F.named ∨ named = true) → ∀ p ∈ cd.fields.zip attrs,
        RT env F (scopeOf env named c cd) p.1.ty p.2.2 ∧ bearable env p.1.ty p.2.2 = true := by
      intro named hS p hp
      have hty := hok.types hc (List.of_mem_zip hp).1 hS
      exact ⟨(ih p hp).1 _ hS hty, hbear (h p hp) _ hty⟩
    cases htr : cd.transparent with
    | true =>
      obtain ⟨f, hf⟩ := hok.wrappers c cd hc htr
      refine ⟨fun S hS _ => ?_, ?_⟩
      · rw [hf.only, List.map_cons, List.map_nil] at hn
        match attrs, hn with
        | [(k, x)], hn =>
          have hk : k = f.name := by simpa using hn
          subst hk
          have hp : (f, f.name, x) ∈ cd.fields.zip [(f.name, x)] := by rw [hf.only]; simp
          obtain ⟨⟨w, hw⟩, hb⟩ := hfs S.named hS _ hp
          exact ⟨w, enc_wrap hc hok.noGlobal htr hf (h _ hp) hw hb⟩
      · intro c' cd' h1 h2 h3
        cases h1
        rw [hc] at h2
        cases h2
        rw [htr] at h3; cases h3
    | false =>
    have henc := clsEnc hc htr hok hn (hfs true (.inr rfl)) h (fun p hp ch chd h1 h2 h3 => ((ih p hp).2 ch chd h1 h2 h3).1.1)
    have hpt : F.named = false → ∀ p ∈ cd.fields.zip attrs, ∀ ch chd, p.1.ty = .cls ch → env.cls ch = some chd → chd.transparent = false →
        ∃ L, PartsT env F ch chd p.2.2 L :=
      fun hF p hp ch chd h1 h2 h3 => ((ih p hp).2 ch chd h1 h2 h3).1.2 hF
    refine ⟨fun S hS _ => ?_, ?_⟩
    · cases hN : S.named with
      | true =>
        obtain ⟨_, es, hes⟩ := henc
        exact ⟨_, enc_cls_named (hok.classes c cd hc htr) hN hes⟩
      | false =>
        have hF : F.named = false := by
          rcases hS with hS | hS
          · rw [← hS]; exact hN
          · rw [hN] at hS; cases hS
        exact rt_cls_tuple hc htr hok hF hN hn (hfs false (.inl hF.symm)) (hpt hF)
    · intro c' cd' h1 h2 _
      cases h1
      rw [hc] at h2
      cases h2
      exact ⟨⟨henc.1, fun hF => (cls_tuple_all hF hok hc htr hn (hfs false (.inl hF.symm)) (hpt hF)).1⟩, henc.2⟩
  | @union ts t v hm hv ih =>
    refine ⟨fun S hS ht => ?_, fun _ _ h => by cases h⟩
    cases ht with
    | scalar ht => cases ht
    | opt hne ht =>
      by_cases hvn : v = .none
      · subst hvn; exact rt_opt_none hne
      · rcases List.mem_cons.1 hm with rfl | hm
        · exact rt_opt_some hne hvn (ih.1 S hS ht)
        · rw [List.mem_singleton.1 hm] at hv
          cases hv; exact absurd rfl hvn
    | union hopt hu hts hp hdis htag hfind =>
      have hother : t.isCls = false → RT env F S (.union ts) v := by
        intro hc
        obtain ⟨w, hw⟩ := ih.1 S.inUnion (.inr rfl) (tyOk_inUnion (hts t hm))
        exact rt_union_other hok hok.mroSelf hopt hu hts hp htag hfind hm hc hv hw
      cases hu t hm with
      | @cls c cd hc htr =>
        have hv' := hv
        cases hv with
        | @inst _ cd' attrs hc' hn h =>
          rw [hc] at hc'
          cases hc'
          obtain ⟨_, es, hes⟩ := ih.2 c cd rfl hc htr
          exact rt_union_cls hok hc htr hopt hu hts hp (fun c' cd' hm' hc'' h => hdis c cd c' cd' hm hm' hc hc'' h) (htag c cd hm hc) hfind hm hes hv'
      | _ => exact hother rfl

theorem rt_main {env : Env} {F : Fmt env} (hok : EnvOk env F) {t v} (hv : HasTy env t v) :
    ∀ S, (S.named = F.named ∨ S.named = true) → TyOk env F S t → RT env F S t v := (rt_main' hok hv).1

end Verif
