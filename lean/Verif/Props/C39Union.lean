import Verif.Props.C39
import Verif.Lemmas.WriteTo
import Verif.Lemmas.ReadTo
import Verif.Lemmas.FieldSe
import Verif.Lemmas.FieldRun
/-!
# C39 in unions

A value of a union field is written and read by the globally registered (de)serializers, the last registered first, at every position of the member that is taken.
The class-level ones are never asked there (this is how the full statement fails, see `C39_false_union`).
-/

namespace Verif.Props
open Verif Verif.Spec

/-- **C39** Writing a field whose type is a union other than Optional: the first member the value belongs to is written by the global serializers alone, and
tagged as the class says. -/
theorem C39_union_partial {env : Env} {so : SeOpts} {n c} {cd : ClassDef} {f : FieldDef} {ts attrs kvs a x} (hC : PlainClass env c cd) (ho : OneEntryEach cd)
    (hf : WrittenField env cd f) (hu : NotUnion so.c) (hty : f.ty = .union ts) (hno : (Ty.union ts).isOpt = false) (hown : OwnUnionName env c ts)
    (ha : attrs.lookup f.name = some a) (h : toDict env so n (.inst c attrs) = .ok (.dict .plain kvs)) (hx : (.str (f.conv cd.seCase), x) ∈ kvs) :
    ∃ pre t post w, ts = pre ++ t :: post ∧ (Nominal env t → KnownObj env a → IsA env t a) ∧
      (∀ s ∈ pre, Nominal env s → KnownObj env a → ¬ IsA env s a) ∧ Served env env.gser t a w ∧ TaggedAs env cd.tagging t w x := by
  obtain ⟨_, e, h1, -⟩ := written_run hC ho hf hu h
  cases e
  obtain ⟨m, r⟩ := h1 x hx
  rw [seAt_render] at r
  unfold renderF at r
  rw [pickSer_plain hf] at r
  have hs : (seFieldArg f (.ok (.inst c attrs))).ser = none := hf.ser
  have ht : (seFieldArg f (.ok (.inst c attrs))).ty = .union ts := hty
  have hv : (seFieldArg f (.ok (.inst c attrs))).v = .ok a := by
    show getAttr (.inst c attrs) f.name = .ok a
    unfold getAttr
    dsimp only
    rw [ha]
  rw [hs, ht, hv] at r
  dsimp only at r
  rw [hno] at r
  simp only [Bool.false_eq_true, if_false] at r
  split at r
  · rename_i us hus
    have : us = ts := by
      refine hown us (unionsOf_iff.1 (findUnion_mem hus)) ?_
      unfold findUnion at hus
      simpa using List.find?_some hus
    subst this
    obtain ⟨pre, t, post, w, e, i1, i2, i3, i4⟩ := seUnion_out us r
    refine ⟨pre, t, post, w, e, fun hn hk => (isInst_nominal hn hk).1 i1, fun s hs hn hk hi => ?_, ?_, i4⟩
    · have := (isInst_nominal hn hk).2 hi
      rw [i2 s hs] at this
      cases this
    · exact (served_at m).1 _ _ a w rfl (by intro g e; cases e) i3
  · cases r

/-- **C39** Reading such a field: some member's data is read by the global deserializers alone. -/
theorem C39_union_de_partial {env : Env} {o : DeOpts} {n c} {cd : ClassDef} {f : FieldDef} {ts dk kvs x v} (hC : PlainClass env c cd) (hf : PlainField env cd f)
    (hty : f.ty = .union ts) (hno : (Ty.union ts).isOpt = false) (hown : OwnUnionName env c ts) (hx : getStr (f.conv cd.deCase) kvs = some x)
    (h : fromDict env o n (.cls c) (.dict dk kvs) = .ok v) :
    ∃ attrs w, v = .inst c attrs ∧ attrs.lookup f.name = some w ∧ ∃ t ∈ ts, ∃ p, PayloadOf env cd.tagging t x p ∧ Gotten env env.gde t p w := by
  obtain ⟨attrs, w, m, rfl, hl, r, -⟩ := field_run hC hf hx h
  refine ⟨attrs, w, rfl, hl, ?_⟩
  unfold deBody at r
  rw [pickDe_plain hf] at r
  have hds : (plainArg cd f (.dict dk kvs)).deser = none := hf.deser
  have hpt : (plainArg cd f (.dict dk kvs)).ty = .union ts := hty
  rw [hds, hpt] at r
  dsimp only at r
  rw [hno] at r
  simp only [Bool.false_eq_true, if_false] at r
  split at r
  · cases r
  · rename_i us hus
    have : us = ts := by
      refine hown us (unionsOf_iff.1 (findUnion_mem hus)) ?_
      unfold findUnion at hus
      simpa using List.find?_some hus
    subst this
    split at r
    · rename_i d hd
      have : d = x := by
        rw [plainArg_data hx] at hd
        cases hd; rfl
      subst this
      obtain ⟨t, ht, hm⟩ := deUnion_member r
      unfold deMember at hm
      split at hm
      · cases hm
      · rename_i p hp
        refine ⟨t, ht, p, payload_of hp, ?_⟩
        split at hm
        · cases hm
        · split at hm
          · cases hm
          · rename_i res hres
            have : res = w := by
              split at hm
              · cases hm
              · split at hm
                · cases hm; rfl
                · cases hm
            subst this
            exact (gotten_at m).render _ _ p res rfl ⟨rfl, rfl, rfl, .inl ⟨_, _, rfl, rfl⟩⟩ (by intro g e; cases e) hres
    · cases r

/-! ## Examples -/

namespace C39UnionEx
open C39Ex

/-- `u: int | str` in a class with a class serializer; another one is registered globally. -/
def fv : FieldDef := { name := "u", ty := .union [.prim .int, .prim .str] }
def cdV : ClassDef := { name := "V", mro := ["V"], classSer := some (ints "class"), classDe := some (intsDe 3), fields := [fv] }
def env : Env := { Ex.mk [("V", cdV)] with gser := [ints "first", ints "second"], gde := [intsDe 1, intsDe 2] }

theorem plain : PlainClass env "V" cdV := by
  refine ⟨rfl, rfl, rfl, by decide, ⟨?_, ?_⟩⟩
  · intro s hs
    simp only [env, List.mem_cons, List.not_mem_nil, or_false] at hs
    rcases hs with rfl | rfl <;> rfl
  · intro s hs
    simp only [env, List.mem_cons, List.not_mem_nil, or_false] at hs
    rcases hs with rfl | rfl <;> rfl

theorem written : WrittenField env cdV fv := by
  refine ⟨by simp [cdV], rfl, rfl, rfl, rfl, ?_⟩
  intro s hs
  simp only [env, cdV, Option.toList, List.cons_append, List.nil_append, List.mem_cons, List.not_mem_nil, or_false] at hs
  rcases hs with rfl | rfl | rfl <;> rfl

theorem read : PlainField env cdV fv := by
  refine ⟨by simp [cdV], rfl, rfl, rfl, rfl, rfl, rfl, ?_⟩
  intro s hs
  simp only [env, cdV, Option.toList, List.cons_append, List.nil_append, List.mem_cons, List.not_mem_nil, or_false] at hs
  rcases hs with rfl | rfl | rfl <;> rfl

theorem own : OwnUnionName env "V" [.prim .int, .prim .str] := by
  intro us h _
  have h := unionsOf_iff.2 h
  have e : env.unionsOf "V" = [[.prim .int, .prim .str]] := rfl
  rw [e] at h
  simpa using h

theorem run : toDict env {} 10 (.inst "V" [("u", .int 1)]) = .ok (.dict .plain [(.str "u", .str "second")]) := rfl
theorem runDe : fromDict env {} 10 (.cls "V") (.dict .plain [(.str "u", .int 1)]) = .ok (.inst "V" [("u", .int 2)]) := rfl

end C39UnionEx

open C39UnionEx in
example : ∃ pre t post w, [.prim .int, .prim .str] = pre ++ t :: post ∧ (Nominal C39UnionEx.env t → KnownObj C39UnionEx.env (.int 1) → IsA C39UnionEx.env t (.int 1)) ∧
    (∀ s ∈ pre, Nominal C39UnionEx.env s → KnownObj C39UnionEx.env (.int 1) → ¬ IsA C39UnionEx.env s (.int 1)) ∧
    Served C39UnionEx.env C39UnionEx.env.gser t (.int 1) w ∧ TaggedAs C39UnionEx.env cdV.tagging t w (Val.str "second") :=
  C39_union_partial (f := fv) plain ⟨by simp [cdV, fv], by decide⟩ written (.inl rfl) rfl rfl own rfl run (.head _)

open C39UnionEx in
example : ∃ attrs w, Val.inst "V" [("u", .int 2)] = .inst "V" attrs ∧ attrs.lookup "u" = some w ∧ ∃ t ∈ [Ty.prim .int, .prim .str], ∃ p,
    PayloadOf C39UnionEx.env cdV.tagging t (.int 1) p ∧ Gotten C39UnionEx.env C39UnionEx.env.gde t p w :=
  C39_union_de_partial (f := fv) plain read rfl rfl own rfl runDe

end Verif.Props
