import Verif.Props.C61
import Verif.Lemmas.Names
/-!
# C05: which fields are left out

`C05_dict_shape` says that a field is missing only if it has a rule. Here: a field is missing exactly if its rule says so about the value written for it. The
value is described by the relation of C61, so unions with one function name have to be the same.
-/

namespace Verif.Props
open Verif Spec

theorem outFields_rows {env : Env} {m cd attrs fs es} (h : OutFields env m cd attrs fs es) :
    ∃ rows : List (FieldDef × Val × Bool), rows.map (·.1) = fs ∧
      (∀ r ∈ rows, OutField env m r.1 (attrs.lookup r.1.name) r.2.1 ∧ (r.2.2 = true ↔ LeftOut env m.skipNone cd r.1 r.2.1)) ∧
      es = (rows.filter (fun r => !r.2.2)).map (fun r => (.str (r.1.conv cd.seCase), r.2.1)) := by
  induction fs generalizing es with
  | nil => cases h; exact ⟨[], rfl, (fun r hr => by cases hr), rfl⟩
  | cons f fs ih =>
    cases h with
    | @out _ _ _ _ _ y _ h1 h2 h3 =>
      obtain ⟨rows, e1, e2, e3⟩ := ih h3
      refine ⟨(f, y, true) :: rows, by rw [List.map_cons, e1], fun r hr => ?_, by rw [e3]; rfl⟩
      rcases List.mem_cons.1 hr with rfl | hr
      · exact ⟨h1, fun _ => h2, fun _ => rfl⟩
      · exact e2 r hr
    | @entry _ _ _ _ _ y _ h1 h2 h3 =>
      obtain ⟨rows, e1, e2, e3⟩ := ih h3
      refine ⟨(f, y, false) :: rows, by rw [List.map_cons, e1], fun r hr => ?_, by rw [e3]; rfl⟩
      rcases List.mem_cons.1 hr with rfl | hr
      · exact ⟨h1, (fun h => by cases h), fun h => absurd h h2⟩
      · exact e2 r hr

/-- **C05** The dict has an entry for every serializable field in their order, under the wire name and with the value as its annotation writes it, except for the
fields whose rule, asked about that value, says that it is to be left out. -/
theorem C05_exact_partial {env : Env} {so : SeOpts} {n c} {cd : ClassDef} {attrs w} (hU : DistinctUnions env) (hD : DirectSe env c cd)
    (hren : ∀ f ∈ cd.fields, RenameOk f) (hg : env.gser = []) (hu : so.c = none) (h : toDict env so n (.inst c attrs) = .ok w) :
    ∃ rows : List (FieldDef × Val × Bool), rows.map (·.1) = cd.fields.filter serializable ∧
      (∀ r ∈ rows, OutField env (.within true (so.reuse.getD cd.reuseDflt) (so.conv.getD cd.convDflt) so.skipNone cd) r.1 (attrs.lookup r.1.name) r.2.1 ∧
        (r.2.2 = true ↔ LeftOut env so.skipNone cd r.1 r.2.1)) ∧
      w = .dict .plain ((rows.filter (fun r => !r.2.2)).map (fun r => (.str (wireName r.1.rename cd.seCase r.1.name), r.2.1))) := by
  replace h := C61_to_dict_partial hU (by rw [hu]; intro t ht; cases ht) h
  rw [hu] at h
  have fin : ∀ {es}, OutFields env (OutGiven.inside env cd ⟨true, so.reuse, so.conv, so.skipNone⟩) cd attrs (cd.fields.filter serializable) es →
      ∃ rows : List (FieldDef × Val × Bool), rows.map (·.1) = cd.fields.filter serializable ∧
      (∀ r ∈ rows, OutField env (.within true (so.reuse.getD cd.reuseDflt) (so.conv.getD cd.convDflt) so.skipNone cd) r.1 (attrs.lookup r.1.name) r.2.1 ∧
        (r.2.2 = true ↔ LeftOut env so.skipNone cd r.1 r.2.1)) ∧
      Val.dict .plain es = .dict .plain ((rows.filter (fun r => !r.2.2)).map (fun r => (.str (wireName r.1.rename cd.seCase r.1.name), r.2.1))) := by
    intro es h
    rw [inside_within hg hD.noSer] at h
    obtain ⟨rows, e1, e2, e3⟩ := outFields_rows h
    refine ⟨rows, e1, e2, ?_⟩
    rw [e3]
    congr 1
    refine List.map_congr_left fun r hr => ?_
    have hm : r.1 ∈ cd.fields.filter serializable := by rw [← e1]; exact List.mem_map_of_mem ((List.mem_filter.1 hr).1)
    rw [conv_eq_wireName (hren r.1 ((List.mem_filter.1 hm).1))]
  cases h with
  | plain _ h =>
    cases h with
    | chosen _ _ h => obtain ⟨pre, post, h, _⟩ := h; rw [hg] at h; exact absurd h (by simp)
    | scalar _ h => cases h
    | obj _ h =>
      cases h with
      | dict hc _ _ _ h => have := hD.cls.symm.trans hc; cases this; exact fin h
      | tuple _ h => cases h
      | through hc ht => have := hD.cls.symm.trans hc; cases this; rw [hD.simple.dict] at ht; cases ht
      | spliced hc _ hs => have := hD.cls.symm.trans hc; cases this; exact absurd hD.simple hs
      | row _ h => cases h
      | other hc h => have := hD.cls.symm.trans hc; cases this; exact absurd ⟨hD.simple, hD.skips⟩ (h hD.simple.dict rfl)

namespace C61Ex

example : ∃ rows : List (FieldDef × Val × Bool), rows.map (·.1) = cdI.fields.filter serializable ∧
    (∀ r ∈ rows, OutField env (.within true false true true cdI) r.1 (attrsI.lookup r.1.name) r.2.1 ∧ (r.2.2 = true ↔ LeftOut env true cdI r.1 r.2.1)) ∧
    Val.dict .plain esI = .dict .plain ((rows.filter (fun r => !r.2.2)).map (fun r => (.str (wireName r.1.rename cdI.seCase r.1.name), r.2.1))) :=
  C05_exact_partial (n := 20) (so := o) (c := "I") hU
    ⟨rfl, ⟨rfl, by decide, by decide⟩, (by intro f hf h1 h2 h3; simp only [cdI, List.mem_cons, List.not_mem_nil, or_false] at hf; rcases hf with rfl | rfl | rfl | rfl | rfl | rfl | rfl | rfl <;> cases h3), rfl⟩
    (by intro f hf; simp only [cdI, List.mem_cons, List.not_mem_nil, or_false] at hf; rcases hf with rfl | rfl | rfl | rfl | rfl | rfl | rfl | rfl <;> intro h <;> cases h) rfl rfl rfl

end C61Ex

end Verif.Props
