import Verif.Spec.Field
import Verif.Props.C05
/-!
# Encoding one field of a class under its wire name
-/

namespace Verif
open Spec Props

theorem written_mem {env : Env} {cd : ClassDef} {f} (h : WrittenField env cd f) : f ∈ cd.seFieldsOf := by
  rw [seFieldsOf_eq]
  refine List.mem_filter.2 ⟨h.mem, ?_⟩
  unfold serializable
  rw [h.skip, h.skipSer]; rfl

theorem pickSer_plain {env : Env} {c} {cd : ClassDef} {f so obj} (h : WrittenField env cd f) :
    pickSer (topSeCx env c cd true so).sers (seFieldArg f obj) = none := by
  unfold pickSer seFieldArg
  dsimp only
  rw [h.ser]
  dsimp only
  rw [List.find?_eq_none]
  intro s hs
  rw [h.noCls s (by rw [List.mem_reverse] at hs; exact hs)]
  simp

/-- What `to_dict` wrote under the wire name of a field is the rendering of the attribute. Without a skip rule and `skip_none` the
entry is there. -/
theorem written_run {env : Env} {so : SeOpts} {n c} {cd : ClassDef} {f attrs w} (hC : PlainClass env c cd) (ho : OneEntryEach cd)
    (hf : WrittenField env cd f) (hu : NotUnion so.c) (h : toDict env so n (.inst c attrs) = .ok w) :
    ∃ kvs, w = .dict .plain kvs ∧
      (∀ x, (.str (f.conv cd.seCase), x) ∈ kvs →
        ∃ m, (seAt env (m + 1)).render (topSeCx env c cd true so) (seFieldArg f (.ok (.inst c attrs))) = .ok x) ∧
      (¬ HasRule cd f → so.skipNone = false → ∃ x, (.str (f.conv cd.seCase), x) ∈ kvs) := by
  have hm := written_mem hf
  rcases toDict_low hC.cls hC.dict hu hC.global.ser h with ⟨m, rfl⟩ | hs
  · have hn' : (cd.seFieldsOf.map (fun f => f.conv cd.seCase)).Nodup := by rw [seFieldsOf_eq]; exact ho.wires
    obtain ⟨os, hos, rfl⟩ := (toDict_emit hC.cls hC.dict (fun f hf => ho.flat f (by rw [seFieldsOf_eq] at hf; exact (List.mem_filter.1 hf).1))
      hu hC.global.ser hn').1 h
    obtain ⟨L, h1, h2, h3, h4⟩ := emit_list hos
    refine ⟨_, rfl, fun x hx => ?_, fun hr hsn => ?_⟩
    · rw [h1, List.mem_map] at hx
      obtain ⟨⟨g, y⟩, hp, he⟩ := hx
      simp only [Prod.mk.injEq, Val.str.injEq] at he
      obtain ⟨hk, rfl⟩ := he
      have hg : g ∈ cd.seFieldsOf := h2.subset (List.mem_map_of_mem (f := (·.1)) hp)
      have : g = f := inj_of_nodup_map hn' hg hm hk
      subst this
      cases m with
      | zero => have := h3 _ hp; cases this
      | succ m => exact ⟨m, h3 _ hp⟩
    · rcases h4 f hm with h | h
      · have := mem_of_not_none h hr
        have h' : (topSeCx env c cd true so).skipNone = so.skipNone := rfl
        rw [h', hsn] at this; cases this
      · rw [List.mem_map] at h
        obtain ⟨p, hp, rfl⟩ := h
        exact ⟨p.2, by rw [h1]; exact List.mem_map.2 ⟨p, hp, rfl⟩⟩
  · rw [hs] at hm; cases hm

/-- The keys `to_dict` writes are strings, and there is one entry per key. -/
theorem written_keys {env : Env} {so : SeOpts} {n c} {cd : ClassDef} {attrs kvs} (hC : PlainClass env c cd) (ho : OneEntryEach cd)
    (hu : NotUnion so.c) (h : toDict env so n (.inst c attrs) = .ok (.dict .plain kvs)) :
    ∃ ks : List String, kvs.map (·.1) = ks.map Val.str ∧ ks.Nodup := by
  have hn' : (cd.seFieldsOf.map (fun f => f.conv cd.seCase)).Nodup := by rw [seFieldsOf_eq]; exact ho.wires
  obtain ⟨os, hos, hw⟩ := (toDict_emit hC.cls hC.dict (fun f hf => ho.flat f (by rw [seFieldsOf_eq] at hf; exact (List.mem_filter.1 hf).1))
    hu hC.global.ser hn').1 (toDict_mono (Nat.le_add_right n 3) h)
  obtain ⟨L, h1, h2, h3, h4⟩ := emit_list hos
  cases hw
  refine ⟨L.map (fun p => p.1.conv cd.seCase), by rw [h1]; simp, ?_⟩
  have := (h2.map (fun f : FieldDef => f.conv cd.seCase)).nodup hn'
  simpa [Function.comp_def] using this

end Verif
