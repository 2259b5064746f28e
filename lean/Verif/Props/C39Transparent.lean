import Verif.Props.C28
import Verif.Props.C39
/-!
# C39: custom (de)serializers of transparent classes

The field of a transparent class is written and read by the same order of priority as any field, although the class adds no key for it.
-/

namespace Verif.Props
open Verif Spec

/-- Whatever to_dict or to_tuple returns for an object of a transparent class was produced by the responsible serializer. -/
theorem C39_transparent {env : Env} {so : SeOpts} {n c} {cd : ClassDef} {attrs w} (hc : env.cls c = some cd) (htr : cd.transparent = true)
    (hn : (cd.fields.map (·.name)).Nodup) {f} (hs : SoleField cd.fields f) (hfl : f.flatten = false) (hg : NoGlobal env c) (hu : NotUnion so.c)
    (h : toDict env so n (.inst c attrs) = .ok w ∨ toTuple env so n (.inst c attrs) = .ok w) {a} (ha : attrs.lookup f.name = some a) :
    (∀ g, f.serializer = some (.fn g) → g a = .ok w) ∧ (f.serializer = some .marker → Served env [] f.ty a w) ∧
      (f.serializer = none → Served env (env.gser ++ cd.classSer.toList) f.ty a w) := by
  have key : ∀ {nm m}, (seAt env m).cls nm so.reuse so.conv so.skipNone (.inst c attrs) = .ok w →
      ∃ m', (seAt env m').render (clsSeCx env c cd nm so.reuse so.conv so.skipNone) (seFieldArg f (.ok (.inst c attrs))) = .ok w := by
    intro nm m hm
    match m with
    | 0 => cases hm
    | 1 =>
      rw [seAt_cls] at hm
      unfold clsF at hm
      dsimp only at hm
      rw [hc] at hm
      dsimp only at hm
      rw [htr, sole_se hn hs, if_pos rfl] at hm
      cases hm
    | m + 2 =>
      rw [seAt_cls] at hm
      unfold clsF at hm
      dsimp only at hm
      rw [hc] at hm
      dsimp only at hm
      rw [htr, sole_se hn hs, if_pos rfl] at hm
      dsimp only at hm
      rw [flat_unflat (a := seFieldArg f (.ok (.inst c attrs))) hfl] at hm
      refine ⟨m, ?_⟩
      cases hr : (seAt env m).render (clsSeCx env c cd nm so.reuse so.conv so.skipNone) (seFieldArg f (.ok (.inst c attrs))) with
      | error e => rw [hr] at hm; cases hm
      | ok w' => rw [hr] at hm; cases hm; rfl
  have : ∃ nm m, (seAt env m).render (clsSeCx env c cd nm so.reuse so.conv so.skipNone) (seFieldArg f (.ok (.inst c attrs))) = .ok w := by
    cases n with
    | zero => rcases h with h | h <;> cases h
    | succ n =>
      rcases h with h | h
      · rw [toDict_cls hu hg.ser, wrapAll_ok] at h
        exact ⟨_, key h⟩
      · rw [toTuple_cls hu hg.ser, wrapAll_ok] at h
        exact ⟨_, key h⟩
  obtain ⟨nm, m, hr⟩ := this
  exact field_served rfl (served_at m).1 ha hr

/-- Whatever from_dict makes of input for a transparent class was produced by the responsible deserializer from the input as a whole. -/
theorem C39_transparent_de {env : Env} {o : DeOpts} {n c} {cd : ClassDef} {d v} (hc : env.cls c = some cd) (htr : cd.transparent = true)
    (hn : (cd.fields.map (·.name)).Nodup) (hp : cd.postInit = none) {f} (hs : SoleField cd.fields f) (hfl : f.flatten = false)
    (hg : NoGlobal env c) (hd : IsData c d) (h : fromDict env o n (.cls c) d = .ok v) :
    ∃ y, HasAttr v f y ∧ (∀ g, f.deserializer = some (.fn g) → g d = .ok y) ∧ (f.deserializer = some .marker → Gotten env [] f.ty d y) ∧
      (f.deserializer = none → Gotten env (env.gde ++ cd.classDe.toList) f.ty d y) := by
  match n with
  | 0 => rw [fromDict_fuel (by omega) hg hd] at h; cases h
  | 1 => rw [fromDict_fuel (by omega) hg hd] at h; cases h
  | n + 2 =>
    rw [fromDict_cls hg.de hd, wrapUser_ok, transp_deCls hc htr hn hs] at h
    cases hr : (deAt env n).render (clsDeCx env c cd true (topCall o) d) (transpArg true f d) with
    | error e => rw [hr] at h; cases h
    | ok y =>
      rw [hr] at h
      obtain ⟨attrs, rfl, ha, _⟩ := constructB_ok hp h
      have hk : Keeps (transpArg true f d) d := ⟨rfl, rfl, hfl, .inl ⟨.plain, [(.str "__serde_transparent__", d)], rfl, rfl⟩⟩
      have hds : (transpArg true f d).deser = f.deserializer := rfl
      refine ⟨y, ⟨c, attrs, rfl, ?_⟩, fun g hg => (gotten_at n).own _ _ _ _ hk g hg hr, fun hg => ?_, fun hg => ?_⟩
      · have hf : f.renderable = true := by unfold FieldDef.renderable; rw [hs.init, hs.skip, hs.skipDe]; rfl
        have hb : ∀ g ∈ cd.fields, [(f.name, y)].lookup g.name = if g.renderable then some ((fun _ => y : FieldDef → Val) g) else none := by
          intro g hg
          by_cases he : g.name = f.name
          · have : g = f := inj_of_nodup_map hn hg hs.mem he
            subst this
            rw [hf]; simp
          · have hr' : g.renderable = false := by simp [FieldDef.renderable, (hs.others g hg he).1]
            have he' : (g.name == f.name) = false := by simpa using he
            rw [hr', List.lookup_cons, he']
            rfl
        obtain ⟨_, rfl⟩ := (initAttrs_fieldwise hb attrs).1 ha
        rw [attrsOf_lookup hn hs.mem, hf, if_pos rfl]
      · have := (gotten_at n).render _ _ _ _ rfl hk (by rw [hds, hg]; intro g h; cases h) hr
        rw [hds, hg] at this
        exact this
      · have := (gotten_at n).render _ _ _ _ rfl hk (by rw [hds, hg]; intro g h; cases h) hr
        rw [hds, hg] at this
        exact this

namespace C39Ex

/-- `@serde(transparent=True, class_deserializer=...) class T: z: int`. -/
def cdT : ClassDef := { name := "T", mro := ["T"], transparent := true, classSer := some (ints "class"), classDe := some (intsDe 3), fields := [fz] }
/-- The same with a field that has its own functions. -/
def cdTU : ClassDef := { cdT with name := "U", mro := ["U"], fields := [fy] }

def envT : Env := { Ex.mk [("T", cdT), ("U", cdTU)] with gser := [ints "first", ints "second"], gde := [intsDe 1, intsDe 2] }

theorem globT (c : ClassId) : NoGlobal envT c := by
  constructor <;> intro s hs
  · rcases List.mem_cons.1 hs with rfl | hs
    · rfl
    · rw [List.mem_singleton] at hs; subst hs; rfl
  · rcases List.mem_cons.1 hs with rfl | hs
    · rfl
    · rw [List.mem_singleton] at hs; subst hs; rfl

theorem soleT {f : FieldDef} (h1 : f.init = true) (h2 : f.skip = false) (h3 : f.skipSer = false) (h4 : f.skipDe = false) : SoleField [f] f :=
  ⟨by simp, h1, h2, h3, h4, by intro g hg hne; rw [List.mem_singleton] at hg; subst hg; exact absurd rfl hne⟩

example : Served envT ([ints "first", ints "second"] ++ [ints "class"]) (.prim .int) (.int 5) (.str "class") :=
  (C39_transparent (env := envT) (so := {}) (n := 9) (cd := cdT) (attrs := [("z", .int 5)]) rfl rfl (by decide) (f := fz) (soleT rfl rfl rfl rfl) rfl (globT "T")
    (.inl rfl) (.inl rfl) rfl).2.2 rfl

example : ∃ y, HasAttr (.inst "U" [("y", .int 7)]) fy y ∧ (Except.ok (.int 7) : Except PErr Val) = .ok y := by
  obtain ⟨y, h1, h2, _⟩ := C39_transparent_de (env := envT) (o := {}) (n := 9) (cd := cdTU) (d := .str "x") rfl rfl (by decide) rfl (f := fy)
    (soleT rfl rfl rfl rfl) rfl (globT "U") (fun as h => by cases h) rfl
  exact ⟨y, h1, h2 _ rfl⟩

end C39Ex

end Verif.Props
