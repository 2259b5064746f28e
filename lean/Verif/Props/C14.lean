import Verif.Spec.Nested
import Verif.Props.C12
import Verif.Lemmas.FieldSe
import Verif.Examples.Lookup
/-!
# C14: `skip_none` below the outermost object

`C14_skip_none_partial` (Props/C12.lean) is about the fields of the object itself. Here: an object inside it is written the way `to_dict` with
the same `skip_none` would write it alone, so that the same holds of its fields.
-/

namespace Verif.Props
open Verif Spec

theorem pickSer_empty {cx : SeCx} {a : SeArg} (h : cx.sers = []) : pickSer cx.sers a = none := by
  rw [h]
  unfold pickSer
  split <;> rfl

theorem encoded_not_none {env : Env} {t v w d attrs w'} (h : EncodedAt env t v w d attrs w') : v ≠ .none := by
  induction h with
  | opt _ _ ih => exact ih
  | alias _ ih => exact ih
  | _ => intro h; cases h

/-- The objects inside a value are written by their own class with the settings of the whole. -/
theorem encoded_cls {env : Env} (hg : env.gser = []) {t v w d attrs w'} (hE : EncodedAt env t v w d attrs w') :
    ∀ {n cx}, cx.sers = [] → cx.named = true → (seAt env n).render cx { ty := t, v := .ok v } = .ok w →
      ∃ m re cv, (seAt env m).cls true re cv cx.skipNone (.inst d attrs) = .ok w' := by
  induction hE with
  | here =>
    intro n cx hs hn h
    cases n with
    | zero => cases h
    | succ n =>
      rw [seAt_render] at h
      unfold renderF at h
      rw [pickSer_empty hs, hn] at h
      exact ⟨n, _, _, h⟩
  | @opt t v w d attrs w' hN hE ih =>
    intro n cx hs hn h
    cases n with
    | zero => cases h
    | succ n =>
      rw [seAt_render] at h
      unfold renderF at h
      rw [pickSer_empty hs] at h
      dsimp only at h
      have ho : (Ty.union [t, .none]).isOpt = true := by simp [Ty.isOpt, hN]
      rw [ho] at h
      simp only [if_true] at h
      split at h
      · cases h
        exact absurd rfl (encoded_not_none hE)
      · exact ih hs hn h
  | list hm _ ih =>
    intro n cx hs hn h
    cases n with
    | zero => cases h
    | succ n =>
      rw [seAt_render] at h
      unfold renderF at h
      rw [pickSer_empty hs] at h
      dsimp only [pyIter] at h
      split at h
      · rename_i ys hys
        cases h
        exact ih hs hn (mapR_ok_get hys _ hm)
      · cases h
  | deque hm _ ih =>
    intro n cx hs hn h
    cases n with
    | zero => cases h
    | succ n =>
      rw [seAt_render] at h
      unfold renderF at h
      rw [pickSer_empty hs] at h
      dsimp only [pyIter] at h
      split at h
      · rename_i ys hys
        cases h
        exact ih hs hn (mapR_ok_get hys _ hm)
      · cases h
  | tupleV hm _ ih =>
    intro n cx hs hn h
    cases n with
    | zero => cases h
    | succ n =>
      rw [seAt_render] at h
      unfold renderF at h
      rw [pickSer_empty hs] at h
      dsimp only [pyIter] at h
      split at h
      · rename_i ys hys
        cases h
        exact ih hs hn (mapR_ok_get hys _ hm)
      · cases h
  | alias _ ih =>
    intro n cx hs hn h
    cases n with
    | zero => cases h
    | succ n =>
      rw [seAt_render] at h
      unfold renderF at h
      rw [pickSer_empty hs] at h
      exact ih hs hn h
  | @field c b cd f as kvs v x d attrs w' hC hcs ho hf hv hx _ ih =>
    intro n cx hs hn h
    cases n with
    | zero => cases h
    | succ n =>
      rw [seAt_render] at h
      unfold renderF at h
      rw [pickSer_empty hs, hn] at h
      have h2 : toDict env { reuse := some cx.reuse, conv := some cx.conv, skipNone := cx.skipNone } (n + 1) (.inst b as) = .ok (.dict .plain kvs) := by
        rw [toDict_cls (.inl rfl) (by simp [hg])]
        exact wrapAll_ok.2 h
      obtain ⟨kvs', he, hr, _⟩ := written_run hC ho hf (.inl rfl) h2
      cases he
      obtain ⟨m, hm⟩ := hr x hx
      have ha : seFieldArg f (.ok (.inst b as)) = { ty := f.ty, v := .ok v } := by
        unfold seFieldArg getAttr
        dsimp only
        rw [hf.ser, hv, hf.flat]
      rw [ha] at hm
      refine ih (n := m + 1) (cx := topSeCx env b cd true { reuse := some cx.reuse, conv := some cx.conv, skipNone := cx.skipNone }) ?_ rfl hm
      unfold topSeCx clsSeCx
      dsimp only
      rw [hg, hcs]
      rfl

/-- **C14** (partial), objects inside: whatever stands for an object at any depth of the output is what `to_dict` with the same `skip_none`
makes of that object. Without custom serializers. Missing: objects in sets, mappings and unions. -/
theorem C14_inside_partial {env : Env} (hg : env.gser = []) {so : SeOpts} {n c attrs w d as w'} (hu : NotUnion so.c)
    (h : toDict env so n (.inst c attrs) = .ok w) (hE : EncodedAt env (.cls c) (.inst c attrs) w d as w') :
    ∃ m so', NotUnion so'.c ∧ so'.skipNone = so.skipNone ∧ toDict env so' m (.inst d as) = .ok w' := by
  cases n with
  | zero => cases h
  | succ n =>
    rw [toDict_cls hu (by simp [hg]), wrapAll_ok] at h
    cases hE with
    | here => exact ⟨n + 1, so, hu, rfl, by rw [toDict_cls hu (by simp [hg])]; exact wrapAll_ok.2 h⟩
    | @field _ _ cd f _ kvs v x _ _ _ hC hcs ho hf hv hx hE =>
      obtain ⟨kvs', he, hr, _⟩ := written_run hC ho hf hu
        (by rw [toDict_cls hu (by simp [hg])]; exact wrapAll_ok.2 h : toDict env so (n + 1) _ = _)
      cases he
      obtain ⟨m, hm⟩ := hr x hx
      have ha : seFieldArg f (.ok (.inst c attrs)) = { ty := f.ty, v := .ok v } := by
        unfold seFieldArg getAttr
        dsimp only
        rw [hf.ser, hv, hf.flat]
      rw [ha] at hm
      obtain ⟨k, re, cv, hk⟩ := encoded_cls hg hE (cx := topSeCx env c cd true so) (by
        unfold topSeCx clsSeCx
        dsimp only
        rw [hg, hcs]
        rfl) rfl hm
      refine ⟨k + 1, { reuse := re, conv := cv, skipNone := so.skipNone }, .inl rfl, rfl, ?_⟩
      rw [toDict_cls (.inl rfl) (by simp [hg])]
      exact wrapAll_ok.2 hk

/-- **C14** (partial): with `skip_none=True`, no object at any depth of the output has an entry for a field whose value is None. Conditions on
the field as in `C14_skip_none_partial`. -/
theorem C14_deep_partial {env : Env} {so : SeOpts} {n c attrs w d as kvs} {cd : ClassDef} {f : FieldDef} {x} (hg : env.gser = []) (hu : NotUnion so.c)
    (hsn : so.skipNone = true) (h : toDict env so n (.inst c attrs) = .ok w)
    (hE : EncodedAt env (.cls c) (.inst c attrs) w d as (.dict .plain kvs)) (hc : env.cls d = some cd) (htr : cd.transparent = false)
    (ho : OneEntryEach cd) (hren : ∀ f ∈ cd.fields, RenameOk f) (hcs : cd.classSer = none) (hf : f ∈ cd.fields) (hfs : serializable f = true)
    (hser : f.serializer = none) (hty : AdmitsNone env (env.unionsOf d) f.ty)
    (hrule : f.skipIf = none ∧ (f.skipIfFalse = true ∨ skipsDefault cd f = false)) (hv : as.lookup f.name = some .none) :
    (.str (wireName f.rename cd.seCase f.name), x) ∉ kvs := by
  obtain ⟨m, so', hu', hs', h'⟩ := C14_inside_partial hg hu h hE
  have hw : ((cd.fields.filter serializable).map (fun f => wireName f.rename cd.seCase f.name)).Nodup := by
    have := ho.wires
    rwa [List.map_congr_left (fun f hf => conv_eq_wireName (hren f (List.mem_filter.1 hf).1) _)] at this
  exact C14_skip_none_partial hc htr ho.flat hren hu' hg hcs hw hf hfs hser hty hrule (by rw [hs', hsn]) hv h'

namespace Ex14

def fo : FieldDef := { name := "o", ty := .union [.prim .int, .none] }
def fi : FieldDef := { name := "i", ty := .prim .int }
def cdIn : ClassDef := { name := "In", mro := ["In"], fields := [fi, fo] }
def fs : FieldDef := { name := "xs", ty := .list .list (.cls "In") }
def cdOut : ClassDef := { name := "Out", mro := ["Out"], fields := [fs] }
def env : Env := Ex.mk [("In", cdIn), ("Out", cdOut)]
def inner : List (String × Val) := [("i", .int 1), ("o", .none)]
def obj : List (String × Val) := [("xs", .list [.inst "In" inner])]
def innerOut : Val := .dict .plain [(Val.str "i", .int 1)]
def out : Val := .dict .plain [(Val.str "xs", .list [innerOut])]

theorem at_inner : EncodedAt env (.cls "Out") (.inst "Out" obj) out "In" inner innerOut :=
  .field (f := fs) ⟨rfl, rfl, rfl, by decide, ⟨by simp [env, Ex.mk], by simp [env, Ex.mk]⟩⟩ rfl ⟨by simp [cdOut, fs], by decide⟩
    ⟨by simp [cdOut], rfl, rfl, rfl, rfl, by simp [env, Ex.mk, cdOut]⟩ rfl (.head _) (.list (.head _) .here)

example : ∃ m so', NotUnion so'.c ∧ so'.skipNone = true ∧ toDict env so' m (.inst "In" inner) = .ok innerOut :=
  C14_inside_partial (so := { skipNone := true }) (n := 9) rfl (.inl rfl) rfl at_inner

example {x} : (Val.str "o", x) ∉ [(Val.str "i", Val.int 1)] :=
  C14_deep_partial (env := env) (so := { skipNone := true }) (n := 9) (f := fo) rfl (.inl rfl) rfl rfl at_inner rfl rfl
    ⟨by simp [cdIn, fi, fo], by decide⟩ (by simp [cdIn, fi, fo, RenameOk]) rfl (by simp [cdIn]) rfl rfl (.opt (by simp)) ⟨rfl, .inr rfl⟩ rfl

end Ex14

end Verif.Props
