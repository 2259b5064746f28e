import Verif.Spec.Unions
import Verif.Lemmas.SeGen
/-!
# Union serialize functions
-/

namespace Verif
open Verif.Spec

theorem toDict_union {env : Env} {o : SeOpts} {n ts v} (ho : (Ty.union ts).isOpt = false) (hc : o.c = some (.union ts))
    (hfind : findUnion env (env.unionsOfTy (.union ts)) (unionFuncName env ts) = some ts) :
    toDict env o (n + 1) v = wrapAll (seUnion env (seAt env n)
      { named := true, reuse := false, conv := false, skipNone := false, coerce := false, unions := env.unionsOfTy (.union ts),
        tagging := o.tagging, sers := env.gser } v ts) := by
  unfold toDict
  rw [seAt_toObj]
  unfold toObjF
  rw [hc]
  dsimp only
  unfold toObjBody
  dsimp only
  rw [ho]
  simp only [Bool.false_eq_true, if_false]
  unfold cacheSeUnion
  rw [hfind]

/-- A union field runs the union function on the attribute. -/
theorem render_unionField {env : Env} {m cx c attrs v ts} {f : FieldDef} (hty : f.ty = .union ts) (ho : (Ty.union ts).isOpt = false)
    (hse : f.serializer = none) (hsers : ∀ s ∈ cx.sers, s.handles (.union ts) = false) (hv : attrs.lookup f.name = some v)
    (hfind : findUnion env cx.unions (unionFuncName env ts) = some ts) :
    (seAt env (m + 1)).render cx (seFieldArg f (.ok (.inst c attrs))) = seUnion env (seAt env m) (cx.inUnion env) v ts := by
  rw [seAt_render]
  unfold renderF
  have hp : pickSer cx.sers (seFieldArg f (.ok (.inst c attrs))) = none := by
    unfold pickSer seFieldArg
    dsimp only
    rw [hse]
    dsimp only
    rw [List.find?_eq_none]
    intro s hs
    rw [hty, hsers s (by simpa using hs)]
    simp
  rw [hp]
  have h1 : (seFieldArg f (.ok (.inst c attrs))).ser = none := hse
  have h2 : (seFieldArg f (.ok (.inst c attrs))).ty = .union ts := hty
  have h3 : (seFieldArg f (.ok (.inst c attrs))).v = .ok v := by
    unfold seFieldArg getAttr
    dsimp only
    rw [hv]
  rw [h1]
  dsimp only
  rw [h2]
  dsimp only
  rw [h3]
  dsimp only
  rw [ho, hfind]
  simp only [Bool.false_eq_true, if_false]

end Verif
