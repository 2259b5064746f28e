import Verif.Model.De
import Verif.Spec.Twin
/-!
# Specification vocabulary: two versions of a class
-/

namespace Verif.Spec

/-- `c'` is the class `c` with the field `g` added (at any place): same decorator options, no flattened fields, no `__post_init__`,
keyword-only fields last. -/
structure Extends (env : Env) (c c' : ClassId) (cd cd' : ClassDef) (g : FieldDef) : Prop where
  old : env.cls c = some cd
  new : env.cls c' = some cd'
  fields : ∃ pre post, cd.fields = pre ++ post ∧ cd'.fields = pre ++ g :: post
  options : { cd' with name := cd.name, mro := cd.mro, fields := cd.fields } = cd
  dict : cd.transparent = false
  post : cd.postInit = none
  flat : ∀ f ∈ cd'.fields, f.flatten = false
  names : (cd'.fields.map (·.name)).Nodup
  kw : cd'.fields.Pairwise (fun f h => f.kwOnly = true → h.kwOnly = true)
  global : NoGlobal env c
  global' : NoGlobal env c'

end Verif.Spec
