import Verif.Spec.Frame
import Verif.Spec.Twin
import Verif.Spec.Emit
/-!
# Specification vocabulary: one field of a class
-/

namespace Verif.Spec

/-- A dataclass decoded from and encoded to a dict of its own: not transparent, without `__post_init__`, not claimed by a
globally registered class (de)serializer. -/
structure PlainClass (env : Env) (c : ClassId) (cd : ClassDef) : Prop where
  cls : env.cls c = some cd
  dict : cd.transparent = false
  post : cd.postInit = none
  names : (cd.fields.map (·.name)).Nodup
  global : NoGlobal env c

/-- A field of `cd` that deserialization reads under its wire name with the built-in rules for its type. -/
structure PlainField (env : Env) (cd : ClassDef) (f : FieldDef) : Prop where
  mem : f ∈ cd.fields
  init : f.init = true
  skip : f.skip = false
  skipDe : f.skipDe = false
  flat : f.flatten = false
  alias : f.alias = []
  deser : f.deserializer = none
  noCls : ∀ s ∈ env.gde ++ cd.classDe.toList, s.handles f.ty = false

/-- A field of `cd` that serialization writes under its wire name with the built-in rules for its type. -/
structure WrittenField (env : Env) (cd : ClassDef) (f : FieldDef) : Prop where
  mem : f ∈ cd.fields
  skip : f.skip = false
  skipSer : f.skipSer = false
  flat : f.flatten = false
  ser : f.serializer = none
  noCls : ∀ s ∈ env.gser ++ cd.classSer.toList, s.handles f.ty = false

/-- `to_dict` of this class writes one entry per field: no field is flattened and the wire names are different. -/
structure OneEntryEach (cd : ClassDef) : Prop where
  flat : ∀ f ∈ cd.fields, f.flatten = false
  wires : ((cd.fields.filter serializable).map (fun f => f.conv cd.seCase)).Nodup

/-- Two inputs with the same keys and the same values except under the key `k`. -/
structure DifferAt (k : String) (kvs kvs' : List (Val × Val)) : Prop where
  keys : kvs'.map (·.1) = kvs.map (·.1)
  others : ∀ s, s ≠ k → getStr s kvs' = getStr s kvs

/-- No other field of the class is read under the wire name of `f`, and the other fields are not flattened and have aliases
only on types that support them. -/
structure Separate (cd : ClassDef) (f : FieldDef) : Prop where
  flat : ∀ g ∈ cd.fields, g.flatten = false
  alias : ∀ g ∈ cd.fields, g.alias = [] ∨ AliasTy g.ty
  apart : ∀ g ∈ cd.fields, g.name ≠ f.name → g.conv cd.deCase ≠ f.conv cd.deCase ∧
    (g.alias ≠ [] → g.name ≠ f.conv cd.deCase ∧ f.conv cd.deCase ∉ g.alias)

/-- The attributes with the one called `nm` replaced. -/
def setAttr (nm : String) (w : Val) (attrs : List (String × Val)) : List (String × Val) :=
  attrs.map (fun e => if e.1 = nm then (e.1, w) else e)

end Verif.Spec
