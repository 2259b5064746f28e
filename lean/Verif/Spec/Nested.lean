import Verif.Spec.Field
/-!
# Specification vocabulary: an object inside another, and its place in the output
-/

namespace Verif.Spec

/-- In the output `w` for a value `v` of type `t`, the object `.inst d attrs`, at any depth of `v`, stands as `w'`. Steps go through list-like
containers, tuples, Optional and fields with the built-in rules of ordinary dataclasses. -/
inductive EncodedAt (env : Env) : Ty → Val → Val → ClassId → List (String × Val) → Val → Prop
  | here {c d attrs w} : EncodedAt env (.cls c) (.inst d attrs) w d attrs w
  | opt {t v w d attrs w'} : t.isNone = false → EncodedAt env t v w d attrs w' → EncodedAt env (.union [t, .none]) v w d attrs w'
  | list {k t xs ys x y d attrs w'} : (x, y) ∈ xs.zip ys → EncodedAt env t x y d attrs w' →
      EncodedAt env (.list k t) (.list xs) (.list ys) d attrs w'
  | deque {t xs ys x y d attrs w'} : (x, y) ∈ xs.zip ys → EncodedAt env t x y d attrs w' →
      EncodedAt env (.deque t) (.deque xs) (.list ys) d attrs w'
  | tupleV {t xs ys x y d attrs w'} : (x, y) ∈ xs.zip ys → EncodedAt env t x y d attrs w' →
      EncodedAt env (.tupleV t) (.tuple xs) (.tuple ys) d attrs w'
  | alias {nm t v w d attrs w'} : EncodedAt env t v w d attrs w' → EncodedAt env (.alias nm t) v w d attrs w'
  | field {c b} {cd : ClassDef} {f : FieldDef} {as kvs v x d attrs w'} : PlainClass env b cd → cd.classSer = none → OneEntryEach cd →
      WrittenField env cd f → as.lookup f.name = some v → (.str (f.conv cd.seCase), x) ∈ kvs → EncodedAt env f.ty v x d attrs w' →
      EncodedAt env (.cls c) (.inst b as) (.dict .plain kvs) d attrs w'

end Verif.Spec
