import Verif.Model.Separate
/-!
# `is_serializable` and `is_deserializable`
-/

namespace Verif

/-- `hasattr(x, "__serde__")`, /repo/serde/se.py:344-360, /repo/serde/de.py:424-435: the body of both functions, here for a class or annotation. A
subscripted generic (`typing._GenericAlias`) does not pass dunder attributes on to the class; other annotations have no such attribute. Base
classes count. -/
def Gen.able (env : Env) (st : Gen) : Ty → Bool
  | .cls c => (st.get env c).isSome
  | _ => false

/-- The same for an object: attribute lookup falls back to the class. /repo/serde/se.py:344-360, /repo/serde/de.py:424-435. -/
def Gen.ableVal (env : Env) (st : Gen) : Val → Bool
  | .inst c _ => (st.get env c).isSome
  | _ => false

/-- The same after decorators applied separately: `__serde__` is set by the first of them. /repo/serde/se.py:251-263, /repo/serde/de.py:291-303. -/
def DecoState.able (st : DecoState) : Bool := st.dflts.isSome

end Verif
