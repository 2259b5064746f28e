/-!
# Specification: identifiers of the generated source
-/

namespace Verif.Spec

/-- The letters, digits and the underscore of ASCII. -/
inductive IdentChar (c : Char) : Prop
  | upper : 'A' ≤ c → c ≤ 'Z' → IdentChar c
  | lower : 'a' ≤ c → c ≤ 'z' → IdentChar c
  | digit : '0' ≤ c → c ≤ '9' → IdentChar c
  | underscore : c = '_' → IdentChar c

/-- An identifier in ASCII: it begins with a letter or underscore and has letters, digits and underscores only. -/
structure Identifier (s : String) : Prop where
  start : ∃ c cs, s.toList = c :: cs ∧ ¬ ('0' ≤ c ∧ c ≤ '9')
  chars : ∀ c ∈ s.toList, IdentChar c

end Verif.Spec
