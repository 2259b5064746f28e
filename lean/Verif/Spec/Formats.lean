import Verif.Model.Formats
/-!
# Specification vocabulary: what the external formats do to a value

Assumptions about third-party encoders, stated per value: a codec is faithful on `w` if it encodes `w` and decodes the result to
the format's normal form of `w`.
-/

namespace Verif.Spec

/-- JSON object keys are strings: numbers and constants are written as JSON writes them. -/
def jsonKey (W : World) : Val → Val
  | .int i => .str (W.strOf (.int i))
  | .float x => .str (W.strOf (.float x))
  | .bool true => .str "true"
  | .bool false => .str "false"
  | .none => .str "null"
  | k => k

mutual
/-- A value after being written as JSON and read back: tuples have become lists, keys strings. -/
def jsonWire (W : World) : Val → Val
  | .list xs => .list (jsonWireL W xs)
  | .tuple xs => .list (jsonWireL W xs)
  | .dict _ kvs => .dict .plain (dictOf (jsonWireD W kvs))
  | v => v
/-- Elements. -/
def jsonWireL (W : World) : List Val → List Val
  | [] => []
  | x :: xs => jsonWire W x :: jsonWireL W xs
/-- Entries. -/
def jsonWireD (W : World) : List (Val × Val) → List (Val × Val)
  | [] => []
  | (k, v) :: r => (jsonKey W k, jsonWire W v) :: jsonWireD W r
end

mutual
/-- A value after being packed and unpacked by msgpack with `use_list=False`: arrays have become tuples. -/
def mpWire : Val → Val
  | .list xs => .tuple (mpWireL xs)
  | .tuple xs => .tuple (mpWireL xs)
  | .dict _ kvs => .dict .plain (dictOf (mpWireD kvs))
  | v => v
/-- Elements. -/
def mpWireL : List Val → List Val
  | [] => []
  | x :: xs => mpWire x :: mpWireL xs
/-- Entries. -/
def mpWireD : List (Val × Val) → List (Val × Val)
  | [] => []
  | (k, v) :: r => (k, mpWire v) :: mpWireD r
end

mutual
/-- A value after being written as YAML and read back: tuples have become lists. -/
def yamlWire : Val → Val
  | .list xs => .list (yamlWireL xs)
  | .tuple xs => .list (yamlWireL xs)
  | .dict _ kvs => .dict .plain (dictOf (yamlWireD kvs))
  | v => v
/-- Elements. -/
def yamlWireL : List Val → List Val
  | [] => []
  | x :: xs => yamlWire x :: yamlWireL xs
/-- Entries. -/
def yamlWireD : List (Val × Val) → List (Val × Val)
  | [] => []
  | (k, v) :: r => (k, yamlWire v) :: yamlWireD r
end

/-- The codec writes `w` and reads back `norm w`. -/
def FaithfulOn (K : Codec) (norm : Val → Val) (w : Val) : Prop := ∃ s, K.enc w = .ok s ∧ K.dec s = .ok (norm w)

/-- The same for msgpack. -/
def MpFaithfulOn (K : MpCodec) (w : Val) : Prop := ∃ s, K.pack w = .ok s ∧ K.unpack s = .ok (.val (mpWire w))

/-- `int(str(i)) == i` and `float(repr(x)) == x`. -/
structure NumText (W : World) : Prop where
  int : ∀ i, W.intOfStr (W.strOf (.int i)) = some i
  float : ∀ x, W.floatOfStr (W.strOf (.float x)) = some x

end Verif.Spec
