import Verif.Model.De
/-!
# json.py, yaml.py, toml.py, pickle.py, msgpack.py: the format front ends

The encoders and decoders themselves (orjson/json, PyYAML, tomli, pickle, msgpack) are parameters.
-/

namespace Verif

/-- An external encoder/decoder pair: `json_dumps`/`json_loads` (/repo/serde/json.py:14-55), `yaml.safe_dump`/`yaml.safe_load`
(/repo/serde/yaml.py:17-26), `tomli_w.dumps`/`tomllib.loads` (/repo/serde/toml.py:25-34), `pickle.dumps`/`pickle.loads`
(/repo/serde/pickle.py:15-24). Text and bytes are both strings here; whatever they raise is passed on. -/
structure Codec where
  enc : Val → Except PErr String
  dec : String → Except PErr Val

/-- Python's `float(n)` on an int. -/
def floatOf (W : World) (i : Int) : Except PErr Val :=
  match W.floatOfInt i with
  | some x => .ok (.float x)
  | Option.none => .error .overflow

/-- `isinstance(value, (int, float))` first excluding bool, then `float(value)`; members of mixin enums never occur in decoded
JSON and are rejected here. /repo/serde/json.py:58-67. -/
def jsonNumbers (W : World) (v : Val) : Except PErr Val :=
  match v with
  | .bool _ => .error .serde
  | .int i => floatOf W i
  | .float x => .ok (.float x)
  | _ => .error .serde

/-- As `jsonNumbers`, and numeric strings are accepted. /repo/serde/yaml.py:29-43. -/
def yamlNumbers (W : World) (v : Val) : Except PErr Val :=
  match v with
  | .bool _ => .error .serde
  | .int i => floatOf W i
  | .float x => .ok (.float x)
  | .str s => match W.floatOfStr s with
    | some x => .ok (.float x)
    | Option.none => .error .serde
  | _ => .error .serde

/-- Options of `to_json` and its siblings with their defaults. /repo/serde/json.py:70-80. -/
structure FmtOpts where
  c : Option Ty := Option.none
  tagging : Tagging := .external
  reuse : Bool := false
  conv : Bool := true
  skipNone : Bool := false

/-- The `to_dict` options such a call passes on. -/
def FmtOpts.se (o : FmtOpts) : SeOpts :=
  { reuse := some o.reuse, conv := some o.conv, skipNone := o.skipNone, c := o.c, tagging := o.tagging }

/-- `se.serialize(to_dict(obj, ...))`. -/
def encodeDict (env : Env) (K : Codec) (o : SeOpts) (n : Nat) (v : Val) : Res String :=
  match toDict env o n v with
  | .ok w => liftP (K.enc w)
  | .error e => .error e

/-- `from_dict(c, de.deserialize(s), reuse_instances=False, deserialize_numbers=...)`. -/
def decodeDict (env : Env) (K : Codec) (numbers : Option (Val → Except PErr Val)) (tagging : Tagging) (n : Nat) (c : Ty) (s : String) :
    Res Val :=
  match liftP (K.dec s) with
  | .ok d => fromDict env { reuse := some false, numbers := numbers, tagging := tagging } n c d
  | .error e => .error e

/-- `to_json`, /repo/serde/json.py:70-104. -/
def toJson (env : Env) (K : Codec) (o : FmtOpts) (n : Nat) (v : Val) : Res String := encodeDict env K o.se n v

/-- `from_json`, /repo/serde/json.py:128-154. -/
def fromJson (env : Env) (K : Codec) (n : Nat) (c : Ty) (s : String) (coerceNumbers : Bool := true) (tagging : Tagging := .external) : Res Val :=
  decodeDict env K (if coerceNumbers then some (jsonNumbers env.W) else Option.none) tagging n c s

/-- `to_yaml`, /repo/serde/yaml.py:46-76. -/
def toYaml (env : Env) (K : Codec) (o : FmtOpts) (n : Nat) (v : Val) : Res String := encodeDict env K o.se n v

/-- `from_yaml`, /repo/serde/yaml.py:100-123. -/
def fromYaml (env : Env) (K : Codec) (n : Nat) (c : Ty) (s : String) (coerceNumbers : Bool := true) (tagging : Tagging := .external) : Res Val :=
  decodeDict env K (if coerceNumbers then some (yamlNumbers env.W) else Option.none) tagging n c s

/-- `to_toml`, /repo/serde/toml.py:37-67; its `skip_none` defaults to True. -/
def toToml (env : Env) (K : Codec) (n : Nat) (v : Val) (o : FmtOpts := { skipNone := true }) : Res String :=
  encodeDict env K o.se n v

/-- `from_toml`, /repo/serde/toml.py:83-93. -/
def fromToml (env : Env) (K : Codec) (n : Nat) (c : Ty) (s : String) (tagging : Tagging := .external) : Res Val :=
  decodeDict env K Option.none tagging n c s

/-- `to_pickle`, /repo/serde/pickle.py:27-38: `skip_none` is accepted and ignored. -/
def toPickle (env : Env) (K : Codec) (o : FmtOpts) (n : Nat) (v : Val) : Res String :=
  encodeDict env K { o.se with skipNone := false } n v

/-- `from_pickle`, /repo/serde/pickle.py:54-57. -/
def fromPickle (env : Env) (K : Codec) (n : Nat) (c : Ty) (s : String) (tagging : Tagging := .external) : Res Val :=
  decodeDict env K Option.none tagging n c s

/-! ## msgpack -/

/-- What `msgpack.unpackb` returns: a plain value, or an `ExtType(code, data)`. -/
inductive MpVal where
  | val (v : Val)
  | ext (code : Int) (data : String)

/-- `msgpack.packb` of a value and of an `ExtType`, `msgpack.unpackb`. /repo/serde/msgpack.py:20-42. -/
structure MpCodec where
  pack : Val → Except PErr String
  packExt : Int → String → Except PErr String
  unpack : String → Except PErr MpVal

/-- Options of `to_msgpack`, /repo/serde/msgpack.py:45-54; `ext` is `ext_dict.get`, keyed by the object's own type. -/
structure MpOpts where
  c : Option Ty := Option.none
  named : Bool := true
  ext : Option (Ty → Option Int) := Option.none
  reuse : Bool := false
  conv : Bool := true

/-- `to_msgpack`, /repo/serde/msgpack.py:45-85; `skip_none` is documented but not accepted; the tagging is always the default one. -/
def toMsgpack (env : Env) (K : MpCodec) (o : MpOpts) (n : Nat) (v : Val) : Res String :=
  let so : SeOpts := { reuse := some o.reuse, conv := some o.conv, c := o.c }
  let body : Res Val := if o.named then toDict env so n v else toTuple env so n v
  match o.ext with
  | Option.none => match body with
    | .ok w => liftP (K.pack w)
    | .error e => .error e
  | some ext => match ext (typeOf v) with
    | Option.none => .error (.serde "ext_dict")
    | some code => match body with
      | .error e => .error e
      | .ok w => match liftP (K.pack w) with
        | .ok b => liftP (K.packExt code b)
        | .error e => .error e

/-- The part of `from_msgpack` without `ext_dict`, /repo/serde/msgpack.py:135-137. Simplified: an `ExtType` met here is a
type error. -/
def fromMsgpackPlain (env : Env) (K : MpCodec) (named : Bool) (n : Nat) (c : Ty) (s : String) : Res Val :=
  match liftP (K.unpack s) with
  | .error e => .error e
  | .ok (.ext _ _) => .error (.py .type)
  | .ok (.val d) =>
    if named then fromDict env { reuse := some false } n c d
    else fromTuple env { reuse := some false } n c d

/-- `from_msgpack`, /repo/serde/msgpack.py:110-137: with `ext_dict` the class `c` is ignored; `ext.code` of anything that is not an
`ExtType` is an AttributeError. -/
def fromMsgpack (env : Env) (K : MpCodec) (named : Bool) (n : Nat) (c : Ty) (s : String)
    (ext : Option (Int → Option Ty) := Option.none) : Res Val :=
  match ext with
  | Option.none => fromMsgpackPlain env K named n c s
  | some ext => match liftP (K.unpack s) with
    | .error e => .error e
    | .ok (.val _) => .error (.py .attr)
    | .ok (.ext code data) => match ext code with
      | Option.none => .error (.serde "ext_dict")
      | some t => fromMsgpackPlain env K named n t data

end Verif
