import Verif.Lemmas.RTTop
import Verif.Examples.World
/-!
# Findings about round trips: C01-C04

Well-typed objects of supported classes whose own output cannot be read back, or comes back as something else, or that cannot be written.
`e = .fuel` is the model's artefact for an exhausted recursion budget, never a Python exception.
-/

namespace Verif.Findings.RoundTrip
open Spec

/-- `x: Union[frozenset[int], str]`. -/
def A : ClassDef := { name := "A", mro := ["A"], fields := [{ name := "x", ty := .union [.set .frozen (.prim .int), .prim .str] }] }
/-- `x: set[H]` for a hashable dataclass `H`. -/
def S : ClassDef := { name := "S", mro := ["S"], fields := [{ name := "x", ty := .set .set (.cls "H") }] }
/-- A frozen dataclass. -/
def H : ClassDef := { name := "H", mro := ["H"], hashable := true, fields := [{ name := "x", ty := .prim .int }] }
/-- `x: Union[E, str]` for an `IntEnum` `E`. -/
def I : ClassDef := { name := "I", mro := ["I"], fields := [{ name := "x", ty := .union [.enum "E", .prim .str] }] }
/-- `x: Union[str, UUID]`, untagged. -/
def U : ClassDef := { name := "U", mro := ["U"], tagging := .untagged, fields := [{ name := "x", ty := .union [.prim .str, .std "uuid.UUID"] }] }
/-- `x: int = field(kw_only=True)`. -/
def K : ClassDef := { name := "K", mro := ["K"], fields := [{ name := "x", ty := .prim .int, kwOnly := true }] }
/-- `x: dict[bool, int]`. -/
def B : ClassDef := { name := "B", mro := ["B"], fields := [{ name := "x", ty := .dict .dict (.prim .bool) (.prim .int) }] }
/-- `x: Counter[int]`. -/
def C : ClassDef := { name := "C", mro := ["C"], fields := [{ name := "x", ty := .counter (.prim .int) }] }
/-- `class E(IntEnum): a = 1`. -/
def E : EnumDef := { name := "E", members := [("a", .int 1)], mixin := some .int }
/-- `x: Union[list[str], str]`. -/
def L : ClassDef := { name := "L", mro := ["L"], fields := [{ name := "x", ty := .union [.list .list (.prim .str), .prim .str] }] }
/-- `x: Union[Literal["a"], H]`. -/
def M : ClassDef := { name := "M", mro := ["M"], fields := [{ name := "x", ty := .union [.lit [.str "a"], .cls "H"] }] }
/-- `class Num(Enum): one = 1`. -/
def Num : EnumDef := { name := "Num", members := [("one", .int 1)] }
/-- `x: Union[Num, str]`. -/
def G : ClassDef := { name := "G", mro := ["G"], fields := [{ name := "x", ty := .union [.enum "Num", .prim .str] }] }
/-- `x: int; y: int`. -/
def Q : ClassDef := { name := "Q", mro := ["Q"], fields := [{ name := "x", ty := .prim .int }, { name := "y", ty := .prim .int }] }
/-- `x: Q = field(flatten=True); y: int`. -/
def P : ClassDef := { name := "P", mro := ["P"], fields := [{ name := "x", ty := .cls "Q", flatten := true }, { name := "y", ty := .prim .int }] }

/-- `x: Optional[int]`, transparent. -/
def W : ClassDef := { name := "W", mro := ["W"], transparent := true, fields := [{ name := "x", ty := .union [.prim .int, .none] }] }
/-- `x: Optional[W]`. -/
def N : ClassDef := { name := "N", mro := ["N"], fields := [{ name := "x", ty := .union [.cls "W", .none] }] }

def env : Env :=
  { Ex.mk [("W", W), ("N", N), ("A", A), ("S", S), ("H", H), ("I", I), ("U", U), ("K", K), ("B", B), ("C", C), ("L", L), ("M", M), ("G", G), ("Q", Q), ("P", P)] with
    enums := [("E", E), ("Num", Num)] }

/-- Reading what was written does not fail. -/
def Accepted : Prop := ∀ (env : Env) (c : ClassId) (v w : Val) (n m : Nat) (e : Exc), HasTy env (.cls c) v → toDict env {} n v = .ok w →
  fromDict env {} m (.cls c) w = .error e → e = .fuel
/-- The same for tuples. -/
def AcceptedTuple : Prop := ∀ (env : Env) (c : ClassId) (v w : Val) (n m : Nat) (e : Exc), HasTy env (.cls c) v → toTuple env {} n v = .ok w →
  fromTuple env {} m (.cls c) w = .error e → e = .fuel
/-- Writing does not fail. -/
def Written : Prop := ∀ (env : Env) (c : ClassId) (v : Val) (n : Nat) (e : Exc), HasTy env (.cls c) v → toDict env {} n v = .error e → e = .fuel
theorem one {c : ClassId} {cd : ClassDef} {f : FieldDef} {x : Val} (hc : env.cls c = some cd) (hf : cd.fields = [f]) (hn : f.name = "x") (hx : HasTy env f.ty x) :
    HasTy env (.cls c) (.inst c [("x", x)]) := by
  refine .inst hc (by rw [hf]; simp [hn]) ?_
  intro p hp
  rw [hf] at hp
  simp only [List.zip_cons_cons, List.zip_nil_right, List.mem_cons, List.not_mem_nil, or_false] at hp
  subst hp; exact hx

/-- C01 fails for a union with a frozenset member: what the member is written as is a set, and no variant accepts it. -/
theorem C01_false_frozenset : ¬ Accepted := by
  intro h
  have hv : HasTy env (.cls "A") (.inst "A" [("x", .set true [.int 1])]) :=
    one (cd := A) rfl rfl rfl (.union (t := .set .frozen (.prim .int)) (by simp) (.set (k := .frozen) (by simp [HasTy.int]) rfl (.cons (by simp) .nil)))
  exact absurd (h env "A" _ (.dict .plain [(.str "x", .set false [.int 1])]) 9 9 _ hv rfl rfl) (by intro h; cases h)

/-- C01 fails for an IntEnum in a union: it is written as its int, which the enum variant does not accept. -/
theorem C01_false_int_enum : ¬ Accepted := by
  intro h
  have hv : HasTy env (.cls "I") (.inst "I" [("x", .enum "E" "a")]) :=
    one (cd := I) rfl rfl rfl (.union (t := .enum "E") (by simp) (.enum (d := E) (w := .int 1) rfl (by simp [E])))
  exact absurd (h env "I" _ (.dict .plain [(.str "x", .int 1)]) 9 9 _ hv rfl rfl) (by intro h; cases h)

/-- C01 fails for a set of dataclasses: with the default options the elements become dicts, which cannot be put in a set. -/
theorem C01_false_set_of_dataclasses : ¬ Written := by
  intro h
  have hH : HasTy env (.cls "H") (.inst "H" [("x", .int 1)]) := one (cd := H) rfl rfl rfl .int
  have hv : HasTy env (.cls "S") (.inst "S" [("x", .set false [.inst "H" [("x", .int 1)]])]) :=
    one (cd := S) rfl rfl rfl (.set (k := .set) (by intro x hx; rw [List.mem_singleton.1 hx]; exact hH) rfl (.cons (by simp) .nil))
  exact absurd (h env "S" _ 9 _ hv rfl) (by intro h; cases h)

/-- C01 fails for an optional transparent class that holds None: the object is written as None, and read as absent. -/
theorem C01_false_wrapped_none : ¬ ∀ (env : Env) (c : ClassId) (v w v' : Val) (n m : Nat), HasTy env (.cls c) v → toDict env {} n v = .ok w →
    fromDict env {} m (.cls c) w = .ok v' → v' = v := by
  intro h
  have hw : HasTy env (.cls "W") (.inst "W" [("x", .none)]) := one (cd := W) rfl rfl rfl (.union (t := .none) (by simp) .none)
  have hv : HasTy env (.cls "N") (.inst "N" [("x", .inst "W" [("x", .none)])]) := one (cd := N) rfl rfl rfl (.union (t := .cls "W") (by simp) hw)
  exact absurd (h env "N" _ (.dict .plain [(.str "x", .none)]) (.inst "N" [("x", .none)]) 9 9 hv rfl rfl) (by intro h; simp at h)

/-- C01 fails for untagged unions: the first variant that accepts the written value wins. -/
theorem C01_false_untagged : ¬ ∀ (env : Env) (c : ClassId) (v w v' : Val) (n m : Nat), HasTy env (.cls c) v → toDict env { reuse := some false } n v = .ok w →
    fromDict env { reuse := some false } m (.cls c) w = .ok v' → v' = v := by
  intro h
  have hv : HasTy env (.cls "U") (.inst "U" [("x", .std "uuid.UUID" "s")]) :=
    one (cd := U) rfl rfl rfl (.union (t := .std "uuid.UUID") (by simp) (.std rfl))
  exact absurd (h env "U" _ (.dict .plain [(.str "x", .str "s")]) (.inst "U" [("x", .str "s")]) 9 9 hv rfl rfl) (by intro h; cases h)

/-- C01 fails for a string in a union in which a list of strings comes first: the list variant splits the string. -/
theorem C01_false_list_before_str : ¬ ∀ (env : Env) (c : ClassId) (v w v' : Val) (n m : Nat), HasTy env (.cls c) v → toDict env {} n v = .ok w →
    fromDict env {} m (.cls c) w = .ok v' → v' = v := by
  intro h
  have hv : HasTy env (.cls "L") (.inst "L" [("x", .str "ab")]) := one (cd := L) rfl rfl rfl (.union (t := .prim .str) (by simp) .str)
  exact absurd (h env "L" _ (.dict .plain [(.str "x", .str "ab")]) (.inst "L" [("x", .list [.str "a", .str "b"])]) 9 9 hv rfl rfl) (by intro h; cases h)

/-- C01 fails for a string in a union in which an enum with int values comes first: strings are converted to ints to find a member. -/
theorem C01_false_enum_before_str : ¬ ∀ (env : Env) (c : ClassId) (v w v' : Val) (n m : Nat), HasTy env (.cls c) v → toDict env {} n v = .ok w →
    fromDict env {} m (.cls c) w = .ok v' → v' = v := by
  intro h
  have hv : HasTy env (.cls "G") (.inst "G" [("x", .str "1")]) := one (cd := G) rfl rfl rfl (.union (t := .prim .str) (by simp) .str)
  exact absurd (h env "G" _ (.dict .plain [(.str "x", .str "1")]) (.inst "G" [("x", .enum "Num" "one")]) 9 9 hv rfl rfl) (by intro h; cases h)

/-- C01 fails for a dataclass in a union in which a literal comes first: every value counts as an instance of the literal, so the object is
handed out as it is, and no variant accepts it. -/
theorem C01_false_literal_first : ¬ Accepted := by
  intro h
  have hH : HasTy env (.cls "H") (.inst "H" [("x", .int 1)]) := one (cd := H) rfl rfl rfl .int
  have hv : HasTy env (.cls "M") (.inst "M" [("x", .inst "H" [("x", .int 1)])]) := one (cd := M) rfl rfl rfl (.union (t := .cls "H") (by simp) hH)
  exact absurd (h env "M" _ (.dict .plain [(.str "x", .inst "H" [("x", .int 1)])]) 9 9 _ hv rfl rfl) (by intro h; cases h)

/-- C02 fails for keyword-only fields: the tuple based constructor call is positional. -/
theorem C02_false_kw_only : ¬ AcceptedTuple := by
  intro h
  have hv : HasTy env (.cls "K") (.inst "K" [("x", .int 1)]) := one (cd := K) rfl rfl rfl .int
  exact absurd (h env "K" _ (.tuple [.int 1]) 9 9 _ hv rfl rfl) (by intro h; cases h)

/-- C02 fails for a flattened dataclass that is not the last field: it takes one place for each of its fields, but the fields behind it
are read from the place they would have without it. -/
theorem C02_false_flatten_not_last : ¬ ∀ (env : Env) (c : ClassId) (v w v' : Val) (n m : Nat), HasTy env (.cls c) v → toTuple env {} n v = .ok w →
    fromTuple env {} m (.cls c) w = .ok v' → v' = v := by
  intro h
  have two : ∀ {c : ClassId} {cd : ClassDef} {f g : FieldDef} {x y : Val}, env.cls c = some cd → cd.fields = [f, g] → f.name = "x" → g.name = "y" →
      HasTy env f.ty x → HasTy env g.ty y → HasTy env (.cls c) (.inst c [("x", x), ("y", y)]) := by
    intro c cd f g x y hc hf h1 h2 hx hy
    refine .inst hc (by rw [hf]; simp [h1, h2]) ?_
    intro p hp
    rw [hf] at hp
    simp only [List.zip_cons_cons, List.zip_nil_right, List.mem_cons, List.not_mem_nil, or_false] at hp
    rcases hp with rfl | rfl
    · exact hx
    · exact hy
  have hq : HasTy env (.cls "Q") (.inst "Q" [("x", .int 1), ("y", .int 2)]) := two (cd := Q) rfl rfl rfl rfl .int .int
  have hv : HasTy env (.cls "P") (.inst "P" [("x", .inst "Q" [("x", .int 1), ("y", .int 2)]), ("y", .int 3)]) := two (cd := P) rfl rfl rfl rfl hq .int
  have := h env "P" _ (.tuple [.int 1, .int 2, .int 3]) (.inst "P" [("x", .inst "Q" [("x", .int 1), ("y", .int 2)]), ("y", .int 2)]) 9 9 hv rfl rfl
  cases this

/-- Reading JSON text that was written from the object does not fail; `K` writes and reads as JSON does. -/
def AcceptedJson : Prop := ∀ (env : Env) (K : Codec) (c : ClassId) (v : Val) (s : String) (n m : Nat) (e : Exc),
  (∀ w s, K.enc w = .ok s → K.dec s = .ok (jsonWire env.W w)) → HasTy env (.cls c) v → toJson env K {} n v = .ok s →
  fromJson env K m (.cls c) s = .error e → e = .fuel

/-- A codec that knows one value. -/
def only (w : Val) (p : Val → Bool) : Codec := ⟨fun v => if p v then .ok "text" else .error .type, fun _ => .ok (jsonWire env.W w)⟩

/-- Written as `{"x": {"true": 1}}`. -/
def bw : Val := .dict .plain [(.str "x", .dict .plain [(.bool true, .int 1)])]
/-- Written as `{"x": {"1": 1}}`. -/
def cw : Val := .dict .plain [(.str "x", .dict .plain [(.int 1, .int 1)])]

/-- Recognises `bw`. -/
def isB : Val → Bool
  | .dict .plain [(.str "x", .dict .plain [(.bool true, .int 1)])] => true
  | _ => false
/-- Recognises `cw`. -/
def isC : Val → Bool
  | .dict .plain [(.str "x", .dict .plain [(.int 1, .int 1)])] => true
  | _ => false

/-- C03 fails for bool keys: `"true"` is not turned back into a bool. -/
theorem C03_false_bool_key : ¬ AcceptedJson := by
  intro h
  have hv : HasTy env (.cls "B") (.inst "B" [("x", .dict .plain [(.bool true, .int 1)])]) :=
    one (cd := B) rfl rfl rfl (.dict (k := .dict) (by simp [HasTy.bool]) (by simp [HasTy.int]) rfl (.cons (by simp) .nil))
  have hK : ∀ w s, (only bw isB).enc w = .ok s → (only bw isB).dec s = .ok (jsonWire env.W w) := by
    intro w s hw
    have : isB w = true := by
      simp only [only] at hw
      split at hw
      · assumption
      · cases hw
    unfold isB at this
    split at this
    · rfl
    · cases this
  exact absurd (h env (only bw isB) "B" _ "text" 9 9 _ hK hv rfl rfl) (by intro h; cases h)

/-- C03 fails for `Counter[int]`: the keys of a Counter are not turned back into numbers. -/
theorem C03_false_counter : ¬ AcceptedJson := by
  intro h
  have hv : HasTy env (.cls "C") (.inst "C" [("x", .dict .counter [(.int 1, .int 1)])]) :=
    one (cd := C) rfl rfl rfl (.counter (t := .prim .int) (kvs := [(.int 1, .int 1)]) (by simp [HasTy.int]) (by simp) rfl (.cons (by simp) .nil))
  have hK : ∀ w s, (only cw isC).enc w = .ok s → (only cw isC).dec s = .ok (jsonWire env.W w) := by
    intro w s hw
    have : isC w = true := by
      simp only [only] at hw
      split at hw
      · assumption
      · cases hw
    unfold isC at this
    split at this
    · rfl
    · cases this
  exact absurd (h env (only cw isC) "C" _ "text" 9 9 _ hK hv rfl rfl) (by intro h; cases h)

/-- Recognises `{"x": 1}`. -/
def isI : Val → Bool
  | .dict .plain [(.str "x", .int 1)] => true
  | _ => false
/-- A MessagePack library that knows that value. -/
def mp : MpCodec := ⟨fun v => if isI v then .ok "bytes" else .error .type, fun _ _ => .error .type, fun _ => .ok (.val (.dict .plain [(.str "x", .int 1)]))⟩

/-- C04 fails like C01 for an IntEnum in a union. -/
theorem C04_false_int_enum : ¬ ∀ (env : Env) (K : MpCodec) (c : ClassId) (v : Val) (s : String) (n m : Nat) (e : Exc),
    (∀ w s, K.pack w = .ok s → K.unpack s = .ok (.val (mpWire w))) → HasTy env (.cls c) v → toMsgpack env K {} n v = .ok s →
    fromMsgpack env K true m (.cls c) s = .error e → e = .fuel := by
  intro h
  have hv : HasTy env (.cls "I") (.inst "I" [("x", .enum "E" "a")]) :=
    one (cd := I) rfl rfl rfl (.union (t := .enum "E") (by simp) (.enum (d := E) (w := .int 1) rfl (by simp [E])))
  have hK : ∀ w s, mp.pack w = .ok s → mp.unpack s = .ok (.val (mpWire w)) := by
    intro w s hw
    have : isI w = true := by
      simp only [mp] at hw
      split at hw
      · assumption
      · cases hw
    unfold isI at this
    split at this
    · rfl
    · cases this
  exact absurd (h env mp "I" _ "bytes" 9 9 _ hK hv rfl rfl) (by intro h; cases h)

end Verif.Findings.RoundTrip
