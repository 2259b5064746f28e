import Verif.Props.C01
import Verif.Lemmas.Null
import Verif.Examples.Shapes
import Verif.Props.C61
import Verif.Findings.RoundTrip
/-!
# C72-C74: YAML, TOML and pickle

C72, full statement: "`from_yaml(C, to_yaml(obj))` returns an object equal to `obj` whenever the YAML layer itself is faithful." Proved (partial) for the
classes of C01 as they go through YAML; false for a union in which a list of floats comes before `str`: `C72_false_numeric_text`.

C73, full statement: "TOML has no null: to_toml hands no None to the TOML library, and from_toml gives the object back, with its Nones." Proved (partial): no
None is handed over if None is met in fields only that are left out for it; the round trip for the classes of C01. Without this it is false: a None in a list
(`C73_false_null`), a field whose default is not None (`C73_false_default`).

C74, full statement: "`from_pickle(C, to_pickle(obj))` returns an object equal to `obj`." Proved (partial) for the classes of C01; false as for C01:
`C74_false_int_enum`.
-/

namespace Verif.Props
open Verif Spec

/-- **C72** The YAML round trip, with and without number coercion and skip_none. -/
theorem C72_round_trip_partial {env : Env} {cn sn : Bool} {c} {cd : ClassDef} {v} (hc : env.cls c = some cd)
    (hok : EnvOk env (yamlFmt env cn sn)) (hv : HasTy env (.cls c) v) :
    ∃ w, Ev (fun n => toDict env ({ skipNone := sn } : FmtOpts).se n v = .ok w) ∧ (∀ K, FaithfulOn K yamlWire w →
      ∃ s, Ev (fun n => toYaml env K { skipNone := sn } n v = .ok s ∧ fromYaml env K n (.cls c) s cn = .ok v)) :=
  codec_round_trip (so := ({ skipNone := sn } : FmtOpts).se) hc ⟨rfl, rfl⟩ rfl rfl rfl hok hv

example (sn : Bool) : ∃ (K : Codec) (s : String), Ev (fun n => toYaml Ex.shapes K { skipNone := sn } n Ex.tree = .ok s ∧
    fromYaml Ex.shapes K n (.cls "Tree") s = .ok Ex.tree) := by
  obtain ⟨w, _, hw⟩ := C72_round_trip_partial (env := Ex.shapes) (cn := true) (sn := sn) (cd := Ex.Tree) rfl (Ex.shapesOk _) Ex.tree_ty
  exact ⟨_, hw ⟨fun _ => .ok "text", fun _ => .ok (yamlWire w)⟩ ⟨_, rfl, rfl⟩⟩

/-- **C73** The TOML round trip: `to_toml` leaves None out by default, and `from_toml` restores it. TOML keeps arrays and tables as YAML does. -/
theorem C73_round_trip_partial {env : Env} {c} {cd : ClassDef} {v} (hc : env.cls c = some cd)
    (hok : EnvOk env (yamlFmt env false true)) (hv : HasTy env (.cls c) v) :
    ∃ w, Ev (fun n => toDict env ({ skipNone := true } : FmtOpts).se n v = .ok w) ∧ (∀ K, FaithfulOn K yamlWire w →
      ∃ s, Ev (fun n => toToml env K n v = .ok s ∧ fromToml env K n (.cls c) s = .ok v)) :=
  codec_round_trip (so := ({ skipNone := true } : FmtOpts).se) hc ⟨rfl, rfl⟩ rfl rfl rfl hok hv

example : ∃ (K : Codec) (s : String), Ev (fun n => toToml Ex.shapes K n Ex.tree = .ok s ∧
    fromToml Ex.shapes K n (.cls "Tree") s = .ok Ex.tree) := by
  obtain ⟨w, _, hw⟩ := C73_round_trip_partial (env := Ex.shapes) (cd := Ex.Tree) rfl (Ex.shapesOk _) Ex.tree_ty
  exact ⟨_, hw ⟨fun _ => .ok "text", fun _ => .ok (yamlWire w)⟩ ⟨_, rfl, rfl⟩⟩

/-- **C74** The pickle round trip. Pickle returns what it was given. -/
theorem C74_round_trip_partial {env : Env} {c} {cd : ClassDef} {v} (hc : env.cls c = some cd)
    (hok : EnvOk env (rawFmt env true false true false (by intro h; cases h))) (hv : HasTy env (.cls c) v) :
    ∃ w, Ev (fun n => toDict env ({} : FmtOpts).se n v = .ok w) ∧ (∀ K, FaithfulOn K id w →
      ∃ s, Ev (fun n => toPickle env K {} n v = .ok s ∧ fromPickle env K n (.cls c) s = .ok v)) :=
  codec_round_trip (so := ({} : FmtOpts).se) hc ⟨rfl, rfl⟩ rfl rfl rfl hok hv

example : ∃ (K : Codec) (s : String), Ev (fun n => toPickle Ex.shapes K {} n Ex.tree = .ok s ∧
    fromPickle Ex.shapes K n (.cls "Tree") s = .ok Ex.tree) := by
  obtain ⟨w, _, hw⟩ := C74_round_trip_partial (env := Ex.shapes) (cd := Ex.Tree) rfl (Ex.shapesOk _) Ex.tree_ty
  exact ⟨_, hw ⟨fun _ => .ok "text", fun _ => .ok w⟩ ⟨_, rfl, rfl⟩⟩

/-! ## No null -/

/-- **C73** With `skip_none` the output has no None anywhere, if None is met in fields only that are left out for it. -/
theorem C73_no_null_partial {env : Env} {o : SeOpts} {n v w} (hU : DistinctUnions env) (hg : env.gser = []) (hE : EnumsSolid env) (hc : o.c = none)
    (hs : o.skipNone = true) (hv : SolidAny env v) (h : toDict env o n v = .ok w) : NullFree w := by
  have h := C61_to_dict_partial hU (by rw [hc]; intro t ht; cases ht) h
  rw [hc] at h
  cases h with
  | plain _ h => exact solid_any hg hE hv rfl hs h

/-- **C73** What the TOML library does with None makes no difference to such an object. -/
theorem C73_to_toml_partial {env : Env} {K K' : Codec} {n v} (hU : DistinctUnions env) (hg : env.gser = []) (hE : EnumsSolid env) (hv : SolidAny env v)
    (hK : ∀ w, NullFree w → K.enc w = K'.enc w) : toToml env K n v = toToml env K' n v := by
  unfold toToml encodeDict
  generalize h : toDict env ({ skipNone := true } : FmtOpts).se n v = r
  cases r with
  | error e => rfl
  | ok w =>
    dsimp only
    rw [hK w (C73_no_null_partial hU hg hE rfl rfl hv h)]

namespace C73Ex
open C61Ex

theorem solidEnums : EnumsSolid env := by
  intro e d m u he hm
  simp only [Env.enm, env, List.lookup_cons, List.lookup_nil] at he
  split at he
  · cases he
    simp only [List.mem_cons, Prod.mk.injEq, List.not_mem_nil, or_false] at hm
    rcases hm with ⟨_, rfl⟩ | ⟨_, rfl⟩ <;> exact .int
  · cases he

theorem solidA : SolidObj env (.inst "A" [("x", .int 1)]) := by
  refine .dict (cd := cdA) rfl rfl ⟨rfl, by decide, by decide⟩ (by intro f hf h1 h2 h3; simp [cdA] at hf; subst hf; cases h3) ?_ ?_ ?_ ?_
  all_goals
    intro f hf
    have : f = { name := "x", ty := .prim .int } := by simpa [cdA, serializable] using hf
    subst this
  · intro h; cases h
  · intro g x y h; cases h
  · intro x _ hx _; cases hx; exact .prim .int .int
  · intro x _ hx _; cases hx; exact .solid (.prim .int .int)

theorem solidI : SolidObj env (.inst "I" attrsI) := by
  have hall : ∀ f ∈ cdI.fields.filter serializable, f ∈ cdI.fields := fun f hf => (List.mem_filter.1 hf).1
  have key : ∀ f ∈ cdI.fields, (∃ x, attrsI.lookup f.name = some x) ∧ f.serializer = none ∧
      ∀ x, attrsI.lookup f.name = some x → (f.name ≠ "note" → Solid env f.ty x) ∧ Lax env f.ty x ∧ (f.name = "note" → DropsNone cdI f) := by
    intro f hf
    simp only [cdI, List.mem_cons, List.not_mem_nil, or_false] at hf
    have sol : ∀ {s t} {x : Val}, s ≠ "note" → Solid env t x → (s ≠ "note" → Solid env t x) ∧ Lax env t x ∧ (s = "note" → DropsNone cdI f) :=
      fun hs h => ⟨fun _ => h, .solid h, fun h => absurd h hs⟩
    rcases hf with rfl | rfl | rfl | rfl | rfl | rfl | rfl | rfl
    · exact ⟨⟨_, rfl⟩, rfl, fun x hx => by cases hx; exact sol (by decide) (.prim .str .str)⟩
    · exact ⟨⟨_, rfl⟩, rfl, fun x hx => by cases hx; exact sol (by decide) .enum⟩
    · exact ⟨⟨_, rfl⟩, rfl, fun x hx => by cases hx; exact sol (by decide) (.dt .dt)⟩
    · exact ⟨⟨_, rfl⟩, rfl, fun x hx => by cases hx; exact sol (by decide) (.std .std)⟩
    · refine ⟨⟨_, rfl⟩, rfl, fun x hx => ?_⟩
      cases hx
      refine sol (by decide) (.set fun xs hi x hx => ?_)
      cases hi
      cases hx with
      | head => exact .prim .str .str
      | tail _ h => cases h
    · exact ⟨⟨_, rfl⟩, rfl, fun x hx => by cases hx; exact ⟨fun h => absurd rfl h, .opt (by simp), fun _ => ⟨rfl, .inr (.inl rfl)⟩⟩⟩
    · exact ⟨⟨_, rfl⟩, rfl, fun x hx => by cases hx; exact sol (by decide) (.prim .int .int)⟩
    · refine ⟨⟨_, rfl⟩, rfl, fun x hx => ?_⟩
      cases hx
      refine sol (by decide) (.union (by intro t h; simp at h) (by intro c as h; cases h; rfl) fun t ht hA => ?_)
      simp only [List.mem_cons, List.not_mem_nil, or_false] at ht
      rcases ht with rfl | rfl
      · exact .cls solidA
      · have := hA .cls
        cases this with
        | cls hc hm =>
          have : cdA = _ := Option.some.inj hc
          subst this
          exact absurd hm (by decide)
  refine .dict (cd := cdI) rfl rfl ⟨rfl, by decide, by decide⟩ ?_ ?_ ?_ ?_ ?_
  · intro f hf h1 h2 h3
    simp only [cdI, List.mem_cons, List.not_mem_nil, or_false] at hf
    rcases hf with rfl | rfl | rfl | rfl | rfl | rfl | rfl | rfl <;> cases h3
  · intro f hf h
    obtain ⟨⟨x, hx⟩, _⟩ := key f (hall f hf)
    rw [hx] at h; cases h
  · intro f hf g x y h
    rw [(key f (hall f hf)).2.1] at h; cases h
  · intro f hf x _ hx hd
    have := (key f (hall f hf)).2.2 x hx
    exact this.1 fun h => hd (this.2.2 h)
  · intro f hf x _ hx _
    exact ((key f (hall f hf)).2.2 x hx).2.1

theorem solidW : SolidObj env (.inst "W" [("r", .tuple [.int 5])]) := by
  refine .through (cd := cdW) (f := { name := "r", ty := .any }) (rest := []) rfl rfl rfl rfl rfl (by intro g h; cases h) rfl (.any (.tuple fun x hx => ?_))
  cases hx with
  | head => exact .scalar .int (by simp)
  | tail _ h => cases h

theorem solidO : SolidObj env vO := by
  refine .dict (cd := cdO) rfl rfl ⟨rfl, by decide, by decide⟩ ?_ ?_ ?_ ?_ ?_
  · intro f hf h1 h2 h3
    simp only [cdO, List.mem_cons, List.not_mem_nil, or_false] at hf
    rcases hf with rfl | rfl <;> cases h3
  all_goals
    intro f hf
    have hf : f = cdO.fields[0] ∨ f = cdO.fields[1] := by simpa [cdO, serializable] using hf
    have hl : ∀ x, Val.list [.inst "I" attrsI] = x → Solid env (.list .list (.cls "I")) x := by
      rintro x rfl
      refine .list fun xs hi x hx => ?_
      cases hi
      cases hx with
      | head => exact .cls solidI
      | tail _ h => cases h
    have hd : ∀ x, Val.dict .plain [(.str "k", .inst "W" [("r", .tuple [.int 5])])] = x → Solid env (.dict .dict (.prim .str) (.cls "W")) x := by
      rintro x rfl
      refine .dict (fun kvs hi e he => ?_) (fun kvs hi e he => ?_)
      · cases hi
        cases he with
        | head => exact .prim .str .str
        | tail _ h => cases h
      · cases hi
        cases he with
        | head => exact .cls solidW
        | tail _ h => cases h
    rcases hf with rfl | rfl
  · intro h; cases h
  · intro h; cases h
  · intro g x y h; cases h
  · intro g x y h; cases h
  · intro x _ hx _; exact hl x (Option.some.inj hx)
  · intro x _ hx _; exact hd x (Option.some.inj hx)
  · intro x _ hx _; exact .solid (hl x (Option.some.inj hx))
  · intro x _ hx _; exact .solid (hd x (Option.some.inj hx))

theorem solidTop : SolidAny env (.list [vO]) := .list fun x hx => by
  cases hx with
  | head => exact .obj solidO
  | tail _ h => cases h

example : NullFree (.list [wO]) := C73_no_null_partial hU rfl solidEnums rfl rfl solidTop run

example {K K' : Codec} (hK : ∀ w, NullFree w → K.enc w = K'.enc w) : toToml env K 20 vO = toToml env K' 20 vO :=
  C73_to_toml_partial hU rfl solidEnums (.obj solidO) hK

end C73Ex

/-! ## Witnesses -/

namespace C72Clash

/-- Reading YAML text written from the object gives the object; `K` writes and reads as YAML does. -/
def YamlKept : Prop := ∀ (env : Env) (K : Codec) (c : ClassId) (v v' : Val) (s : String) (n m : Nat),
  (∀ w s, K.enc w = .ok s → K.dec s = .ok (yamlWire w)) → HasTy env (.cls c) v → toYaml env K {} n v = .ok s →
  fromYaml env K m (.cls c) s = .ok v' → v' = v

/-- The same for TOML. -/
def TomlKept : Prop := ∀ (env : Env) (K : Codec) (c : ClassId) (v v' : Val) (s : String) (n m : Nat),
  (∀ w s, K.enc w = .ok s → K.dec s = .ok (yamlWire w)) → HasTy env (.cls c) v → toToml env K n v = .ok s →
  fromToml env K m (.cls c) s = .ok v' → v' = v

/-- What to_toml hands to the library has no None in it. -/
def TomlNullFree : Prop := ∀ (env : Env) (c : ClassId) (v w : Val) (n : Nat), HasTy env (.cls c) v →
  toDict env ({ skipNone := true } : FmtOpts).se n v = .ok w → NullFree w

/-- Reading a pickle of the object does not fail. -/
def PickleAccepted : Prop := ∀ (env : Env) (K : Codec) (c : ClassId) (v : Val) (s : String) (n m : Nat) (e : Exc),
  (∀ w s, K.enc w = .ok s → K.dec s = .ok w) → HasTy env (.cls c) v → toPickle env K {} n v = .ok s →
  fromPickle env K m (.cls c) s = .error e → e = .fuel

/-- `x: Union[list[float], str]`. -/
def Y : ClassDef := { name := "Y", mro := ["Y"], fields := [{ name := "x", ty := .union [.list .list (.prim .float), .prim .str] }] }
/-- `x: Optional[int] = 5`. -/
def T : ClassDef := { name := "T", mro := ["T"], fields := [{ name := "x", ty := .union [.prim .int, .none], dflt := some (.int 5) }] }
/-- `x: list[Optional[int]]`. -/
def L : ClassDef := { name := "L", mro := ["L"], fields := [{ name := "x", ty := .list .list (.union [.prim .int, .none]) }] }

def env : Env := Ex.mk [("Y", Y), ("T", T), ("L", L)]

theorem sole {c : ClassId} {cd : ClassDef} {f : FieldDef} {x : Val} (hc : env.cls c = some cd) (hf : cd.fields = [f]) (hn : f.name = "x") (hx : HasTy env f.ty x) :
    HasTy env (.cls c) (.inst c [("x", x)]) := by
  refine .inst hc (by rw [hf]; simp [hn]) ?_
  intro p hp
  rw [hf] at hp
  simp only [List.zip_cons_cons, List.zip_nil_right, List.mem_cons, List.not_mem_nil, or_false] at hp
  subst hp; exact hx

/-- A codec that knows one value, which it reads back as it is. -/
def knows (w : Val) (p : Val → Bool) : Codec := ⟨fun v => if p v then .ok "text" else .error .type, fun _ => .ok w⟩

theorem knows_spec {w p v s} (h : (knows w p).enc v = .ok s) : p v = true := by
  simp only [knows] at h
  split at h
  · assumption
  · cases h

/-- Recognises `{"x": "123"}`. -/
def isText : Val → Bool
  | .dict .plain [(.str "x", .str "123")] => true
  | _ => false
/-- Recognises `{}`. -/
def isEmpty : Val → Bool
  | .dict .plain [] => true
  | _ => false

end C72Clash

open C72Clash in
/-- **C72** fails for `Union[list[float], str]`: every character of the text "123" is read as a number, since numeric strings are accepted as floats. -/
theorem C72_false_numeric_text : ¬ YamlKept := by
  intro h
  have hv : HasTy env (.cls "Y") (.inst "Y" [("x", .str "123")]) := sole (cd := Y) rfl rfl rfl (.union (t := .prim .str) (by simp) .str)
  have := h env (knows (.dict .plain [(.str "x", .str "123")]) isText) "Y" _ (.inst "Y" [("x", .list [.float (.fin 1), .float (.fin 2), .float (.fin 3)])])
    "text" 9 9 (by
      intro w s hw
      have := knows_spec hw
      unfold isText at this
      split at this
      · rfl
      · cases this) hv rfl rfl
  cases this

open C72Clash in
/-- **C73** fails for an Optional field with another default: None is left out, and what is missing is read as the default. -/
theorem C73_false_default : ¬ TomlKept := by
  intro h
  have hv : HasTy env (.cls "T") (.inst "T" [("x", .none)]) := sole (cd := T) rfl rfl rfl (.union (t := .none) (by simp) .none)
  have := h env (knows (.dict .plain []) isEmpty) "T" _ (.inst "T" [("x", .int 5)]) "text" 9 9 (by
      intro w s hw
      have := knows_spec hw
      unfold isEmpty at this
      split at this
      · rfl
      · cases this) hv rfl rfl
  cases this

open C72Clash in
/-- **C73** fails for a list with None in it: only fields are left out. -/
theorem C73_false_null : ¬ TomlNullFree := by
  intro h
  have hv : HasTy env (.cls "L") (.inst "L" [("x", .list [.none])]) := sole (cd := L) rfl rfl rfl (.list (fun x hx => by cases hx with | head => exact .union (t := .none) (by simp) .none | tail _ h => cases h))
  have := h env "L" _ (.dict .plain [(.str "x", .list [.none])]) 9 hv rfl
  cases this with
  | dict _ h =>
    have := h (.str "x", .list [.none]) (by simp)
    cases this with
    | list h => cases h .none (by simp)

open C72Clash Findings.RoundTrip in
/-- **C74** fails like C01 for an IntEnum in a union. -/
theorem C74_false_int_enum : ¬ PickleAccepted := by
  intro h
  have hv : HasTy Findings.RoundTrip.env (.cls "I") (.inst "I" [("x", .enum "E" "a")]) :=
    one (cd := I) rfl rfl rfl (.union (t := .enum "E") (by simp) (.enum (d := E) (w := .int 1) rfl (by simp [E])))
  exact absurd (h _ (knows (.dict .plain [(.str "x", .int 1)]) isI) "I" _ "text" 9 9 _ (by
      intro w s hw
      have := knows_spec hw
      unfold isI at this
      split at this
      · rfl
      · cases this) hv rfl rfl) (by intro h; cases h)

end Verif.Props
