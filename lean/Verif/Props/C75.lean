import Verif.Props.C72
/-!
# C75: the options mean the same in every format

Full statement: "`reuse_instances`, `convert_sets`, `skip_none` and `cls` mean in every format what they mean in to_dict: the library of the format is handed
what the annotations make of the object under exactly these options; with `skip_none` it is handed no None." Proved (partial) for JSON, YAML and TOML, when
unions with one name of their generated functions are the same (C61). For pickle and msgpack the form is the one without `skip_none`, whatever was asked
for: `C75_pickle_partial`, `C75_msgpack_partial`, and so the statement is false: `C75_false_pickle`. to_msgpack documents `skip_none` too, but has no such
parameter: it goes to `msgpack.packb`.
-/

namespace Verif.Props
open Verif Spec

/-- The library of a text format was handed what the annotations make of the object under the options given, `skip` in place of `skip_none`. -/
def HandedOver (env : Env) (K : Codec) (o : FmtOpts) (skip : Bool) (v : Val) (s : String) : Prop :=
  ∃ w, OutTop env ⟨true, some o.reuse, some o.conv, skip⟩ o.tagging (behind o.c) v w ∧ K.enc w = .ok s

theorem liftP_ok {α} {x : Except PErr α} {a : α} (h : liftP x = .ok a) : x = .ok a := by
  cases x with
  | ok b => cases h; rfl
  | error e => cases h

theorem encodeDict_handed {env : Env} {K : Codec} {o : SeOpts} {n v s} (hU : DistinctUnions env)
    (hT : ∀ t, behind o.c = some t → DistinctUnionsIn env t) (h : encodeDict env K o n v = .ok s) :
    ∃ w, OutTop env ⟨true, o.reuse, o.conv, o.skipNone⟩ o.tagging (behind o.c) v w ∧ K.enc w = .ok s := by
  unfold encodeDict at h
  generalize hr : toDict env o n v = r at h
  cases r with
  | error e => cases h
  | ok w => exact ⟨w, C61_to_dict_partial hU hT hr, liftP_ok h⟩

/-- **C75** JSON. -/
theorem C75_json_partial {env : Env} {K : Codec} {o : FmtOpts} {n v s} (hU : DistinctUnions env)
    (hT : ∀ t, behind o.c = some t → DistinctUnionsIn env t) (h : toJson env K o n v = .ok s) : HandedOver env K o o.skipNone v s :=
  encodeDict_handed (o := o.se) hU hT h

/-- **C75** YAML. -/
theorem C75_yaml_partial {env : Env} {K : Codec} {o : FmtOpts} {n v s} (hU : DistinctUnions env)
    (hT : ∀ t, behind o.c = some t → DistinctUnionsIn env t) (h : toYaml env K o n v = .ok s) : HandedOver env K o o.skipNone v s :=
  encodeDict_handed (o := o.se) hU hT h

/-- **C75** TOML. -/
theorem C75_toml_partial {env : Env} {K : Codec} {o : FmtOpts} {n v s} (hU : DistinctUnions env)
    (hT : ∀ t, behind o.c = some t → DistinctUnionsIn env t) (h : toToml env K n v o = .ok s) : HandedOver env K o o.skipNone v s :=
  encodeDict_handed (o := o.se) hU hT h

/-- **C75** Pickle: every option but `skip_none`. -/
theorem C75_pickle_partial {env : Env} {K : Codec} {o : FmtOpts} {n v s} (hU : DistinctUnions env)
    (hT : ∀ t, behind o.c = some t → DistinctUnionsIn env t) (h : toPickle env K o n v = .ok s) : HandedOver env K o false v s :=
  encodeDict_handed (o := { o.se with skipNone := false }) hU hT h

/-- **C75** msgpack, plain or as an extension type: a mapping if `named`, a sequence otherwise; nothing is left out for being None. -/
theorem C75_msgpack_partial {env : Env} {K : MpCodec} {o : MpOpts} {n v s} (hU : DistinctUnions env)
    (hT : ∀ t, behind o.c = some t → DistinctUnionsIn env t) (h : toMsgpack env K o n v = .ok s) :
    ∃ w b, OutTop env ⟨o.named, some o.reuse, some o.conv, false⟩ .external (behind o.c) v w ∧ K.pack w = .ok b ∧
      ((o.ext = none ∧ s = b) ∨ ∃ ext code, o.ext = some ext ∧ ext (typeOf v) = some code ∧ K.packExt code b = .ok s) := by
  have body : ∀ {w}, (if o.named then toDict env { reuse := some o.reuse, conv := some o.conv, c := o.c } n v
      else toTuple env { reuse := some o.reuse, conv := some o.conv, c := o.c } n v) = .ok w →
      OutTop env ⟨o.named, some o.reuse, some o.conv, false⟩ .external (behind o.c) v w := by
    intro w hw
    cases hn : o.named with
    | true =>
      rw [hn] at hw
      exact C61_to_dict_partial (o := { reuse := some o.reuse, conv := some o.conv, c := o.c }) hU hT hw
    | false =>
      rw [hn] at hw
      exact C61_to_tuple_partial (o := { reuse := some o.reuse, conv := some o.conv, c := o.c }) hU hT hw
  unfold toMsgpack at h
  dsimp only at h
  generalize hb : (if o.named = true then toDict env { reuse := some o.reuse, conv := some o.conv, c := o.c } n v
      else toTuple env { reuse := some o.reuse, conv := some o.conv, c := o.c } n v) = r at h
  cases he : o.ext with
  | none =>
    rw [he] at h
    cases r with
    | error e => cases h
    | ok w => exact ⟨w, s, body hb, liftP_ok h, .inl ⟨rfl, rfl⟩⟩
  | some ext =>
    rw [he] at h
    dsimp only at h
    cases hx : ext (typeOf v) with
    | none => rw [hx] at h; cases h
    | some code =>
      rw [hx] at h
      cases r with
      | error e => cases h
      | ok w =>
        dsimp only at h
        cases hp : K.pack w with
        | error e => rw [hp] at h; cases h
        | ok b =>
          rw [hp] at h
          exact ⟨w, b, body hb, hp, .inr ⟨ext, code, rfl, hx, liftP_ok h⟩⟩

theorem encodeDict_null {env : Env} {K K' : Codec} {o : SeOpts} {n v} (hU : DistinctUnions env) (hg : env.gser = []) (hE : EnumsSolid env) (hc : o.c = none)
    (hs : o.skipNone = true) (hv : SolidAny env v) (hK : ∀ w, NullFree w → K.enc w = K'.enc w) : encodeDict env K o n v = encodeDict env K' o n v := by
  unfold encodeDict
  generalize h : toDict env o n v = r
  cases r with
  | error e => rfl
  | ok w =>
    dsimp only
    rw [hK w (C73_no_null_partial hU hg hE hc hs hv h)]

/-- **C75** With `skip_none`, what the library does with None makes no difference, if None is met in fields only that are left out for it. -/
theorem C75_skip_none_partial {env : Env} {K K' : Codec} {o : FmtOpts} {n v} (hU : DistinctUnions env) (hg : env.gser = []) (hE : EnumsSolid env)
    (hc : o.c = none) (hs : o.skipNone = true) (hv : SolidAny env v) (hK : ∀ w, NullFree w → K.enc w = K'.enc w) :
    toJson env K o n v = toJson env K' o n v ∧ toYaml env K o n v = toYaml env K' o n v ∧ toToml env K n v o = toToml env K' n v o :=
  have := encodeDict_null (o := o.se) (n := n) hU hg hE hc hs hv hK
  ⟨this, this, this⟩

namespace C75Ex
open C61Ex

example {K K' : Codec} (hK : ∀ w, NullFree w → K.enc w = K'.enc w) :
    toJson env K { skipNone := true, conv := false } 20 vO = toJson env K' { skipNone := true, conv := false } 20 vO :=
  (C75_skip_none_partial hU rfl C73Ex.solidEnums rfl rfl (.obj C73Ex.solidO) hK).1

example : HandedOver env ⟨fun _ => .ok "text", fun _ => .error .type⟩ { skipNone := true } true (.list [vO]) "text" :=
  C75_json_partial (n := 20) (o := { skipNone := true }) hU (by intro t h; cases h) (by rfl)

example : HandedOver env ⟨fun _ => .ok "text", fun _ => .error .type⟩ { skipNone := true } false (.list [vO]) "text" :=
  C75_pickle_partial (n := 20) (o := { skipNone := true }) hU (by intro t h; cases h) (by rfl)

example : HandedOver env ⟨fun _ => .ok "text", fun _ => .error .type⟩ { skipNone := true } true (.list [vO]) "text" :=
  C75_yaml_partial (n := 20) (o := { skipNone := true }) hU (by intro t h; cases h) (by rfl)

example : HandedOver env ⟨fun _ => .ok "text", fun _ => .error .type⟩ { skipNone := true } true (.list [vO]) "text" :=
  C75_toml_partial (n := 20) (o := { skipNone := true }) hU (by intro t h; cases h) (by rfl)

/-- As an extension type, in a sequence. -/
example : ∃ w b, OutTop env ⟨false, some false, some true, false⟩ .external none vO w ∧ (Except.ok "text" : Except PErr String) = .ok b ∧
    (((some fun _ => some 7 : Option (Ty → Option Int)) = none ∧ "ext" = b) ∨
      ∃ ext code, (some fun _ => some 7 : Option (Ty → Option Int)) = some ext ∧ ext (typeOf vO) = some code ∧ (Except.ok "ext" : Except PErr String) = .ok "ext") :=
  C75_msgpack_partial (n := 20) (K := ⟨fun _ => .ok "text", fun _ _ => .ok "ext", fun _ => .error .type⟩) (o := { named := false, ext := some fun _ => some 7 }) hU
    (by intro t h; cases h) (by rfl)

/-- `note: Optional[str] = None`. -/
def N : ClassDef := { name := "N", mro := ["N"], fields := [{ name := "note", ty := .union [.prim .str, .none], dflt := some .none }] }
def envN : Env := Ex.mk [("N", N)]

/-- Recognises None as the value of a mapping. -/
def hasNone : Val → Bool
  | .dict .plain [(_, .none)] => true
  | _ => false

/-- Writes anything. -/
def any : Codec := ⟨fun _ => .ok "text", fun _ => .error .type⟩
/-- Writes anything but a mapping to None. -/
def notNone : Codec := ⟨fun v => if hasNone v then .error .type else .ok "text", fun _ => .error .type⟩

theorem solidN : SolidObj envN (.inst "N" [("note", .none)]) := by
  refine .dict (cd := N) rfl rfl ⟨rfl, by decide, by decide⟩ (by intro f hf h1 h2 h3; simp [N] at hf; subst hf; cases h3) ?_ ?_ ?_ ?_
  all_goals
    intro f hf
    have : f = { name := "note", ty := .union [.prim .str, .none], dflt := some .none } := by simpa [N, serializable] using hf
    subst this
  · intro h; cases h
  · intro g x y h; cases h
  · intro x _ hx hd; exact absurd ⟨rfl, .inr (.inl rfl)⟩ hd
  · intro x _ hx _; cases hx; exact .opt (by simp)

theorem the_union {ts} (h : Annotated envN (.union ts)) : ts = [.prim .str, .none] := by
  obtain ⟨c, cd, f, hc, hf, hw⟩ := h
  simp only [Env.cls, envN, Ex.mk, List.lookup_cons, List.lookup_nil] at hc
  split at hc
  · cases hc
    simp only [N, List.mem_cons, List.not_mem_nil, or_false] at hf
    subst hf
    cases hw with
    | refl => rfl
    | union hm h =>
      simp only [List.mem_cons, List.not_mem_nil, or_false] at hm
      rcases hm with rfl | rfl <;> cases h
  · cases hc

theorem distinctN : DistinctUnions envN := distinctUnions_of (fun _ _ h h' _ => by rw [the_union h, the_union h'])

theorem agree {w} (h : NullFree w) : any.enc w = notNone.enc w := by
  simp only [any, notNone]
  cases hw : hasNone w with
  | false => rfl
  | true =>
    unfold hasNone at hw
    split at hw
    · next k =>
      cases h with
      | dict _ h => cases h _ (List.mem_cons_self ..)
    · cases hw

/-- What the library does with None makes no difference to to_pickle with `skip_none`. -/
def PickleSkips : Prop := ∀ (env : Env) (K K' : Codec) (o : FmtOpts) (n : Nat) (v : Val), DistinctUnions env → env.gser = [] → EnumsSolid env → o.c = none →
  o.skipNone = true → SolidAny env v → (∀ w, NullFree w → K.enc w = K'.enc w) → toPickle env K o n v = toPickle env K' o n v

end C75Ex

open C75Ex in
/-- **C75** fails for pickle: `to_pickle(N(None), skip_none=True)` writes `{"note": None}`. -/
theorem C75_false_pickle : ¬ PickleSkips := by
  intro h
  have := h envN any notNone { skipNone := true } 9 (.inst "N" [("note", .none)]) ?_ rfl ?_ rfl rfl (.obj solidN) (fun w => agree)
  · cases this
  · exact distinctN
  · intro e d m u he; cases he

end Verif.Props
