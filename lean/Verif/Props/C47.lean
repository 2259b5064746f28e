import Verif.Props.C01
/-!
# C47: MessagePack ext_dict

Full statement: "With ext_dict, to_msgpack writes the type code of the object's own class and from_msgpack picks the class registered under
that code; an unregistered class or code raises SerdeError."

`reg` is the sender's `ext_dict.get`, `reg'` the receiver's. The msgpack library is a parameter; `ExtFaithful` says that it unpacks an
ExtType to the code and the bytes it was packed with.
-/

namespace Verif.Spec

/-- Packing an ExtType and unpacking it gives the code and the payload back. -/
def ExtFaithful (K : MpCodec) : Prop := ∀ code b s, K.packExt code b = .ok s → K.unpack s = .ok (.ext code b)

end Verif.Spec

namespace Verif.Props
open Verif Spec

/-- **C47**, writing: what `to_msgpack(obj, ext_dict=reg)` writes for an instance of class `c` unpacks to an ExtType with the code registered
for `c` itself, not for a base class or for the class given as `cls`, and with the bytes `to_msgpack(obj)` writes as payload. -/
theorem C47_writes {env : Env} {K : MpCodec} {o : MpOpts} {reg : Ty → Option Int} {n c attrs s} (hK : ExtFaithful K)
    (h : toMsgpack env K { o with ext := some reg } n (.inst c attrs) = .ok s) :
    ∃ code b, reg (.cls c) = some code ∧ toMsgpack env K { o with ext := none } n (.inst c attrs) = .ok b ∧ K.unpack s = .ok (.ext code b) := by
  unfold toMsgpack at h ⊢
  dsimp only [typeOf] at h ⊢
  split at h
  · cases h
  · rename_i code hcode
    split at h
    · cases h
    · rename_i w hw
      split at h
      · rename_i b hb
        refine ⟨code, b, hcode, ?_, ?_⟩
        · rw [hw]; exact hb
        · refine hK code b s ?_
          cases hp : K.packExt code b with
          | ok s' => rw [hp] at h; cases h; rfl
          | error e => rw [hp] at h; cases h
      · cases h

/-- **C47**, reading: `from_msgpack(_, s, ext_dict=reg')` reads the payload as the class registered under the code, whatever class is
asked for. -/
theorem C47_reads {env : Env} {K : MpCodec} {named n} {reg : Int → Option Ty} {s code data t} (hs : K.unpack s = .ok (.ext code data))
    (ht : reg code = some t) (c : Ty) : fromMsgpack env K named n c s (some reg) = fromMsgpack env K named n t data := by
  unfold fromMsgpack
  dsimp only
  rw [hs]
  dsimp only [liftP]
  rw [ht]

/-- **C47**, unregistered class: SerdeError, whatever is registered for other classes, and whatever the object holds. -/
theorem C47_unregistered_class {env : Env} {K : MpCodec} {o : MpOpts} {reg : Ty → Option Int} {n c attrs} (hr : reg (.cls c) = none) :
    ∃ e, toMsgpack env K { o with ext := some reg } n (.inst c attrs) = .error e ∧ e.isSerde = true := by
  unfold toMsgpack
  dsimp only [typeOf]
  rw [hr]
  exact ⟨_, rfl, rfl⟩

/-- **C47**, unregistered code: SerdeError. -/
theorem C47_unregistered_code {env : Env} {K : MpCodec} {named n} {reg : Int → Option Ty} {s code data} (hs : K.unpack s = .ok (.ext code data))
    (hr : reg code = none) (c : Ty) : ∃ e, fromMsgpack env K named n c s (some reg) = .error e ∧ e.isSerde = true := by
  unfold fromMsgpack
  dsimp only
  rw [hs]
  dsimp only [liftP]
  rw [hr]
  exact ⟨_, rfl, rfl⟩

/-- **C47**, both together: between a sender and a receiver whose registrations agree on the object's class, the object arrives as an equal
instance of its own class, whatever class the receiver names. For the classes of the round-trip theorem (C04), dict or array based. -/
theorem C47_round_trip {env : Env} {named : Bool} {reg : Ty → Option Int} {reg' : Int → Option Ty} {c} {cd : ClassDef} {v code}
    (hc : env.cls c = some cd) (hok : EnvOk env (mpFmt env named)) (hv : HasTy env (.cls c) v) (hr : reg (.cls c) = some code)
    (hr' : reg' code = some (.cls c)) :
    ∃ w, Ev (fun n => (if named then toDict env ({} : FmtOpts).se n v else toTuple env ({} : FmtOpts).se n v) = .ok w) ∧
      ∀ K b s, K.pack w = .ok b → K.unpack b = .ok (.val (mpWire w)) → K.packExt code b = .ok s → K.unpack s = .ok (.ext code b) →
        Ev (fun n => toMsgpack env K { named := named, ext := some reg } n v = .ok s ∧
          ∀ c', fromMsgpack env K named n c' s (some reg') = .ok v) := by
  obtain ⟨attrs, rfl⟩ : ∃ attrs, v = .inst c attrs := by
    cases hv with
    | inst => exact ⟨_, rfl⟩
  obtain ⟨w, hw, hrt⟩ := C04_msgpack_round_trip_partial (named := named) hc hok hv
  refine ⟨w, hw, fun K b s hb hub hs hus => ?_⟩
  obtain ⟨b', hb'⟩ := hrt K ⟨b, hb, hub⟩
  refine (hw.and hb').mono fun n h => ⟨?_, fun c' => ?_⟩
  · unfold toMsgpack
    dsimp only [typeOf]
    rw [hr]
    have e : (if named = true then toDict env { reuse := some false, conv := some true, c := none } n (.inst c attrs)
        else toTuple env { reuse := some false, conv := some true, c := none } n (.inst c attrs)) = .ok w := h.1
    dsimp only
    rw [e]
    dsimp only
    rw [hb]
    dsimp only [liftP]
    rw [hs]
  · have e1 : toMsgpack env K { named := named } n (.inst c attrs) = .ok b := by
      unfold toMsgpack
      dsimp only
      have e : (if named = true then toDict env { reuse := some false, conv := some true, c := none } n (.inst c attrs)
        else toTuple env { reuse := some false, conv := some true, c := none } n (.inst c attrs)) = .ok w := h.1
      rw [e]
      dsimp only
      rw [hb]
      rfl
    have e2 : b' = b := by
      have := h.2.1
      rw [e1] at this
      cases this
      rfl
    rw [C47_reads hus hr' c', ← e2]
    exact h.2.2

/-! ## Examples -/

namespace C47Ex

/-- A toy msgpack: packs one value, writes codes in front of the payload. -/
def K (w : Val) : MpCodec where
  pack _ := .ok "b"
  packExt code b := if b = "b" then (if code = 1 then .ok "1b" else .ok "2b") else .error .value
  unpack s := if s = "b" then .ok (.val (mpWire w)) else if s = "1b" then .ok (.ext 1 "b") else .ok (.ext 2 "b")

def reg : Ty → Option Int
  | .cls "Tree" => some 1
  | .cls "Leaf" => some 2
  | _ => none
def reg' : Int → Option Ty
  | 1 => some (.cls "Tree")
  | 2 => some (.cls "Leaf")
  | _ => none

/-- A codec that knows two codes. -/
def K2 : MpCodec where
  pack _ := .ok "b"
  packExt code b := if b = "b" then (if code = 1 then .ok "1b" else if code = 2 then .ok "2b" else .error .value) else .error .value
  unpack s := if s = "b" then .ok (.val .none) else if s = "1b" then .ok (.ext 1 "b") else if s = "2b" then .ok (.ext 2 "b") else .error .value

theorem faithful : ExtFaithful K2 := by
  intro code b s h
  simp only [K2] at h
  split at h
  · subst b
    split at h
    · subst code; cases h; rfl
    · split at h
      · subst code; cases h; rfl
      · cases h
  · cases h

end C47Ex

open C47Ex in
example : ∃ code b, reg (.cls "Leaf") = some code ∧ toMsgpack Ex.shapes K2 { c := some (.cls "Tree") } 9 Ex.leaf = .ok b ∧ K2.unpack "2b" = .ok (.ext code b) :=
  C47_writes (o := { c := some (.cls "Tree") }) (n := 9) faithful rfl

open C47Ex in
example : fromMsgpack Ex.shapes K2 true 9 (.cls "Tree") "2b" (some reg') = fromMsgpack Ex.shapes K2 true 9 (.cls "Leaf") "b" :=
  C47_reads rfl rfl _

open C47Ex in
example : ∃ e, toMsgpack Ex.shapes K2 { ext := some (fun t => if t.isCls then none else some 1) } 9 Ex.leaf = .error e ∧ e.isSerde = true :=
  C47_unregistered_class (o := {}) rfl

open C47Ex in
example : ∃ e, fromMsgpack Ex.shapes K2 true 9 (.cls "Leaf") "2b" (some (fun _ => none)) = .error e ∧ e.isSerde = true :=
  C47_unregistered_code (data := "b") (code := 2) rfl rfl _

open C47Ex in
example (named : Bool) : ∃ K s, Ev (fun n => toMsgpack Ex.shapes K { named := named, ext := some reg } n Ex.tree = .ok s ∧
    ∀ c', fromMsgpack Ex.shapes K named n c' s (some reg') = .ok Ex.tree) := by
  obtain ⟨w, _, h⟩ := C47_round_trip (env := Ex.shapes) (named := named) (reg := reg) (reg' := reg') (code := 1) (cd := Ex.Tree) rfl (Ex.shapesOk _)
    Ex.tree_ty rfl rfl
  exact ⟨K w, "1b", h (K w) "b" "1b" rfl rfl rfl rfl⟩

/-- Beyond the statement: with ext_dict, bytes that do not hold an ExtType at all raise AttributeError, not SerdeError. -/
theorem C47_plain_data : fromMsgpack Ex.shapes C47Ex.K2 true 9 (.cls "Leaf") "b" (some C47Ex.reg') = .error (.py .attr) := rfl

end Verif.Props
