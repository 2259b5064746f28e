import Verif.Lemmas.Program
import Verif.Props.C01
import Verif.Props.C44Names
/-!
# C01–C04, read off the annotations alone

The round-trip theorems ask that every union and literal finds its own function in the tables of its class. Here that condition is replaced by what the
user can see: the annotations are supported ones (`ProgramFits`) and the names of the generated functions do not clash (`NoNameClash`, which C44 in turn
derives from the names of the types). Partial as C01–C04 are.
-/

namespace Verif.Props
open Verif Spec

theorem program_ok {env : Env} {F : Fmt env} (hN : ∀ c, NoNameClash env c) (h : ProgramFits env F) : EnvOk env F :=
  h.ok (fun c => (hN c).unions) (fun c => (hN c).lits)

/-- **C01** for supported programs. -/
theorem C01_program_partial {env : Env} {so : SeOpts} {o : DeOpts} {c} {cd : ClassDef} {v} (hc : env.cls c = some cd) (hs : so.c = none) (hn : o.numbers = none)
    (hre : so.reuse.getD cd.reuseDflt = true → o.reuse.getD cd.reuseDflt = true) (hN : ∀ c, NoNameClash env c)
    (hok : ProgramFits env (rawFmt env true (so.reuse.getD cd.reuseDflt) (so.conv.getD cd.convDflt) (o.reuse.getD cd.reuseDflt) hre so.skipNone))
    (hv : HasTy env (.cls c) v) : ∃ w, Ev (fun n => toDict env so n v = .ok w ∧ fromDict env o n (.cls c) w = .ok v) :=
  C01_dict_round_trip_partial hc hs hn hre (program_ok hN hok) hv

/-- **C02** for supported programs. -/
theorem C02_program_partial {env : Env} {so : SeOpts} {o : DeOpts} {c} {cd : ClassDef} {v} (hc : env.cls c = some cd) (hs : so.c = none) (hn : o.numbers = none)
    (hre : so.reuse.getD cd.reuseDflt = true → o.reuse.getD cd.reuseDflt = true) (hN : ∀ c, NoNameClash env c)
    (hok : ProgramFits env (rawFmt env false (so.reuse.getD cd.reuseDflt) (so.conv.getD cd.convDflt) (o.reuse.getD cd.reuseDflt) hre so.skipNone))
    (hv : HasTy env (.cls c) v) : ∃ w, Ev (fun n => toTuple env so n v = .ok w ∧ fromTuple env o n (.cls c) w = .ok v) :=
  C02_tuple_round_trip_partial hc hs hn hre (program_ok hN hok) hv

/-- **C03** for supported programs. -/
theorem C03_program_partial {env : Env} {cn sn : Bool} {c} {cd : ClassDef} {v} (hc : env.cls c = some cd) (hnum : NumText env.W) (hN : ∀ c, NoNameClash env c)
    (hok : ProgramFits env (jsonFmt env hnum cn sn)) (hv : HasTy env (.cls c) v) :
    ∃ w, Ev (fun n => toDict env ({ skipNone := sn } : FmtOpts).se n v = .ok w) ∧ (∀ K, FaithfulOn K (jsonWire env.W) w →
      ∃ s, Ev (fun n => toJson env K { skipNone := sn } n v = .ok s ∧ fromJson env K n (.cls c) s cn = .ok v)) :=
  C03_json_round_trip_partial hc hnum (program_ok hN hok) hv

/-- **C04** for supported programs. -/
theorem C04_program_partial {env : Env} {named : Bool} {c} {cd : ClassDef} {v} (hc : env.cls c = some cd) (hN : ∀ c, NoNameClash env c)
    (hok : ProgramFits env (mpFmt env named)) (hv : HasTy env (.cls c) v) :
    ∃ w, Ev (fun n => (if named then toDict env ({} : FmtOpts).se n v else toTuple env ({} : FmtOpts).se n v) = .ok w) ∧ (∀ K, MpFaithfulOn K w →
      ∃ s, Ev (fun n => toMsgpack env K { named := named } n v = .ok s ∧ fromMsgpack env K named n (.cls c) s = .ok v)) :=
  C04_msgpack_round_trip_partial hc (program_ok hN hok) hv

/-! ## Examples -/

namespace C01Program

/-- `class Q: a: Union[int, str]; b: Union[str, list[int]]; c: Literal["a", "b"]; d: Optional[Q]`. -/
def cdQ : ClassDef := { name := "Q", mro := ["Q"], fields := [
  { name := "a", ty := .union [.prim .int, .prim .str] },
  { name := "b", ty := .union [.prim .str, .list .list (.prim .int)] },
  { name := "c", ty := .lit [.str "a", .str "b"] },
  { name := "d", ty := .union [.cls "Q", .none] }] }

def env : Env := { W := Ex.WT, P := Ex.P, classes := [("Q", cdQ)], enums := [] }

theorem env_cases {c : ClassId} {cd : ClassDef} (h : env.cls c = some cd) : c = "Q" ∧ cd = cdQ := by
  simp only [env, Env.cls, List.lookup] at h
  split at h
  · rename_i h'; cases h; exact ⟨by simpa using h', rfl⟩
  · cases h

def L (t : Ty) : Prop := t = .prim .int ∨ t = .prim .str ∨ t = .none ∨ t = .cls "Q"

theorem apart : NamesApart env L where
  plain := by
    rintro t (rfl | rfl | rfl | rfl)
    · exact ⟨"int", rfl, by decide, by decide⟩
    · exact ⟨"str", rfl, by decide, by decide⟩
    · exact ⟨"NoneType", rfl, by decide, by decide⟩
    · exact ⟨"Q", rfl, by decide, by decide⟩
  apart := by
    have key : ∀ t, L t → leafName env t = some (match t with | .none => "NoneType" | .prim .int => "int" | .prim _ => "str" | _ => "Q") := by
      rintro t (rfl | rfl | rfl | rfl) <;> rfl
    intro t u s ht hu h h'
    have := (key t ht).symm.trans (h.trans (h'.symm.trans (key u hu)))
    rcases ht with rfl | rfl | rfl | rfl <;> rcases hu with rfl | rfl | rfl | rfl <;> first | rfl | exact absurd (Option.some.inj this) (by decide)

theorem annotated {t} (h : Annotated env t) : ∃ f ∈ cdQ.fields, PartOf t f.ty := by
  obtain ⟨c, cd, f, hc, hf, hp⟩ := h
  obtain ⟨_, rfl⟩ := env_cases hc
  exact ⟨f, hf, hp⟩

theorem ints : IntsApart env.W := fun i j h => by
  have hi := Ex.numText.int i
  rw [show Ex.WT.strOf (.int i) = Ex.WT.strOf (.int j) from h, Ex.numText.int j] at hi
  exact (Option.some.inj hi).symm

theorem noClash (c : ClassId) : NoNameClash env c := by
  refine C44_no_clash_partial apart ints (fun ts h => ?_) (fun vs h => ?_) c
  · have i : BuiltFrom L (.prim .int) := .leaf (.inl rfl)
    have s : BuiltFrom L (.prim .str) := .leaf (.inr (.inl rfl))
    have n : BuiltFrom L .none := .leaf (.inr (.inr (.inl rfl)))
    have q : BuiltFrom L (.cls "Q") := .leaf (.inr (.inr (.inr rfl)))
    have l : BuiltFrom L (.list .list (.prim .int)) := .node (h := "list") (cs := [.prim .int]) rfl (by simp) (by simpa using i)
    obtain ⟨f, hf, hp⟩ := annotated h
    simp only [cdQ, List.mem_cons, List.not_mem_nil, or_false] at hf
    have two : ∀ {a b : Ty}, PartOf (.union ts) (.union [a, b]) → (¬ PartOf (.union ts) a) → (¬ PartOf (.union ts) b) → BuiltFrom L a → BuiltFrom L b →
        ∀ t ∈ ts, BuiltFrom L t := by
      intro a b h ha hb ba bb t ht
      cases h with
      | refl =>
        simp only [List.mem_cons, List.not_mem_nil, or_false] at ht
        rcases ht with rfl | rfl <;> assumption
      | union hm h =>
        simp only [List.mem_cons, List.not_mem_nil, or_false] at hm
        rcases hm with rfl | rfl
        · exact absurd h ha
        · exact absurd h hb
    rcases hf with rfl | rfl | rfl | rfl
    · exact two hp (by intro h; cases h) (by intro h; cases h) i s
    · exact two hp (by intro h; cases h) (by intro h; cases h with | list h => cases h) s l
    · cases hp
    · exact two hp (by intro h; cases h) (by intro h; cases h) q n
  · obtain ⟨f, hf, hp⟩ := annotated h
    simp only [cdQ, List.mem_cons, List.not_mem_nil, or_false] at hf
    have two : ∀ {a b : Ty}, PartOf (.lit vs) (.union [a, b]) → (¬ PartOf (.lit vs) a) → (¬ PartOf (.lit vs) b) → False := by
      intro a b h ha hb
      cases h with
      | union hm h =>
        simp only [List.mem_cons, List.not_mem_nil, or_false] at hm
        rcases hm with rfl | rfl
        · exact ha h
        · exact hb h
    rcases hf with rfl | rfl | rfl | rfl
    · exact (two hp (by intro h; cases h) (by intro h; cases h)).elim
    · exact (two hp (by intro h; cases h) (by intro h; cases h with | list h => cases h)).elim
    · cases hp
      refine ⟨by simp, fun v hv => ?_⟩
      simp only [List.mem_cons, List.not_mem_nil, or_false] at hv
      rcases hv with rfl | rfl
      · exact .str (by decide)
      · exact .str (by decide)
    · exact (two hp (by intro h; cases h) (by intro h; cases h)).elim

theorem pairOk {F : Fmt env} {tg a b} (h0 : ∀ t, [a, b] ≠ [t, .none]) (ma : UnionMember env a) (mb : UnionMember env b) (sa : Supported env F tg a)
    (sb : Supported env F tg b) (hp : Apart env F a b) (na : ∀ c, a ≠ .cls c) (nb : ∀ c, b ≠ .cls c) : Supported env F tg (.union [a, b]) := by
  have no : ∀ c, Ty.cls c ∉ [a, b] := by
    intro c h
    simp only [List.mem_cons, List.not_mem_nil, or_false] at h
    rcases h with h | h
    · exact na c h.symm
    · exact nb c h.symm
  refine .union h0 ?_ ?_ (by simpa using hp) (fun c _ _ _ h => absurd h (no c)) (fun c _ h => absurd h (no c))
  · intro t ht
    simp only [List.mem_cons, List.not_mem_nil, or_false] at ht
    rcases ht with rfl | rfl <;> assumption
  · intro t ht
    simp only [List.mem_cons, List.not_mem_nil, or_false] at ht
    rcases ht with rfl | rfl <;> assumption

theorem fits (F : Fmt env) : ProgramFits env F where
  classes := by
    intro c cd hc _
    obtain ⟨rfl, rfl⟩ := env_cases hc
    refine { fields := ?_, types := ?_, names := (by decide), wires := (by decide), notTransparent := rfl, noHook := (by intro p h; cases h), noClassCustom := ⟨rfl, rfl⟩, mroSelf := (by simp [cdQ]), kwLast := (by simp [cdQ]), kwTuple := ?_ }
    · intro _ f hf
      simp only [cdQ, List.mem_cons, List.not_mem_nil, or_false] at hf
      rcases hf with rfl | rfl | rfl | rfl <;> exact ⟨rfl, rfl⟩
    · intro f hf
      simp only [cdQ, List.mem_cons, List.not_mem_nil, or_false] at hf
      have no : ∀ {a b : Ty}, HasTy env (.union [a, b]) .none → (¬ HasTy env a .none) → (¬ HasTy env b .none) → False := by
        intro a b h ha hb
        cases h with
        | union hm h =>
          simp only [List.mem_cons, List.not_mem_nil, or_false] at hm
          rcases hm with rfl | rfl
          · exact ha h
          · exact hb h
      rcases hf with rfl | rfl | rfl | rfl
      · exact .plain ⟨rfl, ⟨rfl, rfl, rfl⟩, .inl rfl, rfl, ⟨rfl, rfl⟩, rfl⟩ (.never ⟨rfl, rfl, rfl, rfl⟩ (fun _ h => (no h (by intro h; cases h) (by intro h; cases h)).elim))
      · exact .plain ⟨rfl, ⟨rfl, rfl, rfl⟩, .inl rfl, rfl, ⟨rfl, rfl⟩, rfl⟩ (.never ⟨rfl, rfl, rfl, rfl⟩ (fun _ h => (no h (by intro h; cases h) (by intro h; cases h)).elim))
      · exact .plain ⟨rfl, ⟨rfl, rfl, rfl⟩, .inl rfl, rfl, ⟨rfl, rfl⟩, rfl⟩ (.never ⟨rfl, rfl, rfl, rfl⟩ (fun _ h => by cases h with | lit h => simp at h))
      · exact .plain ⟨rfl, ⟨rfl, rfl, rfl⟩, .inl rfl, rfl, ⟨rfl, rfl⟩, rfl⟩ (.never ⟨rfl, rfl, rfl, rfl⟩ (fun _ _ => ⟨rfl, .inr ⟨rfl, .inr ⟨_, rfl, by simp⟩⟩⟩))
    · intro f hf
      simp only [cdQ, List.mem_cons, List.not_mem_nil, or_false] at hf
      rcases hf with rfl | rfl | rfl | rfl
      · exact pairOk (by intro t h; cases h) .prim .prim (.scalar .prim) (.scalar .prim) (.inl rfl) (by intro c h; cases h) (by intro c h; cases h)
      · exact pairOk (by intro t h; cases h) .prim (.list .prim) (.scalar .prim) (.list (.scalar .prim)) (.inl rfl) (by intro c h; cases h) (by intro c h; cases h)
      · refine .scalar (.lit ?_)
        intro v hv
        simp only [List.mem_cons, List.not_mem_nil, or_false] at hv
        rcases hv with rfl | rfl
        · exact .str
        · exact .str
      · exact .opt (by intro h; cases h) (.cls (cd := cdQ) rfl)
  wrappers := by
    intro c cd hc ht
    obtain ⟨rfl, rfl⟩ := env_cases hc
    cases ht
  noGlobal := ⟨rfl, rfl⟩

def q0 : Val := .inst "Q" [("a", .int 3), ("b", .list [.int 4]), ("c", .str "a"), ("d", .none)]
def q1 : Val := .inst "Q" [("a", .str "x"), ("b", .str "y"), ("c", .str "b"), ("d", q0)]

theorem q1_ty : HasTy env (.cls "Q") q1 := by
  have h0 : HasTy env (.cls "Q") q0 := by
    refine .inst (cd := cdQ) rfl rfl ?_
    intro p hp
    simp only [cdQ, List.zip_cons_cons, List.zip_nil_right, List.mem_cons, List.not_mem_nil, or_false] at hp
    rcases hp with rfl | rfl | rfl | rfl
    · exact .union (t := .prim .int) (by simp) .int
    · exact .union (t := .list .list (.prim .int)) (by simp) (.list (by intro x hx; simp only [List.mem_cons, List.not_mem_nil, or_false] at hx; subst hx; exact .int))
    · exact .lit (by simp)
    · exact .union (t := .none) (by simp) .none
  refine .inst (cd := cdQ) rfl rfl ?_
  intro p hp
  simp only [cdQ, List.zip_cons_cons, List.zip_nil_right, List.mem_cons, List.not_mem_nil, or_false] at hp
  rcases hp with rfl | rfl | rfl | rfl
  · exact .union (t := .prim .str) (by simp) .str
  · exact .union (t := .prim .str) (by simp) .str
  · exact .lit (by simp)
  · exact .union (t := .cls "Q") (by simp) h0

example : ∃ w, Ev (fun n => toDict env {} n q1 = .ok w ∧ fromDict env {} n (.cls "Q") w = .ok q1) :=
  C01_program_partial (cd := cdQ) (so := {}) (o := {}) rfl rfl rfl id noClash (fits _) q1_ty
example : ∃ w, Ev (fun n => toTuple env {} n q1 = .ok w ∧ fromTuple env {} n (.cls "Q") w = .ok q1) :=
  C02_program_partial (cd := cdQ) (so := {}) (o := {}) rfl rfl rfl id noClash (fits _) q1_ty
example : ∃ (K : Codec) (s : String), Ev (fun n => toJson env K { skipNone := true } n q1 = .ok s ∧ fromJson env K n (.cls "Q") s = .ok q1) := by
  obtain ⟨w, _, hw⟩ := C03_program_partial (env := env) (cn := true) (sn := true) (cd := cdQ) rfl Ex.numText noClash (fits _) q1_ty
  exact ⟨_, hw ⟨fun _ => .ok "text", fun _ => .ok (jsonWire Ex.WT w)⟩ ⟨_, rfl, rfl⟩⟩
example (named : Bool) : ∃ (K : MpCodec) (s : String), Ev (fun n => toMsgpack env K { named := named } n q1 = .ok s ∧ fromMsgpack env K named n (.cls "Q") s = .ok q1) := by
  obtain ⟨w, _, hw⟩ := C04_program_partial (env := env) (named := named) (cd := cdQ) rfl noClash (fits _) q1_ty
  exact ⟨_, hw ⟨fun _ => .ok "bytes", fun _ _ => .error .value, fun _ => .ok (.val (mpWire w))⟩ ⟨_, rfl, rfl⟩⟩

end C01Program
end Verif.Props
