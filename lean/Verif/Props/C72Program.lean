import Verif.Props.C01Program
import Verif.Props.C72
/-!
# C72, C73, C74 for programs

Full statements: see C72. As in C01Program the conditions are stated by the annotations of the program alone, without the tables of generated functions.
-/

namespace Verif.Props
open Verif Spec

/-- **C72** for supported programs. -/
theorem C72_program_partial {env : Env} {cn sn : Bool} {c} {cd : ClassDef} {v} (hc : env.cls c = some cd) (hN : ∀ c, NoNameClash env c)
    (hok : ProgramFits env (yamlFmt env cn sn)) (hv : HasTy env (.cls c) v) :
    ∃ w, Ev (fun n => toDict env ({ skipNone := sn } : FmtOpts).se n v = .ok w) ∧ (∀ K, FaithfulOn K yamlWire w →
      ∃ s, Ev (fun n => toYaml env K { skipNone := sn } n v = .ok s ∧ fromYaml env K n (.cls c) s cn = .ok v)) :=
  C72_round_trip_partial hc (program_ok hN hok) hv

/-- **C73** for supported programs. -/
theorem C73_program_partial {env : Env} {c} {cd : ClassDef} {v} (hc : env.cls c = some cd) (hN : ∀ c, NoNameClash env c)
    (hok : ProgramFits env (yamlFmt env false true)) (hv : HasTy env (.cls c) v) :
    ∃ w, Ev (fun n => toDict env ({ skipNone := true } : FmtOpts).se n v = .ok w) ∧ (∀ K, FaithfulOn K yamlWire w →
      ∃ s, Ev (fun n => toToml env K n v = .ok s ∧ fromToml env K n (.cls c) s = .ok v)) :=
  C73_round_trip_partial hc (program_ok hN hok) hv

/-- **C74** for supported programs. -/
theorem C74_program_partial {env : Env} {c} {cd : ClassDef} {v} (hc : env.cls c = some cd) (hN : ∀ c, NoNameClash env c)
    (hok : ProgramFits env (rawFmt env true false true false (by intro h; cases h))) (hv : HasTy env (.cls c) v) :
    ∃ w, Ev (fun n => toDict env ({} : FmtOpts).se n v = .ok w) ∧ (∀ K, FaithfulOn K id w →
      ∃ s, Ev (fun n => toPickle env K {} n v = .ok s ∧ fromPickle env K n (.cls c) s = .ok v)) :=
  C74_round_trip_partial hc (program_ok hN hok) hv

/-! ## Examples -/

open C01Program in
example (sn : Bool) : ∃ (K : Codec) (s : String), Ev (fun n => toYaml env K { skipNone := sn } n q1 = .ok s ∧ fromYaml env K n (.cls "Q") s = .ok q1) := by
  obtain ⟨w, _, hw⟩ := C72_program_partial (env := env) (cn := true) (sn := sn) (cd := cdQ) rfl noClash (fits _) q1_ty
  exact ⟨_, hw ⟨fun _ => .ok "text", fun _ => .ok (yamlWire w)⟩ ⟨_, rfl, rfl⟩⟩

open C01Program in
example : ∃ (K : Codec) (s : String), Ev (fun n => toToml env K n q1 = .ok s ∧ fromToml env K n (.cls "Q") s = .ok q1) := by
  obtain ⟨w, _, hw⟩ := C73_program_partial (env := env) (cd := cdQ) rfl noClash (fits _) q1_ty
  exact ⟨_, hw ⟨fun _ => .ok "text", fun _ => .ok (yamlWire w)⟩ ⟨_, rfl, rfl⟩⟩

open C01Program in
example : ∃ (K : Codec) (s : String), Ev (fun n => toPickle env K {} n q1 = .ok s ∧ fromPickle env K n (.cls "Q") s = .ok q1) := by
  obtain ⟨w, _, hw⟩ := C74_program_partial (env := env) (cd := cdQ) rfl noClash (fits _) q1_ty
  exact ⟨_, hw ⟨fun _ => .ok "text", fun _ => .ok w⟩ ⟨_, rfl, rfl⟩⟩

end Verif.Props
