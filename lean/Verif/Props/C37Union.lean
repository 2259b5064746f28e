import Verif.Props.C37
import Verif.Lemmas.UnionSe
import Verif.Lemmas.UnionDe
/-!
# C36, C37, C38: an explicit union as the target type

`to_dict(obj, c=Union[...])`, and with it `to_json(obj, cls=Union[...])`, calls the union's function with fixed options. No option of the call
matters, in particular not `convert_sets` and `reuse_instances`; and `to_tuple` gives what `to_dict` gives.
-/

namespace Verif.Props
open Verif Verif.Spec

/-- **C36, C37** With an explicit union target the options have no influence, and `to_tuple` writes the objects as dicts. -/
theorem C37_union_options {env : Env} {o o' : SeOpts} {n ts v} (ho : (Ty.union ts).isOpt = false) (hc : o.c = some (.union ts))
    (hc' : o'.c = some (.union ts)) (ht : o.tagging = o'.tagging) :
    toDict env o n v = toDict env o' n v ∧ toTuple env o n v = toDict env o n v := by
  cases n with
  | zero => exact ⟨rfl, rfl⟩
  | succ n =>
    have key : ∀ b re cv sn, (seAt env (n + 1)).toObj b re cv sn (some (.union ts)) o.tagging v =
        wrapAll (cacheSeUnion env (seAt env n) ts o.tagging v) := by
      intro b re cv sn
      rw [seAt_toObj]
      unfold toObjF
      dsimp only
      unfold toObjBody
      dsimp only
      rw [ho]
      simp only [Bool.false_eq_true, if_false]
    unfold toDict toTuple
    rw [hc, hc', ← ht, key, key, key]
    exact ⟨rfl, rfl⟩

/-- A target type that is not a union to dispatch on: not a non-Optional union, and not an alias of one. -/
def NoDispatch (c : Option Ty) : Prop :=
  (∀ ts, c = some (.union ts) → (Ty.union ts).isOpt = true) ∧ ∀ nm ts, c = some (.alias nm (.union ts)) → (Ty.union ts).isOpt = true

/-- **C37** Any other target type has no influence, unless the object itself is a date or a str-convertible value. -/
theorem C37_target_ignored {env : Env} {o : SeOpts} {n v} (hc : NoDispatch o.c) (h1 : ∀ k s, v ≠ .std k s) (h2 : ∀ k s, v ≠ .dt k s) :
    toDict env o n v = toDict env { o with c := none } n v ∧ toTuple env o n v = toTuple env { o with c := none } n v := by
  cases n with
  | zero => exact ⟨rfl, rfl⟩
  | succ n =>
    have plain : ∀ b c, toObjPlain env (seAt env n) b o.reuse o.conv o.skipNone c v = toObjPlain env (seAt env n) b o.reuse o.conv o.skipNone none v := by
      intro b c
      unfold toObjPlain
      cases v <;> first | rfl | skip
      · exact absurd rfl (h1 _ _)
      · exact absurd rfl (h2 _ _)
    have key : ∀ b, (seAt env (n + 1)).toObj b o.reuse o.conv o.skipNone o.c o.tagging v =
        (seAt env (n + 1)).toObj b o.reuse o.conv o.skipNone none o.tagging v := by
      intro b
      rw [seAt_toObj, seAt_toObj]
      unfold toObjF
      rw [toObjBody_eq, toObjBody_eq]
      congr 1
      dsimp only
      cases hcc : o.c with
      | none => rfl
      | some t =>
        cases t with
        | union ts => dsimp only; rw [hc.1 ts hcc, if_pos rfl]; exact plain b _
        | alias nm t =>
          cases t with
          | union ts => dsimp only; rw [hc.2 nm ts hcc, if_pos rfl]; exact plain b _
          | _ => exact plain b _
        | _ => exact plain b _
    unfold toDict toTuple
    exact ⟨key true, key false⟩

theorem isNone_eq {t : Ty} (h : t.isNone = true) : t = .none := by
  cases t <;> first | rfl | cases h

/-- What an explicit union writes of a value that conforms to the union without relying on the options. -/
theorem union_safe {env : Env} {G : Val → Prop} {o : SeOpts} {n ts v w} (hG : Shape G) (hs : SersOk env G) (he : EnumsOk env G)
    (ho : (Ty.union ts).isOpt = false) (hc : o.c = some (.union ts))
    (hv : Fits env G (fun us => Reach env true (.union ts) (.union us)) false false (.union ts) v) (h : toDict env o n v = .ok w) : G w := by
  cases n with
  | zero => cases h
  | succ n =>
    cases hv with
    | optNone hn => exact absurd (by simpa [Ty.isOpt] using ho) (mt isNone_eq hn)
    | optSome hn _ => exact absurd (by simpa [Ty.isOpt] using ho) (mt isNone_eq hn)
    | union _ hi hu hf =>
      have hfind : findUnion env (env.unionsOfTy (.union ts)) (unionFuncName env ts) = some ts :=
        find_own self_unionsOfTy (fun us hm he => hu us (unionsOfTy_iff.1 hm) he)
      rw [toDict_union ho hc hfind, wrapAll_ok] at h
      exact good_union hG (good_at hG he hs n) (S := fun us => Reach env true (.union ts) (.union us)) (fun s hs' => hs.global s hs')
        (fun us hus => unionsOfTy_iff.1 hus) hi hf h

/-- **C37** for an explicit union: no set in the output, for a value without sets that conforms to the union. -/
theorem C37_union_partial {env : Env} {o : SeOpts} {n ts v w} (hs : SersOk env NoSet) (he : EnumsOk env NoSet)
    (ho : (Ty.union ts).isOpt = false) (hc : o.c = some (.union ts))
    (hv : Fits env NoSet (fun us => Reach env true (.union ts) (.union us)) false false (.union ts) v) (h : toDict env o n v = .ok w) : NoSet w :=
  union_safe shape_noSet hs he ho hc hv h

/-- **C38** for `to_json(obj, cls=Union[...])`, under the same condition. -/
theorem C38_union_partial {env : Env} {K : Codec} {o : FmtOpts} {n ts v s} (hs : SersOk env JsonSafe) (he : EnumsOk env JsonSafe)
    (ho : (Ty.union ts).isOpt = false) (hc : o.c = some (.union ts))
    (hv : Fits env JsonSafe (fun us => Reach env true (.union ts) (.union us)) false false (.union ts) v) (h : toJson env K o n v = .ok s) :
    ∃ w, toDict env o.se n v = .ok w ∧ K.enc w = .ok s ∧ JsonSafe w := by
  unfold toJson encodeDict at h
  split at h
  · rename_i w hw
    exact ⟨w, hw, liftP_ok h, union_safe shape_json hs he ho hc hv hw⟩
  · cases h

namespace C37Ex
/-- `Union[E, list[UUID], str]`, and a UUID list in it. -/
def tsU : List Ty := [.enum "E", .list .list (.std "UUID"), .prim .str]
def uu : Val := .list [.std "UUID" "u"]

theorem fits_u {G : Val → Prop} : Fits env G (fun us => Reach env true (.union tsU) (.union us)) false false (.union tsU) uu := by
  refine .union rfl (by intro c as h; cases h) ?_ ?_
  · intro us hr _
    have := unionsOfTy_iff.2 hr
    have e : env.unionsOfTy (.union tsU) = [tsU] := rfl
    rw [e, List.mem_singleton] at this
    exact this
  · intro t ht hn
    simp only [tsU, List.mem_cons, List.not_mem_nil, or_false] at ht
    rcases ht with rfl | rfl | rfl
    · exact absurd (.inl ⟨.enum, by intro h; cases h⟩) hn
    · refine .list .list ?_
      intro x hx
      rw [List.mem_singleton] at hx
      subst hx
      exact .std (by intro h; cases h)
    · exact absurd (.inl ⟨.prim, by intro h; cases h⟩) hn
end C37Ex

example : NoSet (.list [.str "u"]) :=
  C37_union_partial (o := { c := some (.union C37Ex.tsU), conv := some true }) (n := 9) C37Ex.sers (C37Ex.enums (.scalar .int)) rfl rfl C37Ex.fits_u rfl

example : ∃ w, toDict C37Ex.env ({ c := some (.union C37Ex.tsU) } : FmtOpts).se 9 C37Ex.uu = .ok w ∧ Except.ok (ε := PErr) "text" = .ok "text" ∧ JsonSafe w :=
  C38_union_partial (K := ⟨fun _ => .ok "text", fun _ => .error .value⟩) (o := { c := some (.union C37Ex.tsU) }) (s := "text") C37Ex.sers
    (C37Ex.enums (.scalar .int)) rfl rfl C37Ex.fits_u rfl

example : toDict C37Ex.env { c := some (.union C37Ex.tsU), reuse := some true } 9 C37Ex.uu = toDict C37Ex.env { c := some (.union C37Ex.tsU), reuse := some false } 9 C37Ex.uu ∧
    toTuple C37Ex.env { c := some (.union C37Ex.tsU), reuse := some true } 9 C37Ex.uu = toDict C37Ex.env { c := some (.union C37Ex.tsU), reuse := some true } 9 C37Ex.uu :=
  C37_union_options rfl rfl rfl rfl

example : toDict C37Ex.env { c := some (.list .list (.set .set (.prim .int))), conv := some true } 9 (.list [.set false [.int 1]]) =
      toDict C37Ex.env { conv := some true } 9 (.list [.set false [.int 1]]) ∧
    toTuple C37Ex.env { c := some (.list .list (.set .set (.prim .int))), conv := some true } 9 (.list [.set false [.int 1]]) =
      toTuple C37Ex.env { conv := some true } 9 (.list [.set false [.int 1]]) :=
  C37_target_ignored ⟨(by intro ts h; cases h), (by intro nm ts h; cases h)⟩ (by intro k s h; cases h) (by intro k s h; cases h)

/-- `to_dict({1}, c=Union[set[int], str], convert_sets=True)` is a set, and `to_dict(uuid, c=Union[UUID, str], reuse_instances=True)` a string. -/
theorem C37_false_union :
    toDict C37Ex.env { c := some (.union [.set .set (.prim .int), .prim .str]), conv := some true } 9 (.set false [.int 1]) = .ok (.set false [.int 1]) ∧
    ¬ NoSet (.set false [.int 1]) ∧
    toDict C37Ex.env { c := some (.union [.std "UUID", .prim .str]), reuse := some true } 9 (.std "UUID" "u") = .ok (.str "u") :=
  ⟨rfl, (by intro h; cases h with | scalar h => cases h), rfl⟩

/-- `to_json({1}, cls=Union[set[int], str])` hands the set to the encoder, although convert_sets is on in to_json. -/
theorem C38_false_union : ∃ (o : FmtOpts) (v : Val), o.conv = true ∧ toDict C37Ex.env o.se 9 v = .ok v ∧ ¬ JsonSafe v :=
  ⟨{ c := some (.union [.set .set (.prim .int), .prim .str]) }, .set false [.int 1], rfl, rfl, (by intro h; cases h with | scalar h => cases h)⟩

end Verif.Props
