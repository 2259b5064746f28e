import Verif.Lemmas.Res
/-!
# Which exceptions deserialization can produce

A generic induction: if a predicate on exceptions holds of everything external code, pyserde itself and the constructors
can raise, it holds of everything the generated code raises.
-/

namespace Verif

/-- Every error of `r` satisfies `E`. -/
def ErrIn {α : Type} (E : Exc → Prop) (r : Res α) : Prop := ∀ e, r = .error e → E e

theorem ErrIn.ok {α : Type} {E : Exc → Prop} (a : α) : ErrIn E (.ok a : Res α) := by intro e h; cases h
theorem ErrIn.err {α : Type} {E : Exc → Prop} {e : Exc} (h : E e) : ErrIn E (.error e : Res α) := by
  intro e' h'; cases h'; exact h

theorem ErrIn.cast {α β : Type} {E : Exc → Prop} {r : Res α} {e : Exc} (h : ErrIn E r) (he : r = .error e) :
    ErrIn E (.error e : Res β) := ErrIn.err (h e he)

theorem mapR_errIn {α β : Type} {E : Exc → Prop} {f : α → Res β} {as : List α} (h : ∀ a ∈ as, ErrIn E (f a)) :
    ErrIn E (mapR f as) := by
  intro e he
  obtain ⟨a, ha, hae⟩ := mapR_error he
  exact h a ha e hae

/-- What an exception predicate must satisfy.
`M` are the modes (`true` = dict based, `false` = tuple based) in which generated functions may be called. -/
structure ErrBase (env : Env) (M : Bool → Prop) (E : Exc → Prop) : Prop where
  named : M true
  py : ∀ e, E (.py e)
  serde : ∀ s, E (.serde s)
  missing : ∀ s, E (.missing s)
  wrap : ∀ e, E (.wrap e)
  fuel : E .fuel
  user : ∀ e, E (.user e) → E e
  ctor : ∀ r named c cd o d pos kw, M named → env.cls c = some cd → deArgs env r named c cd o d = .ok (pos, kw) →
    ErrIn E (construct env c cd pos kw)

/-- The data source of an argument raises only exceptions in `E`, and is positional only if tuple mode is allowed. -/
def SrcOk (M : Bool → Prop) (E : Exc → Prop) : Src → Prop
  | .key _ => True
  | .idx _ _ => M false
  | .val x => ErrIn E x

/-- All entry points only raise exceptions in `E`. -/
structure DeErrOk (M : Bool → Prop) (E : Exc → Prop) (r : DeRec) : Prop where
  render : ∀ cx a, M cx.named → SrcOk M E a.src → ErrIn E (r.render cx a)
  cls : ∀ b c o v, M b → ErrIn E (r.cls b c o v)
  fromObj : ∀ b re nu t c v, M b → ErrIn E (r.fromObj b re nu t c v)

section
variable {env : Env} {M : Bool → Prop} {E : Exc → Prop} (hB : ErrBase env M E)
include hB

theorem liftP_errIn {α : Type} (x : Except PErr α) : ErrIn E (liftP x) := by
  cases x with
  | ok a => exact ErrIn.ok a
  | error e => exact ErrIn.err (hB.py e)

theorem pyIter_errIn (v) : ErrIn E (pyIter v) := by
  cases v <;> first | exact ErrIn.ok _ | exact ErrIn.err (hB.py _)

theorem pyItems_errIn (v) : ErrIn E (pyItems v) := by
  cases v <;> first | exact ErrIn.ok _ | exact ErrIn.err (hB.py _)

theorem pyGet_errIn (v k) : ErrIn E (pyGet v k) := by
  cases v <;> first | exact ErrIn.ok _ | exact ErrIn.err (hB.py _)

theorem pyGetItem_errIn (v k) : ErrIn E (pyGetItem v k) := by
  unfold pyGetItem
  split
  · split
    · exact ErrIn.ok _
    · exact ErrIn.err (hB.py _)
  · exact ErrIn.err (hB.py _)

theorem pyIndex_errIn (v i) : ErrIn E (pyIndex v i) := by
  unfold pyIndex
  dsimp only
  repeat' split
  all_goals first | exact ErrIn.ok _ | exact ErrIn.err (hB.py _)

theorem pySlice_errIn (v i) : ErrIn E (pySlice v i) := by
  unfold pySlice
  repeat' split
  all_goals first | exact ErrIn.ok _ | exact ErrIn.err (hB.py _)

theorem pyIn_errIn (k v) : ErrIn E (pyIn k v) := by
  cases v <;> first | exact ErrIn.ok _ | exact ErrIn.err (hB.py _)

theorem mkSet_errIn (h f xs) : ErrIn E (mkSet h f xs) := by
  unfold mkSet
  split
  · exact ErrIn.ok _
  · exact ErrIn.err (hB.py _)

theorem mkDict_errIn (h f xs) : ErrIn E (mkDict h f xs) := by
  unfold mkDict
  split
  · exact ErrIn.ok _
  · exact ErrIn.err (hB.py _)

theorem coerceObj_errIn (p v) : ErrIn E (coerceObj env p v) := by
  unfold coerceObj
  repeat' split
  all_goals first | exact ErrIn.ok _ | exact ErrIn.err (hB.serde _)

theorem pyCounter_errIn (v) : ErrIn E (pyCounter env v) := by
  unfold pyCounter
  split
  · exact ErrIn.ok _
  · split
    · split
      · exact ErrIn.ok _
      · exact ErrIn.err (hB.py _)
    · rename_i h; exact (pyIter_errIn hB _).cast h

theorem data_errIn (a : DeArg) (h : ∀ r, a.src = .val r → ErrIn E r) : ErrIn E a.data := by
  unfold DeArg.data
  split
  · split
    · exact pyGet_errIn hB _ _
    · exact pyGetItem_errIn hB _ _
  · exact pyIndex_errIn hB _ _
  · rename_i r hr; exact h r hr

theorem getByAliases_errIn (d ns) : ErrIn E (getByAliases d ns) := by
  induction ns with
  | nil => exact ErrIn.ok _
  | cons n ns ih =>
    unfold getByAliases
    split
    · rename_i h; exact (pyIn_errIn hB _ _).cast h
    · split
      · exact ErrIn.ok _
      · rename_i h; exact (pyGetItem_errIn hB _ _).cast h
    · exact ih

theorem existsByAliases_errIn (d ns) : ErrIn E (existsByAliases d ns) := by
  induction ns with
  | nil => exact ErrIn.ok _
  | cons n ns ih =>
    unfold existsByAliases
    split
    · rename_i h; exact (pyIn_errIn hB _ _).cast h
    · exact ErrIn.ok _
    · exact ih

theorem project_errIn (d a b x y) : ErrIn E (project env d a b x y) := by
  unfold project
  split
  · exact ErrIn.ok _
  · split
    · rename_i h; exact (pyItems_errIn hB _).cast h
    · exact ErrIn.ok _

theorem orEmptyItems_errIn (d) : ErrIn E (orEmptyItems env d) := by
  unfold orEmptyItems
  split
  · exact pyItems_errIn hB _
  · exact ErrIn.ok _

theorem getGenericArg_errIn (a b c d) : ErrIn E (getGenericArg a b c d) := by
  unfold getGenericArg
  repeat' split
  all_goals first | exact ErrIn.ok _ | exact ErrIn.err (hB.py _) | exact ErrIn.err (hB.serde _)

theorem deLit_errIn (a b) : ErrIn E (deLit a b) := by
  unfold deLit
  repeat' split
  all_goals first | exact ErrIn.ok _ | exact ErrIn.err (hB.serde _)

theorem deUnion_errIn (r cx d ts) : ErrIn E (deUnion env r cx d ts) := by
  induction ts with
  | nil => exact ErrIn.err (hB.serde _)
  | cons t ts ih =>
    unfold deUnion
    split
    · exact ErrIn.ok _
    · exact ErrIn.err hB.fuel
    · exact ih

theorem catchKey_errIn {α : Type} (s) {r : Res α} (h : ErrIn E r) : ErrIn E (catchKey s r) := by
  unfold catchKey
  split
  · exact ErrIn.err (hB.missing _)
  · exact h

theorem wrapUser_errIn {α : Type} {r : Res α} (h : ErrIn E r) : ErrIn E (wrapUser r) := by
  unfold wrapUser
  split
  · exact ErrIn.ok _
  · exact ErrIn.err hB.fuel
  · exact ErrIn.err (hB.user _ (h _ rfl))
  · exact ErrIn.err (hB.wrap _)

theorem optExists_errIn (cx : DeCx) (a : DeArg) (hd : ErrIn E a.data) (t) : ErrIn E (optExists env cx a t) := by
  have nn : ∀ r : Res Val, ErrIn E r → ErrIn E (match r with
    | .ok .none => .ok false
    | .ok _ => .ok true
    | .error e => .error e : Res Bool) := by
    intro r hr
    split
    · exact ErrIn.ok _
    · exact ErrIn.ok _
    · exact ErrIn.err (hr _ rfl)
  unfold optExists
  dsimp only
  split
  · exact nn _ hd
  · exact nn _ hd
  · split
    · split
      · split
        · split
          · exact ErrIn.err (hB.serde _)
          · split
            · exact ErrIn.ok _
            · rename_i h
              exact (mapR_errIn (fun f _ => nn _ (pyGet_errIn hB _ _))).cast h
        · exact ErrIn.err (hB.serde _)
      · exact ErrIn.err (hB.serde _)
    · split
      · exact nn _ (pyGet_errIn hB _ _)
      · split
        · exact ErrIn.ok _
        · exact ErrIn.ok _
        · exact ErrIn.ok _
        · rename_i h; exact (getByAliases_errIn hB _ _).cast h

theorem primData_errIn (cx : DeCx) (a : DeArg) (hd : ErrIn E a.data) : ErrIn E (primData cx a) := by
  unfold primData
  split
  · exact hd
  · split
    · exact ErrIn.ok _
    · exact ErrIn.err (hB.py _)
    · rename_i h; exact (getByAliases_errIn hB _ _).cast h

theorem dfltExists_errIn (a : DeArg) (d) : ErrIn E (dfltExists env a d) := by
  unfold dfltExists
  split
  · split
    · split
      · split
        · exact ErrIn.err (hB.serde _)
        · split
          · exact ErrIn.ok _
          · rename_i h
            refine (mapR_errIn (fun f _ => ?_)).cast h
            split
            · exact pyIn_errIn hB _ _
            · exact existsByAliases_errIn hB _ _
      · exact ErrIn.err (hB.serde _)
    · exact ErrIn.err (hB.serde _)
  · split
    · exact pyIn_errIn hB _ _
    · exact existsByAliases_errIn hB _ _


theorem deBody_errIn {r : DeRec} (hr : DeErrOk M E r) (cx : DeCx) (a : DeArg) (hn : M cx.named) (ha : SrcOk M E a.src) :
    ErrIn E (deBody env r cx a) := by
  have hv : ∀ x, a.src = .val x → ErrIn E x := fun x hx => by rw [hx] at ha; exact ha
  have hd := data_errIn hB a hv
  have hp := primData_errIn hB cx a hd
  have hel : ∀ (t : Ty) (nm : String) (x : Res Val), ErrIn E x →
      ErrIn E (r.render cx { ty := t, name := nm, conv := nm, src := .val x, alias := a.alias, deser := a.deser }) := by
    intro t nm x hx
    exact hr.render _ _ hn hx
  have hel' : ∀ (t : Ty) (nm : String) (x : Val),
      ErrIn E (r.render cx { ty := t, name := nm, conv := nm, src := .val (.ok x), alias := a.alias, deser := a.deser }) :=
    fun t nm x => hel t nm _ (ErrIn.ok x)
  have hnm : M a.src.isNamed := by
    cases hs : a.src with
    | idx _ _ => rw [hs] at ha; exact ha
    | _ => exact hB.named
  unfold deBody
  dsimp only
  split
  · split
    · exact liftP_errIn hB _
    · rename_i h; exact hd.cast h
  · split
    · split
      · exact liftP_errIn hB _
      · rename_i h; exact hd.cast h
    · split
      all_goals repeat' split
      all_goals first
        | exact ErrIn.ok _
        | exact ErrIn.err (hB.py _)
        | exact ErrIn.err (hB.serde _)
        | exact hd
        | exact liftP_errIn hB _
        | exact mkSet_errIn hB _ _ _
        | exact mkDict_errIn hB _ _ _
        | exact pyCounter_errIn hB _
        | exact coerceObj_errIn hB _ _
        | exact deLit_errIn hB _ _
        | exact deUnion_errIn hB _ _ _ _
        | exact hr.cls _ _ _ _ hn
        | exact hr.fromObj _ _ _ _ _ _ hB.named
        | exact hr.fromObj _ _ _ _ _ _ hnm
        | exact hr.render _ _ hn ha
        | (rename_i h; exact hd.cast h)
        | (rename_i h; exact hp.cast h)
        | (rename_i h; exact (pyIter_errIn hB _).cast h)
        | (rename_i h; exact (pyItems_errIn hB _).cast h)
        | (rename_i h; exact (optExists_errIn hB cx a hd _).cast h)
        | (rename_i h; exact (getGenericArg_errIn hB _ _ _ _).cast h)
        | (rename_i h; exact (pySlice_errIn hB _ _).cast h)
        | (rename_i h; exact (mapR_errIn (fun x _ => hel' _ _ _)).cast h)
        | skip
      all_goals rename_i h
      · split at h
        · split at h
          · cases h
          · exact (pySlice_errIn hB _ _).cast h
          · rename_i x hx
            exact (hv _ hx).cast h
        · exact hd.cast h
      · refine (mapR_errIn (fun x _ => ?_)).cast h
        split
        · exact ErrIn.ok _
        · rename_i h; exact (hel' _ _ _).cast h
      · refine (mapR_errIn (fun x _ => ?_)).cast h
        split
        · rename_i h
          split at h
          · exact (coerceObj_errIn hB _ _).cast h
          · exact (hel' _ _ _).cast h
        · split
          · exact ErrIn.ok _
          · rename_i h; exact (hel' _ _ _).cast h
      · refine (mapR_errIn (fun x _ => hel _ _ _ ?_)).cast h
        split
        · exact pyIndex_errIn hB _ _
        · rename_i h; exact hd.cast h

theorem deRenderF_errIn {r : DeRec} (hr : DeErrOk M E r) (cx : DeCx) (a : DeArg) (hn : M cx.named) (ha : SrcOk M E a.src) :
    ErrIn E (deRenderF env r cx a) := by
  unfold deRenderF
  split
  · split
    · exact deBody_errIn hB hr cx a hn ha
    · exact ErrIn.ok _
    · rename_i h; exact (dfltExists_errIn hB _ _).cast h
  · exact deBody_errIn hB hr cx a hn ha

theorem deField_errIn {r : DeRec} (hr : DeErrOk M E r) (cx : DeCx) (hn : M cx.named) (c cd ex d f) : ErrIn E (deField env r cx c cd ex d f) := by
  unfold deField
  split
  · exact ErrIn.ok _
  · dsimp only
    split
    · rename_i h
      split at h
      · exact (project_errIn hB _ _ _ _ _).cast h
      · cases h
    · split
      · exact hr.render _ _ hn trivial
      · exact catchKey_errIn hB _ (hr.render _ _ hn trivial)

theorem splitArgs_errIn (ps vs) : ErrIn E (splitArgs ps vs) := by
  induction ps generalizing vs with
  | nil => exact ErrIn.ok _
  | cons p ps ih =>
    cases vs with
    | nil => exact ErrIn.ok _
    | cons v vs =>
      obtain ⟨f, kw⟩ := p
      unfold splitArgs
      split
      · rename_i h; exact (ih _).cast h
      · repeat' split
        all_goals first | exact ErrIn.ok _ | exact ErrIn.err (hB.serde _)

theorem deArgs_errIn {r : DeRec} (hr : DeErrOk M E r) (named) (hn : M named) (c cd o d) : ErrIn E (deArgs env r named c cd o d) := by
  unfold deArgs
  dsimp only
  split
  · split
    · exact ErrIn.err (hB.serde _)
    · split
      · rename_i h
        refine (hr.render _ _ hn ?_).cast h
        unfold transpArg
        dsimp only
        cases named with
        | true => exact trivial
        | false => exact hn
      · split <;> exact ErrIn.ok _
  · split
    · split
      · rename_i h
        unfold deUnknown at h
        split at h
        · split at h
          · cases h
          · rename_i h'; cases h; exact (orEmptyItems_errIn hB _).cast h'
        · cases h
      · exact ErrIn.err (hB.serde _)
      · unfold deNamedArgs
        split
        · rename_i h
          unfold deExtra at h
          split at h
          · split at h
            · cases h
            · rename_i h'; cases h; exact (orEmptyItems_errIn hB _).cast h'
          · cases h
        · split
          · rename_i h; exact (mapR_errIn (fun f _ => deField_errIn hB hr _ hn _ _ _ _ f)).cast h
          · exact splitArgs_errIn hB _ _
    · split
      · rename_i h
        refine (mapR_errIn (fun f _ => hr.render _ _ hn ?_)).cast h
        cases named with
        | true => contradiction
        | false => exact hn
      · exact ErrIn.ok _

theorem deClsF_errIn {r : DeRec} (hr : DeErrOk M E r) (named c o d) (hn : M named) : ErrIn E (deClsF env r named c o d) := by
  unfold deClsF
  split
  · exact ErrIn.err (hB.py _)
  · rename_i cd hcd
    split
    · rename_i h; exact (deArgs_errIn hB hr _ hn _ _ _ _).cast h
    · rename_i h; exact hB.ctor _ _ _ _ _ _ _ _ hn hcd h

theorem fromObjBody_errIn {r : DeRec} (hr : DeErrOk M E r) (named reuse nu mg c o) (hn : M named) :
    ErrIn E (fromObjBody env r named reuse nu mg c o) := by
  unfold fromObjBody
  dsimp only
  split
  · exact liftP_errIn hB _
  · split
    all_goals repeat' split
    all_goals first
      | exact ErrIn.ok _
      | exact ErrIn.err (hB.py _)
      | exact ErrIn.err (hB.serde _)
      | exact liftP_errIn hB _
      | exact mkSet_errIn hB _ _ _
      | exact mkDict_errIn hB _ _ _
      | exact pyCounter_errIn hB _
      | exact hr.cls _ _ _ _ hn
      | exact hr.fromObj _ _ _ _ _ _ hn
      | (rename_i h; exact (pyIter_errIn hB _).cast h)
      | (rename_i h; exact (pyItems_errIn hB _).cast h)
      | (rename_i h; exact (mapR_errIn (fun x _ => hr.fromObj _ _ _ _ _ _ hn)).cast h)
      | skip
    all_goals rename_i h
    · refine (mapR_errIn (fun x _ => ?_)).cast h
      split
      · exact ErrIn.ok _
      · rename_i h; exact (hr.fromObj _ _ _ _ _ _ hn).cast h
    · refine (mapR_errIn (fun x _ => ?_)).cast h
      split
      · exact hr.fromObj _ _ _ _ _ _ hn
      · exact ErrIn.err (hB.py _)
    · refine (mapR_errIn (fun x _ => ?_)).cast h
      split
      · rename_i h; exact (hr.fromObj _ _ _ _ _ _ hn).cast h
      · split
        · exact ErrIn.ok _
        · rename_i h; exact (hr.fromObj _ _ _ _ _ _ hn).cast h

theorem fromObjF_errIn {r : DeRec} (hr : DeErrOk M E r) (named reuse nu tg c o) (hn : M named) :
    ErrIn E (fromObjF env r named reuse nu tg c o) := by
  have hc : ∀ ts, ErrIn E (cacheDeUnion env r ts tg nu o) := by
    intro ts
    unfold cacheDeUnion
    split
    · exact deUnion_errIn hB _ _ _ _
    · exact ErrIn.err (hB.py _)
  unfold fromObjF
  dsimp only
  repeat' split
  all_goals first
    | exact ErrIn.ok _
    | exact wrapUser_errIn hB (fromObjBody_errIn hB hr _ _ _ _ _ _ hn)
    | exact hc _

theorem deAt_errOk (n : Nat) : DeErrOk M E (deAt env n) := by
  induction n with
  | zero => exact ⟨fun _ _ _ _ => ErrIn.err hB.fuel, fun _ _ _ _ _ => ErrIn.err hB.fuel, fun _ _ _ _ _ _ _ => ErrIn.err hB.fuel⟩
  | succ n ih => exact ⟨deRenderF_errIn hB ih, deClsF_errIn hB ih, fromObjF_errIn hB ih⟩

end
end Verif
