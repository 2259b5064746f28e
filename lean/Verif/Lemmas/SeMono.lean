import Verif.Lemmas.Res
/-!
# More fuel does not change a result (serialization)
-/

namespace Verif

/-- `b` is what `a` becomes with more fuel. -/
def Le {α : Type} (a b : Res α) : Prop := a = .error .fuel ∨ a = b

theorem Le.refl {α : Type} (a : Res α) : Le a a := .inr rfl

theorem Le.trans {α : Type} {a b c : Res α} (h : Le a b) (h' : Le b c) : Le a c := by
  rcases h with rfl | rfl
  · exact .inl rfl
  · exact h'

theorem Le.ok {α : Type} {a b : Res α} {x} (h : Le a b) (ha : a = .ok x) : b = .ok x := by
  rcases h with rfl | rfl
  · cases ha
  · exact ha

theorem Le.err {α : Type} {a b : Res α} {e} (h : Le a b) (ha : a = .error e) (he : e ≠ .fuel) : b = .error e := by
  rcases h with rfl | rfl
  · cases ha; exact absurd rfl he
  · exact ha

theorem Le.bind {α β : Type} {a b : Res α} {f g : α → Res β} (h : Le a b) (hf : ∀ x, a = .ok x → Le (f x) (g x)) :
    Le (match a with | .ok x => f x | .error e => .error e) (match b with | .ok x => g x | .error e => .error e) := by
  rcases h with rfl | rfl
  · exact .inl rfl
  · cases a with
    | error e => exact .refl _
    | ok x => exact hf x rfl

theorem mapR_le {α β : Type} {f g : α → Res β} {as : List α} (h : ∀ a ∈ as, Le (f a) (g a)) : Le (mapR f as) (mapR g as) := by
  induction as with
  | nil => exact .refl _
  | cons a as ih =>
    simp only [mapR]
    rcases h a (by simp) with e | e <;> rw [e]
    · exact .inl rfl
    · cases g a with
      | error e => exact .refl _
      | ok b =>
        dsimp only
        rcases ih (fun x hx => h x (by simp [hx])) with e' | e' <;> rw [e']
        · exact .inl rfl
        · exact .refl _

theorem concatR_le {α β : Type} {f g : α → Res (List β)} {as : List α} (h : ∀ a ∈ as, Le (f a) (g a)) : Le (concatR f as) (concatR g as) := by
  induction as with
  | nil => exact .refl _
  | cons a as ih =>
    simp only [concatR]
    rcases h a (by simp) with e | e <;> rw [e]
    · exact .inl rfl
    · cases g a with
      | error e => exact .refl _
      | ok b =>
        dsimp only
        rcases ih (fun x hx => h x (by simp [hx])) with e' | e' <;> rw [e']
        · exact .inl rfl
        · exact .refl _

/-- Pointwise. -/
structure SeLe (r r' : SeRec) : Prop where
  render : ∀ cx a, Le (r.render cx a) (r'.render cx a)
  flat : ∀ cx a, Le (r.flat cx a) (r'.flat cx a)
  cls : ∀ b re cv sn v, Le (r.cls b re cv sn v) (r'.cls b re cv sn v)
  toObj : ∀ b re cv sn c tg v, Le (r.toObj b re cv sn c tg v) (r'.toObj b re cv sn c tg v)

theorem seUnion_le {env : Env} {r r' : SeRec} (h : SeLe r r') (cx v ts) : Le (seUnion env r cx v ts) (seUnion env r' cx v ts) := by
  induction ts with
  | nil => exact .refl _
  | cons t ts ih =>
    unfold seUnion
    split
    · rcases h.render cx { ty := t, v := .ok v } with e | e <;> rw [e]
      · exact .inl rfl
      · exact .refl _
    · exact ih

theorem renderF_le {env : Env} {r r' : SeRec} (h : SeLe r r') (cx a) : Le (renderF env r cx a) (renderF env r' cx a) := by
  have hm : ∀ t xs, Le (mapR (fun x => r.render cx { ty := t, ser := a.ser, v := .ok x }) xs)
      (mapR (fun x => r'.render cx { ty := t, ser := a.ser, v := .ok x }) xs) := fun t xs => mapR_le (fun x _ => h.render _ _)
  unfold renderF
  split
  · exact .refl _
  · split
    · exact .refl _
    · split
      all_goals try exact .refl _
      all_goals try exact h.render _ _
      · split
        · exact .refl _
        · dsimp only
          split
          all_goals try exact .refl _
          · exact h.cls _ _ _ _ _
          · split
            · split
              · exact .refl _
              · split
                · exact h.render _ _
                · exact .refl _
            · split
              · exact seUnion_le h _ _ _
              · exact .refl _
          · split
            · exact .refl _
            · rename_i t _ _ xs _
              rcases hm t xs with e | e <;> rw [e]
              · exact .inl rfl
              · exact .refl _
          · split
            · exact .refl _
            · rename_i t _ _ xs _
              rcases hm t xs with e | e <;> rw [e]
              · exact .inl rfl
              · exact .refl _
          · split
            · exact .refl _
            · rename_i t _ _ xs _
              rcases hm t xs with e | e <;> rw [e]
              · exact .inl rfl
              · exact .refl _
          · split
            · exact .refl _
            · rename_i t _ _ kvs _
              refine (?_ : ∀ {x y}, Le x y → Le (match x with
                | .ok es => mkDict env.hash .plain es
                | .error e => .error e) (match y with
                | .ok es => mkDict env.hash .plain es
                | .error e => .error e)) (mapR_le (fun kv _ => ?_))
              · intro x y hxy
                rcases hxy with e | e <;> rw [e]
                · exact .inl rfl
                · exact .refl _
              · rcases h.render cx { ty := t, ser := a.ser, v := .ok kv.1 } with e | e <;> rw [e]
                · exact .inl rfl
                · exact .refl _
          · split
            · exact .refl _
            · rename_i kt vt _ _ kvs _
              refine (?_ : ∀ {x y}, Le x y → Le (match x with
                | .ok es => mkDict env.hash .plain es
                | .error e => .error e) (match y with
                | .ok es => mkDict env.hash .plain es
                | .error e => .error e)) (mapR_le (fun kv _ => ?_))
              · intro x y hxy
                rcases hxy with e | e <;> rw [e]
                · exact .inl rfl
                · exact .refl _
              · rcases h.render cx { ty := kt, ser := a.ser, v := .ok kv.1 } with e | e <;> rw [e]
                · exact .inl rfl
                · split
                  · exact .refl _
                  · rcases h.render cx { ty := vt, ser := a.ser, v := .ok kv.2 } with e | e <;> rw [e]
                    · exact .inl rfl
                    · exact .refl _
          · split
            · exact .refl _
            · rename_i t _ _ xs _
              rcases hm t xs with e | e <;> rw [e]
              · exact .inl rfl
              · exact .refl _
          · refine (?_ : ∀ {x y : Res (List Val)}, Le x y → Le (match x with
              | .ok ys => .ok (.tuple ys)
              | .error e => .error e : Res Val) (match y with
              | .ok ys => .ok (.tuple ys)
              | .error e => .error e)) (mapR_le (fun it _ => h.render _ _))
            intro x y hxy
            rcases hxy with e | e <;> rw [e]
            · exact .inl rfl
            · exact .refl _
          · exact h.toObj _ _ _ _ _ _ _
          · exact h.toObj _ _ _ _ _ _ _

theorem flatF_le {env : Env} {r r' : SeRec} (h : SeLe r r') (cx a) : Le (flatF env r cx a) (flatF env r' cx a) := by
  have hs : Le (match r.render cx a with
      | .ok v => .ok [v]
      | .error e => .error e : Res (List Val)) (match r'.render cx a with
      | .ok v => .ok [v]
      | .error e => .error e) := by
    rcases h.render cx a with e | e <;> rw [e]
    · exact .inl rfl
    · exact .refl _
  unfold flatF
  dsimp only
  split
  · exact hs
  · split
    · exact hs
    · split
      · split
        · split
          · exact concatR_le (fun f _ => h.flat _ _)
          · exact .refl _
        · exact h.flat _ _
        · exact hs
      · exact hs

theorem skips_le {env : Env} {r r' : SeRec} (h : SeLe r r') (cx rule sub) : Le (skips env r cx rule sub) (skips env r' cx rule sub) := by
  unfold skips
  split
  all_goals try exact .refl _
  split
  · rename_i d _ _ _
    rcases h.toObj true none none false none .external (.inst ‹_› ‹_›) with e | e <;> rw [e]
    · exact .inl rfl
    · exact .refl _
  · exact .refl _

theorem seField_le {env : Env} {r r' : SeRec} (h : SeLe r r') (cx cd obj res f) : Le (seField env r cx cd obj res f) (seField env r' cx cd obj res f) := by
  unfold seField
  rcases h.flat cx (seFieldArg f (.ok obj)) with e | e <;> rw [e]
  · exact .inl rfl
  · split
    · exact .refl _
    · split
      · exact .refl _
      · split
        · exact .refl _
        · rename_i sub _ _ _
          rcases skips_le h cx (f.skipRule cd) sub with e | e <;> rw [e]
          · exact .inl rfl
          · exact .refl _

theorem seFields_le {env : Env} {r r' : SeRec} (h : SeLe r r') (cx cd obj res fs) : Le (seFields env r cx cd obj res fs) (seFields env r' cx cd obj res fs) := by
  induction fs generalizing res with
  | nil => exact .refl _
  | cons f fs ih =>
    unfold seFields
    rcases seField_le h cx cd obj res f with e | e <;> rw [e]
    · exact .inl rfl
    · split
      · exact .refl _
      · exact ih _

theorem clsF_le {env : Env} {r r' : SeRec} (h : SeLe r r') (b re cv sn v) : Le (clsF env r b re cv sn v) (clsF env r' b re cv sn v) := by
  unfold clsF
  cases v with
  | inst c attrs =>
    dsimp only
    split
    · exact .refl _
    · rename_i cd _
      split
      · split
        · exact .refl _
        · rename_i f _ _
          rcases h.flat (clsSeCx env c cd b re cv sn) (seFieldArg f (.ok (.inst c attrs))) with e | e <;> rw [e]
          · exact .inl rfl
          · exact .refl _
      · split
        · rcases seFields_le h (clsSeCx env c cd b re cv sn) cd (.inst c attrs) [] cd.seFieldsOf with e | e <;> rw [e]
          · exact .inl rfl
          · exact .refl _
        · rcases concatR_le (as := cd.seFieldsOf) (fun f _ => h.flat (clsSeCx env c cd b re cv sn) (seFieldArg f (.ok (.inst c attrs)))) with e | e <;> rw [e]
          · exact .inl rfl
          · exact .refl _
  | _ => exact .refl _

theorem cacheSe_le {env : Env} {r r' : SeRec} (h : SeLe r r') (t re cv sn v) : Le (cacheSe env r t re cv sn v) (cacheSe env r' t re cv sn v) := by
  unfold cacheSe
  split
  · dsimp only
    rcases h.render { named := true, reuse := re.getD true, conv := cv.getD false, skipNone := sn, coerce := false, unions := env.unionsOfTy t, tagging := .external, sers := env.gser } { ty := t, v := .ok v } with e | e <;> rw [e]
    · exact .inl rfl
    · exact .refl _
  · exact .refl _

theorem cacheSeUnion_le {env : Env} {r r' : SeRec} (h : SeLe r r') (ts tg v) : Le (cacheSeUnion env r ts tg v) (cacheSeUnion env r' ts tg v) := by
  unfold cacheSeUnion
  split
  · exact seUnion_le h _ _ _
  · exact .refl _

/-- `to_obj` without a union annotation. -/
def toObjPlain (env : Env) (r : SeRec) (named : Bool) (reuse conv : Option Bool) (skipNone : Bool) (c : Option Ty) (o : Val) : Res Val :=
  let this (x : Val) : Res Val := r.toObj named reuse conv skipNone Option.none .external x
  match o with
  | .none => .ok .none
  | o =>
  match env.gser.find? (fun s => s.handles (typeOf o)) with
  | some s => liftP (s.run o)
  | Option.none =>
  match o with
  | .inst _ _ => r.cls named reuse conv skipNone o
  | .list xs => match mapR this xs with
    | .ok ys => .ok (.list ys)
    | .error e => .error e
  | .tuple xs => match mapR this xs with
    | .ok ys => .ok (.tuple ys)
    | .error e => .error e
  | .dict _ kvs =>
    match mapR (fun kv => match this kv.2 with
      | .ok w => .ok (kv.1, w)
      | .error e => .error e) kvs with
    | .ok es => .ok (.dict .plain es)
    | .error e => .error e
  | .set _ xs => match mapR this xs with
    | .ok ys => .ok (.list ys)
    | .error e => .error e
  | .deque xs => match mapR this xs with
    | .ok ys => .ok (.list ys)
    | .error e => .error e
  | .std k s => cacheSe env r (match c with
      | some t => if t.isAny then .std k else t
      | Option.none => .std k) reuse conv skipNone (.std k s)
  | .dt k s => cacheSe env r (match c with
      | some t => if t.isAny then .dt k else t
      | Option.none => .dt k) reuse conv skipNone (.dt k s)
  | o => .ok o

theorem toObjBody_eq {env : Env} {r b re cv sn c tg o} : toObjBody env r b re cv sn c tg o =
    match c with
    | some (.union ts) => if (Ty.union ts).isOpt then toObjPlain env r b re cv sn (some (.union ts)) o else cacheSeUnion env r ts tg o
    | c => toObjPlain env r b re cv sn c o := by
  cases c with
  | none => rfl
  | some t => cases t <;> rfl

theorem toObjPlain_le {env : Env} {r r' : SeRec} (h : SeLe r r') (b re cv sn c v) :
    Le (toObjPlain env r b re cv sn c v) (toObjPlain env r' b re cv sn c v) := by
  have hm : ∀ xs, Le (mapR (fun x => r.toObj b re cv sn none .external x) xs) (mapR (fun x => r'.toObj b re cv sn none .external x) xs) :=
    fun xs => mapR_le (fun x _ => h.toObj _ _ _ _ _ _ _)
  cases v with
  | none => exact .refl _
  | inst =>
    unfold toObjPlain; dsimp only; split
    · exact .refl _
    · exact h.cls _ _ _ _ _
  | std =>
    unfold toObjPlain; dsimp only; split
    · exact .refl _
    · exact cacheSe_le h _ _ _ _ _
  | dt =>
    unfold toObjPlain; dsimp only; split
    · exact .refl _
    · exact cacheSe_le h _ _ _ _ _
  | list xs =>
    unfold toObjPlain; dsimp only; split
    · exact .refl _
    · rcases hm xs with e | e <;> rw [e]
      · exact .inl rfl
      · exact .refl _
  | tuple xs =>
    unfold toObjPlain; dsimp only; split
    · exact .refl _
    · rcases hm xs with e | e <;> rw [e]
      · exact .inl rfl
      · exact .refl _
  | set b xs =>
    unfold toObjPlain; dsimp only; split
    · exact .refl _
    · rcases hm xs with e | e <;> rw [e]
      · exact .inl rfl
      · exact .refl _
  | deque xs =>
    unfold toObjPlain; dsimp only; split
    · exact .refl _
    · rcases hm xs with e | e <;> rw [e]
      · exact .inl rfl
      · exact .refl _
  | dict k kvs =>
    unfold toObjPlain; dsimp only; split
    · exact .refl _
    · refine (?_ : ∀ {x y : Res (List (Val × Val))}, Le x y → Le (match x with
        | .ok es => .ok (.dict .plain es)
        | .error e => .error e : Res Val) (match y with
        | .ok es => .ok (.dict .plain es)
        | .error e => .error e)) (mapR_le (fun kv _ => ?_))
      · intro x y hxy
        rcases hxy with e | e <;> rw [e]
        · exact .inl rfl
        · exact .refl _
      · rcases h.toObj b re cv sn none .external kv.2 with e | e <;> rw [e]
        · exact .inl rfl
        · exact .refl _
  | _ => unfold toObjPlain; dsimp only; split <;> exact .refl _

theorem toObjF_le {env : Env} {r r' : SeRec} (h : SeLe r r') (b re cv sn c tg v) :
    Le (toObjF env r b re cv sn c tg v) (toObjF env r' b re cv sn c tg v) := by
  unfold toObjF
  have : ∀ c, Le (toObjBody env r b re cv sn c tg v) (toObjBody env r' b re cv sn c tg v) := by
    intro c
    rw [toObjBody_eq, toObjBody_eq]
    split
    · split
      · exact toObjPlain_le h _ _ _ _ _ _
      · exact cacheSeUnion_le h _ _ _
    · exact toObjPlain_le h _ _ _ _ _ _
  have hw : ∀ {x y : Res Val}, Le x y → Le (wrapAll x) (wrapAll y) := by
    intro x y hxy
    rcases hxy with e | e <;> rw [e]
    · exact .inl rfl
    · exact .refl _
  exact hw (this _)

/-- One more unit of fuel. -/
theorem seAt_succ (env : Env) (n : Nat) : SeLe (seAt env n) (seAt env (n + 1)) := by
  induction n with
  | zero => exact ⟨fun _ _ => .inl rfl, fun _ _ => .inl rfl, fun _ _ _ _ _ => .inl rfl, fun _ _ _ _ _ _ _ => .inl rfl⟩
  | succ n ih => exact ⟨renderF_le ih, flatF_le ih, clsF_le ih, toObjF_le ih⟩

theorem seAt_mono (env : Env) {n m : Nat} (h : n ≤ m) : SeLe (seAt env n) (seAt env m) := by
  induction m with
  | zero =>
    cases Nat.le_zero.1 h
    exact ⟨fun _ _ => .refl _, fun _ _ => .refl _, fun _ _ _ _ _ => .refl _, fun _ _ _ _ _ _ _ => .refl _⟩
  | succ m ih =>
    rcases Nat.lt_or_ge m n with h' | h'
    · cases (show n = m + 1 by omega)
      exact ⟨fun _ _ => .refl _, fun _ _ => .refl _, fun _ _ _ _ _ => .refl _, fun _ _ _ _ _ _ _ => .refl _⟩
    · have h1 := ih h'
      have h2 := seAt_succ env m
      exact ⟨fun a b => (h1.render a b).trans (h2.render a b), fun a b => (h1.flat a b).trans (h2.flat a b),
        fun a b c d e => (h1.cls a b c d e).trans (h2.cls a b c d e), fun a b c d e f g => (h1.toObj a b c d e f g).trans (h2.toObj a b c d e f g)⟩

theorem toDict_mono {env : Env} {so n m v w} (h : n ≤ m) (hw : toDict env so n v = .ok w) : toDict env so m v = .ok w :=
  ((seAt_mono env h).toObj _ _ _ _ _ _ _).ok hw

theorem toTuple_mono {env : Env} {so n m v w} (h : n ≤ m) (hw : toTuple env so n v = .ok w) : toTuple env so m v = .ok w :=
  ((seAt_mono env h).toObj _ _ _ _ _ _ _).ok hw

/-- The result of `to_dict` does not depend on the fuel. -/
theorem toDict_det {env : Env} {so n m v w w'} (h : toDict env so n v = .ok w) (h' : toDict env so m v = .ok w') : w = w' := by
  have h1 := toDict_mono (Nat.le_max_left n m) h
  have h2 := toDict_mono (Nat.le_max_right n m) h'
  rw [h1] at h2; cases h2; rfl

end Verif
