import Verif.Lemmas.SeMono
/-!
# More fuel does not change a result (deserialization)
-/

namespace Verif

/-- Pointwise. -/
structure DeLe (r r' : DeRec) : Prop where
  render : ∀ cx a, Le (r.render cx a) (r'.render cx a)
  cls : ∀ b c o v, Le (r.cls b c o v) (r'.cls b c o v)
  fromObj : ∀ b re nu tg t v, Le (r.fromObj b re nu tg t v) (r'.fromObj b re nu tg t v)

theorem le_list {x y : Res (List Val)} (f : List Val → Res Val) : Le x y →
    Le (match x with
      | .ok ys => f ys
      | .error e => .error e) (match y with
      | .ok ys => f ys
      | .error e => .error e) := by
  intro h
  rcases h with e | e <;> rw [e]
  · exact .inl rfl
  · exact .refl _

theorem le_pairs {x y : Res (List (Val × Val))} (f : List (Val × Val) → Res Val) : Le x y →
    Le (match x with
      | .ok ys => f ys
      | .error e => .error e) (match y with
      | .ok ys => f ys
      | .error e => .error e) := by
  intro h
  rcases h with e | e <;> rw [e]
  · exact .inl rfl
  · exact .refl _

theorem deMember_le {env : Env} {r r' : DeRec} (h : DeLe r r') (cx t d) : Le (deMember env r cx t d) (deMember env r' cx t d) := by
  unfold deMember
  split
  · exact .refl _
  · rename_i p _
    split
    · exact .refl _
    · rcases h.render cx { ty := t, name := "fake_key", conv := "fake_key", src := .key (.dict .plain [(.str "fake_key", p)]) } with e | e <;> rw [e]
      · exact .inl rfl
      · exact .refl _

theorem deUnion_le {env : Env} {r r' : DeRec} (h : DeLe r r') (cx d ts) : Le (deUnion env r cx d ts) (deUnion env r' cx d ts) := by
  induction ts with
  | nil => exact .refl _
  | cons t ts ih =>
    unfold deUnion
    rcases deMember_le h cx t d with e | e <;> rw [e]
    · exact .inl rfl
    · split
      · exact .refl _
      · exact .refl _
      · exact ih

theorem deBody_le {env : Env} {r r' : DeRec} (h : DeLe r r') (cx a) : Le (deBody env r cx a) (deBody env r' cx a) := by
  unfold deBody
  split
  · exact .refl _
  · split
    · exact .refl _
    · dsimp only
      split
      all_goals try exact .refl _
      all_goals try exact h.render _ _
      · -- class
        split
        · exact h.cls _ _ _ _
        · exact .refl _
      · -- union
        split
        · split
          · split
            · exact h.render _ _
            · exact .refl _
            · exact .refl _
          · exact .refl _
        · split
          · exact .refl _
          · split
            · exact deUnion_le h _ _ _
            · exact .refl _
      · -- list
        split
        · split
          · exact le_list (fun ys => .ok (.list ys)) (mapR_le (fun x _ => h.render _ _))
          · exact .refl _
        · exact .refl _
      · -- set
        rename_i k t _
        split
        · split
          · exact le_list (fun ys => mkSet env.hash (k == .frozen) ys) (mapR_le (fun x _ => h.render _ _))
          · exact .refl _
        · exact .refl _
      · -- deque
        split
        · split
          · exact le_list (fun ys => .ok (.deque ys)) (mapR_le (fun x _ => h.render _ _))
          · exact .refl _
        · exact .refl _
      · -- counter
        rename_i t _
        split
        · split
          · refine le_pairs (fun es => mkDict env.hash .counter es) (mapR_le (fun kv _ => ?_))
            rcases h.render cx { ty := t, name := "k", conv := "k", src := .val (.ok kv.1), alias := a.alias, deser := a.deser } with e | e <;> rw [e]
            · exact .inl rfl
            · exact .refl _
          · exact .refl _
        · exact .refl _
      · -- dict
        rename_i k kt vt _
        split
        · split
          · refine le_pairs (fun es => mkDict env.hash (if k == .deflt then .deflt (factoryOf env vt) else .plain) es) (mapR_le (fun kv _ => ?_))
            have hv : Le (r.render cx { ty := vt, name := "v", conv := "v", src := .val (.ok kv.2), alias := a.alias, deser := a.deser })
              (r'.render cx { ty := vt, name := "v", conv := "v", src := .val (.ok kv.2), alias := a.alias, deser := a.deser }) := h.render _ _
            cases numKey kt with
            | some p =>
              dsimp only
              split
              · exact .refl _
              · rcases hv with e | e <;> rw [e]
                · exact .inl rfl
                · exact .refl _
            | none =>
              dsimp only
              rcases h.render cx { ty := kt, name := "k", conv := "k", src := .val (.ok kv.1), alias := a.alias, deser := a.deser } with e | e <;> rw [e]
              · exact .inl rfl
              · split
                · exact .refl _
                · rcases hv with e | e <;> rw [e]
                  · exact .inl rfl
                  · exact .refl _
          · exact .refl _
        · exact .refl _
      · -- variadic tuple
        split
        · split
          · exact le_list (fun ys => .ok (.tuple ys)) (mapR_le (fun x _ => h.render _ _))
          · exact .refl _
        · exact .refl _
      · -- tuple
        exact le_list (fun ys => .ok (.tuple ys)) (mapR_le (fun x _ => h.render _ _))
      · -- type variable
        split
        · exact .refl _
        · split
          · exact .refl _
          · split
            · exact .refl _
            · exact h.fromObj _ _ _ _ _ _

theorem deRenderF_le {env : Env} {r r' : DeRec} (h : DeLe r r') (cx a) : Le (deRenderF env r cx a) (deRenderF env r' cx a) := by
  unfold deRenderF
  split
  · split
    · exact deBody_le h _ _
    · exact .refl _
    · exact .refl _
  · exact deBody_le h _ _

theorem catchKey_le {α : Type} {s} {x y : Res α} (h : Le x y) : Le (catchKey s x) (catchKey s y) := by
  rcases h with e | e <;> rw [e]
  · exact .inl rfl
  · exact .refl _

theorem deField_le {env : Env} {r r' : DeRec} (h : DeLe r r') (cx c cd ex d f) : Le (deField env r cx c cd ex d f) (deField env r' cx c cd ex d f) := by
  unfold deField
  split
  · exact .refl _
  · dsimp only
    split
    · exact .refl _
    · split
      · exact h.render _ _
      · exact catchKey_le (h.render _ _)

theorem deArgs_le {env : Env} {r r' : DeRec} (h : DeLe r r') (b c cd o d) : Le (deArgs env r b c cd o d) (deArgs env r' b c cd o d) := by
  unfold deArgs
  dsimp only
  split
  · split
    · exact .refl _
    · rename_i f _ _
      rcases h.render (clsDeCx env c cd b o d) (transpArg b f d) with e | e <;> rw [e]
      · exact .inl rfl
      · exact .refl _
  · split
    · split
      · exact .refl _
      · exact .refl _
      · unfold deNamedArgs
        split
        · exact .refl _
        · rename_i ex _
          rcases mapR_le (as := cd.fields.filter (·.renderable)) (fun f _ => deField_le h (clsDeCx env c cd b o d) c cd ex d f) with e | e <;> rw [e]
          · exact .inl rfl
          · exact .refl _
    · have : Le (deTupleArgs r (clsDeCx env c cd b o d) cd d) (deTupleArgs r' (clsDeCx env c cd b o d) cd d) := by
        unfold deTupleArgs
        exact mapR_le (fun _ _ => h.render _ _)
      rcases this with e | e <;> rw [e]
      · exact .inl rfl
      · exact .refl _

theorem deClsF_le {env : Env} {r r' : DeRec} (h : DeLe r r') (b c o d) : Le (deClsF env r b c o d) (deClsF env r' b c o d) := by
  unfold deClsF
  split
  · exact .refl _
  · rename_i cd _
    rcases deArgs_le h b c cd o d with e | e <;> rw [e]
    · exact .inl rfl
    · exact .refl _

theorem cacheDeUnion_le {env : Env} {r r' : DeRec} (h : DeLe r r') (ts tg nu d) : Le (cacheDeUnion env r ts tg nu d) (cacheDeUnion env r' ts tg nu d) := by
  unfold cacheDeUnion
  split
  · exact deUnion_le h _ _ _
  · exact .refl _

theorem wrapUser_le {α : Type} {x y : Res α} (h : Le x y) : Le (wrapUser x) (wrapUser y) := by
  rcases h with e | e <;> rw [e]
  · exact .inl rfl
  · exact .refl _

theorem fromObjBody_le {env : Env} {r r' : DeRec} (h : DeLe r r') (b re nu mg c d) :
    Le (fromObjBody env r b re nu mg c d) (fromObjBody env r' b re nu mg c d) := by
  unfold fromObjBody
  dsimp only
  split
  · exact .refl _
  · split
    all_goals try exact .refl _
    · exact h.cls _ _ _ _
    · split
      · split
        · exact .refl _
        · exact h.fromObj _ _ _ _ _ _
      · exact .refl _
    · split
      · exact le_list (fun ys => .ok (.list ys)) (mapR_le (fun x _ => h.fromObj _ _ _ _ _ _))
      · exact .refl _
    · rename_i k t _
      split
      · exact le_list (fun ys => mkSet env.hash (k == .frozen) ys) (mapR_le (fun x _ => h.fromObj _ _ _ _ _ _))
      · exact .refl _
    · split
      · exact le_list (fun ys => .ok (.deque ys)) (mapR_le (fun x _ => h.fromObj _ _ _ _ _ _))
      · exact .refl _
    · rename_i t _
      split
      · refine le_pairs (fun es => mkDict env.hash .counter es) (mapR_le (fun kv _ => ?_))
        rcases h.fromObj b re nu .external t kv.1 with e | e <;> rw [e]
        · exact .inl rfl
        · exact .refl _
      · exact .refl _
    · split
      · refine le_list (fun ys => .ok (.tuple ys)) (mapR_le (fun x _ => ?_))
        split
        · exact h.fromObj _ _ _ _ _ _
        · exact .refl _
      · exact .refl _
    · rename_i k kt vt _
      split
      · refine le_pairs (fun es => mkDict env.hash (if k == .deflt then .deflt (factoryOf env vt) else .plain) es) (mapR_le (fun kv _ => ?_))
        rcases h.fromObj b re nu .external kt kv.1 with e | e <;> rw [e]
        · exact .inl rfl
        · split
          · exact .refl _
          · rcases h.fromObj b re nu .external vt kv.2 with e | e <;> rw [e]
            · exact .inl rfl
            · exact .refl _
      · exact .refl _

theorem fromObjF_le {env : Env} {r r' : DeRec} (h : DeLe r r') (b re nu tg t d) :
    Le (fromObjF env r b re nu tg t d) (fromObjF env r' b re nu tg t d) := by
  unfold fromObjF
  have key : ∀ c : Ty, Le (if typeIs d c then .ok d else
      match c with
      | .gen k args => wrapUser (fromObjBody env r b re nu (.gen k args) (.cls k) d)
      | .union ts =>
        if (Ty.union ts).isOpt then wrapUser (fromObjBody env r b re nu (.union ts) (.union ts) d)
        else cacheDeUnion env r ts tg nu d
      | c => wrapUser (fromObjBody env r b re nu c c d))
      (if typeIs d c then .ok d else
      match c with
      | .gen k args => wrapUser (fromObjBody env r' b re nu (.gen k args) (.cls k) d)
      | .union ts =>
        if (Ty.union ts).isOpt then wrapUser (fromObjBody env r' b re nu (.union ts) (.union ts) d)
        else cacheDeUnion env r' ts tg nu d
      | c => wrapUser (fromObjBody env r' b re nu c c d)) := by
    intro c
    split
    · exact .refl _
    · split
      · exact wrapUser_le (fromObjBody_le h _ _ _ _ _ _)
      · split
        · exact wrapUser_le (fromObjBody_le h _ _ _ _ _ _)
        · exact cacheDeUnion_le h _ _ _ _
      · exact wrapUser_le (fromObjBody_le h _ _ _ _ _ _)
  exact key _

theorem deAt_le (env : Env) (n : Nat) : DeLe (deAt env n) (deAt env (n + 1)) := by
  induction n with
  | zero => exact ⟨fun _ _ => .inl rfl, fun _ _ _ _ => .inl rfl, fun _ _ _ _ _ _ => .inl rfl⟩
  | succ n ih => exact ⟨fun cx a => deRenderF_le ih cx a, fun b c o d => deClsF_le ih b c o d, fun b re nu tg t d => fromObjF_le ih b re nu tg t d⟩

theorem deAt_le' (env : Env) {n m : Nat} (h : n ≤ m) : DeLe (deAt env n) (deAt env m) := by
  induction h with
  | refl => exact ⟨fun _ _ => .refl _, fun _ _ _ _ => .refl _, fun _ _ _ _ _ _ => .refl _⟩
  | step _ ih =>
    have h2 := deAt_le env ‹Nat›
    exact ⟨fun cx a => (ih.render cx a).trans (h2.render cx a), fun b c o d => (ih.cls b c o d).trans (h2.cls b c o d),
      fun b re nu tg t d => (ih.fromObj b re nu tg t d).trans (h2.fromObj b re nu tg t d)⟩

/-- More fuel does not change the result of `from_dict`. -/
theorem fromDict_le {env : Env} {o : DeOpts} {n m : Nat} {t d} (h : n ≤ m) : Le (fromDict env o n t d) (fromDict env o m t d) :=
  (deAt_le' env h).fromObj _ _ _ _ _ _

theorem fromTuple_le {env : Env} {o : DeOpts} {n m : Nat} {t d} (h : n ≤ m) : Le (fromTuple env o n t d) (fromTuple env o m t d) :=
  (deAt_le' env h).fromObj _ _ _ _ _ _

theorem fromDict_mono {env : Env} {o : DeOpts} {n m : Nat} {t d v} (h : n ≤ m) (hv : fromDict env o n t d = .ok v) : fromDict env o m t d = .ok v :=
  (fromDict_le h).ok hv

theorem fromTuple_mono {env : Env} {o : DeOpts} {n m : Nat} {t d v} (h : n ≤ m) (hv : fromTuple env o n t d = .ok v) : fromTuple env o m t d = .ok v :=
  (fromTuple_le h).ok hv

/-- Two runs that end, whatever their fuel, end alike. -/
theorem fromDict_det {env : Env} {o : DeOpts} {n m : Nat} {t d} {x y : Res Val} (hx : fromDict env o n t d = x) (hy : fromDict env o m t d = y)
    (hfx : x ≠ .error .fuel) (hfy : y ≠ .error .fuel) : x = y := by
  rcases Nat.le_total n m with h | h
  · rcases fromDict_le (env := env) (o := o) (t := t) (d := d) h with e | e
    · exact absurd (hx.symm.trans e) hfx
    · rw [← hx, ← hy, e]
  · rcases fromDict_le (env := env) (o := o) (t := t) (d := d) h with e | e
    · exact absurd (hy.symm.trans e) hfy
    · rw [← hx, ← hy, e]

theorem fromTuple_det {env : Env} {o : DeOpts} {n m : Nat} {t d} {x y : Res Val} (hx : fromTuple env o n t d = x) (hy : fromTuple env o m t d = y)
    (hfx : x ≠ .error .fuel) (hfy : y ≠ .error .fuel) : x = y := by
  rcases Nat.le_total n m with h | h
  · rcases fromTuple_le (env := env) (o := o) (t := t) (d := d) h with e | e
    · exact absurd (hx.symm.trans e) hfx
    · rw [← hx, ← hy, e]
  · rcases fromTuple_le (env := env) (o := o) (t := t) (d := d) h with e | e
    · exact absurd (hy.symm.trans e) hfy
    · rw [← hx, ← hy, e]

end Verif
