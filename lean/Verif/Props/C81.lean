import Verif.Model.Separate
import Verif.Examples.World
/-!
# C81: each decorator's arguments are in force for its own direction

`to_dict` should follow the arguments of `@serialize`, `from_dict` those of `@deserialize`, in whatever order they are applied.
-/

namespace Verif.Props
open Verif

namespace C81

/-- The class with the arguments of one application of `serialize`, or of `deserialize`, as its options. -/
def own (d : Deco) (cd : ClassDef) : ClassDef :=
  match d.side with
  | .se => { cd with seCase := d.case, tagging := d.tagging, typeCheck := d.typeCheck, transparent := d.transparent, classSer := d.classSer, reuseDflt := d.reuse, convDflt := d.conv, skipIfDefaultDflt := d.skipDefault, skipIfNoneDflt := d.skipNone }
  | .de => { cd with deCase := d.case, tagging := d.tagging, typeCheck := d.typeCheck, transparent := d.transparent, classDe := d.classDe, reuseDflt := d.reuse, denyUnknown := d.denyUnknown }

/-- `d` is the last application for a direction. -/
def IsLast (side : Side) (ds : List Deco) (d : Deco) : Prop :=
  d.side = side ∧ ∃ before after, ds = before ++ d :: after ∧ ∀ e ∈ after, e.side ≠ side

/-- Class tables that agree except that each class has the options of its last decorator for a direction: what the property says. -/
inductive Table (apps : ClassId → List Deco) (side : Side) : List (ClassId × ClassDef) → List (ClassId × ClassDef) → Prop
  | nil : Table apps side [] []
  | cons {c cd d l l'} : IsLast side (apps c) d → Table apps side l l' → Table apps side ((c, cd) :: l) ((c, own d cd) :: l')

end C81

open C81

/-! ## What is in force -/

/-- The application whose function is there for a direction. -/
def C81.rendered (st : DecoState) : Side → Option Deco
  | .se => st.se
  | .de => st.de

theorem made_side (ds : List Deco) (st : DecoState) (side : Side) (d : Deco) (h : IsLast side ds d) :
    rendered (ds.foldl DecoState.apply st) side = some d := by
  obtain ⟨hs, before, after, he, ha⟩ := h
  subst he
  rw [List.foldl_append, List.foldl_cons]
  generalize List.foldl DecoState.apply st before = st0
  have key : ∀ (l : List Deco) (st1 : DecoState), (∀ e ∈ l, e.side ≠ side) → rendered st1 side = some d →
      rendered (l.foldl DecoState.apply st1) side = some d := by
    intro l
    induction l with
    | nil => intro st1 _ h; exact h
    | cons e l ih =>
      intro st1 hl h
      refine ih _ (fun x hx => hl x (List.mem_cons_of_mem _ hx)) ?_
      have := hl e List.mem_cons_self
      cases side <;> cases hes : e.side <;> simp_all [DecoState.apply, rendered]
  refine key after _ ha ?_
  cases side <;> simp [DecoState.apply, hs, rendered]

theorem made_dflts (ds : List Deco) : ∀ (st : DecoState) (s : ScopeDflts), st.dflts = some s → (ds.foldl DecoState.apply st).dflts = some s := by
  induction ds with
  | nil => intro st s h; exact h
  | cons d ds ih => intro st s h; exact ih _ _ (by simp [DecoState.apply, h])

theorem made_beartype (ds : List Deco) : ∀ (st : DecoState),
    ((ds.foldl DecoState.apply st).beartype = true ↔ st.beartype = true ∨ ∃ d ∈ ds, d.typeCheck = .strict) := by
  induction ds with
  | nil => intro st; simp
  | cons d ds ih =>
    intro st
    rw [List.foldl_cons, ih]
    simp [DecoState.apply, or_assoc]

/-- What is in force for writing after any sequence of decorators that contains `serialize`: the arguments of the last `serialize`, but the
defaults for `reuse_instances`, `convert_sets`, `skip_if_default` and `skip_if_none` are those of whichever decorator was applied first. -/
theorem C81_in_force_writing {ds : List Deco} {first d : Deco} {rest : List Deco} (h : ds = first :: rest) (hd : IsLast .se ds d) (cd : ClassDef) :
    ((DecoState.run ds).meet .se).seDef cd =
      own { d with reuse := first.reuse, conv := first.conv, skipDefault := first.skipDefault, skipNone := first.skipNone } cd := by
  have hs : (DecoState.run ds).se = some d := made_side ds {} .se d hd
  have hf : (DecoState.run ds).dflts = some ⟨first.reuse, first.conv, first.skipDefault, first.skipNone⟩ := by
    subst h; exact made_dflts rest _ _ rfl
  simp [DecoState.meet, DecoState.seDef, hs, hf, own, hd.1]

/-- Likewise for reading: the default for `reuse_instances` is that of the decorator applied first, and the constructor checks its arguments
if any of the decorators asked for strict checking. -/
theorem C81_in_force_reading {ds : List Deco} {first d : Deco} {rest : List Deco} (h : ds = first :: rest) (hd : IsLast .de ds d) (cd : ClassDef)
    {tc : TypeCheck} (hc : d.typeCheck = .coerce → tc = .coerce) (hs : d.typeCheck ≠ .coerce → (∃ e ∈ ds, e.typeCheck = .strict) → tc = .strict)
    (hn : d.typeCheck ≠ .coerce → (∀ e ∈ ds, e.typeCheck ≠ .strict) → tc = .disabled) :
    ((DecoState.run ds).meet .de).deDef cd = own { d with reuse := first.reuse, typeCheck := tc } cd := by
  have hde : (DecoState.run ds).de = some d := made_side ds {} .de d hd
  have hf : (DecoState.run ds).dflts = some ⟨first.reuse, first.conv, first.skipDefault, first.skipNone⟩ := by
    subst h; exact made_dflts rest _ _ rfl
  have hb : (DecoState.run ds).beartype = true ↔ ∃ d ∈ ds, d.typeCheck = .strict := by
    have := made_beartype ds {}
    simpa [DecoState.run] using this
  have ht : (if d.typeCheck = .coerce then TypeCheck.coerce else if (DecoState.run ds).beartype then .strict else .disabled) = tc := by
    by_cases h1 : d.typeCheck = .coerce
    · simp [h1, hc h1]
    · by_cases h2 : ∃ e ∈ ds, e.typeCheck = .strict
      · simp [h1, hb.mpr h2, hs h1 h2]
      · have h3 : (DecoState.run ds).beartype = false := by
          cases hx : (DecoState.run ds).beartype with
          | false => rfl
          | true => exact absurd (hb.mp hx) h2
        simp [h1, h3, hn h1 (fun e he hst => h2 ⟨e, he, hst⟩)]
  simp only [DecoState.meet, DecoState.deDef, hde, hf, own, hd.1, Option.isSome_some, if_true, ht]

/-! ## The property, for decorators that agree -/

theorem table_made {env : Env} {apps : ClassId → List Deco} {side : Side} {l' : List (ClassId × ClassDef)} (f : ClassId × ClassDef → ClassDef)
    (hf : ∀ c cd d, (c, cd) ∈ env.classes → IsLast side (apps c) d → f (c, cd) = own d cd) (h : Table apps side env.classes l') :
    env.classes.map (fun p => (p.1, f p)) = l' := by
  generalize env.classes = l at *
  induction h with
  | nil => rfl
  | cons hl _ ih =>
    rw [List.map_cons, ih (fun c cd d hm => hf c cd d (List.mem_cons_of_mem _ hm)), hf _ _ _ List.mem_cons_self hl]

/-- If all decorators applied to a class have the same defaults for `reuse_instances`, `convert_sets`, `skip_if_default` and `skip_if_none`, then
in whatever order and however often they are applied, writing follows the arguments of the last `serialize`. Missing for the property:
decorators whose defaults differ (`C81_false_skip`, `C81_false_order`). -/
theorem C81_writing_partial {env : Env} {apps : ClassId → List Deco} {l' : List (ClassId × ClassDef)}
    (hagree : ∀ c, ∀ d ∈ apps c, ∀ e ∈ apps c, d.reuse = e.reuse ∧ d.conv = e.conv ∧ d.skipDefault = e.skipDefault ∧ d.skipNone = e.skipNone)
    (h : Table apps .se env.classes l') (o : SeOpts) (n : Nat) (v : Val) :
    toDict (env.made apps .se) o n v = toDict { env with classes := l' } o n v ∧
    toTuple (env.made apps .se) o n v = toTuple { env with classes := l' } o n v := by
  have : env.made apps .se = { env with classes := l' } := by
    unfold Env.made
    rw [table_made (fun p => ((DecoState.run (apps p.1)).meet .se).seDef p.2) _ h]
    intro c cd d _ hl
    have hm : d ∈ apps c := by obtain ⟨-, b, a, he, -⟩ := hl; rw [he]; simp
    cases hds : apps c with
    | nil => rw [hds] at hm; cases hm
    | cons first rest =>
      dsimp only
      rw [hds] at hl
      rw [C81_in_force_writing rfl hl]
      obtain ⟨h1, h2, h3, h4⟩ := hagree c first (by rw [hds]; exact List.mem_cons_self) d hm
      rw [h1, h2, h3, h4]
  rw [this]; exact ⟨rfl, rfl⟩

/-- Reading follows the arguments of the last `deserialize` if all decorators applied to a class have the same default for `reuse_instances`,
and no other decorator checks strictly unless this one does. Missing for the property: `C81_false_order`, `C81_false_check`. -/
theorem C81_reading_partial {env : Env} {apps : ClassId → List Deco} {l' : List (ClassId × ClassDef)}
    (hagree : ∀ c, ∀ d ∈ apps c, ∀ e ∈ apps c, d.reuse = e.reuse)
    (hcheck : ∀ c, ∀ d ∈ apps c, d.typeCheck = .strict → ∀ e, IsLast .de (apps c) e → e.typeCheck ≠ .disabled)
    (h : Table apps .de env.classes l') (o : DeOpts) (n : Nat) (t : Ty) (d : Val) :
    fromDict (env.made apps .de) o n t d = fromDict { env with classes := l' } o n t d ∧
    fromTuple (env.made apps .de) o n t d = fromTuple { env with classes := l' } o n t d := by
  have : env.made apps .de = { env with classes := l' } := by
    unfold Env.made
    rw [table_made (fun p => ((DecoState.run (apps p.1)).meet .de).deDef p.2) _ h]
    intro c cd d _ hl
    have hl0 := hl
    have hm : d ∈ apps c := by obtain ⟨-, b, a, he, -⟩ := hl; rw [he]; simp
    cases hds : apps c with
    | nil => rw [hds] at hm; cases hm
    | cons first rest =>
      dsimp only
      have h1 := hagree c first (by rw [hds]; exact List.mem_cons_self) d hm
      have h2 := hcheck c
      rw [hds] at hl h2 hm
      rw [C81_in_force_reading rfl hl cd (tc := d.typeCheck) id ?_ ?_, h1]
      · rintro hc ⟨e, he, hst⟩
        have := h2 e he hst d hl
        cases hd : d.typeCheck <;> simp_all
      · intro hc hno
        have := hno d hm
        cases hd : d.typeCheck <;> simp_all
  rw [this]; exact ⟨rfl, rfl⟩

/-- `@serde(...)`, and `@serialize(...)` and `@deserialize(...)` with these arguments in either order, come to the same: the arguments are in force. -/
theorem C81_serde (env : Env) (args : ClassId → Deco) (apps : ClassId → List Deco) (side : Side)
    (h : ∀ c, apps c = serdeApps (args c) ∨ apps c = (serdeApps (args c)).reverse) :
    env.made apps side = { env with classes := env.classes.map fun p => (p.1, own { args p.1 with side := side } p.2) } := by
  unfold Env.made
  congr 1
  apply List.map_congr_left
  intro p _
  have ht : ∀ t : TypeCheck, (if t = .coerce then TypeCheck.coerce else if t = .strict then .strict else .disabled) = t := by
    intro t
    cases t <;> rfl
  rcases h p.1 with h | h <;> rw [h]
  all_goals cases side <;> simp [serdeApps, DecoState.run, DecoState.apply, DecoState.meet, DecoState.seDef, DecoState.deDef, own, ht]

theorem made_none (ds : List Deco) (side : Side) (h : ∀ d ∈ ds, d.side ≠ side) : ∀ st : DecoState, rendered st side = none →
    rendered (ds.foldl DecoState.apply st) side = none := by
  induction ds with
  | nil => exact fun st h => h
  | cons d ds ih =>
    intro st hst
    refine ih (fun e he => h e (List.mem_cons_of_mem _ he)) _ ?_
    have := h d List.mem_cons_self
    cases side <;> cases hd : d.side <;> simp_all [DecoState.apply, rendered]

/-- A class with decorators for one direction only gets the functions of the other one when it is met: with default arguments and without a type check of its
own, but with the defaults of the decorator applied first. Writing: -/
theorem C81_on_the_fly_writing {ds : List Deco} {first : Deco} {rest : List Deco} (h : ds = first :: rest) (hno : ∀ d ∈ ds, d.side = .de) (cd : ClassDef) :
    ((DecoState.run ds).meet .se).seDef cd = own
      { side := .se, reuse := first.reuse, conv := first.conv, skipDefault := first.skipDefault, skipNone := first.skipNone, typeCheck := .disabled } cd := by
  have hn : (DecoState.run ds).se = none := made_none ds .se (fun d hd => by rw [hno d hd]; simp) {} rfl
  have hf : (DecoState.run ds).dflts = some ⟨first.reuse, first.conv, first.skipDefault, first.skipNone⟩ := by
    subst h; exact made_dflts rest _ _ rfl
  simp [DecoState.meet, DecoState.seDef, DecoState.apply, Deco.bare, hn, hf, own]

/-- Reading: strictly checked exactly if one of the decorators asked for it. -/
theorem C81_on_the_fly_reading {ds : List Deco} {first : Deco} {rest : List Deco} (h : ds = first :: rest) (hno : ∀ d ∈ ds, d.side = .se) (cd : ClassDef)
    {tc : TypeCheck} (hs : (∃ e ∈ ds, e.typeCheck = .strict) → tc = .strict) (hd : (∀ e ∈ ds, e.typeCheck ≠ .strict) → tc = .disabled) :
    ((DecoState.run ds).meet .de).deDef cd = own { side := .de, reuse := first.reuse, typeCheck := tc } cd := by
  have hn : (DecoState.run ds).de = none := made_none ds .de (fun d hd => by rw [hno d hd]; simp) {} rfl
  have hf : (DecoState.run ds).dflts = some ⟨first.reuse, first.conv, first.skipDefault, first.skipNone⟩ := by
    subst h; exact made_dflts rest _ _ rfl
  have hb : (DecoState.run ds).beartype = true ↔ ∃ d ∈ ds, d.typeCheck = .strict := by
    have := made_beartype ds {}
    simpa [DecoState.run] using this
  have ht : (if (DecoState.run ds).beartype then TypeCheck.strict else .disabled) = tc := by
    by_cases h2 : ∃ e ∈ ds, e.typeCheck = .strict
    · simp [hb.mpr h2, hs h2]
    · have h3 : (DecoState.run ds).beartype = false := by
        cases hx : (DecoState.run ds).beartype with
        | false => rfl
        | true => exact absurd (hb.mp hx) h2
      simp [h3, hd (fun e he hst => h2 ⟨e, he, hst⟩)]
  have hdd : (TypeCheck.disabled == TypeCheck.strict) = false := rfl
  simp [DecoState.meet, DecoState.deDef, DecoState.apply, Deco.bare, hn, hf, own, ht, hdd]

/-! ## Examples -/

namespace C81Ex

/-- A class with a date and an optional number. -/
def ev : ClassDef := { name := "Ev", mro := ["Ev"], fields := [{ name := "at", ty := .dt .date }, { name := "n", ty := .union [.prim .int, .none] }] }

def env : Env := Ex.mk [("Ev", ev)]

def one : Val := .inst "Ev" [("at", .dt .date "2024-01-31"), ("n", .none)]

/-- `@serialize(skip_if_none=True)`, with the default for `reuse_instances` of `serde`. -/
def seSkip : Deco := { side := .se, reuse := true, skipNone := true }

/-- `@deserialize(skip_if_none=True, deny_unknown_fields=True)` -/
def deSkip : Deco := { side := .de, reuse := true, skipNone := true, denyUnknown := true }

/-- Decorators that agree on the four defaults, one applied twice. -/
theorem agree : ∀ d ∈ [deSkip, seSkip, deSkip], ∀ e ∈ [deSkip, seSkip, deSkip],
    d.reuse = e.reuse ∧ d.conv = e.conv ∧ d.skipDefault = e.skipDefault ∧ d.skipNone = e.skipNone := by
  intro d hd e he
  simp only [List.mem_cons, List.not_mem_nil, or_false] at hd he
  rcases hd with rfl | rfl | rfl <;> rcases he with rfl | rfl | rfl <;> exact ⟨rfl, rfl, rfl, rfl⟩

theorem tableSe : Table (fun _ => [deSkip, seSkip, deSkip]) .se env.classes [("Ev", own seSkip ev)] :=
  .cons ⟨rfl, [deSkip], [deSkip], rfl, by simp [deSkip]⟩ .nil

theorem tableDe : Table (fun _ => [deSkip, seSkip, deSkip]) .de env.classes [("Ev", own deSkip ev)] :=
  .cons ⟨rfl, [deSkip, seSkip], [], rfl, by simp⟩ .nil

theorem lastDe : IsLast .de [deSkip, seSkip, deSkip] deSkip ∧
    ∀ d ∈ [deSkip, seSkip, deSkip], d.typeCheck = .strict → ∀ e, IsLast .de [deSkip, seSkip, deSkip] e → e.typeCheck ≠ .disabled := by
  refine ⟨⟨rfl, [deSkip, seSkip], [], rfl, by simp⟩, ?_⟩
  rintro d - - e ⟨-, b, a, h, -⟩
  have : e ∈ [deSkip, seSkip, deSkip] := by rw [h]; simp
  simp only [List.mem_cons, List.not_mem_nil, or_false] at this
  rcases this with rfl | rfl | rfl <;> simp [deSkip, seSkip]

/-- The hypotheses met together: the table is written as if `seSkip` were the only decorator. -/
example (v : Val) : toDict (env.made (fun _ => [deSkip, seSkip, deSkip]) .se) {} 9 v = toDict { env with classes := [("Ev", own seSkip ev)] } {} 9 v :=
  (C81_writing_partial (fun _ => agree) tableSe {} 9 v).1

/-- And read as if `deSkip` were. -/
example (d : Val) : fromDict (env.made (fun _ => [deSkip, seSkip, deSkip]) .de) {} 9 (.cls "Ev") d = fromDict { env with classes := [("Ev", own deSkip ev)] } {} 9 (.cls "Ev") d :=
  (C81_reading_partial (fun _ d hd e he => (agree d hd e he).1) (fun _ => lastDe.2) tableDe {} 9 (.cls "Ev") d).1

/-- What is written then. -/
example : toDict (env.made (fun _ => [deSkip, seSkip, deSkip]) .se) {} 9 one = .ok (.dict .plain [(.str "at", .dt .date "2024-01-31")]) := rfl

/-- An order that `C81_serde` is about. -/
example : env.made (fun _ => (serdeApps seSkip).reverse) .se = { env with classes := env.classes.map fun p => (p.1, own { seSkip with side := .se } p.2) } :=
  C81_serde env (fun _ => seSkip) _ .se (fun _ => .inr rfl)

/-- Only `@serialize`, or only `@deserialize`. -/
example : ((DecoState.run [seSkip]).meet .de).deDef ev = own { side := .de, reuse := true, typeCheck := .strict } ev :=
  C81_on_the_fly_reading rfl (by simp [seSkip]) ev (fun _ => rfl) (fun h => absurd rfl (h seSkip List.mem_cons_self))

example : ((DecoState.run [deSkip]).meet .se).seDef ev = own { side := .se, reuse := true, skipNone := true, typeCheck := .disabled } ev :=
  C81_on_the_fly_writing rfl (by simp [deSkip]) ev

end C81Ex

/-! ## Where it fails -/

open C81Ex

/-- `@serialize(skip_if_none=True)` above `@deserialize`: the argument has no effect, the `None` is written. Below it, it has. -/
theorem C81_false_skip : ∃ (env : Env) (se : Deco) (l' : List (ClassId × ClassDef)) (v w w' : Val),
    Table (fun _ => [Deco.bare .de, se]) .se env.classes l' ∧
    toDict (env.made (fun _ => [Deco.bare .de, se]) .se) {} 9 v = .ok w ∧
    toDict { env with classes := l' } {} 9 v = .ok w' ∧
    toDict (env.made (fun _ => [se, Deco.bare .de]) .se) {} 9 v = .ok w' ∧ w ≠ w' :=
  ⟨env, seSkip, [("Ev", own seSkip ev)], one, .dict .plain [(.str "at", .dt .date "2024-01-31"), (.str "n", .none)],
    .dict .plain [(.str "at", .dt .date "2024-01-31")], .cons ⟨rfl, [Deco.bare .de], [], rfl, by simp⟩ .nil, rfl, rfl, rfl, by simp⟩

/-- The order matters even without arguments: under `@serialize @deserialize` a date is written as a date, under `@deserialize @serialize` as a string,
because their defaults for `reuse_instances` differ; on the way in, a date is accepted by the former and refused by the latter. -/
theorem C81_false_order : ∃ (env : Env) (v w w' : Val) (e : Exc), w ≠ w' ∧
    toDict (env.made (fun _ => [Deco.bare .de, Deco.bare .se]) .se) {} 9 v = .ok w ∧
    toDict (env.made (fun _ => [Deco.bare .se, Deco.bare .de]) .se) {} 9 v = .ok w' ∧
    fromDict (env.made (fun _ => [Deco.bare .de, Deco.bare .se]) .de) {} 9 (.cls "Ev") w = .ok v ∧
    fromDict (env.made (fun _ => [Deco.bare .se, Deco.bare .de]) .de) {} 9 (.cls "Ev") w = .error e :=
  ⟨env, one, .dict .plain [(.str "at", .dt .date "2024-01-31"), (.str "n", .none)],
    .dict .plain [(.str "at", .str "2024-01-31"), (.str "n", .none)], _, by simp, rfl, rfl, rfl, rfl⟩

/-- `@deserialize(type_check=disabled)` does not switch the check off if there is a plain `@serialize` too. -/
theorem C81_false_check : ∃ (env : Env) (de : Deco) (l' : List (ClassId × ClassDef)) (d v : Val) (e : Exc), de.typeCheck = .disabled ∧
    Table (fun _ => [de, Deco.bare .se]) .de env.classes l' ∧
    fromDict { env with classes := l' } {} 9 (.cls "Ev") d = .ok v ∧
    fromDict (env.made (fun _ => [de]) .de) {} 9 (.cls "Ev") d = .ok v ∧
    fromDict (env.made (fun _ => [de, Deco.bare .se]) .de) {} 9 (.cls "Ev") d = .error e :=
  ⟨Ex.mk [("Ev", { name := "Ev", mro := ["Ev"], fields := [{ name := "n", ty := .prim .int }] })],
    { Deco.bare .de with typeCheck := .disabled }, _, .dict .plain [(.str "n", .str "x")], .inst "Ev" [("n", .str "x")], _, rfl,
    .cons ⟨rfl, [], [Deco.bare .se], rfl, by simp [Deco.bare]⟩ .nil, rfl, rfl, rfl⟩

end Verif.Props
