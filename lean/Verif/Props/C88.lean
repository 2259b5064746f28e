import Verif.Model.Heap
import Verif.Examples.World
/-!
# C88: writing leaves the object alone and shares none of its containers

`to_dict` and `to_tuple` change nothing in the object they are given, and what they return holds no list, dict, set, deque or object that the given object
holds. Both fail: a container behind a bare annotation is handed over as it is (`C88_false_shared`), and with internal tagging a transparent class around a
bare dict gets the tag written into its own dict (`C88_false_written`). Proved: nothing else is shared, nothing else is written to.
-/

namespace Verif.Heap
open Verif

/-! ## Spec -/

/-- `x` is an item of the container `v`. -/
inductive Inside : Obj → Obj → Prop
  | tuple {x xs} : x ∈ xs → Inside x (.tuple xs)
  | list {x a xs} : x ∈ xs → Inside x (.list a xs)
  | deque {x a xs} : x ∈ xs → Inside x (.deque a xs)
  | set {x a xs} : x ∈ xs → Inside x (.set a xs)
  | key {k x a kvs} : (k, x) ∈ kvs → Inside (.atom k) (.dict a kvs)
  | val {k x a kvs} : (k, x) ∈ kvs → Inside x (.dict a kvs)

/-- The container or object with address `a` is reached from a value. -/
inductive Holds (a : Nat) : Obj → Prop
  | list (xs) : Holds a (.list (some a) xs)
  | deque (xs) : Holds a (.deque (some a) xs)
  | set (xs) : Holds a (.set (some a) xs)
  | dict (kvs) : Holds a (.dict (some a) kvs)
  | inst (c attrs) : Holds a (.inst (some a) c attrs)
  | inn {x v} : Inside x v → Holds a x → Holds a v
  | attr {b c attrs k x} : (k, x) ∈ attrs → Holds a x → Holds a (.inst b c attrs)

/-- Annotations whose values are handed over as they are: bare containers, and leaves. -/
inductive Whole : Bool → Ty → Prop
  | list {b} : Whole b (.listB .list)
  | set {k} : Whole false (.setB k)
  | dict {b k} : Whole b (.dictB k)
  | tuple {b} : Whole b .tupleB
  | prim {b p} : Whole b (.prim p)
  | newType {b n p} : Whole b (.newType n p)
  | std {b k} : Whole b (.std k)
  | dt {b k} : Whole b (.dt k)
  | lit {b vs} : Whole b (.lit vs)

/-- Annotations whose values are copied, the items being handed over as they are. -/
inductive Shallow : Ty → Prop
  | list {k} : Shallow (.listB k)
  | deque : Shallow .dequeB
  | set {k} : Shallow (.setB k)
  | counterB : Shallow .counterB
  | counter {t} : Shallow (.counter t)

/-- The annotation of the items (for a mapping, of the values). -/
inductive ItemOf : Ty → Ty → Prop
  | list {k t} : ItemOf (.list k t) t
  | deque {t} : ItemOf (.deque t) t
  | set {k t} : ItemOf (.set k t) t
  | tupleV {t} : ItemOf (.tupleV t) t
  | tuple {ts t} : t ∈ ts → ItemOf (.tuple ts) t
  | dict {k kt t} : ItemOf (.dict k kt t) t

/-- `Passed env conv t v y`: going through `v` along the annotation `t` (`none`: through containers of any kind, as for `Any`) leads to the value `y`
at a place where values are handed over as they are. -/
inductive Passed (env : Env) : Option Bool → Option Ty → Obj → Obj → Prop
  | whole {b t v} : Whole b t → Passed env (some b) (some t) v v
  | shallow {cv t x v} : Shallow t → Inside x v → Passed env cv (some t) v x
  | alias {cv n t v y} : Passed env cv (some t) v y → Passed env cv (some (.alias n t)) v y
  | gen {cv c as v y} : Passed env cv (some (.cls c)) v y → Passed env cv (some (.gen c as)) v y
  | member {cv ts t v y} : t ∈ ts → Passed env cv (some t) v y → Passed env cv (some (.union ts)) v y
  | item {cv t e x v y} : ItemOf t e → Inside x v → Passed env cv (some e) x y → Passed env cv (some t) v y
  | cls {cv c v y} : Passed env cv none v y → (∃ a c attrs, v = .inst a c attrs) → Passed env cv (some (.cls c)) v y
  | any {cv v y} : Passed env (some false) none v y → Passed env cv (some .any) v y
  | tvar {cv n v y} : Passed env (some false) none v y → Passed env cv (some (.tvar n)) v y
  | inn {cv x v y} : Inside x v → Passed env cv none x y → Passed env cv none v y
  | field {cv a c attrs cd f x y} : env.cls c = some cd → f ∈ cd.fields → (f.name, x) ∈ attrs →
      Passed env (some (cv.getD cd.convDflt)) (some f.ty) x y → Passed env cv none (.inst a c attrs) y
  | flat {cv a c attrs cd f b c' attrs' ch cd' g z y} : env.cls c = some cd → f ∈ cd.fields → f.flatten = true → (f.name, .inst b c' attrs') ∈ attrs →
      f.ty = .cls ch ∨ f.ty = .union [.cls ch, .none] → env.cls ch = some cd' → g ∈ cd'.fields → (g.name, z) ∈ attrs' →
      Passed env (some (cv.getD cd.convDflt)) (some g.ty) z y → Passed env cv none (.inst a c attrs) y

/-- Everything a result holds and everything written to comes from one of the values `P`. -/
def Tame (P : Obj → Prop) (x : Obj) (l : List Nat) : Prop :=
  (∀ a, Holds a x → ∃ y, P y ∧ Holds a y) ∧ (∀ a ∈ l, ∃ kvs, P (.dict (some a) kvs)) ∧ ∀ a kvs, x = .dict (some a) kvs → ∃ kvs', P (.dict (some a) kvs')

/-! ## Lemmas -/

theorem not_holds_atom {a : Nat} {v : Val} : ¬ Holds a (.atom v) := by
  intro h; cases h with | inn h _ => cases h

theorem holds_tuple {a xs} (h : Holds a (.tuple xs)) : ∃ x ∈ xs, Holds a x := by
  cases h with | inn h1 h2 => cases h1 with | tuple h => exact ⟨_, h, h2⟩

theorem holds_list {a xs} (h : Holds a (.list none xs)) : ∃ x ∈ xs, Holds a x := by
  cases h with | inn h1 h2 => cases h1 with | list h => exact ⟨_, h, h2⟩

theorem holds_set {a xs} (h : Holds a (.set none xs)) : ∃ x ∈ xs, Holds a x := by
  cases h with | inn h1 h2 => cases h1 with | set h => exact ⟨_, h, h2⟩

theorem holds_dict {a b kvs} (h : Holds a (.dict b kvs)) : b = some a ∨ ∃ kv ∈ kvs, Holds a kv.2 := by
  cases h with
  | dict => exact .inl rfl
  | inn h1 h2 =>
    cases h1 with
    | key h => exact absurd h2 not_holds_atom
    | val h => exact .inr ⟨_, h, h2⟩

theorem inside_items {v xs} (h : items v = some xs) : ∀ x ∈ xs, Inside x v := by
  intro x hx
  cases v <;> simp only [items, Option.some.injEq, reduceCtorEq] at h <;> subst h
  · exact .tuple hx
  · exact .list hx
  · exact .deque hx
  · exact .set hx
  · obtain ⟨kv, hkv, rfl⟩ := List.mem_map.1 hx
    exact .key (k := kv.1) (x := kv.2) hkv

theorem mem_put {k x kvs e} (h : e ∈ put k x kvs) : e.2 = x ∨ e ∈ kvs := by
  induction kvs with
  | nil => simp only [put, List.mem_singleton] at h; subst h; exact .inl rfl
  | cons p kvs ih =>
    obtain ⟨k', y⟩ := p
    simp only [put] at h
    split at h
    · rcases List.mem_cons.1 h with h | h
      · subst h; exact .inl rfl
      · exact .inr (List.mem_cons_of_mem _ h)
    · rcases List.mem_cons.1 h with h | h
      · exact .inr (h ▸ List.mem_cons_self)
      · rcases ih h with h | h
        · exact .inl h
        · exact .inr (List.mem_cons_of_mem _ h)

theorem mem_puts {es : List (Bool × Val × Obj)} : ∀ {acc e}, e ∈ es.foldl enter acc → (∃ e' ∈ es, e.2 = e'.2.2) ∨ e ∈ acc := by
  induction es with
  | nil => intro acc e h; exact .inr h
  | cons p es ih =>
    intro acc e h
    rcases ih h with ⟨e', h1, h2⟩ | h
    · exact .inl ⟨e', List.mem_cons_of_mem _ h1, h2⟩
    · unfold enter at h
      split at h
      · exact .inr h
      · rcases mem_put h with h | h
        · exact .inl ⟨p, List.mem_cons_self, h⟩
        · exact .inr h

theorem flatChild_ty {f : FieldDef} {ch : ClassId} (h : f.flatChild = some ch) : f.flatten = true ∧ (f.ty = .cls ch ∨ f.ty = .union [.cls ch, .none]) := by
  unfold FieldDef.flatChild at h
  split at h
  · cases h
  · rename_i hf
    refine ⟨by simpa using hf, ?_⟩
    split at h
    · rename_i e; cases h; exact .inl e
    · rename_i e; cases h; exact .inr e
    · cases h

theorem mem_of_lookup {k : String} {x : Obj} : ∀ {l : List (String × Obj)}, l.lookup k = some x → (k, x) ∈ l
  | [], h => by cases h
  | (k', y) :: l, h => by
    simp only [List.lookup] at h
    split at h
    · rename_i hk
      cases h
      have : k = k' := by simpa using hk
      subst this; exact List.mem_cons_self
    · exact List.mem_cons_of_mem _ (mem_of_lookup h)

theorem each_mem {α β : Type} {f : α → Option (β × List Nat)} :
    ∀ {xs : List α} {ys l}, each f xs = some (ys, l) →
      (∀ y ∈ ys, ∃ x ∈ xs, ∃ l', f x = some (y, l')) ∧ ∀ a ∈ l, ∃ x ∈ xs, ∃ y l', f x = some (y, l') ∧ a ∈ l'
  | [], ys, l, h => by
    simp only [each, Option.some.injEq, Prod.mk.injEq] at h
    obtain ⟨rfl, rfl⟩ := h
    exact ⟨fun y hy => (List.not_mem_nil hy).elim, fun a ha => (List.not_mem_nil ha).elim⟩
  | x :: xs, ys, l, h => by
    simp only [each] at h
    split at h
    · cases h
    · rename_i y l1 h1
      split at h
      · cases h
      · rename_i ys' l2 h2
        simp only [Option.some.injEq, Prod.mk.injEq] at h
        obtain ⟨rfl, rfl⟩ := h
        obtain ⟨i1, i2⟩ := each_mem h2
        constructor
        · intro z hz
          rcases List.mem_cons.1 hz with rfl | hz
          · exact ⟨x, List.mem_cons_self, l1, h1⟩
          · obtain ⟨x', hx', r⟩ := i1 z hz
            exact ⟨x', List.mem_cons_of_mem _ hx', r⟩
        · intro a ha
          rcases List.mem_append.1 ha with ha | ha
          · exact ⟨x, List.mem_cons_self, y, l1, h1, ha⟩
          · obtain ⟨x', hx', r⟩ := i2 a ha
            exact ⟨x', List.mem_cons_of_mem _ hx', r⟩

theorem Tame.mono {P Q : Obj → Prop} {x l} (h : Tame P x l) (hpq : ∀ y, P y → Q y) : Tame Q x l :=
  ⟨fun a ha => let ⟨y, h1, h2⟩ := h.1 a ha; ⟨y, hpq _ h1, h2⟩, fun a ha => let ⟨k, h1⟩ := h.2.1 a ha; ⟨k, hpq _ h1⟩,
   fun a k hk => let ⟨k', h1⟩ := h.2.2 a k hk; ⟨k', hpq _ h1⟩⟩

theorem Tame.atom {P : Obj → Prop} {v} : Tame P (.atom v) [] :=
  ⟨fun _ h => absurd h not_holds_atom, fun _ h => (List.not_mem_nil h).elim, fun _ _ h => by cases h⟩

theorem Tame.self {P : Obj → Prop} {v} (h : P v) : Tame P v [] :=
  ⟨fun _ ha => ⟨v, h, ha⟩, fun _ h => (List.not_mem_nil h).elim, fun _ k e => ⟨k, e ▸ h⟩⟩

/-- A new container around results. -/
theorem Tame.fresh {P : Obj → Prop} {x l} {ys : List Obj} (hx : ∀ a, Holds a x → ∃ y ∈ ys, Holds a y) (hn : ∀ a kvs, x ≠ .dict (some a) kvs)
    (hy : ∀ y ∈ ys, ∃ l, Tame P y l) (hl : ∀ a ∈ l, ∃ y l', Tame P y l' ∧ a ∈ l') : Tame P x l :=
  ⟨fun a ha => let ⟨y, h1, h2⟩ := hx a ha; let ⟨_, h3⟩ := hy y h1; h3.1 a h2,
   fun a ha => let ⟨_, _, h1, h2⟩ := hl a ha; h1.2.1 a h2, fun a k e => absurd e (hn a k)⟩

/-- A comprehension over values, collected into a new container. -/
theorem Tame.collect {α : Type} {P : Obj → Prop} {f : α → Out} {xs : List α} {p : List Obj × List Nat} {mk : List Obj → Obj}
    (h : each f xs = some p) (hf : ∀ x ∈ xs, ∀ y l, f x = some (y, l) → Tame P y l)
    (hmk : ∀ ys a, Holds a (mk ys) → ∃ y ∈ ys, Holds a y) (hn : ∀ ys a kvs, mk ys ≠ .dict (some a) kvs) : Tame P (mk p.1) p.2 := by
  obtain ⟨ys, l⟩ := p
  obtain ⟨h1, h2⟩ := each_mem h
  refine .fresh (ys := ys) (hmk ys) (hn ys) ?_ ?_
  · intro y hy
    obtain ⟨x, hx, l', e⟩ := h1 y hy
    exact ⟨l', hf x hx _ _ e⟩
  · intro a ha
    obtain ⟨x, hx, y, l', e, hm⟩ := h2 a ha
    exact ⟨y, l', hf x hx _ _ e, hm⟩

/-- A dict comprehension over the values of a dict. -/
theorem Tame.collectD {P : Obj → Prop} {f : Obj → Out} {kvs : List (Val × Obj)} {p : List (Val × Obj) × List Nat}
    (h : each (fun kv : Val × Obj => (f kv.2).map fun p => ((kv.1, p.1), p.2)) kvs = some p)
    (hf : ∀ kv ∈ kvs, ∀ y l, f kv.2 = some (y, l) → Tame P y l) : Tame P (.dict none p.1) p.2 := by
  obtain ⟨es, l⟩ := p
  obtain ⟨h1, h2⟩ := each_mem h
  refine .fresh (ys := es.map (·.2)) ?_ (fun a k e => by cases e) ?_ ?_
  · intro a ha
    rcases holds_dict ha with h | ⟨kv, hkv, h⟩
    · cases h
    · exact ⟨_, List.mem_map.2 ⟨kv, hkv, rfl⟩, h⟩
  · intro y hy
    obtain ⟨e, he, rfl⟩ := List.mem_map.1 hy
    obtain ⟨kv, hkv, l', e'⟩ := h1 e he
    obtain ⟨⟨y, l2⟩, e1, e2⟩ := Option.map_eq_some_iff.1 e'
    cases e2
    exact ⟨_, hf kv hkv _ _ e1⟩
  · intro a ha
    obtain ⟨kv, hkv, y, l', e', hm⟩ := h2 a ha
    obtain ⟨⟨y', l2⟩, e1, e2⟩ := Option.map_eq_some_iff.1 e'
    cases e2
    exact ⟨_, _, hf kv hkv _ _ e1, hm⟩

theorem Tame.mark {P : Obj → Prop} {tg nm x l y l'} (h : Tame P x l) (e : mark tg nm x l = some (y, l')) : Tame P y l' := by
  unfold Heap.mark at e
  split at e
  · cases e
    refine .fresh (ys := [x]) ?_ (fun a k e => by cases e) (fun y hy => ⟨l, by simp at hy; exact hy ▸ h⟩) (fun a ha => ⟨_, _, h, ha⟩)
    intro a ha
    rcases holds_dict ha with h | ⟨kv, hkv, h⟩
    · cases h
    · simp at hkv; subst hkv; exact ⟨_, List.mem_cons_self, h⟩
  · rename_i tag
    split at e
    · rename_i b kvs
      cases e
      refine ⟨fun a ha => ?_, fun a ha => ?_, fun a k e => ?_⟩
      · rcases holds_dict ha with hb | ⟨kv, hkv, hv⟩
        · subst hb; exact h.1 a (.dict _)
        · rcases mem_put hkv with e | hm
          · rw [e] at hv; exact absurd hv not_holds_atom
          · exact h.1 a (.inn (.val (k := kv.1) (x := kv.2) hm) hv)
      · rcases List.mem_append.1 ha with ha | ha
        · cases b with
          | none => cases ha
          | some b => simp at ha; subst ha; exact h.2.2 _ _ rfl
        · exact h.2.1 a ha
      · cases e; exact h.2.2 _ _ rfl
    · cases e
  · rename_i tag content
    cases e
    refine .fresh (ys := [x]) ?_ (fun a k e => by cases e) (fun y hy => ⟨l, by simp at hy; exact hy ▸ h⟩) (fun a ha => ⟨_, _, h, ha⟩)
    intro a ha
    rcases holds_dict ha with h | ⟨kv, hkv, hv⟩
    · cases h
    · rcases mem_put hkv with e | hm
      · rw [e] at hv; exact absurd hv not_holds_atom
      · simp at hm; subst hm; exact ⟨_, List.mem_cons_self, hv⟩
  · cases e; exact h

/-! ## What is shared and what is written to -/

/-- The invariant of the functions. -/
structure Good (env : Env) (r : Rec) : Prop where
  render : ∀ named conv tg t v x l, r.render named conv tg t v = some (x, l) → Tame (Passed env (some conv) (some t) v) x l
  cls : ∀ named conv a c attrs x l, r.cls named conv c attrs = some (x, l) → Tame (Passed env conv none (.inst a c attrs)) x l
  any : ∀ named conv v x l, r.any named conv v = some (x, l) → Tame (Passed env conv none v) x l

theorem good_anyF {env r} (g : Good env r) (named : Bool) (conv : Option Bool) (v : Obj) (x : Obj) (l : List Nat)
    (h : anyF r named conv v = some (x, l)) : Tame (Passed env conv none v) x l := by
  unfold anyF at h
  split at h
  · cases h; exact .atom
  · exact g.cls _ _ _ _ _ _ _ h
  · obtain ⟨p, hp, e⟩ := Option.map_eq_some_iff.1 h
    cases e
    exact .collect (mk := .tuple) hp (fun x hx y l e => (g.any _ _ _ _ _ e).mono fun y hy => .inn (.tuple hx) hy) (fun _ _ => holds_tuple) (fun _ _ _ e => by cases e)
  · obtain ⟨p, hp, e⟩ := Option.map_eq_some_iff.1 h
    cases e
    exact .collect (mk := .list none) hp (fun x hx y l e => (g.any _ _ _ _ _ e).mono fun y hy => .inn (.list hx) hy) (fun _ _ => holds_list) (fun _ _ _ e => by cases e)
  · obtain ⟨p, hp, e⟩ := Option.map_eq_some_iff.1 h
    cases e
    exact .collect (mk := .list none) hp (fun x hx y l e => (g.any _ _ _ _ _ e).mono fun y hy => .inn (.deque hx) hy) (fun _ _ => holds_list) (fun _ _ _ e => by cases e)
  · obtain ⟨p, hp, e⟩ := Option.map_eq_some_iff.1 h
    cases e
    exact .collect (mk := .list none) hp (fun x hx y l e => (g.any _ _ _ _ _ e).mono fun y hy => .inn (.set hx) hy) (fun _ _ => holds_list) (fun _ _ _ e => by cases e)
  · obtain ⟨p, hp, e⟩ := Option.map_eq_some_iff.1 h
    cases e
    exact .collectD hp fun kv hkv y l e => (g.any _ _ _ _ _ e).mono fun y hy => .inn (.val (k := kv.1) (x := kv.2) hkv) hy

theorem seFieldsOf_sub {cd : ClassDef} {f : FieldDef} (h : f ∈ cd.seFieldsOf) : f ∈ cd.fields := (List.mem_filter.1 h).1

theorem good_clsF {env O r} (g : Good env r) (named : Bool) (conv : Option Bool) (b : Option Nat) (c : ClassId) (attrs : List (String × Obj)) (x : Obj) (l : List Nat)
    (h : clsF env O r named conv c attrs = some (x, l)) : Tame (Passed env conv none (.inst b c attrs)) x l := by
  unfold clsF at h
  split at h
  · cases h
  · rename_i cd hcd
    dsimp only at h
    split at h
    · split at h
      · rename_i f fs hfs
        split at h
        · cases h
        · rename_i w hw
          split at h
          · cases h
          · exact (g.render _ _ _ _ _ _ _ h).mono fun y hy =>
              .field hcd (seFieldsOf_sub (by rw [hfs]; exact List.mem_cons_self)) (mem_of_lookup hw) hy
      · cases h
    · split at h
      · cases h
      · rename_i es l' he
        simp only [Option.some.injEq, Prod.mk.injEq] at h
        obtain ⟨hx, rfl⟩ := h
        obtain ⟨h1, h2⟩ := each_mem he
        have key : ∀ f ∈ cd.seFieldsOf, ∀ es l', fieldF env O r named (conv.getD cd.convDflt) c cd attrs f = some (es, l') →
            (∀ e ∈ es, ∀ a, Holds a e.2.2 → ∃ z, Passed env conv none (.inst b c attrs) z ∧ Holds a z) ∧
            ∀ a ∈ l', ∃ kvs, Passed env conv none (.inst b c attrs) (.dict (some a) kvs) := by
          intro f hf e l' h
          unfold fieldF at h
          split at h
          · cases h
          · split at h
            · cases h
            · rename_i w hw
              split at h
              · rename_i ch hch
                obtain ⟨hfl, hty⟩ := flatChild_ty hch
                split at h
                · rename_i b' c' attrs' cd' hcd'
                  split at h
                  · cases h
                  · rename_i es' l2 he'
                    have hT : ∀ g ∈ cd'.fields, ∀ e l', childF r named (conv.getD cd.convDflt) cd attrs' g = some (e, l') →
                        Tame (Passed env conv none (.inst b c attrs)) e.2.2 l' := by
                      intro g' hg e l' h
                      unfold childF at h
                      split at h
                      · cases h
                      · split at h
                        · cases h
                        · rename_i z hz
                          obtain ⟨p, hp, e'⟩ := Option.map_eq_some_iff.1 h
                          cases e'
                          exact (g.render _ _ _ _ _ _ _ hp).mono fun y hy =>
                            .flat hcd (seFieldsOf_sub hf) hfl (mem_of_lookup hw) hty hcd' hg (mem_of_lookup hz) hy
                    obtain ⟨i1, i2⟩ := each_mem he'
                    simp only [Option.some.injEq, Prod.mk.injEq] at h
                    obtain ⟨rfl, rfl⟩ := h
                    constructor
                    · intro e he a ha
                      split at he
                      · cases he
                      · obtain ⟨g', hg, l3, h3⟩ := i1 e he
                        exact (hT g' hg _ _ h3).1 a ha
                    · intro a ha
                      obtain ⟨g', hg, y, l3, h3, hm⟩ := i2 a ha
                      exact (hT g' hg _ _ h3).2.1 a hm
                · cases h
              · split at h
                · cases h
                · rename_i y l2 hr
                  have hT := (g.render _ _ _ _ _ _ _ hr).mono fun y hy =>
                    Passed.field (cv := conv) (a := b) (c := c) (attrs := attrs) hcd (seFieldsOf_sub hf) (mem_of_lookup hw) hy
                  split at h
                  · split at h
                    · cases h
                      refine ⟨fun e he a ha => ?_, hT.2.1⟩
                      obtain ⟨kv, hkv, rfl⟩ := List.mem_map.1 he
                      exact hT.1 a (.inn (.val (k := kv.1) (x := kv.2) hkv) ha)
                    · cases h
                      exact ⟨fun e he => (List.not_mem_nil he).elim, hT.2.1⟩
                    · cases h
                  · cases h
                    refine ⟨fun e he a ha => ?_, hT.2.1⟩
                    split at he
                    · cases he
                    · simp only [List.mem_singleton] at he
                      subst he
                      exact hT.1 a ha
        have hold : ∀ e ∈ es.flatten, ∀ a, Holds a e.2.2 → ∃ z, Passed env conv none (.inst b c attrs) z ∧ Holds a z := by
          intro e he a ha
          obtain ⟨es', hm, he⟩ := List.mem_flatten.1 he
          obtain ⟨f, hf, l2, hff⟩ := h1 es' hm
          exact (key f hf _ _ hff).1 e he a ha
        refine ⟨?_, ?_, ?_⟩
        · intro a ha
          subst hx
          split at ha
          · rcases holds_dict ha with h | ⟨kv, hkv, hv⟩
            · cases h
            · rcases mem_puts hkv with ⟨e', h1, h2⟩ | h
              · exact hold e' h1 a (h2 ▸ hv)
              · cases h
          · obtain ⟨y, hy, hv⟩ := holds_tuple ha
            obtain ⟨e, he, rfl⟩ := List.mem_map.1 hy
            exact hold e he a hv
        · intro a ha
          obtain ⟨f, hf, e, l2, hff, hm⟩ := h2 a ha
          exact (key f hf _ _ hff).2 a hm
        · intro a kvs e
          subst hx
          split at e <;> cases e

theorem good_items {env r} (g : Good env r) {named conv tg t e v xs} {p : List Obj × List Nat} {mk : List Obj → Obj} (hi : ItemOf t e) (hv : items v = some xs)
    (hp : each (r.render named conv tg e) xs = some p)
    (hmk : ∀ ys a, Holds a (mk ys) → ∃ y ∈ ys, Holds a y) (hn : ∀ ys a kvs, mk ys ≠ .dict (some a) kvs) :
    Tame (Passed env (some conv) (some t) v) (mk p.1) p.2 :=
  .collect hp (fun x hx _ _ e => (g.render _ _ _ _ _ _ _ e).mono fun _ hy => .item hi (inside_items hv x hx) hy) hmk hn

theorem tame_shallow {env conv t v xs} (hs : Shallow t) (hv : items v = some xs) : Tame (Passed env (some conv) (some t) v) (.list none xs) [] :=
  .fresh (ys := xs) (fun _ => holds_list) (fun _ _ e => by cases e) (fun y hy => ⟨[], .self (.shallow hs (inside_items hv y hy))⟩) (fun _ h => (List.not_mem_nil h).elim)

theorem tame_counter {env conv t b kvs} (hs : Shallow t) : Tame (Passed env (some conv) (some t) (.dict b kvs)) (.dict none kvs) [] := by
  refine .fresh (ys := kvs.map (·.2)) ?_ (fun _ _ e => by cases e) ?_ (fun _ h => (List.not_mem_nil h).elim)
  · intro a ha
    rcases holds_dict ha with h | ⟨kv, hkv, h⟩
    · cases h
    · exact ⟨_, List.mem_map.2 ⟨kv, hkv, rfl⟩, h⟩
  · intro y hy
    obtain ⟨kv, hkv, rfl⟩ := List.mem_map.1 hy
    exact ⟨[], .self (.shallow hs (.val (k := kv.1) (x := kv.2) hkv))⟩

theorem good_renderF {env O r} (g : Good env r) (named conv : Bool) (tg : Tagging) (t : Ty) (v x : Obj) (l : List Nat)
    (h : renderF env O r named conv tg t v = some (x, l)) : Tame (Passed env (some conv) (some t) v) x l := by
  unfold renderF at h
  split at h
  · cases h; exact .atom
  · exact (g.render _ _ _ _ _ _ _ h).mono fun _ hy => .alias hy
  · exact (g.render _ _ _ _ _ _ _ h).mono fun _ hy => .gen hy
  · split at h
    · exact (g.cls _ _ _ _ _ _ _ h).mono fun _ hy => .cls hy ⟨_, _, _, rfl⟩
    · cases h
  · split at h
    · cases h; exact .atom
    · exact (g.render _ _ _ _ _ _ _ h).mono fun _ hy => .member List.mem_cons_self hy
  · split at h
    · cases h
    · rename_i m hm
      have hm' := List.mem_of_getElem? hm
      split at h
      · cases h
      · rename_i y l' hr
        have hT := (g.render _ _ _ _ _ _ _ hr).mono fun _ hy => Passed.member hm' hy
        split at h
        · exact hT.mark h
        · cases h; exact hT
  · cases h; exact .self (.whole .list)
  · split at h
    · rename_i xs hv; cases h; exact tame_shallow .list hv
    · cases h
  · split at h
    · rename_i xs hv; cases h; exact tame_shallow .deque hv
    · cases h
  · split at h
    · split at h
      · rename_i xs hv; cases h; exact tame_shallow .set hv
      · cases h
    · rename_i hc
      have : conv = false := by simpa using hc
      subst this
      cases h; exact .self (.whole .set)
  · split at h
    · cases h
    · rename_i xs hv
      obtain ⟨p, hp, e⟩ := Option.map_eq_some_iff.1 h
      cases e
      exact good_items (mk := .list none) g .list hv hp (fun _ _ => holds_list) (fun _ _ _ e => by cases e)
  · split at h
    · cases h
    · rename_i xs hv
      obtain ⟨p, hp, e⟩ := Option.map_eq_some_iff.1 h
      cases e
      exact good_items (mk := .list none) g .deque hv hp (fun _ _ => holds_list) (fun _ _ _ e => by cases e)
  · split at h
    · cases h
    · rename_i xs hv
      obtain ⟨p, hp, e⟩ := Option.map_eq_some_iff.1 h
      cases e
      refine good_items (mk := fun ys => if conv = true then .list none ys else .set none ys) g .set hv hp ?_ ?_
      · intro ys a ha
        split at ha
        · exact holds_list ha
        · exact holds_set ha
      · intro ys a kvs e
        split at e <;> cases e
  · split at h
    · cases h
    · rename_i xs hv
      obtain ⟨p, hp, e⟩ := Option.map_eq_some_iff.1 h
      cases e
      exact good_items (mk := .tuple) g .tupleV hv hp (fun _ _ => holds_tuple) (fun _ _ _ e => by cases e)
  · split at h
    · cases h
    · rename_i xs hv
      split at h
      · cases h
      · obtain ⟨p, hp, e⟩ := Option.map_eq_some_iff.1 h
        cases e
        refine .collect (mk := .tuple) hp ?_ (fun _ _ => holds_tuple) (fun _ _ _ e => by cases e)
        intro q hq y l e
        exact (g.render _ _ _ _ _ _ _ e).mono fun _ hy => .item (.tuple (List.of_mem_zip hq).1) (inside_items hv _ (List.of_mem_zip hq).2) hy
  · cases h
  · cases h; exact .self (.whole .dict)
  · split at h
    · cases h; exact tame_counter .counterB
    · cases h
  · split at h
    · cases h; exact tame_counter .counter
    · cases h
  · split at h
    · obtain ⟨p, hp, e⟩ := Option.map_eq_some_iff.1 h
      cases e
      exact .collectD hp fun kv hkv y l e => (g.render _ _ _ _ _ _ _ e).mono fun y hy => .item .dict (.val (k := kv.1) (x := kv.2) hkv) hy
    · cases h
  · exact (g.any _ _ _ _ _ h).mono fun _ hy => .any hy
  · exact (g.any _ _ _ _ _ h).mono fun _ hy => .tvar hy
  · cases h
  · split at h
    · cases h; exact .atom
    · cases h
  · cases h; exact .self (.whole .tuple)
  · cases h; exact .self (.whole .prim)
  · cases h; exact .self (.whole .newType)
  · cases h; exact .self (.whole .std)
  · cases h; exact .self (.whole .dt)
  · cases h; exact .self (.whole .lit)

theorem good_at (env : Env) (O : Open) : ∀ n, Good env (recAt env O n)
  | 0 => ⟨(fun _ _ _ _ _ _ _ h => by cases h), (fun _ _ _ _ _ _ _ h => by cases h), (fun _ _ _ _ _ h => by cases h)⟩
  | n + 1 => ⟨good_renderF (good_at env O n), good_clsF (good_at env O n), good_anyF (good_at env O n)⟩

/-! ## Nothing is written to -/

/-- There is no transparent class. -/
def NoTransparent (env : Env) : Prop := ∀ c cd, env.cls c = some cd → cd.transparent = false

/-- Tags do not go into the result of the member. -/
def NotInternal (tg : Tagging) : Prop := ∀ tag, tg ≠ .internal tag

/-- The invariant of the functions when nothing is written to. -/
structure Quiet (env : Env) (r : Rec) : Prop where
  render : ∀ named conv tg t v x l, NoTransparent env ∨ NotInternal tg → r.render named conv tg t v = some (x, l) → l = []
  cls : ∀ named conv c attrs x l, r.cls named conv c attrs = some (x, l) → l = []
  any : ∀ named conv v x l, r.any named conv v = some (x, l) → l = []
  freshC : NoTransparent env → ∀ conv c attrs x l, r.cls true conv c attrs = some (x, l) → ∀ a kvs, x ≠ .dict (some a) kvs
  freshR : NoTransparent env → ∀ conv tg c v x l, r.render true conv tg (.cls c) v = some (x, l) → ∀ a kvs, x ≠ .dict (some a) kvs

theorem each_quiet {α β : Type} {f : α → Option (β × List Nat)} {xs : List α} {p} (h : each f xs = some p)
    (hf : ∀ x ∈ xs, ∀ y l, f x = some (y, l) → l = []) : p.2 = [] := by
  obtain ⟨ys, l⟩ := p
  refine List.eq_nil_iff_forall_not_mem.2 fun a ha => ?_
  obtain ⟨x, hx, y, l', e, hm⟩ := (each_mem h).2 a ha
  rw [hf x hx _ _ e] at hm
  cases hm

theorem map_quiet {β : Type} {o : Option (β × List Nat)} {mk : β → Obj} {x l} (h : (o.map fun p => (mk p.1, p.2)) = some (x, l)) (ho : ∀ p, o = some p → p.2 = []) : l = [] := by
  obtain ⟨p, hp, e⟩ := Option.map_eq_some_iff.1 h
  cases e
  exact ho p hp

theorem val_quiet {f : Obj → Out} {kvs : List (Val × Obj)} {p} (h : each (fun kv : Val × Obj => (f kv.2).map fun p => ((kv.1, p.1), p.2)) kvs = some p)
    (hf : ∀ v x l, f v = some (x, l) → l = []) : p.2 = [] := by
  refine each_quiet h fun kv _ y l e => ?_
  obtain ⟨⟨y', l2⟩, e1, e2⟩ := Option.map_eq_some_iff.1 e
  cases e2
  exact hf _ _ _ e1

theorem mark_quiet {env : Env} {tg nm x y l} (hc : NoTransparent env ∨ NotInternal tg) (hx : NoTransparent env → ∀ a kvs, x ≠ .dict (some a) kvs)
    (h : mark tg nm x [] = some (y, l)) : l = [] := by
  unfold mark at h
  split at h
  · cases h; rfl
  · split at h
    · rename_i b kvs
      rcases hc with hc | hc
      · cases b with
        | none => cases h; rfl
        | some b => exact absurd rfl (hx hc b kvs)
      · exact absurd rfl (hc _)
    · cases h
  · cases h; rfl
  · cases h; rfl

theorem quiet_anyF {env r} (g : Quiet env r) (named : Bool) (conv : Option Bool) (v x : Obj) (l : List Nat) (h : anyF r named conv v = some (x, l)) : l = [] := by
  have ha : ∀ x y l, r.any named conv x = some (y, l) → l = [] := fun _ _ _ => g.any _ _ _ _ _
  unfold anyF at h
  split at h
  · cases h; rfl
  · exact g.cls _ _ _ _ _ _ h
  · exact map_quiet h fun p hp => each_quiet hp fun x _ => ha x
  · exact map_quiet h fun p hp => each_quiet hp fun x _ => ha x
  · exact map_quiet h fun p hp => each_quiet hp fun x _ => ha x
  · exact map_quiet h fun p hp => each_quiet hp fun x _ => ha x
  · exact map_quiet h fun p hp => val_quiet hp ha

theorem quiet_clsF {env O r} (H : NoTransparent env ∨ ∀ c cd, env.cls c = some cd → NotInternal cd.tagging) (g : Quiet env r) (named : Bool) (conv : Option Bool)
    (c : ClassId) (attrs : List (String × Obj)) (x : Obj) (l : List Nat) (h : clsF env O r named conv c attrs = some (x, l)) : l = [] := by
  unfold clsF at h
  split at h
  · cases h
  · rename_i cd hcd
    have hr := fun conv t v x l => g.render named conv cd.tagging t v x l (H.imp id fun H => H c cd hcd)
    dsimp only at h
    split at h
    · split at h
      · split at h
        · cases h
        · split at h
          · cases h
          · exact hr _ _ _ _ _ h
      · cases h
    · split at h
      · cases h
      · rename_i es l' he
        cases h
        refine each_quiet he fun f _ e l' h => ?_
        unfold fieldF at h
        split at h
        · cases h
        · split at h
          · cases h
          · split at h
            · split at h
              · split at h
                · cases h
                · rename_i he'
                  cases h
                  refine each_quiet he' fun f' _ e l' h => ?_
                  unfold childF at h
                  split at h
                  · cases h
                  · split at h
                    · cases h
                    · obtain ⟨p, hp, e'⟩ := Option.map_eq_some_iff.1 h
                      cases e'
                      exact hr _ _ _ _ _ hp
              · cases h
            · split at h
              · cases h
              · rename_i hy
                split at h
                · split at h
                  · cases h
                    exact hr _ _ _ _ _ hy
                  · cases h
                    exact hr _ _ _ _ _ hy
                  · cases h
                · cases h
                  exact hr _ _ _ _ _ hy

theorem fresh_clsF {env O r} (H : NoTransparent env) (conv : Option Bool)
    (c : ClassId) (attrs : List (String × Obj)) (x : Obj) (l : List Nat) (h : clsF env O r true conv c attrs = some (x, l)) (a : Nat) (kvs) : x ≠ .dict (some a) kvs := by
  unfold clsF at h
  split at h
  · cases h
  · rename_i cd hcd
    rw [H c cd hcd] at h
    dsimp only at h
    rw [if_neg (by simp)] at h
    split at h
    · cases h
    · intro e; subst e; simp at h

theorem quiet_renderF {env O r} (g : Quiet env r) (named conv : Bool) (tg : Tagging) (t : Ty) (v x : Obj) (l : List Nat)
    (H : NoTransparent env ∨ NotInternal tg) (h : renderF env O r named conv tg t v = some (x, l)) : l = [] := by
  have hr := fun named conv t v x l => g.render named conv tg t v x l H
  unfold renderF at h
  split at h
  · cases h; rfl
  · exact hr _ _ _ _ _ _ h
  · exact hr _ _ _ _ _ _ h
  · split at h
    · exact g.cls _ _ _ _ _ _ h
    · cases h
  · split at h
    · cases h; rfl
    · exact hr _ _ _ _ _ _ h
  · split at h
    · cases h
    · rename_i m hm
      split at h
      · cases h
      · rename_i y l' hy
        have := hr _ _ _ _ _ _ hy
        subst this
        split at h
        · rename_i hc
          cases m <;> simp only [Ty.isCls, reduceCtorEq] at hc
          exact mark_quiet H (fun H => g.freshR H _ _ _ _ _ _ hy) h
        · cases h; rfl
  · cases h; rfl
  · split at h
    · cases h; rfl
    · cases h
  · split at h
    · cases h; rfl
    · cases h
  · split at h
    · split at h
      · cases h; rfl
      · cases h
    · cases h; rfl
  · split at h
    · cases h
    · exact map_quiet h fun p hp => each_quiet hp fun x _ => hr _ _ _ x
  · split at h
    · cases h
    · exact map_quiet h fun p hp => each_quiet hp fun x _ => hr _ _ _ x
  · split at h
    · cases h
    · exact map_quiet (mk := fun ys => if conv = true then .list none ys else .set none ys) h fun p hp => each_quiet hp fun x _ => hr _ _ _ x
  · split at h
    · cases h
    · exact map_quiet h fun p hp => each_quiet hp fun x _ => hr _ _ _ x
  · split at h
    · cases h
    · split at h
      · cases h
      · exact map_quiet h fun p hp => each_quiet hp fun x _ => hr _ _ _ x.2
  · cases h
  · cases h; rfl
  · split at h
    · cases h; rfl
    · cases h
  · split at h
    · cases h; rfl
    · cases h
  · split at h
    · exact map_quiet h fun p hp => val_quiet hp (hr _ _ _)
    · cases h
  · exact g.any _ _ _ _ _ h
  · exact g.any _ _ _ _ _ h
  · cases h
  · split at h
    · cases h; rfl
    · cases h
  all_goals (cases h; rfl)

theorem fresh_renderF {env O r} (g : Quiet env r) (H : NoTransparent env) (conv : Bool) (tg : Tagging) (c : ClassId) (v x : Obj) (l : List Nat)
    (h : renderF env O r true conv tg (.cls c) v = some (x, l)) (a : Nat) (kvs) : x ≠ .dict (some a) kvs := by
  simp only [renderF] at h
  split at h
  · exact g.freshC H _ _ _ _ _ h a kvs
  · cases h

theorem quiet_at {env : Env} (O : Open) (H : NoTransparent env ∨ ∀ c cd, env.cls c = some cd → NotInternal cd.tagging) : ∀ n, Quiet env (recAt env O n)
  | 0 => ⟨(fun _ _ _ _ _ _ _ _ h => by cases h), (fun _ _ _ _ _ _ h => by cases h), (fun _ _ _ _ _ h => by cases h), (fun _ _ _ _ _ _ h => by cases h),
      (fun _ _ _ _ _ _ _ h => by cases h)⟩
  | n + 1 => ⟨quiet_renderF (quiet_at O H n), quiet_clsF H (quiet_at O H n), quiet_anyF (quiet_at O H n), fresh_clsF, fresh_renderF (O := O) (quiet_at O H n)⟩

end Verif.Heap

namespace Verif.Props
open Verif Verif.Heap

/-- Where a call starts: at any object, or at the union given as the target. -/
def C88_From (env : Env) (conv : Option Bool) (target : Option (List Ty × Tagging)) (v y : Obj) : Prop :=
  match target with
  | none => Passed env conv none v y
  | some (ts, _) => Passed env (some false) (some (.union ts)) v y

theorem C88_tame {env : Env} {O : Open} {n named conv target v x l} (h : write env O n named conv target v = some (x, l)) :
    Tame (C88_From env conv target v) x l := by
  cases target with
  | none => exact (good_at env O n).any _ _ _ _ _ h
  | some p => exact (good_at env O n).render _ _ _ _ _ _ _ h

/-- **C88, sharing.** A container or object of the given object that is reached from the result is reached from a value at a place annotated with a bare container
(or as a leaf): nothing else is shared. -/
theorem C88_shared_partial {env : Env} {O : Open} {n named conv target v x l a} (h : write env O n named conv target v = some (x, l)) (ha : Holds a x) :
    ∃ y, C88_From env conv target v y ∧ Holds a y :=
  (C88_tame h).1 a ha

/-- **C88, writing.** Whatever is written to is a dict at such a place. -/
theorem C88_written_partial {env : Env} {O : Open} {n named conv target v x l a} (h : write env O n named conv target v = some (x, l)) (ha : a ∈ l) :
    ∃ kvs, C88_From env conv target v (.dict (some a) kvs) :=
  (C88_tame h).2.1 a ha

/-- **C88** in full where no such place holds a container: the result is made of new containers only, and nothing is written to. -/
theorem C88_separate_partial {env : Env} {O : Open} {n named conv target v x l} (h : write env O n named conv target v = some (x, l))
    (hno : ∀ y, C88_From env conv target v y → ∀ a, ¬ Holds a y) : (∀ a, ¬ Holds a x) ∧ l = [] := by
  refine ⟨fun a ha => ?_, List.eq_nil_iff_forall_not_mem.2 fun a ha => ?_⟩
  · obtain ⟨y, h1, h2⟩ := C88_shared_partial h ha
    exact hno y h1 a h2
  · obtain ⟨kvs, h1⟩ := C88_written_partial h ha
    exact hno _ h1 a (.dict _)

/-- **C88, writing.** Without transparent classes, or without internal tagging, nothing of the object is written to, whatever the annotations. -/
theorem C88_unwritten_partial {env : Env} {O : Open} {n named conv target v x l} (h : write env O n named conv target v = some (x, l))
    (H : NoTransparent env ∨ ((∀ c cd, env.cls c = some cd → NotInternal cd.tagging) ∧ ∀ p, target = some p → NotInternal p.2)) : l = [] := by
  have q := quiet_at (env := env) O (H.imp id And.left) n
  cases target with
  | none => exact q.any _ _ _ _ _ h
  | some p => exact q.render _ _ _ _ _ _ _ (H.imp id fun H => H.2 p rfl) h

/-- The places are really handed over: in the tuple of an object the value of a field with such an annotation is the attribute itself. -/
theorem C88_handed_over {env : Env} {O : Open} {n conv b c attrs x l} {cd : ClassDef} {f : FieldDef} {y : Obj} (hcd : env.cls c = some cd)
    (ht : cd.transparent = false) (hf : f ∈ cd.fields) (hs : f.skip = false) (hss : f.skipSer = false) (hw : Whole (conv.getD cd.convDflt) f.ty)
    (hy : attrs.lookup f.name = some y) (h : write env O n false conv none (.inst b c attrs) = some (x, l)) : ∃ ys, x = .tuple ys ∧ y ∈ ys := by
  cases n with
  | zero => cases h
  | succ n =>
  cases n with
  | zero => cases h
  | succ n =>
  simp only [write, recAt, Heap.anyF, Heap.clsF, hcd, ht, Bool.false_eq_true, if_false] at h
  split at h
  · cases h
  · rename_i es l' he
    cases h
    refine ⟨_, rfl, ?_⟩
    have hf' : f ∈ cd.seFieldsOf := List.mem_filter.2 ⟨hf, by simp [hs, hss]⟩
    have : ∀ {g : FieldDef → Option (List (Bool × Val × Obj) × List Nat)} {fs : List FieldDef} {es l}, each g fs = some (es, l) → f ∈ fs → ∃ e ∈ es, ∃ l', g f = some (e, l') := by
      intro g fs
      induction fs with
      | nil => intro es l _ h; cases h
      | cons f' fs ih =>
        intro es l h hm
        simp only [each] at h
        split at h
        · cases h
        · rename_i e0 l0 h0
          split at h
          · cases h
          · rename_i es' l2 h2
            cases h
            rcases List.mem_cons.1 hm with rfl | hm
            · exact ⟨_, List.mem_cons_self, _, h0⟩
            · obtain ⟨e, he, r⟩ := ih h2 hm
              exact ⟨e, List.mem_cons_of_mem _ he, r⟩
    obtain ⟨e, he', l2, hff⟩ := this he hf'
    unfold fieldF at hff
    split at hff
    · cases hff
    · rw [hy] at hff
      dsimp only at hff
      have hch : f.flatChild = none := by
        cases hc : f.flatChild with
        | none => rfl
        | some ch => rcases (flatChild_ty hc).2 with e | e <;> (rw [e] at hw; generalize conv.getD cd.convDflt = cv at hw; cases hw)
      rw [hch] at hff
      dsimp only at hff
      split at hff
      · cases hff
      · rename_i z l3 hr
        have hz : z = y := by
          cases n with
          | zero => cases hr
          | succ n =>
            simp only [recAt] at hr
            generalize hb : conv.getD cd.convDflt = cv at hr hw
            generalize f.ty = t at hr hw
            cases hw <;> try (cases hr; rfl)
            rename_i k
            cases k <;> cases hr <;> rfl
        subst hz
        cases hff
        exact List.mem_map.2 ⟨_, List.mem_flatten.2 ⟨_, he', List.mem_cons_self⟩, rfl⟩

namespace ExC88

/-- `x` a bare list, `y` a list of lists of ints. -/
def S : ClassDef := { name := "S", mro := ["S"], fields := [{ name := "x", ty := .listB .list }, { name := "y", ty := .list .list (.list .list (.prim .int)) }] }
/-- A transparent class around a bare dict. -/
def T : ClassDef := { name := "T", mro := ["T"], transparent := true, fields := [{ name := "d", ty := .dictB .dict }] }
/-- A class with an internally tagged union. -/
def U : ClassDef := { name := "U", mro := ["U"], tagging := .internal "type", fields := [{ name := "u", ty := .union [.cls "T", .cls "S"] }] }
def env : Env := Ex.mk [("S", S), ("T", T), ("U", U)]
def env2 : Env := Ex.mk [("S", S)]
def O : Open := { keep := fun _ _ _ => true, pick := fun _ _ => 0 }
def one : Obj := .atom (.int 1)
def s : Obj := .inst (some 0) "S" [("x", .list (some 1) [one]), ("y", .list (some 2) [.list (some 3) [one]])]
def u : Obj := .inst (some 0) "U" [("u", .inst (some 1) "T" [("d", .dict (some 2) [(.str "k", one)])])]

/-- The list `x` is the object's own, the lists of `y` are new. -/
theorem write_s : write env2 O 9 true none none s = some (.dict none [(.str "x", .list (some 1) [one]), (.str "y", .list none [.list none [one]])], []) := rfl
theorem write_s' : write env2 O 9 false none none s = some (.tuple [.list (some 1) [one], .list none [.list none [one]]], []) := rfl
/-- The tag is written into the dict at address 2, the object's own. -/
theorem write_u : write env O 9 true none none u = some (.dict none [(.str "u", .dict (some 2) [(.str "k", one), (.str "type", .atom (.str "T"))])], [2]) := rfl

example : ∃ y, C88_From env2 none none s y ∧ Holds 1 y :=
  C88_shared_partial write_s (.inn (.val (k := .str "x") List.mem_cons_self) (.list _))
example : ∃ kvs, C88_From env none none u (.dict (some 2) kvs) := C88_written_partial write_u List.mem_cons_self
example : ∃ ys, Obj.tuple [.list (some 1) [one], .list none [.list none [one]]] = .tuple ys ∧ Obj.list (some 1) [one] ∈ ys :=
  C88_handed_over (f := { name := "x", ty := .listB .list }) rfl rfl List.mem_cons_self rfl rfl .list rfl write_s'

/-- A flattened dataclass and a flattened bare dict: the dict is not shared, what it holds is. -/
def F : ClassDef := { name := "F", mro := ["F"], fields := [{ name := "s", ty := .cls "S", flatten := true }, { name := "m", ty := .dictB .dict, flatten := true }] }
def envF : Env := Ex.mk [("S", S), ("F", F)]
def fl : Obj := .inst (some 4) "F" [("s", s), ("m", .dict (some 5) [(.str "x", one), (.str "z", .list (some 6) [])])]
theorem write_f : write envF O 9 true none none fl = some (.dict none [(.str "x", .list (some 1) [one]), (.str "y", .list none [.list none [one]]), (.str "z", .list (some 6) [])], []) := rfl
example : ∃ y, C88_From envF none none fl y ∧ Holds 6 y :=
  C88_shared_partial write_f (.inn (.val (k := .str "z") (.tail _ (.tail _ (.head _)))) (.list _))

theorem noTransparent : NoTransparent env2 := by
  intro c cd h
  simp only [env2, Ex.mk, Env.cls, List.lookup] at h
  split at h
  · cases h; rfl
  · cases h
example : ([] : List Nat) = [] := C88_unwritten_partial write_s (.inl noTransparent)

/-- A list of a list of ints, given as it is. -/
def ll : Obj := .list (some 1) [.list (some 2) [one]]
theorem no_one {y} : ¬ Passed env none none one y := by
  intro h; cases h with | inn h _ => cases h
theorem no_ll {y} : ¬ Passed env none none ll y := by
  intro h
  cases h with
  | inn h1 h2 =>
    cases h1 with
    | list h1 =>
      simp only [List.mem_singleton] at h1; subst h1
      cases h2 with
      | inn h1 h2 =>
        cases h1 with
        | list h1 =>
          simp only [List.mem_singleton] at h1; subst h1
          exact no_one h2
example : (∀ a, ¬ Holds a (.list none [.list none [one]])) ∧ ([] : List Nat) = [] :=
  C88_separate_partial (env := env) (O := O) (n := 9) (named := true) (conv := none) (target := none) (v := ll) rfl fun _ h => absurd h no_ll

end ExC88

/-- **C88 is false of the code**: a list behind the annotation `list` is shared by the object and the result. -/
theorem C88_false_shared : ∃ (env : Env) (O : Open) (v x : Obj) (a : Nat), write env O 9 true none none v = some (x, []) ∧ Holds a v ∧ Holds a x :=
  ⟨_, _, _, _, 1, ExC88.write_s, .attr (k := "x") List.mem_cons_self (.list _), .inn (.val (k := .str "x") List.mem_cons_self) (.list _)⟩

/-- **C88 is false of the code**: the internal tag of a transparent class around a bare dict is written into the dict of the object. -/
theorem C88_false_written : ∃ (env : Env) (O : Open) (v x : Obj) (a : Nat), write env O 9 true none none v = some (x, [a]) ∧ Holds a v :=
  ⟨_, _, _, _, 2, ExC88.write_u, .attr (k := "u") List.mem_cons_self (.attr (k := "d") List.mem_cons_self (.dict _))⟩

end Verif.Props
