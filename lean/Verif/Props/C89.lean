import Verif.Model.HeapRead
import Verif.Props.C88
/-!
# C89: what is read shares no container with the data

The object that `from_dict` and `from_tuple` return holds no list, dict, set, deque or object of the data. It fails for `dict` without arguments and `Any`, whose data is
handed over as it is (`C89_false_shared`). Proved: nothing else is shared.
-/

namespace Verif.Heap
open Verif

/-- Annotations whose data is handed over as it is: bare mappings, `Any`, and leaves. -/
inductive WholeDe : Ty → Prop
  | dict {k} : WholeDe (.dictB k)
  | any : WholeDe .any
  | prim {p} : WholeDe (.prim p)
  | newType {n p} : WholeDe (.newType n p)
  | std {k} : WholeDe (.std k)
  | dt {k} : WholeDe (.dt k)
  | lit {vs} : WholeDe (.lit vs)

/-- Annotations whose data is copied, the items being handed over as they are. -/
inductive ShallowDe : Ty → Prop
  | list {k} : ShallowDe (.listB k)
  | deque : ShallowDe .dequeB
  | set {k} : ShallowDe (.setB k)
  | tuple : ShallowDe .tupleB
  | counterB : ShallowDe .counterB
  | counter {t} : ShallowDe (.counter t)

/-- `Given env t v y`: going through the data `v` along the annotation `t` leads to `y` at a place where data is handed over as it is. -/
inductive Given (env : Env) : Ty → Obj → Obj → Prop
  | whole {t v} : WholeDe t → Given env t v v
  | shallow {t x v} : ShallowDe t → Inside x v → Given env t v x
  | alias {n t v y} : Given env t v y → Given env (.alias n t) v y
  | gen {c as v y} : Given env (.cls c) v y → Given env (.gen c as) v y
  | member {ts t v y} : t ∈ ts → Given env t v y → Given env (.union ts) v y
  | tagged {ts t x v y} : t ∈ ts → Inside x v → Given env t x y → Given env (.union ts) v y
  | item {t e x v y} : ItemOf t e → Inside x v → Given env e x y → Given env t v y
  | field {c cd f x v y} : env.cls c = some cd → f ∈ cd.fields → Inside x v → Given env f.ty x y → Given env (.cls c) v y
  | transparent {c cd f v y} : env.cls c = some cd → cd.transparent = true → f ∈ cd.fields → Given env f.ty v y → Given env (.cls c) v y

/-- Everything a result holds comes from one of the values `P`. -/
def Owned (P : Obj → Prop) (x : Obj) : Prop := ∀ a, Holds a x → ∃ y, P y ∧ Holds a y

theorem Owned.mono {P Q : Obj → Prop} {x} (h : Owned P x) (hpq : ∀ y, P y → Q y) : Owned Q x :=
  fun a ha => let ⟨y, h1, h2⟩ := h a ha; ⟨y, hpq _ h1, h2⟩

theorem Owned.atom {P : Obj → Prop} {v} : Owned P (.atom v) := fun _ h => absurd h not_holds_atom

theorem Owned.self {P : Obj → Prop} {v} (h : P v) : Owned P v := fun _ ha => ⟨v, h, ha⟩

theorem holds_deque {a xs} (h : Holds a (.deque none xs)) : ∃ x ∈ xs, Holds a x := by
  cases h with | inn h1 h2 => cases h1 with | deque h => exact ⟨_, h, h2⟩

theorem holds_inst {a c attrs} (h : Holds a (.inst none c attrs)) : ∃ p ∈ attrs, Holds a p.2 := by
  cases h with
  | inn h1 h2 => cases h1
  | attr h1 h2 => exact ⟨_, h1, h2⟩

theorem eachDe_mem {α β : Type} {f : α → Option β} : ∀ {xs : List α} {ys}, eachDe f xs = some ys → ∀ y ∈ ys, ∃ x ∈ xs, f x = some y
  | [], ys, h, y, hy => by cases h; cases hy
  | x :: xs, ys, h, y, hy => by
    simp only [eachDe] at h
    split at h
    · cases h
    · rename_i z hz
      split at h
      · cases h
      · rename_i zs hzs
        cases h
        rcases List.mem_cons.1 hy with rfl | hy
        · exact ⟨x, List.mem_cons_self, hz⟩
        · obtain ⟨x', h1, h2⟩ := eachDe_mem hzs y hy
          exact ⟨x', List.mem_cons_of_mem _ h1, h2⟩

theorem Owned.collect {α : Type} {P : Obj → Prop} {f : α → Option Obj} {xs : List α} {mk : List Obj → Obj} {x} (h : (eachDe f xs).map mk = some x)
    (hf : ∀ x ∈ xs, ∀ y, f x = some y → Owned P y) (hmk : ∀ ys a, Holds a (mk ys) → ∃ y ∈ ys, Holds a y) : Owned P x := by
  obtain ⟨ys, hy, e⟩ := Option.map_eq_some_iff.1 h
  subst e
  intro a ha
  obtain ⟨y, h1, h2⟩ := hmk ys a ha
  obtain ⟨x, h3, h4⟩ := eachDe_mem hy y h1
  exact hf x h3 y h4 a h2

theorem owned_shallow {env t v x} {mk : List Obj → Obj} (hs : ShallowDe t) (h : (items v).map mk = some x) (hmk : ∀ ys a, Holds a (mk ys) → ∃ y ∈ ys, Holds a y) :
    Owned (Given env t v) x := by
  obtain ⟨ys, hy, e⟩ := Option.map_eq_some_iff.1 h
  subst e
  intro a ha
  obtain ⟨y, h1, h2⟩ := hmk ys a ha
  exact ⟨y, .shallow hs (inside_items hy y h1), h2⟩

theorem owned_counter {env t b kvs} (hs : ShallowDe t) : Owned (Given env t (.dict b kvs)) (.dict none kvs) := by
  intro a ha
  rcases holds_dict ha with h | ⟨kv, hkv, h⟩
  · cases h
  · exact ⟨kv.2, .shallow hs (.val (k := kv.1) hkv), h⟩

theorem inside_getKey {k v x} (h : getKey k v = some x) : Inside x v := by
  unfold getKey at h
  split at h
  · obtain ⟨kv, h1, rfl⟩ := Option.map_eq_some_iff.1 h
    exact .val (k := kv.1) (List.mem_of_find?_eq_some h1)
  · cases h

theorem payload_or {env tg m v x} (h : payload env tg m v = some x) : x = v ∨ Inside x v := by
  unfold payload at h
  split at h
  · split at h
    · exact .inr (inside_getKey h)
    · exact .inr (inside_getKey h)
    · cases h; exact .inl rfl
    · cases h; exact .inl rfl
  · cases h; exact .inl rfl

theorem inside_cells {v xs} (h : cells v = some xs) : ∀ x ∈ xs, Inside x v := by
  intro x hx
  unfold cells at h
  split at h <;> cases h
  · obtain ⟨kv, hkv, rfl⟩ := List.mem_map.1 hx
    exact .val (k := kv.1) hkv
  · exact .list hx
  · exact .tuple hx

/-- The invariant of the functions. -/
structure GoodDe (env : Env) (r : RecDe) : Prop where
  read : ∀ named tg t v x, r.read named tg t v = some x → Owned (Given env t v) x
  cls : ∀ named c v x, r.cls named c v = some x → Owned (Given env (.cls c) v) x

theorem good_clsDe {env O r} (g : GoodDe env r) (named : Bool) (c : ClassId) (v x : Obj) (h : clsDe env O r named c v = some x) : Owned (Given env (.cls c) v) x := by
  unfold clsDe at h
  split at h
  · cases h
  · rename_i cd hcd
    split at h
    · rename_i ht
      split at h
      · rename_i f fs hfs
        split at h
        · cases h
        · obtain ⟨y, hy, e⟩ := Option.map_eq_some_iff.1 h
          subst e
          intro a ha
          obtain ⟨p, hp, hv⟩ := holds_inst ha
          simp only [List.mem_singleton] at hp
          subst hp
          exact ((g.read _ _ _ _ _ hy).mono fun y hy => .transparent hcd ht (by rw [hfs]; exact List.mem_cons_self) hy) a hv
      · cases h
    · obtain ⟨attrs, he, e⟩ := Option.map_eq_some_iff.1 h
      subst e
      intro a ha
      obtain ⟨p, hp, hv⟩ := holds_inst ha
      obtain ⟨f, hf, h⟩ := eachDe_mem he p hp
      have hd : ∀ {p : String × Obj}, ((O.dflt c f).map fun d => (f.name, Obj.atom d)) = some p → ¬ Holds a p.2 := by
        intro p h
        obtain ⟨d, _, e⟩ := Option.map_eq_some_iff.1 h
        subst e
        exact not_holds_atom
      unfold fieldDe at h
      dsimp only at h
      split at h
      · cases h
      · split at h
        · exact absurd hv (hd h)
        · split at h
          · exact absurd hv (hd h)
          · split at h
            · cases h
            · rename_i xs hxs
              split at h
              · cases h
              · rename_i w hw
                obtain ⟨y, hy, e⟩ := Option.map_eq_some_iff.1 h
                subst e
                exact ((g.read _ _ _ _ _ hy).mono fun y hy => .field hcd hf (inside_cells hxs _ (List.mem_of_getElem? hw)) hy) a hv

theorem good_readF {env O r} (g : GoodDe env r) (named : Bool) (tg : Tagging) (t : Ty) (v x : Obj) (h : readF env O r named tg t v = some x) :
    Owned (Given env t v) x := by
  unfold readF at h
  split at h
  · cases h; exact .atom
  · exact (g.read _ _ _ _ _ h).mono fun _ hy => .alias hy
  · exact (g.cls _ _ _ _ h).mono fun _ hy => .gen hy
  · exact g.cls _ _ _ _ h
  · split at h
    · cases h; exact .atom
    · exact (g.read _ _ _ _ _ h).mono fun _ hy => .member List.mem_cons_self hy
  · split at h
    · cases h
    · rename_i m hm
      have hm' := List.mem_of_getElem? hm
      split at h
      · cases h
      · rename_i y hp
        rcases payload_or hp with rfl | hi
        · exact (g.read _ _ _ _ _ h).mono fun _ hy => .member hm' hy
        · exact (g.read _ _ _ _ _ h).mono fun _ hy => .tagged hm' hi hy
  · exact owned_shallow .list h fun _ _ => holds_list
  · exact owned_shallow .deque h fun _ _ => holds_deque
  · exact owned_shallow .set h fun _ _ => holds_set
  · exact owned_shallow .tuple h fun _ _ => holds_tuple
  · split at h
    · cases h
    · rename_i xs hv
      exact .collect h (fun x hx _ e => (g.read _ _ _ _ _ e).mono fun _ hy => .item .list (inside_items hv x hx) hy) fun _ _ => holds_list
  · split at h
    · cases h
    · rename_i xs hv
      exact .collect h (fun x hx _ e => (g.read _ _ _ _ _ e).mono fun _ hy => .item .deque (inside_items hv x hx) hy) fun _ _ => holds_deque
  · split at h
    · cases h
    · rename_i xs hv
      exact .collect h (fun x hx _ e => (g.read _ _ _ _ _ e).mono fun _ hy => .item .set (inside_items hv x hx) hy) fun _ _ => holds_set
  · split at h
    · cases h
    · rename_i xs hv
      exact .collect h (fun x hx _ e => (g.read _ _ _ _ _ e).mono fun _ hy => .item .tupleV (inside_items hv x hx) hy) fun _ _ => holds_tuple
  · split at h
    · cases h
    · rename_i xs hv
      split at h
      · cases h
      · exact .collect h (fun q hq _ e => (g.read _ _ _ _ _ e).mono fun _ hy =>
          .item (.tuple (List.of_mem_zip hq).1) (inside_items hv _ (List.of_mem_zip hq).2) hy) fun _ _ => holds_tuple
  · cases h
  · cases h; exact .self (.whole .dict)
  · split at h
    · cases h; exact owned_counter .counterB
    · cases h
  · split at h
    · cases h; exact owned_counter .counter
    · cases h
  · split at h
    · obtain ⟨es, he, e⟩ := Option.map_eq_some_iff.1 h
      subst e
      intro a ha
      rcases holds_dict ha with h | ⟨kv, hkv, hv⟩
      · cases h
      · obtain ⟨kv', h1, h2⟩ := eachDe_mem he kv hkv
        obtain ⟨y, hy, e⟩ := Option.map_eq_some_iff.1 h2
        subst e
        exact ((g.read _ _ _ _ _ hy).mono fun _ hy => .item .dict (.val (k := kv'.1) h1) hy) a hv
    · cases h
  · cases h; exact .self (.whole .any)
  · cases h
  · cases h
  · split at h
    · cases h; exact .atom
    · cases h
  · cases h; exact .self (.whole .prim)
  · cases h; exact .self (.whole .newType)
  · cases h; exact .self (.whole .std)
  · cases h; exact .self (.whole .dt)
  · cases h; exact .self (.whole .lit)

theorem goodDe_at (env : Env) (O : OpenDe) : ∀ n, GoodDe env (deRecAt env O n)
  | 0 => ⟨(fun _ _ _ _ _ h => by cases h), (fun _ _ _ _ h => by cases h)⟩
  | n + 1 => ⟨good_readF (goodDe_at env O n), good_clsDe (goodDe_at env O n)⟩

end Verif.Heap

namespace Verif.Props
open Verif Verif.Heap

/-- **C89** A container or object of the data that is reached from the object read is reached from a value at a place annotated `Any`, with a bare mapping or as a leaf, or is an item
of a bare container; unless the data is an object of the class already. -/
theorem C89_shared_partial {env : Env} {O : OpenDe} {n named c v x a} (h : readObj env O n named c v = some x) (hv : ∀ b attrs, v ≠ .inst b c attrs) (ha : Holds a x) :
    ∃ y, Given env (.cls c) v y ∧ Holds a y := by
  unfold readObj at h
  split at h
  · rename_i b c' attrs
    split at h
    · rename_i e; subst e; exact absurd rfl (hv b attrs)
    · cases h
  · exact (goodDe_at env O n).cls _ _ _ _ h a ha

/-- **C89** in full where no such place holds a container: the object is made of new containers only. -/
theorem C89_separate_partial {env : Env} {O : OpenDe} {n named c v x} (h : readObj env O n named c v = some x) (hv : ∀ b attrs, v ≠ .inst b c attrs)
    (hno : ∀ y, Given env (.cls c) v y → ∀ a, ¬ Holds a y) (a : Nat) : ¬ Holds a x :=
  fun ha => let ⟨y, h1, h2⟩ := C89_shared_partial h hv ha; hno y h1 a h2

namespace ExC89

/-- `d` a bare dict, `l` a bare list, `m` a list of ints. -/
def S : ClassDef := { name := "S", mro := ["S"], fields := [{ name := "d", ty := .dictB .dict }, { name := "l", ty := .listB .list }, { name := "m", ty := .list .list (.prim .int) }] }
/-- Only `m`. -/
def L : ClassDef := { name := "L", mro := ["L"], fields := [{ name := "m", ty := .list .list (.prim .int) }] }
def env : Env := Ex.mk [("S", S), ("L", L)]
def O : OpenDe := { entry := fun _ f _ => if f.name = "l" then some 1 else if f.name = "d" then some 0 else some 2, dflt := fun _ _ => none, pick := fun _ _ => 0 }
def O0 : OpenDe := { O with entry := fun _ _ _ => some 0 }
def one : Obj := .atom (.int 1)
def data : Obj := .dict (some 0) [(.str "d", .dict (some 1) []), (.str "l", .list (some 2) [.list (some 3) []]), (.str "m", .list (some 4) [one])]

/-- The dict is the one of the data, so is the inner list; the other lists are new. -/
theorem read_data : readObj env O 9 true "S" data =
    some (.inst none "S" [("d", .dict (some 1) []), ("l", .list none [.list (some 3) []]), ("m", .list none [one])]) := rfl

example : ∃ y, Given env (.cls "S") data y ∧ Holds 3 y :=
  C89_shared_partial read_data (by intro b attrs h; cases h) (.attr (k := "l") (.tail _ (.head _)) (.inn (.list List.mem_cons_self) (.list _)))

def dataL : Obj := .dict (some 0) [(.str "m", .list (some 4) [one])]
theorem given_prim {p v y} (h : Given env (.prim p) v y) : y = v := by
  cases h with
  | whole => rfl
  | shallow h _ => cases h
  | item h _ _ => cases h
theorem given_list {v y} (h : Given env (.list .list (.prim .int)) v y) : Inside y v := by
  cases h with
  | whole h => cases h
  | shallow h _ => cases h
  | item h1 h2 h3 => cases h1; rw [given_prim h3]; exact h2
theorem no_container (y : Obj) (h : Given env (.cls "L") dataL y) (a : Nat) : ¬ Holds a y := by
  cases h with
  | whole h => cases h
  | shallow h _ => cases h
  | item h _ _ => cases h
  | transparent h1 h2 _ _ => cases h1; cases h2
  | field h1 h2 h3 h4 =>
    cases h1
    simp only [L, List.mem_singleton] at h2
    subst h2
    have h4 := given_list h4
    cases h3 with
    | key h => cases h4
    | val h =>
      simp only [List.mem_singleton, Prod.mk.injEq] at h
      obtain ⟨_, rfl⟩ := h
      cases h4 with
      | list h =>
        simp only [List.mem_singleton] at h
        subst h
        exact not_holds_atom
example (a : Nat) : ¬ Holds a (.inst none "L" [("m", .list none [one])]) :=
  C89_separate_partial (env := env) (O := O0) (n := 9) (named := true) (v := dataL) rfl (by intro b attrs h; cases h) no_container a

end ExC89

/-- **C89 is false of the code**: the dict behind the annotation `dict` is shared by the data and the object. -/
theorem C89_false_shared : ∃ (env : Env) (O : OpenDe) (c : ClassId) (kvs : List (Val × Obj)) (x : Obj) (a : Nat),
    readObj env O 9 true c (.dict (some 0) kvs) = some x ∧ Holds a (.dict (some 0) kvs) ∧ Holds a x :=
  ⟨_, _, _, _, _, 1, ExC89.read_data, .inn (.val (k := .str "d") List.mem_cons_self) (.dict _), .attr (k := "d") List.mem_cons_self (.dict _)⟩

end Verif.Props
