import Verif.Spec.Params
/-!
# A field annotated with a type variable gets the argument given for that variable
-/

namespace Verif.Props
open Verif.Spec

theorem firsts_nodup {xs : List String} (h : xs.Nodup) : firsts xs = xs := by
  induction xs with
  | nil => rfl
  | cons x xs ih =>
    rw [List.nodup_cons] at h
    rw [firsts, ih h.2]
    congr 1
    refine List.filter_eq_self.2 (fun y hy => ?_)
    simp only [bne_iff_ne, ne_eq]
    intro he
    exact h.1 (he ▸ hy)

theorem flatMap_noArgs {β : Type} {bs : List OrigBase} (h : ∀ a ∈ bs, a.args = [] ∧ a.generic = false) (g : List BaseArg → List β) (hg : g [] = []) :
    bs.flatMap (fun b => g b.args) = [] := by
  rw [List.flatMap_eq_nil_iff]
  intro b hb
  rw [(h b hb).1, hg]

theorem findInArgs_vars {x : String} : ∀ {xs : List String} {i : Nat}, findInArgs x i (xs.map (fun y => { name := some y, vars := [y], isVar := true })) =
    .ok (if x ∈ xs then some (i + xs.idxOf x) else none)
  | [], i => rfl
  | y :: xs, i => by
    rw [List.map_cons, findInArgs]
    dsimp only
    by_cases h : y = x
    · subst h; simp
    · have h1 : (y == x) = false := by simpa using h
      have h2 : ¬ x = y := fun h' => h h'.symm
      rw [h1, findInArgs_vars]
      simp only [Bool.false_eq_true, if_false, List.mem_cons, h2, false_or]
      split
      · rw [List.idxOf_cons, h1]
        simp only [cond_false]
        rw [show i + 1 + List.idxOf x xs = i + (List.idxOf x xs + 1) by omega]
      · rfl

theorem findInBases_noArgs {x : String} {bs : List OrigBase} : ∀ {pre : List OrigBase}, (∀ a ∈ pre, a.args = [] ∧ a.generic = false) → findInBases x (pre ++ bs) = findInBases x bs
  | [], _ => rfl
  | a :: pre, h => by
    rw [List.cons_append, findInBases, (h a (by simp)).1]
    exact findInBases_noArgs (fun b hb => h b (by simp [hb]))

theorem findArg_one {bases : List OrigBase} {xs : List String} (h : OneBase bases xs) (x : String) :
    findArg bases x = .ok (if x ∈ xs then some (xs.idxOf x) else none) := by
  obtain ⟨pre, b, post, rfl, hb, hn⟩ := h.split
  unfold findArg
  rw [if_neg (by simp), findInBases_noArgs (fun a ha => hn a (by simp [ha])), findInBases, hb.args, findInArgs_vars]
  by_cases hx : x ∈ xs
  · simp [hx]
  · simp only [hx, if_false]
    have := findInBases_noArgs (x := x) (bs := []) (pre := post) (fun a ha => hn a (by simp [ha]))
    rw [List.append_nil] at this
    exact this

theorem typeVarNames_one {bases : List OrigBase} {xs : List String} (h : OneBase bases xs) : typeVarNames bases = some xs := by
  obtain ⟨pre, b, post, rfl, hb, hn⟩ := h.split
  unfold typeVarNames
  rw [if_neg (by simp), List.flatMap_append, List.flatMap_cons,
    flatMap_noArgs (fun a ha => hn a (by simp [ha])) (fun as => as.filterMap (·.name)) rfl,
    flatMap_noArgs (fun a ha => hn a (by simp [ha])) (fun as => as.filterMap (·.name)) rfl, hb.args]
  have : ∀ ys : List String, (ys.map (fun x => ({ name := some x, vars := [x], isVar := true } : BaseArg))).filterMap (·.name) = ys := by
    intro ys
    induction ys with
    | nil => rfl
    | cons y ys ih => rw [List.map_cons, List.filterMap_cons, ih]
  simp only [List.nil_append, List.append_nil, this]

theorem vars_flat (xs : List String) : (xs.map (fun x => ({ name := some x, vars := [x], isVar := true } : BaseArg))).flatMap (·.vars) = xs := by
  induction xs with
  | nil => rfl
  | cons x xs ih => rw [List.map_cons, List.flatMap_cons, ih]; rfl

/-- **C78** With one base that has arguments, all different type variables, the names that pyserde works with are the parameters of the class,
and every variable is found at its place among them. -/
theorem C78_parameters_partial {bases : List OrigBase} {xs : List String} (h : OneBase bases xs) :
    typeVarNames bases = some (parameters bases) ∧
    ∀ x ∈ parameters bases, ∃ i, findArg bases x = .ok (some i) ∧ (parameters bases)[i]? = some x := by
  have hp : parameters bases = xs := by
    obtain ⟨pre, b, post, rfl, hb, hn⟩ := h.split
    unfold parameters
    cases hf : (pre ++ b :: post).find? (·.generic) with
    | some b' =>
      have hm := List.mem_of_find?_eq_some hf
      have hg := List.find?_some hf
      have : b' = b := by
        rcases List.mem_append.1 hm with h' | h'
        · rw [(hn b' (by simp [h'])).2] at hg; cases hg
        · rcases List.mem_cons.1 h' with h'' | h''
          · exact h''
          · rw [(hn b' (by simp [h''])).2] at hg; cases hg
      subst this
      dsimp only
      rw [hb.args]
      exact vars_flat xs
    | none =>
      dsimp only
      rw [List.flatMap_append, List.flatMap_cons, flatMap_noArgs (fun a ha => hn a (by simp [ha])) (fun as => as.flatMap (·.vars)) rfl,
        flatMap_noArgs (fun a ha => hn a (by simp [ha])) (fun as => as.flatMap (·.vars)) rfl, hb.args, vars_flat]
      simp [firsts_nodup hb.distinct]
  rw [hp]
  refine ⟨typeVarNames_one h, fun x hx => ⟨xs.idxOf x, ?_, ?_⟩⟩
  · rw [findArg_one h, if_pos hx]
  · rw [List.getElem?_eq_getElem (List.idxOf_lt_length_iff.2 hx), List.getElem_idxOf]

theorem parameters_one {bases : List OrigBase} {xs : List String} (h : OneBase bases xs) : parameters bases = xs :=
  (Option.some.inj ((typeVarNames_one h).symm.trans (C78_parameters_partial h).1)).symm

/-- **C78** A field annotated with the `i`-th parameter of the inner class is read with the argument that the outer class was given for the
variable in the `i`-th place of the subscription. -/
theorem C78_argument_partial {top : GenericClass} {inner : List OrigBase} {xs ys : List String} {args : List Ty} {passed : List String}
    (ht : OneBase top.bases xs) (hi : OneBase inner ys) (hl : args.length = (parameters top.bases).length) {i j : Nat} {x y : String} {t : Ty}
    (hx : (parameters inner)[i]? = some x) (hp : passed[i]? = some y) (hy : (parameters top.bases)[j]? = some y) (hj : args[j]? = some t) :
    argAt top args (passed.map (fun y => (.invariant, y))) inner x = .ok t := by
  rw [parameters_one ht] at hl hy
  rw [parameters_one hi] at hx
  have nd : xs.Nodup ∧ ys.Nodup := by
    obtain ⟨_, b, _, _, hb, _⟩ := ht.split
    obtain ⟨_, b', _, _, hb', _⟩ := hi.split
    exact ⟨hb.distinct, hb'.distinct⟩
  have idx : ∀ {zs : List String} {k : Nat} {z : String}, zs.Nodup → zs[k]? = some z → zs.idxOf z = k := by
    intro zs k z hz hk
    obtain ⟨hlt, rfl⟩ := List.getElem?_eq_some_iff.1 hk
    exact hz.idxOf_getElem k hlt
  unfold argAt
  rw [findArg_one hi, if_pos (List.mem_of_getElem? hx), idx nd.2 hx, typeVarNames_one ht]
  dsimp only
  unfold getGenericArg
  dsimp only
  rw [if_neg (by simp [hl]), List.getElem?_map, List.getElem?_map, hp]
  dsimp only [Option.map]
  rw [show varStr .invariant y = y from rfl, idx nd.1 hy, hj]

/-- **C78** For such a class the reader's single list of variables says the same. -/
theorem C78_reader {bases : List OrigBase} {xs : List String} (h : OneBase bases xs) (x : String) :
    findArg bases x = .ok (findGenericArg xs x) ∧ typeVarNames bases = some xs := by
  refine ⟨?_, typeVarNames_one h⟩
  rw [findArg_one h]
  unfold findGenericArg
  simp only [List.idxOf_lt_length_iff]

namespace C78Ex
def var (x : String) : BaseArg := { name := some x, vars := [x], isVar := true }
/-- `class Mixin`, `Generic[T, U]`. -/
def mixin : OrigBase := {}
def generic (xs : List String) : OrigBase := { generic := true, args := xs.map var }
def base (as : List BaseArg) : OrigBase := { args := as }
/-- `int`, `int | str`. -/
def int : BaseArg := { name := some "int", vars := [] }
def intOrStr : BaseArg := { name := none, vars := [] }

/-- `class Pair(Mixin, Generic[T, U])`. -/
theorem pair : OneBase [mixin, generic ["T", "U"]] ["T", "U"] :=
  ⟨[mixin], generic ["T", "U"], [], rfl, ⟨rfl, by decide⟩, by simp [mixin]⟩

/-- `class Box(Generic[V])`. -/
theorem box : OneBase [generic ["V"]] ["V"] := ⟨[], generic ["V"], [], rfl, ⟨rfl, by decide⟩, by simp⟩

/-- `class Pair(Mixin, Generic[T, U])` has a field `Box[U]`; in `Pair[int, str]` the field annotated `V` of the box is read as str. -/
example : argAt ⟨"Pair", [mixin, generic ["T", "U"]]⟩ [.prim .int, .prim .str] [(.invariant, "U")] [generic ["V"]] "V" = .ok (.prim .str) :=
  C78_argument_partial (top := ⟨"Pair", [mixin, generic ["T", "U"]]⟩) (passed := ["U"]) (i := 0) (j := 1) pair box rfl rfl rfl rfl rfl

example : typeVarNames [mixin, generic ["T", "U"]] = some ["T", "U"] := (C78_parameters_partial pair).1
example : findArg [mixin, generic ["T", "U"]] "V" = .ok none := (C78_reader pair "V").1
end C78Ex

open C78Ex in
/-- **C78** is false with two generic bases: positions are counted from 0 in each of them. `class Both(A[T], B[U])` has the parameters `T` and
`U`, and in a field annotated `Both[T, U]` of `Pair[int, str]` what is annotated `U` is read as int. -/
theorem C78_false_two_bases : ∃ inner, parameters inner = ["T", "U"] ∧ typeVarNames inner = some ["T", "U"] ∧
    ∀ t u, argAt ⟨"Pair", [mixin, generic ["T", "U"]]⟩ [t, u] [(.invariant, "T"), (.invariant, "U")] inner "U" = .ok t :=
  ⟨[base [var "T"], base [var "U"]], by decide, by decide, fun _ _ => rfl⟩

open C78Ex in
/-- **C78** is false where a base of the outer class has an argument that is no variable, or a variable occurs in two bases: the number of names
is not the number of parameters. `class C(A[int], Generic[T])` and `class D(A[T], Generic[T])` cannot be read, whatever they are subscripted with. -/
theorem C78_false_count : ∃ b1 b2, parameters b1 = ["T"] ∧ parameters b2 = ["T"] ∧
    ∀ t, argAt ⟨"C", b1⟩ [t] [(.invariant, "T")] [generic ["V"]] "V" = .error (.serde "generic") ∧
      argAt ⟨"D", b2⟩ [t] [(.invariant, "T")] [generic ["V"]] "V" = .error (.serde "generic") :=
  ⟨[base [int], generic ["T"]], [base [var "T"], generic ["T"]], by decide, by decide, fun _ => ⟨rfl, rfl⟩⟩

open C78Ex in
/-- **C78** is false where an argument of an earlier base has no name: `class E(A[int | str], Generic[T])` with a field annotated `T` cannot even
be decorated. -/
theorem C78_false_unnamed : ∃ bases, parameters bases = ["T"] ∧ findArg bases "T" = .error .attr :=
  ⟨[base [intOrStr], generic ["T"]], by decide, rfl⟩

open C78Ex in
/-- **C78** is false for variables declared covariant or contravariant: their sign stays in the name that is passed on, which is not found, and
the field is read as `Any`. -/
theorem C78_false_variance : ∀ v, (v = .covariant ∨ v = .contravariant) →
    ∀ t, argAt ⟨"Top", [generic ["T"]]⟩ [t] [(v, "T")] [generic ["V"]] "V" = .ok .any := by
  rintro v (rfl | rfl) t <;> rfl

end Verif.Props
