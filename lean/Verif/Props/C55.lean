import Verif.Lemmas.Shape
import Verif.Props.C54
/-!
# C55: what is read has the shape its annotations ask for

Full statement: "Whatever the input, when deserialization returns a value, the value has at every position the class and structure its annotation
asks for: containers of the right class and tuples of the right length, elements, keys and values likewise, enum members, dates and UUIDs, values of
the literal, a member of the union that passes the type check, objects whose attributes are so shaped or are the declared defaults; primitives are of
the annotated class where the class coerces, floats also where the format reads numbers as floats."

The input is arbitrary here, and so are aliases, flattening, missing keys and the kind of the class; that is the difference to C54. False of the code:
a bare `frozenset` is read as a `set` (`C55_false_frozenset`), `from_dict(tuple[int, ...], x)` leaves the elements as they are and a tuple given to
`from_dict` may be too short (`C55_false_top_tuple`), a skipped field shifts the attributes when reading tuples (`C55_false_shift`). Those are the
exceptions `Shaped`, `TopShaped` and `Aligned` spell out; nothing is claimed for type variables, custom deserializers and classes with a
`__post_init__`, and unions and literals must have functions of their own (C44).
-/

namespace Verif.Props
open Verif Spec

/-- **C55** An object returned by `from_dict` for a class, whatever the input, unless that was an object of the class already. -/
theorem C55_object_partial {env : Env} {o : DeOpts} {n c x w} (hw : CtorsOk env o.numbers) (hU : DistinctUnions env) (hL : DistinctLits env)
    (hg : ∀ s ∈ env.gde, s.handles (.cls c) = false) (hd : IsData c x) (h : fromDict env o n (.cls c) x = .ok w) :
    Shaped env o.numbers.isSome false (.cls c) w := by
  obtain ⟨m, rfl, hm⟩ := fromObj_cls_cases hg hd h (by intro h; cases h)
  exact cls_shape (shape_at hw hU hL m) hU hL (fun h => by cases h) rfl (wrapUser_ok.1 hm)

/-- **C55** The same for `from_tuple`, where every constructor parameter has to be read. -/
theorem C55_object_tuple_partial {env : Env} {o : DeOpts} {n c x w} (hw : CtorsOk env o.numbers) (hU : DistinctUnions env) (hL : DistinctLits env)
    (hA : ∀ c cd, env.cls c = some cd → Aligned cd) (hg : ∀ s ∈ env.gde, s.handles (.cls c) = false) (hd : IsData c x)
    (h : fromTuple env o n (.cls c) x = .ok w) : Shaped env o.numbers.isSome false (.cls c) w := by
  obtain ⟨m, rfl, hm⟩ := fromObj_cls_cases hg hd h (by intro h; cases h)
  exact cls_shape (shape_at hw hU hL m) hU hL (fun _ => hA) rfl (wrapUser_ok.1 hm)

/-- **C55** What `from_dict` returns for any annotation, if no dataclass objects are in the input. -/
theorem C55_from_dict_partial {env : Env} {o : DeOpts} {n t x w} (hw : CtorsOk env o.numbers) (hU : DistinctUnions env) (hL : DistinctLits env)
    (hT : DistinctTop env t) (hx : ∀ c, ¬ Occurs c x) (h : fromDict env o n t x = .ok w) : TopShaped env o.numbers.isSome t w :=
  top_shape_at hw hU hL (fun h => by cases h) n _ _ _ _ _ hT hx h

/-- **C55** What `from_tuple` returns for any annotation. -/
theorem C55_from_tuple_partial {env : Env} {o : DeOpts} {n t x w} (hw : CtorsOk env o.numbers) (hU : DistinctUnions env) (hL : DistinctLits env)
    (hA : ∀ c cd, env.cls c = some cd → Aligned cd) (hT : DistinctTop env t) (hx : ∀ c, ¬ Occurs c x) (h : fromTuple env o n t x = .ok w) :
    TopShaped env o.numbers.isSome t w :=
  top_shape_at hw hU hL (fun _ => hA) n _ _ _ _ _ hT hx h

theorem jsonNumbers_float {W : World} {x w} (h : jsonNumbers W x = .ok w) : OfPrim .float w := by
  unfold jsonNumbers at h
  split at h
  · cases h
  · unfold floatOf at h
    split at h
    · cases h; exact .float
    · cases h
  · cases h; exact .float
  · cases h

/-- **C40, C55** `from_json` with numbers as floats: the value is shaped, so whatever is annotated `float`, also in unions, sets, keys and default
factories of other classes, is a float. -/
theorem C55_json_partial {env : Env} {K n t s tg x w} (hp : ∀ p x w, env.W.primOther p x = .ok w → OfPrim p w)
    (hs : ∀ k x w, env.W.stdCtor k x = .ok w → IsA env (.std k) w) (hdt : ∀ k x w, env.W.dtParse k x = .ok w → IsA env (.dt k) w)
    (hU : DistinctUnions env) (hL : DistinctLits env) (hT : DistinctTop env t) (hd : K.dec s = .ok x) (hx : ∀ c, ¬ Occurs c x)
    (h : fromJson env K n t s true tg = .ok w) : TopShaped env true t w :=
  C55_from_dict_partial (o := { reuse := some false, numbers := some (jsonNumbers env.W), tagging := tg })
    ⟨hp, hs, hdt, fun num x w hn h => by cases hn; exact jsonNumbers_float h⟩ hU hL hT hx (fromJson_dict hd h)

/-! What `Shaped` says at a position. -/

/-- A float that the format reads is a float. -/
theorem C55_float {env : Env} {b w} (hc : ¬ Customised env (.prim .float)) (h : Shaped env true b (.prim .float) w) : ∃ x, w = .float x := by
  cases h with
  | custom h => exact (hc h).elim
  | prim h => cases h; exact ⟨_, rfl⟩
  | primAsIs h => cases h rfl

/-- A value of a union, Optional aside, is shaped as a member asks for and passes its type check. -/
theorem C55_union {env : Env} {fl b ts w} (hc : ¬ Customised env (.union ts)) (ho : (Ty.union ts).isOpt = false) (h : Shaped env fl b (.union ts) w) :
    ∃ t ∈ ts, Shaped env fl false t w ∧ Checked env t w := by
  generalize ht : Ty.union ts = t at h
  cases h with
  | custom h => exact (hc (ht ▸ h)).elim
  | optNone hn => cases ht; rw [opt_isOpt hn] at ho; cases ho
  | opt hn _ => cases ht; rw [opt_isOpt hn] at ho; cases ho
  | union _ h1 h2 h3 => cases ht; exact ⟨_, h1, h2, h3⟩
  | _ => cases ht

/-! ## Examples and witnesses -/

namespace C55Ex
open C54Ex (env o hU hL hT run cls_cases dO vO)

theorem ctors : CtorsOk env o.numbers := by
  refine ⟨fun p x w h => (by cases h), fun k x w h => ?_, fun k x w h => ?_, fun num x w hn h => ?_⟩
  · cases x <;> cases h; exact .std
  · cases x <;> cases h; exact .dt
  · cases hn; exact jsonNumbers_float h

theorem data : ∀ c, ¬ Occurs c (.list [dO]) := by
  intro c h
  cases h with
  | list hm h =>
    simp only [List.mem_cons, List.not_mem_nil, or_false] at hm
    subst hm
    unfold dO C54Ex.dI at h
    cases h with
    | key hm h =>
      simp only [List.mem_cons, List.not_mem_nil, or_false] at hm
      rcases hm with rfl | rfl | rfl | rfl <;> cases h
    | value hm h =>
      simp only [List.mem_cons, List.not_mem_nil, or_false] at hm
      rcases hm with rfl | rfl | rfl | rfl
      · cases h with
        | list hm h =>
          simp only [List.mem_cons, List.not_mem_nil, or_false] at hm
          subst hm
          cases h with
          | key hm h =>
            simp only [List.mem_cons, List.not_mem_nil, or_false] at hm
            rcases hm with rfl | rfl | rfl | rfl | rfl <;> cases h
          | value hm h =>
            simp only [List.mem_cons, List.not_mem_nil, or_false] at hm
            rcases hm with rfl | rfl | rfl | rfl | rfl <;> cases h
      · cases h with
        | key hm h =>
          simp only [List.mem_cons, List.not_mem_nil, or_false] at hm
          subst hm; cases h
        | value hm h =>
          simp only [List.mem_cons, List.not_mem_nil, or_false] at hm
          subst hm; cases h
      · cases h
      · cases h

example : TopShaped env true (.list .list (.cls "O")) (.list [vO]) := C55_from_dict_partial ctors hU hL hT data run

example : Shaped env true false (.cls "O") vO :=
  C55_object_partial (o := o) (n := 20) (x := dO) ctors hU hL (by intro s hs; cases hs) (by simp [IsData, dO]) rfl

theorem aligned : ∀ c cd, env.cls c = some cd → Aligned cd := by
  intro c cd hc f hf _
  rcases cls_cases hc with ⟨rfl, rfl⟩ | ⟨rfl, rfl⟩ | ⟨rfl, rfl⟩ | ⟨rfl, rfl⟩
  · simp only [C54Ex.cdI, List.mem_cons, List.not_mem_nil, or_false] at hf
    rcases hf with rfl | rfl | rfl | rfl | rfl <;> exact ⟨rfl, rfl, rfl⟩
  · simp only [C54Ex.cdP, List.mem_cons, List.not_mem_nil, or_false] at hf
    rcases hf with rfl | rfl <;> exact ⟨rfl, rfl, rfl⟩
  · simp only [C54Ex.cdW, List.mem_cons, List.not_mem_nil, or_false] at hf
    subst hf; exact ⟨rfl, rfl, rfl⟩
  · simp only [C54Ex.cdO, List.mem_cons, List.not_mem_nil, or_false] at hf
    rcases hf with rfl | rfl | rfl <;> exact ⟨rfl, rfl, rfl⟩

/-- `items`, `m` and the fields of the flattened dataclass. -/
def tO : Val :=
  .tuple [.list [.tuple [.int 3, .str "12", .str "b", .int 2, .dt .date "2020-01-01"]], .dict .plain [(.str "x", .int 5)], .int 7, .int 8]

example : Shaped env true false (.cls "O") vO :=
  C55_object_tuple_partial (o := o) (n := 20) (x := tO) ctors hU hL aligned (by intro s hs; cases hs) (by simp [IsData, tO]) rfl

example : TopShaped env true (.cls "P") (.inst "P" [("w", .float (.fin 7)), ("k", .int 8)]) :=
  C55_from_tuple_partial (o := o) (n := 20) (x := .tuple [.int 7, .int 8]) ctors hU hL aligned (by intro ts h; cases h)
    (by
      intro c h
      cases h with
      | tuple hm h =>
        simp only [List.mem_cons, List.not_mem_nil, or_false] at hm
        rcases hm with rfl | rfl <;> cases h) rfl

/-- The same value from JSON. -/
example : TopShaped env true (.cls "P") (.inst "P" [("w", .float (.fin 7)), ("k", .int 8)]) :=
  C55_json_partial (K := C40Ex.K (.dict .plain [(.str "w", .int 7), (.str "k", .int 8)])) (n := 20) (s := "t") (tg := .external) ctors.prim ctors.std ctors.dt hU hL
    (by intro ts h; cases h) rfl
    (by
      intro c h
      cases h with
      | key hm h =>
        simp only [List.mem_cons, List.not_mem_nil, or_false] at hm
        rcases hm with rfl | rfl <;> cases h
      | value hm h =>
        simp only [List.mem_cons, List.not_mem_nil, or_false] at hm
        rcases hm with rfl | rfl <;> cases h) rfl

/-- `@serde(type_check=disabled) class F: s: frozenset`, `@serde class H: s: frozenset`, `@serde(type_check=coerce) class G: a: str = field(default="a", skip_deserializing=True); b: Any`. -/
def cdF : ClassDef := { name := "F", mro := ["F"], typeCheck := .disabled, fields := [{ name := "s", ty := .setB .frozen }] }
def cdH : ClassDef := { name := "H", mro := ["H"], typeCheck := .strict, fields := [{ name := "s", ty := .setB .frozen }] }
def cdG : ClassDef :=
  { name := "G", mro := ["G"], typeCheck := .coerce,
    fields := [{ name := "a", ty := .prim .str, dflt := some (.str "a"), skipDe := true }, { name := "n", ty := .any, dflt := some .none }] }
def env' : Env := Ex.mk [("F", cdF), ("G", cdG), ("H", cdH)]

theorem not_custom {t} : ¬ Customised env' t := by
  rintro (⟨s, hs, -⟩ | ⟨c, cd, s, hc, h, -⟩)
  · cases hs
  · simp only [Env.cls, env', Ex.mk, List.lookup_cons, List.lookup_nil] at hc
    split at hc
    · cases hc; cases h
    · split at hc
      · cases hc; cases h
      · split at hc
        · cases hc; cases h
        · cases hc

/-- A float that was read is a float. -/
example {b w} (h : Shaped env' true b (.prim .float) w) : ∃ x, w = .float x := C55_float not_custom h

/-- A value of a union of two classes that was read. -/
example {b w} (h : Shaped env' true b (.union [.cls "F", .cls "G"]) w) :
    ∃ t ∈ [Ty.cls "F", .cls "G"], Shaped env' true false t w ∧ Checked env' t w := C55_union not_custom rfl h

end C55Ex

open C55Ex in
/-- A bare `frozenset` is read as a `set`; a class with the default strict check refuses even a `frozenset`. -/
theorem C55_false_frozenset :
    fromDict env' {} 9 (.cls "F") (.dict .plain [(.str "s", .list [.int 1])]) = .ok (.inst "F" [("s", .set false [.int 1])]) ∧
    fromDict env' {} 9 (.cls "H") (.dict .plain [(.str "s", .set true [.int 1])]) = .error (.serde "type") := ⟨rfl, rfl⟩

open C55Ex in
/-- `from_dict(tuple[int, ...], ["x"])` returns `("x",)` and `from_dict(tuple[int, int], [1])` returns `(1,)`. -/
theorem C55_false_top_tuple : fromDict env' {} 9 (.tupleV (.prim .int)) (.list [.str "x"]) = .ok (.tuple [.str "x"]) ∧
    fromDict env' {} 9 (.tuple [.prim .int, .prim .int]) (.list [.int 1]) = .ok (.tuple [.int 1]) := ⟨rfl, rfl⟩

open C55Ex in
/-- Reading a tuple, the value read for the second field becomes the first one, which is annotated `str` in a class that coerces. -/
theorem C55_false_shift : fromTuple env' {} 9 (.cls "G") (.tuple [.list []]) = .ok (.inst "G" [("a", .list []), ("n", .none)]) := rfl

end Verif.Props
