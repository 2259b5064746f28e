import Verif.Model.Se
import Verif.Model.De
/-!
# core.py: `Cache`; compat.py: memoized questions about types
-/

namespace Verif

/-- Equality of two arguments of `Literal`: same class and same value (`typing._LiteralGenericAlias.__eq__`). Simplified: only the
values a Literal may hold. -/
def litSame : Val → Val → Bool
  | .none, .none => true
  | .bool a, .bool b => a == b
  | .int a, .int b => a == b
  | .str a, .str b => a == b
  | .enum e m, .enum e' m' => e == e' && m == m'
  | _, _ => false

mutual
/-- `==` of two types, which `functools.cache` (/repo/serde/compat.py:127-135) and the `dict` of /repo/serde/core.py:127 use to tell keys
apart: unions and literals are compared as sets, everything else part by part. Simplified: `typing.List[T]` and `list[T]` are one type here. -/
def tyEq : Ty → Ty → Bool
  | .prim p, .prim q => p == q
  | .newType n p, .newType m q => n == m && p == q
  | .none, .none => true
  | .any, .any => true
  | .list k t, .list k' t' => k == k' && tyEq t t'
  | .listB k, .listB k' => k == k'
  | .set k t, .set k' t' => k == k' && tyEq t t'
  | .setB k, .setB k' => k == k'
  | .deque t, .deque t' => tyEq t t'
  | .dequeB, .dequeB => true
  | .counter t, .counter t' => tyEq t t'
  | .counterB, .counterB => true
  | .tuple ts, .tuple ts' => tyEqL ts ts'
  | .tupleV t, .tupleV t' => tyEq t t'
  | .tupleB, .tupleB => true
  | .dict k t u, .dict k' t' u' => k == k' && tyEq t t' && tyEq u u'
  | .dictB k, .dictB k' => k == k'
  | .enum e, .enum e' => e == e'
  | .std k, .std k' => k == k'
  | .dt k, .dt k' => k == k'
  | .lit vs, .lit ws => vs.all (fun v => ws.any (litSame v)) && ws.all (fun w => vs.any (litSame w))
  | .union ts, .union us => tyEqSub ts us && us.all (fun u => tyEqSome ts u)
  | .cls c, .cls c' => c == c'
  | .gen c ts, .gen c' ts' => c == c' && tyEqL ts ts'
  | .tvar x, .tvar x' => x == x'
  | .alias n _, .alias n' _ => n == n'
  | .other s, .other s' => s == s'
  | _, _ => false
termination_by structural t => t
/-- Two tuples of types are equal. -/
def tyEqL : List Ty → List Ty → Bool
  | [], [] => true
  | t :: ts, u :: us => tyEq t u && tyEqL ts us
  | _, _ => false
termination_by structural ts => ts
/-- Every type of the first set is in the second. -/
def tyEqSub : List Ty → List Ty → Bool
  | [], _ => true
  | t :: ts, us => us.any (fun u => tyEq t u) && tyEqSub ts us
termination_by structural ts => ts
/-- The type is in the set. -/
def tyEqSome : List Ty → Ty → Bool
  | [], _ => false
  | t :: ts, u => tyEq t u || tyEqSome ts u
termination_by structural ts => ts
end

/-! ## The process-wide cache of wrapper classes -/

/-- A request for the wrapper class of a union: the members as written, and the tagging. `UnionCacheKey`, /repo/serde/core.py:93-96. -/
abbrev UnionReq := List Ty × Tagging

/-- Equality of two keys, /repo/serde/core.py:93-96 (a frozen dataclass: field by field). -/
def UnionReq.same (q q' : UnionReq) : Bool := tyEq (.union q.1) (.union q'.1) && q.2 == q'.2

/-- `Cache.classes` after some requests, oldest first: a request whose key is there already adds nothing (`wrapper or self._generate...`).
`Cache._get_union_class`, `_generate_union_class`, /repo/serde/core.py:173-201. Simplified: a wrapper is represented by the union it was
made for; the wrappers of single types (`_get_class`) are left out, being made and used by the same name. -/
def Wrappers.after : List UnionReq → List UnionReq
  | [] => []
  | q :: h => q :: (Wrappers.after h).filter (fun q' => !UnionReq.same q q')

/-- The union for which the wrapper serving this request was made. `Cache._get_union_class`, /repo/serde/core.py:173-181. -/
def Wrappers.get (w : List UnionReq) (ts : List Ty) (tagging : Tagging) : List Ty :=
  match w.find? (fun q => UnionReq.same q (ts, tagging)) with
  | some q => q.1
  | Option.none => ts

/-- `CACHE.serialize_union(c, o)`, /repo/serde/core.py:203-211, when the wrapper was made for `made`: the function is looked up by the
name of the *requested* union among the functions of the wrapper. -/
def cacheSeUnionIn (env : Env) (r : SeRec) (made ts : List Ty) (tagging : Tagging) (v : Val) : Res Val :=
  match findUnion env (env.unionsOfTy (.union made)) (unionFuncName env ts) with
  | some us =>
    let cx : SeCx := { named := true, reuse := false, conv := false, skipNone := false, coerce := false,
                       unions := env.unionsOfTy (.union made), tagging := tagging, sers := env.gser }
    seUnion env r cx v us
  | Option.none => .error (.py .key)

/-- `CACHE.deserialize_union`, /repo/serde/core.py:213-231, when the wrapper was made for `made`. -/
def cacheDeUnionIn (env : Env) (r : DeRec) (made ts : List Ty) (tagging : Tagging) (numbers : Option (Val → Except PErr Val))
    (data : Val) : Res Val :=
  match findUnion env (env.unionsOfTy (.union made)) (unionFuncName env ts) with
  | some us =>
    let cx : DeCx := { named := true, data := data, reuse := true, numbers := numbers, mg := Option.none, mgVars := Option.none,
                       vta := Option.none, coerce := false, unions := env.unionsOfTy (.union made),
                       lits := env.litsOfTy (.union made), tagging := tagging, des := env.gde, tvars := Option.none }
    deUnion env r cx data us
  | Option.none => .error (.py .key)

/-- `to_obj`, /repo/serde/se.py:390-466, in a process with these wrappers. Calls below the outermost one pass no type
(/repo/serde/se.py:417-426), so that they never ask for a union. -/
def toObjIn (env : Env) (w : List UnionReq) (r : SeRec) (named : Bool) (reuse conv : Option Bool) (skipNone : Bool) (c : Option Ty)
    (tagging : Tagging) (o : Val) : Res Val :=
  match (match c with
    | some (.alias _ t) => some t
    | c => c) with
  | some (.union ts) =>
    if (Ty.union ts).isOpt then toObjF env r named reuse conv skipNone c tagging o
    else wrapAll (cacheSeUnionIn env r (Wrappers.get w ts tagging) ts tagging o)
  | _ => toObjF env r named reuse conv skipNone c tagging o

/-- `from_obj`, /repo/serde/de.py:495-634, in a process with these wrappers. -/
def fromObjIn (env : Env) (w : List UnionReq) (r : DeRec) (named : Bool) (reuse : Option Bool)
    (numbers : Option (Val → Except PErr Val)) (tagging : Tagging) (c : Ty) (o : Val) : Res Val :=
  let c := match c with
    | .alias _ t => t
    | c => c
  if typeIs o c then .ok o else
  match c with
  | .gen k args => wrapUser (fromObjBody env r named reuse numbers (.gen k args) (.cls k) o)
  | .union ts =>
    if (Ty.union ts).isOpt then wrapUser (fromObjBody env r named reuse numbers (.union ts) (.union ts) o)
    else cacheDeUnionIn env r (Wrappers.get w ts tagging) ts tagging numbers o
  | c => wrapUser (fromObjBody env r named reuse numbers c c o)

/-- The deserialization functions in a process with these wrappers. Simplified: a wrapper made during the call is not added. It makes
a difference only if two equal but differently written unions occur in the type asked for. -/
def deAtIn (env : Env) (w : List UnionReq) : Nat → DeRec
  | 0 => { render := fun _ _ => .error .fuel, cls := fun _ _ _ _ => .error .fuel, fromObj := fun _ _ _ _ _ _ => .error .fuel }
  | n + 1 => { render := deRenderF env (deAtIn env w n), cls := deClsF env (deAtIn env w n), fromObj := fromObjIn env w (deAtIn env w n) }

/-- `to_dict`, /repo/serde/se.py:522-571, after the requests of `h`. -/
def toDictAfter (env : Env) (h : List UnionReq) (o : SeOpts) : Nat → Val → Res Val
  | 0, _ => .error .fuel
  | n + 1, v => toObjIn env (Wrappers.after h) (seAt env n) true o.reuse o.conv o.skipNone o.c o.tagging v

/-- `to_tuple`, /repo/serde/se.py:476-512, after the requests of `h`. -/
def toTupleAfter (env : Env) (h : List UnionReq) (o : SeOpts) : Nat → Val → Res Val
  | 0, _ => .error .fuel
  | n + 1, v => toObjIn env (Wrappers.after h) (seAt env n) false o.reuse o.conv o.skipNone o.c o.tagging v

/-- `from_dict`, /repo/serde/de.py:655-691, after the requests of `h`. -/
def fromDictAfter (env : Env) (h : List UnionReq) (o : DeOpts) (n : Nat) (c : Ty) (d : Val) : Res Val :=
  (deAtIn env (Wrappers.after h) n).fromObj true o.reuse o.numbers o.tagging c d

/-- `from_tuple`, /repo/serde/de.py:710-745, after the requests of `h`. -/
def fromTupleAfter (env : Env) (h : List UnionReq) (o : DeOpts) (n : Nat) (c : Ty) (d : Val) : Res Val :=
  (deAtIn env (Wrappers.after h) n).fromObj false o.reuse o.numbers o.tagging c d

/-! ## Memoized questions -/

/-- The table of one memoized function, /repo/serde/compat.py:127-135. -/
abbrev Memo (β : Type) := List (Ty × β)

/-- What the table has for this type. -/
def Memo.get {β : Type} (m : Memo β) (t : Ty) : Option β := (m.find? (fun e => tyEq e.1 t)).map (·.2)

/-- Call a memoized function: what the table has, or else the computed value, which is stored after the computation.
/repo/serde/compat.py:127-135. -/
def Memo.call {β : Type} (m : Memo β) (t : Ty) (f : Memo β → β × Memo β) : β × Memo β :=
  match m.get t with
  | some b => (b, m)
  | Option.none => match f m with
    | (b, m') => (b, m' ++ [(t, b)])

mutual
/-- `thisfunc(t)` inside `typename`, /repo/serde/compat.py:154-267: memoized, as `typename` is. These calls pass `with_typing_module` and
thus have entries of their own, apart from those of `typename(t)`. -/
def nameIn (env : Env) : Ty → Memo String → String × Memo String
  | .list k t, m => m.call (.list k t) fun m => match nameIn env t m with
    | (s, m) => ("list[" ++ s ++ "]", m)
  | .set k t, m => m.call (.set k t) fun m => match nameIn env t m with
    | (s, m) => ("set[" ++ s ++ "]", m)
  | .deque t, m => m.call (.deque t) fun m => match nameIn env t m with
    | (s, m) => ("deque[" ++ s ++ "]", m)
  | .tuple ts, m => m.call (.tuple ts) fun m => match namesIn env ts m with
    | (ss, m) => ("tuple[" ++ ", ".intercalate ss ++ "]", m)
  | .tupleV t, m => m.call (.tupleV t) fun m => match nameIn env t m with
    | (s, m) => ("tuple[" ++ s ++ ", ...]", m)
  | .dict k kt vt, m => m.call (.dict k kt vt) fun m => match nameIn env kt m with
    | (s, m) => match nameIn env vt m with
      | (s', m) => ("dict[" ++ s ++ ", " ++ s' ++ "]", m)
  | .union [a, .none], m => m.call (.union [a, .none]) fun m => match nameIn env a m with
    | (s, m) => ("Optional[" ++ s ++ "]", m)
  | .union ts, m => m.call (.union ts) fun m => match namesUIn env ts m with
    | (ss, m) => ("Union[" ++ ", ".intercalate ss ++ "]", m)
  | t, m => m.call t fun m => (typename env t, m)
/-- `[thisfunc(e) for e in args]`. -/
def namesIn (env : Env) : List Ty → Memo String → List String × Memo String
  | [], m => ([], m)
  | t :: ts, m => match nameIn env t m with
    | (s, m) => match namesIn env ts m with
      | (ss, m) => (s :: ss, m)
/-- `[thisfunc(e) for e in union_args(typ)]`, /repo/serde/compat.py:293-308: a pair `(T, None)` becomes the type `Optional[T]`. -/
def namesUIn (env : Env) : List Ty → Memo String → List String × Memo String
  | [], m => ([], m)
  | [a], m => match nameIn env a m with
    | (s, m) => ([s], m)
  | a :: .none :: r, m =>
    match (m.call (.union [a, .none]) fun m => match nameIn env a m with
      | (s, m) => ("Optional[" ++ s ++ "]", m)) with
    | (s, m) => match namesUIn env r m with
      | (ss, m) => (s :: ss, m)
  | a :: b :: r, m => match nameIn env a m with
    | (s, m) => match nameIn env b m with
      | (s', m) => match namesUIn env r m with
        | (ss, m) => (s :: s' :: ss, m)
end

/-- `typing.get_args(t)`. Simplified: the `...` of a variadic tuple and the arguments of a Literal are left out. -/
def Ty.args : Ty → List Ty
  | .list _ t | .set _ t | .deque t | .counter t | .tupleV t => [t]
  | .tuple ts => ts
  | .dict _ kt vt => [kt, vt]
  | .union ts => ts
  | .gen _ ts => ts
  | _ => []

/-- Tables of the memoized questions: `typename(t)` (`names`) and the calls inside it (`inner`), `get_args`, `is_union`.
/repo/serde/compat.py:138-154, 497. Simplified: the other memoized `is_...` are like `is_union`, and that `typename` asks them is left out. -/
structure Memos where
  names : Memo String := []
  inner : Memo String := []
  args : Memo (List Ty) := []
  unions : Memo Bool := []

/-- A question about a type. -/
inductive Query where
  | name (t : Ty)
  | args (t : Ty)
  | isUnion (t : Ty)
  | isOpt (t : Ty)
  | isOptDataclass (t : Ty)

/-- The type a question is about. -/
def Query.ty : Query → Ty
  | .name t | .args t | .isUnion t | .isOpt t | .isOptDataclass t => t

/-- An answer. -/
inductive Answer where
  | text (s : String)
  | types (ts : List Ty)
  | yes (b : Bool)

/-- Ask one question: `typename` (/repo/serde/compat.py:154-267), `get_args` (146-151), `is_union` (497-521), `is_opt` (528-560, not
memoized, and reads the arguments off the type itself) and `is_opt_dataclass` (577-594, not memoized, but calls `get_args`, which is). -/
def ask (env : Env) (m : Memos) : Query → Answer × Memos
  | .name t => match m.names.get t with
    | some s => (.text s, m)
    | Option.none => match nameBody env t m.inner with
      | (s, inner) => (.text s, { m with names := m.names ++ [(t, s)], inner := inner })
  | .args t => match m.args.call t (fun a => (t.args, a)) with
    | (ts, a) => (.types ts, { m with args := a })
  | .isUnion t => match m.unions.call t (fun u => (t.isUnion, u)) with
    | (b, u) => (.yes b, { m with unions := u })
  | .isOpt t => (.yes t.isOpt, m)
  | .isOptDataclass t => match m.args.call t (fun a => (t.args, a)) with
    | (ts, a) => (.yes (t.isOpt && (match ts with
      | s :: _ => s.isCls
      | [] => false)), { m with args := a })
where
  /-- The body of `typename`, which calls itself only through `thisfunc`. -/
  nameBody (env : Env) : Ty → Memo String → String × Memo String
  | .list _ t, m => match nameIn env t m with
    | (s, m) => ("list[" ++ s ++ "]", m)
  | .set _ t, m => match nameIn env t m with
    | (s, m) => ("set[" ++ s ++ "]", m)
  | .deque t, m => match nameIn env t m with
    | (s, m) => ("deque[" ++ s ++ "]", m)
  | .tuple ts, m => match namesIn env ts m with
    | (ss, m) => ("tuple[" ++ ", ".intercalate ss ++ "]", m)
  | .tupleV t, m => match nameIn env t m with
    | (s, m) => ("tuple[" ++ s ++ ", ...]", m)
  | .dict _ kt vt, m => match nameIn env kt m with
    | (s, m) => match nameIn env vt m with
      | (s', m) => ("dict[" ++ s ++ ", " ++ s' ++ "]", m)
  | .union [a, .none], m => match nameIn env a m with
    | (s, m) => ("Optional[" ++ s ++ "]", m)
  | .union ts, m => match namesUIn env ts m with
    | (ss, m) => ("Union[" ++ ", ".intercalate ss ++ "]", m)
  | t, m => (typename env t, m)

/-- The tables after some questions, oldest first. -/
def Memos.after (env : Env) : List Query → Memos → Memos
  | [], m => m
  | q :: h, m => Memos.after env h (ask env m q).2

end Verif
