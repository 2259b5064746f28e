import Verif.Model.Core
/-!
# From a class body to its fields

`@serde` turns a class into a dataclass unless it already is one, and takes the options of its fields from the `metadata` of
`dataclasses.Field` objects.  This file models class bodies, `field()`, the parts of the standard library's `dataclass()` that decide which
fields a class has, `should_impl_dataclass`, and `Field.from_dataclass`; the result is the list of `FieldDef`s on which the rest of the model
works.
-/

namespace Verif

/-- The entries `serde_...` of a field's `metadata`; `none` is an absent key. /repo/serde/core.py:615-643. -/
structure FieldMeta where
  rename : Option String := Option.none
  alias : Option (List String) := Option.none
  skip : Option Bool := Option.none
  skipSer : Option Bool := Option.none
  skipDe : Option Bool := Option.none
  skipIf : Option (Val → Except PErr Bool) := Option.none
  skipIfFalse : Option Bool := Option.none
  skipIfNone : Option Bool := Option.none
  skipIfDefault : Option Bool := Option.none
  serializer : Option SerFn := Option.none
  deserializer : Option SerFn := Option.none
  flatten : Bool := false

/-- `field(..., metadata=m)`: an option that is given overwrites the entry in the dict that was passed, the others are kept. The arguments have
the form of a `FieldMeta`, absent being `None`. /repo/serde/core.py:615-643. -/
def FieldMeta.write (m a : FieldMeta) : FieldMeta :=
  { rename := a.rename <|> m.rename, alias := a.alias <|> m.alias, skip := a.skip <|> m.skip, skipSer := a.skipSer <|> m.skipSer,
    skipDe := a.skipDe <|> m.skipDe, skipIf := a.skipIf <|> m.skipIf, skipIfFalse := a.skipIfFalse <|> m.skipIfFalse,
    skipIfNone := a.skipIfNone <|> m.skipIfNone, skipIfDefault := a.skipIfDefault <|> m.skipIfDefault,
    serializer := a.serializer <|> m.serializer, deserializer := a.deserializer <|> m.deserializer, flatten := a.flatten || m.flatten }

/-- The metadata of several fields declared with `field(metadata=m, ...)` and the *same* dict `m`: every call writes its options into it, and
all fields see the dict as it is in the end. An empty dict is not shared (`if not metadata: metadata = {}`). /repo/serde/core.py:615-616, 645. -/
def shareMeta (m : FieldMeta) (nonEmpty : Bool) (calls : List FieldMeta) : List FieldMeta :=
  if nonEmpty then calls.map fun _ => calls.foldl FieldMeta.write m else calls.map fun a => FieldMeta.write {} a

/-- A `dataclasses.Field` object as made by `field(...)`, before it belongs to a class. /repo/serde/core.py:596-646.
Simplified: factories are constant. -/
structure FieldObj where
  dflt : Option Val := Option.none
  factory : Option Val := Option.none
  init : Bool := true
  kwOnly : Option Bool := Option.none
  md : FieldMeta := {}

/-- An annotation in a class body. `kwOnly` is the marker `_: KW_ONLY`. -/
inductive Annot where
  | ty (t : Ty)
  | classVar (t : Ty)
  | initVar (t : Ty)
  | kwOnly

/-- `_is_kw_only` of the standard library. -/
def Annot.isMarker : Annot → Bool
  | .kwOnly => true
  | _ => false

/-- A class attribute: what stands to the right of `=` in the body. -/
inductive ClsAttr where
  | val (v : Val)
  | fld (o : FieldObj)

/-- Real field or pseudo-field (`_field_type` in the standard library). -/
inductive FKind where | real | classVar | initVar
deriving DecidableEq

/-- A field of a dataclass. -/
structure DField where
  name : String
  kind : FKind
  dflt : Option Val
  factory : Option Val
  init : Bool
  kwOnly : Bool
  md : FieldMeta
  /-- `Field.type`: the annotation in the class that declares the field, which need not be the one `get_type_hints` finds -/
  ty : Ty := .any

/-- A parameter of `__init__`: its annotation and default, and whether it can be passed by keyword only. -/
structure Param where
  name : String
  ty : Ty
  kwOnly : Bool := false
  dflt : Option Val := Option.none

/-- A Python class: its annotations and attributes, its base classes (the MRO without the class itself), its own
`__dataclass_fields__`, and the parameters of its own `__init__` (apart from `self`). -/
structure PyCls where
  annots : List (String × Annot) := []
  attrs : List (String × ClsAttr) := []
  bases : List ClassId := []
  dc : Option (List DField) := Option.none
  init : Option (List Param) := Option.none

/-- The classes there are. -/
abbrev PyClasses := List (ClassId × PyCls)

/-- `getattr(cls, name)` among class attributes. -/
def PyClasses.attr (st : PyClasses) (c : PyCls) (nm : String) : Option ClsAttr :=
  match c.attrs.lookup nm with
  | some a => some a
  | Option.none => c.bases.findSome? fun b => match st.lookup b with
    | some k => k.attrs.lookup nm
    | Option.none => Option.none

/-- `getattr(b, "__dataclass_fields__", None)`, inherited if the class has none itself. -/
def PyClasses.dcOf (st : PyClasses) (c : PyCls) : Option (List DField) :=
  match c.dc with
  | some fs => some fs
  | Option.none => c.bases.findSome? fun b => match st.lookup b with
    | some k => k.dc
    | Option.none => Option.none

/-- `fields[f.name] = f`: a later field takes the place of an earlier one of the same name. -/
def putField (f : DField) : List DField → List DField
  | [] => [f]
  | g :: fs => if g.name == f.name then f :: fs else g :: putField f fs

/-- The fields a dataclass starts with: those of its bases, the most basic one first. -/
def PyClasses.baseFields (st : PyClasses) (c : PyCls) : List DField :=
  c.bases.reverse.foldl (fun acc b => match st.lookup b with
    | some k => ((st.dcOf k).getD []).foldl (fun acc f => putField f acc) acc
    | Option.none => acc) []

/-- The type in an annotation: that of the field, or of the init variable. -/
def Annot.paramTy : Option Annot → Ty
  | some (.ty t) => t
  | some (.initVar t) => t
  | _ => .any

/-- `_get_field` of the standard library: a `Field` attribute is taken as it is, anything else is the default. -/
def PyClasses.getField (st : PyClasses) (c : PyCls) (kw : Bool) (nm : String) (kind : FKind) : DField :=
  let o : FieldObj := match st.attr c nm with
    | some (.fld o) => o
    | some (.val v) => { dflt := some v }
    | Option.none => {}
  { name := nm, kind := kind, dflt := o.dflt, factory := o.factory, init := o.init, kwOnly := o.kwOnly.getD kw, md := o.md,
    ty := Annot.paramTy (c.annots.lookup nm) }

/-- The fields of the class's own annotations; after `_: KW_ONLY` they are keyword-only unless they say otherwise. -/
def PyClasses.ownFields (st : PyClasses) (c : PyCls) : Bool → List (String × Annot) → List DField
  | _, [] => []
  | kw, (nm, .ty _) :: as => st.getField c kw nm .real :: st.ownFields c kw as
  | kw, (nm, .classVar _) :: as => st.getField c kw nm .classVar :: st.ownFields c kw as
  | kw, (nm, .initVar _) :: as => st.getField c kw nm .initVar :: st.ownFields c kw as
  | _, (_, .kwOnly) :: as => st.ownFields c true as

/-- The class attribute of a processed field: the plain default, or nothing. -/
def plainAttrs (annots : List (String × Annot)) (attrs : List (String × ClsAttr)) : List (String × ClsAttr) :=
  attrs.filterMap fun a => match a.2 with
    | .val _ => some a
    | .fld o => if (annots.lookup a.1).isNone then some a else match o.dflt with
      | some v => some (a.1, .val v)
      | Option.none => Option.none

/-- A positional parameter without default after one with default: `__init__` cannot be made. -/
def orderOk : Bool → List DField → Bool
  | _, [] => true
  | seen, f :: fs =>
    if f.kind == .classVar || !f.init || f.kwOnly then orderOk seen fs
    else if f.dflt.isSome || f.factory.isSome then orderOk true fs
    else !seen && orderOk seen fs

/-- `get_type_hints(cls)[name]`: the annotation in the class itself or else in the first base that has one. /repo/serde/compat.py:311-333. -/
def PyClasses.hint (st : PyClasses) (c : PyCls) (nm : String) : Option Annot :=
  match c.annots.lookup nm with
  | some a => some a
  | Option.none => c.bases.findSome? fun b => match st.lookup b with
    | some k => k.annots.lookup nm
    | Option.none => Option.none

/-- The parameter of the `__init__` made by `dataclass` for a field: its annotation is `Field.type` (`_init_param` of the standard library). -/
def DField.param (f : DField) : Param :=
  { name := f.name, ty := f.ty, kwOnly := f.kwOnly, dflt := f.dflt <|> f.factory }

/-- The parameters of the `__init__` made by `dataclass`: real fields and init variables, unless `init=False`, the keyword-only ones last. -/
def initParams (fs : List DField) : List Param :=
  let ps := (fs.filter fun f => f.kind != .classVar && f.init).map DField.param
  ps.filter (fun p => !p.kwOnly) ++ ps.filter (·.kwOnly)

/-- `dataclass(cls)` of the standard library, as called at /repo/serde/__init__.py:153: the fields of the bases, then the own annotations, each in
the place of an inherited field of the same name. An `__init__` that the class has of its own (written by hand, or by an earlier `dataclass`) is
kept. `none` stands for an exception: a pseudo-field with a default factory, a
ClassVar with `kw_only`, a `field()` without annotation, two KW_ONLY markers, a parameter without default after one with default. Simplified: of the
options of `dataclass` only `kw_only`; no check for mutable defaults; `field()` in a base class that is no dataclass is not considered. -/
def PyClasses.dataclass (st : PyClasses) (kw : Bool) (c : PyCls) : Option PyCls :=
  let own := st.ownFields c kw c.annots
  let fs := own.foldl (fun acc f => putField f acc) (st.baseFields c)
  if own.any (fun f => f.kind != .real && f.factory.isSome) then Option.none
  else if c.annots.any (fun a => match a.2, st.attr c a.1 with
    | .classVar _, some (.fld o) => o.kwOnly.isSome
    | _, _ => false) then Option.none
  else if c.attrs.any (fun a => match a.2 with
    | .fld _ => (c.annots.lookup a.1).isNone
    | .val _ => false) then Option.none
  else if (c.annots.filter fun a => a.2.isMarker).length > 1 then Option.none
  else if orderOk false fs then some { c with attrs := plainAttrs c.annots c.attrs, dc := some fs, init := some (c.init.getD (initParams fs)) }
  else Option.none

/-- `dataclasses.fields(cls)`: pseudo-fields are left out. -/
def PyClasses.fields (st : PyClasses) (c : PyCls) : List DField := ((st.dcOf c).getD []).filter (·.kind == .real)

/-- `should_impl_dataclass`, /repo/serde/core.py:1068-1109: not a dataclass, or an annotation of the class itself (other than an InitVar) that is not
among the names of the fields. -/
def PyClasses.shouldImpl (st : PyClasses) (c : PyCls) : Bool :=
  match st.dcOf c with
  | Option.none => true
  | some _ => c.annots.any fun a => match a.2 with
    | .initVar _ => false
    | _ => !(st.fields c).any (·.name == a.1)

/-- Types on which `flatten` may be used, /repo/serde/core.py:751-761. -/
def flattenable : Ty → Bool
  | .cls _ => true
  | .union [.cls _, .none] => true
  | t => t.isFlattenDict

/-- `Field.from_dataclass`, /repo/serde/core.py:688-794; `none` is a SerdeError. Class-level flags are applied where the skip rule is chosen
(`FieldDef.skipRule`). An annotation that is no type (a field overridden as ClassVar in a subclass that was not processed) is not modelled. -/
def PyClasses.fromDataclass (st : PyClasses) (c : PyCls) (f : DField) : Option FieldDef :=
  match st.hint c f.name with
  | some (.ty t) =>
    let m := f.md
    if m.flatten && !flattenable t then Option.none
    else if m.skipDe == some true && f.init && !(f.dflt.isSome || f.factory.isSome || m.skip == some true) then Option.none
    else some {
      name := f.name, ty := t, dflt := f.dflt <|> f.factory, init := f.init, kwOnly := f.kwOnly, rename := m.rename,
      alias := m.alias.getD [], skip := m.skip == some true, skipSer := m.skipSer == some true, skipDe := m.skipDe == some true,
      skipIf := m.skipIf, skipIfFalse := m.skipIfFalse == some true, skipIfNone := m.skipIfNone, skipIfDefault := m.skipIfDefault,
      serializer := m.serializer, deserializer := m.deserializer, flatten := m.flatten }
  | _ => Option.none

/-- The fields serde works with, `fields()` /repo/serde/core.py:843-862. -/
def PyClasses.serdeFields (st : PyClasses) (c : PyCls) : Option (List FieldDef) := (st.fields c).mapM (st.fromDataclass c)

/-- `@serde` on a class, /repo/serde/__init__.py:151-153: the class afterwards, and its fields. -/
def PyClasses.serde (st : PyClasses) (c : PyCls) : Option (PyCls × List FieldDef) :=
  match (if st.shouldImpl c then st.dataclass false c else some c) with
  | Option.none => Option.none
  | some c' => match st.serdeFields c' with
    | some fs => some (c', fs)
    | Option.none => Option.none

end Verif
