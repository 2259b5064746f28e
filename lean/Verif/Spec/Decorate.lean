import Verif.Model.Decorate
/-!
# What a class body says about its fields
-/

namespace Verif.Spec

/-- One line of a class body: `name: ann = rhs`. -/
structure Decl where
  name : String
  ann : Annot
  rhs : Option ClsAttr := Option.none

/-- The type of a line that declares a field: not a ClassVar, an InitVar or the KW_ONLY marker. -/
def Decl.ty? (d : Decl) : Option Ty := match d.ann with
  | .ty t => some t
  | _ => Option.none

/-- The line is the KW_ONLY marker. -/
def Decl.isMarker (d : Decl) : Bool := match d.ann with
  | .kwOnly => true
  | _ => false

/-- The line declares a class variable. -/
def Decl.isClassVar (d : Decl) : Bool := match d.ann with
  | .classVar _ => true
  | _ => false

/-- The options given on a line: those of `field(...)`, or just a default. -/
def Decl.obj (d : Decl) : FieldObj := match d.rhs with
  | some (.fld o) => o
  | some (.val v) => { dflt := some v }
  | Option.none => {}

/-- The field a line asks for; `kw` tells whether it is keyword-only if it does not say so itself. -/
def Decl.wants (kw : Bool) (t : Ty) (d : Decl) : FieldDef :=
  let o := d.obj
  { name := d.name, ty := t, dflt := match o.dflt with
      | some v => some v
      | Option.none => o.factory
    init := o.init
    kwOnly := match o.kwOnly with
      | some b => b
      | Option.none => kw
    rename := o.md.rename
    alias := match o.md.alias with
      | some l => l
      | Option.none => []
    skip := o.md.skip == some true, skipSer := o.md.skipSer == some true, skipDe := o.md.skipDe == some true, skipIf := o.md.skipIf
    skipIfFalse := o.md.skipIfFalse == some true, skipIfNone := o.md.skipIfNone, skipIfDefault := o.md.skipIfDefault
    serializer := o.md.serializer, deserializer := o.md.deserializer, flatten := o.md.flatten }

/-- The field of a line of which only the name, the type and a default value are known. -/
def Decl.bare (kw : Bool) (t : Ty) (d : Decl) : FieldDef :=
  { name := d.name, ty := t, dflt := d.obj.dflt, kwOnly := kw }

/-- A class body: lines with different names. -/
structure Body where
  lines : List Decl
  nodup : (lines.map Decl.name).Nodup

/-- The class that Python makes of a body. -/
def Body.cls (b : Body) (bases : List ClassId) : PyCls where
  annots := b.lines.map fun d => (d.name, d.ann)
  attrs := b.lines.filterMap fun d => match d.rhs with
    | some a => some (d.name, a)
    | Option.none => Option.none
  bases := bases

/-- The names of the lines that declare fields, in order. -/
def Body.fieldNames (b : Body) : List String := (b.lines.filter fun d => d.ty?.isSome).map Decl.name

/-- The fields `fs` are those the body asks for: the same names in the same order, and every line that declares a field has the field it wants; after
the marker, or with `kw`, fields are keyword-only unless they say otherwise. -/
structure Body.Asks (b : Body) (kw : Bool) (fs : List FieldDef) : Prop where
  names : fs.map FieldDef.name = b.fieldNames
  each : ∀ pre d post t, b.lines = pre ++ d :: post → d.ty? = some t → d.wants (kw || pre.any Decl.isMarker) t ∈ fs

/-- A line is positional in `__init__`. -/
def Decl.positional (kw : Bool) (d : Decl) : Bool :=
  !(d.isClassVar || d.isMarker) && d.obj.init && !(match d.obj.kwOnly with
    | some b => b
    | Option.none => kw)

/-- A line has a default. -/
def Decl.hasDefault (d : Decl) : Bool := d.obj.dflt.isSome || d.obj.factory.isSome

/-- The rules of Python and of pyserde for a class body without base classes. -/
structure Body.Legal (b : Body) (kw : Bool) : Prop where
  /-- at most one KW_ONLY marker -/
  marker : (b.lines.filter Decl.isMarker).length ≤ 1
  /-- the marker has no value that is a `field()`, class and init variables no default factory -/
  pseudo : ∀ d ∈ b.lines, d.ty? = Option.none → d.obj.factory = Option.none
  /-- class variables have no `kw_only` -/
  classVar : ∀ d ∈ b.lines, d.isClassVar = true → d.obj.kwOnly = Option.none
  /-- no positional field without default after one with default -/
  order : ∀ pre d mid e post, b.lines = pre ++ d :: mid ++ e :: post → d.positional (kw || pre.any Decl.isMarker) = true →
    e.positional (kw || (pre ++ d :: mid).any Decl.isMarker) = true → d.hasDefault = true → e.hasDefault = true
  /-- `flatten` only on dataclasses, optional dataclasses and dicts -/
  flatten : ∀ d ∈ b.lines, ∀ t, d.ty? = some t → d.obj.md.flatten = true → (∃ c, t = .cls c) ∨ (∃ c, t = .union [.cls c, .none]) ∨ t.isFlattenDict = true
  /-- a field that is not read has a default -/
  skipDe : ∀ d ∈ b.lines, ∀ t, d.ty? = some t → d.obj.md.skipDe = some true → d.obj.init = true → d.hasDefault = true ∨ d.obj.md.skip = some true

end Verif.Spec

namespace Verif.Spec

/-- `kb` is a dataclass among the classes `st` under the id `B`, made by `dataclass` from some class body. -/
structure IsDataclass (st : PyClasses) (B : ClassId) (kb : PyCls) : Prop where
  known : st.lookup B = some kb
  made : ∃ kw kb0, (kb0.annots.map Prod.fst).Nodup ∧ st.dataclass kw kb0 = some kb

/-- A class body that declares only fields (no class variables, init variables, markers). -/
def Body.OnlyFields (b : Body) : Prop := ∀ d ∈ b.lines, d.ty?.isSome = true

/-- Lines without a right-hand side find no class attribute of that name in the bases. -/
def Body.NoOldDefaults (b : Body) (st : PyClasses) (bases : List ClassId) : Prop :=
  ∀ d ∈ b.lines, d.rhs.isNone = true → ∀ k ∈ bases, ∀ K, st.lookup k = some K → K.attrs.lookup d.name = Option.none

/-- No line uses the name of a class or init variable of the base. -/
def Body.NoPseudo (b : Body) (kb : PyCls) : Prop :=
  ∀ fs, kb.dc = some fs → ∀ f ∈ fs, f.kind ≠ .real → f.name ∉ b.lines.map Decl.name

/-- The fields `fs` of a subclass: those of the base class (`bfs`) in their order, then the new ones in the order of the body; a field of which the body has
a line is the one the line asks for, the others are those of the base class. -/
structure Body.Extends (b : Body) (kw : Bool) (bfs fs : List FieldDef) : Prop where
  names : fs.map FieldDef.name = bfs.map FieldDef.name ++ (b.lines.map Decl.name).filter fun n => decide (n ∉ bfs.map FieldDef.name)
  own : ∀ d ∈ b.lines, ∀ t, d.ty? = some t → d.wants kw t ∈ fs
  inherited : ∀ g ∈ bfs, g.name ∉ b.lines.map Decl.name → g ∈ fs

end Verif.Spec
