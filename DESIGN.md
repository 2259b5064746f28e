# pyserde: what is modelled and how it is proved

Target: pyserde at the commit in /repo (read as text, never run).

## Approach

pyserde generates Python source for every decorated class and `exec`s it. The model is a *shallow
interpreter of that generated code*: instead of producing a string, each renderer method is a Lean function that
returns the value (or exception) the rendered expression evaluates to. Branch order follows the
Python `if`/`elif` chains.

* Python values: `Val` (None, bool, int, float, str, list, tuple, deque, set/frozenset, dict/defaultdict/Counter,
  enum members, str-convertible standard values such as UUID or Path, dates, dataclass instances).
* Python types: `Ty` (the annotations pyserde accepts).
* Exceptions are values: `Res a = Except Exc a`. `Exc` distinguishes SerdeError, UserError (with the wrapped
  exception), and the built-in exceptions that the code treats differently (KeyError above all).
* Classes may be recursive, so the evaluators take fuel. `Exc.fuel` is an artefact which no `except`
  clause of the model catches. Error-discipline theorems hold for every fuel; "returns v" theorems are stated as
  "there is an N such that for every fuel >= N the result is v", so fuel never hides a result.
* Everything supplied from outside (int("5"), str(x), UUID(...), date.fromisoformat, casefy's case functions,
  user callbacks, `__post_init__`, the element beartype samples) is a parameter, universally quantified;
  where a law is needed (parsing what was printed gives the value back) it is an explicit hypothesis, with an
  instance showing it is satisfiable.

Layout under `lean/Verif/`: `Py/` values and Python built-ins; `Model/` types, compat.py, core.py, se.py, de.py,
formats; `Lemmas/` helper lemmas; `Spec/` small independent specifications; `Props/` the property theorems;
`Findings/` witnesses for properties that are false of the code.

## Trusted base

* Lean 4 kernel; axioms at most `propext`, `Classical.choice`, `Quot.sound` (`vcheck` and `#print axioms` on every manifest theorem). All manifest theorems depend on exactly these
  three (through `simp`, `omega` and case splits), except the following.
  On `propext` and `Quot.sound` depend `Verif.Props.` `C53_rank`, `C66_metadata_partial`, `C66_metadata_leaks`, `C66_false_metadata`,
  `C68_inherited_partial`, `C81_in_force_writing`, `C81_in_force_reading`, `C81_serde`, `C81_on_the_fly_writing`, `C81_on_the_fly_reading`, `C82_written`, `C82_false_empty`, `C82_false_bare`,
  `C82_false_jaxtyping`, `C82_false_direct`, `C83_scalar`, `C83_range`, `C83_datetime_partial`, `C83_unit`, `C84_stays`, `C88_shared_partial`,
  `C88_written_partial`, `C88_handed_over`, `C89_shared_partial`, `C89_separate_partial`.
  On `propext` alone depend `C43_is_union_is_opt`, `C43_shared`, `C78_false_two_bases`, `C78_false_count`, `C78_false_variance`, `C83_fine`, `C84_separate`;
  on none, `C78_false_unnamed`, `C84_false_deserialize`.
* Fidelity of the hand-written model to the Python source (each definition cites the lines it models).
* The laws of external functions listed as hypotheses (`World` lawfulness).

### Modelled
`serde/compat.py` type predicates, `typename`, `iter_unions`, `iter_literals`, `iter_types`, generic arguments;
`serde/core.py` field options, name conversion, `is_instance`, skip predicates, tagging, enum/coercion helpers,
transparent validation, the process-wide cache; `serde/se.py` `to_obj`, field/union/class renderers and templates;
`serde/de.py` `from_obj`, field/union/literal/class renderers and templates, flatten projection, class-level `serializer=`/`deserializer=` functions (a layer over the rest, `Model/Legacy.lean`), when functions are
generated for undecorated dataclasses (`Model/Scopes.lean`), classes that lack their functions (`Model/Presence.lean`), functions of fields found by name (`Model/Globals.lean`), nested dataclasses found by name (`Model/Lookup.lean`), class bodies, `field()`, `should_impl_dataclass` and `from_dataclass` (`Model/Decorate.lean`), decorators applied separately (`Model/Separate.lean`), the expressions for NumPy values (`Model/Numpy.lean`), the parameters of `__init__` and Python's binding of arguments (`Model/Init.lean`);
number coercion and option plumbing of `json.py`, `yaml.py`, `toml.py`, `msgpack.py`, `pickle.py`.

### Not modelled
numpy / jaxtyping outside the expressions of C82 and C83 (unions, type checks, the encoders of the formats), SQLAlchemy support, primitive subclasses, InitVar (other than in class bodies, C66),
the text of error messages, the byte-level format libraries (orjson, tomllib, msgpack, PyYAML: represented by the
mapping they induce on Python values), object identity and mutation (values are immutable terms, except in `Model/Heap.lean`, `Model/HeapRead.lean` for C88, C89), hash randomisation
(sets keep insertion order), -0.0, NaN identity, `__missing__` hooks of input mappings, resolution of the names of enums and of helper functions in the generated
function's globals (see C64, C65 for functions of fields and dataclasses), recursion limits.

## Per property plan

| id | plan |
|----|------|
| C01 | induction on a typing judgement `HasTy env T v`; lemma for rendering of every type, then class template; all classes satisfying a syntactic well-formedness |
| C02 | same induction with the positional templates |
| C03, C04 | the C01 theorem is proved for an arbitrary lawful wire map between the two halves; JSON and msgpack are instances |
| C05, C06 | direct: key list of the template's output equals a filter/map over the declared fields |
| C07 | decision logic of `conv`, plus use in both templates |
| C08 | induction on the alias list |
| C09 | false of the code (alias together with rename): negation with witness; partial theorem without rename |
| C10, C11 | non-interference: outputs equal for instances/inputs that agree elsewhere |
| C12, C13 | decision logic of the skip rules |
| C14 | false for fields having their own skip rule: witness; partial theorem for the others |
| C15-C17 | evaluate the field renderer on absent/present keys, for every type |
| C18, C41 | frame lemma: the dict template reads its input only through lookups of known keys |
| C19 | direct; the second half is false for inputs that are no mappings: witness + partial |
| C20, C21 | direct on the flatten-dict part of the templates |
| C22 | projection lemma + frame lemma + C01; the inline entries from C61's description (`OutParts`, `OutEntries`) |
| C23-C25 | tagged union shape and round trip for distinct variant names |
| C26, C27 | induction over the variant list; a member is read alike in the class and in its one-field class because both tables hold its unions and literals under names of their own (`Lemmas/Agree.lean`); for dataclasses: reading ends (C53), so a member that is never read fails at some depth (`Props/C26Classes.lean`) |
| C28, C29 | direct; C29 is false in one corner (skip_serializing only): witness + partial |
| C30 | membership; false for values equal across types (True vs 1): witness + partial |
| C31 | lookup lemma for enums |
| C32 | inversion of the constructor call |
| C33 | direct |
| C34, C35 | case analysis of the outermost try/except |
| C36-C38 | induction over the serializer |
| C39 | false: registration order is reversed between fields and direct calls: witness + partial, including values inside unions |
| C40 | decision logic of the number hooks |
| C42, C43 | state machines over arbitrary histories (`Model/Cache.lean`): the wrapper-class cache of core.py and the `functools.lru_cache` tables of compat.py, with Python's order-insensitive union equality as key comparison; invariant "every stored answer is the right one for its key"; both properties are false because union equality ignores order: witness + partial for histories without such pairs |
| C44 | false: sanitised names clash: witness + partial under injectivity; injectivity proved for alphanumeric leaf names and literals (`C44_no_clash_partial`, `C44_distinct_partial`) |
| C45 | false at top level (type variables are read as Any): witness + partial for nested generics |
| C46 | traversal with the class stack: fuel bound by number of classes, completeness |
| C47 | lookup in ext_dict |
| C48 | direct from the templates and from_obj |
| C49 | relational, from the frame lemma |
| C50 | known set contains every emitted key; false with alias+rename: witness + partial |
| C51 | noninterference over two runs for data without dates; a read relation for dates below fields; ignored at top level: witnesses |
| C52 | measure: value size, then annotation, then age of the class flattened; induction over fuel-indexed runs; diverging witness when the order of decoration is dropped |
| C53 | measure: nesting of the data, then the requested annotation, then the relation 'read from the same data', which must be well-founded; three diverging witnesses outside |
| C54 | inductive specification of what an input is read as (`Spec/Read.lean`), induction on the fuel against the evaluator, then induction on the path to a position |
| C55 | inductive specification of shapes (`Spec/Shape.lean`) that does not mention the input; induction on the fuel against the evaluator |
| C56 | inductive specification of what is written where (`Spec/Legacy.lean`), induction on the fuel against the extended evaluator; equality with the base evaluator when there are no functions; witnesses for unions and flattening |
| C57 | the extended class reader unfolded at one field; after a skip the base evaluator's read relation (C54) applies; witnesses for the cases the code treats differently |
| C58 | C57's field step run on what the writer produced, the class round trip lemma of C01 with the reader as a parameter; witnesses for elements and Optional contents |
| C59 | state machine of `__serde__` scopes and beartyped classes (`Model/Scopes.lean`), invariant for programs that decorate classes where they are defined; congruence of the whole evaluator under a change of `reuse_instances` defaults and type checking; witnesses for each trace that is left |
| C60 | invariant of the fuel-indexed reader: from plain data every position gets a value of exactly the annotated type, if the class coerces or the position is checked on its own (`Spec/Typed.lean`, `Lemmas/Typed.lean`); composed with the round trips C01–C03; witnesses where types are not kept |
| C61 | relational description of the written form (`Spec/Write.lean`: `OutTo`, `OutObj`, `OutFields`, `OutTop`, and for flattened dataclasses `OutParts`, `OutEntries`), proved of the fuel-indexed writer by induction (`Lemmas/WriteTo.lean`); positions by `Goes`/`TopGoes` (`Lemmas/Goes.lean`), from which C12, C14, C31, C33, C36, C37 follow at any depth |
| C62 | a layer over the writer (`Model/ClassVars.lean`); a congruence lemma for the whole writer over values closed under parts (`Lemmas/ClassVars.lean`) gives that nothing else changes; the added entries are described with C61's `OutTo` (`Spec/Vars.lean`); reading through C18, round trip through C01 |
| C63 | `Spec/Accept.lean` describes valid data independently of the reader; induction over it (`Lemmas/Accept.lean`, `Lemmas/AcceptMain.lean`) shows that every context in which the data can occur reads it; flattened children are read from any part of the dict that has their entries; rows (`Valid.row`) item by item |
| C64 | a layer over the serializer in which functions of fields are found by name (`Model/Globals.lean`); when same-named fields have the same functions the layer sees the classes as they are, so that it computes the same by induction on the fuel; witnesses otherwise |
| C65 | a layer over the reader in which nested dataclasses are found by an arbitrary lookup that is right about the name (`Model/Lookup.lean`); with C46 (what `iter_types` collects) unique names leave only the right lookup; witnesses otherwise |
| C66 | class bodies, `field()`, the standard library's `dataclass`, `should_impl_dataclass`, `from_dataclass` in `Model/Decorate.lean`; spec: the field every line asks for, and the rules for a legal body; `dataclass` of a body computed in closed form, its second application likewise |
| C67 | the same with bases: lemma on `fields[name] = f` (replace in place, else append), and that the fields of a dataclass extend those of its bases |
| C68 | layer with the parameters of `__init__` per class and Python's argument binding (`Model/Init.lean`); parameters computed by the model of `dataclass` from a class body; the layer equals the base model when the parameters fit the fields |
| C69 | the rule in force (C12) evaluates to whether one of the conditions asked for holds, by cases on which condition comes first (`Spec/Reasons.lean`) |
| C70 | the specification of C54 with a second way to read an object, by position; the same induction; an argument without input fails for every annotation that looks at it |
| C71 | a layer over reader and writer in which a class may lack its function (`Model/Presence.lean`), on top of the states of C59; invariant: classes with a function have it for all classes `iter_types` lists; a congruence lemma over annotations and values whose classes have functions |
| C72, C74 | instances of the C01 theorem for an arbitrary lawful wire map, as for JSON |
| C73 | the same instance for the round trip; no None in the output: induction on where None may be met (`Spec/Null.lean`), over the relation of C61 between values and their forms |
| C75 | the relation of C61 at the options each format function passes on; the null theorem of C73 for the libraries |
| C76 | every character of a cleaned name is one of the specification's |
| C77 | `Spec/Throw.lean` describes data with an object that cannot be built; induction over it (`Lemmas/Throw.lean`), using C63 for what is read before the object: every context passes the `UserError` on |
| C78 | `Model/Params.lean` models the three functions on the bases as Python records them; `Spec/Params.lean` states Python's rule for the parameters of a class. Induction over the bases; the reader's single list of variables is shown to agree. |
| C79 | `Spec/Form.lean` says which values can be written and what their form is (`FormOf`), independently of the writer; induction over it (`Lemmas/Form.lean`, `Lemmas/FormMain.lean`) shows that every context writes exactly that form. With C61 (soundness) this is completeness of the writer, the counterpart of C63 |
| C80 | the round-trip theorem of C01 for a format that keeps sets and takes instances (`ForUnion`), the tagged forms of C23–C25 and what the format does to a dict with string keys; untagged: C26 for members with required keys; then the front ends |
| C81 | a fold over the decorators of a class (Model/Separate.lean): induction shows which application each option comes from; the class tables then coincide with those the property describes |
| C82 | own small model of arrays, `tolist` and `numpy.array` (Model/Numpy.lean): induction over the shape gives shape and elements found in the nested lists; induction over the type for containers |
| C83 | same model: conversion of scalars, and `item().isoformat()` of datetimes with the calendar as a parameter |
| C84 | the model of scopes and histories (C59, C71): what a run of `gen` adds, both ways; `hasattr(x, "__serde__")` is the scope found through the bases |
| C85 | inductive description of the values of an annotation, with all elements or only the first ones; induction over it and over the annotation |
| C86 | rendering an argument depends on its data only (`render_sim`, shared with C18), applied to the positions (`Spec/Row.lean`); a missing position makes every renderer fail, by induction on the fuel; gives the tuple half of C62 |
| C87 | `Spec/TypeAlias.lean` relates an annotation to the one with aliases replaced; induction on the fuel shows that the two render alike as soon as the one with aliases has enough fuel; in unions the opposite, from `erase`; `Lemmas/AliasTwin.lean` lifts this to a class and its copy with aliases replaced (dicts, rows, writing), refusals included, and C53 adds that both end |
| C88 | `Model/Heap.lean`: containers with addresses, writers that also return what they write to, skip rules and member choice left open; one invariant by induction on the fuel relates every address in the result and every write to a place of `Passed` (bare annotations); a second one shows that there are no writes without transparent classes or without internal tagging |
| C89 | `Model/HeapRead.lean`: as C88 for reading (nothing is written to by the generated code); an invariant by induction on the fuel relates every address in the object to a place of `Given` (bare mappings, `Any`, items of bare containers) |

Status of each claim is in MANIFEST.json. Disagreements between code and property are recorded below.

## Disagreements found

Each entry is a property as stated in properties.jsonl that the code does not satisfy, with the theorem that proves the
negation (all under `lean/Verif/Findings/` or at the end of the property's file in `lean/Verif/Props/`). The property is kept as it was
written; what is proved instead carries the suffix `_partial` or states the exact condition.

### Round trips
* C01, `Union[frozenset[int], str]`: the frozenset is written as a set, which no variant reads (`C01_false_frozenset`).
* C01, C04, `IntEnum` (or `str, Enum`) in a union: written as its value, which the enum variant refuses (`C01_false_int_enum`, `C04_false_int_enum`).
* C19: `deny_unknown_fields` calls `.items()` on the input, so a class without fields rejects `[1]` with the option and accepts it without (`C19_false_not_a_mapping`).
* C04, `Any`: a list in such a field comes back as a tuple, since `from_msgpack` unpacks with `use_list=False` (`C04_false_any`).
* C01, `set[D]` for a hashable dataclass without `convert_sets`: the elements become dicts, TypeError (`C01_false_set_of_dataclasses`).
* C01, `Optional[W]` for a transparent class `W` whose field is Optional: `W(None)` is written as None and read as None
  (`C01_false_wrapped_none`).
* C01, untagged unions: first variant that accepts wins (`C01_false_untagged`). Unions of dataclasses come back if each needs a key that the later ones do not write (`Spec.KeyApart`, `Props/C01Untagged.lean`).
* C01, `Union[list[str], str]`: the string "ab" comes back as `["a", "b"]`, because the list variant iterates over it
  (`C01_false_list_before_str`).
* C01, `Union[Num, str]` for an enum with int values: the string "1" comes back as the member with value 1, because
  `deserialize_enum` converts strings (`C01_false_enum_before_str`).
* C01, `Union[Literal["a"], D]`: `is_instance` takes every value for an instance of the literal, so the dataclass is
  handed out unserialized and cannot be read (`C01_false_literal_first`).
* C02, keyword-only fields: the tuple constructor call is positional (`C02_false_kw_only`).
* C02, a flattened dataclass that is not the last field: the fields behind it are read from the wrong places, silently if the types
  agree (`C02_false_flatten_not_last`).
* C03, `dict[bool, V]` and `Counter[int]`: JSON's string keys are not turned back (`C03_false_bool_key`, `C03_false_counter`).

### Names and aliases
* C07, C22, C50: serialization names the fields of a flattened dataclass with the *enclosing* class's `rename_all`, deserialization with the
  child's (`C07_false_flattened`, `C22_false_rename_all`, `C50_false_case`).
* C09, C15, C18: `alias` together with `rename`/`rename_all`: readers look up `[name, *alias]`, writers write the converted name; with a default the
  value is lost silently (`C09_false_alias_and_rename`, `C15_false_alias_and_rename`, `C18_false_alias_and_rename`).
* C08, C11, C18: an alias on a list field is never looked up, and leaks into the element code, which looks up the loop variable's name `"v"` in the
  input (`C08_false_alias_on_list`, `C11_false_alias_on_list`, `C18_false_alias_on_list`).
* C54: the same leak gives wrong values: with `a: list[int] = field(alias=["x"])`, `{"a": [1, 2], "x": 5}` is read as `[5, 5]` (`C54_false_alias`).

### Skipping
* C10: the parent's code writes a skipped field of a flattened child (`C10_false_flattened`).
* C12: rules see the serialized value; `skip_if_default` compares it with the raw default (`C12_false_on_raw_value`).
* C14: a field with its own `skip_if` or `skip_if_default` ignores `skip_none=True` (`C14_false_with_skip_if`, `C14_false_with_skip_if_default`).
* C21: a declared field left out by a rule lets the flattened dict's entry of that name through (`C21_false_skipped`).
* C50: a rule on a field without default makes the output unreadable (`C50_false_skip`).

### Absent keys
* C16: a required field of type `tuple[None, None]` may be missing (`C16_false_tuple_of_none`).
* C17: an untagged union with a dataclass without fields reads an absent key as that dataclass (`C17_false_untagged_empty`).

### Flatten, transparent
* C22: an Optional flattened dataclass cannot be written when None (`C22_false_optional_none`).
* C22: whether an Optional or defaulted flattened dataclass is present is decided by the *declared* names of its fields: with a renamed field the written object is
  read back as None or the default (`C22_false_optional_renamed`, `C22_false_default_renamed`). One missing key makes the given ones disappear in the default
  (`C22_false_default_half`).
* C28: a transparent class whose field is a flattened dataclass cannot be read back (`C28_false_flattened`).
* C50: a flattened dataclass consisting of a flattened dict is rejected by deny_unknown_fields (`C50_false_rest`).

### Unions, literals, enums
* C23: an instance of a subclass is tagged as the base class (`C23_false_subclass`).
* C24: an internal tag overwrites a field of that name (`C24_false_clash`); a variant with deny_unknown_fields refuses the tag (`C24_false_deny`);
  a transparent variant around something that is no dict is never written, and one around a mapping comes back with the tag as an entry (se.py:741-743,
  `C24_no_dict`, `C24_false_transparent`).
* C26: a union that shares its function name with another one of the class is read by the variants of the other (`C26_false_clash`).
* C27: `is_instance(x, Literal[...])` is always true, containers are judged by one element (`C27_false_literal`, `C27_false_list`).
* C30: `Literal[1]` accepts True (`C30_false_bool`).
* C31: enums as mapping keys through text: bool values and mixed kinds give the wrong member (`C31_false_bool_key`, `C31_false_mixed_key`).
* C44: generated function names clash after sanitising (`C44_false_literals`, `C44_false_unions`).
* C46: literals behind PEP 695 aliases are not collected (`C46_false_literal_alias`).

### Types and options
* C32: a strict int field accepts True; the default of an unread field is not checked, nor what `__post_init__` assigns (`C32_false_exact`, `C32_false_default`, `C32_false_post_init`).
* C33: coercion does not reach union members, nor float fields under the JSON number hook (`C33_false_union`, `C33_false_json_float`).
* C36: `skip_if_default` and mapping keys make `reuse_instances` visible beyond the instances (`C36_false_skip`, `C36_false_keys`).
* C51: at the top level reuse_instances is ignored in both directions (`C51_false_top`, `C51_false_top_parsed`).
* C37, C38: options do not reach values in `Any` fields; a union of lists is decided by its first element; enum literals and bare containers are
  handed over as they are (`C37_false_any`, `C37_false_first_element`, `C38_false_any`, `C38_false_any_enum`, `C38_false_copied`).
* C36, C37, C38: `CACHE.serialize_union` calls the union's function with `reuse_instances=False, convert_sets=False` (core.py:203-211), and with the dict
  form also under `to_tuple`. So `to_dict({1}, c=Union[set[int], str], convert_sets=True)` is a set, `to_json({1}, cls=Union[set[int], str])` hands a set to
  the encoder, and dates become strings whatever `reuse_instances` says (`C37_union_options`, `C37_false_union`, `C38_false_union`).
* C39: direct calls use the first registered global serializer, fields the last; class-level serializers are not used in unions; deserializers not for
  mapping keys (`C39_false_first`, `C39_false_union`, `C39_false_key`).
* C40: JSON integers no float represents are rounded (`C40_false_rounded`).
* C40: the number handling tests `issubclass(arg.type, float)` (de.py:1211), which a NewType over float is not: an integer literal is refused by the
  strict check (`C40_newtype_refused`), and with type_check=disabled an int or a bool stays what it is (`C40_newtype_as_is`, `C40_false_newtype`).
* C40: the union functions test `isinstance(data, float)` before reading (de.py:1477-1480), so the integer literal `3`, accepted for `float`, is refused with
  SerdeError for `Union[float, str]` (`C40_union_int_refused`, `C40_false_union`).
* C45: generics are read as Any at top level, in non-generic classes, behind renamed variables and in unions; permuted variables give the wrong
  argument; strict mode and options do not reach values at a variable (`C45_false_*`).
* C55: a bare `frozenset` is read as a `set`; with the default strict check such a field therefore cannot be read at all
  (`C55_false_frozenset`).
* C55: `from_dict(tuple[int, ...], x)` does not read the elements, `from_dict(tuple[int, int], [1])` returns a tuple that is too short
  (`C55_false_top_tuple`).
* C55: in `from_tuple` a field that is not read shifts the values of the later fields to it (`C55_false_shift`).
* C56: a class with `serializer=` does not ask the function for the member of a non-Optional union (`C56_false_union`), and cannot be decorated when it
  flattens a dataclass with two fields (`C56_false_flatten`).
* C57: the `deserializer=` function is only asked for whole fields (`C57_false_elements`), is called with None for a missing key even if there is a default
  (`C57_false_default`) and for a key given under an alias (`C57_false_alias`) and for a flattened dataclass (`C57_false_flatten`); a function that always skips
  still switches off the `class_deserializer` below the field (`C57_false_skip`).
* C58: writing asks for elements and Optional contents, reading does not, so a pair of inverse functions for `datetime` does not round-trip
  `list[datetime]` (`C58_false_elements`) or `Optional[datetime]` (`C58_false_optional`).

### Recursion
* C53 (outside its condition): `from_tuple` of `class A: a: Optional[A]` on the str "a" recurses without end, because the first character of "a" is "a"
  (`C53_tuple_needed`); so do a transparent class over a list of itself on a str (`C53_transparent_needed`) and an untagged union with None whose
  first member flattens the class with the union, on an empty dict (`C53_none_needed`). In Python these end with RecursionError, and since that is an
  `Exception`, a union function may catch it and carry on with the next member.

### State and evolution
* C42: `Union[A, B]` and `Union[B, A]` share a cache entry with an order-dependent name (`C42_false_read`, `C42_false_write`).
* C43: the memoised `typename`, `get_args`, `is_opt_dataclass` answer for the first-seen order (`C43_false_name`, `C43_false_args`,
  `C43_false_opt_dataclass`).
* C49: adding a field can break old inputs: junk under its name, ill-typed default, name clash; so can removing one
  (`C49_false_present`, `C49_false_default`, `C49_false_clash`, `C49_false_remove`).

* C59, undecorated dataclasses: the default of `reuse_instances` is the one of whichever of `to_dict` (False) and `from_dict` (True) met the class first, so
  `to_dict` returns dates as text or as they are (`C59_false_reuse`), and `from_dict` refuses or accepts a date (`C59_false_input`).
* C59: `from_dict` for an undecorated dataclass does not check types until another class with a field of that type is decorated, written or read
  (`C59_false_strict`).
* C59: an undecorated subclass is written with the functions of its base class, losing its own fields, if those were generated first
  (`C59_false_subclass`), and takes over their default for `reuse_instances` (`C59_false_inherited_default`); with both as field types of one class this depends on the iteration order of a set (`C59_false_order`).
* C60: a strict class accepts `True` for `x: int` (`C60_false_typed`), a list of ints with a string after the first element, and a union in a class that
  coerces does not convert (`C60_false_list`); data with `None` for an Optional with another default is read as `None`, written with `skip_none` as nothing
  and read again as the default (`C60_false_again`).
* C61: `p: Union[m1.Foo, Base]` and `q: Union[m2.Foo, Base]` share one function, made for the second; an `m1.Foo` (a subclass of `Base`) in `p` is
  written under the tag `Base` (`C61_false`).
* C62: `@serde(serialize_class_var=True)` on a class that flattens a dataclass with class variables: the generated `to_dict` unpacks into more targets
  than there are values and raises, because only the renderer of the left-hand sides is given the option (`C62_false_flatten`, se.py:810-817);
  `to_tuple` inserts the child's class variables in the middle although the child lacks the option (`C62_false_flatten_tuple`).
* C62: `k: ClassVar[Union[int, str]]` with the option: no function is generated for the union, `to_dict` raises (`C62_false_union`).
* C62: with `deny_unknown_fields` a class refuses the class variables it wrote itself (`C62_false_deny`).
* C63: a bare `frozenset` annotation in a strict class refuses every input: the data is made a `set` (de.py:1100-1101), which the type check turns
  down (`C63_false_frozenset`); the only value of `type Lit = Literal["x"]` is refused, reported as a missing entry (`C63_false_literal_alias`); a
  key ignored by a class is refused by a dataclass flattened into it that denies unknown keys (`C63_false_deny_child`).
* C64: the serializers and skip predicates of fields are registered under a name made from the field's name alone, together with those of
  flattened dataclasses (se.py:626-646). A field of the class and a field of the same name in a flattened dataclass (renamed, so that the output has
  no clash) share the later one: the wrong serializer runs (`C64_false_serializer`, `C64_replaced`), it is not callable this way
  (`C64_false_marker`), a value is left out because of a predicate that is not its own (`C64_false_skip_if`) or compared with another field's default,
  so that it is lost in a round trip (`C64_false_default`). All other properties are stated for `Model/Se.lean`, which agrees where functions
  of the same name agree (`C64_own_partial`).
* C65: nested dataclasses are found by their bare names among all classes collected by `iter_types`, which come from a set (de.py:343-357, 1060). When two
  classes of one name are used somewhere below a class, an object of the wrong class is returned (`C65_false_object`), valid data is refused
  (`C65_false_refused`), and the result depends on the order of the set (`C65_false_order`).
* C66: `should_impl_dataclass` (core.py:1068-1109) takes a dataclass with a `ClassVar` annotation (or `_: KW_ONLY`) for an undecorated class, because these
  annotations are no fields; `dataclass` is then applied a second time to a class whose `field()` objects are gone. Every field loses rename, alias, skip rules,
  serializers, `init`, `kw_only` and its default factory (`C66_lost`, `C66_false_options`); where a field with a default precedes one with a factory the class is
  refused (`C66_false_refused`). `field(metadata=m)` writes the options into `m`, so fields that share a dict share all options (`C66_false_metadata`).
* C67: the same function takes a subclass that only declares fields of its base again for a dataclass of its own, so `dataclass` is not applied, and the defaults
  and options of the subclass are ignored; the type annotations are not (`C67_ignored`, `C67_false`).
* C67: `@serde class E(B, C): pass` has the fields of `B` only: `should_impl_dataclass` takes `E` for a dataclass because of `B`, and nothing merges the
  fields of `C` (`C67_first_only` for all classes, `C67_false_several`).
* C68: `from_dict` passes the fields by position but leaves out init variables, so with `a: int; c: InitVar[int] = 5; b: int = 3` the value read for `b` is
  given to `c`, and `b` gets its default (`C68_false_shifted`).
* C68: `@serde` over `@dataclass(kw_only=True)` with a class variable: fields are rebuilt as positional, `__init__` stays keyword-only, and nothing can be
  read (`C68_false_kw_only`).
* C68: with `class A: a: int`, `class B(A)`, `class C(A): a: str` and `class D(B, C)`, `dataclass` takes over the field of `A` (through `B`), while
  `get_type_hints` finds the annotation of `C`. `a` is read as `str`, and the type check of the constructor refuses it (`C68_false_diamond`).
* C69: of several conditions for leaving a field out only the first counts. A class with `skip_if_default=True, skip_if_none=True` writes None for a field
  with another default (`C69_false_class_flags`); a `skip_if` function switches the class-level `skip_if_none` off (`C69_false_skip_if`); `skip_if_false`
  switches `skip_if_default` off (`C69_false_if_false`).
* C70: the `iter` template (de.py:1315-1336) passes the items to the constructor by position and knows no defaults. `from_tuple` fails where the items run out
  although the field has a default (`C70_false_default`); a `skip_deserializing` field takes the item of the field after it (`C70_false_skip`); a class with a
  keyword-only field cannot be read at all, not even from what `to_tuple` writes (`C70_false_kw`).
* C71: `iter_types` does not look behind a subscripted generic, so decorating a class with a field `Box[int]` leaves an undecorated `Box` without functions, and
  reading and writing raise AttributeError (`C71_false_generic`). `is_dataclass_without_de` finds the scope of a base class, while `serialize` and `deserialize` give
  the subclass a scope of its own, which hides the other functions of the base class: reading (`C71_false_subclass`) or writing (`C71_false_value`) that worked stops working.
* C72: `yaml.py`'s number hook accepts numeric strings, so where `list[float]` comes before `str` in a union, text of digits is read as the list of its digits
  (`C72_false_numeric_text`); JSON's hook refuses strings.
* C73: `skip_none` leaves out fields only. None in a list is handed to the TOML library, which refuses it (`C73_false_null`); None in an Optional field whose default is
  not None is left out and read back as the default (`C73_false_default`).
* C74, IntEnum members in unions: as C01 (`C74_false_int_enum`).
* C75: `to_pickle` takes `skip_none` and does not pass it on (pickle.py:27-38, `C75_false_pickle`). `to_msgpack` documents it (msgpack.py:66) without having it as a
  parameter, so it ends up in the options of `msgpack.packb`; `from_msgpack` has it instead (msgpack.py:116) and ignores it.
* C77: `from_obj` takes the user's exception out of its `UserError` (de.py:630-631) and is called again for every item of `list[C]` and for every
  value annotated with a type variable; the outer call then wraps what has been taken out in `SerdeError` (`C77_false_list`, `C77_false_tvar`). The
  function of a union catches `Exception`, `UserError` included, and goes on with the next member (`C77_false_union`).
* C78: `find_generic_arg` counts positions from 0 in every base (compat.py:1127-1130) and `get_type_var_names` lists the arguments of all bases,
  concrete and repeated ones included (compat.py:1100-1101): a variable of the second generic base is read with the argument of the first
  (`C78_false_two_bases`), `class C(A[int], Generic[T])` cannot be read (`C78_false_count`), and an argument without `__name__` raises
  AttributeError at decoration (`C78_false_unnamed`). Only `~` is stripped from printed variables (de.py:1048), so covariant and contravariant ones
  are read as `Any` (`C78_false_variance`).
* C79: well-typed objects that cannot be written. Elements of a set and keys of a mapping are converted before the set or dict is built
  (se.py:1050-1131), so a set of frozen dataclasses without `convert_sets_to_lists` raises `TypeError: unhashable type: 'dict'`
  (`C79_false_set`), and so does a dict keyed by frozen dataclasses (`C79_false_key`). `is_enum` is memoised and is asked about the *value* of
  an enum member (se.py:1151-1154), so a member whose value is a list raises `TypeError` (`C79_false_enum`).
* C80: `CACHE.serialize_union` drops the options of the call. `to_json(obj, cls=Union[P, T])` hands a set to the library although `convert_sets`
  is True (`C80_false_sets`); `to_toml(obj, cls=Union[P, T])` hands it None although `skip_none` is True (`C80_false_none`). Both fail in the
  library, while the same calls without `cls` succeed.
* C81: the defaults for `reuse_instances`, `convert_sets`, `skip_if_default` and `skip_if_none` belong to the scope object, which the decorator
  applied first creates. `@serialize(skip_if_none=True)` above `@deserialize` writes `None` all the same (`C81_false_skip`); the two decorators
  without arguments write a date as a date in one order and as a string in the other (`C81_false_order`); `@deserialize(type_check=disabled)` with
  a plain `@serialize` checks strictly (`C81_false_check`). Arguments that are not kept in the scope are in force as written.
* C82: nested lists do not tell the dimensions after a zero, so `np.zeros((0, 3))` comes back with the shape `(0,)` (`C82_false_empty`).
  `numpy.array(x)` without `dtype` makes `int64` of `int16` and `float64` of no elements (`C82_false_bare`); for jaxtyping arrays the last of the
  allowed element types is taken (numpy.py:100-102, `C82_false_jaxtyping`). `from_obj` has no branch for jaxtyping types (de.py:615-618,
  `C82_false_direct`).
* C83: `x.item().isoformat()` (numpy.py:90-91) fails for `datetime64` in nanoseconds, for which `item()` is an int, and for NaT (`C83_fine`); coarser
  units than days are read back as days (`C83_false_unit`).
* C85: `is_instance` (core.py:372-528, "deeply check") looks at the first element of a container only ("for speed reasons"), accepts anything for a Literal and any set for a
  `frozenset` (`C85_false_second`, `C85_false_literal`, `C85_false_frozenset`); so a union member that comes first can take an object that is of a later one.
* C86: `from_tuple` ignores surplus elements also with `deny_unknown_fields` (the option is looked at in the dict template only, de.py:1368), and it does not use
  defaults: a shorter tuple is refused (`C86_surplus_partial`, `C86_short_partial`; the property is stated as the code has it). A field annotated `None` is not looked
  for (`C86_false_none`).
* C86, C02: an alias on a field annotated with a primitive, an enum or a NewType breaks `from_tuple` for the whole class: the code generated for aliases,
  `_get_by_aliases(data, [...])` (de.py:1195-1210), is used in the tuple template as well and looks for names among the elements; every tuple and list is refused
  (`C86_alias_refused`, `C86_false_alias`).
* C87: a union member that mentions a PEP 695 alias is never taken when reading: the generated code ends with `is_bearable(res, Num)` (de.py:1483) but `iter_types`
  adds what the alias stands for to the scope, not the alias (compat.py:399-400), so the name is unknown and the NameError counts as "does not match"
  (`C87_member_refused`, `C87_false_union`). `dict_key` does not look through an alias, so the keys of `dict[Num, str]` stay strings after JSON (`C87_false_key`).
  `from_obj` looks through one alias only; an alias of an alias is then called like a class (`C87_false_twice`).
* C88: containers behind the bare annotations `list`, `dict`, `tuple` (items) and, without `convert_sets`, `set` are handed over as they are (se.py:1044, 1055, 1091, 1109): changing the
  result changes the object (`C88_false_shared`). The union function with internal tagging writes `res[tag]` (se.py:742); for a transparent class around a bare `dict` that `res` is the
  object's own dict, which then has the tag in it after `to_dict` (`C88_false_written`).
* C89: the data behind `dict` without arguments and behind `Any` becomes part of the object as it is (de.py:977, 1150), while bare lists, sets, tuples and deques are copied, their items not:
  changing the data later changes the object (`C89_false_shared`). An object of the class itself is returned unchanged (de.py:520).
* C84: `is_serializable` and `is_deserializable` are the same function, `hasattr(x, "__serde__")` (se.py:344-360, de.py:424-435): a class that was only read, or only decorated
  with `@deserialize`, is said to be serializable (`C84_false_read`, `C84_false_deserialize`), and so is an undecorated subclass (`C84_false_subclass`). A subscripted generic is said
  to be neither.

### Seen while reading, not among the properties
* The MessagePack front end takes no tagging.
* `from_msgpack` with `ext_dict` on data that is not an ext value raises AttributeError (`C47_plain_data`).
* Non-dict input to a class whose fields all have defaults is accepted; on a str the key test is a substring test.
* A transparent class whose only other field is `skip_serializing` passes validation and fails with IndexError at decoration.
* `tuple[()]` annotations and alias on a tuple field produce a SyntaxError at decoration, bare `defaultdict` an IndexError.
* A flattened child's own skip options and a flattened dict inside a child with several fields are ignored when writing.
* Top-level `from_obj` of `tuple[Foo, ...]` does not deserialize the elements; fixed tuples accept shorter inputs, fields longer ones.
* An enum whose members have unhashable values cannot be serialized (`is_enum` is memoised).
* A transparent class around a bare `dict` hands out the object's own dict, into which a union function with internal tagging then writes the tag
  (se.py:741-743, 1108-1109): writing changes the object. The model has no aliasing between objects.
* `_make_serialize` does not pass `class_serializer` on, `_make_deserialize` neither `deserializer`, `type_check` nor `class_deserializer`
  (se.py:155-189, de.py:196-225). Only the tests use them.
* A flattened `Optional` dataclass with a default is refused at decoration; `flatten` on a subscripted generic dataclass takes the whole dict, not its part.

## Reading seeded/LOG.jsonl

Each line is one edit of the model. `claim` lists the properties the edit was expected to break, `claims_failed` and `claims_not_failed` split that list by
whether a theorem of the property stopped proving. An edit counts as caught only if all of them failed. `outcome` is `invalid` where the edited model itself
did not compile: the theorems listed there failed only because a definition was missing, which is no evidence. `incomplete` means the run stopped early.

Earlier versions of the log left out the claims that did not fail, omitted the incomplete runs m038, n10 and n11, and counted the invalid q28
as caught. Entries that are not `caught` and carry neither a tightened theorem nor a comment are open.
