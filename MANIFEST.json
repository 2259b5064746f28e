{
 "claims": [
  {
   "property": "C01",
   "status": "partial",
   "theorems": [
    "Verif.Props.C01_dict_round_trip_partial",
    "Verif.Props.C01_program_partial",
    "Verif.Props.C01_default_options_partial",
    "Verif.Findings.RoundTrip.C01_false_frozenset",
    "Verif.Findings.RoundTrip.C01_false_int_enum",
    "Verif.Findings.RoundTrip.C01_false_set_of_dataclasses",
    "Verif.Findings.RoundTrip.C01_false_untagged",
    "Verif.Findings.RoundTrip.C01_false_list_before_str",
    "Verif.Findings.RoundTrip.C01_false_enum_before_str",
    "Verif.Findings.RoundTrip.C01_false_literal_first",
    "Verif.Findings.RoundTrip.C01_false_wrapped_none"
   ],
   "note": "Any class graph (recursive too) over the types in Spec.TyOk and the fields in Spec.FieldOk (defaults, renames, aliases, keyword-only, skip_if_none/false/default rules whose omission the default undoes, flattened dataclasses), transparent classes (Spec.WrapOk: one plain field that cannot hold None), Any, bare list and bare dict holding JSON data, any nesting depth, all option combinations including skip_none. Unions may mix primitives, literals, enums, dates, str-convertible classes, containers and dataclasses (tagged, or untagged where each needs a key that the later ones do not write: Spec.KeyApart), as long as no earlier member can accept the kind of data a later one is written as (Spec.Apart). Missing: transparent classes that can hold None or are members of a union other than Optional, unions that violate this, sets of dataclasses without convert_sets, custom (de)serializers, skip_if; several of these are false of the code (see DESIGN.md). Full statement false of the code: witnesses in Findings/RoundTrip.lean. C01_program_partial states the conditions by the annotations alone, without the tables of generated functions."
  },
  {
   "property": "C02",
   "status": "partial",
   "theorems": [
    "Verif.Props.C02_tuple_round_trip_partial",
    "Verif.Props.C02_program_partial",
    "Verif.Findings.RoundTrip.C02_false_kw_only",
    "Verif.Findings.RoundTrip.C02_false_flatten_not_last"
   ],
   "note": "As C01, without keyword-only fields; a flattened dataclass is covered as the last field. Full statement false of the code: keyword-only fields, and a flattened dataclass with fields behind it (witnesses in Findings/RoundTrip.lean). C02_program_partial states the conditions by the annotations alone, without the tables of generated functions."
  },
  {
   "property": "C03",
   "status": "partial",
   "theorems": [
    "Verif.Props.C03_json_round_trip_partial",
    "Verif.Props.C03_program_partial",
    "Verif.Findings.RoundTrip.C03_false_bool_key",
    "Verif.Findings.RoundTrip.C03_false_counter"
   ],
   "note": "As C01 with JSON-representable keys, with and without skip_none; the JSON library is a codec assumed faithful (up to tuple/list and string keys) on the value handed to it. Full statement false of the code: witnesses in Findings/RoundTrip.lean. C03_program_partial states the conditions by the annotations alone, without the tables of generated functions."
  },
  {
   "property": "C04",
   "status": "partial",
   "theorems": [
    "Verif.Props.C04_msgpack_round_trip_partial",
    "Verif.Props.C04_program_partial",
    "Verif.Findings.RoundTrip.C04_false_int_enum",
    "Verif.Props.C04_false_any"
   ],
   "note": "As C01, dict based or tuple based (named=False); the msgpack library is a codec assumed faithful up to list/tuple. Without Any and bare containers, whose lists come back as tuples (C04_false_any). Full statement false of the code: witnesses in Findings/RoundTrip.lean. C04_program_partial states the conditions by the annotations alone, without the tables of generated functions."
  },
  {
   "property": "C05",
   "status": "proved",
   "theorems": [
    "Verif.Props.C05_dict_shape",
    "Verif.Props.C05_dict_local",
    "Verif.Props.C05_exact_partial"
   ],
   "note": "Distinct wire names; not transparent; no global serializer registered that captures the class. C05_exact adds that a field is missing exactly if its rule says so about the value written for it, where unions with one function name are the same (C61)."
  },
  {
   "property": "C06",
   "status": "proved",
   "theorems": [
    "Verif.Props.C06_tuple_shape",
    "Verif.Props.C06_rules_irrelevant"
   ],
   "note": "Not transparent; no global serializer registered that captures the class."
  },
  {
   "property": "C07",
   "status": "partial",
   "theorems": [
    "Verif.Props.C07_writes_partial",
    "Verif.Props.C07_reads_partial",
    "Verif.Findings.Flatten.C07_false_flattened"
   ],
   "note": "Fields that are not flattened: written and read under the wire name. False for the fields of a flattened dataclass, which are written with the enclosing class's case and read with their own (witness)."
  },
  {
   "property": "C08",
   "status": "partial",
   "theorems": [
    "Verif.Props.C08_order_partial",
    "Verif.Props.C08_missing_partial",
    "Verif.Findings.C08_false_alias_on_list"
   ],
   "note": "Proved for fields without rename whose type is a primitive, NewType, enum or Optional of these; false for container fields, where aliases are not consulted (witness)."
  },
  {
   "property": "C09",
   "status": "partial",
   "theorems": [
    "Verif.Props.C09_serialize",
    "Verif.Props.C09_round_trip_partial",
    "Verif.Findings.C09_false_alias_and_rename"
   ],
   "note": "Serialization half in full. Round trip for aliased fields without rename of the types that support aliases, at any depth; false with alias and rename together (witness)."
  },
  {
   "property": "C10",
   "status": "partial",
   "theorems": [
    "Verif.Props.C10_top_level",
    "Verif.Props.C10_skipped_never_leave_partial",
    "Verif.Findings.Skip.C10_false_flattened"
   ],
   "note": "Proved at any depth for classes reached through fields, containers, Optional and unions. False for a flattened child, whose skip is ignored: witness given."
  },
  {
   "property": "C11",
   "status": "partial",
   "theorems": [
    "Verif.Props.C11_no_influence_partial",
    "Verif.Props.C11_default",
    "Verif.Findings.C11_false_alias_on_list"
   ],
   "note": "Default half is full. Independence half excludes flattened fields and aliases on types that ignore them; with an alias on a list field it is false (witness)."
  },
  {
   "property": "C12",
   "status": "partial",
   "theorems": [
    "Verif.Props.C12_skip_rule_partial",
    "Verif.Props.C12_anywhere_partial",
    "Verif.Findings.Skip.C12_false_on_raw_value"
   ],
   "note": "Proved with the predicate applied to the serialized value, which is what the code does, for the object itself and (C12_anywhere) for objects at any depth; the reading on the attribute value is false: witness given."
  },
  {
   "property": "C13",
   "status": "proved",
   "theorems": [
    "Verif.Props.C13_class_flags"
   ],
   "note": "For every class, value and fuel: class flags act as if written on each field without its own setting."
  },
  {
   "property": "C14",
   "status": "partial",
   "theorems": [
    "Verif.Props.C14_skip_none_partial",
    "Verif.Props.C14_inside_partial",
    "Verif.Props.C14_deep_partial",
    "Verif.Props.C14_anywhere_partial",
    "Verif.Props.C14_behind_any_partial",
    "Verif.Findings.Skip.C14_false_with_skip_if",
    "Verif.Findings.Skip.C14_false_with_skip_if_default"
   ],
   "note": "Proved for fields without skip_if and without an effective skip_if_default, without custom serializers or flatten, of the object itself and of objects inside it (through fields, containers, values of mappings, Optional, transparent wrappers, unions of classes and other nominal types without internal tagging: C14_anywhere). C14_behind_any: objects behind Any and type variables. Missing: objects in other unions, which C61 describes. False otherwise: two witnesses."
  },
  {
   "property": "C15",
   "status": "partial",
   "theorems": [
    "Verif.Props.C15_absent_partial",
    "Verif.Props.C15_present_partial",
    "Verif.Findings.C15_false_alias_and_rename"
   ],
   "note": "Proved in both directions for every class and every field that is not flattened and does not combine aliases with a rename. With both, the code looks under the declared name instead of the wire name and drops the value (witness)."
  },
  {
   "property": "C16",
   "status": "partial",
   "theorems": [
    "Verif.Props.C16_missing_partial",
    "Verif.Props.C16_serde_error_partial",
    "Verif.Findings.C16_false_tuple_of_none"
   ],
   "note": "Proved for every class and required field that is not flattened, with aliases only where the code implements them. Witness: a field of type tuple[None, None] may be missing."
  },
  {
   "property": "C17",
   "status": "partial",
   "theorems": [
    "Verif.Props.C17_optional_partial",
    "Verif.Props.C17_union_partial",
    "Verif.Props.C17_absent_is_null_partial",
    "Verif.Findings.C17_false_untagged_empty"
   ],
   "note": "Optional: full except flattened fields and custom deserializers. Other unions: None results if the earlier members reject null. An absent key equals an explicit null, other fields unaffected. Witness: untagged empty dataclass before None."
  },
  {
   "property": "C18",
   "status": "partial",
   "theorems": [
    "Verif.Props.C18_unknown_ignored_partial",
    "Verif.Props.C18_plain",
    "Verif.Findings.C18_false_alias_on_list",
    "Verif.Findings.C18_false_alias_and_rename"
   ],
   "note": "Full for classes without aliases and flattening (C18_plain). With aliases or flattened dataclasses only keys outside Reads (wire names, aliases, declared names of aliased fields, probed child names) are shown to be ignored. False with an alias on a list field or alias plus rename (witnesses)."
  },
  {
   "property": "C19",
   "status": "partial",
   "theorems": [
    "Verif.Props.C19_unknown_rejected",
    "Verif.Props.C19_known_unaffected_partial",
    "Verif.Props.C19_empty_unaffected_partial",
    "Verif.Props.C19Empty.C19_false_not_a_mapping"
   ],
   "note": "First half in full: any class without flattened dict; flattened dataclasses included (their names count as recognised). Second half for dicts and for inputs that are false in Python; false for inputs that are not mappings, which the check itself rejects (C19_false_not_a_mapping)."
  },
  {
   "property": "C20",
   "status": "proved",
   "theorems": [
    "Verif.Props.C20_captures",
    "Verif.Props.C20_reserialize",
    "Verif.Props.C20_deny"
   ],
   "note": "Captured entries: every class and input. Re-serialization: JSON-like input with string keys, one flattened dict, no custom serializers, no __post_init__; an entry is not repeated if a declared field writes the same key. C20_deny: deny_unknown_fields has no effect on a class with a flattened dict."
  },
  {
   "property": "C21",
   "status": "partial",
   "theorems": [
    "Verif.Props.C21_declared_wins_partial",
    "Verif.Findings.Flatten.C21_false_skipped"
   ],
   "note": "Exact set of entries written, for any position of the dict; other fields may be flattened dataclasses but not dicts. The declared field wins whenever it is written; if it is omitted by a skip rule the dict's entry takes its key (witness)."
  },
  {
   "property": "C22",
   "status": "partial",
   "theorems": [
    "Verif.Props.C22_flatten_partial",
    "Verif.Props.C22_inline_partial",
    "Verif.Props.C22_optional_partial",
    "Verif.Props.C22_default_partial",
    "Verif.Findings.Flatten.C22_false_rename_all",
    "Verif.Findings.Flatten.C22_false_optional_none",
    "Verif.Props.C22_false_optional_renamed",
    "Verif.Props.C22_false_default_renamed",
    "Verif.Props.C22_false_default_half"
   ],
   "note": "Every class graph of the round-trip fragment, any flattened dataclasses with plain fields, all options: the object is restored, the keys are exactly own and children's wire names in order, every child key is present, and the child's own dict is contained. In the dict of an object whose class flattens dataclasses at any depth, every field of each of them has its entry inline. Reading an Optional flattened dataclass, or one with a default: None or the default exactly when a key of it is missing, otherwise the object read from the same dict. Missing: round trip of children that flatten further dataclasses. False with rename_all on the enclosing class, for Optional children holding None, for Optional or defaulted children with renamed fields, and a default replaces given keys when one is missing (witnesses)."
  },
  {
   "property": "C23",
   "status": "partial",
   "theorems": [
    "Verif.Props.C23_writes_partial",
    "Verif.Props.C23_reads",
    "Verif.Props.C23_round_trip_partial",
    "Verif.Props.C23_fragment_partial",
    "Verif.Props.C23_field_writes_partial",
    "Verif.Props.C23_C25_field_reads",
    "Verif.Props.C23_false_subclass"
   ],
   "note": "Top-level union entry points and union fields: written form, reading, and the trip back. False when a base class is listed before its subclass (C23_false_subclass); proved when no earlier member is a superclass. Requires that the union's generated function name is not shared with another union inside the members, no global serializer for the variant."
  },
  {
   "property": "C24",
   "status": "partial",
   "theorems": [
    "Verif.Props.C24_writes_partial",
    "Verif.Props.C24_reads",
    "Verif.Props.C24_round_trip_partial",
    "Verif.Props.C24_field_writes_partial",
    "Verif.Props.C23_C25_field_reads",
    "Verif.Props.C24_false_clash",
    "Verif.Props.C24_false_deny",
    "Verif.Props.C24_no_dict",
    "Verif.Props.C24_false_transparent"
   ],
   "note": "As C23. False when the tag equals a key of the variant (entry overwritten) and when the variant has deny_unknown_fields (refused on reading). Also for transparent variants: without a dict of their own they are never written (C24_no_dict), around a mapping they come back with the tag as an entry (C24_false_transparent)."
  },
  {
   "property": "C25",
   "status": "partial",
   "theorems": [
    "Verif.Props.C25_writes_partial",
    "Verif.Props.C25_reads",
    "Verif.Props.C25_round_trip_partial",
    "Verif.Props.C25_fragment_partial",
    "Verif.Props.C25_field_writes_partial",
    "Verif.Props.C23_C25_field_reads",
    "Verif.Props.C23_false_subclass"
   ],
   "note": "As C23, with the same restriction on superclasses."
  },
  {
   "property": "C26",
   "status": "partial",
   "theorems": [
    "Verif.Props.C26_from_dict_partial",
    "Verif.Props.C26_field_partial",
    "Verif.Props.C26_false_clash",
    "Verif.Props.rejects_accepts",
    "Verif.Props.C26_classes_partial",
    "Verif.Props.C26_required_partial"
   ],
   "note": "Acceptance of a member is defined by a one-field class of that type; members may contain further unions and literals at any depth. Missing: unions that share their function name with another union or literal of the class; there the property is false (C26_false_clash). C26_classes_partial: for untagged unions of dataclasses, acceptance is from_dict of the member class itself; C26_required_partial: a dict that lacks a required key of every earlier member is read as the later one."
  },
  {
   "property": "C27",
   "status": "partial",
   "theorems": [
    "Verif.Props.C27_from_dict",
    "Verif.Props.C27_to_dict_partial",
    "Verif.Props.C27_field_to_dict_partial",
    "Verif.Props.C27_false_literal",
    "Verif.Props.C27_false_list",
    "Verif.Props.C34_from_dict"
   ],
   "note": "Deserializing: every union, input and tagging. Serializing: members that are primitives, None, enums, dataclasses, str-convertible or date/time classes; false for literals and for containers (only the first element is checked)."
  },
  {
   "property": "C28",
   "status": "partial",
   "theorems": [
    "Verif.Props.C28_writes_partial",
    "Verif.Props.C28_writes_tuple_partial",
    "Verif.Props.C28_reads_partial",
    "Verif.Props.C28_reads_tuple_partial",
    "Verif.Props.C28_false_flattened"
   ],
   "note": "Both directions, dict and tuple forms, for every transparent class whose single field is not flattened: the class is compared with a copy that is not transparent and holds the value under one key. False of the code when the single field is a flattened dataclass (witness C28_false_flattened). The tuple reading theorem needs a field that is not kw_only, because the copy's tuple form rejects those."
  },
  {
   "property": "C29",
   "status": "proved",
   "theorems": [
    "Verif.Props.C29_accepts_iff"
   ],
   "note": "decorateTransparent includes both the check in get_transparent_field and the element-0 lookups in the templates. Rejection is a SerdeError or, for one-sidedly skipped fields, an IndexError; the property does not fix the kind of exception."
  },
  {
   "property": "C30",
   "status": "partial",
   "theorems": [
    "Verif.Props.C30_sound_partial",
    "Verif.Props.C30_reject",
    "Verif.Props.C30_accepts",
    "Verif.Props.C30_accepts_box",
    "Verif.Props.C30_anywhere_partial",
    "Verif.Props.C30_false_bool"
   ],
   "note": "A Literal field (own function name, see C44) returns only values equal to an argument, rejects the rest, accepts every argument; C30_anywhere: at any depth of the result. Missing: the value has the kind of the argument. Python equality makes 1 match Literal[True], shown by C30_false_bool."
  },
  {
   "property": "C31",
   "status": "partial",
   "theorems": [
    "Verif.Props.C31_written",
    "Verif.Props.C31_read",
    "Verif.Props.C31_reject",
    "Verif.Props.C31_key_written",
    "Verif.Props.C31_key_read_partial",
    "Verif.Props.C31_anywhere_partial",
    "Verif.Props.C31_write_anywhere_partial",
    "Verif.Props.C31_false_bool_key",
    "Verif.Props.C31_false_mixed_key"
   ],
   "note": "Members are written as their values and read back, as field values and as mapping keys, for str/int/bool/float values pairwise different; C31_anywhere, C31_write_anywhere: the same at any depth, reading and writing. As mapping keys turned into strings: proved when all values are str, int or float of one kind; false for bool values and for mixed kinds (witnesses)."
  },
  {
   "property": "C32",
   "status": "partial",
   "theorems": [
    "Verif.Props.C32_every_object",
    "Verif.Props.C32_object_partial",
    "Verif.Props.C32_read_fields",
    "Verif.Props.C32_prim",
    "Verif.Props.C32_prim_reject",
    "Verif.Props.C32_false_exact",
    "Verif.Props.C32_false_default",
    "Verif.Props.C32_post_init_partial",
    "Verif.Props.C32_false_post_init"
   ],
   "note": "Every attribute of a result of a strict class conforms to its type (Conforms, any sampled element) or is an unread field's default. False parts witnessed: an int field holds True; an unread field's default is unchecked. With a __post_init__, what it is given conforms (C32_post_init_partial); what it assigns is not checked (C32_false_post_init). Missing: global class deserializers."
  },
  {
   "property": "C33",
   "status": "partial",
   "theorems": [
    "Verif.Props.C33_converted",
    "Verif.Props.C33_accepted",
    "Verif.Props.C33_unchanged",
    "Verif.Props.C33_rejected",
    "Verif.Props.C33_none",
    "Verif.Props.C33_anywhere_partial",
    "Verif.Props.C33_write_anywhere_partial",
    "Verif.Props.C33_false_json_float",
    "Verif.Props.C33_false_union"
   ],
   "note": "Proved for plain fields of a coercing class whose type is built from primitives, Optional, lists, tuples and str-keyed dicts: the converted value, acceptance, values already of the type unchanged, refusal with SerdeError, None only into Optional. C33_anywhere, C33_write_anywhere: at any depth, reading and writing, the class around the position decides. Missing: class and global deserializers in scope, sets, Counter, dict keys other than str. False as stated for float fields under from_json (number hook does not convert strings) and for union members (not coerced): both witnessed."
  },
  {
   "property": "C34",
   "status": "proved",
   "theorems": [
    "Verif.Props.C34_from_dict",
    "Verif.Props.C34_from_tuple",
    "Verif.Props.C34_only_serde"
   ],
   "note": "Exceptions raised by the class's own __init__ because of a parameter the user excluded from decoding (no default) are the constructor's own TypeError; SigOk characterises when that cannot happen."
  },
  {
   "property": "C35",
   "status": "proved",
   "theorems": [
    "Verif.Props.C35_to_dict",
    "Verif.Props.C35_to_tuple"
   ],
   "note": "Every object, every option."
  },
  {
   "property": "C36",
   "status": "partial",
   "theorems": [
    "Verif.Props.C36_nothing_else_partial",
    "Verif.Props.C36_tuple_partial",
    "Verif.Props.C36_strings_partial",
    "Verif.Props.C36_written_partial",
    "Verif.Props.C36_date_anywhere_partial",
    "Verif.Props.C36_std_anywhere_partial",
    "Verif.Props.C36_false_skip",
    "Verif.Props.C36_false_keys",
    "Verif.Props.C37_union_options",
    "Verif.Props.C37_false_union"
   ],
   "note": "For objects whose classes flatten no dataclass and whose skip rules do not look at the value: switching reuse_instances off changes nothing in to_dict or to_tuple except that dates, times and values with a str() form become strings, leaf by leaf; with reuse off nothing but the written forms is left. At any depth the option given, or that of the outermost class, decides (C36_date_anywhere, C36_std_anywhere). Two witnesses show the statement fails for value-dependent skip rules and for keys that become equal as strings. An explicit union target (c=Union[...]) makes every option of the call void (C37_union_options), so dates become strings there even with reuse_instances=True (C37_false_union). Missing: flattened dataclasses."
  },
  {
   "property": "C37",
   "status": "partial",
   "theorems": [
    "Verif.Props.C37_to_dict_partial",
    "Verif.Props.C37_to_tuple_partial",
    "Verif.Props.C37_anywhere_partial",
    "Verif.Props.C37_false_any",
    "Verif.Props.C37_false_first_element",
    "Verif.Props.C37_union_options",
    "Verif.Props.C37_target_ignored",
    "Verif.Props.C37_union_partial",
    "Verif.Props.C37_false_union"
   ],
   "note": "Proved for every argument whose parts conform to their declared types (Fits/Free), at any depth, with flattened fields, unions, subclasses and custom serializers; C37_anywhere needs no conformance for what stands at a set annotation. Conformance asks more where the property is false: a dataclass with sets inside Any, and unions of containers decided on the first element (both witnessed); bare containers must not contain sets. With a union as the explicit target the statement is false: the options of the call are void there, and a set stays a set (C37_union_options, C37_false_union); the output has no set if the value conforms to the union without sets (C37_union). Other target types have no influence (C37_target_ignored), except for a date or str-convertible value given directly, which is not covered."
  },
  {
   "property": "C38",
   "status": "partial",
   "theorems": [
    "Verif.Props.C38_json_safe_partial",
    "Verif.Props.C38_false_any",
    "Verif.Props.C38_false_any_enum",
    "Verif.Props.C38_false_copied",
    "Verif.Props.C38_union_partial",
    "Verif.Props.C38_false_union"
   ],
   "note": "Proved for every argument whose parts conform to their declared types (Fits/Free) under to_json's default reuse_instances=False, convert_sets=True. False for well-typed instances with enum members or set-holding dataclasses inside Any, enum members in literals, or other values inside bare containers (all witnessed). With cls=Union[...] the options do not arrive, so a set is handed to the encoder (C38_false_union); the output is safe if the value conforms to the union without sets (C38_union)."
  },
  {
   "property": "C39",
   "status": "partial",
   "theorems": [
    "Verif.Props.C39_serialize_partial",
    "Verif.Props.C39_field",
    "Verif.Props.C39_class",
    "Verif.Props.C39_global",
    "Verif.Props.C39_deserialize_partial",
    "Verif.Props.C39_field_de",
    "Verif.Props.C39_class_de",
    "Verif.Props.C39_global_de",
    "Verif.Props.C39_union_partial",
    "Verif.Props.C39_union_de_partial",
    "Verif.Props.C39_false_first",
    "Verif.Props.C39_false_union",
    "Verif.Props.C39_false_key",
    "Verif.Props.C39_transparent",
    "Verif.Props.C39_transparent_de"
   ],
   "note": "Every value to_dict/to_tuple writes and every value from_dict reads under a present key comes from the responsible serializer, at every position reachable through containers, Optional, aliases and nested dataclasses; spelled out for one field as own > class-level > last registered global. Witnesses show the statement fails for direct to_dict of a value, class-level serializers inside unions and numeric dict keys. The same for the field of a transparent class (C39_transparent, C39_transparent_de). Members of unions that are field types: the global ones alone are asked, for the member that is taken (C39_union, C39_union_de). Missing: unions inside containers, flattened fields, type variables, values below Any."
  },
  {
   "property": "C40",
   "status": "partial",
   "theorems": [
    "Verif.Props.C40_int",
    "Verif.Props.C40_int_equal_partial",
    "Verif.Props.C40_int_accepted",
    "Verif.Props.C40_reject",
    "Verif.Props.C40_other_types",
    "Verif.Props.C40_other_field",
    "Verif.Props.C40_float_read",
    "Verif.Props.C40_float_round_trip",
    "Verif.Props.C40_anywhere_partial",
    "Verif.Props.C40_newtype_as_is",
    "Verif.Props.C40_newtype_refused",
    "Verif.Props.C40_false_rounded",
    "Verif.Props.C40_false_newtype",
    "Verif.Props.C40_union_refused",
    "Verif.Props.C40_union_int_refused",
    "Verif.Props.C40_union_bool_refused",
    "Verif.Props.C40_union_kept_partial",
    "Verif.Props.C40_false_union"
   ],
   "note": "Proved for plain float fields of any class: an int becomes float(i), equal when a float represents it; bools and non-numbers rejected with SerdeError; no effect on classes or fields without float; floats written are read back for a codec faithful on the written dict. C40_anywhere: the same for floats at any depth (containers, nested, flattened and transparent dataclasses). C40_union_*: in a field annotated with a union of primitives, NewTypes and None a number is never converted: one that is read stays as it is, and an integer (a boolean) is refused with SerdeError when no member has its type. Missing: unions with container or dataclass members, and sets. False for integers no float represents, for an integer in Union[float, str] (C40_false_union) and for fields annotated with a NewType over float, which the number handling passes by (all witnessed; C40_newtype_as_is and C40_newtype_refused say what happens to them)."
  },
  {
   "property": "C41",
   "status": "proved",
   "theorems": [
    "Verif.Props.C41_entry_order"
   ],
   "note": "Holds for classes that are not transparent and inline no flattened dict (both documented exceptions: a flattened dict keeps input order)."
  },
  {
   "property": "C42",
   "status": "partial",
   "theorems": [
    "Verif.Props.C42_from_dict_partial",
    "Verif.Props.C42_from_tuple_partial",
    "Verif.Props.C42_to_dict_partial",
    "Verif.Props.C42_to_tuple_partial",
    "Verif.Props.C42_write_untyped",
    "Verif.Props.C42_union_free",
    "Verif.Props.C42_class",
    "Verif.Props.C42_class_tuple",
    "Verif.Props.C42_false_read",
    "Verif.Props.C42_false_write"
   ],
   "note": "For every history of unions asked for before: dataclasses and union-free types are unaffected; a type with unions is unaffected unless a Python-equal union was written in another member order before. Then the lookup fails: C42_false_read, C42_false_write."
  },
  {
   "property": "C43",
   "status": "partial",
   "theorems": [
    "Verif.Props.C43_answers_partial",
    "Verif.Props.C43_settled_partial",
    "Verif.Props.C43_is_union_is_opt",
    "Verif.Props.C43_shared",
    "Verif.Props.C43_false_name",
    "Verif.Props.C43_false_args",
    "Verif.Props.C43_false_opt_dataclass"
   ],
   "note": "For every history of questions. is_union and is_opt are independent of it, and so is every answer about an annotation without unions, literals and aliases; otherwise typename, get_args and is_opt_dataclass are unless a type that differs only in the order or repetition of union members or literal values, or in the body of an alias, was met. Then they differ: C43_false_*."
  },
  {
   "property": "C44",
   "status": "partial",
   "theorems": [
    "Verif.Props.C44_read_partial",
    "Verif.Props.C44_write_partial",
    "Verif.Props.C44_variants_partial",
    "Verif.Props.C44_union_names_partial",
    "Verif.Props.C44_literal_names_partial",
    "Verif.Props.C44_no_clash_partial",
    "Verif.Props.C44_distinct_partial",
    "Verif.Props.C44_false_literals",
    "Verif.Props.C44_false_unions"
   ],
   "note": "Two fields/classes whose unions and literals have no clashing function names read and write each field alike. Names do not clash if the leaf types have different alphanumeric names, unions are built from them by list, set, deque, dict, tuple, Optional and Union, and literals are alphanumeric strings and unsigned ints. Missing: classes whose tables hold two different unions or literals with one generated name; there the claim is false (two witnesses). The name theorems do not cover frozenset, defaultdict, abstract containers, subscripted generics and NewTypes (which share names with others), variable-length tuples and literals inside unions."
  },
  {
   "property": "C45",
   "status": "partial",
   "theorems": [
    "Verif.Props.C45_nested_partial",
    "Verif.Props.C45_write_var_partial",
    "Verif.Props.C45_write_gen_partial",
    "Verif.Props.C45_false_top",
    "Verif.Props.C45_false_concrete",
    "Verif.Props.C45_false_renamed",
    "Verif.Props.C45_false_union",
    "Verif.Props.C45_false_swapped",
    "Verif.Props.C45_false_strict",
    "Verif.Props.C45_false_options"
   ],
   "note": "False in general: a variable used directly in the outermost class, bound to a concrete argument in a class body, renamed on the way or inside a union is read as Any; permuted names get the wrong argument; primitives are converted even in strict mode; options do not reach values at a variable (witnesses C45_false_*). Proved: below the outermost class, at every depth, a variable passed on under its own name is read as from_dict at the argument; writing ignores the arguments. Missing: acceptance of every readable input."
  },
  {
   "property": "C46",
   "status": "partial",
   "theorems": [
    "Verif.Props.C46_unions",
    "Verif.Props.C46_literals_partial",
    "Verif.Props.C46_types",
    "Verif.Props.C46_false_literal_alias"
   ],
   "note": "Collection of unions and types terminates with the given fuel and finds exactly what is reachable. Literals: the same except behind a PEP 695 alias, where the code misses them (C46_false_literal_alias)."
  },
  {
   "property": "C47",
   "status": "proved",
   "theorems": [
    "Verif.Props.C47_writes",
    "Verif.Props.C47_reads",
    "Verif.Props.C47_unregistered_class",
    "Verif.Props.C47_unregistered_code",
    "Verif.Props.C47_round_trip"
   ],
   "note": "All parts, for every ext_dict and every object of a class: the bytes unpack to an ExtType with the code of the object's own class and the plain encoding as payload; reading picks the class registered under the code whatever class is asked for; unregistered class or code gives SerdeError; sender and receiver with agreeing registrations exchange objects unchanged. The msgpack library is a parameter (it is assumed to unpack an ExtType to what was packed). Bytes that hold no ExtType raise a raw AttributeError (C47_plain_data), which the statement does not cover."
  },
  {
   "property": "C48",
   "status": "proved",
   "theorems": [
    "Verif.Props.C48_post_init_exception",
    "Verif.Props.C48_post_init_result"
   ],
   "note": "Decoding up to the constructor is expressed by the copy of the class without __post_init__."
  },
  {
   "property": "C49",
   "status": "partial",
   "theorems": [
    "Verif.Props.C49_add_partial",
    "Verif.Props.C49_same_values_partial",
    "Verif.Props.C49_remove_partial",
    "Verif.Props.C49_false_present",
    "Verif.Props.C49_false_default",
    "Verif.Props.C49_false_clash",
    "Verif.Props.C49_false_remove"
   ],
   "note": "For a class and the same class with one more field at any place (same decorator options): adding a defaulted field keeps every input without an entry for it readable, with the same values for the old fields and the default for the new one (with or without deny_unknown_fields); any input both versions read gives the common fields the same values; whatever the larger class reads the smaller one reads. Conditions: no function-name clash between different unions or literals, no literal behind a PEP 695 alias, no flattened fields, no __post_init__, keyword-only fields last, the default passes the strict check. Full statement false: an existing entry under the new name may not fit (C49_false_present), an ill-typed default (C49_false_default), clashing literal functions (C49_false_clash), a literal behind an alias that only works because of the removed field (C49_false_remove)."
  },
  {
   "property": "C50",
   "status": "partial",
   "theorems": [
    "Verif.Props.C50_keys_partial",
    "Verif.Props.C50_own_output_partial",
    "Verif.Props.C50_accept_partial",
    "Verif.Props.C50_false_case",
    "Verif.Props.C50_false_rest",
    "Verif.Props.C50_false_skip"
   ],
   "note": "Every key to_dict writes (own fields and those of dataclasses flattened at any depth) is one the class recognises; on its own output a class with deny_unknown_fields behaves exactly as its copy without the option; for the classes of the round-trip theorems the output is accepted. Conditions: flattened fields have the same name in both directions, no flattened dataclass brings a flattened dict along. Full statement false: outer case conversion names flattened fields (C50_false_case), flattened dict inside a flattened dataclass (C50_false_rest), skip rule on a field without default (C50_false_skip)."
  },
  {
   "property": "C51",
   "status": "partial",
   "theorems": [
    "Verif.Props.C51_no_difference",
    "Verif.Props.C51_no_difference_tuple",
    "Verif.Props.C51_read_partial",
    "Verif.Props.C51_date_anywhere_partial",
    "Verif.Props.C51_std_anywhere_partial",
    "Verif.Props.C51_false_top",
    "Verif.Props.C51_false_top_parsed"
   ],
   "note": "On input without dates and str-convertible values the option makes no difference: proved for every annotation and every input, from_dict and from_tuple. Dates and str-convertible values at any depth (list, deque, tuple, Optional, str-keyed dict values, nested, flattened and transparent dataclasses, dataclasses in unions): kept with True if it is an instance, otherwise made by the class's parser. Witnesses show that at the top level the option is ignored. Missing: dates that are union members themselves, sets, mapping keys, type variables."
  },
  {
   "property": "C52",
   "status": "proved",
   "theorems": [
    "Verif.Props.C52_to_dict",
    "Verif.Props.C52_to_tuple",
    "Verif.Props.C52_order_needed"
   ],
   "note": "For every environment whose unions have distinct function names and whose classes are decorated after those they flatten or have in their defaults, every run ends: beyond some depth of recursion the result no longer changes and is a value or a Python exception. C52_order_needed: without the order of decoration serialization can run for ever."
  },
  {
   "property": "C53",
   "status": "proved",
   "theorems": [
    "Verif.Props.C53_from_dict",
    "Verif.Props.C53_from_tuple",
    "Verif.Props.C53_rank",
    "Verif.Props.C53_tuple_needed",
    "Verif.Props.C53_transparent_needed",
    "Verif.Props.C53_none_needed"
   ],
   "note": "Every run ends where the relation 'read from the same data' (Spec.Rereads) is well-founded; C53_rank reduces that to a number for each class. The three C53_*_needed theorems are diverging witnesses outside the condition: a recursive class read by from_tuple from a str, a transparent class over a list of itself read from a str, an untagged None-union behind a flattened class."
  },
  {
   "property": "C54",
   "status": "partial",
   "theorems": [
    "Verif.Props.C54_from_dict_partial",
    "Verif.Props.C54_anywhere_partial",
    "Verif.Props.C54_absent_partial",
    "Verif.Props.C54_number_partial",
    "Verif.Props.C54_false_alias"
   ],
   "note": "Proved: every value from_dict returns is described by an independent inductive specification (TopTo/ReadTo/ObjTo), and at every position reached through lists, deques, tuples, str-keyed mappings, Optionals, aliases, generics, nested, flattened and transparent dataclasses, and objects in unions of nominal types; fields with aliases (of the types for which these are implemented) are read from the first of their names that is present, absent ones are their default or None, unread ones their default. False where a container field has an alias: elements are looked up under it too (C54_false_alias). Missing: other fields with aliases, type variables, classes with __post_init__ (only the class of the object is stated), non-mapping inputs to non-transparent classes."
  },
  {
   "property": "C55",
   "status": "partial",
   "theorems": [
    "Verif.Props.C55_object_partial",
    "Verif.Props.C55_object_tuple_partial",
    "Verif.Props.C55_from_dict_partial",
    "Verif.Props.C55_from_tuple_partial",
    "Verif.Props.C55_json_partial",
    "Verif.Props.C55_float",
    "Verif.Props.C55_union",
    "Verif.Props.C55_false_frozenset",
    "Verif.Props.C55_false_top_tuple",
    "Verif.Props.C55_false_shift"
   ],
   "note": "Proved for every input by induction over the evaluator; aliases, flattening, missing keys and unions included. Needs: Python's constructors return instances of their class (CtorsOk), unions and literals have functions of their own (C44). Nothing is claimed for type variables, custom deserializers, bare dicts and classes with a __post_init__. False of the code, with witnesses: a bare frozenset is read as a set, from_dict(tuple[T, ...]) leaves elements alone and accepts short tuples, a skipped field shifts attributes in from_tuple."
  },
  {
   "property": "C56",
   "status": "partial",
   "theorems": [
    "Verif.Props.C56_written_partial",
    "Verif.Props.C56_asked_partial",
    "Verif.Props.C56_elements_partial",
    "Verif.Props.C56_no_functions",
    "Verif.Props.C56_false_union",
    "Verif.Props.C56_false_flatten"
   ],
   "note": "Proved for classes without flattened fields and transparent (SimpleSe), for to_dict and to_tuple; nothing is claimed about what is written inside non-Optional unions, Any and coerced primitives once the function skips. False in a non-Optional union (the function is not asked for the member) and with a flattened dataclass (the class cannot be decorated). Not pinned down (mutant x20 survives): for a subscripted generic class, which class the function is given."
  },
  {
   "property": "C57",
   "status": "partial",
   "theorems": [
    "Verif.Props.C57_asked_partial",
    "Verif.Props.C57_not_asked_partial",
    "Verif.Props.C57_false_default",
    "Verif.Props.C57_false_alias",
    "Verif.Props.C57_false_elements",
    "Verif.Props.C57_false_skip",
    "Verif.Props.C57_false_flatten",
    "Verif.Props.C57_tuple_asked_partial",
    "Verif.Props.C57_tuple_not_asked_partial"
   ],
   "note": "Proved for from_dict at the fields of a class; after a skip, for annotations without dataclasses, type variables and non-Optional unions and for fields without alias. The full statement is false: components are not asked, a missing key with a default and a key given under an alias reach the function as None, a flattened dataclass too, and after a skip the class_deserializer is not used below the field. C57_tuple_*: the same for from_tuple, by position, for classes whose constructor fields are all read. Missing: nested dataclasses after a skip, from_tuple on classes with skipped or keyword-only fields. Not pinned down (mutant x20 survives): for a subscripted generic class, which class the function is given."
  },
  {
   "property": "C58",
   "status": "partial",
   "theorems": [
    "Verif.Props.C58_round_trip_partial",
    "Verif.Props.C58_false_elements",
    "Verif.Props.C58_false_optional"
   ],
   "note": "Proved for from_dict after to_dict where each field is either handled by the pair as a whole or left alone by both at every component, with annotations without dataclasses, type variables, Any and non-Optional unions. False when the pair handles the elements of a list or the content of an Optional: the writing function is asked for them, the reading one is not."
  },
  {
   "property": "C59",
   "status": "partial",
   "theorems": [
    "Verif.Props.C59_decorated",
    "Verif.Props.C59_written_partial",
    "Verif.Props.C59_read_partial",
    "Verif.Props.C59_settled_partial",
    "Verif.Props.C59_false_reuse",
    "Verif.Props.C59_false_input",
    "Verif.Props.C59_false_strict",
    "Verif.Props.C59_false_subclass",
    "Verif.Props.C59_false_order",
    "Verif.Props.C59_false_inherited_default"
   ],
   "note": "Full for programs that decorate every dataclass where it is defined (C59_decorated: the four functions are those of the class table, whatever happened before). With undecorated dataclasses: writing with reuse_instances given is independent of the history when no dataclass inherits from another; reading likewise if the same classes are under strict checking; after every class was written and read once nothing changes any more. False otherwise: the default of reuse_instances is set by whichever of to_dict and from_dict meets the class first, strict checking starts when another class with such a field is generated, a subclass uses the functions of a base class that was generated first, and which of the two is first can depend on set iteration order."
  },
  {
   "property": "C60",
   "status": "partial",
   "theorems": [
    "Verif.Props.C60_typed_partial",
    "Verif.Props.C60_typed_tuple_partial",
    "Verif.Props.C60_typed_json_partial",
    "Verif.Props.C60_again_partial",
    "Verif.Props.C60_again_tuple_partial",
    "Verif.Props.C60_again_json_partial",
    "Verif.Props.C60_false_typed",
    "Verif.Props.C60_false_list",
    "Verif.Props.C60_false_again"
   ],
   "note": "Typed: for every environment whose classes are firm (Spec/Typed): coercing classes with primitives, NewTypes, None, enums, str-convertible types, dates, Literals of strings, lists, deques, tuples, sets, dicts, Optional, unions, aliases, dataclasses; strict classes where every leaf is checked on its own (not inside containers) and an int annotation only if no bools occur in the data. Python's constructors are assumed to return instances of their class that can be read back from their text (Canonical). Names of generated union and literal functions distinct, no custom deserializers, no flattened dict, no __post_init__, not transparent. Again: combined with the hypotheses of the round trip theorems C01, C02, C03. Missing: Counter, Any, bare containers, generics, flattened dict fields, transparent classes, Literals of ints in a class that coerces. False of the code in general (C60_false_typed, C60_false_list, C60_false_again): a strict class accepts True for int and looks at one element of a list, a union in a coercing class does not convert, and skip_none loses None when there is another default."
  },
  {
   "property": "C61",
   "status": "partial",
   "theorems": [
    "Verif.Props.C61_to_dict_partial",
    "Verif.Props.C61_to_tuple_partial",
    "Verif.Props.C61_anywhere_partial",
    "Verif.Props.C61_behind_any_partial",
    "Verif.Props.C61_entries_partial",
    "Verif.Props.C61_flatten_partial",
    "Verif.Props.C61_flatten_tuple_partial",
    "Verif.Props.C61_false"
   ],
   "note": "Proved: every value to_dict and to_tuple return is described by an independent inductive specification (OutTop/OutTo/OutObj), and at every position reached through lists, deques, tuples, sets, values of mappings, Optionals, aliases, generics, nested and transparent objects, and objects in unions (nominal members, no internal tagging); behind Any and type variables by the classes of what is found there, without reuse_instances and convert_sets_to_lists (C61_behind_any). Classes that flatten dataclasses are included, at any depth of flattening: the entries of a flattened dataclass stand in its place, under names converted by the enclosing class, and its skip rule decides about all of them at once; a flattened dict contributes its entries. Needs unions with functions of their own; without that it is false (C61_false: two unions whose functions share a name). Missing: objects of classes that flatten in a transparent class, that flatten a dataclass with a flattened dict, that have custom serializers for what they flatten, or that compare with a dataclass default (left open by the specification)."
  },
  {
   "property": "C62",
   "status": "partial",
   "theorems": [
    "Verif.Props.C62_off",
    "Verif.Props.C62_elsewhere",
    "Verif.Props.C62_to_dict_partial",
    "Verif.Props.C62_to_tuple_partial",
    "Verif.Props.C62_read_partial",
    "Verif.Props.C62_round_trip_partial",
    "Verif.Props.C62_read_tuple_partial",
    "Verif.Props.C62_tuple_round_trip_partial",
    "Verif.Props.C62_false_flatten",
    "Verif.Props.C62_false_flatten_tuple",
    "Verif.Props.C62_false_union",
    "Verif.Props.C62_false_deny"
   ],
   "note": "C62_off and C62_elsewhere hold without restriction on the class. What to_dict and to_tuple add is proved for classes without flattened fields whose wire names are distinct, when the attributes, the class variables and the defaults contain no further object of a class with the option; from_dict on the output and the dict round trip additionally need no aliases and no deny_unknown_fields; from_tuple on the longer tuple and the tuple round trip need no aliases. Missing: nested objects of such classes. The full statement is false: a flattened dataclass with class variables makes to_dict raise (C62_false_flatten) and puts its class variables into to_tuple (C62_false_flatten_tuple); a class variable annotated with a union makes to_dict raise (C62_false_union); with deny_unknown_fields the own output is refused (C62_false_deny)."
  },
  {
   "property": "C63",
   "status": "partial",
   "theorems": [
    "Verif.Props.C63_from_dict_partial",
    "Verif.Props.C63_only_partial",
    "Verif.Props.C63_list_partial",
    "Verif.Props.C63_optional_partial",
    "Verif.Props.C63_json_partial",
    "Verif.Props.C63_from_tuple_partial",
    "Verif.Props.C63_msgpack_partial",
    "Verif.Props.C63_false_frozenset",
    "Verif.Props.C63_false_literal_alias",
    "Verif.Props.C63_false_deny_child"
   ],
   "note": "Valid (Spec/Accept) is an inductive description of valid data and the value it stands for, over all annotations except type variables and bare frozenset. __post_init__ may be there, if it does not raise. Proved: from_dict accepts valid data and returns exactly that value, for every depth of calls that suffices (C63_only: no other outcome), for list[C], Optional[C], from_json, from_tuple and both forms of from_msgpack as well. Hypotheses: no global deserializer, no cyclic flattening; in Valid: no class deserializer, no flattened Optional, no flattened dict inside a flattened dataclass, aliases only where C08 holds. A flattened dict holds the remaining entries, a field with a deserializer what that returns. Earlier union members must refuse the data at once (wrong primitive, no tag, no such literal, not iterable), not deep inside a structure. False: bare frozenset in a strict class, a literal behind a PEP 695 alias, a denying dataclass flattened into a non-denying one. Rows: no flattened or keyword-only fields, no aliases, every parameter of the constructor is read (see C70 for what happens otherwise). Missing: the remaining features listed."
  },
  {
   "property": "C64",
   "status": "partial",
   "theorems": [
    "Verif.Props.C64_own_partial",
    "Verif.Props.C64_unflattened_partial",
    "Verif.Props.C64_replaced",
    "Verif.Props.C64_false_serializer",
    "Verif.Props.C64_false_marker",
    "Verif.Props.C64_false_skip_if",
    "Verif.Props.C64_false_default"
   ],
   "note": "False of the code: a field and a field of the same name in a flattened dataclass share one registered function, and the later registration wins (C64_replaced for all functions; witnesses for serializer, default_serializer, skip_if, skip_if_default). Proved for all environments in which same-named fields written by one class have the same functions, and in particular when no dataclass is flattened. Missing: a description of which function wins for every class."
  },
  {
   "property": "C65",
   "status": "partial",
   "theorems": [
    "Verif.Props.C65_unique_partial",
    "Verif.Props.C65_false_object",
    "Verif.Props.C65_false_refused",
    "Verif.Props.C65_false_order"
   ],
   "note": "False of the code: of two classes with one name an arbitrary one is found (object of the wrong class, valid data refused, result depending on set order). Proved for all class families in which the classes used by a class have different names, for every possible lookup. Not covered: enums and the type check inside union functions, which are found by name as well."
  },
  {
   "property": "C66",
   "status": "partial",
   "theorems": [
    "Verif.Props.C66_alone",
    "Verif.Props.C66_accepted",
    "Verif.Props.C66_over_dataclass_partial",
    "Verif.Props.C66_accepted_over_partial",
    "Verif.Props.C66_lost",
    "Verif.Props.C66_metadata_partial",
    "Verif.Props.C66_metadata_leaks",
    "Verif.Props.C66_false_options",
    "Verif.Props.C66_false_refused",
    "Verif.Props.C66_false_metadata"
   ],
   "note": "Proved in full for @serde alone (C66_alone, C66_accepted). False over @dataclass when the body has a class variable or the KW_ONLY marker: every field loses its options (C66_lost, for all bodies), or a legal class is refused; proved there for bodies without these. False for a non-empty metadata dict passed to several fields: they all get the options of all."
  },
  {
   "property": "C67",
   "status": "partial",
   "theorems": [
    "Verif.Props.C67_new_partial",
    "Verif.Props.C67_over_dataclass_partial",
    "Verif.Props.C67_ignored",
    "Verif.Props.C67_false",
    "Verif.Props.C67_several_partial",
    "Verif.Props.C67_several_over_dataclass_partial",
    "Verif.Props.C67_first_only",
    "Verif.Props.C67_false_several"
   ],
   "note": "False of the code for @serde alone on a subclass whose body only redeclares fields of the base: defaults and options of the new lines are ignored (C67_ignored, for all such bodies). Proved for single inheritance and bodies that declare only fields, over @dataclass or with at least one new name. Several bases (without class and init variables): the fields are merged, the type of an inherited field being that of the first base whose own body annotates it; false for @serde on an empty body, where all bases but the first are ignored (C67_first_only, C67_false_several). Missing: class and init variables in the body of the subclass or, with several bases, in the bases."
  },
  {
   "property": "C68",
   "status": "partial",
   "theorems": [
    "Verif.Props.C68_bound_partial",
    "Verif.Props.C68_from_dict_partial",
    "Verif.Props.C68_from_tuple_partial",
    "Verif.Props.C68_body_partial",
    "Verif.Props.C68_over_dataclass_partial",
    "Verif.Props.C68_inherited_partial",
    "Verif.Props.C68_bases_partial",
    "Verif.Props.C68_bases_over_dataclass_partial",
    "Verif.Props.C68_single_partial",
    "Verif.Props.C68_required",
    "Verif.Props.C68_false_shifted",
    "Verif.Props.C68_false_kw_only",
    "Verif.Props.C68_false_diamond"
   ],
   "note": "Proved for class bodies without bases when init variables have defaults and come after the positional fields (and, over @dataclass, without class variables), for classes with one base, and for classes with any number of bases where the hint of an inherited field is its own annotation, without init variables; a subclass that adds nothing has the fields and the constructor of its base. False otherwise: an init variable before a field takes the field's value; after a second dataclass() kw_only fields are passed by position and nothing can be read; with several bases the hint of a field and the annotation of its parameter can differ. Missing: init variables together with base classes; __post_init__ that looks at init variables."
  },
  {
   "property": "C69",
   "status": "partial",
   "theorems": [
    "Verif.Props.C69_adds_up_partial",
    "Verif.Props.C69_false_class_flags",
    "Verif.Props.C69_false_skip_if",
    "Verif.Props.C69_false_if_false"
   ],
   "note": "False of the code: one condition per field is kept, the first in the order skip_if, skip_if_false, skip_if_default, skip_if_none (three witnesses, one of them a class with both skip_if_default and skip_if_none that writes None). Proved for fields whose first condition covers the others, in particular fields with one condition, in classes without flattened fields."
  },
  {
   "property": "C70",
   "status": "partial",
   "theorems": [
    "Verif.Props.C70_from_tuple_partial",
    "Verif.Props.C70_anywhere_partial",
    "Verif.Props.C70_items_partial",
    "Verif.Props.C70_prim_partial",
    "Verif.Props.C70_false_default",
    "Verif.Props.C70_false_skip",
    "Verif.Props.C70_false_kw"
   ],
   "note": "Proved for classes whose constructor parameters are the fields that are read (init=False fields allowed), at any depth, through lists, deques, tuples, mapping values, Optional, aliases, generic and transparent classes; also that every parameter needs an item. Not claimed: flattened fields and fields with aliases, __post_init__, type variables; the position-wise theorem has no global or class deserializers on the way. False: defaults are not used when the items run out (C70_false_default), a field that is not read takes the item of the next one (C70_false_skip), keyword-only fields cannot be read (C70_false_kw)."
  },
  {
   "property": "C71",
   "status": "partial",
   "theorems": [
    "Verif.Props.C71_generated_partial",
    "Verif.Props.C71_read_partial",
    "Verif.Props.C71_read_met_partial",
    "Verif.Props.C71_write_partial",
    "Verif.Props.C71_false_generic",
    "Verif.Props.C71_false_subclass",
    "Verif.Props.C71_false_value",
    "Verif.Props.C71_decorated_partial"
   ],
   "note": "Proved without base classes, for any history: every dataclass reachable from a class that was decorated or used has its function (generated); from_dict/from_tuple of a class, and to_dict/to_tuple of an object whose parts belong to classes it mentions, do what they would do if every class had its functions (read, write); for annotations with generics if their classes were met before (read_met). With base classes: in programs that decorate every dataclass where it is defined, nothing is ever missing (decorated). Missing: base classes in other programs, and generics that were not met. The full statement is false: an undecorated generic dataclass used as Box[int] in a decorated class never gets functions (false_generic); reading the base class, then a holder, then writing the subclass hides the function of the subclass (false_subclass); an object holding an instance of a subclass cannot be written after the subclass was read (false_value)."
  },
  {
   "property": "C72",
   "status": "partial",
   "theorems": [
    "Verif.Props.C72_round_trip_partial",
    "Verif.Props.C72_program_partial",
    "Verif.Props.C72_false_numeric_text"
   ],
   "note": "For the classes of C01 as they go through YAML (arrays become lists); the library is a codec assumed faithful on the value handed to it. Full statement false of the code: in a union with a list of floats before str, numeric text is read as the list of its digits. C72_program_partial states the conditions by the annotations alone."
  },
  {
   "property": "C73",
   "status": "partial",
   "theorems": [
    "Verif.Props.C73_round_trip_partial",
    "Verif.Props.C73_program_partial",
    "Verif.Props.C73_no_null_partial",
    "Verif.Props.C73_to_toml_partial",
    "Verif.Props.C73_false_default",
    "Verif.Props.C73_false_null"
   ],
   "note": "Round trip for the classes of C01. No None in the output if None is met only in fields that are left out for it (no custom global or class serializers, classes that do not flatten, distinct union names). Full statement false of the code: None in a list is handed to the library; None in an Optional field with another default comes back as the default. C73_program_partial states the conditions by the annotations alone."
  },
  {
   "property": "C74",
   "status": "partial",
   "theorems": [
    "Verif.Props.C74_round_trip_partial",
    "Verif.Props.C74_program_partial",
    "Verif.Props.C74_false_int_enum"
   ],
   "note": "For the classes of C01 with reuse_instances off and convert_sets on. Full statement false of the code as for C01. C74_program_partial states the conditions by the annotations alone."
  },
  {
   "property": "C75",
   "status": "partial",
   "theorems": [
    "Verif.Props.C75_json_partial",
    "Verif.Props.C75_yaml_partial",
    "Verif.Props.C75_toml_partial",
    "Verif.Props.C75_pickle_partial",
    "Verif.Props.C75_msgpack_partial",
    "Verif.Props.C75_skip_none_partial",
    "Verif.Props.C75_false_pickle"
   ],
   "note": "Proved: what JSON, YAML and TOML hand over, under every option, where unions with one function name are the same (the condition of C61); no None reaches their libraries with skip_none, under the conditions of C73. Pickle and msgpack: the form without skip_none. False for pickle, which ignores skip_none (C75_false_pickle); to_msgpack documents the option but has no such parameter. That the writers succeed is C79."
  },
  {
   "property": "C76",
   "status": "proved",
   "theorems": [
    "Verif.Props.C76_union",
    "Verif.Props.C76_literal"
   ],
   "note": "Both functions of every union and the function of every literal, with their prefixes."
  },
  {
   "property": "C77",
   "status": "partial",
   "theorems": [
    "Verif.Props.C77_nested_partial",
    "Verif.Props.C77_only_partial",
    "Verif.Props.C77_json_partial",
    "Verif.Props.C77_from_tuple_partial",
    "Verif.Props.C77_false_list",
    "Verif.Props.C77_false_union",
    "Verif.Props.C77_false_tvar"
   ],
   "note": "Throws (Spec/Throw) describes independently of the reader where the object is and what comes before it. Hypotheses: no global deserializer, no cyclic flattening; as in C63 no class deserializers on the way, and no field deserializer on the way to the object itself. What comes after the object is arbitrary. False in three places (negations proved): from_dict(list[C], ...) always wraps the exception in SerdeError (C77_false_list, for all classes and data), a union swallows it and takes another member (C77_false_union), and behind a type variable it is wrapped (C77_false_tvar). C77_from_tuple: rows without flattened or keyword-only fields, without aliases. Missing: values with a tag, type check failures of nested objects."
  },
  {
   "property": "C78",
   "status": "partial",
   "theorems": [
    "Verif.Props.C78_parameters_partial",
    "Verif.Props.C78_argument_partial",
    "Verif.Props.C78_reader",
    "Verif.Props.C78_false_two_bases",
    "Verif.Props.C78_false_count",
    "Verif.Props.C78_false_unnamed",
    "Verif.Props.C78_false_variance"
   ],
   "note": "Proved for classes with one base that has arguments, all different invariant type variables, beside any number of ordinary bases; for these the reader's model with one list of variables per class says the same (C78_reader). False of the code otherwise: with two generic bases a variable of the second is read with the argument of the first; a base with a concrete argument or a repeated variable makes every reading fail; an argument without __name__ fails at decoration; a covariant or contravariant variable is read as Any."
  },
  {
   "property": "C79",
   "status": "partial",
   "theorems": [
    "Verif.Props.C79_to_dict_partial",
    "Verif.Props.C79_to_tuple_partial",
    "Verif.Props.C79_only_partial",
    "Verif.Props.C79_one_form_partial",
    "Verif.Props.C79_formats_partial",
    "Verif.Props.C79_msgpack_partial",
    "Verif.Props.C79_false_set",
    "Verif.Props.C79_false_key",
    "Verif.Props.C79_false_enum"
   ],
   "note": "Proved for the values of FormOf (Spec/Form.lean), which says which values can be written and what their form is, independently of the writer. Missing: an explicit target type other than Any, unions with members that cannot be told by class (containers, aliases, NewTypes, literals), flattened dicts inside flattened dataclasses, comparison with a dataclass default. The full statement is false: sets of dataclasses without convert_sets_to_lists, dataclasses as keys and enum members with unhashable values raise TypeError."
  },
  {
   "property": "C80",
   "status": "partial",
   "theorems": [
    "Verif.Props.C80_json_partial",
    "Verif.Props.C80_yaml_partial",
    "Verif.Props.C80_toml_pickle_partial",
    "Verif.Props.C80_msgpack_partial",
    "Verif.Props.C80_false_sets",
    "Verif.Props.C80_false_none"
   ],
   "note": "Proved for every object of the round-trip fragment (EnvOk, HasTy) in the format as the union's function writes it, every other option of the call, and a library that is faithful on the value handed over. Missing: array-based msgpack, untagged unions where an earlier member has no required key of its own (C26), member classes that are transparent or taken by a global serializer, unions with members that are not dataclasses. False as stated: the union's function drops convert_sets and skip_none (C80_false_sets, C80_false_none)."
  },
  {
   "property": "C81",
   "status": "partial",
   "theorems": [
    "Verif.Props.C81_in_force_writing",
    "Verif.Props.C81_in_force_reading",
    "Verif.Props.C81_writing_partial",
    "Verif.Props.C81_reading_partial",
    "Verif.Props.C81_serde",
    "Verif.Props.C81_on_the_fly_writing",
    "Verif.Props.C81_on_the_fly_reading",
    "Verif.Props.C81_false_skip",
    "Verif.Props.C81_false_order",
    "Verif.Props.C81_false_check"
   ],
   "note": "Proved what exactly is in force after any sequence of decorators, the property for decorators that agree on the four defaults kept in the scope (and on strict checking, for reading), that @serde equals the two decorators in either order with exactly its arguments in force, and what the functions generated on the fly do for a class with decorators for one direction only. False in general: the defaults are those of the decorator applied first, and beartype stays once any decorator put it on the class. Coerce together with beartype is simplified."
  },
  {
   "property": "C82",
   "status": "partial",
   "theorems": [
    "Verif.Props.C82_written",
    "Verif.Props.C82_shape",
    "Verif.Props.C82_declared",
    "Verif.Props.C82_round_trip_partial",
    "Verif.Props.C82_format_partial",
    "Verif.Props.C82_class_partial",
    "Verif.Props.C82_direct_partial",
    "Verif.Props.C82_false_empty",
    "Verif.Props.C82_false_bare",
    "Verif.Props.C82_false_jaxtyping",
    "Verif.Props.C82_false_direct",
    "Verif.Props.C82_read"
   ],
   "note": "False of the code: the shape is cut after its first zero (C82_shape says so for all arrays), np.ndarray without element type and jaxtyping types with several element types change the element type, and jaxtyping types are not known as targets. Proved for arrays with the element type they are read with and no zero dimension except the last, in lists, Optional and class fields. Missing: other containers, unions, options of fields and classes, type checks, element types other than numbers. Data that is no block of equal parts is rejected, and any block is read element by element (C82_read)."
  },
  {
   "property": "C83",
   "status": "partial",
   "theorems": [
    "Verif.Props.C83_scalar",
    "Verif.Props.C83_range",
    "Verif.Props.C83_datetime_partial",
    "Verif.Props.C83_fine",
    "Verif.Props.C83_unit",
    "Verif.Props.C83_false_unit"
   ],
   "note": "False of datetimes: units finer than microseconds and NaT cannot be written (C83_fine, for all of them), and years, months, weeks come back as days. Scalars are proved; datetimes of at least microseconds in the years 1-9999 keep their point in time, assuming that NumPy reads what isoformat writes."
  },
  {
   "property": "C84",
   "status": "partial",
   "theorems": [
    "Verif.Props.C84_functions_partial",
    "Verif.Props.C84_either_partial",
    "Verif.Props.C84_decorated_partial",
    "Verif.Props.C84_stays",
    "Verif.Props.C84_separate",
    "Verif.Props.C84_false_read",
    "Verif.Props.C84_false_deserialize",
    "Verif.Props.C84_false_subclass",
    "Verif.Props.C84_defined_partial"
   ],
   "note": "Which classes have functions for a side after any history, exactly; both functions answer whether there are any for either side, so they are right when classes are only decorated with @serde, and wrong for a class only read, only decorated with @deserialize, or an undecorated subclass. A yes stays. With base classes: for programs that decorate each class after those it mentions (C84_defined_partial). Missing: base classes in other programs (other than in C84_stays)."
  },
  {
   "property": "C85",
   "status": "partial",
   "theorems": [
    "Verif.Props.C85_accepts",
    "Verif.Props.C85_first_partial",
    "Verif.Props.C85_small_partial",
    "Verif.Props.C85_false_second",
    "Verif.Props.C85_false_literal",
    "Verif.Props.C85_false_frozenset"
   ],
   "note": "No object of the type is refused (C85_accepts, every annotation but type variables, aliases and foreign classes). The converse is false in general: only the first elements of containers are looked at, literals always match, set and frozenset are not told apart. It is proved as far as the first elements go, and in full for objects whose containers have at most one element, for annotations without literals, set/frozenset/MutableSet and defaultdict."
  },
  {
   "property": "C86",
   "status": "partial",
   "theorems": [
    "Verif.Props.C86_positions_partial",
    "Verif.Props.C86_surplus_partial",
    "Verif.Props.C86_own_position_partial",
    "Verif.Props.C86_short_partial",
    "Verif.Props.C86_alias_refused",
    "Verif.Props.C86_false_alias",
    "Verif.Props.C86_false_none"
   ],
   "note": "For classes that are not transparent, have no flattened fields and no aliases. False of the code for a field annotated None, which may be missing, and for classes with an alias on a primitive, enum or NewType field, which cannot be read from tuples at all (C86_alias_refused). Missing: flattened dataclasses, which read a slice."
  },
  {
   "property": "C87",
   "status": "partial",
   "theorems": [
    "Verif.Props.C87_read_partial",
    "Verif.Props.C87_copy_partial",
    "Verif.Props.C87_copy_tuple_partial",
    "Verif.Props.C87_copy_write_partial",
    "Verif.Props.C87_copy_ends_partial",
    "Verif.Props.C87_write_partial",
    "Verif.Props.C87_top_partial",
    "Verif.Props.C87_member_refused",
    "Verif.Props.C87_false_union",
    "Verif.Props.C87_false_key",
    "Verif.Props.C87_false_twice"
   ],
   "note": "Reading and writing: two fields of a class whose annotations differ only in aliases (Unfolds: at the top, as elements, values, non-numeric keys, Optional arguments, at any depth) get the same value from the same data and write the same data for the same value. An alias as the target is its value, one level. False in unions (a member that mentions an alias never matches), for numeric dict keys and for aliases of aliases as targets, with witnesses. Missing: classes with class (de)serializers, flattened fields, default dicts; literals behind aliases are C46/C63. Copies: a class and its copy with aliases replaced (no flattened fields, no deserializers) give the same object or the same exception on all data, from dicts and from rows, and write objects alike."
  },
  {
   "property": "C88",
   "status": "partial",
   "theorems": [
    "Verif.Props.C88_shared_partial",
    "Verif.Props.C88_written_partial",
    "Verif.Props.C88_separate_partial",
    "Verif.Props.C88_unwritten_partial",
    "Verif.Props.C88_handed_over",
    "Verif.Props.C88_false_shared",
    "Verif.Props.C88_false_written"
   ],
   "note": "False as stated: bare containers are shared, and an internal tag can be written into the object's own dict (both witnessed). Proved: every container shared with the result, and every one written to, is reached through a place with a bare annotation, flattened dataclasses and dicts included; where no such place holds a container the full property holds; without transparent classes or without internal tagging nothing is written to. Missing: fields flattened twice, functions given by the user, keys of mappings other than immutable ones."
  },
  {
   "property": "C89",
   "status": "partial",
   "theorems": [
    "Verif.Props.C89_shared_partial",
    "Verif.Props.C89_separate_partial",
    "Verif.Props.C89_false_shared"
   ],
   "note": "False as stated: the data of a bare dict or of Any becomes part of the object (witnessed). Proved for decorated classes: every container shared with the data is reached through a place with such an annotation; where no such place holds a container, or item of a bare container, the full property holds. Missing: flattened fields, type variables, functions given by the user, targets other than a decorated class."
  }
 ]
}
