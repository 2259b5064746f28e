{"id": "C01", "title": "Dict round trip", "statement": "For a class whose fields use the supported types (primitives, None, Optional, lists, sets, frozensets, deques, Counters, tuples, dicts, enums, str-convertible standard types, dates, nested and recursive dataclasses, unions of those), `from_dict(C, to_dict(obj))` succeeds and returns an object equal to `obj`.", "quantifier": "every class definition over the supported types, every well-typed instance of it, any nesting depth", "why_tests_cant": "Tests use a fixed list of about 60 sample values; the set of types and of values is infinite and the failure modes depend on combinations (an Optional inside a dict inside a nested class).", "anchors": ["serde/se.py:to_obj", "serde/se.py:render_to_dict", "serde/de.py:from_obj", "serde/de.py:render_from_dict", "serde/de.py:Renderer", "serde/se.py:Renderer"]}
{"id": "C02", "title": "Tuple round trip", "statement": "For such a class, `from_tuple(C, to_tuple(obj))` succeeds and returns an object equal to `obj`.", "quantifier": "every class definition over the supported types, every well-typed instance", "why_tests_cant": "Positional encoding depends on every field's index; only all field lists together with all values settle it.", "anchors": ["serde/se.py:render_to_tuple", "serde/de.py:render_from_iter", "serde/de.py:DeField.data"]}
{"id": "C03", "title": "JSON round trip", "statement": "`from_json(C, to_json(obj))` returns an object equal to `obj` whenever the JSON layer itself is faithful, even though JSON turns tuples into lists and every mapping key into a string.", "quantifier": "every class over the supported types with JSON-representable keys, every well-typed instance", "why_tests_cant": "The key coercion interacts with every key type and every nesting; tests cover a handful of key types.", "anchors": ["serde/json.py:to_json", "serde/json.py:from_json", "serde/de.py:Renderer.dict_key"]}
{"id": "C04", "title": "MessagePack round trip", "statement": "`from_msgpack(C, to_msgpack(obj))` returns an object equal to `obj`, although msgpack decoding turns every array into a tuple.", "quantifier": "every class over the supported types, every well-typed instance", "why_tests_cant": "Same infinite product of types and values as C01 with a different intermediate form.", "anchors": ["serde/msgpack.py:to_msgpack", "serde/msgpack.py:from_msgpack"]}
{"id": "C05", "title": "Shape of to_dict output", "statement": "For a class without flatten, `to_dict(obj)` is a dict whose keys are exactly the wire names of the serializable fields, in declaration order, except fields omitted by a skip rule; no other key ever appears.", "quantifier": "every class definition without flattened fields, every instance, every combination of skip options", "why_tests_cant": "The key set depends on the combination of all field options and the runtime values.", "anchors": ["serde/se.py:render_to_dict", "serde/se.py:LRenderer", "serde/se.py:sefields"]}
{"id": "C06", "title": "Shape of to_tuple output", "statement": "For a class without flatten, `to_tuple(obj)` has exactly one entry per serializable field, in declaration order, entry i encoding the i-th such field; skip_if rules do not shift positions.", "quantifier": "every class definition without flattened fields, every instance", "why_tests_cant": "Positions depend on every field list and every option.", "anchors": ["serde/se.py:render_to_tuple", "serde/se.py:sefields"]}
{"id": "C07", "title": "Wire name of a field", "statement": "The wire name of a field is `rename` if given, else the class's `rename_all` applied to the field name, else the field name; serialization writes it and deserialization reads it.", "quantifier": "every field name, every case function, every rename, any class", "why_tests_cant": "Infinitely many names and case functions.", "anchors": ["serde/core.py:conv", "serde/core.py:Field.conv_name"]}
{"id": "C08", "title": "Alias lookup order", "statement": "When a field has aliases, deserialization takes the value of the first of [field name, alias1, alias2, ...] present in the input; if none is present and there is no default the field is reported missing.", "quantifier": "every alias list, every input dict", "why_tests_cant": "Any subset of the names may be present at once.", "anchors": ["serde/de.py:_get_by_aliases", "serde/de.py:_exists_by_aliases"]}
{"id": "C09", "title": "Aliases do not break round trip", "statement": "Giving a field aliases never changes what is serialized, and the serialized form can still be deserialized to an equal object, also when the field has `rename` or the class has `rename_all`.", "quantifier": "every class with aliases on its fields, every instance", "why_tests_cant": "Depends on the combination of alias, rename, rename_all, default and field type.", "anchors": ["serde/de.py:Renderer.primitive", "serde/de.py:Renderer.default", "serde/de.py:DeField.data"]}
{"id": "C10", "title": "Skipped fields never leave", "statement": "A field marked `skip` or `skip_serializing` never contributes to `to_dict`/`to_tuple` output: changing its value does not change the output.", "quantifier": "every class, every pair of instances that differ only in skipped fields", "why_tests_cant": "Non-interference is a statement about pairs of runs; no finite set of examples shows it.", "anchors": ["serde/se.py:sefields", "serde/core.py:Field.from_dataclass"]}
{"id": "C11", "title": "Skipped fields never enter", "statement": "A field marked `skip` or `skip_deserializing` always takes its default on deserialization: the input's value under that field's names has no influence on the result.", "quantifier": "every class, every pair of inputs that differ only under the skipped field's keys", "why_tests_cant": "Non-interference over pairs of inputs.", "anchors": ["serde/de.py:defields", "serde/de.py:render_from_dict"]}
{"id": "C12", "title": "skip_if semantics", "statement": "A field with one of skip_if / skip_if_false / skip_if_default / skip_if_none is omitted from `to_dict` exactly when its predicate holds of the value, and otherwise emitted unchanged; other fields are unaffected.", "quantifier": "every predicate, every value, every class", "why_tests_cant": "The predicate is arbitrary user code.", "anchors": ["serde/se.py:render_to_dict", "serde/core.py:skip_if_default", "serde/core.py:Field.from_dataclass"]}
{"id": "C13", "title": "Class-level skip flags", "statement": "Class-level skip_if_default / skip_if_none apply to every field that does not set the flag itself; a field-level flag (true or false) wins.", "quantifier": "every combination of class-level and field-level settings", "why_tests_cant": "Must hold for every field of every class; depends on three-valued settings.", "anchors": ["serde/core.py:Field.from_dataclass", "serde/core.py:fields"]}
{"id": "C14", "title": "skip_none removes None", "statement": "`to_dict(obj, skip_none=True)` contains no key whose field value was None.", "quantifier": "every class, every instance", "why_tests_cant": "Ranges over all combinations of field options and values.", "anchors": ["serde/se.py:render_to_dict"]}
{"id": "C15", "title": "Default used iff key absent", "statement": "For a field with a default or default factory, `from_dict` uses the default exactly when none of the field's keys is present; a present key (even with null) is decoded.", "quantifier": "every class, every input", "why_tests_cant": "All subsets of keys and all input values.", "anchors": ["serde/de.py:Renderer.default", "serde/core.py:has_default"]}
{"id": "C16", "title": "Missing required field is reported", "statement": "If the key of a field with no default whose type does not admit None is absent, `from_dict` raises SerdeError, never another exception and never an object.", "quantifier": "every class, every input lacking the key", "why_tests_cant": "Every input and every field type.", "anchors": ["serde/de.py:render_from_dict"]}
{"id": "C17", "title": "Optional fields may be absent", "statement": "If the key of a field of type Optional[T] (or a union containing None) without default is absent, the field is None and the rest of the object is decoded normally.", "quantifier": "every class, every input", "why_tests_cant": "Every T and every input.", "anchors": ["serde/de.py:Renderer.opt", "serde/de.py:DeField.data"]}
{"id": "C18", "title": "Unknown keys are ignored by default", "statement": "For a class without deny_unknown_fields and without a flattened dict, adding entries under keys that are no field's key does not change the result of `from_dict`.", "quantifier": "every class, every input, every set of added entries", "why_tests_cant": "Relational statement over all inputs and all additions.", "anchors": ["serde/de.py:render_from_dict"]}
{"id": "C19", "title": "deny_unknown_fields", "statement": "With deny_unknown_fields, `from_dict` raises SerdeError if the input has a key that is no field's key, and otherwise behaves as without the option.", "quantifier": "every class, every input", "why_tests_cant": "All inputs.", "anchors": ["serde/de.py:render_from_dict", "serde/de.py:get_known_fields"]}
{"id": "C20", "title": "Flattened dict captures the rest", "statement": "A flattened dict field receives exactly the entries whose keys belong to no declared field, in input order, and re-serializing emits each of them once at top level.", "quantifier": "every class with a flattened dict, every input", "why_tests_cant": "All inputs.", "anchors": ["serde/de.py:render_from_dict", "serde/se.py:render_to_dict", "serde/compat.py:is_flatten_dict"]}
{"id": "C21", "title": "Declared fields win over flattened entries", "statement": "When a flattened dict holds a key equal to a declared field's wire name, `to_dict` emits the declared field's value, wherever the dict is declared.", "quantifier": "every class with a flattened dict, every instance including ones with clashing keys, every position of the dict field", "why_tests_cant": "All positions and all clashes.", "anchors": ["serde/se.py:render_to_dict"]}
{"id": "C22", "title": "Flattened dataclass round trip", "statement": "A class with flattened dataclass fields whose keys do not clash satisfies `from_dict(C, to_dict(obj)) == obj`, and its dict has the children's keys inline.", "quantifier": "every parent/child class pair with disjoint keys, every instance", "why_tests_cant": "All classes and values.", "anchors": ["serde/se.py:Renderer.dataclass", "serde/de.py:_project_flattened_data", "serde/de.py:render_from_dict"]}
{"id": "C23", "title": "External tagging", "statement": "Under ExternalTagging a dataclass variant V of a union is serialized as the one-entry dict {V's name: V's dict} and deserialized back to the same variant, as long as the variants' names differ.", "quantifier": "every union of dataclasses with distinct names, every variant and value", "why_tests_cant": "All unions, all variants, all payloads, including payloads that would also fit another variant.", "anchors": ["serde/core.py:Tagging", "serde/se.py:render_union_func", "serde/de.py:render_union_func"]}
{"id": "C24", "title": "Internal tagging", "statement": "Under InternalTagging(tag) a dataclass variant V is serialized as V's dict plus tag: V's name, and deserialized back to the same variant.", "quantifier": "every union of dataclasses with distinct names, every variant and value, every tag", "why_tests_cant": "All tags, including ones equal to a field's key.", "anchors": ["serde/core.py:InternalTagging", "serde/se.py:render_union_func", "serde/de.py:render_union_func"]}
{"id": "C25", "title": "Adjacent tagging", "statement": "Under AdjacentTagging(tag, content) a dataclass variant V is serialized as {tag: V's name, content: V's dict} and deserialized back to the same variant.", "quantifier": "every union of dataclasses with distinct names, every variant and value, every tag/content pair with tag != content", "why_tests_cant": "All tags and payloads.", "anchors": ["serde/core.py:AdjacentTagging", "serde/se.py:render_union_func", "serde/de.py:render_union_func"]}
{"id": "C26", "title": "Untagged: first fitting variant wins", "statement": "Under Untagged the result of deserializing a union is that of the first variant, in declaration order, that accepts the data; later variants never matter.", "quantifier": "every union, every input", "why_tests_cant": "All inputs, all variant lists.", "anchors": ["serde/core.py:Untagged", "serde/de.py:render_union_func"]}
{"id": "C27", "title": "Unions fail cleanly", "statement": "If no variant accepts the data, deserializing a union raises SerdeError; if the value is no instance of any variant, serializing raises SerdeError.", "quantifier": "every union, every input, every tagging", "why_tests_cant": "All inputs.", "anchors": ["serde/de.py:render_union_func", "serde/se.py:render_union_func"]}
{"id": "C28", "title": "Transparent classes", "statement": "A transparent class serializes to exactly what its single field serializes to, and deserializes from exactly what the field deserializes from.", "quantifier": "every transparent class, every value, every input", "why_tests_cant": "All field types and values.", "anchors": ["serde/se.py:render_to_dict", "serde/de.py:render_from_dict", "serde/core.py:get_transparent_field"]}
{"id": "C29", "title": "Transparent validation", "statement": "@serde(transparent=True) is accepted exactly for classes with exactly one (de)serializable init field; everything else is rejected when the class is decorated, so that a transparent class never fails later for lack of a unique field.", "quantifier": "every field list", "why_tests_cant": "All field lists with all combinations of skip options.", "anchors": ["serde/core.py:get_transparent_field", "serde/se.py:sefields"]}
{"id": "C30", "title": "Literal fields", "statement": "A Literal[...] field deserializes to a value v exactly when the input is one of the listed literals and v is that literal; anything else raises SerdeError.", "quantifier": "every literal list, every input", "why_tests_cant": "All inputs, including ones equal but of another type.", "anchors": ["serde/de.py:render_literal_func", "serde/de.py:Renderer.literal"]}
{"id": "C31", "title": "Enum round trip", "statement": "An enum member is serialized as its value and deserialized back to the same member; as a mapping key it survives conversion of its value to a string, as long as no two members have equal values.", "quantifier": "every enum with primitive values, every member", "why_tests_cant": "All enums.", "anchors": ["serde/se.py:enum_value", "serde/core.py:deserialize_enum"]}
{"id": "C32", "title": "Strict type checking is sound", "statement": "With type_check=strict, whenever deserialization returns an object, constructing it has passed the run-time type check: each field's value is an instance of its declared type (containers checked on a sampled element), and a primitive field holds exactly that primitive type; otherwise SerdeError is raised.", "quantifier": "every class, every input, every choice of sampled elements", "why_tests_cant": "All inputs and all random choices of the checker.", "anchors": ["serde/core.py:TypeCheck", "serde/de.py:deserialize", "serde/de.py:Renderer.primitive"]}
{"id": "C33", "title": "Coercion mode", "statement": "With type_check=coerce, an input of a convertible type is converted with the field type's constructor, an already correct value is unchanged, and None is rejected for a non-Optional primitive field.", "quantifier": "every class, every input", "why_tests_cant": "All inputs.", "anchors": ["serde/core.py:coerce_object", "serde/de.py:Renderer.primitive"]}
{"id": "C34", "title": "from_dict raises only SerdeError or the user's own exception", "statement": "`from_dict`/`from_tuple` on a decorated class either returns an object, raises SerdeError, or re-raises the exception raised by the class's own constructor or __post_init__; KeyError, TypeError and so on never escape.", "quantifier": "every class, every input, however malformed", "why_tests_cant": "All malformed inputs.", "anchors": ["serde/de.py:from_obj", "serde/compat.py:UserError"]}
{"id": "C35", "title": "to_dict raises only SerdeError", "statement": "`to_dict`/`to_tuple` either return a value or raise SerdeError.", "quantifier": "every object", "why_tests_cant": "All objects, including ones whose attributes have the wrong type.", "anchors": ["serde/se.py:to_obj"]}
{"id": "C36", "title": "reuse_instances", "statement": "With reuse_instances=True dates and str-convertible standard values are left as they are; with False they become strings; nothing else in the output depends on the flag.", "quantifier": "every class, every instance", "why_tests_cant": "All nestings.", "anchors": ["serde/se.py:Renderer", "serde/se.py:to_obj"]}
{"id": "C37", "title": "convert_sets", "statement": "With convert_sets=True the serialized form contains no set or frozenset anywhere (inside declared types).", "quantifier": "every class, every instance", "why_tests_cant": "All nestings.", "anchors": ["serde/se.py:Renderer.set", "serde/se.py:to_obj"]}
{"id": "C38", "title": "JSON-safe output", "statement": "What to_json hands to the JSON encoder consists only of None, bools, numbers, strings, lists, tuples and dicts, for every well-typed instance.", "quantifier": "every class over the supported types, every well-typed instance", "why_tests_cant": "All nestings.", "anchors": ["serde/json.py:to_json", "serde/se.py:to_obj"]}
{"id": "C39", "title": "Serializer priority", "statement": "A field's own serializer is used in preference to a class-level one, which is used in preference to a globally registered one; among globals the most recently registered one wins, at every position of the type.", "quantifier": "every registration history, every type position", "why_tests_cant": "All histories.", "anchors": ["serde/core.py:add_serializer", "serde/se.py:find_global_class_serializer", "serde/de.py:find_global_class_deserializer", "serde/se.py:Renderer.render"]}
{"id": "C40", "title": "JSON numbers into float fields", "statement": "from_json accepts an integer literal for a float field and yields the equal float, rejects booleans, and leaves every other type alone; a float written by to_json is read back equal.", "quantifier": "every JSON number, every class", "why_tests_cant": "All numbers.", "anchors": ["serde/json.py:deserialize_json_numbers", "serde/yaml.py:deserialize_yaml_numbers"]}
{"id": "C41", "title": "Entry order does not matter", "statement": "Reordering the entries of an input dict does not change the result of `from_dict` for a class without flattened dicts.", "quantifier": "every class, every input, every permutation of its entries", "why_tests_cant": "Relational over all permutations.", "anchors": ["serde/de.py:render_from_dict"]}
{"id": "C42", "title": "Result does not depend on history", "statement": "(De)serializing a value at a given type gives the same result no matter which other types were (de)serialized before in the process.", "quantifier": "every finite history of calls", "why_tests_cant": "All call histories; the code keeps a process-wide cache of generated classes.", "anchors": ["serde/core.py:Cache", "serde/core.py:UnionCacheKey", "serde/compat.py:cache"]}
{"id": "C43", "title": "Type queries are history-independent", "statement": "Questions about types (name, arguments, is it Optional) give the same answer no matter which types were asked about before.", "quantifier": "every finite history of queries", "why_tests_cant": "All query histories; the answers are memoized on type equality, which ignores the order of union members.", "anchors": ["serde/compat.py:cache", "serde/compat.py:typename", "serde/compat.py:get_args", "serde/compat.py:is_opt"]}
{"id": "C44", "title": "Different unions and literals do not interfere", "statement": "Two fields of different union (or Literal) types in one class each use their own variants.", "quantifier": "every pair of distinct union or literal types in a class", "why_tests_cant": "All pairs of types; interference arises from clashes of generated names.", "anchors": ["serde/core.py:union_func_name", "serde/core.py:literal_func_name", "serde/compat.py:typename"]}
{"id": "C45", "title": "Generic classes", "statement": "A generic class Foo[T1..Tn] applied to arguments (de)serializes like the class with the type variables replaced by the arguments, at every nesting depth.", "quantifier": "every generic class, every argument list", "why_tests_cant": "All arguments and depths.", "anchors": ["serde/compat.py:get_generic_arg", "serde/compat.py:find_generic_arg", "serde/de.py:Renderer.dataclass"]}
{"id": "C46", "title": "Collection of types terminates and is complete", "statement": "For any family of (mutually) recursive dataclasses, collecting the types, unions and literals used by a class terminates and finds each union and literal reachable through fields and containers.", "quantifier": "every finite family of class definitions, including cyclic ones", "why_tests_cant": "All cyclic class graphs.", "anchors": ["serde/compat.py:iter_types", "serde/compat.py:iter_unions", "serde/compat.py:iter_literals"]}
{"id": "C47", "title": "MessagePack ext_dict", "statement": "With ext_dict, to_msgpack writes the type code of the object's own class and from_msgpack picks the class registered under that code; an unregistered class or code raises SerdeError.", "quantifier": "every ext_dict, every object", "why_tests_cant": "All registrations.", "anchors": ["serde/msgpack.py:to_msgpack", "serde/msgpack.py:from_msgpack"]}
{"id": "C48", "title": "The constructor's exception reaches the caller", "statement": "If the class's own __post_init__ raises e, from_dict raises e itself.", "quantifier": "every class, every input that decodes up to the constructor call, every exception", "why_tests_cant": "All inputs and exceptions.", "anchors": ["serde/de.py:from_obj", "serde/compat.py:UserError"]}
{"id": "C49", "title": "Schema evolution", "statement": "Adding a field that has a default to a class keeps every previously readable input readable with the same values for the old fields; removing a field keeps every input readable (without deny_unknown_fields).", "quantifier": "every class, every added or removed field, every input", "why_tests_cant": "Relational over two classes and all inputs.", "anchors": ["serde/de.py:render_from_dict", "serde/de.py:Renderer.default"]}
{"id": "C50", "title": "Conversion names are stable under deny_unknown_fields", "statement": "With deny_unknown_fields, whatever to_dict emits for an object of the class is accepted again by from_dict.", "quantifier": "every class with deny_unknown_fields, every instance", "why_tests_cant": "All combinations of rename, alias, skip and flatten.", "anchors": ["serde/de.py:get_known_fields", "serde/de.py:_collect_known_fields", "serde/se.py:render_to_dict"]}
{"id": "C51", "title": "reuse_instances when reading", "statement": "With reuse_instances=True from_dict and from_tuple keep a value that already is an instance of the date or str-convertible class asked for; with False, and for every other input, they call the parser (constructor) of the class on it. On input without such instances the option makes no difference.", "quantifier": "every annotation, every input, both settings of the option", "why_tests_cant": "Relational over two calls; all nestings of classes, containers, unions and type variables through which the option is passed on.", "anchors": ["serde/de.py:Renderer.render", "serde/de.py:Renderer.c_tor_with_check", "serde/de.py:from_obj", "serde/de.py:render_from_dict"]}
{"id": "C52", "title": "Serialization terminates", "statement": "to_dict and to_tuple return or raise on every value, however the classes refer to each other: the recursion is bounded by the value and the annotations, also for recursive classes, unions, generics, flattened dataclasses and skip_if_default. This is for classes whose unions have functions of different names (C44), decorated after the classes they flatten and after the classes whose instances occur in their defaults.", "quantifier": "every set of such classes, every value, every requested annotation and option", "why_tests_cant": "Non-termination shows only on particular combinations of classes and values; a test that hangs proves nothing about the others.", "anchors": ["serde/se.py:Renderer.render", "serde/se.py:Renderer.dataclass", "serde/se.py:to_obj", "serde/se.py:render_to_dict", "serde/se.py:render_union_func"]}
{"id": "C53", "title": "Deserialization terminates", "statement": "from_dict and from_tuple return or raise on every input, also for recursive classes, unions, generics, flattened dataclasses and transparent classes, provided no annotation leads back to itself without taking the data apart: the recursion is bounded by the nesting of the input, the requested annotation and the classes. This is for classes whose unions have functions of different names (C44) and whose transparent classes do not flatten their field.", "quantifier": "every set of such classes, every requested annotation, every input and option", "why_tests_cant": "Endless recursion shows only on particular combinations of classes and inputs (a str where a list of recursive classes is expected, a missing key behind a flattened class).", "anchors": ["serde/de.py:Renderer.render", "serde/de.py:from_obj", "serde/de.py:render_from_dict", "serde/de.py:render_from_iter", "serde/de.py:render_union_func", "serde/de.py:_project_flattened_data"]}
{"id": "C54", "title": "What from_dict returns", "statement": "If from_dict(T, x) returns, then at every position of the result stands what the annotation at that position makes of the input at that position: floats as the format's number function gives them, other primitives unchanged (converted in a coercing class), dates and str-convertible values parsed (kept with reuse_instances), enum members and literals by value, containers element by element, Optionals and unions through one member whose payload the tagging selects, nested dataclasses field by field under their key names, flattened dataclasses from the same mapping, transparent dataclasses from the whole input. reuse_instances and the number function given to from_dict reach every nested class; coercion and tagging are those of the innermost class.", "quantifier": "all programs (classes, annotations, options) whose union and literal functions have distinct names, all inputs, all positions at any depth", "why_tests_cant": "Tests check values at depth one or two for a handful of annotation shapes; handing an option on to one more nesting level or through one more container cannot be sampled exhaustively.", "anchors": ["serde/de.py:from_obj", "serde/de.py:DeField", "serde/de.py:Renderer", "serde/de.py:render_from_dict", "serde/de.py:render_union_func", "serde/json.py:_deserialize_number"]}
{"id": "C55", "title": "What is read has the annotated shape", "statement": "Whatever the input, when deserialization returns a value, that value has at every position the class and structure its annotation asks for: containers of the right class, fixed tuples of the right length, elements, keys and values likewise; enum members, dates, UUIDs and the like; a value of the literal; for a union a value shaped like one of its members that passes the run-time type check; objects of the class whose attributes are so shaped or are the declared defaults, and in strict classes conform to the check. Primitives are instances of the annotated class where the surrounding class coerces, floats also where the format has a number function.", "quantifier": "all class tables, annotations, inputs, aliases, flattening, missing keys, tuple and dict forms, nesting depths", "why_tests_cant": "An ill-shaped value shows up only for particular combinations of annotation nesting and input; tests check the result for inputs they thought of, not that no input can produce one.", "anchors": ["serde/de.py:495-634", "serde/de.py:907-1254", "serde/de.py:1315-1490", "serde/core.py:1171-1182"]}
{"id": "C56", "title": "Class-level serializer function", "statement": "When a class is declared with serializer=f, then at every position of a field's annotation f is asked first, with the type and the value at that position; its answer is written, and only where it raises SerdeSkip is the value written the default way. A serializer on the field, a class_serializer or a global serializer for the type takes precedence. Objects of other classes are written with those classes' functions. Without such functions nothing changes.", "quantifier": "every class, function, object, annotation and option", "why_tests_cant": "All functions and nestings; the function is spliced into generated code around every rendered expression.", "anchors": ["serde/se.py:serde_legacy_custom_class_serializer", "serde/se.py:Renderer.render"]}
{"id": "C57", "title": "Class-level deserializer function", "statement": "When a class is declared with deserializer=g, g is asked first for every field and every component, with the type and the data there; its answer becomes the value, and where it raises SerdeSkip the data is read as if there were no function (including defaults, aliases and the class_deserializer). A field's own deserializer, a class_deserializer or a global deserializer for the type takes precedence.", "quantifier": "every class, function, input and option", "why_tests_cant": "All functions and inputs; what happens after a skip depends on code rendered a second time.", "anchors": ["serde/de.py:serde_legacy_custom_class_deserializer", "serde/de.py:Renderer.render"]}
{"id": "C58", "title": "Paired functions round-trip", "statement": "A class declared with serializer=s and deserializer=g, where for every field type and value s either writes something g reads back or both skip, satisfies from_dict(to_dict(x)) == x.", "quantifier": "every such pair, class and object", "why_tests_cant": "All pairs of functions and all values.", "anchors": ["serde/se.py:serde_legacy_custom_class_serializer", "serde/de.py:serde_legacy_custom_class_deserializer"]}
{"id": "C59", "title": "Earlier calls leave no trace", "statement": "What to_dict, to_tuple, from_dict and from_tuple return depends on their arguments and on the classes, not on which classes were decorated, written or read earlier in the process, nor on the order in which Python goes through a set; in particular when dataclasses without a decorator are involved, whose functions are generated on first use.", "quantifier": "every class table, history of decorations and calls, iteration order, value and options", "why_tests_cant": "All histories; a test process has one, and a test of a single call starts from a fresh class.", "anchors": ["serde/se.py:serialize", "serde/de.py:deserialize", "serde/se.py:is_dataclass_without_se", "serde/de.py:is_dataclass_without_de", "serde/se.py:to_obj", "serde/de.py:from_obj", "serde/compat.py:iter_types", "serde/__init__.py:serde"]}
{"id": "C60", "title": "Reading normalises: what is read from plain data has exactly the annotated types, and writing and reading it again gives the same object", "statement": "For a dataclass read by from_dict, from_tuple or from_json from plain data (None, bools, ints, floats, strings in lists, tuples, sets and dicts), the object returned has at every position exactly the annotated type: a bool is not accepted for an int, every element of a list, set or dict has the element type, sets and dict keys are distinct, defaults included. Consequently from_x(C, to_x(from_x(C, data))) equals from_x(C, data) for whatever data could be read, not only for data that to_x produced.", "quantifier": "All classes, annotations, plain data values, and options of the two functions; all JSON texts.", "why_tests_cant": "Tests read back data that the library wrote itself; that foreign data (wrong number types, extra keys, duplicates in sets, numerals as dict keys, missing fields) lands on an object which the round trip then reproduces is a statement over all data.", "anchors": ["serde/de.py:from_dict", "serde/de.py:from_obj", "serde/de.py:Renderer.render", "serde/compat.py", "serde/core.py:is_instance"]}
{"id": "C61", "title": "What to_dict and to_tuple return", "statement": "If to_dict or to_tuple returns, then at every position of the result stands what the annotation at that position makes of the value at that position: primitives unchanged (converted in a coercing class), enum members by value, dates and str-convertible values as text (kept with reuse_instances), containers element by element, sets as lists with convert_sets_to_lists, unions through the first member that fits, tagged if it is a dataclass, Any and type variables by the run-time type, objects according to their own class with one entry per field that is not left out by its skip rules or skip_none. The options reach every nested object; coercion and tagging are those of the innermost class.", "quantifier": "All programs, values, options and explicit types, at every position of the result.", "why_tests_cant": "Tests look at single annotations and single options; how options, tagging and coercion travel through arbitrarily nested containers, unions, Any and objects of other classes is a statement over all of them.", "anchors": ["serde/se.py:to_dict", "serde/se.py:to_tuple", "serde/se.py:to_obj", "serde/se.py:Renderer.render", "serde/se.py:render_to_dict", "serde/se.py:render_union_func"]}
{"id": "C62", "title": "serialize_class_var adds the class variables and nothing else", "statement": "With serialize_class_var=True, to_dict(obj) is the dict it gives without the option followed by one entry per class variable of the run-time class, in order, under the variable's name converted by rename_all, holding what the annotation inside ClassVar[...] makes of the class's value (left out when that is None under skip_none); to_tuple(obj) is the tuple without the option followed by these forms. from_dict ignores the added entries, so an object that round trips without the option round trips with it. Classes without the option do not write class variables, and values that contain no object of a class with the option are written as before.", "quantifier": "for all programs, classes, class variables, options, objects", "why_tests_cant": "Tests fix a handful of classes with one or two class variables; the claim relates two runs of the serializer for every class, value and option combination, and interacts with flatten, unions, skip_none, rename_all and deny_unknown_fields.", "anchors": ["serde/core.py:843-867", "serde/se.py:610-622", "serde/se.py:765-839", "serde/se.py:868-895", "serde/se.py:898-1018", "serde/__init__.py:141-180"]}
{"id": "C63", "title": "Valid data is accepted", "statement": "If every field of a dataclass that is read has an entry of valid data for its annotation (under its wire name, or else under its first alias that is present), or has no entry and a default (passing the strict check) or an Optional/None annotation, and the keys are recognised where the class denies unknown ones, then from_dict does not raise: it returns the object whose attributes are the values the entries stand for, defaults for the absent and skipped ones. Valid means: primitives of the annotated class (or convertible, where the class coerces), enum values or members, strings the standard library class parses, instances under reuse_instances, literals; containers of valid elements; None or valid data for an Optional; for a union, data that the earlier members turn down and that is valid, correctly tagged, for the next one; dicts that are valid for a dataclass, inlined for a flattened one; the data of the single field for a transparent class. The same holds for lists and Optionals of the class as the target, for from_json, for from_tuple with rows (one item per constructor parameter, rows within rows; dicts within unions) in place of dicts, and for both forms in from_msgpack.", "quantifier": "for all programs, classes, annotations, data, options", "why_tests_cant": "Tests show single inputs being accepted. Completeness of the reader (no valid document is ever refused, whatever the nesting of classes, unions, aliases, flattening and options) ranges over all documents and class tables.", "anchors": ["serde/de.py:495-634", "serde/de.py:710-745", "serde/de.py:855-1353", "serde/de.py:1356-1470", "serde/core.py:700-760", "serde/de.py:1300-1353", "serde/msgpack.py:110-137"]}
{"id": "C64", "title": "Every field is written with its own functions", "statement": "to_dict and to_tuple write a field with the serializer given to this field and leave it out as the skip rule given to this field says. The functions given to another field have no influence, whatever the fields are called and wherever they are.", "quantifier": "all classes, flattened dataclasses, field names, serializers, skip predicates, defaults, objects and options", "why_tests_cant": "The functions are found at run time by a name made from the field's name in one dict shared by a class and all the dataclasses it flattens; a mix-up needs two classes that happen to use the same field name, which no test of either class shows.", "anchors": ["serde/se.py:626-646", "serde/se.py:671-672", "serde/se.py:1006", "serde/core.py:535-560", "serde/core.py:823-827"]}
{"id": "C65", "title": "Classes with the same name are told apart", "statement": "from_dict and from_tuple read the data of a field with the dataclass in its annotation. Another dataclass that happens to have the same name (in another module) and is used in the same class, or in a class it uses, has no influence.", "quantifier": "all families of classes, all orders in which the collected types are registered, all data, options and call depths", "why_tests_cant": "The generated code finds a nested dataclass by its bare name in globals filled from a set; whether the right class is found depends on classes far away in the class graph and on hash order, so a test may pass or fail by chance.", "anchors": ["serde/de.py:343-357", "serde/de.py:1034-1060", "serde/compat.py:339-404"]}
{"id": "C66", "title": "The options written in a class body are the options in force", "statement": "For a class without base classes, the fields with which pyserde works are those written in the class body, in that order, each with the type, default and options (rename, alias, skip..., flatten, serializer, init, kw_only) of its own line, whether @serde stands alone or above @dataclass, whatever class variables, init variables and KW_ONLY marker the body contains, and whatever metadata dict is passed to field(). A body that keeps to the rules of dataclasses and of pyserde is accepted.", "quantifier": "all class bodies (any number of lines, any options, any annotations), with and without @dataclass and its kw_only option, all metadata dicts shared by any number of fields", "why_tests_cant": "The options interact with the rest of the body: a class variable anywhere makes should_impl_dataclass apply dataclass a second time; a test class with options but without such a line does not show it.", "anchors": ["serde/core.py:596-646", "serde/core.py:688-794", "serde/core.py:843-862", "serde/core.py:1068-1109", "serde/__init__.py:151-153"]}
{"id": "C67", "title": "Subclasses have the fields of the base class and their own", "statement": "A subclass of a dataclass that is decorated with @serde has the fields of the base class, in their order, followed by those its own body adds in the order of the body; a field that the body declares again keeps its place but has the type, default and options of the new line; the other fields are those of the base class. With several bases the fields of all of them are merged: each comes from the first base in the MRO that has it, in the order from the last base to the first.", "quantifier": "all base dataclasses (with any ancestors, one or several), all bodies of the subclass, with and without @dataclass below @serde", "why_tests_cant": "Whether the body of the subclass is looked at at all depends on whether one of its names is new; tests of inheritance usually add a field, and so miss the case of redeclared fields only.", "anchors": ["serde/core.py:1068-1109", "serde/core.py:843-862", "serde/compat.py:311-333", "serde/__init__.py:151-153"]}
{"id": "C68", "title": "Every value that is read goes to the parameter of its own field", "statement": "When from_dict or from_tuple has read the values of the fields of a class, the call of the class binds each value to the parameter of __init__ with the name of its field; all other parameters (skipped fields, init variables) get their default. Init variables, ClassVars and options of an earlier @dataclass do not change what is read.", "quantifier": "all class bodies with init variables, class variables and keyword-only fields, all parameter lists of __init__, all data, types, options and nesting depths", "why_tests_cant": "Arguments are passed by position as far as possible, so whether a value arrives depends on the order of all lines of the class body, including those that are not fields; the only init variable in the examples of the project stands last.", "anchors": ["serde/de.py:1327-1336", "serde/de.py:1412-1425", "serde/de.py:1618-1626", "serde/__init__.py:151-153"]}
{"id": "C69", "title": "Conditions for leaving a field out add up", "statement": "If several of skip_if, skip_if_false, skip_if_default and skip_if_none are asked for on a field, at the field itself or at its class, to_dict leaves the field out exactly when one of them holds of the value written.", "quantifier": "all classes, fields, combinations of the four options, predicates, defaults, objects", "why_tests_cant": "tests set one option at a time; which combinations of options, defaults and values are treated correctly is a statement about all of them", "anchors": ["serde/core.py:Field.from_dataclass", "serde/core.py:skip_if_default", "serde/se.py:jinja2_env dict template"]}
{"id": "C70", "title": "What from_tuple returns", "statement": "from_tuple fills the fields of a dataclass in order from the items of the sequence: the i-th field that is read gets what its annotation makes of the i-th item, at whatever depth, and every other field, and every field for which there is no item, is its default.", "quantifier": "all classes, annotations, inputs, options, and all positions in the result", "why_tests_cant": "tests compare whole results for a few classes; that no position anywhere in any result differs from what its annotation says is a statement about all classes and inputs", "anchors": ["serde/de.py:from_tuple", "serde/de.py:render_from_iter", "serde/de.py:FROM_ITER template"]}
{"id": "C71", "title": "The functions of nested dataclasses are there", "statement": "Once a class has been decorated, or has been given to to_dict or from_dict, the functions of every dataclass that its fields mention (directly, in containers, Optionals, unions or as a subscripted generic, or through other classes; decorated or not) have been generated. Reading and writing it never fails because a nested class has no function.", "quantifier": "all class definitions, all histories of decorations, reads and writes, all inputs and objects, all options", "why_tests_cant": "which functions exist depends on everything the program did before; tests run a few orders of a few classes", "anchors": ["serde/de.py:deserialize", "serde/se.py:serialize", "serde/de.py:is_dataclass_without_de", "serde/se.py:is_dataclass_without_se", "serde/compat.py:iter_types", "serde/core.py:Scope"]}
{"id": "C72", "title": "YAML round trip", "statement": "`from_yaml(C, to_yaml(obj))` returns an object equal to `obj` whenever the YAML layer itself is faithful, with and without number coercion and skip_none.", "quantifier": "every class over the supported types, every well-typed instance, both settings of coerce_numbers and skip_none", "why_tests_cant": "The number hook runs at every float position, also inside unions whose other members may be meant; tests use a few values.", "anchors": ["serde/yaml.py:to_yaml", "serde/yaml.py:from_yaml", "serde/yaml.py:deserialize_yaml_numbers"]}
{"id": "C73", "title": "TOML: no null is written, and None comes back", "statement": "TOML has no null: to_toml hands no None to the TOML library, and `from_toml(C, to_toml(obj))` returns an object equal to `obj`, with its Nones.", "quantifier": "every class over the supported types, every well-typed instance", "why_tests_cant": "Where None may hide depends on the nesting of containers, unions and objects and on the skip rules of every class; tests check flat classes.", "anchors": ["serde/toml.py:to_toml", "serde/toml.py:from_toml", "serde/se.py:render_to_dict"]}
{"id": "C74", "title": "Pickle round trip", "statement": "`from_pickle(C, to_pickle(obj))` returns an object equal to `obj` whenever pickle returns what it was given.", "quantifier": "every class over the supported types, every well-typed instance", "why_tests_cant": "The space of classes and values is unbounded; tests use a list of samples.", "anchors": ["serde/pickle.py:to_pickle", "serde/pickle.py:from_pickle"]}
{"id": "C75", "title": "Options mean the same in every format", "statement": "`reuse_instances`, `convert_sets`, `skip_none` and `cls` mean in to_json, to_yaml, to_toml, to_pickle and to_msgpack what they mean in to_dict: the library of the format is handed what the annotations make of the object under exactly these options; with skip_none=True it is handed no None from a field.", "quantifier": "every class, object, value of the options and codec", "why_tests_cant": "Each option has to be tried with each format, nesting and kind of field; the tests use one or two formats per option.", "anchors": ["serde/json.py:to_json", "serde/yaml.py:to_yaml", "serde/toml.py:to_toml", "serde/pickle.py:to_pickle", "serde/msgpack.py:to_msgpack"]}
{"id": "C76", "title": "Names of generated functions are identifiers", "statement": "Whatever the annotations of a class are, the functions generated for its unions and literals have names that can stand in the generated source: nonempty, made of ASCII letters, digits and underscores, not beginning with a digit.", "quantifier": "every list of union members, every list of literal values", "why_tests_cant": "Literal values and class names are arbitrary text; a test tries a few of them.", "anchors": ["serde/core.py:union_func_name", "serde/core.py:literal_func_name"]}
{"id": "C77", "title": "The exceptions of nested constructors reach the caller", "statement": "If somewhere in the data there is an object whose __post_init__ raises e, and all that is read before it is valid, then from_dict (or from_tuple, where the objects are rows) raises e itself: it is not wrapped, not swallowed, and nothing is returned.", "quantifier": "every class, every nesting of fields, flattened fields, transparent classes, lists, sets, tuples, dicts, Optional and aliases, every data, every exception", "why_tests_cant": "Nesting and data are unbounded; a test raises in a few places.", "anchors": ["serde/de.py:from_obj", "serde/de.py:render_from_dict", "serde/compat.py:UserError"]}
{"id": "C78", "title": "Parameters of generic classes", "statement": "For a class with any bases, the list of type variable names pyserde works with is the list of its parameters (those of Generic[...] if present, otherwise the type variables of the bases in order of first appearance), every variable is found at its place in it, and a field annotated with the i-th parameter of an inner class is read with the argument that the outer class was given for the variable in the i-th place of the subscription.", "quantifier": "All lists of bases with any arguments, all parameters, positions and arguments, invariant, covariant and contravariant variables.", "why_tests_cant": "Tests use classes whose only generic base is Generic[...] and invariant variables; the bases of a class are combinatorial.", "anchors": ["serde/compat.py:get_type_var_names", "serde/compat.py:find_generic_arg", "serde/compat.py:get_generic_arg", "serde/de.py:Renderer.dataclass"]}
{"id": "C79", "title": "Objects that can be written", "statement": "An object all of whose attributes are of their annotated types can be written: to_dict and to_tuple raise nothing, and return the form the annotations, the options and the rules of its class give it. So do to_json, to_yaml, to_toml, to_pickle and to_msgpack, if their library takes that form.", "quantifier": "every program, object, nesting and value of the options", "why_tests_cant": "Tests show single objects being written. That no well-formed object is ever refused, whatever the nesting of containers, unions, Any, flattened and transparent classes, ranges over all objects and class tables.", "anchors": ["serde/se.py:to_obj", "serde/se.py:Renderer.render", "serde/se.py:render_to_dict", "serde/se.py:render_to_iter", "serde/se.py:render_union_func"]}
{"id": "C80", "title": "Unions as targets in every format", "statement": "For a union U of dataclasses and an object of a member class, from_json(U, to_json(obj, cls=U)), and the same with the YAML, TOML, pickle and msgpack functions, equals the object, for U tagged externally, internally or adjacently; reuse_instances, convert_sets and skip_none mean in such a call what they mean without cls.", "quantifier": "every class table, union, member class, object, tagging and value of the options; every library that reads what it wrote", "why_tests_cant": "Tests encode a few objects of two or three small classes under one tagging per format. That the tag survives the library's treatment of dicts and keys, never collides with the object's own keys, and that the reader undoes it for every object ranges over all class tables, taggings and formats.", "anchors": ["serde/se.py:to_obj", "serde/core.py:Cache.serialize_union", "serde/de.py:from_obj", "serde/core.py:Cache.deserialize_union", "serde/json.py:to_json", "serde/json.py:from_json", "serde/yaml.py:to_yaml", "serde/toml.py:to_toml", "serde/pickle.py:to_pickle", "serde/msgpack.py:to_msgpack"]}
{"id": "C81", "title": "Each decorator's arguments are in force for its own direction", "statement": "A class may be given @serialize(...) and @deserialize(...) instead of @serde(...), in either order and more than once. to_dict and to_tuple then follow the arguments of the last @serialize, from_dict and from_tuple those of the last @deserialize; with equal arguments, the two decorators in either order come to the same as @serde.", "quantifier": "all class tables, all sequences of decorators with any arguments on each class, all values, data and call options", "why_tests_cant": "All orders and combinations of two decorators with a dozen arguments each; the decorators share one scope object, which shows only in combinations where the first and the second disagree.", "anchors": ["serde/se.py:serialize", "serde/de.py:deserialize", "serde/core.py:Scope", "serde/__init__.py:serde"]}
{"id": "C82", "title": "NumPy arrays survive a round trip", "statement": "An array in a field declared as np.ndarray, npt.NDArray[T] or a jaxtyping array is written as nested lists, the element at an index being found by the same indices, and is read back as an array with the same element type, shape and elements; also in lists, Optional and several fields, through any format that keeps numbers and lists, and when the type itself is the target of from_dict. Data is read as an array only if all its parts have the same shape, and then element by element.", "quantifier": "all element types, shapes (any number of dimensions, zero included), elements, array types, nestings in lists and Optional, classes with such fields, formats that keep numbers and nested lists", "why_tests_cant": "The tests use one- and two-dimensional arrays with two or four elements; which shapes can be told from nested lists, and which element types NumPy infers, depends on all dimensions and elements.", "anchors": ["serde/numpy.py:67-109", "serde/se.py:947-962", "serde/de.py:615-618", "serde/de.py:951-965"]}
{"id": "C83", "title": "NumPy scalars and datetimes survive a round trip", "statement": "A NumPy scalar or datetime64 in a field of its type is read back equal and of the same type, with the same unit; an integer that does not fit the declared type is rejected.", "quantifier": "all integer widths, booleans, float widths, all integers read, all datetime64 units and tick counts, NaT", "why_tests_cant": "What item() returns depends on the unit and the year; the tests use one year and one day.", "anchors": ["serde/numpy.py:64-68", "serde/numpy.py:90-91", "serde/se.py:947-954", "serde/de.py:951-955"]}
{"id": "C84", "title": "is_serializable and is_deserializable tell the truth", "statement": "is_serializable says of a class, and of its instances, whether its functions for writing have been generated: by decorating the class, by decorating a class that mentions it in its fields, or by giving one of these to to_dict. is_deserializable says the same of reading. Once the answer is yes it stays so, whatever the program does next.", "quantifier": "all class definitions, all histories of decorations, reads and writes, all classes", "why_tests_cant": "the answer depends on everything the program did before; tests ask right after one decoration", "anchors": ["serde/se.py:is_serializable", "serde/de.py:is_deserializable", "serde/core.py:Scope"]}
{"id": "C85", "title": "is_instance tells the type", "statement": "is_instance(obj, typ) says whether the object is of the type, deeply: for list[int] whether it is a list all of whose elements are ints, for tuple[int, str] whether it is a pair of these, for Optional and unions whether it is of some member, for a dataclass whether it is an instance of it, and so on for sets, dicts, deques, counters, literals and NewTypes. This decides which member of a union an object is written as.", "quantifier": "all annotations, all objects", "why_tests_cant": "annotations and objects nest without bound; tests try a few of each", "anchors": ["serde/core.py:is_instance", "serde/core.py:is_list_instance", "serde/core.py:is_tuple_instance", "serde/core.py:is_dict_instance", "serde/core.py:is_union_instance"]}
{"id": "C86", "title": "from_tuple reads by position", "statement": "from_tuple gives the i-th field of the constructor what it reads at position i of the tuple or list, whatever the other positions hold. Further elements are ignored, with deny_unknown_fields too. If the position of a field is missing, SerdeError is raised, even if the field has a default.", "quantifier": "all class definitions, all options, all tuples and lists", "why_tests_cant": "Tests read tuples of the right length only; lengths, field types and nesting are unbounded.", "anchors": ["serde/de.py:from_tuple", "serde/de.py:render_from_iter", "serde/de.py:1315-1336", "serde/de.py:796"]}
{"id": "C87", "title": "A type alias means what it stands for", "statement": "An annotation that uses a PEP 695 alias (type T = X), at the top or anywhere inside, is read and written exactly as the annotation with X in its place: as the annotation of a field, as element, key or value of a container, as member of a union, and as the target passed to from_dict.", "quantifier": "all class definitions, all aliases, all annotations, all data", "why_tests_cant": "Tests use an alias of a union at the top of a field or as the target; where an alias can occur inside an annotation, and what it stands for, is unbounded.", "anchors": ["serde/de.py:513-516", "serde/de.py:978-979", "serde/de.py:1451-1490", "serde/de.py:1169-1188", "serde/se.py:417-420", "serde/se.py:985-986", "serde/compat.py:iter_types"]}
{"id": "C88", "title": "Writing leaves the object alone and shares no container with it", "statement": "to_dict and to_tuple change nothing in the object they are given, and no list, dict, set, deque or object reachable from the result is reachable from the given object.", "quantifier": "all class tables, annotations, values with any sharing of containers, both directions of naming, all skip rules and member choices, all tagging policies", "why_tests_cant": "Tests compare values with ==, which does not see that two containers are the same; the fault appears only when one is changed later, and depends on where in a nesting of annotations a bare one stands.", "anchors": ["serde/se.py:391-444", "serde/se.py:652-760", "serde/se.py:1038-1110"]}
{"id": "C89", "title": "What is read shares no container with the data", "statement": "The object that from_dict and from_tuple return holds no list, dict, set, deque or object that is reachable from the data it was read from.", "quantifier": "all class tables, annotations, data with any sharing of containers, reading by name and by position, all choices of keys, defaults and union members, all tagging policies", "why_tests_cant": "Tests compare values with ==, which does not see that two containers are the same; the fault shows only when the data or the object is changed afterwards.", "anchors": ["serde/de.py:495-567", "serde/de.py:907-1254", "serde/de.py:1316-1502"]}
