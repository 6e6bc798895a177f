{"id": "C01", "title": "CamelCase conversion succeeds exactly on identifiers without empty parts", "statement": "mapry.naming.camel_case and ucamel_case return normally if and only if the identifier is non-empty and no '_'-separated part that gets indexed is empty; the result is the concatenation of the parts with the first letter of each part upper-cased (first part lower-cased for camel_case), contains no underscore, is non-empty and starts with an upper-case (lower-case) letter whenever the identifier starts with an ASCII letter.", "quantifier": "every identifier (finite string)", "why_tests_cant": "Identifiers are unbounded; tests sample a handful of names and never the doubled underscore that the schema's own name pattern admits.", "anchors": ["mapry/naming.py: split_identifier, camel_case, ucamel_case", "mapry/schemas.py: GRAPH Class.name pattern"]}
{"id": "C02", "title": "Every name admitted by the schema's name pattern can be converted to an identifier", "statement": "For every class name or plural admitted by the schema's pattern, the conversion to a composite identifier of the target language does not raise.", "quantifier": "every string matching ^[A-Z]([a-zA-Z0-9_]*[a-zA-Z0-9])?$", "why_tests_cant": "The set of admitted names is infinite.", "anchors": ["mapry/naming.py: ucamel_case", "mapry/schemas.py: GRAPH"]}
{"id": "C03", "title": "Inferred plural is a usable registry name", "statement": "For every class name admitted by the schema, the inferred plural starts with a capital letter (so that the JSON registry key and the variable names can be derived from it), differs from the name, and keeps every part of the name but the last one.", "quantifier": "every class name matching the schema's pattern", "why_tests_cant": "The suffix rules interact with a table of irregular words for arbitrary prefixes.", "anchors": ["mapry/naming.py: plural, json_plural, PLURAL_TABLE"]}
{"id": "C04", "title": "Tokenizing a date/time format loses nothing and accepts exactly the documented directives", "statement": "tokenize succeeds on a format iff every '%' starts one of the 19 documented directives; on success the concatenated token contents of a line give back the line, directives and texts alternate maximally (no empty token, no two adjacent text tokens), and every directive token is a supported one. An unterminated or non-letter '%' is a lexer error and an unsupported directive letter is reported as unsupported.", "quantifier": "every format string", "why_tests_cant": "Formats are arbitrary strings; the interplay of '%%' with following letters needs every length.", "anchors": ["mapry/strftime.py: _LEXER, SUPPORTED_DIRECTIVES, tokenize"]}
{"id": "C05", "title": "Date and time formats are restricted to date and time directives", "statement": "A date (time) format is accepted by the schema validation iff it tokenizes, has at least one token, and uses only the date (time) directives; every accepted date or time format is also accepted as a datetime format.", "quantifier": "every format string", "why_tests_cant": "Universal statement over formats.", "anchors": ["mapry/strftime.py: validate_date_tokens, validate_time_tokens", "mapry/validation.py: _validate_date, _validate_time, _validate_datetime"]}
{"id": "C06", "title": "The Go layout denotes the same directives as the original format", "statement": "For every date/time format that passes the Go validation, the layout produced for Go is read by Go's time package as the same sequence of directives and literal texts as the strftime format.", "quantifier": "every format accepted by tokenize and by the Go validation", "why_tests_cant": "Conflicts arise from arbitrary combinations of neighbouring literal text and directives.", "anchors": ["mapry/go/timeformat.py: convert, _STRFTIME_TO_GO", "mapry/go/validation.py: _validate_date_time_formats, _GO_TIME_FORMAT_DIRECTIVES"]}
{"id": "C07", "title": "needs_type answers reachability on every (cyclic) type graph and terminates", "statement": "needs_type(a_type, query) terminates on every type graph, including cyclic ones with arbitrary sharing, and returns True iff some type reachable from a_type through registered classes/embeds, properties or aggregated values is an instance of query.", "quantifier": "every finite type graph, every start node and every query", "why_tests_cant": "Cycles and sharing of arbitrary size; the visited set is updated in an unusual place (the parent, not the child).", "anchors": ["mapry/__init__.py: _needs_type, needs_type"]}
{"id": "C08", "title": "references lists exactly the reachable classes, sorted and without duplicates", "statement": "references(composite) terminates and returns exactly the classes reachable from the property types of the composite (following arrays, maps, embeds and classes), without duplicates and in ascending order of names.", "quantifier": "every finite type graph and every class or embed", "why_tests_cant": "Cycles and sharing of arbitrary size.", "anchors": ["mapry/__init__.py: _references, references"]}
{"id": "C09", "title": "The registries needed by a nested structure are always available where it is parsed", "statement": "Whenever a composite has (possibly nested in arrays and maps) a value of an embed or class type, the classes listed by references for that type are also listed by references for the composite, and all of them are classes of the graph; so generating the parsing code never misses a registry.", "quantifier": "every schema and every composite/value type in it", "why_tests_cant": "Needs a closure argument over unbounded nesting.", "anchors": ["mapry/__init__.py: references", "mapry/py/generate/fromjsonable.py: _parse_embed, _parse_composite, _parse_value", "mapry/go/generate/fromjsonable.py", "mapry/cpp/generate/jsoncpp_impl.py"]}
{"id": "C10", "title": "iterate_over_types visits every value type exactly once with its path", "statement": "iterate_over_types yields each property type of every class, embed and of the graph and each nested value type exactly once, in the order classes, embeds, graph, with the reference path <composite ref>/<property>(/values)*.", "quantifier": "every graph", "why_tests_cant": "Unbounded nesting and number of composites.", "anchors": ["mapry/__init__.py: _iterate_over_types_recursively, _iterate_over_composite_types, iterate_over_types"]}
{"id": "C11", "title": "Python error container: capped, ordered, never loses the first errors", "statement": "For every non-negative cap and every sequence of adds, the Python Errors container holds exactly the first min(cap, n) errors in order, is full iff cap errors are stored, and is empty iff nothing is stored; once full it stays unchanged.", "quantifier": "every cap and every history of add calls", "why_tests_cant": "Histories are unbounded.", "anchors": ["mapry/py/generate/parse.py: _DEFINE_ERROR_AND_ERRORS"]}
{"id": "C12", "title": "Go and C++ error containers keep the first errors up to the cap", "statement": "For every cap and every history of adds, the Go container holds the first cap errors (all of them when the cap is 0, meaning unlimited) and the C++ container holds the first cap errors; Full/Empty report the state exactly.", "quantifier": "every cap and every history of add calls", "why_tests_cant": "Histories are unbounded.", "anchors": ["mapry/go/generate/parse.py", "mapry/cpp/generate/parse_impl.py"]}
{"id": "C13", "title": "Python durations survive a round trip", "statement": "For every datetime.timedelta whose negation or value is representable, parsing the serialized ISO 8601 string gives back the same timedelta.", "quantifier": "every timedelta (days, seconds, microseconds within Python's limits)", "why_tests_cant": "About 10^20 values; normalisation of negative values, zero stripping and fractions.", "anchors": ["mapry/py/generate/tojsonable.py: _duration_to_string", "mapry/py/generate/fromjsonable.py: _duration_from_string"]}
{"id": "C14", "title": "Python duration parser accepts exactly the documented grammar and computes the exact value", "statement": "The Python duration parser accepts a string iff it follows the documented grammar (optional sign, P, Y/M/W/D parts, optional T part with H/M/S) with at most six fractional digits in the seconds; for integral day, hour, minute and second counts the value is the exact sum.", "quantifier": "every string", "why_tests_cant": "Infinite input space; regular expression ambiguity and backtracking.", "anchors": ["mapry/py/generate/fromjsonable.py: _duration_from_string"]}
{"id": "C15", "title": "Go durations survive a round trip", "statement": "For every time.Duration, parsing the string produced by the generated Go serializer gives back the same duration without an error.", "quantifier": "every 64-bit signed nanosecond count", "why_tests_cant": "2^64 values, including the most negative one, whose negation overflows.", "anchors": ["mapry/go/generate/tojsonable.py: _duration_to_string", "mapry/go/generate/fromjsonable.py: _duration_from_string"]}
{"id": "C16", "title": "C++ durations survive a round trip", "statement": "For every std::chrono::nanoseconds count whose absolute value is representable, parsing the string produced by the generated C++ serializer gives back the same duration without an exception.", "quantifier": "every 64-bit signed nanosecond count", "why_tests_cant": "2^64 values.", "anchors": ["mapry/cpp/generate/jsoncpp_impl.py: _duration_to_string, _duration_from_string"]}
{"id": "C17", "title": "Durations interoperate between the languages", "statement": "Every string serialized by the Python code is parsed by the Go and C++ code to the same span whenever it fits into 64-bit nanoseconds, and every string serialized by Go or C++ with whole microseconds is parsed by the Python code to the same span.", "quantifier": "every timedelta / nanosecond count in the common range", "why_tests_cant": "Cross-language tests only compare a few examples.", "anchors": ["mapry/py/generate/tojsonable.py", "mapry/py/generate/fromjsonable.py", "mapry/go/generate/tojsonable.py", "mapry/go/generate/fromjsonable.py"]}
{"id": "C18", "title": "Schema validation rejects unsatisfiable numeric and size constraints", "statement": "If the validation accepts an integer type, some integer satisfies its bounds; if it accepts a float type, some number does; if it accepts an array type, some size satisfies its size limits.", "quantifier": "every combination of bounds and exclusive flags", "why_tests_cant": "Unbounded integers, all flag combinations.", "anchors": ["mapry/validation.py: _validate_integer, _validate_float, _validate_array"]}
{"id": "C19", "title": "A validated schema can be parsed", "statement": "If the validation of a schema mapping reports no error, then parsing the mapping into a schema does not raise.", "quantifier": "every JSON mapping", "why_tests_cant": "Infinite space of schemas; validation and parsing are separate code and must agree on every shape.", "anchors": ["mapry/validation.py: validate", "mapry/parse.py: schema_from_mapping"]}
{"id": "C20", "title": "Parsing a schema preserves its content and order", "statement": "A successfully parsed schema has exactly the classes and embeds of the mapping in the order of definition, each with exactly its properties in the order of definition (sorted when the mapping is unordered), with the JSON key, optionality, type, constraints and description given there (JSON key defaulting to the name, optional to false), and every class or embed mentioned as a type resolves to the very definition of that name.", "quantifier": "every accepted schema mapping", "why_tests_cant": "Unbounded schemas; two-phase resolution of recursive references.", "anchors": ["mapry/parse.py: schema_from_mapping, _properties_from_mapping, _recurse_type_from_mapping"]}
{"id": "C21", "title": "Numeric constraints of the schema are enforced as written", "statement": "The bounds of an integer or float type enforced by the generated code are exactly those written in the schema.", "quantifier": "every pair of bounds", "why_tests_cant": "Unbounded numeric space.", "anchors": ["mapry/parse.py: _recurse_type_from_mapping"]}
{"id": "C22", "title": "Names of types are unique and resolvable after validation", "statement": "If a schema is accepted, the names of the graph, classes and embeds are pairwise distinct, no class has a property 'id', all property names match the property pattern and every type used anywhere (also nested in arrays and maps) is a primitive, an aggregate or the name of a class or embed.", "quantifier": "every accepted schema mapping", "why_tests_cant": "Infinite space of schemas and nesting.", "anchors": ["mapry/validation.py: _validate_names, _validate_class, _validate_properties, _validate_type_recursively"]}
{"id": "C23", "title": "Python validation: attributes of every composite are usable and distinct", "statement": "If the Python validation reports no error, the attribute names of each class, embed and of the graph are pairwise distinct, none is a Python keyword, no class attribute is 'id', and the registry attributes of the graph are distinct from each other and from its property attributes; conversely, a violation is reported with the reference of the offending definition.", "quantifier": "every schema", "why_tests_cant": "Unbounded number of properties and names.", "anchors": ["mapry/py/validation.py: validate_schema and helpers"]}
{"id": "C24", "title": "C++ validation: fields of every composite are usable and distinct", "statement": "Same as for Python with C++ field names and C++ keywords.", "quantifier": "every schema", "why_tests_cant": "Unbounded number of properties and names.", "anchors": ["mapry/cpp/validation.py: validate_schema and helpers"]}
{"id": "C25", "title": "Go validation: fields of every composite are usable and distinct", "statement": "Same as for Python with Go field names, 'ID' reserved in classes; and reserved type names are reported.", "quantifier": "every schema", "why_tests_cant": "Unbounded number of properties and names.", "anchors": ["mapry/go/validation.py: validate_schema and helpers"]}
{"id": "C26", "title": "Identifiers of the generated composites are distinct", "statement": "If a language validation reports no error, the identifiers of the graph, all classes and all embeds in that language are pairwise distinct.", "quantifier": "every schema and each of the three languages", "why_tests_cant": "Arbitrary names whose identifiers collide only after conversion.", "anchors": ["mapry/py/validation.py: validate_schema", "mapry/go/validation.py: validate_schema", "mapry/cpp/validation.py: validate_schema"]}
{"id": "C27", "title": "Nothing is written unless the whole generation succeeds", "statement": "If the language validation reports errors, the language settings are missing, or generating any of the files raises, then no file in the output directory is created or changed, and the exit code is 1 (or the exception propagates); otherwise exactly the documented files are written with the generated content and the exit code is 0. If writing stops after k files, exactly the first k files carry the new content and all others the old.", "quantifier": "every schema, every initial content of the output directory, every crash point", "why_tests_cant": "All crash points and all previous directory states.", "anchors": ["mapry/main.py: generate_cpp, generate_go, generate_py, run"]}
{"id": "C28", "title": "The generated Python parser returns a graph iff no error was recorded", "statement": "For every input value and every error container with positive cap that is empty at the start, the generated <graph>_from returns a graph iff the container is empty afterwards, never records more than cap errors, and never returns a partially parsed graph.", "quantifier": "every schema, every JSONable input, every positive cap", "why_tests_cant": "Arbitrary schemas and inputs.", "anchors": ["mapry/py/generate/fromjsonable.py: _parse_graph, _parse_composite, _parse_property, _parse_value"]}
{"id": "C29", "title": "The generated Python parser accepts exactly the inputs described by the schema", "statement": "For every schema accepted by the Python validation and every JSONable value, parsing succeeds iff the value is a JSON object that conforms to the schema (required properties present, types, bounds, patterns, sizes, formats respected, identifiers matching id_pattern, all references resolvable in the registry of the right class).", "quantifier": "every schema, every JSONable input", "why_tests_cant": "Arbitrary schemas and inputs, recursion through embeds and registries.", "anchors": ["mapry/py/generate/fromjsonable.py"]}
{"id": "C30", "title": "A parsed Python graph satisfies the schema", "statement": "Every graph returned by the generated Python parser satisfies the schema: every attribute has a value of its declared type within bounds, matching its pattern and size limits, every required attribute is set, every instance is registered under its own id which matches id_pattern, and every reference points to an instance registered in the graph.", "quantifier": "every schema, every JSONable input", "why_tests_cant": "Arbitrary schemas and inputs.", "anchors": ["mapry/py/generate/fromjsonable.py"]}
{"id": "C31", "title": "Serializing and parsing back yields the same graph in Python", "statement": "For every graph that satisfies the schema, serializing it and parsing the result yields an equal graph without errors (up to the ordered/unordered kind of registries, which follows the 'ordered' argument).", "quantifier": "every schema accepted by the validations and every graph satisfying it", "why_tests_cant": "Arbitrary schemas and graphs with sharing and cycles through references.", "anchors": ["mapry/py/generate/tojsonable.py", "mapry/py/generate/fromjsonable.py"]}
{"id": "C32", "title": "The generated Python parser never raises on JSONable input", "statement": "For every schema accepted by the Python validation and every JSONable value, parsing terminates by returning a graph or None and never raises an exception.", "quantifier": "every schema, every JSONable input", "why_tests_cant": "Exceptions hide in rare shapes (null registries, huge integers).", "anchors": ["mapry/py/generate/fromjsonable.py"]}
{"id": "C33", "title": "Python serialization refuses inconsistent registries", "statement": "Serializing a graph raises a ValueError iff some instance is registered under an id different from its own; otherwise it returns a JSON object whose keys are exactly the JSON keys of the set properties and of the non-empty registries.", "quantifier": "every graph value", "why_tests_cant": "Arbitrary registries.", "anchors": ["mapry/py/generate/tojsonable.py: _serialize_graph"]}
{"id": "C34", "title": "Unknown keys are ignored and key order is irrelevant", "statement": "Adding keys not mentioned by the schema to an input object, or permuting the keys of the graph object or of a composite object, does not change the outcome of the generated Python parser.", "quantifier": "every schema, input and permutation/extension", "why_tests_cant": "All permutations and extensions.", "anchors": ["mapry/py/generate/fromjsonable.py"]}
{"id": "C35", "title": "String literals written into the generated code denote the original strings", "statement": "The C++ and Go string literals produced by escaped_str decode, under the literal syntax of the language, to the original string; Go ticked_str likewise; the generated comment never lets a line of the text escape the comment; the Python docstring literal denotes the text.", "quantifier": "every string", "why_tests_cant": "All strings over all characters, in particular quotes, backslashes and control characters.", "anchors": ["mapry/cpp/generate/__init__.py: escaped_str, comment", "mapry/go/generate/__init__.py: escaped_str, ticked_str, comment", "mapry/py/generate/__init__.py: docstring, comment"]}
{"id": "C36", "title": "Re-indentation only changes leading indention", "statement": "reindent keeps the number of lines and every line's content after its leading blocks of four spaces, replaces k leading blocks of four spaces (after removing the common margin) by k+level copies of the indention, and with four-space indention and level 0 it is the identity on text without a common margin.", "quantifier": "every text, level and indention", "why_tests_cant": "All texts and margins.", "anchors": ["mapry/indention.py: reindent"]}
{"id": "C37", "title": "Generated temporaries never clash", "statement": "Each identifier handed out by the generator of unique identifiers is distinct from all identifiers handed out before by the same generator, for any number of requests.", "quantifier": "every number of requests", "why_tests_cant": "Unbounded histories.", "anchors": ["mapry/py/generate/__init__.py: AutoID", "mapry/go/generate/__init__.py: AutoID", "mapry/cpp/generate/jsoncpp_impl.py: _AutoID"]}
{"id": "C38", "title": "Constructor arguments: required before optional, otherwise in schema order", "statement": "The argument order of the generated Python constructors is a permutation of the properties in which all required ones precede all optional ones and each group keeps the schema order.", "quantifier": "every list of properties", "why_tests_cant": "All lists.", "anchors": ["mapry/py/generate/__init__.py: order_by_optional"]}
{"id": "C39", "title": "Registry keys and property keys do not clash in the JSON representation", "statement": "In every schema accepted for a language, the JSON keys of the graph properties and the JSON keys of the class registries are pairwise distinct, so that no serialized datum overwrites another one; likewise the JSON keys of the properties of one composite.", "quantifier": "every schema accepted by the validations", "why_tests_cant": "Arbitrary names and JSON keys.", "anchors": ["mapry/validation.py: _validate_plurals", "mapry/naming.py: json_plural", "mapry/py/validation.py", "mapry/go/validation.py"]}
{"id": "C40", "title": "Generated Python attribute names agree between types, parser and serializer", "statement": "For every property accepted by the validations, the attribute assigned by the generated constructor and parser is the attribute read by the generated serializer.", "quantifier": "every schema", "why_tests_cant": "Depends on letter case of arbitrary names.", "anchors": ["mapry/py/generate/types.py", "mapry/py/generate/fromjsonable.py: _parse_property", "mapry/py/generate/tojsonable.py: _serialize_class_or_embed, _serialize_graph"]}
{"id": "C41", "title": "The generated Go parser returns a valid graph or errors, and does not panic", "statement": "For every JSON value and every empty error container, the generated Go parser terminates without a panic; if no error is recorded, the graph satisfies the schema.", "quantifier": "every schema, every JSON input, every cap", "why_tests_cant": "Arbitrary schemas and inputs.", "anchors": ["mapry/go/generate/fromjsonable.py"]}
{"id": "C42", "title": "The generated Go code accepts exactly the inputs described by the schema and round-trips", "statement": "For every schema accepted by the Go validation, parsing succeeds iff the JSON value conforms to the schema, and parsing the JSON encoding of a serialized valid graph gives back the same graph.", "quantifier": "every schema, graph and JSON input", "why_tests_cant": "Arbitrary schemas and inputs.", "anchors": ["mapry/go/generate/fromjsonable.py", "mapry/go/generate/tojsonable.py"]}
{"id": "C43", "title": "Optional properties: absent means unset; a present value is validated", "statement": "For every composite and optional property, leaving the key out parses successfully with the attribute unset and serializing leaves it out again; a present non-null value must be valid.", "quantifier": "every schema and input", "why_tests_cant": "Arbitrary types of the optional property.", "anchors": ["mapry/py/generate/fromjsonable.py: _parse_property", "mapry/py/generate/tojsonable.py: _serialize_property"]}
{"id": "C44", "title": "All errors of an input are reported when the cap allows it", "statement": "If the cap is larger than the number of violations, the generated Python parser reports every violated property of every instance, i.e. a wrong value in one property never hides an error in another property or instance (errors in the identifiers of the registries being critical).", "quantifier": "every schema, every JSONable input, every sufficiently large cap", "why_tests_cant": "Arbitrary combination of violations.", "anchors": ["mapry/py/generate/fromjsonable.py"]}
{"id": "C45", "title": "Capped error lists are prefixes of the uncapped one", "statement": "For every input, the errors recorded by the generated Python parser with cap k are exactly the first k errors recorded with an unlimited cap.", "quantifier": "every schema, input and cap", "why_tests_cant": "Early exits at every nesting level must not reorder or drop errors.", "anchors": ["mapry/py/generate/fromjsonable.py", "mapry/py/generate/parse.py"]}
{"id": "C46", "title": "The Go duration reader never panics", "statement": "For every string, the generated Go duration reader either returns a duration within 64-bit nanoseconds or an error; it never panics, and it accepts only strings of the documented grammar with at most nine fraction digits.", "quantifier": "every string", "why_tests_cant": "Infinite input space; the helper addDuration panics on negative operands and NaN, reached only through float arithmetic.", "anchors": ["mapry/go/generate/fromjsonable.py: _duration_from_string"]}
{"id": "C47", "title": "The C++ duration reader reports errors instead of throwing", "statement": "For every string, the generated C++ duration reader returns a value or sets the error; no exception escapes (std::stol, std::stod, std::invalid_argument).", "quantifier": "every string", "why_tests_cant": "Exceptions depend on the magnitude of arbitrary decimals.", "anchors": ["mapry/cpp/generate/jsoncpp_impl.py: _duration_from_string"]}
{"id": "C48", "title": "Invalid JSON in a schema file is reported with its line", "statement": "If the schema file is not valid JSON, parsing it raises a RuntimeError which shows the line of the error and a caret below its column (only the message of the decoder for lines longer than 120 characters).", "quantifier": "every text, every position at which the JSON decoder can fail", "why_tests_cant": "Infinitely many texts; the line numbers of the decoder and str.splitlines disagree only on rare texts.", "anchors": ["mapry/parse.py: schema_from_json_file"]}
{"id": "C49", "title": "The schema validation reports errors instead of raising", "statement": "For every JSON value given as a schema mapping, the validation returns a list of errors and raises no exception.", "quantifier": "every JSON value", "why_tests_cant": "Infinitely many malformed inputs, at any depth of nesting; tests only cover the malformed inputs somebody thought of.", "anchors": ["mapry/validation.py: validate, _validate_type_recursively, _validate_plurals", "mapry/naming.py: json_plural"]}
{"id": "C50", "title": "Names in an accepted schema are identifiers", "statement": "If a schema is accepted, the names of the graph, of the classes and of the embeddable structures are identifiers (a letter followed by letters, digits and underscores, not ending in an underscore), and the Go package is a word of letters, digits and underscores starting with a letter.", "quantifier": "every accepted schema mapping", "why_tests_cant": "Infinite space of names; a test cannot show that a regular expression excludes all the other strings.", "anchors": ["mapry/schemas.py: GRAPH", "mapry/validation.py: validate"]}
{"id": "C51", "title": "The Go parser does not mix the input with old contents of the target", "statement": "If the generated Go parser records no error, the resulting graph is determined by the input alone: parsing the same input into a target which already holds data gives the same graph as parsing it into a new one.", "quantifier": "every schema accepted by the Go validation, every JSONable input, every previous content of the target", "why_tests_cant": "Infinitely many inputs and previous contents; the tests of the repository always parse into a new target.", "anchors": ["mapry/go/generate/fromjsonable.py: _PARSE_PROPERTY_TPL, _PARSE_GRAPH_TPL, _PARSE_EMBED_TPL"]}
{"id": "C52", "title": "The C++ parser accepts exactly the conforming inputs", "statement": "If the generated C++ graph parser returns, the error container is empty if and only if the JSON value conforms to the schema (types, bounds, patterns, formats of whole texts, references to existing instances, identifiers), and then the target holds exactly the described graph.", "quantifier": "every schema accepted by the C++ validation, every Json::Value, every cap of the container, both of the date libraries", "why_tests_cant": "Infinitely many inputs and schemas; early exits and the registry pre-allocation interact with the cap of the container.", "anchors": ["mapry/cpp/generate/jsoncpp_impl.py: _parse_graph, _parse_composite, _parse_property, _parse_value", "mapry/cpp/generate/parse_impl.py: Errors"]}
{"id": "C53", "title": "The C++ parser never throws on input data", "statement": "For every Json::Value and an empty container, the generated C++ graph parser returns: malformed data are reported in the container, no exception escapes and the recursion is bounded by the nesting of the input.", "quantifier": "every schema accepted by the C++ validation, every Json::Value", "why_tests_cant": "Exceptions come from library calls (std::stol, at) reached through arbitrary nesting.", "anchors": ["mapry/cpp/generate/jsoncpp_impl.py: _duration_from_string, _parse_graph"]}
{"id": "C54", "title": "The C++ serializer writes what the parser reads back", "statement": "For every graph which satisfies the schema, the generated serializer returns a Json::Value and parsing it into a new graph records no error and gives the same graph.", "quantifier": "every schema accepted by the C++ validation, every graph satisfying it", "why_tests_cant": "Infinitely many graphs; optional properties, empty composites and long texts of times combine.", "anchors": ["mapry/cpp/generate/jsoncpp_impl.py: _serialize_graph, _serialize_class_or_embed, tm_to_string"]}
{"id": "C55", "title": "The C++ parser does not mix the input with old contents of the target", "statement": "If the generated C++ parser records no error, the resulting graph is determined by the input alone: parsing the same input into a target which already holds data gives the same graph as parsing it into a new one.", "quantifier": "every schema accepted by the C++ validation, every Json::Value, every previous content of the target", "why_tests_cant": "Infinitely many inputs and previous contents; the tests always parse into a new target.", "anchors": ["mapry/cpp/generate/jsoncpp_impl.py: _PARSE_PROPERTY_TPL, _PARSE_ARRAY_TPL, _PARSE_MAP_TPL, _parse_graph"]}
{"id": "C56", "title": "The generated C++ files name the fields alike", "statement": "For every schema accepted by the C++ validation, every field which the generated parser and the generated serializer access is declared under this name in the generated types header.", "quantifier": "every schema accepted by the C++ validation", "why_tests_cant": "Infinitely many schemas; a wrong name shows up only when the C++ compiler is run on the generated code.", "anchors": ["mapry/cpp/generate/types_header.py: _property_fields", "mapry/cpp/generate/jsoncpp_impl.py: _parse_property, _serialize_class_or_embed", "mapry/cpp/naming.py: as_field"]}
{"id": "C57", "title": "The generated Go files import exactly the packages they use", "statement": "For every schema, each generated Go file imports a package if and only if the file uses it; the Go compiler rejects unused and missing imports.", "quantifier": "every schema for which the Go code is generated, every one of the six generated files", "why_tests_cant": "Infinitely many schemas; the imports are decided by traversals of the type graph (needs_type, iterate_over_types), the uses by the templates. The tests compile only a few schemas.", "anchors": ["mapry/go/generate/types.py: _imports", "mapry/go/generate/fromjsonable.py: _imports, generate", "mapry/go/generate/tojsonable.py: _imports, generate", "mapry/go/generate/fromjsonable_test.py", "mapry/go/generate/tojsonable_test.py"]}
{"id": "C58", "title": "The names in the generated Go functions are in order", "statement": "For every schema, in every generated Go function each name which is used or assigned is declared, each local variable is used, and no block declares a name twice.", "quantifier": "every schema accepted by the Go validation, every generated function, every nesting of arrays and maps", "why_tests_cant": "Infinitely many schemas and nestings; the temporaries are numbered by a counter shared between nested templates. A violation shows up only when the Go compiler is run on the generated code.", "anchors": ["mapry/go/generate/fromjsonable.py: _parse_value, _parse_property, _parse_composite, _parse_graph", "mapry/go/generate/tojsonable.py: _serialize_value, _serialize_graph", "mapry/go/generate/__init__.py: AutoID, type_repr"]}
{"id": "C59", "title": "The generated Go files declare every name once in the package", "statement": "For every schema accepted by the Go validation, the types, functions and variables declared by all the generated Go files together are pairwise distinct.", "quantifier": "every schema accepted by the Go validation", "why_tests_cant": "Infinitely many names; the declarations are spread over six files and converted from schema names.", "anchors": ["mapry/go/validation.py: _validate_graph_fields, validate_schema", "mapry/go/generate/parse.py", "mapry/go/generate/types.py", "mapry/go/generate/fromjsonable.py: generate", "mapry/go/generate/tojsonable.py: generate"]}
{"id": "C60", "title": "The Go generators succeed on every valid schema", "statement": "For every schema which the Go validation accepts without an exception, the generation of all the Go files succeeds: no KeyError for a registry, no failed contract of a name conversion, no unsupported directive.", "quantifier": "every schema accepted by the Go validation", "why_tests_cant": "Infinitely many schemas with arbitrary cycles between classes and embeds; a registry has to be passed on along every path of embeds.", "anchors": ["mapry/go/generate/fromjsonable.py: generate", "mapry/go/generate/tojsonable.py: generate", "mapry/__init__.py: references", "mapry/naming.py"]}
{"id": "C61", "title": "Every pattern of the schema is compiled once and under its own name", "statement": "For every schema, the enumeration of patterns assigns an identifier to exactly the patterns of strings, paths and class identifiers; no two patterns share an identifier (the assertion in _compile_regexes holds), so that the generated Go code tests each value against its own pattern.", "quantifier": "every schema", "why_tests_cant": "Infinitely many schemas; a pattern which occurs several times is renumbered while the counter goes on.", "anchors": ["mapry/go/generate/fromjsonable.py: _enumerate_patterns, _enumerate_type_patterns_recursively, _compile_regexes"]}
{"id": "C62", "title": "Every name in the generated Go code refers to what is meant", "statement": "For every schema accepted by the Go validation, the texts which the generated Go code puts in place of its variables, parameters, packages, types and functions never collide: no text refers to a declaration other than the one which is meant, no block declares a text twice and no import takes the name of a declaration.", "quantifier": "every schema accepted by the Go validation, every generated file, every pair of names in a function", "why_tests_cant": "Infinitely many names; the variables are built from class names and plurals by adding prefixes and suffixes, so two of them can coincide or hide a package or a builtin.", "anchors": ["mapry/go/generate/fromjsonable.py: _parse_graph, _parse_composite, _parse_property", "mapry/go/generate/tojsonable.py: _SERIALIZE_GRAPH_TPL, _serialize_graph", "mapry/naming.py: camel_case, ucamel_case"]}
{"id": "C63", "title": "One document means the same in the three languages", "statement": "For every schema accepted for Python, Go and C++ and every JSON document, the generated parsers of the three languages accept the document together, and the graphs they read hold the same values, references and registries.", "quantifier": "every schema accepted for the three languages, every JSON document without repeated keys, every behaviour of the regular expression and date libraries, every order of map iteration", "why_tests_cant": "Infinitely many documents and schemas; the three parsers are generated from separate templates on top of three JSON decoders. Tests compare each language with its own expected outputs only.", "anchors": ["mapry/py/generate/fromjsonable.py", "mapry/go/generate/fromjsonable.py", "mapry/cpp/generate/jsoncpp_impl.py", "README.rst (consistently across multiple languages)"]}
{"id": "C64", "title": "What one language serializes, the others parse to the same graph", "statement": "For every schema accepted for Python, Go and C++ and every graph which satisfies it in one of the languages, the generated serializer of the language succeeds, and every text its JSON encoder writes is accepted by the generated parsers of the other languages, which read the same values, references and registries.", "quantifier": "every schema accepted for the three languages, every valid graph of every language, every text of a number which rounds to it, every behaviour of the regular expression and date libraries, every order of map iteration", "why_tests_cant": "Infinitely many graphs and schemas, and six pairs of languages; the serializers and parsers come from separate templates. The tests only read what they have written in the same language.", "anchors": ["mapry/py/generate/tojsonable.py", "mapry/go/generate/tojsonable.py", "mapry/cpp/generate/jsoncpp_impl.py", "mapry/py/generate/fromjsonable.py", "mapry/go/generate/fromjsonable.py", "mapry/cpp/generate/jsoncpp_impl.py (parsing)"]}
{"id": "C65", "title": "Every generated Python module imports exactly the modules it uses", "statement": "For every schema, each generated Python module imports every module whose names are looked up in its annotations, its functions and methods, and imports no module without using it.", "quantifier": "every schema with Python settings accepted by the Python validation, every generated module", "why_tests_cant": "Infinitely many schemas; the imports are decided by traversals of the type graph (needs_type), the uses by the templates. A missing import raises a NameError only on the execution path which uses it.", "anchors": ["mapry/py/generate/types.py: _imports", "mapry/py/generate/fromjsonable.py: _imports", "mapry/py/generate/tojsonable.py: _imports", "mapry/py/generate/parse.py: _imports"]}
{"id": "C66", "title": "Python can import the generated modules", "statement": "For every schema accepted by the Python validation, every generated module can be imported: each annotation and each constant refers to something which is defined before, no function has two parameters of the same name, and no definition replaces another one.", "quantifier": "every schema with Python settings accepted by the Python validation, every generated module", "why_tests_cant": "Infinitely many names and type graphs with arbitrary cycles; composites refer to each other before they are defined. The tests import only a few schemas.", "anchors": ["mapry/py/generate/types.py: generate, _define_class, _define_embed, _define_graph, _type_repr", "mapry/py/generate/parse.py: generate", "mapry/py/generate/fromjsonable.py: generate", "mapry/py/generate/tojsonable.py: generate", "mapry/py/validation.py: validate_schema"]}
{"id": "C67", "title": "No execution of the generated Python code looks up an unbound or a wrong name", "statement": "For every schema accepted by the Python validation and every execution of a generated function or method, each variable is bound when it is read and holds what was assigned for this use, and every other name refers to the import, the definition or the builtin which is meant.", "quantifier": "every schema with Python settings accepted by the Python validation, every generated function, every execution (every outcome of a condition, every number of iterations, an exception raised anywhere)", "why_tests_cant": "Infinitely many executions and nestings of arrays and maps; the temporaries are numbered by a counter shared between nested templates, and variables are built from class names by adding prefixes and suffixes, so that one can hide a module or a function. The names are looked up at run time only.", "anchors": ["mapry/py/generate/fromjsonable.py: _parse_value, _parse_property, _parse_composite, _parse_graph", "mapry/py/generate/tojsonable.py: _serialize_value, _serialize_graph, _serialize_class_or_embed", "mapry/py/generate/types.py: _define_graph", "mapry/go/generate/__init__.py: AutoID"]}
{"id": "C68", "title": "Every call in the generated Python code passes the arguments which are expected", "statement": "For every schema accepted by the Python validation, every call of a generated function or constructor in the generated code gives each parameter without a default exactly one argument, and each argument (value, identifier, registry of a class, reference, target, errors) goes to the parameter which is meant for it.", "quantifier": "every schema with Python settings accepted by the Python validation, every call in the generated modules", "why_tests_cant": "Infinitely many schemas with arbitrary cycles between classes and embeds: the registries passed at a call are computed from the references of the callee, the parameters from its own traversal. Arguments are passed by position and by keyword, so a mix-up is silent.", "anchors": ["mapry/py/generate/fromjsonable.py: _parse_embed, _parse_graph, _parse_composite", "mapry/py/generate/tojsonable.py: _serialize_graph", "mapry/py/generate/parse.py: _class_placeholder_function", "mapry/__init__.py: references"]}
{"id": "C69", "title": "The Python generators succeed on every valid schema", "statement": "For every schema with Python settings which the Python validation accepts, the generation of all the Python modules succeeds: no KeyError for a registry, no failed contract of a name conversion, no unsupported setting.", "quantifier": "every schema with Python settings accepted by the Python validation", "why_tests_cant": "Infinitely many schemas with arbitrary cycles between classes and embeds; a registry has to be passed on along every path of embeds.", "anchors": ["mapry/py/generate/types.py: generate", "mapry/py/generate/parse.py: generate", "mapry/py/generate/fromjsonable.py: generate", "mapry/py/generate/tojsonable.py: generate", "mapry/py/naming.py"]}
{"id": "C70", "title": "The generated Go type declarations compile", "statement": "For every schema accepted by the Go validation, the type declarations of the generated package are accepted by the compiler: the types and the fields of every structure are distinct, every type in a field is declared, and no structure contains itself by value, directly or through other structures.", "quantifier": "every schema accepted by the Go validation", "why_tests_cant": "Infinitely many schemas with arbitrary cycles between embeds; whether a cycle is by value depends on every property along it. Only the Go compiler would show it.", "anchors": ["mapry/go/generate/types.py: _define_class, _define_embed, _define_graph, _property_type_repr, generate", "mapry/go/generate/__init__.py: type_repr, is_pointer_type", "mapry/go/validation.py: validate_schema"]}
{"id": "C71", "title": "The generated C++ header with the types includes exactly the headers of its types", "statement": "For every schema with C++ settings accepted by the C++ validation, the header with the types includes the header of every library type which its structures use, and no header without need.", "quantifier": "every schema with C++ settings accepted by the C++ validation, every combination of settings", "why_tests_cant": "Infinitely many schemas; the includes are decided by traversals (needs_type) which are separate from the rendering of the types. A missing include often compiles by accident, because another header includes it.", "anchors": ["mapry/cpp/generate/types_header.py: _includes, _property_fields, generate", "mapry/cpp/generate/__init__.py: type_repr"]}
{"id": "C72", "title": "The compiler accepts the structures of the generated C++ header", "statement": "For every schema with C++ settings accepted by the C++ validation, the structures of the generated header are accepted by the compiler: each is defined once, each type is complete where a value of it is stored, no member takes the name of a type which is used in the structure, and the default values fit.", "quantifier": "every schema with C++ settings accepted by the C++ validation, every combination of settings", "why_tests_cant": "Infinitely many schemas with arbitrary cycles between embeds and arbitrary names; the order of the definitions is that of the schema. Only a compiler run on every schema would show it.", "anchors": ["mapry/cpp/generate/types_header.py: _class_definition, _embed_definition, _graph_definition, _property_fields, _default_value, generate", "mapry/cpp/validation.py: validate_schema"]}
{"id": "C73", "title": "The compiler accepts the bodies of the generated C++ functions", "statement": "For every schema with C++ settings accepted by the C++ validation, every function of the generated implementation is accepted by the compiler: each name is declared and not hidden by another one, each call has fitting arguments, and each assignment, condition and loop is well-typed.", "quantifier": "every schema with C++ settings accepted by the C++ validation, every generated function, arrays and maps nested to any depth", "why_tests_cant": "Infinitely many schemas, names and nestings; the temporaries are numbered by a counter shared between nested templates and parameters are named after composites, so that one can hide a function.", "anchors": ["mapry/cpp/generate/jsoncpp_impl.py: _parse_value, _parse_property, _parse_composite, _parse_graph, _serialize_value, _serialize_property, _serialize_class_or_embed, _serialize_graph", "mapry/cpp/generate/jsoncpp_impl.py: _AutoID"]}
{"id": "C74", "title": "Every declared C++ function is defined", "statement": "For every schema with C++ settings accepted by the C++ validation, the functions which the generated header declares are exactly those which are generated for the composites in the implementation, with the same parameters and results.", "quantifier": "every schema with C++ settings accepted by the C++ validation", "why_tests_cant": "Infinitely many schemas with arbitrary cycles: the parameters for the registries are computed separately for the header and for the implementation. A mismatch shows up only when the linker is run.", "anchors": ["mapry/cpp/generate/jsoncpp_header.py: generate, _parse_definitions, _serialize_definitions", "mapry/cpp/generate/jsoncpp_impl.py: generate"]}
{"id": "C75", "title": "The C++ generators succeed on every valid schema", "statement": "For every schema with C++ settings which the C++ validation accepts, the generation of the header with the types, the header with the functions and the implementation succeeds: no KeyError for a registry, no failed contract of a name conversion, no unsupported setting.", "quantifier": "every schema with C++ settings accepted by the C++ validation", "why_tests_cant": "Infinitely many schemas with arbitrary cycles between classes and embeds.", "anchors": ["mapry/cpp/generate/types_header.py: generate", "mapry/cpp/generate/jsoncpp_header.py: generate", "mapry/cpp/generate/jsoncpp_impl.py: generate", "mapry/cpp/naming.py"]}
{"id": "C76", "title": "No two definitions of the generated C++ implementation clash", "statement": "For every schema with C++ settings accepted by the C++ validation, no function of the generated implementation is defined twice, no namespace for an identifier pattern is shared or has the name of a function, no name is a keyword and no two functions differ only in their result.", "quantifier": "every schema with C++ settings accepted by the C++ validation", "why_tests_cant": "Infinitely many names, which are converted from the schema and extended with prefixes and suffixes; overloading makes some of the coincidences harmless.", "anchors": ["mapry/cpp/generate/jsoncpp_impl.py: generate, _regex_constants", "mapry/cpp/naming.py: as_variable, as_composite"]}
{"id": "C77", "title": "The generated C++ code compiles", "statement": "For every schema with C++ settings accepted by the C++ validation, the generated structures, definitions and bodies together are accepted by the compiler.", "quantifier": "every schema with C++ settings accepted by the C++ validation, every combination of settings", "why_tests_cant": "Infinitely many schemas; the conditions of the single files have to be put together.", "anchors": ["mapry/cpp/generate/types_header.py: generate", "mapry/cpp/generate/jsoncpp_header.py: generate", "mapry/cpp/generate/jsoncpp_impl.py: generate"]}
{"id": "C78", "title": "The types in the generated Go functions are right", "statement": "For every schema accepted by the Go validation whose generated names are in order (C58, C59, C62), every expression in the generated Go functions has a type, and the type is the one which is required where it stands: arguments, assignments, comparisons, type assertions, map entries, fields and constants.", "quantifier": "every schema accepted by the Go validation, every composite, every type at every depth, every bound", "why_tests_cant": "The code depends on the nesting of types, on whether a property is optional, on the position of the value and on the bounds; no finite set of schemas covers the combinations.", "anchors": ["mapry/go/generate/fromjsonable.py: _parse_value", "mapry/go/generate/tojsonable.py: _serialize_value", "mapry/go/generate/types.py: _define_class"]}
{"id": "C79", "title": "The generated Go package compiles", "statement": "For every schema accepted by the Go validation, the generated Go package is accepted by the compiler as far as imports, scopes, declarations, structures and the types in the functions are concerned.", "quantifier": "every schema accepted by the Go validation", "why_tests_cant": "Infinitely many schemas; the conditions of the single rules have to be put together.", "anchors": ["mapry/go/generate/types.py: generate", "mapry/go/generate/parse.py: generate", "mapry/go/generate/fromjsonable.py: generate", "mapry/go/generate/tojsonable.py: generate", "mapry/go/validation.py: validate_schema"]}
{"id": "C80", "title": "The generated Python code of the parser does what the parser of the schema does", "statement": "For every schema accepted by the Python validation, the statements of the generated functions, run one by one on a heap of objects, have for every input, container of errors and state the outcome which the step-by-step description of the parser (the subject of C28 to C34 and C45) has: the same exception, the same errors, None or a new object which represents the parsed graph, and no other object which existed before is changed.", "quantifier": "every schema accepted by the Python validation, every JSONable value, every container of errors, every heap, every depth of the stack", "why_tests_cant": "The generated code is different for every schema: variables, nested loops, early returns, breaks and calls depend on the nesting of the types and on the names. Tests run it for a handful of schemas.", "anchors": ["mapry/py/generate/fromjsonable.py: generate, _parse_property, _parse_array, _parse_map, _parse_composite, _parse_graph", "mapry/py/generate/parse.py: generate", "mapry/py/generate/types.py: generate"]}
{"id": "C81", "title": "The generated Python code accepts exactly the inputs which the schema describes", "statement": "For every schema accepted by the Python validation, calling the generated <graph>_from with an empty container of errors returns an object exactly if the value describes a graph, and then the object represents this very graph and the container stays empty; otherwise None is returned and the container has an error.", "quantifier": "every schema accepted by the Python validation, every JSONable value, every cap, every heap, every depth of the stack", "why_tests_cant": "Infinitely many schemas, hence programs, and inputs.", "anchors": ["mapry/py/generate/fromjsonable.py: generate", "mapry/py/generate/parse.py: generate", "mapry/py/generate/types.py: generate"]}
{"id": "C82", "title": "References in a parsed Python graph are the very objects of the registries", "statement": "In a graph returned by the generated Python code, every entry of a registry is an instance of the class with that identifier, and every instance of a class which can be reached from the graph through attributes, lists, maps and embedded structures is the object in the registry; nothing which is reached existed before the call or belongs to the input.", "quantifier": "every schema accepted by the Python validation, every JSONable value, every heap, every path through the graph", "why_tests_cant": "Identity of objects under arbitrary cyclic references, also to instances which are parsed later; equal values do not reveal a copy.", "anchors": ["mapry/py/generate/fromjsonable.py: _parse_graph, _parse_instance_reference", "mapry/py/generate/parse.py: generate"]}
{"id": "C83", "title": "The generated Python code of the serializer does what the serializer of the schema does", "statement": "For every schema accepted by the Python validation, the statements of the generated functions, run one by one on a heap of objects, have for every object graph and state the outcome which the step-by-step description of the serializer (the subject of C31, C33 and C40) has: the same exception or the same JSONable. All the lists and dictionaries of the JSONable are new, none of the objects of the graph is handed out, and no object which existed before is changed.", "quantifier": "every schema accepted by the Python validation, every heap which contains a graph, ordered and unordered output, every depth of the stack", "why_tests_cant": "The generated code is different for every schema: its variables, nested loops and comprehensions depend on the nesting of the types and on the names. Aliasing between the graph and the JSONable shows only after later mutations.", "anchors": ["mapry/py/generate/tojsonable.py: generate, _serialize_value, _serialize_array, _serialize_map, _serialize_property, _serialize_class_or_embed, _serialize_graph"]}
{"id": "C84", "title": "A graph survives the generated Python code of the serializer and of the parser", "statement": "For every graph which satisfies the schema, the generated serialize_<graph> returns a JSONable which the generated <graph>_from accepts, and the object returned represents the same graph. Every graph returned by <graph>_from can be serialized.", "quantifier": "every schema accepted by the Python validation, every heap which contains a graph that satisfies the schema, every depth of the stack", "why_tests_cant": "Both programs are different for every schema, and the graphs are unbounded.", "anchors": ["mapry/py/generate/tojsonable.py: generate", "mapry/py/generate/fromjsonable.py: generate", "mapry/py/generate/parse.py: generate"]}
{"id": "C85", "title": "The generated Go code of the serializer does what the serializer of the schema does", "statement": "For every schema whose generated Go package compiles, the statements of the generated functions, run one by one on a memory with pointers, slices and maps, have for every graph in the memory and every order in which maps are visited the outcome which the step-by-step description of the serializer (the subject of C42) has. With a stack which is large enough the call ends: it returns a JSONable and no error exactly if every instance is registered under its own identifier and no reference which is followed is nil; otherwise it returns nil and an error about an instance which is registered under another identifier, or it panics because of a nil reference. All the slices and maps of the JSONable are new, and nothing in the memory of the caller is changed. A nil graph panics.", "quantifier": "every schema accepted by the Go validation whose declarations have different names, every memory which contains a graph (with arbitrary sharing, references between instances may be cyclic, embedded structures are finite), every order of the maps, every sufficient depth of the stack", "why_tests_cant": "The generated code is different for every schema: its variables, nested loops and calls depend on the nesting of the types and on what is optional. The order of the maps changes from run to run, and aliasing between the graph and the JSONable shows only after later mutations.", "anchors": ["mapry/go/generate/tojsonable.py: generate, _serialize_value, _serialize_array, _serialize_map, _serialize_property, _serialize_class_or_embed, _serialize_graph"]}
{"id": "C86", "title": "The generated Go code of the parser does what the parser of the schema does", "statement": "For every schema whose generated Go package compiles, the statements of the generated functions, run one by one on a memory with pointers, slices and maps, have for every JSONable, every order in which maps are visited and every container of errors the outcome which the step-by-step description of the parser (the subject of C41 and C42) has: the same panic, or the call returns with the same errors in the container. If there are none, the graph at the target is the one which was read, with references which point to the registered instances. Nothing in the memory of the caller changes but the target, and the JSONable is not changed. With a stack which is large enough for the nesting of the JSONable the call ends. A nil target, a nil container and a container which holds errors make it panic with the message about it.", "quantifier": "every schema accepted by the Go validation whose declarations have different names, every JSONable, every reference, every memory with a new graph at the target, every container of errors, every order of the maps, every sufficient depth of the stack", "why_tests_cant": "The generated code is different for every schema: which casts, loops, checks and calls there are and where an error ends a loop depends on the nesting of the types. The order of the maps changes from run to run, and with it which errors are recorded. That nothing is shared between two properties or with the memory of the caller shows only after later mutations.", "anchors": ["mapry/go/generate/fromjsonable.py: generate, _parse_boolean, _parse_integer, _parse_array, _parse_map, _parse_property, _parse_composite, _parse_graph"]}
{"id": "C87", "title": "The generated Python code and the generated Go code exchange graphs", "statement": "A graph which is represented in the heap of the Python program and written by the statements of the generated Python serializer is, from every text of the written JSONable, read without an error by the statements of the generated Go parser, and what then lies at the target in the memory is the same graph: the same instances under the same identifiers, the same references and the same values of the properties, up to the order of the maps. The same holds from Go to Python. A document which the code in one of the languages accepts without an error is accepted by the code in the other, and both represent the same graph. (Python and Go print and read numbers, times and patterns differently, and so the values and the documents have to be such that these do not differ.)", "quantifier": "every schema accepted by both validations, every graph in the heap or in the memory which satisfies the schema, every text of the result, every document, every order of the maps in Go, every state in which the receiving code is called", "why_tests_cant": "The two programs are generated by different functions and run in different languages, and they agree only through the text in between. A test crosses over with one schema and one graph; that nothing is lost for any schema, any aliasing of the instances and any order of the maps needs a proof about all the generated programs.", "anchors": ["mapry/py/generate/fromjsonable.py: generate, _parse_graph", "mapry/py/generate/tojsonable.py: generate, _serialize_graph", "mapry/go/generate/fromjsonable.py: generate, _parse_graph", "mapry/go/generate/tojsonable.py: generate, _serialize_graph"]}
{"id": "C88", "title": "The texts of the variables suffice to run the generated Go code", "statement": "In a generated Go package which compiles, whatever generated function of the serializer or of the parser is called with whatever arguments in whatever memory, the outcome is the one which the code has if every variable is known by what it is for instead of by its text: no variable of a nested loop, of another property or of another class takes the place of the one which is meant. Hence C42, C85 and C86 hold for the code as it is written.", "quantifier": "every schema whose generated Go package compiles, every function of the package, all arguments, every memory, every order of the maps, every depth of the stack", "why_tests_cant": "Whether two variables clash depends on the names of the classes and on the nesting of all the types of a schema, and a clash shows only in the runs in which both variables are in use; a clash need not be an error of the compiler, since Go permits to declare a variable again in a nested block.", "anchors": ["mapry/go/generate/tojsonable.py: generate, _serialize_array, _serialize_map, _serialize_graph", "mapry/go/generate/fromjsonable.py: generate, _parse_value, _parse_composite, _parse_graph", "mapry/go/generate/__init__.py: AutoID"]}
{"id": "C89", "title": "The generated C++ code of the serializer does what the serializer of the schema does", "statement": "For every schema whose generated C++ files are valid, the statements of the generated functions which serialize, run one by one on the structures of the graph, have for every graph the outcome which the step-by-step description of the serializer (the subject of C54) has. With a stack which is large enough the call ends: it returns a Json::Value exactly if every instance is registered under its own identifier, no reference and no time zone which is written is a null pointer, no duration is the least one and every text of a time fits into the buffer of tm_to_string; otherwise it throws the exception about one of these. Hence what is written is read back by the parser as the same graph (C54).", "quantifier": "every schema accepted by the C++ validation, every graph in memory (with arbitrary references between instances), both libraries for times, every sufficient depth of the stack", "why_tests_cant": "The generated code is different for every schema: its variables, nested loops and calls depend on the nesting of the types and on what is optional. Whether a variable of a nested block hides another one shows only for particular names of classes.", "anchors": ["mapry/cpp/generate/jsoncpp_impl.py: generate, _serialize_value, _serialize_array, _serialize_map, _serialize_property, _serialize_class_or_embed, _serialize_graph"]}
{"id": "C90", "title": "The texts of the variables suffice to run the generated C++ code of the serializer", "statement": "In the generated C++ code, if the checker of C77 accepts it, whatever generated function which serializes is called with whatever argument, the outcome is the one which the code has if every variable is known by what it is for instead of by its text. The code whose statements are run is the code which the checker sees.", "quantifier": "every schema whose generated C++ files are accepted, every function which serializes, all arguments, every depth of the stack", "why_tests_cant": "Whether two variables clash depends on the names of the classes, their plurals and the graph and on the nesting of all the types of a schema. A clash need not be an error of the compiler, since C++ permits to declare a variable again in a nested block.", "anchors": ["mapry/cpp/generate/jsoncpp_impl.py: generate, _serialize_array, _serialize_map, _serialize_graph, _AutoID"]}
{"id": "C91", "title": "What the generated C++ code writes is read by the generated Python code and the generated Go code", "statement": "A graph in the memory of the C++ program which is written by the statements of the generated C++ serializer is, from every text of the written Json::Value, read without an error by the statements of the generated Python parser and by the statements of the generated Go parser. The new Python object, or what then lies at the target in the Go memory, is the same graph: the same instances under the same identifiers, the same references and the same values of the properties, up to the order of the maps. (The values have to be such that their texts mean the same in both languages.)", "quantifier": "every schema accepted by the validations of the languages, every graph in memory which satisfies the schema, every text of the result, every order of the maps in Go, every state in which the receiving code is called, every sufficient depth of the stacks", "why_tests_cant": "The programs are generated by different functions for each schema and run in different languages, and they agree only through the text in between. A test crosses over with one schema and one graph.", "anchors": ["mapry/cpp/generate/jsoncpp_impl.py: generate, _serialize_graph", "mapry/py/generate/fromjsonable.py: generate, _parse_graph", "mapry/go/generate/fromjsonable.py: generate, _parse_graph"]}
{"id": "C92", "title": "The generated C++ functions which parse classes and embeddable structures do what the schema asks for, statement by statement", "statement": "Whatever JSON value, reference and structure the generated C++ function of a class or of an embeddable structure is called with, it ends as the parser described by the schema: it throws the same exception or returns with the same errors under the same references in the same order, and if it reports no error, the structure has the described values, nested arrays, maps, structures and references to instances included. The exception and the errors do not depend on what has been in the structure before the call, and errors are only added and never more than the container holds.", "quantifier": "every schema for which the functions are generated, every class and every embeddable structure of it, every JSON value, reference, target, container with room for an error, registries of instances, depth of the stack, and both libraries for dates", "why_tests_cant": "The statements depend on the nesting of the types of the schema: temporary variables are numbered, targets are reached through references, iterators and counters, and a loop is left when the container is full. A test runs one schema on a few inputs.", "anchors": ["mapry/cpp/generate/jsoncpp_impl.py: _parse_value, _parse_property, _parse_composite, _PARSE_ARRAY_TPL, _PARSE_MAP_TPL, _AutoID"]}
{"id": "C93", "title": "The generated C++ function which parses the graph does what the schema asks for, statement by statement", "statement": "Whatever JSON value, reference and allocated graph the generated C++ function for the graph is called with, it ends as the parser described by the schema: with the same exception or with the same errors under the same references in the same order, and if it reports no error, the graph has the described registries and properties, references between instances included. It reports no error exactly for the values which conform to the schema, and what the generated C++ serializer writes it reads back as the same graph. A container which already holds an error is refused with an exception.", "quantifier": "every schema for which the functions are generated, every JSON value, reference, graph with its maps, container with room for an error, depth of the stack, and both libraries for dates", "why_tests_cant": "The function allocates the instances of all the classes before it parses any of them, and leaves the loops when the container is full; the classes refer to each other in any pattern. A test runs one schema on a few inputs.", "anchors": ["mapry/cpp/generate/jsoncpp_impl.py: _parse_graph, _parse_composite, _parse_property, _parse_value"]}
{"id": "C94", "title": "What the generated Python code or the generated Go code writes, the generated C++ code reads as the same graph", "statement": "If the generated Python code or the generated Go code serializes a valid graph in its memory, whichever JSON text is made of the result, the generated C++ code parses that text without an error and leaves the same graph: the same instances under the same IDs, the same values and the same references.", "quantifier": "every schema for the three languages, every valid graph in the heap of Python or in the memory of Go, every JSON text of the result, reference, capacity, order of iteration of Go, and both libraries for dates of C++, as far as the values are read by C++ in the same way as they were written (C64)", "why_tests_cant": "Two programs in two languages meet only in the text. The test cases of the repository are parsed and serialized in each language on its own.", "anchors": ["mapry/py/generate/tojsonable.py: generate, _serialize_graph", "mapry/go/generate/tojsonable.py: generate, _serialize_graph", "mapry/cpp/generate/jsoncpp_impl.py: _parse_graph, _parse_composite"]}
{"id": "C95", "title": "The generated Python, Go and C++ code accept the same documents and read the same graph", "statement": "If the generated C++ code parses a document without an error, the generated Python code and the generated Go code parse it without an error as well; if the Python code or the Go code accepts it, so does the C++ code. All of them leave the same graph in their memories: the same instances under the same IDs, the same values and the same references.", "quantifier": "every schema for the three languages, every document without repeated keys whose leaves mean the same in the languages (C63), every reference, capacity of the containers of errors, memory before the call, order of iteration of Go, and both libraries for dates of C++", "why_tests_cant": "Three programs are compared on all the documents; the test cases of the repository run each of them on its own few inputs.", "anchors": ["mapry/py/generate/fromjsonable.py: generate, _parse_graph", "mapry/go/generate/fromjsonable.py: generate, _parse_graph", "mapry/cpp/generate/jsoncpp_impl.py: _parse_graph, _parse_composite"]}
{"id": "C96", "title": "The generated C++ parser returns with at most as many errors as the container holds, run statement by statement", "statement": "Run on any JSON value which is not nested beyond the stack, the statements generated for the parser of the graph return and throw no exception. The container never holds more errors than its capacity, and what was in a target without instances, map entries and optional values does not change what is read.", "quantifier": "every schema for C++, every JSON value, reference, allocated target and positive capacity of the container, and both libraries for dates", "why_tests_cant": "The inputs are unbounded, and an exception of the standard library is reached only by values which the test cases do not contain.", "anchors": ["mapry/cpp/generate/jsoncpp_impl.py: _parse_graph, _parse_composite, _parse_duration"]}
