{
 "claims": [
  {
   "property": "C01",
   "status": "proved",
   "theorems": [
    "Mapry.Props.C01_ucamel_case_ok_iff",
    "Mapry.Props.C01_ucamel_case_error",
    "Mapry.Props.C01_ucamel_case_shape",
    "Mapry.Props.C01_camel_case_ok_iff"
   ],
   "note": ""
  },
  {
   "property": "C02",
   "status": "partial",
   "theorems": [
    "Mapry.Props.C02_violated",
    "Mapry.Props.C02_class_name_converts_partial",
    "Mapry.Props.C02_exact"
   ],
   "note": "Violated by names with a doubled underscore (A__b raises IndexError); C02_exact shows these are exactly the failing names."
  },
  {
   "property": "C03",
   "status": "partial",
   "theorems": [
    "Mapry.Props.C03_violated",
    "Mapry.Props.C03_violated_prefix_lost",
    "Mapry.Props.C03_plural_usable_partial",
    "Mapry.Props.C03_suffix_rules"
   ],
   "note": "Violated by names of several parts with an irregular last part (Some_focus -> foci)."
  },
  {
   "property": "C04",
   "status": "proved",
   "theorems": [
    "Mapry.Props.C04_tokenize_ok_iff",
    "Mapry.Props.C04_accepts_iff",
    "Mapry.Props.C04_lex_error_iff",
    "Mapry.Props.C04_unsupported_iff",
    "Mapry.Props.C04_lossless",
    "Mapry.Props.C04_lossless_single_line",
    "Mapry.Props.C04_lines"
   ],
   "note": "lexery is specified in Verif/Strftime.lean (trusted base)."
  },
  {
   "property": "C05",
   "status": "proved",
   "theorems": [
    "Mapry.Props.C05_date_format_ok_iff",
    "Mapry.Props.C05_time_format_ok_iff",
    "Mapry.Props.C05_datetime_format_ok_iff",
    "Mapry.Props.C05_date_time_are_datetime",
    "Mapry.Props.C05_separation"
   ],
   "note": ""
  },
  {
   "property": "C06",
   "status": "partial",
   "theorems": [
    "Mapry.Props.C06_violated",
    "Mapry.Props.C06_violated_merge",
    "Mapry.Props.C06_violated_hide",
    "Mapry.Props.C06_violated_month",
    "Mapry.Props.C06_violated_missing_conflict",
    "Mapry.Props.C06_violated_line_break",
    "Mapry.Props.C06_layout_faithful_partial",
    "Mapry.Props.C06_convert_total",
    "Mapry.Props.C06_conflict_check"
   ],
   "note": "Violated for weekday names, merging texts and others; proved for the formats of safe tokens."
  },
  {
   "property": "C07",
   "status": "proved",
   "theorems": [
    "Mapry.Props.C07_needs_type_exact",
    "Mapry.Props.C07_needs_type_terminates"
   ],
   "note": ""
  },
  {
   "property": "C08",
   "status": "proved",
   "theorems": [
    "Mapry.Props.C08_references_exact",
    "Mapry.Props.C08_references_strictly_ascending",
    "Mapry.Props.C08_references_terminates"
   ],
   "note": ""
  },
  {
   "property": "C09",
   "status": "proved",
   "theorems": [
    "Mapry.Props.C09_registries_available",
    "Mapry.Props.C09_references_registered"
   ],
   "note": "Stated on the heap of type objects; that every reachable class is registered is a hypothesis satisfied by parsed schemas."
  },
  {
   "property": "C10",
   "status": "proved",
   "theorems": [
    "Mapry.Props.C10_property",
    "Mapry.Props.C10_iterate_over_types"
   ],
   "note": ""
  },
  {
   "property": "C11",
   "status": "proved",
   "theorems": [
    "Mapry.Props.C11_values",
    "Mapry.Props.C11_observers",
    "Mapry.Props.C11_full_is_final",
    "Mapry.Props.C11_monotone",
    "Mapry.Props.C11_negative_cap"
   ],
   "note": ""
  },
  {
   "property": "C12",
   "status": "proved",
   "theorems": [
    "Mapry.Props.C12_go",
    "Mapry.Props.C12_cpp",
    "Mapry.Props.C12_languages_agree"
   ],
   "note": ""
  },
  {
   "property": "C13",
   "status": "proved",
   "theorems": [
    "Mapry.Props.C13_python_round_trip"
   ],
   "note": ""
  },
  {
   "property": "C14",
   "status": "partial",
   "theorems": [
    "Mapry.Props.C14_accepts_partial",
    "Mapry.Props.C14_violated_newline",
    "Mapry.Props.C14_exact_sum"
   ],
   "note": "Violated by a trailing newline (Python's $); otherwise acceptance is characterised exactly. The exact sum covers weeks, days, hours, minutes and fractional seconds; years, months and other fractions are floating-point and only executed."
  },
  {
   "property": "C15",
   "status": "partial",
   "theorems": [
    "Mapry.Props.C15_go_round_trip_partial",
    "Mapry.Props.C15_violated_minimum"
   ],
   "note": "Holds for every duration but math.MinInt64, which is written as -P."
  },
  {
   "property": "C16",
   "status": "partial",
   "theorems": [
    "Mapry.Props.C16_cpp_round_trip_partial",
    "Mapry.Props.C16_violated_uninitialised",
    "Mapry.Props.C16_minimum_throws"
   ],
   "note": "The variable `overflows` of the generated reader is uninitialised: the round trip holds if it starts as false, and nothing is ever read if it starts as true."
  },
  {
   "property": "C17",
   "status": "proved",
   "theorems": [
    "Mapry.Props.C17_from_python",
    "Mapry.Props.C17_to_python"
   ],
   "note": "C++ under the assumption of C16 on the uninitialised variable."
  },
  {
   "property": "C18",
   "status": "partial",
   "theorems": [
    "Mapry.Props.C18_integer_partial",
    "Mapry.Props.C18_float_partial",
    "Mapry.Props.C18_array",
    "Mapry.Props.C18_violated",
    "Mapry.Props.C18_violated_nan",
    "Mapry.Props.C18_violated_infinity"
   ],
   "note": "Violated by exclusive adjacent integer bounds, by NaN and by exclusive infinite bounds. Integers: exact characterisation; floats: proved for finite bounds; arrays: proved."
  },
  {
   "property": "C19",
   "status": "partial",
   "theorems": [
    "Mapry.Props.C19_parsed_partial",
    "Mapry.Props.C19_violated",
    "Mapry.Props.C19_violated_infinity"
   ],
   "note": "Violated by the name of the graph used as a type and by infinite or NaN bounds; C19_parsed_partial shows that these are the only causes (iff)."
  },
  {
   "property": "C20",
   "status": "partial",
   "theorems": [
    "Mapry.Props.C20_preserved_partial",
    "Mapry.Props.C20_preserved_whole",
    "Mapry.Props.C20_violated"
   ],
   "note": "Violated: fractional bounds of floats are truncated. Everything else is preserved without conditions; with whole bounds the full property holds."
  },
  {
   "property": "C21",
   "status": "partial",
   "theorems": [
    "Mapry.Props.C21_enforced_partial",
    "Mapry.Props.C21_violated"
   ],
   "note": "Violated: the bounds of floats lose their fractional part. Integers are enforced as written, floats if their bounds are whole numbers. The enforcing code is the generated Python parser."
  },
  {
   "property": "C22",
   "status": "partial",
   "theorems": [
    "Mapry.Props.C22_distinct",
    "Mapry.Props.C22_no_id",
    "Mapry.Props.C22_property_names_partial",
    "Mapry.Props.C22_types_partial",
    "Mapry.Props.C22_types_parsed",
    "Mapry.Props.C22_violated_graph",
    "Mapry.Props.C22_violated_newline"
   ],
   "note": "Violated by the name of the graph used as a type and by a line feed at the end of the name of a property. Distinct names and the absence of `id` are proved; the rest up to these two exceptions."
  },
  {
   "property": "C23",
   "status": "partial",
   "theorems": [
    "Mapry.Props.C23_valid_iff_partial",
    "Mapry.Props.C23_violated",
    "Mapry.Props.C23_missing_keywords",
    "Mapry.Props.C23_errors"
   ],
   "note": "Violated: `async` and `await` are keywords of the supported Python 3.7 and 3.8 and are not reported. For Python 3.6 the validation is exact, and the list of reported errors is characterised exactly."
  },
  {
   "property": "C24",
   "status": "proved",
   "theorems": [
    "Mapry.Props.C24_valid_iff",
    "Mapry.Props.C24_errors"
   ],
   "note": ""
  },
  {
   "property": "C25",
   "status": "partial",
   "theorems": [
    "Mapry.Props.C25_valid_iff_partial",
    "Mapry.Props.C25_errors",
    "Mapry.Props.C25_violated_reserved",
    "Mapry.Props.C25_violated_function"
   ],
   "note": "Violated for the reserved type names: the errors are constructed but not returned. Fields, identifiers and formats are exact."
  },
  {
   "property": "C26",
   "status": "partial",
   "theorems": [
    "Mapry.Props.C26_violated",
    "Mapry.Props.C26_distinct_partial",
    "Mapry.Props.C26_languages"
   ],
   "note": "Violated: the graph is not compared with the classes and embeds. Classes and embeds are distinct; the graph too if no name has an underscore."
  },
  {
   "property": "C27",
   "status": "proved",
   "theorems": [
    "Mapry.Props.C27_nothing_written",
    "Mapry.Props.C27_exit_one",
    "Mapry.Props.C27_written",
    "Mapry.Props.C27_stopped",
    "Mapry.Props.C27_exit_zero_iff",
    "Mapry.Props.C27_no_schema"
   ],
   "note": "The generators and the file system are parameters; a write may also stop in the middle of a file."
  },
  {
   "property": "C28",
   "status": "proved",
   "theorems": [
    "Mapry.Props.C28_graph_iff_no_error",
    "Mapry.Props.C28_complete"
   ],
   "note": "For every schema, input, library and positive cap. `C28_complete` needs the schema to pass the Python validation."
  },
  {
   "property": "C29",
   "status": "partial",
   "theorems": [
    "Mapry.Props.C29_accepts_partial",
    "Mapry.Props.C29_conforming_accepted",
    "Mapry.Props.C29_without_booleans",
    "Mapry.Props.C29_violated"
   ],
   "note": "Violated: JSON booleans pass for numbers. With that exception acceptance is exact; it is fully exact for inputs without booleans."
  },
  {
   "property": "C30",
   "status": "partial",
   "theorems": [
    "Mapry.Props.C30_valid_partial",
    "Mapry.Props.C30_valid_without_corner_cases",
    "Mapry.Props.C30_violated",
    "Mapry.Props.C30_violated_by_rounding"
   ],
   "note": "Violated: a boolean is stored as an integer; an integer beyond 2^53 is checked before it is rounded to a float. Everything else is proved."
  },
  {
   "property": "C31",
   "status": "partial",
   "theorems": [
    "Mapry.Props.C31_round_trip_partial",
    "Mapry.Props.C31_violated",
    "Mapry.Props.C31_violated_by_clash"
   ],
   "note": "Violated: a property of a class or an embed with a capital in its name is stored under the lowered name and read under the original one; JSON keys may clash. Under LowerNames and JsonKeys it is proved for every graph which satisfies the schema. The library has to read back what it writes (FaithfulGraph)."
  },
  {
   "property": "C32",
   "status": "partial",
   "theorems": [
    "Mapry.Props.C32_never_raises_partial",
    "Mapry.Props.C32_violated",
    "Mapry.Props.C32_null_registry",
    "Mapry.Props.C32_large_integer",
    "Mapry.Props.C32_braces",
    "Mapry.Props.C32_recursion",
    "Mapry.Props.PyExec.C32_code_partial"
   ],
   "note": "Violated: a null registry raises AttributeError, a huge integer for a float OverflowError, a pattern or format with braces breaks str.format when it does not match, and deep inputs exhaust the stack. Without these nothing raises."
  },
  {
   "property": "C33",
   "status": "partial",
   "theorems": [
    "Mapry.Props.C33_written",
    "Mapry.Props.C33_value_error",
    "Mapry.Props.C33_outcomes_partial",
    "Mapry.Props.C33_iff_partial",
    "Mapry.Props.C33_violated",
    "Mapry.Props.PyExec.C33_code_partial"
   ],
   "note": "The keys of the output and the cause of every ValueError are proved without conditions; that a ValueError is raised for every misregistered instance needs lower-case names (otherwise AttributeError is raised)."
  },
  {
   "property": "C34",
   "status": "proved",
   "theorems": [
    "Mapry.Props.C34_same_outcome",
    "Mapry.Props.C34_composite_permuted",
    "Mapry.Props.C34_composite_extended",
    "Mapry.Props.C34_graph_permuted",
    "Mapry.Props.C34_graph_extended"
   ],
   "note": ""
  },
  {
   "property": "C35",
   "status": "partial",
   "theorems": [
    "Mapry.Props.C35_cpp_literal",
    "Mapry.Props.C35_cpp_string",
    "Mapry.Props.C35_cpp_violated_iso",
    "Mapry.Props.C35_go_literal",
    "Mapry.Props.C35_go_violated",
    "Mapry.Props.C35_go_ticked",
    "Mapry.Props.C35_go_ticked_violated",
    "Mapry.Props.C35_comment",
    "Mapry.Props.C35_cpp_comment",
    "Mapry.Props.C35_cpp_comment_violated",
    "Mapry.Props.C35_cpp_comment_description",
    "Mapry.Props.C35_docstring",
    "Mapry.Props.C35_docstring_description",
    "Mapry.Props.C35_docstring_violated"
   ],
   "note": "The exact sets of texts which are written correctly are proved; violations: the escape character in Go, a carriage return in Go patterns, NUL in C++, docstrings ending in a quote or backslash. Python's repr and the pasted regular expressions are not modelled."
  },
  {
   "property": "C36",
   "status": "proved",
   "theorems": [
    "Mapry.Props.C36_dedent",
    "Mapry.Props.C36_reindent",
    "Mapry.Props.C36_line_unique",
    "Mapry.Props.C36_identity",
    "Mapry.Props.C36_target_lines",
    "Mapry.Props.C36_literal_changed_by_reindent"
   ],
   "note": "C36_literal_changed_by_reindent records that a Unicode line separator inside of a literal counts as a line end."
  },
  {
   "property": "C37",
   "status": "proved",
   "theorems": [
    "Mapry.Props.C37_identifiers_distinct",
    "Mapry.Props.C37_names_distinct"
   ],
   "note": ""
  },
  {
   "property": "C38",
   "status": "proved",
   "theorems": [
    "Mapry.Props.C38_order_by_optional",
    "Mapry.Props.C38_permutation"
   ],
   "note": ""
  },
  {
   "property": "C39",
   "status": "partial",
   "theorems": [
    "Mapry.Props.C39_violated",
    "Mapry.Props.C39_violated_by_registry",
    "Mapry.Props.C39_violated_default_keys",
    "Mapry.Props.C39_default_keys_partial",
    "Mapry.Props.C39_go_composites_partial"
   ],
   "note": "Violated by the key `json`, and in Go by plurals which differ only in capitals. Without `json` it holds in Python and C++, and inside of each composite in Go."
  },
  {
   "property": "C40",
   "status": "partial",
   "theorems": [
    "Mapry.Props.C40_violated",
    "Mapry.Props.C40_lower_case_partial",
    "Mapry.Props.C40_capitals_fail"
   ],
   "note": "Violated by capitals in the names of the properties of classes and embeds; holds without capitals, and never holds with them for a class with instances."
  },
  {
   "property": "C41",
   "status": "partial",
   "theorems": [
    "Mapry.Props.C41_no_panic_partial",
    "Mapry.Props.C41_no_panic_parsed_partial",
    "Mapry.Props.C41_only_panic",
    "Mapry.Props.C41_conforming",
    "Mapry.Props.C41_valid_partial",
    "Mapry.Props.C41_violated",
    "Mapry.Props.C41_violated_by_rounding",
    "Mapry.Props.GoExec.C41_code_partial",
    "Mapry.Props.GoExec.C41_code_violated"
   ],
   "note": "Violated: a generated function called after an error has been recorded panics, so that an input with two faulty instances panics unless the container holds a single error; a float bound beyond 2^53 is rounded. With a container for one error the parser returns for every input; the panic named is the only one; conforming inputs never panic; without errors the graph is valid if the bounds of floats are exact."
  },
  {
   "property": "C42",
   "status": "partial",
   "theorems": [
    "Mapry.Props.C42_accepts_partial",
    "Mapry.Props.C42_order_independent",
    "Mapry.Props.C42_round_trip_partial",
    "Mapry.Props.C42_round_trip_faithful_partial",
    "Mapry.Props.C42_accepts_violated",
    "Mapry.Props.C42_round_trip_violated",
    "Mapry.Props.C42_round_trip_violated_by_clash",
    "Mapry.Props.C42_round_trip_violated_nan",
    "Mapry.Props.GoExec.C42_code_partial",
    "Mapry.Props.GoExec.C42_code_accepts_partial",
    "Mapry.Props.GoExec.C42_code_both_partial",
    "Mapry.Props.GoExec.C42_code_again_partial",
    "Mapry.Props.GoExec.C42_compiled_partial"
   ],
   "note": "Violated: float bounds beyond 2^53 are rounded, integers beyond 2^53 lose precision on the way through float64, properties with the same JSON key overwrite each other, NaN has no JSON text. Acceptance and round trip are proved without these causes, for every order of map iteration."
  },
  {
   "property": "C43",
   "status": "partial",
   "theorems": [
    "Mapry.Props.C43_leave_out_composite_partial",
    "Mapry.Props.C43_validated_composite",
    "Mapry.Props.C43_serialized_composite",
    "Mapry.Props.C43_leave_out_graph_partial",
    "Mapry.Props.C43_validated_graph",
    "Mapry.Props.C43_violated"
   ],
   "note": "Leaving out needs distinct JSON keys: violated if an optional property shares its key with a required one. Validation of present values and the keys of the output are proved without conditions."
  },
  {
   "property": "C44",
   "status": "proved",
   "theorems": [
    "Mapry.Props.C44_all_reported",
    "Mapry.Props.C44_every_cap"
   ],
   "note": "Errors about the identifiers of the registries are critical, as in the statement: the contents are not looked at then."
  },
  {
   "property": "C45",
   "status": "proved",
   "theorems": [
    "Mapry.Props.C45_prefix",
    "Mapry.Props.C45_returns",
    "Mapry.Props.C45_complete"
   ],
   "note": ""
  },
  {
   "property": "C46",
   "status": "proved",
   "theorems": [
    "Mapry.Props.C46_go_total",
    "Mapry.Props.C46_go_accepts_only_grammar"
   ],
   "note": ""
  },
  {
   "property": "C47",
   "status": "partial",
   "theorems": [
    "Mapry.Props.C47_violated",
    "Mapry.Props.C47_throws_iff_partial"
   ],
   "note": "Violated: numbers beyond long or double throw. The exact set of throwing strings is proved."
  },
  {
   "property": "C48",
   "status": "partial",
   "theorems": [
    "Mapry.Props.C48_line_shown_partial",
    "Mapry.Props.C48_violated",
    "Mapry.Props.C48_violated_at_end",
    "Mapry.Props.C48_violated_by_separator"
   ],
   "note": "Violated: an empty file and a file which breaks off after a line feed raise IndexError; other line boundaries of str.splitlines shift the line. Otherwise the line and the column are shown."
  },
  {
   "property": "C49",
   "status": "partial",
   "theorems": [
    "Mapry.Props.C49_reports_partial",
    "Mapry.Props.C49_violated_missing",
    "Mapry.Props.C49_violated_list",
    "Mapry.Props.C49_violated_plural"
   ],
   "note": "Violated by nested definitions without a type or with a list or object as type, and by plurals without a capital. Otherwise nothing raises."
  },
  {
   "property": "C50",
   "status": "partial",
   "theorems": [
    "Mapry.Props.C50_names_partial",
    "Mapry.Props.C50_violated_graph",
    "Mapry.Props.C50_violated_package"
   ],
   "note": "Violated: the patterns of the graph, the embeds and the Go package have no end anchor. Class names are identifiers up to a line feed at the end."
  },
  {
   "property": "C51",
   "status": "partial",
   "theorems": [
    "Mapry.Props.C51_target_partial",
    "Mapry.Props.C51_violated"
   ],
   "note": "Violated: a missing optional property and a missing registry keep their old contents. Proved for inputs with all the properties and registries of the graph, without required embeddable structures in the graph itself and with exact float bounds."
  },
  {
   "property": "C52",
   "status": "partial",
   "theorems": [
    "Mapry.Props.Cpp.C52_accepts_partial",
    "Mapry.Props.Cpp.C52_conforming_accepted",
    "Mapry.Props.Cpp.C52_ctime_partial",
    "Mapry.Props.Cpp.C52_date_partial",
    "Mapry.Props.Cpp.C52_valid_partial",
    "Mapry.Props.Cpp.C52_cap_independent",
    "Mapry.Props.Cpp.C52_violated_cap",
    "Mapry.Props.Cpp.C52_violated_trailing",
    "Mapry.Props.Cpp.C52_violated_nul",
    "Mapry.Props.Cpp.C52_violated_uninitialised",
    "Mapry.Props.Cpp.C52_violated_bound"
   ],
   "note": "Violated: with cap 0 nothing is recorded, with date.h a date may be followed by anything, with ctime anything after a NUL is ignored, no duration is accepted if the uninitialised variable happens to be true, and a float bound which is not a double is rounded. Without these causes (and without capital letters, which do not compile) acceptance and result are proved exactly as stated."
  },
  {
   "property": "C53",
   "status": "partial",
   "theorems": [
    "Mapry.Props.Cpp.C53_only_throws",
    "Mapry.Props.Cpp.C53_returns_partial",
    "Mapry.Props.Cpp.C53_returns_parsed_partial",
    "Mapry.Props.Cpp.C53_nonempty",
    "Mapry.Props.Cpp.C53_violated_duration",
    "Mapry.Props.Cpp.C53_violated_cap"
   ],
   "note": "Violated: std::stol and std::stod throw on durations with large numbers; with cap 0 the identifier which does not match the pattern is looked up with at. With a positive cap and without such durations the parser returns; these are the only exceptions."
  },
  {
   "property": "C54",
   "status": "partial",
   "theorems": [
    "Mapry.Props.Cpp.C54_round_trip_partial",
    "Mapry.Props.Cpp.C54_stable_partial",
    "Mapry.Props.Cpp.C54_readsBack",
    "Mapry.Props.Cpp.C54_violated_unset",
    "Mapry.Props.Cpp.C54_violated_empty",
    "Mapry.Props.Cpp.C54_violated_least",
    "Mapry.Props.Cpp.C54_violated_buffer",
    "Mapry.Props.Cpp.C54_violated_uninitialised",
    "Mapry.Props.Cpp.C54_violated_clash",
    "Mapry.Props.CppExec.C54_code_partial"
   ],
   "note": "Violated: a composite of which nothing is set is written as null and rejected; the least duration and texts of times longer than four times the format raise; the uninitialised variable; clashing JSON names. The round trip is proved for all graphs without these causes."
  },
  {
   "property": "C55",
   "status": "partial",
   "theorems": [
    "Mapry.Props.Cpp.C55_clean_partial",
    "Mapry.Props.Cpp.C55_plain_partial",
    "Mapry.Props.Cpp.C55_violated_optional",
    "Mapry.Props.Cpp.C55_violated_map",
    "Mapry.Props.Cpp.C55_violated_registry"
   ],
   "note": "Violated: optional properties, map entries and instances of the target stay. Proved for targets without such contents, in particular for schemas without classes, optional properties and maps."
  },
  {
   "property": "C56",
   "status": "partial",
   "theorems": [
    "Mapry.Props.Cpp.C56_declared_iff_partial",
    "Mapry.Props.Cpp.C56_parse_keeps_partial",
    "Mapry.Props.Cpp.C56_serialize_finds",
    "Mapry.Props.Cpp.C56_violated"
   ],
   "note": "Violated: the types header declares the property under its own name, the parser writes the name in lower case. For a valid schema the names agree exactly if there are no capital letters."
  },
  {
   "property": "C57",
   "status": "partial",
   "theorems": [
    "Mapry.Props.Go.C57_imports_partial",
    "Mapry.Props.Go.C57_imports_suffice",
    "Mapry.Props.Go.C57_violated",
    "Mapry.Props.Go.C57_violated_import"
   ],
   "note": "Violated: the parser of a schema without classes and properties imports strings without using it. Proved that no import is ever missing and that the imports are exact if and only if there is a class or a property."
  },
  {
   "property": "C58",
   "status": "partial",
   "theorems": [
    "Mapry.Props.Go.C58_names_partial",
    "Mapry.Props.Go.C58_violated_plurals",
    "Mapry.Props.Go.C58_violated_empty",
    "Mapry.Props.Go.C58_violated_format"
   ],
   "note": "Violated by plurals which become the same variable, by a schema without classes and properties (cast is unused) and by arrays and maps of date times with an empty format (the item is unused). Proved that the names are in order if and only if none of these three is present. Names are compared by their parts here; C62 covers the texts."
  },
  {
   "property": "C59",
   "status": "partial",
   "theorems": [
    "Mapry.Props.Go.C59_declared_partial",
    "Mapry.Props.Go.C59_violated"
   ],
   "note": "Violated: a class Error, Errors or New_errors, a class named like the graph or like a function of another one. Proved that the declared names are distinct if and only if the Go identifiers of the composites avoid each other, the error container and the functions."
  },
  {
   "property": "C60",
   "status": "partial",
   "theorems": [
    "Mapry.Props.Go.C60_generation_partial",
    "Mapry.Props.GoExec.C60_code",
    "Mapry.Props.GoExec.C60_read",
    "Mapry.Props.Go.C60_violated_format",
    "Mapry.Props.Go.C60_violated_plural",
    "Mapry.Props.Go.C60_violated_bound"
   ],
   "note": "Violated: a format which ends with an empty line, a class whose inferred plural does not start with a capital if the graph has no properties, and an integral bound of a float beyond the largest float. Proved that the generation succeeds if and only if none of them is present."
  },
  {
   "property": "C61",
   "status": "proved",
   "theorems": [
    "Mapry.Props.Go.C61_patterns_numbered",
    "Mapry.Props.Go.C61_patterns_distinct"
   ],
   "note": ""
  },
  {
   "property": "C62",
   "status": "partial",
   "theorems": [
    "Mapry.Props.Go.C62_meaning_partial",
    "Mapry.Props.Go.C62_violated"
   ],
   "note": "Violated by a class Target in the plural Instance: the serialized registry and the serialized instance are both targetInstance. Proved for every package whose names are in order (C58) that the texts are unambiguous if and only if no class is named like this; in particular no variable hides a package, a builtin, a type or a function."
  },
  {
   "property": "C63",
   "status": "partial",
   "theorems": [
    "Mapry.Props.C63_alike_partial",
    "Mapry.Props.C63_plain_partial",
    "Mapry.Props.C63_violated",
    "Mapry.Props.C63_violated_value",
    "Mapry.Props.C63_violated_patterns"
   ],
   "note": "Violated: only Python accepts null for an optional property, true for an integer, integers beyond 64 bits and floats out of range; only Go and C++ accept 1.0 for an integer; Go rounds integers beyond 53 bits; a pattern is matched at the start, anywhere or as a whole. Proved that acceptance and graph agree for every document without these causes (plain) and, more generally, for every document whose single values are read alike. The zones of date times are not compared."
  },
  {
   "property": "C64",
   "status": "partial",
   "theorems": [
    "Mapry.Props.C64_py_go_partial",
    "Mapry.Props.C64_py_cpp_partial",
    "Mapry.Props.C64_go_py_partial",
    "Mapry.Props.C64_go_cpp_partial",
    "Mapry.Props.C64_cpp_py_partial",
    "Mapry.Props.C64_cpp_go_partial",
    "Mapry.Props.C64_py_go_plain_partial",
    "Mapry.Props.C64_py_cpp_plain_partial",
    "Mapry.Props.C64_go_py_plain_partial",
    "Mapry.Props.C64_go_cpp_plain_partial",
    "Mapry.Props.C64_cpp_py_plain_partial",
    "Mapry.Props.C64_cpp_go_plain_partial",
    "Mapry.Props.C64_violated_py_large",
    "Mapry.Props.C64_violated_py_value",
    "Mapry.Props.C64_violated_go_nanosecond",
    "Mapry.Props.C64_violated_go_least",
    "Mapry.Props.C64_violated_cpp",
    "Mapry.Props.C64_violated_from_py",
    "Mapry.Props.C64_violated_from_go",
    "Mapry.Props.C64_violated_from_cpp"
   ],
   "note": "Violated: Go and C++ reject the integer 2^63 of Python, Go reads 2^53 + 1 as 2^53, Python rejects durations with nanoseconds, C++ reads the least duration of Go as zero. Proved for the six pairs of languages and all graphs whose values cross over one by one, and that plain values do (integers of 53 bits, floats below 2^53 or without bounds, durations in microseconds, patterns which both languages match); whether a date, time or time zone crosses over is left to the libraries. NaN and infinite floats have no text. A Python graph has every key of a dictionary once; a C++ graph sets something in every structure. The zones of date times are not compared."
  },
  {
   "property": "C65",
   "status": "partial",
   "theorems": [
    "Mapry.Props.PyNames.C65_imports_partial",
    "Mapry.Props.PyNames.C65_imports_suffice",
    "Mapry.Props.PyNames.C65_violated"
   ],
   "note": "Violated: the module of the types imports typing even if nothing uses it. Proved that no import is ever missing and that the imports are exact if and only if there is a class, an optional property, an array or a map."
  },
  {
   "property": "C66",
   "status": "partial",
   "theorems": [
    "Mapry.Props.PyNames.C66_importable_partial",
    "Mapry.Props.PyNames.C66_violated_self",
    "Mapry.Props.PyNames.C66_violated_case",
    "Mapry.Props.PyNames.C66_violated_graph",
    "Mapry.Props.PyNames.C66_violated_module"
   ],
   "note": "Violated by a property self, by composites which differ in the case of letters only, by a class with the identifier of the graph and by a package named as a module of the library. Proved for every package whose first name does not occur in the generated code that the modules can be imported if and only if none of the others is present. Keywords are covered by C23."
  },
  {
   "property": "C67",
   "status": "partial",
   "theorems": [
    "Mapry.Props.PyNames.C67_lookups_partial",
    "Mapry.Props.PyNames.C67_violated_collections",
    "Mapry.Props.PyNames.C67_violated_instance",
    "Mapry.Props.PyNames.C67_violated_target",
    "Mapry.Props.PyNames.C67_violated_module"
   ],
   "note": "Violated by a property collections of a graph with classes, by the classes Serialize and Instance together, by a class Target_foo in the plural Foo_instance and by a package named as a variable. Proved for all executions, for every package whose first name does not occur in the generated code, that all lookups are right if and only if no name collides like this. The attributes of objects are not looked up in the model."
  },
  {
   "property": "C68",
   "status": "partial",
   "theorems": [
    "Mapry.Props.PyNames.C68_calls_partial",
    "Mapry.Props.PyNames.C68_violated"
   ],
   "note": "Violated by two classes which differ in the case of a letter: one function replaces the other. Proved for all schemas without such classes."
  },
  {
   "property": "C69",
   "status": "partial",
   "theorems": [
    "Mapry.Props.PyNames.C69_generation_partial",
    "Mapry.Props.PyExec.C69_code_partial",
    "Mapry.Props.PyNames.C69_violated"
   ],
   "note": "Violated by a class whose inferred plural does not start with a capital. Proved that the generation succeeds if and only if every plural does, both for the modules of C65 to C68 and for the code of C80 to C84."
  },
  {
   "property": "C70",
   "status": "partial",
   "theorems": [
    "Mapry.Props.Go.C70_types_partial",
    "Mapry.Props.Go.C70_violated"
   ],
   "note": "Violated by an embed with a required property of its own type. Proved that the declarations are accepted if and only if no embed is stored in itself along required properties and no class or embed has the identifier of the graph."
  },
  {
   "property": "C71",
   "status": "partial",
   "theorems": [
    "Mapry.Props.CppNames.C71_includes_partial",
    "Mapry.Props.CppNames.C71_includes_exact_partial",
    "Mapry.Props.CppNames.C71_violated"
   ],
   "note": "Violated by a map of booleans: std::map<std::string, bool> is written without <string>. Proved that nothing but <string> is ever missing, that nothing is included in vain, and that the includes are exact if and only if there is no map or something else is a text."
  },
  {
   "property": "C72",
   "status": "partial",
   "theorems": [
    "Mapry.Props.CppNames.C72_structures_partial",
    "Mapry.Props.CppNames.C72_violated"
   ],
   "note": "Violated by an embed which is stored in an earlier one or in itself, by a class with the identifier of the graph, by a property int64_t beside an integer and by a property tm beside a date. Proved that the structures are accepted if and only if nothing of the kind is present."
  },
  {
   "property": "C73",
   "status": "partial",
   "theorems": [
    "Mapry.Props.CppNames.C73_bodies_partial",
    "Mapry.Props.CppNames.C73_violated"
   ],
   "note": "Violated by a property with a capital, by a bound beyond 64 bits, by an optional date of date.h, by the plural Instance, by a composite named as a keyword in lower case, and by composites and plurals whose variables hide a function or each other. Proved that the bodies are accepted if and only if none of these is present, for all schemas without a class or embed which has the identifier of the graph and without composites named like numbered variables (Target_0). The fixed helper functions are not checked."
  },
  {
   "property": "C74",
   "status": "proved",
   "theorems": [
    "Mapry.Props.CppNames.C74_declared_defined"
   ],
   "note": ""
  },
  {
   "property": "C75",
   "status": "partial",
   "theorems": [
    "Mapry.Props.CppNames.C75_generation_partial",
    "Mapry.Props.CppNames.C75_violated"
   ],
   "note": "Violated by a class whose inferred plural does not start with a capital. Proved that the generation succeeds if and only if every plural does."
  },
  {
   "property": "C76",
   "status": "partial",
   "theorems": [
    "Mapry.Props.CppNames.C76_definitions_partial",
    "Mapry.Props.CppNames.C76_violated"
   ],
   "note": "Violated by two classes with identifier patterns which differ in the case of letters only, and by a class Serialize_foo with a pattern beside a composite Foo_re. Proved that there are no clashes if and only if nothing of the kind is present, for all schemas without a class or embed which has the identifier of the graph."
  },
  {
   "property": "C77",
   "status": "partial",
   "theorems": [
    "Mapry.Props.CppNames.C77_compiles_partial",
    "Mapry.Props.CppNames.C77_violated"
   ],
   "note": "Violated as C72, C73 and C76. Proved that the generated code is accepted if and only if none of their causes is present, for all schemas without composites named like numbered variables (Target_0). Covers the rules of the checker in CppScope: names, types, completeness, hiding; the templates of jsoncpp and the standard library are given by signatures."
  },
  {
   "property": "C78",
   "status": "partial",
   "theorems": [
    "Mapry.Props.Go.C78_bodies_partial",
    "Mapry.Props.Go.C78_violated_integer",
    "Mapry.Props.Go.C78_violated_float",
    "Mapry.Props.Go.C78_violated_array"
   ],
   "note": "Violated by the bound 2^63 of an integer or of the size of an array and by the bound 2^512 of a float. Proved that the types are right if and only if the bounds fit, for every schema whose names are in order. The rules are those of the checker in GoCheck; the functions of the standard library are given by signatures; int has 64 bits; the fixed helper functions are not checked."
  },
  {
   "property": "C79",
   "status": "partial",
   "theorems": [
    "Mapry.Props.Go.C79_compiles_partial",
    "Mapry.Props.Go.C79_violated"
   ],
   "note": "Violated as C58, C59, C62, C70 and C78. Proved that the package is accepted if and only if none of their causes is present. The text of string literals is the subject of C35; the fixed helper functions are not checked."
  },
  {
   "property": "C80",
   "status": "partial",
   "theorems": [
    "Mapry.Props.PyExec.C80_code_partial",
    "Mapry.Props.PyExec.C80_conversely_partial",
    "Mapry.Props.PyExec.C80_violated",
    "Mapry.Props.PyExec.C80_violated_by_identifier"
   ],
   "note": "Violated by two classes whose names differ in the case of a letter and by a class with the identifier of the graph: a later definition replaces an earlier one (C66). Proved for all schemas in which the names of the composites stay different in both cases and no attribute is called self, for inputs in which every key occurs once in a dictionary. The semantics of the statements is the one of PyLang; modules are no variables there (shadowed modules are the subject of C66 and C67)."
  },
  {
   "property": "C81",
   "status": "partial",
   "theorems": [
    "Mapry.Props.PyExec.C81_accepts_partial",
    "Mapry.Props.PyExec.C81_returned_partial"
   ],
   "note": "As C80; a JSON boolean passes for a number (C29). The depths of the stack with and without a result differ by one embedded structure."
  },
  {
   "property": "C82",
   "status": "partial",
   "theorems": [
    "Mapry.Props.PyExec.C82_registered_partial",
    "Mapry.Props.PyExec.C82_new_partial"
   ],
   "note": "As C80."
  },
  {
   "property": "C83",
   "status": "partial",
   "theorems": [
    "Mapry.Props.PyExec.C83_code_partial",
    "Mapry.Props.PyExec.C83_conversely_partial",
    "Mapry.Props.PyExec.C83_new_partial",
    "Mapry.Props.PyExec.C83_violated_case",
    "Mapry.Props.PyExec.C83_violated_hidden",
    "Mapry.Props.PyExec.C83_violated_target"
   ],
   "note": "Violated by names: FooBar and Foobar, Serialize and Instance, Target_foo with the plural Foo_instance. Proved for all schemas in which the lower-case names of the composites differ and the variables of the serializer of the graph are apart. Nothing is said about values which are of a wrong type. The semantics of the statements is the one of PyLang."
  },
  {
   "property": "C84",
   "status": "partial",
   "theorems": [
    "Mapry.Props.PyExec.C84_round_trip_partial",
    "Mapry.Props.PyExec.C84_parsed_partial",
    "Mapry.Props.PyExec.C84_violated"
   ],
   "note": "Violated by capitals in the names of properties of classes and embeds (C31, C40); needs different JSON keys, the names of C80 and C83, and a library which reads back the dates, paths and time zones it writes. The JSONable is handed to the parser as a value; writing and reading the text of a JSON document is not a part of the model."
  },
  {
   "property": "C85",
   "status": "proved",
   "theorems": [
    "Mapry.Props.GoExec.C85_code",
    "Mapry.Props.GoExec.C85_outcome",
    "Mapry.Props.GoExec.C85_written_iff",
    "Mapry.Props.GoExec.C85_nil"
   ],
   "note": "The variables of the code are compared by what they are for; that their texts tell them apart is C62 and C88. The meaning of the statements of Go is the one of GoLang; the formatting of times and messages is a parameter."
  },
  {
   "property": "C86",
   "status": "proved",
   "theorems": [
    "Mapry.Props.GoExec.C86_code",
    "Mapry.Props.GoExec.C86_ends",
    "Mapry.Props.GoExec.C86_nil_target",
    "Mapry.Props.GoExec.C86_nil_errors",
    "Mapry.Props.GoExec.C86_nonempty_errors"
   ],
   "note": "The variables of the code are compared by what they are for; that their texts tell them apart is C62 and C88. The meaning of the statements of Go is the one of GoLang; the parsing of times and the matching of patterns are parameters. The JSONable is an immutable value, not cells of the memory."
  },
  {
   "property": "C87",
   "status": "partial",
   "theorems": [
    "Mapry.Props.C87_py_go_partial",
    "Mapry.Props.C87_go_py_partial",
    "Mapry.Props.C87_py_accepted_partial",
    "Mapry.Props.C87_go_accepted_partial",
    "Mapry.Props.C87_violated_py_go",
    "Mapry.Props.C87_violated_go_py"
   ],
   "note": "Violated by values whose texts do not mean the same in both languages: Go rejects an integer of more than 64 bits, Python a duration of a nanosecond. They are excluded by Crosses and Alike (C63, C64). The hypotheses of C80, C83, C85 and C86 about the names of the schema are needed as well. The C++ serializer is the subject of C91; the statements of the generated C++ parser are not modelled."
  },
  {
   "property": "C88",
   "status": "proved",
   "theorems": [
    "Mapry.Props.GoExec.C88_compiled",
    "Mapry.Props.GoExec.C88_reader",
    "Mapry.Props.GoExec.C88_writer",
    "Mapry.Props.GoExec.C88_serializes",
    "Mapry.Props.GoExec.C88_parses",
    "Mapry.Props.GoExec.C88_needed"
   ],
   "note": "Without the condition it fails for a class Target in the plural Instance (C62), whose package does not compile (C79). The clashes with types, functions and packages are the subject of C62."
  },
  {
   "property": "C89",
   "status": "partial",
   "theorems": [
    "Mapry.Props.CppExec.C89_emitted",
    "Mapry.Props.CppExec.C89_code_partial",
    "Mapry.Props.CppExec.C89_outcome_partial",
    "Mapry.Props.CppExec.C89_returns_iff_partial",
    "Mapry.Props.CppExec.C89_stack_partial",
    "Mapry.Props.CppExec.C89_violated_hidden",
    "Mapry.Props.CppExec.C89_violated_long",
    "Mapry.Props.CppExec.C89_violated_null"
   ],
   "note": "Violated: if the plural of a class is the name of the graph, the value of the registry hides the value of the graph and the instances are lost; a vector of more than 2^31 - 1 items overflows the counter; an optional time zone which holds a null pointer is dereferenced. Proved for all other graphs and all schemas whose files the checker of C77 accepts. The meaning of the statements is the one of CppLang; Jsoncpp, the formatting of times and durations are given by their documentation or by the model of C54."
  },
  {
   "property": "C90",
   "status": "proved",
   "theorems": [
    "Mapry.Props.CppExec.C90_written",
    "Mapry.Props.CppExec.C90_same_code"
   ],
   "note": "Only the functions which serialize; C89_violated_hidden shows that the condition is needed."
  },
  {
   "property": "C91",
   "status": "partial",
   "theorems": [
    "Mapry.Props.C91_cpp_py_partial",
    "Mapry.Props.C91_cpp_go_partial",
    "Mapry.Props.C91_violated_cpp_py",
    "Mapry.Props.C91_violated_cpp_go"
   ],
   "note": "Violated by values whose texts do not mean the same: Python rejects a duration of a nanosecond, and Go reads 2^53 for the integer 2^53 + 1 without an error. They are excluded by Crosses (C63, C64). CppWritable excludes values which Jsoncpp does not print as they are. The hypotheses of C80, C86 and C89 about the names of the schema are needed as well. The opposite direction is C94."
  },
  {
   "property": "C92",
   "status": "partial",
   "theorems": [
    "Mapry.Props.CppExec.C92_class_partial",
    "Mapry.Props.CppExec.C92_embed_partial",
    "Mapry.Props.CppExec.C92_target_free",
    "Mapry.Props.CppExec.C92_errors",
    "Mapry.Props.CppExec.C92_violated_target"
   ],
   "note": "The structure is compared only if no error is reported: with an invalid entry of a map it differs from the one of CppRuntime. The container must have room for an error, and the names must be apart as a C++ compiler demands it (Readers). The function which parses the graph itself is the subject of C93."
  },
  {
   "property": "C93",
   "status": "partial",
   "theorems": [
    "Mapry.Props.CppExec.C93_graph_partial",
    "Mapry.Props.CppExec.C93_accepts_iff",
    "Mapry.Props.CppExec.C93_conforms_partial",
    "Mapry.Props.CppExec.C93_round_trip_partial",
    "Mapry.Props.CppExec.C93_nonempty",
    "Mapry.Props.CppExec.C93_violated_target"
   ],
   "note": "The graph is compared only if no error is reported: with an invalid entry of a map in an instance it differs from the one of CppRuntime. The container must have room for an error, the maps of the target must be there with their keys in order, and the names must be apart as a C++ compiler demands it (GraphReaders). Conformance and the round trip have the hypotheses of C52, C54 and C89."
  },
  {
   "property": "C94",
   "status": "partial",
   "theorems": [
    "Mapry.Props.C94_py_cpp_partial",
    "Mapry.Props.C94_go_cpp_partial",
    "Mapry.Props.C94_violated_py_cpp",
    "Mapry.Props.C94_violated_go_cpp"
   ],
   "note": "Violated by values whose texts do not mean the same: C++ rejects the integer 2^63 and reads zero for the least duration of Go without an error. They are excluded by Crosses (C63, C64). The hypotheses of C83, C85 and C93 about the names of the schema are needed as well."
  },
  {
   "property": "C95",
   "status": "partial",
   "theorems": [
    "Mapry.Props.C95_cpp_accepted_partial",
    "Mapry.Props.C95_py_accepted_partial",
    "Mapry.Props.C95_go_accepted_partial",
    "Mapry.Props.C95_violated"
   ],
   "note": "Violated by leaves which the languages read differently: Python accepts null for an optional property. They are excluded by Alike (C63). Documents which repeat a key are left out. The hypotheses of C81, C86 and C93 about the names of the schema are needed as well."
  },
  {
   "property": "C96",
   "status": "partial",
   "theorems": [
    "Mapry.Props.CppExec.C96_only_throws",
    "Mapry.Props.CppExec.C96_returns_partial",
    "Mapry.Props.CppExec.C96_limit",
    "Mapry.Props.CppExec.C96_clean_partial",
    "Mapry.Props.CppExec.C96_violated_duration"
   ],
   "note": "Violated by a duration whose number does not fit: std::out_of_range leaves the parser. Proved without such texts in the input, and with the hypotheses of C93 about the code. C96_only_throws says that there is no other exception."
  }
 ]
}