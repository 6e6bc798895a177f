# Formal model of mapry

Code under study: Parquery/mapry in `/repo` (Python), read as text. Model and
proofs: Lean 4 in `/verif/lean/Verif`. Properties: `/verif/properties.jsonl`.
Status of every property: `/verif/MANIFEST.json`.

## How the model is organised

The code has two layers.

* The *generator*: ordinary Python functions in `/repo/mapry`. They are modelled
  function by function, branch by branch. Exceptions are values (`Except Exc`).
* The *generated programs*: Jinja2 templates instantiated by the generator. They
  are modelled as an interpreter over the schema. The interpreter performs, for a
  schema `S` and an input, the steps which the text generated for `S` performs.
  The cited lines are the template lines. For the Python parser, the statements
  of the generated text are modelled as well and run on a heap; C80 relates the
  two.

| Module | What it models |
| --- | --- |
| `Basic` | strings as `List Char`, ASCII case mapping, `splitlines`, exceptions |
| `Naming` | `naming.py`, `py/naming.py`, `cpp/naming.py` |
| `Strftime`, `GoLayout` | `strftime.py`, `go/timeformat.py`, the Go conflict check; Go's layout reader (external spec) |
| `Text`, `Literals` | comment, docstring, `escaped_str`, `ticked_str`, `reindent`, `AutoID`, `order_by_optional`; literal readers of C++, Go and Python (external spec) |
| `Schema` | the classes of `mapry/__init__.py` |
| `Traverse` | `_needs_type`, `_references`, `iterate_over_types` |
| `Errors` | the three generated error containers |
| `Float`, `Duration`, `DurationSpec` | binary64 with exact rounding; the generated duration readers and writers (Python, Go, C++); the documented grammar |
| `Validate` | `schemas.py`, `validation.py` |
| `ParseSchema` | `parse.py` |
| `SchemaSpec`, `SchemaClaims` | what a schema mapping says: nested definitions, ranges, the schema it describes |
| `ValidateLemmas`, `ValidateFacts`, `ParseLoops`, `ParseSchemaLemmas`, `SchemaAssembly`, `SchemaFacts` | lemmas about the validation and the parsing of a schema |
| `LangValidate` | `py/validation.py`, `cpp/validation.py`, `go/validation.py` |
| `PyRuntime` | the generated Python parser and serializer |
| `PyTrace`, `PySim` | the parser without a cap on the errors, and the simulation of the real parser by it |
| `PySpec`, `PyReads`, `PyValid` | what it means that a JSON value describes a graph, that a graph satisfies the schema; the parser realises it |
| `PySer` | what the serializer writes and that the parser reads it back |
| `PyFaults` | the errors of the parser are the violations of the input; when the parser raises |
| `PyDemo` | a schema and inputs for the examples |
| `GoMap`, `GoRuntime` | Go maps and the order of their iteration; the generated Go parser and serializer, JSON text |
| `GoSpec`, `GoReads`, `GoGraph`, `GoRegistries`, `GoValid` | what it means that a JSONable value describes a graph, that a graph satisfies the schema; the Go parser realises it, and when it panics |
| `GoSer`, `GoPlain`, `GoTarget` | what the Go serializer writes and that the parser reads it back; parsing into a used target |
| `GoDemo` | a library, inputs and a graph for the examples |
| `CppRuntime` | the generated C++ parser and serializer |
| `CppSpec` | what it means that a `Json::Value` describes a graph, that a graph satisfies the schema, that a target is clean, that a graph survives serializing |
| `CppReads`, `CppValues`, `CppGraph` | the C++ parser realises it for every clean target |
| `CppTotal` | which exceptions escape the C++ parser |
| `CppSer`, `CppValid` | what the C++ serializer writes; what is read satisfies the schema |
| `CppDemo` | a library, inputs and a graph for the examples |
| `TypeGraph`, `TypeGraphLemmas` | `needs_type` and `references` on the definitions of a graph |
| `GoScope` | the rules of Go on names and imports (external spec) |
| `GoCode` | the generators of `mapry/go/generate` up to the names and blocks of the code they write |
| `GoCodeLemmas`, `GoFuncs`, `GoSerNames`, `GoPatterns`, `GoPackage`, `GoImports`, `GoDeclared` | when the generated names obey the rules |
| `GoTotal`, `GoValidated` | when the generation succeeds; what the Go validation ensures |
| `GoCheck` | the rules of Go on types in the bodies of functions: a checker of expressions and statements (external spec) |
| `GoTyped` | the generators of the Go functions once more, with the expressions and types of the code they write |
| `GoErase` | lemmas: without its expressions and types that code is the one of `GoCode` |
| `GoAccept`, `GoAcceptParse`, `GoAcceptFuncs`, `GoAcceptGraph`, `GoAcceptSerialize`, `GoAcceptPackage` | lemmas: the checker of `GoCheck` on the generated Go functions |
| `CppScope` | the rules of C++ on names, types and definitions: a checker of structures and functions (external spec) |
| `CppCode` | the generators of `mapry/cpp/generate` up to the names and types of the code they write |
| `CppFlow`, `CppFresh`, `CppParseValue`, `CppParseTypes`, `CppParseFuncs`, `CppParseGraph`, `CppSerFuncs`, `CppSerGraph` | lemmas: the checker of `CppScope` on the generated parsing and serializing functions |
| `GoTypes` | `go/generate/types.py` and `type_repr` with the structure of the types; which type declarations Go accepts (external spec) |
| `CppGenerates`, `CppIncludes` | when the C++ generators succeed; which header declares which type (external spec) and which headers are included |
| `CppWorld`, `CppBodies`, `CppHeader`, `CppDefs` | lemmas: when the checker of `CppScope` accepts the structures, the bodies and the set of the definitions of the whole generated C++ code |
| `PyScope` | the rules of Python on names, imports and calls, with executions (external spec) |
| `PyCode` | model of the Python generators up to names: `mapry/py/generate/types.py`, `parse.py`, `fromjsonable.py`, `tojsonable.py` |
| `PyFlow` | which names are bound after a piece of code: a calculus which is sound for `PyScope.Run` |
| `PyParse`, `PyParseNames`, `PyFrom`, `PyFromGraph` | the generated parsers: variables, names and calls |
| `PyToValue`, `PyTo` | the generated serializers: variables, names and calls |
| `PyCheck`, `PyStatic` | the functions which do not depend on the schema; the lookup of names which are no variables |
| `PyTypes`, `PyTypesModule`, `PyLocals`, `PyLookup`, `PyParseModule`, `PyFromModule`, `PyToModule` | the definitions of the generated modules are executed, their names are found and their calls fit |
| `PyImports`, `PyTotal`, `PyGenTotal`, `PyPackage`, `PyReach` | which modules the generated modules import; when the generators succeed, of the names and of the code which is run; the package as a whole; executions which reach a wrong name |
| `PyLang` | the part of Python which the generated code uses: expressions, statements, functions and classes, run on a heap of objects (external spec) |
| `PyGen` | the Python generators up to the statements: the code of `mapry/py/generate/types.py`, `parse.py`, `fromjsonable.py`, `tojsonable.py` |
| `PyPrint` | the text of that code; `/verif/fidelity` compares it with the generated code among the test cases of mapry |
| `PyHeap`, `PyExecValue`, `PyExecItems`, `PyExecTypes`, `PyExecProps`, `PyExecCall`, `PyExecEmbed`, `PyExecAlloc`, `PyExecInst`, `PyExecGraph` | what a heap represents; the code of `PyGen` run by `PyLang` does what `PyRuntime` does, from the code of a value to the function of the graph |
| `PyHide`, `PyUnhidden` | a local variable which hides a function of the module; the generated parser and serializer have none, given the names |
| `PyWriteValue`, `PyWriteProps`, `PyWriteCall`, `PyWriteGraph` | a heap which shows a graph and a JSONable; the code of the serializer does what `PyRuntime.serGraph` does |
| `GoLang` | the meaning of the statements of the generated Go code: a memory of cells, pointers into cells, slices, maps, `range` in an arbitrary order, calls with named results and `defer` (external spec) |
| `GoGen` | the code which `mapry/go/generate/tojsonable.py` and `fromjsonable.py` generate, statement by statement |
| `GoPrint` | the text of that code; `/verif/fidelity` compares it with the generated code among the test cases of mapry |
| `GoMemory` | a memory which holds a graph or a JSONable, and how memories change |
| `GoWriteValue`, `GoWriteTy`, `GoWriteProps`, `GoWriteGraph` | the code of the Go serializer does what `GoRuntime.serGraph` does |
| `GoGenTotal`, `GoOutcome` | when that code is generated; when the Go serializer succeeds |
| `GoRead*` | the code of the Go parser does what `GoRuntime.parseGraph` does: values, arrays and maps, properties, composites, allocation, instances, the graph |
| `GoGenReader` | when the code of the Go parser is generated, and where a function is among it |
| `InteropCode` | what the heap of Python and the documents which it reads need for the exchange between the generated programs |
| `PyShown`, `PyTyped` | a parsed graph is shown by its heap, and it can be serialized; every key occurs once in a serialized graph |
| `PyFuel`, `PyIdentity` | a deeper stack changes nothing but `RecursionError`; what can be reached from a parsed graph |
| `GoMeaning` | the texts of the generated names are unambiguous |
| `GoRename` | programs of `GoLang` with other names for the variables; they run as before if the new names of the variables which are around at the same time are different |
| `GoWritten` | the names in the functions of `GoGen` are told apart by their texts |
| `CppLang` | the meaning of the statements of the generated C++ code which serializes: values, pointers to instances, `Json::Value`, loops, calls of overloaded functions; variables are looked up by a comparison which is a parameter (external spec) |
| `CppGen` | the serializing code which `mapry/cpp/generate/jsoncpp_impl.py` generates, statement by statement |
| `CppPrint` | the text of that code; `/verif/fidelity` compares it with the generated code among the test cases of mapry |
| `CppErase` | `CppGen` without the meaning is the code of `CppCode`, on which C73 to C77 are proved |
| `CppWriteValue`, `CppWriteGraph`, `CppOutcome` | lemmas: the statements of `CppGen` do what `CppRuntime` describes; when it succeeds |
| `CppReadLang` | the C++ statements of the parsing code: places in the structure which is passed, containers of errors, calls |
| `CppReadGen` | the code which `mapry/cpp/generate/jsoncpp_impl.py` generates to parse values, properties, classes and embeddable structures |
| `CppReadPath`, `CppReadScalar`, `CppReadValue`, `CppReadRun` | lemmas: the statements of `CppReadGen` do what `CppRuntime` describes |
| `CppReadGraph` | the C++ function which parses the graph: allocation of the instances, registries, properties (`_parse_graph`), and its statements |
| `CppReadPrint` | the text of that code; `/verif/fidelity` compares it with the generated code among the test cases of mapry |
| `CppReadGraphRun` | lemmas: the statements of `CppReadGraph` do what `CppRuntime.parseGraph` describes |
| `CppWritten` | what the checker of `CppScope` accepts runs in the same way if variables are looked up by their texts |
| `Interop` | a JSON document, the decoders of the three languages (external spec), what a document means in a language |
| `Transfer` | the texts which the encoders write (external spec), the documents written for a graph, values which cross over |
| `TransferPy`, `TransferGo`, `TransferCpp`, `TransferMeans`, `TransferLeaves`, `FloatLarge` | the three serializers write such documents; the other languages read them |
| `InteropPy`, `InteropLemmas`, `InteropCpp`, `InteropMeans` | the three parsers read this meaning; when the meanings agree |
| `Main` | `main.py`; the report of invalid JSON in `parse.py` |
| `Props/*` | the property theorems, separate from helper lemmas |

## Plan per property

| Id | Model | Proof |
| --- | --- | --- |
| C01 | `camelCase`, `ucamelCase` over `List Char` | induction over the parts |
| C02 | same, name pattern as a predicate | violated by `A__b`: witness, plus a `_partial` theorem for names without `__` |
| C03 | `plural`, `jsonPlural` | case analysis; violated by `Some_focus`: witness, `_partial` otherwise |
| C04 | `tokenize` with the lexery rules | induction over the format |
| C05 | validation of tokens | from C04 |
| C06 | `convert` and Go's `nextStdChunk` as external specification | witnesses for violations; `_partial` for a directive-wise theorem |
| C07 | object graph with arbitrary cycles, DFS with explicit visited set | invariant on the visited set; reachability as inductive relation |
| C08, C09 | same | same |
| C10 | type trees | structural induction |
| C11, C12 | state machines | induction over histories |
| C13 - C17, C46, C47 | duration writers/readers over `Int` (64-bit wrap-around explicit for Go/C++) | arithmetic and parsing lemmas |
| C18 - C22, C49, C50 | schema mappings as ordered JSON; the checks of jsonschema as Boolean functions | induction over mappings; the specification of a mapping is separate |
| C23 - C26 | language validations | induction over properties; witnesses for C26 |
| C27, C48 | file system as a map, writes as a list, crash at any point | induction over writes |
| C28 - C34, C43 - C45 | interpreter of the generated Python | induction over fuel/type; declarative `ValidJson` specification |
| C35 - C38 | text functions with a literal reader as specification | induction over strings |
| C39, C40 | naming + validation | witnesses plus `_partial` |
| C41, C42, C51 | interpreter of the generated Go; the order of map iterations is an arbitrary oracle | as for Python; witnesses for the panic, the rounding of numbers and the stale targets |
| C52, C53 | interpreter of the generated C++ over `Json::Value` | one lemma per template: for a container which is not full, either nothing is added and the value is described, or an error is added and there is no such value; witnesses for cap 0, text after a date, uninitialised `overflows`, throwing durations |
| C54, C55 | same | the serializer writes a value which describes the graph, then C52; witnesses for composites written as null, long texts of times, stale targets |
| C56 | names of the fields in the three generated files | induction over the properties; witness with a capital, `_partial` without capitals |
| C57 - C61 | the Go generators up to the names and blocks of the code they write (`GoCode`); the rules of Go on names are a separate specification (`GoScope`) | induction over the type with the counter of `AutoID`; `needs_iff` for the imports; witnesses for an empty graph, empty formats, plurals with the same variables and reserved type names |
| C62 | the same model, where a name is also the text the compiler sees (`Name.text`); `Faithful` in `GoScope` is the specification | every name in the code has one of a few shapes, and the text determines the name for these shapes (`apart_std`); a separate argument for the serialized registries |
| C63 | the three parsers on the value which `json.loads`, `encoding/json` and jsoncpp make of one document (`Interop`) | the meaning of a document is given by the same rules and one table per language; each parser realises it (C29, C42, C52); the tables agree on plain values; witnesses for the differences |
| C64 | the three serializers (C33, C42, C54) and parsers; what `json.dumps`, `json.Marshal` and jsoncpp may write is a relation (`Transfer`) | every text describes the graph by the rules of one table per writer (`TransferPy`, `TransferGo`, `TransferCpp`); if the leaves cross over to the table of the reader, the document means the graph there (`written_means`), and C63 gives the parse; witnesses for the differences |
| C65 | the four Python generators up to names (`PyCode`): modules with imports, definitions, parameters, code as sequences of lookups, assignments, branches, loops, `try` and calls | every name comes from a type in the schema or is fixed (`PyImports`); exact: `typing` is the only import which may be there in vain |
| C66 | the same modules; `Importable` in `PyScope` is the specification: the definitions are executed one after the other | the names of an annotation are builtins, libraries or earlier definitions (`PyTypesModule`, `PyParseModule`, `PyFromModule`, `PyToModule`); exact for a package whose first name does not occur in the code |
| C67 | the same modules; `Run` in `PyScope` gives all the executions of a function with the variables which are bound | a calculus of bound variables which is sound for `Run` (`PyFlow`), by induction on the nesting of types; the converse by executions which reach the name (`PyReach`) |
| C68 | the same modules with the parameters and arguments and what each is meant for; `Call.Fits` is the specification | the registries of an embed at a call are those of its references, as are its parameters; the callee is found as the last definition of its name |
| C69 | the same generators with their exceptions | by induction on the types (`PyTotal`, and `PyGenTotal` for the code of C80–C84); the settings come from the validated mapping |
| C70 | the Go type declarations with the structure of the types (`GoTypes`); the rules of Go are `DefsOk` | the declarations as a pure function of the schema; a structure contains the embeds of its required properties, so that a cycle by value is a cycle of such properties |
| C71 | the types header and the headers it includes | which header declares which name of a type (external); the types of the properties against `needs` |
| C72 | the structures of the types header (`CppCode.typesHeader`) against `structsOk` | the order of the definitions; the names of the members |
| C73 | the functions of the implementation (`CppCode.jsonImpl`) against the checker `bodiesOk` | by induction on the type: the code of a value is accepted iff the type fits the member, in every environment which has only fresh variables in addition |
| C74 | the declarations of the header and the functions of the implementation | both are generated composite by composite: a permutation |
| C75 | the same generators with their exceptions | by induction on the types |
| C76 | the definitions of the implementation against `definitionsOk` | the name of a function or a namespace determines what it is for, up to the named exceptions |
| C77 | C72, C73 and C76 together | the identifiers of the structures are distinct if the structures are accepted, which the other two need |
| C78 | the generated Go functions with their expressions and types (`GoTyped`, tied to `GoCode` by `GoErase`) against the checker of `GoCheck` | with faithful names the texts can be replaced by names (`func_text`); then by induction on the type: the code of a value is accepted in every environment with only fresh variables in addition iff its bounds are representable |
| C79 | C57, C58, C59, C62, C70 and C78 together | their exact conditions |
| C80 | the statements of the generated parser (`PyGen`), run on a heap (`PyLang`), against `PyRuntime.parseGraph` | refinement: by induction on the type the code of a value leaves in its target what the parser returns, with the errors of the parser; then properties, composites (induction on the depth of the stack), the pre-allocation and the registries (invariants of the loops), the graph (`graph_run`); `PyFuel` relates the depths of the stack |
| C81 | the same | C80 with C28 and C29 |
| C82 | the same; reachability through attributes, lists and dictionaries | induction on the path: whatever is reached represents a part of the graph (`reach_known`); the references of a described graph are to its instances (`graph_closed`) |
| C83 | the statements of the generated serializer (`PyGen.writer`), run on a heap in which a local variable hides a function of the module (`PyLang.callModule`), against `PyRuntime.serGraph` | refinement: by induction on the type the code of a value appends new objects which are the JSONable (`writes_ty`); a loop invariant for the dictionary of the composite (`FnInv`) and of the registry (`LoopInv`); no function is hidden (`writer_unhidden`); two witnesses of hidden or shared variables, one of a replaced function |
| C84 | C80 and C83 together | C31 on what the two programs do; a parsed graph is shown by its heap (`graph_shown`) and satisfies the schema, so that it can be serialized (`typed_graph`) |
| C85 | the statements of the generated Go serializer (`GoGen.writer`), run on a memory (`GoLang`), against `GoRuntime.serGraph` | refinement: by induction on the type the code of a value stores a new JSONable in its target and changes no other cell (`value_ok`); invariants for the loops over slices, maps and registries; induction on the depth of the stack for embeds (`embeds_ok`); the result by induction on the size of the graph (`ends_graph`) |
| C86 | the statements of the generated Go parser (`GoGen.reader`), run on a memory (`GoLang`), against `GoRuntime.parseGraph` | refinement: by induction on the type the code of a value leaves at its target what the parser reads, and changes nothing but the target and new cells (`read_ok`); invariants for the loops over arrays, maps and registries in an arbitrary order, which end at the first full container; induction on the depth of the stack for embeds; allocation of the instances as an invariant between the placeholders of the graph and the pointers of the registries (`Built`) |
| C87 | the statements of the generated Python code (`PyGen`, `PyLang`) and of the generated Go code (`GoGen`, `GoLang`), with a text in between (`Doc`, `PyText`, `GoText`) | composition of the refinements C80, C83, C85 and C86 with C63 and C64: the heap of Python which shows a graph gives dictionaries without repeated keys (`dicts_shown`), a document without repeated keys gives Python dictionaries without them (`keyed_pyOf`); refuted for all values by an integer of 64 bits without a sign and by a nanosecond, run through the code (`C87_violated_*`) |
| C88 | the statements of the generated Go code (`GoGen`, `GoLang`), once with variables which are known by what they are for and once with variables which are nothing but their texts (`Textual`) | a renaming which is injective on the variables around at the same time does not change any run (`run_rename`, by induction on the statements and on the depth of the stack); all the names in a generated function belong to a set on which the text is injective (`safe_reader`, `safe_writer`, on the recovery of the names from their texts `readName_text`); the condition on the classes follows from C79 |
| C89 | the statements of the generated C++ serializer (`CppGen.writer`), run on structures (`CppLang`), against `CppRuntime.serGraph` | refinement: by induction on the type the code of a value assigns its `Json::Value` to its target and changes no other variable (`value_ok`); invariants for the loops over vectors, maps and registries; induction on the depth of the stack for embeds (`graph_ok`); the outcome by induction on the size of the graph (`tells_graph`); refuted by a plural which hides the graph, a long vector and a null pointer (`C89_violated_*`) |
| C90 | the same statements, once with variables which are known by what they are for and once with variables which are compared by their texts (`written`) | simulation along the environment of the checker of `CppScope`: what it accepts refers to the innermost variable with the text (`exec_written`, `run_written`); the code which is run erases to the code which is checked (`CppErase.writer_eq`) |
| C91 | the statements of the generated C++ serializer (`CppGen`, `CppLang`), of the generated Python parser (`PyGen`, `PyLang`) and of the generated Go parser (`GoGen`, `GoLang`), with a text in between (`Doc`, `CppText`) | composition of the refinements C89, C80 and C86 with C63 and C64; the full claims (`C91CppPyFull`, `C91CppGoFull`) are refuted by a duration of a nanosecond and by the integer 2^53 + 1. `Verif/Props/InteropCpp.lean` |
| C92 | the statements of the generated C++ functions which parse classes and embeddable structures (`CppReadGen.reader`), run on a structure with places (`CppReadLang`), against `CppRuntime.parseComposite` and `CppRuntime.parseEmbed` | refinement: by induction on the type for values, on the items and members for the loops, on the properties, and on the depth of the stack for the calls, for every state of the target at once; the full claim (`C92Full`) is refuted by a map with an invalid entry. `Verif/Props/CppRead.lean` |
| C93 | the statements of the generated C++ function which parses the graph (`CppReadGraph.parseGraphCode`), with the functions of C92, against `CppRuntime.parseGraph` | refinement: induction on the members for the loops which allocate and parse the instances, on the classes for the registries, on the properties; every registry keeps its keys in order (`Typed`); with C52 and C54 it gives what the code accepts and the round trip from the code which serializes to the code which parses; the full claim (`C93Full`) is refuted by a map with an invalid entry. `Verif/Props/CppReadGraph.lean` |
| C94 | the statements of the generated Python serializer (`PyGen`) and of the generated Go serializer (`GoGen`), and of the generated C++ parser (`CppReadGen`, `CppReadGraph`), with a text in between (`Doc`, `PyText`, `GoText`) | composition of the refinements C83, C85 and C93 with C63 and C64; the full claims (`C94PyCppFull`, `C94GoCppFull`) are refuted by the integer 2^63 and by the least duration. `Verif/Props/InteropToCpp.lean` |
| C95 | the statements of the generated Python, Go and C++ parsers (`PyGen`, `GoGen`, `CppReadGen`, `CppReadGraph`) on the same document (`Doc`) | composition of the refinements C81, C86 and C93 with C63: what a parser accepts means a graph, and the others realise it; the full claim (`C95Full`) is refuted by a null. `Verif/Props/InteropAccept.lean` |
| C96 | the statements of the generated C++ parser (`CppReadGen`, `CppReadGraph`) | refinement C93 carries C53 (exceptions) and C55 (old contents) over to the code which is run; the length of the container is an invariant of the run; the full claim (`C96Full`) is refuted by a duration. `Verif/Props/CppReadSafe.lean` |

## Trusted base

* Lean's kernel. Every property theorem depends at most on `propext`,
  `Classical.choice` and `Quot.sound`.
* The reading of `/repo` as documented in the comment of every definition.
* External libraries enter as parameters or as explicitly written
  specifications: lexery, jsonschema, jinja2, icontract, `re`, `datetime`, pytz,
  pathlib, `json`, `encoding/json`, jsoncpp, date.h, Go's `time` and `regexp`.
* For C63: documents which repeat a key are left out, and the zones of date times are not compared.
* For C64: a float may be written with any digits which round to it; `json.dumps` writes a fraction or an exponent,
  the others may write a whole number. The escapes of strings are not modelled.

* For C80 to C84: the meaning of Python statements is the one written in `PyLang`. Its code is the one of `PyGen`, which agrees with
  the code which mapry generated for its 54 test cases with Python (`/verif/fidelity`: 306 functions and classes, as syntax
  trees without annotations and docstrings). Modules are no variables of `PyLang`; shadowed modules are the subject of C66 and C67. The
  arguments of a call are evaluated before a hidden function is looked up. The parser gets its input as a value which is not changed, not as
  objects of the heap.

* For C89 and C90: the meaning of C++ statements is the one written in `CppLang`. Its code is the one of `CppGen`, which agrees with the
  code of `CppCode` (`CppErase.writer_eq`) and with the code which mapry generated for its 60 test cases with C++ (`/verif/fidelity`: 80
  functions, token by token). The graph is passed as a `const` reference and only
  `Json::Value`s and one message are changed, so that references to parts of the graph are represented by their values. The bodies of
  `tm_to_string` and `duration_to_string` do not depend on the schema and are those of `CppRuntime`.
* For C92: the meaning of C++ statements is the one written in `CppReadLang`. The structure which is passed is one value, and a reference
  into it is a path (vectors are not resized while there are references to their items). A member to which nothing has been assigned is
  `zero`; a reference to a vector or a map sees it as empty. The code of
  `CppReadGen` and `CppReadGraph` agrees with the code which mapry generated for its 60 test cases with C++ (`/verif/fidelity`: 80 functions,
  token by token, after constants have been put where they are used).
  The bodies of `duration_from_string` and `message` do not depend on the schema and are those of `CppRuntime`.
* For C93 and C94: the same holds for the statements of `CppReadGraph`. The maps of the instances are known by the names of the classes, an
  instance is known by its class and its ID, and the buffer in which the reference of an instance is built is a text. The test of `errors`
  for a null pointer is not represented: the container is always there.
* For C85 and C86: the meaning of Go statements is the one written in `GoLang`. Its code is the one of `GoGen`, which agrees with the code
  which mapry generated for its 52 test cases with Go (`/verif/fidelity`: 140 functions, token by token without the types of
  variables). Variables are told apart by what they are for
  (`GoCode.Name`); that their texts tell them apart is the subject of C62 and C88. A zero value is one value for all types. Embedded
  structures which contain themselves through a pointer are left out: the code calls itself until the stack is exhausted. The parser
  gets its input as a value which is not changed, not as cells of the memory.

Simplifications are stated in the comment of each definition.

## Findings

The code disagrees with these properties. The negation is proved on a concrete
witness (`*_violated*`); what remains true is proved as `_partial` (or exactly
characterised).

* C02: `A__b` matches the name pattern, `ucamel_case` raises `IndexError`.
* C03: the plural of `Some_focus` is `foci`: the prefix and the capital are lost.
* C06: `%a`/`%A` become `Sun`/`Sunday`, which Go does not know; texts and
  directives merge (`20%y` is read as `2006`); the conflict check misses `Mon`; a
  format with an empty last line breaks the postcondition of `convert`.
* C14: Python's `$` accepts a trailing newline after a duration.
* C15: Go writes `math.MinInt64` nanoseconds as `-P`, which is read as zero.
* C16: `bool overflows;` in the generated C++ reader is uninitialised; if it
  happens to be true, no duration can be read.
* C35: the escape `\e` is not Go; a carriage return is lost in Go raw strings; a
  docstring ending in `"` or `\` is not a valid literal; a C++ comment line ending
  in `\` swallows the next line.
* C36: a Unicode line separator inside of a literal counts as a line end for the
  re-indention, so that the literal may be changed.
* C47: `std::stol`/`std::stod` throw on numbers out of range; nobody catches.
* C23: `async` and `await`, keywords of the supported Python 3.7 and 3.8, are
  accepted as attributes.
* C25: the errors about reserved Go type names are constructed but not returned, so
  that a class `Errors` is accepted.
* C26: the graph is not compared with the classes and embeds (`SomeGraph` and
  `Some_graph` have the same identifier) in any of the three languages.
* C29: `true` is accepted for an integer or a float (Python's `bool` is an `int`).
* C30: the bounds of a float are checked before an integer is converted. An integer
  beyond 2^53 is rounded, so that the stored float may be out of the bounds.
* C31, C33, C40: the Python serializer of classes and embeds reads the attribute
  `some_URL` of a property which the constructor and the parser store as `some_url`:
  `AttributeError` for every instance of such a class.
* C39: nothing compares the keys `json` of the properties with each other or with
  the keys of the registries; one datum overwrites another. In Go the plurals `URLs`
  and `Urls` are accepted together, both are written under `urls`.
* C43: an optional property which shares its key with a required one cannot be left
  out.
* C32: the parser raises on a registry which is `null` (`AttributeError`), on an integer beyond the range of a
  float where a float is expected (`OverflowError`), on a text which does not match a pattern or format with
  braces (the pattern is pasted into a template of `str.format`), and on inputs nested deeper than the stack.
* C48: `schema_from_json_file` raises `IndexError` for an empty file and for a file which breaks off after a line
  feed; `str.splitlines` knows more line boundaries than the JSON decoder, so that another line may be shown.
* C18: an integer with the exclusive bounds 0 and 1 is accepted; so are the bound NaN and exclusive infinite bounds
  of floats, which Python reads from JSON.
* C19: the name of the graph is accepted as a type, but the parser raises `NotImplementedError`; infinite and NaN
  bounds raise `OverflowError` and `ValueError`.
* C20, C21: the bounds of floats are converted with `int(...)`: the minimum 0.5 becomes 0.
* C22: `$` accepts a line feed at the end of the name of a property.
* C49: the validation raises `KeyError` if the values of an array or a map have no type, `TypeError` if the type is
  a list or an object, and violates the precondition of `json_plural` for the class `Some_focus`.
* C50: the patterns of the names of graphs and embeds and of the Go package have no `$`: `A b` is accepted.
* C41: a generated Go function panics if the container is not empty when it is called. The graph function calls the
  functions of the instances with the same container, so that the second faulty instance panics with `NewErrors(0)`,
  the container of the documentation. A float bound beyond 2^53 is rounded to `float64` by the compiler.
* C42: integers beyond 2^53 are written as `int64` and read back as `float64`; NaN and the infinities can be stored
  but not written.
* C51: the Go parser does not reset its target: missing optional properties and missing registries keep old data.
* C52: with `Errors(0)` nothing is recorded in C++, so that every input is accepted. With date.h a date may be followed
  by any text; with ctime everything after a NUL is ignored. `bool overflows;` is uninitialised. Float bounds beyond 2^53
  are rounded by the compiler.
* C53: `PT9223372036854775808S` throws `std::out_of_range`; with `Errors(0)` an identifier which does not match the
  pattern is looked up with `at` and throws.
* C54: a class, embed or graph of which nothing is set is serialized as `null`, which the parser rejects; the loop in
  `tm_to_string` shadows `len` and does not end if the text does not fit into four times the length of the format; the
  least duration throws.
* C55: the C++ parser merges the input into the target: optional properties, map entries and instances stay.
* C56: the types header declares `some_URL`, the parser assigns `some_url`: the generated code does not compile.
* C57: a schema without classes and properties: the generated Go parser imports `strings` and does not use it.
* C58: the same schema leaves `cast` unused; the plurals `Abcs` and `ABcs` become the same variables; an array or a map
  of date times with an empty format leaves the item unused. The generated code does not compile.
* C59: a class `Error` collides with the generated error container: the check for reserved names has no effect.
* C60: the format `%Y` followed by two line breaks, or the class `Some_focus` without a plural in a graph without
  properties pass the validation and the generation raises `ViolationError`. The bound `10^400` of a float (an integer
  in the schema, of any size in Python) raises `OverflowError` when it is formatted with `%f`.
* C62: a class `Target` in the plural `Instance`: the generated Go serializer declares `targetInstance` for the registry
  and again for the instance in the loop, and assigns to the wrong one. The generated code does not compile.
* C63: only Python accepts `null` for an optional property, `true` for an integer, an integer beyond 64 bits and `1e400`
  for a float; only Go and C++ accept `1.0` for an integer; Go reads 2^53 + 1 as 2^53; a pattern has to match at the
  start in Python, anywhere in Go and all of the text in C++.
* C64: Go and C++ reject the integer 2^63 which Python serializes; Go reads the integer 2^53 + 1 of Python and C++ as
  2^53; Python rejects the duration of one nanosecond which Go and C++ serialize as `PT0.000000001S`; C++ and Python
  read the least duration of Go, which is serialized as `-P`, as zero.
* C65: the generated module of the types imports `typing` for a schema with a single property and does not use it.
* C66: a property `self` becomes a second parameter `self` of the constructor (a `SyntaxError`); for the classes `Ab` and
  `AB` the function `ab_from` is generated twice and the second one replaces the first; a class `Shop_list` of the graph
  `ShopList` is replaced by the class of the graph; a package `typing` clashes with the module of the library.
* C67: with a property `collections` and a class, the constructor of the graph calls `collections.OrderedDict` of the
  argument; with the classes `Serialize` and `Instance`, the variable `serialize_instance` hides the function (an
  `UnboundLocalError`, or the call of an instance); for a class `Target_foo` in the plural `Foo_instance` the registry and
  the instance are the same variable; in a package `errors` the parsers look up the package in their argument.
* C68: for the classes `Ab` and `AB` the instances of the first one are parsed by the function of the second one.
* C69: the class `Some_focus` without a plural passes the validation and the generation raises `ViolationError`.
* C70: an embed with a required property of its own type becomes a Go structure which contains itself (`invalid recursive
  type`).
* C71: the header for a map of booleans contains `std::map<std::string, bool>` and does not include `<string>`.
* C72: the embeds are defined in the order of the schema, so that an embed which is used in an earlier one is an incomplete
  type there; an embed in a map of its own is incomplete for `std::map`, too (not for `std::vector`). A property `int64_t`
  or `tm` hides the type.
* C73: the parser writes the member `first` for a property `First`; `date::parse` gets a `std::optional`; a bound of 2^63 is no
  literal; the class `Double` becomes a parameter `double`; an embed `Serialize_foo` hides the function which serializes the
  embed `Foo`; the graph `Strlen` hides `strlen`; the plurals `Instance`, that of the name of the graph and so on declare a
  variable which is used for something else.
* C75: the class `Some_focus` without a plural passes the validation and the generation raises `ViolationError`.
* C76: the classes `FooBar` and `Foobar` with patterns define the constant in the same namespace `foobar_re`.
* C78: the bound 2^63 of an integer or of the size of an array overflows the type it is compared with, and a bound of a float
  of more than 512 bits is no constant for the compiler gc. The generated Go code does not compile.
* C80: of two composites whose names differ in the case of letters (`FooBar` and `Foobar`), the later functions replace the earlier
  ones, so that an instance of the one is parsed as an instance of the other; a class with the identifier of the graph (class
  `Sho_p`, graph `ShoP`) makes the code raise a `TypeError`. These are consequences of C66.
* C83: of the classes `FooBar` and `Foobar` the first one is serialized as the second one; with the classes `Instance` and
  `Serialize` the generated serializer raises an `UnboundLocalError`; for a class `Target_foo` in the plural `Foo_instance` it
  assigns an item of an instance, a `TypeError`. These are consequences of C66 and C67.
* C84: a property `some_URL` of a class is parsed into the attribute `some_url`, and the serializer raises an `AttributeError`
  (as C31 and C40).
* C89: for a graph `Single` with a class in the plural `Single`, the variable `single_as_value` of the registry hides the one of the graph.
  The code compiles, the instances are written into the inner variable, and the serializer returns null: the instances are lost
  without an error. The counter of the loop over a vector is an `int` and overflows after 2^31 - 1 items. An optional time zone is
  dereferenced twice, so that a null pointer in it is undefined behaviour.
* C91: the Python code rejects the duration of a nanosecond which the C++ code writes, and the Go code reads the integer 2^53 for
  2^53 + 1 without an error (consequences of C64).
* C92: if an entry of a map is not valid, the structure differs from the one of `CppRuntime`: the code leaves the key out, the model adds
  it with an empty value. This is a simplification of the model which shows only beside reported errors.
* C93: the same difference in the instances of a graph. It shows only beside reported errors.
* C94: the C++ code rejects the integer 2^63 which the Python code writes, and reads the duration zero for the least duration which the
  Go code writes as `-P`, without an error (consequences of C64).
* C95: the Python code accepts null for an optional property and the C++ code rejects it (a consequence of C63).
* C96: the statements of the C++ parser throw `std::out_of_range` on `PT9223372036854775808S` (as C53).

C79 does not cover the text of string literals (C35) and the bodies of the fixed helper functions for durations and
errors. `int` has 64 bits.
