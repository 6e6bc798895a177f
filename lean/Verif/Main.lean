import Verif.LangValidate

/-!
# The command line: `/repo/mapry/main.py`

The effects are the files of the output directory and the lines printed. What the generators return, what
the parser of the schema returns and where the file system fails are parameters.
-/

namespace Mapry.Main

open Mapry.LangValidate

/-- What is at a path of the file system -/
inductive Node where
  | missing
  | dir
  | file
  deriving DecidableEq, Repr

/-- The output directory and the printed lines -/
structure World where
  /-- what is at the path of the output directory -/
  outdir : Node
  /-- the files of the output directory -/
  files : Str → Option Str
  out : List Str := []
  err : List Str := []

/-- The outcome of `write_text`: the text is written, the file cannot be opened, or the program stops after
the file was truncated and the first `n` characters were written. -/
inductive Write where
  | done
  | refused
  | torn (n : Nat)
  deriving DecidableEq, Repr

/-- The file system: the outcome of `mkdir` of a missing directory, and of the `k`-th write -/
structure Io where
  mkdir : Bool
  write : Nat → Write

/-- `path.write_text(code)` -/
def setFile (name code : Str) (w : World) : World :=
  { w with files := fun n => if n = name then some code else w.files n }

/-- The loop at the end of the generation, `/repo/mapry/main.py:79-81`, `132-134` and `183-185`; `k` files
were written before. -/
def writeFiles (io : Io) : Nat → List (Str × Str) → World → Except Exc Unit × World
  | _, [], w => (.ok (), w)
  | k, (name, code) :: rest, w =>
    match io.write k with
    | .done => writeFiles io (k + 1) rest (setFile name code w)
    | .refused => (.error .osError, w)
    | .torn n => (.error .osError, setFile name (code.take n) w)

/-- `path.mkdir(exist_ok=True, parents=True)` -/
def makeDir (io : Io) (w : World) : Except Exc Unit × World :=
  match w.outdir with
  | .dir => (.ok (), w)
  | .file => (.error .osError, w)
  | .missing => if io.mkdir then (.ok (), { w with outdir := .dir }) else (.error .osError, w)

/-- The construction of `filename_to_code`: every generator is called, an exception propagates. -/
def callAll : List (Str × Except Exc Str) → Except Exc (List (Str × Str))
  | [] => .ok []
  | (name, code) :: rest => do
    let code ← code
    let rest ← callAll rest
    return (name, code) :: rest

/-- `print(..., file=sys.stderr)` -/
def printErr (lines : List Str) (w : World) : World := { w with err := w.err ++ lines }

/-- `/repo/mapry/main.py:83` -/
def printDone (w : World) : World := { w with out := w.out ++ [c!"Files generated in"] }

/-- What differs between the languages: the outcome of the validation, the presence of the settings in the
schema, the message if they are absent, the generators in their order and if the directory is made again. -/
structure Job where
  errors : Except Exc (List SErr)
  settings : Bool
  noSettings : Str
  generators : List (Str × Except Exc Str)
  mkdir : Bool

/-- The common course of `generate_cpp`, `generate_go` and `generate_py`,
`/repo/mapry/main.py:36-86`, `89-139` and `142-190`. The lines with the validation errors are represented by
their references. -/
def generate (io : Io) (job : Job) (w : World) : Except Exc Nat × World :=
  if w.outdir = .missing then (.error .violation, w)
  else
    match job.errors with
    | .error x => (.error x, w)
    | .ok (e :: es) => (.ok 1, printErr (c!"Schema failed to validate:" :: (e :: es).map (·.ref)) w)
    | .ok [] =>
      if !job.settings then (.ok 1, printErr [job.noSettings] w)
      else
        match callAll job.generators with
        | .error x => (.error x, w)
        | .ok codes =>
          match (if job.mkdir then makeDir io w else (.ok (), w)) with
          | (.error x, w) => (.error x, w)
          | (.ok _, w) =>
            match writeFiles io 0 codes w with
            | (.error x, w) => (.error x, w)
            | (.ok _, w) => (.ok 0, printDone w)

/-- A parsed schema: the graph and which settings are present -/
structure Schema where
  graph : Graph
  cpp : Bool := false
  go : Bool := false
  py : Bool := false

/-- The generators: the code of a file -/
abbrev Generators := Graph → Str → Except Exc Str

/-- `generate_cpp`, `/repo/mapry/main.py:36-86` -/
def jobCpp (G : Generators) (s : Schema) : Job where
  errors := validateSchema cpp s.graph
  settings := s.cpp
  noSettings := c!"Expected the C++ settings to be set in the schema, but found none (no \"cpp\" field)"
  generators := [c!"types.h", c!"parse.h", c!"parse.cpp", c!"jsoncpp.h", c!"jsoncpp.cpp"].map
    fun name => (name, G s.graph name)
  mkdir := false

/-- `generate_go`, `/repo/mapry/main.py:89-139` -/
def jobGo (G : Generators) (s : Schema) : Job where
  errors := goValidateSchema s.graph
  settings := s.go
  noSettings := c!"Expected the C++ settings to be set in the schema, but found none (no \"go\" field)"
  generators := [c!"types.go", c!"parse.go", c!"from_jsonable.go", c!"from_jsonable_test.go",
    c!"to_jsonable.go", c!"to_jsonable_test.go"].map fun name => (name, G s.graph name)
  mkdir := true

/-- `generate_py`, `/repo/mapry/main.py:142-190` -/
def jobPy (G : Generators) (s : Schema) : Job where
  errors := validateSchema py s.graph
  settings := s.py
  noSettings := c!"Expected the Python settings to be set in the schema, but found none (no \"py\" field)"
  generators := [c!"__init__.py", c!"parse.py", c!"fromjsonable.py", c!"tojsonable.py"].map
    fun name => (name, G s.graph name)
  mkdir := true

/-- `run` after the parsing of the arguments, `/repo/mapry/main.py:232-269`; `schemaAt` is what is at the
path of the schema and `parsed` the outcome of `mapry.parse.schema_from_json_file`. -/
def run (io : Io) (G : Generators) (command : Str) (schemaAt : Node) (parsed : Except Exc Schema) (w : World) :
    Except Exc Nat × World :=
  match schemaAt with
  | .missing => (.ok 1, printErr [c!"Schema does not exist"] w)
  | .dir => (.ok 1, printErr [c!"Schema must be a file"] w)
  | .file =>
    match parsed with
    | .error x => (.error x, w)
    | .ok s =>
      match makeDir io w with
      | (.error x, w) => (.error x, w)
      | (.ok _, w) =>
        if command = c!"cpp" then generate io (jobCpp G s) w
        else if command = c!"go" then generate io (jobGo G s) w
        else if command = c!"py" then generate io (jobPy G s) w
        else (.error (.notImplemented (c!"command: " ++ command)), w)

/-! ## Errors in the encoding of the schema -/

/-- The line boundaries of `str.splitlines` -/
def isLineBreak (c : Char) : Bool :=
  c ∈ ['\n', '\r', Char.ofNat 0x0b, Char.ofNat 0x0c, Char.ofNat 0x1c, Char.ofNat 0x1d, Char.ofNat 0x1e,
    Char.ofNat 0x85, Char.ofNat 0x2028, Char.ofNat 0x2029]

/-- `str.splitlines()` of a text read with universal newlines, so that there is no carriage return in it -/
def splitLines : Str → List Str
  | [] => []
  | c :: cs =>
    if isLineBreak c then [] :: splitLines cs
    else match splitLines cs with
      | [] => [[c]]
      | l :: ls => (c :: l) :: ls

/-- The attributes `lineno` and `colno` of `json.JSONDecodeError` at the position `pos` of the text
(CPython, `Lib/json/decoder.py`): the line feeds before the position, and the distance to the last one. -/
def lineNo (text : Str) (pos : Nat) : Nat := (text.take pos).count '\n' + 1
def colNo (text : Str) (pos : Nat) : Nat := ((text.take pos).reverse.takeWhile (· ≠ '\n')).length + 1

/-- The caret under the position, `/repo/mapry/parse.py:393-400` -/
def cursor (line : Str) (colno : Nat) : Str :=
  (line.take (colno - 1)).map (fun c => if c = ' ' ∨ c = '\t' then c else ' ') ++ ['^']

/-- The report of a `json.JSONDecodeError` at the position `pos`, `/repo/mapry/parse.py:389-413`. The text of
the error itself is `msg`. -/
def decodeError (path text : Str) (pos : Nat) (msg : Str) : Exc :=
  match (splitLines text)[lineNo text pos - 1]? with
  | none => .indexError
  | some line =>
    if line.length ≤ 120 then
      .runtimeError (c!"Failed to json-decode " ++ path ++ c!":\n" ++ line ++ c!"\n" ++
        cursor line (colNo text pos) ++ c!"\n" ++ msg)
    else .runtimeError (c!"Failed to json-decode " ++ path ++ c!": " ++ msg)

end Mapry.Main
