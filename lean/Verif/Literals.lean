import Verif.Basic

/-!
# External specifications: how the target languages read literals and comments

These readers follow the language references and are independent of the generator. Escape
sequences which take a number (octal, hexadecimal, Unicode) are not read (`none`); so a positive
statement about a reader is not affected by this restriction.
-/

namespace Mapry.Literals

/-- Read an interpreted string literal after its opening quote: `esc` maps the character after a
backslash to its meaning, `raw` tells which characters stand for themselves. The closing quote must
be the end of the text. -/
def readQuoted (esc : Char → Option Char) (raw : Char → Bool) : Str → Option Str
  | [] => none
  | c :: cs =>
    if c = '"' then if cs = [] then some [] else none
    else if c = '\\' then
      match cs with
      | [] => none
      | e :: cs' =>
        match esc e, readQuoted esc raw cs' with
        | some x, some r => some (x :: r)
        | _, _ => none
    else if raw c then
      match readQuoted esc raw cs with
      | some r => some (c :: r)
      | none => none
    else none

/-- Simple escape sequences common to C++ and Go (in a string literal). -/
def commonEsc (c : Char) : Option Char :=
  if c = '\\' then some '\\' else if c = '"' then some '"'
  else if c = 'a' then some '\x07' else if c = 'b' then some '\x08'
  else if c = 'f' then some '\x0c' else if c = 'n' then some '\n'
  else if c = 'r' then some '\r' else if c = 't' then some '\t'
  else if c = 'v' then some '\x0b' else none

/-- Simple escape sequences of C++ ([lex.ccon]); `\e` is an extension of GCC and Clang. -/
def cppEsc (gnu : Bool) (c : Char) : Option Char :=
  if c = '\'' then some '\'' else if c = '?' then some '?'
  else if c = 'e' then (if gnu then some '\x1b' else none) else commonEsc c

/-- A C++ string literal; trigraphs (removed in C++17, disabled in the GNU modes) are not
considered. -/
def readCpp (gnu : Bool) : Str → Option Str
  | [] => none
  | c :: cs => if c = '"' then readQuoted (cppEsc gnu) (fun c => c ≠ '\n') cs else none

/-- The `std::string` (or the key of a JSON object) made of a C++ literal through a pointer to its
first character: it ends at the first NUL character. -/
def cppString (gnu : Bool) (literal : Str) : Option Str :=
  (readCpp gnu literal).map (fun s => s.takeWhile (fun c => c ≠ '\x00'))

/-- Characters which the Go compiler refuses in a source file: NUL and the byte order mark. -/
def goSourceChar (c : Char) : Bool := c ≠ '\x00' && c ≠ '\ufeff'

/-- An interpreted string literal of Go. -/
def readGo : Str → Option Str
  | [] => none
  | c :: cs =>
    if c = '"' then readQuoted commonEsc (fun c => c ≠ '\n' && goSourceChar c) cs else none

/-- A raw string literal of Go after the opening tick: the value (carriage returns are discarded) and
the text after the closing tick. -/
def readRaw : Str → Option (Str × Str)
  | [] => none
  | c :: cs =>
    if c = '`' then some ([], cs)
    else if goSourceChar c then
      match readRaw cs with
      | some (v, rest) => some (if c = '\r' then v else c :: v, rest)
      | none => none
    else none

def skipBlanks : Str → Str
  | [] => []
  | c :: cs => if c = ' ' ∨ c = '\t' ∨ c = '\n' ∨ c = '\r' then skipBlanks cs else c :: cs

/-- Position after the closing quote of an interpreted literal (given the text after the opening
quote): the literal with its closing quote, and the rest. -/
def spanQuoted : Str → Option (Str × Str)
  | [] => none
  | c :: cs =>
    if c = '"' then some (['"'], cs)
    else if c = '\\' then
      match cs with
      | [] => none
      | e :: cs' =>
        match spanQuoted cs' with
        | some (l, rest) => some ('\\' :: e :: l, rest)
        | none => none
    else
      match spanQuoted cs with
      | some (l, rest) => some (c :: l, rest)
      | none => none

/-- One string literal of Go at the start of the text: the value and the rest. -/
def goOperand (s : Str) : Option (Str × Str) :=
  match skipBlanks s with
  | [] => none
  | c :: cs =>
    if c = '`' then readRaw cs
    else if c = '"' then
      match spanQuoted cs with
      | some (l, rest) => (readGo ('"' :: l)).map (fun v => (v, rest))
      | none => none
    else none

/-- A Go constant expression: string literals joined by `+`. The `+` must be on the line of the
operand before it (otherwise Go inserts a semicolon), hence no skipping before `+`. The number bounds
the operands. -/
def goExpr : Nat → Str → Option Str
  | 0, _ => none
  | n + 1, s =>
    match goOperand s with
    | none => none
    | some (v, rest) =>
      match rest with
      | [] => some v
      | c :: cs =>
        if c = '+' then
          match goExpr n cs with
          | some w => some (v ++ w)
          | none => none
        else none

/-- Python reads source files with universal newlines. -/
def normalizeNewlines : Str → Str
  | [] => []
  | c :: cs =>
    if c = '\r' then
      if cs.head? = some '\n' then normalizeNewlines cs else '\n' :: normalizeNewlines cs
    else c :: normalizeNewlines cs

/-- Escape sequences of a Python string literal with a single character as value. -/
def pyEsc (c : Char) : Option Char :=
  if c = '\'' then some '\'' else commonEsc c

/-- Body of a Python literal with triple quotes, after the opening quotes. A backslash in front of
the end of the line (line continuation) is not read. -/
def readTriple (raw : Bool) : Str → Option Str
  | [] => none
  | c :: cs =>
    if c = '"' ∧ cs.take 2 = ['"', '"'] then (if cs.drop 2 = [] then some [] else none)
    else if c = '\\' then
      match cs with
      | [] => none
      | e :: cs' =>
        match readTriple raw cs' with
        | none => none
        | some r => if raw then some (c :: e :: r) else (pyEsc e).map (fun x => x :: r)
    else
      match readTriple raw cs with
      | some r => some (c :: r)
      | none => none

/-- A Python literal with triple quotes (optionally raw). -/
def readPyNormalized : Str → Option Str
  | 'r' :: '"' :: '"' :: '"' :: cs => readTriple true cs
  | '"' :: '"' :: '"' :: cs => readTriple false cs
  | _ => none

/-- A Python literal with triple quotes in a source file. -/
def readPy (s : Str) : Option Str := readPyNormalized (normalizeNewlines s)

/-- Logical lines of C++: a backslash at the end of a line joins it with the next line (translation
phase 2). The first argument is the number of lines to be joined at most. -/
def logicalLines : Nat → List Str → List Str
  | 0, ls => ls
  | _, [] => []
  | _, [l] => [l]
  | n + 1, l :: m :: ls =>
    if l.getLast? = some '\\' then logicalLines n ((l.dropLast ++ m) :: ls)
    else l :: logicalLines n (m :: ls)

/-- The logical lines of C++ which are not line comments. -/
def cppCodeLines (text : Str) : List Str :=
  let ls := splitChar '\n' text
  (logicalLines ls.length ls).filter (fun l => !c!"//".isPrefixOf l)

end Mapry.Literals
