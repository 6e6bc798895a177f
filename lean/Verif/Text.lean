import Verif.Strftime
import Verif.Schema
import Verif.Traverse

/-!
# Model of the functions which produce pieces of text

`escaped_str`, `ticked_str`, `comment`, `docstring`, `reindent`, `AutoID` and `order_by_optional`.
-/

namespace Mapry.Text

open Mapry.Strftime (isLineBreak splitlines)

/-! ## String literals -/

/-- `text.replace(src, tgt)` where `src` is a single character. -/
def replaceChar (src : Char) (tgt : Str) (text : Str) : Str :=
  text.flatMap fun c => if c = src then tgt else [c]

/-- The mapping of `/repo/mapry/cpp/generate/__init__.py:134-146` and
`/repo/mapry/go/generate/__init__.py:106-118` (identical), in the order of replacement. -/
def escapeMapping : List (Char × Str) :=
  [('\\', c!"\\\\"), ('"', c!"\\\""), ('\x07', c!"\\a"), ('\x08', c!"\\b"), ('\t', c!"\\t"),
   ('\n', c!"\\n"), ('\x0b', c!"\\v"), ('\x0c', c!"\\f"), ('\r', c!"\\r"), ('\x1b', c!"\\e")]

/-- `/repo/mapry/cpp/generate/__init__.py:121-153` and `/repo/mapry/go/generate/__init__.py:89-124`
`escaped_str` (the same in both languages): one replacement after another. -/
def escapedStr (text : Str) : Str :=
  '"' :: (escapeMapping.foldl (fun result st => replaceChar st.1 st.2 result) text) ++ ['"']

/-- One part of the loop in `/repo/mapry/go/generate/__init__.py:149-153` for `i > 0`. -/
def tickedPart (part : Str) : Str := c!"+\"`\"+\n    `" ++ part ++ ['`']

/-- `/repo/mapry/go/generate/__init__.py:127-155` `ticked_str` -/
def tickedStr (text : Str) : Str :=
  match splitChar '`' text with
  | [] => []
  | part :: parts => ['`'] ++ part ++ ['`'] ++ parts.flatMap tickedPart

/-! ## Comments -/

/-- `str.isspace` of a single character (Unicode white space as defined by Python). -/
def isSpace (c : Char) : Bool :=
  let n := c.toNat
  (9 ≤ n && n ≤ 13) || (0x1c ≤ n && n ≤ 0x20) || n = 0x85 || n = 0xa0 || n = 0x1680 ||
  (0x2000 ≤ n && n ≤ 0x200a) || n = 0x2028 || n = 0x2029 || n = 0x202f || n = 0x205f || n = 0x3000

/-- One line of a comment: `if line.strip():`. -/
def commentLine (mark : Str) (line : Str) : Str :=
  if line.all isSpace then mark else mark ++ [' '] ++ line

/-- `/repo/mapry/py/generate/__init__.py:15-29`, `/repo/mapry/go/generate/__init__.py:15-29` and
`/repo/mapry/cpp/generate/__init__.py:11-25` `comment`; they differ only in the mark (`#` or
`//`). -/
def comment (mark : Str) (text : Str) : Str :=
  joinWith ['\n'] ((splitlines text).map (commentLine mark))

/-! ## Docstrings -/

/-- `text.replace('"""', '\\"\\"\\"')`: non-overlapping, from left to right. -/
def replaceTriple : Str → Str
  | [] => []
  | [a] => [a]
  | [a, b] => [a, b]
  | a :: b :: c :: cs =>
    if a = '"' ∧ b = '"' ∧ c = '"' then c!"\\\"\\\"\\\"" ++ replaceTriple cs
    else a :: replaceTriple (b :: c :: cs)

/-- `/repo/mapry/py/generate/__init__.py:108-144` `docstring`. The empty text violates the
precondition. The postconditions on the prefix and suffix always hold. -/
def docstring (text : Str) : Except Exc Str :=
  if text = [] then .error .violation
  else
    let hasBackslash := text.contains '\\'
    let hasTriple := isInfixB c!"\"\"\"" text
    let content := if hasTriple then replaceTriple (replaceChar '\\' c!"\\\\" text) else text
    let isRaw := !hasTriple && hasBackslash
    let start := if isRaw then ['r'] else []
    .ok <|
      if (splitlines text).length > 1 then start ++ c!"\"\"\"\n" ++ content ++ c!"\n\"\"\""
      else start ++ c!"\"\"\"" ++ content ++ c!"\"\"\""

/-! ## Indention -/

/-- `str.splitlines(keepends=True)` -/
def splitlinesKeep : Str → List Str
  | [] => []
  | c :: cs =>
    if c = '\r' ∧ cs.head? = some '\n' then
      -- the line break `\r\n`: the `\n` is the line produced next
      match splitlinesKeep cs with
      | [] => [[c]]
      | l :: ls => (c :: l) :: ls
    else if isLineBreak c then [c] :: splitlinesKeep cs
    else match splitlinesKeep cs with
      | [] => [[c]]
      | l :: ls => (c :: l) :: ls

def isBlankChar (c : Char) : Bool := c = ' ' || c = '\t'

/-- The longest common prefix: the margin computed by the loop over `indents` in
`textwrap.dedent`. -/
def commonPrefix : Str → Str → Str
  | a :: as, b :: bs => if a = b then a :: commonPrefix as bs else []
  | _, _ => []

/-- The margin of the lines which contain something else than blanks and tabs; `none` if there is no
such line. -/
def marginOf : List Str → Option Str
  | [] => none
  | l :: ls =>
    if l.all isBlankChar then marginOf ls
    else match marginOf ls with
      | none => some (l.takeWhile isBlankChar)
      | some m => some (commonPrefix (l.takeWhile isBlankChar) m)

/-- What `textwrap.dedent` does with a line. -/
def dedentLine (margin : Str) (line : Str) : Str :=
  if line.all isBlankChar then [] else line.drop margin.length

/-- `textwrap.dedent` (standard library): the lines are separated by `\n`; lines of blanks and tabs
are emptied; the longest common leading blank prefix of the other lines is removed. -/
def dedent (text : Str) : Str :=
  let lines := splitChar '\n' text
  joinWith ['\n'] (lines.map (dedentLine ((marginOf lines).getD [])))

/-- Match of `^([ ]{4})+` at the start of a line: the number of blocks and the remaining line. -/
def stripBlocks : Str → Nat × Str
  | a :: b :: c :: d :: cs =>
    if a = ' ' ∧ b = ' ' ∧ c = ' ' ∧ d = ' ' then ((stripBlocks cs).1 + 1, (stripBlocks cs).2)
    else (0, a :: b :: c :: d :: cs)
  | s => (0, s)

/-- The body of the loop in `/repo/mapry/indention.py:42-57`. -/
def reindentLine (level : Nat) (indention : Str) (line : Str) : Str :=
  (List.replicate ((stripBlocks line).1 + level) indention).flatten ++ (stripBlocks line).2

/-- `/repo/mapry/indention.py:9-59` `reindent` (for a non-negative level). -/
def reindent (text : Str) (level : Nat) (indention : Str) : Str :=
  ((splitlinesKeep (dedent text)).map (reindentLine level indention)).flatten

/-! ## Identifiers -/

/-- `str(n)` for a non-negative integer. -/
def natStr (n : Nat) : Str := Nat.toDigits 10 n

/-- `/repo/mapry/py/generate/__init__.py:158-177` and `/repo/mapry/go/generate/__init__.py:193-212`
`AutoID` (also used for C++): the state is the next identifier. -/
structure AutoID where
  next : Nat := 0

def AutoID.nextIdentifier (a : AutoID) : Str × AutoID := (natStr a.next, ⟨a.next + 1⟩)

/-- The results of `n` requests one after another. -/
def AutoID.requests : Nat → AutoID → List Str
  | 0, _ => []
  | n + 1, a => a.nextIdentifier.1 :: AutoID.requests n a.nextIdentifier.2

/-! ## Properties of a constructor -/

/-- `/repo/mapry/py/generate/__init__.py:147-155` `order_by_optional`: a stable sort by a boolean
key (`False < True`). -/
def orderByOptional (ps : List Property) : List Property :=
  Traverse.sortBy (fun p q => !p.optional || q.optional) ps

end Mapry.Text
