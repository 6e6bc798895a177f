import Verif.Basic

/-!
# Model of `mapry/strftime.py` and `mapry/go/timeformat.py`

The lexer comes from the external library lexery. Its specification is part of the trusted base:
`Lexer.lex` splits the text with `str.splitlines` and lexes every line independently; at every
position the rules are tried in the given order; if no rule matches, `lexery.Error` is raised.
-/

namespace Mapry.Strftime

/-- `lexery.Token` as produced by the two rules of `/repo/mapry/strftime.py:9-14`. The content of
`directive c` is `%c`. -/
inductive Tok where
  | directive (c : Char)
  | text (s : Str)
  deriving DecidableEq, Repr

/-- The letter of a directive token. -/
def Tok.directive? : Tok → Option Char
  | .directive c => some c
  | .text _ => none

/-- `token.content` -/
def Tok.content : Tok → Str
  | .directive c => ['%', c]
  | .text s => s

/-- The line boundaries of Python's `str.splitlines` (except that `\r\n` is one boundary). -/
def isLineBreak (c : Char) : Bool :=
  c ∈ ['\n', '\r', '\x0b', '\x0c', '\x1c', '\x1d', '\x1e', '\u0085', '\u2028', '\u2029']

/-- `str.splitlines()` (the line ends are not kept). The second argument of the worker is the line
read so far; `none` means that no character follows the last line break. -/
def splitlinesAux : Option Str → Str → List Str
  | none, [] => []
  | some acc, [] => [acc]
  | acc, '\r' :: '\n' :: cs => acc.getD [] :: splitlinesAux none cs
  | acc, c :: cs =>
    if isLineBreak c then acc.getD [] :: splitlinesAux none cs
    else splitlinesAux (some (acc.getD [] ++ [c])) cs

/-- `str.splitlines()` -/
def splitlines (s : Str) : List Str := splitlinesAux none s

/-- Put a character in front of the tokens of the remaining text; the rule `[^%]+` is greedy, so
the character extends a text token which follows. -/
def consText (c : Char) : List Tok → List Tok
  | .text t :: ts => .text (c :: t) :: ts
  | ts => .text [c] :: ts

/-- Lexing of one line with the rules `%[a-zA-Z%]` and `[^%]+` of
`/repo/mapry/strftime.py:9-14`. -/
def lexLine : Str → Except Exc (List Tok)
  | [] => .ok []
  | ['%'] => .error .lexError
  | '%' :: c :: cs =>
    if c.isAlpha || c = '%' then do
      let ts ← lexLine cs
      return .directive c :: ts
    else .error .lexError
  | c :: cs => do
    let ts ← lexLine cs
    return consText c ts

/-- Lexing of all the lines in order. -/
def lexLines : List Str → Except Exc (List (List Tok))
  | [] => .ok []
  | l :: ls => do
    let ts ← lexLine l
    let tss ← lexLines ls
    return ts :: tss

/-- The letters of `/repo/mapry/strftime.py:23-43` `SUPPORTED_DIRECTIVES`. -/
def supported : List Char := c!"aAbBdemyYHIlMPpSzZ%"

/-- The letters of `/repo/mapry/strftime.py:46-59` `DATE_DIRECTIVES`. -/
def dateDirectives : List Char := c!"aAbBdemyYzZ%"

/-- The letters of `/repo/mapry/strftime.py:62-73` `TIME_DIRECTIVES`. -/
def timeDirectives : List Char := c!"HIlMPpSzZ%"

/-- Insertion into an ordered dictionary used as an ordered set. -/
def insertKey (acc : List Char) (c : Char) : List Char := if c ∈ acc then acc else acc ++ [c]

/-- The body of the loop of `/repo/mapry/strftime.py:96-99`. -/
def unsupportedStep (acc : List Char) : Tok → List Char
  | .directive c => if c ∉ supported then insertKey acc c else acc
  | .text _ => acc

/-- The loop of `/repo/mapry/strftime.py:94-99`: the unsupported directives in the order of their
first occurrence. -/
def unsupportedOf (tss : List (List Tok)) : List Char := tss.flatten.foldl unsupportedStep []

/-- `/repo/mapry/strftime.py:76-106` `tokenize`. -/
def tokenize (format : Str) : Except Exc (List (List Tok)) := do
  let tss ← lexLines (splitlines format)
  let unsupported := unsupportedOf tss
  if unsupported ≠ [] then
    .error (.notImplemented (c!"unsupported directive(s): " ++
      joinWith c!", " (unsupported.map fun c => ['%', c])))
  else return tss

/-- First token which is a directive outside of the given set
(the loops of `/repo/mapry/strftime.py:120-126` and `142-148`). -/
def firstUnexpected (allowed : List Char) : List Tok → Option Char
  | [] => none
  | .directive c :: ts => if c ∉ allowed then some c else firstUnexpected allowed ts
  | .text _ :: ts => firstUnexpected allowed ts

/-- `/repo/mapry/strftime.py:109-128` and `131-150` `validate_date_tokens` and
`validate_time_tokens`; `kind` is the word used in the message. -/
def validateTokens (allowed : List Char) (kind : Str) (tss : List (List Tok)) : Option Str :=
  if (tss.map List.length).sum = 0 then some c!"Unexpected empty format"
  else (firstUnexpected allowed tss.flatten).map fun c =>
    c!"Unexpected directive '%" ++ [c] ++ c!"' in a " ++ kind ++ c!" format"

/-- `validate_date_tokens` -/
def validateDateTokens := validateTokens dateDirectives c!"date"

/-- `validate_time_tokens` -/
def validateTimeTokens := validateTokens timeDirectives c!"time"

/-- `/repo/mapry/validation.py:276-296` `_validate_date`, reduced to whether the format gives an
error. -/
def dateFormatOk (format : Str) : Bool :=
  match tokenize format with
  | .error _ => false
  | .ok tss => (validateDateTokens tss).isNone

/-- `/repo/mapry/validation.py:299-319` `_validate_time`. -/
def timeFormatOk (format : Str) : Bool :=
  match tokenize format with
  | .error _ => false
  | .ok tss => (validateTimeTokens tss).isNone

/-- `/repo/mapry/validation.py:322-337` `_validate_datetime`. -/
def datetimeFormatOk (format : Str) : Bool :=
  match tokenize format with
  | .error _ => false
  | .ok _ => true

/-! ## Go layouts -/

/-- `/repo/mapry/go/timeformat.py:10-30` `_STRFTIME_TO_GO`. -/
def goTable : List (Char × Str) :=
  [ ('a', c!"Sun"), ('A', c!"Sunday"), ('b', c!"Jan"), ('B', c!"January"), ('d', c!"02"),
    ('e', c!"_2"), ('m', c!"01"), ('y', c!"06"), ('Y', c!"2006"), ('H', c!"15"), ('I', c!"03"),
    ('l', c!"3"), ('M', c!"04"), ('P', c!"pm"), ('p', c!"PM"), ('S', c!"05"), ('z', c!"-0700"),
    ('Z', c!"MST"), ('%', c!"%") ]

/-- The inner loop of `/repo/mapry/go/timeformat.py:56-63`. -/
def convertTok : Tok → Except Exc Str
  | .directive c =>
    match goTable.lookup c with
    | some s => .ok s
    | none => .error .assertionError
  | .text s => .ok s

/-- One line of tokens. -/
def convertLine : List Tok → Except Exc Str
  | [] => .ok []
  | t :: ts => do
    let s ← convertTok t
    let rest ← convertLine ts
    return s ++ rest

/-- All the lines, to be joined by a line break. -/
def convertLines : List (List Tok) → Except Exc (List Str)
  | [] => .ok []
  | l :: ls => do
    let s ← convertLine l
    let rest ← convertLines ls
    return s :: rest

/-- `/repo/mapry/go/timeformat.py:33-65` `convert` with its postcondition. -/
def convert (format : Str) : Except Exc Str := do
  let tss ← tokenize format
  let parts ← convertLines tss
  let result := joinWith ['\n'] parts
  if endsWith ['\n'] result then .error .violation else return result

/-- `/repo/mapry/go/validation.py:234-253` `_GO_TIME_FORMAT_DIRECTIVES`. -/
def goConflicts : List Str :=
  [ c!"Sunday", c!"Sun", c!"January", c!"Jan", c!"02", c!"_2", c!"01", c!"2006", c!"06", c!"15",
    c!"03", c!"3", c!"04", c!"pm", c!"PM", c!"05", c!"-0700", c!"MST" ]

/-- The first directive of the list which occurs in a text token
(`/repo/mapry/go/validation.py:288-289`). -/
def tokConflict : Tok → Option Str
  | .text s => goConflicts.find? (fun d => isInfixB d s)
  | .directive _ => none

/-- The loop over the text tokens in `/repo/mapry/go/validation.py:287-308`: one conflicting
directive (the first one) for every text token with a conflict. -/
def goFormatConflicts (toks : List Tok) : List Str :=
  toks.filterMap tokConflict

/-- The format passes `/repo/mapry/go/validation.py:259-309` `_validate_date_time_formats`. -/
def goFormatOk (format : Str) : Bool :=
  match tokenize format with
  | .error _ => false
  | .ok tss => (goFormatConflicts tss.flatten).isEmpty

end Mapry.Strftime
