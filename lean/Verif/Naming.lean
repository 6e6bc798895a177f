import Verif.Basic

/-!
# Model of `mapry/naming.py`, `mapry/py/naming.py` and `mapry/cpp/naming.py`
-/

namespace Mapry.Naming

/-- `/repo/mapry/naming.py:8-31` `split_identifier`. -/
def splitIdentifier (identifier : Str) : List Str := splitChar '_' identifier

/-- `/repo/mapry/naming.py:34-41` `PLURAL_TABLE` after the loop which adds the capital words. -/
def pluralTable : List (Str × Str) :=
  [ (c!"criterion", c!"criteria"), (c!"minimum", c!"minima"), (c!"maximum", c!"maxima"),
    (c!"matrix", c!"matrices"), (c!"life", c!"lives"), (c!"focus", c!"foci"),
    (c!"Criterion", c!"Criteria"), (c!"Minimum", c!"Minima"), (c!"Maximum", c!"Maxima"),
    (c!"Matrix", c!"Matrices"), (c!"Life", c!"Lives"), (c!"Focus", c!"Foci") ]

/-- `/repo/mapry/naming.py:48-91` `plural`.
`parts[-1]` never fails since `str.split` returns at least one part. -/
def plural (identifier : Str) : Str :=
  let lastPart := (splitIdentifier identifier).getLast (splitChar_ne_nil _ _)
  match pluralTable.lookup lastPart with
  | some p => p
  | none =>
    if endsWith c!"ay" lastPart || endsWith c!"ey" lastPart || endsWith c!"iy" lastPart
        || endsWith c!"oy" lastPart || endsWith c!"uy" lastPart then
      identifier ++ c!"s"
    else if endsWith c!"y" lastPart then
      identifier.dropLast ++ c!"ies"
    else if endsWith c!"x" lastPart || endsWith c!"s" lastPart then
      identifier ++ c!"es"
    else
      identifier ++ c!"s"

/-- `/repo/mapry/naming.py:94-108` `json_plural` with its precondition. -/
def jsonPlural (aPlural : Str) : Except Exc Str :=
  match aPlural with
  | [] => .error .violation
  | c :: _ => if isUpper c then .ok (lower aPlural) else .error .violation

/-- `part[0].upper() + part[1:]` (`/repo/mapry/naming.py:143`, `176`, `179`); `part[0]` raises an
`IndexError` on the empty part. -/
def capitalize : Str → Except Exc Str
  | [] => .error .indexError
  | c :: cs => .ok (c.toUpper :: cs)

/-- The loop over `parts[1:]` in `/repo/mapry/naming.py:142-143` and `178-179` followed by
`''.join`. -/
def capitalizeAll : List Str → Except Exc Str
  | [] => .ok []
  | p :: ps => do
    let q ← capitalize p
    let qs ← capitalizeAll ps
    return q ++ qs

/-- `/repo/mapry/naming.py:111-145` `camel_case` with its pre- and postconditions. -/
def camelCase (identifier : Str) : Except Exc Str :=
  if identifier = [] then .error (.valueError c!"Empty identifier")
  else
    match splitIdentifier identifier with
    | [] => .error .indexError
    | p :: ps => do
      let rest ← capitalizeAll ps
      match lower p ++ rest with
      | [] => .error .violation
      | c :: cs => if c = c.toLower then return c :: cs else .error .violation

/-- `/repo/mapry/naming.py:148-181` `ucamel_case` with its pre- and postconditions. -/
def ucamelCase (identifier : Str) : Except Exc Str :=
  if identifier = [] then .error (.valueError c!"Empty identifier")
  else do
    let result ← capitalizeAll (splitIdentifier identifier)
    match result with
    | [] => .error .violation
    | c :: cs => if c = c.toUpper then return c :: cs else .error .violation

/-- `/repo/mapry/py/naming.py:9-25` `as_attribute`; `/repo/mapry/cpp/naming.py:10-26` `as_field` is
the same function. -/
def asAttribute (identifier : Str) : Except Exc Str :=
  if identifier = [] then .error (.valueError []) else .ok (lower identifier)

/-- `/repo/mapry/py/naming.py:28-46` and `/repo/mapry/cpp/naming.py:29-47` `as_variable`. -/
def asVariable (identifier : Str) : Except Exc Str :=
  match identifier with
  | [] => .error (.valueError [])
  | c :: _ => if isUpper c then .ok (lower identifier) else .error (.valueError [])

/-- `/repo/mapry/py/naming.py:49-68` and `/repo/mapry/cpp/naming.py:50-68` `as_composite`. -/
def asComposite (identifier : Str) : Except Exc Str :=
  match identifier with
  | [] => .error (.valueError [])
  | c :: _ => if isUpper c then ucamelCase identifier else .error (.valueError [])

end Mapry.Naming
