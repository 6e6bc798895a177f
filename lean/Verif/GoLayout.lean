import Verif.Basic

/-!
# External specification: how Go's package `time` reads a layout

This follows `nextStdChunk` of Go's `time/format.go` (Go 1.20). It is not part of mapry; it is used
to state the meaning of a Go layout.
-/

namespace Mapry.GoLayout

/-- The standard chunks of a Go layout. -/
inductive Std where
  | longMonth | month | numMonth | zeroMonth
  | longWeekDay | weekDay
  | day | underDay | zeroDay | underYearDay | zeroYearDay
  | hour | hour12 | zeroHour12
  | minute | zeroMinute | second | zeroSecond
  | longYear | year | pmUpper | pmLower | tz
  | isoTZ | isoSecondsTZ | isoShortTZ | isoColonTZ | isoColonSecondsTZ
  | numTZ | numSecondsTz | numShortTZ | numColonTZ | numColonSecondsTZ
  | fracSecond (n : Nat)
  deriving DecidableEq, Repr

/-- An item of a layout: a literal character or a standard chunk. -/
inductive Item where
  | lit (c : Char)
  | std (s : Std)
  deriving DecidableEq, Repr

/-- `startsWithLowerCase` -/
def startsWithLower : Str → Bool
  | [] => false
  | c :: _ => c.isLower

/-- Length of the run of the character at the head. -/
def runLength (ch : Char) : Str → Nat
  | [] => 0
  | c :: cs => if c = ch then runLength ch cs + 1 else 0

/-- `isDigit(layout, j)` -/
def startsWithDigit : Str → Bool
  | [] => false
  | c :: _ => c.isDigit

/-- Fractional seconds after the separator. -/
def fracAfter : Str → Option (Std × Nat)
  | [] => none
  | c :: cs =>
    if c = '0' ∨ c = '9' then
      let n := runLength c (c :: cs)
      if startsWithDigit ((c :: cs).drop n) then none else some (.fracSecond n, n + 1)
    else none

/-- The standard chunk at the very beginning of the layout with its length, if any. -/
def stdAt (s : Str) : Option (Std × Nat) :=
  match s with
  | [] => none
  | 'J' :: _ =>
    if c!"January".isPrefixOf s then some (.longMonth, 7)
    else if c!"Jan".isPrefixOf s && !startsWithLower (s.drop 3) then some (.month, 3)
    else none
  | 'M' :: _ =>
    if c!"Monday".isPrefixOf s then some (.longWeekDay, 6)
    else if c!"Mon".isPrefixOf s && !startsWithLower (s.drop 3) then some (.weekDay, 3)
    else if c!"MST".isPrefixOf s then some (.tz, 3)
    else none
  | '0' :: _ =>
    if c!"01".isPrefixOf s then some (.zeroMonth, 2)
    else if c!"02".isPrefixOf s then some (.zeroDay, 2)
    else if c!"03".isPrefixOf s then some (.zeroHour12, 2)
    else if c!"04".isPrefixOf s then some (.zeroMinute, 2)
    else if c!"05".isPrefixOf s then some (.zeroSecond, 2)
    else if c!"06".isPrefixOf s then some (.year, 2)
    else if c!"002".isPrefixOf s then some (.zeroYearDay, 3)
    else none
  | '1' :: _ => if c!"15".isPrefixOf s then some (.hour, 2) else some (.numMonth, 1)
  | '2' :: _ => if c!"2006".isPrefixOf s then some (.longYear, 4) else some (.day, 1)
  | '_' :: _ =>
    if c!"_2006".isPrefixOf s then none
    else if c!"_2".isPrefixOf s then some (.underDay, 2)
    else if c!"__2".isPrefixOf s then some (.underYearDay, 3)
    else none
  | '3' :: _ => some (.hour12, 1)
  | '4' :: _ => some (.minute, 1)
  | '5' :: _ => some (.second, 1)
  | 'P' :: _ => if c!"PM".isPrefixOf s then some (.pmUpper, 2) else none
  | 'p' :: _ => if c!"pm".isPrefixOf s then some (.pmLower, 2) else none
  | '-' :: _ =>
    if c!"-070000".isPrefixOf s then some (.numSecondsTz, 7)
    else if c!"-07:00:00".isPrefixOf s then some (.numColonSecondsTZ, 9)
    else if c!"-0700".isPrefixOf s then some (.numTZ, 5)
    else if c!"-07:00".isPrefixOf s then some (.numColonTZ, 6)
    else if c!"-07".isPrefixOf s then some (.numShortTZ, 3)
    else none
  | 'Z' :: _ =>
    if c!"Z070000".isPrefixOf s then some (.isoSecondsTZ, 7)
    else if c!"Z07:00:00".isPrefixOf s then some (.isoColonSecondsTZ, 9)
    else if c!"Z0700".isPrefixOf s then some (.isoTZ, 5)
    else if c!"Z07:00".isPrefixOf s then some (.isoColonTZ, 6)
    else if c!"Z07".isPrefixOf s then some (.isoShortTZ, 3)
    else none
  | '.' :: cs => fracAfter cs
  | ',' :: cs => fracAfter cs
  | _ :: _ => none

/-- Read a layout; the first argument counts the characters which still belong to the last chunk. -/
def readAux : Nat → Str → List Item
  | _, [] => []
  | n + 1, _ :: cs => readAux n cs
  | 0, c :: cs =>
    match stdAt (c :: cs) with
    | some (std, n) => .std std :: readAux (n - 1) cs
    | none => .lit c :: readAux 0 cs

/-- The items of a layout. -/
def readLayout (layout : Str) : List Item := readAux 0 layout

end Mapry.GoLayout
