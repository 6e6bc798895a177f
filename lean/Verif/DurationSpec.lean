import Verif.Duration

/-!
# Specification of the durations

The documented grammar, given by how a text is written, and the exact span of a duration whose
parts are integral. Nothing here refers to the readers and the writers.
-/

namespace Mapry.Duration

open Mapry

/-! ## Grammar -/

/-- `0|[1-9][0-9]*` -/
def IsInt (s : Str) : Prop :=
  s = ['0'] ∨ (s ≠ [] ∧ s.head? ≠ some '0' ∧ ∀ c ∈ s, isDig c = true)

/-- `(0|[1-9][0-9]*)(\.[0-9]+)?` -/
def Num.Valid (n : Num) : Prop :=
  IsInt n.int ∧ ∀ f, n.frac = some f → f ≠ [] ∧ ∀ c ∈ f, isDig c = true

/-- The text of a number -/
def Num.text (n : Num) : Str :=
  n.int ++ match n.frac with
    | none => []
    | some f => '.' :: f

/-- The text of an optional part with its unit letter -/
def fieldText (unit : Char) : Option Num → Str
  | none => []
  | some n => n.text ++ [unit]

/-- The text after `T` -/
def timeText : Option (Option Num × Option Num × Option Num) → Str
  | none => []
  | some (h, m, s) => ['T'] ++ fieldText 'H' h ++ fieldText 'M' m ++ fieldText 'S' s

def signText : Option Char → Str
  | none => []
  | some c => [c]

/-- The text of a duration -/
def render (f : Fields) : Str :=
  signText f.sign ++ ['P'] ++ fieldText 'Y' f.years ++ fieldText 'M' f.months ++
    fieldText 'W' f.weeks ++ fieldText 'D' f.days ++ timeText f.time

def OptValid (o : Option Num) : Prop := ∀ n, o = some n → n.Valid

/-- The grammar of durations -/
structure Fields.Valid (f : Fields) : Prop where
  sign : f.sign = none ∨ f.sign = some '+' ∨ f.sign = some '-'
  years : OptValid f.years
  months : OptValid f.months
  weeks : OptValid f.weeks
  days : OptValid f.days
  time : ∀ h m s, f.time = some (h, m, s) → OptValid h ∧ OptValid m ∧ OptValid s

/-! ## Span -/

/-- The integral count of a part -/
def countOf : Option Num → Nat
  | none => 0
  | some n => digitsVal n.int

def NoFraction (o : Option Num) : Prop := ∀ n, o = some n → n.frac = none

/-- Only whole weeks, days, hours and minutes; the seconds may have a fraction. -/
structure Fields.Integral (f : Fields) : Prop where
  years : f.years = none
  months : f.months = none
  weeks : NoFraction f.weeks
  days : NoFraction f.days
  hours : NoFraction f.hours
  minutes : NoFraction f.minutes

/-- The whole seconds of a duration -/
def wholeSeconds (f : Fields) : Nat :=
  (((countOf f.weeks * 7 + countOf f.days) * 24 + countOf f.hours) * 60 + countOf f.minutes) * 60 +
    countOf f.seconds

/-- The span counted in units of `10 ^ (-w)` seconds; the fraction must not be longer than `w`. -/
def span (w : Nat) (f : Fields) : Nat :=
  wholeSeconds f * 10 ^ w + digitsVal (fractionOf f.seconds) * 10 ^ (w - (fractionOf f.seconds).length)

/-- The signed span -/
def signed (f : Fields) (n : Nat) : Int := if f.sign = some '-' then -(n : Int) else n

end Mapry.Duration
