import Verif.Float
import Verif.Text

/-!
# Durations as ISO 8601 strings in the generated Python, Go and C++ code

The three generated readers share one regular expression and differ in how they compute the
value; the three generated writers share one layout and differ in their resolution.
-/

namespace Mapry.Duration

open Mapry Mapry.Text

/-! ## The regular expression -/

/-- A number `(0|[1-9][0-9]*)(\.[0-9]+)?` of the pattern: its digits before and after the dot. -/
structure Num where
  int : Str
  frac : Option Str
  deriving DecidableEq, Repr

/-- The groups captured by the pattern; `time` is `none` if the group `(T...)?` did not match. -/
structure Fields where
  sign : Option Char
  years : Option Num
  months : Option Num
  weeks : Option Num
  days : Option Num
  time : Option (Option Num × Option Num × Option Num)
  deriving DecidableEq, Repr

def isDig (c : Char) : Bool := c.isDigit

/-- The longest prefix matching `(0|[1-9][0-9]*)(\.[0-9]+)?` provided it is followed by something
which may follow a number in the pattern (a dot without digits never may). -/
def readNum (s : Str) : Option (Num × Str) :=
  let int := s.takeWhile isDig
  if int = [] ∨ (int.head? = some '0' ∧ 1 < int.length) then none
  else match s.dropWhile isDig with
    | '.' :: r =>
      if r.takeWhile isDig = [] then none
      else some (⟨int, some (r.takeWhile isDig)⟩, r.dropWhile isDig)
    | rest => some (⟨int, none⟩, rest)

/-- `((...)U)?` for the unit letter `U`. -/
def optField (unit : Char) (s : Str) : Option Num × Str :=
  match readNum s with
  | some (n, c :: rest) => if c = unit then (some n, rest) else (none, s)
  | _ => (none, s)

/-- `(\+|-)?` -/
def optSign : Str → Option Char × Str
  | '+' :: r => (some '+', r)
  | '-' :: r => (some '-', r)
  | s => (none, s)

/-- The part of the pattern after `P`; `endOk` decides `$`. -/
def matchBody (endOk : Str → Bool) (sign : Option Char) (s : Str) : Option Fields :=
  let y := optField 'Y' s
  let mo := optField 'M' y.2
  let w := optField 'W' mo.2
  let d := optField 'D' w.2
  match d.2 with
  | 'T' :: r =>
    let h := optField 'H' r
    let mi := optField 'M' h.2
    let sec := optField 'S' mi.2
    if endOk sec.2 then some ⟨sign, y.1, mo.1, w.1, d.1, some (h.1, mi.1, sec.1)⟩ else none
  | rest => if endOk rest then some ⟨sign, y.1, mo.1, w.1, d.1, none⟩ else none

/-- The regular expression of durations, `/repo/mapry/py/generate/fromjsonable.py:118-127`,
`/repo/mapry/go/generate/fromjsonable.py:107-117` and
`/repo/mapry/cpp/generate/jsoncpp_impl.py:182-190`. The optional groups end in different letters,
so that reading greedily from left to right finds the only match. -/
def matchDuration (endOk : Str → Bool) (s : Str) : Option Fields :=
  match (optSign s).2 with
  | 'P' :: r => matchBody endOk (optSign s).1 r
  | _ => none

/-- Python's `$`: the end of the string or before a trailing newline. -/
def endPy : Str → Bool
  | [] => true
  | ['\n'] => true
  | _ => false

/-- Go's `$` and the end of `std::regex_match`: the end of the string. -/
def endText (s : Str) : Bool := s.isEmpty

/-! ## The captured groups as numbers -/

/-- The value of a string of decimal digits. -/
def digitsVal (s : Str) : Nat := Nat.ofDigitChars 10 s 0

/-- The digits after the dot, empty if there is no dot. -/
def Num.fracDigits (n : Num) : Str := n.frac.getD []

/-- `float(group)`, `strconv.ParseFloat(group, 64)` and `std::stod(group)`: the decimal rounded to
binary64 (`none` is the absent group, read as 0.0). -/
def numF64 : Option Num → F64
  | none => .fin 0
  | some n => F64.round (mkRat (digitsVal (n.int ++ n.fracDigits)) (10 ^ n.fracDigits.length))

/-- The digits of the seconds before the dot (absent group: 0). -/
def secondsVal : Option Num → Nat
  | none => 0
  | some n => digitsVal n.int

/-- The digits of the fraction of a second (absent group: empty). -/
def fractionOf : Option Num → Str
  | none => []
  | some n => n.fracDigits

def Fields.hours (f : Fields) : Option Num := f.time.bind (·.1)
def Fields.minutes (f : Fields) : Option Num := f.time.bind (·.2.1)
def Fields.seconds (f : Fields) : Option Num := f.time.bind (·.2.2)

/-- 365.2425 as a floating-point constant -/
def daysPerYear : F64 := F64.round (mkRat 3652425 10000)
/-- 30.436875 as a floating-point constant -/
def daysPerMonth : F64 := F64.round (mkRat 30436875 1000000)
/-- an integral floating-point constant such as 3.6e12 -/
def constF (n : Nat) : F64 := .fin (n : Rat)

/-! ## Python -/

/-- The microseconds of `datetime.timedelta.min` and `datetime.timedelta.max`. -/
def usPerDay : Nat := 86400000000
def tdMin : Int := -(999999999 * usPerDay)
def tdMax : Int := 999999999 * usPerDay + (usPerDay - 1)

/-- A `datetime.timedelta`: its number of microseconds. -/
abbrev Timedelta := Int

def Timedelta.InRange (d : Timedelta) : Prop := tdMin ≤ d ∧ d ≤ tdMax

instance (d : Timedelta) : Decidable (Timedelta.InRange d) := by
  unfold Timedelta.InRange; infer_instance

/-- Range check of the constructor and of the multiplication of `datetime.timedelta`. -/
def checkTd (us : Int) : Except Exc Timedelta :=
  if tdMin ≤ us ∧ us ≤ tdMax then .ok us else .error .overflowError

/-- `accum` of CPython's `datetime.timedelta` constructor (`Modules/_datetimemodule.c`): add a
floating-point number of units of `factor` microseconds to the sum and to the left-over. -/
def accum (acc : Int × F64) (v : F64) (factor : Nat) : Except Exc (Int × F64) :=
  match v with
  | .inf _ => .error .overflowError
  | .nan => .error (.valueError [])
  | .fin q =>
    let ip := F64.truncRat q
    let fp := q - ip
    let sum := acc.1 + ip * factor
    if fp = 0 then .ok (sum, acc.2)
    else match F64.mul (.fin factor) (.fin fp) with
      | .fin p =>
        let ip2 := F64.truncRat p
        .ok (sum + ip2, F64.add acc.2 (.fin (p - ip2)))
      | .inf _ => .error .overflowError
      | .nan => .error (.valueError [])

/-- Round to the nearest integer, ties away from zero (C's `round`). -/
def roundAway (q : Rat) : Int := if q < 0 then -((-q + 1 / 2).floor) else (q + 1 / 2).floor

/-- The left-over microseconds rounded half to even with respect to the sum. -/
def roundLeft (sum : Int) (q : Rat) : Int :=
  let whole := roundAway q
  if (whole : Rat) - q = 1 / 2 ∨ q - (whole : Rat) = 1 / 2 then
    let odd : Int := sum % 2
    2 * roundAway ((q + odd) * (1 / 2)) - odd
  else whole

/-- `datetime.timedelta(days=, seconds=, minutes=, hours=, microseconds=)` of CPython. -/
def mkTimedelta (days : F64) (seconds : Int) (minutes hours : F64) (us : Int) :
    Except Exc Timedelta := do
  let a := (us + seconds * 1000000, F64.fin 0)
  let a ← accum a minutes 60000000
  let a ← accum a hours 3600000000
  let a ← accum a days usPerDay
  match a.2 with
  | .fin q => checkTd (a.1 + (if q = 0 then 0 else roundLeft a.1 q))
  | _ => .error .overflowError

/-- The microseconds given by the fraction,
`/repo/mapry/py/generate/fromjsonable.py:212-228`. -/
def pyMicroseconds (text : Str) (frac : Str) : Except Exc Nat :=
  if frac = [] then .ok 0
  else if 6 < frac.length then
    .error (.valueError (c!"Precision only up to microseconds supported, but got: " ++ text))
  else
    let stripped := frac.dropWhile (· == '0')
    if stripped = [] then .ok 0 else .ok (digitsVal stripped * 10 ^ (6 - frac.length))

/-- The value of the captured groups,
`/repo/mapry/py/generate/fromjsonable.py:184-245`. The `OverflowError` re-raised at 242-245 has a
message of its own, which is not represented. -/
def pyValue (text : Str) (f : Fields) : Except Exc Timedelta := do
  let sign : Int := if f.sign = some '-' then -1 else 1
  let us ← pyMicroseconds text (fractionOf f.seconds)
  let days :=
    F64.add (F64.add (F64.add (F64.mul (numF64 f.years) daysPerYear)
      (F64.mul (numF64 f.months) daysPerMonth)) (F64.mul (numF64 f.weeks) (constF 7)))
      (numF64 f.days)
  let td ← mkTimedelta days (secondsVal f.seconds) (numF64 f.minutes) (numF64 f.hours) us
  checkTd (sign * td)

/-- `_duration_from_string` of the generated Python code,
`/repo/mapry/py/generate/fromjsonable.py:130-245`. The quoting of the text in the error message
(`{!r}`) is left out. The limit of CPython on the number of digits of `int(...)` (4300 by
default since 3.11, a `ValueError`) is not modelled. -/
def pyFromString (text : Str) : Except Exc Timedelta :=
  match matchDuration endPy text with
  | none => .error (.valueError (c!"Failed to match the duration: " ++ text))
  | some f => pyValue text f

/-- `'{:06}'.format(n)`, `fmt.Sprintf("%09d", n)`, `std::setfill('0') << std::setw(9) << n` -/
def padZeros (width : Nat) (n : Nat) : Str :=
  List.replicate (width - (natStr n).length) '0' ++ natStr n

/-- `str.rstrip('0')`, `strings.TrimRight(..., "0")` -/
def rstripZeros (s : Str) : Str := (s.reverse.dropWhile (· == '0')).reverse

/-- `_duration_to_string` of the generated Python code,
`/repo/mapry/py/generate/tojsonable.py:97-134`. The negation of a negative `timedelta` never
overflows (`timedelta.max > -timedelta.min`). -/
def pyToString (d : Timedelta) : Str :=
  let abs : Nat := d.natAbs
  let days := abs / usPerDay
  let secs := abs % usPerDay / 1000000
  let us := abs % 1000000
  (if d < 0 then ['-'] else []) ++ ['P'] ++
  (if 0 < days then natStr days ++ ['D'] else []) ++
  (if 0 < secs ∨ 0 < us then
    let hours := secs / 3600
    let rest := secs % 3600
    let minutes := rest / 60
    let seconds := rest % 60
    ['T'] ++
    (if 0 < hours then natStr hours ++ ['H'] else []) ++
    (if 0 < minutes then natStr minutes ++ ['M'] else []) ++
    (if 0 < us then natStr seconds ++ ['.'] ++ rstripZeros (padZeros 6 us) ++ ['S']
     else if 0 < seconds then natStr seconds ++ ['S'] else [])
   else [])

/-! ## Go -/

def maxInt64 : Int := 9223372036854775807
def minInt64 : Int := -9223372036854775808

/-- A value of the type `int64` (also `time.Duration`, `std::chrono::nanoseconds::rep`). -/
def IsInt64 (n : Int) : Prop := minInt64 ≤ n ∧ n ≤ maxInt64

instance (n : Int) : Decidable (IsInt64 n) := by unfold IsInt64; infer_instance

/-- Arithmetic of `int64` wraps around (in C++ the overflow is undefined behaviour; it wraps around on
the usual platforms). -/
def wrap64 (n : Int) : Int :=
  (n + 9223372036854775808) % 18446744073709551616 - 9223372036854775808

theorem wrap64_id {n : Int} (h : IsInt64 n) : wrap64 n = n := by
  unfold wrap64
  simp only [IsInt64, minInt64, maxInt64] at h
  omega

/-- `strconv.ParseFloat(group, 64)`: a range error for a decimal beyond binary64. -/
def goParseFloat (n : Option Num) : Except Exc F64 :=
  match numF64 n with
  | .fin q => .ok (.fin q)
  | _ => .error (.valueError c!"value out of range")

/-- `strconv.ParseInt(digits, 10, 64)` for a string of digits -/
def goParseInt (n : Nat) : Except Exc Int :=
  if (n : Int) ≤ maxInt64 then .ok n else .error (.valueError c!"value out of range")

/-- The nanoseconds given by the fraction, `/repo/mapry/go/generate/fromjsonable.py:237-260` -/
def goNanoseconds (frac : Str) : Except Exc Nat :=
  if frac.length = 0 then .ok 0
  else if frac.length ≤ 9 then
    let trimmed := frac.dropWhile (· == '0')
    if 0 < trimmed.length then .ok (digitsVal trimmed * 10 ^ (9 - frac.length)) else .ok 0
  else .error (.valueError c!"precision only up to nanoseconds supported")

/-- `addDuration`, `/repo/mapry/go/generate/fromjsonable.py:119-150` (`none` stands for
`overflow = true`; the panics on negative operands are assertion errors). The conversion
`time.Duration(right)` truncates. -/
def addDuration (left : Int) (right : F64) : Except Exc (Option Int) :=
  if ¬ 0 ≤ left then .error .assertionError
  else match right with
    | .nan => .error .assertionError
    | .inf neg => if neg then .error .assertionError else .ok none
    | .fin q =>
      if q < 0 then .error .assertionError
      else if 9223372036854775808 ≤ q then .ok none
      else if F64.truncRat q > maxInt64 - left then .ok none
      else .ok (some (wrap64 (left + F64.truncRat q)))

/-- `d, overflow = addDuration(d, right); if overflow { err = ...; return }` -/
def goAdd (left : Int) (right : F64) : Except Exc Int := do
  match ← addDuration left right with
  | some r => .ok r
  | none => .error (.valueError c!"overflow in nanoseconds")

/-- `durationFromString` of the generated Go code,
`/repo/mapry/go/generate/fromjsonable.py:161-321`; an error returned to the caller is
`.valueError`, a panic `.assertionError`. The messages are shortened. -/
def goValue (f : Fields) : Except Exc Int := do
  let sign : Int := if f.sign = some '-' then -1 else 1
  let years ← goParseFloat f.years
  let months ← goParseFloat f.months
  let weeks ← goParseFloat f.weeks
  let days ← goParseFloat f.days
  let hours ← goParseFloat f.hours
  let minutes ← goParseFloat f.minutes
  let seconds ← goParseInt (secondsVal f.seconds)
  let ns ← goNanoseconds (fractionOf f.seconds)
  let d : Int := ns
  if seconds > maxInt64 / 1000000000 then .error (.valueError c!"seconds overflow in nanoseconds")
  else
    let secondsAsNs := wrap64 (seconds * 1000000000)
    if secondsAsNs > maxInt64 - d then .error (.valueError c!"overflow in nanoseconds")
    else do
      let d := wrap64 (d + secondsAsNs)
      let d ← goAdd d (F64.mul minutes (constF 60000000000))
      let d ← goAdd d (F64.mul hours (constF 3600000000000))
      let d ← goAdd d (F64.mul (F64.mul days (constF 24)) (constF 3600000000000))
      let d ← goAdd d (F64.mul (F64.mul (F64.mul weeks (constF 7)) (constF 24))
        (constF 3600000000000))
      let d ← goAdd d (F64.mul (F64.mul (F64.mul months daysPerMonth) (constF 24))
        (constF 3600000000000))
      let d ← goAdd d (F64.mul (F64.mul (F64.mul years daysPerYear) (constF 24))
        (constF 3600000000000))
      .ok (wrap64 (d * sign))

/-- `durationFromString`, `/repo/mapry/go/generate/fromjsonable.py:161-321` -/
def goFromString (s : Str) : Except Exc Int :=
  match matchDuration endText s with
  | none => .error (.valueError c!"failed to match the duration pattern")
  | some f => goValue f

/-- The decimal digits of an integer: `fmt.Sprintf("%d", n)` -/
def intStr (n : Int) : Str := if n < 0 then '-' :: natStr n.natAbs else natStr n.natAbs

/-- Negation of an `int64`: wraps around for the least value. -/
def neg64 (n : Int) : Int := if n = minInt64 then minInt64 else -n

/-- `durationToString` of the generated Go code, `/repo/mapry/go/generate/tojsonable.py:54-128`.
Go's division and remainder truncate towards zero. -/
def goToString (d₀ : Int) : Str :=
  let d := if d₀ < 0 then neg64 d₀ else d₀
  let days := d.tdiv 86400000000000
  let rest := d.tmod 86400000000000
  let hours := rest.tdiv 3600000000000
  let rest := rest.tmod 3600000000000
  let minutes := rest.tdiv 60000000000
  let rest := rest.tmod 60000000000
  let seconds := rest.tdiv 1000000000
  let ns := rest.tmod 1000000000
  (if d₀ < 0 then ['-'] else []) ++ ['P'] ++
  (if 0 < days then intStr days ++ ['D'] else []) ++
  (if 0 < hours ∨ 0 < minutes ∨ 0 < seconds ∨ 0 < ns then
    ['T'] ++
    (if 0 < hours then intStr hours ++ ['H'] else []) ++
    (if 0 < minutes then intStr minutes ++ ['M'] else []) ++
    (if ns = 0 then (if 0 < seconds then intStr seconds ++ ['S'] else [])
     else rstripZeros (intStr seconds ++ ['.'] ++ padZeros 9 ns.natAbs) ++ ['S'])
   else [])

/-! ## C++ -/

/-- How a call of a C++ function ends: with a value, with a non-empty `*error`, or by an exception
which the generated code does not catch. -/
inductive CppResult where
  | value (n : Int)
  | error (msg : Str)
  | throws
  deriving DecidableEq, Repr

/-- `std::stod(group)`: throws `std::out_of_range` if the result overflows or is subnormal
(libstdc++: `errno == ERANGE`); `none` is the exception. The absent group is 0.0. -/
def cppStod (n : Option Num) : Option F64 :=
  match n with
  | none => some (.fin 0)
  | some _ => match numF64 n with
    | .fin q =>
      if q < mkRat 1 (2 ^ 1022) ∧ ¬ (n.elim 0 fun n => digitsVal (n.int ++ n.fracDigits)) = 0 then none
      else some (.fin q)
    | _ => none

/-- `std::stol(group)`: throws `std::out_of_range` beyond a 64-bit `long`. -/
def cppStol (n : Nat) : Option Int := if (n : Int) ≤ maxInt64 then some n else none

/-- The nanoseconds given by the fraction,
`/repo/mapry/cpp/generate/jsoncpp_impl.py:285-322`. The search for the first non-zero digit stops
at the first digit of any kind, hence `std::atol` reads the whole fraction. -/
def cppNanoseconds (frac : Str) : Option Nat :=
  if frac.length = 0 then some 0
  else if frac.length ≤ 9 then some (digitsVal frac * 10 ^ (9 - frac.length))
  else none

/-- `add_rep_double`, `/repo/mapry/cpp/generate/jsoncpp_impl.py:233-256`: the sum and the value of
`*overflows` afterwards (`flag` is its value before, which the function never clears); `none` for
`std::invalid_argument`. -/
def addRepDouble (left : Int) (right : F64) (flag : Bool) : Option (Int × Bool) :=
  if left < 0 then none
  else match right with
    | .nan => some (left, flag)
    | .inf neg => if neg then none else some (0, true)
    | .fin q =>
      if q < 0 then none
      else if 9223372036854775808 ≤ q then some (0, true)
      else if F64.truncRat q > maxInt64 - left then some (0, true)
      else some (wrap64 (F64.truncRat q + left), flag)

/-- `sum = add_rep_double(sum, right, &overflows); if (overflows) { *error = ...; return ...; }` -/
def cppAdd (left : Int) (right : F64) (flag : Bool) (k : Int → CppResult) : CppResult :=
  match addRepDouble left right flag with
  | none => .throws
  | some (_, true) => .error c!"duration overflows as nanoseconds: "
  | some (s, false) => k s

/-- `duration_from_string` of the generated C++ code after the match,
`/repo/mapry/cpp/generate/jsoncpp_impl.py:285-440`. `bool overflows;` (line 378) is not
initialised: its first value is the parameter `garbage` (formally, reading it is undefined
behaviour). The text appended to the messages is left out. -/
def cppValue (garbage : Bool) (f : Fields) : CppResult :=
  match cppNanoseconds (fractionOf f.seconds) with
  | none => .error c!"converting the duration to nanoseconds results in loss of precision: "
  | some ns =>
    let sign : Int := if f.sign = some '-' then -1 else 1
    match cppStod f.years, cppStod f.months, cppStod f.weeks, cppStod f.days, cppStod f.hours,
        cppStod f.minutes, cppStol (secondsVal f.seconds) with
    | some years, some months, some weeks, some days, some hours, some minutes, some seconds =>
      let sum : Int := ns
      if seconds > maxInt64 / 1000000000 then
        .error c!"seconds in duration overflow as nanoseconds: "
      else
        let secondsAsNs := wrap64 (seconds * 1000000000)
        if sum > maxInt64 - secondsAsNs then .error c!"duration overflow as nanoseconds: "
        else
          cppAdd (wrap64 (sum + secondsAsNs)) (F64.mul minutes (constF 60000000000)) garbage fun sum =>
          cppAdd sum (F64.mul hours (constF 3600000000000)) garbage fun sum =>
          cppAdd sum (F64.mul (F64.mul days (constF 24)) (constF 3600000000000)) garbage fun sum =>
          cppAdd sum (F64.mul (F64.mul (F64.mul weeks (constF 7)) (constF 24))
            (constF 3600000000000)) garbage fun sum =>
          cppAdd sum (F64.mul (F64.mul (F64.mul months daysPerMonth) (constF 24))
            (constF 3600000000000)) garbage fun sum =>
          cppAdd sum (F64.mul (F64.mul (F64.mul years daysPerYear) (constF 24))
            (constF 3600000000000)) garbage fun sum =>
          .value (if sign < 0 then -sum else sum)
    | _, _, _, _, _, _, _ => .throws

/-- `duration_from_string`, `/repo/mapry/cpp/generate/jsoncpp_impl.py:271-440` -/
def cppFromString (garbage : Bool) (s : Str) : CppResult :=
  match matchDuration endText s with
  | none => .error c!"failed to match the duration: "
  | some f => cppValue garbage f

/-- `duration_to_string` of the generated C++ code,
`/repo/mapry/cpp/generate/jsoncpp_impl.py:2242-2317`; `none` for `std::overflow_error` (the
negation of the least value is undefined behaviour and wraps around on the usual platforms). -/
def cppToString (d : Int) : Option Str :=
  let abs := if d < 0 then neg64 d else d
  if abs < 0 then none
  else
    let days := abs.tdiv 86400000000000
    let rest := abs.tmod 86400000000000
    let hours := rest.tdiv 3600000000000
    let rest := rest.tmod 3600000000000
    let minutes := rest.tdiv 60000000000
    let rest := rest.tmod 60000000000
    let seconds := rest.tdiv 1000000000
    let ns := rest.tmod 1000000000
    some <|
      (if d < 0 then ['-'] else []) ++ ['P'] ++
      (if 0 < days then intStr days ++ ['D'] else []) ++
      (if 0 < hours ∨ 0 < minutes ∨ 0 < seconds ∨ 0 < ns then
        ['T'] ++
        (if 0 < hours then intStr hours ++ ['H'] else []) ++
        (if 0 < minutes then intStr minutes ++ ['M'] else []) ++
        (if ns = 0 then (if 0 < seconds then intStr seconds ++ ['S'] else [])
         else intStr seconds ++ ['.'] ++ rstripZeros (padZeros 9 ns.natAbs) ++ ['S'])
       else [])

end Mapry.Duration
