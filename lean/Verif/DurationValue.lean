import Verif.DurationLemmas

/-! # Values computed by the duration readers on integral parts -/

namespace Mapry.Duration

open Mapry Mapry.Text

theorem ok_bind {ε α β : Type} (a : α) (f : α → Except ε β) : (Except.ok a >>= f) = f a := rfl

theorem natCast_mul_rat (a b : Nat) : (a : Rat) * (b : Rat) = ((a * b : Nat) : Rat) := by
  simp

theorem natCast_add_rat (a b : Nat) : (a : Rat) + (b : Rat) = ((a + b : Nat) : Rat) := by
  simp

theorem numF64_count (o : Option Num) (h : NoFraction o) (hle : countOf o ≤ 2 ^ 53) :
    numF64 o = .fin ((countOf o : Nat) : Rat) := by
  cases o with
  | none => rfl
  | some n =>
    have hf := h n rfl
    have h0 : n.fracDigits = [] := by simp [Num.fracDigits, hf]
    unfold numF64
    simp only [h0, List.append_nil, List.length_nil, Nat.pow_zero]
    rw [Rat.mkRat_one]
    exact F64.round_natCast _ hle

theorem mul_const_exact (a b : Nat) (h : F64.round ((a * b : Nat) : Rat) = .fin ((a * b : Nat) : Rat)) :
    F64.mul (.fin (a : Rat)) (constF b) = .fin ((a * b : Nat) : Rat) := by
  unfold constF
  simp only [F64.mul]
  rw [natCast_mul_rat]
  exact h

theorem round_of_le (n : Nat) (h : n ≤ 2 ^ 53) : F64.round (n : Rat) = .fin (n : Rat) :=
  F64.round_natCast n h

theorem round_of_dvd (n : Nat) (hd : 2 ^ 11 ∣ n) (h : n ≤ 9223372036854775808) :
    F64.round (n : Rat) = .fin (n : Rat) := by
  obtain ⟨m, hm⟩ := hd
  rw [hm, Nat.mul_comm]
  apply F64.round_nat m 11 _ (by omega)
  omega

theorem add_exact (a b : Nat) (h : a + b ≤ 2 ^ 53) :
    F64.add (.fin (a : Rat)) (.fin (b : Rat)) = .fin ((a + b : Nat) : Rat) := by
  simp only [F64.add]
  rw [natCast_add_rat]
  exact round_of_le _ h

/-- Finite numbers -/
def isFin : F64 → Bool
  | .fin _ => true
  | _ => false

theorem exists_of_isFin {x : F64} (h : isFin x = true) : ∃ q, x = .fin q := by
  cases x with
  | fin q => exact ⟨q, rfl⟩
  | inf b => simp [isFin] at h
  | nan => simp [isFin] at h

theorem daysPerYear_fin : ∃ q, daysPerYear = .fin q := exists_of_isFin (by decide +kernel)
theorem daysPerMonth_fin : ∃ q, daysPerMonth = .fin q := exists_of_isFin (by decide +kernel)

theorem mul_zero_years : F64.mul (.fin 0) daysPerYear = .fin 0 := by
  obtain ⟨q, h⟩ := daysPerYear_fin
  rw [h]; simp only [F64.mul]; rw [Rat.zero_mul]; exact F64.round_zero

theorem mul_zero_months : F64.mul (.fin 0) daysPerMonth = .fin 0 := by
  obtain ⟨q, h⟩ := daysPerMonth_fin
  rw [h]; simp only [F64.mul]; rw [Rat.zero_mul]; exact F64.round_zero

theorem mul_zero_const (n : Nat) : F64.mul (.fin 0) (constF n) = .fin 0 := by
  unfold constF; simp only [F64.mul]; rw [Rat.zero_mul]; exact F64.round_zero

/-! ### Python -/

theorem accum_nat (sum : Int) (left : F64) (n factor : Nat) :
    accum (sum, left) (.fin (n : Rat)) factor = .ok (sum + n * factor, left) := by
  unfold accum
  simp only [F64.truncRat_natCast]
  have : ((n : Rat) - ((n : Int) : Rat)) = 0 := by
    have : ((n : Int) : Rat) = (n : Rat) := rfl
    rw [this, Rat.sub_self]
  rw [if_pos this]

theorem mkTimedelta_nat (d s m h us : Nat) :
    mkTimedelta (.fin (d : Rat)) (s : Int) (.fin (m : Rat)) (.fin (h : Rat)) (us : Int) =
      checkTd ((d * usPerDay + h * 3600000000 + m * 60000000 + s * 1000000 + us : Nat) : Int) := by
  unfold mkTimedelta
  simp only [accum_nat, bind, Except.bind]
  congr 1
  simp
  omega

theorem pyMicroseconds_spec (text frac : Str) (hd : ∀ c ∈ frac, isDig c = true)
    (hl : frac.length ≤ 6) :
    pyMicroseconds text frac = .ok (digitsVal frac * 10 ^ (6 - frac.length)) := by
  unfold pyMicroseconds
  split
  · rename_i h; subst h; simp [digitsVal]
  · rw [if_neg (by omega)]
    simp only
    have := digitsVal_dropZeros frac hd
    split
    · rename_i h
      rw [h] at this
      rw [← this]; simp [digitsVal]
    · rw [this]

theorem secondsVal_eq (o : Option Num) : secondsVal o = countOf o := by cases o <;> rfl

/-- The value computed by the Python reader on integral parts -/
theorem pyValue_exact (text : Str) (f : Fields) (hi : f.Integral)
    (hfd : ∀ c ∈ fractionOf f.seconds, isDig c = true) (hfl : (fractionOf f.seconds).length ≤ 6)
    (hr : Timedelta.InRange (signed f (span 6 f))) :
    pyValue text f = .ok (signed f (span 6 f)) := by
  obtain ⟨hy, hmo, hw, hd, hh, hm⟩ := hi
  have hfr : digitsVal (fractionOf f.seconds) * 10 ^ (6 - (fractionOf f.seconds).length) =
      span 6 f - wholeSeconds f * 10 ^ 6 := by unfold span; omega
  have hle : wholeSeconds f * 10 ^ 6 ≤ span 6 f := by unfold span; omega
  have hbig : (span 6 f : Int) ≤ tdMax := by
    unfold Timedelta.InRange signed at hr
    split at hr
    · have := hr.1; simp only [tdMin, tdMax, usPerDay] at *; omega
    · exact hr.2
  have hsec : wholeSeconds f ≤ 86400000000000 := by
    simp only [tdMax, usPerDay] at hbig; omega
  have hws := hsec
  unfold wholeSeconds at hsec
  have ew := numF64_count f.weeks hw (by omega)
  have ed := numF64_count f.days hd (by omega)
  have eh := numF64_count f.hours hh (by omega)
  have em := numF64_count f.minutes hm (by omega)
  have ewd : F64.add (F64.add (F64.add (F64.mul (numF64 f.years) daysPerYear)
      (F64.mul (numF64 f.months) daysPerMonth)) (F64.mul (numF64 f.weeks) (constF 7)))
      (numF64 f.days) = .fin ((countOf f.weeks * 7 + countOf f.days : Nat) : Rat) := by
    have n0 : numF64 none = .fin 0 := rfl
    rw [hy, hmo, n0, mul_zero_years, mul_zero_months]
    have z : (0 : Rat) = ((0 : Nat) : Rat) := rfl
    rw [ew, mul_const_exact _ 7 (round_of_le _ (by omega)), z, add_exact 0 0 (by omega),
      add_exact _ _ (by omega), ed, add_exact _ _ (by omega)]
    simp
  unfold pyValue
  rw [pyMicroseconds_spec text _ hfd hfl, ok_bind, ewd, em, eh, secondsVal_eq]
  dsimp only
  rw [mkTimedelta_nat]
  have hsum : ((countOf f.weeks * 7 + countOf f.days) * usPerDay + countOf f.hours * 3600000000 +
      countOf f.minutes * 60000000 + countOf f.seconds * 1000000 +
      digitsVal (fractionOf f.seconds) * 10 ^ (6 - (fractionOf f.seconds).length) : Nat) = span 6 f := by
    unfold span wholeSeconds usPerDay
    omega
  rw [hsum]
  have hpos : tdMin ≤ (span 6 f : Int) := by simp only [tdMin, usPerDay]; omega
  have hc : checkTd (span 6 f : Int) = .ok (span 6 f : Int) := by
    unfold checkTd; rw [if_pos ⟨hpos, hbig⟩]
  rw [hc, ok_bind]
  have hsgn : ((if f.sign = some '-' then (-1 : Int) else 1) * (span 6 f : Int)) = signed f (span 6 f) := by
    unfold signed; split <;> omega
  rw [hsgn]
  unfold checkTd
  rw [if_pos ⟨hr.1, hr.2⟩]

/-! ### Go -/

theorem goParseFloat_count (o : Option Num) (h : NoFraction o) (hle : countOf o ≤ 2 ^ 53) :
    goParseFloat o = .ok (.fin ((countOf o : Nat) : Rat)) := by
  unfold goParseFloat
  rw [numF64_count o h hle]

theorem not_lt_zero_natCast (n : Nat) : ¬ ((n : Rat) < 0) := by
  rw [Rat.not_lt]; exact Rat.natCast_nonneg

theorem not_two63_le_natCast (n : Nat) (h : (n : Int) ≤ maxInt64) :
    ¬ ((9223372036854775808 : Rat) ≤ (n : Rat)) := by
  intro hc
  have h2 : ((9223372036854775808 : Nat) : Rat) ≤ (n : Rat) := hc
  rw [Rat.natCast_le_natCast] at h2
  simp only [maxInt64] at h
  omega

theorem goAdd_nat (left : Int) (n : Nat) (h0 : 0 ≤ left) (h : left + n ≤ maxInt64) :
    goAdd left (.fin (n : Rat)) = .ok (left + n) := by
  unfold goAdd addDuration
  rw [if_neg (by omega)]
  simp only
  rw [if_neg (not_lt_zero_natCast n), if_neg (not_two63_le_natCast n (by omega)),
    F64.truncRat_natCast, if_neg (by omega),
    wrap64_id (by simp only [IsInt64, minInt64, maxInt64] at *; omega)]
  rfl

theorem goNanoseconds_spec (frac : Str) (hd : ∀ c ∈ frac, isDig c = true)
    (hl : frac.length ≤ 9) :
    goNanoseconds frac = .ok (digitsVal frac * 10 ^ (9 - frac.length)) := by
  unfold goNanoseconds
  split
  · rename_i h
    have : frac = [] := List.length_eq_zero_iff.1 h
    subst this; simp [digitsVal]
  · simp only
    have := digitsVal_dropZeros frac hd
    split
    · rw [this]
    · rename_i h
      have h0 : frac.dropWhile (· == '0') = [] := List.length_eq_zero_iff.1 (by omega)
      rw [h0] at this
      rw [← this]; simp [digitsVal]

/-- The six products of the Go and C++ readers on integral parts -/
theorem products_exact (f : Fields) (hs : span 9 f ≤ 9223372036854775808) :
    F64.mul (.fin ((countOf f.minutes : Nat) : Rat)) (constF 60000000000) =
      .fin ((countOf f.minutes * 60000000000 : Nat) : Rat) ∧
    F64.mul (.fin ((countOf f.hours : Nat) : Rat)) (constF 3600000000000) =
      .fin ((countOf f.hours * 3600000000000 : Nat) : Rat) ∧
    F64.mul (F64.mul (.fin ((countOf f.days : Nat) : Rat)) (constF 24)) (constF 3600000000000) =
      .fin ((countOf f.days * 24 * 3600000000000 : Nat) : Rat) ∧
    F64.mul (F64.mul (F64.mul (.fin ((countOf f.weeks : Nat) : Rat)) (constF 7)) (constF 24))
      (constF 3600000000000) =
      .fin ((countOf f.weeks * 7 * 24 * 3600000000000 : Nat) : Rat) := by
  unfold span wholeSeconds at hs
  generalize digitsVal (fractionOf f.seconds) * 10 ^ (9 - (fractionOf f.seconds).length) = fr at hs
  have e9 : (10 : Nat) ^ 9 = 1000000000 := by decide
  rw [e9] at hs
  generalize countOf f.minutes = mi at *
  generalize countOf f.hours = h at *
  generalize countOf f.days = d at *
  generalize countOf f.weeks = w at *
  have w1 : w * 7 ≤ 2 ^ 53 := by omega
  have w2 : w * 7 * 24 ≤ 2 ^ 53 := by omega
  have w3 : d * 24 ≤ 2 ^ 53 := by omega
  have b1 : mi * 60000000000 ≤ 9223372036854775808 :=
    Nat.le_of_not_lt (fun _ => by omega)
  have b2 : h * 3600000000000 ≤ 9223372036854775808 :=
    Nat.le_of_not_lt (fun _ => by omega)
  have b3 : d * 24 * 3600000000000 ≤ 9223372036854775808 :=
    Nat.le_of_not_lt (fun _ => by omega)
  have b4 : w * 7 * 24 * 3600000000000 ≤ 9223372036854775808 :=
    Nat.le_of_not_lt (fun _ => by omega)
  have d1 : 2 ^ 11 ∣ mi * 60000000000 :=
    Nat.dvd_mul_left_of_dvd (by decide : 2 ^ 11 ∣ 60000000000) _
  have d2 : 2 ^ 11 ∣ h * 3600000000000 :=
    Nat.dvd_mul_left_of_dvd (by decide : 2 ^ 11 ∣ 3600000000000) _
  have d3 : 2 ^ 11 ∣ d * 24 * 3600000000000 :=
    Nat.dvd_mul_left_of_dvd (by decide : 2 ^ 11 ∣ 3600000000000) _
  have d4 : 2 ^ 11 ∣ w * 7 * 24 * 3600000000000 :=
    Nat.dvd_mul_left_of_dvd (by decide : 2 ^ 11 ∣ 3600000000000) _
  refine ⟨?_, ?_, ?_, ?_⟩
  · exact mul_const_exact _ _ (round_of_dvd _ d1 b1)
  · exact mul_const_exact _ _ (round_of_dvd _ d2 b2)
  · rw [mul_const_exact _ 24 (round_of_le _ w3)]
    exact mul_const_exact _ _ (round_of_dvd _ d3 b3)
  · rw [mul_const_exact _ 7 (round_of_le _ w1), mul_const_exact _ 24 (round_of_le _ w2)]
    exact mul_const_exact _ _ (round_of_dvd _ d4 b4)

/-- The value computed by the Go reader on integral parts -/
theorem goValue_exact (f : Fields) (hi : f.Integral)
    (hfd : ∀ c ∈ fractionOf f.seconds, isDig c = true) (hfl : (fractionOf f.seconds).length ≤ 9)
    (hr : (span 9 f : Int) ≤ maxInt64) :
    goValue f = .ok (signed f (span 9 f)) := by
  obtain ⟨hy, hmo, hw, hd, hh, hm⟩ := hi
  have hr' := hr
  simp only [maxInt64] at hr'
  obtain ⟨pm, ph, pd, pw⟩ := products_exact f (by omega)
  have hs := hr'
  unfold span wholeSeconds at hs
  have hspan : span 9 f = wholeSeconds f * 10 ^ 9 +
    digitsVal (fractionOf f.seconds) * 10 ^ (9 - (fractionOf f.seconds).length) := rfl
  have e9 : (10 : Nat) ^ 9 = 1000000000 := by decide
  generalize hfr : digitsVal (fractionOf f.seconds) * 10 ^ (9 - (fractionOf f.seconds).length) = fr at hs hspan
  rw [e9] at hs
  unfold wholeSeconds at hspan
  rw [e9] at hspan
  have ey : goParseFloat f.years = .ok (.fin 0) := by rw [hy]; rfl
  have emo : goParseFloat f.months = .ok (.fin 0) := by rw [hmo]; rfl
  have ew := goParseFloat_count f.weeks hw (by omega)
  have ed := goParseFloat_count f.days hd (by omega)
  have eh := goParseFloat_count f.hours hh (by omega)
  have em := goParseFloat_count f.minutes hm (by omega)
  have es : goParseInt (secondsVal f.seconds) = .ok ((countOf f.seconds : Nat) : Int) := by
    unfold goParseInt; rw [secondsVal_eq, if_pos (by simp only [maxInt64]; omega)]
  unfold goValue
  rw [ey, ok_bind, emo, ok_bind, ew, ok_bind, ed, ok_bind, eh, ok_bind, em, ok_bind, es, ok_bind,
    goNanoseconds_spec _ hfd hfl, ok_bind, hfr, pm, ph, pd, pw, mul_zero_months, mul_zero_years]
  simp only [mul_zero_const]
  rw [if_neg (by simp only [maxInt64]; omega),
    wrap64_id (n := ((countOf f.seconds : Nat) : Int) * 1000000000)
      (by simp only [IsInt64, minInt64, maxInt64]; omega),
    if_neg (by simp only [maxInt64]; omega),
    wrap64_id (n := (fr : Int) + ((countOf f.seconds : Nat) : Int) * 1000000000)
      (by simp only [IsInt64, minInt64, maxInt64]; omega)]
  have z : (0 : Rat) = ((0 : Nat) : Rat) := rfl
  rw [goAdd_nat _ _ (by omega) (by simp only [maxInt64]; omega), ok_bind,
    goAdd_nat _ _ (by omega) (by simp only [maxInt64]; omega), ok_bind,
    goAdd_nat _ _ (by omega) (by simp only [maxInt64]; omega), ok_bind,
    goAdd_nat _ _ (by omega) (by simp only [maxInt64]; omega), ok_bind, z,
    goAdd_nat _ _ (by omega) (by simp only [maxInt64]; omega), ok_bind,
    goAdd_nat _ _ (by omega) (by simp only [maxInt64]; omega), ok_bind]
  rw [wrap64_id (by simp only [IsInt64, minInt64, maxInt64]; split <;> omega)]
  simp only [Except.ok.injEq]
  unfold signed
  split <;> omega

/-! ### C++ -/

theorem cppAdd_nat (left : Int) (n : Nat) (k : Int → CppResult) (h0 : 0 ≤ left)
    (h : left + n ≤ maxInt64) : cppAdd left (.fin (n : Rat)) false k = k (n + left) := by
  unfold cppAdd addRepDouble
  rw [if_neg (by omega)]
  simp only
  rw [if_neg (not_lt_zero_natCast n), if_neg (not_two63_le_natCast n (by omega)),
    F64.truncRat_natCast, if_neg (by omega),
    wrap64_id (by simp only [IsInt64, minInt64, maxInt64] at *; omega)]

theorem cppStod_count (o : Option Num) (h : NoFraction o) (hle : countOf o ≤ 2 ^ 53) :
    cppStod o = some (.fin ((countOf o : Nat) : Rat)) := by
  cases o with
  | none => rfl
  | some n =>
    have hf := h n rfl
    have h0 : n.fracDigits = [] := by simp [Num.fracDigits, hf]
    unfold cppStod
    simp only [numF64_count _ h hle, Option.elim, h0, List.append_nil]
    rw [if_neg]
    rintro ⟨h1, h2⟩
    have hpos : 1 ≤ countOf (some n) := by
      have : countOf (some n) = digitsVal n.int := rfl
      omega
    have h3 : ((1 : Nat) : Rat) ≤ ((countOf (some n) : Nat) : Rat) := Rat.natCast_le_natCast.2 hpos
    have h4 : mkRat 1 (2 ^ 1022) ≤ ((1 : Nat) : Rat) := by decide +kernel
    exact absurd h1 (by rw [Rat.not_lt]; exact Rat.le_trans h4 h3)

theorem cppNanoseconds_spec (frac : Str) (hl : frac.length ≤ 9) :
    cppNanoseconds frac = some (digitsVal frac * 10 ^ (9 - frac.length)) := by
  unfold cppNanoseconds
  split
  · rename_i h
    have : frac = [] := List.length_eq_zero_iff.1 h
    subst this; simp [digitsVal]
  · rfl

/-- The value computed by the C++ reader on integral parts, if `overflows` happens to be false -/
theorem cppValue_exact (f : Fields) (hi : f.Integral)
    (hfl : (fractionOf f.seconds).length ≤ 9) (hr : (span 9 f : Int) ≤ maxInt64) :
    cppValue false f = .value (signed f (span 9 f)) := by
  obtain ⟨hy, hmo, hw, hd, hh, hm⟩ := hi
  have hr' := hr
  simp only [maxInt64] at hr'
  obtain ⟨pm, ph, pd, pw⟩ := products_exact f (by omega)
  have hs := hr'
  unfold span wholeSeconds at hs
  have hspan : span 9 f = wholeSeconds f * 10 ^ 9 +
    digitsVal (fractionOf f.seconds) * 10 ^ (9 - (fractionOf f.seconds).length) := rfl
  have e9 : (10 : Nat) ^ 9 = 1000000000 := by decide
  generalize hfr : digitsVal (fractionOf f.seconds) * 10 ^ (9 - (fractionOf f.seconds).length) = fr at hs hspan
  rw [e9] at hs
  unfold wholeSeconds at hspan
  rw [e9] at hspan
  have ey : cppStod f.years = some (.fin 0) := by rw [hy]; rfl
  have emo : cppStod f.months = some (.fin 0) := by rw [hmo]; rfl
  have ew := cppStod_count f.weeks hw (by omega)
  have ed := cppStod_count f.days hd (by omega)
  have eh := cppStod_count f.hours hh (by omega)
  have em := cppStod_count f.minutes hm (by omega)
  have es : cppStol (secondsVal f.seconds) = some ((countOf f.seconds : Nat) : Int) := by
    unfold cppStol; rw [secondsVal_eq, if_pos (by simp only [maxInt64]; omega)]
  unfold cppValue
  rw [cppNanoseconds_spec _ hfl, ey, emo, ew, ed, eh, em, es, hfr]
  dsimp only
  rw [pm, ph, pd, pw, mul_zero_months, mul_zero_years]
  simp only [mul_zero_const]
  rw [if_neg (by simp only [maxInt64]; omega),
    wrap64_id (n := ((countOf f.seconds : Nat) : Int) * 1000000000)
      (by simp only [IsInt64, minInt64, maxInt64]; omega),
    if_neg (by simp only [maxInt64]; omega),
    wrap64_id (n := (fr : Int) + ((countOf f.seconds : Nat) : Int) * 1000000000)
      (by simp only [IsInt64, minInt64, maxInt64]; omega)]
  have z : (0 : Rat) = ((0 : Nat) : Rat) := rfl
  rw [cppAdd_nat _ _ _ (by omega) (by simp only [maxInt64]; omega),
    cppAdd_nat _ _ _ (by omega) (by simp only [maxInt64]; omega),
    cppAdd_nat _ _ _ (by omega) (by simp only [maxInt64]; omega),
    cppAdd_nat _ _ _ (by omega) (by simp only [maxInt64]; omega), z,
    cppAdd_nat _ _ _ (by omega) (by simp only [maxInt64]; omega),
    cppAdd_nat _ _ _ (by omega) (by simp only [maxInt64]; omega)]
  congr 1
  unfold signed
  by_cases hsg : f.sign = some '-'
  · simp only [hsg, if_true]
    rw [if_pos (by omega)]; omega
  · simp only [hsg, if_false]
    rw [if_neg (by omega)]; omega

/-! ## The texts of the writers -/

/-- A whole number as a part of a duration -/
def natNum (n : Nat) : Num := ⟨natStr n, none⟩

/-- The part is absent if the count is zero. -/
def natPart (n : Nat) : Option Num := if 0 < n then some (natNum n) else none

/-- The parts written by the three serializers -/
def written (w : Nat) (neg : Bool) (d h m s fr : Nat) : Fields where
  sign := if neg then some '-' else none
  years := none
  months := none
  weeks := none
  days := natPart d
  time :=
    if 0 < h ∨ 0 < m ∨ 0 < s ∨ 0 < fr then
      some (natPart h, natPart m,
        if 0 < fr then some ⟨natStr s, some (rstripZeros (padZeros w fr))⟩ else natPart s)
    else none

theorem natPart_valid (n : Nat) : OptValid (natPart n) := by
  intro x hx
  unfold natPart at hx
  split at hx
  · simp at hx
    subst hx
    exact ⟨natStr_isInt n, by intro f hf; simp [natNum] at hf⟩
  · simp at hx

theorem natPart_noFraction (n : Nat) : NoFraction (natPart n) := by
  intro x hx
  unfold natPart at hx
  split at hx
  · simp at hx; subst hx; rfl
  · simp at hx

theorem countOf_natPart (n : Nat) : countOf (natPart n) = n := by
  unfold natPart
  split
  · simp [countOf, natNum, digitsVal_natStr]
  · simp [countOf]; omega

theorem fractionOf_natPart (n : Nat) : fractionOf (natPart n) = [] := by
  unfold natPart
  split <;> simp [fractionOf, natNum, Num.fracDigits]

theorem fieldText_natPart (u : Char) (n : Nat) :
    fieldText u (natPart n) = if 0 < n then natStr n ++ [u] else [] := by
  unfold natPart
  split <;> simp [fieldText, natNum, Num.text]

theorem written_valid (w : Nat) (neg : Bool) (d h m s fr : Nat) (hw : 0 < w) (hfr : fr < 10 ^ w) :
    (written w neg d h m s fr).Valid := by
  refine ⟨by unfold written; cases neg <;> simp, by intro n hn; simp [written] at hn,
    by intro n hn; simp [written] at hn, by intro n hn; simp [written] at hn, natPart_valid d, ?_⟩
  intro a b c habc
  simp only [written] at habc
  split at habc
  · simp only [Option.some.injEq, Prod.mk.injEq] at habc
    obtain ⟨h1, h2, h3⟩ := habc
    subst h1; subst h2; subst h3
    refine ⟨natPart_valid h, natPart_valid m, ?_⟩
    intro n hn
    split at hn
    · rename_i hpos
      simp at hn
      subst hn
      refine ⟨natStr_isInt s, ?_⟩
      intro f hf
      simp at hf
      subst hf
      have := fraction_spec w fr hw hfr hpos
      exact ⟨this.2.1, this.1⟩
    · exact natPart_valid s n hn
  · simp at habc

theorem written_hours (w : Nat) (neg : Bool) (d h m s fr : Nat) :
    (written w neg d h m s fr).hours = natPart h := by
  simp only [Fields.hours, written]
  split
  · rfl
  · rename_i hn
    have : h = 0 := by omega
    subst this; rfl

theorem written_minutes (w : Nat) (neg : Bool) (d h m s fr : Nat) :
    (written w neg d h m s fr).minutes = natPart m := by
  simp only [Fields.minutes, written]
  split
  · rfl
  · rename_i hn
    have : m = 0 := by omega
    subst this; rfl

theorem written_seconds (w : Nat) (neg : Bool) (d h m s fr : Nat) :
    (written w neg d h m s fr).seconds =
      if 0 < fr then some ⟨natStr s, some (rstripZeros (padZeros w fr))⟩ else natPart s := by
  simp only [Fields.seconds, written]
  split
  · rfl
  · rename_i hn
    have : s = 0 := by omega
    subst this
    rw [if_neg (by omega)]; rfl

theorem written_integral (w : Nat) (neg : Bool) (d h m s fr : Nat) :
    (written w neg d h m s fr).Integral := by
  refine ⟨rfl, rfl, by intro n hn; simp [written] at hn, natPart_noFraction d, ?_, ?_⟩
  · rw [written_hours]; exact natPart_noFraction h
  · rw [written_minutes]; exact natPart_noFraction m

theorem written_fraction (w : Nat) (neg : Bool) (d h m s fr : Nat) (hw : 0 < w) (hfr : fr < 10 ^ w) :
    (∀ c ∈ fractionOf (written w neg d h m s fr).seconds, isDig c = true) ∧
    (fractionOf (written w neg d h m s fr).seconds).length ≤ w ∧
    digitsVal (fractionOf (written w neg d h m s fr).seconds) *
      10 ^ (w - (fractionOf (written w neg d h m s fr).seconds).length) = fr ∧
    countOf (written w neg d h m s fr).seconds = s := by
  rw [written_seconds]
  split
  · rename_i hpos
    have := fraction_spec w fr hw hfr hpos
    simp only [fractionOf, Num.fracDigits, Option.getD_some, countOf, digitsVal_natStr]
    exact ⟨this.1, this.2.2.1, this.2.2.2, trivial⟩
  · rw [fractionOf_natPart, countOf_natPart]
    refine ⟨by simp, by simp, ?_, rfl⟩
    simp [digitsVal]; omega

theorem written_wholeSeconds (w : Nat) (neg : Bool) (d h m s fr : Nat) (hw : 0 < w) (hfr : fr < 10 ^ w) :
    wholeSeconds (written w neg d h m s fr) = ((d * 24 + h) * 60 + m) * 60 + s := by
  have := written_fraction w neg d h m s fr hw hfr
  unfold wholeSeconds
  rw [written_hours, written_minutes, this.2.2.2, countOf_natPart, countOf_natPart]
  have h1 : countOf (written w neg d h m s fr).weeks = 0 := rfl
  have h2 : countOf (written w neg d h m s fr).days = d := countOf_natPart d
  rw [h1, h2]; omega

/-- The text of the written parts -/
theorem render_written (w : Nat) (neg : Bool) (d h m s fr : Nat) :
    render (written w neg d h m s fr) =
      (if neg then ['-'] else []) ++ ['P'] ++ (if 0 < d then natStr d ++ ['D'] else []) ++
      (if 0 < h ∨ 0 < m ∨ 0 < s ∨ 0 < fr then
        ['T'] ++ (if 0 < h then natStr h ++ ['H'] else []) ++
        (if 0 < m then natStr m ++ ['M'] else []) ++
        (if 0 < fr then natStr s ++ ['.'] ++ rstripZeros (padZeros w fr) ++ ['S']
         else if 0 < s then natStr s ++ ['S'] else [])
       else []) := by
  unfold render
  have hs : signText (written w neg d h m s fr).sign = if neg then ['-'] else [] := by
    cases neg <;> rfl
  have hd : fieldText 'D' (written w neg d h m s fr).days = if 0 < d then natStr d ++ ['D'] else [] :=
    fieldText_natPart 'D' d
  have ht : timeText (written w neg d h m s fr).time =
      if 0 < h ∨ 0 < m ∨ 0 < s ∨ 0 < fr then
        ['T'] ++ (if 0 < h then natStr h ++ ['H'] else []) ++
        (if 0 < m then natStr m ++ ['M'] else []) ++
        (if 0 < fr then natStr s ++ ['.'] ++ rstripZeros (padZeros w fr) ++ ['S']
         else if 0 < s then natStr s ++ ['S'] else [])
       else [] := by
    simp only [written]
    split
    · simp only [timeText, fieldText_natPart]
      congr 1
      split
      · simp [fieldText, Num.text]
      · exact fieldText_natPart 'S' s
    · rfl
  rw [hs, hd, ht]
  have h1 : fieldText 'Y' (written w neg d h m s fr).years = [] := rfl
  have h2 : fieldText 'M' (written w neg d h m s fr).months = [] := rfl
  have h3 : fieldText 'W' (written w neg d h m s fr).weeks = [] := rfl
  rw [h1, h2, h3]
  simp

/-- The Python serializer writes the parts of the absolute value. -/
theorem pyToString_written (d : Timedelta) :
    pyToString d = render (written 6 (decide (d < 0)) (d.natAbs / usPerDay)
      (d.natAbs % usPerDay / 1000000 / 3600) (d.natAbs % usPerDay / 1000000 % 3600 / 60)
      (d.natAbs % usPerDay / 1000000 % 3600 % 60) (d.natAbs % 1000000)) := by
  rw [render_written]
  unfold pyToString
  simp only [decide_eq_true_eq]
  congr 1
  have : (0 < d.natAbs % usPerDay / 1000000 ∨ 0 < d.natAbs % 1000000) ↔
    (0 < d.natAbs % usPerDay / 1000000 / 3600 ∨ 0 < d.natAbs % usPerDay / 1000000 % 3600 / 60 ∨
    0 < d.natAbs % usPerDay / 1000000 % 3600 % 60 ∨ 0 < d.natAbs % 1000000) := by omega
  simp only [this]

theorem intStr_natCast (n : Nat) : intStr (n : Int) = natStr n := by
  unfold intStr; rw [if_neg (by omega)]; simp

theorem rstripZeros_dot (a : Str) (w n : Nat) (hw : 0 < w) (hn : n < 10 ^ w) (hpos : 0 < n) :
    rstripZeros (a ++ ['.'] ++ padZeros w n) = a ++ ['.'] ++ rstripZeros (padZeros w n) :=
  rstripZeros_append _ _ (fraction_spec w n hw hn hpos).2.1

/-- The Go serializer writes the parts of the absolute value if it is representable. -/
theorem goToString_written (d : Int) (hmin : d ≠ minInt64) :
    goToString d = render (written 9 (decide (d < 0)) (d.natAbs / 86400000000000)
      (d.natAbs % 86400000000000 / 3600000000000) (d.natAbs % 3600000000000 / 60000000000)
      (d.natAbs % 60000000000 / 1000000000) (d.natAbs % 1000000000)) := by
  have habs : (if d < 0 then neg64 d else d) = ((d.natAbs : Nat) : Int) := by
    unfold neg64
    split
    · omega
    · omega
  rw [render_written]
  unfold goToString
  simp only [habs]
  generalize d.natAbs = n
  have t1 : ((n : Int).tdiv 86400000000000) = ((n / 86400000000000 : Nat) : Int) := by
    simp [Int.tdiv]
  have t2 : ((n : Int).tmod 86400000000000) = ((n % 86400000000000 : Nat) : Int) := by
    simp [Int.tmod]
  have t3 : (((n % 86400000000000 : Nat) : Int).tdiv 3600000000000) =
      ((n % 86400000000000 / 3600000000000 : Nat) : Int) := by simp [Int.tdiv]
  have t4 : (((n % 86400000000000 : Nat) : Int).tmod 3600000000000) =
      ((n % 3600000000000 : Nat) : Int) := by
    have : ((n % 86400000000000 : Nat) : Int).tmod 3600000000000 =
      ((n % 86400000000000 % 3600000000000 : Nat) : Int) := by simp [Int.tmod]
    rw [this]; omega
  have t5 : (((n % 3600000000000 : Nat) : Int).tdiv 60000000000) =
      ((n % 3600000000000 / 60000000000 : Nat) : Int) := by simp [Int.tdiv]
  have t6 : (((n % 3600000000000 : Nat) : Int).tmod 60000000000) =
      ((n % 60000000000 : Nat) : Int) := by
    have : ((n % 3600000000000 : Nat) : Int).tmod 60000000000 =
      ((n % 3600000000000 % 60000000000 : Nat) : Int) := by simp [Int.tmod]
    rw [this]; omega
  have t7 : (((n % 60000000000 : Nat) : Int).tdiv 1000000000) =
      ((n % 60000000000 / 1000000000 : Nat) : Int) := by simp [Int.tdiv]
  have t8 : (((n % 60000000000 : Nat) : Int).tmod 1000000000) =
      ((n % 1000000000 : Nat) : Int) := by
    have : ((n % 60000000000 : Nat) : Int).tmod 1000000000 =
      ((n % 60000000000 % 1000000000 : Nat) : Int) := by simp [Int.tmod]
    rw [this]; omega
  rw [t1, t2, t3, t4, t5, t6, t7, t8]
  simp only [intStr_natCast, decide_eq_true_eq, Int.natAbs_natCast]
  generalize hd : n / 86400000000000 = dd
  generalize hh : n % 86400000000000 / 3600000000000 = hh
  generalize hm : n % 3600000000000 / 60000000000 = mm
  generalize hs : n % 60000000000 / 1000000000 = ss
  have hns : n % 1000000000 < 10 ^ 9 := by omega
  generalize n % 1000000000 = ns at hns
  have p : ∀ k : Nat, (0 < (k : Int)) ↔ 0 < k := by intro k; omega
  have q : ((ns : Int) = 0) ↔ ns = 0 := by omega
  simp only [p, q]
  congr 1
  by_cases h0 : 0 < ns
  · have : ¬ ns = 0 := by omega
    simp only [this, if_false, h0, if_true]
    rw [rstripZeros_dot _ 9 ns (by omega) hns h0]
  · have : ns = 0 := by omega
    simp [this]

/-- The C++ serializer writes the same text as the Go serializer. -/
theorem cppToString_eq_go (d : Int) (hmin : d ≠ minInt64) :
    cppToString d = some (goToString d) := by
  have habs : (if d < 0 then neg64 d else d) = ((d.natAbs : Nat) : Int) := by
    unfold neg64
    split
    · omega
    · omega
  unfold cppToString goToString
  simp only [habs]
  rw [if_neg (by omega)]
  congr 2
  generalize ((((d.natAbs : Int).tmod 86400000000000).tmod 3600000000000).tmod 60000000000) = r
  by_cases h0 : r.tmod 1000000000 = 0
  · simp [h0]
  · simp only [h0, if_false]
    have hlt : (r.tmod 1000000000).natAbs < 10 ^ 9 := by
      have := Int.natAbs_tmod r 1000000000
      rw [this]
      have : r.natAbs % (1000000000 : Int).natAbs < 1000000000 := Nat.mod_lt _ (by decide)
      omega
    rw [rstripZeros_dot _ 9 _ (by omega) hlt (by omega)]

end Mapry.Duration
