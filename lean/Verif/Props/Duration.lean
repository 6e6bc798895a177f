import Verif.DurationValue

/-!
# C13 - C17, C46, C47: durations
-/

namespace Mapry.Props

open Mapry.Duration Mapry.Text

/-! ## Agreement of the model with the expected outputs recorded in the repository -/

-- `/repo/mapry/py/generate/fromjsonable.py:149-179` (doctests of the generated function)
example : pyFromString c!"P10Y" = .ok (3652 * 86400000000 + 36720000000) := by decide +kernel
example : pyFromString c!"P1M" = .ok (30 * 86400000000 + 37746000000) := by decide +kernel
example : pyFromString c!"PT1H1M1.1S" = .ok 3661100000 := by decide +kernel
example : pyFromString c!"P1.1Y1.1M1.1W1.1DT1.1H1.1M1.1S" =
    .ok (444 * 86400000000 + 8114900000) := by decide +kernel
example : pyFromString c!"PT" = .ok 0 := by decide +kernel
-- `/repo/mapry/py/generate/tojsonable.py:67-95` (doctests of the generated function)
example : pyToString (86400000000 + 2 * 3600000000 + 3 * 60000000 + 4000005) =
    c!"P1DT2H3M4.000005S" := by decide +kernel
example : pyToString (-(86400000000 + 3600000000 + 60000000 + 1000001)) =
    c!"-P1DT1H1M1.000001S" := by decide +kernel
-- `/repo/test_cases/general/primitive_type/duration/go/live_test_generate_jsonable` and
-- `.../cpp/live_test_generate_jsoncpp`, `example_ok_fractions/expected.out`
example : (goFromString c!"P1.1Y1.1M1.1W1.1DT1.1H1.1M1.1S").map goToString =
    .ok c!"P444DT2H15M14.900000008S" := by decide +kernel
example : cppFromString false c!"P1.1Y1.1M1.1W1.1DT1.1H1.1M1.1S" = .value 38369714900000008 := by
  decide +kernel

/-! ## C13: Python round trip -/

theorem signed_of (F : Fields) (d : Int) (n : Nat) (hs : F.sign = if d < 0 then some '-' else none) :
    signed F n = if d < 0 then -(n : Int) else n := by
  unfold signed
  rw [hs]
  by_cases h0 : d < 0
  · rw [if_pos h0, if_pos rfl, if_pos h0]
  · rw [if_neg h0, if_neg (by simp), if_neg h0]

/-- Writing and reading an arbitrary `timedelta` gives it back. -/
theorem C13_python_round_trip (d : Timedelta) (h : d.InRange) : pyFromString (pyToString d) = .ok d := by
  rw [pyToString_written]
  generalize hF : written 6 (decide (d < 0)) (d.natAbs / usPerDay)
      (d.natAbs % usPerDay / 1000000 / 3600) (d.natAbs % usPerDay / 1000000 % 3600 / 60)
      (d.natAbs % usPerDay / 1000000 % 3600 % 60) (d.natAbs % 1000000) = F
  have hv : F.Valid := by rw [← hF]; exact written_valid _ _ _ _ _ _ _ (by omega) (by omega)
  have hi : F.Integral := by rw [← hF]; exact written_integral _ _ _ _ _ _ _
  have hf := written_fraction 6 (decide (d < 0)) (d.natAbs / usPerDay)
      (d.natAbs % usPerDay / 1000000 / 3600) (d.natAbs % usPerDay / 1000000 % 3600 / 60)
      (d.natAbs % usPerDay / 1000000 % 3600 % 60) (d.natAbs % 1000000) (by omega) (by omega)
  have hw := written_wholeSeconds 6 (decide (d < 0)) (d.natAbs / usPerDay)
      (d.natAbs % usPerDay / 1000000 / 3600) (d.natAbs % usPerDay / 1000000 % 3600 / 60)
      (d.natAbs % usPerDay / 1000000 % 3600 % 60) (d.natAbs % 1000000) (by omega) (by omega)
  have hs : F.sign = if d < 0 then some '-' else none := by rw [← hF]; simp [written]
  rw [hF] at hf hw
  have hspan : span 6 F = d.natAbs := by
    unfold span
    rw [hf.2.2.1, hw]
    unfold usPerDay
    omega
  have hsg : signed F (span 6 F) = d := by
    rw [hspan]
    rw [signed_of F d _ hs]
    split <;> omega
  have hm := (matchDuration_py_iff (render F) F).2 ⟨hv, Or.inl rfl⟩
  unfold pyFromString
  rw [hm]
  simp only
  rw [pyValue_exact _ F hi hf.1 hf.2.1 (by rw [hsg]; exact h), hsg]

example : Timedelta.InRange tdMin ∧ Timedelta.InRange tdMax ∧ Timedelta.InRange (-1) := by decide
example : pyToString tdMin = c!"-P999999999D" := by decide +kernel

/-! ## C14: the grammar and the value of the Python reader -/

/-- Not-a-number never arises. -/
def NotNan (x : F64) : Prop := x ≠ .nan

/-- A number which is not negative (and not NaN) -/
def NonNeg : F64 → Prop
  | .fin q => 0 ≤ q
  | .inf neg => neg = false
  | .nan => False

theorem mkRat_nonneg (n d : Nat) : 0 ≤ mkRat (n : Int) d := by
  rw [← Rat.divInt_ofNat]
  exact Rat.divInt_nonneg (by omega) (by omega)

theorem roundPos_nonNeg (n d : Nat) : NonNeg (roundPos n d) := by
  unfold roundPos
  simp only
  split
  · rfl
  · unfold dyadic
    simp only [NonNeg]
    split
    · exact Rat.natCast_nonneg
    · exact mkRat_nonneg _ _

theorem round_nonNeg (q : Rat) (h : 0 ≤ q) : NonNeg (F64.round q) := by
  unfold F64.round
  split
  · exact Rat.le_refl
  · split
    · exact roundPos_nonNeg _ _
    · have := Rat.num_nonneg.2 h
      omega

theorem numF64_nonNeg (o : Option Num) : NonNeg (numF64 o) := by
  cases o with
  | none => exact Rat.le_refl
  | some n => exact round_nonNeg _ (mkRat_nonneg _ _)

/-- A positive finite constant -/
def PosFin (x : F64) : Prop := ∃ q, x = .fin q ∧ 0 < q

def isPosFin : F64 → Bool
  | .fin q => decide (0 < q)
  | _ => false

theorem posFin_of {x : F64} (h : isPosFin x = true) : PosFin x := by
  cases x with
  | fin q => exact ⟨q, rfl, by simpa [isPosFin] using h⟩
  | inf b => simp [isPosFin] at h
  | nan => simp [isPosFin] at h

theorem posFin_year : PosFin daysPerYear := posFin_of (by decide +kernel)
theorem posFin_month : PosFin daysPerMonth := posFin_of (by decide +kernel)
theorem posFin_const (n : Nat) (h : 0 < n) : PosFin (constF n) := ⟨n, rfl, by
  have : ((0 : Nat) : Rat) < (n : Rat) := Rat.natCast_lt_natCast.2 h
  exact this⟩

theorem mul_nonNeg {a b : F64} (ha : NonNeg a) (hb : PosFin b) : NonNeg (F64.mul a b) := by
  obtain ⟨q, rfl, hq⟩ := hb
  cases a with
  | fin p => exact round_nonNeg _ (Rat.mul_nonneg ha (Rat.le_of_lt hq))
  | inf n =>
    have hn : n = false := ha
    subst hn
    have h0 : q ≠ 0 := fun h => by rw [h] at hq; exact Rat.lt_irrefl hq
    have h1 : ¬ q < 0 := by rw [Rat.not_lt]; exact Rat.le_of_lt hq
    simp [F64.mul, h0, h1, NonNeg]
  | nan => exact ha.elim

theorem add_nonNeg {a b : F64} (ha : NonNeg a) (hb : NonNeg b) : NonNeg (F64.add a b) := by
  cases a with
  | fin p =>
    cases b with
    | fin q => exact round_nonNeg _ (Rat.add_nonneg ha hb)
    | inf n => exact hb
    | nan => exact hb.elim
  | inf n =>
    have hn : n = false := ha
    subst hn
    cases b with
    | fin q => rfl
    | inf m =>
      have hm : m = false := hb
      subst hm
      rfl
    | nan => exact hb.elim
  | nan => exact ha.elim

theorem round_ne_nan (q : Rat) : F64.round q ≠ .nan := by
  have h : ∀ n d, roundPos n d ≠ .nan := by
    intro n d; unfold roundPos; simp only; split <;> simp
  unfold F64.round
  split
  · simp
  · split
    · exact h _ _
    · intro hc
      generalize hr : roundPos q.num.natAbs q.den = r at hc
      cases r with
      | nan => exact h _ _ hr
      | _ => simp [F64.neg] at hc

/-- The accumulation of the constructor raises nothing but `OverflowError`. -/
theorem accum_only_overflow (a : Int × F64) (v : F64) (n : Nat) (hv : v ≠ .nan) :
    (∃ r, accum a v n = .ok r) ∨ accum a v n = .error .overflowError := by
  unfold accum
  cases v with
  | nan => exact absurd rfl hv
  | inf b => exact Or.inr rfl
  | fin q =>
    simp only
    split
    · exact Or.inl ⟨_, rfl⟩
    · split
      · exact Or.inl ⟨_, rfl⟩
      · exact Or.inr rfl
      · rename_i heq
        exact absurd heq (round_ne_nan _)

theorem checkTd_only_overflow (n : Int) :
    (∃ r, checkTd n = .ok r) ∨ checkTd n = .error .overflowError := by
  unfold checkTd; split
  · exact Or.inl ⟨_, rfl⟩
  · exact Or.inr rfl

theorem mkTimedelta_only_overflow (d : F64) (s : Int) (m h : F64) (us : Int)
    (hd : d ≠ .nan) (hm : m ≠ .nan) (hh : h ≠ .nan) :
    (∃ r, mkTimedelta d s m h us = .ok r) ∨ mkTimedelta d s m h us = .error .overflowError := by
  unfold mkTimedelta
  simp only
  rcases accum_only_overflow (us + s * 1000000, F64.fin 0) m 60000000 hm with ⟨r1, h1⟩ | h1
  · rw [h1, ok_bind]
    rcases accum_only_overflow r1 h 3600000000 hh with ⟨r2, h2⟩ | h2
    · rw [h2, ok_bind]
      rcases accum_only_overflow r2 d usPerDay hd with ⟨r3, h3⟩ | h3
      · rw [h3, ok_bind]
        split
        · exact checkTd_only_overflow _
        · exact Or.inr rfl
      · rw [h3]; exact Or.inr rfl
    · rw [h2]; exact Or.inr rfl
  · rw [h1]; exact Or.inr rfl

theorem nonNeg_ne_nan {x : F64} (h : NonNeg x) : x ≠ .nan := by
  intro hc; subst hc; exact h

/-- After the match, the reader raises `ValueError` iff the fraction is longer than six digits;
otherwise the only exception is `OverflowError`. -/
theorem pyValue_outcome (text : Str) (f : Fields) :
    (6 < (fractionOf f.seconds).length ∧ ∃ msg, pyValue text f = .error (.valueError msg)) ∨
    ((fractionOf f.seconds).length ≤ 6 ∧
      ((∃ d, pyValue text f = .ok d) ∨ pyValue text f = .error .overflowError)) := by
  by_cases hl : 6 < (fractionOf f.seconds).length
  · left
    refine ⟨hl, c!"Precision only up to microseconds supported, but got: " ++ text, ?_⟩
    have : pyMicroseconds text (fractionOf f.seconds) = .error (.valueError
        (c!"Precision only up to microseconds supported, but got: " ++ text)) := by
      unfold pyMicroseconds
      rw [if_neg (by intro h; rw [h] at hl; simp at hl), if_pos hl]
    unfold pyValue
    rw [this]
    rfl
  · right
    refine ⟨by omega, ?_⟩
    have hus : ∃ us, pyMicroseconds text (fractionOf f.seconds) = .ok us := by
      unfold pyMicroseconds
      split
      · exact ⟨_, rfl⟩
      · simp only
        split
        · exact ⟨_, rfl⟩
        · exact ⟨_, rfl⟩
    obtain ⟨us, hus⟩ := hus
    have hdays : F64.add (F64.add (F64.add (F64.mul (numF64 f.years) daysPerYear)
        (F64.mul (numF64 f.months) daysPerMonth)) (F64.mul (numF64 f.weeks) (constF 7)))
        (numF64 f.days) ≠ .nan :=
      nonNeg_ne_nan (add_nonNeg (add_nonNeg (add_nonNeg (mul_nonNeg (numF64_nonNeg _) posFin_year)
        (mul_nonNeg (numF64_nonNeg _) posFin_month))
        (mul_nonNeg (numF64_nonNeg _) (posFin_const 7 (by omega)))) (numF64_nonNeg _))
    have := mkTimedelta_only_overflow _ (secondsVal f.seconds) (numF64 f.minutes) (numF64 f.hours)
      (us : Int) hdays (nonNeg_ne_nan (numF64_nonNeg _)) (nonNeg_ne_nan (numF64_nonNeg _))
    unfold pyValue
    rw [hus, ok_bind]
    dsimp only
    rcases this with ⟨r, hr⟩ | hr
    · rw [hr, ok_bind]; exact checkTd_only_overflow _
    · rw [hr]; exact Or.inr rfl

/-- The texts which the documented grammar admits, with at most six digits in the fraction -/
def Documented (text : Str) : Prop :=
  ∃ f : Fields, f.Valid ∧ (fractionOf f.seconds).length ≤ 6 ∧ text = render f

/-- The Python reader rejects (`ValueError`) exactly the texts which are neither documented nor a
documented text followed by one newline; on all other texts it gives a value or, if the value does
not fit into a `timedelta`, raises `OverflowError`. The trailing newline is not part of the
documented grammar: see `C14_violated_newline`. -/
theorem C14_accepts_partial (text : Str) :
    ((∃ msg, pyFromString text = .error (.valueError msg)) ↔
      ¬ ∃ t, Documented t ∧ (text = t ∨ text = t ++ ['\n'])) ∧
    ((∃ d, pyFromString text = .ok d) ∨ pyFromString text = .error .overflowError ∨
      ∃ msg, pyFromString text = .error (.valueError msg)) := by
  cases hm : matchDuration endPy text with
  | none =>
    have he : pyFromString text = .error (.valueError (c!"Failed to match the duration: " ++ text)) := by
      unfold pyFromString; rw [hm]
    refine ⟨⟨?_, fun _ => ⟨_, he⟩⟩, Or.inr (Or.inr ⟨_, he⟩)⟩
    rintro _ ⟨t, ⟨f, hv, _, rfl⟩, ht⟩
    have := (matchDuration_py_iff text f).2 ⟨hv, ht⟩
    rw [hm] at this
    cases this
  | some f =>
    have he : pyFromString text = pyValue text f := by unfold pyFromString; rw [hm]
    obtain ⟨hv, ht⟩ := (matchDuration_py_iff text f).1 hm
    rcases pyValue_outcome text f with ⟨hl, msg, h⟩ | ⟨hl, h⟩
    · refine ⟨⟨?_, fun _ => ⟨msg, he.trans h⟩⟩, Or.inr (Or.inr ⟨msg, he.trans h⟩)⟩
      rintro _ ⟨t, ⟨f', hv', hl', rfl⟩, ht'⟩
      have := (matchDuration_py_iff text f').2 ⟨hv', ht'⟩
      rw [hm] at this
      simp only [Option.some.injEq] at this
      subst this
      omega
    · have hno : ¬ ∃ msg, pyFromString text = .error (.valueError msg) := by
        rintro ⟨msg, hmsg⟩
        rw [he] at hmsg
        rcases h with ⟨d, hd⟩ | hd
        · rw [hd] at hmsg; cases hmsg
        · rw [hd] at hmsg; cases hmsg
      refine ⟨⟨fun hc => absurd hc hno, fun hc => absurd ⟨render f, ⟨f, hv, hl, rfl⟩, ht⟩ hc⟩, ?_⟩
      rcases h with ⟨d, hd⟩ | hd
      · exact Or.inl ⟨d, he.trans hd⟩
      · exact Or.inr (Or.inl (he.trans hd))

/-- The documented grammar does not admit a newline, but the reader accepts it. -/
theorem C14_violated_newline :
    pyFromString c!"P1D\n" = .ok 86400000000 ∧ ¬ Documented c!"P1D\n" := by
  refine ⟨by decide +kernel, ?_⟩
  rintro ⟨f, hv, _, ht⟩
  have h := (matchDuration_text_iff c!"P1D\n" f).2 ⟨hv, ht⟩
  have h2 : matchDuration endText c!"P1D\n" = none := by decide +kernel
  rw [h2] at h
  cases h

example : Documented c!"P1DT0.5S" :=
  ⟨⟨none, none, none, none, some ⟨['1'], none⟩,
    some (none, none, some ⟨['0'], some ['5']⟩)⟩, by
      have := (matchDuration_text_iff c!"P1DT0.5S" ⟨none, none, none, none, some ⟨['1'], none⟩,
        some (none, none, some ⟨['0'], some ['5']⟩)⟩).1 (by decide +kernel)
      exact ⟨this.1, by decide, this.2⟩⟩

/-- For whole weeks, days, hours and minutes and (possibly fractional) seconds the value is the
exact sum. -/
theorem C14_exact_sum (f : Fields) (hv : f.Valid) (hi : f.Integral)
    (hl : (fractionOf f.seconds).length ≤ 6) (hr : Timedelta.InRange (signed f (span 6 f))) :
    pyFromString (render f) = .ok (signed f (span 6 f)) := by
  have hfd : ∀ c ∈ fractionOf f.seconds, isDig c = true := by
    cases hs : f.seconds with
    | none => simp [fractionOf]
    | some n =>
      intro c hc
      have htv : n.Valid := by
        cases ht : f.time with
        | none => simp [Fields.seconds, ht] at hs
        | some x =>
          obtain ⟨a, b, s⟩ := x
          have := (hv.time a b s ht).2.2
          simp [Fields.seconds, ht] at hs
          exact this n hs
      simp only [fractionOf, Num.fracDigits] at hc
      cases hfr : n.frac with
      | none => rw [hfr] at hc; simp at hc
      | some fr => rw [hfr] at hc; exact (htv.2 fr hfr).2 c hc
  have hm := (matchDuration_py_iff (render f) f).2 ⟨hv, Or.inl rfl⟩
  unfold pyFromString
  rw [hm]
  exact pyValue_exact _ f hi hfd hl hr

example : pyFromString c!"-P2W3DT25H61M75.25S" =
    .ok (-((17 * 86400 + 25 * 3600 + 61 * 60 + 75) * 1000000 + 250000)) := by decide +kernel

/-! ## C15: Go round trip -/

theorem int64_span (d : Int) (hd : IsInt64 d) (hmin : d ≠ minInt64) :
    ∃ F : Fields, F.Valid ∧ F.Integral ∧ goToString d = render F ∧
      (∀ c ∈ fractionOf F.seconds, isDig c = true) ∧ (fractionOf F.seconds).length ≤ 9 ∧
      digitsVal (fractionOf F.seconds) * 10 ^ (9 - (fractionOf F.seconds).length) =
        d.natAbs % 1000000000 ∧
      wholeSeconds F = d.natAbs / 1000000000 ∧
      (F.sign = if d < 0 then some '-' else none) ∧ span 9 F = d.natAbs ∧ signed F (span 9 F) = d ∧
      (span 9 F : Int) ≤ maxInt64 := by
  refine ⟨_, ?_, ?_, goToString_written d hmin, ?_⟩
  · exact written_valid _ _ _ _ _ _ _ (by omega) (by omega)
  · exact written_integral _ _ _ _ _ _ _
  generalize hF : written 9 (decide (d < 0)) (d.natAbs / 86400000000000)
      (d.natAbs % 86400000000000 / 3600000000000) (d.natAbs % 3600000000000 / 60000000000)
      (d.natAbs % 60000000000 / 1000000000) (d.natAbs % 1000000000) = F
  have hf := written_fraction 9 (decide (d < 0)) (d.natAbs / 86400000000000)
      (d.natAbs % 86400000000000 / 3600000000000) (d.natAbs % 3600000000000 / 60000000000)
      (d.natAbs % 60000000000 / 1000000000) (d.natAbs % 1000000000) (by omega) (by omega)
  have hw := written_wholeSeconds 9 (decide (d < 0)) (d.natAbs / 86400000000000)
      (d.natAbs % 86400000000000 / 3600000000000) (d.natAbs % 3600000000000 / 60000000000)
      (d.natAbs % 60000000000 / 1000000000) (d.natAbs % 1000000000) (by omega) (by omega)
  have hs : F.sign = if d < 0 then some '-' else none := by rw [← hF]; simp [written]
  rw [hF] at hf hw
  have hspan : span 9 F = d.natAbs := by
    unfold span
    rw [hf.2.2.1, hw]
    omega
  have hsg : signed F (span 9 F) = d := by
    rw [hspan]
    rw [signed_of F d _ hs]
    split <;> omega
  have hmax : (span 9 F : Int) ≤ maxInt64 := by
    rw [hspan]
    simp only [IsInt64, minInt64, maxInt64] at *
    omega
  exact ⟨hf.1, hf.2.1, hf.2.2.1, by rw [hw]; omega, hs, hspan, hsg, hmax⟩

/-- Every duration but the most negative one survives a round trip through Go. -/
theorem C15_go_round_trip_partial (d : Int) (hd : IsInt64 d) (hmin : d ≠ minInt64) :
    goFromString (goToString d) = .ok d := by
  obtain ⟨F, hv, hi, ht, hfd, hfl, _, _, _, _, hsg, hmax⟩ := int64_span d hd hmin
  rw [ht]
  have hm := (matchDuration_text_iff (render F) F).2 ⟨hv, rfl⟩
  unfold goFromString
  rw [hm]
  simp only
  rw [goValue_exact F hi hfd hfl hmax, hsg]

/-- The most negative duration is written as `-P` and read back as zero. -/
theorem C15_violated_minimum :
    IsInt64 minInt64 ∧ goToString minInt64 = c!"-P" ∧
    goFromString (goToString minInt64) = .ok 0 := by
  refine ⟨by decide, by decide +kernel, by decide +kernel⟩

example : IsInt64 (-86400000000001) ∧ goToString (-86400000000001) = c!"-P1DT0.000000001S" := by
  refine ⟨by decide, by decide +kernel⟩

/-! ## C16: C++ round trip -/

/-- Every duration whose absolute value is representable is written without an exception and read
back, provided that the uninitialised variable `overflows` happens to be false. -/
theorem C16_cpp_round_trip_partial (d : Int) (hd : IsInt64 d) (hmin : d ≠ minInt64) :
    ∃ s, cppToString d = some s ∧ cppFromString false s = .value d := by
  refine ⟨goToString d, cppToString_eq_go d hmin, ?_⟩
  obtain ⟨F, hv, hi, ht, _, hfl, _, _, _, _, hsg, hmax⟩ := int64_span d hd hmin
  rw [ht]
  have hm := (matchDuration_text_iff (render F) F).2 ⟨hv, rfl⟩
  unfold cppFromString
  rw [hm]
  simp only
  rw [cppValue_exact F hi hfl hmax, hsg]

theorem cppAdd_garbage (left : Int) (q : F64) (k : Int → CppResult) (n : Int) :
    cppAdd left q true k ≠ .value n := by
  unfold cppAdd
  split
  · simp
  · simp
  · rename_i heq
    unfold addRepDouble at heq
    split at heq
    · simp at heq
    · split at heq
      · simp at heq
      · split at heq <;> simp at heq
      · split at heq
        · simp at heq
        · split at heq
          · simp at heq
          · split at heq <;> simp at heq

/-- If the uninitialised variable happens to be true, no duration at all is ever read. -/
theorem C16_violated_uninitialised (s : Str) (n : Int) : cppFromString true s ≠ .value n := by
  unfold cppFromString
  split
  · simp
  · unfold cppValue
    split
    · simp
    · simp only
      split
      · split
        · simp
        · split
          · simp
          · exact cppAdd_garbage _ _ _ _
      · simp

/-- The most negative duration cannot be written. -/
theorem C16_minimum_throws : cppToString minInt64 = none := by decide

/-! ## C17: interoperability -/

theorem python_text (d : Timedelta) :
    ∃ F : Fields, F.Valid ∧ F.Integral ∧ pyToString d = render F ∧
      (∀ c ∈ fractionOf F.seconds, isDig c = true) ∧ (fractionOf F.seconds).length ≤ 6 ∧
      digitsVal (fractionOf F.seconds) * 10 ^ (6 - (fractionOf F.seconds).length) =
        d.natAbs % 1000000 ∧
      wholeSeconds F = d.natAbs / 1000000 ∧ (F.sign = if d < 0 then some '-' else none) := by
  refine ⟨_, ?_, ?_, pyToString_written d, ?_⟩
  · exact written_valid _ _ _ _ _ _ _ (by omega) (by omega)
  · exact written_integral _ _ _ _ _ _ _
  generalize hF : written 6 (decide (d < 0)) (d.natAbs / usPerDay)
      (d.natAbs % usPerDay / 1000000 / 3600) (d.natAbs % usPerDay / 1000000 % 3600 / 60)
      (d.natAbs % usPerDay / 1000000 % 3600 % 60) (d.natAbs % 1000000) = F
  have hf := written_fraction 6 (decide (d < 0)) (d.natAbs / usPerDay)
      (d.natAbs % usPerDay / 1000000 / 3600) (d.natAbs % usPerDay / 1000000 % 3600 / 60)
      (d.natAbs % usPerDay / 1000000 % 3600 % 60) (d.natAbs % 1000000) (by omega) (by omega)
  have hw := written_wholeSeconds 6 (decide (d < 0)) (d.natAbs / usPerDay)
      (d.natAbs % usPerDay / 1000000 / 3600) (d.natAbs % usPerDay / 1000000 % 3600 / 60)
      (d.natAbs % usPerDay / 1000000 % 3600 % 60) (d.natAbs % 1000000) (by omega) (by omega)
  have hs : F.sign = if d < 0 then some '-' else none := by rw [← hF]; simp [written]
  rw [hF] at hf hw
  refine ⟨hf.1, hf.2.1, hf.2.2.1, ?_, hs⟩
  rw [hw]; unfold usPerDay; omega

theorem pow_split (len : Nat) (h : len ≤ 6) : 10 ^ (9 - len) = 10 ^ (6 - len) * 1000 := by
  rw [show 9 - len = (6 - len) + 3 by omega, Nat.pow_add]

/-- A duration written by Python is read by Go and C++ as the same span, if it fits into 64-bit
nanoseconds. -/
theorem C17_from_python (d : Timedelta) (hfit : (d.natAbs : Int) * 1000 ≤ maxInt64) :
    goFromString (pyToString d) = .ok (d * 1000) ∧
    cppFromString false (pyToString d) = .value (d * 1000) := by
  obtain ⟨F, hv, hi, ht, hfd, hfl, hfr, hw, hs⟩ := python_text d
  have hspan : span 9 F = d.natAbs * 1000 := by
    unfold span
    rw [pow_split _ hfl, ← Nat.mul_assoc, hfr, hw]
    omega
  have hsg : signed F (span 9 F) = d * 1000 := by
    rw [hspan]
    rw [signed_of F d _ hs]
    split <;> omega
  have hmax : (span 9 F : Int) ≤ maxInt64 := by rw [hspan]; omega
  have hm := (matchDuration_text_iff (render F) F).2 ⟨hv, rfl⟩
  rw [ht]
  refine ⟨?_, ?_⟩
  · unfold goFromString
    rw [hm]
    simp only
    rw [goValue_exact F hi hfd (by omega) hmax, hsg]
  · unfold cppFromString
    rw [hm]
    simp only
    rw [cppValue_exact F hi (by omega) hmax, hsg]

theorem digitsVal_pos (f : Str) (hd : ∀ c ∈ f, isDig c = true) (hl : f.getLast? ≠ some '0')
    (hne : f ≠ []) : digitsVal f % 10 ≠ 0 := by
  obtain ⟨init, last, rfl⟩ : ∃ init last, f = init ++ [last] :=
    ⟨f.dropLast, f.getLast hne, (List.dropLast_concat_getLast hne).symm⟩
  simp at hl
  have hdl : isDig last = true := hd last (by simp)
  rw [digitsVal_append _ _ (by intro c hc; simp at hc; subst hc; exact hdl)]
  simp only [List.length_singleton, Nat.pow_one]
  have h1 : digitsVal [last] = last.toNat - 48 := by
    unfold digitsVal
    rw [Nat.ofDigitChars_cons, Nat.ofDigitChars_nil]
    have : '0'.toNat = 48 := rfl
    omega
  have h2 : 48 ≤ last.toNat ∧ last.toNat ≤ 57 := by
    unfold isDig Char.isDigit at hdl
    simp at hdl
    exact ⟨hdl.1, hdl.2⟩
  have h3 : last.toNat ≠ 48 := by
    intro h
    apply hl
    exact Char.toNat_inj.1 (by rw [h]; rfl)
  rw [h1]
  omega

theorem rstripZeros_last (s : Str) : (rstripZeros s).getLast? ≠ some '0' := by
  unfold rstripZeros
  rw [List.getLast?_reverse]
  intro h
  have := List.head?_dropWhile_not (p := (· == '0')) (l := s.reverse)
  rw [h] at this
  simp at this

/-- A fraction of whole microseconds is not longer than six digits. -/
theorem fraction_short (n : Nat) (hn : n < 10 ^ 9) (hpos : 0 < n) (hd : n % 1000 = 0) :
    (rstripZeros (padZeros 9 n)).length ≤ 6 := by
  obtain ⟨h1, h2, h3, h4⟩ := fraction_spec 9 n (by omega) hn hpos
  have h5 := digitsVal_pos _ h1 (rstripZeros_last _) h2
  generalize rstripZeros (padZeros 9 n) = f at *
  by_cases hl : f.length ≤ 6
  · exact hl
  · exfalso
    have : f.length = 7 ∨ f.length = 8 ∨ f.length = 9 := by omega
    rcases this with h | h | h <;> rw [h] at h4 <;> simp at h4 <;> omega

/-- A duration written by Go or C++ which consists of whole microseconds is read by Python as the
same span. -/
theorem C17_to_python (d : Int) (hd : IsInt64 d) (hmin : d ≠ minInt64) (hus : d % 1000 = 0) :
    cppToString d = some (goToString d) ∧ pyFromString (goToString d) = .ok (d / 1000) := by
  refine ⟨cppToString_eq_go d hmin, ?_⟩
  have htext := goToString_written d hmin
  obtain ⟨hfit1, hfit2⟩ := hd
  simp only [minInt64, maxInt64] at hfit1 hfit2
  generalize hF : written 9 (decide (d < 0)) (d.natAbs / 86400000000000)
      (d.natAbs % 86400000000000 / 3600000000000) (d.natAbs % 3600000000000 / 60000000000)
      (d.natAbs % 60000000000 / 1000000000) (d.natAbs % 1000000000) = F at htext
  have hv : F.Valid := by rw [← hF]; exact written_valid _ _ _ _ _ _ _ (by omega) (by omega)
  have hi : F.Integral := by rw [← hF]; exact written_integral _ _ _ _ _ _ _
  have hf := written_fraction 9 (decide (d < 0)) (d.natAbs / 86400000000000)
      (d.natAbs % 86400000000000 / 3600000000000) (d.natAbs % 3600000000000 / 60000000000)
      (d.natAbs % 60000000000 / 1000000000) (d.natAbs % 1000000000) (by omega) (by omega)
  have hw := written_wholeSeconds 9 (decide (d < 0)) (d.natAbs / 86400000000000)
      (d.natAbs % 86400000000000 / 3600000000000) (d.natAbs % 3600000000000 / 60000000000)
      (d.natAbs % 60000000000 / 1000000000) (d.natAbs % 1000000000) (by omega) (by omega)
  have hs : F.sign = if d < 0 then some '-' else none := by rw [← hF]; simp [written]
  have hshort : (fractionOf F.seconds).length ≤ 6 := by
    rw [← hF, written_seconds]
    split
    · rename_i hpos
      simp only [fractionOf, Num.fracDigits, Option.getD_some]
      exact fraction_short _ (by omega) hpos (by omega)
    · rw [fractionOf_natPart]; simp
  rw [hF] at hf hw
  have h3 := hf.2.2.1
  rw [pow_split _ hshort, ← Nat.mul_assoc] at h3
  have hspan : span 6 F = d.natAbs / 1000 := by
    unfold span
    rw [hw]
    apply Nat.le_antisymm
    · apply Nat.le_of_not_lt; intro _; omega
    · apply Nat.le_of_not_lt; intro _; omega
  have hsg : signed F (span 6 F) = d / 1000 := by
    rw [hspan]
    rw [signed_of F d _ hs]
    split <;> omega
  rw [htext]
  rw [C14_exact_sum F hv hi hshort, hsg]
  rw [hsg]
  have h6 : -9223372036854776 ≤ d / 1000 ∧ d / 1000 ≤ 9223372036854775 := by omega
  have h7 : tdMin ≤ -9223372036854776 ∧ 9223372036854775 ≤ tdMax := by decide
  exact ⟨Int.le_trans h7.1 h6.1, Int.le_trans h6.2 h7.2⟩

example : IsInt64 (-1500000000) ∧ (-1500000000 : Int) % 1000 = 0 ∧
    pyFromString (goToString (-1500000000)) = .ok (-1500000) := by
  refine ⟨by decide, by decide, by decide +kernel⟩

/-! ## C46: the Go reader never panics -/

theorem goParseFloat_outcome (o : Option Num) :
    (∃ q, 0 ≤ q ∧ goParseFloat o = .ok (.fin q)) ∨
      goParseFloat o = .error (.valueError c!"value out of range") := by
  have h := numF64_nonNeg o
  unfold goParseFloat
  cases hq : numF64 o with
  | fin q => rw [hq] at h; exact Or.inl ⟨q, h, rfl⟩
  | inf n => exact Or.inr rfl
  | nan => exact Or.inr rfl

/-- How an addition may end: within the range, or with an error. -/
theorem goAdd_outcome (left : Int) (x : F64) (h0 : 0 ≤ left) (hx : NonNeg x) (_hmax : left ≤ maxInt64) :
    (∃ r, 0 ≤ r ∧ r ≤ maxInt64 ∧ goAdd left x = .ok r) ∨
      goAdd left x = .error (.valueError c!"overflow in nanoseconds") := by
  unfold goAdd addDuration
  rw [if_neg (by omega)]
  cases x with
  | nan => exact hx.elim
  | inf n =>
    have hn : n = false := hx
    subst hn
    exact Or.inr rfl
  | fin q =>
    simp only
    have hq : ¬ q < 0 := by rw [Rat.not_lt]; exact hx
    rw [if_neg hq]
    split
    · exact Or.inr rfl
    · split
      · exact Or.inr rfl
      · rename_i h2
        left
        have hfl : 0 ≤ F64.truncRat q := by
          unfold F64.truncRat
          rw [if_neg hq]
          exact Rat.le_floor_iff.2 (by have h : 0 ≤ q := hx; simpa using h)
        have hw : wrap64 (left + F64.truncRat q) = left + F64.truncRat q :=
          wrap64_id (by simp only [IsInt64, minInt64, maxInt64] at *; omega)
        rw [hw]
        exact ⟨left + F64.truncRat q, by omega, by omega, rfl⟩

/-- For every string, the Go reader gives a 64-bit duration or returns an error; it never panics. -/
theorem C46_go_total (s : Str) :
    (∃ d, IsInt64 d ∧ goFromString s = .ok d) ∨
    ∃ msg, goFromString s = .error (.valueError msg) := by
  unfold goFromString
  cases hm : matchDuration endText s with
  | none => exact Or.inr ⟨_, rfl⟩
  | some f =>
    simp only
    unfold goValue
    dsimp only
    rcases goParseFloat_outcome f.years with ⟨y, hy, ey⟩ | ey
    rotate_left; · rw [ey]; exact Or.inr ⟨_, rfl⟩
    rw [ey, ok_bind]
    rcases goParseFloat_outcome f.months with ⟨mo, hmo, emo⟩ | emo
    rotate_left; · rw [emo]; exact Or.inr ⟨_, rfl⟩
    rw [emo, ok_bind]
    rcases goParseFloat_outcome f.weeks with ⟨w, hw, ew⟩ | ew
    rotate_left; · rw [ew]; exact Or.inr ⟨_, rfl⟩
    rw [ew, ok_bind]
    rcases goParseFloat_outcome f.days with ⟨d, hd, ed⟩ | ed
    rotate_left; · rw [ed]; exact Or.inr ⟨_, rfl⟩
    rw [ed, ok_bind]
    rcases goParseFloat_outcome f.hours with ⟨h, hh, eh⟩ | eh
    rotate_left; · rw [eh]; exact Or.inr ⟨_, rfl⟩
    rw [eh, ok_bind]
    rcases goParseFloat_outcome f.minutes with ⟨mi, hmi, emi⟩ | emi
    rotate_left; · rw [emi]; exact Or.inr ⟨_, rfl⟩
    rw [emi, ok_bind]
    have hsec : (∃ n : Nat, goParseInt (secondsVal f.seconds) = .ok (n : Int)) ∨
        goParseInt (secondsVal f.seconds) = .error (.valueError c!"value out of range") := by
      unfold goParseInt; split
      · exact Or.inl ⟨_, rfl⟩
      · exact Or.inr rfl
    rcases hsec with ⟨sec, es⟩ | es
    rotate_left; · rw [es]; exact Or.inr ⟨_, rfl⟩
    rw [es, ok_bind]
    have hns : (∃ n : Nat, goNanoseconds (fractionOf f.seconds) = .ok n) ∨
        goNanoseconds (fractionOf f.seconds) =
          .error (.valueError c!"precision only up to nanoseconds supported") := by
      unfold goNanoseconds
      split
      · exact Or.inl ⟨_, rfl⟩
      · split
        · simp only
          split
          · exact Or.inl ⟨_, rfl⟩
          · exact Or.inl ⟨_, rfl⟩
        · exact Or.inr rfl
    rcases hns with ⟨ns, en⟩ | en
    rotate_left; · rw [en]; exact Or.inr ⟨_, rfl⟩
    rw [en, ok_bind]
    split
    · exact Or.inr ⟨_, rfl⟩
    · split
      · exact Or.inr ⟨_, rfl⟩
      · rename_i hc1 hc2
        have c24 := posFin_const 24 (by omega)
        have c36 := posFin_const 3600000000000 (by omega)
        have c7 := posFin_const 7 (by omega)
        have c60 := posFin_const 60000000000 (by omega)
        have fin : ∀ {q : Rat}, 0 ≤ q → NonNeg (.fin q) := fun h => h
        have hw1 : wrap64 ((sec : Int) * 1000000000) = (sec : Int) * 1000000000 :=
          wrap64_id (by simp only [IsInt64, minInt64, maxInt64] at *; omega)
        rw [hw1] at hc2 ⊢
        have hw2 : wrap64 ((ns : Int) + (sec : Int) * 1000000000) =
            (ns : Int) + (sec : Int) * 1000000000 :=
          wrap64_id (by simp only [IsInt64, minInt64, maxInt64] at *; omega)
        rw [hw2]
        rcases goAdd_outcome ((ns : Int) + (sec : Int) * 1000000000)
          (F64.mul (.fin mi) (constF 60000000000)) (by omega)
          (mul_nonNeg (fin hmi) c60) (by omega) with ⟨r1, p1, q1, e1⟩ | e1
        rotate_left; · rw [e1]; exact Or.inr ⟨_, rfl⟩
        rw [e1, ok_bind]
        rcases goAdd_outcome r1 (F64.mul (.fin h) (constF 3600000000000)) p1
          (mul_nonNeg (fin hh) c36) q1 with ⟨r2, p2, q2, e2⟩ | e2
        rotate_left; · rw [e2]; exact Or.inr ⟨_, rfl⟩
        rw [e2, ok_bind]
        rcases goAdd_outcome r2 (F64.mul (F64.mul (.fin d) (constF 24)) (constF 3600000000000)) p2
          (mul_nonNeg (mul_nonNeg (fin hd) c24) c36) q2 with ⟨r3, p3, q3, e3⟩ | e3
        rotate_left; · rw [e3]; exact Or.inr ⟨_, rfl⟩
        rw [e3, ok_bind]
        rcases goAdd_outcome r3 (F64.mul (F64.mul (F64.mul (.fin w) (constF 7)) (constF 24))
          (constF 3600000000000)) p3
          (mul_nonNeg (mul_nonNeg (mul_nonNeg (fin hw) c7) c24) c36) q3 with ⟨r4, p4, q4, e4⟩ | e4
        rotate_left; · rw [e4]; exact Or.inr ⟨_, rfl⟩
        rw [e4, ok_bind]
        rcases goAdd_outcome r4 (F64.mul (F64.mul (F64.mul (.fin mo) daysPerMonth) (constF 24))
          (constF 3600000000000)) p4
          (mul_nonNeg (mul_nonNeg (mul_nonNeg (fin hmo) posFin_month) c24) c36) q4
          with ⟨r5, p5, q5, e5⟩ | e5
        rotate_left; · rw [e5]; exact Or.inr ⟨_, rfl⟩
        rw [e5, ok_bind]
        rcases goAdd_outcome r5 (F64.mul (F64.mul (F64.mul (.fin y) daysPerYear) (constF 24))
          (constF 3600000000000)) p5
          (mul_nonNeg (mul_nonNeg (mul_nonNeg (fin hy) posFin_year) c24) c36) q5
          with ⟨r6, p6, q6, e6⟩ | e6
        rotate_left; · rw [e6]; exact Or.inr ⟨_, rfl⟩
        rw [e6, ok_bind]
        left
        refine ⟨_, ?_, rfl⟩
        rw [wrap64_id (by simp only [IsInt64, minInt64, maxInt64] at *; split <;> omega)]
        simp only [IsInt64, minInt64, maxInt64] at *
        split <;> omega

/-- The strings accepted by the Go reader follow the grammar with at most nine digits in the
fraction. -/
theorem C46_go_accepts_only_grammar (s : Str) (d : Int) (h : goFromString s = .ok d) :
    ∃ f : Fields, f.Valid ∧ (fractionOf f.seconds).length ≤ 9 ∧ s = render f := by
  unfold goFromString at h
  cases hm : matchDuration endText s with
  | none => rw [hm] at h; cases h
  | some f =>
    obtain ⟨hv, hs⟩ := (matchDuration_text_iff s f).1 hm
    refine ⟨f, hv, ?_, hs⟩
    by_cases hl : (fractionOf f.seconds).length ≤ 9
    · exact hl
    · exfalso
      rw [hm] at h
      simp only at h
      have hns : goNanoseconds (fractionOf f.seconds) =
          .error (.valueError c!"precision only up to nanoseconds supported") := by
        unfold goNanoseconds
        rw [if_neg (by omega), if_neg hl]
      unfold goValue at h
      dsimp only at h
      rcases goParseFloat_outcome f.years with ⟨_, _, e⟩ | e <;> rw [e] at h
      rotate_left; · cases h
      rcases goParseFloat_outcome f.months with ⟨_, _, e⟩ | e <;> rw [ok_bind, e] at h
      rotate_left; · cases h
      rcases goParseFloat_outcome f.weeks with ⟨_, _, e⟩ | e <;> rw [ok_bind, e] at h
      rotate_left; · cases h
      rcases goParseFloat_outcome f.days with ⟨_, _, e⟩ | e <;> rw [ok_bind, e] at h
      rotate_left; · cases h
      rcases goParseFloat_outcome f.hours with ⟨_, _, e⟩ | e <;> rw [ok_bind, e] at h
      rotate_left; · cases h
      rcases goParseFloat_outcome f.minutes with ⟨_, _, e⟩ | e <;> rw [ok_bind, e] at h
      rotate_left; · cases h
      rw [ok_bind] at h
      cases hg : goParseInt (secondsVal f.seconds) with
      | error e => rw [hg] at h; cases h
      | ok v => rw [hg, ok_bind, hns] at h; cases h

/-! ## C47: exceptions of the C++ reader -/

/-- The C++ reader leaves through an exception which nobody catches. -/
theorem C47_violated :
    cppFromString false c!"PT9223372036854775808S" = .throws ∧
    goFromString c!"PT9223372036854775808S" = .error (.valueError c!"value out of range") := by
  refine ⟨by decide +kernel, by decide +kernel⟩

/-- A decimal which `std::stod` converts without an exception -/
def StodFits (o : Option Num) : Prop := ∃ x, cppStod o = some x

theorem cppStod_nonNeg (o : Option Num) (x : F64) (h : cppStod o = some x) : NonNeg x := by
  have hn := numF64_nonNeg o
  unfold cppStod at h
  split at h
  · simp at h; subst h; exact Rat.le_refl
  · split at h
    · rename_i q heq
      rw [heq] at hn
      split at h
      · simp at h
      · simp at h; subst h; exact hn
    · simp at h

theorem cppAdd_outcome (left : Int) (x : F64) (k : Int → CppResult) (flag : Bool) (h0 : 0 ≤ left)
    (hx : NonNeg x) (_hmax : left ≤ maxInt64)
    (hk : ∀ r, 0 ≤ r → r ≤ maxInt64 → k r ≠ .throws) :
    cppAdd left x flag k ≠ .throws := by
  unfold cppAdd addRepDouble
  rw [if_neg (by omega)]
  cases x with
  | nan => exact hx.elim
  | inf n =>
    have hn : n = false := hx
    subst hn
    simp
  | fin q =>
    simp only
    have hq : ¬ q < 0 := by rw [Rat.not_lt]; exact hx
    rw [if_neg hq]
    by_cases hb : (9223372036854775808 : Rat) ≤ q
    · rw [if_pos hb]; simp
    · rw [if_neg hb]
      by_cases hc : F64.truncRat q > maxInt64 - left
      · rw [if_pos hc]; simp
      · rw [if_neg hc]
        have hfl : 0 ≤ F64.truncRat q := by
          unfold F64.truncRat
          rw [if_neg hq]
          exact Rat.le_floor_iff.2 (by have h : 0 ≤ q := hx; simpa using h)
        cases flag with
        | true => simp
        | false =>
          rw [wrap64_id (by simp only [IsInt64, minInt64, maxInt64] at *; omega)]
          exact hk _ (by omega) (by omega)

/-- The exact condition for an exception: the text follows the grammar, the fraction has at most
nine digits, and a number is out of the range of `double` or `long`. -/
theorem C47_throws_iff_partial (garbage : Bool) (s : Str) :
    cppFromString garbage s = .throws ↔
      ∃ f : Fields, f.Valid ∧ s = render f ∧ (fractionOf f.seconds).length ≤ 9 ∧
        ¬ (StodFits f.years ∧ StodFits f.months ∧ StodFits f.weeks ∧ StodFits f.days ∧
          StodFits f.hours ∧ StodFits f.minutes ∧ (countOf f.seconds : Int) ≤ maxInt64) := by
  unfold cppFromString
  cases hm : matchDuration endText s with
  | none =>
    simp only [reduceCtorEq, false_iff]
    rintro ⟨f, hv, hs, _⟩
    have := (matchDuration_text_iff s f).2 ⟨hv, hs⟩
    rw [hm] at this
    cases this
  | some f =>
    obtain ⟨hv, hs⟩ := (matchDuration_text_iff s f).1 hm
    have huniq : ∀ f' : Fields, f'.Valid → s = render f' → f' = f := by
      intro f' hv' hs'
      have := (matchDuration_text_iff s f').2 ⟨hv', hs'⟩
      rw [hm] at this
      simpa using this.symm
    simp only
    constructor
    · intro h
      refine ⟨f, hv, hs, ?_, ?_⟩
      · by_cases hl : (fractionOf f.seconds).length ≤ 9
        · exact hl
        · exfalso
          have hns : cppNanoseconds (fractionOf f.seconds) = none := by
            unfold cppNanoseconds
            rw [if_neg (by omega), if_neg hl]
          unfold cppValue at h
          rw [hns] at h
          cases h
      · rintro ⟨⟨y, hy⟩, ⟨mo, hmo⟩, ⟨w, hw⟩, ⟨d, hd⟩, ⟨hh, hhh⟩, ⟨mi, hmi⟩, hsec⟩
        have hsec' : cppStol (secondsVal f.seconds) = some ((countOf f.seconds : Nat) : Int) := by
          unfold cppStol
          rw [secondsVal_eq, if_pos hsec]
        unfold cppValue at h
        split at h
        · cases h
        · rename_i ns _
          rw [hy, hmo, hw, hd, hhh, hmi, hsec'] at h
          dsimp only at h
          split at h
          · cases h
          · split at h
            · cases h
            · rename_i c1 c2
              have c24 := posFin_const 24 (by omega)
              have c36 := posFin_const 3600000000000 (by omega)
              have c7 := posFin_const 7 (by omega)
              have c60 := posFin_const 60000000000 (by omega)
              have hw1 : wrap64 ((countOf f.seconds : Int) * 1000000000) =
                  (countOf f.seconds : Int) * 1000000000 :=
                wrap64_id (by simp only [IsInt64, minInt64, maxInt64] at *; omega)
              rw [hw1] at c2 h
              have hw2 : wrap64 ((ns : Int) + (countOf f.seconds : Int) * 1000000000) =
                  (ns : Int) + (countOf f.seconds : Int) * 1000000000 :=
                wrap64_id (by simp only [IsInt64, minInt64, maxInt64] at *; omega)
              rw [hw2] at h
              revert h
              refine cppAdd_outcome _ _ _ _ (by omega) (mul_nonNeg (cppStod_nonNeg _ _ hmi) c60)
                (by omega) ?_
              intro r1 p1 q1
              refine cppAdd_outcome _ _ _ _ p1 (mul_nonNeg (cppStod_nonNeg _ _ hhh) c36) q1 ?_
              intro r2 p2 q2
              refine cppAdd_outcome _ _ _ _ p2
                (mul_nonNeg (mul_nonNeg (cppStod_nonNeg _ _ hd) c24) c36) q2 ?_
              intro r3 p3 q3
              refine cppAdd_outcome _ _ _ _ p3
                (mul_nonNeg (mul_nonNeg (mul_nonNeg (cppStod_nonNeg _ _ hw) c7) c24) c36) q3 ?_
              intro r4 p4 q4
              refine cppAdd_outcome _ _ _ _ p4
                (mul_nonNeg (mul_nonNeg (mul_nonNeg (cppStod_nonNeg _ _ hmo) posFin_month) c24) c36)
                q4 ?_
              intro r5 p5 q5
              refine cppAdd_outcome _ _ _ _ p5
                (mul_nonNeg (mul_nonNeg (mul_nonNeg (cppStod_nonNeg _ _ hy) posFin_year) c24) c36)
                q5 ?_
              intro r6 _ _
              simp
    · rintro ⟨f', hv', hs', hl, hno⟩
      have := huniq f' hv' hs'
      subst this
      unfold cppValue
      rw [cppNanoseconds_spec _ hl]
      dsimp only
      split
      · rename_i y mo w d h mi sec e1 e2 e3 e4 e5 e6 e7
        exfalso
        apply hno
        refine ⟨⟨_, e1⟩, ⟨_, e2⟩, ⟨_, e3⟩, ⟨_, e4⟩, ⟨_, e5⟩, ⟨_, e6⟩, ?_⟩
        unfold cppStol at e7
        rw [secondsVal_eq] at e7
        split at e7
        · assumption
        · cases e7
      · rfl

end Mapry.Props
