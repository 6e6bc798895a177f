import Verif.Basic

/-!
# IEEE 754 binary64 arithmetic

External specification of the floating-point numbers of Python, Go and C++: a finite number is its
exact rational value, every operation rounds the exact result to the nearest representable number
(ties to even). The sign of zero is not represented.
-/

namespace Mapry

/-- A binary64 number. -/
inductive F64 where
  | fin (q : Rat)
  | inf (neg : Bool)
  | nan
  deriving DecidableEq, Repr

/-- Round the quotient to the nearest integer, ties to even. -/
def roundHalfEven (num den : Nat) : Nat :=
  let q := num / den
  let r := num % den
  if 2 * r < den then q else if den < 2 * r then q + 1 else if q % 2 = 0 then q else q + 1

/-- Scale: `num / den * 2 ^ (-e)` as a fraction. -/
def scaleDown (num den : Nat) (e : Int) : Nat × Nat :=
  if 0 ≤ e then (num, den * 2 ^ e.toNat) else (num * 2 ^ (-e).toNat, den)

/-- The exponent of the last place of a positive quotient: the quotient scaled by it is at least
`2 ^ 52` and less than `2 ^ 53`, unless it is subnormal. -/
def lastPlace (num den : Nat) : Int :=
  let e : Int := (num.log2 : Int) - den.log2 - 52
  let s := scaleDown num den e
  let e := if s.1 < s.2 * 2 ^ 52 then e - 1 else e
  if e < -1074 then -1074 else e

/-- `m * 2 ^ e` -/
def dyadic (m : Nat) (e : Int) : Rat :=
  if 0 ≤ e then ((m * 2 ^ e.toNat : Nat) : Rat) else mkRat m (2 ^ (-e).toNat)

/-- Round a positive quotient to binary64. -/
def roundPos (num den : Nat) : F64 :=
  let e := lastPlace num den
  let s := scaleDown num den e
  let m := roundHalfEven s.1 s.2
  if 0 ≤ e ∧ 2 ^ 1024 ≤ m * 2 ^ e.toNat then .inf false else .fin (dyadic m e)

namespace F64

def neg : F64 → F64
  | .fin q => .fin (-q)
  | .inf b => .inf !b
  | .nan => .nan

/-- Round an exact rational number to binary64. -/
def round (q : Rat) : F64 :=
  if q.num = 0 then .fin 0
  else if 0 < q.num then roundPos q.num.natAbs q.den
  else (roundPos q.num.natAbs q.den).neg

/-- Multiplication -/
def mul : F64 → F64 → F64
  | .fin a, .fin b => round (a * b)
  | .fin a, .inf n => if a = 0 then .nan else .inf (n != (a < 0))
  | .inf n, .fin a => if a = 0 then .nan else .inf (n != (a < 0))
  | .inf n, .inf m => .inf (n != m)
  | .nan, _ => .nan
  | _, .nan => .nan

/-- Addition -/
def add : F64 → F64 → F64
  | .fin a, .fin b => round (a + b)
  | .fin _, .inf n => .inf n
  | .inf n, .fin _ => .inf n
  | .inf n, .inf m => if n = m then .inf n else .nan
  | .nan, _ => .nan
  | _, .nan => .nan

/-- The integral part of a finite number (C's `modf`, truncation). -/
def truncRat (q : Rat) : Int := if q < 0 then -((-q).floor) else q.floor

end F64

/-! ### Exactness -/

theorem roundHalfEven_exact (n d : Nat) (h : 0 < d) : roundHalfEven (n * d) d = n := by
  unfold roundHalfEven
  rw [Nat.mul_div_cancel _ h, Nat.mul_mod_left]
  simp [h]

theorem roundHalfEven_one (n : Nat) : roundHalfEven n 1 = n := by
  have := roundHalfEven_exact n 1 (by omega)
  simpa using this

/-- Integers with at most 53 significant bits are represented exactly. -/
theorem roundPos_nat (m k : Nat) (hm : m ≤ 2 ^ 53) (hpos : 0 < m) (hk : k ≤ 900) :
    roundPos (m * 2 ^ k) 1 = .fin ((m * 2 ^ k : Nat) : Rat) := by
  have hp : 0 < m * 2 ^ k := Nat.mul_pos hpos (Nat.two_pow_pos k)
  have hlog := Nat.log2_self_le (n := m * 2 ^ k) (by omega)
  have hlog' := Nat.lt_log2_self (n := m * 2 ^ k)
  generalize hL : (m * 2 ^ k).log2 = L at hlog hlog'
  have hbound : m * 2 ^ k ≤ 2 ^ (53 + k) := by
    rw [Nat.pow_add]; exact Nat.mul_le_mul_right _ hm
  have hL1 : L ≤ 53 + k := by
    have h1 : 2 ^ L ≤ 2 ^ (53 + k) := Nat.le_trans hlog hbound
    exact (Nat.pow_le_pow_iff_right (by omega)).1 h1
  have hone : Nat.log2 1 = 0 := by decide
  -- the exponent is exactly `L - 52`
  have hlast : lastPlace (m * 2 ^ k) 1 = (L : Int) - 52 := by
    unfold lastPlace
    simp only [hL, hone]
    have hnot : ¬ (scaleDown (m * 2 ^ k) 1 ((L : Int) - (0 : Nat) - 52)).1 <
        (scaleDown (m * 2 ^ k) 1 ((L : Int) - (0 : Nat) - 52)).2 * 2 ^ 52 := by
      unfold scaleDown
      split
      · rename_i he
        simp only [Nat.one_mul, Nat.not_lt]
        obtain ⟨j, hj⟩ : ∃ j : Nat, L = j + 52 := ⟨L - 52, by omega⟩
        have : ((L : Int) - (0 : Nat) - 52).toNat = j := by omega
        rw [this, ← Nat.pow_add, ← hj]
        exact hlog
      · rename_i he
        simp only [Nat.one_mul, Nat.not_lt]
        obtain ⟨j, hj⟩ : ∃ j : Nat, L + j = 52 := ⟨52 - L, by omega⟩
        have : (-((L : Int) - (0 : Nat) - 52)).toNat = j := by omega
        rw [this, ← hj, Nat.pow_add]
        exact Nat.mul_le_mul_right _ hlog
    rw [if_neg hnot]
    have : ¬ ((L : Int) - (0 : Nat) - 52 < -1074) := by omega
    rw [if_neg this]
    omega
  unfold roundPos
  simp only [hlast]
  by_cases hle : 52 ≤ L
  · obtain ⟨j, hj⟩ : ∃ j : Nat, L = j + 52 := ⟨L - 52, by omega⟩
    have he : (L : Int) - 52 = (j : Int) := by omega
    rw [he]
    have hsc : scaleDown (m * 2 ^ k) 1 (j : Int) = (m * 2 ^ k, 2 ^ j) := by
      simp [scaleDown]
    rw [hsc]
    -- `2 ^ j` divides the number
    have hdvd : ∃ c, m * 2 ^ k = c * 2 ^ j := by
      by_cases hjk : j ≤ k
      · exact ⟨m * 2 ^ (k - j), by rw [Nat.mul_assoc, ← Nat.pow_add]; congr 2; omega⟩
      · -- then `j = k + 1` and `m = 2 ^ 53`
        have hj1 : j = k + 1 := by omega
        have hm53 : m = 2 ^ 53 := by
          have h1 : 2 ^ (k + 53) ≤ m * 2 ^ k := by rw [show k + 53 = L by omega]; exact hlog
          rw [Nat.pow_add, Nat.mul_comm] at h1
          have := Nat.le_of_mul_le_mul_right h1 (Nat.two_pow_pos k)
          omega
        refine ⟨2 ^ 52, ?_⟩
        rw [hm53, hj1, ← Nat.pow_add, ← Nat.pow_add]
        congr 1
        omega
    obtain ⟨c, hc⟩ := hdvd
    simp only
    rw [hc, roundHalfEven_exact c (2 ^ j) (Nat.two_pow_pos j)]
    have hno : ¬ ((0 : Int) ≤ (j : Int) ∧ 2 ^ 1024 ≤ c * 2 ^ (j : Int).toNat) := by
      rintro ⟨_, h⟩
      rw [Int.toNat_natCast, ← hc] at h
      have h2 : 2 ^ 1024 ≤ 2 ^ (53 + k) := Nat.le_trans h hbound
      have := (Nat.pow_le_pow_iff_right (a := 2) (by omega)).1 h2
      omega
    rw [if_neg hno]
    unfold dyadic
    rw [if_pos (by omega), Int.toNat_natCast]
  · obtain ⟨j, hj⟩ : ∃ j : Nat, L + j = 52 := ⟨52 - L, by omega⟩
    have hj0 : 0 < j := by omega
    have he : (L : Int) - 52 = -(j : Int) := by omega
    rw [he]
    have hsc : scaleDown (m * 2 ^ k) 1 (-(j : Int)) = (m * 2 ^ k * 2 ^ j, 1) := by
      unfold scaleDown
      rw [if_neg (by omega)]
      have : (- -(j : Int)).toNat = j := by omega
      rw [this]
    rw [hsc]
    simp only [roundHalfEven_one]
    rw [if_neg (by omega)]
    unfold dyadic
    rw [if_neg (by omega)]
    have : (- -(j : Int)).toNat = j := by omega
    rw [this]
    congr 1
    have := Rat.mkRat_mul_right (n := ((m * 2 ^ k : Nat) : Int)) (d := 1) (a := 2 ^ j)
      (by have := Nat.two_pow_pos j; omega)
    rw [Nat.one_mul] at this
    have hc : ((m * 2 ^ k * 2 ^ j : Nat) : Int) = ((m * 2 ^ k : Nat) : Int) * ((2 ^ j : Nat) : Int) := by
      rw [Int.natCast_mul]
    rw [hc, this]
    exact Rat.mkRat_one _

/-- Natural numbers with at most 53 significant bits are represented exactly. -/
theorem F64.round_nat (m k : Nat) (hm : m ≤ 2 ^ 53) (hk : k ≤ 900) :
    F64.round ((m * 2 ^ k : Nat) : Rat) = .fin ((m * 2 ^ k : Nat) : Rat) := by
  unfold F64.round
  by_cases h0 : m = 0
  · subst h0; simp
  · have hp : 0 < m * 2 ^ k := Nat.mul_pos (by omega) (Nat.two_pow_pos k)
    have hnum : ((m * 2 ^ k : Nat) : Rat).num = ((m * 2 ^ k : Nat) : Int) := Rat.num_natCast _
    have hden : ((m * 2 ^ k : Nat) : Rat).den = 1 := Rat.den_natCast _
    rw [hnum, hden, if_neg (by omega), if_pos (by omega), Int.natAbs_natCast]
    exact roundPos_nat m k hm (by omega) hk

theorem F64.round_natCast (n : Nat) (h : n ≤ 2 ^ 53) : F64.round (n : Rat) = .fin (n : Rat) := by
  have := F64.round_nat n 0 h (by omega)
  simpa using this

theorem F64.round_zero : F64.round 0 = .fin 0 := by decide

theorem F64.truncRat_natCast (n : Nat) : F64.truncRat (n : Rat) = n := by
  unfold F64.truncRat
  have h0 : ¬ ((n : Rat) < 0) := by
    rw [Rat.not_lt]
    exact Rat.natCast_nonneg
  rw [if_neg h0]
  exact Rat.floor_intCast (n : Int)

end Mapry
