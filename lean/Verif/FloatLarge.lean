import Verif.PyValid

/-!
# Large integers as floating-point numbers
-/

namespace Mapry

theorem roundHalfEven_bounds (n d : Nat) : n / d ≤ roundHalfEven n d ∧ roundHalfEven n d ≤ n / d + 1 := by
  unfold roundHalfEven
  simp only
  split
  · omega
  · split
    · omega
    · split <;> omega

/-- An integer of at least 53 bits is rounded to a multiple of a power of two. -/
theorem roundPos_large (n : Nat) (h : 2 ^ 52 ≤ n) :
    ∃ m j : Nat, 2 ^ 52 ≤ m ∧ m ≤ 2 ^ 53 ∧ n < 2 ^ (j + 53) ∧ 2 ^ (j + 52) ≤ n ∧
      roundPos n 1 = if 2 ^ 1024 ≤ m * 2 ^ j then .inf false else .fin ((m * 2 ^ j : Nat) : Rat) := by
  have hn : n ≠ 0 := by omega
  have hlog := Nat.log2_self_le (n := n) hn
  have hlog' := Nat.lt_log2_self (n := n)
  have hge : 52 ≤ n.log2 := (Nat.le_log2 hn).2 h
  obtain ⟨j, hj⟩ : ∃ j : Nat, n.log2 = j + 52 := ⟨n.log2 - 52, by omega⟩
  rw [hj] at hlog hlog'
  have hone : Nat.log2 1 = 0 := by decide
  have hlast : lastPlace n 1 = (j : Int) := by
    unfold lastPlace
    simp only [hj, hone]
    have he : ((j + 52 : Nat) : Int) - (0 : Nat) - 52 = (j : Int) := by omega
    rw [he]
    have hsc : scaleDown n 1 (j : Int) = (n, 2 ^ j) := by simp [scaleDown]
    rw [hsc]
    simp only
    rw [← Nat.pow_add, if_neg (by omega), if_neg (by omega)]
  have hd1 : 2 ^ 52 ≤ n / 2 ^ j := by
    rw [Nat.le_div_iff_mul_le (Nat.two_pow_pos j), ← Nat.pow_add, Nat.add_comm]
    exact hlog
  have hd2 : n / 2 ^ j < 2 ^ 53 := by
    rw [Nat.div_lt_iff_lt_mul (Nat.two_pow_pos j), ← Nat.pow_add, Nat.add_comm]
    exact hlog'
  obtain ⟨hb1, hb2⟩ := roundHalfEven_bounds n (2 ^ j)
  refine ⟨roundHalfEven n (2 ^ j), j, Nat.le_trans hd1 hb1, by omega, hlog', hlog, ?_⟩
  unfold roundPos
  have hsc : scaleDown n 1 (j : Int) = (n, 2 ^ j) := by simp [scaleDown]
  simp only [hlast, hsc, Int.toNat_natCast]
  have hz : (0 : Int) ≤ (j : Int) := by omega
  simp only [hz, true_and]
  unfold dyadic
  rw [if_pos hz, Int.toNat_natCast]

/-- An integer of at least 54 bits is not rounded to a smaller number of bits. -/
theorem roundPos_ge (n : Nat) (h : 2 ^ 53 ≤ n) {q : Rat} (hq : roundPos n 1 = .fin q) :
    ∃ r : Nat, q = (r : Rat) ∧ 2 ^ 53 ≤ r := by
  obtain ⟨m, j, h1, h2, h3, h4, e⟩ := roundPos_large n (by omega)
  rw [e] at hq
  split at hq
  · cases hq
  · refine ⟨m * 2 ^ j, by injection hq with hq; exact hq.symm, ?_⟩
    have hj : 1 ≤ j := by
      have := Nat.lt_of_le_of_lt h h3
      have := (Nat.pow_lt_pow_iff_right (a := 2) (by omega)).1 this
      omega
    obtain ⟨k, rfl⟩ : ∃ k, j = k + 1 := ⟨j - 1, by omega⟩
    rw [Nat.pow_succ]
    have := Nat.two_pow_pos k
    calc 2 ^ 53 = 2 ^ 52 * (1 * 2) := by decide
      _ ≤ m * (2 ^ k * 2) := Nat.mul_le_mul h1 (Nat.mul_le_mul_right _ this)

/-- An integer of 64 bits is rounded to a finite number. -/
theorem roundPos_finite (n : Nat) (h0 : 0 < n) (h : n ≤ 2 ^ 64) : ∃ q, roundPos n 1 = .fin q := by
  by_cases hs : n ≤ 2 ^ 53
  · have := roundPos_nat n 0 hs h0 (by omega)
    rw [Nat.pow_zero, Nat.mul_one] at this
    exact ⟨_, this⟩
  · obtain ⟨m, j, h1, h2, h3, h4, e⟩ := roundPos_large n (by omega)
    rw [e, if_neg]
    · exact ⟨_, rfl⟩
    · intro hb
      have hj : j + 52 ≤ 64 := (Nat.pow_le_pow_iff_right (a := 2) (by omega)).1 (Nat.le_trans h4 h)
      have h5 : m * 2 ^ j ≤ 2 ^ 53 * 2 ^ 12 := Nat.mul_le_mul h2 (Nat.pow_le_pow_right (by omega) (by omega))
      rw [← Nat.pow_add] at h5
      have := (Nat.pow_le_pow_iff_right (a := 2) (by omega)).1 (Nat.le_trans hb h5)
      omega

theorem F64.round_int (i : Int) : F64.round (i : Rat) =
    if i = 0 then .fin 0 else if 0 < i then roundPos i.natAbs 1 else (roundPos i.natAbs 1).neg := rfl

/-- An integer of 64 bits is rounded to a finite number. -/
theorem F64.round_int_finite (i : Int) (h : i.natAbs ≤ 2 ^ 64) : ∃ q, F64.round (i : Rat) = .fin q := by
  rw [F64.round_int]
  split
  · exact ⟨_, rfl⟩
  · obtain ⟨q, hq⟩ := roundPos_finite i.natAbs (by omega) h
    rw [hq]
    split
    · exact ⟨_, rfl⟩
    · exact ⟨_, rfl⟩

/-- An integer which is rounded to a number of less than 54 bits is exact. -/
theorem F64.round_int_small (i : Int) {q : Rat} (h : F64.round (i : Rat) = .fin q)
    (hq : -(2 ^ 53 : Rat) < q ∧ q < 2 ^ 53) : q = i := by
  by_cases hs : i.natAbs ≤ 2 ^ 53
  · rw [PyRuntime.round_int_exact i hs] at h
    injection h with h
    exact h.symm
  · exfalso
    have hpow : ((2 : Rat) ^ 53) = ((2 ^ 53 : Nat) : Rat) := by decide
    rw [F64.round_int, if_neg (by omega)] at h
    split at h
    · obtain ⟨r, rfl, hr⟩ := roundPos_ge i.natAbs (by omega) h
      have h2 := hq.2
      rw [hpow, Rat.natCast_lt_natCast] at h2
      omega
    · cases hp : roundPos i.natAbs 1 with
      | fin p =>
        obtain ⟨r, rfl, hr⟩ := roundPos_ge i.natAbs (by omega) hp
        rw [hp] at h
        simp only [F64.neg] at h
        injection h with h
        have h1 := hq.1
        rw [hpow, ← h, Rat.neg_lt_neg_iff, Rat.natCast_lt_natCast] at h1
        omega
      | inf b => rw [hp] at h; cases h
      | nan => rw [hp] at h; cases h

end Mapry
