import Verif.Errors

/-! # C11, C12: the error containers -/

namespace Mapry.Props

/-! ## C11: Python -/

theorem errors_foldl (e : Errors) (hist : List Err) :
    (hist.foldl Errors.add e).cap = e.cap ∧
    (hist.foldl Errors.add e).values = e.values ++ hist.take (e.cap.toNat - e.values.length) := by
  induction hist generalizing e with
  | nil => simp
  | cons x xs ih =>
    obtain ⟨h1, h2⟩ := ih (e.add x)
    simp only [List.foldl_cons, h1, h2]
    by_cases h : (e.values.length : Int) < e.cap
    · have : e.cap.toNat - e.values.length = (e.cap.toNat - (e.values.length + 1)) + 1 := by omega
      simp [Errors.add, h, this]
    · have : e.cap.toNat - e.values.length = 0 := by omega
      simp [Errors.add, h, this]

/-- After any history of calls to `add`, the container holds exactly the first `cap` errors in
order. -/
theorem C11_values (cap : Nat) (hist : List Err) :
    (hist.foldl Errors.add (Errors.new cap)).values = hist.take cap := by
  have := (errors_foldl (Errors.new cap) hist).2
  simpa [Errors.new] using this

/-- `count`, `full` and `empty` after any history. -/
theorem C11_observers (cap : Nat) (hist : List Err) :
    let e := hist.foldl Errors.add (Errors.new cap)
    e.count = min cap hist.length ∧ (e.full = true ↔ cap ≤ hist.length) ∧
    (e.empty = true ↔ cap = 0 ∨ hist = []) := by
  have h1 := (errors_foldl (Errors.new cap) hist).1
  have h2 := C11_values cap hist
  simp only
  unfold Errors.count Errors.full Errors.empty
  rw [h1, h2]
  simp only [Errors.new, List.length_take, true_and]
  refine ⟨?_, ?_⟩
  · simp only [decide_eq_true_eq]; omega
  · simp only [decide_eq_true_eq, ← List.length_eq_zero_iff]; omega

/-- A full container ignores all further errors. -/
theorem C11_full_is_final (e : Errors) (h : e.full = true) (hist : List Err) :
    hist.foldl Errors.add e = e := by
  induction hist with
  | nil => rfl
  | cons x xs ih =>
    have : e.add x = e := by
      unfold Errors.add Errors.full at *
      simp only [decide_eq_true_eq] at h
      rw [if_neg (by omega)]
    rw [List.foldl_cons, this, ih]

/-- Nothing is ever removed or reordered: the errors before are a prefix of the errors after. -/
theorem C11_monotone (e : Errors) (hist : List Err) :
    e.values <+: (hist.foldl Errors.add e).values := by
  rw [(errors_foldl e hist).2]; exact List.prefix_append _ _

/-- A negative cap stores nothing, yet the container is never full. -/
theorem C11_negative_cap (cap : Int) (hc : cap < 0) (hist : List Err) :
    let e := hist.foldl Errors.add (Errors.new cap)
    e.empty = true ∧ e.full = false := by
  have h1 := errors_foldl (Errors.new cap) hist
  simp only
  unfold Errors.empty Errors.full
  rw [h1.1, h1.2]
  have : cap.toNat = 0 := by omega
  simp [Errors.new, this]
  omega

example : (([⟨c!"a", c!"1"⟩, ⟨c!"b", c!"2"⟩, ⟨c!"c", c!"3"⟩] : List Err).foldl Errors.add
    (Errors.new 2)).values = [⟨c!"a", c!"1"⟩, ⟨c!"b", c!"2"⟩] := by decide

/-! ## C12: Go and C++ -/

/-- Specification of a capped container; `none` is no limit. -/
def keepFirst (limit : Option Nat) (hist : List Err) : List Err :=
  match limit with
  | none => hist
  | some n => hist.take n

theorem goErrors_foldl (e : GoErrors) (hist : List Err) :
    (hist.foldl GoErrors.add e).cap = e.cap ∧
    (hist.foldl GoErrors.add e).values = e.values ++
      keepFirst (if e.cap = 0 then none else some (e.cap - e.values.length)) hist := by
  induction hist generalizing e with
  | nil => simp [keepFirst]; split <;> simp
  | cons x xs ih =>
    obtain ⟨h1, h2⟩ := ih (e.add x)
    simp only [List.foldl_cons, h1, h2]
    by_cases h0 : e.cap = 0
    · simp [GoErrors.add, h0, keepFirst]
    · by_cases h : e.values.length < e.cap
      · have : e.cap - e.values.length = (e.cap - (e.values.length + 1)) + 1 := by omega
        simp [GoErrors.add, h, h0, keepFirst, this]
      · have : e.cap - e.values.length = 0 := by omega
        simp [GoErrors.add, h, h0, keepFirst, this]

/-- After any history, the Go container holds the first `cap` errors, or all of them if the cap is
0; `Full` and `Empty` report exactly this. -/
theorem C12_go (cap : Nat) (hist : List Err) :
    let e := hist.foldl GoErrors.add (GoErrors.new cap)
    e.values = keepFirst (if cap = 0 then none else some cap) hist ∧
    (e.full = true ↔ cap ≠ 0 ∧ cap ≤ hist.length) ∧
    (e.empty = true ↔ hist = []) := by
  obtain ⟨h1, h2⟩ := goErrors_foldl (GoErrors.new cap) hist
  have h3 : (hist.foldl GoErrors.add (GoErrors.new cap)).values =
      keepFirst (if cap = 0 then none else some cap) hist := by
    rw [h2]; simp [GoErrors.new]; rfl
  simp only
  refine ⟨h3, ?_, ?_⟩
  · unfold GoErrors.full
    rw [h1, h3]
    simp only [GoErrors.new]
    by_cases h0 : cap = 0
    · simp [h0]
    · simp [h0, keepFirst]; omega
  · unfold GoErrors.empty
    rw [h3]
    by_cases h0 : cap = 0
    · simp [h0, keepFirst]
    · simp [h0, keepFirst, ← List.length_eq_zero_iff]

/-- After any history, the C++ container holds the first `cap` errors; `full` and `empty` report
exactly this. -/
theorem C12_cpp (cap : Nat) (hist : List Err) :
    let e := hist.foldl CppErrors.add (CppErrors.new cap)
    e.values = keepFirst (some cap) hist ∧
    (e.full = true ↔ cap ≤ hist.length) ∧
    (e.empty = true ↔ cap = 0 ∨ hist = []) := by
  have key : ∀ (e : CppErrors) (hist : List Err),
      (hist.foldl CppErrors.add e).cap = e.cap ∧
      (hist.foldl CppErrors.add e).values = e.values ++ hist.take (e.cap - e.values.length) := by
    intro e hist
    induction hist generalizing e with
    | nil => simp
    | cons x xs ih =>
      obtain ⟨h1, h2⟩ := ih (e.add x)
      simp only [List.foldl_cons, h1, h2]
      by_cases h : e.values.length < e.cap
      · have : e.cap - e.values.length = (e.cap - (e.values.length + 1)) + 1 := by omega
        simp [CppErrors.add, h, this]
      · have : e.cap - e.values.length = 0 := by omega
        simp [CppErrors.add, h, this]
  obtain ⟨h1, h2⟩ := key (CppErrors.new cap) hist
  have h3 : (hist.foldl CppErrors.add (CppErrors.new cap)).values = hist.take cap := by
    rw [h2]; simp [CppErrors.new]
  simp only
  refine ⟨h3, ?_, ?_⟩
  · unfold CppErrors.full
    rw [h1, h3]
    simp only [CppErrors.new, List.length_take, decide_eq_true_eq]; omega
  · unfold CppErrors.empty
    rw [h3, List.isEmpty_iff]
    simp [← List.length_eq_zero_iff]

/-- For the same positive cap, the three containers hold the same errors after the same history. -/
theorem C12_languages_agree (cap : Nat) (h : cap ≠ 0) (hist : List Err) :
    (hist.foldl GoErrors.add (GoErrors.new cap)).values =
      (hist.foldl Errors.add (Errors.new cap)).values ∧
    (hist.foldl CppErrors.add (CppErrors.new cap)).values =
      (hist.foldl Errors.add (Errors.new cap)).values := by
  have h1 := (C12_go cap hist).1
  have h2 := (C12_cpp cap hist).1
  rw [h1, h2, C11_values]
  simp [h, keepFirst]

example : (3 : Nat) ≠ 0 := by decide

end Mapry.Props
