import Verif.DurationSpec

/-! # Lemmas about durations -/

namespace Mapry.Duration

open Mapry Mapry.Text

theorem isInt_digits {s : Str} (h : IsInt s) : ∀ c ∈ s, isDig c = true := by
  rcases h with h | ⟨_, _, h⟩
  · subst h; intro c hc; simp at hc; subst hc; decide
  · exact h

theorem isInt_ne_nil {s : Str} (h : IsInt s) : s ≠ [] := by
  rcases h with h | ⟨h, _, _⟩
  · subst h; simp
  · exact h

theorem isInt_lead {s : Str} (h : IsInt s) : ¬ (s.head? = some '0' ∧ 1 < s.length) := by
  rcases h with h | ⟨_, h, _⟩
  · subst h; simp
  · intro hc; exact h hc.1

theorem takeWhile_append_stop {p : Char → Bool} {a : Str} {b : Str}
    (ha : ∀ c ∈ a, p c = true) (hb : ∀ c, b.head? = some c → p c = false) :
    (a ++ b).takeWhile p = a ∧ (a ++ b).dropWhile p = b := by
  induction a with
  | nil =>
    cases b with
    | nil => simp
    | cons x xs =>
      have := hb x rfl
      simp [this]
  | cons x xs ih =>
    have hx := ha x (by simp)
    have := ih (fun c hc => ha c (by simp [hc]))
    simp [hx, this.1, this.2]

/-- Reading the text of a number followed by a unit letter -/
theorem readNum_text (n : Num) (hv : n.Valid) (c : Char) (r : Str)
    (hc : isDig c = false) (hd : c ≠ '.') :
    readNum (n.text ++ c :: r) = some (n, c :: r) := by
  obtain ⟨int, frac⟩ := n
  obtain ⟨hi, hf⟩ := hv
  simp only at hi hf
  have hne := isInt_ne_nil hi
  have hlead := isInt_lead hi
  cases frac with
  | none =>
    have htw := takeWhile_append_stop (p := isDig) (a := int) (b := c :: r)
      (isInt_digits hi) (by intro x hx; simp at hx; subst hx; exact hc)
    unfold readNum Num.text
    simp only [List.append_nil]
    rw [htw.1, htw.2, if_neg (by rintro (h | h); exact hne h; exact hlead h)]
    split
    · rename_i heq; simp at heq; exact absurd heq.1 hd
    · rfl
  | some f =>
    obtain ⟨hfne, hfd⟩ := hf f rfl
    have htw := takeWhile_append_stop (p := isDig) (a := int) (b := '.' :: (f ++ c :: r))
      (isInt_digits hi) (by intro x hx; simp at hx; subst hx; decide)
    have htw2 := takeWhile_append_stop (p := isDig) (a := f) (b := c :: r) hfd
      (by intro x hx; simp at hx; subst hx; exact hc)
    have : (int ++ '.' :: f) ++ c :: r = int ++ '.' :: (f ++ c :: r) := by simp
    unfold readNum Num.text
    simp only
    rw [this, htw.1, htw.2, if_neg (by rintro (h | h); exact hne h; exact hlead h)]
    simp only [htw2.1, htw2.2]
    rw [if_neg hfne]

theorem mem_takeWhile_digits (s : Str) : ∀ c ∈ s.takeWhile isDig, isDig c = true := by
  intro c hc
  have := List.all_takeWhile (p := isDig) (l := s)
  rw [List.all_eq_true] at this
  exact this c hc

theorem isInt_of_not_lead {s : Str} (h : ¬ (s = [] ∨ (s.head? = some '0' ∧ 1 < s.length)))
    (hd : ∀ c ∈ s, isDig c = true) : IsInt s := by
  have h1 : s ≠ [] := fun e => h (Or.inl e)
  have h2 : ¬ (s.head? = some '0' ∧ 1 < s.length) := fun e => h (Or.inr e)
  by_cases h0 : s.head? = some '0'
  · left
    cases s with
    | nil => exact absurd rfl h1
    | cons x xs =>
      simp at h0
      subst h0
      cases xs with
      | nil => rfl
      | cons _ _ => exact absurd ⟨rfl, by simp⟩ h2
  · exact Or.inr ⟨h1, h0, hd⟩

/-- What a successful reading of a number means -/
theorem readNum_sound (s : Str) (n : Num) (r : Str) (h : readNum s = some (n, r)) :
    n.Valid ∧ s = n.text ++ r := by
  unfold readNum at h
  simp only at h
  split at h
  · simp at h
  · rename_i hlead
    have hint : IsInt (s.takeWhile isDig) := isInt_of_not_lead hlead (mem_takeWhile_digits s)
    have hs := (List.takeWhile_append_dropWhile (p := isDig) (l := s)).symm
    split at h
    · rename_i r' heq
      split at h
      · simp at h
      · rename_i hfr
        simp only [Option.some.injEq, Prod.mk.injEq] at h
        obtain ⟨h1, h2⟩ := h
        subst h1; subst h2
        refine ⟨⟨hint, ?_⟩, ?_⟩
        · intro f hf
          simp at hf
          subst hf
          exact ⟨hfr, mem_takeWhile_digits r'⟩
        · unfold Num.text
          simp only
          rw [List.append_assoc, List.cons_append, List.takeWhile_append_dropWhile, ← heq]
          exact hs
    · simp only [Option.some.injEq, Prod.mk.injEq] at h
      obtain ⟨h1, h2⟩ := h
      subst h1; subst h2
      refine ⟨⟨hint, by simp⟩, ?_⟩
      unfold Num.text
      simpa using hs

/-- A unit letter is no digit and no dot. -/
def IsUnit (c : Char) : Prop := isDig c = false ∧ c ≠ '.'

theorem optField_text (u c : Char) (n : Num) (hv : n.Valid) (hc : IsUnit c) (r : Str) :
    optField u (n.text ++ c :: r) = if c = u then (some n, r) else (none, n.text ++ c :: r) := by
  unfold optField
  rw [readNum_text n hv c r hc.1 hc.2]

theorem optField_nondigit (u : Char) (s : Str) (h : ∀ c, s.head? = some c → isDig c = false) :
    optField u s = (none, s) := by
  have : s.takeWhile isDig = [] := by
    cases s with
    | nil => rfl
    | cons x xs => simp [h x rfl]
  unfold optField readNum
  simp [this]

theorem optField_sound (u : Char) (s : Str) :
    OptValid (optField u s).1 ∧ s = fieldText u (optField u s).1 ++ (optField u s).2 := by
  unfold optField
  split
  · rename_i n c rest heq
    obtain ⟨hv, hs⟩ := readNum_sound _ _ _ heq
    split
    · rename_i hc
      subst hc
      refine ⟨?_, ?_⟩
      · intro n' hn; simp at hn; subst hn; exact hv
      · simp only [fieldText]; rw [hs]; simp
    · exact ⟨by intro n' hn; simp at hn, by simp [fieldText]⟩
  · exact ⟨by intro n' hn; simp at hn, by simp [fieldText]⟩

/-- A remaining input which does not begin with a number -/
def NoDigit (s : Str) : Prop := ∀ c, s.head? = some c → isDig c = false

/-- Reading one part: the part is present, or the rest begins otherwise. -/
theorem optField_field (u : Char) (hu : IsUnit u) (o : Option Num) (hv : OptValid o) (r : Str)
    (hr : o = none → optField u r = (none, r)) :
    optField u (fieldText u o ++ r) = (o, r) := by
  cases o with
  | none => simpa [fieldText] using hr rfl
  | some n =>
    have : fieldText u (some n) ++ r = n.text ++ u :: r := by simp [fieldText]
    rw [this, optField_text u u n (hv n rfl) hu]
    simp

/-- A part with another unit is not read. -/
theorem optField_skip (u c : Char) (hc : IsUnit c) (hcu : c ≠ u) (o : Option Num) (hv : OptValid o)
    (r : Str) (hr : optField u r = (none, r)) :
    optField u (fieldText c o ++ r) = (none, fieldText c o ++ r) := by
  cases o with
  | none => simpa [fieldText] using hr
  | some n =>
    have : fieldText c (some n) ++ r = n.text ++ c :: r := by simp [fieldText]
    rw [this, optField_text u c n (hv n rfl) hc, if_neg hcu]

theorem unitY : IsUnit 'Y' := by unfold IsUnit; decide
theorem unitM : IsUnit 'M' := by unfold IsUnit; decide
theorem unitW : IsUnit 'W' := by unfold IsUnit; decide
theorem unitD : IsUnit 'D' := by unfold IsUnit; decide
theorem unitH : IsUnit 'H' := by unfold IsUnit; decide
theorem unitS : IsUnit 'S' := by unfold IsUnit; decide

theorem noDigit_T (r : Str) : NoDigit ('T' :: r) := by
  intro c hc; simp at hc; subst hc; decide

/-- The body of the pattern matches the text of the fields. -/
theorem matchBody_render (endOk : Str → Bool) (sign : Option Char) (y mo w d : Option Num)
    (t : Option (Option Num × Option Num × Option Num)) (tail : Str)
    (hy : OptValid y) (hmo : OptValid mo) (hw : OptValid w) (hd : OptValid d)
    (ht : ∀ h m s, t = some (h, m, s) → OptValid h ∧ OptValid m ∧ OptValid s)
    (htail : NoDigit tail) (hnT : tail.head? ≠ some 'T') (hend : endOk tail = true) :
    matchBody endOk sign (fieldText 'Y' y ++ fieldText 'M' mo ++ fieldText 'W' w ++
      fieldText 'D' d ++ timeText t ++ tail) = some ⟨sign, y, mo, w, d, t⟩ := by
  have htime : NoDigit (timeText t ++ tail) := by
    cases t with
    | none => simpa [timeText] using htail
    | some x => obtain ⟨h, m, s⟩ := x; simpa [timeText] using noDigit_T _
  have base : ∀ u, optField u (timeText t ++ tail) = (none, timeText t ++ tail) :=
    fun u => optField_nondigit u _ htime
  have eD : ∀ u, 'D' ≠ u → optField u (fieldText 'D' d ++ (timeText t ++ tail)) =
      (none, fieldText 'D' d ++ (timeText t ++ tail)) :=
    fun u hu => optField_skip u 'D' unitD hu d hd _ (base u)
  have eW : ∀ u, 'D' ≠ u → 'W' ≠ u →
      optField u (fieldText 'W' w ++ (fieldText 'D' d ++ (timeText t ++ tail))) =
      (none, fieldText 'W' w ++ (fieldText 'D' d ++ (timeText t ++ tail))) :=
    fun u h1 h2 => optField_skip u 'W' unitW h2 w hw _ (eD u h1)
  have eM : ∀ u, 'D' ≠ u → 'W' ≠ u → 'M' ≠ u →
      optField u (fieldText 'M' mo ++ (fieldText 'W' w ++ (fieldText 'D' d ++ (timeText t ++ tail)))) =
      (none, fieldText 'M' mo ++ (fieldText 'W' w ++ (fieldText 'D' d ++ (timeText t ++ tail)))) :=
    fun u h1 h2 h3 => optField_skip u 'M' unitM h3 mo hmo _ (eW u h1 h2)
  have rY := optField_field 'Y' unitY y hy _ (fun _ => eM 'Y' (by decide) (by decide) (by decide))
  have rM := optField_field 'M' unitM mo hmo _ (fun _ => eW 'M' (by decide) (by decide))
  have rW := optField_field 'W' unitW w hw _ (fun _ => eD 'W' (by decide))
  have rD := optField_field 'D' unitD d hd _ (fun _ => base 'D')
  unfold matchBody
  simp only [List.append_assoc, rY, rM, rW, rD]
  cases t with
  | none =>
    simp only [timeText, List.nil_append]
    split
    · exact absurd rfl hnT
    · rw [if_pos hend]
  | some x =>
    obtain ⟨h, m, s⟩ := x
    obtain ⟨vh, vm, vs⟩ := ht h m s rfl
    have tl : ∀ u, optField u tail = (none, tail) := fun u => optField_nondigit u _ htail
    have tS : ∀ u, 'S' ≠ u → optField u (fieldText 'S' s ++ tail) = (none, fieldText 'S' s ++ tail) :=
      fun u hu => optField_skip u 'S' unitS hu s vs _ (tl u)
    have tM : ∀ u, 'S' ≠ u → 'M' ≠ u →
        optField u (fieldText 'M' m ++ (fieldText 'S' s ++ tail)) =
        (none, fieldText 'M' m ++ (fieldText 'S' s ++ tail)) :=
      fun u h1 h2 => optField_skip u 'M' unitM h2 m vm _ (tS u h1)
    have qH := optField_field 'H' unitH h vh _ (fun _ => tM 'H' (by decide) (by decide))
    have qM := optField_field 'M' unitM m vm _ (fun _ => tS 'M' (by decide))
    have qS := optField_field 'S' unitS s vs _ (fun _ => tl 'S')
    simp only [timeText, List.cons_append, List.nil_append, List.append_assoc, qH, qM, qS]
    rw [if_pos hend]

/-- The pattern matches the text of every valid duration. -/
theorem matchDuration_render (endOk : Str → Bool) (f : Fields) (hv : f.Valid) (tail : Str)
    (htail : NoDigit tail) (hnT : tail.head? ≠ some 'T') (hend : endOk tail = true) :
    matchDuration endOk (render f ++ tail) = some f := by
  obtain ⟨sign, y, mo, w, d, t⟩ := f
  obtain ⟨hs, hy, hmo, hw, hd, ht⟩ := hv
  have hb := matchBody_render endOk sign y mo w d t tail hy hmo hw hd ht htail hnT hend
  have hsgn : ∀ r, optSign (signText sign ++ 'P' :: r) = (sign, 'P' :: r) := by
    intro r
    simp only at hs
    rcases hs with h | h | h <;> subst h <;> rfl
  unfold matchDuration render
  simp only [List.append_assoc, List.cons_append, List.nil_append, hsgn]
  simpa only [List.append_assoc] using hb

/-- A match determines the text. -/
theorem matchBody_sound (endOk : Str → Bool) (sign : Option Char) (s : Str) (f : Fields)
    (h : matchBody endOk sign s = some f) :
    f.sign = sign ∧ OptValid f.years ∧ OptValid f.months ∧ OptValid f.weeks ∧ OptValid f.days ∧
    (∀ h m s, f.time = some (h, m, s) → OptValid h ∧ OptValid m ∧ OptValid s) ∧
    ∃ tail, endOk tail = true ∧
      s = fieldText 'Y' f.years ++ fieldText 'M' f.months ++ fieldText 'W' f.weeks ++
        fieldText 'D' f.days ++ timeText f.time ++ tail := by
  unfold matchBody at h
  simp only at h
  have sY := optField_sound 'Y' s
  have sM := optField_sound 'M' (optField 'Y' s).2
  have sW := optField_sound 'W' (optField 'M' (optField 'Y' s).2).2
  have sD := optField_sound 'D' (optField 'W' (optField 'M' (optField 'Y' s).2).2).2
  generalize optField 'Y' s = y at *
  generalize optField 'M' y.2 = mo at *
  generalize optField 'W' mo.2 = w at *
  generalize optField 'D' w.2 = d at *
  have hs : s = fieldText 'Y' y.1 ++ (fieldText 'M' mo.1 ++ (fieldText 'W' w.1 ++
      (fieldText 'D' d.1 ++ d.2))) := by
    rw [← sD.2, ← sW.2, ← sM.2, ← sY.2]
  split at h
  · rename_i r heq
    have sH := optField_sound 'H' r
    have sMi := optField_sound 'M' (optField 'H' r).2
    have sS := optField_sound 'S' (optField 'M' (optField 'H' r).2).2
    generalize optField 'H' r = hh at *
    generalize optField 'M' hh.2 = mi at *
    generalize optField 'S' mi.2 = se at *
    split at h
    · rename_i hend
      simp only [Option.some.injEq] at h
      subst h
      refine ⟨rfl, sY.1, sM.1, sW.1, sD.1, ?_, se.2, hend, ?_⟩
      · intro a b c habc
        simp only [Option.some.injEq, Prod.mk.injEq] at habc
        obtain ⟨h1, h2, h3⟩ := habc
        subst h1; subst h2; subst h3
        exact ⟨sH.1, sMi.1, sS.1⟩
      · have hr : r = fieldText 'H' hh.1 ++ (fieldText 'M' mi.1 ++ (fieldText 'S' se.1 ++ se.2)) := by
          rw [← sS.2, ← sMi.2, ← sH.2]
        rw [hs, heq, hr]
        simp [timeText]
    · simp at h
  · split at h
    · rename_i hend
      simp only [Option.some.injEq] at h
      subst h
      refine ⟨rfl, sY.1, sM.1, sW.1, sD.1, ?_, d.2, hend, ?_⟩
      · intro a b c habc; simp at habc
      · rw [hs]; simp [timeText]
    · simp at h

theorem matchDuration_sound (endOk : Str → Bool) (s : Str) (f : Fields)
    (h : matchDuration endOk s = some f) :
    f.Valid ∧ ∃ tail, endOk tail = true ∧ s = render f ++ tail := by
  have hsg : s = signText (optSign s).1 ++ (optSign s).2 ∧
      ((optSign s).1 = none ∨ (optSign s).1 = some '+' ∨ (optSign s).1 = some '-') := by
    unfold optSign
    split <;> simp [signText]
  unfold matchDuration at h
  split at h
  · rename_i r heq
    obtain ⟨h1, h2, h3, h4, h5, h6, tail, ht, hs⟩ := matchBody_sound _ _ _ _ h
    refine ⟨⟨?_, h2, h3, h4, h5, h6⟩, tail, ht, ?_⟩
    · rw [h1]; exact hsg.2
    · rw [hsg.1, heq, hs]
      unfold render
      rw [h1]
      simp
  · simp at h

theorem endText_iff (tail : Str) : endText tail = true ↔ tail = [] := by
  cases tail <;> simp [endText]

theorem endPy_iff (tail : Str) : endPy tail = true ↔ tail = [] ∨ tail = ['\n'] := by
  unfold endPy
  split <;> simp_all

/-- Go and C++: the matched strings are exactly the texts of the grammar. -/
theorem matchDuration_text_iff (s : Str) (f : Fields) :
    matchDuration endText s = some f ↔ f.Valid ∧ s = render f := by
  constructor
  · intro h
    obtain ⟨hv, tail, ht, hs⟩ := matchDuration_sound _ _ _ h
    rw [endText_iff] at ht
    subst ht
    exact ⟨hv, by simpa using hs⟩
  · rintro ⟨hv, hs⟩
    have := matchDuration_render endText f hv [] (by intro c hc; simp at hc) (by simp) rfl
    rw [hs]
    simpa using this

/-- Python: a trailing newline is accepted, too. -/
theorem matchDuration_py_iff (s : Str) (f : Fields) :
    matchDuration endPy s = some f ↔ f.Valid ∧ (s = render f ∨ s = render f ++ ['\n']) := by
  constructor
  · intro h
    obtain ⟨hv, tail, ht, hs⟩ := matchDuration_sound _ _ _ h
    rw [endPy_iff] at ht
    refine ⟨hv, ?_⟩
    rcases ht with ht | ht <;> subst ht
    · left; simpa using hs
    · right; exact hs
  · rintro ⟨hv, hs | hs⟩
    · have := matchDuration_render endPy f hv [] (by intro c hc; simp at hc) (by simp) rfl
      rw [hs]; simpa using this
    · have := matchDuration_render endPy f hv ['\n']
        (by intro c hc; simp at hc; subst hc; decide) (by simp) rfl
      rw [hs]; exact this

/-! ## Decimal digits -/

theorem digitsVal_natStr (n : Nat) : digitsVal (natStr n) = n := by
  unfold digitsVal natStr
  exact Nat.ofDigitChars_ten_toDigits

theorem natStr_ne_nil (n : Nat) : natStr n ≠ [] := Nat.toDigits_ne_nil

theorem natStr_digits (n : Nat) : ∀ c ∈ natStr n, isDig c = true := by
  intro c hc
  exact Nat.isDigit_of_mem_toDigits (b := 10) (by omega) (by omega) hc

theorem natStr_head (n : Nat) (h : 0 < n) : (natStr n).head? ≠ some '0' := by
  unfold natStr
  induction n using Nat.strongRecOn with
  | _ n ih =>
    by_cases hlt : n < 10
    · rw [Nat.toDigits_of_lt_base hlt]
      have : ∀ k, k < 10 → 0 < k → k.digitChar ≠ '0' := by decide
      simp [this n hlt h]
    · rw [Nat.toDigits_of_base_le (by omega) (by omega)]
      have := ih (n / 10) (by omega) (by omega)
      cases hd : Nat.toDigits 10 (n / 10) with
      | nil => exact absurd hd Nat.toDigits_ne_nil
      | cons a as => rw [hd] at this; simpa using this

theorem natStr_isInt (n : Nat) : IsInt (natStr n) := by
  by_cases h : n = 0
  · subst h; left; rfl
  · exact Or.inr ⟨natStr_ne_nil n, natStr_head n (by omega), natStr_digits n⟩

theorem natStr_length_le (n w : Nat) (hw : 0 < w) (h : n < 10 ^ w) : (natStr n).length ≤ w :=
  (Nat.length_toDigits_le_iff (by omega) hw).2 h

theorem digitsVal_append (a b : Str) (_hb : ∀ c ∈ b, isDig c = true) :
    digitsVal (a ++ b) = digitsVal a * 10 ^ b.length + digitsVal b := by
  unfold digitsVal
  rw [Nat.ofDigitChars_append, Nat.ofDigitChars_eq_ofDigitChars_zero]
  rw [Nat.mul_comm]

theorem digitsVal_replicate (k : Nat) : digitsVal (List.replicate k '0') = 0 := by
  unfold digitsVal
  rw [Nat.ofDigitChars_replicate_zero]
  simp

theorem replicate_digits (k : Nat) : ∀ c ∈ List.replicate k '0', isDig c = true := by
  intro c hc
  rw [List.mem_replicate] at hc
  rw [hc.2]; decide

theorem padZeros_digits (w n : Nat) : ∀ c ∈ padZeros w n, isDig c = true := by
  intro c hc
  unfold padZeros at hc
  rw [List.mem_append] at hc
  rcases hc with hc | hc
  · exact replicate_digits _ c hc
  · exact natStr_digits n c hc

theorem padZeros_length (w n : Nat) (hw : 0 < w) (h : n < 10 ^ w) : (padZeros w n).length = w := by
  have := natStr_length_le n w hw h
  unfold padZeros
  simp
  omega

theorem padZeros_val (w n : Nat) : digitsVal (padZeros w n) = n := by
  unfold padZeros
  rw [digitsVal_append _ _ (natStr_digits n), digitsVal_replicate, digitsVal_natStr]
  simp

theorem dropWhile_zeros_split (s : Str) :
    s = List.replicate (s.length - (s.dropWhile (· == '0')).length) '0' ++ s.dropWhile (· == '0') := by
  induction s with
  | nil => rfl
  | cons x xs ih =>
    by_cases hx : x = '0'
    · subst hx
      have hle : (xs.dropWhile (· == '0')).length ≤ xs.length := (List.dropWhile_sublist _).length_le
      have : ('0' :: xs).dropWhile (· == '0') = xs.dropWhile (· == '0') := by simp
      rw [this]
      have h2 : ('0' :: xs).length - (xs.dropWhile (· == '0')).length =
          (xs.length - (xs.dropWhile (· == '0')).length) + 1 := by simp; omega
      rw [h2, List.replicate_succ, List.cons_append, ← ih]
    · have hx' : (x == '0') = false := by simpa using hx
      have : (x :: xs).dropWhile (· == '0') = x :: xs := by
        rw [List.dropWhile_cons_of_neg (by simp [hx'])]
      rw [this]; simp

/-- Leading zeros do not change the value. -/
theorem digitsVal_dropZeros (s : Str) (hs : ∀ c ∈ s, isDig c = true) :
    digitsVal (s.dropWhile (· == '0')) = digitsVal s := by
  have h := dropWhile_zeros_split s
  generalize hk : s.length - (s.dropWhile (· == '0')).length = k at h
  generalize hr : s.dropWhile (· == '0') = r at h
  have hrd : ∀ c ∈ r, isDig c = true := by
    intro c hc; apply hs; rw [h]; simp [hc]
  rw [h, digitsVal_append _ _ hrd, digitsVal_replicate]
  simp

theorem rstripZeros_split (s : Str) : ∃ k, s = rstripZeros s ++ List.replicate k '0' := by
  have h := dropWhile_zeros_split s.reverse
  generalize s.reverse.length - (s.reverse.dropWhile (· == '0')).length = k at h
  refine ⟨k, ?_⟩
  unfold rstripZeros
  have := congrArg List.reverse h
  rw [List.reverse_reverse, List.reverse_append, List.reverse_replicate] at this
  exact this

theorem digits_of_prefix {a b : Str} (h : ∀ c ∈ a ++ b, isDig c = true) : ∀ c ∈ a, isDig c = true :=
  fun c hc => h c (by simp [hc])

/-- The fraction written by the serializers: digits, not longer than the width, with the value. -/
theorem fraction_spec (w n : Nat) (hw : 0 < w) (hn : n < 10 ^ w) (hpos : 0 < n) :
    (∀ c ∈ rstripZeros (padZeros w n), isDig c = true) ∧
    rstripZeros (padZeros w n) ≠ [] ∧
    (rstripZeros (padZeros w n)).length ≤ w ∧
    digitsVal (rstripZeros (padZeros w n)) * 10 ^ (w - (rstripZeros (padZeros w n)).length) = n := by
  obtain ⟨k, hk⟩ := rstripZeros_split (padZeros w n)
  have hlen := padZeros_length w n hw hn
  have hval := padZeros_val w n
  have hdig := padZeros_digits w n
  generalize rstripZeros (padZeros w n) = f at *
  rw [hk] at hlen hval hdig
  simp at hlen
  have hv : digitsVal f * 10 ^ k = n := by
    rw [digitsVal_append _ _ (replicate_digits k), digitsVal_replicate] at hval
    simpa using hval
  refine ⟨digits_of_prefix hdig, ?_, by omega, ?_⟩
  · intro hf
    subst hf
    simp [digitsVal] at hv
    omega
  · rw [show w - f.length = k by omega]; exact hv

/-- Stripping zeros does not pass over the dot. -/
theorem rstripZeros_append (a b : Str) (hb : rstripZeros b ≠ []) :
    rstripZeros (a ++ b) = a ++ rstripZeros b := by
  unfold rstripZeros at *
  rw [List.reverse_append, List.dropWhile_append]
  split
  · rename_i h
    rw [List.isEmpty_iff] at h
    rw [h] at hb
    simp at hb
  · simp

end Mapry.Duration
