import Verif.Naming

/-! Helper lemmas about the naming functions. -/

namespace Mapry.Naming

/-- Specification of the camel-casing as a one-pass automaton: drop the underscores and upper-case
the character which follows an underscore (and the first one if the flag is set). -/
def camelSpec : Bool → Str → Str
  | _, [] => []
  | up, c :: cs =>
    if c = '_' then camelSpec true cs else (if up then c.toUpper else c) :: camelSpec false cs

/-- Specification: the identifier is non-empty, neither starts nor ends with an underscore and
contains no doubled underscore. -/
def NoEmptyPart (s : Str) : Prop :=
  s ≠ [] ∧ ¬ ['_'] <+: s ∧ ¬ ['_'] <:+ s ∧ ¬ ['_', '_'] <:+: s

instance (s : Str) : Decidable (NoEmptyPart s) := by unfold NoEmptyPart; infer_instance

theorem suffix_cons_iff' (c x : Char) (xs : Str) : [c] <:+ x :: xs ↔ ([c] = x :: xs ∨ [c] <:+ xs) :=
  List.suffix_cons_iff

/-- All the parts after the first one are non-empty. -/
theorem tail_parts_iff (s : Str) :
    (∀ p ∈ (splitChar '_' s).tail, p ≠ []) ↔ (¬ ['_'] <:+ s ∧ ¬ ['_', '_'] <:+: s) := by
  induction s with
  | nil => simp [splitChar]
  | cons x xs ih =>
    simp only [splitChar]
    rw [List.suffix_cons_iff, List.infix_cons_iff]
    split
    · rename_i h
      subst h
      cases hs : splitChar '_' xs with
      | nil => exact absurd hs (splitChar_ne_nil _ _)
      | cons p ps =>
        rw [hs] at ih
        simp only [List.tail_cons] at ih ⊢
        simp only [List.mem_cons, forall_eq_or_imp, ih]
        cases xs with
        | nil =>
          simp [splitChar] at hs
          simp [← hs.1]
        | cons y ys =>
          simp only [splitChar] at hs
          by_cases hy : y = '_'
          · subst hy
            simp at hs
            obtain ⟨rfl, _⟩ := hs
            simp
          · have : p ≠ [] := by
              rw [if_neg hy] at hs
              split at hs
              · rename_i h'; exact absurd h' (splitChar_ne_nil _ _)
              · simp at hs; rw [← hs.1]; simp
            simp [this, Ne.symm hy]
    · rename_i h
      split
      · rename_i h'; exact absurd h' (splitChar_ne_nil _ _)
      · rename_i p ps h'
        rw [h'] at ih
        simp only [List.tail_cons] at ih ⊢
        rw [ih]
        simp [Ne.symm h]

theorem parts_iff (s : Str) : (∀ p ∈ splitChar '_' s, p ≠ []) ↔ NoEmptyPart s := by
  cases s with
  | nil => simp [splitChar, NoEmptyPart]
  | cons x xs =>
    have ht := tail_parts_iff (x :: xs)
    unfold NoEmptyPart
    rw [← ht]
    simp only [splitChar]
    split
    · rename_i h; subst h; simp
    · rename_i h
      split
      · rename_i h'; exact absurd h' (splitChar_ne_nil _ _)
      · simp [Ne.symm h]

/-- Upper-case the first character. -/
def capPart : Str → Str
  | [] => []
  | c :: cs => c.toUpper :: cs

theorem capitalizeAll_ok (ps : List Str) (h : ∀ p ∈ ps, p ≠ []) :
    capitalizeAll ps = .ok (ps.map capPart).flatten := by
  induction ps with
  | nil => rfl
  | cons p ps ih =>
    have hp : p ≠ [] := h p (by simp)
    have ih := ih (fun q hq => h q (by simp [hq]))
    cases p with
    | nil => exact absurd rfl hp
    | cons c cs => simp [capitalizeAll, capitalize, ih, capPart]; rfl

theorem capitalizeAll_error (ps : List Str) (h : ¬ ∀ p ∈ ps, p ≠ []) :
    capitalizeAll ps = .error .indexError := by
  induction ps with
  | nil => simp at h
  | cons p ps ih =>
    cases p with
    | nil => rfl
    | cons c cs =>
      have : ¬ ∀ p ∈ ps, p ≠ [] := by
        intro h'; apply h; intro q hq; rcases List.mem_cons.1 hq with rfl | hq
        · simp
        · exact h' q hq
      simp [capitalizeAll, capitalize, ih this]; rfl

/-- The automaton agrees with upper-casing part by part. -/
theorem camelSpec_eq (s : Str) (up : Bool) :
    camelSpec up s = match splitChar '_' s with
      | [] => []
      | p :: ps =>
        (match p with
          | [] => []
          | c :: cs => (if up then c.toUpper else c) :: cs) ++
        (ps.map capPart).flatten := by
  induction s generalizing up with
  | nil => simp [splitChar, camelSpec]
  | cons x xs ih =>
    simp only [splitChar, camelSpec]
    split
    · rw [ih true]
      cases hs : splitChar '_' xs with
      | nil => exact absurd hs (splitChar_ne_nil _ _)
      | cons p ps => cases p <;> simp [capPart]
    · rw [ih false]
      cases hs : splitChar '_' xs with
      | nil => exact absurd hs (splitChar_ne_nil _ _)
      | cons p ps => cases p <;> simp

theorem camelSpec_eq_true (s : Str) :
    camelSpec true s = ((splitChar '_' s).map capPart).flatten := by
  rw [camelSpec_eq]
  cases hs : splitChar '_' s with
  | nil => exact absurd hs (splitChar_ne_nil _ _)
  | cons p ps => cases p <;> simp [capPart]

theorem not_mem_camelSpec (s : Str) (up : Bool) : '_' ∉ camelSpec up s := by
  induction s generalizing up with
  | nil => simp [camelSpec]
  | cons x xs ih =>
    simp only [camelSpec]
    split
    · exact ih true
    · rename_i h
      simp only [List.mem_cons, not_or]
      refine ⟨?_, ih false⟩
      cases up
      · simpa using Ne.symm h
      · simp only [if_true]
        intro h'
        exact h ((toUpper_eq_underscore x).1 h'.symm)

theorem camelSpec_head (s : Str) (h : s ≠ []) (h' : ¬ ['_'] <+: s) :
    ∃ c cs, s = c :: cs ∧ camelSpec true s = c.toUpper :: camelSpec false cs := by
  cases s with
  | nil => exact absurd rfl h
  | cons c cs =>
    refine ⟨c, cs, rfl, ?_⟩
    have : c ≠ '_' := by
      rintro rfl; apply h'; simp
    simp [camelSpec, this]

theorem lookup_some_mem {α β} [BEq α] [LawfulBEq α] (l : List (α × β)) (a : α) (b : β)
    (h : l.lookup a = some b) : (a, b) ∈ l := by
  induction l with
  | nil => simp at h
  | cons x xs ih =>
    obtain ⟨k, v⟩ := x
    simp only [List.lookup] at h
    split at h
    · rename_i hk
      simp at hk h
      simp [hk, h]
    · simp [ih h]

theorem suffix_of_getLast? (s p : Str) (h : (splitChar '_' s).getLast? = some p) : p <:+ s := by
  induction s with
  | nil => simp [splitChar] at h; simp [← h]
  | cons x xs ih =>
    simp only [splitChar] at h
    by_cases hx : x = '_'
    · rw [if_pos hx] at h
      cases hs : splitChar '_' xs with
      | nil => exact absurd hs (splitChar_ne_nil _ _)
      | cons q qs =>
        rw [hs] at h ih
        rw [List.getLast?_cons_cons] at h
        exact (ih h).trans (List.suffix_cons _ _)
    · rw [if_neg hx] at h
      cases hs : splitChar '_' xs with
      | nil => exact absurd hs (splitChar_ne_nil _ _)
      | cons q qs =>
        rw [hs] at h ih
        cases qs with
        | nil =>
          have := joinWith_splitChar '_' xs
          rw [hs] at this
          simp only [joinWith] at this
          subst this
          simp at h
          simp [h]
        | cons r rs =>
          simp only [List.getLast?_cons_cons] at h ih
          exact (ih h).trans (List.suffix_cons _ _)

theorem suffix_last_part (s : Str) :
    (splitChar '_' s).getLast (splitChar_ne_nil _ _) <:+ s :=
  suffix_of_getLast? s _ (List.getLast?_eq_some_getLast _)

end Mapry.Naming
