/-!
# Strings, exceptions and small list utilities

Python strings are modelled as lists of characters (`Str`), so that every string function of the
model is a plain structural recursion.
-/

namespace Mapry

/-- A Python `str`: the list of its characters. -/
abbrev Str := List Char

/-- `c!"abc"` is the literal list `['a', 'b', 'c']`. -/
syntax:max "c!" str : term
macro_rules
  | `(c!$s) => do
    let cs := s.getString.toList
    let lits := cs.map (fun c => (Lean.Syntax.mkCharLit c : Lean.TSyntax `char))
    let arr : Lean.TSyntaxArray `term := (lits.map (fun c => ⟨c.raw⟩)).toArray
    `([$arr,*])

/-- The exceptions raised by the modelled Python code. -/
inductive Exc where
  /-- `ValueError` with its message -/
  | valueError (msg : Str)
  /-- `IndexError` -/
  | indexError
  /-- `KeyError` -/
  | keyError
  /-- `TypeError` -/
  | typeError
  /-- `AttributeError` -/
  | attributeError
  /-- `OverflowError` -/
  | overflowError
  /-- `NotImplementedError` with its message -/
  | notImplemented (msg : Str)
  /-- `AssertionError` -/
  | assertionError
  /-- `icontract.ViolationError` -/
  | violation
  /-- `lexery.Error` -/
  | lexError
  /-- `RecursionError`: the call stack is exhausted -/
  | recursionError
  /-- `RuntimeError` with its message -/
  | runtimeError (msg : Str)
  /-- `OSError` -/
  | osError
  /-- `mapry.validation.SchemaError` with its reference and its message -/
  | schemaError (ref : Str) (msg : Str)
  /-- a panic of the generated Go code with its message -/
  | panic (msg : Str)
  deriving DecidableEq, Repr

deriving instance DecidableEq for Except

/-- Two lists of the same length are related element by element. -/
inductive Forall₂ {α β : Type} (R : α → β → Prop) : List α → List β → Prop where
  | nil : Forall₂ R [] []
  | cons {a b as bs} : R a b → Forall₂ R as bs → Forall₂ R (a :: as) (b :: bs)

/-- `str.lower` (ASCII letters only; the identifiers of a schema are ASCII, see `schemas.py`). -/
def lower (s : Str) : Str := s.map Char.toLower

/-- `str.upper` (ASCII letters only). -/
def upper (s : Str) : Str := s.map Char.toUpper

/-- `c in string.ascii_uppercase` -/
def isUpper (c : Char) : Bool := c.isUpper

/-- `str.split(c)`: split at every occurrence of the character; never returns the empty list. -/
def splitChar (c : Char) : Str → List Str
  | [] => [[]]
  | x :: xs =>
    if x = c then [] :: splitChar c xs
    else match splitChar c xs with
      | [] => [[x]]
      | p :: ps => (x :: p) :: ps

/-- `sep.join(parts)` -/
def joinWith (sep : Str) : List Str → Str
  | [] => []
  | [p] => p
  | p :: q :: ps => p ++ sep ++ joinWith sep (q :: ps)

/-- `s.endswith(suffix)` -/
def endsWith (suffix s : Str) : Bool := suffix.isSuffixOf s

/-- `sub in s` for strings -/
def isInfixB (sub : Str) : Str → Bool
  | [] => sub.isEmpty
  | c :: cs => sub.isPrefixOf (c :: cs) || isInfixB sub cs

theorem isInfixB_iff (sub s : Str) : isInfixB sub s = true ↔ sub <:+: s := by
  induction s with
  | nil => simp [isInfixB]
  | cons c cs ih =>
    simp only [isInfixB, Bool.or_eq_true, List.isPrefixOf_iff_prefix, ih, List.infix_cons_iff]

theorem splitChar_ne_nil (c : Char) (s : Str) : splitChar c s ≠ [] := by
  cases s with
  | nil => simp [splitChar]
  | cons x xs =>
    simp only [splitChar]
    split
    · simp
    · split <;> simp

/-- Joining the parts gives back the string. -/
theorem joinWith_splitChar (c : Char) (s : Str) : joinWith [c] (splitChar c s) = s := by
  induction s with
  | nil => simp [splitChar, joinWith]
  | cons x xs ih =>
    simp only [splitChar]
    split
    · rename_i h
      subst h
      cases hs : splitChar x xs with
      | nil => exact absurd hs (splitChar_ne_nil _ _)
      | cons p ps =>
        rw [hs] at ih
        simp [joinWith, ih]
    · split
      · rename_i h
        exact absurd h (splitChar_ne_nil _ _)
      · rename_i p ps h
        rw [h] at ih
        cases ps with
        | nil => simp only [joinWith] at ih ⊢; rw [ih]
        | cons q qs => simp only [joinWith, List.cons_append] at ih ⊢; rw [ih]

/-- No part contains the separator. -/
theorem not_mem_of_mem_splitChar (c : Char) (s p : Str) (hp : p ∈ splitChar c s) : c ∉ p := by
  induction s generalizing p with
  | nil => simp [splitChar] at hp; simp [hp]
  | cons x xs ih =>
    simp only [splitChar] at hp
    split at hp
    · rcases List.mem_cons.1 hp with h | h
      · simp [h]
      · exact ih _ h
    · rename_i hne
      split at hp
      · rename_i h
        exact absurd h (splitChar_ne_nil _ _)
      · rename_i q qs h
        rcases List.mem_cons.1 hp with h' | h'
        · have := ih q (by rw [h]; simp)
          subst h'
          simp only [List.mem_cons, not_or]
          exact ⟨fun e => hne e.symm, this⟩
        · exact ih _ (by rw [h]; simp [h'])

theorem char_eq_iff_toNat (a b : Char) : a = b ↔ a.toNat = b.toNat := by
  constructor
  · rintro rfl; rfl
  · intro h
    apply Char.ext
    apply UInt32.toNat_inj.1
    exact h

theorem toNat_toUpper (c : Char) :
    c.toUpper.toNat = if 97 ≤ c.toNat ∧ c.toNat ≤ 122 then c.toNat - 32 else c.toNat := by
  unfold Char.toUpper
  simp only [UInt32.le_iff_toNat_le]
  show _ = if 97 ≤ c.val.toNat ∧ c.val.toNat ≤ 122 then _ else _
  split
  · rename_i h
    have h1 : 97 ≤ c.val.toNat ∧ c.val.toNat ≤ 122 := h
    rw [if_pos h1]
    show (c.val + ('A'.val - 'a'.val)).toNat = c.val.toNat - 32
    rw [UInt32.toNat_add]
    have : ('A'.val - 'a'.val).toNat = 4294967264 := by decide
    rw [this]; omega
  · rename_i h
    have h1 : ¬ (97 ≤ c.val.toNat ∧ c.val.toNat ≤ 122) := h
    rw [if_neg h1]

theorem toNat_toLower (c : Char) :
    c.toLower.toNat = if 65 ≤ c.toNat ∧ c.toNat ≤ 90 then c.toNat + 32 else c.toNat := by
  unfold Char.toLower
  simp only [UInt32.le_iff_toNat_le, ge_iff_le]
  show _ = if 65 ≤ c.val.toNat ∧ c.val.toNat ≤ 90 then _ else _
  split
  · rename_i h
    have h1 : 65 ≤ c.val.toNat ∧ c.val.toNat ≤ 90 := h
    rw [if_pos h1]
    show (c.val + ('a'.val - 'A'.val)).toNat = c.val.toNat + 32
    rw [UInt32.toNat_add]
    have : ('a'.val - 'A'.val).toNat = 32 := by decide
    rw [this]; omega
  · rename_i h
    have h1 : ¬ (65 ≤ c.val.toNat ∧ c.val.toNat ≤ 90) := h
    rw [if_neg h1]

theorem isUpper_iff (c : Char) : isUpper c = true ↔ 65 ≤ c.toNat ∧ c.toNat ≤ 90 := by
  unfold isUpper Char.isUpper
  simp only [UInt32.le_iff_toNat_le, ge_iff_le, decide_eq_true_eq]
  exact Iff.rfl

theorem isUpper_toLower_false (c : Char) : isUpper c.toLower = false := by
  rw [Bool.eq_false_iff, Ne, isUpper_iff, toNat_toLower]; split <;> omega

theorem toUpper_toUpper (c : Char) : c.toUpper.toUpper = c.toUpper := by
  rw [char_eq_iff_toNat]; simp only [toNat_toUpper]; grind

theorem toLower_toLower (c : Char) : c.toLower.toLower = c.toLower := by
  rw [char_eq_iff_toNat]; simp only [toNat_toLower]; grind
theorem toUpper_eq_underscore (c : Char) : c.toUpper = '_' ↔ c = '_' := by
  simp only [char_eq_iff_toNat, toNat_toUpper]
  have : '_'.toNat = 95 := rfl
  rw [this]; grind

theorem toLower_eq_underscore (c : Char) : c.toLower = '_' ↔ c = '_' := by
  simp only [char_eq_iff_toNat, toNat_toLower]
  have : '_'.toNat = 95 := rfl
  rw [this]; grind

end Mapry
