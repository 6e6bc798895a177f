import Verif.TextLemmas

/-! Helper lemmas about docstrings. -/

namespace Mapry.Text

open Mapry.Literals
open Mapry.Strftime

theorem readTriple_plain (raw : Bool) (c : Char) (cs : Str) (h1 : c ≠ '\\')
    (h2 : ¬ (c = '"' ∧ cs.take 2 = ['"', '"'])) :
    readTriple raw (c :: cs) = (readTriple raw cs).map (c :: ·) := by
  rw [readTriple.eq_def]
  simp only [if_neg h1, if_neg h2]
  cases readTriple raw cs <;> rfl

theorem readTriple_esc (raw : Bool) (e : Char) (cs : Str) :
    readTriple raw ('\\' :: e :: cs) = (readTriple raw cs).bind
      (fun r => if raw then some ('\\' :: e :: r) else (pyEsc e).map (fun x => x :: r)) := by
  rw [readTriple.eq_def]
  simp
  cases readTriple raw cs <;> rfl

theorem readTriple_close (raw : Bool) : readTriple raw ['"', '"', '"'] = some [] := by
  rw [readTriple.eq_def]; simp

/-- What follows the text in a docstring: the closing quotes, possibly on a new line. -/
inductive Tail : Str → Str → Prop where
  | same : Tail c!"\"\"\"" []
  | newline : Tail c!"\n\"\"\"" ['\n']

theorem readTriple_tail (raw : Bool) (tail v : Str) (h : Tail tail v) :
    readTriple raw tail = some v := by
  cases h with
  | same => exact readTriple_close raw
  | newline =>
    rw [readTriple_plain _ _ _ (by decide) (by decide), readTriple_close]; rfl

/-- The last character of the text does not interfere with the closing quotes. -/
def EndsWell (t tail : Str) : Prop :=
  tail = c!"\n\"\"\"" ∨ (t.getLast? ≠ some '"' ∧ t.getLast? ≠ some '\\')

theorem EndsWell.tail {c : Char} {cs tail : Str} (h : EndsWell (c :: cs) tail) (hne : cs ≠ []) :
    EndsWell cs tail := by
  rcases h with h | h
  · exact Or.inl h
  · right
    cases cs with
    | nil => exact absurd rfl hne
    | cons d ds => simpa [List.getLast?_cons_cons] using h

theorem EndsWell.nil (tail : Str) : EndsWell [] tail := Or.inr (by simp)

theorem EndsWell.tail' {c : Char} {cs tail : Str} (h : EndsWell (c :: cs) tail) :
    EndsWell cs tail := by
  by_cases hne : cs = []
  · subst hne; exact EndsWell.nil _
  · exact h.tail hne

theorem not_infix_cons {sub : Str} {c : Char} {cs : Str} (h : ¬ sub <:+: c :: cs) :
    ¬ sub <:+: cs := fun h' => h (List.infix_cons h')

/-- A quote of the text is not mistaken for the closing quotes. -/
theorem no_close (cs tail v : Str) (ht : Tail tail v) (hi : ¬ c!"\"\"\"" <:+: '"' :: cs)
    (he : EndsWell ('"' :: cs) tail) : ¬ (cs ++ tail).take 2 = ['"', '"'] := by
  intro h
  match cs with
  | [] =>
    rcases he with he | he
    · subst he; simp at h
    · simp at he
  | [d] =>
    simp only [List.cons_append, List.nil_append, List.take_succ_cons] at h
    rcases he with he | he
    · subst he; simp at h
    · simp at h
      obtain ⟨rfl, _⟩ := h
      simp at he
  | d :: e :: ds =>
    simp at h
    obtain ⟨rfl, rfl⟩ := h
    exact hi ⟨[], ds, rfl⟩

/-- Plain text without backslashes and triple quotes. -/
theorem readTriple_text (raw : Bool) (t tail v : Str) (ht : Tail tail v) (hb : '\\' ∉ t)
    (hi : ¬ c!"\"\"\"" <:+: t) (he : EndsWell t tail) :
    readTriple raw (t ++ tail) = some (t ++ v) := by
  induction t with
  | nil => exact readTriple_tail raw tail v ht
  | cons c cs ih =>
    simp only [List.mem_cons, not_or] at hb
    rw [List.cons_append, readTriple_plain _ _ _ (Ne.symm hb.1),
      ih hb.2 (not_infix_cons hi) he.tail']
    · rfl
    · rintro ⟨rfl, h⟩
      exact no_close cs tail v ht hi he h

/-- Raw text with backslashes. -/
theorem readTriple_raw (t tail v : Str) (ht : Tail tail v)
    (hi : ¬ c!"\"\"\"" <:+: t) (he : EndsWell t tail) :
    readTriple true (t ++ tail) = some (t ++ v) := by
  induction hn : t.length using Nat.strongRecOn generalizing t with
  | ind n ih =>
    cases t with
    | nil => exact readTriple_tail true tail v ht
    | cons c cs =>
      simp only [List.length_cons] at hn
      by_cases hc : c = '\\'
      · subst hc
        cases cs with
        | nil =>
          rcases he with he | he
          · subst he
            cases ht with
            | newline =>
              simp only [List.cons_append, List.nil_append]
              rw [readTriple_esc, readTriple_close]
              rfl
          · simp at he
        | cons e ds =>
          simp only [List.cons_append]
          rw [readTriple_esc, ih ds.length (by simp at hn; omega) ds
            (not_infix_cons (not_infix_cons hi)) he.tail'.tail' rfl]
          simp
      · rw [List.cons_append, readTriple_plain _ _ _ hc,
          ih cs.length (by omega) cs (not_infix_cons hi) he.tail' rfl]
        · rfl
        · rintro ⟨rfl, h⟩
          exact no_close cs tail v ht hi he h

theorem replaceTriple_short (a b c : Char) (cs : Str) (h : ¬ (a = '"' ∧ b = '"' ∧ c = '"')) :
    replaceTriple (a :: b :: c :: cs) = a :: replaceTriple (b :: c :: cs) := by
  rw [replaceTriple, if_neg h]

theorem replaceTriple_cons (a : Char) (s : Str) (h : a ≠ '"') :
    replaceTriple (a :: s) = a :: replaceTriple s := by
  match s with
  | [] => rfl
  | [b] => rfl
  | b :: c :: cs => exact replaceTriple_short a b c cs (fun h' => h h'.1)

theorem replaceChar_cons_other (c : Char) (cs : Str) (h : c ≠ '\\') :
    replaceChar '\\' c!"\\\\" (c :: cs) = c :: replaceChar '\\' c!"\\\\" cs := by
  simp [replaceChar, h]

theorem replaceChar_cons_same (cs : Str) :
    replaceChar '\\' c!"\\\\" ('\\' :: cs) = '\\' :: '\\' :: replaceChar '\\' c!"\\\\" cs := by
  simp [replaceChar]

/-- The text with doubled backslashes and escaped triple quotes. -/
def docEscape (t : Str) : Str := replaceTriple (replaceChar '\\' c!"\\\\" t)

theorem docEscape_other (c : Char) (cs : Str) (h1 : c ≠ '\\') (h2 : c ≠ '"') :
    docEscape (c :: cs) = c :: docEscape cs := by
  rw [docEscape, replaceChar_cons_other _ _ h1, replaceTriple_cons _ _ h2]; rfl

theorem docEscape_backslash (cs : Str) :
    docEscape ('\\' :: cs) = '\\' :: '\\' :: docEscape cs := by
  rw [docEscape, replaceChar_cons_same, replaceTriple_cons _ _ (by decide),
    replaceTriple_cons _ _ (by decide)]; rfl

theorem docEscape_triple (cs : Str) :
    docEscape ('"' :: '"' :: '"' :: cs) = c!"\\\"\\\"\\\"" ++ docEscape cs := by
  rw [docEscape, replaceChar_cons_other _ _ (by decide), replaceChar_cons_other _ _ (by decide),
    replaceChar_cons_other _ _ (by decide), replaceTriple]
  simp [docEscape]

theorem docEscape_quote (cs : Str) (h : ¬ ∃ ds, cs = '"' :: '"' :: ds) :
    docEscape ('"' :: cs) = '"' :: docEscape cs := by
  rw [docEscape, replaceChar_cons_other _ _ (by decide)]
  match cs with
  | [] => rfl
  | [b] =>
    by_cases hb : b = '\\'
    · subst hb; decide
    · rw [docEscape, replaceChar_cons_other _ _ hb]; rfl
  | b :: c :: ds =>
    by_cases hb : b = '\\'
    · subst hb
      rw [replaceChar_cons_same, replaceTriple_short _ _ _ _ (by decide)]
      rw [docEscape, replaceChar_cons_same]
    · rw [docEscape, replaceChar_cons_other _ _ hb]
      by_cases hc : c = '\\'
      · subst hc
        rw [replaceChar_cons_same, replaceTriple_short _ _ _ _ (by simp)]
      · rw [replaceChar_cons_other _ _ hc, replaceTriple_short]
        rintro ⟨_, rfl, rfl⟩
        exact h ⟨ds, rfl⟩

/-- Text with triple quotes in a literal which is not raw. -/
theorem readTriple_escaped (t tail v : Str) (ht : Tail tail v)
    (he : tail = c!"\n\"\"\"" ∨ t.getLast? ≠ some '"') :
    readTriple false (docEscape t ++ tail) = some (t ++ v) := by
  induction hn : t.length using Nat.strongRecOn generalizing t with
  | ind n ih =>
    cases t with
    | nil => exact readTriple_tail false tail v ht
    | cons c cs =>
      simp only [List.length_cons] at hn
      have hlast : ∀ (d : Char) (ds : Str), (tail = c!"\n\"\"\"" ∨ (d :: ds).getLast? ≠ some '"') →
          (tail = c!"\n\"\"\"" ∨ ds.getLast? ≠ some '"') := by
        intro d ds h
        rcases h with h | h
        · exact Or.inl h
        · right
          cases ds with
          | nil => simp
          | cons e es => simpa [List.getLast?_cons_cons] using h
      by_cases hc : c = '\\'
      · subst hc
        rw [docEscape_backslash, List.cons_append, List.cons_append, readTriple_esc,
          ih cs.length (by omega) cs (hlast _ _ he) rfl]
        rfl
      · by_cases hq : c = '"'
        · subst hq
          by_cases h3 : ∃ ds, cs = '"' :: '"' :: ds
          · obtain ⟨ds, rfl⟩ := h3
            rw [docEscape_triple]
            simp only [List.cons_append, List.nil_append]
            rw [readTriple_esc, readTriple_esc, readTriple_esc,
              ih ds.length (by simp at hn; omega) ds (hlast _ _ (hlast _ _ (hlast _ _ he))) rfl]
            rfl
          · rw [docEscape_quote _ h3, List.cons_append, readTriple_plain _ _ _ (by decide),
              ih cs.length (by omega) cs (hlast _ _ he) rfl]
            · rfl
            · rintro ⟨_, h⟩
              match cs with
              | [] =>
                rcases he with he | he
                · subst he; simp [docEscape, replaceChar, replaceTriple] at h
                · simp at he
              | d :: ds =>
                by_cases hd : d = '\\'
                · subst hd
                  rw [docEscape_backslash] at h
                  simp at h
                · by_cases hdq : d = '"'
                  · subst hdq
                    match ds with
                    | [] =>
                      have e : docEscape ['"'] = ['"'] := by decide
                      rw [e] at h
                      rcases he with he | he
                      · subst he; simp at h
                      · simp at he
                    | e :: es =>
                      by_cases he' : e = '"'
                      · subst he'; exact h3 ⟨es, rfl⟩
                      · have hno : ¬ ∃ fs, (e :: es) = '"' :: '"' :: fs := by
                          rintro ⟨fs, hfs⟩
                          simp at hfs
                          exact he' hfs.1
                        rw [docEscape_quote _ hno] at h
                        by_cases heb : e = '\\'
                        · subst heb
                          rw [docEscape_backslash] at h
                          simp at h
                        · rw [docEscape_other _ _ heb he'] at h
                          simp at h
                          exact he' h
                  · rw [docEscape_other _ _ hd hdq] at h
                    simp at h
                    exact hdq h.1
        · rw [docEscape_other _ _ hc hq, List.cons_append, readTriple_plain _ _ _ hc,
            ih cs.length (by omega) cs (hlast _ _ he) rfl]
          · rfl
          · rintro ⟨h, _⟩; exact hq h

theorem normalizeNewlines_id (s : Str) (h : '\r' ∉ s) : normalizeNewlines s = s := by
  induction s with
  | nil => rfl
  | cons c cs ih =>
    simp only [List.mem_cons, not_or] at h
    simp only [normalizeNewlines, if_neg (Ne.symm h.1), ih h.2]

theorem not_mem_docEscape (t : Str) (h : '\r' ∉ t) : '\r' ∉ docEscape t := by
  have h1 : '\r' ∉ replaceChar '\\' c!"\\\\" t := by
    simp only [replaceChar, List.mem_flatMap, not_exists, not_and]
    intro c hc
    split
    · decide
    · simp only [List.mem_singleton]
      rintro rfl
      exact h hc
  have h2 : ∀ s : Str, '\r' ∉ s → '\r' ∉ replaceTriple s := by
    intro s
    induction s using replaceTriple.induct with
    | case1 => intro h; simp [replaceTriple]
    | case2 a => intro h; simpa [replaceTriple] using h
    | case3 a b => intro h; simpa [replaceTriple] using h
    | case4 a b c cs hq ih =>
      intro h
      rw [replaceTriple, if_pos hq]
      simp only [List.mem_cons, not_or] at h
      simp only [List.mem_append, not_or]
      exact ⟨by decide, ih h.2.2.2⟩
    | case5 a b c cs hq ih =>
      intro h
      rw [replaceTriple, if_neg hq]
      simp only [List.mem_cons, not_or] at h ⊢
      exact ⟨h.1, ih (by simp [h])⟩
  exact h2 _ h1

end Mapry.Text
