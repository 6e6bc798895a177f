import Verif.Text
import Verif.Literals

/-! Helper lemmas about the text functions. -/

namespace Mapry.Text

open Mapry.Literals
open Mapry.Strftime

/-! ### Escaping -/

theorem replaceChar_append (src : Char) (tgt a b : Str) :
    replaceChar src tgt (a ++ b) = replaceChar src tgt a ++ replaceChar src tgt b := by
  simp [replaceChar]

/-- All the replacements applied one after another. -/
def replaceAll (m : List (Char × Str)) (text : Str) : Str :=
  m.foldl (fun result st => replaceChar st.1 st.2 result) text

theorem replaceAll_append (m : List (Char × Str)) (a b : Str) :
    replaceAll m (a ++ b) = replaceAll m a ++ replaceAll m b := by
  induction m generalizing a b with
  | nil => rfl
  | cons st m ih =>
    show replaceAll m (replaceChar st.1 st.2 (a ++ b)) = _
    rw [replaceChar_append, ih]
    rfl

theorem replaceAll_nil (m : List (Char × Str)) : replaceAll m [] = [] := by
  induction m with
  | nil => rfl
  | cons st m ih => exact ih

theorem replaceAll_cons (m : List (Char × Str)) (c : Char) (cs : Str) :
    replaceAll m (c :: cs) = replaceAll m [c] ++ replaceAll m cs := by
  rw [← replaceAll_append]; rfl

theorem replaceChar_other (src : Char) (tgt : Str) (c : Char) (h : c ≠ src) :
    replaceChar src tgt [c] = [c] := by simp [replaceChar, h]

theorem replaceAll_other (m : List (Char × Str)) (c : Char) (h : ∀ st ∈ m, c ≠ st.1) :
    replaceAll m [c] = [c] := by
  induction m with
  | nil => rfl
  | cons st m ih =>
    show replaceAll m (replaceChar st.1 st.2 [c]) = _
    rw [replaceChar_other _ _ _ (h st (by simp))]
    exact ih (fun st' h' => h st' (by simp [h']))

theorem escapedStr_eq (text : Str) : escapedStr text = '"' :: replaceAll escapeMapping text ++ ['"'] :=
  rfl

/-- The characters with an escape sequence. -/
theorem escape_cases (c : Char) :
    (c = '\\' ∨ c = '"' ∨ c = '\x07' ∨ c = '\x08' ∨ c = '\t' ∨ c = '\n' ∨ c = '\x0b' ∨ c = '\x0c' ∨
      c = '\r' ∨ c = '\x1b') ∨ (replaceAll escapeMapping [c] = [c] ∧ c ≠ '\\' ∧ c ≠ '"' ∧ c ≠ '\n' ∧
        c ≠ '\x1b') := by
  by_cases h : (c = '\\' ∨ c = '"' ∨ c = '\x07' ∨ c = '\x08' ∨ c = '\t' ∨ c = '\n' ∨ c = '\x0b' ∨
      c = '\x0c' ∨ c = '\r' ∨ c = '\x1b')
  · exact Or.inl h
  · right
    simp only [not_or] at h
    refine ⟨replaceAll_other _ _ ?_, h.1, h.2.1, h.2.2.2.2.2.1, h.2.2.2.2.2.2.2.2.2⟩
    intro st hst
    simp only [escapeMapping, List.mem_cons, List.not_mem_nil, or_false] at hst
    rcases hst with rfl | rfl | rfl | rfl | rfl | rfl | rfl | rfl | rfl | rfl <;> simp only <;>
      simp_all

theorem readQuoted_plain (esc : Char → Option Char) (raw : Char → Bool) (c : Char) (cs : Str)
    (h1 : c ≠ '\\') (h2 : c ≠ '"') :
    readQuoted esc raw (c :: cs) = if raw c then (readQuoted esc raw cs).map (c :: ·) else none := by
  rw [readQuoted.eq_def]
  simp only [if_neg h1, if_neg h2]
  split
  · cases readQuoted esc raw cs <;> rfl
  · rfl

theorem readCpp_escape (c : Char) (rest : Str) :
    readQuoted (cppEsc true) (fun c => c ≠ '\n') (replaceAll escapeMapping [c] ++ rest) =
      (readQuoted (cppEsc true) (fun c => c ≠ '\n') rest).map (c :: ·) := by
  rcases escape_cases c with h | ⟨h, h1, h2, h3, h4⟩
  · rcases h with rfl | rfl | rfl | rfl | rfl | rfl | rfl | rfl | rfl | rfl
    all_goals
      first
        | (rw [show replaceAll escapeMapping ['\\'] = c!"\\\\" from by decide])
        | (rw [show replaceAll escapeMapping ['"'] = c!"\\\"" from by decide])
        | (rw [show replaceAll escapeMapping ['\x07'] = c!"\\a" from by decide])
        | (rw [show replaceAll escapeMapping ['\x08'] = c!"\\b" from by decide])
        | (rw [show replaceAll escapeMapping ['\t'] = c!"\\t" from by decide])
        | (rw [show replaceAll escapeMapping ['\n'] = c!"\\n" from by decide])
        | (rw [show replaceAll escapeMapping ['\x0b'] = c!"\\v" from by decide])
        | (rw [show replaceAll escapeMapping ['\x0c'] = c!"\\f" from by decide])
        | (rw [show replaceAll escapeMapping ['\r'] = c!"\\r" from by decide])
        | (rw [show replaceAll escapeMapping ['\x1b'] = c!"\\e" from by decide])
    all_goals
      simp only [List.cons_append, List.nil_append, readQuoted, cppEsc, commonEsc]
      cases readQuoted (cppEsc true) (fun c => c ≠ '\n') rest <;> simp
  · rw [h, List.singleton_append, readQuoted_plain _ _ _ _ h1 h2]
    simp [h3]

theorem readCpp_all (text rest : Str) :
    readQuoted (cppEsc true) (fun c => c ≠ '\n') (replaceAll escapeMapping text ++ rest) =
      (readQuoted (cppEsc true) (fun c => c ≠ '\n') rest).map (text ++ ·) := by
  induction text with
  | nil =>
    rw [replaceAll_nil, List.nil_append]
    generalize readQuoted (cppEsc true) (fun c => decide (c ≠ '\n')) rest = r
    cases r <;> rfl
  | cons c cs ih =>
    rw [replaceAll_cons, List.append_assoc, readCpp_escape, ih]
    cases readQuoted (cppEsc true) (fun c => c ≠ '\n') rest <;> simp

/-- The characters which stand for themselves in a Go string literal. -/
abbrev goRawChar : Char → Bool := fun c => c ≠ '\n' && goSourceChar c

/-- A character which can be written with `escaped_str` in Go. -/
def goWritable (c : Char) : Bool := goSourceChar c && c ≠ '\x1b'

theorem readGo_escape (c : Char) (rest : Str) :
    readQuoted commonEsc goRawChar (replaceAll escapeMapping [c] ++ rest) =
      if goWritable c then (readQuoted commonEsc goRawChar rest).map (c :: ·) else none := by
  rcases escape_cases c with h | ⟨h, h1, h2, h3, h4⟩
  · rcases h with rfl | rfl | rfl | rfl | rfl | rfl | rfl | rfl | rfl | rfl
    all_goals
      first
        | (rw [show replaceAll escapeMapping ['\\'] = c!"\\\\" from by decide])
        | (rw [show replaceAll escapeMapping ['"'] = c!"\\\"" from by decide])
        | (rw [show replaceAll escapeMapping ['\x07'] = c!"\\a" from by decide])
        | (rw [show replaceAll escapeMapping ['\x08'] = c!"\\b" from by decide])
        | (rw [show replaceAll escapeMapping ['\t'] = c!"\\t" from by decide])
        | (rw [show replaceAll escapeMapping ['\n'] = c!"\\n" from by decide])
        | (rw [show replaceAll escapeMapping ['\x0b'] = c!"\\v" from by decide])
        | (rw [show replaceAll escapeMapping ['\x0c'] = c!"\\f" from by decide])
        | (rw [show replaceAll escapeMapping ['\r'] = c!"\\r" from by decide])
        | (rw [show replaceAll escapeMapping ['\x1b'] = c!"\\e" from by decide])
    all_goals
      simp only [List.cons_append, List.nil_append, readQuoted, commonEsc, goWritable, goSourceChar]
      cases readQuoted commonEsc goRawChar rest <;> simp
  · rw [h, List.singleton_append, readQuoted_plain _ _ _ _ h1 h2]
    simp [h3, h4, goWritable, goRawChar]

theorem readGo_all (text : Str) :
    readQuoted commonEsc goRawChar (replaceAll escapeMapping text ++ ['"']) =
      if text.all goWritable then some text else none := by
  induction text with
  | nil => rw [replaceAll_nil]; simp [readQuoted]
  | cons c cs ih =>
    rw [replaceAll_cons, List.append_assoc, readGo_escape, ih]
    by_cases h1 : goWritable c = true
    · by_cases h2 : cs.all goWritable = true
      · rw [if_pos h1, if_pos h2, if_pos (by simp [h1, h2])]; rfl
      · rw [if_pos h1, if_neg h2, if_neg (by simp [h2])]; rfl
    · rw [if_neg h1, if_neg (by simp [h1])]

/-! ### Raw literals of Go -/

theorem readRaw_part (part rest : Str) (h : '`' ∉ part) (hs : part.all goSourceChar = true) :
    readRaw (part ++ '`' :: rest) = some (part.filter (· ≠ '\r'), rest) := by
  induction part with
  | nil => simp [readRaw]
  | cons c cs ih =>
    simp only [List.mem_cons, not_or] at h
    simp only [List.all_cons, Bool.and_eq_true] at hs
    have hc : c ≠ '`' := fun e => h.1 e.symm
    simp only [List.cons_append, readRaw, if_neg hc, hs.1, if_true, ih h.2 hs.2]
    by_cases hr : c = '\r' <;> simp [hr]

theorem readRaw_bad (part rest : Str) (h : '`' ∉ part) (hs : part.all goSourceChar = false) :
    readRaw (part ++ '`' :: rest) = none := by
  induction part with
  | nil => simp at hs
  | cons c cs ih =>
    simp only [List.mem_cons, not_or] at h
    have hc : c ≠ '`' := fun e => h.1 e.symm
    simp only [List.cons_append, readRaw, if_neg hc]
    by_cases hg : goSourceChar c = true
    · have : cs.all goSourceChar = false := by simpa [List.all_cons, hg] using hs
      rw [if_pos hg, ih h.2 this]
    · rw [if_neg hg]

theorem goOperand_raw (s cs : Str) (h : skipBlanks s = '`' :: cs) : goOperand s = readRaw cs := by
  simp [goOperand, h]

theorem goOperand_tick (rest : Str) :
    goOperand ('"' :: '`' :: '"' :: rest) = some (['`'], rest) := by
  have h1 : spanQuoted ('`' :: '"' :: rest) = some (['`', '"'], rest) := by
    rw [spanQuoted.eq_def]
    have : spanQuoted ('"' :: rest) = some (['"'], rest) := by rw [spanQuoted.eq_def]; simp
    simp [this]
  have h2 : readGo ['"', '`', '"'] = some ['`'] := by decide
  simp only [goOperand, skipBlanks]
  simp [h1, h2]

theorem tickedPart_cons (q : Str) (qs : List Str) :
    List.flatMap tickedPart (q :: qs) = '+' :: '"' :: '`' :: '"' :: '+' ::
      '\n' :: ' ' :: ' ' :: ' ' :: ' ' :: '`' :: (q ++ '`' :: qs.flatMap tickedPart) := by
  simp [tickedPart]

theorem goExpr_plus (n : Nat) (s v rest : Str) (h : goOperand s = some (v, '+' :: rest)) :
    goExpr (n + 1) s = (goExpr n rest).map (v ++ ·) := by
  simp only [goExpr, h, if_true]
  cases goExpr n rest <;> rfl

theorem goExpr_last (n : Nat) (s v : Str) (h : goOperand s = some (v, [])) :
    goExpr (n + 1) s = some v := by
  simp only [goExpr, h]

/-- The operands after the first one. -/
theorem goExpr_parts (parts : List Str) (part : Str) (n : Nat) (hn : 2 * parts.length < n)
    (hp : '`' ∉ part) (hps : ∀ p ∈ parts, '`' ∉ p) (hs : part.all goSourceChar = true)
    (hss : ∀ p ∈ parts, p.all goSourceChar = true) (s : Str)
    (hb : skipBlanks s = '`' :: (part ++ '`' :: parts.flatMap tickedPart)) :
    goExpr n s = some ((part ++ parts.flatMap ('`' :: ·)).filter (· ≠ '\r')) := by
  induction parts generalizing part n s with
  | nil =>
    obtain ⟨m, rfl⟩ : ∃ m, n = m + 1 := ⟨n - 1, by simp at hn; omega⟩
    have := (goOperand_raw _ _ hb).trans (readRaw_part part _ hp hs)
    rw [goExpr_last _ _ _ this]
    simp
  | cons q qs ih =>
    obtain ⟨m, rfl⟩ : ∃ m, n = m + 1 + 1 := ⟨n - 2, by simp at hn; omega⟩
    have h1 := (goOperand_raw _ _ hb).trans (readRaw_part part _ hp hs)
    rw [tickedPart_cons] at h1
    rw [goExpr_plus _ _ _ _ h1, goExpr_plus _ _ _ _ (goOperand_tick _)]
    rw [ih q m (by simp at hn ⊢; omega) (hps q (by simp)) (fun p h => hps p (by simp [h]))
      (hss q (by simp)) (fun p h => hss p (by simp [h])) _ (by simp [skipBlanks])]
    simp

theorem tick_split (text : Str) (p : Str) (ps : List Str) (h : splitChar '`' text = p :: ps) :
    p ++ ps.flatMap ('`' :: ·) = text := by
  have := joinWith_splitChar '`' text
  rw [h] at this
  rw [← this]
  clear h this
  induction ps generalizing p with
  | nil => simp [joinWith]
  | cons q qs ih => simp [joinWith, ← ih q]

/-! ### Comments -/

theorem splitlinesAux_line (acc : Option Str) (l : Str) (hl : ∀ c ∈ l, isLineBreak c = false)
    (rest : Str) (hne : l ≠ []) :
    splitlinesAux acc (l ++ '\n' :: rest) = (acc.getD [] ++ l) :: splitlinesAux none rest := by
  induction l generalizing acc with
  | nil => exact absurd rfl hne
  | cons c cs ih =>
    have hc := hl c (by simp)
    have hcr : c ≠ '\r' := by rintro rfl; simp [isLineBreak] at hc
    have e : splitlinesAux acc (c :: (cs ++ '\n' :: rest)) =
        splitlinesAux (some (acc.getD [] ++ [c])) (cs ++ '\n' :: rest) := by
      cases acc <;> simp [splitlinesAux, hc, hcr]
    rw [List.cons_append, e]
    by_cases hcs : cs = []
    · subst hcs
      simp [splitlinesAux, isLineBreak]
    · rw [ih _ (fun d hd => hl d (by simp [hd])) hcs]
      simp

theorem splitlinesAux_last (acc : Option Str) (l : Str) (hl : ∀ c ∈ l, isLineBreak c = false)
    (hne : l ≠ []) : splitlinesAux acc l = [acc.getD [] ++ l] := by
  induction l generalizing acc with
  | nil => exact absurd rfl hne
  | cons c cs ih =>
    have hc := hl c (by simp)
    have hcr : c ≠ '\r' := by rintro rfl; simp [isLineBreak] at hc
    have e : splitlinesAux acc (c :: cs) = splitlinesAux (some (acc.getD [] ++ [c])) cs := by
      cases acc <;> simp [splitlinesAux, hc, hcr]
    rw [e]
    by_cases hcs : cs = []
    · subst hcs
      simp [splitlinesAux]
    · rw [ih _ (fun d hd => hl d (by simp [hd])) hcs]
      simp

/-- Non-empty lines without line breaks joined by `\n` are split into the same lines. -/
theorem splitlines_joinWith (ls : List Str) (hl : ∀ l ∈ ls, ∀ c ∈ l, isLineBreak c = false)
    (hne : ∀ l ∈ ls, l ≠ []) : splitlines (joinWith ['\n'] ls) = ls := by
  induction ls with
  | nil => rfl
  | cons l ls ih =>
    cases ls with
    | nil =>
      show splitlinesAux none l = _
      rw [splitlinesAux_last none l (hl l (by simp)) (hne l (by simp))]; simp
    | cons m ls =>
      show splitlinesAux none (l ++ ['\n'] ++ joinWith ['\n'] (m :: ls)) = _
      rw [List.append_assoc, List.singleton_append,
        splitlinesAux_line none l (hl l (by simp)) _ (hne l (by simp))]
      have := ih (fun l' h' => hl l' (by simp [h'])) (fun l' h' => hne l' (by simp [h']))
      unfold splitlines at this
      rw [this]; simp

theorem splitlinesAux_no_break (acc : Option Str) (s : Str)
    (hacc : ∀ c ∈ acc.getD [], isLineBreak c = false) :
    ∀ l ∈ splitlinesAux acc s, ∀ c ∈ l, isLineBreak c = false := by
  induction acc, s using splitlinesAux.induct with
  | case1 => simp [splitlinesAux]
  | case2 acc => simpa [splitlinesAux] using hacc
  | case3 acc cs ih =>
    simp only [splitlinesAux]
    intro l hl
    rcases List.mem_cons.1 hl with rfl | hl
    · exact hacc
    · exact ih (by simp) l hl
  | case4 acc c cs hn hb ih =>
    rw [splitlinesAux.eq_4 _ _ _ hn, if_pos hb]
    intro l hl
    rcases List.mem_cons.1 hl with rfl | hl
    · exact hacc
    · exact ih (by simp) l hl
  | case5 acc c cs hn hb ih =>
    rw [splitlinesAux.eq_4 _ _ _ hn, if_neg hb]
    apply ih
    intro d hd
    simp only [Option.getD_some, List.mem_append, List.mem_singleton] at hd
    rcases hd with hd | rfl
    · exact hacc d hd
    · simpa using hb

theorem splitlines_no_break (s : Str) : ∀ l ∈ splitlines s, ∀ c ∈ l, isLineBreak c = false :=
  splitlinesAux_no_break none s (by simp)

/-! ### Lines with their ends -/

theorem splitlinesKeep_flatten (s : Str) : (splitlinesKeep s).flatten = s := by
  induction s with
  | nil => rfl
  | cons c cs ih =>
    simp only [splitlinesKeep]
    split
    · split
      · rename_i h; rw [h] at ih; simp at ih; simp [← ih]
      · rename_i h; rw [h] at ih; simp at ih; simp [ih]
    · split
      · simp [ih]
      · split
        · rename_i h; rw [h] at ih; simp at ih; simp [← ih]
        · rename_i h; rw [h] at ih; simp at ih; simp [ih]

theorem stripBlocks_spec (s : Str) :
    s = (List.replicate (stripBlocks s).1 c!"    ").flatten ++ (stripBlocks s).2 ∧
    ¬ c!"    " <+: (stripBlocks s).2 := by
  induction s using stripBlocks.induct with
  | case1 a b c d cs h ih =>
    obtain ⟨rfl, rfl, rfl, rfl⟩ := h
    simp only [stripBlocks, and_self, if_true]
    constructor
    · rw [List.replicate_succ, List.flatten_cons, List.append_assoc, ← ih.1]
      rfl
    · exact ih.2
  | case2 a b c d cs h =>
    rw [stripBlocks, if_neg h]
    refine ⟨by simp, ?_⟩
    rintro ⟨t, ht⟩
    simp at ht
    exact h ⟨ht.1.symm, ht.2.1.symm, ht.2.2.1.symm, ht.2.2.2.1.symm⟩
  | case3 s h =>
    have e : stripBlocks s = (0, s) := by
      unfold stripBlocks
      split
      · rename_i a b c d cs
        exact absurd rfl (h a b c d cs)
      · rfl
    rw [e]
    refine ⟨by simp, ?_⟩
    rintro ⟨t, rfl⟩
    exact h ' ' ' ' ' ' ' ' t rfl

/-- The decomposition into blocks is unique. -/
theorem stripBlocks_unique (k : Nat) (rest : Str) (h : ¬ c!"    " <+: rest) :
    stripBlocks ((List.replicate k c!"    ").flatten ++ rest) = (k, rest) := by
  induction k with
  | zero =>
    simp only [List.replicate_zero, List.flatten_nil, List.nil_append]
    unfold stripBlocks
    split
    · rename_i a b c d cs
      rw [if_neg]
      rintro ⟨rfl, rfl, rfl, rfl⟩
      exact h ⟨cs, rfl⟩
    · rfl
  | succ k ih =>
    simp only [List.replicate_succ, List.flatten_cons, List.append_assoc]
    simp only [List.cons_append, List.nil_append]
    rw [stripBlocks]
    simp [ih]

/-! ### Margin -/

theorem commonPrefix_prefix (a b : Str) : commonPrefix a b <+: a ∧ commonPrefix a b <+: b := by
  induction a generalizing b with
  | nil => simp [commonPrefix]
  | cons x xs ih =>
    cases b with
    | nil => simp [commonPrefix]
    | cons y ys =>
      simp only [commonPrefix]
      split
      · rename_i h
        subst h
        exact ⟨(List.prefix_cons_inj x).2 (ih ys).1, (List.prefix_cons_inj x).2 (ih ys).2⟩
      · simp

theorem commonPrefix_maximal (a b p : Str) (ha : p <+: a) (hb : p <+: b) :
    p <+: commonPrefix a b := by
  induction p generalizing a b with
  | nil => simp
  | cons x p ih =>
    obtain ⟨ta, rfl⟩ := ha
    obtain ⟨tb, rfl⟩ := hb
    simp only [List.cons_append, commonPrefix, if_true]
    exact (List.prefix_cons_inj x).2 (ih _ _ (List.prefix_append _ _) (List.prefix_append _ _))

/-- Lines with something else than blanks and tabs. -/
abbrev HasText (l : Str) : Prop := l.all isBlankChar = false

theorem marginOf_none (ls : List Str) (h : marginOf ls = none) : ∀ l ∈ ls, ¬ HasText l := by
  induction ls with
  | nil => simp
  | cons l ls ih =>
    simp only [marginOf] at h
    split at h
    · rename_i hb
      intro l' hl'
      rcases List.mem_cons.1 hl' with rfl | hl'
      · simp [HasText, hb]
      · exact ih h l' hl'
    · split at h <;> simp at h

theorem prefix_takeWhile {p l : Str} (f : Char → Bool) (hp : p <+: l) (hf : ∀ c ∈ p, f c = true) :
    p <+: l.takeWhile f := by
  induction p generalizing l with
  | nil => simp
  | cons x p ih =>
    obtain ⟨t, rfl⟩ := hp
    have hx := hf x (by simp)
    simp only [List.cons_append, List.takeWhile_cons, hx, if_true]
    exact (List.prefix_cons_inj x).2 (ih (List.prefix_append _ _) (fun c hc => hf c (by simp [hc])))

theorem marginOf_some (ls : List Str) (m : Str) (h : marginOf ls = some m) :
    (∀ l ∈ ls, HasText l → m <+: l) ∧ (∀ c ∈ m, isBlankChar c = true) ∧
    (∀ p : Str, (∀ c ∈ p, isBlankChar c = true) → (∀ l ∈ ls, HasText l → p <+: l) → p <+: m) := by
  induction ls generalizing m with
  | nil => simp [marginOf] at h
  | cons l ls ih =>
    simp only [marginOf] at h
    split at h
    · rename_i hb
      obtain ⟨h1, h2, h3⟩ := ih m h
      refine ⟨?_, h2, ?_⟩
      · intro l' hl' ht
        rcases List.mem_cons.1 hl' with rfl | hl'
        · simp [HasText, hb] at ht
        · exact h1 l' hl' ht
      · intro p hp hall
        exact h3 p hp (fun l' hl' => hall l' (by simp [hl']))
    · rename_i hb
      have hb' : HasText l := by simpa [HasText] using hb
      have htw : l.takeWhile isBlankChar <+: l := List.takeWhile_prefix _
      have hblank : ∀ c ∈ l.takeWhile isBlankChar, isBlankChar c = true := by
        intro c hc
        exact List.all_eq_true.1 (List.all_takeWhile (l := l) (p := isBlankChar)) c hc
      split at h
      · rename_i hn
        simp at h
        subst h
        have hnone := marginOf_none ls hn
        refine ⟨?_, hblank, ?_⟩
        · intro l' hl' ht
          rcases List.mem_cons.1 hl' with rfl | hl'
          · exact htw
          · exact absurd ht (hnone l' hl')
        · intro p hp hall
          exact prefix_takeWhile _ (hall l (by simp) hb') hp
      · rename_i m' hm'
        simp at h
        subst h
        obtain ⟨h1, h2, h3⟩ := ih m' hm'
        have hc := commonPrefix_prefix (l.takeWhile isBlankChar) m'
        refine ⟨?_, ?_, ?_⟩
        · intro l' hl' ht
          rcases List.mem_cons.1 hl' with rfl | hl'
          · exact hc.1.trans htw
          · exact hc.2.trans (h1 l' hl' ht)
        · intro c hcm
          exact hblank c (hc.1.subset hcm)
        · intro p hp hall
          exact commonPrefix_maximal _ _ _ (prefix_takeWhile _ (hall l (by simp) hb') hp)
            (h3 p hp (fun l' hl' => hall l' (by simp [hl'])))

/-- Splitting joined lines gives back the lines. -/
theorem splitChar_joinWith (c : Char) (ls : List Str) (hne : ls ≠ []) (h : ∀ l ∈ ls, c ∉ l) :
    splitChar c (joinWith [c] ls) = ls := by
  have key : ∀ (l rest : Str), c ∉ l → splitChar c (l ++ c :: rest) = l :: splitChar c rest := by
    intro l rest hl
    induction l with
    | nil => simp [splitChar]
    | cons x xs ih =>
      simp only [List.mem_cons, not_or] at hl
      simp only [List.cons_append, splitChar, if_neg (Ne.symm hl.1), ih hl.2]
  have key' : ∀ l : Str, c ∉ l → splitChar c l = [l] := by
    intro l hl
    induction l with
    | nil => simp [splitChar]
    | cons x xs ih =>
      simp only [List.mem_cons, not_or] at hl
      simp only [splitChar, if_neg (Ne.symm hl.1), ih hl.2]
  induction ls with
  | nil => exact absurd rfl hne
  | cons l ls ih =>
    cases ls with
    | nil => exact key' l (h l (by simp))
    | cons m ls =>
      show splitChar c (l ++ [c] ++ joinWith [c] (m :: ls)) = _
      rw [List.append_assoc, List.singleton_append, key l _ (h l (by simp)),
        ih (by simp) (fun l' h' => h l' (by simp [h']))]

end Mapry.Text
