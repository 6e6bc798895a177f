import Verif.DocLemmas
import Verif.TraverseLemmas

/-!
# C35 - C38: pieces of generated text
-/

namespace Mapry.Props

open Mapry.Text
open Mapry.Literals
open Mapry.Strftime (splitlines isLineBreak)

theorem getLast?_append_ne {α : Type} (a b : List α) (h : b ≠ []) :
    (a ++ b).getLast? = b.getLast? := by
  rw [List.getLast?_append]
  cases hb : b.getLast? with
  | none => exact absurd (List.getLast?_eq_none_iff.1 hb) h
  | some x => rfl

/-! ## C35: string literals -/

/-- The C++ literal denotes the text (with the GNU extension `\e` for the escape character). -/
theorem C35_cpp_literal (text : Str) : readCpp true (escapedStr text) = some text := by
  rw [escapedStr_eq]
  simp only [List.cons_append, readCpp, if_true]
  rw [readCpp_all]
  simp [readQuoted]

/-- As a `std::string` (or as a key of a JSON value) it is the text up to the first NUL character;
so it is the text iff there is no NUL in it. -/
theorem C35_cpp_string (text : Str) :
    cppString true (escapedStr text) = some (text.takeWhile (fun c => c ≠ '\x00')) ∧
    (cppString true (escapedStr text) = some text ↔ '\x00' ∉ text) := by
  have h : cppString true (escapedStr text) = some (text.takeWhile (fun c => c ≠ '\x00')) := by
    simp [cppString, C35_cpp_literal]
  refine ⟨h, ?_⟩
  rw [h, Option.some.injEq]
  induction text with
  | nil => simp
  | cons c cs ih =>
    have := ih (by simp [cppString, C35_cpp_literal])
    by_cases hc : c = '\x00'
    · simp [hc]
    · simp only [List.takeWhile_cons, ne_eq, hc, not_false_eq_true, decide_true, if_true,
        List.cons.injEq, true_and, List.mem_cons, not_or, Ne.symm hc]
      exact this

/-- In standard C++ (without the extension), the escape character is not written correctly. -/
theorem C35_cpp_violated_iso : readCpp false (escapedStr ['\x1b']) = none := by decide

/-- The Go literal denotes the text iff the text contains neither the escape character (`\e` is not
Go) nor a character which Go refuses in a source file (NUL, byte order mark). -/
theorem C35_go_literal (text : Str) :
    readGo (escapedStr text) = some text ↔
      ('\x1b' ∉ text ∧ '\x00' ∉ text ∧ '\ufeff' ∉ text) := by
  rw [escapedStr_eq]
  simp only [List.cons_append, readGo, if_true]
  rw [show (fun c => decide (c ≠ '\n') && goSourceChar c) = goRawChar from rfl, readGo_all]
  have : text.all goWritable = true ↔ ('\x1b' ∉ text ∧ '\x00' ∉ text ∧ '\ufeff' ∉ text) := by
    simp only [List.all_eq_true, goWritable, goSourceChar, Bool.and_eq_true, decide_eq_true_eq]
    constructor
    · intro h
      exact ⟨fun h' => (h _ h').2 rfl, fun h' => (h _ h').1.1 rfl, fun h' => (h _ h').1.2 rfl⟩
    · rintro ⟨h1, h2, h3⟩ c hc
      exact ⟨⟨fun e => h2 (e ▸ hc), fun e => h3 (e ▸ hc)⟩, fun e => h1 (e ▸ hc)⟩
  rw [← this]
  constructor
  · intro h
    by_cases hg : text.all goWritable = true
    · exact hg
    · rw [if_neg hg] at h; simp at h
  · intro h; rw [if_pos h]

/-- Violation: the escape character makes the Go code invalid. -/
theorem C35_go_violated : readGo (escapedStr ['\x1b']) = none := by decide

/-- The back-ticked Go expression denotes the text without its carriage returns. -/
theorem C35_go_ticked (text : Str) (h0 : '\x00' ∉ text) (h1 : '\ufeff' ∉ text) (n : Nat)
    (hn : 2 * text.length + 2 ≤ n) :
    goExpr n (tickedStr text) = some (text.filter (· ≠ '\r')) := by
  unfold tickedStr
  cases hs : splitChar '`' text with
  | nil => exact absurd hs (splitChar_ne_nil _ _)
  | cons p ps =>
    have htext := tick_split text p ps hs
    have hlen : ps.length ≤ text.length := by
      rw [← htext]
      have : ∀ l : List Str, l.length ≤ (l.flatMap ('`' :: ·)).length := by
        intro l
        induction l with
        | nil => simp
        | cons a l ih => simp at ih ⊢; omega
      have := this ps
      simp at this ⊢; omega
    have hgood : text.all goSourceChar = true := by
      simp only [List.all_eq_true, goSourceChar, Bool.and_eq_true, decide_eq_true_eq]
      exact fun c hc => ⟨fun e => h0 (e ▸ hc), fun e => h1 (e ▸ hc)⟩
    have hparts : p.all goSourceChar = true ∧ ∀ q ∈ ps, q.all goSourceChar = true := by
      rw [← htext, List.all_append, Bool.and_eq_true] at hgood
      refine ⟨hgood.1, ?_⟩
      intro q hq
      have h2 := List.all_eq_true.1 hgood.2
      apply List.all_eq_true.2
      intro c hc
      exact h2 c (List.mem_flatMap.2 ⟨q, hq, by simp [hc]⟩)
    have hnt : ∀ q ∈ p :: ps, '`' ∉ q := fun q hq =>
      not_mem_of_mem_splitChar '`' text q (hs ▸ hq)
    have := goExpr_parts ps p n (by omega) (hnt p (by simp)) (fun q hq => hnt q (by simp [hq]))
      hparts.1 hparts.2 (['`'] ++ p ++ ['`'] ++ ps.flatMap tickedPart) (by simp [skipBlanks])
    rw [htext] at this
    exact this

/-- Violation: a carriage return in a pattern is lost in Go. -/
theorem C35_go_ticked_violated : goExpr 10 (tickedStr c!"a\rb") = some c!"ab" := by decide

example : goExpr 20 (tickedStr c!"a`b") = some c!"a`b" := by decide
example : readGo (escapedStr c!"say \"hi\"\n\\") = some c!"say \"hi\"\n\\" := by decide

/-! ## C35: comments -/

/-- Every line of the text stays in the comment: the lines of the comment are those of the text in
order, each with the mark in front (and a blank unless the line is blank). -/
theorem C35_comment (mark : Str) (hm : mark = c!"#" ∨ mark = c!"//") (text : Str) :
    Forall₂ (fun line out => out = mark ++ [' '] ++ line ∨ (out = mark ∧ ∀ c ∈ line, isSpace c = true))
      (splitlines text) (splitlines (comment mark text)) := by
  have hmark : (∀ c ∈ mark, isLineBreak c = false) ∧ mark ≠ [] := by
    rcases hm with rfl | rfl <;> exact ⟨by decide, by decide⟩
  have hb := splitlines_no_break text
  unfold comment
  rw [splitlines_joinWith]
  · generalize splitlines text = ls
    induction ls with
    | nil => exact .nil
    | cons l ls ih =>
      refine .cons ?_ ih
      unfold commentLine
      split
      · rename_i h
        exact Or.inr ⟨rfl, fun c hc => List.all_eq_true.1 h c hc⟩
      · exact Or.inl rfl
  · intro l hl c hc
    obtain ⟨l', hl', rfl⟩ := List.mem_map.1 hl
    unfold commentLine at hc
    split at hc
    · exact hmark.1 c hc
    · simp only [List.mem_append, List.mem_singleton] at hc
      rcases hc with (hc | rfl) | hc
      · exact hmark.1 c hc
      · decide
      · exact hb l' hl' c hc
  · intro l hl
    obtain ⟨l', _, rfl⟩ := List.mem_map.1 hl
    unfold commentLine
    split
    · exact hmark.2
    · simp

/-- Joined logical lines of a C++ comment. -/
theorem logicalLines_comment (ls : List Str) (rest : List Str) (n : Nat)
    (hn : (ls ++ rest).length ≤ n) (hne : ls ≠ [])
    (hstart : ∀ l ∈ ls, c!"//" <+: l) (hlast : ∀ l, ls.getLast? = some l → l.getLast? ≠ some '\\') :
    ∃ ls', logicalLines n (ls ++ rest) = ls' ++ logicalLines (n - ls.length) rest ∧
      ∀ l ∈ ls', c!"//" <+: l := by
  induction n generalizing ls rest with
  | zero =>
    simp at hn
    exact absurd hn.1 hne
  | succ n ih =>
    match ls with
    | [] => exact absurd rfl hne
    | [l] =>
      have hl : l.getLast? ≠ some '\\' := hlast l (by simp)
      cases rest with
      | nil =>
        refine ⟨[l], ?_, by simpa using hstart⟩
        simp only [List.append_nil, logicalLines]
        cases n <;> simp [logicalLines]
      | cons m rest =>
        refine ⟨[l], ?_, by simpa using hstart⟩
        simp only [List.singleton_append, logicalLines, if_neg hl]
        simp
    | l :: m :: ls =>
      simp only [List.cons_append, logicalLines]
      by_cases hl : l.getLast? = some '\\'
      · rw [if_pos hl]
        have hstart' : ∀ x ∈ (l.dropLast ++ m) :: ls, c!"//" <+: x := by
          intro x hx
          rcases List.mem_cons.1 hx with rfl | hx
          · obtain ⟨t, ht⟩ := hstart l (by simp)
            subst ht
            have hne' : t ≠ [] := by
              rintro rfl
              simp at hl
            refine ⟨t.dropLast ++ m, ?_⟩
            rw [List.dropLast_append_of_ne_nil hne']
            simp
          · exact hstart x (by simp [hx])
        have hlast' : ∀ x, ((l.dropLast ++ m) :: ls).getLast? = some x → x.getLast? ≠ some '\\' := by
          intro x hx
          cases ls with
          | nil =>
            simp at hx
            subst hx
            have := hlast m (by simp)
            obtain ⟨t, ht⟩ := hstart m (by simp)
            subst ht
            rw [getLast?_append_ne _ _ (by simp)]
            exact this
          | cons k ks =>
            rw [List.getLast?_cons_cons] at hx
            exact hlast x (by rw [List.getLast?_cons_cons, List.getLast?_cons_cons]; exact hx)
        obtain ⟨ls', h1, h2⟩ := ih ((l.dropLast ++ m) :: ls) rest
          (by simp at hn ⊢; omega) (by simp) hstart' hlast'
        refine ⟨ls', ?_, h2⟩
        rw [List.cons_append] at h1
        rw [h1]
        simp
      · rw [if_neg hl]
        obtain ⟨ls', h1, h2⟩ := ih (m :: ls) rest (by simp at hn ⊢; omega) (by simp)
          (fun x hx => hstart x (by simp [List.mem_cons.1 hx]))
          (fun x hx => hlast x (by rw [List.getLast?_cons_cons]; exact hx))
        refine ⟨l :: ls', ?_, ?_⟩
        · rw [List.cons_append] at h1
          rw [h1]
          simp
        · intro x hx
          rcases List.mem_cons.1 hx with rfl | hx
          · exact hstart _ (by simp)
          · exact h2 x hx

theorem logicalLines_enough (ls : List Str) (n : Nat) (h : ls.length ≤ n) :
    logicalLines n ls = logicalLines ls.length ls := by
  induction n generalizing ls with
  | zero => simp at h; subst h; rfl
  | succ n ih =>
    match ls with
    | [] => rfl
    | [l] => rfl
    | l :: m :: ls =>
      simp only [logicalLines, List.length_cons]
      simp only [List.length_cons] at h
      rw [ih ((l.dropLast ++ m) :: ls) (by simp; omega), ih (m :: ls) (by simp; omega)]
      rfl

/-- In C++, where a backslash at the end of a line continues the line, the code after the comment is
untouched, provided that the last line of the text does not end in a backslash. -/
theorem C35_cpp_comment (text rest : Str) (hne : splitlines text ≠ [])
    (hlast : ∀ l, (splitlines text).getLast? = some l → l.getLast? ≠ some '\\') :
    cppCodeLines (comment c!"//" text ++ ['\n'] ++ rest) = cppCodeLines rest := by
  have hsplit : splitChar '\n' (comment c!"//" text ++ ['\n'] ++ rest) =
      (splitlines text).map (commentLine c!"//") ++ splitChar '\n' rest := by
    have hjoin : comment c!"//" text ++ ['\n'] ++ rest =
        joinWith ['\n'] ((splitlines text).map (commentLine c!"//") ++ splitChar '\n' rest) := by
      have : ∀ (a b : List Str), a ≠ [] → b ≠ [] →
          joinWith ['\n'] (a ++ b) = joinWith ['\n'] a ++ ['\n'] ++ joinWith ['\n'] b := by
        intro a b ha hb
        induction a with
        | nil => exact absurd rfl ha
        | cons x xs ih =>
          cases xs with
          | nil =>
            cases b with
            | nil => exact absurd rfl hb
            | cons y ys => simp [joinWith]
          | cons y ys =>
            simp only [List.cons_append, joinWith]
            rw [← List.cons_append, ih (by simp)]
            simp [List.append_assoc]
      rw [this _ _ (by simpa using hne) (splitChar_ne_nil _ _), joinWith_splitChar]
      rfl
    rw [hjoin, splitChar_joinWith]
    · simp [hne]
    · intro l hl
      rcases List.mem_append.1 hl with hl | hl
      · obtain ⟨l', hl', rfl⟩ := List.mem_map.1 hl
        unfold commentLine
        have hb := splitlines_no_break text l' hl'
        split
        · decide
        · simp only [List.mem_append, List.mem_singleton, not_or]
          refine ⟨⟨by decide, by decide⟩, ?_⟩
          intro h
          have := hb _ h
          simp [isLineBreak] at this
      · exact not_mem_of_mem_splitChar '\n' rest l hl
  have hcl : ∀ l', commentLine c!"//" l' = c!"//" ∨ commentLine c!"//" l' = c!"// " ++ l' := by
    intro l'
    unfold commentLine
    split
    · exact Or.inl rfl
    · exact Or.inr (by simp)
  have hstart : ∀ l ∈ (splitlines text).map (commentLine c!"//"), c!"//" <+: l := by
    intro l hl
    obtain ⟨l', _, rfl⟩ := List.mem_map.1 hl
    rcases hcl l' with h | h
    · rw [h]; exact List.prefix_refl _
    · rw [h]; exact ⟨' ' :: l', rfl⟩
  have hlast' : ∀ l, ((splitlines text).map (commentLine c!"//")).getLast? = some l →
      l.getLast? ≠ some '\\' := by
    intro l hl
    rw [List.getLast?_map, Option.map_eq_some_iff] at hl
    obtain ⟨l', hl', rfl⟩ := hl
    rcases hcl l' with h | h
    · rw [h]; decide
    · rw [h]
      have := hlast l' hl'
      cases l' with
      | nil => decide
      | cons c cs => rw [getLast?_append_ne _ _ (by simp)]; exact this
  have hne' : (splitlines text).map (commentLine c!"//") ≠ [] := by simpa using hne
  unfold cppCodeLines
  simp only [hsplit]
  obtain ⟨ls', h1, h2⟩ := logicalLines_comment _ (splitChar '\n' rest) _ (Nat.le_refl _) hne'
    hstart hlast'
  rw [h1, List.filter_append]
  have h3 : ls'.filter (fun l => !c!"//".isPrefixOf l) = [] := by
    rw [List.filter_eq_nil_iff]
    intro l hl
    simp [List.isPrefixOf_iff_prefix.2 (h2 l hl)]
  rw [h3, List.nil_append, logicalLines_enough _ _ (by simp)]

/-- Violation without the proviso: a text ending in a backslash swallows the code after it. -/
theorem C35_cpp_comment_violated :
    cppCodeLines (comment c!"//" c!"a \\" ++ ['\n'] ++ c!"int x;") = [] ∧
    cppCodeLines c!"int x;" = [c!"int x;"] := by decide

/-- The pattern of descriptions, `^[a-z]+.*\.$` (`/repo/mapry/schemas.py`), as read by `re.search`
(`.` is any character but `\n`; `$` also matches before a final `\n`). -/
def IsDescription (text : Str) : Prop :=
  ∃ start body : Str, start ≠ [] ∧ (∀ c ∈ start, c.isLower = true) ∧ '\n' ∉ body ∧
    (text = start ++ body ++ ['.'] ∨ text = start ++ body ++ c!".\n")

theorem splitlinesAux_getLast (acc : Option Str) (s : Str) (d : Char) (hd : isLineBreak d = false)
    (nl : Bool) :
    ∃ l, (Strftime.splitlinesAux acc (s ++ d :: (if nl then ['\n'] else []))).getLast? =
      some (l ++ [d]) := by
  have hdr : d ≠ '\r' := by rintro rfl; simp [isLineBreak] at hd
  have hdn : d ≠ '\n' := by rintro rfl; simp [isLineBreak] at hd
  induction acc, s using Strftime.splitlinesAux.induct with
  | case1 =>
    refine ⟨[], ?_⟩
    have hn : isLineBreak '\n' = true := by decide
    cases nl <;> simp [Strftime.splitlinesAux, hd, hdr, hn]
  | case2 acc =>
    refine ⟨acc, ?_⟩
    have hn : isLineBreak '\n' = true := by decide
    cases nl <;> simp [Strftime.splitlinesAux, hd, hdr, hn]
  | case3 acc cs ih =>
    obtain ⟨l, hl⟩ := ih
    refine ⟨l, ?_⟩
    simp only [List.cons_append, Strftime.splitlinesAux]
    rw [List.getLast?_cons, hl]
    rfl
  | case4 acc c cs hn hb ih =>
    obtain ⟨l, hl⟩ := ih
    refine ⟨l, ?_⟩
    rw [List.cons_append, Strftime.splitlinesAux.eq_4, if_pos hb, List.getLast?_cons, hl]
    · rfl
    · intro cs1 h1 h2
      cases cs with
      | nil => simp at h2; exact hdn h2.1
      | cons x xs =>
        simp at h2
        exact hn xs h1 (by rw [h2.1])
  | case5 acc c cs hn hb ih =>
    obtain ⟨l, hl⟩ := ih
    refine ⟨l, ?_⟩
    rw [List.cons_append, Strftime.splitlinesAux.eq_4, if_neg hb, hl]
    intro cs1 h1 h2
    cases cs with
    | nil => simp at h2; exact hdn h2.1
    | cons x xs =>
      simp at h2
      exact hn xs h1 (by rw [h2.1])

theorem description_last_line (text : Str) (h : IsDescription text) :
    ∃ l, (splitlines text).getLast? = some (l ++ ['.']) := by
  obtain ⟨start, body, _, _, _, h | h⟩ := h
  · obtain ⟨l, hl⟩ := splitlinesAux_getLast none (start ++ body) '.' (by decide) false
    exact ⟨l, by rw [h]; exact hl⟩
  · obtain ⟨l, hl⟩ := splitlinesAux_getLast none (start ++ body) '.' (by decide) true
    exact ⟨l, by rw [h]; exact hl⟩

/-- The descriptions admitted by the schema are safe in C++ comments. -/
theorem C35_cpp_comment_description (text rest : Str) (h : IsDescription text) :
    cppCodeLines (comment c!"//" text ++ ['\n'] ++ rest) = cppCodeLines rest := by
  obtain ⟨l, hl⟩ := description_last_line text h
  refine C35_cpp_comment text rest ?_ ?_
  · intro h'; rw [h'] at hl; simp at hl
  · intro m hm
    rw [hl] at hm
    simp at hm
    subst hm
    simp

example : IsDescription c!"defines a \\ thing." :=
  ⟨c!"defines", c!" a \\ thing", by decide, by decide, by decide, Or.inl (by decide)⟩

/-! ## C35: docstrings -/

/-- The docstring literal denotes the text (enclosed in line breaks if it has several lines), provided
that it is written on several lines or ends neither in a quote nor in a backslash. Carriage returns
are normalised by Python, hence excluded. -/
theorem C35_docstring (text : Str) (hne : text ≠ []) (hcr : '\r' ∉ text)
    (hend : (splitlines text).length > 1 ∨
      (text.getLast? ≠ some '"' ∧ text.getLast? ≠ some '\\')) :
    ∃ literal, docstring text = .ok literal ∧
      readPy literal = some (if (splitlines text).length > 1 then ['\n'] ++ text ++ ['\n'] else text) := by
  unfold docstring
  rw [if_neg hne]
  refine ⟨_, rfl, ?_⟩
  have hmem : ∀ s : Str, '\r' ∉ s → readPy s = readPyNormalized s := by
    intro s hs
    rw [readPy, normalizeNewlines_id s hs]
  have hesc := not_mem_docEscape text hcr
  unfold docEscape at hesc
  by_cases hlines : (splitlines text).length > 1
  · rw [if_pos hlines, if_pos hlines]
    by_cases htriple : isInfixB c!"\"\"\"" text = true
    · simp only [htriple, if_true, Bool.not_true, Bool.false_and, Bool.false_eq_true, if_false]
      rw [hmem _ (by simp only [List.mem_append, not_or]; exact ⟨⟨⟨by decide, by decide⟩, hesc⟩, by decide⟩)]
      show readTriple false ('\n' :: (docEscape text ++ c!"\n\"\"\"")) = _
      rw [readTriple_plain _ _ _ (by decide) (by simp),
        readTriple_escaped text _ _ .newline (Or.inl rfl)]
      rfl
    · simp only [htriple, Bool.not_false, Bool.true_and]
      have hinf : ¬ c!"\"\"\"" <:+: text := fun h => htriple ((isInfixB_iff _ _).2 h)
      by_cases hbs : text.contains '\\' = true
      · simp only [hbs, if_true]
        rw [hmem _ (by simp only [List.mem_append, not_or]; exact ⟨⟨⟨by decide, by decide⟩, hcr⟩, by decide⟩)]
        show readTriple true ('\n' :: (text ++ c!"\n\"\"\"")) = _
        rw [readTriple_plain _ _ _ (by decide) (by simp),
          readTriple_raw text _ _ .newline hinf (Or.inl rfl)]
        rfl
      · simp only [hbs]
        have hbs' : '\\' ∉ text := by simpa using hbs
        rw [hmem _ (by simp only [List.mem_append, not_or]; exact ⟨⟨⟨by decide, by decide⟩, hcr⟩, by decide⟩)]
        show readTriple false ('\n' :: (text ++ c!"\n\"\"\"")) = _
        rw [readTriple_plain _ _ _ (by decide) (by simp),
          readTriple_text false text _ _ .newline hbs' hinf (Or.inl rfl)]
        rfl
  · rw [if_neg hlines, if_neg hlines]
    have hend' := hend.resolve_left hlines
    by_cases htriple : isInfixB c!"\"\"\"" text = true
    · simp only [htriple, if_true, Bool.not_true, Bool.false_and, Bool.false_eq_true, if_false]
      rw [hmem _ (by simp only [List.mem_append, not_or]; exact ⟨⟨⟨by decide, by decide⟩, hesc⟩, by decide⟩)]
      show readTriple false (docEscape text ++ c!"\"\"\"") = _
      rw [readTriple_escaped text _ _ .same (Or.inr hend'.1)]
      simp
    · simp only [htriple, Bool.not_false, Bool.true_and]
      have hinf : ¬ c!"\"\"\"" <:+: text := fun h => htriple ((isInfixB_iff _ _).2 h)
      by_cases hbs : text.contains '\\' = true
      · simp only [hbs, if_true]
        rw [hmem _ (by simp only [List.mem_append, not_or]; exact ⟨⟨⟨by decide, by decide⟩, hcr⟩, by decide⟩)]
        show readTriple true (text ++ c!"\"\"\"") = _
        rw [readTriple_raw text _ _ .same hinf (Or.inr hend')]
        simp
      · simp only [hbs]
        have hbs' : '\\' ∉ text := by simpa using hbs
        rw [hmem _ (by simp only [List.mem_append, not_or]; exact ⟨⟨⟨by decide, by decide⟩, hcr⟩, by decide⟩)]
        show readTriple false (text ++ c!"\"\"\"") = _
        rw [readTriple_text false text _ _ .same hbs' hinf (Or.inr hend')]
        simp

/-- The descriptions admitted by the schema are written correctly as docstrings. -/
theorem C35_docstring_description (text : Str) (h : IsDescription text) (hcr : '\r' ∉ text) :
    ∃ literal value, docstring text = .ok literal ∧ readPy literal = some value ∧
      (value = text ∨ value = ['\n'] ++ text ++ ['\n']) := by
  have hne : text ≠ [] := by
    obtain ⟨start, body, _, _, _, h | h⟩ := h <;> rw [h] <;> simp
  have hlast : text.getLast? ≠ some '"' ∧ text.getLast? ≠ some '\\' := by
    obtain ⟨start, body, _, _, _, h | h⟩ := h
    · rw [h]; simp
    · rw [h, getLast?_append_ne _ _ (by simp)]; decide
  obtain ⟨literal, h1, h2⟩ := C35_docstring text hne hcr (Or.inr hlast)
  refine ⟨literal, _, h1, h2, ?_⟩
  split
  · exact Or.inr rfl
  · exact Or.inl rfl

/-- Violations outside of the proviso: the literal is not closed properly. -/
theorem C35_docstring_violated :
    (∃ l, docstring c!"say \"hi\"" = .ok l ∧ readPy l = none) ∧
    (∃ l, docstring c!"a\\" = .ok l ∧ readPy l = none) :=
  ⟨⟨_, rfl, by decide⟩, ⟨_, rfl, by decide⟩⟩

example : (docstring c!"say \"\"\"hi\"\"\" \\.").toOption.bind readPy =
    some c!"say \"\"\"hi\"\"\" \\." := by decide

/-! ## C36 -/

/-- `new` is `old` with its `k` leading blocks of four blanks replaced by `k + level` indentions. -/
def ReindentedLine (level : Nat) (indention old new : Str) : Prop :=
  ∃ (k : Nat) (rest : Str), ¬ c!"    " <+: rest ∧
    old = (List.replicate k c!"    ").flatten ++ rest ∧
    new = (List.replicate (k + level) indention).flatten ++ rest

/-- `new` is `old` without the margin; lines of blanks and tabs are emptied. -/
def DedentedLine (margin old new : Str) : Prop :=
  (old.all isBlankChar = true ∧ new = []) ∨ (old.all isBlankChar = false ∧ old = margin ++ new)

/-- `margin` is the longest string of blanks and tabs at the start of every line with some text. -/
def IsMargin (lines : List Str) (margin : Str) : Prop :=
  (∀ c ∈ margin, c = ' ' ∨ c = '\t') ∧
  (∀ l ∈ lines, l.all isBlankChar = false → margin <+: l) ∧
  (∀ p : Str, (∀ c ∈ p, c = ' ' ∨ c = '\t') → (∃ l ∈ lines, l.all isBlankChar = false) →
    (∀ l ∈ lines, l.all isBlankChar = false → p <+: l) → p <+: margin)

theorem isBlankChar_iff (c : Char) : isBlankChar c = true ↔ c = ' ' ∨ c = '\t' := by
  simp [isBlankChar]

/-- Removing the margin: line by line (lines end with `\n`). -/
theorem C36_dedent (text : Str) :
    ∃ margin, IsMargin (splitChar '\n' text) margin ∧
      Forall₂ (DedentedLine margin) (splitChar '\n' text) (splitChar '\n' (dedent text)) := by
  refine ⟨(marginOf (splitChar '\n' text)).getD [], ?_, ?_⟩
  · cases hm : marginOf (splitChar '\n' text) with
    | none =>
      have := marginOf_none _ hm
      refine ⟨by simp, ?_, ?_⟩
      · intro l hl ht; exact absurd ht (this l hl)
      · rintro p _ ⟨l, hl, ht⟩ _; exact absurd ht (this l hl)
    | some m =>
      obtain ⟨h1, h2, h3⟩ := marginOf_some _ _ hm
      refine ⟨fun c hc => (isBlankChar_iff c).1 (h2 c hc), h1, ?_⟩
      intro p hp _ hall
      exact h3 p (fun c hc => (isBlankChar_iff c).2 (hp c hc)) hall
  · have hprefix : ∀ l ∈ splitChar '\n' text, l.all isBlankChar = false →
        (marginOf (splitChar '\n' text)).getD [] <+: l := by
      cases hm : marginOf (splitChar '\n' text) with
      | none => intro l hl ht; simp
      | some m => exact (marginOf_some _ _ hm).1
    have hnl : ∀ l ∈ splitChar '\n' text, '\n' ∉ l := fun l hl =>
      not_mem_of_mem_splitChar '\n' text l hl
    unfold dedent
    simp only
    generalize (marginOf (splitChar '\n' text)).getD [] = margin at hprefix
    rw [splitChar_joinWith]
    · generalize splitChar '\n' text = ls at hprefix
      clear hnl
      induction ls with
      | nil => exact .nil
      | cons l ls ih =>
        refine .cons ?_ (ih (fun l' hl' => hprefix l' (by simp [hl'])))
        by_cases hb : l.all isBlankChar = true
        · exact Or.inl ⟨hb, by simp [dedentLine, hb]⟩
        · right
          have hb' : l.all isBlankChar = false := by simpa using hb
          refine ⟨hb', ?_⟩
          obtain ⟨t, ht⟩ := hprefix l (by simp) hb'
          unfold dedentLine
          rw [if_neg hb, ← ht, List.drop_left]
    · simpa using splitChar_ne_nil _ _
    · intro l hl
      obtain ⟨l', hl', rfl⟩ := List.mem_map.1 hl
      unfold dedentLine
      split
      · simp
      · intro h
        exact hnl l' hl' (List.mem_of_mem_drop h)

/-- Re-indentation changes nothing but the leading blocks of four blanks of the dedented lines (with
the line ends of Python's `splitlines`). -/
theorem C36_reindent (text : Str) (level : Nat) (indention : Str) :
    ∃ newLines, reindent text level indention = newLines.flatten ∧
      (splitlinesKeep (dedent text)).flatten = dedent text ∧
      Forall₂ (ReindentedLine level indention) (splitlinesKeep (dedent text)) newLines := by
  refine ⟨_, rfl, splitlinesKeep_flatten _, ?_⟩
  generalize splitlinesKeep (dedent text) = ls
  induction ls with
  | nil => exact .nil
  | cons l ls ih =>
    exact .cons ⟨_, _, (stripBlocks_spec l).2, (stripBlocks_spec l).1, rfl⟩ ih

/-- The result of re-indenting a line is determined by the specification. -/
theorem C36_line_unique (level : Nat) (indention old new new' : Str)
    (h : ReindentedLine level indention old new) (h' : ReindentedLine level indention old new') :
    new = new' := by
  obtain ⟨k, rest, hr, ho, hn⟩ := h
  obtain ⟨k', rest', hr', ho', hn'⟩ := h'
  have e1 := stripBlocks_unique k rest hr
  have e2 := stripBlocks_unique k' rest' hr'
  rw [← ho] at e1
  rw [← ho'] at e2
  rw [e1] at e2
  simp at e2
  rw [hn, hn', e2.1, e2.2]

theorem dedent_id (text : Str) (hm : (marginOf (splitChar '\n' text)).getD [] = [])
    (hblank : ∀ l ∈ splitChar '\n' text, l.all isBlankChar = true → l = []) :
    dedent text = text := by
  unfold dedent
  simp only [hm]
  have : (splitChar '\n' text).map (dedentLine []) = splitChar '\n' text := by
    rw [List.map_congr_left (g := id)]
    · simp
    · intro l hl
      unfold dedentLine
      split
      · rename_i h; rw [hblank l hl h]; rfl
      · simp
  rw [this, joinWith_splitChar]

/-- With the default indention and level, a text without a common margin and without lines of mere
blanks is left as it is. -/
theorem C36_identity (text : Str) (hm : IsMargin (splitChar '\n' text) [])
    (hblank : ∀ l ∈ splitChar '\n' text, l.all isBlankChar = true → l = []) :
    reindent text 0 c!"    " = text := by
  have hm' : (marginOf (splitChar '\n' text)).getD [] = [] := by
    cases h : marginOf (splitChar '\n' text) with
    | none => rfl
    | some m =>
      obtain ⟨h1, h2, h3⟩ := marginOf_some _ _ h
      by_cases hex : ∃ l ∈ splitChar '\n' text, l.all isBlankChar = false
      · have := hm.2.2 m (fun c hc => (isBlankChar_iff c).1 (h2 c hc)) hex h1
        simpa using this
      · exfalso
        have : ∀ ls : List Str, (∀ l ∈ ls, ¬ l.all isBlankChar = false) → marginOf ls = none := by
          intro ls
          induction ls with
          | nil => intro _; rfl
          | cons l ls ih =>
            intro hall
            have hl := hall l (by simp)
            simp only [Bool.not_eq_false] at hl
            rw [marginOf, if_pos hl, ih (fun l' hl' => hall l' (by simp [hl']))]
        rw [this _ (fun l hl hf => hex ⟨l, hl, hf⟩)] at h
        simp at h
  unfold reindent
  rw [dedent_id text hm' hblank]
  have hid : ∀ l : Str, reindentLine 0 c!"    " l = l := by
    intro l
    unfold reindentLine
    rw [Nat.add_zero]
    exact (stripBlocks_spec l).1.symm
  rw [List.map_congr_left (g := id) (fun l _ => hid l), List.map_id, splitlinesKeep_flatten]

example : reindent c!"    a:\n        b\n" 1 c!"\t" = c!"\ta:\n\t\tb\n" := by decide
example : IsMargin (splitChar '\n' c!"a\n    b") [] := by
  refine ⟨by simp, by simp, ?_⟩
  intro p _ _ hall
  have := hall c!"a" (by decide) (by decide)
  rcases p with _ | ⟨x, xs⟩
  · simp
  · rename_i hp
    obtain ⟨t, ht⟩ := this
    simp at ht
    have := hp x (by simp)
    rw [ht.1] at this
    simp at this

/-- Disagreement with the lines of the target languages, which end only at `\n` (and `\r`): a line
separator inside of a string literal followed by four blanks is taken for a line start, and the
content of the literal is changed. -/
theorem C36_literal_changed_by_reindent :
    splitChar '\n' c!"x := \"a\u2028    b\"" = [c!"x := \"a\u2028    b\""] ∧
    reindent c!"x := \"a\u2028    b\"" 0 c!"\t" = c!"x := \"a\u2028\tb\"" := by decide

theorem splitlinesKeep_line (l rest : Str) (h : ∀ c ∈ l, isLineBreak c = false) :
    splitlinesKeep (l ++ '\n' :: rest) = (l ++ ['\n']) :: splitlinesKeep rest := by
  induction l with
  | nil =>
    rw [List.nil_append, splitlinesKeep.eq_def]
    have : isLineBreak '\n' = true := by decide
    simp [this]
  | cons c cs ih =>
    have hc := h c (by simp)
    have hcr : c ≠ '\r' := by rintro rfl; simp [isLineBreak] at hc
    rw [List.cons_append, splitlinesKeep.eq_def]
    simp [hcr, hc, ih (fun d hd => h d (by simp [hd]))]

theorem splitlinesKeep_last (l : Str) (h : ∀ c ∈ l, isLineBreak c = false) :
    splitlinesKeep l = if l = [] then [] else [l] := by
  induction l with
  | nil => rfl
  | cons c cs ih =>
    have hc := h c (by simp)
    have hcr : c ≠ '\r' := by rintro rfl; simp [isLineBreak] at hc
    rw [splitlinesKeep.eq_def]
    simp only [hcr, false_and, if_false, hc, ih (fun d hd => h d (by simp [hd]))]
    by_cases hcs : cs = [] <;> simp [hcs]

theorem reindentLine_newline (level : Nat) (indention l : Str) :
    reindentLine level indention (l ++ ['\n']) = reindentLine level indention l ++ ['\n'] := by
  obtain ⟨h1, h2⟩ := stripBlocks_spec l
  have h2' : ¬ c!"    " <+: (stripBlocks l).2 ++ ['\n'] := by
    intro hp
    apply h2
    rcases List.prefix_concat_iff.1 hp with h | h
    · have := congrArg List.getLast? h
      simp at this
    · exact h
  have := stripBlocks_unique (stripBlocks l).1 _ h2'
  rw [← List.append_assoc, ← h1] at this
  unfold reindentLine
  rw [this, List.append_assoc]

/-- For a text whose only line breaks are `\n` (in particular no other line separator within a string
literal), the lines of the target language are re-indented one by one: nothing behind the leading
blocks of blanks is changed. The generators call `reindent` with level zero. -/
theorem C36_target_lines (text indention : Str) (hind : '\n' ∉ indention)
    (hbreaks : ∀ c ∈ dedent text, isLineBreak c = true → c = '\n') :
    Forall₂ (ReindentedLine 0 indention) (splitChar '\n' (dedent text))
      (splitChar '\n' (reindent text 0 indention)) := by
  have hclean : ∀ l ∈ splitChar '\n' (dedent text), ∀ c ∈ l, isLineBreak c = false := by
    intro l hl c hc
    have hmem : ∀ (ls : List Str) (l : Str), l ∈ ls → ∀ c ∈ l, c ∈ joinWith ['\n'] ls := by
      intro ls
      induction ls with
      | nil => simp
      | cons x xs ih =>
        intro l hl c hc
        cases xs with
        | nil => simp at hl; subst hl; exact hc
        | cons y ys =>
          show c ∈ x ++ ['\n'] ++ joinWith ['\n'] (y :: ys)
          rcases List.mem_cons.1 hl with rfl | hl
          · simp [hc]
          · exact List.mem_append_right _ (ih l hl c hc)
    have hcd : c ∈ dedent text := by
      rw [← joinWith_splitChar '\n' (dedent text)]
      exact hmem _ l hl c hc
    have hne : c ≠ '\n' := by
      rintro rfl
      exact not_mem_of_mem_splitChar '\n' _ l hl hc
    cases hb : isLineBreak c with
    | false => rfl
    | true => exact absurd (hbreaks c hcd hb) hne
  have hnl : ∀ l : Str, '\n' ∉ l → '\n' ∉ reindentLine 0 indention l := by
    intro l hl
    unfold reindentLine
    simp only [List.mem_append, not_or, List.mem_flatten, not_exists, not_and]
    constructor
    · intro x hx
      rw [List.eq_of_mem_replicate hx]
      exact hind
    · intro h
      apply hl
      rw [(stripBlocks_spec l).1]
      exact List.mem_append_right _ h
  have key : ∀ ls : List Str, ls ≠ [] → (∀ l ∈ ls, ∀ c ∈ l, isLineBreak c = false) →
      (∀ l ∈ ls, '\n' ∉ l) →
      ((splitlinesKeep (joinWith ['\n'] ls)).map (reindentLine 0 indention)).flatten =
        joinWith ['\n'] (ls.map (reindentLine 0 indention)) := by
    intro ls
    induction ls with
    | nil => intro h; exact absurd rfl h
    | cons l ls ih =>
      intro _ hc hn
      cases ls with
      | nil =>
        show ((splitlinesKeep l).map _).flatten = reindentLine 0 indention l
        rw [splitlinesKeep_last l (hc l (by simp))]
        by_cases hl : l = []
        · subst hl; simp [reindentLine, stripBlocks]
        · simp [hl]
      | cons m ls =>
        show ((splitlinesKeep (l ++ ['\n'] ++ joinWith ['\n'] (m :: ls))).map _).flatten = _
        rw [List.append_assoc, List.singleton_append, splitlinesKeep_line l _ (hc l (by simp))]
        simp only [List.map_cons, List.flatten_cons, reindentLine_newline]
        rw [ih (by simp) (fun l' h' => hc l' (by simp [h'])) (fun l' h' => hn l' (by simp [h']))]
        rfl
  have hne := splitChar_ne_nil '\n' (dedent text)
  have hnl' : ∀ l ∈ splitChar '\n' (dedent text), '\n' ∉ l := fun l hl =>
    not_mem_of_mem_splitChar '\n' _ l hl
  have := key _ hne hclean hnl'
  rw [joinWith_splitChar] at this
  unfold reindent
  rw [this, splitChar_joinWith]
  · generalize splitChar '\n' (dedent text) = ls
    induction ls with
    | nil => exact .nil
    | cons l ls ih =>
      exact .cons ⟨_, _, (stripBlocks_spec l).2, (stripBlocks_spec l).1, rfl⟩ ih
  · simpa using hne
  · intro l hl
    obtain ⟨l', hl', rfl⟩ := List.mem_map.1 hl
    exact hnl l' (hnl' l' hl')

example : ∀ c ∈ dedent c!"  a\n      b\n", isLineBreak c = true → c = '\n' := by decide

/-! ## C37 -/

theorem natStr_injective (a b : Nat) (h : natStr a = natStr b) : a = b := by
  have := congrArg (fun s => Nat.ofDigitChars 10 s 0) h
  simpa [natStr, Nat.ofDigitChars_ten_toDigits] using this

theorem mem_requests (n : Nat) (a : AutoID) (s : Str) (h : s ∈ a.requests n) :
    ∃ m, a.next ≤ m ∧ s = natStr m := by
  induction n generalizing a with
  | zero => simp [AutoID.requests] at h
  | succ n ih =>
    rcases List.mem_cons.1 h with rfl | h
    · exact ⟨a.next, Nat.le_refl _, rfl⟩
    · obtain ⟨m, hm, hs⟩ := ih _ h
      exact ⟨m, by simp only [AutoID.nextIdentifier] at hm; omega, hs⟩

/-- The identifiers handed out by one generator are pairwise distinct and non-empty sequences of
decimal digits, for any number of requests. -/
theorem C37_identifiers_distinct (n : Nat) (a : AutoID) :
    (a.requests n).Nodup ∧ (a.requests n).length = n ∧
    ∀ s ∈ a.requests n, s ≠ [] ∧ ∀ c ∈ s, c.isDigit = true := by
  refine ⟨?_, ?_, ?_⟩
  · induction n generalizing a with
    | zero => exact .nil
    | succ n ih =>
      refine List.nodup_cons.2 ⟨?_, ih _⟩
      intro h
      obtain ⟨m, hm, hs⟩ := mem_requests n _ _ h
      simp only [AutoID.nextIdentifier] at hm hs
      have := natStr_injective _ _ hs
      omega
  · induction n generalizing a with
    | zero => rfl
    | succ n ih => simp [AutoID.requests, ih]
  · intro s hs
    obtain ⟨m, _, rfl⟩ := mem_requests n a s hs
    exact ⟨Nat.toDigits_ne_nil, fun c hc =>
      Nat.isDigit_of_mem_toDigits (by omega) (by omega) hc⟩

/-- Hence the names composed of a fixed prefix and an identifier are distinct. -/
theorem C37_names_distinct (n : Nat) (a : AutoID) (pre : Str) :
    ((a.requests n).map (pre ++ ·)).Nodup := by
  have hnd := (C37_identifiers_distinct n a).1
  generalize a.requests n = l at hnd
  induction l with
  | nil => exact .nil
  | cons x xs ih =>
    rw [List.nodup_cons] at hnd
    refine List.nodup_cons.2 ⟨?_, ih hnd.2⟩
    intro h
    obtain ⟨y, hy, e⟩ := List.mem_map.1 h
    have : y = x := List.append_cancel_left e
    subst this
    exact hnd.1 hy

example : ({} : AutoID).requests 3 = [c!"0", c!"1", c!"2"] := by decide

/-! ## C38 -/

theorem insert_optional (p : Property) (rs os : List Property)
    (hr : ∀ q ∈ rs, q.optional = false) (ho : ∀ q ∈ os, q.optional = true) :
    Traverse.insertSorted (fun p q => !p.optional || q.optional) p (rs ++ os) =
      if p.optional then rs ++ p :: os else p :: rs ++ os := by
  induction rs with
  | nil =>
    cases os with
    | nil => cases h : p.optional <;> simp [Traverse.insertSorted]
    | cons q qs =>
      have := ho q (by simp)
      cases h : p.optional <;> simp [Traverse.insertSorted, h, this]
  | cons q qs ih =>
    have hq := hr q (by simp)
    have ih' := ih (fun x hx => hr x (by simp [hx]))
    cases h : p.optional
    · simp [Traverse.insertSorted, h]
    · simp [Traverse.insertSorted, h, hq, ih']

/-- All required properties come first, all optional ones follow, both in the order of the schema. -/
theorem C38_order_by_optional (ps : List Property) :
    orderByOptional ps = ps.filter (fun p => !p.optional) ++ ps.filter (fun p => p.optional) := by
  induction ps with
  | nil => rfl
  | cons p ps ih =>
    show Traverse.insertSorted _ p (orderByOptional ps) = _
    rw [ih, insert_optional]
    · cases h : p.optional <;> simp [h]
    · intro q hq; simpa using (List.mem_filter.1 hq).2
    · intro q hq; simpa using (List.mem_filter.1 hq).2

/-- In particular no property is lost or duplicated. -/
theorem C38_permutation (ps : List Property) : (orderByOptional ps).Perm ps :=
  Traverse.sortBy_perm _ _

example : (orderByOptional
    [{ name := c!"a", json := c!"a", ty := .boolean, optional := true },
     { name := c!"b", json := c!"b", ty := .boolean },
     { name := c!"c", json := c!"c", ty := .boolean }]).map Property.name =
    [c!"b", c!"c", c!"a"] := by decide

end Mapry.Props
