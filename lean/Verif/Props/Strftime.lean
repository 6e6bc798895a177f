import Verif.StrftimeLemmas

/-! # C04, C05: date/time formats -/

namespace Mapry.Props

open Mapry.Strftime

/-! ## Lines -/

/-- The string has no line break. -/
def NoBreak (s : Str) : Prop := ∀ c ∈ s, isLineBreak c = false

instance (s : Str) : Decidable (NoBreak s) := by unfold NoBreak; infer_instance

theorem splitlinesAux_noBreak (s acc : Str) (h : NoBreak s) :
    splitlinesAux (some acc) s = [acc ++ s] := by
  induction s generalizing acc with
  | nil => simp [splitlinesAux]
  | cons c cs ih =>
    have hc : isLineBreak c = false := h c (by simp)
    have hcr : c ≠ '\r' := by rintro rfl; revert hc; decide
    rw [splitlinesAux.eq_4 _ c cs (by rintro _ rfl; exact absurd rfl hcr)]
    simp only [hc, Bool.false_eq_true, if_false, Option.getD_some]
    rw [ih _ (fun d hd => h d (by simp [hd]))]
    simp

/-- A non-empty string without line breaks is its only line. -/
theorem splitlines_noBreak (s : Str) (h : NoBreak s) (hs : s ≠ []) : splitlines s = [s] := by
  cases s with
  | nil => exact absurd rfl hs
  | cons c cs =>
    have hc : isLineBreak c = false := h c (by simp)
    have hcr : c ≠ '\r' := by rintro rfl; revert hc; decide
    unfold splitlines
    rw [splitlinesAux.eq_4 _ c cs (by rintro _ rfl; exact absurd rfl hcr)]
    simp only [hc, Bool.false_eq_true, if_false, Option.getD_none, List.nil_append]
    rw [splitlinesAux_noBreak _ _ (fun d hd => h d (by simp [hd]))]
    simp

theorem splitlinesAux_flatten (acc : Option Str) (s : Str) :
    (splitlinesAux acc s).flatten = acc.getD [] ++ s.filter (fun c => !isLineBreak c) := by
  induction acc, s using splitlinesAux.induct with
  | case1 => simp [splitlinesAux]
  | case2 acc => simp [splitlinesAux]
  | case3 acc cs ih =>
    rw [splitlinesAux]
    have h1 : isLineBreak '\r' = true := by decide
    have h2 : isLineBreak '\n' = true := by decide
    simp [ih, h1, h2]
  | case4 acc c cs h hc ih =>
    rw [splitlinesAux.eq_4 _ c cs h]
    simp [hc, ih]
  | case5 acc c cs h hc ih =>
    rw [splitlinesAux.eq_4 _ c cs h]
    simp only [hc]
    simp [ih, hc]

/-- Splitting into lines drops the line breaks and nothing else. -/
theorem splitlines_flatten (s : Str) :
    (splitlines s).flatten = s.filter (fun c => !isLineBreak c) := by
  simp [splitlines, splitlinesAux_flatten]

/-- The lines of a text: the pieces between the line breaks, where `\r\n` is one line break and
there is no line after a line break at the very end. -/
inductive LinesOf : Str → List Str → Prop where
  | nil : LinesOf [] []
  | last (l : Str) : NoBreak l → l ≠ [] → LinesOf l [l]
  | break (l : Str) (c : Char) (rest : Str) (ls : List Str) : NoBreak l → isLineBreak c = true →
      (c = '\r' → rest.head? ≠ some '\n') → LinesOf rest ls → LinesOf (l ++ c :: rest) (l :: ls)
  | crlf (l : Str) (rest : Str) (ls : List Str) : NoBreak l → LinesOf rest ls →
      LinesOf (l ++ '\r' :: '\n' :: rest) (l :: ls)

theorem splitlinesAux_lines (acc : Option Str) (s : Str) (hacc : NoBreak (acc.getD []))
    (hne : ∀ a, acc = some a → a ≠ []) :
    LinesOf (acc.getD [] ++ s) (splitlinesAux acc s) := by
  induction acc, s using splitlinesAux.induct with
  | case1 => exact .nil
  | case2 acc =>
    simp only [splitlinesAux, Option.getD_some, List.append_nil]
    exact .last _ hacc (hne _ rfl)
  | case3 acc cs ih =>
    rw [splitlinesAux]
    exact .crlf _ _ _ hacc (by simpa using ih (by intro c hc; simp at hc) (by simp))
  | case4 acc c cs h hc ih =>
    rw [splitlinesAux.eq_4 _ c cs h, if_pos hc]
    refine .break _ _ _ _ hacc hc ?_ (by simpa using ih (by intro c hc; simp at hc) (by simp))
    rintro rfl hh
    cases cs with
    | nil => simp at hh
    | cons d ds =>
      simp only [List.head?_cons, Option.some.injEq] at hh
      subst hh
      exact h ds rfl rfl
  | case5 acc c cs h hc ih =>
    rw [splitlinesAux.eq_4 _ c cs h, if_neg hc]
    have := ih (by
      intro d hd
      simp only [Option.getD_some, List.mem_append, List.mem_singleton] at hd
      rcases hd with hd | rfl
      · exact hacc d hd
      · simpa using hc) (by intro a ha; cases ha; simp)
    simpa using this

/-- The lines of a format are what `LinesOf` says. -/
theorem C04_lines (s : Str) : LinesOf s (splitlines s) := by
  have := splitlinesAux_lines none s (by intro c hc; simp at hc) (by simp)
  simpa [splitlines] using this

example : splitlines c!"%Y\r\n\n%m\r" = [c!"%Y", [], c!"%m"] := by decide

/-! ## Unsupported directives -/

theorem foldl_insertKey (l acc : List Char) :
    l.foldl insertKey acc = acc ++ (l.filter (fun c => decide (c ∉ acc))).eraseDups := by
  induction l generalizing acc with
  | nil => simp
  | cons c cs ih =>
    simp only [List.foldl_cons, ih, insertKey]
    by_cases hc : c ∈ acc
    · simp [hc]
    · simp only [hc, if_false, not_false_eq_true, decide_true, List.filter_cons_of_pos,
        List.eraseDups_cons, List.append_assoc, List.cons_append, List.nil_append,
        List.filter_filter]
      congr 3
      apply List.filter_congr
      intro x _
      simp only [List.mem_append, List.mem_singleton, not_or]
      by_cases h1 : x ∈ acc <;> by_cases h2 : x = c <;> simp [h1, h2]

theorem unsupportedOf_eq (tss : List (List Tok)) :
    unsupportedOf tss = ((tss.flatten.filterMap Tok.directive?).filter
        (fun c => decide (c ∉ supported))).eraseDups := by
  have key : ∀ (toks : List Tok) (acc : List Char),
      toks.foldl unsupportedStep acc =
      ((toks.filterMap Tok.directive?).filter
        (fun c => decide (c ∉ supported))).foldl insertKey acc := by
    intro toks
    induction toks with
    | nil => intro acc; rfl
    | cons t ts ih =>
      intro acc
      cases t with
      | text s => simp only [List.foldl_cons, ih]; simp [List.filterMap_cons, Tok.directive?, unsupportedStep]
      | directive c =>
        simp only [List.foldl_cons, ih]
        by_cases hc : c ∈ supported <;> simp [hc, Tok.directive?, unsupportedStep]
  unfold unsupportedOf
  rw [key, foldl_insertKey, List.nil_append]
  congr 1
  rw [List.filter_eq_self]
  simp

theorem directives_lexLines (ls : List Str) (tss : List (List Tok))
    (h : Forall₂ (fun l ts => lexLine l = .ok ts) ls tss) :
    tss.flatten.filterMap Tok.directive? =
      ls.flatMap directivesOf := by
  induction h with
  | nil => rfl
  | cons h1 _ ih => simp [ih, directives_lexLine _ _ h1]

/-- The unsupported directives of a format in the order of their first occurrence. -/
def unsupportedSpec (f : Str) : List Char :=
  (((splitlines f).flatMap directivesOf).filter (fun c => decide (c ∉ supported))).eraseDups

theorem mem_unsupportedSpec (f : Str) (c : Char) :
    c ∈ unsupportedSpec f ↔ (∃ l ∈ splitlines f, c ∈ directivesOf l) ∧ c ∉ supported := by
  unfold unsupportedSpec
  rw [List.mem_eraseDups]
  simp

theorem supported_lexLetter : ∀ c ∈ supported, LexLetter c := by
  unfold LexLetter; decide

/-- What `tokenize` does, case by case. -/
theorem tokenize_cases (f : Str) :
    (∃ l ∈ splitlines f, ¬ PercentsOk LexLetter l) ∧ tokenize f = .error .lexError ∨
    (∀ l ∈ splitlines f, PercentsOk LexLetter l) ∧
      ((unsupportedSpec f ≠ [] ∧
        tokenize f = .error (.notImplemented (c!"unsupported directive(s): " ++
          joinWith c!", " ((unsupportedSpec f).map fun c => ['%', c])))) ∨
       (unsupportedSpec f = [] ∧
        ∃ tss, tokenize f = .ok tss ∧
          Forall₂ (fun l ts => lexLine l = .ok ts) (splitlines f) tss)) := by
  unfold tokenize
  cases hl : lexLines (splitlines f) with
  | error e =>
    left
    have := lexLines_error _ _ hl
    subst this
    refine ⟨?_, rfl⟩
    apply Classical.byContradiction
    intro hn
    have hall : ∀ l ∈ splitlines f, ∃ toks, lexLine l = .ok toks := by
      intro l hl'
      rw [lexLine_ok_iff]
      apply Classical.byContradiction
      intro h'
      exact hn ⟨l, hl', h'⟩
    have : ∀ ls : List Str, (∀ l ∈ ls, ∃ toks, lexLine l = .ok toks) →
        ∃ tss, lexLines ls = .ok tss := by
      intro ls
      induction ls with
      | nil => intro _; exact ⟨[], rfl⟩
      | cons l ls ih =>
        intro h
        obtain ⟨ts, hts⟩ := h l (by simp)
        obtain ⟨tss, htss⟩ := ih (fun l' hl' => h l' (by simp [hl']))
        exact ⟨ts :: tss, by simp [lexLines, hts, htss, bind, Except.bind, pure, Except.pure]⟩
    obtain ⟨tss, h'⟩ := this _ hall
    rw [hl] at h'
    simp at h'
  | ok tss =>
    right
    have h2 := (lexLines_ok_iff _ _).1 hl
    have hu : unsupportedOf tss = unsupportedSpec f := by
      rw [unsupportedOf_eq, directives_lexLines _ _ h2]; rfl
    refine ⟨?_, ?_⟩
    · intro l hl'
      rw [← lexLine_ok_iff]
      clear hl hu
      generalize splitlines f = ls at h2 hl'
      induction h2 with
      | nil => simp at hl'
      | cons h1 _ ih =>
        rcases List.mem_cons.1 hl' with rfl | hl'
        · exact ⟨_, h1⟩
        · exact ih hl'
    · simp only [bind, Except.bind, hu]
      by_cases hn : unsupportedSpec f = []
      · right; exact ⟨hn, tss, by simp [hn]; rfl, h2⟩
      · left; exact ⟨hn, by simp [hn]⟩

/-! ## C04 -/

/-- `tokenize` succeeds with `tss` iff every line of `tss` is the reading of the respective line of
the format: lossless, with maximal texts, and only with supported directives. -/
theorem C04_tokenize_ok_iff (f : Str) (tss : List (List Tok)) :
    tokenize f = .ok tss ↔ Forall₂ (IsLexing (· ∈ supported)) (splitlines f) tss := by
  have conv : ∀ (ls : List Str) (tss : List (List Tok)),
      Forall₂ (IsLexing (· ∈ supported)) ls tss ↔
        Forall₂ (fun l ts => lexLine l = .ok ts) ls tss ∧
          ∀ c ∈ ls.flatMap directivesOf, c ∈ supported := by
    intro ls tss
    constructor
    · intro h
      have h' : Forall₂ (fun l ts => lexLine l = .ok ts) ls tss := by
        induction h with
        | nil => exact .nil
        | cons h1 _ ih =>
          exact .cons (lexLine_complete _ _ ⟨h1.concat, h1.text, h1.alternating,
            fun c hc => supported_lexLetter c (h1.directive c hc)⟩) ih
      refine ⟨h', ?_⟩
      rw [← directives_lexLines _ _ h']
      clear h'
      induction h with
      | nil => simp
      | cons h1 _ ih =>
        intro c hc
        simp only [List.flatten_cons, List.filterMap_append, List.mem_append] at hc
        rcases hc with hc | hc
        · obtain ⟨t, ht, ht'⟩ := List.mem_filterMap.1 hc
          cases t with
          | text s => simp [Tok.directive?] at ht'
          | directive d => simp [Tok.directive?] at ht'; subst ht'; exact h1.directive d ht
        · exact ih c hc
    · rintro ⟨h, hs⟩
      induction h with
      | nil => exact .nil
      | cons h1 _ ih =>
        have hx := lexLine_sound _ _ h1
        refine .cons ⟨hx.concat, hx.text, hx.alternating, ?_⟩ (ih ?_)
        · intro c hc
          apply hs
          simp only [List.flatMap_cons, List.mem_append]
          left
          rw [← directives_lexLine _ _ h1]
          exact List.mem_filterMap.2 ⟨_, hc, rfl⟩
        · intro c hc
          apply hs
          simp only [List.flatMap_cons, List.mem_append]
          exact Or.inr hc
  rw [conv]
  have hspec : (∀ c ∈ (splitlines f).flatMap directivesOf, c ∈ supported) ↔
      unsupportedSpec f = [] := by
    rw [List.eq_nil_iff_forall_not_mem]
    constructor
    · intro h c hc
      rw [mem_unsupportedSpec] at hc
      exact hc.2 (h c (List.mem_flatMap.2 hc.1))
    · intro h c hc
      apply Classical.byContradiction
      intro hn
      exact h c ((mem_unsupportedSpec f c).2 ⟨List.mem_flatMap.1 hc, hn⟩)
  rw [hspec, ← lexLines_ok_iff]
  unfold tokenize
  cases hl : lexLines (splitlines f) with
  | error e => simp [bind, Except.bind]
  | ok tss' =>
    have hu : unsupportedOf tss' = unsupportedSpec f := by
      rw [unsupportedOf_eq, directives_lexLines _ _ ((lexLines_ok_iff _ _).1 hl)]; rfl
    simp only [bind, Except.bind, hu, pure, Except.pure]
    by_cases hn : unsupportedSpec f = []
    · simp [hn]
    · simp [hn]

/-- `tokenize` accepts a format iff every `%` of every line starts a supported directive. -/
theorem C04_accepts_iff (f : Str) :
    (∃ tss, tokenize f = .ok tss) ↔ ∀ l ∈ splitlines f, PercentsOk (· ∈ supported) l := by
  have hiff : (∀ l ∈ splitlines f, PercentsOk (· ∈ supported) l) ↔
      (∀ l ∈ splitlines f, PercentsOk LexLetter l) ∧ unsupportedSpec f = [] := by
    have h1 : ∀ l, PercentsOk (· ∈ supported) l ↔
        PercentsOk LexLetter l ∧ ∀ c ∈ directivesOf l, c ∈ supported := by
      intro l
      rw [percentsOk_supported]
      have : (fun c => c ∈ supported) = (fun c => LexLetter c ∧ c ∈ supported) := by
        funext c
        exact propext ⟨fun h => ⟨supported_lexLetter c h, h⟩, fun h => h.2⟩
      rw [this]
    rw [List.eq_nil_iff_forall_not_mem]
    constructor
    · intro h
      refine ⟨fun l hl => ((h1 l).1 (h l hl)).1, ?_⟩
      intro c hc
      obtain ⟨⟨l, hl, hc'⟩, hn⟩ := (mem_unsupportedSpec f c).1 hc
      exact hn (((h1 l).1 (h l hl)).2 c hc')
    · rintro ⟨h2, h3⟩ l hl
      refine (h1 l).2 ⟨h2 l hl, ?_⟩
      intro c hc
      apply Classical.byContradiction
      intro hn
      exact h3 c ((mem_unsupportedSpec f c).2 ⟨⟨l, hl, hc⟩, hn⟩)
  rw [hiff]
  rcases tokenize_cases f with ⟨⟨l, hl, hn⟩, h⟩ | ⟨h1, ⟨h2, h3⟩ | ⟨h2, tss, h3, _⟩⟩
  · rw [h]
    simp only [reduceCtorEq, exists_false, false_iff]
    intro h'
    exact hn (h'.1 l hl)
  · rw [h3]; simp [h2]
  · rw [h3]; simp [h2]; exact h1

/-- A lexer error is raised iff some `%` is not followed by a letter or `%`. -/
theorem C04_lex_error_iff (f : Str) :
    tokenize f = .error .lexError ↔ ∃ l ∈ splitlines f, ¬ PercentsOk LexLetter l := by
  rcases tokenize_cases f with ⟨hl, h⟩ | ⟨h1, ⟨h2, h3⟩ | ⟨h2, tss, h3, _⟩⟩
  · simp [h, hl]
  · rw [h3]; simp; exact h1
  · rw [h3]; simp; exact h1

/-- If the format can be lexed, the unsupported directives are reported, each once, in the order of
their first occurrence; and this is the only other failure. -/
theorem C04_unsupported_iff (f : Str) (e : Exc) (he : e ≠ .lexError) :
    tokenize f = .error e ↔
      (∀ l ∈ splitlines f, PercentsOk LexLetter l) ∧ unsupportedSpec f ≠ [] ∧
      e = .notImplemented (c!"unsupported directive(s): " ++
        joinWith c!", " ((unsupportedSpec f).map fun c => ['%', c])) := by
  rcases tokenize_cases f with ⟨⟨l, hl, hn⟩, h⟩ | ⟨h1, ⟨h2, h3⟩ | ⟨h2, tss, h3, _⟩⟩
  · rw [h]
    constructor
    · intro h'; simp at h'; exact absurd h'.symm he
    · intro h'; exact absurd (h'.1 l hl) hn
  · rw [h3]
    constructor
    · intro h'; simp at h'; exact ⟨h1, h2, by rw [← h']; simp⟩
    · intro h'; rw [h'.2.2]
  · rw [h3]; simp [h2]

/-- Nothing but the line breaks is lost by the tokenization. -/
theorem C04_lossless (f : Str) (tss : List (List Tok)) (h0 : tokenize f = .ok tss) :
    (tss.map fun ts => (ts.map Tok.content).flatten) = splitlines f ∧
    (tss.flatten.map Tok.content).flatten = f.filter (fun c => !isLineBreak c) := by
  have h := (C04_tokenize_ok_iff f tss).1 h0
  have h1 : (tss.map fun ts => (ts.map Tok.content).flatten) = splitlines f := by
    clear h0
    generalize splitlines f = ls at h
    induction h with
    | nil => rfl
    | cons h1 _ ih => simp [ih, h1.concat]
  refine ⟨h1, ?_⟩
  rw [← splitlines_flatten, ← h1]
  clear h h1 h0
  induction tss with
  | nil => rfl
  | cons ts tss ih =>
    rw [List.flatten_cons, List.map_append, List.flatten_append, ih]; rfl

/-- For a format on one line, the tokens spell the format exactly. -/
theorem C04_lossless_single_line (f : Str) (hb : NoBreak f) (hf : f ≠ [])
    (tss : List (List Tok)) (h : tokenize f = .ok tss) :
    ∃ ts, tss = [ts] ∧ (ts.map Tok.content).flatten = f ∧ IsLexing (· ∈ supported) f ts := by
  have h := (C04_tokenize_ok_iff f tss).1 h
  rw [splitlines_noBreak f hb hf] at h
  cases h with
  | cons h1 h2 =>
    cases h2
    exact ⟨_, rfl, h1.concat, h1⟩

example : tokenize c!"%% %Y-%m" = .ok
    [[.directive '%', .text c!" ", .directive 'Y', .text c!"-", .directive 'm']] := by decide
example : tokenize c!"%%j" = .ok [[.directive '%', .text c!"j"]] := by decide
example : tokenize c!"%j %U %j" =
    .error (.notImplemented c!"unsupported directive(s): %j, %U") := by decide
example : NoBreak c!"%Y-%m-%d" := by decide

/-! ## C05 -/

theorem firstUnexpected_none_iff (allowed : List Char) (ts : List Tok) :
    firstUnexpected allowed ts = none ↔ ∀ c, Tok.directive c ∈ ts → c ∈ allowed := by
  induction ts with
  | nil => simp [firstUnexpected]
  | cons t ts ih =>
    cases t with
    | text s => simp [firstUnexpected, ih]
    | directive d =>
      simp only [firstUnexpected]
      split
      · rename_i h
        simp only [reduceCtorEq, List.mem_cons, Tok.directive.injEq, false_iff]
        intro h'
        exact h (h' d (Or.inl rfl))
      · rename_i h
        rw [ih]
        simp only [List.mem_cons, Tok.directive.injEq]
        simp at h
        constructor
        · rintro h' c (rfl | hc)
          · exact h
          · exact h' c hc
        · intro h' c hc; exact h' c (Or.inr hc)

theorem percentsOk_iff_directives (ds ds' : Char → Prop) (hsub : ∀ c, ds' c → ds c) (line : Str) :
    (PercentsOk ds line ∧ ∀ c ∈ directivesOf line, ds' c) ↔ PercentsOk ds' line := by
  rw [percentsOk_supported]
  have : (fun c => ds c ∧ ds' c) = ds' := by
    funext c; exact propext ⟨fun h => h.2, fun h => ⟨hsub c h, h⟩⟩
  rw [this]

/-- Common part of the two theorems below. -/
theorem format_ok_iff (allowed : List Char) (kind : Str) (hsub : ∀ c ∈ allowed, c ∈ supported)
    (f : Str) :
    (match tokenize f with
      | .error _ => false
      | .ok tss => (validateTokens allowed kind tss).isNone) = true ↔
    (∃ l ∈ splitlines f, l ≠ []) ∧ ∀ l ∈ splitlines f, PercentsOk (· ∈ allowed) l := by
  have hacc := C04_accepts_iff f
  cases ht : tokenize f with
  | error e =>
    rw [ht] at hacc
    simp only [Bool.false_eq_true, false_iff, not_and]
    intro _ h
    obtain ⟨_, h'⟩ := hacc.2 (fun l hl => by
      have := (percentsOk_iff_directives (· ∈ supported) (· ∈ allowed) hsub l).2 (h l hl)
      exact this.1)
    simp at h'
  | ok tss =>
    have hall := hacc.1 ⟨tss, ht⟩
    have hlex := (C04_tokenize_ok_iff f tss).1 ht
    have hlex' : Forall₂ (fun l ts => lexLine l = .ok ts) (splitlines f) tss := by
      clear hacc hall ht
      generalize splitlines f = ls at hlex
      induction hlex with
      | nil => exact .nil
      | cons h1 _ ih =>
        exact .cons (lexLine_complete _ _ ⟨h1.concat, h1.text, h1.alternating,
          fun c hc => supported_lexLetter c (h1.directive c hc)⟩) ih
    have hdir := directives_lexLines _ _ hlex'
    simp only [validateTokens]
    have hempty : (tss.map List.length).sum = 0 ↔ ¬ ∃ l ∈ splitlines f, l ≠ [] := by
      clear hacc hall hlex' hdir ht
      generalize splitlines f = ls at hlex
      induction hlex with
      | nil => simp
      | @cons l ts ls tss h1 _ ih =>
        simp only [List.map_cons, List.sum_cons, Nat.add_eq_zero_iff, ih, List.mem_cons,
          exists_eq_or_imp, not_or]
        have : ts.length = 0 ↔ ¬ l ≠ [] := by
          rw [List.length_eq_zero_iff]
          constructor
          · rintro rfl; simpa using h1.concat.symm
          · intro hl
            have hl : l = [] := by simpa using hl
            have := h1.concat
            cases ts with
            | nil => rfl
            | cons t ts' =>
              exfalso
              rw [hl] at this
              cases t with
              | directive d => simp [Tok.content] at this
              | text s =>
                simp [Tok.content] at this
                exact (h1.text s (by simp)).1 this.1
        rw [this]
    by_cases hz : (tss.map List.length).sum = 0
    · rw [if_pos hz]
      simp only [Option.isNone_some, Bool.false_eq_true, false_iff, not_and]
      intro h
      exact absurd h (hempty.1 hz)
    · rw [if_neg hz]
      have hne : ∃ l ∈ splitlines f, l ≠ [] := Classical.byContradiction (fun h => hz (hempty.2 h))
      rw [Option.isNone_map, Option.isNone_iff_eq_none, firstUnexpected_none_iff]
      simp only [hne, true_and]
      constructor
      · intro h l hl
        refine (percentsOk_iff_directives (· ∈ supported) (· ∈ allowed) hsub l).1
          ⟨hall l hl, ?_⟩
        intro c hc
        have : c ∈ tss.flatten.filterMap Tok.directive? := by
          rw [hdir]; exact List.mem_flatMap.2 ⟨l, hl, hc⟩
        obtain ⟨t, ht', ht''⟩ := List.mem_filterMap.1 this
        cases t with
        | text s => simp [Tok.directive?] at ht''
        | directive d => simp [Tok.directive?] at ht''; subst ht''; exact h d ht'
      · intro h c hc
        have : c ∈ tss.flatten.filterMap Tok.directive? :=
          List.mem_filterMap.2 ⟨_, hc, rfl⟩
        rw [hdir] at this
        obtain ⟨l, hl, hc'⟩ := List.mem_flatMap.1 this
        exact ((percentsOk_iff_directives (· ∈ supported) (· ∈ allowed) hsub l).2 (h l hl)).2 c hc'

/-- The format has some content and every `%` starts a directive of the given set. -/
def FormatOver (allowed : List Char) (f : Str) : Prop :=
  (∃ l ∈ splitlines f, l ≠ []) ∧ ∀ l ∈ splitlines f, PercentsOk (· ∈ allowed) l

/-- A date format is accepted iff it is not empty and uses only the date directives. -/
theorem C05_date_format_ok_iff (f : Str) :
    dateFormatOk f = true ↔ FormatOver dateDirectives f :=
  format_ok_iff dateDirectives c!"date" (by decide) f

/-- A time format is accepted iff it is not empty and uses only the time directives. -/
theorem C05_time_format_ok_iff (f : Str) :
    timeFormatOk f = true ↔ FormatOver timeDirectives f :=
  format_ok_iff timeDirectives c!"time" (by decide) f

/-- A datetime format is accepted iff it uses only the supported directives. -/
theorem C05_datetime_format_ok_iff (f : Str) :
    datetimeFormatOk f = true ↔ ∀ l ∈ splitlines f, PercentsOk (· ∈ supported) l := by
  rw [← C04_accepts_iff]
  unfold datetimeFormatOk
  cases tokenize f <;> simp

/-- Every date or time format is also a datetime format. -/
theorem C05_date_time_are_datetime (f : Str) (h : dateFormatOk f = true ∨ timeFormatOk f = true) :
    datetimeFormatOk f = true := by
  rw [C05_datetime_format_ok_iff]
  rcases h with h | h
  · intro l hl
    exact ((percentsOk_iff_directives (· ∈ supported) (· ∈ dateDirectives) (by decide) l).2
      (((C05_date_format_ok_iff f).1 h).2 l hl)).1
  · intro l hl
    exact ((percentsOk_iff_directives (· ∈ supported) (· ∈ timeDirectives) (by decide) l).2
      (((C05_time_format_ok_iff f).1 h).2 l hl)).1

/-- The directives of the calendar are accepted in dates, those of the clock in times, and the time
zone and the percent sign in both; nothing else is supported. -/
theorem C05_separation : (∀ c ∈ c!"HIlMPpS", c ∉ dateDirectives) ∧
    (∀ c ∈ c!"aAbBdemyY", c ∉ timeDirectives) ∧
    (∀ c, c ∈ dateDirectives ↔ c ∈ c!"aAbBdemyY" ∨ c ∈ c!"zZ%") ∧
    (∀ c, c ∈ timeDirectives ↔ c ∈ c!"HIlMPpS" ∨ c ∈ c!"zZ%") ∧
    (∀ c, c ∈ supported ↔ c ∈ dateDirectives ∨ c ∈ timeDirectives) := by
  refine ⟨by decide, by decide, ?_, ?_, ?_⟩
  all_goals
    intro c
    simp only [supported, dateDirectives, timeDirectives, List.mem_cons, List.not_mem_nil, or_false]
    grind

example : dateFormatOk c!"%Y-%m-%d" = true ∧ timeFormatOk c!"%H:%M:%S" = true := by decide
example : dateFormatOk c!"%Y %H" = false ∧ dateFormatOk c!"" = false := by decide

end Mapry.Props
