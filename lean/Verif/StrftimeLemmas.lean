import Verif.Strftime

/-! Specifications and helper lemmas about the tokenization of date/time formats. -/

namespace Mapry.Strftime

/-! ## Specifications -/

/-- No two adjacent text tokens. -/
def Alternating : List Tok → Prop
  | .text _ :: .text t :: ts => False ∧ Alternating (.text t :: ts)
  | _ :: ts => Alternating ts
  | [] => True

/-- `toks` is a reading of the line: the contents concatenate to the line, every text is non-empty
and without `%`, texts are maximal and every directive letter is in `ds`. -/
structure IsLexing (ds : Char → Prop) (line : Str) (toks : List Tok) : Prop where
  concat : (toks.map Tok.content).flatten = line
  text : ∀ s, Tok.text s ∈ toks → s ≠ [] ∧ '%' ∉ s
  alternating : Alternating toks
  directive : ∀ c, Tok.directive c ∈ toks → ds c

/-- Every `%` of the line starts a directive whose letter is in `ds`. -/
def PercentsOk (ds : Char → Prop) : Str → Prop
  | [] => True
  | ['%'] => False
  | '%' :: c :: cs => ds c ∧ PercentsOk ds cs
  | _ :: cs => PercentsOk ds cs

/-- The directive letters of a line from left to right. -/
def directivesOf : Str → List Char
  | [] => []
  | ['%'] => []
  | '%' :: c :: cs => c :: directivesOf cs
  | _ :: cs => directivesOf cs

/-- The letters admitted by the lexer. -/
def LexLetter (c : Char) : Prop := c.isAlpha = true ∨ c = '%'

/-! ## Lemmas -/

theorem alternating_tail (t : Tok) (ts : List Tok) (h : Alternating (t :: ts)) :
    Alternating ts := by
  cases t with
  | directive c => simpa [Alternating] using h
  | text s =>
    cases ts with
    | nil => simp [Alternating]
    | cons t' ts' =>
      cases t' with
      | directive c => simpa [Alternating] using h
      | text s' => simp [Alternating] at h

theorem alternating_cons_text (s : Str) (ts : List Tok) :
    Alternating (.text s :: ts) ↔ (∀ t ts', ts ≠ .text t :: ts') ∧ Alternating ts := by
  cases ts with
  | nil => simp [Alternating]
  | cons t' ts' =>
    cases t' with
    | directive c => simp [Alternating]
    | text s' => simp [Alternating]

theorem alternating_consText (c : Char) (ts : List Tok) (h : Alternating ts) :
    Alternating (consText c ts) := by
  cases ts with
  | nil => simp [consText, Alternating]
  | cons t' ts' =>
    cases t' with
    | directive d => simpa [consText, Alternating] using h
    | text s' =>
      simp only [consText]
      rw [alternating_cons_text] at h ⊢
      exact h

theorem consText_content (c : Char) (ts : List Tok) :
    ((consText c ts).map Tok.content).flatten = c :: (ts.map Tok.content).flatten := by
  cases ts with
  | nil => simp [consText, Tok.content]
  | cons t' ts' => cases t' <;> simp [consText, Tok.content]

theorem directive_mem_consText (c d : Char) (ts : List Tok) :
    Tok.directive d ∈ consText c ts ↔ Tok.directive d ∈ ts := by
  cases ts with
  | nil => simp [consText]
  | cons t' ts' => cases t' <;> simp [consText]

theorem text_mem_consText (c : Char) (s : Str) (ts : List Tok) (h : Tok.text s ∈ consText c ts) :
    s = [c] ∨ Tok.text s ∈ ts ∨ ∃ t, Tok.text t ∈ ts ∧ s = c :: t := by
  cases ts with
  | nil => simp [consText] at h; simp [h]
  | cons t' ts' =>
    cases t' with
    | directive d => simp [consText] at h; grind
    | text t => simp [consText] at h; grind

/-- Soundness of the lexer on a line. -/
theorem lexLine_sound (line : Str) (toks : List Tok) (h : lexLine line = .ok toks) :
    IsLexing LexLetter line toks := by
  induction line using lexLine.induct generalizing toks with
  | case1 =>
    simp [lexLine] at h
    subst h
    exact ⟨rfl, by simp, by simp [Alternating], by simp⟩
  | case2 => simp [lexLine] at h
  | case3 c cs hc ih =>
    simp only [lexLine, hc, if_true] at h
    cases hl : lexLine cs with
    | error e => rw [hl] at h; simp [bind, Except.bind] at h
    | ok ts =>
      rw [hl] at h
      simp [bind, Except.bind, pure, Except.pure] at h
      subst h
      have := ih ts hl
      refine ⟨by simp [Tok.content, this.concat], ?_, by simpa [Alternating] using this.alternating,
        ?_⟩
      · intro s hs; simp at hs; exact this.text s hs
      · intro d hd
        simp at hd
        rcases hd with rfl | hd
        · simpa [LexLetter] using hc
        · exact this.directive d hd
  | case4 c cs hc =>
    simp only [lexLine] at h
    rw [if_neg hc] at h
    simp at h
  | case5 c cs h1 h2 ih =>
    rw [lexLine.eq_4 c cs h1 h2] at h
    cases hl : lexLine cs with
    | error e => rw [hl] at h; simp [bind, Except.bind] at h
    | ok ts =>
      rw [hl] at h
      simp [bind, Except.bind, pure, Except.pure] at h
      subst h
      have := ih ts hl
      have hc : c ≠ '%' := by
        rintro rfl
        cases cs with
        | nil => exact h1 rfl rfl
        | cons d ds => exact h2 d ds rfl rfl
      refine ⟨by rw [consText_content, this.concat], ?_, alternating_consText c ts this.alternating,
        ?_⟩
      · intro s hs
        rcases text_mem_consText c s ts hs with rfl | hs | ⟨t, ht, rfl⟩
        · simp [Ne.symm hc]
        · exact this.text s hs
        · have := this.text t ht
          simp [Ne.symm hc, this.2]
      · intro d hd
        exact this.directive d ((directive_mem_consText c d ts).1 hd)

theorem lexLine_cons_ne (c : Char) (cs : Str) (hc : c ≠ '%') :
    lexLine (c :: cs) = (lexLine cs).map (consText c) := by
  rw [lexLine.eq_4 c cs (by rintro rfl; exact absurd rfl hc) (by rintro d ds rfl; exact absurd rfl hc)]
  cases lexLine cs <;> rfl

/-- Lexing a text without `%` in front of a line. -/
theorem lexLine_text_append (s line : Str) (hs : s ≠ []) (hp : '%' ∉ s) (ts : List Tok)
    (h : lexLine line = .ok ts) (hts : ∀ t ts', ts ≠ .text t :: ts') :
    lexLine (s ++ line) = .ok (.text s :: ts) := by
  induction s with
  | nil => exact absurd rfl hs
  | cons c cs ih =>
    have hc : c ≠ '%' := by rintro rfl; simp at hp
    rw [List.cons_append, lexLine_cons_ne c _ hc]
    cases cs with
    | nil =>
      simp only [List.nil_append, h]
      cases ts with
      | nil => rfl
      | cons t ts' =>
        cases t with
        | directive d => rfl
        | text t => exact absurd rfl (hts t ts')
    | cons d ds =>
      rw [ih (by simp) (by simp at hp ⊢; exact hp.2)]
      rfl

/-- Completeness of the lexer on a line. -/
theorem lexLine_complete (toks : List Tok) (line : Str) (h : IsLexing LexLetter line toks) :
    lexLine line = .ok toks := by
  induction toks generalizing line with
  | nil =>
    have := h.concat
    simp at this
    subst this
    rfl
  | cons t ts ih =>
    have hc := h.concat
    simp only [List.map_cons, List.flatten_cons] at hc
    have hts : IsLexing LexLetter (ts.map Tok.content).flatten ts :=
      ⟨rfl, fun s hs => h.text s (by simp [hs]), alternating_tail _ _ h.alternating,
        fun c hc => h.directive c (by simp [hc])⟩
    have ih' := ih _ hts
    cases t with
    | directive c =>
      have hd : c.isAlpha = true ∨ c = '%' := h.directive c (by simp)
      subst hc
      simp only [Tok.content, List.cons_append, List.nil_append, lexLine, ih']
      rw [if_pos (by simpa using hd)]
      rfl
    | text s =>
      have hs := h.text s (by simp)
      subst hc
      have ha := (alternating_cons_text s ts).1 h.alternating
      exact lexLine_text_append s _ hs.1 hs.2 ts ih' ha.1

theorem lexLine_error (line : Str) (e : Exc) (h : lexLine line = .error e) : e = .lexError := by
  induction line using lexLine.induct with
  | case1 => simp [lexLine] at h
  | case2 => simp [lexLine] at h; exact h.symm
  | case3 c cs hc ih =>
    simp only [lexLine, hc, if_true] at h
    cases hl : lexLine cs with
    | error e' => rw [hl] at h; simp [bind, Except.bind] at h; exact ih (by rw [hl, h])
    | ok ts => rw [hl] at h; simp [bind, Except.bind, pure, Except.pure] at h
  | case4 c cs hc =>
    simp only [lexLine] at h
    rw [if_neg hc] at h
    simp at h; exact h.symm
  | case5 c cs h1 h2 ih =>
    rw [lexLine.eq_4 c cs h1 h2] at h
    cases hl : lexLine cs with
    | error e' => rw [hl] at h; simp [bind, Except.bind] at h; exact ih (by rw [hl, h])
    | ok ts => rw [hl] at h; simp [bind, Except.bind, pure, Except.pure] at h

/-- The lexer accepts a line iff every `%` is followed by a letter or `%`. -/
theorem lexLine_ok_iff (line : Str) :
    (∃ toks, lexLine line = .ok toks) ↔ PercentsOk LexLetter line := by
  induction line using lexLine.induct with
  | case1 => simp [lexLine, PercentsOk]
  | case2 => simp [lexLine, PercentsOk]
  | case3 c cs hc ih =>
    have hc' : LexLetter c := by simpa [LexLetter] using hc
    simp only [lexLine, hc, if_true, PercentsOk, hc', true_and, ← ih]
    cases lexLine cs <;> simp [bind, Except.bind, pure, Except.pure]
  | case4 c cs hc =>
    have hc' : ¬ LexLetter c := by simpa [LexLetter] using hc
    simp only [lexLine, PercentsOk]
    rw [if_neg hc]
    simp [hc']
  | case5 c cs h1 h2 ih =>
    rw [lexLine.eq_4 c cs h1 h2, PercentsOk.eq_4 _ c cs h1 h2, ← ih]
    cases lexLine cs <;> simp [bind, Except.bind, pure, Except.pure]

/-- The directive tokens are the directives read from left to right. -/
theorem directives_lexLine (line : Str) (toks : List Tok) (h : lexLine line = .ok toks) :
    toks.filterMap Tok.directive? = directivesOf line := by
  induction line using lexLine.induct generalizing toks with
  | case1 => simp [lexLine] at h; subst h; rfl
  | case2 => simp [lexLine] at h
  | case3 c cs hc ih =>
    simp only [lexLine, hc, if_true] at h
    cases hl : lexLine cs with
    | error e' => rw [hl] at h; simp [bind, Except.bind] at h
    | ok ts =>
      rw [hl] at h; simp [bind, Except.bind, pure, Except.pure] at h
      subst h
      simp [directivesOf, ih ts hl, Tok.directive?]
  | case4 c cs hc =>
    simp only [lexLine] at h
    rw [if_neg hc] at h
    simp at h
  | case5 c cs h1 h2 ih =>
    rw [lexLine.eq_4 c cs h1 h2] at h
    rw [directivesOf.eq_4 c cs h1 h2]
    cases hl : lexLine cs with
    | error e' => rw [hl] at h; simp [bind, Except.bind] at h
    | ok ts =>
      rw [hl] at h; simp [bind, Except.bind, pure, Except.pure] at h
      subst h
      rw [← ih ts hl]
      cases ts with
      | nil => simp [consText, List.filterMap_cons, Tok.directive?]
      | cons t ts' => cases t <;> simp [consText, List.filterMap_cons, Tok.directive?]

theorem percentsOk_supported (ds ds' : Char → Prop) (line : Str) :
    (PercentsOk ds line ∧ ∀ c ∈ directivesOf line, ds' c) ↔
      PercentsOk (fun c => ds c ∧ ds' c) line := by
  induction line using directivesOf.induct with
  | case1 => simp [directivesOf, PercentsOk]
  | case2 => simp [directivesOf, PercentsOk]
  | case3 c cs ih => simp only [directivesOf, PercentsOk, ← ih]; simp; grind
  | case4 c cs h1 h2 ih =>
    rw [directivesOf.eq_4 c cs h1 h2, PercentsOk.eq_4 _ c cs h1 h2, PercentsOk.eq_4 _ c cs h1 h2, ih]

theorem lexLines_ok_iff (ls : List Str) (tss : List (List Tok)) :
    lexLines ls = .ok tss ↔ Forall₂ (fun l ts => lexLine l = .ok ts) ls tss := by
  induction ls generalizing tss with
  | nil =>
    simp only [lexLines, Except.ok.injEq]
    constructor
    · rintro rfl; exact .nil
    · intro h; cases h; rfl
  | cons l ls ih =>
    simp only [lexLines]
    cases hl : lexLine l with
    | error e =>
      simp only [bind, Except.bind]
      constructor
      · intro h; simp at h
      · intro h; cases h; simp_all
    | ok ts =>
      cases hls : lexLines ls with
      | error e =>
        simp only [bind, Except.bind]
        constructor
        · intro h; simp at h
        · intro h
          cases h with
          | cons h1 h2 => rw [(ih _).2 h2] at hls; simp at hls
      | ok tss' =>
        simp only [bind, Except.bind, pure, Except.pure, Except.ok.injEq]
        constructor
        · rintro rfl
          exact .cons hl ((ih _).1 hls)
        · intro h
          cases h with
          | cons h1 h2 =>
            rw [hl] at h1
            have := (ih _).2 h2
            rw [hls] at this
            simp at h1 this
            rw [h1, this]

theorem lexLines_error (ls : List Str) (e : Exc) (h : lexLines ls = .error e) : e = .lexError := by
  induction ls with
  | nil => simp [lexLines] at h
  | cons l ls ih =>
    simp only [lexLines] at h
    cases hl : lexLine l with
    | error e' =>
      rw [hl] at h; simp [bind, Except.bind] at h
      exact lexLine_error l e (by rw [hl, h])
    | ok ts =>
      rw [hl] at h
      cases hls : lexLines ls with
      | error e' => rw [hls] at h; simp [bind, Except.bind] at h; exact ih (by rw [hls, h])
      | ok tss => rw [hls] at h; simp [bind, Except.bind, pure, Except.pure] at h

end Mapry.Strftime
