import Verif.Props.Strftime
import Verif.GoLayout
import Verif.NamingLemmas

/-! # C06: the Go layout denotes the directives of the format -/

namespace Mapry.Props

open Mapry.Strftime Mapry.GoLayout

/-- The documented meaning of a directive (comments in `/repo/mapry/strftime.py:23-43`) in terms of
the standard chunks of Go. -/
def directiveMeaning : List (Char × Item) :=
  [ ('a', .std .weekDay), ('A', .std .longWeekDay), ('b', .std .month), ('B', .std .longMonth),
    ('d', .std .zeroDay), ('e', .std .underDay), ('m', .std .zeroMonth), ('y', .std .year),
    ('Y', .std .longYear), ('H', .std .hour), ('I', .std .zeroHour12), ('l', .std .hour12),
    ('M', .std .zeroMinute), ('P', .std .pmLower), ('p', .std .pmUpper), ('S', .std .zeroSecond),
    ('z', .std .numTZ), ('Z', .std .tz), ('%', .lit '%') ]

/-- The meaning of a token; `none` for an unknown directive. -/
def tokMeaning : Tok → Option (List Item)
  | .directive c => (directiveMeaning.lookup c).map ([·])
  | .text s => some (s.map .lit)

/-- The meaning of a sequence of tokens. -/
def meaning : List Tok → Option (List Item)
  | [] => some []
  | t :: ts => do
    let m ← tokMeaning t
    let ms ← meaning ts
    return m ++ ms

/-- The full statement of C06: every format on one line accepted by the validations is converted to
a layout with the same meaning. -/
def GoLayoutFaithful : Prop :=
  ∀ f tss, NoBreak f → tokenize f = .ok tss → goFormatOk f = true →
    ∃ layout, convert f = .ok layout ∧ some (readLayout layout) = meaning tss.flatten

/-- The property is violated already by the abbreviated weekday: Go does not know `Sun`. -/
theorem C06_violated : ¬ GoLayoutFaithful := by
  intro h
  obtain ⟨layout, h1, h2⟩ := h c!"%a" [[.directive 'a']] (by decide) (by decide) (by decide)
  rw [show convert c!"%a" = .ok c!"Sun" from by decide] at h1
  cases h1
  revert h2; decide

/-- The texts and the directives of an accepted format can merge into another directive: `20%y`
becomes the four-digit year. -/
theorem C06_violated_merge : goFormatOk c!"20%y" = true ∧ convert c!"20%y" = .ok c!"2006" ∧
    readLayout c!"2006" = [.std .longYear] ∧
    meaning [.text c!"20", .directive 'y'] = some [.lit '2', .lit '0', .std .year] := by decide

/-- A directive can hide a following one: `P%Z` is read as `PM` followed by `ST`. -/
theorem C06_violated_hide : goFormatOk c!"P%Z" = true ∧ convert c!"P%Z" = .ok c!"PMST" ∧
    readLayout c!"PMST" = [.std .pmUpper, .lit 'S', .lit 'T'] := by decide

/-- Two directives can break each other: `%b%P` is not read as a month. -/
theorem C06_violated_month : goFormatOk c!"%b%P" = true ∧ convert c!"%b%P" = .ok c!"Janpm" ∧
    readLayout c!"Janpm" = [.lit 'J', .lit 'a', .lit 'n', .std .pmLower] := by decide

/-- The conflict check misses directives of Go: `Mon` is accepted as a literal text. -/
theorem C06_violated_missing_conflict : goFormatOk c!"Mon" = true ∧
    convert c!"Mon" = .ok c!"Mon" ∧ readLayout c!"Mon" = [.std .weekDay] := by decide

/-- The line break at the end of a format is lost in Go, and a format which ends in an empty line
makes the conversion fail, although both are accepted by the validations. -/
theorem C06_violated_line_break :
    datetimeFormatOk c!"%Y\n" = true ∧ goFormatOk c!"%Y\n" = true ∧
      convert c!"%Y\n" = .ok c!"2006" ∧
    datetimeFormatOk c!"%Y\n\n" = true ∧ goFormatOk c!"%Y\n\n" = true ∧
      convert c!"%Y\n\n" = .error .violation := by decide

/-! ## What the conflict check does -/

/-- The directives of the conflict check are the layouts of the supported directives. -/
theorem goConflicts_iff (d : Str) :
    d ∈ goConflicts ↔ ∃ c, (c, d) ∈ goTable ∧ c ≠ '%' := by
  constructor
  · intro h
    have key : ∀ d ∈ goConflicts, goTable.any (fun x => x.2 == d && x.1 != '%') = true := by decide
    obtain ⟨x, hx, hx'⟩ := List.any_eq_true.1 (key d h)
    simp at hx'
    exact ⟨x.1, by rw [← hx'.1]; exact hx, hx'.2⟩
  · rintro ⟨c, h, hc⟩
    have key : ∀ x ∈ goTable, x.1 ≠ '%' → x.2 ∈ goConflicts := by decide
    exact key _ h hc

/-- The check passes iff the format can be tokenized and no text between the directives contains
the Go layout of a supported directive. -/
theorem C06_conflict_check (f : Str) :
    goFormatOk f = true ↔ ∃ tss, tokenize f = .ok tss ∧
      ∀ s, Tok.text s ∈ tss.flatten → ∀ c layout, (c, layout) ∈ goTable → c ≠ '%' →
        ¬ layout <:+: s := by
  unfold goFormatOk
  cases ht : tokenize f with
  | error e => simp
  | ok tss =>
    simp only [List.isEmpty_iff, Except.ok.injEq, exists_eq_left', goFormatConflicts,
      List.filterMap_eq_nil_iff]
    constructor
    · intro h s hs c layout hm hc hi
      have := h _ hs
      simp only [tokConflict, List.find?_eq_none] at this
      exact this layout ((goConflicts_iff layout).2 ⟨c, hm, hc⟩) ((isInfixB_iff _ _).2 hi)
    · intro h t ht
      cases t with
      | directive c => rfl
      | text s =>
        simp only [tokConflict, List.find?_eq_none]
        intro d hd hi
        obtain ⟨c, hm, hc⟩ := (goConflicts_iff d).1 hd
        exact h s ht c d hm hc ((isInfixB_iff _ _).1 hi)

example : goFormatOk c!"%Y at Januarys" = false ∧ goFormatOk c!"%Y at %m" = true := by decide

/-! ## The formats for which the conversion is faithful -/

/-- Characters which never take part in a Go directive unless a digit follows. -/
def safeChar (c : Char) : Bool := c ∉ c!"JMPp_" && !c.isDigit

/-- The tokens start with a lower-case letter in Go. -/
def nextLower : List Tok → Bool
  | .text (d :: _) :: _ => d.isLower
  | .directive 'P' :: _ => true
  | _ => false

/-- No weekday names; texts of safe characters; no lower-case letter after an abbreviated month. -/
def safeToks : List Tok → Bool
  | [] => true
  | .directive c :: ts =>
    c ≠ 'a' && c ≠ 'A' && !(c = 'b' && nextLower ts) && safeToks ts
  | .text s :: ts => s ≠ [] && s.all safeChar && safeToks ts

/-- The continuation does not start with `0` unless a digit from 1 to 6 follows, nor with `9`. -/
def okStart : Str → Bool
  | '0' :: d :: _ => d ∈ c!"123456"
  | ['0'] => false
  | '9' :: _ => false
  | _ => true

theorem okStart_of_ne (c : Char) (cs : Str) (h0 : c ≠ '0') (h9 : c ≠ '9') :
    okStart (c :: cs) = true := by
  rw [okStart.eq_4]
  · intro d ds h; cases h; exact h0 rfl
  · intro h; cases h; exact h0 rfl
  · intro ds h; cases h; exact h9 rfl

theorem okStart_zero (cs : Str) (h : okStart ('0' :: cs) = true) :
    ∃ d ds, cs = d :: ds ∧ d ∈ c!"123456" := by
  cases cs with
  | nil => simp [okStart] at h
  | cons d ds => exact ⟨d, ds, rfl, by simpa [okStart] using h⟩

theorem fracAfter_none (rest : Str) (h : okStart rest = true) : fracAfter rest = none := by
  cases rest with
  | nil => rfl
  | cons c cs =>
    by_cases h0 : c = '0'
    · subst h0
      obtain ⟨d, ds, rfl, hd⟩ := okStart_zero cs h
      have hd0 : d ≠ '0' := by rintro rfl; revert hd; decide
      have hdig : d.isDigit = true := by
        have : ∀ d ∈ c!"123456", d.isDigit = true := by decide
        exact this d hd
      simp [fracAfter, runLength, hd0, startsWithDigit, hdig]
    · by_cases h9 : c = '9'
      · subst h9; simp [okStart] at h
      · simp [fracAfter, h0, h9]

theorem stdAt_safe (c : Char) (rest : Str) (hc : safeChar c = true) (h : okStart rest = true) :
    stdAt (c :: rest) = none := by
  have h07 : ∀ t : Str, ¬ (('0' :: '7' :: t) <+: rest) := by
    rintro t ⟨u, rfl⟩
    revert h; simp [okStart]
  have hp : ∀ (x : Char) (t : Str), (x :: '0' :: '7' :: t).isPrefixOf (c :: rest) = false := by
    intro x t
    rw [Bool.eq_false_iff, Ne, List.isPrefixOf_iff_prefix]
    intro h'
    obtain ⟨u, hu⟩ := h'
    simp at hu
    exact h07 t ⟨u, by simpa using hu.2⟩
  have hsafe := hc
  simp only [safeChar, Bool.and_eq_true, decide_eq_true_eq, Bool.not_eq_true',
    List.mem_cons, List.not_mem_nil, or_false, not_or] at hsafe
  unfold stdAt
  split
  · rfl
  · simp_all
  · simp_all
  · rename_i heq; cases heq; simp at hsafe
  · rename_i heq; cases heq; simp at hsafe
  · rename_i heq; cases heq; simp at hsafe
  · simp_all
  · rename_i heq; cases heq; simp at hsafe
  · rename_i heq; cases heq; simp at hsafe
  · rename_i heq; cases heq; simp at hsafe
  · simp_all
  · simp_all
  · simp only [hp, Bool.false_eq_true, if_false]
  · simp only [hp, Bool.false_eq_true, if_false]
  · rename_i heq; cases heq; exact fracAfter_none _ h
  · rename_i heq; cases heq; exact fracAfter_none _ h
  · rfl

theorem read_text (s rest : Str) (hs : s.all safeChar = true) (h : okStart rest = true) :
    readLayout (s ++ rest) = s.map .lit ++ readLayout rest := by
  induction s with
  | nil => rfl
  | cons c cs ih =>
    simp only [List.all_cons, Bool.and_eq_true] at hs
    have hok : okStart (cs ++ rest) = true := by
      cases cs with
      | nil => exact h
      | cons d ds =>
        have hd : safeChar d = true := by simp at hs; exact hs.2.1
        apply okStart_of_ne
        · rintro rfl; revert hd; decide
        · rintro rfl; revert hd; decide
    have ih' := ih hs.2
    simp only [readLayout] at ih' ⊢
    simp only [List.cons_append, readAux, stdAt_safe c _ hs.1 hok, ih', List.map_cons]

theorem read_directive (c : Char) (t rest : Str) (item : Item)
    (ht : goTable.lookup c = some t) (hm : directiveMeaning.lookup c = some item)
    (ha : c ≠ 'a') (hA : c ≠ 'A') (hb : c = 'b' → startsWithLower rest = false)
    (h : okStart rest = true) :
    readLayout (t ++ rest) = item :: readLayout rest ∧ okStart (t ++ rest) = true := by
  have hmem := Naming.lookup_some_mem _ _ _ ht
  have h00 : ∀ t : Str, ¬ (('0' :: '0' :: t) <+: rest) := by
    rintro t ⟨u, rfl⟩
    revert h; simp [okStart]
  simp only [goTable, List.mem_cons, Prod.mk.injEq, List.not_mem_nil, or_false] at hmem
  rcases hmem with ⟨rfl, rfl⟩ | ⟨rfl, rfl⟩ | ⟨rfl, rfl⟩ | ⟨rfl, rfl⟩ | ⟨rfl, rfl⟩ | ⟨rfl, rfl⟩ |
    ⟨rfl, rfl⟩ | ⟨rfl, rfl⟩ | ⟨rfl, rfl⟩ | ⟨rfl, rfl⟩ | ⟨rfl, rfl⟩ | ⟨rfl, rfl⟩ | ⟨rfl, rfl⟩ |
    ⟨rfl, rfl⟩ | ⟨rfl, rfl⟩ | ⟨rfl, rfl⟩ | ⟨rfl, rfl⟩ | ⟨rfl, rfl⟩ | ⟨rfl, rfl⟩
  all_goals first
    | exact absurd rfl ha
    | exact absurd rfl hA
    | skip
  all_goals
    revert hm
    simp only [directiveMeaning, List.lookup]
    intro hm
    simp at hm
    subst hm
    simp [readLayout, readAux, stdAt, List.isPrefixOf, okStart, h00]
  -- the abbreviated month
  have hb := hb rfl
  have hu : ∀ t : Str, ¬ (('u' :: t) <+: rest) := by
    rintro t ⟨u, rfl⟩
    revert hb; simp [startsWithLower]
  simp [hu, hb, readAux]

theorem startsWithLower_convert (ts : List Tok) (s : Str) (h : convertLine ts = .ok s)
    (hs : safeToks ts = true) (hn : nextLower ts = false) : startsWithLower s = false := by
  cases ts with
  | nil => simp [convertLine] at h; subst h; rfl
  | cons t ts =>
    cases t with
    | text u =>
      cases u with
      | nil => simp [safeToks] at hs
      | cons d ds =>
        simp only [convertLine, convertTok] at h
        cases hl : convertLine ts with
        | error e => rw [hl] at h; simp [bind, Except.bind] at h
        | ok r =>
          rw [hl] at h
          simp [bind, Except.bind, pure, Except.pure] at h
          subst h
          simpa [startsWithLower, nextLower] using hn
    | directive c =>
      simp only [convertLine, convertTok] at h
      cases ht : goTable.lookup c with
      | none => rw [ht] at h; simp [bind, Except.bind] at h
      | some t =>
        rw [ht] at h
        cases hl : convertLine ts with
        | error e => rw [hl] at h; simp [bind, Except.bind] at h
        | ok r =>
          rw [hl] at h
          simp [bind, Except.bind, pure, Except.pure] at h
          subst h
          have hP : c ≠ 'P' := by rintro rfl; simp [nextLower] at hn
          have key : ∀ x ∈ goTable, x.1 ≠ 'P' → x.2 ≠ [] ∧ startsWithLower x.2 = false := by decide
          have := key _ (Naming.lookup_some_mem _ _ _ ht) hP
          cases t with
          | nil => exact absurd rfl this.1
          | cons x xs => simpa [startsWithLower] using this.2

/-- The layout of safe tokens is read as intended. -/
theorem read_convertLine (ts : List Tok) (s : Str) (h : convertLine ts = .ok s)
    (hs : safeToks ts = true) :
    some (readLayout s) = meaning ts ∧ okStart s = true := by
  induction ts generalizing s with
  | nil => simp [convertLine] at h; subst h; decide
  | cons t ts ih =>
    cases hl : convertLine ts with
    | error e =>
      simp only [convertLine, hl] at h
      cases hct : convertTok t <;> rw [hct] at h <;> simp [bind, Except.bind] at h
    | ok r =>
      cases t with
      | text u =>
        simp only [safeToks, Bool.and_eq_true, decide_eq_true_eq, ne_eq] at hs
        obtain ⟨ih1, ih2⟩ := ih r hl hs.2
        simp [convertLine, hl, convertTok, bind, Except.bind, pure, Except.pure] at h
        subst h
        refine ⟨?_, ?_⟩
        · rw [read_text u r hs.1.2 ih2]
          simp [meaning, tokMeaning, ← ih1]
        · cases u with
          | nil => exact ih2
          | cons d ds =>
            have hd : safeChar d = true := by
              have := hs.1.2
              simp at this; exact this.1
            apply okStart_of_ne
            · rintro rfl; revert hd; decide
            · rintro rfl; revert hd; decide
      | directive c =>
        simp only [safeToks, Bool.and_eq_true, decide_eq_true_eq, ne_eq, Bool.not_eq_true'] at hs
        obtain ⟨⟨⟨ha, hA⟩, hb⟩, hs⟩ := hs
        obtain ⟨ih1, ih2⟩ := ih r hl hs
        simp only [convertLine, hl, convertTok] at h
        cases ht : goTable.lookup c with
        | none => rw [ht] at h; simp [bind, Except.bind] at h
        | some t =>
          rw [ht] at h
          simp [bind, Except.bind, pure, Except.pure] at h
          subst h
          have hex : ∃ item, directiveMeaning.lookup c = some item := by
            have key : ∀ x ∈ goTable, (directiveMeaning.lookup x.1).isSome = true := by decide
            have := key _ (Naming.lookup_some_mem _ _ _ ht)
            exact Option.isSome_iff_exists.1 this
          obtain ⟨item, hm⟩ := hex
          have hbl : c = 'b' → startsWithLower r = false := by
            rintro rfl
            simp at hb
            exact startsWithLower_convert ts r hl hs hb
          obtain ⟨h1, h2⟩ := read_directive c t r item ht hm ha hA hbl ih2
          refine ⟨?_, h2⟩
          rw [h1]
          simp [meaning, tokMeaning, hm, ← ih1]

theorem convertLine_total (ts : List Tok) (h : ∀ c, Tok.directive c ∈ ts → c ∈ supported) :
    ∃ s, convertLine ts = .ok s := by
  induction ts with
  | nil => exact ⟨[], rfl⟩
  | cons t ts ih =>
    obtain ⟨s, hs⟩ := ih (fun c hc => h c (by simp [hc]))
    cases t with
    | text u => exact ⟨u ++ s, by simp [convertLine, convertTok, hs, bind, Except.bind, pure, Except.pure]⟩
    | directive c =>
      have hc := h c (by simp)
      have key : ∀ c ∈ supported, (goTable.lookup c).isSome = true := by decide
      obtain ⟨t, ht⟩ := Option.isSome_iff_exists.1 (key c hc)
      exact ⟨t ++ s, by simp [convertLine, convertTok, hs, ht, bind, Except.bind, pure, Except.pure]⟩

theorem convertLine_no_newline (ts : List Tok) (s : Str) (h : convertLine ts = .ok s)
    (hb : ∀ u, Tok.text u ∈ ts → '\n' ∉ u) : '\n' ∉ s := by
  induction ts generalizing s with
  | nil => simp [convertLine] at h; subst h; simp
  | cons t ts ih =>
    cases hl : convertLine ts with
    | error e =>
      simp only [convertLine, hl] at h
      cases hct : convertTok t <;> rw [hct] at h <;> simp [bind, Except.bind] at h
    | ok r =>
      have ih' := ih r hl (fun u hu => hb u (by simp [hu]))
      cases t with
      | text u =>
        simp [convertLine, hl, convertTok, bind, Except.bind, pure, Except.pure] at h
        subst h
        simp [ih', hb u (by simp)]
      | directive c =>
        simp only [convertLine, hl, convertTok] at h
        cases ht : goTable.lookup c with
        | none => rw [ht] at h; simp [bind, Except.bind] at h
        | some t =>
          rw [ht] at h
          simp [bind, Except.bind, pure, Except.pure] at h
          subst h
          have key : ∀ x ∈ goTable, '\n' ∉ x.2 := by decide
          have := key _ (Naming.lookup_some_mem _ _ _ ht)
          simp [ih', this]

/-- C06 for the formats of safe tokens (which includes the usual numeric formats such as
`%Y-%m-%dT%H:%M:%SZ` and `%d.%m.%Y`). Missing: the formats with weekday names, with a text of
digits or of the letters J, M, P, p and the underscore, and with a lower-case letter right after an
abbreviated month; `C06_violated*` show that the property fails for formats of each kind. -/
theorem C06_layout_faithful_partial (f : Str) (tss : List (List Tok)) (hb : NoBreak f)
    (h : tokenize f = .ok tss) (hs : safeToks tss.flatten = true) :
    ∃ layout, convert f = .ok layout ∧ some (readLayout layout) = meaning tss.flatten := by
  by_cases hf : f = []
  · subst hf
    rw [show tokenize [] = .ok [] from rfl] at h
    cases h
    exact ⟨[], rfl, rfl⟩
  · obtain ⟨ts, rfl, hcat, hlex⟩ := C04_lossless_single_line f hb hf tss h
    obtain ⟨s, hc⟩ := convertLine_total ts hlex.directive
    simp only [List.flatten_cons, List.flatten_nil, List.append_nil] at hs ⊢
    have hr := read_convertLine ts s hc hs
    refine ⟨s, ?_, hr.1⟩
    have hnl : '\n' ∉ s := by
      apply convertLine_no_newline ts s hc
      intro u hu hn
      have : '\n' ∈ f := by
        rw [← hcat]
        simp only [List.mem_flatten, List.mem_map]
        exact ⟨u, ⟨_, hu, rfl⟩, hn⟩
      have := hb _ this
      revert this; decide
    have hend : endsWith ['\n'] s = false := by
      rw [Bool.eq_false_iff, Ne, endsWith, List.isSuffixOf_iff_suffix]
      intro h'
      exact hnl (h'.subset (by simp))
    simp [convert, h, convertLines, hc, joinWith, bind, Except.bind, pure, Except.pure, hend]

example : safeToks [.directive 'Y', .text c!"-", .directive 'm', .text c!"-", .directive 'd',
    .text c!"T", .directive 'H', .text c!":", .directive 'M', .text c!":", .directive 'S',
    .text c!"Z"] = true := by decide
example : readLayout c!"2006-01-02T15" = [.std .longYear, .lit '-', .std .zeroMonth, .lit '-',
    .std .zeroDay, .lit 'T', .std .hour] := by decide

/-- The conversion never fails on a format on one line which can be tokenized. -/
theorem C06_convert_total (f : Str) (tss : List (List Tok)) (hb : NoBreak f)
    (h : tokenize f = .ok tss) : ∃ layout, convert f = .ok layout := by
  by_cases hf : f = []
  · subst hf; exact ⟨[], rfl⟩
  · obtain ⟨ts, rfl, hcat, hlex⟩ := C04_lossless_single_line f hb hf tss h
    obtain ⟨s, hc⟩ := convertLine_total ts hlex.directive
    refine ⟨s, ?_⟩
    have hnl : '\n' ∉ s := by
      apply convertLine_no_newline ts s hc
      intro u hu hn
      have : '\n' ∈ f := by
        rw [← hcat]
        simp only [List.mem_flatten, List.mem_map]
        exact ⟨u, ⟨_, hu, rfl⟩, hn⟩
      have := hb _ this
      revert this; decide
    have hend : endsWith ['\n'] s = false := by
      rw [Bool.eq_false_iff, Ne, endsWith, List.isSuffixOf_iff_suffix]
      intro h'
      exact hnl (h'.subset (by simp))
    simp [convert, h, convertLines, hc, joinWith, bind, Except.bind, pure, Except.pure, hend]

end Mapry.Props
