import Verif.NamingLemmas

/-! # C01, C02, C03: names of composites and of their registries -/

namespace Mapry.Props

open Mapry.Naming

/-! ## C01: camel-casing -/

/-- `ucamel_case` returns `r` iff the identifier has no empty part, and then `r` is the result of
the one-pass specification. -/
theorem C01_ucamel_case_ok_iff (s r : Str) :
    ucamelCase s = .ok r ↔ NoEmptyPart s ∧ r = camelSpec true s := by
  unfold ucamelCase
  by_cases hs : s = []
  · subst hs; simp [NoEmptyPart]
  · rw [if_neg hs]
    by_cases hp : NoEmptyPart s
    · have := capitalizeAll_ok (splitIdentifier s) ((parts_iff s).2 hp)
      rw [this]
      obtain ⟨c, cs, rfl, hc⟩ := camelSpec_head s hs hp.2.1
      have e : ((splitIdentifier (c :: cs)).map capPart).flatten = camelSpec true (c :: cs) :=
        (camelSpec_eq_true (c :: cs)).symm
      simp only [e, hc]
      simp [hp, toUpper_toUpper, bind, Except.bind, pure, Except.pure, eq_comm]
    · rw [capitalizeAll_error (splitIdentifier s) (fun h => hp ((parts_iff s).1 h))]
      simp [hp, bind, Except.bind]

/-- The failures of `ucamel_case`: a `ValueError` on the empty identifier and an `IndexError` on an
identifier with an empty part; nothing else. -/
theorem C01_ucamel_case_error (s : Str) (e : Exc) :
    ucamelCase s = .error e ↔
      (s = [] ∧ e = .valueError c!"Empty identifier") ∨
      (s ≠ [] ∧ ¬ NoEmptyPart s ∧ e = .indexError) := by
  by_cases hs : s = []
  · subst hs; simp [ucamelCase, eq_comm]
  · by_cases hp : NoEmptyPart s
    · have := (C01_ucamel_case_ok_iff s _).2 ⟨hp, rfl⟩
      rw [this]; simp [hs, hp]
    · unfold ucamelCase
      rw [if_neg hs, capitalizeAll_error (splitIdentifier s) (fun h => hp ((parts_iff s).1 h))]
      simp [hp, hs, bind, Except.bind, eq_comm]

/-- The result of `ucamel_case` has no underscore, keeps every other character up to its case and
starts with the upper-cased first character of the identifier. -/
theorem C01_ucamel_case_shape (s r : Str) (h : ucamelCase s = .ok r) :
    '_' ∉ r ∧ lower r = lower (s.filter (· ≠ '_')) ∧ r.head? = s.head?.map Char.toUpper := by
  obtain ⟨hp, rfl⟩ := (C01_ucamel_case_ok_iff s r).1 h
  refine ⟨not_mem_camelSpec _ _, ?_, ?_⟩
  · generalize true = b
    clear h hp
    induction s generalizing b with
    | nil => simp [camelSpec, lower]
    | cons x xs ih =>
      simp only [camelSpec]
      split
      · rename_i hx; simpa [hx] using ih true
      · rename_i hx
        have : (if b then x.toUpper else x).toLower = x.toLower := by
          cases b
          · rfl
          · simp only [if_true]
            rw [char_eq_iff_toNat]; simp only [toNat_toLower, toNat_toUpper]; grind
        have ih' := ih false
        simp only [lower] at ih' ⊢
        simp [hx, this, ih']
  · obtain ⟨c, cs, rfl, hc⟩ := camelSpec_head s hp.1 hp.2.1
    rw [hc]; simp

example : ucamelCase c!"IDs_of_URLs" = .ok c!"IDsOfURLs" := by decide
example : NoEmptyPart c!"IDs_of_URLs" := by decide

/-- `camel_case` returns `r` iff the identifier is non-empty, no part after the first one is empty,
`r` lower-cases the first part and capitalizes the others, and the first character of `r` is not an
upper-case letter (which happens only for an identifier with a leading underscore). -/
theorem C01_camel_case_ok_iff (s r : Str) :
    camelCase s = .ok r ↔
      s ≠ [] ∧ ¬ ['_'] <:+ s ∧ ¬ ['_', '_'] <:+: s ∧
      (∃ c, s.head? = some c ∧
        if c = '_' then (∃ d, s.tail.head? = some d ∧ isUpper d.toUpper = false)
        else True) ∧
      r = lower (s.takeWhile (· ≠ '_')) ++ camelSpec true (s.dropWhile (· ≠ '_')) := by
  unfold camelCase
  by_cases hs : s = []
  · subst hs; simp
  rw [if_neg hs]
  obtain ⟨x, xs, rfl⟩ : ∃ x xs, s = x :: xs := by
    cases s with
    | nil => exact absurd rfl hs
    | cons x xs => exact ⟨x, xs, rfl⟩
  have hsplit : ∀ t : Str, ∃ ps, splitChar '_' t = t.takeWhile (· ≠ '_') :: ps ∧
      camelSpec true (t.dropWhile (· ≠ '_')) = (ps.map capPart).flatten := by
    intro t
    induction t with
    | nil => exact ⟨[], by simp [splitChar, camelSpec]⟩
    | cons y ys ih =>
      obtain ⟨ps, h1, h2⟩ := ih
      by_cases hy : y = '_'
      · subst hy
        refine ⟨splitChar '_' ys, by simp [splitChar], ?_⟩
        simp only [ne_eq, not_true_eq_false, decide_false, List.dropWhile_cons]
        simp only [Bool.false_eq_true, if_false]
        rw [show camelSpec true ('_' :: ys) = camelSpec true ys from by simp [camelSpec]]
        exact camelSpec_eq_true ys
      · refine ⟨ps, ?_, ?_⟩
        · simp [splitChar, hy, h1]
        · simpa [List.dropWhile_cons, hy] using h2
  obtain ⟨ps, h1, h2⟩ := hsplit (x :: xs)
  have htail := tail_parts_iff (x :: xs)
  rw [h1] at htail
  simp only [List.tail_cons] at htail
  unfold splitIdentifier
  rw [h1]
  simp only
  by_cases hp : ∀ p ∈ ps, p ≠ []
  · have hp' := htail.1 hp
    rw [capitalizeAll_ok ps hp, h2]
    simp only [bind, Except.bind, pure, Except.pure]
    by_cases hx : x = '_'
    · subst hx
      simp only [ne_eq, not_true_eq_false, decide_false, Bool.false_eq_true, not_false_eq_true,
        List.takeWhile_cons_of_neg, lower, List.map_nil, List.nil_append, reduceCtorEq, true_and,
        hp', List.head?_cons, Option.some.injEq, if_true, exists_eq_left', List.tail_cons]
      cases xs with
      | nil => simp at hp'
      | cons y ys =>
        have hy : y ≠ '_' := by
          rintro rfl
          apply hp'.2; exact ⟨[], ys, by simp⟩
        have h3 : camelSpec true ('_' :: y :: ys) = y.toUpper :: camelSpec false ys := by
          simp [camelSpec, hy]
        have h4 := h2
        rw [List.dropWhile_cons_of_neg (by simp)] at h4
        rw [h3] at h4
        rw [← h4]
        simp only [List.head?_cons, Option.some.injEq, exists_eq_left']
        have key : y.toUpper = y.toUpper.toLower ↔ isUpper y.toUpper = false := by
          rw [Bool.eq_false_iff, Ne, isUpper_iff, char_eq_iff_toNat]
          rw [toNat_toLower]; grind
        split
        · rename_i h; rw [key] at h; simp [h, eq_comm]
        · rename_i h; rw [key] at h; simp [h]
    · have : (x :: xs).takeWhile (· ≠ '_') = x :: xs.takeWhile (· ≠ '_') := by
        simp [hx]
      rw [this]
      simp [lower, toLower_toLower, hp', hx]
      exact eq_comm
  · have hp' : ¬ (¬ ['_'] <:+ x :: xs ∧ ¬ ['_', '_'] <:+: x :: xs) := fun h => hp (htail.2 h)
    rw [capitalizeAll_error ps hp]
    simp only [bind, Except.bind, reduceCtorEq, false_iff]
    rintro ⟨_, h3, h4, _⟩
    exact hp' ⟨h3, h4⟩

example : camelCase c!"IDs_of_URLs" = .ok c!"idsOfURLs" := by decide
example : camelCase c!"_1st" = .ok c!"1st" := by decide
example : camelCase c!"_first" = .error .violation := by decide

/-! ## C02: names admitted by the schema -/

/-- Specification of the names admitted by `^[A-Z]([a-zA-Z0-9_]*[a-zA-Z0-9])?$`
(`/repo/mapry/schemas.py`, definition `Class`). -/
def ClassName : Str → Prop
  | [] => False
  | c :: cs => isUpper c = true ∧ (∀ d ∈ cs, d.isAlphanum = true ∨ d = '_') ∧ ¬ ['_'] <:+ cs

instance : (s : Str) → Decidable (ClassName s)
  | [] => by unfold ClassName; infer_instance
  | _ :: _ => by unfold ClassName; infer_instance

/-- The property is violated: the schema admits `A__b`, and the conversion raises an
`IndexError`. -/
theorem C02_violated : ¬ ∀ s, ClassName s → ∃ r, asComposite s = .ok r := by
  intro h
  have := h c!"A__b" (by decide)
  rw [show asComposite c!"A__b" = .error .indexError from by decide] at this
  simp at this

/-- C02 for the names without a doubled underscore. Missing: the names with a doubled underscore,
for which `C02_exact` shows that the conversion always raises. -/
theorem C02_class_name_converts_partial (s : Str) (h : ClassName s) (h2 : ¬ ['_', '_'] <:+: s) :
    asComposite s = .ok (camelSpec true s) := by
  cases s with
  | nil => exact absurd h (by simp [ClassName])
  | cons c cs =>
    obtain ⟨h3, h4, h5⟩ := h
    unfold asComposite
    simp only [h3, if_true]
    have hc : c ≠ '_' := by rintro rfl; revert h3; decide
    refine (C01_ucamel_case_ok_iff _ _).2 ⟨⟨by simp, ?_, ?_, h2⟩, rfl⟩
    · simp [Ne.symm hc]
    · rw [List.suffix_cons_iff]
      simp [h5, Ne.symm hc]

/-- Exactly the doubled underscores break the conversion of an admitted name. -/
theorem C02_exact (s : Str) (h : ClassName s) :
    (∃ r, asComposite s = .ok r) ↔ ¬ ['_', '_'] <:+: s := by
  constructor
  · rintro ⟨r, hr⟩
    cases s with
    | nil => exact absurd h (by simp [ClassName])
    | cons c cs =>
      unfold asComposite at hr
      simp only [h.1, if_true] at hr
      exact ((C01_ucamel_case_ok_iff _ _).1 hr).1.2.2.2
  · intro h2
    exact ⟨_, C02_class_name_converts_partial s h h2⟩

example : ClassName c!"Some_URL_class" ∧ ¬ ['_', '_'] <:+: c!"Some_URL_class" := by decide

/-! ## C03: inferred plurals -/

/-- Specification of a usable plural of the name `s`: the JSON key can be derived from it, it
differs from the name, it starts with the same letter and it keeps all the parts but the last. -/
def UsablePlural (s p : Str) : Prop :=
  jsonPlural p = .ok (lower p) ∧ p ≠ s ∧ p.head? = s.head? ∧
  ∃ pre last, s = pre ++ last ∧ '_' ∉ last ∧ (pre = [] ∨ ['_'] <:+ pre) ∧ pre <+: p

/-- The property is violated: `Some_focus` is put into the plural `foci` and the derivation of the
JSON key raises. -/
theorem C03_violated : ¬ ∀ s, ClassName s → UsablePlural s (plural s) := by
  intro h
  have h1 := (h c!"Some_focus" (by decide)).1
  rw [show plural c!"Some_focus" = c!"foci" from by decide] at h1
  revert h1; decide

/-- A capital irregular last part loses the other parts of the name as well, so that two different
classes silently get the same registry name. -/
theorem C03_violated_prefix_lost : plural c!"First_Focus" = plural c!"Second_Focus" := by decide

theorem last_part_spec (s : Str) : ∃ pre last,
    s = pre ++ last ∧ '_' ∉ last ∧ (pre = [] ∨ ['_'] <:+ pre) ∧
    last = (splitChar '_' s).getLast (splitChar_ne_nil _ _) := by
  induction s with
  | nil => exact ⟨[], [], by simp [splitChar]⟩
  | cons x xs ih =>
    obtain ⟨pre, last, h1, h2, h3, h4⟩ := ih
    by_cases hx : x = '_'
    · refine ⟨x :: pre, last, by simp [h1], h2, ?_, ?_⟩
      · right
        rcases h3 with rfl | h3
        · simp [hx]
        · exact h3.trans (List.suffix_cons _ _)
      · subst hx
        simp [splitChar, List.getLast_cons (splitChar_ne_nil '_' xs), h4]
    · have hj := joinWith_splitChar '_' xs
      cases hs : splitChar '_' xs with
      | nil => exact absurd hs (splitChar_ne_nil _ _)
      | cons p ps =>
        have hsp : splitChar '_' (x :: xs) = (x :: p) :: ps := by simp [splitChar, hx, hs]
        simp only [hsp]
        simp only [hs] at h4
        cases ps with
        | nil =>
          rw [hs] at hj
          simp only [joinWith] at hj
          simp at h4
          refine ⟨[], x :: xs, by simp, ?_, by simp, by simp [hj]⟩
          rw [← hj, ← h4]
          simp [Ne.symm hx, h2]
        | cons q qs =>
          refine ⟨x :: pre, last, by simp [h1], h2, ?_, by simpa using h4⟩
          right
          rcases h3 with rfl | h3
          · -- the last part would be the whole rest, which contains the separator
            exfalso
            rw [hs] at hj
            simp only [joinWith] at hj
            simp only [List.nil_append] at h1
            subst h1
            apply h2
            rw [← hj]; simp
          · exact h3.trans (List.suffix_cons _ _)

/-- C03 for the names whose last part is regular and for the names of a single part. Missing: the
names of several parts of which the last one is one of the irregular words. -/
theorem C03_plural_usable_partial (s : Str) (h : ClassName s)
    (hr : '_' ∉ s ∨ ∀ last, (splitChar '_' s).getLast? = some last →
      last ∉ pluralTable.map Prod.fst) :
    UsablePlural s (plural s) := by
  obtain ⟨pre, last, h1, h2, h3, h4⟩ := last_part_spec s
  have h5 : (splitChar '_' s).getLast? = some last := by
    rw [h4]; exact List.getLast?_eq_some_getLast _
  obtain ⟨c, cs, rfl⟩ : ∃ c cs, s = c :: cs := by
    cases s with
    | nil => exact absurd h (by simp [ClassName])
    | cons c cs => exact ⟨c, cs, rfl⟩
  have hc := h.1
  have hjson : ∀ t, jsonPlural (c :: t) = .ok (lower (c :: t)) := by
    intro t; simp [jsonPlural, hc]
  have hcy : c ≠ 'y' := by rintro rfl; revert hc; decide
  unfold plural splitIdentifier
  simp only
  rw [← h4]
  cases hl : pluralTable.lookup last with
  | some p =>
    have hmem := lookup_some_mem _ _ _ hl
    have hmem' : last ∈ pluralTable.map Prod.fst := List.mem_map.2 ⟨_, hmem, rfl⟩
    rcases hr with hr | hr
    · have hpre : pre = [] := by
        rcases h3 with h3 | h3
        · exact h3
        · exfalso
          apply hr
          rw [h1]
          exact List.mem_append_left _ (h3.subset (by simp))
      subst hpre
      simp only [List.nil_append] at h1
      subst h1
      have key : ∀ x ∈ pluralTable, x.2 ≠ x.1 ∧
          ((x.1.head?.all isUpper) = true →
            jsonPlural x.2 = .ok (lower x.2) ∧ x.2.head? = x.1.head?) := by decide
      have := key _ hmem
      refine ⟨(this.2 (by simp [hc])).1, this.1, (this.2 (by simp [hc])).2,
        [], c :: cs, by simp, h2, by simp, by simp⟩
    · exact absurd hmem' (hr last h5)
  | none =>
    have happ : ∀ suf : Str, suf ≠ [] → UsablePlural (c :: cs) (c :: cs ++ suf) := by
      intro suf hsuf
      refine ⟨by simpa using hjson _, ?_, by simp, pre, last, h1, h2, h3, ?_⟩
      · simp [hsuf]
      · rw [h1]; simp
    simp only
    split
    · exact happ _ (by simp)
    · split
      · rename_i hy
        simp only [endsWith, List.isSuffixOf_iff_suffix] at hy
        obtain ⟨l', rfl⟩ := hy
        have hpre : (c :: cs).dropLast = pre ++ l' := by
          rw [h1, ← List.append_assoc, List.dropLast_concat]
        rw [hpre]
        have hne : pre ++ l' ≠ [] := by
          intro e
          rw [← List.append_assoc, e] at h1
          simp at h1
          exact hcy h1.1
        obtain ⟨d, ds, hd⟩ : ∃ d ds, pre ++ l' = d :: ds := by
          cases hq : pre ++ l' with
          | nil => exact absurd hq hne
          | cons d ds => exact ⟨d, ds, rfl⟩
        have hdc : d = c := by
          rw [← List.append_assoc, hd] at h1
          simp at h1
          exact h1.1.symm
        subst hdc
        refine ⟨by rw [hd]; exact hjson _, ?_, by rw [hd]; simp, pre, l' ++ ['y'], h1, h2, h3, ?_⟩
        · rw [h1]
          intro e
          have := congrArg List.length e
          simp at this
        · simp [List.append_assoc]
      · split
        · exact happ _ (by simp)
        · exact happ _ (by simp)

example : UsablePlural c!"Bounding_box" (plural c!"Bounding_box") :=
  C03_plural_usable_partial _ (by decide) (Or.inr (by
    intro last h
    have : last = c!"box" := by
      rw [show (splitChar '_' c!"Bounding_box").getLast? = some c!"box" from by decide] at h
      exact (Option.some.inj h).symm
    subst this; decide))

/-- The plural is inferred by the documented suffix rules whenever the last part is regular. -/
theorem C03_suffix_rules (s : Str)
    (hr : ∀ last, (splitChar '_' s).getLast? = some last → last ∉ pluralTable.map Prod.fst) :
    (∀ v ∈ c!"aeiou", ∀ t, s = t ++ [v, 'y'] → plural s = s ++ c!"s") ∧
    (∀ t v, s = t ++ [v, 'y'] → v ∉ c!"aeiou" → plural s = t ++ [v] ++ c!"ies") ∧
    (∀ t, (s = t ++ c!"x" ∨ s = t ++ c!"s") → plural s = s ++ c!"es") ∧
    (∀ t c, s = t ++ [c] → c ∉ c!"xsy" → plural s = s ++ c!"s") := by
  obtain ⟨pre, last, h1, h2, h3, h4⟩ := last_part_spec s
  have h5 : (splitChar '_' s).getLast? = some last := by
    rw [h4]; exact List.getLast?_eq_some_getLast _
  have hl : pluralTable.lookup last = none := by
    cases hl : pluralTable.lookup last with
    | none => rfl
    | some p => exact absurd (List.mem_map.2 ⟨_, lookup_some_mem _ _ _ hl, rfl⟩) (hr last h5)
  -- a suffix without underscores is a suffix of the identifier iff it is one of the last part
  have hsuf : ∀ suf : Str, '_' ∉ suf → (suf <:+ last ↔ suf <:+ s) := by
    intro suf hsuf
    constructor
    · intro h
      rw [h1]
      exact h.trans (List.suffix_append _ _)
    · intro h
      rw [h1] at h
      rcases List.suffix_or_suffix_of_suffix h (List.suffix_append pre last) with h' | h'
      · exact h'
      · obtain ⟨u, rfl⟩ := h'
        rw [List.suffix_append_self_iff] at h
        by_cases hu : u = []
        · simp [hu]
        · exfalso
          have hpre : pre ≠ [] := by
            rintro rfl
            exact hu (List.suffix_nil.1 h)
          rcases h3 with h3 | h3
          · exact hpre h3
          · apply hsuf
            apply List.mem_append_left
            obtain ⟨w, hw⟩ := h3
            obtain ⟨w', hw'⟩ := h
            have e := congrArg List.getLast? (hw'.trans hw.symm)
            rw [List.getLast?_append, List.getLast?_append, List.getLast?_eq_some_getLast hu] at e
            simp at e
            rw [← e]
            exact List.getLast_mem hu
  have hend : ∀ suf : Str, '_' ∉ suf → endsWith suf last = suf.isSuffixOf s := by
    intro suf h
    rw [Bool.eq_iff_iff, List.isSuffixOf_iff_suffix, ← hsuf suf h]; simp [endsWith]
  have hs2 : ∀ (t : Str) (a b v w : Char), [a, b] <:+ t ++ [v, w] ↔ a = v ∧ b = w := by
    intro t a b v w
    constructor
    · rintro ⟨u, hu⟩
      have := List.append_inj_right' hu rfl
      simpa using this
    · rintro ⟨rfl, rfl⟩; exact List.suffix_append _ _
  have hs1 : ∀ (t : Str) (a w : Char), [a] <:+ t ++ [w] ↔ a = w := by
    intro t a w
    constructor
    · rintro ⟨u, hu⟩
      have := List.append_inj_right' hu rfl
      simpa using this
    · rintro rfl; exact List.suffix_append _ _
  have hs1' : ∀ (t : Str) (a v w : Char), [a] <:+ t ++ [v, w] ↔ a = w := by
    intro t a v w
    rw [show t ++ [v, w] = (t ++ [v]) ++ [w] by simp, hs1]
  have hplural : plural s =
      if c!"ay".isSuffixOf s || c!"ey".isSuffixOf s || c!"iy".isSuffixOf s
          || c!"oy".isSuffixOf s || c!"uy".isSuffixOf s then s ++ c!"s"
      else if c!"y".isSuffixOf s then s.dropLast ++ c!"ies"
      else if c!"x".isSuffixOf s || c!"s".isSuffixOf s then s ++ c!"es"
      else s ++ c!"s" := by
    unfold plural splitIdentifier
    simp only [← h4, hl]
    rw [hend _ (by decide), hend _ (by decide), hend _ (by decide), hend _ (by decide),
      hend _ (by decide), hend _ (by decide), hend _ (by decide), hend _ (by decide)]
  have hy2 : ∀ (t : Str) (a w : Char), w ≠ 'y' → ¬ [a, 'y'] <:+ t ++ [w] := by
    rintro t a w hw ⟨u, hu⟩
    rw [show u ++ [a, 'y'] = (u ++ [a]) ++ ['y'] by simp] at hu
    have := List.append_inj_right' hu rfl
    simp at this
    exact hw this.symm
  simp only [Bool.or_eq_true, List.isSuffixOf_iff_suffix] at hplural
  refine ⟨?_, ?_, ?_, ?_⟩
  · rintro v hv t rfl
    rw [hplural, if_pos]
    simp only [hs2]
    simp at hv
    grind
  · rintro t v rfl hv
    rw [hplural, if_neg, if_pos]
    · simp
    · simp [hs1']
    · simp only [hs2]
      simp at hv
      grind
  · rintro t (rfl | rfl)
    · rw [hplural, if_neg, if_neg, if_pos]
      · simp [hs1]
      · simp [hs1]
      · simp [hy2]
    · rw [hplural, if_neg, if_neg, if_pos]
      · simp [hs1]
      · simp [hs1]
      · simp [hy2]
  · rintro t c rfl hc
    simp at hc
    rw [hplural, if_neg, if_neg, if_neg]
    · simp [hs1, Ne.symm hc.1, Ne.symm hc.2.1]
    · simp [hs1, Ne.symm hc.2.2]
    · simp [hy2, hc.2.2]

example : plural c!"Daisy" = c!"Daisies" := by decide

end Mapry.Props
