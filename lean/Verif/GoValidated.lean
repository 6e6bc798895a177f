import Verif.GoTotal
import Verif.TextLemmas
import Verif.GoDeclared
import Verif.Props.LangValidate
import Verif.Props.Schema

/-!
# Schemas which are parsed and which pass the Go validation
-/

namespace Mapry.GoCode

open Mapry.TypeGraph Mapry.Naming Mapry.Props Mapry.LangValidate
open Mapry.PyRuntime (Json)
open Mapry.SchemaSpec Mapry.ParseSchema

/-! ## The graph of a parsed schema -/

theorem typeOf_parts {fl : Json → Bounds → Prop} {cs es : List Str} {j : Json} {t : Ty} (h : TypeOf fl cs es j t) :
    ∀ u ∈ parts t, (∀ n, u = .cls n → n ∈ cs) ∧ ∀ n, u = .embed n → n ∈ es := by
  induction h with
  | array _ _ _ _ _ ih =>
    intro u hu
    rcases List.mem_cons.1 hu with rfl | hu
    · exact ⟨fun n e => (by cases e), fun n e => (by cases e)⟩
    · exact ih u hu
  | map _ _ _ ih =>
    intro u hu
    rcases List.mem_cons.1 hu with rfl | hu
    · exact ⟨fun n e => (by cases e), fun n e => (by cases e)⟩
    · exact ih u hu
  | cls _ h =>
    intro u hu
    cases List.mem_singleton.1 hu
    exact ⟨fun n e => (by cases e; exact h), fun n e => (by cases e)⟩
  | embed _ h =>
    intro u hu
    cases List.mem_singleton.1 hu
    exact ⟨fun n e => (by cases e), fun n e => (by cases e; exact h)⟩
  | _ =>
    intro u hu
    cases List.mem_singleton.1 hu
    exact ⟨fun n e => (by cases e), fun n e => (by cases e)⟩

theorem propertiesOf_parts {fl : Json → Bounds → Prop} {cs es : List Str} {ref : Str} {c : Json} {ps : List Property}
    (h : PropertiesOf fl cs es ref c ps) {p : Property} (hp : p ∈ ps) :
    ∀ u ∈ parts p.ty, (∀ n, u = .cls n → n ∈ cs) ∧ ∀ n, u = .embed n → n ∈ es := by
  obtain ⟨items, _, hf⟩ := h
  obtain ⟨x, _, hx⟩ := forall₂_right hf hp
  exact typeOf_parts hx.ty

theorem resolves_of {fl : Json → Bounds → Prop} {plural : Str → Str} {ref : Str} {mapping : Json} {g : Graph}
    (h : GraphOf fl plural ref mapping g) : Resolves g := by
  have key : ∀ t, Occurs g t → (∀ n, t = .cls n → n ∈ g.classes.map (·.name)) ∧
      ∀ n, t = .embed n → n ∈ g.embeds.map (·.name) := by
    rintro t (⟨p, hp, ht⟩ | ⟨c, p, hc, hp, ht⟩ | ⟨e, p, he, hp, ht⟩)
    · exact propertiesOf_parts h.properties hp t ht
    · obtain ⟨x, _, hx⟩ := forall₂_right h.classes hc
      exact propertiesOf_parts hx.properties hp t ht
    · obtain ⟨x, _, hx⟩ := forall₂_right h.embeds he
      exact propertiesOf_parts hx.properties hp t ht
  constructor
  · intro n hn
    obtain ⟨c, hc, e⟩ := List.mem_map.1 ((key _ hn).1 n rfl)
    exact ⟨c, hc, e⟩
  · intro n hn
    obtain ⟨c, hc, e⟩ := List.mem_map.1 ((key _ hn).2 n rfl)
    exact ⟨c, hc, e⟩

theorem parsed_facts {L : Validation.Lib} {mapping : Json} {ref : Str} {s : Schema}
    (h : schemaFromMapping L mapping ref = .ok s) : Named s.graph ∧ Resolves s.graph := by
  have hg := graph_spec h fun _ _ p _ _ => cutFloats_by p
  obtain ⟨types, hcl⟩ := Validation.clean_of (validated_of h).1
  obtain ⟨n1, n2⟩ := names_nodup hcl hg
  exact ⟨⟨n1, n2⟩, resolves_of hg⟩

/-! ## When a format can be converted -/

/-- The last line of the format is empty and it is not the only one. -/
def BlankEnd (f : Str) : Prop := ∃ a x, Strftime.splitlines f = a ++ [x, []]

theorem joinWith_ends (ls : List Str) (hn : ∀ l ∈ ls, '\n' ∉ l) :
    ['\n'] <:+ joinWith ['\n'] ls ↔ ∃ a x, ls = a ++ [x, []] := by
  have no : ∀ l : Str, '\n' ∉ l → ¬ ['\n'] <:+ l := fun l hl h => hl (h.subset (by simp))
  induction ls with
  | nil => simp [joinWith]
  | cons p ls ih =>
    cases ls with
    | nil =>
      simp only [joinWith]
      refine ⟨fun h => absurd h (no p (hn p (by simp))), ?_⟩
      rintro ⟨a, x, h⟩
      have := congrArg List.length h
      simp at this
    | cons q ls =>
      simp only [joinWith]
      by_cases hq : joinWith ['\n'] (q :: ls) = []
      · cases ls with
        | nil =>
          simp only [joinWith] at hq
          subst hq
          simp only [joinWith, List.append_nil]
          exact ⟨fun _ => ⟨[], p, rfl⟩, fun _ => ⟨p, rfl⟩⟩
        | cons r ls => simp [joinWith] at hq
      · have ih := ih fun l hl => hn l (by simp [hl])
        have h1 : ['\n'] <:+ p ++ ['\n'] ++ joinWith ['\n'] (q :: ls) ↔ ['\n'] <:+ joinWith ['\n'] (q :: ls) := by
          constructor
          · intro h
            obtain ⟨t, ht⟩ := h
            have e := congrArg List.getLast? ht
            rw [List.getLast?_append, List.getLast?_append] at e
            cases hl : (joinWith ['\n'] (q :: ls)).getLast? with
            | none => exact absurd (List.getLast?_eq_none_iff.1 hl) hq
            | some c =>
              rw [hl] at e
              simp at e
              obtain ⟨ys, hy⟩ := List.getLast?_eq_some_iff.1 hl
              exact ⟨ys, by rw [hy, e]⟩
          · exact fun h => h.trans (List.suffix_append ..)
        refine h1.trans (ih.trans ?_)
        constructor
        · rintro ⟨a, x, h⟩
          exact ⟨p :: a, x, by rw [h]; rfl⟩
        · rintro ⟨a, x, h⟩
          cases a with
          | nil =>
            simp only [List.nil_append, List.cons.injEq] at h
            obtain ⟨_, rfl, rfl⟩ := h
            exact absurd rfl hq
          | cons b a =>
            simp only [List.cons_append, List.cons.injEq] at h
            exact ⟨a, x, h.2⟩

theorem convertTok_ne {t : Strftime.Tok} {s : Str} (ht : ∀ u, t = .text u → u ≠ []) (h : Strftime.convertTok t = .ok s) :
    s ≠ [] := by
  cases t with
  | text u => cases h; exact ht _ rfl
  | directive c =>
    simp only [Strftime.convertTok] at h
    cases hl : Strftime.goTable.lookup c with
    | none => rw [hl] at h; cases h
    | some r =>
      rw [hl] at h
      cases h
      have key : ∀ x ∈ Strftime.goTable, x.2 ≠ [] := by decide
      exact key _ (Naming.lookup_some_mem _ _ _ hl)

theorem convertLine_nil {ts : List Strftime.Tok} {s : Str} (ht : ∀ u, Strftime.Tok.text u ∈ ts → u ≠ [])
    (h : Strftime.convertLine ts = .ok s) : s = [] ↔ ts = [] := by
  cases ts with
  | nil => cases h; simp
  | cons t ts =>
    simp only [Strftime.convertLine] at h
    obtain ⟨a, ha, h⟩ := ok_bind h
    obtain ⟨b, hb, h⟩ := ok_bind h
    cases h
    have := convertTok_ne (fun u hu => ht u (by simp [hu])) ha
    simp [this]

theorem lexing_nil {ds : Char → Prop} {l : Str} {ts : List Strftime.Tok} (h : Strftime.IsLexing ds l ts) :
    l = [] ↔ ts = [] := by
  rw [← h.concat]
  cases ts with
  | nil => simp
  | cons t ts =>
    cases t with
    | directive c => simp [Strftime.Tok.content]
    | text s =>
      have := (h.text s (by simp)).1
      simp [Strftime.Tok.content, this]

theorem convertLines_spec {ls : List Str} {tss : List (List Strftime.Tok)}
    (h : Forall₂ (Strftime.IsLexing (· ∈ Strftime.supported)) ls tss)
    (hb : ∀ l ∈ ls, '\n' ∉ l) :
    ∃ parts, Strftime.convertLines tss = .ok parts ∧ (∀ p ∈ parts, '\n' ∉ p) ∧ parts.map List.isEmpty = ls.map List.isEmpty := by
  induction h with
  | nil => exact ⟨[], rfl, by simp, rfl⟩
  | @cons l ts ls tss h1 h2 ih =>
    obtain ⟨parts, hp, hn, he⟩ := ih fun l hl => hb l (by simp [hl])
    obtain ⟨s, hs⟩ := convertLine_total ts h1.directive
    have hsn : '\n' ∉ s := by
      apply convertLine_no_newline ts s hs
      intro u hu hn
      apply hb l (by simp)
      rw [← h1.concat]
      simp only [List.mem_flatten, List.mem_map]
      exact ⟨u, ⟨_, hu, rfl⟩, hn⟩
    refine ⟨s :: parts, by simp [Strftime.convertLines, hs, hp, bind, Except.bind, pure, Except.pure], ?_, ?_⟩
    · intro p hp
      rcases List.mem_cons.1 hp with rfl | hp
      · exact hsn
      · exact hn p hp
    · have h3 := convertLine_nil (fun u hu => (h1.text u hu).1) hs
      have h4 := lexing_nil h1
      have : s.isEmpty = l.isEmpty := by
        rw [Bool.eq_iff_iff, List.isEmpty_iff, List.isEmpty_iff, h3, h4]
      simp [this, he]

theorem blank_congr {a b : List Str} (h : a.map List.isEmpty = b.map List.isEmpty) :
    (∃ c x, a = c ++ [x, []]) ↔ ∃ c x, b = c ++ [x, []] := by
  have key : ∀ {a b : List Str}, a.map List.isEmpty = b.map List.isEmpty → (∃ c x, a = c ++ [x, []]) →
      ∃ c x, b = c ++ [x, []] := by
    rintro a b h ⟨c, x, rfl⟩
    rw [List.map_append] at h
    obtain ⟨b1, b2, rfl, h1, h2⟩ := List.map_eq_append_iff.1 h.symm
    cases b2 with
    | nil => simp at h2
    | cons y b2 =>
      cases b2 with
      | nil => simp at h2
      | cons z b2 =>
        simp at h2
        exact ⟨b1, y, by rw [h2.2.1, h2.2.2]⟩
  exact ⟨key h, key h.symm⟩

theorem convert_ok_iff (f : Str) : Ok (Strftime.convert f) ↔ (∃ tss, Strftime.tokenize f = .ok tss) ∧ ¬ BlankEnd f := by
  constructor
  · rintro ⟨r, h⟩
    obtain ⟨tss, ht, h⟩ := ok_bind h
    refine ⟨⟨tss, ht⟩, ?_⟩
    obtain ⟨ps, hp, hn, he⟩ := convertLines_spec ((C04_tokenize_ok_iff f tss).1 ht)
      fun l hl hm => absurd (_root_.Mapry.Text.splitlines_no_break f l hl _ hm) (by decide)
    obtain ⟨ps', hp', h⟩ := ok_bind h
    rw [hp] at hp'
    cases hp'
    unfold BlankEnd
    rw [← blank_congr he, ← joinWith_ends ps hn]
    intro hend
    rw [← List.isSuffixOf_iff_suffix] at hend
    simp only [endsWith, hend] at h
    cases h
  · rintro ⟨⟨tss, ht⟩, hb⟩
    obtain ⟨ps, hp, hn, he⟩ := convertLines_spec ((C04_tokenize_ok_iff f tss).1 ht)
      fun l hl hm => absurd (_root_.Mapry.Text.splitlines_no_break f l hl _ hm) (by decide)
    unfold BlankEnd at hb
    rw [← blank_congr he, ← joinWith_ends ps hn, ← List.isSuffixOf_iff_suffix] at hb
    refine ⟨joinWith ['\n'] ps, ?_⟩
    simp [Strftime.convert, ht, hp, bind, Except.bind, pure, Except.pure, endsWith, hb]

/-! ## Generation for validated schemas -/

/-- The text starts with a capital. -/
def Capital (s : Str) : Prop := ∃ x xs, s = x :: xs ∧ 'A' ≤ x ∧ x ≤ 'Z'

theorem jsonPlural_ok_iff (s : Str) : Ok (jsonPlural s) ↔ Capital s := by
  unfold Ok Capital jsonPlural
  cases s with
  | nil => simp
  | cons c cs =>
    simp only [List.cons.injEq]
    by_cases hc : isUpper c = true
    · rw [if_pos hc]
      simp only [isUpper, Char.isUpper, decide_eq_true_eq] at hc
      exact ⟨fun _ => ⟨c, cs, ⟨rfl, rfl⟩, hc⟩, fun _ => ⟨_, rfl⟩⟩
    · rw [if_neg hc]
      simp only [isUpper, Char.isUpper, decide_eq_true_eq] at hc
      constructor
      · rintro ⟨r, h⟩
        cases h
      · rintro ⟨x, xs, ⟨rfl, rfl⟩, h⟩
        exact absurd h hc

theorem camel_of_ucamel {s : Str} (h : Ok (ucamelCase s)) : Ok (camelCase s) := by
  obtain ⟨r, h⟩ := h
  obtain ⟨⟨h1, h2, h3, h4⟩, _⟩ := (C01_ucamel_case_ok_iff s r).1 h
  refine ⟨_, (C01_camel_case_ok_iff s _).2 ⟨h1, h3, h4, ?_, rfl⟩⟩
  cases s with
  | nil => exact absurd rfl h1
  | cons c cs =>
    refine ⟨c, rfl, ?_⟩
    rw [if_neg]
    · trivial
    · rintro rfl
      exact h2 ⟨cs, rfl⟩

theorem hasFormat_iff {g : Graph} {f : Str} : (∃ r, HasFormat g f r) ↔ ∃ t, Occurs g t ∧ formatOf t = some f := by
  constructor
  · rintro ⟨r, h | h | h⟩
    · exact ⟨_, mem_iterate.1 ⟨r, h⟩, rfl⟩
    · exact ⟨_, mem_iterate.1 ⟨r, h⟩, rfl⟩
    · exact ⟨_, mem_iterate.1 ⟨r, h⟩, rfl⟩
  · rintro ⟨t, h, hf⟩
    obtain ⟨r, h⟩ := mem_iterate.2 h
    refine ⟨r, ?_⟩
    cases t <;> simp only [formatOf, Option.some.injEq, reduceCtorEq] at hf
    · subst hf; exact .date h
    · subst hf; exact .time h
    · subst hf; exact .datetime h

theorem tokenize_of_go {f : Str} (h : Strftime.goFormatOk f = true) : ∃ tss, Strftime.tokenize f = .ok tss := by
  unfold Strftime.goFormatOk at h
  cases ht : Strftime.tokenize f with
  | error e => rw [ht] at h; cases h
  | ok tss => exact ⟨tss, rfl⟩

theorem convertible_iff {g : Graph} (hv : goValidateSchema g = .ok []) :
    Convertible g ↔ (∀ c ∈ g.classes, Capital c.plural) ∧ ∀ t f, Occurs g t → formatOf t = some f → ¬ BlankEnd f := by
  obtain ⟨hneeds, hf⟩ := (C25_valid_iff_partial g).1 hv
  constructor
  · intro h
    exact ⟨fun c hc => (jsonPlural_ok_iff _).1 (h.classes c hc).2.2.2.2,
      fun t f ht he => ((convert_ok_iff f).1 (h.formats t f ht he)).2⟩
  · rintro ⟨h1, h2⟩
    obtain ⟨n, hn, _⟩ := hneeds.graph
    obtain ⟨ids, hids, _⟩ := hneeds.ids
    obtain ⟨ns, rs, hns, hrs, _⟩ := hneeds.graphFields
    have hname : ∀ c ∈ definitions g, Ok (ucamelCase c.name) := by
      intro c hc
      obtain ⟨y, _, hy⟩ := forall₂_mem_left hids hc
      exact ⟨y, hy⟩
    have hprop : ∀ c ∈ definitions g, ∀ p ∈ c.properties, Ok (ucamelCase p.name) := by
      intro c hc p hp
      obtain ⟨ms, hms, _⟩ := hneeds.fields c hc
      obtain ⟨y, _, hy⟩ := forall₂_mem_left hms hp
      exact ⟨y, hy⟩
    have hcls : ∀ c ∈ g.classes, (⟨.cls, c.name, c.ref, c.properties⟩ : Comp) ∈ definitions g := by
      intro c hc
      unfold definitions
      exact List.mem_append_left _ (List.mem_map.2 ⟨c, hc, rfl⟩)
    have hemb : ∀ e ∈ g.embeds, (⟨.embed, e.name, e.ref, e.properties⟩ : Comp) ∈ definitions g := by
      intro c hc
      unfold definitions
      exact List.mem_append_right _ (List.mem_map.2 ⟨c, hc, rfl⟩)
    refine ⟨⟨n, hn⟩, ?_, fun e he => hname _ (hemb e he), ?_, fun c hc => hprop _ (hcls c hc),
      fun e he => hprop _ (hemb e he), ?_⟩
    · intro c hc
      have hc1 : Ok (ucamelCase c.name) := hname _ (hcls c hc)
      obtain ⟨y, _, hy⟩ := forall₂_mem_left hrs hc
      have hc2 : Ok (ucamelCase c.plural) := ⟨y, hy⟩
      exact ⟨hc1, camel_of_ucamel hc1, hc2, camel_of_ucamel hc2, (jsonPlural_ok_iff _).2 (h1 c hc)⟩
    · intro p hp
      obtain ⟨y, _, hy⟩ := forall₂_mem_left hns hp
      exact ⟨y, hy⟩
    · intro t f ht he
      obtain ⟨r, hr⟩ := hasFormat_iff.2 ⟨t, ht, he⟩
      exact (convert_ok_iff f).2 ⟨tokenize_of_go (hf f r hr), h2 t f ht he⟩

/-! ## Formats without any text -/

/-- The format consists of line breaks. -/
def OnlyBreaks (f : Str) : Prop := ∀ c ∈ f, Strftime.isLineBreak c = true

instance (f : Str) : Decidable (OnlyBreaks f) := by unfold OnlyBreaks; infer_instance

theorem flatten_nil_of {ls : List Str} (h : ∀ l ∈ ls, l = []) : ls.flatten = [] := by
  rw [List.flatten_eq_nil_iff]
  exact h

theorem onlyBreaks_iff {f : Str} (h : Ok (Strftime.convert f)) : Strftime.convert f = .ok [] ↔ OnlyBreaks f := by
  obtain ⟨⟨tss, ht⟩, hb⟩ := (convert_ok_iff f).1 h
  have hlex := (C04_tokenize_ok_iff f tss).1 ht
  have hloss := C04_lossless f tss ht
  obtain ⟨ps, hp, hn, he⟩ := convertLines_spec hlex
    fun l hl hm => absurd (_root_.Mapry.Text.splitlines_no_break f l hl _ hm) (by decide)
  have hconv : Strftime.convert f = .ok (joinWith ['\n'] ps) := by
    have hb' := hb
    unfold BlankEnd at hb'
    rw [← blank_congr he, ← joinWith_ends ps hn, ← List.isSuffixOf_iff_suffix] at hb'
    simp [Strftime.convert, ht, hp, bind, Except.bind, pure, Except.pure, endsWith, hb']
  have hlines : (Strftime.splitlines f).flatten = f.filter (fun c => !Strftime.isLineBreak c) := by
    rw [← hloss.1, ← hloss.2]
    simp only [List.flatten_flatten, List.map_flatten, List.map_map, Function.comp_def]
  have hfilter : OnlyBreaks f ↔ ∀ l ∈ Strftime.splitlines f, l = [] := by
    rw [← List.flatten_eq_nil_iff, hlines, List.filter_eq_nil_iff]
    simp [OnlyBreaks]
  have hempty : ∀ {a b : List Str}, a.map List.isEmpty = b.map List.isEmpty → (∀ l ∈ a, l = []) → ∀ l ∈ b, l = [] := by
    intro a b h ha l hl
    have : l.isEmpty ∈ a.map List.isEmpty := by rw [h]; exact List.mem_map_of_mem hl
    obtain ⟨x, hx, e⟩ := List.mem_map.1 this
    rw [ha x hx] at e
    simpa using e.symm
  rw [hconv, hfilter]
  constructor
  · intro h
    cases ps with
    | nil => exact hempty he (by simp)
    | cons p ps =>
      cases ps with
      | nil =>
        simp only [joinWith, Except.ok.injEq] at h
        exact hempty he (by simp [h])
      | cons q ps => simp [joinWith] at h
  · intro h
    have hps := hempty he.symm h
    cases ps with
    | nil => rfl
    | cons p ps =>
      cases ps with
      | nil => simp [joinWith, hps p (by simp)]
      | cons q ps =>
        exfalso
        apply hb
        unfold BlankEnd
        rw [← blank_congr he]
        generalize hl : p :: q :: ps = ls at *
        have hlen : 2 ≤ ls.length := by rw [← hl]; simp
        have e1 : ls ≠ [] := by rw [← hl]; simp
        refine ⟨ls.dropLast.dropLast, ls.dropLast.getLast (by rw [← hl]; simp), ?_⟩
        have e2 : ls.dropLast ≠ [] := by rw [← hl]; simp
        have e3 := List.dropLast_concat_getLast e2
        have e4 := List.dropLast_concat_getLast e1
        rw [hps _ (List.getLast_mem e1)] at e4
        calc ls = ls.dropLast ++ [[]] := e4.symm
          _ = (ls.dropLast.dropLast ++ [ls.dropLast.getLast e2]) ++ [[]] := by rw [e3]
          _ = _ := by simp

theorem visible_iff {g : Graph} (h : Convertible g) {u : Ty} (hu : Occurs g u) :
    Visible u ↔ ∀ f, formatOf u = some f → ¬ OnlyBreaks f := by
  have key : ∀ f, formatOf u = some f → (Strftime.convert f = .ok [] ↔ OnlyBreaks f) :=
    fun f hf => onlyBreaks_iff (h.formats u f hu hf)
  cases u <;> simp only [Visible, formatOf, Option.some.injEq, reduceCtorEq, forall_eq', false_implies, implies_true] at key ⊢
  all_goals (rw [Ne, key])

theorem occurs_item {g : Graph} {u : Ty} {lo hi : Option Int} (h : Occurs g (.array u lo hi)) : Occurs g u :=
  h.part (by simp [parts, self_mem_parts])

theorem occurs_value {g : Graph} {u : Ty} (h : Occurs g (.map u)) : Occurs g u :=
  h.part (by simp [parts, self_mem_parts])

theorem itemsVisible_iff {g : Graph} (h : Convertible g) : AllItemsVisible g ↔
    ∀ t u f, Occurs g t → (t = .map u ∨ ∃ lo hi, t = .array u lo hi) → formatOf u = some f → ¬ OnlyBreaks f := by
  constructor
  · rintro ⟨h1, h2⟩ t u f ht (rfl | ⟨lo, hi, rfl⟩) hf
    · exact (visible_iff h (occurs_value ht)).1 (h2 u ht) f hf
    · exact (visible_iff h (occurs_item ht)).1 (h1 u lo hi ht) f hf
  · intro hall
    constructor
    · intro u lo hi ht
      exact (visible_iff h (occurs_item ht)).2 fun f hf => hall _ u f ht (.inr ⟨lo, hi, rfl⟩) hf
    · intro u ht
      exact (visible_iff h (occurs_value ht)).2 fun f hf => hall _ u f ht (.inl rfl) hf

end Mapry.GoCode
