import Verif.CppIncludes
import Verif.Props.GoNames

/-! # C71 - C75: the names and the types of the generated C++ code -/

namespace Mapry.Props.CppNames

open Mapry.CppCode Mapry.TypeGraph Mapry.Naming Mapry.LangValidate Mapry.ParseSchema
open Mapry.PyRuntime (Json)
open Mapry.GoCode (parsed_facts)
open Mapry.PyCode (Facts idOf idOf_eq allNames defNames)

/-- The schema is parsed from the mapping, it passes the C++ validation and the files are generated: the header with
the types, the declarations of the functions and the implementation. -/
structure Generated (L : Validation.Lib) (mapping : Json) (ref : Str) (s : Schema) (settings : Cpp) (H : TypesHeader)
    (sigs : List Sig) (items : List Item) : Prop where
  parsed : schemaFromMapping L mapping ref = .ok s
  valid : validateSchema LangValidate.cpp s.graph = .ok []
  given : s.cpp = some settings
  types : typesHeader s.graph settings = .ok H
  header : jsonHeader s.graph settings = .ok sigs
  impl : jsonImpl s.graph settings = .ok items

/-- The dates are those of date.h. -/
def usesDateH (settings : Cpp) : Bool := settings.datetimeLibrary == c!"date.h"

section
variable {L : Validation.Lib} {mapping : Json} {ref : Str} {s : Schema} {settings : Cpp} {H : TypesHeader} {sigs : List Sig}
  {items : List Item} (h : Generated L mapping ref s settings H sigs items)
include h

theorem Generated.facts : CppFacts s.graph := cppFacts_of (parsed_facts h.parsed).1 (parsed_facts h.parsed).2 h.valid

theorem Generated.admitted : Settings settings := settings_of h.parsed h.given

theorem Generated.date : dateH settings = .ok (usesDateH settings) := by
  unfold dateH usesDateH
  rcases h.admitted.date with e | e <;> rw [e] <;> rfl

theorem Generated.plurals : ∀ c ∈ s.graph.classes, ∃ x xs, c.plural = x :: xs ∧ 'A' ≤ x ∧ x ≤ 'Z' :=
  (jsonImpl_generates_iff h.facts.toFacts h.admitted).1 ⟨_, h.impl⟩

end

/-! ## Examples -/

namespace Demo

open SchemaDemo

/-- The schema which is parsed and the files pass a test. -/
def check (mapping : Json) (test : Schema → Cpp → TypesHeader → List Sig → List Item → Bool) : Bool :=
  match schemaFromMapping lib mapping c!"#" with
  | .error _ => false
  | .ok s => match s.cpp with
    | none => false
    | some p => decide (validateSchema LangValidate.cpp s.graph = .ok []) &&
      match typesHeader s.graph p, jsonHeader s.graph p, jsonImpl s.graph p with
      | .ok H, .ok sigs, .ok items => test s p H sigs items
      | _, _, _ => false

theorem of_check {mapping : Json} {test : Schema → Cpp → TypesHeader → List Sig → List Item → Bool} (h : check mapping test = true) :
    ∃ s p H sigs items, Generated lib mapping c!"#" s p H sigs items ∧ test s p H sigs items = true := by
  unfold check at h
  split at h
  · cases h
  · rename_i s hs
    split at h
    · cases h
    · rename_i p hp
      simp only [Bool.and_eq_true, decide_eq_true_eq] at h
      obtain ⟨hv, h⟩ := h
      split at h
      · rename_i H sigs items h1 h2 h3
        exact ⟨s, p, H, sigs, items, ⟨hs, hv, hp, h1, h2, h3⟩, h⟩
      · cases h

/-- A schema with settings for C++ -/
def schema (rest : List (Str × Json)) (name : Str := c!"Shop") (dates : Str := c!"ctime") : Json := object
  ([(c!"name", text name), (c!"description", text c!"is a shop."),
    (c!"cpp", object [(c!"namespace", text c!"some::shop"), (c!"path_as", text c!"std::filesystem::path"),
      (c!"optional_as", text c!"std::optional"), (c!"datetime_library", text dates)])] ++ rest)

/-- The properties with the types and the other settings -/
def properties (ps : List (Str × Str × List (Str × Json))) : Str × Json :=
  (c!"properties", object (ps.map fun p => (p.1, definition p.2.1 p.2.2)))

def classes (cs : List (Str × Str)) : Str × Json := (c!"classes", .arr (cs.map fun c => Go.Demo.cls c.1 c.2))

def embed (name : Str) (ps : List (Str × Str × List (Str × Json))) : Json :=
  object [(c!"name", text name), (c!"description", text c!"is an embed."), properties ps]

def embeds (es : List Json) : Str × Json := (c!"embeds", .arr es)

def values (type : Str) : List (Str × Json) := [(c!"values", object [(c!"type", text type)])]

/-- The schema of the examples with settings for C++ -/
def mapping : Json := schema
  [(c!"classes", .arr [person]), (c!"embeds", .arr [address]),
   (c!"properties", object [(c!"share", share), (c!"place", definition c!"Address" [])])]

theorem generated : ∃ s p H sigs items, Generated lib mapping c!"#" s p H sigs items ∧
    decide (s.graph = SchemaDemo.schema.graph ∧ usesDateH p = false) = true := of_check (by decide +kernel)

end Demo

/-! ## C71: the included headers -/

/-- The header includes exactly the headers which declare the types of the members. -/
def IncludesExact (settings : Cpp) (H : TypesHeader) : Prop :=
  ∀ x, x ∈ H.includes ↔ ∃ s ∈ H.structs, ∃ f ∈ s.fields, x ∈ headersOf (optionalName settings) f.ty

/-- C71: the header with the types includes exactly the headers which declare its types. -/
def C71Full : Prop := ∀ L mapping ref s settings H sigs items, Generated L mapping ref s settings H sigs items →
  IncludesExact settings H

theorem boost_of (settings : Cpp) : ∃ b, ∀ b', pathBoost settings = .ok b' → b' = b := by
  cases pathBoost settings with
  | ok b => exact ⟨b, fun b' e => by cases e; rfl⟩
  | error _ => exact ⟨false, nofun⟩

/-- Nothing but `<string>` is ever missing, and nothing is included in vain. -/
theorem C71_includes_partial (L : Validation.Lib) (mapping : Json) (ref : Str) (s : Schema) (settings : Cpp) (H : TypesHeader)
    (sigs : List Sig) (items : List Item) (h : Generated L mapping ref s settings H sigs items) :
    (∀ x ∈ H.includes, ∃ s ∈ H.structs, ∃ f ∈ s.fields, x ∈ headersOf (optionalName settings) f.ty) ∧
    ∀ s ∈ H.structs, ∀ f ∈ s.fields, ∀ x ∈ headersOf (optionalName settings) f.ty, x ≠ c!"string" → x ∈ H.includes := by
  obtain ⟨b, hb⟩ := boost_of settings
  obtain ⟨_, _, _, hi, _⟩ := typesHeader_inv h.types
  constructor
  · intro x hx
    refine (needed_headers hb h.date h.types x).2 ?_
    rcases (included_headers h.facts.named hb h.date hi x).1 hx with ⟨u, hu, hx, _⟩ | h | h
    · exact .inl ⟨u, hu, hx⟩
    · exact .inr (.inl h)
    · exact .inr (.inr h)
  · intro s hs f hf x hx hne
    refine (included_headers h.facts.named hb h.date hi x).2 ?_
    rcases (needed_headers hb h.date h.types x).1 ⟨s, hs, f, hf, hx⟩ with ⟨u, hu, hx⟩ | h | h
    · exact .inl ⟨u, hu, hx, fun e => hne e.2⟩
    · exact .inr (.inl h)
    · exact .inr (.inr h)

/-- Something is written as `std::string`: a property, or a time zone without date.h, or the identifiers of a class. -/
def WritesStrings (g : Graph) (settings : Cpp) : Prop :=
  g.classes ≠ [] ∨ (∃ p, Occurs g (.string p)) ∨ usesDateH settings = false ∧ Occurs g .timeZone

/-- The included headers are exact unless there is a map, whose keys are texts, and there are no other texts. -/
theorem C71_includes_exact_partial (L : Validation.Lib) (mapping : Json) (ref : Str) (s : Schema) (settings : Cpp) (H : TypesHeader)
    (sigs : List Sig) (items : List Item) (h : Generated L mapping ref s settings H sigs items) :
    IncludesExact settings H ↔ ((∃ y, Occurs s.graph (.map y)) → WritesStrings s.graph settings) := by
  obtain ⟨b, hb⟩ := boost_of settings
  obtain ⟨_, _, _, hi, _⟩ := typesHeader_inv h.types
  have hopt : optionalName settings ≠ c!"string" := by
    unfold optionalName
    split
    · decide
    · split <;> decide
  have hstr : ∀ u, c!"string" ∈ ownHeaders b (usesDateH settings) u → tyTag u ≠ .map →
      (∃ p, u = .string p) ∨ usesDateH settings = false ∧ u = .timeZone := by
    intro u hu hm
    cases u with
    | string p => exact .inl ⟨p, rfl⟩
    | timeZone =>
      cases hd : usesDateH settings with
      | false => exact .inr ⟨rfl, rfl⟩
      | true => rw [hd] at hu; simp [ownHeaders] at hu
    | map y => exact absurd rfl hm
    | path p => cases b <;> simp [ownHeaders] at hu
    | date | time | datetime => cases hd : usesDateH settings <;> rw [hd] at hu <;> simp [ownHeaders] at hu
    | _ => simp [ownHeaders] at hu
  constructor
  · rintro he ⟨y, hy⟩
    have h1 : c!"string" ∈ H.includes := (he _).2
      ((needed_headers hb h.date h.types _).2 (.inl ⟨_, hy, by simp [ownHeaders]⟩))
    rcases (included_headers h.facts.named hb h.date hi _).1 h1 with ⟨u, hu, hx, hm⟩ | ⟨_, h⟩ | h
    · rcases hstr u hx (fun e => hm ⟨e, rfl⟩) with ⟨p, rfl⟩ | ⟨hd, rfl⟩
      · exact .inr (.inl ⟨p, hu⟩)
      · exact .inr (.inr ⟨hd, hu⟩)
    · exact absurd h.symm hopt
    · exact .inl h.1
  · intro hw x
    constructor
    · exact (C71_includes_partial _ _ _ _ _ _ _ _ h).1 x
    · intro hn
      by_cases hx : x = c!"string"
      · subst hx
        refine (included_headers h.facts.named hb h.date hi _).2 ?_
        rcases (needed_headers hb h.date h.types _).1 hn with ⟨u, hu, hx⟩ | h | h
        · by_cases hm : tyTag u = .map
          · cases u <;> cases hm
            rcases hw ⟨_, hu⟩ with hc | ⟨p, hp⟩ | ⟨hd, ht⟩
            · exact .inr (.inr ⟨hc, by simp⟩)
            · exact .inl ⟨_, hp, by simp [ownHeaders], by simp [tyTag]⟩
            · exact .inl ⟨_, ht, by simp [ownHeaders, hd], by simp [tyTag]⟩
          · exact .inl ⟨u, hu, hx, fun e => hm e.1⟩
        · exact .inr (.inl h)
        · exact .inr (.inr h)
      · obtain ⟨s', hs, f, hf, hx'⟩ := hn
        exact (C71_includes_partial _ _ _ _ _ _ _ _ h).2 s' hs f hf x hx' hx

/-- It is violated by a map of booleans: `std::map<std::string, bool>` is written without `<string>`. -/
theorem C71_violated : ¬ C71Full := by
  intro h
  obtain ⟨s, p, H, sigs, items, hg, ht⟩ := Demo.of_check
    (mapping := Demo.schema [Demo.properties [(c!"x", c!"map", Demo.values c!"boolean")]])
    (test := fun _ p H _ _ => !decide (c!"string" ∈ H.includes) &&
      H.structs.any fun s => s.fields.any fun f => decide (c!"string" ∈ headersOf (optionalName p) f.ty)) (by decide +kernel)
  simp only [Bool.and_eq_true, Bool.not_eq_true', decide_eq_false_iff_not, List.any_eq_true, decide_eq_true_eq] at ht
  exact ht.1 ((h _ _ _ _ _ _ _ _ hg _).2 ht.2)

example : ∃ s p H sigs items, Generated SchemaDemo.lib Demo.mapping c!"#" s p H sigs items ∧ IncludesExact p H := by
  obtain ⟨s, p, H, sigs, items, hg, ht⟩ := Demo.generated
  simp only [decide_eq_true_eq] at ht
  exact ⟨s, p, H, sigs, items, hg, (C71_includes_exact_partial _ _ _ _ _ _ _ _ hg).2 fun _ => .inl (by rw [ht.1]; decide)⟩

/-! ## C72: the structures -/

/-- C72: the compiler accepts the structures of the header with the types. -/
def C72Full : Prop := ∀ L mapping ref s settings H sigs items, Generated L mapping ref s settings H sigs items →
  structsOk H.forward [] H.structs

/-- A composite with its properties -/
inductive Composite (g : Graph) : Str → List Property → Prop where
  | graph : Composite g g.name g.properties
  | cls {c : Class} : c ∈ g.classes → Composite g c.name c.properties
  | embed {e : Embed} : e ∈ g.embeds → Composite g e.name e.properties

/-- The values of the type contain values of the embed. The items of an array are stored elsewhere. -/
inductive Stores : Ty → Str → Prop where
  | embed (n : Str) : Stores (.embed n) n
  | map {t : Ty} {n : Str} : Stores t n → Stores (.map t) n

/-- The type is written with the unqualified name. -/
inductive Mentions : Ty → Str → Prop where
  | integer (b : Bounds) : Mentions (.integer b) c!"int64_t"
  | cls {n x : Str} : asComposite n = .ok x → Mentions (.cls n) x
  | embed {n x : Str} : asComposite n = .ok x → Mentions (.embed n) x
  | array {t : Ty} {lo hi : Option Int} {x : Str} : Mentions t x → Mentions (.array t lo hi) x
  | map {t : Ty} {x : Str} : Mentions t x → Mentions (.map t) x

/-- A date, a time of day or both -/
inductive Clock : Ty → Prop where
  | date (f : Str) : Clock (.date f)
  | time (f : Str) : Clock (.time f)
  | datetime (f : Str) : Clock (.datetime f)

/-- What the compiler demands of the structures. -/
structure HeaderFits (g : Graph) (dateH : Bool) : Prop where
  /-- No class and no embed has the name of the graph in C++. -/
  classes : ∀ c ∈ g.classes, asComposite c.name ≠ asComposite g.name
  embeds : ∀ e ∈ g.embeds, asComposite e.name ≠ asComposite g.name
  /-- An embed is defined before the embeds in which it is stored. -/
  order : ∀ before e after, g.embeds = before ++ e :: after → ∀ p ∈ e.properties, ∀ n, Stores p.ty n → ∃ d ∈ before, d.name = n
  /-- No property has the name of a type in the same structure. -/
  types : ∀ n ps, Composite g n ps → ∀ p ∈ ps, ∀ q ∈ ps, ¬ Mentions p.ty q.name
  /-- The registries of the graph are not named as a type in the graph, nor its properties as the classes. -/
  plurals : ∀ c ∈ g.classes, ∀ p ∈ g.properties, ¬ Mentions p.ty (lower c.plural)
  registries : ∀ c ∈ g.classes, ∀ p ∈ g.properties, asComposite c.name ≠ .ok p.name
  /-- Nothing is called `tm` where `tm{0}` is written. -/
  tm : dateH = false → ∀ n ps, Composite g n ps → ∀ p ∈ ps, Clock p.ty → p.optional = false → ∀ q ∈ ps, q.name ≠ c!"tm"
  tmPlural : dateH = false → ∀ p ∈ g.properties, Clock p.ty → p.optional = false → ∀ c ∈ g.classes, lower c.plural ≠ c!"tm"

theorem stores_iff {t : Ty} {n : Str} : Stores t n ↔ n ∈ byValue t := by
  constructor
  · intro h
    induction h with
    | embed => simp [byValue]
    | map _ ih => exact ih
  · intro h
    induction t with
    | map y ih => exact .map (ih h)
    | embed m => cases List.mem_singleton.1 h; exact .embed _
    | _ => cases h

theorem clock_iff {t : Ty} : Clock t ↔ clock t = true := by
  constructor
  · rintro ⟨⟩ <;> rfl
  · intro h
    cases t with
    | date f => exact .date f
    | time f => exact .time f
    | datetime f => exact .datetime f
    | _ => cases h

/-- For the types of a graph whose names are composites -/
theorem mentions_iff {t : Ty} (h : ∀ n, Ty.cls n ∈ parts t ∨ Ty.embed n ∈ parts t → asComposite n = .ok (idOf n)) (x : Str) :
    Mentions t x ↔ x ∈ written t := by
  constructor
  · clear h
    intro h
    induction h with
    | integer => simp [written]
    | cls h => simp [written, idOf_eq h]
    | embed h => simp [written, idOf_eq h]
    | array _ ih => exact ih
    | map _ ih => exact ih
  · intro hx
    induction t with
    | integer => cases List.mem_singleton.1 hx; constructor
    | array y lo hi ih => exact .array (ih (fun n hn => h n (by simpa [parts] using hn)) hx)
    | map y ih => exact .map (ih (fun n hn => h n (by simpa [parts] using hn)) hx)
    | cls n => cases List.mem_singleton.1 hx; exact .cls (h n (.inl (self_mem_parts _)))
    | embed n => cases List.mem_singleton.1 hx; exact .embed (h n (.inr (self_mem_parts _)))
    | _ => cases hx

theorem composite_property {g : Graph} {p : Property} (h : HasProperty g p) : ∃ n ps, Composite g n ps ∧ p ∈ ps := by
  rcases h with h | ⟨c, hc, h⟩ | ⟨e, he, h⟩
  · exact ⟨_, _, .graph, h⟩
  · exact ⟨_, _, .cls hc, h⟩
  · exact ⟨_, _, .embed he, h⟩

theorem property_composite {g : Graph} {n : Str} {ps : List Property} (h : Composite g n ps) {p : Property} (hp : p ∈ ps) :
    HasProperty g p := by
  cases h with
  | graph => exact .inl hp
  | cls hc => exact .inr (.inl ⟨_, hc, hp⟩)
  | embed he => exact .inr (.inr ⟨_, he, hp⟩)

theorem composite_name {g : Graph} {n : Str} {ps : List Property} (h : Composite g n ps) : n ∈ allNames g := by
  cases h with
  | graph => exact PyCode.graph_name_mem
  | cls hc => exact PyCode.class_name_mem hc
  | embed he => exact PyCode.embed_name_mem he

theorem structNames_nodup {g : Graph} (hf : CppFacts g) : (structNames g).Nodup ↔ (∀ c ∈ g.classes, asComposite c.name ≠ asComposite g.name) ∧
      ∀ e ∈ g.embeds, asComposite e.name ≠ asComposite g.name := by
  have hname : ∀ {n m : Str}, n ∈ allNames g → m ∈ allNames g → (idOf n = idOf m ↔ asComposite n = asComposite m) := by
    intro n m hn hm
    rw [hf.composite n hn, hf.composite m hm, Except.ok.injEq]
  have hd : (g.embeds.map (fun e => idOf e.name) ++ g.classes.map fun c => idOf c.name).Nodup := by
    have := hf.ids
    simp only [defNames, List.map_append, List.map_map] at this
    exact (List.perm_append_comm.nodup_iff).1 this
  simp only [structNames]
  rw [List.nodup_append, and_iff_right hd, and_iff_right (by simp)]
  constructor
  · intro h
    refine ⟨fun c hc e => ?_, fun e' he e => ?_⟩
    · exact h _ (List.mem_append_right _ (List.mem_map.2 ⟨c, hc, rfl⟩)) _ (by simp)
        ((hname (PyCode.class_name_mem hc) PyCode.graph_name_mem).2 e)
    · exact h _ (List.mem_append_left _ (List.mem_map.2 ⟨e', he, rfl⟩)) _ (by simp)
        ((hname (PyCode.embed_name_mem he) PyCode.graph_name_mem).2 e)
  · rintro ⟨h1, h2⟩ a ha b hb rfl
    cases List.mem_singleton.1 hb
    rcases List.mem_append.1 ha with ha | ha
    · obtain ⟨e, he, h⟩ := List.mem_map.1 ha
      exact h2 e he ((hname (PyCode.embed_name_mem he) PyCode.graph_name_mem).1 h)
    · obtain ⟨c, hc, h⟩ := List.mem_map.1 ha
      exact h1 c hc ((hname (PyCode.class_name_mem hc) PyCode.graph_name_mem).1 h)

/-- The conditions in terms of the lemmas -/
theorem headerFits_iff {g : Graph} {date : Bool} (hf : CppFacts g)
    (hp : ∀ c ∈ g.classes, ∃ x xs, c.plural = x :: xs ∧ 'A' ≤ x ∧ x ≤ 'Z') : HeaderOk g date ↔ HeaderFits g date := by
  have hm : ∀ {p : Property}, HasProperty g p → ∀ x, Mentions p.ty x ↔ x ∈ written p.ty := by
    intro p hp x
    refine mentions_iff (fun n hn => ?_) x
    rcases hn with hn | hn
    · exact hf.composite n (hf.toFacts.type_mem (occurs_property.2 ⟨p, hp, hn⟩) (.inl rfl))
    · exact hf.composite n (hf.toFacts.type_mem (occurs_property.2 ⟨p, hp, hn⟩) (.inr rfl))
  have hid : ∀ {n : Str}, n ∈ allNames g → ∀ {y : Str}, idOf n ≠ 'i' :: y := by
    intro n hn y e
    obtain ⟨c, cs, h1, h2⟩ := PyCode.asComposite_upper (hf.composite n hn)
    rw [e] at h1
    cases h1
    exact absurd h2 (by decide)
  have hlow : ∀ {c : Class}, c ∈ g.classes → ∀ {n : Str}, n ∈ allNames g → idOf n ≠ lower c.plural := by
    intro c hc n hn e
    obtain ⟨x, xs, h1, h2, h3⟩ := hp c hc
    obtain ⟨d, ds, h4, h5⟩ := PyCode.asComposite_upper (hf.composite n hn)
    rw [e, h1] at h4
    injection h4 with h4 _
    subst h4
    have : ∀ x : Char, 'A' ≤ x → x ≤ 'Z' → x.toLower ≠ x.toLower.toUpper := by
      intro x h1 h2
      have h1 : 65 ≤ x.val.toNat := h1
      have h2 : x.val.toNat ≤ 90 := h2
      have hx : ∃ k : Fin 26, x = Char.ofNat (65 + k) := by
        refine ⟨⟨x.val.toNat - 65, by omega⟩, ?_⟩
        have e : 65 + (x.val.toNat - 65) = x.toNat := by
          have : x.toNat = x.val.toNat := rfl
          omega
        simp only [e, Char.ofNat_toNat]
      obtain ⟨k, rfl⟩ := hx
      revert k
      decide
    exact this x h2 h3 h5
  have hnid : ∀ {p : Property}, HasProperty g p → c!"id" ∉ written p.ty := by
    intro p hp h
    rw [← hm hp] at h
    generalize hx : c!"id" = x at h
    have hparts : ∀ n, Ty.cls n ∈ parts p.ty ∨ Ty.embed n ∈ parts p.ty → n ∈ allNames g := by
      rintro n (hn | hn)
      · exact hf.toFacts.type_mem (occurs_property.2 ⟨p, hp, hn⟩) (.inl rfl)
      · exact hf.toFacts.type_mem (occurs_property.2 ⟨p, hp, hn⟩) (.inr rfl)
    generalize p.ty = t at h hparts
    induction h with
    | integer => cases hx
    | cls h => exact hid (hparts _ (.inl (self_mem_parts _))) ((idOf_eq h).trans hx.symm)
    | embed h => exact hid (hparts _ (.inr (self_mem_parts _))) ((idOf_eq h).trans hx.symm)
    | array _ ih => exact ih hx (fun n hn => hparts n (by simpa [parts] using hn))
    | map _ ih => exact ih hx (fun n hn => hparts n (by simpa [parts] using hn))
  have hz : ∀ p, zeroed date p = true ↔ date = false ∧ Clock p.ty ∧ p.optional = false := by
    intro p
    simp [zeroed, clock_iff, and_assoc]
  have hstruct := structNames_nodup hf
  have horder : orderedFrom [] g.embeds ↔ ∀ before e after, g.embeds = before ++ e :: after → ∀ p ∈ e.properties, ∀ n,
      Stores p.ty n → ∃ d ∈ before, d.name = n := by
    rw [orderedFrom_iff]
    refine forall_congr' fun a => forall_congr' fun e => forall_congr' fun b => forall_congr' fun hab =>
      forall_congr' fun p => forall_congr' fun hp => forall_congr' fun n => ?_
    rw [stores_iff]
    refine forall_congr' fun hn => ?_
    have hes : ∀ d ∈ a, d ∈ g.embeds := fun d hd => by rw [hab]; exact List.mem_append_left _ hd
    have he : e ∈ g.embeds := by rw [hab]; simp
    simp only [List.not_mem_nil, or_false, List.mem_map]
    constructor
    · rintro ⟨d, hd, h⟩
      refine ⟨d, hd, ?_⟩
      have hn' : Ty.embed n ∈ parts p.ty := by
        clear h
        generalize p.ty = t at hn
        induction t with
        | map y ih => exact List.mem_cons_of_mem _ (ih hn)
        | embed m => rw [List.mem_singleton.1 hn]; exact self_mem_parts _
        | _ => cases hn
      obtain ⟨e', he', rfl⟩ := hf.resolves.2 n (.embed e p he hp hn')
      have inj := hf.ids
      exact PyCode.map_inj inj (List.mem_append_right _ (List.mem_map.2 ⟨d, hes d hd, rfl⟩))
        (List.mem_append_right _ (List.mem_map.2 ⟨e', he', rfl⟩)) h
    · rintro ⟨d, hd, rfl⟩
      exact ⟨d, hd, rfl⟩
  constructor
  · rintro ⟨h1, h2, h3, h4, h5⟩
    obtain ⟨g1, g2⟩ := hstruct.1 h1
    refine ⟨g1, g2, horder.1 h2, ?_, ?_, ?_, ?_, ?_⟩
    · intro n ps hc p hp q hq hx
      rw [hm (property_composite hc hp)] at hx
      cases hc with
      | graph => exact h5.types p hp _ (List.mem_append_left _ (List.mem_map.2 ⟨q, hq, rfl⟩)) hx
      | cls hc => exact (h4 _ hc).types p hp _ (List.mem_cons_of_mem _ (List.mem_map.2 ⟨q, hq, rfl⟩)) hx
      | embed he => exact (h3 _ he).types p hp _ (List.mem_map.2 ⟨q, hq, rfl⟩) hx
    · intro c hc p hp hx
      rw [hm (.inl hp)] at hx
      exact h5.types p hp _ (List.mem_append_right _ (List.mem_map.2 ⟨c, hc, rfl⟩)) hx
    · intro c hc p hp hx
      refine h5.more _ (List.mem_map.2 ⟨c, hc, rfl⟩) _ (List.mem_append_left _ (List.mem_map.2 ⟨p, hp, rfl⟩)) ?_
      simp [registryCell, CTy.unqualified, idOf_eq hx]
    · intro hd n ps hc p hp hk ho q hq e
      have hz := (hz p).2 ⟨hd, hk, ho⟩
      cases hc with
      | graph => exact h5.tm p hp hz (List.mem_append_left _ (List.mem_map.2 ⟨q, hq, e⟩))
      | cls hc => exact (h4 _ hc).tm p hp hz (List.mem_cons_of_mem _ (List.mem_map.2 ⟨q, hq, e⟩))
      | embed he => exact (h3 _ he).tm p hp hz (List.mem_map.2 ⟨q, hq, e⟩)
    · intro hd p hp hk ho c hc e
      exact h5.tm p hp ((hz p).2 ⟨hd, hk, ho⟩) (List.mem_append_right _ (List.mem_map.2 ⟨c, hc, e⟩))
  · rintro ⟨g1, g2, g3, g4, g5, g6, g7, g8⟩
    refine ⟨hstruct.2 ⟨g1, g2⟩, horder.2 g3, ?_, ?_, ?_⟩
    · intro e he
      refine ⟨?_, by simp, ?_⟩
      · rintro p hp x hx hw
        obtain ⟨q, hq, rfl⟩ := List.mem_map.1 hx
        exact g4 _ _ (.embed he) p hp q hq ((hm (.inr (.inr ⟨e, he, hp⟩)) _).2 hw)
      · intro p hp hz' hx
        obtain ⟨q, hq, e'⟩ := List.mem_map.1 hx
        obtain ⟨hd, hk, ho⟩ := (hz p).1 hz'
        exact g7 hd _ _ (.embed he) p hp hk ho q hq e'
    · intro c hc
      refine ⟨?_, by simp, ?_⟩
      · rintro p hp x hx hw
        rcases List.mem_cons.1 hx with rfl | hx
        · exact hnid (.inr (.inl ⟨c, hc, hp⟩)) hw
        · obtain ⟨q, hq, rfl⟩ := List.mem_map.1 hx
          exact g4 _ _ (.cls hc) p hp q hq ((hm (.inr (.inl ⟨c, hc, hp⟩)) _).2 hw)
      · intro p hp hz' hx
        rcases List.mem_cons.1 hx with hx | hx
        · cases hx
        · obtain ⟨q, hq, e'⟩ := List.mem_map.1 hx
          obtain ⟨hd, hk, ho⟩ := (hz p).1 hz'
          exact g7 hd _ _ (.cls hc) p hp hk ho q hq e'
    · refine ⟨?_, ?_, ?_⟩
      · rintro p hp x hx hw
        rcases List.mem_append.1 hx with hx | hx
        · obtain ⟨q, hq, rfl⟩ := List.mem_map.1 hx
          exact g4 _ _ .graph p hp q hq ((hm (.inl hp) _).2 hw)
        · obtain ⟨c, hc, rfl⟩ := List.mem_map.1 hx
          exact g5 c hc p hp ((hm (.inl hp) _).2 hw)
      · intro f hf' x hx hw
        obtain ⟨c, hc, rfl⟩ := List.mem_map.1 hf'
        simp only [registryCell, CTy.unqualified, List.mem_singleton] at hw
        rcases List.mem_append.1 hx with hx | hx
        · obtain ⟨q, hq, rfl⟩ := List.mem_map.1 hx
          exact g6 c hc q hq (by rw [hf.composite _ (PyCode.class_name_mem hc), hw])
        · obtain ⟨d, hd, rfl⟩ := List.mem_map.1 hx
          exact hlow hd (PyCode.class_name_mem hc) hw.symm
      · intro p hp hz' hx
        obtain ⟨hd, hk, ho⟩ := (hz p).1 hz'
        rcases List.mem_append.1 hx with hx | hx
        · obtain ⟨q, hq, e'⟩ := List.mem_map.1 hx
          exact g7 hd _ _ .graph p hp hk ho q hq e'
        · obtain ⟨c, hc, e'⟩ := List.mem_map.1 hx
          exact g8 hd p hp hk ho c hc e'

/-- The compiler accepts the structures exactly if they fit. -/
theorem C72_structures_partial (L : Validation.Lib) (mapping : Json) (ref : Str) (s : Schema) (settings : Cpp) (H : TypesHeader)
    (sigs : List Sig) (items : List Item) (h : Generated L mapping ref s settings H sigs items) :
    structsOk H.forward [] H.structs ↔ HeaderFits s.graph (usesDateH settings) :=
  (structs_iff h.facts h.types h.date).trans (headerFits_iff h.facts h.plurals)

theorem Demo.headerOk : HeaderOk SchemaDemo.schema.graph false := by
  refine ⟨by decide, ⟨by decide, trivial⟩, ?_, ?_, ⟨by decide, by decide, by decide⟩⟩
  · intro e he
    cases List.mem_singleton.1 he
    exact ⟨by decide, by decide, by decide⟩
  · intro e he
    cases List.mem_singleton.1 he
    exact ⟨by decide, by decide, by decide⟩

example : ∃ s p H sigs items, Generated SchemaDemo.lib Demo.mapping c!"#" s p H sigs items ∧ structsOk H.forward [] H.structs := by
  obtain ⟨s, p, H, sigs, items, hg, ht⟩ := Demo.generated
  simp only [decide_eq_true_eq] at ht
  refine ⟨s, p, H, sigs, items, hg, (structs_iff hg.facts hg.types hg.date).2 ?_⟩
  rw [ht.1, ht.2]
  exact Demo.headerOk

/-- It is violated by an embed which contains an embed which is defined below it: the embeds are defined in the order of the
schema, and only the names of the structures are declared before. -/
theorem C72_violated : ¬ C72Full := by
  intro h
  obtain ⟨s, p, H, sigs, items, hg, ht⟩ := Demo.of_check
    (mapping := Demo.schema [Demo.embeds [Demo.embed c!"Address" [(c!"place", c!"Place", [])], Demo.embed c!"Place" []]])
    (test := fun s _ _ _ _ => decide (s.graph.embeds.head?.any fun e => e.properties.any fun q => decide (q.ty = .embed c!"Place")))
    (by decide +kernel)
  have hf := (C72_structures_partial _ _ _ _ _ _ _ _ hg).1 (h _ _ _ _ _ _ _ _ hg)
  simp only [decide_eq_true_eq] at ht
  cases he : s.graph.embeds with
  | nil => rw [he] at ht; cases ht
  | cons e rest =>
    rw [he] at ht
    simp only [List.head?_cons, Option.any_some, List.any_eq_true, decide_eq_true_eq] at ht
    obtain ⟨q, hq, e'⟩ := ht
    obtain ⟨d, hd, _⟩ := hf.order [] e rest he q hq c!"Place" (e' ▸ .embed _)
    cases hd

/-- An embed which contains itself -/
example : ∃ s p H sigs items, Generated SchemaDemo.lib
    (Demo.schema [Demo.embeds [Demo.embed c!"Place" [(c!"inner", c!"map", Demo.values c!"Place")]]]) c!"#" s p H sigs items ∧
    ¬ structsOk H.forward [] H.structs := by
  obtain ⟨s, p, H, sigs, items, hg, ht⟩ := Demo.of_check
    (mapping := Demo.schema [Demo.embeds [Demo.embed c!"Place" [(c!"inner", c!"map", Demo.values c!"Place")]]])
    (test := fun s _ _ _ _ => decide (s.graph.embeds.head?.any fun e => e.properties.any fun q =>
      decide (q.ty = .map (.embed c!"Place")))) (by decide +kernel)
  refine ⟨s, p, H, sigs, items, hg, fun h => ?_⟩
  have hf := (C72_structures_partial _ _ _ _ _ _ _ _ hg).1 h
  simp only [decide_eq_true_eq] at ht
  cases he : s.graph.embeds with
  | nil => rw [he] at ht; cases ht
  | cons e rest =>
    rw [he] at ht
    simp only [List.head?_cons, Option.any_some, List.any_eq_true, decide_eq_true_eq] at ht
    obtain ⟨q, hq, e'⟩ := ht
    obtain ⟨d, hd, _⟩ := hf.order [] e rest he q hq c!"Place" (e' ▸ .map (.embed _))
    cases hd

/-- A class with the name of the graph in C++ -/
example : ∃ s p H sigs items, Generated SchemaDemo.lib (Demo.schema [Demo.classes [(c!"Some_shop", c!"Shops")]] c!"SomeShop") c!"#" s p H sigs items ∧
    ¬ structsOk H.forward [] H.structs := by
  obtain ⟨s, p, H, sigs, items, hg, ht⟩ := Demo.of_check
    (mapping := Demo.schema [Demo.classes [(c!"Some_shop", c!"Shops")]] c!"SomeShop")
    (test := fun s _ _ _ _ => s.graph.classes.any fun c => decide (asComposite c.name = asComposite s.graph.name)) (by decide +kernel)
  simp only [List.any_eq_true, decide_eq_true_eq] at ht
  obtain ⟨c, hc, e⟩ := ht
  exact ⟨s, p, H, sigs, items, hg, fun h => ((C72_structures_partial _ _ _ _ _ _ _ _ hg).1 h).classes c hc e⟩

/-- A property with the name of the type of integers -/
example : ∃ s p H sigs items, Generated SchemaDemo.lib
    (Demo.schema [Demo.properties [(c!"int64_t", c!"boolean", []), (c!"age", c!"integer", [])]]) c!"#" s p H sigs items ∧
    ¬ structsOk H.forward [] H.structs := by
  obtain ⟨s, p, H, sigs, items, hg, ht⟩ := Demo.of_check
    (mapping := Demo.schema [Demo.properties [(c!"int64_t", c!"boolean", []), (c!"age", c!"integer", [])]])
    (test := fun s _ _ _ _ => (s.graph.properties.any fun q => decide (q.name = c!"int64_t")) &&
      s.graph.properties.any fun q => decide (q.ty = .integer {})) (by decide +kernel)
  simp only [Bool.and_eq_true, List.any_eq_true, decide_eq_true_eq] at ht
  obtain ⟨⟨q, hq, e⟩, r, hr, e'⟩ := ht
  exact ⟨s, p, H, sigs, items, hg, fun h => ((C72_structures_partial _ _ _ _ _ _ _ _ hg).1 h).types _ _ .graph r hr q hq
    (e ▸ e' ▸ .integer _)⟩

/-- A property with the name of the type of dates -/
example : ∃ s p H sigs items, Generated SchemaDemo.lib
    (Demo.schema [Demo.properties [(c!"tm", c!"boolean", []), (c!"day", c!"date", [])]]) c!"#" s p H sigs items ∧
    ¬ structsOk H.forward [] H.structs := by
  obtain ⟨s, p, H, sigs, items, hg, ht⟩ := Demo.of_check
    (mapping := Demo.schema [Demo.properties [(c!"tm", c!"boolean", []), (c!"day", c!"date", [])]])
    (test := fun s p _ _ _ => (s.graph.properties.any fun q => decide (q.name = c!"tm")) && !usesDateH p &&
      s.graph.properties.any fun q => decide (q.ty = .date c!"%Y-%m-%d" ∧ q.optional = false)) (by decide +kernel)
  simp only [Bool.and_eq_true, List.any_eq_true, decide_eq_true_eq, Bool.not_eq_true'] at ht
  obtain ⟨⟨⟨q, hq, e⟩, hd⟩, r, hr, e', ho⟩ := ht
  exact ⟨s, p, H, sigs, items, hg, fun h => ((C72_structures_partial _ _ _ _ _ _ _ _ hg).1 h).tm hd _ _ .graph r hr
    (e' ▸ .date _) ho q hq e⟩

end Mapry.Props.CppNames
