import Verif.Props.CppNames

/-! # C73 - C76: the functions of the generated C++ code -/

namespace Mapry.Props.CppNames

open Mapry.CppCode Mapry.TypeGraph Mapry.Naming Mapry.LangValidate Mapry.ParseSchema
open Mapry.PyRuntime (Json)
open Mapry.GoCode (parsed_facts)
open Mapry.PyCode (Facts idOf idOf_eq allNames defNames)

/-! ## C73: the bodies -/

/-- C73: the compiler accepts the bodies of the generated functions. -/
def C73Full : Prop := ∀ L mapping ref s settings H sigs items, Generated L mapping ref s settings H sigs items →
  bodiesOk (world H sigs) items

/-- The number is written in the code for values of the type. -/
inductive Writes : Ty → Int → Prop where
  | minimum {b : Bounds} {k : Int} : b.min = some k → Writes (.integer b) k
  | maximum {b : Bounds} {k : Int} : b.max = some k → Writes (.integer b) k
  | floatMinimum {b : Bounds} {k : Int} : b.min = some k → Writes (.float b) k
  | floatMaximum {b : Bounds} {k : Int} : b.max = some k → Writes (.float b) k
  | minimumSize {t : Ty} {hi : Option Int} {k : Int} : Writes (.array t (some k) hi) k
  | maximumSize {t : Ty} {lo : Option Int} {k : Int} : Writes (.array t lo (some k)) k
  | array {t : Ty} {lo hi : Option Int} {k : Int} : Writes t k → Writes (.array t lo hi) k
  | map {t : Ty} {k : Int} : Writes t k → Writes (.map t) k

/-- The function is called to serialize a value of the type. -/
inductive Calls (dateH : Bool) : Ty → Str → Prop where
  | date {f : Str} : dateH = false → f ≠ [] → Calls dateH (.date f) c!"tm_to_string"
  | time {f : Str} : dateH = false → f ≠ [] → Calls dateH (.time f) c!"tm_to_string"
  | datetime {f : Str} : dateH = false → f ≠ [] → Calls dateH (.datetime f) c!"tm_to_string"
  | duration : Calls dateH .duration c!"duration_to_string"
  | embed {n : Str} : Calls dateH (.embed n) (c!"serialize_" ++ lower n)
  | array {t : Ty} {lo hi : Option Int} {f : Str} : Calls dateH t f → Calls dateH (.array t lo hi) f
  | map {t : Ty} {f : Str} : Calls dateH t f → Calls dateH (.map t) f

/-- A date, or a date and a time of day -/
inductive Day : Ty → Prop where
  | date (f : Str) : Day (.date f)
  | datetime (f : Str) : Day (.datetime f)

/-- What the compiler demands of the bodies. -/
structure BodiesFit (g : Graph) (dateH : Bool) : Prop where
  /-- The members are named as the properties, but the code which parses them refers to the names in lower case. -/
  lowercase : ∀ n ps, Composite g n ps → ∀ p ∈ ps, lower p.name = p.name
  /-- The numbers fit into 64 bits. -/
  numbers : ∀ n ps, Composite g n ps → ∀ p ∈ ps, ∀ k, Writes p.ty k → - 2 ^ 63 < k ∧ k < 2 ^ 63
  /-- `date::parse` does not read into an optional value. -/
  optional : dateH = true → ∀ n ps, Composite g n ps → ∀ p ∈ ps, Day p.ty → p.optional = false
  /-- The variable for the registry is not declared as the one for an instance. -/
  noInstance : ∀ c ∈ g.classes, lower c.plural ≠ c!"instance"
  /-- The parameters are named as the composites. -/
  keywords : ∀ n ps, Composite g n ps → lower n ∉ keywords
  /-- No variable hides a function which is called. -/
  calls : ∀ n ps, Composite g n ps → ∀ p ∈ ps, ∀ f, Calls dateH p.ty f → lower n ≠ f ∧ lower n ++ c!"_as_value" ≠ f
  instances : ∀ c ∈ g.classes, ∀ x ∈ [lower g.name, lower g.name ++ c!"_as_value", lower c.plural ++ c!"_as_value"],
    x ≠ c!"serialize_" ++ lower c.name
  strlen : g.classes ≠ [] → lower g.name ≠ c!"strlen"
  /-- No variable for a registry hides the graph. -/
  plurals : ∀ c ∈ g.classes, lower c.plural ≠ lower g.name ∧ lower c.plural ++ c!"_as_value" ≠ lower g.name

/-- No composite has the name of a variable which the generator numbers: `target_0`, `kv_1`. -/
def NoneNumbered (g : Graph) : Prop := ∀ n ps, Composite g n ps →
  ∀ b ∈ [c!"target", c!"vector", c!"i", c!"map", c!"kv"], ∀ k, lower n ≠ b ++ c!"_" ++ Text.natStr k

theorem literal_iff {o : Option Int} : literal o = true ↔ ∀ k, o = some k → - 2 ^ 63 < k ∧ k < 2 ^ 63 := by
  cases o with
  | none => simp [literal]
  | some b => simp [literal]; omega

theorem inRange_iff {t : Ty} : inRange t = true ↔ ∀ k, Writes t k → - 2 ^ 63 < k ∧ k < 2 ^ 63 := by
  constructor
  · intro h k hk
    induction hk with
    | minimum e => exact literal_iff.1 (by simp [inRange] at h; exact h.1) _ e
    | maximum e => exact literal_iff.1 (by simp [inRange] at h; exact h.2) _ e
    | floatMinimum e => exact literal_iff.1 (by simp [inRange] at h; exact h.1) _ e
    | floatMaximum e => exact literal_iff.1 (by simp [inRange] at h; exact h.2) _ e
    | minimumSize => exact literal_iff.1 (by simp only [inRange, Bool.and_eq_true] at h; exact h.1.1) _ rfl
    | maximumSize => exact literal_iff.1 (by simp only [inRange, Bool.and_eq_true] at h; exact h.1.2) _ rfl
    | array _ ih => exact ih (by simp only [inRange, Bool.and_eq_true] at h; exact h.2)
    | map _ ih => exact ih h
  · intro h
    induction t with
    | integer b =>
      simp only [inRange, Bool.and_eq_true, literal_iff]
      exact ⟨fun k e => h k (.minimum e), fun k e => h k (.maximum e)⟩
    | float b =>
      simp only [inRange, Bool.and_eq_true, literal_iff]
      exact ⟨fun k e => h k (.floatMinimum e), fun k e => h k (.floatMaximum e)⟩
    | array y lo hi ih =>
      simp only [inRange, Bool.and_eq_true, literal_iff]
      exact ⟨⟨fun k e => h k (e ▸ .minimumSize), fun k e => h k (e ▸ .maximumSize)⟩, ih fun k hk => h k (.array hk)⟩
    | map y ih => exact ih fun k hk => h k (.map hk)
    | _ => rfl

theorem calls_iff {dateH : Bool} {t : Ty} {f : Str} : Calls dateH t f ↔ f ∈ uses dateH t := by
  constructor
  · intro h
    induction h with
    | date hd hf => simp [uses, hd, hf]
    | time hd hf => simp [uses, hd, hf]
    | datetime hd hf => simp [uses, hd, hf]
    | duration => simp [uses]
    | embed => simp [uses]
    | array _ ih => exact ih
    | map _ ih => exact ih
  · intro h
    have hc : ∀ x : Str, f ∈ (if (dateH || decide (x = [])) = true then [] else [c!"tm_to_string"]) →
        dateH = false ∧ x ≠ [] ∧ f = c!"tm_to_string" := by
      intro x hx
      split at hx
      · cases hx
      · rename_i hn
        simp only [Bool.or_eq_true, decide_eq_true_eq, not_or, Bool.not_eq_true] at hn
        exact ⟨hn.1, hn.2, List.mem_singleton.1 hx⟩
    induction t with
    | date x => obtain ⟨h1, h2, rfl⟩ := hc x h; exact .date h1 h2
    | time x => obtain ⟨h1, h2, rfl⟩ := hc x h; exact .time h1 h2
    | datetime x => obtain ⟨h1, h2, rfl⟩ := hc x h; exact .datetime h1 h2
    | duration => cases List.mem_singleton.1 h; exact .duration
    | embed n => cases List.mem_singleton.1 h; exact .embed
    | array y lo hi ih => exact .array (ih h)
    | map y ih => exact .map (ih h)
    | _ => cases h

theorem day_iff {t : Ty} : Day t ↔ dated t = true := by
  constructor
  · rintro ⟨⟩ <;> rfl
  · intro h
    cases t with
    | date f => exact .date f
    | datetime f => exact .datetime f
    | _ => cases h

theorem propOk_iff {dateH : Bool} {p : Property} : propOk dateH p = true ↔ lower p.name = p.name ∧
    (∀ k, Writes p.ty k → - 2 ^ 63 < k ∧ k < 2 ^ 63) ∧ (dateH = true → Day p.ty → p.optional = false) := by
  simp only [propOk, Bool.and_eq_true, decide_eq_true_eq, inRange_iff, day_iff, and_assoc]
  refine and_congr_right fun _ => and_congr_right fun _ => ?_
  cases dateH <;> cases dated p.ty <;> simp

theorem unhidden_iff {f : Str} {fs : List Str} : unhidden f fs = true ↔ ∀ u ∈ fs, f ≠ u ∧ f ++ c!"_as_value" ≠ u := by
  simp only [unhidden, List.all_eq_true, Bool.and_eq_true, bne_iff_ne]
  exact forall_congr' fun u => forall_congr' fun _ => and_congr ne_comm ne_comm

theorem serOk_iff {dateH : Bool} {n : Str} {ps : List Property} : serOk dateH n ps = true ↔ lower n ∉ CppCode.keywords ∧
    ∀ p ∈ ps, ∀ f, Calls dateH p.ty f → lower n ≠ f ∧ lower n ++ c!"_as_value" ≠ f := by
  simp only [serOk, Bool.and_eq_true, Bool.not_eq_true', decide_eq_false_iff_not, unhidden_iff, calls_iff, usesAll,
    List.mem_flatMap, forall_exists_index, and_imp]
  exact and_congr_right fun _ => ⟨fun h p hp f hf => h f p hp hf, fun h f p hp hf => h p hp f hf⟩

theorem classFits_iff {f : Str} {c : Class} : classFits f c = true ↔
    (∀ x ∈ [f, f ++ c!"_as_value", lower c.plural ++ c!"_as_value"], x ≠ c!"serialize_" ++ lower c.name) ∧ f ≠ c!"strlen" ∧
      lower c.plural ≠ f ∧ lower c.plural ++ c!"_as_value" ≠ f := by
  simp only [classFits, Bool.and_eq_true, bne_iff_ne, unhidden_iff, List.forall_mem_cons, List.not_mem_nil, false_implies,
    implies_true, and_true]
  generalize c!"_as_value" = a
  generalize c!"serialize_" = b
  exact iff_of_eq (by ac_rfl)

theorem all_composites {g : Graph} {P : Str → List Property → Prop} : (∀ n ps, Composite g n ps → P n ps) ↔
    P g.name g.properties ∧ (∀ c ∈ g.classes, P c.name c.properties) ∧ ∀ e ∈ g.embeds, P e.name e.properties := by
  constructor
  · intro h
    exact ⟨h _ _ .graph, fun c hc => h _ _ (.cls hc), fun e he => h _ _ (.embed he)⟩
  · rintro ⟨h1, h2, h3⟩ n ps (_ | hc | he)
    · exact h1
    · exact h2 _ hc
    · exact h3 _ he

/-- The conditions in terms of the lemmas -/
theorem bodiesFit_iff {g : Graph} {dateH : Bool} : BodiesFit g dateH ↔
    (CppCode.noInstance g = true ∧ g.properties.all (propOk dateH) = true) ∧ (∀ c ∈ g.classes, c.properties.all (propOk dateH) = true) ∧
      (∀ e ∈ g.embeds, e.properties.all (propOk dateH) = true) ∧ (∀ c ∈ g.classes, serOk dateH c.name c.properties = true) ∧
      (∀ e ∈ g.embeds, serOk dateH e.name e.properties = true) ∧
      serOk dateH g.name g.properties = true ∧ g.classes.all (classFits (lower g.name)) = true := by
  have h1 := all_composites (g := g) (P := fun _ ps => ps.all (propOk dateH) = true)
  have h2 := all_composites (g := g) (P := fun n ps => serOk dateH n ps = true)
  simp only [List.all_eq_true, propOk_iff] at h1
  simp only [serOk_iff] at h2
  simp only [List.all_eq_true, propOk_iff, serOk_iff, classFits_iff, CppCode.noInstance, bne_iff_ne]
  constructor
  · rintro ⟨a1, a2, a3, a4, a5, a6, a7, a8, a9⟩
    obtain ⟨b1, b2, b3⟩ := h1.1 fun n ps h p hp => ⟨a1 n ps h p hp, a2 n ps h p hp, fun hd => a3 hd n ps h p hp⟩
    obtain ⟨c1, c2, c3⟩ := h2.1 fun n ps h => ⟨a5 n ps h, a6 n ps h⟩
    exact ⟨⟨a4, b1⟩, b2, b3, c2, c3, c1, fun c hc => ⟨a7 c hc, a8 (List.ne_nil_of_mem hc), a9 c hc⟩⟩
  · rintro ⟨⟨a4, b1⟩, b2, b3, c2, c3, c1, d⟩
    have k1 := h1.2 ⟨b1, b2, b3⟩
    have k2 := h2.2 ⟨c1, c2, c3⟩
    refine ⟨fun n ps h p hp => (k1 n ps h p hp).1, fun n ps h p hp => (k1 n ps h p hp).2.1,
      fun hd n ps h p hp => (k1 n ps h p hp).2.2 hd, a4, fun n ps h => (k2 n ps h).1, fun n ps h => (k2 n ps h).2,
      fun c hc => (d c hc).1, fun hne => ?_, fun c hc => (d c hc).2.2⟩
    cases hc : g.classes with
    | nil => exact absurd hc hne
    | cons c cs => exact (d c (by simp [hc])).2.1

theorem composite_of_name {g : Graph} {n : Str} (h : n ∈ allNames g) : ∃ ps, Composite g n ps := by
  simp only [allNames, defNames, List.mem_append, List.mem_map, List.mem_singleton] at h
  rcases h with (⟨c, hc, rfl⟩ | ⟨e, he, rfl⟩) | rfl
  · exact ⟨_, .cls hc⟩
  · exact ⟨_, .embed he⟩
  · exact ⟨_, .graph⟩

section
variable {L : Validation.Lib} {mapping : Json} {ref : Str} {s : Schema} {settings : Cpp} {H : TypesHeader} {sigs : List Sig}
  {items : List Item} (h : Generated L mapping ref s settings H sigs items)
include h

theorem Generated.files (hg : ∀ n ∈ defNames s.graph, asComposite n ≠ asComposite s.graph.name) :
    Files s.graph settings (usesDateH settings) H sigs := by
  have hf := h.facts
  refine ⟨hf.toFacts, (structNames_nodup hf).2 ⟨fun c hc => ?_, fun e he => ?_⟩, h.types, h.header, h.date⟩
  · exact hg _ (by simp [defNames]; exact .inl ⟨c, hc, rfl⟩)
  · exact hg _ (by simp [defNames]; exact .inr ⟨e, he, rfl⟩)

end

/-- The compiler accepts the bodies exactly if they fit. A composite which has the name of a numbered variable and a schema
in which a class or an embed has the name of the graph are left out. -/
theorem C73_bodies_partial (L : Validation.Lib) (mapping : Json) (ref : Str) (s : Schema) (settings : Cpp) (H : TypesHeader)
    (sigs : List Sig) (items : List Item) (h : Generated L mapping ref s settings H sigs items)
    (hg : ∀ n ∈ defNames s.graph, asComposite n ≠ asComposite s.graph.name) (hn : NoneNumbered s.graph) :
    bodiesOk (world H sigs) items ↔ BodiesFit s.graph (usesDateH settings) := by
  refine (bodies_iff (h.files hg) ?_ h.impl).trans bodiesFit_iff.symm
  intro n hn' b hb k e
  obtain ⟨ps, hc⟩ := composite_of_name hn'
  exact hn n ps hc b hb k (by rw [e, List.append_assoc]; rfl)

/-- `bodiesOk` as a test -/
def bodiesTest : World → List Item → Bool
  | _, [] => true
  | W, .func f :: rest => f.ok (W.declare f.sig) && bodiesTest (W.declare f.sig) rest
  | W, .helper s :: rest => bodiesTest (W.declare s) rest
  | W, .pattern n :: rest => bodiesTest { W with patterns := n :: W.patterns } rest

theorem bodiesTest_iff {items : List Item} : ∀ {W : World}, bodiesTest W items = true ↔ bodiesOk W items := by
  induction items with
  | nil => intro W; simp [bodiesTest, bodiesOk]
  | cons i rest ih =>
    intro W
    cases i with
    | func f => rw [bodiesTest, bodiesOk, Bool.and_eq_true, ih]
    | helper s => exact ih
    | pattern n => exact ih

/-- The bodies which are generated for a schema are accepted or rejected. -/
theorem Demo.bodies {mapping : Json} {b : Bool}
    (h : Demo.check mapping (fun _ _ H sigs items => bodiesTest (world H sigs) items == b) = true) :
    ∃ s p H sigs items, Generated SchemaDemo.lib mapping c!"#" s p H sigs items ∧ (bodiesOk (world H sigs) items ↔ b = true) := by
  obtain ⟨s, p, H, sigs, items, hg, ht⟩ := Demo.of_check h
  exact ⟨s, p, H, sigs, items, hg, by rw [← bodiesTest_iff, beq_iff_eq.1 ht]⟩

/-- It is violated by a property with a capital: the member `First` of the structure is parsed into `first`. -/
theorem C73_violated : ¬ C73Full := by
  intro h
  obtain ⟨s, p, H, sigs, items, hg, ht⟩ := Demo.bodies
    (mapping := Demo.schema [Demo.properties [(c!"First", c!"boolean", [])]]) (b := false) (by decide +kernel)
  exact absurd (ht.1 (h _ _ _ _ _ _ _ _ hg)) (by decide)

/-- The bodies for the schema of the examples are accepted. -/
example : ∃ s p H sigs items, Generated SchemaDemo.lib Demo.mapping c!"#" s p H sigs items ∧ bodiesOk (world H sigs) items := by
  obtain ⟨s, p, H, sigs, items, hg, ht⟩ := Demo.bodies (mapping := Demo.mapping) (b := true) (by decide +kernel)
  exact ⟨s, p, H, sigs, items, hg, ht.2 rfl⟩

/-- Other schemas whose bodies are not accepted: an optional date of date.h, -/
example : ∃ s p H sigs items, Generated SchemaDemo.lib
    (Demo.schema [Demo.properties [(c!"day", c!"date", [(c!"optional", .bool true)])]] (dates := c!"date.h")) c!"#" s p H sigs items ∧
    (bodiesOk (world H sigs) items ↔ false = true) := Demo.bodies (by decide +kernel)

/-- a class whose parameter hides the function which serializes an embed, -/
example : ∃ s p H sigs items, Generated SchemaDemo.lib
    (Demo.schema [Demo.embeds [Demo.embed c!"Foo" [], Demo.embed c!"Serialize_foo" [(c!"foo", c!"Foo", [])]]]) c!"#" s p H sigs items ∧
    (bodiesOk (world H sigs) items ↔ false = true) := Demo.bodies (by decide +kernel)

/-- a bound beyond 64 bits, -/
example : ∃ s p H sigs items, Generated SchemaDemo.lib
    (Demo.schema [Demo.properties [(c!"age", c!"integer", [(c!"maximum", .int (2 ^ 63))])]]) c!"#" s p H sigs items ∧
    (bodiesOk (world H sigs) items ↔ false = true) := Demo.bodies (by decide +kernel)

/-- a graph which hides a function of the C library, -/
example : ∃ s p H sigs items, Generated SchemaDemo.lib (Demo.schema [Demo.classes [(c!"Item", c!"Items")]] c!"Strlen")
    c!"#" s p H sigs items ∧ (bodiesOk (world H sigs) items ↔ false = true) := Demo.bodies (by decide +kernel)

/-- the plural `Instance`, -/
example : ∃ s p H sigs items, Generated SchemaDemo.lib (Demo.schema [Demo.classes [(c!"Item", c!"Instance")]])
    c!"#" s p H sigs items ∧ (bodiesOk (world H sigs) items ↔ false = true) := Demo.bodies (by decide +kernel)

/-- a plural which is the name of the graph, -/
example : ∃ s p H sigs items, Generated SchemaDemo.lib (Demo.schema [Demo.classes [(c!"Item", c!"Shop")]])
    c!"#" s p H sigs items ∧ (bodiesOk (world H sigs) items ↔ false = true) := Demo.bodies (by decide +kernel)

/-- a plural whose serialized registry has the name of the graph, -/
example : ∃ s p H sigs items, Generated SchemaDemo.lib (Demo.schema [Demo.classes [(c!"Item", c!"Items")]] c!"Items_as_value")
    c!"#" s p H sigs items ∧ (bodiesOk (world H sigs) items ↔ false = true) := Demo.bodies (by decide +kernel)

/-- and a class whose parameter is a keyword. -/
example : ∃ s p H sigs items, Generated SchemaDemo.lib (Demo.schema [Demo.classes [(c!"Double", c!"Doubles")]])
    c!"#" s p H sigs items ∧ (bodiesOk (world H sigs) items ↔ false = true) := Demo.bodies (by decide +kernel)

/-! ## C74: the declared functions are defined -/

/-- The functions of the implementation with their names, the types of their parameters and their results -/
def defined (items : List Item) : List Sig := items.filterMap fun i => match i with
  | .func f => some ⟨f.name, f.params.map (·.2), f.result⟩
  | _ => none

/-- C74: the functions which are declared in the header are exactly those which are generated for the composites in the
implementation, each as often as it is declared. -/
theorem C74_declared_defined (L : Validation.Lib) (mapping : Json) (ref : Str) (s : Schema) (settings : Cpp) (H : TypesHeader)
    (sigs : List Sig) (items : List Item) (h : Generated L mapping ref s settings H sigs items) :
    (defined items).Perm sigs := by
  obtain ⟨I⟩ := impl_of h.date h.impl
  have := I.perm h.header
  have e : defined items = (funcsOf items).map Func.sig := by
    unfold defined funcsOf
    rw [List.map_filterMap]
    congr 1
    funext i
    cases i <;> rfl
  rw [e]
  exact this

example : ∃ s p H sigs items, Generated SchemaDemo.lib Demo.mapping c!"#" s p H sigs items ∧ sigs.length = 6 := by
  obtain ⟨s, p, H, sigs, items, hg, ht⟩ := Demo.of_check (mapping := Demo.mapping) (test := fun _ _ _ sigs _ => sigs.length == 6)
    (by decide +kernel)
  exact ⟨s, p, H, sigs, items, hg, beq_iff_eq.1 ht⟩

/-! ## C75: the generation succeeds -/

/-- C75: the files are generated for every schema with settings for C++ which passes the C++ validation. -/
def C75Full : Prop := ∀ (L : Validation.Lib) (mapping : Json) (ref : Str) (s : Schema) (settings : Cpp),
  schemaFromMapping L mapping ref = .ok s → validateSchema LangValidate.cpp s.graph = .ok [] → s.cpp = some settings →
    ∃ H sigs items, Generated L mapping ref s settings H sigs items

/-- The generation succeeds exactly if every plural starts with a capital. -/
theorem C75_generation_partial (L : Validation.Lib) (mapping : Json) (ref : Str) (s : Schema) (settings : Cpp)
    (hs : schemaFromMapping L mapping ref = .ok s) (hv : validateSchema LangValidate.cpp s.graph = .ok [])
    (hp : s.cpp = some settings) :
    (∃ H sigs items, Generated L mapping ref s settings H sigs items) ↔
      ∀ c ∈ s.graph.classes, ∃ x xs, c.plural = x :: xs ∧ 'A' ≤ x ∧ x ≤ 'Z' := by
  have hf := (cppFacts_of (parsed_facts hs).1 (parsed_facts hs).2 hv).toFacts
  have ha := settings_of hs hp
  constructor
  · rintro ⟨H, sigs, items, h⟩
    exact h.plurals
  · intro hc
    obtain ⟨H, h1⟩ := typesHeader_generates hf ha
    obtain ⟨sigs, h2⟩ := jsonHeader_generates ⟨hf, hc⟩ ha
    obtain ⟨items, h3⟩ := (jsonImpl_generates_iff hf ha).2 hc
    exact ⟨H, sigs, items, hs, hv, hp, h1, h2, h3⟩

/-- It is violated by a class whose inferred plural does not start with a capital. -/
theorem C75_violated : ¬ C75Full := by
  intro h
  have key : (match schemaFromMapping SchemaDemo.lib (Demo.schema [(c!"classes", .arr [SchemaDemo.object
      [(c!"name", SchemaDemo.text c!"Some_focus"), (c!"description", SchemaDemo.text c!"is a class.")]])]) c!"#" with
    | .error _ => false
    | .ok s => match s.cpp with
      | none => false
      | some p => decide (validateSchema LangValidate.cpp s.graph = .ok []) && match jsonImpl s.graph p with
        | .error _ => true
        | .ok _ => false) = true := by decide +kernel
  split at key
  · cases key
  · rename_i s hs
    split at key
    · cases key
    · rename_i p hp
      simp only [Bool.and_eq_true, decide_eq_true_eq] at key
      obtain ⟨H, sigs, items, hk⟩ := h _ _ _ s p hs key.1 hp
      rw [hk.impl] at key
      cases key.2

/-! ## C76: the definitions -/

/-- C76: no two definitions of the implementation get into each other's way. -/
def C76Full : Prop := ∀ L mapping ref s settings H sigs items, Generated L mapping ref s settings H sigs items →
  definitionsOk sigs items

/-- What the compiler demands of the namespaces which are defined for the patterns of the identifiers. -/
structure DefinitionsFit (g : Graph) : Prop where
  /-- The namespaces are different. -/
  patterns : g.classes.Pairwise fun c d => c.idPattern.isSome = true → d.idPattern.isSome = true → lower c.name ≠ lower d.name
  /-- No namespace has the name of a function which serializes. -/
  functions : ∀ c ∈ g.classes, c.idPattern.isSome = true → ∀ n ps, Composite g n ps →
    lower c.name ++ c!"_re" ≠ c!"serialize_" ++ lower n

theorem definitionsFit_iff {g : Graph} : DefinitionsFit g ↔
    (patternNames g).Nodup ∧ ∀ x ∈ patternNames g, ∀ n ∈ allNames g, c!"serialize_" ++ lower n ≠ x := by
  have h1 : (patternNames g).Nodup ↔
      g.classes.Pairwise fun c d => c.idPattern.isSome = true → d.idPattern.isSome = true → lower c.name ≠ lower d.name := by
    unfold patternNames
    rw [List.Nodup, List.pairwise_map, List.pairwise_filter]
    simp
  have h2 : (∀ x ∈ patternNames g, ∀ n ∈ allNames g, c!"serialize_" ++ lower n ≠ x) ↔
      ∀ c ∈ g.classes, c.idPattern.isSome = true → ∀ n ps, Composite g n ps → lower c.name ++ c!"_re" ≠ c!"serialize_" ++ lower n := by
    constructor
    · intro h c hc hp n ps hn e
      exact h _ (List.mem_map.2 ⟨c, List.mem_filter.2 ⟨hc, hp⟩, rfl⟩) n (composite_name hn) e.symm
    · intro h x hx n hn e
      obtain ⟨c, hc, rfl⟩ := List.mem_map.1 hx
      obtain ⟨hc, hp⟩ := List.mem_filter.1 hc
      obtain ⟨ps, hn⟩ := composite_of_name hn
      exact h c hc hp n ps hn e.symm
  rw [h1, h2]
  exact ⟨fun ⟨a, b⟩ => ⟨a, b⟩, fun ⟨a, b⟩ => ⟨a, b⟩⟩

/-- The compiler accepts the definitions exactly if they fit. A schema in which a class or an embed has the name of the
graph is left out. -/
theorem C76_definitions_partial (L : Validation.Lib) (mapping : Json) (ref : Str) (s : Schema) (settings : Cpp) (H : TypesHeader)
    (sigs : List Sig) (items : List Item) (h : Generated L mapping ref s settings H sigs items)
    (hg : ∀ n ∈ defNames s.graph, asComposite n ≠ asComposite s.graph.name) :
    definitionsOk sigs items ↔ DefinitionsFit s.graph :=
  (definitions_iff (h.files hg) h.impl).trans definitionsFit_iff.symm

/-- A class whose identifiers have a pattern -/
def Demo.patterned (name plural : Str) : Json := SchemaDemo.object
  [(c!"name", SchemaDemo.text name), (c!"description", SchemaDemo.text c!"is a class."), (c!"plural", SchemaDemo.text plural),
   (c!"id_pattern", SchemaDemo.text c!"^[a-z]+$")]

/-- It is violated by two classes with patterns which differ in the case of a letter. -/
theorem C76_violated : ¬ C76Full := by
  intro h
  obtain ⟨s, p, H, sigs, items, hg, ht⟩ := Demo.of_check
    (mapping := Demo.schema [(c!"classes", .arr [Demo.patterned c!"FooBar" c!"FooBars", Demo.patterned c!"Foobar" c!"Others"])])
    (test := fun _ _ _ _ items => !decide (items.filterMap Item.ns?).Nodup) (by decide +kernel)
  simp only [Bool.not_eq_true', decide_eq_false_iff_not] at ht
  exact ht (h _ _ _ _ _ _ _ _ hg).2.1

/-- A class whose pattern has the name of a function -/
example : ∃ s p H sigs items, Generated SchemaDemo.lib (Demo.schema [(c!"classes", .arr [Demo.patterned c!"Serialize_foo" c!"Foos"]),
    Demo.embeds [Demo.embed c!"Foo_re" []]]) c!"#" s p H sigs items ∧ ¬ definitionsOk sigs items := by
  obtain ⟨s, p, H, sigs, items, hg, ht⟩ := Demo.of_check
    (mapping := Demo.schema [(c!"classes", .arr [Demo.patterned c!"Serialize_foo" c!"Foos"]), Demo.embeds [Demo.embed c!"Foo_re" []]])
    (test := fun _ _ _ sigs items => (items.filterMap Item.ns?).any fun n => sigs.any fun s => decide (s.name = n)) (by decide +kernel)
  simp only [List.any_eq_true, decide_eq_true_eq] at ht
  obtain ⟨n, hn, s', hs, e⟩ := ht
  exact ⟨s, p, H, sigs, items, hg, fun h => (h.2.2.1 n hn).2 s' (List.mem_append_left _ hs) e⟩

example : ∃ s p H sigs items, Generated SchemaDemo.lib Demo.mapping c!"#" s p H sigs items ∧ definitionsOk sigs items := by
  obtain ⟨s, p, H, sigs, items, hg, ht⟩ := Demo.generated
  simp only [decide_eq_true_eq] at ht
  refine ⟨s, p, H, sigs, items, hg, (C76_definitions_partial _ _ _ _ _ _ _ _ hg ?_).2 (definitionsFit_iff.2 ?_)⟩
  · rw [ht.1]; decide +kernel
  · rw [ht.1]; decide +kernel

/-! ## C77: the generated files compile -/

/-- The compiler accepts the structures, the definitions and the bodies. -/
def Compiles (H : TypesHeader) (sigs : List Sig) (items : List Item) : Prop :=
  structsOk H.forward [] H.structs ∧ definitionsOk sigs items ∧ bodiesOk (world H sigs) items

/-- C77: the generated files compile. -/
def C77Full : Prop := ∀ L mapping ref s settings H sigs items, Generated L mapping ref s settings H sigs items →
  Compiles H sigs items

/-- The generated files compile exactly if the structures, the definitions and the bodies fit. A composite which has the
name of a numbered variable is left out. -/
theorem C77_compiles_partial (L : Validation.Lib) (mapping : Json) (ref : Str) (s : Schema) (settings : Cpp) (H : TypesHeader)
    (sigs : List Sig) (items : List Item) (h : Generated L mapping ref s settings H sigs items) (hn : NoneNumbered s.graph) :
    Compiles H sigs items ↔ HeaderFits s.graph (usesDateH settings) ∧ DefinitionsFit s.graph ∧ BodiesFit s.graph (usesDateH settings) := by
  unfold Compiles
  rw [C72_structures_partial _ _ _ _ _ _ _ _ h]
  refine and_congr_right fun hh => ?_
  have hg : ∀ n ∈ defNames s.graph, asComposite n ≠ asComposite s.graph.name := by
    intro n hn
    rcases List.mem_append.1 hn with hn | hn
    · obtain ⟨c, hc, rfl⟩ := List.mem_map.1 hn
      exact hh.classes c hc
    · obtain ⟨e, he, rfl⟩ := List.mem_map.1 hn
      exact hh.embeds e he
  rw [C76_definitions_partial _ _ _ _ _ _ _ _ h hg, C73_bodies_partial _ _ _ _ _ _ _ _ h hg hn]

theorem C77_violated : ¬ C77Full := fun h =>
  C73_violated fun L m r s c H sigs items hg => (h L m r s c H sigs items hg).2.2

/-- The files for the schema of the examples compile. -/
theorem Demo.compiles : ∃ s p H sigs items, Generated SchemaDemo.lib Demo.mapping c!"#" s p H sigs items ∧
    s.graph = SchemaDemo.schema.graph ∧ usesDateH p = false ∧ NoneNumbered s.graph ∧ Compiles H sigs items := by
  obtain ⟨s, p, H, sigs, items, hg, ht⟩ := Demo.generated
  simp only [decide_eq_true_eq] at ht
  have hn : NoneNumbered s.graph := by
    rw [ht.1]
    have hfirst : ∀ (n : Str) k, n ∈ [c!"shop", c!"person", c!"address"] →
        ∀ b ∈ [c!"target", c!"vector", c!"i", c!"map", c!"kv"], n ≠ b ++ c!"_" ++ Text.natStr k := by
      intro n k hn b hb e
      have := congrArg List.head? e
      simp only [List.mem_cons, List.not_mem_nil, or_false] at hn hb
      rcases hn with rfl | rfl | rfl <;> rcases hb with rfl | rfl | rfl | rfl | rfl <;> simp at this
    intro n ps hc b hb k
    refine hfirst _ k ?_ b hb
    cases hc with
    | graph => decide
    | cls h => cases List.mem_singleton.1 h; decide
    | embed h => cases List.mem_singleton.1 h; decide
  refine ⟨s, p, H, sigs, items, hg, ht.1, ht.2, hn, (C77_compiles_partial _ _ _ _ _ _ _ _ hg hn).2 ⟨?_, ?_, ?_⟩⟩
  · refine (headerFits_iff hg.facts hg.plurals).1 ?_
    rw [ht.1, ht.2]
    exact Demo.headerOk
  · rw [ht.1]
    exact definitionsFit_iff.2 (by decide +kernel)
  · rw [ht.1, ht.2]
    exact bodiesFit_iff.2 (by decide +kernel)

end Mapry.Props.CppNames
