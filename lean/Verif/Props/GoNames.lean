import Verif.GoValidated

/-! # C57 - C61: the names and imports of the generated Go package -/

namespace Mapry.Props.Go

open Mapry.GoCode Mapry.TypeGraph Mapry.Naming Mapry.LangValidate Mapry.ParseSchema
open Mapry.PyRuntime (Json)

/-- The schema is parsed from the mapping, it passes the Go validation and the files are generated. -/
structure Generated (L : Validation.Lib) (mapping : Json) (ref : Str) (s : Schema) (fs : List File) : Prop where
  parsed : schemaFromMapping L mapping ref = .ok s
  valid : goValidateSchema s.graph = .ok []
  files : package s.graph = .ok fs

/-! ## Examples -/

namespace Demo

open SchemaDemo

/-- The schema of the examples passes the Go validation. -/
theorem valid : goValidateSchema SchemaDemo.schema.graph = .ok [] := by decide +kernel

def isOk {α : Type} (x : Except Exc α) : Bool :=
  match x with
  | .ok _ => true
  | .error _ => false

theorem of_isOk {α : Type} {x : Except Exc α} (h : isOk x = true) : ∃ a, x = .ok a := by
  cases x with
  | ok a => exact ⟨a, rfl⟩
  | error e => cases h

/-- The files are generated for the schema of the examples. -/
theorem generated : ∃ fs, Generated lib mapping c!"#" SchemaDemo.schema fs := by
  obtain ⟨fs, h⟩ := of_isOk (x := package SchemaDemo.schema.graph) (by decide +kernel)
  exact ⟨fs, SchemaDemo.parsed, valid, h⟩

/-- A property of a graph -/
def prop (name : Str) (ty : Ty) : Property :=
  { ref := c!"#/" ++ name, name := name, json := name, description := c!"is described.", ty := ty }

/-- A schema without properties -/
def empty : Json := object [(c!"name", text c!"Shop"), (c!"description", text c!"is a shop.")]

def emptySchema : Schema := ⟨{ ref := c!"#", name := c!"Shop", description := c!"is a shop." }, none, none, none⟩

theorem empty_generated : ∃ fs, Generated lib empty c!"#" emptySchema fs := by
  obtain ⟨fs, h⟩ := of_isOk (x := package emptySchema.graph) (by decide +kernel)
  exact ⟨fs, by decide +kernel, by decide +kernel, h⟩

/-- A class without properties -/
def cls (name plural : Str) : Json := object
  [(c!"name", text name), (c!"description", text c!"is a class."), (c!"plural", text plural)]

def clsOf (i name plural : Str) : Class :=
  { name := name, plural := plural, description := c!"is a class.", ref := c!"#/classes/" ++ i }

/-- A schema with classes -/
def classes (cs : List Json) : Json := object
  [(c!"name", text c!"Shop"), (c!"description", text c!"is a shop."), (c!"classes", .arr cs)]

def classesSchema (cs : List Class) : Schema :=
  ⟨{ ref := c!"#", name := c!"Shop", description := c!"is a shop.", classes := cs }, none, none, none⟩

/-- Two plurals which are alike except for the case of a letter -/
theorem plurals_generated : ∃ fs, Generated lib (classes [cls c!"Abc" c!"Abcs", cls c!"ABc" c!"ABcs"]) c!"#"
    (classesSchema [clsOf c!"0" c!"Abc" c!"Abcs", clsOf c!"1" c!"ABc" c!"ABcs"]) fs := by
  obtain ⟨fs, h⟩ := of_isOk
    (x := package (classesSchema [clsOf c!"0" c!"Abc" c!"Abcs", clsOf c!"1" c!"ABc" c!"ABcs"]).graph)
    (by decide +kernel)
  exact ⟨fs, by decide +kernel, by decide +kernel, h⟩

/-- A class named as the error container -/
theorem errors_generated : ∃ fs, Generated lib (classes [cls c!"Error" c!"Errors"]) c!"#"
    (classesSchema [clsOf c!"0" c!"Error" c!"Errors"]) fs := by
  obtain ⟨fs, h⟩ := of_isOk (x := package (classesSchema [clsOf c!"0" c!"Error" c!"Errors"]).graph) (by decide +kernel)
  exact ⟨fs, by decide +kernel, by decide +kernel, h⟩

def moments : Json := single c!"array" [(c!"values", object [(c!"type", text c!"datetime"), (c!"format", text [])])]

def momentsSchema : Schema :=
  ⟨{ ref := c!"#", name := c!"Shop", description := c!"is a shop.",
     properties := [prop c!"x" (.array (.datetime []) none none)] }, none, none, none⟩

/-- An array of date times with the empty format -/
theorem moments_generated : ∃ fs, Generated lib moments c!"#" momentsSchema fs := by
  obtain ⟨fs, h⟩ := of_isOk (x := package momentsSchema.graph) (by decide +kernel)
  exact ⟨fs, by decide +kernel, by decide +kernel, h⟩

end Demo

/-! ## C57: imports -/

/-- C57: every file imports exactly the packages which it uses. -/
def C57Full : Prop := ∀ L mapping ref s fs, Generated L mapping ref s fs → ∀ F ∈ fs, F.ImportsExact

/-- Exactly the schemas with a class or with a property of some composite fulfil C57. -/
theorem C57_imports_partial (L : Validation.Lib) (mapping : Json) (ref : Str) (s : Schema) (fs : List File)
    (h : Generated L mapping ref s fs) : (∀ F ∈ fs, F.ImportsExact) ↔
      (s.graph.classes ≠ [] ∨ s.graph.properties ≠ [] ∨ ∃ e ∈ s.graph.embeds, e.properties ≠ []) := by
  obtain ⟨hn, hr⟩ := parsed_facts h.parsed
  rw [package_imports hn hr h.files]
  have ne : ∀ {ps : List Property}, ps ≠ [] ↔ ∃ p, p ∈ ps := by
    intro ps
    cases ps with
    | nil => simp
    | cons p ps => exact ⟨fun _ => ⟨p, List.mem_cons_self ..⟩, fun _ => List.cons_ne_nil _ _⟩
  constructor
  · rintro (h | ⟨t, ⟨p, hp, _⟩ | ⟨c, p, hc, _⟩ | ⟨e, p, he, hp, _⟩⟩)
    · exact .inl h
    · exact .inr (.inl (ne.2 ⟨p, hp⟩))
    · exact .inl (List.ne_nil_of_mem hc)
    · exact .inr (.inr ⟨e, he, ne.2 ⟨p, hp⟩⟩)
  · rintro (h | h | ⟨e, he, h⟩)
    · exact .inl h
    · obtain ⟨p, hp⟩ := ne.1 h
      exact .inr ⟨_, .graph p hp (self_mem_parts _)⟩
    · obtain ⟨p, hp⟩ := ne.1 h
      exact .inr ⟨_, .embed e p he hp (self_mem_parts _)⟩

/-- No import is ever missing. -/
theorem C57_imports_suffice (L : Validation.Lib) (mapping : Json) (ref : Str) (s : Schema) (fs : List File)
    (h : Generated L mapping ref s fs) : ∀ F ∈ fs, ∀ p, Name.pkg p ∈ F.used → p ∈ F.imports := by
  obtain ⟨hn, hr⟩ := parsed_facts h.parsed
  exact package_used hn hr h.files

/-- It is violated: the parser of a schema without properties and classes imports `strings` for nothing. -/
theorem C57_violated : ¬ C57Full := by
  intro h
  obtain ⟨fs, hg⟩ := Demo.empty_generated
  have := (C57_imports_partial _ _ _ _ _ hg).1 (h _ _ _ _ _ hg)
  revert this
  decide

/-- The unused import is `strings` in the file of the parser. -/
theorem C57_violated_import : (match package Demo.emptySchema.graph with
    | .ok fs => fs.any fun F => F.imports.contains c!"strings" && !F.used.contains (Name.pkg c!"strings")
    | .error _ => false) = true := by decide +kernel

example : ∃ fs, Generated SchemaDemo.lib SchemaDemo.mapping c!"#" SchemaDemo.schema fs ∧ ∀ F ∈ fs, F.ImportsExact := by
  obtain ⟨fs, h⟩ := Demo.generated
  exact ⟨fs, h, (C57_imports_partial _ _ _ _ _ h).2 (.inl (by decide))⟩

/-! ## C58: the names in the functions -/

/-- C58: the compiler accepts the names in all the functions. -/
def C58Full : Prop := ∀ L mapping ref s fs, Generated L mapping ref s fs → ∀ F ∈ fs, F.Scoped (declared fs)

/-- C58 holds exactly if the variables of the registries are distinct, if there is a class or a property of the graph,
and if no format of the items of an array or a map is empty. -/
theorem C58_names_partial (L : Validation.Lib) (mapping : Json) (ref : Str) (s : Schema) (fs : List File)
    (h : Generated L mapping ref s fs) : (∀ F ∈ fs, F.Scoped (declared fs)) ↔
      (∀ c ∈ s.graph.classes, ∀ d ∈ s.graph.classes, camelCase c.plural = camelCase d.plural → c.name = d.name) ∧
      (s.graph.classes ≠ [] ∨ s.graph.properties ≠ []) ∧
      ∀ t u f, Occurs s.graph t → (t = .map u ∨ ∃ lo hi, t = .array u lo hi) → formatOf u = some f →
        ¬ OnlyBreaks f := by
  obtain ⟨hn, hr⟩ := parsed_facts h.parsed
  have hc := package_needs ⟨fs, h.files⟩
  rw [package_scoped hn hr h.files, itemsVisible_iff hc]
  have hp : PluralsDistinct s.graph ↔
      ∀ c ∈ s.graph.classes, ∀ d ∈ s.graph.classes, camelCase c.plural = camelCase d.plural → c.name = d.name := by
    constructor
    · intro hp c hc' d hd e
      obtain ⟨p, hp'⟩ := (hc.classes c hc').2.2.2.1
      exact hp c hc' d hd p hp' (e ▸ hp')
    · intro hp c hc d hd p h1 h2
      exact hp c hc d hd (h1.trans h2.symm)
  rw [hp]

/-- It is violated by two classes whose plurals differ in the case of a letter ... -/
theorem C58_violated_plurals : ¬ C58Full := by
  intro h
  obtain ⟨fs, hg⟩ := Demo.plurals_generated
  have := ((C58_names_partial _ _ _ _ _ hg).1 (h _ _ _ _ _ hg)).1
  revert this
  decide +kernel

/-- ... by a schema without classes and properties ... -/
theorem C58_violated_empty : ¬ C58Full := by
  intro h
  obtain ⟨fs, hg⟩ := Demo.empty_generated
  have := ((C58_names_partial _ _ _ _ _ hg).1 (h _ _ _ _ _ hg)).2.1
  revert this
  decide

/-- ... and by an array of date times with the empty format. -/
theorem C58_violated_format : ¬ C58Full := by
  intro h
  obtain ⟨fs, hg⟩ := Demo.moments_generated
  refine ((C58_names_partial _ _ _ _ _ hg).1 (h _ _ _ _ _ hg)).2.2 (.array (.datetime []) none none) (.datetime []) []
    (.graph _ (List.mem_cons_self ..) (self_mem_parts _)) (.inr ⟨none, none, rfl⟩) rfl ?_
  decide

example : ∃ fs, Generated SchemaDemo.lib SchemaDemo.mapping c!"#" SchemaDemo.schema fs ∧
    ∀ F ∈ fs, F.Scoped (declared fs) := by
  obtain ⟨fs, h⟩ := Demo.generated
  refine ⟨fs, h, (C58_names_partial _ _ _ _ _ h).2 ⟨by decide, .inl (by decide), ?_⟩⟩
  intro t u f ht hu hf
  obtain ⟨r, hm⟩ := mem_iterate.2 ht
  have key : ∀ x ∈ iterateOverTypes SchemaDemo.schema.graph,
      (match x.1 with | .map u => formatOf u | .array u _ _ => formatOf u | _ => none) = none := by decide +kernel
  have := key _ hm
  rcases hu with rfl | ⟨lo, hi, rfl⟩ <;> (simp only [hf] at this; cases this)

/-! ## C59: the declarations of the package -/

/-- The Go identifiers of the graph, the classes and the embeds -/
def ids (g : Graph) : List Str :=
  (g.name :: (g.classes.map (·.name) ++ g.embeds.map (·.name))).map (camelSpec true)

/-- No identifier is the one of another composite, of the error container or of a function of a composite. -/
structure Apart (g : Graph) : Prop where
  nodup : (ids g).Nodup
  errors : ∀ u ∈ ids g, u ∉ [c!"Error", c!"Errors", c!"NewErrors"]
  funcs : ∀ u ∈ ids g, ∀ w ∈ ids g, u ≠ w ++ c!"FromJSONable" ∧ u ≠ w ++ c!"ToJSONable"

/-- C59: the texts of all the names declared in the package are distinct. -/
def C59Full : Prop := ∀ L mapping ref s fs, Generated L mapping ref s fs → ((declared fs).map Name.text).Nodup

theorem mapM_ucamel {l us : List Str} (h : l.mapM ucamelCase = .ok us) : us = l.map (camelSpec true) := by
  induction l generalizing us with
  | nil => cases h; rfl
  | cons a l ih =>
    obtain ⟨b, bs, hb, hbs, rfl⟩ := mapM_cons h
    rw [ih hbs, ((C01_ucamel_case_ok_iff a b).1 hb).2]
    rfl

/-- C59 holds exactly if the identifiers are apart. -/
theorem C59_declared_partial (L : Validation.Lib) (mapping : Json) (ref : Str) (s : Schema) (fs : List File)
    (h : Generated L mapping ref s fs) : ((declared fs).map Name.text).Nodup ↔ Apart s.graph := by
  obtain ⟨us, hus, hiff⟩ := declared_nodup h.files
  rw [hiff]
  have hp : us.Perm (ids s.graph) := by
    rw [mapM_ucamel hus.eq]
    unfold ids
    refine List.Perm.map _ ?_
    rw [List.perm_iff_count]
    intro a
    simp only [List.count_append, List.count_cons, List.count_nil]
    omega
  constructor
  · rintro ⟨h1, h2, h3⟩
    exact ⟨hp.nodup_iff.1 h1, fun u hu => h2 u (hp.mem_iff.2 hu),
      fun u hu w hw => h3 u (hp.mem_iff.2 hu) w (hp.mem_iff.2 hw)⟩
  · rintro ⟨h1, h2, h3⟩
    exact ⟨hp.nodup_iff.2 h1, fun u hu => h2 u (hp.mem_iff.1 hu),
      fun u hu w hw => h3 u (hp.mem_iff.1 hu) w (hp.mem_iff.1 hw)⟩

/-- It is violated by a class `Error`; the check for the reserved names has no effect. -/
theorem C59_violated : ¬ C59Full := by
  intro h
  obtain ⟨fs, hg⟩ := Demo.errors_generated
  have := ((C59_declared_partial _ _ _ _ _ hg).1 (h _ _ _ _ _ hg)).errors c!"Error"
    (by rw [ids]; simp only [List.mem_map]; exact ⟨c!"Error", by decide, by decide⟩)
  revert this
  decide

example : ∃ fs, Generated SchemaDemo.lib SchemaDemo.mapping c!"#" SchemaDemo.schema fs ∧
    ((declared fs).map Name.text).Nodup := by
  obtain ⟨fs, h⟩ := Demo.generated
  exact ⟨fs, h, (C59_declared_partial _ _ _ _ _ h).2 ⟨by decide +kernel, by decide +kernel, by decide +kernel⟩⟩

/-! ## C60: the generation succeeds -/

/-- C60: the files are generated for every schema which passes the Go validation. -/
def C60Full : Prop := ∀ (L : Validation.Lib) (mapping : Json) (ref : Str) (s : Schema),
  schemaFromMapping L mapping ref = .ok s → goValidateSchema s.graph = .ok [] → ∃ fs, package s.graph = .ok fs

/-- The generation succeeds exactly if every plural starts with a capital, no format ends with an empty line and the bounds
of the floats are not beyond the largest float. -/
theorem C60_generation_partial (L : Validation.Lib) (mapping : Json) (ref : Str) (s : Schema)
    (hs : schemaFromMapping L mapping ref = .ok s) (hv : goValidateSchema s.graph = .ok []) :
    (∃ fs, package s.graph = .ok fs) ↔
      (∀ c ∈ s.graph.classes, ∃ x xs, c.plural = x :: xs ∧ 'A' ≤ x ∧ x ≤ 'Z') ∧
      (∀ t f, Occurs s.graph t → formatOf t = some f → ¬ ∃ a x, Strftime.splitlines f = a ++ [x, []]) ∧
      ∀ b i, Occurs s.graph (.float b) → b.min = some i ∨ b.max = some i → i.natAbs < 2 ^ 1024 - 2 ^ 970 := by
  refine (package_ok_iff (parsed_facts hs).1 (parsed_facts hs).2).trans ((and_congr (convertible_iff hv) ?_).trans and_assoc)
  constructor
  · intro h b i ho hi
    refine h _ i ho ?_
    simpa [boundsOf] using hi
  · intro h t i ho hi
    cases t with
    | float b => exact h b i ho (by simpa [boundsOf] using hi)
    | _ => cases hi

/-- A schema with a date whose format ends with two line breaks -/
def Demo.breaks : Json := SchemaDemo.single c!"date" [(c!"format", SchemaDemo.text c!"%Y\n\n")]

def Demo.breaksSchema : Schema :=
  ⟨{ ref := c!"#", name := c!"Shop", description := c!"is a shop.", properties := [Demo.prop c!"x" (.date c!"%Y\n\n")] },
    none, none, none⟩

/-- It is violated by a format which ends with two line breaks ... -/
theorem C60_violated_format : ¬ C60Full := by
  intro h
  obtain ⟨fs, hf⟩ := h SchemaDemo.lib Demo.breaks c!"#" Demo.breaksSchema (by decide +kernel) (by decide +kernel)
  have : package Demo.breaksSchema.graph = .error .violation := by decide +kernel
  rw [this] at hf
  cases hf

/-- A class without a plural -/
def Demo.foci : Json := SchemaDemo.object
  [(c!"name", SchemaDemo.text c!"Shop"), (c!"description", SchemaDemo.text c!"is a shop."),
   (c!"classes", .arr [SchemaDemo.object [(c!"name", SchemaDemo.text c!"Some_focus"),
     (c!"description", SchemaDemo.text c!"is a class.")]])]

/-- ... and by a class whose inferred plural does not start with a capital. -/
theorem C60_violated_plural : ¬ C60Full := by
  intro h
  have h1 : ∃ s, schemaFromMapping SchemaDemo.lib Demo.foci c!"#" = .ok s := Demo.of_isOk (by decide +kernel)
  obtain ⟨s, hs⟩ := h1
  have h2 : (match schemaFromMapping SchemaDemo.lib Demo.foci c!"#" with
    | .ok s => decide (goValidateSchema s.graph = .ok []) && decide (package s.graph = .error .violation)
    | .error _ => false) = true := by decide +kernel
  rw [hs] at h2
  simp only [Bool.and_eq_true, decide_eq_true_eq] at h2
  obtain ⟨fs, hf⟩ := h _ _ _ s hs h2.1
  rw [h2.2] at hf
  cases hf

/-- A schema with a float whose minimum is 2^1024 -/
def Demo.huge : Json := SchemaDemo.single c!"float" [(c!"minimum", .int (2 ^ 1024))]

def Demo.hugeSchema : Schema :=
  ⟨{ ref := c!"#", name := c!"Shop", description := c!"is a shop.",
     properties := [Demo.prop c!"x" (.float ⟨some (2 ^ 1024), false, none, false⟩)] }, none, none, none⟩

/-- ... and by a float with a bound beyond the largest float: the message with the bound can not be formatted. -/
theorem C60_violated_bound : ¬ C60Full := by
  intro h
  obtain ⟨fs, hf⟩ := h SchemaDemo.lib Demo.huge c!"#" Demo.hugeSchema (by decide +kernel) (by decide +kernel)
  have : package Demo.hugeSchema.graph = .error .overflowError := by decide +kernel
  rw [this] at hf
  cases hf

example : ∃ fs, package SchemaDemo.schema.graph = .ok fs := by
  refine (C60_generation_partial _ _ _ _ SchemaDemo.parsed Demo.valid).2 ⟨?_, ?_, ?_⟩
  · intro c hc
    cases List.mem_singleton.1 hc
    exact ⟨'P', c!"eople", rfl, by decide, by decide⟩
  · intro t f ht hf
    obtain ⟨r, hm⟩ := mem_iterate.2 ht
    have key : ∀ x ∈ iterateOverTypes SchemaDemo.schema.graph, formatOf x.1 = none := by decide +kernel
    rw [key _ hm] at hf
    cases hf
  · intro b i ht hi
    obtain ⟨r, hm⟩ := mem_iterate.2 ht
    have key : ∀ x ∈ iterateOverTypes SchemaDemo.schema.graph, ∀ i ∈ boundsOf x.1, Rounds i := by decide +kernel
    exact key _ hm i (by simpa [boundsOf] using hi)

/-! ## C61: the patterns -/

/-- A pattern of the schema: of a string or a path at any depth or of the identifiers of a class -/
def IsPattern (g : Graph) (p : Str) : Prop :=
  Occurs g (.string (some p)) ∨ Occurs g (.path (some p)) ∨ ∃ c ∈ g.classes, c.idPattern = some p

theorem isPattern_iff {g : Graph} {p : Str} : HasPattern g p ↔ IsPattern g p := by
  unfold HasPattern IsPattern
  constructor
  · rintro (⟨t, ht, rfl | rfl⟩ | h)
    · exact .inl ht
    · exact .inr (.inl ht)
    · exact .inr (.inr h)
  · rintro (h | h | h)
    · exact .inl ⟨_, h, .inl rfl⟩
    · exact .inl ⟨_, h, .inr rfl⟩
    · exact .inr h

/-- C61: exactly the patterns of the schema are numbered, each one once and with a number of its own. -/
theorem C61_patterns_numbered (g : Graph) :
    (∀ p, (∃ n, (p, n) ∈ enumeratePatterns g) ↔ IsPattern g p) ∧
    (∀ p n m, (p, n) ∈ enumeratePatterns g → (p, m) ∈ enumeratePatterns g → n = m) ∧
    (∀ p q n, (p, n) ∈ enumeratePatterns g → (q, n) ∈ enumeratePatterns g → p = q) ∧
    (enumeratePatterns g).Nodup := by
  obtain ⟨h1, h2, h3⟩ := patterns_enumerated g
  have key : ∀ {α β : Type} {f : α → β} {l : List α}, (l.map f).Nodup → ∀ a ∈ l, ∀ b ∈ l, f a = f b → a = b := by
    intro α β f l hl
    induction l with
    | nil => simp
    | cons x l ih =>
      simp only [List.map_cons, List.nodup_cons, List.mem_map, not_exists, not_and] at hl
      intro a ha b hb e
      rcases List.mem_cons.1 ha with ea | ha' <;> rcases List.mem_cons.1 hb with eb | hb'
      · rw [ea, eb]
      · exact absurd (ea ▸ e.symm) (hl.1 b hb')
      · exact absurd (eb ▸ e) (hl.1 a ha')
      · exact ih hl.2 a ha' b hb' e
  refine ⟨fun p => ?_, fun p n m hn hm => ?_, fun p q n hp hq => ?_, ?_⟩
  · rw [← isPattern_iff, ← h3 p]
    simp [List.mem_map]
  · exact congrArg Prod.snd (key h1 _ hn _ hm rfl)
  · exact congrArg Prod.fst (key h2 _ hp _ hq rfl)
  · exact List.Pairwise.of_map _ (fun a b hne e => hne (congrArg _ e)) h1

/-- The generated code refers to two patterns by two variables, and both are declared. -/
theorem C61_patterns_distinct (g : Graph) (fs : List File) (h : package g = .ok fs) (p q : Str) (hp : IsPattern g p)
    (hq : IsPattern g q) :
    patternName (enumeratePatterns g) p ∈ declared fs ∧
    ((patternName (enumeratePatterns g) p).text = (patternName (enumeratePatterns g) q).text → p = q) := by
  refine ⟨(package_covers h).patterns p (isPattern_iff.2 hp), fun e => ?_⟩
  obtain ⟨n, hn, _⟩ := GoCode.lookup_mem (((patterns_enumerated g).2.2 p).2 (isPattern_iff.2 hp))
  obtain ⟨m, hm, _⟩ := GoCode.lookup_mem (((patterns_enumerated g).2.2 q).2 (isPattern_iff.2 hq))
  apply patternName_inj (isPattern_iff.2 hp) (isPattern_iff.2 hq)
  unfold patternName at e ⊢
  rw [hn, hm] at e ⊢
  simp only [Name.text, List.append_cancel_left_eq] at e
  rw [natStr_inj e]

/-- A pattern which occurs twice keeps one entry while the counter goes on. -/
example : enumeratePatterns
    { ref := [], name := c!"A", description := [],
      properties := [Demo.prop c!"x" (.string (some c!"a")), Demo.prop c!"y" (.map (.string (some c!"b"))),
        Demo.prop c!"z" (.path (some c!"a"))] } = [(c!"a", 2), (c!"b", 1)] := by decide

end Mapry.Props.Go
