import Verif.PyReach
import Verif.Props.GoNames

/-! # C65 - C69: the names, imports and calls of the generated Python package -/

namespace Mapry.Props.PyNames

open Mapry.PyCode Mapry.TypeGraph Mapry.Naming Mapry.LangValidate Mapry.ParseSchema
open Mapry.PyRuntime (Json)
open Mapry.GoCode (parsed_facts)

/-- The schema is parsed from the mapping, it passes the Python validation and the modules are generated. -/
structure Generated (L : Validation.Lib) (mapping : Json) (ref : Str) (s : Schema) (settings : Py) (pkg : List Module) :
    Prop where
  parsed : schemaFromMapping L mapping ref = .ok s
  valid : validateSchema LangValidate.py s.graph = .ok []
  given : s.py = some settings
  modules : package s.graph settings = .ok pkg

theorem Generated.facts {L mapping ref s settings pkg} (h : Generated L mapping ref s settings pkg) : Facts s.graph :=
  facts_of (parsed_facts h.parsed).1 (parsed_facts h.parsed).2 h.valid

theorem Generated.all {L mapping ref s settings pkg} (h : Generated L mapping ref s settings pkg) :
    Modules s.graph settings pkg := PyCode.modules h.facts h.modules

/-- The names of the classes, of the embeds and of the graph -/
def names (g : Graph) : List Str := g.classes.map (·.name) ++ g.embeds.map (·.name) ++ [g.name]

/-! ## Examples -/

namespace Demo

open SchemaDemo

/-- The schema which is parsed, the settings and the modules pass a test. -/
def check (mapping : Json) (test : Schema → Py → List Module → Bool) : Bool :=
  match schemaFromMapping lib mapping c!"#" with
  | .error _ => false
  | .ok s => match s.py with
    | none => false
    | some p => decide (validateSchema LangValidate.py s.graph = .ok []) && match package s.graph p with
      | .error _ => false
      | .ok pkg => test s p pkg

theorem of_check {mapping : Json} {test : Schema → Py → List Module → Bool} (h : check mapping test = true) :
    ∃ s p pkg, Generated lib mapping c!"#" s p pkg ∧ test s p pkg = true := by
  unfold check at h
  split at h
  · cases h
  · rename_i s hs
    split at h
    · cases h
    · rename_i p hp
      simp only [Bool.and_eq_true, decide_eq_true_eq] at h
      obtain ⟨hv, h⟩ := h
      split at h
      · cases h
      · rename_i pkg hk
        exact ⟨s, p, pkg, ⟨hs, hv, hp, hk⟩, h⟩

/-- A schema in the module with the name -/
def schema (module : Str) (rest : List (Str × Json)) (name : Str := c!"Shop") : Json := object
  ([(c!"name", text name), (c!"description", text c!"is a shop."),
    (c!"py", object [(c!"module_name", text module), (c!"path_as", text c!"str"), (c!"timezone_as", text c!"str")])] ++ rest)

def property (name : Str) : Str × Json := (c!"properties", object [(name, definition c!"boolean" [])])

def classes (cs : List (Str × Str)) : Str × Json := (c!"classes", .arr (cs.map fun c => Go.Demo.cls c.1 c.2))

/-- The modules of the schema of the examples -/
theorem generated : ∃ s p pkg, Generated lib mapping c!"#" s p pkg ∧
    (decide (s = SchemaDemo.schema) && decide (p.moduleName = c!"some.shop")) = true := of_check (by decide +kernel)

/-- A text without underscore is no temporary variable. -/
theorem no_temp {r : Str} (h : '_' ∉ r) : ∀ base ∈ tempBases, ∀ n, r ≠ base ++ '_' :: Text.natStr n := by
  rintro base _ n rfl
  simp at h

theorem free : RootFree SchemaDemo.schema.graph c!"some" :=
  ⟨by decide, by decide, by decide, no_temp (by decide), by decide +kernel, by decide +kernel⟩

end Demo

/-! ## C65: imports -/

/-- C65: every module imports exactly the modules which it uses. -/
def C65Full : Prop := ∀ L mapping ref s settings pkg, Generated L mapping ref s settings pkg → ∀ M ∈ pkg, M.ImportsExact

/-- The definitions of the types use `typing`: there is a registry, an optional property, or an array or a map at any
depth. -/
def Typing (g : Graph) : Prop :=
  g.classes ≠ [] ∨ (∃ p, (p ∈ g.properties ∨ (∃ c ∈ g.classes, p ∈ c.properties) ∨ ∃ e ∈ g.embeds, p ∈ e.properties) ∧
    p.optional = true) ∨ ∃ t, Occurs g t ∧ ((∃ x lo hi, t = .array x lo hi) ∨ ∃ x, t = .map x)

theorem ownerProps_iff {g : Graph} (hn : Named g) {p : Property} : (∃ o ∈ definitionOrder g, p ∈ ownerProps g o) ↔
    (p ∈ g.properties ∨ (∃ c ∈ g.classes, p ∈ c.properties) ∨ ∃ e ∈ g.embeds, p ∈ e.properties) := by
  constructor
  · rintro ⟨o, ho, hp⟩
    cases o with
    | graph => exact .inl hp
    | cls n =>
      simp only [ownerProps] at hp
      cases hc : g.cls? n with
      | none => rw [hc] at hp; cases hp
      | some c => rw [hc] at hp; exact .inr (.inl ⟨c, (find_mem hc).1, hp⟩)
    | embed n =>
      simp only [ownerProps] at hp
      cases hc : g.embed? n with
      | none => rw [hc] at hp; cases hp
      | some c => rw [hc] at hp; exact .inr (.inr ⟨c, (find_mem hc).1, hp⟩)
  · rintro (hp | ⟨c, hc, hp⟩ | ⟨e, he, hp⟩)
    · exact ⟨.graph, by simp [definitionOrder], hp⟩
    · exact ⟨.cls c.name, comp_order (class_comp hc), by simpa [ownerProps, hn.cls? hc] using hp⟩
    · exact ⟨.embed e.name, comp_order (embed_comp ⟨e, he, rfl⟩), by simpa [ownerProps, hn.embed? he] using hp⟩

theorem typing_iff {g : Graph} (hn : Named g) : UsesTyping g ↔ Typing g := by
  unfold UsesTyping Typing
  have h1 : needs g .array = true ↔ ∃ t, Occurs g t ∧ ∃ x lo hi, t = .array x lo hi := by
    rw [GoCode.needs_ty hn (by simp) (by simp) (by simp)]
    constructor
    · rintro ⟨t, ht, e⟩
      cases t <;> cases e
      exact ⟨_, ht, _, _, _, rfl⟩
    · rintro ⟨_, ht, x, lo, hi, rfl⟩
      exact ⟨_, ht, rfl⟩
  have h2 : needs g .map = true ↔ ∃ t, Occurs g t ∧ ∃ x, t = .map x := by
    rw [GoCode.needs_ty hn (by simp) (by simp) (by simp)]
    constructor
    · rintro ⟨t, ht, e⟩
      cases t <;> cases e
      exact ⟨_, ht, _, rfl⟩
    · rintro ⟨_, ht, x, rfl⟩
      exact ⟨_, ht, rfl⟩
  have h3 : (∃ o ∈ definitionOrder g, ∃ p ∈ ownerProps g o, p.optional = true) ↔
      ∃ p, (p ∈ g.properties ∨ (∃ c ∈ g.classes, p ∈ c.properties) ∨ ∃ e ∈ g.embeds, p ∈ e.properties) ∧ p.optional = true := by
    constructor
    · rintro ⟨o, ho, p, hp, e⟩
      exact ⟨p, (ownerProps_iff hn).1 ⟨o, ho, hp⟩, e⟩
    · rintro ⟨p, hp, e⟩
      obtain ⟨o, ho, hp⟩ := (ownerProps_iff hn).2 hp
      exact ⟨o, ho, p, hp, e⟩
  rw [h1, h2, h3]
  constructor
  · rintro (h | h | ⟨t, h, h'⟩ | ⟨t, h, h'⟩)
    · exact .inl h
    · exact .inr (.inl h)
    · exact .inr (.inr ⟨t, h, .inl h'⟩)
    · exact .inr (.inr ⟨t, h, .inr h'⟩)
  · rintro (h | h | ⟨t, h, h' | h'⟩)
    · exact .inl h
    · exact .inr (.inl h)
    · exact .inr (.inr (.inl ⟨t, h, h'⟩))
    · exact .inr (.inr (.inr ⟨t, h, h'⟩))

/-- C65 holds exactly if `typing` is used in the definitions of the types. -/
theorem C65_imports_partial (L : Validation.Lib) (mapping : Json) (ref : Str) (s : Schema) (settings : Py)
    (pkg : List Module) (h : Generated L mapping ref s settings pkg) : (∀ M ∈ pkg, M.ImportsExact) ↔ Typing s.graph := by
  rw [h.all.imports.2, typing_iff h.facts.named]

/-- No import is ever missing. -/
theorem C65_imports_suffice (L : Validation.Lib) (mapping : Json) (ref : Str) (s : Schema) (settings : Py)
    (pkg : List Module) (h : Generated L mapping ref s settings pkg) : ∀ M ∈ pkg, ∀ n ∈ M.names, n.Imported M.imports :=
  h.all.imports.1

/-- It is violated by a schema with a single property. -/
theorem C65_violated : ¬ C65Full := by
  intro h
  obtain ⟨s, p, pkg, hg, ht⟩ := Demo.of_check (mapping := Demo.schema c!"some" [Demo.property c!"x"])
    (test := fun _ _ pkg => pkg.any fun M => M.imports.any fun i => M.names.all fun n => !n.needs.contains i) (by decide +kernel)
  simp only [List.any_eq_true, List.all_eq_true, Bool.not_eq_true', List.contains_eq_mem, decide_eq_false_iff_not] at ht
  obtain ⟨M, hM, i, hi, hn⟩ := ht
  obtain ⟨n, h1, h2⟩ := (h _ _ _ _ _ _ hg M hM).used i hi
  exact hn n h1 h2

example : ∃ s p pkg, Generated SchemaDemo.lib SchemaDemo.mapping c!"#" s p pkg ∧ ∀ M ∈ pkg, M.ImportsExact := by
  obtain ⟨s, p, pkg, h, ht⟩ := Demo.generated
  simp only [Bool.and_eq_true, decide_eq_true_eq] at ht
  refine ⟨s, p, pkg, h, (C65_imports_partial _ _ _ _ _ _ h).2 (.inl ?_)⟩
  rw [ht.1]
  decide

/-! ## C66: the modules can be imported -/

/-- C66: Python can import every module, and no definition replaces another one. -/
def C66Full : Prop := ∀ L mapping ref s settings pkg, Generated L mapping ref s settings pkg → ∀ M ∈ pkg, M.Importable pkg

/-- No property and no registry is called `self`. -/
def SelfFree (g : Graph) : Prop :=
  (∀ p, p ∈ g.properties ∨ (∃ c ∈ g.classes, p ∈ c.properties) ∨ (∃ e ∈ g.embeds, p ∈ e.properties) →
    lower p.name ≠ c!"self") ∧ ∀ c ∈ g.classes, lower c.plural ≠ c!"self"

theorem selfFree_iff {g : Graph} (hn : Named g) : NoSelf g ↔ SelfFree g := by
  unfold NoSelf SelfFree
  constructor
  · intro h
    refine ⟨fun p hp e => ?_, fun c hc e => ?_⟩
    · obtain ⟨o, ho, hp⟩ := (ownerProps_iff hn).2 hp
      exact h o ho (List.mem_append_left _ (List.mem_map.2 ⟨p, hp, e⟩))
    · exact h .graph (by simp [definitionOrder]) (List.mem_append_right _ (List.mem_map.2 ⟨c, hc, e⟩))
  · rintro ⟨h1, h2⟩ o ho hm
    rcases List.mem_append.1 hm with hm | hm
    · obtain ⟨p, hp, e⟩ := List.mem_map.1 hm
      exact h1 p ((ownerProps_iff hn).1 ⟨o, ho, hp⟩) e
    · cases o with
      | graph =>
        obtain ⟨c, hc, e⟩ := List.mem_map.1 hm
        exact h2 c hc e
      | cls n => cases hm
      | embed n => cases hm

theorem ids_eq {g : Graph} (hf : Facts g) : (allNames g).map idOf = (names g).map (camelSpec true) := by
  apply List.map_congr_left
  intro n hn
  have h := hf.composite n hn
  unfold asComposite at h
  split at h
  · cases h
  · split at h
    · exact ((C01_ucamel_case_ok_iff _ _).1 h).2
    · cases h

/-- For a package whose path does not get in the way, C66 holds exactly if the classes, the embeds and the graph differ
in their identifiers and not only in the case of letters, and if nothing is called `self`. -/
theorem C66_importable_partial (L : Validation.Lib) (mapping : Json) (ref : Str) (s : Schema) (settings : Py)
    (pkg : List Module) (h : Generated L mapping ref s settings pkg) (hr : RootFree s.graph (root settings.moduleName)) :
    (∀ M ∈ pkg, M.Importable pkg) ↔
      ((names s.graph).map (camelSpec true)).Nodup ∧ ((names s.graph).map lower).Nodup ∧ SelfFree s.graph := by
  rw [h.all.importable hr, ids_eq h.facts, selfFree_iff h.facts.named]
  rfl

/-- It is violated by a property `self` ... -/
theorem C66_violated_self : ¬ C66Full := by
  intro h
  obtain ⟨s, p, pkg, hg, ht⟩ := Demo.of_check (mapping := Demo.schema c!"some" [Demo.property c!"self"])
    (test := fun _ _ pkg => pkg.any fun M => M.funcs.any fun f => !decide (f.params.map fun (p : Param) => p.var.text).Nodup)
    (by decide +kernel)
  simp only [List.any_eq_true, Bool.not_eq_true', decide_eq_false_iff_not] at ht
  obtain ⟨M, hM, f, hf, hn⟩ := ht
  exact hn ((h _ _ _ _ _ _ hg M hM).params f hf)

/-- ... by two classes which differ in the case of a letter ... -/
theorem C66_violated_case : ¬ C66Full := by
  intro h
  obtain ⟨s, p, pkg, hg, ht⟩ := Demo.of_check
    (mapping := Demo.schema c!"some" [Demo.classes [(c!"Ab", c!"Abs"), (c!"AB", c!"Others")]])
    (test := fun _ _ pkg => pkg.any fun M => !decide (M.items.map Item.name).Nodup) (by decide +kernel)
  simp only [List.any_eq_true, Bool.not_eq_true', decide_eq_false_iff_not] at ht
  obtain ⟨M, hM, hn⟩ := ht
  exact hn (h _ _ _ _ _ _ hg M hM).nodup

/-- ... by a class with the identifier of the graph, although the names differ in an underscore ... -/
theorem C66_violated_graph : ¬ C66Full := by
  intro h
  obtain ⟨s, p, pkg, hg, ht⟩ := Demo.of_check
    (mapping := Demo.schema c!"some" [Demo.classes [(c!"Shop_list", c!"Others")]] c!"ShopList")
    (test := fun s _ pkg => decide ((names s.graph).map lower).Nodup &&
      pkg.any fun M => !decide (M.items.map Item.name).Nodup) (by decide +kernel)
  simp only [Bool.and_eq_true, List.any_eq_true, Bool.not_eq_true', decide_eq_false_iff_not] at ht
  obtain ⟨_, M, hM, hn⟩ := ht
  exact hn (h _ _ _ _ _ _ hg M hM).nodup

/-- Some definition looks up a wrong name. -/
def badLoads (imports : List (Origin × Str)) : List Str → List Item → Bool
  | _, [] => false
  | before, i :: is => (i.uses.any fun n => find imports [] before n.text != some n.meant) || badLoads imports (before ++ [i.name]) is

theorem badLoads_of {pkg imports before is} (h : Loads pkg imports before is) : badLoads imports before is = false := by
  induction is generalizing before with
  | nil => rfl
  | cons i is ih =>
    simp only [badLoads, Bool.or_eq_false_iff, List.any_eq_false, bne_iff_ne, ne_eq, Decidable.not_not]
    exact ⟨fun n hn => (h.1 n hn).meaning, ih h.2⟩

/-- ... and by a module named as a module of the library. -/
theorem C66_violated_module : ¬ C66Full := by
  intro h
  obtain ⟨s, p, pkg, hg, ht⟩ := Demo.of_check (mapping := Demo.schema c!"typing" [Demo.property c!"x"])
    (test := fun _ _ pkg => pkg.any fun M => badLoads M.imports [] M.items) (by decide +kernel)
  simp only [List.any_eq_true] at ht
  obtain ⟨M, hM, hn⟩ := ht
  rw [badLoads_of (h _ _ _ _ _ _ hg M hM).loads] at hn
  cases hn

theorem Demo.facts : ((names SchemaDemo.schema.graph).map (camelSpec true)).Nodup ∧
    ((names SchemaDemo.schema.graph).map lower).Nodup ∧ SelfFree SchemaDemo.schema.graph := by
  refine ⟨by decide +kernel, by decide +kernel, ?_⟩
  obtain ⟨hn, _⟩ := parsed_facts SchemaDemo.parsed
  rw [← selfFree_iff hn]
  unfold NoSelf
  decide +kernel

example : ∃ s p pkg, Generated SchemaDemo.lib SchemaDemo.mapping c!"#" s p pkg ∧ ∀ M ∈ pkg, M.Importable pkg := by
  obtain ⟨s, p, pkg, h, ht⟩ := Demo.generated
  simp only [Bool.and_eq_true, decide_eq_true_eq] at ht
  refine ⟨s, p, pkg, h, (C66_importable_partial _ _ _ _ _ _ h ?_).2 ?_⟩
  · rw [ht.1, ht.2]
    exact Demo.free
  · rw [ht.1]
    exact Demo.facts

/-! ## C67: the executions look up the right names -/

/-- C67: no execution of a function or of a method looks up a name which is not bound or which is not the one which is
meant. -/
def C67Full : Prop := ∀ L mapping ref s settings pkg, Generated L mapping ref s settings pkg →
  ∀ M ∈ pkg, ∀ f ∈ M.funcs, f.Clean pkg M

/-- No property of the graph and no registry is called `collections` if there are registries. -/
def CollectionsFree (g : Graph) : Prop := g.classes ≠ [] →
  (∀ p ∈ g.properties, lower p.name ≠ c!"collections") ∧ ∀ c ∈ g.classes, lower c.plural ≠ c!"collections"

/-- The variables in the serializer of the graph are apart: the one for an instance of a class is neither the function
for a class or for an embed in a property of the graph nor the one for the registry. -/
structure VariablesApart (g : Graph) : Prop where
  classes : ∀ c ∈ g.classes, ∀ d ∈ g.classes, lower c.name ++ c!"_instance" ≠ c!"serialize_" ++ lower d.name
  embeds : ∀ c ∈ g.classes, ∀ p ∈ g.properties, ∀ e, .embed e ∈ parts p.ty →
    lower c.name ++ c!"_instance" ≠ c!"serialize_" ++ lower e
  registries : ∀ c ∈ g.classes, lower c.name ++ c!"_instance" ≠ c!"target_" ++ lower c.plural

/-- For a package whose path does not get in the way, C67 holds exactly if the names of the schema do not get in the
way. -/
theorem C67_lookups_partial (L : Validation.Lib) (mapping : Json) (ref : Str) (s : Schema) (settings : Py)
    (pkg : List Module) (h : Generated L mapping ref s settings pkg) (hr : RootFree s.graph (root settings.moduleName)) :
    (∀ M ∈ pkg, ∀ f ∈ M.funcs, f.Clean pkg M) ↔ CollectionsFree s.graph ∧ VariablesApart s.graph := by
  rw [h.all.clean_iff hr]
  have h1 : NoCollections s.graph ↔ CollectionsFree s.graph := by
    unfold NoCollections CollectionsFree attrs
    simp only [List.mem_append, List.mem_map, not_or, not_exists, not_and, ne_eq]
  rw [h1]
  refine and_congr_right fun _ => ?_
  constructor
  · rintro ⟨h1, h2⟩
    exact ⟨fun c hc d hd => h1 c hc _ (.inl ⟨d, hd, rfl⟩), fun c hc p hp e he => h1 c hc _ (.inr ⟨p, hp, he⟩),
      fun c hc e => h2 c hc e.symm⟩
  · rintro ⟨h1, h2, h3⟩
    refine ⟨fun c hc n hn => ?_, fun c hc e => h3 c hc e.symm⟩
    rcases hn with ⟨d, hd, rfl⟩ | ⟨p, hp, he⟩
    · exact h1 c hc d hd
    · exact h2 c hc p hp n he

/-- Some function looks up a wrong name. -/
def badLookup (pkg : List Module) : Bool :=
  pkg.any fun M => M.funcs.any fun f => decide f.body.Live && f.body.names.any fun n =>
    decide (n.meant ≠ .local) && find M.imports f.locals (M.items.map Item.name) n.text != some n.meant

theorem badLookup_wrong {pkg : List Module} (h : badLookup pkg = true) : ∃ M ∈ pkg, ∃ f ∈ M.funcs, ¬ f.Clean pkg M := by
  simp only [badLookup, List.any_eq_true, Bool.and_eq_true, decide_eq_true_eq, bne_iff_ne] at h
  obtain ⟨M, hM, f, hf, hl, n, hn, hm, hne⟩ := h
  refine ⟨M, hM, f, hf, fun hc => hc _ (live_wrong hl hn (fun e hg => ?_) _) rfl⟩
  cases n with
  | var x => exact hm rfl
  | _ => exact hne (Found.meaning hg)

theorem violated_lookup {mapping : Json} (h : Demo.check mapping (fun _ _ pkg => badLookup pkg) = true) : ¬ C67Full := by
  intro hc
  obtain ⟨s, p, pkg, hg, ht⟩ := Demo.of_check h
  obtain ⟨M, hM, f, hf, hn⟩ := badLookup_wrong ht
  exact hn (hc _ _ _ _ _ _ hg M hM f hf)

/-- It is violated by a property `collections` of a graph with classes ... -/
theorem C67_violated_collections : ¬ C67Full := violated_lookup
  (mapping := Demo.schema c!"some" [Demo.property c!"collections", Demo.classes [(c!"Abc", c!"Abcs")]]) (by decide +kernel)

/-- ... by the classes `Serialize` and `Instance` ... -/
theorem C67_violated_instance : ¬ C67Full := violated_lookup
  (mapping := Demo.schema c!"some" [Demo.classes [(c!"Serialize", c!"Abcs"), (c!"Instance", c!"Others")]]) (by decide +kernel)

/-- ... by a package called as a variable ... -/
theorem C67_violated_module : ¬ C67Full := violated_lookup (mapping := Demo.schema c!"errors" []) (by decide +kernel)

/-- ... and by a class `Target_foo` with the plural `Foo_instance`. -/
theorem C67_violated_target : ¬ C67Full := by
  intro h
  obtain ⟨s, p, pkg, hg, ht⟩ := Demo.of_check
    (mapping := Demo.schema c!"some" [Demo.classes [(c!"Target_foo", c!"Foo_instance")]])
    (test := fun s p _ => decide (root p.moduleName = c!"some") && decide (s.graph.name = c!"Shop" ∧ s.graph.embeds = [] ∧
      s.graph.properties = [] ∧ s.graph.classes.map (fun c => (c.name, c.plural)) = [(c!"Target_foo", c!"Foo_instance")]))
    (by decide +kernel)
  simp only [Bool.and_eq_true, decide_eq_true_eq] at ht
  obtain ⟨h0, h1, h2, h3, h4⟩ := ht
  obtain ⟨c, cs, hcs⟩ : ∃ c, s.graph.classes = [c] ∧ c.name = c!"Target_foo" ∧ c.plural = c!"Foo_instance" := by
    cases hc : s.graph.classes with
    | nil => rw [hc] at h4; cases h4
    | cons c cs =>
      rw [hc] at h4
      simp only [List.map_cons, List.cons.injEq, Prod.mk.injEq, List.map_eq_nil_iff] at h4
      exact ⟨c, by rw [h4.2], h4.1⟩
  have hr : RootFree s.graph (root p.moduleName) := by
    rw [h0]
    refine ⟨by decide, by decide, by decide, Demo.no_temp (by decide), ?_, ?_⟩
    · simp only [allNames, defNames, h1, h2, cs, hcs, List.map_cons, List.map_nil, List.append_nil, List.cons_append, List.nil_append]
      decide +kernel
    · simp only [cs, List.forall_mem_cons, List.not_mem_nil, false_implies, implies_true, and_true, classTexts, hcs]
      decide +kernel
  have := ((C67_lookups_partial _ _ _ _ _ _ hg hr).1 (h _ _ _ _ _ _ hg)).2.registries c (by rw [cs]; simp)
  rw [hcs.1, hcs.2] at this
  revert this
  decide

example : ∃ s p pkg, Generated SchemaDemo.lib SchemaDemo.mapping c!"#" s p pkg ∧
    ∀ M ∈ pkg, ∀ f ∈ M.funcs, f.Clean pkg M := by
  obtain ⟨s, p, pkg, h, ht⟩ := Demo.generated
  simp only [Bool.and_eq_true, decide_eq_true_eq] at ht
  refine ⟨s, p, pkg, h, (C67_lookups_partial _ _ _ _ _ _ h ?_).2 ?_⟩
  · rw [ht.1, ht.2]
    exact Demo.free
  · rw [ht.1]
    refine ⟨fun _ => by decide +kernel, by decide +kernel, ?_, by decide +kernel⟩
    intro c hc p hp e _ he
    cases List.mem_singleton.1 hc
    have := congrArg List.head? he
    simp [lower] at this

/-! ## C68: calls -/

/-- C68: every call in the generated modules fits the parameters of the function or of the constructor which it calls,
and each argument is meant for its parameter. -/
def C68Full : Prop := ∀ L mapping ref s settings pkg, Generated L mapping ref s settings pkg → ∀ M ∈ pkg, M.CallsFit pkg

/-- C68 holds if the classes, the embeds and the graph differ in their identifiers and not only in the case of letters. -/
theorem C68_calls_partial (L : Validation.Lib) (mapping : Json) (ref : Str) (s : Schema) (settings : Py)
    (pkg : List Module) (h : Generated L mapping ref s settings pkg) (h1 : ((names s.graph).map (camelSpec true)).Nodup)
    (h2 : ((names s.graph).map lower).Nodup) : ∀ M ∈ pkg, M.CallsFit pkg :=
  h.all.calls (by rw [ids_eq h.facts]; exact h1) h2

/-- The positional arguments of some call do not fit. -/
def badCall (pkg : List Module) : Bool :=
  pkg.any fun M => M.funcs.any fun f => f.body.calls.any fun c => match (callee? pkg M c.callee).bind Item.callParams with
    | none => true
    | some ps => !decide ((ps.take c.positional.length).map (·.kind) = c.positional) ||
      c.keywords.any fun k => !(ps.drop c.positional.length).any fun p => decide (p.var.text = k.1 ∧ p.kind = k.2)

theorem badCall_of {pkg : List Module} (h : ∀ M ∈ pkg, M.CallsFit pkg) : badCall pkg = false := by
  cases hb : badCall pkg with
  | false => rfl
  | true =>
  simp only [badCall, List.any_eq_true] at hb
  obtain ⟨M, hM, f, hf, c, hc, hb⟩ := hb
  obtain ⟨i, ps, h1, h2, h3⟩ := h M hM f hf c hc
  rw [h1, Option.bind_some, h2] at hb
  simp only [h3.positional, decide_true, Bool.not_true, Bool.false_or, List.any_eq_true, Bool.not_eq_true',
    List.any_eq_false, decide_eq_true_eq] at hb
  obtain ⟨k, hk, hb⟩ := hb
  obtain ⟨p, hp, e⟩ := h3.keywords k hk
  exact absurd e (hb p hp)

/-- It is violated by two classes which differ in the case of a letter. -/
theorem C68_violated : ¬ C68Full := by
  intro h
  obtain ⟨s, p, pkg, hg, ht⟩ := Demo.of_check
    (mapping := Demo.schema c!"some" [Demo.classes [(c!"Ab", c!"Abs"), (c!"AB", c!"Others")]])
    (test := fun _ _ pkg => badCall pkg) (by decide +kernel)
  rw [badCall_of (h _ _ _ _ _ _ hg)] at ht
  cases ht

example : ∃ s p pkg, Generated SchemaDemo.lib SchemaDemo.mapping c!"#" s p pkg ∧ (∀ M ∈ pkg, M.CallsFit pkg) ∧
    ∃ M ∈ pkg, ∃ f ∈ M.funcs, f.body.calls ≠ [] := by
  obtain ⟨s, p, pkg, h, ht⟩ := Demo.of_check (mapping := SchemaDemo.mapping) (test := fun s p pkg =>
    decide (s = SchemaDemo.schema) && pkg.any fun M => M.funcs.any fun f => !f.body.calls.isEmpty) (by decide +kernel)
  simp only [Bool.and_eq_true, decide_eq_true_eq, List.any_eq_true, Bool.not_eq_true', List.isEmpty_eq_false_iff] at ht
  obtain ⟨rfl, ht⟩ := ht
  exact ⟨_, p, pkg, h, C68_calls_partial _ _ _ _ _ _ h Demo.facts.1 Demo.facts.2.1, ht⟩

/-! ## C69: the generation succeeds -/

/-- C69: the modules are generated for every schema with settings for Python which passes the Python validation. -/
def C69Full : Prop := ∀ (L : Validation.Lib) (mapping : Json) (ref : Str) (s : Schema) (settings : Py),
  schemaFromMapping L mapping ref = .ok s → validateSchema LangValidate.py s.graph = .ok [] → s.py = some settings →
    ∃ pkg, package s.graph settings = .ok pkg

/-- The generation succeeds exactly if every plural starts with a capital. -/
theorem C69_generation_partial (L : Validation.Lib) (mapping : Json) (ref : Str) (s : Schema) (settings : Py)
    (hs : schemaFromMapping L mapping ref = .ok s) (hv : validateSchema LangValidate.py s.graph = .ok [])
    (hp : s.py = some settings) :
    (∃ pkg, package s.graph settings = .ok pkg) ↔
      ∀ c ∈ s.graph.classes, ∃ x xs, c.plural = x :: xs ∧ 'A' ≤ x ∧ x ≤ 'Z' :=
  package_ok_iff (facts_of (parsed_facts hs).1 (parsed_facts hs).2 hv) (settings_of hs hp)

/-- It is violated by a class whose inferred plural does not start with a capital. -/
theorem C69_violated : ¬ C69Full := by
  intro h
  have key : (match schemaFromMapping SchemaDemo.lib (Demo.schema c!"some" [(c!"classes", .arr [SchemaDemo.object
      [(c!"name", SchemaDemo.text c!"Some_focus"), (c!"description", SchemaDemo.text c!"is a class.")]])]) c!"#" with
    | .error _ => false
    | .ok s => match s.py with
      | none => false
      | some p => decide (validateSchema LangValidate.py s.graph = .ok []) && match package s.graph p with
        | .error _ => true
        | .ok _ => false) = true := by decide +kernel
  split at key
  · cases key
  · rename_i s hs
    split at key
    · cases key
    · rename_i p hp
      simp only [Bool.and_eq_true, decide_eq_true_eq] at key
      obtain ⟨pkg, hk⟩ := h _ _ _ s p hs key.1 hp
      rw [hk] at key
      cases key.2

example : ∃ pkg, package SchemaDemo.schema.graph ⟨c!"some.shop", c!"str", c!"str", c!"    "⟩ = .ok pkg := by
  refine (C69_generation_partial _ _ _ _ _ SchemaDemo.parsed (by decide +kernel) rfl).2 ?_
  intro c hc
  cases List.mem_singleton.1 hc
  exact ⟨'P', c!"eople", rfl, by decide, by decide⟩

end Mapry.Props.PyNames
