import Verif.GoAcceptPackage
import Verif.Props.GoMeaning
import Verif.Props.GoTypes

/-! # The compiler accepts the generated Go code (C78, C79) -/

namespace Mapry.Props.Go

open Mapry.GoCode Mapry.TypeGraph Mapry.Naming Mapry.LangValidate Mapry.ParseSchema
open Mapry.PyRuntime (Json)
open Mapry.GoTypes (GTy TypeDef typeDefs DefsOk goFacts_of camel pureDefs)
open Mapry.GoTyped (parseFuncs serializeFuncs world)

/-! ## C78: the types of the expressions -/

/-- What is generated together with its types: the structures, the functions which parse and the ones which serialize. -/
structure Typed (g : Graph) (ds : List TypeDef) (P S : List GoCheck.Func) : Prop where
  types : typeDefs g = .ok ds
  parse : parseFuncs g = .ok P
  serialize : serializeFuncs g = .ok S

/-- The compiler finds the declaration of every text in the bodies, and every expression has the type which is required where
it stands. -/
def BodiesOk (g : Graph) (ds : List TypeDef) (P S : List GoCheck.Func) : Prop :=
  ∀ f ∈ P ++ S, f.ok (world g ds (P ++ S)) GoCheck.sameText = true

/-- C78: the types in the bodies are right, provided that the names are. -/
def C78Full : Prop := ∀ L mapping ref s fs ds P S, Generated L mapping ref s fs → Typed s.graph ds P S →
  (∀ F ∈ fs, F.Scoped (declared fs)) → ((declared fs).map Name.text).Nodup → (∀ F ∈ fs, F.Faithful (declared fs)) →
  BodiesOk s.graph ds P S

/-- The bounds are constants of the types which they are compared with: 64 bits for the integers and for the lengths of the
arrays, and 512 bits for the floats. -/
structure BoundsFit (g : Graph) : Prop where
  integers : ∀ b i, Occurs g (.integer b) → b.min = some i ∨ b.max = some i → - 2 ^ 63 ≤ i ∧ i < 2 ^ 63
  floats : ∀ b i, Occurs g (.float b) → b.min = some i ∨ b.max = some i → - 2 ^ 512 < i ∧ i < 2 ^ 512
  arrays : ∀ t lo hi i, Occurs g (.array t lo hi) → lo = some i ∨ hi = some i → - 2 ^ 63 ≤ i ∧ i < 2 ^ 63

theorem represents_int {t : GTy} (ht : t = .int64 ∨ t = .int) {i : Int} : GoCheck.represents t i = true ↔ - 2 ^ 63 ≤ i ∧ i < 2 ^ 63 := by
  rcases ht with rfl | rfl <;> exact decide_eq_true_iff

theorem represents_float {i : Int} : GoCheck.represents .float64 i = true ↔ - 2 ^ 512 < i ∧ i < 2 ^ 512 := by
  have key : ∀ n : Nat, decide (i.natAbs < n) = true ↔ - (n : Int) < i ∧ i < (n : Int) := by
    intro n
    rw [decide_eq_true_iff]
    omega
  have e : ((2 ^ 512 : Nat) : Int) = 2 ^ 512 := Int.natCast_pow 2 512
  rw [← e, ← key]
  rfl

theorem boundsFit_iff {g : Graph} : BoundsFit g ↔ (∀ c ∈ g.classes, ∀ p ∈ c.properties, GoTyped.boundsOk p.ty = true) ∧
    (∀ e ∈ g.embeds, ∀ p ∈ e.properties, GoTyped.boundsOk p.ty = true) ∧ ∀ p ∈ g.properties, GoTyped.boundsOk p.ty = true := by
  have key : BoundsFit g ↔ ∀ t, Occurs g t → GoTyped.boundsHold t := by
    constructor
    · intro h t ht
      cases t with
      | integer b =>
        intro i hi
        rw [represents_int (.inl rfl)]
        exact h.integers b i ht hi
      | float b =>
        intro i hi
        rw [represents_float]
        exact h.floats b i ht hi
      | array t lo hi =>
        intro i hi'
        rw [represents_int (.inr rfl)]
        exact h.arrays _ _ _ i ht hi'
      | _ => trivial
    · intro h
      refine ⟨fun b i ht hi => ?_, fun b i ht hi => ?_, fun t lo hi i ht hi => ?_⟩
      · rw [← represents_int (.inl rfl)]
        exact h _ ht i hi
      · rw [← represents_float]
        exact h _ ht i hi
      · rw [← represents_int (.inr rfl)]
        exact h _ ht i hi
  rw [key]
  simp only [GoTyped.boundsOk_iff]
  constructor
  · intro h
    exact ⟨fun c hc p hp u hu => h u (.cls c p hc hp hu), fun c hc p hp u hu => h u (.embed c p hc hp hu),
      fun p hp u hu => h u (.graph p hp hu)⟩
  · rintro ⟨h1, h2, h3⟩ t ht
    cases ht with
    | cls c p hc hp hu => exact h1 c hc p hp t hu
    | embed c p hc hp hu => exact h2 c hc p hp t hu
    | graph p hp hu => exact h3 p hp t hu

/-- Whenever the files are generated, so are the typed functions. -/
theorem typed_exists {L : Validation.Lib} {mapping : Json} {ref : Str} {s : Schema} {fs : List File}
    (h : Generated L mapping ref s fs) : ∃ ds P S, Typed s.graph ds P S := by
  obtain ⟨T, P', S', _, hP, hS, _⟩ := package_parts h.files
  obtain ⟨P, hP, _⟩ := (GoTyped.same_parse s.graph).ok' hP
  obtain ⟨S, hS, _⟩ := (GoTyped.same_serialize s.graph).ok' hS
  exact ⟨_, P, S, (goFacts_of (parsed_facts h.parsed).1 (parsed_facts h.parsed).2 h.valid).defs, hP, hS⟩

/-- C78 holds exactly if the bounds fit. -/
theorem C78_bodies_partial (L : Validation.Lib) (mapping : Json) (ref : Str) (s : Schema) (fs : List File)
    (ds : List TypeDef) (P S : List GoCheck.Func) (h : Generated L mapping ref s fs) (ht : Typed s.graph ds P S)
    (hs : ∀ F ∈ fs, F.Scoped (declared fs)) (hd : ((declared fs).map Name.text).Nodup)
    (hf : ∀ F ∈ fs, F.Faithful (declared fs)) : BodiesOk s.graph ds P S ↔ BoundsFit s.graph := by
  obtain ⟨hn, hr⟩ := parsed_facts h.parsed
  have facts := goFacts_of hn hr h.valid
  have ha := (C59_declared_partial _ _ _ _ _ h).1 hd
  have hpl := ((package_scoped hn hr h.files).1 hs).1
  obtain ⟨hds, hP, hS⟩ := ht
  rw [facts.defs] at hds
  cases hds
  have hids : ∀ d ∈ pureDefs s.graph, d.name ∈ ids s.graph := by
    intro d hd
    have : d.name ∈ (pureDefs s.graph).map (·.name) := List.mem_map.2 ⟨d, hd, rfl⟩
    rw [GoTypes.names_pure] at this
    simp only [ids, List.mem_append, List.mem_map, List.mem_cons, List.not_mem_nil, or_false] at this ⊢
    rcases this with (⟨e, he, h⟩ | ⟨e, he, h⟩) | h
    · exact ⟨_, .inr (.inr ⟨e, he, rfl⟩), h⟩
    · exact ⟨_, .inr (.inl ⟨e, he, rfl⟩), h⟩
    · exact ⟨_, .inl rfl, h.symm⟩
  have hnd : ((pureDefs s.graph).map (·.name)).Nodup := by
    rw [GoTypes.names_pure]
    refine List.Perm.nodup ?_ ha.nodup
    rw [ids, List.map_cons, List.map_append, List.map_map, List.map_map]
    exact (List.perm_append_singleton _ _).symm.trans (List.perm_append_comm.append_right _)
  have D : GoTyped.Declared s.graph P S := ⟨facts, hnd, fun d hd he => ha.errors _ (hids d hd) (by
    simp only [List.mem_cons, List.not_mem_nil, or_false] at he ⊢
    exact he.imp_right .inl), hP, hS⟩
  have hsame : ∀ f ∈ P ++ S, f.ok (world s.graph (pureDefs s.graph) (P ++ S)) GoCheck.sameText =
      f.ok (world s.graph (pureDefs s.graph) (P ++ S)) GoTyped.sameName := by
    obtain ⟨T, P', S', _, hP', hS', rfl⟩ := package_parts h.files
    obtain ⟨P₁, hP₁, gs, h1, h2⟩ := (GoTyped.same_parse s.graph).ok' hP'
    obtain ⟨S₁, hS₁, gs', h3, h4⟩ := (GoTyped.same_serialize s.graph).ok' hS'
    rw [hP] at hP₁
    cases hP₁
    rw [hS] at hS₁
    cases hS₁
    intro f hm
    rcases List.mem_append.1 hm with hm | hm
    · obtain ⟨f', hf', hs⟩ := GoTyped.forall₂_left h2 f hm
      refine GoTyped.func_text _ hs ((hf P' (by simp)).funcs f' ?_)
      rw [h1]
      exact List.mem_append_right _ hf'
    · obtain ⟨f', hf', hs⟩ := GoTyped.forall₂_left h4 f hm
      refine GoTyped.func_text _ hs ((hf S' (by simp)).funcs f' ?_)
      rw [h3]
      exact List.mem_append_right _ hf'
  rw [boundsFit_iff, ← GoTyped.accepted_iff D hpl]
  exact ⟨fun h f hf => (hsame f hf).symm.trans (h f hf), fun h f hf => (hsame f hf).trans (h f hf)⟩

/-! ## C79: the package -/

/-- The compiler accepts the package: the imports, the scopes, the declarations, what the texts refer to, the structures and the
types in the bodies. -/
structure Compiles (g : Graph) (fs : List File) (ds : List TypeDef) (P S : List GoCheck.Func) : Prop where
  imports : ∀ F ∈ fs, F.ImportsExact
  names : ∀ F ∈ fs, F.Scoped (declared fs)
  declared : ((declared fs).map Name.text).Nodup
  faithful : ∀ F ∈ fs, F.Faithful (GoCode.declared fs)
  types : DefsOk ds
  bodies : BodiesOk g ds P S

/-- C79: the generated package compiles. -/
def C79Full : Prop := ∀ L mapping ref s fs ds P S, Generated L mapping ref s fs → Typed s.graph ds P S →
  Compiles s.graph fs ds P S

/-- What has to be checked in the schema in addition to what the validation checks -/
structure SchemaFits (g : Graph) : Prop where
  nonempty : g.classes ≠ [] ∨ g.properties ≠ []
  plurals : ∀ c ∈ g.classes, ∀ d ∈ g.classes, camelCase c.plural = camelCase d.plural → c.name = d.name
  formats : ∀ t u f, Occurs g t → (t = .map u ∨ ∃ lo hi, t = .array u lo hi) → formatOf u = some f → ¬ OnlyBreaks f
  apart : Apart g
  targets : ∀ c ∈ g.classes, ¬ ∃ x, camelCase c.name = .ok (c!"target" ++ x) ∧ camelSpec true c.plural = x ++ c!"Instance"
  stored : ∀ n, ¬ Relation.TransGen (Stored g) n n
  bounds : BoundsFit g

/-- C79 holds exactly for the schemas which fit. -/
theorem C79_compiles_partial (L : Validation.Lib) (mapping : Json) (ref : Str) (s : Schema) (fs : List File)
    (ds : List TypeDef) (P S : List GoCheck.Func) (h : Generated L mapping ref s fs) (ht : Typed s.graph ds P S) :
    Compiles s.graph fs ds P S ↔ SchemaFits s.graph := by
  obtain ⟨ds', hds, htypes⟩ := C70_types_partial _ _ _ _ h.parsed h.valid
  rw [ht.types] at hds
  cases hds
  constructor
  · rintro ⟨_, hs, hd, hf, hty, hb⟩
    obtain ⟨h1, h2, h3⟩ := (C58_names_partial _ _ _ _ _ h).1 hs
    exact ⟨h2, h1, h3, (C59_declared_partial _ _ _ _ _ h).1 hd, (C62_meaning_partial _ _ _ _ _ h hs).1 hf, (htypes.1 hty).2.2,
      (C78_bodies_partial _ _ _ _ _ _ _ _ h ht hs hd hf).1 hb⟩
  · rintro ⟨h1, h2, h3, h4, h5, h6, h7⟩
    have hs := (C58_names_partial _ _ _ _ _ h).2 ⟨h2, h1, h3⟩
    have hd := (C59_declared_partial _ _ _ _ _ h).2 h4
    have hf := (C62_meaning_partial _ _ _ _ _ h hs).2 h5
    have facts := goFacts_of (parsed_facts h.parsed).1 (parsed_facts h.parsed).2 h.valid
    have hne : ∀ n ∈ s.graph.classes.map (·.name) ++ s.graph.embeds.map (·.name), camel n ≠ camel s.graph.name := by
      intro n hn e
      have := h4.nodup
      rw [ids, List.map_cons, List.nodup_cons] at this
      exact this.1 (List.mem_map.2 ⟨n, hn, e⟩)
    have hg := facts.names _ PyCode.graph_name_mem
    refine ⟨(C57_imports_partial _ _ _ _ _ h).2 (h1.imp_right .inl), hs, hd, hf, htypes.2 ⟨?_, ?_, h6⟩,
      (C78_bodies_partial _ _ _ _ _ _ _ _ h ht hs hd hf).2 h7⟩
    · intro c hc
      rw [hg, facts.names _ (PyCode.class_name_mem hc)]
      exact fun e => hne _ (List.mem_append_left _ (List.mem_map.2 ⟨c, hc, rfl⟩)) (Except.ok.inj e)
    · intro c hc
      rw [hg, facts.names _ (PyCode.embed_name_mem hc)]
      exact fun e => hne _ (List.mem_append_right _ (List.mem_map.2 ⟨c, hc, rfl⟩)) (Except.ok.inj e)

/-! ## Examples -/

namespace Demo

/-- A test for what a schema has to fulfil apart from the bounds -/
def fine (g : Graph) : Bool :=
  decide (g.classes ≠ [] ∨ g.properties ≠ []) &&
  decide (∀ c ∈ g.classes, ∀ d ∈ g.classes, camelCase c.plural = camelCase d.plural → c.name = d.name) &&
  (iterateOverTypes g).all (fun x => (match x.1 with | .map u => formatOf u | .array u _ _ => formatOf u | _ => none) == none) &&
  decide (ids g).Nodup && decide (∀ u ∈ ids g, u ∉ [c!"Error", c!"Errors", c!"NewErrors"]) &&
  decide (∀ u ∈ ids g, ∀ w ∈ ids g, u ≠ w ++ c!"FromJSONable" ∧ u ≠ w ++ c!"ToJSONable") &&
  g.classes.all (fun c => !(c!"target").isPrefixOf (match camelCase c.name with | .ok i => i | .error _ => [])) &&
  g.embeds.all (fun e => e.properties.all fun p => match p.ty with | .embed _ => false | _ => true)

theorem fine_fits {g : Graph} (h : fine g = true) : (g.classes ≠ [] ∨ g.properties ≠ []) ∧
    (∀ c ∈ g.classes, ∀ d ∈ g.classes, camelCase c.plural = camelCase d.plural → c.name = d.name) ∧
    (∀ t u f, Occurs g t → (t = .map u ∨ ∃ lo hi, t = .array u lo hi) → formatOf u = some f → ¬ OnlyBreaks f) ∧ Apart g ∧
    (∀ c ∈ g.classes, ¬ ∃ x, camelCase c.name = .ok (c!"target" ++ x) ∧ camelSpec true c.plural = x ++ c!"Instance") ∧
    ∀ n, ¬ Relation.TransGen (Stored g) n n := by
  simp only [fine, Bool.and_eq_true, decide_eq_true_eq] at h
  obtain ⟨⟨⟨⟨⟨⟨⟨h1, h2⟩, h3⟩, h4⟩, h5⟩, h6⟩, h7⟩, h8⟩ := h
  refine ⟨h1, h2, ?_, ⟨h4, h5, h6⟩, ?_, ?_⟩
  · intro t u f ht hu hf
    obtain ⟨r, hm⟩ := mem_iterate.2 ht
    have := List.all_eq_true.1 h3 _ hm
    rcases hu with rfl | ⟨lo, hi, rfl⟩
    · simp [hf] at this
    · simp [hf] at this
  · rintro c hc ⟨x, hx, _⟩
    have := List.all_eq_true.1 h7 c hc
    rw [hx] at this
    simp at this
  · have none : ∀ a b, ¬ Stored g a b := by
      rintro a b ⟨e, he, _, p, hp, _, ht⟩
      have := List.all_eq_true.1 (List.all_eq_true.1 h8 e he) p hp
      rw [ht] at this
      cases this
    intro n hn
    cases hn with
    | single h => exact none _ _ h
    | tail _ h => exact none _ _ h

/-- A test for the bounds -/
def bounded (g : Graph) : Bool := g.classes.all (fun c => c.properties.all fun p => GoTyped.boundsOk p.ty) &&
  (g.embeds.all (fun c => c.properties.all fun p => GoTyped.boundsOk p.ty) && g.properties.all fun p => GoTyped.boundsOk p.ty)

theorem bounded_iff {g : Graph} : bounded g = true ↔ BoundsFit g := by
  rw [boundsFit_iff, bounded]
  simp only [Bool.and_eq_true, List.all_eq_true]

theorem built {m : Json} {test : Graph → Bool}
    (h : (match schemaFromMapping SchemaDemo.lib m c!"#" with
      | .error _ => false
      | .ok s => decide (goValidateSchema s.graph = .ok []) && (isOk (package s.graph) && test s.graph)) = true) :
    ∃ s fs, Generated SchemaDemo.lib m c!"#" s fs ∧ test s.graph = true := by
  split at h
  · cases h
  · rename_i s hs
    simp only [Bool.and_eq_true, decide_eq_true_eq] at h
    obtain ⟨fs, hfs⟩ := of_isOk h.2.1
    exact ⟨s, fs, ⟨hs, h.1, hfs⟩, h.2.2⟩

/-- A schema with a bound which does not fit, and with names which do -/
theorem unfit {m : Json}
    (h : (match schemaFromMapping SchemaDemo.lib m c!"#" with
      | .error _ => false
      | .ok s => decide (goValidateSchema s.graph = .ok []) && (isOk (package s.graph) && (fine s.graph && !bounded s.graph))) = true) :
    ∃ s fs ds P S, Generated SchemaDemo.lib m c!"#" s fs ∧ Typed s.graph ds P S ∧ (∀ F ∈ fs, F.Scoped (declared fs)) ∧
      ((declared fs).map Name.text).Nodup ∧ (∀ F ∈ fs, F.Faithful (declared fs)) ∧ ¬ BodiesOk s.graph ds P S := by
  obtain ⟨s, fs, hg, ht⟩ := built (test := fun g => fine g && !bounded g) h
  obtain ⟨ds, P, S, hty⟩ := typed_exists hg
  simp only [Bool.and_eq_true, Bool.not_eq_true'] at ht
  obtain ⟨h1, h2, h3, h4, h5, _⟩ := fine_fits ht.1
  have hs := (C58_names_partial _ _ _ _ _ hg).2 ⟨h2, h1, h3⟩
  have hd := (C59_declared_partial _ _ _ _ _ hg).2 h4
  have hf := (C62_meaning_partial _ _ _ _ _ hg hs).2 h5
  refine ⟨s, fs, ds, P, S, hg, hty, hs, hd, hf, fun hb => ?_⟩
  rw [bounded_iff.2 ((C78_bodies_partial _ _ _ _ _ _ _ _ hg hty hs hd hf).1 hb)] at ht
  cases ht.2

end Demo

/-- It is violated by an integer with a minimum which does not fit into 64 bits ... -/
theorem C78_violated_integer : ¬ C78Full := by
  intro h
  obtain ⟨s, fs, ds, P, S, h1, h2, h3, h4, h5, h6⟩ := Demo.unfit (m := SchemaDemo.single c!"integer" [(c!"minimum", .int (2 ^ 63))])
    (by decide +kernel)
  exact h6 (h _ _ _ _ _ _ _ _ h1 h2 h3 h4 h5)

/-- ... by a float whose maximum takes more than 512 bits ... -/
theorem C78_violated_float : ¬ C78Full := by
  intro h
  obtain ⟨s, fs, ds, P, S, h1, h2, h3, h4, h5, h6⟩ := Demo.unfit (m := SchemaDemo.single c!"float" [(c!"maximum", .int (2 ^ 512))])
    (by decide +kernel)
  exact h6 (h _ _ _ _ _ _ _ _ h1 h2 h3 h4 h5)

/-- ... and by an array whose maximal size does not fit into 64 bits. -/
theorem C78_violated_array : ¬ C78Full := by
  intro h
  obtain ⟨s, fs, ds, P, S, h1, h2, h3, h4, h5, h6⟩ := Demo.unfit (m := SchemaDemo.single c!"array"
    [(c!"values", SchemaDemo.object [(c!"type", SchemaDemo.text c!"string")]), (c!"maximum_size", .int (2 ^ 63))]) (by decide +kernel)
  exact h6 (h _ _ _ _ _ _ _ _ h1 h2 h3 h4 h5)

/-- C79 is violated as well. -/
theorem C79_violated : ¬ C79Full := fun h => C78_violated_integer fun L m r s fs ds P S h1 h2 _ _ _ => (h L m r s fs ds P S h1 h2).bodies

/-- The package for the schema of the examples compiles. -/
example : ∃ fs ds P S, Generated SchemaDemo.lib SchemaDemo.mapping c!"#" SchemaDemo.schema fs ∧ Typed SchemaDemo.schema.graph ds P S ∧
    Compiles SchemaDemo.schema.graph fs ds P S := by
  obtain ⟨fs, h⟩ := Demo.generated
  obtain ⟨ds, P, S, ht⟩ := typed_exists h
  obtain ⟨h1, h2, h3, h4, h5, h6⟩ := Demo.fine_fits (g := SchemaDemo.schema.graph) (by decide +kernel)
  exact ⟨fs, ds, P, S, h, ht, (C79_compiles_partial _ _ _ _ _ _ _ _ h ht).2
    ⟨h1, h2, h3, h4, h5, h6, Demo.bounded_iff.1 (by decide +kernel)⟩⟩

/-- The bounds just fit. -/
example : ∃ s fs ds P S, Generated SchemaDemo.lib (SchemaDemo.single c!"integer" [(c!"minimum", .int (- 2 ^ 63)),
      (c!"maximum", .int (2 ^ 63 - 1))]) c!"#" s fs ∧ Typed s.graph ds P S ∧ Compiles s.graph fs ds P S := by
  obtain ⟨s, fs, h, ht⟩ := Demo.built (m := SchemaDemo.single c!"integer" [(c!"minimum", .int (- 2 ^ 63)),
    (c!"maximum", .int (2 ^ 63 - 1))]) (test := fun g => Demo.fine g && Demo.bounded g) (by decide +kernel)
  obtain ⟨ds, P, S, hty⟩ := typed_exists h
  simp only [Bool.and_eq_true] at ht
  obtain ⟨h1, h2, h3, h4, h5, h6⟩ := Demo.fine_fits ht.1
  exact ⟨s, fs, ds, P, S, h, hty, (C79_compiles_partial _ _ _ _ _ _ _ _ h hty).2
    ⟨h1, h2, h3, h4, h5, h6, Demo.bounded_iff.1 ht.2⟩⟩

/-! ## What the checker rejects -/

namespace Demo

open Mapry.GoCheck (Expr World Sig)

/-- A package with a structure `Place` with a field `Name` of type `string`, a structure `Spot` with a `Place`, and a function
`PlaceToJSONable` of a pointer to a `Place` -/
def checked : World := ⟨[(c!"Place", [(c!"Name", .string)]), (c!"Spot", [(c!"Place", .named c!"Place")])], GoTyped.errorMethods,
  [(c!"PlaceToJSONable", ⟨[.ptr (.named c!"Place")], false, [.map .any]⟩)], []⟩

/-- The function with the parameters is accepted. -/
def accepts (params : List (Str × GTy)) (c : GoCheck.Code) : Bool :=
  (⟨c!"f", params.map fun e => (v e.1, e.2), [], c⟩ : GoCheck.Func).ok checked GoCheck.sameText

abbrev x (n : Str) : Expr := .var (v n)

/-- `n = m` -/
def assigns (t u : GTy) : Bool := accepts [(c!"n", t), (c!"m", u)] (.assign (x c!"n") (x c!"m") .done)

-- A value is assigned to a variable of its type or to an interface.
example : assigns .string .string = true := by decide
example : assigns .any (.ptr (.named c!"Place")) = true := by decide
example : assigns .string .any = false := by decide
example : assigns .int64 .float64 = false := by decide
example : assigns .int .int64 = false := by decide
example : assigns (.slice .any) (.slice .string) = false := by decide
example : assigns (.named c!"Place") (.ptr (.named c!"Place")) = false := by decide
example : assigns (.ptr (.named c!"Place")) (.ptr (.named c!"Spot")) = false := by decide
example : assigns (.named c!"Other") (.named c!"Other") = false := by decide
-- A type assertion needs an interface.
example : accepts [(c!"n", .any)] (.define₂ (some (v c!"c")) (v c!"ok") (.assert (x c!"n") .string) .done) = true := by decide
example : accepts [(c!"n", .string)] (.define₂ (some (v c!"c")) (v c!"ok") (.assert (x c!"n") .string) .done) = false := by decide
-- The condition is a `bool`.
example : accepts [(c!"n", .bool)] (.test (.not (x c!"n")) .done) = true := by decide
example : accepts [(c!"n", .ptr .bool)] (.test (x c!"n") .done) = false := by decide
-- Only some types have `nil`.
example : accepts [(c!"n", .ptr .bool)] (.test (.eq (x c!"n") .nil) .done) = true := by decide
example : accepts [(c!"n", .bool)] (.test (.eq (x c!"n") .nil) .done) = false := by decide
example : accepts [(c!"n", .time)] (.assign (x c!"n") .nil .done) = false := by decide
-- Slices, maps and structures with times are not compared, and neither are numbers of different types.
example : accepts [(c!"n", .slice .string)] (.test (.eq (x c!"n") (x c!"n")) .done) = false := by decide
example : accepts [(c!"n", .int), (c!"m", .int64)] (.test (.less (x c!"n") (x c!"m")) .done) = false := by decide
example : accepts [(c!"n", .string)] (.test (.less (x c!"n") (.num 3)) .done) = false := by decide
-- The address of an entry of a map is not taken, in contrast to an item of a slice.
example : accepts [(c!"n", .slice (.named c!"Place")), (c!"i", .int)]
  (.eval (.call (.arg (.fn c!"PlaceToJSONable") (.addr (.index (x c!"n") (x c!"i"))))) .done) = true := by decide
example : accepts [(c!"n", .map (.named c!"Place")), (c!"i", .string)]
  (.eval (.call (.arg (.fn c!"PlaceToJSONable") (.addr (.index (x c!"n") (x c!"i"))))) .done) = false := by decide
-- The number of the arguments is the one of the parameters.
example : accepts [(c!"n", .ptr (.named c!"Place"))] (.eval (.call (.fn c!"PlaceToJSONable")) .done) = false := by decide
example : accepts [(c!"n", .ptr (.named c!"Place"))]
  (.eval (.call (.arg (.arg (.fn c!"PlaceToJSONable") (x c!"n")) (x c!"n"))) .done) = false := by decide
-- The field has to exist, also behind a pointer, but not behind two.
example : accepts [(c!"n", .ptr (.named c!"Spot"))] (.assign (.field (.field (x c!"n") c!"Place") c!"Name") .text .done) = true := by decide
example : accepts [(c!"n", .ptr (.named c!"Spot"))] (.assign (.field (x c!"n") c!"Name") .text .done) = false := by decide
example : accepts [(c!"n", .ptr (.ptr (.named c!"Place")))] (.assign (.field (x c!"n") c!"Name") .text .done) = false := by decide
-- The field of an entry of a map is not assigned.
example : accepts [(c!"n", .map (.named c!"Place"))] (.assign (.field (.index (x c!"n") .text) c!"Name") .text .done) = false := by decide
-- A variable hides a function of its name.
example : accepts [(c!"PlaceToJSONable", .ptr (.named c!"Place"))]
  (.eval (.call (.arg (.fn c!"PlaceToJSONable") (x c!"PlaceToJSONable"))) .done) = false := by decide
-- The variables of a block are unknown after it.
example : accepts [(c!"n", .string)] (.block (.define (v c!"m") (x c!"n") .done) (.assign (x c!"n") (x c!"m") .done)) = false := by decide

end Demo

end Mapry.Props.Go
