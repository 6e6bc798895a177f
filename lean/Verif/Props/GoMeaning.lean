import Verif.GoMeaning
import Verif.Props.GoNames

/-! # Every name in the generated Go code refers to what is meant (C62) -/

namespace Mapry.Props.Go

open Mapry.GoCode Mapry.TypeGraph Mapry.Naming Mapry.LangValidate Mapry.ParseSchema
open Mapry.PyRuntime (Json)

theorem capitals {L : Validation.Lib} {mapping : Json} {ref : Str} {s : Schema} {fs : List File}
    (h : Generated L mapping ref s fs) : Capitals s.graph := by
  have hg := graph_spec h.parsed fun _ _ p _ _ => cutFloats_by p
  obtain ⟨types, hcl⟩ := Validation.clean_of (validated_of h.parsed).1
  have hp := ((convertible_iff h.valid).1 (package_needs ⟨fs, h.files⟩)).1
  intro c hc
  obtain ⟨x, xs, e, hx⟩ := member_upper hcl (.inl (graph_class_names hg (List.mem_map_of_mem hc)))
  refine ⟨⟨x, xs, e, ?_⟩, hp c hc⟩
  simp only [Char.isUpper, decide_eq_true_eq] at hx
  exact hx

/-- C62: no text in a function refers to another declaration than the one which is meant, no block declares a text
twice and no import takes the text of a declaration. -/
def C62Full : Prop := ∀ L mapping ref s fs, Generated L mapping ref s fs →
  (∀ F ∈ fs, F.Scoped (declared fs)) → ∀ F ∈ fs, F.Faithful (declared fs)

/-- The only variables which can clash are the ones for the serialized registry of a class and for an instance in it. -/
theorem C62_meaning_partial (L : Validation.Lib) (mapping : Json) (ref : Str) (s : Schema) (fs : List File)
    (h : Generated L mapping ref s fs) (hs : ∀ F ∈ fs, F.Scoped (declared fs)) :
    (∀ F ∈ fs, F.Faithful (declared fs)) ↔
      ∀ c ∈ s.graph.classes, ¬ ∃ x, camelCase c.name = .ok (c!"target" ++ x) ∧
        camelSpec true c.plural = x ++ c!"Instance" := by
  rw [package_faithful h.files (capitals h) hs]
  constructor
  · rintro ha c hc ⟨x, h1, h2⟩
    obtain ⟨_, _, ⟨p, hp⟩, _⟩ := (package_needs ⟨fs, h.files⟩).classes c hc
    refine ha c hc p _ hp h1 ?_
    rw [((C01_ucamel_case_ok_iff _ _).1 hp).2, h2]
    simp
  · intro ha c hc p i hp hi e
    rw [((C01_ucamel_case_ok_iff _ _).1 hp).2] at e
    refine ha c hc ?_
    rcases List.append_eq_append_iff.1 e with ⟨x, h1, h2⟩ | ⟨x, h1, h2⟩
    · exact ⟨x, by rw [hi, h1], h2⟩
    · cases x with
      | nil =>
        refine ⟨[], by rw [hi]; simp at h1 ⊢; exact h1.symm, by simpa using h2.symm⟩
      | cons a x =>
        simp only [List.cons_append, List.cons.injEq] at h2
        have : 'I' ∈ c!"target" := by
          rw [h1, h2.1]
          simp
        exact absurd this (by decide)

/-- The schema with a class `Target` in the plural `Instance` -/
theorem Demo.target_generated : ∃ fs, Generated SchemaDemo.lib (classes [cls c!"Target" c!"Instance"]) c!"#"
    (classesSchema [clsOf c!"0" c!"Target" c!"Instance"]) fs := by
  obtain ⟨fs, h⟩ := of_isOk (x := package (classesSchema [clsOf c!"0" c!"Target" c!"Instance"]).graph)
    (by decide +kernel)
  exact ⟨fs, by decide +kernel, by decide +kernel, h⟩

/-- It is violated by a class `Target` in the plural `Instance`: both variables are `targetInstance`. -/
theorem C62_violated : ¬ C62Full := by
  intro h
  obtain ⟨fs, hg⟩ := Demo.target_generated
  have hs : ∀ F ∈ fs, F.Scoped (declared fs) := by
    refine (C58_names_partial _ _ _ _ _ hg).2 ⟨by decide, .inl (by decide), ?_⟩
    intro t u f ht hu hf
    obtain ⟨r, hm⟩ := mem_iterate.2 ht
    have key : iterateOverTypes (Demo.classesSchema [Demo.clsOf c!"0" c!"Target" c!"Instance"]).graph = [] := by
      decide +kernel
    rw [key] at hm
    cases hm
  exact (C62_meaning_partial _ _ _ _ _ hg hs).1 (h _ _ _ _ _ hg hs) _ (List.mem_cons_self ..)
    ⟨[], by decide +kernel, by decide +kernel⟩

theorem Demo.scoped {fs : List File} (h : Generated SchemaDemo.lib SchemaDemo.mapping c!"#" SchemaDemo.schema fs) :
    ∀ F ∈ fs, F.Scoped (declared fs) := by
  refine (C58_names_partial _ _ _ _ _ h).2 ⟨by decide, .inl (by decide), ?_⟩
  intro t u f ht hu hf
  obtain ⟨r, hm⟩ := mem_iterate.2 ht
  have key : ∀ x ∈ iterateOverTypes SchemaDemo.schema.graph,
      (match x.1 with | .map u => formatOf u | .array u _ _ => formatOf u | _ => none) = none := by decide +kernel
  have := key _ hm
  rcases hu with rfl | ⟨lo, hi, rfl⟩
  · rw [show formatOf u = none from this] at hf
    cases hf
  · rw [show formatOf u = none from this] at hf
    cases hf

example : ∃ fs, Generated SchemaDemo.lib SchemaDemo.mapping c!"#" SchemaDemo.schema fs ∧
    ∀ F ∈ fs, F.Faithful (declared fs) := by
  obtain ⟨fs, h⟩ := Demo.generated
  refine ⟨fs, h, (C62_meaning_partial _ _ _ _ _ h (Demo.scoped h)).2 ?_⟩
  have key : ∀ c ∈ SchemaDemo.schema.graph.classes, ¬ c!"target" <+: (match camelCase c.name with
      | .ok i => i | .error _ => []) := by decide +kernel
  rintro c hc ⟨x, h1, _⟩
  have := key c hc
  rw [h1] at this
  exact this (List.prefix_append ..)

end Mapry.Props.Go
