import Verif.GoTarget
import Verif.Props.GoParse

/-! # C51: the target of the generated Go parser -/

namespace Mapry.Props

open Mapry.GoRuntime Mapry.GoRuntime.Spec Mapry.LangValidate

/-- The full property: when no error is recorded, the graph does not depend on what the target held before. -/
def C51Full : Prop := ∀ (O : Order) (L : Lib) (g : Graph) (n : Nat) (v : JVal) (ref : Str) (cap : Nat)
  (target gv : GraphVal) (st : St), O.Proper → goValidateSchema g = .ok [] → Canon v → Shaped g target →
  parseGraph O L g n v ref (newGraph g) (start cap) = .ok (gv, st) → st.errors.values = [] →
  parseGraph O L g n v ref target (start cap) = .ok (gv, st)

/-- A graph with an optional property and a class -/
def noteGraph : Graph :=
  { name := c!"Shop"
    classes := [{ name := c!"Item", plural := c!"Items" }]
    properties := [{ name := c!"note", ty := .string none, json := c!"note", optional := true }] }

/-- It is violated: an optional property which is missing keeps its old value, and so does a registry. -/
theorem C51_violated : ¬ C51Full := by
  intro h
  have h1 := h Demo.order Demo.lib noteGraph 1 (.obj []) [] 1
    ⟨[(c!"Note", .str c!"old")], [(c!"Item", [(c!"i", ⟨c!"i", []⟩)])]⟩ ⟨[(c!"Note", .nil)], [(c!"Item", [])]⟩ (start 1)
    Demo.order_proper (by decide +kernel) (by simp [canon_obj, GoMap.Ascending]) ⟨rfl, rfl⟩ rfl rfl
  have h2 : parseGraph Demo.order Demo.lib noteGraph 1 (.obj []) []
    ⟨[(c!"Note", .str c!"old")], [(c!"Item", [(c!"i", ⟨c!"i", []⟩)])]⟩ (start 1) =
    .ok (⟨[(c!"Note", .str c!"old")], [(c!"Item", [(c!"i", ⟨c!"i", []⟩)])]⟩, start 1) := rfl
  rw [h2] at h1
  cases h1

/-- **C51 (partial).** It holds for the inputs with all the properties and registries of the graph, if the
structures embedded in the graph itself are optional and the bounds of the floats are `float64`s. -/
theorem C51_target_partial (O : Order) (L : Lib) (g : Graph) (n : Nat) (kvs : List (Str × JVal)) (ref : Str) (cap : Nat)
    (target gv : GraphVal) (st : St) (hO : O.Proper) (hg : goValidateSchema g = .ok []) (hx : ExactGraph g)
    (hv : Canon (.obj kvs)) (hp : ∀ p ∈ g.properties, ∃ v, kvs.lookup p.json = some v)
    (hc : ∀ c ∈ g.classes, ∃ v, kvs.lookup (Mapry.lower c.plural) = some v)
    (he : ∀ p ∈ g.properties, p.optional = true ∨ ∀ name, p.ty ≠ .embed name) (hs : Shaped g target) :
    (parseGraph O L g n (.obj kvs) ref (newGraph g) (start cap) = .ok (gv, st) ∧ st.errors.values = []) ↔
    (parseGraph O L g n (.obj kvs) ref target (start cap) = .ok (gv, st) ∧ st.errors.values = []) := by
  have hnew : Shaped g (newGraph g) := by
    constructor
    · simp only [newGraph, List.map_map]; rfl
    · simp only [newGraph, zeroFields, List.map_map]; rfl
  have hD := go_distinct_of_valid hg
  constructor
  · rintro ⟨h1, h2⟩
    exact ⟨graph_target hO hD hx n kvs hv he hp hc ref _ _ hnew hs (start cap) rfl gv st h1 h2, h2⟩
  · rintro ⟨h1, h2⟩
    exact ⟨graph_target hO hD hx n kvs hv he hp hc ref _ _ hs hnew (start cap) rfl gv st h1 h2, h2⟩

/-- An input with the note and the items meets the hypotheses. -/
example : ∃ st, parseGraph Demo.order Demo.lib noteGraph 1 (.obj [(c!"items", .obj []), (c!"note", .str c!"new")]) []
    ⟨[(c!"Note", .str c!"old")], [(c!"Item", [(c!"i", ⟨c!"i", []⟩)])]⟩ (start 1) =
    .ok (⟨[(c!"Note", .str c!"new")], [(c!"Item", [])]⟩, st) ∧ st.errors.values = [] :=
  ⟨_, (C51_target_partial Demo.order Demo.lib noteGraph 1 _ [] 1 _ _ ⟨GoErrors.new 1, 2⟩ Demo.order_proper
    (by decide +kernel)
    ⟨by simp [noteGraph, ExactTy], by simp [noteGraph], by simp [noteGraph]⟩
    (by simp [canon_obj, canon_str, GoMap.Ascending]; decide)
    (by intro p hp; simp only [noteGraph, List.mem_singleton] at hp; subst hp; exact ⟨_, rfl⟩)
    (by intro p hp; simp only [noteGraph, List.mem_singleton] at hp; subst hp; exact ⟨_, rfl⟩)
    (by intro p hp; simp only [noteGraph, List.mem_singleton] at hp; subst hp; exact .inl rfl) ⟨rfl, rfl⟩).1
    ⟨rfl, rfl⟩⟩

end Mapry.Props
