import Verif.Props.PySer

/-! # C39: the keys of the JSON representation -/

namespace Mapry.Props

open Mapry.PyRuntime.Spec Mapry.LangValidate

/-- The JSON key of a property is its name (the default). -/
structure DefaultKeys (g : Graph) : Prop where
  graph : ∀ p ∈ g.properties, p.json = p.name
  cls : ∀ c ∈ g.classes, ∀ p ∈ c.properties, p.json = p.name
  embed : ∀ e ∈ g.embeds, ∀ p ∈ e.properties, p.json = p.name

/-- The full property for a validation: the keys are distinct in every accepted schema. -/
def C39Full (validate : Graph → Except Exc (List SErr)) : Prop :=
  ∀ g, validate g = .ok [] → JsonKeys g

/-- It is violated in all the languages by two properties with the same `json`. -/
theorem C39_violated : ¬ C39Full (validateSchema py) ∧ ¬ C39Full (validateSchema cpp) ∧
    ¬ C39Full goValidateSchema := by
  refine ⟨fun h => ?_, fun h => ?_, fun h => ?_⟩ <;>
    exact absurd (h clashGraph (by decide)).graph (by decide)

/-- A schema in which a property is written under the key of a registry -/
def registryClash : Graph :=
  { name := c!"Shop"
    classes := [{ name := c!"Item", plural := c!"Items" }]
    properties := [{ name := c!"stock", ty := .integer {}, json := c!"items" }] }

/-- It is also violated by a property and a registry: the registry overwrites the property. -/
theorem C39_violated_by_registry : ¬ C39Full (validateSchema py) ∧ ¬ C39Full (validateSchema cpp) ∧
    ¬ C39Full goValidateSchema := by
  refine ⟨fun h => ?_, fun h => ?_, fun h => ?_⟩ <;>
    exact absurd (h registryClash (by decide)).graph (by decide)

/-- Two classes with plurals which differ only in capitals -/
def pluralClash : Graph :=
  { name := c!"Web"
    classes := [{ name := c!"Link", plural := c!"URLs" }, { name := c!"Url", plural := c!"Urls" }] }

/-- In Go, the keys may clash even if no `json` is given. -/
theorem C39_violated_default_keys : ¬ ∀ g, goValidateSchema g = .ok [] → DefaultKeys g → JsonKeys g := by
  intro h
  have : DefaultKeys pluralClash := by
    constructor
    · simp [pluralClash]
    · intro c hc
      simp only [pluralClash, List.mem_cons, List.not_mem_nil, or_false] at hc
      rcases hc with rfl | rfl <;> simp
    · simp [pluralClash]
  exact absurd (h pluralClash (by decide +kernel) this).graph (by decide)

theorem nodup_of_lower {α : Type} {f : α → Str} {l : List α}
    (h : (l.map fun a => Mapry.lower (f a)).Nodup) : (l.map f).Nodup := by
  induction l with
  | nil => simp
  | cons a l ih =>
    rw [List.map_cons, List.nodup_cons] at h ⊢
    refine ⟨fun hm => ?_, ih h.2⟩
    obtain ⟨b, hb, he⟩ := List.mem_map.1 hm
    exact h.1 (List.mem_map.2 ⟨b, hb, by rw [he]⟩)

theorem map_json {ps : List Property} (h : ∀ p ∈ ps, p.json = p.name) :
    ps.map (·.json) = ps.map (·.name) := List.map_congr_left h

/-- A validation which compares the names in lower case guarantees distinct keys. -/
theorem keys_of_schemaOk {keywords : List Str} {composite : Str → Except Exc Str} {reserved : Str} {g : Graph}
    (h : SchemaOk ⟨keywords, Naming.asAttribute, composite, reserved⟩ g) (hd : DefaultKeys g) :
    JsonKeys g := by
  have key : ∀ ps ns, Forall₂ (FieldName ⟨keywords, Naming.asAttribute, composite, reserved⟩) ps ns →
      ns.Nodup → (∀ p ∈ ps, p.json = p.name) → (ps.map fun p : Property => p.json).Nodup := by
    intro ps ns h hn hj
    rw [nodup_of_forall₂ (fun p n hp => attribute_eq hp) h] at hn
    rw [map_json hj]
    exact nodup_of_lower hn
  refine ⟨?_, ?_, ?_⟩
  · obtain ⟨ns, rs, h1, h2, h3, _⟩ := h.graphFields
    rw [List.nodup_append] at h3
    obtain ⟨hn, hr, hne⟩ := h3
    rw [List.nodup_append]
    refine ⟨key _ _ h1 hn hd.graph, ?_, ?_⟩
    · rw [nodup_of_forall₂ (fun c n hc => attribute_eq hc) h2] at hr
      exact hr
    · intro a ha b hb hab
      rw [nodup_of_forall₂ (fun p n hp => attribute_eq hp) h1,
        nodup_of_forall₂ (fun c n hc => attribute_eq hc) h2] at hne
      obtain ⟨p, hp, rfl⟩ := List.mem_map.1 ha
      obtain ⟨c, hc, rfl⟩ := List.mem_map.1 hb
      rw [hd.graph p hp] at hab
      exact hne _ (List.mem_map.2 ⟨p, hp, rfl⟩) _ (List.mem_map.2 ⟨c, hc, rfl⟩)
        (by rw [hab, lower_lower])
  · intro c hc
    obtain ⟨ns, h1, h2, _⟩ := h.fields ⟨.cls, c.name, c.ref, c.properties⟩ (by
      unfold definitions
      exact List.mem_append_left _ (List.mem_map.2 ⟨c, hc, rfl⟩))
    exact key _ _ h1 h2 (hd.cls c hc)
  · intro e he
    obtain ⟨ns, h1, h2, _⟩ := h.fields ⟨.embed, e.name, e.ref, e.properties⟩ (by
      unfold definitions
      exact List.mem_append_right _ (List.mem_map.2 ⟨e, he, rfl⟩))
    exact key _ _ h1 h2 (hd.embed e he)

/-- **C39 (partial).** In Python and C++ the keys do not clash if no `json` is given. -/
theorem C39_default_keys_partial (g : Graph) (hd : DefaultKeys g)
    (h : validateSchema py g = .ok [] ∨ validateSchema cpp g = .ok []) : JsonKeys g := by
  rcases h with h | h
  · exact keys_of_schemaOk ((C23_valid_iff_partial g).1 h) hd
  · exact keys_of_schemaOk ((C24_valid_iff g).1 h) hd

/-- In Go, the keys of one class or embed do not clash if no `json` is given. -/
theorem C39_go_composites_partial (g : Graph) (hd : DefaultKeys g) (h : goValidateSchema g = .ok []) :
    (∀ c ∈ g.classes, (c.properties.map (·.json)).Nodup) ∧
    (∀ e ∈ g.embeds, (e.properties.map (·.json)).Nodup) ∧ (g.properties.map (·.json)).Nodup := by
  have hs := ((C25_valid_iff_partial g).1 h).1
  have key : ∀ ps ns, Forall₂ (FieldName ⟨goSpecKeywords, Naming.ucamelCase, Naming.ucamelCase, c!"ID"⟩) ps ns →
      ns.Nodup → (∀ p ∈ ps, p.json = p.name) → (ps.map fun p : Property => p.json).Nodup := by
    intro ps ns h hn hj
    rw [map_json hj]
    refine nodup_names (fun x y n m hx hy hxy => ?_) h hn
    unfold FieldName at hx hy
    rw [hxy, hy] at hx
    exact (Except.ok.inj hx).symm
  refine ⟨?_, ?_, ?_⟩
  · intro c hc
    obtain ⟨ns, h1, h2, _⟩ := hs.fields ⟨.cls, c.name, c.ref, c.properties⟩ (by
      unfold definitions
      exact List.mem_append_left _ (List.mem_map.2 ⟨c, hc, rfl⟩))
    exact key _ _ h1 h2 (hd.cls c hc)
  · intro e he
    obtain ⟨ns, h1, h2, _⟩ := hs.fields ⟨.embed, e.name, e.ref, e.properties⟩ (by
      unfold definitions
      exact List.mem_append_right _ (List.mem_map.2 ⟨e, he, rfl⟩))
    exact key _ _ h1 h2 (hd.embed e he)
  · obtain ⟨ns, rs, h1, _, h3, _⟩ := hs.graphFields
    exact key _ _ h1 (List.nodup_append.1 h3).1 hd.graph

/-- A schema without `json` which has all kinds of composites -/
def defaultGraph : Graph :=
  { name := c!"Shop"
    classes := [{ name := c!"Item", plural := c!"Items"
                  properties := [{ name := c!"price", ty := .float {}, json := c!"price" },
                                 { name := c!"some_URL", ty := .string none, json := c!"some_URL" }] }]
    embeds := [{ name := c!"Address"
                 properties := [{ name := c!"city", ty := .string none, json := c!"city" }] }]
    properties := [{ name := c!"stock", ty := .integer {}, json := c!"stock" }] }

example : DefaultKeys defaultGraph := by
  constructor <;> simp [defaultGraph]
example : validateSchema py defaultGraph = .ok [] ∧ validateSchema cpp defaultGraph = .ok [] ∧
    goValidateSchema defaultGraph = .ok [] := by decide +kernel

end Mapry.Props
