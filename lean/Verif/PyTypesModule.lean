import Verif.PyTypes

/-!
# The module of the types is imported
-/

namespace Mapry.PyCode

set_option linter.unusedSimpArgs false

open Mapry.TypeGraph Mapry.Naming Mapry.ParseSchema Mapry.LangValidate
open Mapry.GoCode (referencesOf hasPattern mapM_mem mapM_mem' mapM_cons needs_ty any_iterate Resolves mapM_append_ok)

/-! ## What the schema ensures -/

/-- What is known of a schema which is parsed and which passes the validation for Python. -/
structure Facts (g : Graph) : Prop where
  named : Named g
  resolves : Resolves g
  composite : ∀ n ∈ allNames g, asComposite n = .ok (idOf n)
  ids : ((defNames g).map idOf).Nodup
  cls : ∀ c ∈ g.classes, (attrs c.properties).Nodup ∧ c!"id" ∉ attrs c.properties
  embed : ∀ e ∈ g.embeds, (attrs e.properties).Nodup
  graph : (attrs g.properties ++ g.classes.map fun c => lower c.plural).Nodup
  nonempty : (∀ c ∈ g.classes, c.plural ≠ [] ∧ ∀ p ∈ c.properties, p.name ≠ []) ∧
    (∀ e ∈ g.embeds, ∀ p ∈ e.properties, p.name ≠ []) ∧ ∀ p ∈ g.properties, p.name ≠ []

theorem fieldName_lower {p : Property} {n} (h : FieldName py p n) : n = lower p.name ∧ p.name ≠ [] := asAttribute_eq h

theorem fields_eq {ps : List Property} {ns : List Str} (h : Forall₂ (FieldName py) ps ns) :
    ns = attrs ps ∧ ∀ p ∈ ps, p.name ≠ [] := by
  induction h with
  | nil => exact ⟨rfl, by simp⟩
  | cons h1 _ ih =>
    obtain ⟨rfl, h2⟩ := fieldName_lower h1
    exact ⟨by rw [ih.1]; rfl, by simpa using ⟨h2, ih.2⟩⟩

theorem registries_eq {cs : List Class} {ns : List Str} (h : Forall₂ (RegistryName py) cs ns) :
    ns = (cs.map fun c => lower c.plural) ∧ ∀ c ∈ cs, c.plural ≠ [] := by
  induction h with
  | nil => exact ⟨rfl, by simp⟩
  | cons h1 _ ih =>
    obtain ⟨rfl, h2⟩ := asAttribute_eq h1
    exact ⟨by rw [ih.1]; rfl, by simpa using ⟨h2, ih.2⟩⟩

theorem compIds_eq {cs : List Comp} {ns : List Str} (h : Forall₂ (CompId py) cs ns) :
    ns = (cs.map fun c => idOf c.name) ∧ ∀ c ∈ cs, asComposite c.name = .ok (idOf c.name) := by
  induction h with
  | nil => exact ⟨rfl, by simp⟩
  | cons h1 _ ih =>
    have h1' : asComposite _ = .ok _ := h1
    have e := idOf_eq h1'
    exact ⟨by rw [ih.1, ← e]; rfl, by simpa using ⟨e ▸ h1', ih.2⟩⟩

theorem facts_of {g : Graph} (hn : Named g) (hr : Resolves g) (h : validateSchema py g = .ok []) : Facts g := by
  obtain ⟨⟨n, hg, _⟩, ⟨ids, hids, hnd, _⟩, hf, ⟨ns, rs, hns, hrs, hgn, _⟩⟩ := (Props.valid_iff py g).1 h
  obtain ⟨e1, hi⟩ := compIds_eq hids
  obtain ⟨rfl, hp⟩ := fields_eq hns
  obtain ⟨rfl, hpl⟩ := registries_eq hrs
  have e2 : (Props.definitions g).map (fun c => idOf c.name) = (defNames g).map idOf := by
    simp [Props.definitions, defNames, Function.comp_def]
  have key : ∀ c ∈ g.classes, (⟨.cls, c.name, c.ref, c.properties⟩ : Comp) ∈ Props.definitions g :=
    fun c hc => List.mem_append_left _ (List.mem_map.2 ⟨c, hc, rfl⟩)
  have key' : ∀ e ∈ g.embeds, (⟨.embed, e.name, e.ref, e.properties⟩ : Comp) ∈ Props.definitions g :=
    fun e he => List.mem_append_right _ (List.mem_map.2 ⟨e, he, rfl⟩)
  refine ⟨hn, hr, ?_, by rw [← e2, ← e1]; exact hnd, ?_, ?_, hgn, ?_, ?_, hp⟩
  · intro x hx
    rcases List.mem_append.1 hx with hx | hx
    · rcases List.mem_append.1 hx with hx | hx
      · obtain ⟨c, hc, rfl⟩ := List.mem_map.1 hx
        exact hi _ (key c hc)
      · obtain ⟨c, hc, rfl⟩ := List.mem_map.1 hx
        exact hi _ (key' c hc)
    · obtain rfl := List.mem_singleton.1 hx
      have hg' : asComposite g.name = .ok n := hg
      rw [idOf_eq hg']
      exact hg'
  · intro c hc
    obtain ⟨ns, h1, h2, _, h3⟩ := hf _ (key c hc)
    obtain ⟨rfl, _⟩ := fields_eq h1
    exact ⟨h2, h3 rfl⟩
  · intro e he
    obtain ⟨ns, h1, h2, _⟩ := hf _ (key' e he)
    obtain ⟨rfl, _⟩ := fields_eq h1
    exact h2
  · intro c hc
    refine ⟨hpl c hc, ?_⟩
    obtain ⟨ns, h1, _⟩ := hf _ (key c hc)
    exact (fields_eq h1).2
  · intro e he
    obtain ⟨ns, h1, _⟩ := hf _ (key' e he)
    exact (fields_eq h1).2

/-- The composites of the graph. -/
theorem mem_order {g : Graph} {o : Owner} : o ∈ definitionOrder g ↔
    (∃ c ∈ g.classes, o = .cls c.name) ∨ (∃ e ∈ g.embeds, o = .embed e.name) ∨ o = .graph := by
  simp only [definitionOrder, List.mem_append, List.mem_map, List.mem_singleton, or_assoc]
  constructor
  · rintro (⟨c, hc, rfl⟩ | ⟨c, hc, rfl⟩ | rfl)
    · exact .inl ⟨c, hc, rfl⟩
    · exact .inr (.inl ⟨c, hc, rfl⟩)
    · exact .inr (.inr rfl)
  · rintro (⟨c, hc, rfl⟩ | ⟨c, hc, rfl⟩ | rfl)
    · exact .inl ⟨c, hc, rfl⟩
    · exact .inr (.inl ⟨c, hc, rfl⟩)
    · exact .inr (.inr rfl)

theorem order_names (g : Graph) : (definitionOrder g).map (ownerName g) = allNames g := by
  simp [definitionOrder, allNames, defNames, ownerName, Function.comp_def]

theorem order_ids (g : Graph) : (definitionOrder g).map (ownerId g) = (allNames g).map idOf := by
  rw [← order_names, List.map_map]
  rfl

theorem owner_name_mem {g : Graph} {o : Owner} (h : o ∈ definitionOrder g) : ownerName g o ∈ allNames g := by
  rw [← order_names]
  exact List.mem_map.2 ⟨o, h, rfl⟩

theorem order_nodup {g : Graph} (hn : Named g) : (definitionOrder g).Nodup := by
  have h1 : (g.classes.map fun c => Owner.cls c.name).Nodup := by
    have : (g.classes.map fun c => Owner.cls c.name) = (g.classes.map (·.name)).map Owner.cls := by simp [Function.comp_def]
    rw [this]
    refine List.Pairwise.map _ ?_ hn.classes
    intro a b hab e
    cases e
    exact hab rfl
  have h2 : (g.embeds.map fun c => Owner.embed c.name).Nodup := by
    have : (g.embeds.map fun c => Owner.embed c.name) = (g.embeds.map (·.name)).map Owner.embed := by simp [Function.comp_def]
    rw [this]
    refine List.Pairwise.map _ ?_ hn.embeds
    intro a b hab e
    cases e
    exact hab rfl
  unfold definitionOrder
  rw [List.nodup_append]
  refine ⟨List.nodup_append.2 ⟨h1, h2, ?_⟩, by simp, ?_⟩
  · intro a ha b hb e
    obtain ⟨c, _, rfl⟩ := List.mem_map.1 ha
    obtain ⟨d, _, rfl⟩ := List.mem_map.1 hb
    cases e
  · intro a ha b hb e
    obtain rfl := List.mem_singleton.1 hb
    subst e
    rcases List.mem_append.1 ha with ha | ha
    · obtain ⟨c, _, e⟩ := List.mem_map.1 ha; cases e
    · obtain ⟨c, _, e⟩ := List.mem_map.1 ha; cases e

theorem owner_props {g : Graph} (hf : Facts g) {o : Owner} (ho : o ∈ definitionOrder g) :
    (preTexts o ++ attrs (ownerProps g o) ++ regTexts g o).Nodup := by
  rcases mem_order.1 ho with ⟨c, hc, rfl⟩ | ⟨e, he, rfl⟩ | rfl
  · obtain ⟨h1, h2⟩ := hf.cls c hc
    simp only [preTexts, regTexts, ownerProps, hf.named.cls? hc, Option.map_some, Option.getD_some, List.append_nil,
      List.cons_append, List.nil_append, List.nodup_cons]
    exact ⟨h2, h1⟩
  · have h1 := hf.embed e he
    simpa [preTexts, regTexts, ownerProps, hf.named.embed? he] using h1
  · exact hf.graph

theorem occurs_prop {g : Graph} {o : Owner} {p : Property} (hp : p ∈ ownerProps g o) {u : Ty} (hu : u ∈ parts p.ty) :
    Occurs g u := (occurs_owner hp).part hu

theorem mem_attrs_order {ps : List Property} {x : Str} : x ∈ attrs (Text.orderByOptional ps) ↔ x ∈ attrs ps :=
  ((order_perm ps).map _).mem_iff

/-! ## Names and imports -/

/-- The texts of builtins and libraries in the module of the types. -/
def typesTexts : List Str :=
  [c!"bool", c!"int", c!"float", c!"str", c!"typing", c!"pathlib", c!"datetime", c!"collections"]

theorem types_lower : ∀ x ∈ typesTexts, ∀ y : Str, (∃ c cs, y = c :: cs ∧ c = c.toUpper) → x ≠ y := by
  intro x hx y ⟨c, cs, e, hc⟩ hxy
  subst hxy
  subst e
  have : ∀ x ∈ typesTexts, x.head? = some c → c ≠ c.toUpper := by
    intro x hx h
    simp only [typesTexts, List.mem_cons, List.not_mem_nil, or_false] at hx
    rcases hx with rfl | rfl | rfl | rfl | rfl | rfl | rfl | rfl <;> (cases h; decide)
  exact this _ hx rfl hc

/-- The needed imports of a type are there. -/
theorem types_needs {g : Graph} {py : Py} {imports} (hn : Named g) (h : typesImports g py = .ok imports) {u : Ty}
    (hu : Occurs g u) {d x} (hx : x ∈ typeNames py d u) : ∀ r ∈ x.needs, r ∈ imports := by
  unfold typesImports at h
  obtain ⟨path, h1, h⟩ := ok_bind h
  obtain ⟨zone, h2, h⟩ := ok_bind h
  cases h
  have hneed : ∀ q, q ≠ .graph → q ≠ .cls → q ≠ .embed → tyTag u = q → needs g q = true :=
    fun q a b c e => (needs_ty hn a b c).2 ⟨u, hu, e⟩
  have hd : ∀ q, tyTag u = q → q = .date ∨ q = .time ∨ q = .datetime ∨ q = .duration →
      (needs g .date || needs g .time || needs g .datetime || needs g .duration) = true := by
    intro q e hq
    have := hneed q (by rintro rfl; simp at hq) (by rintro rfl; simp at hq) (by rintro rfl; simp at hq) e
    rcases hq with rfl | rfl | rfl | rfl <;> simp [this]
  intro r hr
  cases u with
  | path p =>
    rw [neededPath, if_pos (hneed .path (by simp) (by simp) (by simp) rfl)] at h1
    obtain ⟨e, _⟩ := pathNames_eq h1
    simp only [typeNames] at hx
    rw [← e] at hx
    by_cases hp : path = [pathlib]
    · rw [hp] at hx
      obtain rfl := List.mem_singleton.1 hx
      simp only [pathlib, lib, Name.needs, List.mem_singleton] at hr
      subst hr
      simp [hp]
    · rw [e] at hx hp
      by_cases hs : py.pathAs = c!"str"
      · rw [if_pos hs] at hx
        obtain rfl := List.mem_singleton.1 hx
        cases hr
      · rw [if_neg hs] at hp
        exact absurd rfl hp
  | timeZone =>
    rw [neededZone, if_pos (hneed .timeZone (by simp) (by simp) (by simp) rfl)] at h2
    obtain ⟨e, _⟩ := zoneNames_eq h2
    simp only [typeNames] at hx
    rw [← e] at hx
    by_cases hp : zone = [datetime]
    · rw [hp] at hx
      obtain rfl := List.mem_singleton.1 hx
      simp only [datetime, lib, Name.needs, List.mem_singleton] at hr
      subst hr
      simp [hp]
    · rw [e] at hx hp
      by_cases hs : py.timezoneAs = c!"str"
      · rw [if_pos hs] at hx
        obtain rfl := List.mem_singleton.1 hx
        cases hr
      · rw [if_neg hs] at hp
        exact absurd rfl hp
  | date f =>
    have := hd _ rfl (by simp [tyTag])
    obtain rfl := List.mem_singleton.1 hx
    simp only [datetime, lib, Name.needs, List.mem_singleton] at hr
    subst hr
    simp [this]
  | time f =>
    have := hd _ rfl (by simp [tyTag])
    obtain rfl := List.mem_singleton.1 hx
    simp only [datetime, lib, Name.needs, List.mem_singleton] at hr
    subst hr
    simp [this]
  | datetime f =>
    have := hd _ rfl (by simp [tyTag])
    obtain rfl := List.mem_singleton.1 hx
    simp only [datetime, lib, Name.needs, List.mem_singleton] at hr
    subst hr
    simp [this]
  | duration =>
    have := hd _ rfl (by simp [tyTag])
    obtain rfl := List.mem_singleton.1 hx
    simp only [datetime, lib, Name.needs, List.mem_singleton] at hr
    subst hr
    simp [this]
  | array t lo hi =>
    obtain rfl := List.mem_singleton.1 hx
    simp only [typing, lib, Name.needs, List.mem_singleton] at hr
    subst hr
    simp
  | map t =>
    simp only [typeNames, List.mem_cons, List.not_mem_nil, or_false] at hx
    rcases hx with rfl | rfl
    · simp only [typing, lib, Name.needs, List.mem_singleton] at hr
      subst hr
      simp
    · cases hr
  | cls n =>
    simp only [typeNames] at hx
    split at hx
    · obtain rfl := List.mem_singleton.1 hx; cases hr
    · cases hx
  | embed n =>
    simp only [typeNames] at hx
    split at hx
    · obtain rfl := List.mem_singleton.1 hx; cases hr
    · cases hx
  | _ =>
    obtain rfl := List.mem_singleton.1 hx
    cases hr

theorem types_typing {g : Graph} {py : Py} {imports} (h : typesImports g py = .ok imports) :
    (.library, c!"typing") ∈ imports := by
  unfold typesImports at h
  obtain ⟨path, h1, h⟩ := ok_bind h
  obtain ⟨zone, h2, h⟩ := ok_bind h
  cases h
  simp

theorem types_collections {g : Graph} {py : Py} {imports} (h : typesImports g py = .ok imports) (hc : g.classes ≠ []) :
    (.library, c!"collections") ∈ imports := by
  unfold typesImports at h
  obtain ⟨path, h1, h⟩ := ok_bind h
  obtain ⟨zone, h2, h⟩ := ok_bind h
  cases h
  simp [List.length_pos_iff.2 hc]

theorem types_libs {g : Graph} {py : Py} {imports} (h : typesImports g py = .ok imports) :
    ∀ i ∈ imports, i.1 = .library ∧ i.2 ∈ libPaths := by
  unfold typesImports at h
  obtain ⟨path, h1, h⟩ := ok_bind h
  obtain ⟨zone, h2, h⟩ := ok_bind h
  cases h
  intro i hi
  simp only [List.mem_append, List.mem_singleton, List.mem_ite_nil_right] at hi
  rcases hi with (((rfl | ⟨_, rfl⟩) | ⟨_, rfl⟩) | ⟨_, rfl⟩) | ⟨_, rfl⟩ <;> simp [libPaths]

/-- A name of a type in an annotation is found. -/
theorem types_found {pkg : List Module} {imports : List (Origin × Str)} {py : Py} (ha : Apart imports) {d : List Owner}
    {before : List Str} (hb : ∀ y ∈ before, ∃ c cs, y = c :: cs ∧ c = c.toUpper)
    (hd : ∀ n, .cls n ∈ d ∨ .embed n ∈ d → idOf n ∈ before) {u : Ty} {x : Name} (hx : x ∈ typeNames py d u)
    (hi : ∀ r ∈ x.needs, r ∈ imports) : Found pkg imports [] before x := by
  have h0 : ∀ y ∈ typesTexts, y ∉ before := fun y hy hm => types_lower y hy y (hb y hm) rfl
  have hbi : ∀ y, y ∈ typesTexts → y ∈ builtins → Found pkg imports [] before (b y) :=
    fun y h1 h2 => found_builtin ha h2 (by simp) (h0 y h1)
  have hli : ∀ y, root y ∈ typesTexts → (.library, y) ∈ imports → Found pkg imports [] before (lib y) :=
    fun y h1 h2 => found_lib ha h2 (by simp) (h0 _ h1)
  have hda : x = datetime → Found pkg imports [] before x := by
    rintro rfl
    exact hli _ (by decide) (hi _ (by simp [datetime, lib, Name.needs]))
  have hst : x = b c!"str" → Found pkg imports [] before x := by
    rintro rfl
    exact hbi _ (by decide) (by decide)
  have hty : x = typing → Found pkg imports [] before x := by
    rintro rfl
    exact hli _ (by decide) (hi _ (by simp [typing, lib, Name.needs]))
  cases u with
  | boolean => obtain rfl := List.mem_singleton.1 hx; exact hbi _ (by decide) (by decide)
  | integer => obtain rfl := List.mem_singleton.1 hx; exact hbi _ (by decide) (by decide)
  | float => obtain rfl := List.mem_singleton.1 hx; exact hbi _ (by decide) (by decide)
  | string => exact hst (List.mem_singleton.1 hx)
  | path p =>
    simp only [typeNames] at hx
    split at hx
    · exact hst (List.mem_singleton.1 hx)
    · obtain rfl := List.mem_singleton.1 hx
      exact hli _ (by decide) (hi _ (by simp [pathlib, lib, Name.needs]))
  | date f => exact hda (List.mem_singleton.1 hx)
  | time f => exact hda (List.mem_singleton.1 hx)
  | datetime f => exact hda (List.mem_singleton.1 hx)
  | duration => exact hda (List.mem_singleton.1 hx)
  | timeZone =>
    simp only [typeNames] at hx
    split at hx
    · exact hst (List.mem_singleton.1 hx)
    · exact hda (List.mem_singleton.1 hx)
  | array t lo hi => exact hty (List.mem_singleton.1 hx)
  | map t =>
    simp only [typeNames, List.mem_cons, List.not_mem_nil, or_false] at hx
    exact hx.elim hty hst
  | cls n =>
    simp only [typeNames] at hx
    split at hx
    · rename_i h
      obtain rfl := List.mem_singleton.1 hx
      exact found_glob (by simp) (hd n (.inl h))
    · cases hx
  | embed n =>
    simp only [typeNames] at hx
    split at hx
    · rename_i h
      obtain rfl := List.mem_singleton.1 hx
      exact found_glob (by simp) (hd n (.inr h))
    · cases hx

/-! ## The names looked up when the composite is defined -/

theorem Defined.uses {g : Graph} {py : Py} {o : Owner} {args regs : List Arg} {i : Item} (h : Defined g py o args regs i)
    {x : Name} (hx : x ∈ i.uses) : x = typing ∨ x = b c!"str" ∨
      (∃ u, Occurs g u ∧ x ∈ typeNames py (definedBefore (definitionOrder g) o) u) ∨
      (o = .graph ∧ ∃ c ∈ g.classes, x ∈ typeNames py (definedBefore (definitionOrder g) o) (.cls c.name)) := by
  rw [h.item] at hx
  unfold typeItem at hx
  split at hx
  · cases hx
  · simp only [Item.uses, List.flatMap_cons, List.flatMap_nil, List.append_nil, initOf, initializer, List.flatMap_append,
      List.mem_append] at hx
    rcases hx with (hx | hx) | hx
    · cases o with
      | cls n =>
        simp only [preOf, idArg, List.flatMap_cons, List.flatMap_nil, List.append_nil, List.mem_singleton] at hx
        exact .inr (.inl hx)
      | embed n => cases hx
      | graph => cases hx
    · obtain ⟨a, ha, hx⟩ := List.mem_flatMap.1 hx
      obtain ⟨p, hp, hpa⟩ := mapM_mem h.hargs ha
      obtain ⟨l, hl, _, rfl⟩ := propertyArg_inv hpa
      have hp' := (order_perm _).mem_iff.1 hp
      have hx' : x = typing ∨ x ∈ l := by
        simp only at hx
        split at hx
        · exact List.mem_cons.1 hx
        · exact .inr hx
      rcases hx' with rfl | hx'
      · exact .inl rfl
      · obtain ⟨u, hu, hx⟩ := (annotation_iff hl x).1 hx'
        exact .inr (.inr (.inl ⟨u, occurs_prop hp' hu, hx⟩))
    · obtain ⟨a, ha, hx⟩ := List.mem_flatMap.1 hx
      have hr := h.hregs
      cases o with
      | cls n => cases hr; cases ha
      | embed n => cases hr; cases ha
      | graph =>
        obtain ⟨c, hc, hca⟩ := mapM_mem hr ha
        obtain ⟨l, hl, _, rfl⟩ := registryArg_inv hca
        simp only [List.mem_cons] at hx
        rcases hx with rfl | rfl | rfl | hx
        · exact .inl rfl
        · exact .inl rfl
        · exact .inr (.inl rfl)
        · obtain ⟨u, hu, hx⟩ := (annotation_iff hl x).1 hx
          obtain rfl := List.mem_singleton.1 hu
          exact .inr (.inr (.inr ⟨rfl, c, hc, hx⟩))

/-- Conversely. -/
theorem Defined.uses' {g : Graph} {py : Py} {o : Owner} {args regs : List Arg} {i : Item} (h : Defined g py o args regs i)
    {p : Property} (hp : p ∈ ownerProps g o) {u : Ty} (hu : u ∈ parts p.ty) {x : Name}
    (hx : x ∈ typeNames py (definedBefore (definitionOrder g) o) u) : x ∈ i.uses := by
  obtain ⟨a, ha, hpa⟩ := mapM_mem' h.hargs ((order_perm _).mem_iff.2 hp)
  obtain ⟨l, hl, _, rfl⟩ := propertyArg_inv hpa
  have hm : x ∈ l := (annotation_iff hl x).2 ⟨u, hu, hx⟩
  rw [h.item, typeItem, if_neg (by simp [List.ne_nil_of_mem ha])]
  simp only [Item.uses, List.flatMap_cons, List.flatMap_nil, List.append_nil, initOf, initializer, List.flatMap_append,
    List.mem_append]
  refine .inl (.inr (List.mem_flatMap.2 ⟨_, ha, ?_⟩))
  simp only
  split
  · exact List.mem_cons_of_mem _ hm
  · exact hm

theorem takeWhile_split {α : Type} [DecidableEq α] {l l₁ l₂ : List α} {a : α} (h : l = l₁ ++ a :: l₂) (hn : l.Nodup) :
    l.takeWhile (· != a) = l₁ := by
  subst h
  rw [List.nodup_append] at hn
  have : ∀ x ∈ l₁, (x != a) = true := by
    intro x hx
    have := hn.2.2 x hx a (by simp)
    simpa using this
  rw [List.takeWhile_append_of_pos this]
  simp

/-- The part of the module of the types which the theorems need. -/
structure TypesOf (g : Graph) (py : Py) (T : Module) (imports : List (Origin × Str)) (items : List Item) : Prop where
  himports : typesImports g py = .ok imports
  hitems : (definitionOrder g).mapM (defineOwner g py) = .ok items
  module : T = ⟨py.moduleName, imports, items⟩

section
variable {g : Graph} {py : Py} {T : Module} {imports : List (Origin × Str)} {items : List Item}
  (h : TypesOf g py T imports items) (hf : Facts g)
include h

theorem TypesOf.names : T.items.map Item.name = (allNames g).map idOf := by
  rw [h.module, ← order_ids]
  exact mapM_map_eq h.hitems fun o _ i hi => by
    obtain ⟨args, regs, hd⟩ := defineOwner_inv hi
    exact hd.name

include hf

theorem TypesOf.found (pkg : List Module) {l₁ : List Item} {i : Item} {l₂ : List Item} (e : items = l₁ ++ i :: l₂) {n : Name}
    (hn : n ∈ i.uses) : Found pkg imports [] (l₁.map Item.name) n := by
  have ha : Apart imports := apart_of_libs (types_libs h.himports)
  have hm := h.hitems
  rw [e] at hm
  obtain ⟨o₁, o, o₂, eo, h1, h2⟩ := mapM_split hm
  obtain ⟨args, regs, hd⟩ := defineOwner_inv h2
  have e1 : l₁.map Item.name = o₁.map (ownerId g) := mapM_map_eq h1 fun o _ i hi => by
    obtain ⟨args, regs, hd⟩ := defineOwner_inv hi
    exact hd.name
  have hdef : definedBefore (definitionOrder g) o = o₁ := takeWhile_split eo (order_nodup hf.named)
  have hsub : ∀ q ∈ o₁, q ∈ definitionOrder g := fun q hq => by rw [eo]; exact List.mem_append_left _ hq
  have hb : ∀ y ∈ l₁.map Item.name, ∃ c cs, y = c :: cs ∧ c = c.toUpper := by
    rw [e1]
    intro y hy
    obtain ⟨q, hq, rfl⟩ := List.mem_map.1 hy
    exact asComposite_upper (hf.composite _ (owner_name_mem (hsub q hq)))
  have hd' : ∀ m, .cls m ∈ o₁ ∨ .embed m ∈ o₁ → idOf m ∈ l₁.map Item.name := by
    rw [e1]
    rintro m (hm | hm)
    · exact List.mem_map.2 ⟨_, hm, rfl⟩
    · exact List.mem_map.2 ⟨_, hm, rfl⟩
  rcases hd.uses hn with rfl | rfl | ⟨u, hu, hx⟩ | ⟨rfl, c, hc, hx⟩
  · exact types_found (py := py) (u := .array .boolean none none) (x := typing) ha hb hd' (List.mem_singleton.2 rfl) (by
      intro r hr
      obtain rfl := List.mem_singleton.1 hr
      exact types_typing h.himports)
  · exact types_found (py := py) (u := .string none) (x := b c!"str") ha hb hd' (List.mem_singleton.2 rfl) (by
      intro r hr; cases hr)
  · rw [hdef] at hx
    exact types_found ha hb hd' hx (types_needs hf.named h.himports hu hx)
  · rw [hdef] at hx
    refine types_found ha hb hd' hx ?_
    simp only [typeNames] at hx
    split at hx
    · obtain rfl := List.mem_singleton.1 hx
      intro r hr; cases hr
    · cases hx

omit hf in
theorem TypesOf.funcs {f : Func} (hm : f ∈ T.funcs) : ∃ o ∈ definitionOrder g, ∃ args regs i,
    Defined g py o args regs i ∧ i ∈ items ∧ f = initOf (preOf o) args regs := by
  rw [h.module] at hm
  obtain ⟨i, hi, hm⟩ := List.mem_flatMap.1 hm
  obtain ⟨o, ho, hio⟩ := mapM_mem h.hitems hi
  obtain ⟨args, regs, hd⟩ := defineOwner_inv hio
  refine ⟨o, ho, args, regs, i, hd, hi, ?_⟩
  have hitem := hd.item
  rw [hitem, typeItem] at hm
  simp only [Item.funcs] at hm
  split at hm
  · cases hm
  · exact List.mem_singleton.1 hm

/-- Python imports the module. -/
theorem TypesOf.importable (pkg : List Module) (h1 : ((allNames g).map idOf).Nodup)
    (h2 : ∀ o ∈ definitionOrder g, c!"self" ∉ attrs (ownerProps g o) ++ regTexts g o) : T.Importable pkg := by
  refine ⟨?_, by rw [h.names]; exact h1, ?_⟩
  · rw [h.module]
    apply loads_of
    intro l₁ i l₂ e n hn
    simpa using h.found hf pkg e hn
  · intro f hm
    obtain ⟨o, ho, args, regs, i, hd, _, rfl⟩ := h.funcs hm
    rw [hd.init_params, List.nodup_cons]
    have hp : (preTexts o ++ attrs (Text.orderByOptional (ownerProps g o)) ++ regTexts g o).Perm
        (preTexts o ++ attrs (ownerProps g o) ++ regTexts g o) :=
      (((order_perm _).map _).append_left _).append_right _
    refine ⟨?_, hp.nodup_iff.2 (owner_props hf ho)⟩
    rw [hp.mem_iff]
    intro hm
    rw [List.append_assoc] at hm
    rcases List.mem_append.1 hm with hm | hm
    · cases o <;> simp [preTexts] at hm
    · exact h2 o ho hm

/-- No execution of a constructor looks up a wrong name. -/
theorem TypesOf.clean (pkg : List Module)
    (h1 : g.classes ≠ [] → c!"collections" ∉ attrs g.properties ++ g.classes.map fun c => lower c.plural) :
    ∀ f ∈ T.funcs, f.Clean pkg T := by
  intro f hm
  obtain ⟨o, ho, args, regs, i, hd, _, rfl⟩ := h.funcs hm
  refine clean_of (init_safe _ _ _) ?_
  intro x hx
  rcases init_names hx with ⟨y, rfl⟩ | ⟨rfl, hr⟩
  · trivial
  · have hr' := hd.hregs
    have hog : o = .graph := by
      cases o with
      | graph => rfl
      | cls n => cases hr'; exact absurd rfl hr
      | embed n => cases hr'; exact absurd rfl hr
    subst hog
    have hc : g.classes ≠ [] := by
      intro e
      simp only [regsOf, e] at hr'
      cases hr'
      exact hr rfl
    have ha : Apart imports := apart_of_libs (types_libs h.himports)
    show Found pkg T.imports _ _ collections
    have ht : T.imports = imports := by rw [h.module]
    rw [ht]
    refine found_lib ha (types_collections h.himports hc) ?_ ?_
    · unfold Func.locals
      rw [init_binds, hd.init_params, List.map_nil, List.append_nil]
      have e : root c!"collections" = c!"collections" := by decide
      rw [e]
      intro hm
      rcases List.mem_cons.1 hm with hm | hm
      · exact absurd hm (by decide)
      · rcases List.mem_append.1 hm with hm | hm
        · rcases List.mem_append.1 hm with hm | hm
          · cases hm
          · exact h1 hc (List.mem_append_left _ (mem_attrs_order.1 hm))
        · exact h1 hc (List.mem_append_right _ hm)
    · rw [h.names]
      have e : root c!"collections" = c!"collections" := by decide
      rw [e]
      intro hm
      obtain ⟨n, hn, e⟩ := List.mem_map.1 hm
      exact types_lower _ (by decide) _ (asComposite_upper (hf.composite n hn)) e.symm

omit hf in
theorem TypesOf.calls (pkg : List Module) : T.CallsFit pkg := by
  intro f hm c hc
  obtain ⟨o, ho, args, regs, i, hd, _, rfl⟩ := h.funcs hm
  rw [init_calls] at hc
  cases hc

end

end Mapry.PyCode
