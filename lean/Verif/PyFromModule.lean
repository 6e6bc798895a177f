import Verif.PyParseModule

/-!
# The module `fromjsonable`
-/

namespace Mapry.PyCode

set_option linter.unusedSimpArgs false

open Mapry.TypeGraph Mapry.Naming Mapry.ParseSchema
open Mapry.GoCode (referencesOf hasPattern mapM_mem mapM_mem' mapM_cons needs_ty any_iterate Resolves mapM_append_ok
  refers_known referencesOf_ok)

/-! ## The functions of the module -/

/-- The classes and the embeds in the order of the module. -/
def compOrder (g : Graph) : List Owner := g.classes.map (fun c => .cls c.name) ++ g.embeds.map (fun e => .embed e.name)

theorem comp_order {g : Graph} {o : Owner} (h : o ∈ compOrder g) : o ∈ definitionOrder g := List.mem_append_left _ h

def Owner.isClass : Owner → Bool
  | .cls _ => true
  | _ => false

/-- The functions of a composite. -/
def parseOwner (g : Graph) (py : Py) (o : Owner) : Except Exc (List Item) :=
  parseComposite g py o (ownerName g o) (Owner.isClass o)

/-- The module as it is generated. -/
structure FromOf (g : Graph) (py : Py) (F : Module) (imports : List (Origin × Str)) (lists : List (List Item)) (graph : Item) :
    Prop where
  facts : Facts g
  himports : fromImports g py = .ok imports
  hlists : (compOrder g).mapM (parseOwner g py) = .ok lists
  hgraph : parseGraph g py = .ok graph
  module : F = ⟨py.moduleName ++ c!".fromjsonable", imports,
    (if needs g .duration then durationFromString else []) ++ lists.flatten ++ [graph]⟩

theorem fromOf {g : Graph} {py F} (hf : Facts g) (h : fromModule g py = .ok F) : ∃ imports lists graph,
    FromOf g py F imports lists graph := by
  unfold fromModule at h
  obtain ⟨imports, h1, h⟩ := ok_bind h
  obtain ⟨classes, h2, h⟩ := ok_bind h
  obtain ⟨embeds, h3, h⟩ := ok_bind h
  obtain ⟨graph, h4, h⟩ := ok_bind h
  cases h
  refine ⟨imports, classes ++ embeds, graph, hf, h1, ?_, h4, by simp⟩
  exact mapM_append_ok (mapM_transfer h2 fun c hc i hi => hi) (mapM_transfer h3 fun e he i hi => hi)

/-- The definitions of a composite. -/
def fromTexts (g : Graph) (o : Owner) : List Str :=
  [c!"_" ++ lower (ownerName g o) ++ c!"_from", lower (ownerName g o) ++ c!"_from"]

/-- The definitions of the module. -/
def fromDefs (g : Graph) : List Str :=
  (if needs g .duration then [c!"_DURATION_RE", c!"_duration_from_string"] else []) ++ (compOrder g).flatMap (fromTexts g) ++
    [lower g.name ++ c!"_from"]

theorem flatten_map_eq {α β γ : Type} {f : α → Except Exc (List β)} {k : β → γ} {m : α → List γ} {l : List α}
    {r : List (List β)} (h : l.mapM f = .ok r) (hf : ∀ a ∈ l, ∀ y, f a = .ok y → y.map k = m a) :
    r.flatten.map k = l.flatMap m := by
  induction l generalizing r with
  | nil => cases h; rfl
  | cons a l ih =>
    obtain ⟨y, ys, h1, h2, rfl⟩ := mapM_cons h
    rw [List.flatten_cons, List.map_append, List.flatMap_cons, hf a (by simp) y h1, ih h2 fun a' ha' => hf a' (by simp [ha'])]

/-- The functions of a composite in the module. -/
structure CompFuncs (g : Graph) (py : Py) (o : Owner) (f₁ f₂ : Func) where
  refs : List Str
  params : List Param
  types : List (List Name)
  props : Code
  funcs : CompositeFuncs g py o (ownerName g o) (Owner.isClass o) refs params types (ownerId g o) props f₁ f₂

theorem parseOwner_inv {g : Graph} {py o items} (h : parseOwner g py o = .ok items) : ∃ f₁ f₂,
    items = [.func f₁, .func f₂] ∧ Nonempty (CompFuncs g py o f₁ f₂) := by
  obtain ⟨refs, params, types, composite, props, f₁, f₂, e, hc⟩ := composite_inv h
  have := idOf_eq hc.hcomposite
  subst this
  exact ⟨f₁, f₂, e, ⟨refs, params, types, props, hc⟩⟩

section
variable {g : Graph} {py : Py} {F : Module} {imports : List (Origin × Str)} {lists : List (List Item)} {graph : Item}
  (h : FromOf g py F imports lists graph)
include h

theorem FromOf.defs : F.items.map Item.name = fromDefs g := by
  obtain ⟨props, composite, _, _, _, _, e⟩ := parseGraph_inv h.hgraph
  rw [h.module, List.map_append, List.map_append, fromDefs]
  congr 1
  · congr 1
    · split <;> rfl
    · refine flatten_map_eq h.hlists fun o ho y hy => ?_
      obtain ⟨f₁, f₂, rfl, ⟨hc⟩⟩ := parseOwner_inv hy
      simp [Item.name, hc.funcs.first, hc.funcs.second, fromTexts]
  · rw [e]
    rfl

/-- The items of the module. -/
theorem FromOf.items {i : Item} (hi : i ∈ F.items) : (needs g .duration = true ∧ i ∈ durationFromString) ∨
    (∃ o ∈ compOrder g, ∃ f₁ f₂, Nonempty (CompFuncs g py o f₁ f₂) ∧ (i = .func f₁ ∨ i = .func f₂)) ∨
    ∃ props, parseProps (graphCtx g py) c!"graph" g.properties 0 = .ok props ∧
      i = .func (graphFunc g py (ownerId g .graph) props) := by
  rw [h.module] at hi
  simp only [List.mem_append, List.mem_singleton] at hi
  rcases hi with (hi | hi) | hi
  · split at hi
    · exact .inl ⟨by assumption, hi⟩
    · cases hi
  · obtain ⟨l, hl, hi⟩ := List.mem_flatten.1 hi
    obtain ⟨o, ho, hol⟩ := mapM_mem h.hlists hl
    obtain ⟨f₁, f₂, rfl, hc⟩ := parseOwner_inv hol
    exact .inr (.inl ⟨o, ho, f₁, f₂, hc, by simpa using hi⟩)
  · obtain ⟨props, composite, h1, _, h2, _, e⟩ := parseGraph_inv h.hgraph
    have := idOf_eq h2
    subst this
    exact .inr (.inr ⟨props, h1, by rw [hi, e]; rfl⟩)

theorem FromOf.funcs {f : Func} (hm : f ∈ F.funcs) :
    (needs g .duration = true ∧ f ∈ durationFromString.flatMap Item.funcs) ∨
    (∃ o ∈ compOrder g, ∃ f₁ f₂, Nonempty (CompFuncs g py o f₁ f₂) ∧ (f = f₁ ∨ f = f₂)) ∨
    ∃ props, parseProps (graphCtx g py) c!"graph" g.properties 0 = .ok props ∧ f = graphFunc g py (ownerId g .graph) props := by
  obtain ⟨i, hi, hm⟩ := List.mem_flatMap.1 hm
  rcases h.items hi with ⟨h1, h2⟩ | ⟨o, ho, f₁, f₂, hc, e⟩ | ⟨props, h1, rfl⟩
  · exact .inl ⟨h1, List.mem_flatMap.2 ⟨i, h2, hm⟩⟩
  · refine .inr (.inl ⟨o, ho, f₁, f₂, hc, ?_⟩)
    rcases e with rfl | rfl
    · exact .inl (List.mem_singleton.1 hm)
    · exact .inr (List.mem_singleton.1 hm)
  · exact .inr (.inr ⟨props, h1, List.mem_singleton.1 hm⟩)

/-- The functions of a composite are in the module. -/
theorem FromOf.comp {o : Owner} (ho : o ∈ compOrder g) : ∃ f₁ f₂, Nonempty (CompFuncs g py o f₁ f₂) ∧
    .func f₁ ∈ F.items ∧ .func f₂ ∈ F.items := by
  obtain ⟨l, hl, hol⟩ := mapM_mem' h.hlists ho
  obtain ⟨f₁, f₂, rfl, hc⟩ := parseOwner_inv hol
  have hm : ∀ i ∈ [Item.func f₁, Item.func f₂], i ∈ F.items := by
    intro i hi
    rw [h.module]
    exact List.mem_append_left _ (List.mem_append_right _ (List.mem_flatten.2 ⟨_, hl, hi⟩))
  exact ⟨f₁, f₂, hc, hm _ (by simp), hm _ (by simp)⟩

/-! ## Imports -/

theorem FromOf.importsOf : ImportsOf (root py.moduleName) imports := by
  have h' := h.himports
  unfold fromImports at h'
  obtain ⟨path, h1, h'⟩ := ok_bind h'
  obtain ⟨zone, h2, h'⟩ := ok_bind h'
  cases h'
  constructor
  · intro p hp
    simp only [List.mem_append, List.mem_singleton, List.mem_cons, List.not_mem_nil, or_false, List.mem_ite_nil_right,
      Prod.mk.injEq, true_and, reduceCtorEq, false_and, and_false] at hp
    rcases hp with (((((rfl | ⟨_, rfl⟩) | ⟨_, rfl | rfl⟩) | ⟨_, rfl⟩) | ⟨_, rfl⟩) | ⟨_, rfl⟩) | ⟨_, rfl⟩ <;> decide
  · intro p hp
    simp only [List.mem_append, List.mem_singleton, List.mem_cons, List.not_mem_nil, or_false, List.mem_ite_nil_right,
      Prod.mk.injEq, true_and, reduceCtorEq, false_and, and_false, false_or] at hp
    rcases hp with rfl | rfl
    · rfl
    · exact root_parse py

theorem FromOf.import_package : (.package, py.moduleName) ∈ imports ∧ (.package, parsePath py) ∈ imports ∧
    (.library, c!"typing") ∈ imports := by
  have h' := h.himports
  unfold fromImports at h'
  obtain ⟨path, h1, h'⟩ := ok_bind h'
  obtain ⟨zone, h2, h'⟩ := ok_bind h'
  cases h'
  simp

theorem FromOf.import_class {c : Class} (hc : c ∈ g.classes) : (.library, c!"collections") ∈ imports ∧
    (c.idPattern.isSome → (.library, c!"re") ∈ imports) := by
  have h' := h.himports
  unfold fromImports at h'
  obtain ⟨path, h1, h'⟩ := ok_bind h'
  obtain ⟨zone, h2, h'⟩ := ok_bind h'
  cases h'
  have hl : g.classes.length > 0 := List.length_pos_of_mem hc
  refine ⟨by simp [hl], fun hp => ?_⟩
  have : g.classes.any (fun c => c.idPattern.isSome) = true := List.any_eq_true.2 ⟨c, hc, hp⟩
  simp [this]

theorem FromOf.import_duration (hd : needs g .duration = true) : (.library, c!"re") ∈ imports ∧
    (.library, c!"datetime") ∈ imports := by
  have h' := h.himports
  unfold fromImports at h'
  obtain ⟨path, h1, h'⟩ := ok_bind h'
  obtain ⟨zone, h2, h'⟩ := ok_bind h'
  cases h'
  refine ⟨?_, by simp [hd]⟩
  obtain ⟨u, hu, e⟩ := (needs_ty h.facts.named (by simp) (by simp) (by simp)).1 hd
  have : (iterateOverTypes g).any (fun x => hasPattern x.1 || tyTag x.1 == .duration) = true :=
    (any_iterate (f := fun x => hasPattern x || tyTag x == .duration)).2 ⟨u, hu, by simp [e]⟩
  simp [this]

/-- The needed imports of a type are there. -/
theorem FromOf.needs_type {u : Ty} (hu : Occurs g u) {p : Str} (hx : lib p ∈ fromNames py u) : (.library, p) ∈ imports := by
  have h' := h.himports
  have hn := h.facts.named
  unfold fromImports at h'
  obtain ⟨path, h1, h'⟩ := ok_bind h'
  obtain ⟨zone, h2, h'⟩ := ok_bind h'
  cases h'
  have hneed : ∀ q, q ≠ .graph → q ≠ .cls → q ≠ .embed → tyTag u = q → needs g q = true :=
    fun q a b c e => (needs_ty hn a b c).2 ⟨u, hu, e⟩
  have hd : ∀ q, tyTag u = q → q = .date ∨ q = .time ∨ q = .datetime ∨ q = .duration →
      (needs g .date || needs g .time || needs g .datetime || needs g .duration) = true := by
    intro q e hq
    have := hneed q (by rintro rfl; simp at hq) (by rintro rfl; simp at hq) (by rintro rfl; simp at hq) e
    rcases hq with rfl | rfl | rfl | rfl <;> simp [this]
  have hre : hasPattern u = true →
      (iterateOverTypes g).any (fun x => hasPattern x.1 || tyTag x.1 == .duration) = true := fun hp =>
    (any_iterate (f := fun x => hasPattern x || tyTag x == .duration)).2 ⟨u, hu, by simp [hp]⟩
  have eq_lib : ∀ {q}, lib p = lib q → p = q := by intro q e; cases e; rfl
  cases u with
  | string pat =>
    simp only [fromNames] at hx
    split at hx
    · rename_i hp
      obtain rfl := eq_lib (List.mem_singleton.1 hx)
      simp [hre hp]
    · cases hx
  | path pat =>
    simp only [fromNames, List.mem_append] at hx
    rcases hx with hx | hx
    · split at hx
      · rename_i hp
        obtain rfl := eq_lib (List.mem_singleton.1 hx)
        simp [hre hp]
      · cases hx
    · split at hx
      · rename_i hp
        obtain rfl := eq_lib (List.mem_singleton.1 hx)
        rw [neededPath, if_pos (hneed .path (by simp) (by simp) (by simp) rfl)] at h1
        obtain ⟨e, _⟩ := pathNames_eq h1
        have : path = [pathlib] := by rw [e, if_neg (by rw [hp]; decide)]
        simp [this]
      · cases hx
  | date f =>
    obtain rfl := eq_lib (List.mem_singleton.1 hx)
    simp [hd _ rfl (by simp [tyTag])]
  | time f =>
    obtain rfl := eq_lib (List.mem_singleton.1 hx)
    simp [hd _ rfl (by simp [tyTag])]
  | datetime f =>
    obtain rfl := eq_lib (List.mem_singleton.1 hx)
    simp [hd _ rfl (by simp [tyTag])]
  | timeZone =>
    simp only [fromNames] at hx
    split at hx
    · rename_i hp
      rw [neededZone, if_pos (hneed .timeZone (by simp) (by simp) (by simp) rfl)] at h2
      obtain ⟨e, _⟩ := zoneNames_eq h2
      have : zone = [datetime] := by rw [e, if_neg (by rw [hp]; decide)]
      simp only [List.mem_cons, List.not_mem_nil, or_false] at hx
      rcases hx with hx | hx
      · obtain rfl := eq_lib hx
        simp [this]
      · obtain rfl := eq_lib hx
        simp [this]
    · cases hx
  | map t =>
    obtain rfl := eq_lib (List.mem_singleton.1 hx)
    simp [hneed .map (by simp) (by simp) (by simp) rfl]
  | duration => simp [fromNames, lib] at hx
  | embed n => simp [fromNames, lib] at hx
  | _ => cases hx

end

/-! ## Names -/

/-- The definitions of the module `parse` which the other modules refer to. -/
def HasParse (g : Graph) (py : Py) (pkg : List Module) : Prop :=
  ∀ x ∈ parseDefs g, ∃ M ∈ pkg, M.path = parsePath py ∧ ∃ i ∈ M.items, i.name = x

theorem ParseOf.hasParse {g : Graph} {py : Py} {P : Module} (h : ParseOf g py P) {pkg : List Module} (hm : P ∈ pkg) :
    HasParse g py pkg := by
  intro x hx
  refine ⟨P, hm, by rw [h.module], ?_⟩
  rw [← h.defs] at hx
  obtain ⟨i, hi, e⟩ := List.mem_map.1 hx
  exact ⟨i, hi, e⟩

theorem placeholder_mem {g : Graph} {o : Owner} (ho : o ∈ definitionOrder g) :
    c!"placeholder_" ++ lower (ownerName g o) ∈ parseDefs g :=
  List.mem_append_right _ (List.mem_map.2 ⟨o, mem_parseOrder.2 ho, rfl⟩)

theorem from_mem {g : Graph} {o : Owner} (ho : o ∈ compOrder g) :
    c!"_" ++ lower (ownerName g o) ++ c!"_from" ∈ fromDefs g :=
  List.mem_append_left _ (List.mem_append_right _ (List.mem_flatMap.2 ⟨o, ho, by simp [fromTexts]⟩))

theorem class_comp {g : Graph} {c : Class} (hc : c ∈ g.classes) : .cls c.name ∈ compOrder g :=
  List.mem_append_left _ (List.mem_map.2 ⟨c, hc, rfl⟩)

theorem embed_comp {g : Graph} {n : Str} (h : ∃ e ∈ g.embeds, e.name = n) : .embed n ∈ compOrder g := by
  obtain ⟨e, he, rfl⟩ := h
  exact List.mem_append_right _ (List.mem_map.2 ⟨e, he, rfl⟩)

/-- A check of names which do not depend on the schema. -/
def Name.among (xs : List Name) : Name → Bool
  | .var _ => true
  | .builtin x => builtins.contains x || xs.contains (.builtin x)
  | n => xs.contains n

theorem among_plain {xs : List Name} {n : Name} (h : n.among xs = true) : Plain n ∨ n ∈ xs := by
  cases n with
  | var x => exact .inl (.var x)
  | builtin x =>
    simp only [Name.among, Bool.or_eq_true, List.contains_iff_mem] at h
    exact h.imp (.builtin x) id
  | _ => exact .inr (by simpa [Name.among] using h)

/-- All the libraries are known to the rules. -/
theorem fromNames_lib {py : Py} {u : Ty} {p : Str} (h : lib p ∈ fromNames py u) : p ∈ libPaths := by
  cases u with
  | string pat =>
    simp only [fromNames] at h
    split at h
    · cases List.mem_singleton.1 h; decide
    · cases h
  | path pat =>
    simp only [fromNames, List.mem_append] at h
    rcases h with h | h
    · split at h
      · cases List.mem_singleton.1 h; decide
      · cases h
    · split at h
      · cases List.mem_singleton.1 h; decide
      · cases h
  | timeZone =>
    simp only [fromNames] at h
    split at h
    · simp only [List.mem_cons, List.not_mem_nil, or_false] at h
      rcases h with h | h <;> (cases h; decide)
    · cases h
  | date f => cases List.mem_singleton.1 h; decide
  | time f => cases List.mem_singleton.1 h; decide
  | datetime f => cases List.mem_singleton.1 h; decide
  | map t => cases List.mem_singleton.1 h; decide
  | duration => simp [fromNames, lib] at h
  | embed n => simp [fromNames, lib] at h
  | _ => cases h

/-- The names of a type are libraries or definitions of the package. -/
theorem fromNames_cases {py : Py} {u : Ty} {x : Name} (h : x ∈ fromNames py u) : (∃ p, x = lib p) ∨
    (u = .duration ∧ x = .glob c!"_duration_from_string") ∨ ∃ n, u = .embed n ∧
      (x = .member (parsePath py) (c!"placeholder_" ++ lower n) ∨ x = .glob (c!"_" ++ lower n ++ c!"_from")) := by
  cases u with
  | string pat =>
    simp only [fromNames] at h
    split at h
    · exact .inl ⟨_, List.mem_singleton.1 h⟩
    · cases h
  | path pat =>
    simp only [fromNames, List.mem_append] at h
    rcases h with h | h
    · split at h
      · exact .inl ⟨_, List.mem_singleton.1 h⟩
      · cases h
    · split at h
      · exact .inl ⟨_, List.mem_singleton.1 h⟩
      · cases h
  | timeZone =>
    simp only [fromNames] at h
    split at h
    · simp only [List.mem_cons, List.not_mem_nil, or_false] at h
      rcases h with h | h <;> exact .inl ⟨_, h⟩
    · cases h
  | date f => exact .inl ⟨_, List.mem_singleton.1 h⟩
  | time f => exact .inl ⟨_, List.mem_singleton.1 h⟩
  | datetime f => exact .inl ⟨_, List.mem_singleton.1 h⟩
  | map t => exact .inl ⟨_, List.mem_singleton.1 h⟩
  | duration => exact .inr (.inl ⟨rfl, List.mem_singleton.1 h⟩)
  | embed n => exact .inr (.inr ⟨n, rfl, by simpa [fromNames] using h⟩)
  | _ => cases h

section
variable {g : Graph} {py : Py} {F : Module} {imports : List (Origin × Str)} {lists : List (List Item)} {graph : Item}
  (h : FromOf g py F imports lists graph) {pkg : List Module} (ht : HasTypes g py pkg) (hp : HasParse g py pkg)
include h hp

theorem FromOf.known_type {u : Ty} (hu : Occurs g u) {x : Name} (hx : x ∈ fromNames py u) :
    Known pkg imports (fromDefs g) x := by
  rcases fromNames_cases hx with ⟨p, rfl⟩ | ⟨rfl, rfl⟩ | ⟨n, rfl, rfl | rfl⟩
  · exact .lib p (fromNames_lib hx) (h.needs_type hu hx)
  · have : needs g .duration = true := (needs_ty h.facts.named (by simp) (by simp) (by simp)).2 ⟨_, hu, rfl⟩
    exact .glob _ (by simp [fromDefs, this])
  · have hc := comp_order (embed_comp (h.facts.resolves.2 n hu))
    exact .member _ _ h.import_package.2.1 (hp _ (placeholder_mem hc))
  · exact .glob _ (from_mem (embed_comp (h.facts.resolves.2 n hu)))

theorem FromOf.known_props {ctx : Ctx} {obj : Str} {o : Owner} {n : Nat} {c : Code} (hc : parseProps ctx obj (ownerProps g o) n = .ok c)
    (hpy : ctx.py = py) (hreg : ∀ c l, ctx.registry c = .ok l → ∀ x ∈ l, Plain x) :
    All (Known pkg imports (fromDefs g)) c := by
  intro x hx
  rcases (props_fine (ok := fun _ => True) hc).names hreg x hx with hx | ⟨p, hp', u, hu, hx⟩
  · exact .plain hx
  · rw [hpy] at hx
    exact h.known_type hp (occurs_prop hp' hu) hx

theorem FromOf.known_body {f : Func} (hf : f ∈ F.funcs) : All (Known pkg imports (fromDefs g)) f.body := by
  rcases h.funcs hf with ⟨hd, hf⟩ | ⟨o, ho, f₁, f₂, ⟨hc⟩, rfl | rfl⟩ | ⟨props, hprops, rfl⟩
  · have key : ∀ f ∈ durationFromString.flatMap Item.funcs, ∀ n ∈ f.body.names,
        n.among [datetime, .glob c!"_DURATION_RE"] = true := by decide +kernel
    intro n hn
    rcases among_plain (key f hf n hn) with hn | hn
    · exact .plain hn
    · simp only [List.mem_cons, List.not_mem_nil, or_false] at hn
      rcases hn with rfl | rfl
      · exact .lib _ (by decide) (h.import_duration hd).2
      · exact .glob _ (by simp [fromDefs, hd])
  · have hprops := h.known_props hp hc.funcs.hprops rfl (by
      intro c l hc x hx
      dsimp only at hc
      split at hc
      · obtain ⟨y, hy, hc⟩ := ok_bind hc
        cases hc
        obtain rfl := List.mem_singleton.1 hx
        exact .var _
      · cases hc)
    have hb : ∀ x ∈ builtins, Known pkg imports (fromDefs g) (b x) := fun x hx => .builtin x hx
    rw [hc.funcs.first]
    simp only [all_use, all_branch, all_leave, all_done, List.forall_mem_cons, List.not_mem_nil, false_implies, implies_true,
      and_true, true_and]
    exact ⟨⟨hb _ (by decide), .var _, hb _ (by decide)⟩, ⟨.var _, .var _, hb _ (by decide), .var _⟩, hprops⟩
  · rw [hc.funcs.second]
    simp only [all_use, all_branch, all_leave, all_done, all_call, all_bind, leaveIf, List.forall_mem_cons, List.not_mem_nil, false_implies,
      implies_true, and_true, true_and, List.forall_mem_append, List.cons_append]
    refine ⟨?_, .member _ _ h.import_package.2.1 (hp _ (placeholder_mem (comp_order ho))), ⟨.var _, ?_, .var _, .var _, .var _⟩,
      .glob _ (from_mem ho), .var _, .var _⟩
    · intro x hx
      split at hx
      · obtain rfl := List.mem_singleton.1 hx
        exact .var _
      · cases hx
    · intro x hx
      obtain ⟨p, _, rfl⟩ := List.mem_map.1 hx
      exact .var _
  · have hk := h.known_props (o := .graph) hp hprops rfl (by
      intro c l hc x hx
      obtain ⟨y, hy, hc⟩ := ok_bind hc
      cases hc
      obtain rfl := List.mem_singleton.1 hx
      exact .var _)
    have hb : ∀ x ∈ builtins, Known pkg imports (fromDefs g) (b x) := fun x hx => .builtin x hx
    have hbody : All (Known pkg imports (fromDefs g)) (graphBody g py props) := by
      intro x hx
      rcases (graphBody_names (props_fine (ok := fun _ => True) hprops).isOpen).1 hx with ⟨c, hc, hx | hx⟩ | hx | hx | hx
      · rcases alloc_names py c x hx with hx | hx
        · exact .plain hx
        · have ic := h.import_class hc
          simp only [allocNames, List.mem_cons] at hx
          rcases hx with rfl | rfl | hx
          · exact .lib _ (by decide) ic.1
          · exact .member _ _ h.import_package.2.1 (hp _ (placeholder_mem (comp_order (class_comp hc))))
          · split at hx
            · obtain rfl := List.mem_singleton.1 hx
              exact .lib _ (by decide) (ic.2 (by assumption))
            · cases hx
      · rcases instance_names c _ x hx with hx | rfl
        · exact .plain hx
        · exact .glob _ (from_mem (class_comp hc))
      · unfold pause at hx
        split at hx
        · cases hx
        · simp [leaveIf, Code.names] at hx
          subst hx
          exact .var _
      · exact hk x hx
      · simp only [List.mem_cons, List.not_mem_nil, or_false] at hx
        rcases hx with rfl | rfl <;> exact .var _
    simp only [graphFunc, all_use, all_branch, all_leave, all_done, all_call, all_bind, leaveIf, List.forall_mem_cons, List.not_mem_nil,
      false_implies, implies_true, and_true, true_and]
    exact ⟨.var _, ⟨hb _ (by decide), .var _, hb _ (by decide)⟩, ⟨.var _, .var _, hb _ (by decide), .var _⟩,
      .member _ _ h.import_package.2.1 (hp _ (placeholder_mem (o := .graph) (by simp [mem_order]))), hbody⟩

include ht

/-- The names in the signatures and in the values. -/
theorem FromOf.known_uses {i : Item} (hi : i ∈ F.items) (defs : List Str) :
    ∀ n ∈ i.uses, n.Constant ∧ Known pkg imports defs n := by
  have hlib : ∀ {p}, p ∈ libPaths → (.library, p) ∈ imports → (lib p).Constant ∧ Known pkg imports defs (lib p) :=
    fun h1 h2 => ⟨trivial, .lib _ h1 h2⟩
  have hty : typing.Constant ∧ Known pkg imports defs typing := hlib (by decide) h.import_package.2.2
  have hb : ∀ x ∈ builtins, (b x).Constant ∧ Known pkg imports defs (b x) := fun x hx => ⟨trivial, .builtin x hx⟩
  have hm : ∀ o ∈ definitionOrder g, (Name.member py.moduleName (ownerId g o)).Constant ∧
      Known pkg imports defs (.member py.moduleName (ownerId g o)) :=
    fun o ho => ⟨trivial, member_known _ h.import_package.1 ht ho _⟩
  have he : (Name.member (parsePath py) c!"Errors").Constant ∧
      Known pkg imports defs (.member (parsePath py) c!"Errors") :=
    ⟨trivial, .member _ _ h.import_package.2.1 (hp _ (by simp [parseDefs]))⟩
  rcases h.items hi with ⟨hd, hi⟩ | ⟨o, ho, f₁, f₂, ⟨hc⟩, e⟩ | ⟨props, hprops, rfl⟩
  · obtain ⟨d1, d2⟩ := h.import_duration hd
    simp only [durationFromString, List.mem_cons, List.not_mem_nil, or_false] at hi
    rcases hi with rfl | rfl
    · simp only [Item.uses, List.forall_mem_cons, List.not_mem_nil, false_implies, implies_true, and_true]
      exact hlib (by decide) d1
    · simp only [Item.uses, List.forall_mem_cons, List.not_mem_nil, false_implies, implies_true, and_true]
      exact ⟨hb _ (by decide), hlib (by decide) d2⟩
  · have htypes : ∀ n ∈ hc.types.flatten, n.Constant ∧ Known pkg imports defs n := by
      intro n hn
      obtain ⟨l, hl, hn⟩ := List.mem_flatten.1 hn
      obtain ⟨r, hr, hrl⟩ := mapM_mem hc.funcs.htypes hl
      obtain ⟨x, hx, e⟩ := ok_bind hrl
      cases e
      obtain ⟨refs, e1, e2⟩ := referencesOf_ok g o
      have hrefs := hc.funcs.hrefs
      rw [e1] at hrefs
      cases hrefs
      obtain ⟨c, hcm, rfl⟩ := refers_known h.facts.resolves ((mem_references e2 r).1 hr)
      simp only [List.mem_cons, List.not_mem_nil, or_false] at hn
      rcases hn with rfl | rfl | rfl
      · exact hty
      · exact hb _ (by decide)
      · rw [← idOf_eq hx]
        exact hm (.cls c.name) (comp_order (class_comp hcm))
    rcases e with rfl | rfl
    · simp only [Item.uses, hc.funcs.first, List.forall_mem_cons, List.forall_mem_append, List.cons_append, List.not_mem_nil,
        false_implies, implies_true, and_true]
      exact ⟨hty, htypes, hb _ (by decide), hm o (comp_order ho), he⟩
    · simp only [Item.uses, hc.funcs.second, List.forall_mem_cons, List.forall_mem_append, List.cons_append, List.not_mem_nil,
        false_implies, implies_true, and_true]
      exact ⟨hty, htypes, hb _ (by decide), he, hty, hm o (comp_order ho)⟩
  · simp only [Item.uses, graphFunc, List.forall_mem_cons, List.not_mem_nil, false_implies, implies_true, and_true]
    exact ⟨hty, hb _ (by decide), he, hty, hm .graph (by simp [mem_order])⟩

theorem FromOf.known {n : Name} (hn : n ∈ F.names) : Known pkg imports (fromDefs g) n := by
  rcases List.mem_append.1 hn with hn | hn
  · obtain ⟨i, hi, hn⟩ := List.mem_flatMap.1 hn
    exact (h.known_uses ht hp hi _ n hn).2
  · obtain ⟨f, hf, hn⟩ := List.mem_flatMap.1 hn
    exact h.known_body hp hf n hn

end

/-! ## The definitions -/

theorem isUpper_lower {c : Char} (h : isUpper c = true) : c.toLower ≠ '_' := by
  intro e
  simp only [isUpper, Char.isUpper, Bool.and_eq_true, decide_eq_true_eq] at h
  unfold Char.toLower at e
  rw [dif_pos h] at e
  have h1 := congrArg (fun c : Char => c.val.toNat) e
  have h2 := UInt32.le_iff_toNat_le.1 h.1
  have h3 := UInt32.le_iff_toNat_le.1 h.2
  simp [UInt32.toNat_add] at h1 h2 h3
  omega

theorem composite_first {n x : Str} (h : asComposite n = .ok x) : ∃ c cs, n = c :: cs ∧ isUpper c = true := by
  unfold asComposite at h
  split at h
  · cases h
  · split at h
    · exact ⟨_, _, rfl, by assumption⟩
    · cases h

/-- The variables of composites start with a letter. -/
theorem Facts.letter {g : Graph} (hf : Facts g) {n : Str} (hn : n ∈ allNames g) (y : Str) : lower n ≠ '_' :: y := by
  obtain ⟨c, cs, rfl, hc⟩ := composite_first (hf.composite n hn)
  intro e
  simp only [lower, List.map_cons, List.cons.injEq] at e
  exact isUpper_lower hc e.1

theorem from_free {g : Graph} {r : Str} (hr : RootFree g r) : Free r (fromDefs g) := by
  apply free_of
  intro x hx
  simp only [fromDefs, List.mem_append, List.mem_singleton, List.mem_flatMap] at hx
  rcases hx with (hx | ⟨o, ho, hx⟩) | rfl
  · refine free_fixed hr ?_
    split at hx
    · simp only [List.mem_cons, List.not_mem_nil, or_false] at hx
      rcases hx with rfl | rfl <;> decide
    · cases hx
  · refine free_composite hr (owner_name_mem (comp_order ho)) ?_
    simp only [fromTexts, List.mem_cons, List.not_mem_nil, or_false] at hx
    rcases hx with rfl | rfl <;> simp [compositeTexts]
  · exact free_composite hr (n := g.name) (by simp [allNames]) (by simp [compositeTexts])

/-- Different composites have different functions. -/
theorem fromTexts_ne {g : Graph} (hf : Facts g) {o o' : Owner} (h1 : o ∈ definitionOrder g) (h2 : o' ∈ definitionOrder g)
    (hne : lower (ownerName g o) ≠ lower (ownerName g o')) : ∀ x ∈ fromTexts g o, ∀ y ∈ fromTexts g o', x ≠ y := by
  intro x hx y hy e
  have l1 := hf.letter (owner_name_mem h1)
  have l2 := hf.letter (owner_name_mem h2)
  simp only [fromTexts, List.mem_cons, List.not_mem_nil, or_false] at hx hy
  subst e
  rcases hx with rfl | rfl
  · rcases hy with e | e
    · exact hne (List.append_cancel_left (List.append_cancel_right e))
    · exact l2 _ (List.append_cancel_right e).symm
  · rcases hy with e | e
    · exact l1 _ (List.append_cancel_right e)
    · exact hne (List.append_cancel_right e)

theorem from_nodup {g : Graph} (hf : Facts g) (h : ((allNames g).map lower).Nodup) : (fromDefs g).Nodup := by
  have hown : ((definitionOrder g).map fun o => lower (ownerName g o)).Nodup := owner_names_nodup (.refl _) h
  have horder : definitionOrder g = compOrder g ++ [.graph] := rfl
  have hp : (definitionOrder g).Pairwise fun o o' => lower (ownerName g o) ≠ lower (ownerName g o') := List.pairwise_map.1 hown
  rw [horder, List.pairwise_append] at hp
  have hone : ∀ o ∈ compOrder g, (fromTexts g o).Nodup := by
    intro o ho
    simp only [fromTexts, List.nodup_cons, List.mem_singleton, List.not_mem_nil, not_false_eq_true, List.nodup_nil, and_true]
    intro e
    have := congrArg List.length e
    simp at this
  have hlast : ∀ o ∈ definitionOrder g, ∀ x ∈ fromTexts g o, x.getLast? = some 'm' := by
    intro o _ x hx
    simp only [fromTexts, List.mem_cons, List.not_mem_nil, or_false] at hx
    rcases hx with rfl | rfl <;> rw [List.getLast?_append] <;> rfl
  rw [fromDefs, List.nodup_append, List.nodup_append]
  refine ⟨⟨by split <;> decide, ?_, ?_⟩, by simp, ?_⟩
  · refine List.pairwise_flatMap.2 ⟨hone, ?_⟩
    exact hp.1.imp_of_mem fun h1 h2 hne => fromTexts_ne hf (comp_order h1) (comp_order h2) hne
  · intro x hx y hy e
    obtain ⟨o, ho, hy⟩ := List.mem_flatMap.1 hy
    have hl := hlast o (comp_order ho) y hy
    subst e
    split at hx
    · simp only [List.mem_cons, List.not_mem_nil, or_false] at hx
      rcases hx with rfl | rfl <;> simp at hl
    · cases hx
  · intro x hx y hy e
    obtain rfl := List.mem_singleton.1 hy
    subst e
    rcases List.mem_append.1 hx with hx | hx
    · have : (lower g.name ++ c!"_from").getLast? = some 'm' := by simp [List.getLast?_append]
      split at hx
      · simp only [List.mem_cons, List.not_mem_nil, or_false] at hx
        rcases hx with e | e <;> (rw [e] at this; simp at this)
      · cases hx
    · obtain ⟨o, ho, hx⟩ := List.mem_flatMap.1 hx
      exact fromTexts_ne hf (o' := .graph) (comp_order ho) (by simp [mem_order]) (hp.2.2 o ho .graph (by simp)) _ hx _
        (by simp [fromTexts, ownerName]) rfl

/-! ## Variables -/

/-- The variables of the functions. -/
inductive FromLocal (g : Graph) : Str → Prop where
  | fixed (x) : x ∈ fixedTexts → x.head? ≠ some '_' → FromLocal g x
  | temp (base n) : base ∈ fromBases → FromLocal g (Var.temp base n).text
  | registry (c) : c ∈ g.classes → FromLocal g (lower c.plural ++ c!"_registry")
  | target (c) : c ∈ g.classes → FromLocal g (c!"target_" ++ lower c.name)

theorem FromLocal.free {g : Graph} {r : Str} (hr : RootFree g r) {x : Str} (h : FromLocal g x) :
    x ≠ r ∧ x ∉ builtins ∧ x ∉ libRoots := by
  cases h with
  | fixed _ h1 h2 => exact free_fixed hr h1
  | temp base n h =>
    have : ∀ base ∈ fromBases, base ∈ tempBases := by decide
    exact free_temp hr (this base h) n
  | registry c hc => exact free_class hr hc (by simp [classTexts])
  | target c hc => exact free_class hr hc (by simp [classTexts])

theorem FromTemp.local {g : Graph} {x : Var} (h : FromTemp x) : FromLocal g x.text := by
  rcases h with rfl | ⟨base, hb, k, rfl⟩
  · exact .fixed _ (by decide) (by decide)
  · exact .temp base k hb

/-- A definition which the functions refer to is no variable. -/
theorem FromLocal.ne {g : Graph} {x : Str} (h : FromLocal g x) (hx : x.head? = some '_') (hl : x.getLast? ≠ some 'y') : False := by
  cases h with
  | fixed _ h1 h2 => exact h2 hx
  | temp base n h =>
    have : ∀ base ∈ fromBases, ∀ y, (base ++ y).head? ≠ some '_' := by simp [fromBases]
    exact this base h _ hx
  | registry c hc => exact hl (by simp [List.getLast?_append])
  | target c hc => simp at hx

section
variable {g : Graph} {py : Py} {F : Module} {imports : List (Origin × Str)} {lists : List (List Item)} {graph : Item}
  (h : FromOf g py F imports lists graph)
include h

omit h in
theorem cls_mem {n : Str} {c : Class} (h : g.cls? n = some c) : c ∈ g.classes ∧ c.name = n :=
  ⟨List.mem_of_find?_eq_some h, by simpa using List.find?_some h⟩

omit h in
theorem CompFuncs.registries {o : Owner} {f₁ f₂ : Func} (hc : CompFuncs g py o f₁ f₂) {p : Param} (hp : p ∈ hc.params) :
    ∃ c ∈ g.classes, p = { var := .own [] (lower c.plural) c!"_registry", kind := .registry c.name } := by
  obtain ⟨r, hr, h1, h2⟩ := hc.funcs.param hp
  have hm := hp
  obtain ⟨r', _, hp'⟩ := mapM_mem hc.funcs.hparams hm
  unfold registryParamOf at hp'
  obtain ⟨x, hx, hp'⟩ := ok_bind hp'
  cases hp'
  obtain ⟨c, hcls, _, rfl⟩ := registryParam_inv hx
  obtain ⟨hmem, rfl⟩ := cls_mem hcls
  exact ⟨c, hmem, rfl⟩

theorem FromOf.locals {f : Func} (hm : f ∈ F.funcs) : ∀ x ∈ f.locals, FromLocal g x := by
  have hfix : ∀ x ∈ fixedTexts, x.head? ≠ some '_' → FromLocal g x := .fixed
  have hprops : ∀ {ctx obj ps n c}, parseProps ctx obj ps n = .ok c → ∀ x ∈ c.binds.map Var.text, FromLocal g x := by
    intro ctx obj ps n c hc x hx
    obtain ⟨y, hy, rfl⟩ := List.mem_map.1 hx
    exact (props_bases hc y hy).local
  rcases h.funcs hm with ⟨hd, hf⟩ | ⟨o, ho, f₁, f₂, ⟨hc⟩, rfl | rfl⟩ | ⟨props, hprops', rfl⟩
  · have key : ∀ f ∈ durationFromString.flatMap Item.funcs, ∀ x ∈ f.locals, x ∈ fixedTexts ∧ x.head? ≠ some '_' := by
      decide +kernel
    intro x hx
    exact .fixed x (key f hf x hx).1 (key f hf x hx).2
  · have hregs : ∀ x ∈ hc.params.map (fun p => p.var.text), FromLocal g x := by
      intro x hx
      obtain ⟨p, hp, rfl⟩ := List.mem_map.1 hx
      obtain ⟨c, hcm, rfl⟩ := hc.registries hp
      exact .registry c hcm
    rw [hc.funcs.first]
    simp only [Func.locals, Code.binds, List.map_append, List.map_cons, List.map_nil, List.nil_append, List.append_nil, List.cons_append,
      List.forall_mem_append, List.forall_mem_cons, valueParam, refParam, errorsParam, Var.text]
    exact ⟨hfix _ (by decide) (by decide), ⟨hregs, hfix _ (by decide) (by decide), hfix _ (by decide) (by decide),
      hfix _ (by decide) (by decide), by simp⟩, hprops hc.funcs.hprops⟩
  · have hregs : ∀ x ∈ hc.params.map (fun p => p.var.text), FromLocal g x := by
      intro x hx
      obtain ⟨p, hp, rfl⟩ := List.mem_map.1 hx
      obtain ⟨c, hcm, rfl⟩ := hc.registries hp
      exact .registry c hcm
    have hid : ∀ x ∈ (if Owner.isClass o then [idParam] else []).map (fun p => p.var.text), FromLocal g x := by
      intro x hx
      split at hx
      · obtain rfl := List.mem_singleton.1 hx
        exact hfix _ (by decide) (by decide)
      · cases hx
    rw [hc.funcs.second]
    simp only [Func.locals, Code.binds, List.map_append, List.map_cons, List.map_nil, List.nil_append, List.append_nil, List.cons_append,
      List.forall_mem_append, List.forall_mem_cons, valueParam, refParam, errorsParam, leaveIf, List.not_mem_nil, false_implies,
      implies_true, and_true]
    exact ⟨hfix _ (by decide) (by decide), ⟨⟨hid, hregs⟩, hfix _ (by decide) (by decide), hfix _ (by decide) (by decide)⟩,
      hfix _ (by decide) (by decide)⟩
  · have hvar : ∀ c ∈ g.classes, ∀ x ∈ (allocCode py c).sets, FromLocal g x.text := by
      intro c hc x hx
      have : x = .fixed c!"registry_value" ∨ x = .own [] (lower c.plural) c!"_registry" ∨ x = .fixed c!"id" := by
        cases e : c.idPattern <;> simpa [allocCode, e, Code.sets, report, leaveIf] using hx
      rcases this with rfl | rfl | rfl
      · exact hfix _ (by decide) (by decide)
      · exact .registry c hc
      · exact hfix _ (by decide) (by decide)
    have hvar' : ∀ c ∈ g.classes, ∀ x ∈ (instanceCode c (refsOf g (.cls c.name))).sets, FromLocal g x.text := by
      intro c hc x hx
      simp [instanceCode, Code.sets, leaveIf] at hx
      rcases hx with rfl | rfl | rfl | rfl
      · exact hfix _ (by decide) (by decide)
      · exact hfix _ (by decide) (by decide)
      · exact hfix _ (by decide) (by decide)
      · simpa [Var.text] using FromLocal.target c hc
    have hbody : ∀ x ∈ (graphBody g py props).binds, FromLocal g x.text := by
      intro x hx
      have hp : x ∈ props.sets ∨ x ∈ props.drops → FromLocal g x.text := fun hx =>
        hprops hprops' _ (List.mem_map.2 ⟨x, (binds_iff _ _).2 hx, rfl⟩)
      unfold graphBody parseTail at hx
      rcases (binds_iff _ _).1 hx with hx | hx
      · rcases sets_append hx with hx | hx
        · obtain ⟨d, hd, hx⟩ := concat_sets hx
          obtain ⟨c, hc, rfl⟩ := List.mem_map.1 hd
          exact hvar c hc x hx
        rcases sets_append hx with hx | hx
        · unfold pause at hx
          split at hx <;> simp [Code.sets, leaveIf] at hx
        rcases sets_append hx with hx | hx
        · obtain ⟨d, hd, hx⟩ := concat_sets hx
          obtain ⟨c, hc, rfl⟩ := List.mem_map.1 hd
          exact hvar' c hc x hx
        rcases sets_append hx with hx | hx
        · exact hp (.inl hx)
        · simp [Code.sets, leaveIf] at hx
      · rcases drops_append hx with hx | hx
        · obtain ⟨d, hd, hx⟩ := concat_drops hx
          obtain ⟨c, hc, rfl⟩ := List.mem_map.1 hd
          rw [(alloc_before py c).drops] at hx
          cases hx
        rcases drops_append hx with hx | hx
        · unfold pause at hx
          split at hx <;> simp [Code.drops, leaveIf] at hx
        rcases drops_append hx with hx | hx
        · obtain ⟨d, hd, hx⟩ := concat_drops hx
          obtain ⟨c, hc, rfl⟩ := List.mem_map.1 hd
          rw [(instance_before c _).drops] at hx
          cases hx
        rcases drops_append hx with hx | hx
        · exact hp (.inr hx)
        · simp [Code.drops, leaveIf] at hx
    simp only [graphFunc, Func.locals, Code.binds, List.map_append, List.map_cons, List.map_nil, List.nil_append, List.append_nil, List.cons_append,
      List.forall_mem_append, List.forall_mem_cons, valueParam, refParam, errorsParam, leaveIf, List.not_mem_nil, false_implies,
      implies_true, and_true, true_and]
    refine ⟨hfix _ (by decide) (by decide), hfix _ (by decide) (by decide), hfix _ (by decide) (by decide),
      hfix _ (by decide) (by decide), ?_⟩
    intro x hx
    obtain ⟨y, hy, rfl⟩ := List.mem_map.1 hx
    exact hbody y hy

omit h in
theorem map_inj {α β : Type} {k : α → β} {l : List α} (hn : (l.map k).Nodup) {a b : α} (ha : a ∈ l) (hb : b ∈ l)
    (e : k a = k b) : a = b := by
  induction l with
  | nil => cases ha
  | cons x l ih =>
    rw [List.map_cons, List.nodup_cons] at hn
    rcases List.mem_cons.1 ha with rfl | ha'
    · rcases List.mem_cons.1 hb with rfl | hb'
      · rfl
      · exact absurd (List.mem_map.2 ⟨b, hb', e.symm⟩) hn.1
    · rcases List.mem_cons.1 hb with rfl | hb'
      · exact absurd (List.mem_map.2 ⟨a, ha', e⟩) hn.1
      · exact ih hn.2 ha' hb'

omit h in
theorem mapM_nodup {α β γ : Type} {f : α → Except Exc β} {k : β → γ} {l : List α} {r : List β} (h : l.mapM f = .ok r)
    (hn : l.Nodup) (hi : ∀ a ∈ l, ∀ b ∈ l, ∀ y z, f a = .ok y → f b = .ok z → k y = k z → a = b) : (r.map k).Nodup := by
  induction l generalizing r with
  | nil => cases h; simp
  | cons a l ih =>
    obtain ⟨y, ys, h1, h2, rfl⟩ := mapM_cons h
    rw [List.nodup_cons] at hn
    rw [List.map_cons, List.nodup_cons]
    refine ⟨fun hm => ?_, ih h2 hn.2 fun a ha b hb => hi a (by simp [ha]) b (by simp [hb])⟩
    obtain ⟨z, hz, e⟩ := List.mem_map.1 hm
    obtain ⟨b, hb, hbz⟩ := mapM_mem h2 hz
    have := hi a (by simp) b (by simp [hb]) y z h1 hbz e.symm
    exact hn.1 (this ▸ hb)

omit h in
theorem Facts.plurals {g : Graph} (hf : Facts g) : (g.classes.map fun c => lower c.plural).Nodup :=
  (List.nodup_append.1 hf.graph).2.1

omit h in
/-- The parameters for the registries are different. -/
theorem CompFuncs.nodup {o : Owner} {f₁ f₂ : Func} (hc : CompFuncs g py o f₁ f₂) (hf : Facts g) :
    (hc.params.map fun p => p.var.text).Nodup := by
  obtain ⟨refs, e1, e2⟩ := referencesOf_ok g o
  have hrefs := hc.funcs.hrefs
  rw [e1] at hrefs
  cases hrefs
  refine mapM_nodup hc.funcs.hparams (nodup_references e2) ?_
  intro a _ b _ y z hy hz e
  unfold registryParamOf at hy hz
  obtain ⟨x, hx, hy⟩ := ok_bind hy
  obtain ⟨x', hx', hz⟩ := ok_bind hz
  cases hy
  cases hz
  obtain ⟨c, hcls, _, rfl⟩ := registryParam_inv hx
  obtain ⟨c', hcls', _, rfl⟩ := registryParam_inv hx'
  obtain ⟨m1, rfl⟩ := cls_mem hcls
  obtain ⟨m2, rfl⟩ := cls_mem hcls'
  simp only [Var.text, List.nil_append] at e
  rw [map_inj hf.plurals m1 m2 (List.append_cancel_right e)]

omit h in
theorem CompFuncs.params₁ {o : Owner} {f₁ f₂ : Func} (hc : CompFuncs g py o f₁ f₂) : f₁.params = valueParam :: hc.params ++
    [refParam, { var := .fixed c!"target", kind := .target (ownerName g o) }, errorsParam] :=
  congrArg Func.params hc.funcs.first

omit h in
theorem CompFuncs.params₂ {o : Owner} {f₁ f₂ : Func} (hc : CompFuncs g py o f₁ f₂) : f₂.params = valueParam ::
    (if Owner.isClass o then [idParam] else []) ++ hc.params ++ [refParam, errorsParam] :=
  congrArg Func.params hc.funcs.second

omit h in
theorem CompFuncs.params_nodup {o : Owner} {f₁ f₂ : Func} (hc : CompFuncs g py o f₁ f₂) (hf : Facts g) :
    (f₁.params.map fun p => p.var.text).Nodup ∧ (f₂.params.map fun p => p.var.text).Nodup := by
  have hn := hc.nodup hf
  have hne : ∀ x : Str, x.getLast? ≠ some 'y' → x ∉ hc.params.map fun p => p.var.text := by
    intro x hx hm
    obtain ⟨p, hp, rfl⟩ := List.mem_map.1 hm
    obtain ⟨c, _, rfl⟩ := hc.registries hp
    exact hx (by simp [Var.text, List.getLast?_append])
  have e1 := hne c!"value" (by decide)
  have e2 := hne c!"ref" (by decide)
  have e3 := hne c!"target" (by decide)
  have e4 := hne c!"errors" (by decide)
  have e5 := hne c!"id" (by decide)
  rw [hc.params₁, hc.params₂]
  constructor
  · simp only [List.map_append, List.map_cons, List.map_nil, List.cons_append, List.nodup_cons, List.nodup_append,
      valueParam, refParam, errorsParam, Var.text, List.mem_append, List.mem_cons, List.not_mem_nil, or_false, not_or]
    refine ⟨⟨e1, by decide, by decide, by decide⟩, hn, by decide, ?_⟩
    intro a ha b hb e
    subst e
    rcases hb with rfl | rfl | rfl
    · exact e2 ha
    · exact e3 ha
    · exact e4 ha
  · cases Owner.isClass o
    · simp only [Bool.false_eq_true, if_false, List.append_nil, List.nil_append, List.map_append, List.map_cons, List.map_nil, List.cons_append, List.nodup_cons,
        List.nodup_append, valueParam, refParam, errorsParam, idParam, Var.text, List.mem_append, List.mem_cons, List.not_mem_nil,
        or_false, not_or]
      refine ⟨⟨e1, by decide, by decide⟩, hn, by decide, ?_⟩
      intro a ha b hb e
      subst e
      rcases hb with rfl | rfl
      · exact e2 ha
      · exact e4 ha
    · simp only [if_true, List.append_nil, List.map_append, List.map_cons, List.map_nil, List.cons_append, List.nil_append, List.nodup_cons,
        List.nodup_append, valueParam, refParam, errorsParam, idParam, Var.text, List.mem_append, List.mem_cons, List.not_mem_nil,
        or_false, not_or]
      refine ⟨⟨by decide, e1, by decide, by decide⟩, ⟨e5, by decide, by decide⟩, hn, by decide, ?_⟩
      intro a ha b hb e
      subst e
      rcases hb with rfl | rfl
      · exact e2 ha
      · exact e4 ha

/-- Python imports the module. -/
theorem FromOf.importable {pkg : List Module} (ht : HasTypes g py pkg) (hp : HasParse g py pkg)
    (hr : RootFree g (root py.moduleName)) (hn : ((allNames g).map lower).Nodup) : F.Importable pkg := by
  refine ⟨?_, by rw [h.defs]; exact from_nodup h.facts hn, ?_⟩
  · have e : F.imports = imports := by rw [h.module]
    rw [e]
    refine loads_known h.importsOf hr.builtin hr.library (by rw [List.nil_append, h.defs]; exact from_free hr) ?_
    intro l₁ i l₂ e n hm
    exact h.known_uses ht hp (by rw [e]; simp) _ n hm
  · intro f hf
    rcases h.funcs hf with ⟨hd, hf⟩ | ⟨o, ho, f₁, f₂, ⟨hc⟩, rfl | rfl⟩ | ⟨props, hprops, rfl⟩
    · have : ∀ f ∈ durationFromString.flatMap Item.funcs, (f.params.map fun p => p.var.text).Nodup := by decide +kernel
      exact this f hf
    · exact (hc.params_nodup h.facts).1
    · exact (hc.params_nodup h.facts).2
    · have : ([valueParam, refParam, errorsParam].map fun p => p.var.text).Nodup := by decide
      exact this

/-- The definitions which the functions refer to. -/
theorem FromOf.globs {f : Func} (hf : f ∈ F.funcs) {x : Str}
    (hx : .glob x ∈ f.body.names) : x.head? = some '_' ∧ x.getLast? ≠ some 'y' := by
  have hfrom : ∀ y : Str, (c!"_" ++ y ++ c!"_from").head? = some '_' ∧ (c!"_" ++ y ++ c!"_from").getLast? ≠ some 'y' := by
    intro y
    refine ⟨rfl, ?_⟩
    rw [List.getLast?_append]
    simp
  have hu : ∀ {u}, .glob x ∈ fromNames py u → x.head? = some '_' ∧ x.getLast? ≠ some 'y' := by
    intro u hu
    rcases fromNames_cases hu with ⟨p, e⟩ | ⟨rfl, e⟩ | ⟨n, rfl, e | e⟩
    · cases e
    · cases e; decide
    · cases e
    · cases e
      exact hfrom _
  have hpr : ∀ {ctx : Ctx} {obj ps n c}, parseProps ctx obj ps n = .ok c → ctx.py = py →
      (∀ c l, ctx.registry c = .ok l → ∀ x ∈ l, Plain x) → .glob x ∈ c.names → x.head? = some '_' ∧ x.getLast? ≠ some 'y' := by
    intro ctx obj ps n c hc hpy hreg hx
    rcases (props_fine (ok := fun _ => True) hc).names hreg _ hx with hx | ⟨p, hp', u, hu', hx⟩
    · cases hx
    · rw [hpy] at hx
      exact hu hx
  rcases h.funcs hf with ⟨hd, hf⟩ | ⟨o, ho, f₁, f₂, ⟨hc⟩, rfl | rfl⟩ | ⟨props, hprops, rfl⟩
  · have key : ∀ f ∈ durationFromString.flatMap Item.funcs, ∀ n ∈ f.body.names,
        n.among [datetime, .glob c!"_DURATION_RE"] = true := by decide +kernel
    rcases among_plain (key f hf _ hx) with hn | hn
    · cases hn
    · simp only [List.mem_cons, List.not_mem_nil, or_false] at hn
      rcases hn with e | e
      · cases e
      · cases e; decide
  · rw [hc.funcs.first] at hx
    simp [Code.names, errors, v, b] at hx
    refine hpr hc.funcs.hprops rfl ?_ hx
    intro c l hc x hx
    dsimp only at hc
    split at hc
    · obtain ⟨y, hy, hc⟩ := ok_bind hc
      cases hc
      obtain rfl := List.mem_singleton.1 hx
      exact .var _
    · cases hc
  · rw [hc.funcs.second] at hx
    cases hcls : Owner.isClass o <;> simp [Code.names, leaveIf, hcls, errors, v] at hx <;> (subst hx; exact hfrom _)
  · have hx : .glob x ∈ (graphBody g py props).names := by
      simpa [graphFunc, Code.names, leaveIf, errors, v, b] using hx
    rcases (graphBody_names (props_fine (ok := fun _ => True) hprops).isOpen).1 hx with ⟨c, hc, hx | hx⟩ | hx | hx | hx
    · rcases alloc_names py c _ hx with hx | hx
      · cases hx
      · cases e : c.idPattern <;> simp [allocNames, e, collections, re, lib] at hx
    · rcases instance_names c _ _ hx with hx | hx
      · cases hx
      · cases hx
        exact hfrom _
    · unfold pause at hx
      split at hx <;> simp [leaveIf, Code.names, errors, v] at hx
    · refine hpr hprops rfl ?_ hx
      intro c l hc x hx
      obtain ⟨y, hy, hc⟩ := ok_bind hc
      cases hc
      obtain rfl := List.mem_singleton.1 hx
      exact .var _
    · simp [errors, v] at hx

/-- No execution of a function looks up a wrong name. -/
theorem FromOf.clean {pkg : List Module} (hp : HasParse g py pkg) (hr : RootFree g (root py.moduleName)) :
    ∀ f ∈ F.funcs, f.Clean pkg F := by
  intro f hf
  refine clean_of ?_ ?_
  · rcases h.funcs hf with ⟨hd, hf⟩ | ⟨o, ho, f₁, f₂, ⟨hc⟩, rfl | rfl⟩ | ⟨props, hprops, rfl⟩
    · obtain ⟨i, hi, hf⟩ := List.mem_flatMap.1 hf
      exact durationFrom_safe i hi f hf
    · exact hc.funcs.safe₁
    · exact hc.funcs.safe₂
    · exact graphFunc_safe hprops
  · intro n hn
    have e : F.imports = imports := by rw [h.module]
    rw [h.defs, e]
    refine (h.known_body hp hf n hn).found h.importsOf hr.builtin hr.library
      (free_of fun x hx => (h.locals hf x hx).free hr) (from_free hr) ?_
    rintro x rfl hx
    have hg := h.globs hf hn
    exact (h.locals hf x hx).ne hg.1 hg.2

/-! ## Calls -/

omit h in
/-- All the parameters are given by their position. -/
theorem fits_positional {callee : Name} {ks : List Kind} {ps : List Param} (e : ps.map (·.kind) = ks) :
    (Call.mk callee ks []).Fits ps := by
  have hl : ks.length = ps.length := by rw [← e, List.length_map]
  refine ⟨?_, by simp, by simp, ?_⟩
  · simp [hl, e]
  · simp [hl]

omit h in
/-- All the parameters are given by their names. -/
theorem fits_keywords {callee : Name} {ps : List Param} (hn : (ps.map fun p => p.var.text).Nodup) :
    (Call.mk callee [] (ps.map fun p => (p.var.text, p.kind))).Fits ps := by
  refine ⟨by simp, ?_, ?_, ?_⟩
  · simpa [List.map_map, Function.comp_def] using hn
  · intro k hk
    obtain ⟨p, hp, rfl⟩ := List.mem_map.1 hk
    exact ⟨p, by simpa using hp, rfl, rfl⟩
  · intro p hp
    refine .inr ?_
    simp only [List.map_map, Function.comp_def]
    exact List.mem_map.2 ⟨p, by simpa using hp, rfl⟩

omit h in
/-- The functions for the placeholders are there, once. -/
def FindsParse (g : Graph) (py : Py) (pkg : List Module) (M : Module) : Prop :=
  ∀ o ∈ definitionOrder g, callee? pkg M (.member (parsePath py) (c!"placeholder_" ++ lower (ownerName g o))) =
    some (.func (pholder g py o))

omit h in
theorem ParseOf.finds {P : Module} (h : ParseOf g py P) (hn : ((allNames g).map lower).Nodup) (T : Module)
    (ht : T.path = py.moduleName) (rest : List Module) (M : Module) : FindsParse g py (T :: P :: rest) M := by
  intro o ho
  have hne : (T.path == parsePath py) = false := by
    rw [ht, parsePath]
    simp
  have : (T :: P :: rest).find? (fun N => N.path == parsePath py) = some P := by
    rw [List.find?_cons_of_neg (by simp [hne]), List.find?_cons_of_pos]
    simp [h.module]
  simp only [callee?, this, Option.bind_some]
  rw [← pholder_name g py o]
  refine definition_of (M := P) (i := .func (pholder g py o)) (by rw [h.defs]; exact parse_nodup hn) ?_
  rw [h.module]
  exact List.mem_append_right _ (List.mem_map.2 ⟨o, mem_parseOrder.2 ho, rfl⟩)

omit h in
theorem CompFuncs.kinds {o : Owner} {f₁ f₂ : Func} (hc : CompFuncs g py o f₁ f₂) {refs : List Str}
    (hr : referencesOf g o = .ok refs) : f₁.params.map (·.kind) =
      .value :: refs.map .registry ++ [.ref, .target (ownerName g o), .errors] := by
  have hrefs := hc.funcs.hrefs
  rw [hr] at hrefs
  cases hrefs
  have : hc.params.map (·.kind) = hc.refs.map .registry := mapM_map_eq hc.funcs.hparams fun r _ p hp => by
    unfold registryParamOf at hp
    obtain ⟨x, _, hp⟩ := ok_bind hp
    cases hp
    rfl
  rw [hc.params₁]
  simp [this, valueParam, refParam, errorsParam]

theorem FromOf.calls {pkg : List Module} (hp : FindsParse g py pkg F) (hn : ((allNames g).map lower).Nodup) :
    F.CallsFit pkg := by
  have hnd : (F.items.map Item.name).Nodup := by rw [h.defs]; exact from_nodup h.facts hn
  have hfind : ∀ {o}, o ∈ compOrder g → ∃ f₁ f₂, Nonempty (CompFuncs g py o f₁ f₂) ∧
      callee? pkg F (.glob (c!"_" ++ lower (ownerName g o) ++ c!"_from")) = some (.func f₁) := by
    intro o ho
    obtain ⟨f₁, f₂, ⟨hc⟩, h1, _⟩ := h.comp ho
    refine ⟨f₁, f₂, ⟨hc⟩, ?_⟩
    have := definition_of hnd h1
    have e : f₁.name = c!"_" ++ lower (ownerName g o) ++ c!"_from" := by rw [hc.funcs.first]
    rw [← e]
    exact this
  have hpos : ∀ {o refs}, o ∈ compOrder g → referencesOf g o = .ok refs → ∃ i ps,
      callee? pkg F (.glob (c!"_" ++ lower (ownerName g o) ++ c!"_from")) = some i ∧ i.callParams = some ps ∧
      (Call.mk (.glob (c!"_" ++ lower (ownerName g o) ++ c!"_from"))
        (.value :: refs.map .registry ++ [.ref, .target (ownerName g o), .errors]) []).Fits ps := by
    intro o refs ho hr
    obtain ⟨f₁, f₂, ⟨hc⟩, e⟩ := hfind ho
    exact ⟨_, _, e, rfl, fits_positional (hc.kinds hr)⟩
  have hprops : ∀ {ctx : Ctx} {obj n c} {o : Owner}, parseProps ctx obj (ownerProps g o) n = .ok c → ctx.py = py → ctx.graph = g →
      ∀ a ∈ c.calls, ∃ i ps, callee? pkg F a.callee = some i ∧ i.callParams = some ps ∧ a.Fits ps := by
    intro ctx obj n c o hc hpy hg a ha
    obtain ⟨p, hp', u, hu, hcall⟩ := (props_fine (ok := fun _ => True) hc).calls a ha
    have hocc := occurs_prop hp' hu
    rw [hpy, hg] at hcall
    cases hcall with
    | duration =>
      have hd : needs g .duration = true := (needs_ty h.facts.named (by simp) (by simp) (by simp)).2 ⟨_, hocc, rfl⟩
      have hi : ∃ i ∈ durationFromString, i.name = c!"_duration_from_string" ∧
          i.callParams = some [{ var := .fixed c!"text" }] := ⟨_, .tail _ (.head _), rfl, rfl⟩
      obtain ⟨i, hi, e1, e2⟩ := hi
      refine ⟨i, _, ?_, e2, fits_positional rfl⟩
      have := definition_of (i := i) hnd (by rw [h.module]; simp [hd, hi])
      rw [e1] at this
      exact this
    | placeholder name =>
      have ho := comp_order (embed_comp (h.facts.resolves.2 name hocc))
      exact ⟨_, _, hp _ ho, rfl, fits_positional rfl⟩
    | parse name refs hr => exact hpos (embed_comp (h.facts.resolves.2 name hocc)) hr
  intro f hf a ha
  rcases h.funcs hf with ⟨hd, hf⟩ | ⟨o, ho, f₁, f₂, ⟨hc⟩, rfl | rfl⟩ | ⟨props, hprops', rfl⟩
  · have key : ∀ f ∈ durationFromString.flatMap Item.funcs, f.body.calls = [] := by decide +kernel
    rw [key f hf] at ha
    cases ha
  · rw [hc.funcs.first] at ha
    exact hprops hc.funcs.hprops rfl rfl a (by simpa [Code.calls] using ha)
  · rw [hc.funcs.second] at ha
    simp only [Code.calls, leaveIf, List.append_nil, List.mem_cons, List.not_mem_nil, or_false] at ha
    rcases ha with rfl | rfl
    · refine ⟨_, _, hp _ (comp_order ho), rfl, ?_⟩
      cases o with
      | cls n => exact fits_keywords (ps := [idParam]) (by decide)
      | embed n => exact fits_keywords (ps := []) (by decide)
      | graph => exact fits_keywords (ps := []) (by decide)
    · obtain ⟨g₁, g₂, ⟨hc'⟩, h1, _⟩ := h.comp ho
      have hd := definition_of hnd h1
      have e : g₁.name = c!"_" ++ lower (ownerName g o) ++ c!"_from" := by rw [hc'.funcs.first]
      refine ⟨.func g₁, _, by rw [← e]; exact hd, rfl, ?_⟩
      have hpar : hc'.params = hc.params := by
        have h1 := hc.funcs.hparams
        have h2 := hc'.funcs.hparams
        have h3 := hc.funcs.hrefs
        have h4 := hc'.funcs.hrefs
        rw [h3] at h4
        rw [← Except.ok.inj h4, h1] at h2
        exact (Except.ok.inj h2).symm
      have := fits_keywords (callee := .glob (c!"_" ++ lower (ownerName g o) ++ c!"_from")) (hc'.params_nodup h.facts).1
      show Call.Fits _ g₁.params
      rw [hc'.params₁, hpar] at this ⊢
      simpa [valueParam, refParam, errorsParam, Var.text] using this
  · have ha : a = ⟨.member (parsePath py) (c!"placeholder_" ++ lower g.name), [], []⟩ ∨ a ∈ (graphBody g py props).calls := by
      simpa [graphFunc, Code.calls, leaveIf] using ha
    rcases ha with rfl | ha
    · exact ⟨_, _, hp .graph (by simp [mem_order]), rfl, fits_positional rfl⟩
    unfold graphBody parseTail at ha
    rcases calls_append ha with ha | ha
    · obtain ⟨d, hd, ha⟩ := concat_calls ha
      obtain ⟨c, hc, rfl⟩ := List.mem_map.1 hd
      have : a = ⟨.member (parsePath py) (c!"placeholder_" ++ lower c.name), [], [(c!"id", .id)]⟩ := by
        cases e : c.idPattern <;> simpa [allocCode, e, Code.calls, leaveIf] using ha
      subst this
      exact ⟨_, _, hp _ (comp_order (class_comp hc)), rfl, fits_keywords (ps := [idParam]) (by decide)⟩
    rcases calls_append ha with ha | ha
    · unfold pause at ha
      split at ha <;> simp [Code.calls, leaveIf] at ha
    rcases calls_append ha with ha | ha
    · obtain ⟨d, hd, ha⟩ := concat_calls ha
      obtain ⟨c, hc, rfl⟩ := List.mem_map.1 hd
      obtain ⟨refs, e1, e2⟩ := referencesOf_ok g (.cls c.name)
      have er : refsOf g (.cls c.name) = refs := by simp [refsOf, e1]
      rw [er] at ha
      have : a = ⟨.glob (c!"_" ++ lower c.name ++ c!"_from"), .value :: refs.map .registry ++ [.ref, .target c.name, .errors], []⟩ := by
        simpa [instanceCode, Code.calls, leaveIf] using ha
      subst this
      exact hpos (class_comp hc) e1
    rcases calls_append ha with ha | ha
    · exact hprops (o := .graph) hprops' rfl rfl a ha
    · simp [Code.calls, leaveIf] at ha

end

end Mapry.PyCode
