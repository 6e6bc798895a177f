import Verif.PyTo

/-!
# The names which are no variables
-/

namespace Mapry.PyCode

set_option linter.unusedSimpArgs false

open Mapry.TypeGraph Mapry.Naming Mapry.ParseSchema
open Mapry.GoCode (referencesOf hasPattern mapM_mem mapM_mem' mapM_cons)

theorem root_append (p q : Str) : root (p ++ '.' :: q) = root p := by
  unfold root
  induction p with
  | nil => simp
  | cons c p ih =>
    simp only [List.cons_append, List.takeWhile_cons]
    split
    · rw [ih]
    · rfl

theorem root_parse (py : Py) : root (parsePath py) = root py.moduleName := root_append _ _

/-- The names which the imports bind. -/
def importRoots (imports : List (Origin × Str)) : List Str := imports.map fun i => root i.2

/-- The imports bind different names for different things. -/
structure Apart (imports : List (Origin × Str)) : Prop where
  builtin : ∀ x ∈ builtins, x ∉ importRoots imports
  origin : ∀ i ∈ imports, ∀ j ∈ imports, root i.2 = root j.2 → i.1 = j.1

theorem mem_roots {imports : List (Origin × Str)} {o : Origin} {x : Str} :
    (o, x) ∈ imports.map (fun i => (i.1, root i.2)) ↔ ∃ p, (o, p) ∈ imports ∧ root p = x := by
  simp only [List.mem_map, Prod.mk.injEq, Prod.exists]
  constructor
  · rintro ⟨a, p, h, rfl, rfl⟩
    exact ⟨p, h, rfl⟩
  · rintro ⟨p, h, rfl⟩
    exact ⟨_, p, h, rfl, rfl⟩

/-- A name of an imported module is found. -/
theorem find_imported {imports : List (Origin × Str)} (ha : Apart imports) {locals defined : List Str} {o : Origin} {p : Str}
    (hp : (o, p) ∈ imports) (h1 : root p ∉ locals) (h2 : root p ∉ defined) :
    find imports locals defined (root p) = some (.imported o) := by
  have h3 : (o, root p) ∈ imports.map (fun i => (i.1, root i.2)) := mem_roots.2 ⟨p, hp, rfl⟩
  have h4 : ∀ o', (o', root p) ∈ imports.map (fun i => (i.1, root i.2)) → o' = o := by
    intro o' h
    obtain ⟨q, hq, e⟩ := mem_roots.1 h
    exact ha.origin _ hq _ hp e
  unfold find
  rw [if_neg h1, if_neg h2]
  cases o with
  | library =>
    rw [if_pos h3, if_neg]
    intro h
    cases h4 _ h
  | package =>
    rw [if_neg, if_pos h3]
    intro h
    cases h4 _ h

theorem find_builtin {imports : List (Origin × Str)} (ha : Apart imports) {locals defined : List Str} {x : Str}
    (hx : x ∈ builtins) (h1 : x ∉ locals) (h2 : x ∉ defined) : find imports locals defined x = some .builtin := by
  have h3 : ∀ o, (o, x) ∉ imports.map (fun i => (i.1, root i.2)) := by
    intro o h
    obtain ⟨q, hq, e⟩ := mem_roots.1 h
    exact ha.builtin x hx (List.mem_map.2 ⟨_, hq, e⟩)
  unfold find
  rw [if_neg h1, if_neg h2, if_neg (h3 _), if_neg (h3 _), if_pos hx]

theorem find_own {imports : List (Origin × Str)} {locals defined : List Str} {x : Str} (h1 : x ∉ locals)
    (h2 : x ∈ defined) : find imports locals defined x = some .own := by
  unfold find
  rw [if_neg h1, if_pos h2]

section
variable {pkg : List Module} {imports : List (Origin × Str)} {locals defined : List Str}

theorem found_builtin (ha : Apart imports) {x : Str} (hx : x ∈ builtins) (h1 : x ∉ locals) (h2 : x ∉ defined) :
    Found pkg imports locals defined (b x) :=
  ⟨find_builtin ha hx h1 h2, by intro r hr; simp [b, Name.needs] at hr, by intro p y e; cases e⟩

theorem found_lib (ha : Apart imports) {p : Str} (hp : (.library, p) ∈ imports) (h1 : root p ∉ locals)
    (h2 : root p ∉ defined) : Found pkg imports locals defined (lib p) := by
  refine ⟨find_imported ha hp h1 h2, ?_, by intro p y e; cases e⟩
  intro r hr
  obtain rfl := List.mem_singleton.1 hr
  exact ⟨_, hp, rfl, .inl rfl⟩

theorem found_member (ha : Apart imports) {p y : Str} (hp : (.package, p) ∈ imports) (h1 : root p ∉ locals)
    (h2 : root p ∉ defined) (he : ∃ M ∈ pkg, M.path = p ∧ ∃ i ∈ M.items, i.name = y) :
    Found pkg imports locals defined (.member p y) := by
  refine ⟨find_imported ha hp h1 h2, ?_, ?_⟩
  · intro r hr
    obtain rfl := List.mem_singleton.1 hr
    exact ⟨_, hp, rfl, .inl rfl⟩
  · intro p' y' e
    cases e
    exact he

theorem found_glob {x : Str} (h1 : x ∉ locals) (h2 : x ∈ defined) : Found pkg imports locals defined (.glob x) :=
  ⟨find_own h1 h2, by intro r hr; simp [Name.needs] at hr, by intro p y e; cases e⟩

end

/-- A function whose names are found runs without a wrong lookup. -/
theorem clean_of {f : Func} {pkg : List Module} {M : Module}
    (hs : f.Safe (Found pkg M.imports f.locals (M.items.map Item.name)))
    (hn : All (Static (Found pkg M.imports f.locals (M.items.map Item.name))) f.body) : f.Clean pkg M :=
  fun o hr => (hs hn _ (fun _ h => h) o hr).1

/-- The libraries. -/
def libRoots : List Str :=
  [c!"collections", c!"datetime", c!"pathlib", c!"pytz", c!"re", c!"typing"]

def libPaths : List Str :=
  [c!"collections", c!"datetime", c!"pathlib", c!"pytz", c!"pytz.exceptions", c!"re", c!"typing"]

theorem root_lib : ∀ p ∈ libPaths, root p ∈ libRoots := by decide

theorem lib_not_builtin : ∀ x ∈ libRoots, x ∉ builtins := by decide

/-- The texts of builtins and libraries have no underscore. -/
theorem builtin_plain : ∀ x ∈ builtins, '_' ∉ x := by decide
theorem lib_plain : ∀ x ∈ libRoots, '_' ∉ x := by decide
theorem builtin_noDigit : ∀ x ∈ builtins, NoDigit x := by decide
theorem lib_noDigit : ∀ x ∈ libRoots, NoDigit x := by decide

/-- The imports are libraries and modules of the package with this root. -/
structure ImportsOf (r : Str) (imports : List (Origin × Str)) : Prop where
  libs : ∀ p, (.library, p) ∈ imports → p ∈ libPaths
  pkgs : ∀ p, (.package, p) ∈ imports → root p = r

theorem ImportsOf.apart {r imports} (h : ImportsOf r imports) (h1 : r ∉ builtins) (h2 : r ∉ libRoots) : Apart imports := by
  constructor
  · intro x hx hm
    obtain ⟨⟨o, p⟩, hp, e⟩ := List.mem_map.1 hm
    cases o with
    | library => exact lib_not_builtin x (e ▸ root_lib p (h.libs p hp)) hx
    | package => exact h1 ((h.pkgs p hp).symm.trans e ▸ hx)
  · rintro ⟨o, p⟩ hp ⟨o', p'⟩ hp' e
    cases o with
    | library =>
      cases o' with
      | library => rfl
      | package => exact absurd ((h.pkgs p' hp') ▸ e ▸ root_lib p (h.libs p hp)) h2
    | package =>
      cases o' with
      | library => exact absurd ((h.pkgs p hp) ▸ e.symm ▸ root_lib p' (h.libs p' hp')) h2
      | package => rfl

/-- Without modules of the package. -/
theorem apart_of_libs {imports : List (Origin × Str)} (h : ∀ i ∈ imports, i.1 = .library ∧ i.2 ∈ libPaths) : Apart imports := by
  constructor
  · intro x hx hm
    obtain ⟨⟨o, p⟩, hp, e⟩ := List.mem_map.1 hm
    exact lib_not_builtin x (e ▸ root_lib p (h _ hp).2) hx
  · intro i hi j hj _
    rw [(h i hi).1, (h j hj).1]

/-! ## The package -/

/-- The modules of the package. -/
structure Pkg (g : Graph) (py : Py) (T P F O : Module) : Prop where
  types : typesModule g py = .ok T
  parse : parseModule g py = .ok P
  from_ : fromModule g py = .ok F
  to : toModule g py = .ok O

theorem package_inv {g py pkg} (h : package g py = .ok pkg) : ∃ T P F O, Pkg g py T P F O ∧ pkg = [T, P, F, O] := by
  unfold package at h
  obtain ⟨T, h1, h⟩ := ok_bind h
  obtain ⟨P, h2, h⟩ := ok_bind h
  obtain ⟨F, h3, h⟩ := ok_bind h
  obtain ⟨O, h4, h⟩ := ok_bind h
  cases h
  exact ⟨T, P, F, O, ⟨h1, h2, h3, h4⟩, rfl⟩

/-- The names of the classes and the embeds. -/
def defNames (g : Graph) : List Str := g.classes.map (·.name) ++ g.embeds.map (·.name)

/-- The names of all the composites. -/
def allNames (g : Graph) : List Str := defNames g ++ [g.name]

/-- A composite with its identifier. -/
def IsId (g : Graph) (x : Str) : Prop := ∃ n ∈ allNames g, asComposite n = .ok x

end Mapry.PyCode
