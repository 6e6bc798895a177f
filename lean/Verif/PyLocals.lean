import Verif.PyTypesModule

/-!
# The variables in the generated functions
-/

namespace Mapry.PyCode

set_option linter.unusedSimpArgs false

open Mapry.TypeGraph Mapry.Naming Mapry.ParseSchema
open Mapry.GoCode (referencesOf hasPattern mapM_mem mapM_mem' mapM_cons)

/-- The bases of the temporary variables of the parsers. -/
def fromBases : List Str := [c!"i", c!"item", c!"key", c!"target", c!"target_item", c!"value"]

/-- A temporary variable of the parsers. -/
def FromTemp (x : Var) : Prop := x = .fixed c!"err" ∨ ∃ base ∈ fromBases, ∃ k, x = .temp base k

theorem fromTemp {base : Str} {k : Nat} (h : base ∈ fromBases) : FromTemp (.temp base k) := .inr ⟨base, h, k, rfl⟩

theorem bounds_sets {ref bd value body} : (checkBounds ref bd value body).sets = body.sets := by
  unfold checkBounds
  split <;> simp [Code.sets, report]

theorem pattern_sets {ref p value body} : (checkPattern ref p value body).sets = body.sets := by
  unfold checkPattern
  split <;> simp [Code.sets, report]

theorem size_sets {ref p value body} : (checkSize ref p value body).sets = body.sets := by
  unfold checkSize
  split <;> simp [Code.sets, report]

theorem expect_sets {value types ref body} : (expect value types ref body).sets = body.sets := by
  simp [expect, Code.sets, report]

theorem parses_bases {ctx : Ctx} {ty value tgt ref n c} (h : Parses ctx ty value tgt ref n c) :
    ∀ x ∈ c.sets, x ∈ tgt.sets ∨ FromTemp x := by
  induction h with
  | boolean | integer | float | string | pathStr | pathLib | date | time | datetime | zoneStr | zonePytz =>
    simp +contextual [expect_sets, bounds_sets, pattern_sets, parseDateTime, store, Code.sets, report]
  | duration value tgt ref n =>
    intro x hx
    simp only [expect_sets, store, Code.sets, List.append_nil, List.mem_append, List.mem_singleton] at hx
    exact hx.imp id .inl
  | array x lo hi value tgt ref n item _ ih =>
    intro y hy
    simp only [arrayCode, expect_sets, size_sets, Code.sets, store, List.mem_append, List.append_nil, List.mem_cons, List.not_mem_nil,
      or_false] at hy
    rcases hy with rfl | ((rfl | rfl) | rfl | hy) | hy
    · exact .inr (fromTemp (by decide))
    · exact .inr (fromTemp (by decide))
    · exact .inr (fromTemp (by decide))
    · exact .inr (fromTemp (by decide))
    · rcases sets_append hy with hy | hy
      · rcases ih y hy with h | h
        · obtain rfl := List.mem_singleton.1 h
          exact .inr (fromTemp (by decide))
        · exact .inr h
      · simp [Code.sets] at hy
    · exact .inl hy
  | map x value tgt ref n item _ ih =>
    intro y hy
    simp only [mapCode, expect_sets, Code.sets, store, report, use_append, done_append, List.mem_append, List.append_nil, List.nil_append,
        List.mem_cons, List.not_mem_nil, or_false] at hy
    rcases hy with (rfl | rfl) | ((rfl | rfl) | rfl | hy) | hy
    · exact .inr (fromTemp (by decide))
    · exact .inr (fromTemp (by decide))
    · exact .inr (fromTemp (by decide))
    · exact .inr (fromTemp (by decide))
    · exact .inr (fromTemp (by decide))
    · rcases sets_append hy with hy | hy
      · rcases ih y hy with h | h
        · obtain rfl := List.mem_singleton.1 h
          exact .inr (fromTemp (by decide))
        · exact .inr h
      · simp [Code.sets] at hy
    · exact .inl hy
  | cls c value tgt ref n registry _ =>
    intro y hy
    simp only [expect_sets, Code.sets, store, report, List.mem_append, List.append_nil, List.nil_append, List.mem_cons,
        List.not_mem_nil, or_false] at hy
    rcases hy with rfl | hy
    · exact .inr (fromTemp (by decide))
    · exact .inl hy
  | embed name value tgt ref n refs registries f _ _ _ =>
    intro y hy
    simp only [Code.sets, store, List.mem_append, List.append_nil, List.mem_cons, List.not_mem_nil, or_false] at hy
    rcases hy with rfl | hy
    · exact .inr (fromTemp (by decide))
    · exact .inl hy

theorem props_bases {ctx obj ps n c} (h : parseProps ctx obj ps n = .ok c) : ∀ x ∈ c.binds, FromTemp x := by
  intro x hx
  rcases (binds_iff _ _).1 hx with hx | hx
  · induction ps generalizing n c with
    | nil => cases h; simp [Code.sets] at hx
    | cons p ps ih =>
      unfold parseProps at h
      obtain ⟨⟨c1, m⟩, h1, h⟩ := ok_bind h
      obtain ⟨rest, h2, h⟩ := ok_bind h
      cases h
      rcases sets_append hx with hx | hx
      · obtain ⟨parsing, hp, rfl⟩ := property_inv h1
        simp only [Code.sets, List.mem_append, List.mem_singleton] at hx
        rcases hx with rfl | hx
        · exact fromTemp (by decide)
        · have hx : x ∈ parsing.sets := by cases h : p.optional <;> simpa [h, Code.sets] using hx
          rcases parses_bases hp x hx with h | h
          · simp at h
          · exact h
      · exact ih h2 ((binds_iff _ _).2 (.inl (by simpa [leaveIf, Code.sets] using hx))) (by simpa [leaveIf, Code.sets] using hx)
  · exact .inl ((props_fine (ok := fun _ => True) h).within.drops x hx)

/-! ## The texts of variables and definitions -/

/-- The texts of variables and definitions which do not depend on the schema. -/
def fixedTexts : List Str :=
  [c!"Error", c!"Errors", c!"self", c!"ref", c!"message", c!"cap", c!"id", c!"value", c!"target", c!"errors", c!"err",
   c!"graph", c!"registry_value", c!"instance_value", c!"instance", c!"ordered", c!"_DURATION_RE",
   c!"_duration_from_string", c!"text", c!"match", c!"sign_grp", c!"sign", c!"years_grp", c!"years", c!"months_grp",
   c!"months", c!"weeks_grp", c!"weeks", c!"days_grp", c!"days", c!"hours_grp", c!"hours", c!"minutes_grp", c!"minutes",
   c!"seconds_grp", c!"seconds", c!"fraction_grp", c!"microseconds", c!"stripped", c!"count", c!"order",
   c!"_ZERO_TIMEDELTA", c!"_duration_to_string", c!"duration", c!"parts", c!"absduration", c!"rest", c!"microseconds_str"]

/-- The bases of the temporary variables. -/
def tempBases : List Str :=
  [c!"i", c!"item", c!"key", c!"target", c!"target_item", c!"target_value", c!"value"]

/-- The texts which depend on the name of a composite. -/
def compositeTexts (n : Str) : List Str :=
  [c!"placeholder_" ++ lower n, c!"_" ++ lower n ++ c!"_from", lower n ++ c!"_from", c!"serialize_" ++ lower n]

/-- The texts of variables which depend on a class. -/
def classTexts (c : Class) : List Str :=
  [lower c.plural ++ c!"_registry", c!"target_" ++ lower c.name, c!"target_" ++ lower c.plural, lower c.name ++ c!"_instance"]

/-- The text is not the one of a builtin, a library, a variable or a definition in the generated modules. -/
structure RootFree (g : Graph) (r : Str) : Prop where
  builtin : r ∉ builtins
  library : r ∉ libRoots
  fixed : r ∉ fixedTexts
  temp : ∀ base ∈ tempBases, ∀ n, r ≠ base ++ '_' :: Text.natStr n
  composite : ∀ n ∈ allNames g, r ∉ compositeTexts n
  cls : ∀ c ∈ g.classes, r ∉ classTexts c

/-- A text which contains an underscore is neither a builtin nor a library. -/
theorem builtin_ne {x y : Str} (hx : x ∈ builtins ∨ x ∈ libRoots) (hy : '_' ∈ y) : y ≠ x := by
  rintro rfl
  exact hx.elim (fun h => builtin_plain _ h hy) (fun h => lib_plain _ h hy)

theorem fixed_not_builtin : ∀ x ∈ fixedTexts, x ∉ builtins ∧ x ∉ libRoots := by decide +kernel

end Mapry.PyCode
