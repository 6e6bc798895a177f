import Verif.CppGenerates

/-!
# The headers which the header with the types includes
-/

namespace Mapry.CppCode

set_option linter.unusedSimpArgs false

open Mapry.TypeGraph Mapry.Naming Mapry.ParseSchema
open Mapry.PyCode (Facts idOf)
open Mapry.GoCode (ok_bind mapM_mem mapM_mem' mapM_cons Resolves needs_ty)

/-- The headers which declare the names in a type, for the header of the optional type. -/
def headersOf (opt : Str) : CTy → List Str
  | .int64 => [c!"cstdint"]
  | .string => [c!"string"]
  | .path boost => [if boost then c!"boost/filesystem/path.hpp" else c!"filesystem"]
  | .tm => [c!"ctime"]
  | .localDays | .localSeconds => [c!"date/date.h"]
  | .timeOfDay => [c!"date/date.h", c!"chrono"]
  | .zone => [c!"date/tz.h"]
  | .nanoseconds => [c!"chrono"]
  | .vector t => c!"vector" :: headersOf opt t
  | .map t => c!"map" :: c!"string" :: headersOf opt t
  | .optional t => opt :: headersOf opt t
  | .ptr t => headersOf opt t
  | .owner _ => [c!"memory"]
  | _ => []

/-- The headers for the outermost part of a type -/
def ownHeaders (boost date : Bool) : Ty → List Str
  | .integer _ => [c!"cstdint"]
  | .string _ => [c!"string"]
  | .path _ => [if boost then c!"boost/filesystem/path.hpp" else c!"filesystem"]
  | .date _ | .datetime _ => [if date then c!"date/date.h" else c!"ctime"]
  | .time _ => if date then [c!"date/date.h", c!"chrono"] else [c!"ctime"]
  | .timeZone => [if date then c!"date/tz.h" else c!"string"]
  | .duration => [c!"chrono"]
  | .array .. => [c!"vector"]
  | .map _ => [c!"map", c!"string"]
  | _ => []

variable {g : Graph} {cpp : Cpp} {date boost : Bool} {opt : Str}

theorem pathBoost_of (hb : ∀ b, pathBoost cpp = .ok b → b = boost) (hd : dateH cpp = .ok date) {ty : Ty} {t : CTy}
    (h : typeRepr cpp ty = .ok t) (x : Str) : x ∈ headersOf opt t ↔ ∃ u ∈ parts ty, x ∈ ownHeaders boost date u := by
  induction ty generalizing t with
  | array y lo hi ih =>
    obtain ⟨u, hu, h⟩ := ok_bind h
    cases h
    simp [headersOf, parts, ownHeaders, ih hu]
  | map y ih =>
    obtain ⟨u, hu, h⟩ := ok_bind h
    cases h
    simp [headersOf, parts, ownHeaders, ih hu, or_assoc]
  | cls m | embed m =>
    obtain ⟨u, hu, h⟩ := ok_bind h
    cases h
    simp [headersOf, parts, ownHeaders]
  | path p =>
    obtain ⟨u, hu, h⟩ := ok_bind h
    cases h
    simp [headersOf, parts, ownHeaders, hb u hu]
  | date | time | datetime | timeZone =>
    simp only [typeRepr, hd] at h
    cases h
    cases date <;> simp [headersOf, parts, ownHeaders]
  | boolean | integer | float | string | duration => cases h; simp [headersOf, parts, ownHeaders]

theorem member_headers (hb : ∀ b, pathBoost cpp = .ok b → b = boost) (hd : dateH cpp = .ok date) {p : Property} {f : Field}
    (h : propertyField cpp p = .ok f) (x : Str) :
    x ∈ headersOf opt f.ty ↔ (∃ u ∈ parts p.ty, x ∈ ownHeaders boost date u) ∨ p.optional = true ∧ x = opt := by
  obtain ⟨t, ht, _, hty, _⟩ := propertyField_inv h
  rw [hty, memberType]
  split
  · rename_i ho
    simp only [headersOf, List.mem_cons, pathBoost_of hb hd ht, ho, true_and]
    exact or_comm
  · rename_i ho
    simp only [pathBoost_of hb hd ht, ho, false_and, or_false, Bool.false_eq_true]

theorem members_headers (hb : ∀ b, pathBoost cpp = .ok b → b = boost) (hd : dateH cpp = .ok date) {ps : List Property} {fs : List Field}
    (h : ps.mapM (propertyField cpp) = .ok fs) (x : Str) :
    (∃ f ∈ fs, x ∈ headersOf opt f.ty) ↔
      ∃ p ∈ ps, (∃ u ∈ parts p.ty, x ∈ ownHeaders boost date u) ∨ p.optional = true ∧ x = opt := by
  constructor
  · rintro ⟨f, hf, hx⟩
    obtain ⟨p, hp, e⟩ := mapM_mem h hf
    exact ⟨p, hp, (member_headers hb hd e x).1 hx⟩
  · rintro ⟨p, hp, hx⟩
    obtain ⟨f, hf, e⟩ := mapM_mem' h hp
    exact ⟨f, hf, (member_headers hb hd e x).2 hx⟩

/-- The property of the graph, of a class or of an embed -/
def HasProperty (g : Graph) (p : Property) : Prop :=
  p ∈ g.properties ∨ (∃ c ∈ g.classes, p ∈ c.properties) ∨ ∃ e ∈ g.embeds, p ∈ e.properties

theorem occurs_property {u : Ty} : Occurs g u ↔ ∃ p, HasProperty g p ∧ u ∈ parts p.ty := by
  constructor
  · rintro (⟨p, h1, h2⟩ | ⟨c, p, h0, h1, h2⟩ | ⟨e, p, h0, h1, h2⟩)
    · exact ⟨p, .inl h1, h2⟩
    · exact ⟨p, .inr (.inl ⟨c, h0, h1⟩), h2⟩
    · exact ⟨p, .inr (.inr ⟨e, h0, h1⟩), h2⟩
  · rintro ⟨p, h1 | ⟨c, h0, h1⟩ | ⟨e, h0, h1⟩, h2⟩
    · exact .graph p h1 h2
    · exact .cls c p h0 h1 h2
    · exact .embed e p h0 h1 h2

theorem hasOptional_iff : hasOptional g = true ↔ ∃ p, HasProperty g p ∧ p.optional = true := by
  simp only [hasOptional, Bool.or_eq_true, List.any_eq_true]
  constructor
  · rintro ((⟨p, h1, h2⟩ | ⟨c, h0, p, h1, h2⟩) | ⟨e, h0, p, h1, h2⟩)
    · exact ⟨p, .inl h1, h2⟩
    · exact ⟨p, .inr (.inl ⟨c, h0, h1⟩), h2⟩
    · exact ⟨p, .inr (.inr ⟨e, h0, h1⟩), h2⟩
  · rintro ⟨p, h1 | ⟨c, h0, h1⟩ | ⟨e, h0, h1⟩, h2⟩
    · exact .inl (.inl ⟨p, h1, h2⟩)
    · exact .inl (.inr ⟨c, h0, p, h1, h2⟩)
    · exact .inr ⟨e, h0, p, h1, h2⟩

/-- The headers which the structures need -/
theorem needed_headers (hb : ∀ b, pathBoost cpp = .ok b → b = boost) (hd : dateH cpp = .ok date) {H : TypesHeader}
    (h : typesHeader g cpp = .ok H) (x : Str) : (∃ s ∈ H.structs, ∃ f ∈ s.fields, x ∈ headersOf opt f.ty) ↔
      (∃ u, Occurs g u ∧ x ∈ ownHeaders boost date u) ∨ (∃ p, HasProperty g p ∧ p.optional = true) ∧ x = opt ∨
        g.classes ≠ [] ∧ x ∈ [c!"map", c!"string", c!"memory"] := by
  obtain ⟨es, cs, gs, _, _, hes, hcs, hgs, e⟩ := typesHeader_inv h
  obtain ⟨_, fs, hfs, hgf⟩ := graphStruct_inv hgs
  have key : ∀ p, HasProperty g p → ((∃ u ∈ parts p.ty, x ∈ ownHeaders boost date u) ∨ p.optional = true ∧ x = opt) →
      (∃ u, Occurs g u ∧ x ∈ ownHeaders boost date u) ∨ (∃ p, HasProperty g p ∧ p.optional = true) ∧ x = opt := by
    rintro p hp (⟨u, hu, hx⟩ | ⟨ho, hx⟩)
    · exact .inl ⟨u, occurs_property.2 ⟨p, hp, hu⟩, hx⟩
    · exact .inr ⟨⟨p, hp, ho⟩, hx⟩
  have back : ∀ p, HasProperty g p → ((∃ u ∈ parts p.ty, x ∈ ownHeaders boost date u) ∨ p.optional = true ∧ x = opt) →
      ∃ s ∈ H.structs, ∃ f ∈ s.fields, x ∈ headersOf opt f.ty := by
    rintro p (hp | ⟨c, hc, hp⟩ | ⟨e', he, hp⟩) hx
    · obtain ⟨f, hf, hx⟩ := (members_headers hb hd hfs x).2 ⟨p, hp, hx⟩
      exact ⟨gs, by simp [e], f, by simp [hgf, hf], hx⟩
    · obtain ⟨s, hs, h1⟩ := mapM_mem' hcs hc
      obtain ⟨_, fs', h2, h3⟩ := classStruct_inv h1
      obtain ⟨f, hf, hx⟩ := (members_headers hb hd h2 x).2 ⟨p, hp, hx⟩
      exact ⟨s, by simp [e, hs], f, by simp [h3, hf], hx⟩
    · obtain ⟨s, hs, h1⟩ := mapM_mem' hes he
      obtain ⟨_, h2⟩ := embedStruct_inv h1
      obtain ⟨f, hf, hx⟩ := (members_headers hb hd h2 x).2 ⟨p, hp, hx⟩
      exact ⟨s, by simp [e, hs], f, hf, hx⟩
  constructor
  · rintro ⟨s, hs, f, hf, hx⟩
    rw [e] at hs
    simp only [List.mem_append, List.mem_singleton] at hs
    rcases hs with (hs | hs) | rfl
    · obtain ⟨e', he, h1⟩ := mapM_mem hes hs
      obtain ⟨_, h2⟩ := embedStruct_inv h1
      obtain ⟨p, hp, hx⟩ := (members_headers hb hd h2 x).1 ⟨f, hf, hx⟩
      exact (key p (.inr (.inr ⟨e', he, hp⟩)) hx).imp id .inl
    · obtain ⟨c, hc, h1⟩ := mapM_mem hcs hs
      obtain ⟨_, fs', h2, h3⟩ := classStruct_inv h1
      rw [h3] at hf
      rcases List.mem_cons.1 hf with rfl | hf
      · refine .inr (.inr ⟨List.ne_nil_of_mem hc, ?_⟩)
        simp only [headersOf, List.mem_singleton] at hx
        simp [hx]
      · obtain ⟨p, hp, hx⟩ := (members_headers hb hd h2 x).1 ⟨f, hf, hx⟩
        exact (key p (.inr (.inl ⟨c, hc, hp⟩)) hx).imp id .inl
    · rw [hgf] at hf
      rcases List.mem_append.1 hf with hf | hf
      · obtain ⟨p, hp, hx⟩ := (members_headers hb hd hfs x).1 ⟨f, hf, hx⟩
        exact (key p (.inl hp) hx).imp id .inl
      · obtain ⟨c, hc, rfl⟩ := List.mem_map.1 hf
        refine .inr (.inr ⟨List.ne_nil_of_mem hc, ?_⟩)
        simpa [registryCell, headersOf] using hx
  · rintro (⟨u, hu, hx⟩ | ⟨⟨p, hp, ho⟩, hx⟩ | ⟨hc, hx⟩)
    · obtain ⟨p, hp, hu⟩ := occurs_property.1 hu
      exact back p hp (.inl ⟨u, hu, hx⟩)
    · exact back p hp (.inr ⟨ho, hx⟩)
    · obtain ⟨c, cs', hcc⟩ := List.exists_cons_of_ne_nil hc
      refine ⟨gs, by simp [e], registryCell c, ?_, by simpa [registryCell, headersOf] using hx⟩
      rw [hgf]
      exact List.mem_append_right _ (List.mem_map.2 ⟨c, by simp [hcc], rfl⟩)

/-- The header of the optional type -/
def optionalName (cpp : Cpp) : Str :=
  if cpp.optionalAs = c!"boost::optional" then c!"boost/optional.hpp"
  else if cpp.optionalAs = c!"std::optional" then c!"optional" else c!"optional.hpp"

theorem optionalHeader_inv {l : List Str} (h : optionalHeader g cpp = .ok l) (x : Str) :
    x ∈ l ↔ hasOptional g = true ∧ x = optionalName cpp := by
  unfold optionalHeader at h
  split at h
  · rename_i ho
    unfold optionalName
    split at h
    · cases h; simp [ho, *]
    · split at h
      · cases h; simp [ho, *]
      · split at h
        · cases h; simp [ho, *]
        · cases h
  · rename_i ho
    cases h
    simp [ho]

theorem pathHeader_inv (hb : ∀ b, pathBoost cpp = .ok b → b = boost) {l : List Str} (h : pathHeader g cpp = .ok l) (x : Str) :
    x ∈ l ↔ needs g .path = true ∧ x = (if boost then c!"boost/filesystem/path.hpp" else c!"filesystem") := by
  unfold pathHeader at h
  split at h
  · rename_i ho
    obtain ⟨b, hb', h⟩ := ok_bind h
    cases hb b hb'
    cases h
    cases boost <;> simp [ho]
  · rename_i ho
    cases h
    simp [ho]

/-- The headers of the parts of the types -/
theorem own_headers (hn : Named g) (x : Str) :
    (∃ u, Occurs g u ∧ x ∈ ownHeaders boost date u ∧ ¬ (tyTag u = .map ∧ x = c!"string")) ↔
      needs g .integer = true ∧ x = c!"cstdint" ∨ needs g .string = true ∧ x = c!"string" ∨
      needs g .path = true ∧ x = (if boost then c!"boost/filesystem/path.hpp" else c!"filesystem") ∨
      (needs g .date = true ∧ x = (if date then c!"date/date.h" else c!"ctime")) ∨
      (needs g .datetime = true ∧ x = (if date then c!"date/date.h" else c!"ctime")) ∨
      (needs g .time = true ∧ x ∈ if date then [c!"date/date.h", c!"chrono"] else [c!"ctime"]) ∨
      needs g .timeZone = true ∧ x = (if date then c!"date/tz.h" else c!"string") ∨
      needs g .duration = true ∧ x = c!"chrono" ∨ needs g .array = true ∧ x = c!"vector" ∨ needs g .map = true ∧ x = c!"map" := by
  have tag : ∀ q : Traverse.Tag, q ≠ .graph → q ≠ .cls → q ≠ .embed → (needs g q = true ↔ ∃ t, Occurs g t ∧ tyTag t = q) :=
    fun q h1 h2 h3 => needs_ty hn h1 h2 h3
  constructor
  · rintro ⟨u, hu, hx, hm⟩
    have ht : ∀ q, tyTag u = q → q ≠ .graph → q ≠ .cls → q ≠ .embed → needs g q = true :=
      fun q e h1 h2 h3 => (tag q h1 h2 h3).2 ⟨u, hu, e⟩
    cases u with
    | boolean | float | cls | embed => cases hx
    | integer _ => exact .inl ⟨ht _ rfl nofun nofun nofun, List.mem_singleton.1 hx⟩
    | string _ => exact .inr (.inl ⟨ht _ rfl nofun nofun nofun, List.mem_singleton.1 hx⟩)
    | path _ => exact .inr (.inr (.inl ⟨ht _ rfl nofun nofun nofun, List.mem_singleton.1 hx⟩))
    | date _ => exact .inr (.inr (.inr (.inl ⟨ht _ rfl nofun nofun nofun, List.mem_singleton.1 hx⟩)))
    | datetime _ => exact .inr (.inr (.inr (.inr (.inl ⟨ht _ rfl nofun nofun nofun, List.mem_singleton.1 hx⟩))))
    | time _ => exact .inr (.inr (.inr (.inr (.inr (.inl ⟨ht _ rfl nofun nofun nofun, hx⟩)))))
    | timeZone => exact .inr (.inr (.inr (.inr (.inr (.inr (.inl ⟨ht _ rfl nofun nofun nofun, List.mem_singleton.1 hx⟩))))))
    | duration =>
      exact .inr (.inr (.inr (.inr (.inr (.inr (.inr (.inl ⟨ht _ rfl nofun nofun nofun, List.mem_singleton.1 hx⟩)))))))
    | array _ _ _ =>
      exact .inr (.inr (.inr (.inr (.inr (.inr (.inr (.inr (.inl ⟨ht _ rfl nofun nofun nofun, List.mem_singleton.1 hx⟩))))))))
    | map y =>
      refine .inr (.inr (.inr (.inr (.inr (.inr (.inr (.inr (.inr ⟨ht _ rfl nofun nofun nofun, ?_⟩))))))))
      rcases List.mem_cons.1 hx with h | h
      · exact h
      · exact absurd ⟨rfl, List.mem_singleton.1 h⟩ hm
  · have get : ∀ q, needs g q = true → q ≠ .graph → q ≠ .cls → q ≠ .embed → ∃ t, Occurs g t ∧ tyTag t = q :=
      fun q e h1 h2 h3 => (tag q h1 h2 h3).1 e
    have no : ∀ {u : Ty}, tyTag u ≠ .map → ¬ (tyTag u = .map ∧ x = c!"string") := fun h h' => h h'.1
    rintro (⟨h1, h2⟩ | ⟨h1, h2⟩ | ⟨h1, h2⟩ | ⟨h1, h2⟩ | ⟨h1, h2⟩ | ⟨h1, h2⟩ | ⟨h1, h2⟩ | ⟨h1, h2⟩ | ⟨h1, h2⟩ | ⟨h1, h2⟩) <;>
      obtain ⟨t, ht, e⟩ := get _ h1 nofun nofun nofun <;> cases t <;> cases e
    · exact ⟨_, ht, List.mem_singleton.2 h2, no nofun⟩
    · exact ⟨_, ht, List.mem_singleton.2 h2, no nofun⟩
    · exact ⟨_, ht, List.mem_singleton.2 h2, no nofun⟩
    · exact ⟨_, ht, List.mem_singleton.2 h2, no nofun⟩
    · exact ⟨_, ht, List.mem_singleton.2 h2, no nofun⟩
    · exact ⟨_, ht, h2, no nofun⟩
    · exact ⟨_, ht, List.mem_singleton.2 h2, no nofun⟩
    · exact ⟨_, ht, List.mem_singleton.2 h2, no nofun⟩
    · exact ⟨_, ht, List.mem_singleton.2 h2, no nofun⟩
    · exact ⟨_, ht, by rw [h2]; exact List.mem_cons_self .., fun h => absurd (h2.symm.trans h.2) (by decide)⟩

/-- The headers which are included -/
theorem included_headers (hn : Named g) (hb : ∀ b, pathBoost cpp = .ok b → b = boost) (hd : dateH cpp = .ok date) {l : List Str}
    (h : typesIncludes g cpp = .ok l) (x : Str) : x ∈ l ↔
      (∃ u, Occurs g u ∧ x ∈ ownHeaders boost date u ∧ ¬ (tyTag u = .map ∧ x = c!"string")) ∨
        (∃ p, HasProperty g p ∧ p.optional = true) ∧ x = optionalName cpp ∨
        g.classes ≠ [] ∧ x ∈ [c!"map", c!"string", c!"memory"] := by
  unfold typesIncludes at h
  obtain ⟨path, hpath, h⟩ := ok_bind h
  rw [hd] at h
  obtain ⟨d, hd', h⟩ := ok_bind h
  cases hd'
  obtain ⟨o, ho, h⟩ := ok_bind h
  cases h
  have hc : g.classes.length > 0 ↔ g.classes ≠ [] := by
    rw [gt_iff_lt, List.length_pos_iff]
  have hif : ∀ (b : Prop) [Decidable b] (l : List Str), x ∈ (if b then l else []) ↔ b ∧ x ∈ l := by
    intro b _ l; split <;> simp [*]
  rw [own_headers hn]
  simp only [List.mem_append, hif, pathHeader_inv hb hpath, optionalHeader_inv ho, hasOptional_iff, hc, Bool.or_eq_true]
  generalize c!"cstdint" = a1
  generalize c!"string" = a2
  generalize c!"boost/filesystem/path.hpp" = a3
  generalize c!"filesystem" = a4
  generalize c!"date/date.h" = a5
  generalize c!"ctime" = a6
  generalize c!"chrono" = a7
  generalize c!"date/tz.h" = a8
  generalize c!"vector" = a9
  generalize c!"map" = a10
  generalize c!"memory" = a11
  cases date
  · simp only [Bool.false_eq_true, if_false, List.mem_append, hif, Bool.or_eq_true, List.mem_cons, List.not_mem_nil, or_false]
    simp only [or_and_right, and_or_left, or_assoc]
    exact iff_of_eq (by ac_rfl)
  · simp only [if_true, List.mem_append, hif, Bool.or_eq_true, List.mem_cons, List.not_mem_nil, or_false]
    simp only [or_and_right, and_or_left, or_assoc]
    exact iff_of_eq (by ac_rfl)

end Mapry.CppCode
