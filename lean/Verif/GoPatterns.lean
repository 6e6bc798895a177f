import Verif.GoCode
import Verif.TypeGraphLemmas

/-!
# The enumeration of patterns

The dictionary of the patterns has an identifier for exactly the patterns of the graph, and no two of them share it.
-/

namespace Mapry.GoCode

open Mapry.TypeGraph Mapry.Naming

/-- The pattern is one of a string, a path or the identifiers of a class. -/
def HasPattern (g : Graph) (p : Str) : Prop :=
  (∃ t, Occurs g t ∧ (t = .string (some p) ∨ t = .path (some p))) ∨ ∃ c ∈ g.classes, c.idPattern = some p

def putStep (s : List (Str × Nat) × Nat) (p : Str) : List (Str × Nat) × Nat := (putUid s.1 p s.2, s.2 + 1)

def tyPatterns : Ty → List Str
  | .string (some p) => [p]
  | .path (some p) => [p]
  | .array t _ _ => tyPatterns t
  | .map t => tyPatterns t
  | _ => []

theorem enumerateTy_eq (t : Ty) (s : List (Str × Nat) × Nat) : enumerateTy t s = (tyPatterns t).foldl putStep s := by
  induction t with
  | array t _ _ ih => exact ih
  | map t ih => exact ih
  | string p => cases p <;> rfl
  | path p => cases p <;> rfl
  | _ => rfl

theorem foldl_flatMap' {α β σ : Type} (f : σ → β → σ) (k : α → List β) (l : List α) (s : σ) :
    l.foldl (fun s a => (k a).foldl f s) s = (l.flatMap k).foldl f s := by
  induction l generalizing s with
  | nil => rfl
  | cons a l ih => rw [List.foldl_cons, ih, List.flatMap_cons, List.foldl_append]

def propPatterns (ps : List Property) : List Str := ps.flatMap fun p => tyPatterns p.ty

theorem enumerateProps_eq (ps : List Property) (s : List (Str × Nat) × Nat) :
    enumerateProps ps s = (propPatterns ps).foldl putStep s := by
  unfold enumerateProps propPatterns
  simp only [enumerateTy_eq, foldl_flatMap']

theorem enumerateIds_eq (cs : List Class) (s : List (Str × Nat) × Nat) :
    enumerateIds cs s = (cs.flatMap fun c => c.idPattern.toList).foldl putStep s := by
  rw [← foldl_flatMap']
  unfold enumerateIds
  induction cs generalizing s with
  | nil => rfl
  | cons c cs ih =>
    rw [List.foldl_cons, List.foldl_cons, ih]
    cases c.idPattern <;> rfl

def allPatterns (g : Graph) : List Str :=
  (g.classes.flatMap fun c => c.idPattern.toList) ++ (g.classes.flatMap fun c => propPatterns c.properties) ++
  (g.embeds.flatMap fun e => propPatterns e.properties) ++ propPatterns g.properties

theorem enumeratePatterns_eq (g : Graph) : enumeratePatterns g = ((allPatterns g).foldl putStep ([], 0)).1 := by
  unfold enumeratePatterns allPatterns
  simp only [enumerateProps_eq, enumerateIds_eq, foldl_flatMap', List.foldl_append]

theorem mem_tyPatterns {t : Ty} {p : Str} :
    p ∈ tyPatterns t ↔ ∃ u ∈ parts t, u = .string (some p) ∨ u = .path (some p) := by
  induction t with
  | array t _ _ ih => simp [tyPatterns, parts, ih]
  | map t ih => simp [tyPatterns, parts, ih]
  | string q => cases q <;> simp [tyPatterns, parts, eq_comm]
  | path q => cases q <;> simp [tyPatterns, parts, eq_comm]
  | _ => simp [tyPatterns, parts]

theorem mem_allPatterns {g : Graph} {p : Str} : p ∈ allPatterns g ↔ HasPattern g p := by
  unfold allPatterns HasPattern propPatterns
  simp only [List.mem_append, List.mem_flatMap, mem_tyPatterns, Option.mem_toList]
  constructor
  · rintro (((⟨c, hc, h⟩ | ⟨c, hc, q, hq, u, hu, h⟩) | ⟨e, he, q, hq, u, hu, h⟩) | ⟨q, hq, u, hu, h⟩)
    · exact .inr ⟨c, hc, h⟩
    · exact .inl ⟨u, .cls c q hc hq hu, h⟩
    · exact .inl ⟨u, .embed e q he hq hu, h⟩
    · exact .inl ⟨u, .graph q hq hu, h⟩
  · rintro (⟨u, ho, h⟩ | ⟨c, hc, h⟩)
    · cases ho with
      | graph q hq hu => exact .inr ⟨q, hq, u, hu, h⟩
      | cls c q hc hq hu => exact .inl (.inl (.inr ⟨c, hc, q, hq, u, hu, h⟩))
      | embed e q he hq hu => exact .inl (.inr ⟨e, he, q, hq, u, hu, h⟩)
    · exact .inl (.inl (.inl ⟨c, hc, h⟩))

/-- What holds of the dictionary after every step. -/
structure Enumerated (s : List (Str × Nat) × Nat) : Prop where
  keys : (s.1.map (·.1)).Nodup
  values : (s.1.map (·.2)).Nodup
  below : ∀ e ∈ s.1, e.2 < s.2

theorem putUid_keys (m : List (Str × Nat)) (p : Str) (n : Nat) :
    (putUid m p n).map (·.1) = if m.any (fun e => e.1 == p) then m.map (·.1) else m.map (·.1) ++ [p] := by
  unfold putUid
  split
  · rw [List.map_map]
    apply List.map_congr_left
    intro e _
    simp only [Function.comp_apply]
    split
    · rename_i h
      exact (by simpa using h : e.1 = p).symm
    · rfl
  · simp

theorem mem_putUid {m : List (Str × Nat)} {p : Str} {n : Nat} {e : Str × Nat} (h : e ∈ putUid m p n) :
    e = (p, n) ∨ e ∈ m := by
  unfold putUid at h
  split at h
  · obtain ⟨a, ha, rfl⟩ := List.mem_map.1 h
    split
    · exact .inl rfl
    · exact .inr ha
  · rw [List.mem_append, List.mem_singleton] at h
    exact h.symm

theorem nodup_replace {m : List (Str × Nat)} {p : Str} {n : Nat} (hk : (m.map (·.1)).Nodup)
    (hv : (m.map (·.2)).Nodup) (hn : ∀ e ∈ m, e.2 ≠ n) :
    ((m.map fun e => if e.1 == p then (p, n) else e).map (·.2)).Nodup := by
  induction m with
  | nil => simp
  | cons e m ih =>
    simp only [List.map_cons, List.nodup_cons] at hk hv ⊢
    refine ⟨?_, ih hk.2 hv.2 fun e he => hn e (by simp [he])⟩
    intro hm
    obtain ⟨b, hb, hb2⟩ := List.mem_map.1 hm
    obtain ⟨a, ha, rfl⟩ := List.mem_map.1 hb
    by_cases h1 : e.1 = p
    · have h2 : a.1 ≠ p := fun h => hk.1 (by rw [h1, ← h]; exact List.mem_map_of_mem ha)
      simp [h1, h2] at hb2
      exact hn a (by simp [ha]) hb2
    · by_cases h2 : a.1 = p
      · simp [h1, h2] at hb2
        exact hn e (by simp) hb2.symm
      · simp [h1, h2] at hb2
        exact hv.1 (hb2 ▸ List.mem_map_of_mem ha)

theorem putStep_enumerated {s : List (Str × Nat) × Nat} (h : Enumerated s) (p : Str) : Enumerated (putStep s p) where
  keys := by
    show ((putUid s.1 p s.2).map (·.1)).Nodup
    rw [putUid_keys]
    split
    · exact h.keys
    · rename_i hp
      rw [List.nodup_append]
      refine ⟨h.keys, by simp, ?_⟩
      rintro x hx y hy rfl
      rw [List.mem_singleton] at hy
      subst hy
      obtain ⟨e, he, rfl⟩ := List.mem_map.1 hx
      exact hp (List.any_eq_true.2 ⟨e, he, by simp⟩)
  values := by
    show ((putUid s.1 p s.2).map (·.2)).Nodup
    unfold putUid
    split
    · exact nodup_replace h.keys h.values fun e he => Nat.ne_of_lt (h.below e he)
    · rw [List.map_append, List.nodup_append]
      refine ⟨h.values, by simp, ?_⟩
      rintro x hx y hy rfl
      simp only [List.map_cons, List.map_nil, List.mem_singleton] at hy
      subst hy
      obtain ⟨e, he, he2⟩ := List.mem_map.1 hx
      exact Nat.ne_of_lt (h.below e he) he2
  below := by
    intro e he
    show e.2 < s.2 + 1
    rcases mem_putUid he with rfl | he
    · exact Nat.lt_succ_self _
    · exact Nat.lt_succ_of_lt (h.below e he)

theorem foldl_enumerated {l : List Str} {s : List (Str × Nat) × Nat} (h : Enumerated s) :
    Enumerated (l.foldl putStep s) ∧
    ∀ p, p ∈ (l.foldl putStep s).1.map (·.1) ↔ p ∈ s.1.map (·.1) ∨ p ∈ l := by
  induction l generalizing s with
  | nil => exact ⟨h, by simp⟩
  | cons q l ih =>
    obtain ⟨h1, h2⟩ := ih (putStep_enumerated h q)
    refine ⟨h1, fun p => ?_⟩
    rw [List.foldl_cons, h2]
    show p ∈ (putUid s.1 q s.2).map (·.1) ∨ _ ↔ _
    rw [putUid_keys]
    split
    · rename_i hq
      obtain ⟨e, he, heq⟩ := List.any_eq_true.1 hq
      have : q ∈ s.1.map (·.1) := by
        have : e.1 = q := by simpa using heq
        exact this ▸ List.mem_map_of_mem he
      rw [List.mem_cons]
      constructor
      · rintro (h | h)
        · exact .inl h
        · exact .inr (.inr h)
      · rintro (h | rfl | h)
        · exact .inl h
        · exact .inl this
        · exact .inr h
    · rw [List.mem_append, List.mem_singleton, List.mem_cons, or_assoc]

theorem patterns_enumerated (g : Graph) :
    ((enumeratePatterns g).map (·.1)).Nodup ∧ ((enumeratePatterns g).map (·.2)).Nodup ∧
    ∀ p, p ∈ (enumeratePatterns g).map (·.1) ↔ HasPattern g p := by
  have h0 : Enumerated ([], 0) := ⟨by simp, by simp, by simp⟩
  obtain ⟨h1, h2⟩ := foldl_enumerated (l := allPatterns g) h0
  rw [← enumeratePatterns_eq] at h2
  rw [enumeratePatterns_eq]
  refine ⟨h1.keys, h1.values, fun p => ?_⟩
  rw [← enumeratePatterns_eq, h2, mem_allPatterns]
  simp

theorem lookup_mem {m : List (Str × Nat)} {p : Str} (h : p ∈ m.map (·.1)) : ∃ n, m.lookup p = some n ∧ (p, n) ∈ m := by
  induction m with
  | nil => cases h
  | cons e m ih =>
    obtain ⟨k, n⟩ := e
    by_cases hk : p = k
    · subst hk
      exact ⟨n, by simp [List.lookup], by simp⟩
    · rw [List.map_cons, List.mem_cons] at h
      obtain ⟨n', h1, h2⟩ := ih (h.resolve_left hk)
      refine ⟨n', ?_, by simp [h2]⟩
      have : (p == k) = false := by simpa using hk
      simp [List.lookup, this, h1]

/-- The name of a pattern of the graph is declared. -/
theorem patternName_declared {g : Graph} {p : Str} (h : HasPattern g p) :
    patternName (enumeratePatterns g) p ∈ (enumeratePatterns g).map (fun e => Name.pattern e.2) := by
  obtain ⟨n, h1, h2⟩ := lookup_mem (((patterns_enumerated g).2.2 p).2 h)
  unfold patternName
  rw [h1]
  exact List.mem_map.2 ⟨_, h2, rfl⟩

/-- Two patterns of the graph have two names. -/
theorem patternName_inj {g : Graph} {p q : Str} (hp : HasPattern g p) (hq : HasPattern g q)
    (h : patternName (enumeratePatterns g) p = patternName (enumeratePatterns g) q) : p = q := by
  obtain ⟨n, h1, h2⟩ := lookup_mem (((patterns_enumerated g).2.2 p).2 hp)
  obtain ⟨k, h3, h4⟩ := lookup_mem (((patterns_enumerated g).2.2 q).2 hq)
  unfold patternName at h
  rw [h1, h3] at h
  cases h
  have hv := (patterns_enumerated g).2.1
  generalize enumeratePatterns g = m at *
  clear h1 h3
  induction m with
  | nil => cases h2
  | cons e m ih =>
    rw [List.map_cons, List.nodup_cons] at hv
    rcases List.mem_cons.1 h2 with a | a <;> rcases List.mem_cons.1 h4 with b | b
    · rw [← a] at b
      cases b
      rfl
    · rw [← a] at hv
      exact absurd (List.mem_map.2 ⟨_, b, rfl⟩) hv.1
    · rw [← b] at hv
      exact absurd (List.mem_map.2 ⟨_, a, rfl⟩) hv.1
    · exact ih a b hv.2

end Mapry.GoCode
