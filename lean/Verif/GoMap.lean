import Verif.Basic

/-!
# Go maps with strings as keys

A Go map is represented by the list of its entries with ascending keys. Such a list is determined by
what a lookup of the keys gives (`Ascending.ext`), so that two maps with the same entries are equal.

A `range` over a map visits the entries in an order which the language does not specify. The order is
given by an oracle: for the number of the `range` statement executed and the number of the entries,
the positions of the entries to be visited.
-/

namespace Mapry

/-- The entries of a map -/
abbrev GoMap (α : Type) := List (Str × α)

namespace GoMap

variable {α : Type}

/-- `m[k] = x` -/
def put (k : Str) (x : α) : GoMap α → GoMap α
  | [] => [(k, x)]
  | (k', x') :: rest =>
    if k = k' then (k, x) :: rest
    else if k < k' then (k, x) :: (k', x') :: rest
    else (k', x') :: put k x rest

/-- `m[k] = x` for all the entries, one after another -/
def putAll (m : GoMap α) (kvs : List (Str × α)) : GoMap α := kvs.foldl (fun m kv => put kv.1 kv.2 m) m

/-- The keys are in ascending order. -/
def Ascending (m : GoMap α) : Prop := m.Pairwise fun a b => a.1 < b.1

instance (m : GoMap α) : Decidable (Ascending m) := by unfold Ascending; infer_instance

end GoMap

/-- The order of the iterations. -/
abbrev Order := Nat → Nat → List Nat

/-- Every iteration visits every entry once. -/
def Order.Proper (O : Order) : Prop := ∀ t n, (O t n).Perm (List.range n)

/-- The entries in the order visited by the iteration number `t` -/
def Order.visit {α : Type} (O : Order) (t : Nat) (m : List α) : List α :=
  (O t m.length).filterMap fun i => m[i]?

theorem strLt_irrefl (a : Str) : ¬ a < a := List.lt_irrefl a

theorem strLt_trans {a b c : Str} (h : a < b) (h' : b < c) : a < c := List.lt_trans h h'

theorem strLt_asymm {a b : Str} (h : a < b) : ¬ b < a := List.lt_asymm h

theorem strLt_tri (a b : Str) (h : ¬ a < b) (hne : a ≠ b) : b < a := by
  rcases List.le_total a b with h1 | h1
  · apply Classical.byContradiction
    intro h2
    exact hne (List.le_antisymm h1 (by simpa using h))
  · apply Classical.byContradiction
    intro h2
    exact hne (List.le_antisymm (by simpa using h2) h1)

namespace Order

theorem filterMap_range {α : Type} (l : List α) : (List.range l.length).filterMap (fun i => l[i]?) = l := by
  induction l with
  | nil => rfl
  | cons a l ih =>
    rw [List.length_cons, List.range_succ_eq_map, List.filterMap_cons]
    simp only [List.getElem?_cons_zero, List.filterMap_map]
    congr 1

theorem visit_perm {α : Type} {O : Order} (hO : O.Proper) (t : Nat) (m : List α) : (O.visit t m).Perm m := by
  have h := (hO t m.length).filterMap fun i => m[i]?
  rw [filterMap_range] at h
  exact h

end Order

namespace GoMap

variable {α : Type}

theorem lookup_step (a : Str × α) (m : List (Str × α)) (k : Str) :
    (a :: m).lookup k = if k = a.1 then some a.2 else m.lookup k := by
  obtain ⟨k', x⟩ := a
  by_cases e : k = k'
  · subst e; simp [List.lookup]
  · simp [List.lookup, e, beq_eq_false_iff_ne.2 e]

theorem lookup_put (k : Str) (x : α) (m : GoMap α) (j : Str) :
    (put k x m).lookup j = if j = k then some x else m.lookup j := by
  induction m with
  | nil => simp only [put, lookup_step]
  | cons a m ih =>
    obtain ⟨k', x'⟩ := a
    unfold put
    by_cases h1 : k = k'
    · subst h1
      rw [if_pos rfl]
      simp only [lookup_step]
      split <;> rfl
    · rw [if_neg h1]
      by_cases h2 : k < k'
      · rw [if_pos h2]
        simp only [lookup_step]
      · rw [if_neg h2]
        simp only [lookup_step, ih]
        by_cases h : j = k'
        · subst h
          rw [if_pos rfl, if_neg (Ne.symm h1), if_pos rfl]
        · rw [if_neg h, if_neg h]

theorem mem_put {k : Str} {x : α} {m : GoMap α} {e : Str × α} (h : e ∈ put k x m) :
    e = (k, x) ∨ e ∈ m := by
  induction m with
  | nil => simpa [put] using h
  | cons a m ih =>
    obtain ⟨k', x'⟩ := a
    unfold put at h
    split at h
    · rcases List.mem_cons.1 h with h | h
      · exact .inl h
      · exact .inr (List.mem_cons_of_mem _ h)
    · split at h
      · rcases List.mem_cons.1 h with h | h
        · exact .inl h
        · exact .inr h
      · rcases List.mem_cons.1 h with h | h
        · exact .inr (h ▸ List.mem_cons_self ..)
        · rcases ih h with h | h
          · exact .inl h
          · exact .inr (List.mem_cons_of_mem _ h)

theorem Ascending.put {m : GoMap α} (h : Ascending m) (k : Str) (x : α) : Ascending (GoMap.put k x m) := by
  induction m with
  | nil => simp [GoMap.put, Ascending]
  | cons a m ih =>
    obtain ⟨k', x'⟩ := a
    obtain ⟨h1, h2⟩ := List.pairwise_cons.1 h
    unfold GoMap.put
    by_cases e : k = k'
    · subst e
      rw [if_pos rfl]
      exact List.pairwise_cons.2 ⟨h1, h2⟩
    · rw [if_neg e]
      by_cases l : k < k'
      · rw [if_pos l]
        refine List.pairwise_cons.2 ⟨fun b hb => ?_, h⟩
        rcases List.mem_cons.1 hb with rfl | hb
        · exact l
        · exact strLt_trans l (h1 b hb)
      · rw [if_neg l]
        refine List.pairwise_cons.2 ⟨fun b hb => ?_, ih h2⟩
        rcases mem_put hb with rfl | hb
        · exact strLt_tri k k' l e
        · exact h1 b hb

theorem Ascending.putAll {m : GoMap α} (h : Ascending m) (kvs : List (Str × α)) :
    Ascending (GoMap.putAll m kvs) := by
  induction kvs generalizing m with
  | nil => exact h
  | cons a kvs ih => exact ih (h.put a.1 a.2)

theorem lookup_mem {m : List (Str × α)} {k : Str} {x : α} (h : m.lookup k = some x) : (k, x) ∈ m := by
  induction m with
  | nil => simp at h
  | cons a m ih =>
    obtain ⟨k', x'⟩ := a
    rw [lookup_step] at h
    by_cases e : k = k'
    · subst e
      rw [if_pos rfl] at h
      cases h
      exact List.mem_cons_self ..
    · rw [if_neg e] at h
      exact List.mem_cons_of_mem _ (ih h)

theorem lookup_none {m : List (Str × α)} {k : Str} : m.lookup k = none ↔ k ∉ m.map (·.1) := by
  induction m with
  | nil => simp
  | cons a m ih =>
    obtain ⟨k', x'⟩ := a
    rw [lookup_step]
    by_cases e : k = k'
    · subst e; simp
    · rw [if_neg e]
      simp only [ih, List.map_cons, List.mem_cons, not_or]
      exact ⟨fun h => ⟨e, h⟩, fun h => h.2⟩

/-- Maps with distinct keys: an entry is what the lookup gives. -/
theorem lookup_of_mem {m : List (Str × α)} (h : (m.map (·.1)).Nodup) {k : Str} {x : α} (hm : (k, x) ∈ m) :
    m.lookup k = some x := by
  induction m with
  | nil => simp at hm
  | cons a m ih =>
    obtain ⟨k', x'⟩ := a
    rw [List.map_cons, List.nodup_cons] at h
    rw [lookup_step]
    rcases List.mem_cons.1 hm with e | hm'
    · cases e; simp
    · have : k ≠ k' := by
        rintro rfl
        exact h.1 (List.mem_map.2 ⟨_, hm', rfl⟩)
      rw [if_neg this]
      exact ih h.2 hm'

theorem Ascending.nodup {m : GoMap α} (h : Ascending m) : (m.map (·.1)).Nodup := by
  unfold List.Nodup
  rw [List.pairwise_map]
  refine h.imp fun {a b} hab => ?_
  intro e
  rw [e] at hab
  exact strLt_irrefl _ hab

theorem perm_lookup {l m : List (Str × α)} (h : l.Perm m) (hn : (m.map (·.1)).Nodup) (k : Str) :
    l.lookup k = m.lookup k := by
  have hl : (l.map (·.1)).Nodup := (h.map (·.1)).nodup_iff.2 hn
  cases hm : m.lookup k with
  | none =>
    rw [lookup_none] at hm ⊢
    intro hk
    exact hm ((h.map (·.1)).mem_iff.1 hk)
  | some x => exact lookup_of_mem hl (h.mem_iff.2 (lookup_mem hm))

theorem lookup_putAll (m : GoMap α) (kvs : List (Str × α)) (h : (kvs.map (·.1)).Nodup) (j : Str) :
    (putAll m kvs).lookup j = (kvs.lookup j).or (m.lookup j) := by
  induction kvs generalizing m with
  | nil => rfl
  | cons a kvs ih =>
    obtain ⟨k, x⟩ := a
    rw [List.map_cons, List.nodup_cons] at h
    show (putAll (put k x m) kvs).lookup j = _
    rw [ih _ h.2, lookup_put, lookup_step]
    by_cases e : j = k
    · subst e
      have : kvs.lookup j = none := lookup_none.2 h.1
      rw [this]; simp
    · rw [if_neg e, if_neg e]

theorem lookup_lt {a : Str × α} {m : GoMap α} (h : Ascending (a :: m)) {k : Str} (hk : k = a.1 ∨ k < a.1) :
    m.lookup k = none := by
  rw [lookup_none]
  intro hm
  obtain ⟨b, hb, rfl⟩ := List.mem_map.1 hm
  have := (List.pairwise_cons.1 h).1 b hb
  rcases hk with hk | hk
  · rw [hk] at this; exact strLt_irrefl _ this
  · exact strLt_asymm hk this

/-- A map is determined by its lookups. -/
theorem Ascending.ext {l m : GoMap α} (hl : Ascending l) (hm : Ascending m)
    (h : ∀ k, l.lookup k = m.lookup k) : l = m := by
  induction l generalizing m with
  | nil =>
    cases m with
    | nil => rfl
    | cons b m =>
      have := h b.1
      rw [lookup_step, if_pos rfl] at this
      simp at this
  | cons a l ih =>
    cases m with
    | nil =>
      have := h a.1
      rw [lookup_step, if_pos rfl] at this
      simp at this
    | cons b m =>
      have h1 := h a.1
      have h2 := h b.1
      rw [lookup_step, lookup_step, if_pos rfl] at h1
      rw [lookup_step, lookup_step, if_pos rfl] at h2
      have hab : a.1 = b.1 := by
        apply Classical.byContradiction
        intro hne
        rw [if_neg hne] at h1
        rw [if_neg (Ne.symm hne)] at h2
        by_cases hlt : a.1 < b.1
        · rw [lookup_lt hm (.inr hlt)] at h1; simp at h1
        · rw [lookup_lt hl (.inr (strLt_tri _ _ hlt hne))] at h2; simp at h2
      rw [if_pos hab] at h1
      have : a = b := Prod.ext hab (Option.some.inj h1)
      subst this
      congr 1
      refine ih (List.pairwise_cons.1 hl).2 (List.pairwise_cons.1 hm).2 fun k => ?_
      have hk := h k
      rw [lookup_step, lookup_step] at hk
      by_cases e : k = a.1
      · subst e
        rw [lookup_lt hl (.inl rfl), lookup_lt hm (.inl rfl)]
      · rw [if_neg e, if_neg e] at hk
        exact hk

/-- The entries put in any order give the map with these entries. -/
theorem putAll_perm {l m : GoMap α} (h : l.Perm m) (hm : Ascending m) : putAll [] l = m := by
  refine Ascending.ext (Ascending.putAll (m := []) List.Pairwise.nil l) hm fun k => ?_
  rw [lookup_putAll _ _ ((h.map (·.1)).nodup_iff.2 hm.nodup), perm_lookup h hm.nodup]
  simp

/-- … also on top of a map with the same keys. -/
theorem putAll_perm_on {l m b : GoMap α} (h : l.Perm m) (hm : Ascending m) (hb : Ascending b)
    (hk : ∀ k, k ∈ b.map (·.1) → k ∈ m.map (·.1)) : putAll b l = m := by
  refine Ascending.ext (hb.putAll l) hm fun k => ?_
  rw [lookup_putAll _ _ ((h.map (·.1)).nodup_iff.2 hm.nodup), perm_lookup h hm.nodup]
  cases hl : m.lookup k with
  | some x => rfl
  | none =>
    have : b.lookup k = none := lookup_none.2 fun hb => lookup_none.1 hl (hk k hb)
    rw [this]; rfl

end GoMap

end Mapry
