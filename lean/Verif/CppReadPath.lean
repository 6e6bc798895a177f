import Verif.CppReadGen

/-! # Places in a structure, and containers of errors which grow -/

namespace Mapry.CppRead

open Mapry.CppRuntime (JVal Val Time Lib TimeKind Fields setField itemsOf entriesOf entryOf)

/-! ## Maps and fields -/

theorem putMap_putMap {α : Type} (k : Str) (x y : α) (m : GoMap α) : GoMap.put k y (GoMap.put k x m) = GoMap.put k y m := by
  induction m with
  | nil => simp [GoMap.put]
  | cons a m ih =>
    obtain ⟨k', x'⟩ := a
    by_cases h : k = k'
    · subst h
      simp [GoMap.put]
    · by_cases h2 : k < k'
      · simp [GoMap.put, h, h2]
      · simp [GoMap.put, h, h2, ih]

theorem lookup_setField (f : Str) (x : Val) (fs : Fields) : (setField f x fs).lookup f = some x := by
  induction fs with
  | nil => simp [setField]
  | cons a fs ih =>
    obtain ⟨f', x'⟩ := a
    by_cases h : f' = f
    · simp [setField, h]
    · have h' : (f == f') = false := by simpa using fun e => h e.symm
      simp [setField, h, List.lookup, h', ih]

theorem setField_setField (f : Str) (x y : Val) (fs : Fields) : setField f y (setField f x fs) = setField f y fs := by
  induction fs with
  | nil => simp [setField]
  | cons a fs ih =>
    obtain ⟨f', x'⟩ := a
    by_cases h : f' = f
    · simp [setField, h]
    · simp [setField, h, ih]

/-! ## Steps -/

theorem itemsOf_list (xs : List Val) : itemsOf (.list xs) = xs := rfl


/-- The part is there, or it is inserted when it is stored. -/
def Step.Ok : Step → Val → Prop
  | .field _, .obj _ _ => True
  | .field _, _ => False
  | .item i, v => i < (itemsOf v).length
  | .key _, _ => True

theorem Step.get_put {s : Step} {v : Val} (h : s.Ok v) (x : Val) : s.get (s.put x v) = x := by
  cases s with
  | field f =>
    cases v <;> first | exact h.elim | simp [Step.put, Step.get, lookup_setField]
  | item i =>
    have h : i < (itemsOf v).length := h
    simp [Step.put, Step.get, itemsOf_list, h]
  | key k => simp [Step.put, Step.get, entriesOf, entryOf, GoMap.lookup_put]

theorem Step.put_put (s : Step) (v x y : Val) : s.put y (s.put x v) = s.put y v := by
  cases s with
  | field f => cases v <;> simp [Step.put, setField_setField]
  | item i => simp [Step.put, itemsOf_list]
  | key k => simp [Step.put, entriesOf, putMap_putMap]

theorem Step.Ok.put {s : Step} {v : Val} (h : s.Ok v) (x : Val) : s.Ok (s.put x v) := by
  cases s with
  | field f => cases v <;> first | exact h.elim | trivial
  | item i =>
    have h : i < (itemsOf v).length := h
    simp [Step.Ok, Step.put, itemsOf_list, h]
  | key k => trivial

/-! ## Paths -/

/-- All the parts on the way are there. -/
def Valid : Path → Val → Prop
  | [], _ => True
  | s :: p, v => s.Ok v ∧ Valid p (s.get v)

theorem get_put {p : Path} {v : Val} (h : Valid p v) (x : Val) : get p (put p x v) = x := by
  induction p generalizing v with
  | nil => rfl
  | cons s p ih => rw [put, get, s.get_put h.1, ih h.2]

theorem put_put {p : Path} {v : Val} (h : Valid p v) (x y : Val) : put p y (put p x v) = put p y v := by
  induction p generalizing v with
  | nil => rfl
  | cons s p ih => rw [put, put, s.get_put h.1, ih h.2, s.put_put, put]

theorem Valid.put {p : Path} {v : Val} (h : Valid p v) (x : Val) : Valid p (put p x v) := by
  induction p generalizing v with
  | nil => trivial
  | cons s p ih =>
    rw [CppRead.put]
    refine ⟨h.1.put _, ?_⟩
    rw [s.get_put h.1]
    exact ih h.2

theorem get_snoc (p : Path) (s : Step) (v : Val) : get (p ++ [s]) v = s.get (get p v) := by
  induction p generalizing v with
  | nil => rfl
  | cons a p ih => exact ih _

theorem put_snoc (p : Path) (s : Step) (x v : Val) : put (p ++ [s]) x v = put p (s.put x (get p v)) v := by
  induction p generalizing v with
  | nil => rfl
  | cons a p ih => simp only [List.cons_append, put, get, ih]

theorem Valid.snoc {p : Path} {v : Val} (h : Valid p v) {s : Step} (hs : s.Ok (get p v)) : Valid (p ++ [s]) v := by
  induction p generalizing v with
  | nil => exact ⟨hs, trivial⟩
  | cons a p ih => exact ⟨h.1, ih h.2 hs⟩

/-- Nothing but the place has been changed. -/
def At (p : Path) (v w : Val) : Prop := w = v ∨ ∃ x, w = put p x v

theorem At.valid {p : Path} {v w : Val} (h : At p v w) (hv : Valid p v) : Valid p w := by
  rcases h with rfl | ⟨x, rfl⟩
  · exact hv
  · exact hv.put x

theorem At.put {p : Path} {v w : Val} (h : At p v w) (hv : Valid p v) (x : Val) : put p x w = put p x v := by
  rcases h with rfl | ⟨y, rfl⟩
  · rfl
  · exact put_put hv y x

theorem At.trans {p : Path} {u v w : Val} (h : At p u v) (h' : At p v w) (hu : Valid p u) : At p u w := by
  rcases h' with rfl | ⟨x, rfl⟩
  · exact h
  · exact .inr ⟨x, h.put hu x⟩

/-- A part of the place -/
theorem At.snoc {p : Path} {s : Step} {v w : Val} (h : At (p ++ [s]) v w) : At p v w := by
  rcases h with rfl | ⟨x, rfl⟩
  · exact .inl rfl
  · exact .inr ⟨_, put_snoc p s x v⟩

/-! ## Containers -/

/-- There is room for another error. -/
def Room (e : CppErrors) : Prop := e.values.length < e.cap

/-- Errors have been added. -/
structure Ext (e e' : CppErrors) : Prop where
  cap : e'.cap = e.cap
  le : e'.values.length ≤ e'.cap
  values : ∃ w, e'.values = e.values ++ w

theorem Ext.refl {e : CppErrors} (h : Room e) : Ext e e := ⟨rfl, Nat.le_of_lt h, [], by simp⟩

theorem Ext.trans {a b c : CppErrors} (h : Ext a b) (h' : Ext b c) : Ext a c := by
  obtain ⟨c1, _, w1, v1⟩ := h
  obtain ⟨c2, l2, w2, v2⟩ := h'
  exact ⟨c2.trans c1, l2, w1 ++ w2, by rw [v2, v1, List.append_assoc]⟩

theorem Ext.add {a b : CppErrors} (h : Ext a b) (x : Err) : Ext a (b.add x) := by
  unfold CppErrors.add
  split
  · next hlt =>
    obtain ⟨c, l, w, v⟩ := h
    exact ⟨c, by simp; omega, w ++ [x], by simp [v]⟩
  · exact h

theorem Ext.length {a b : CppErrors} (h : Ext a b) : a.values.length ≤ b.values.length := by
  obtain ⟨_, _, w, v⟩ := h
  rw [v]
  simp

theorem Ext.eq_of_eq {a b c : CppErrors} (h : Ext a b) (h' : Ext b c) (e : c = a) : b = a := by
  subst e
  have hl := h'.length
  obtain ⟨c1, _, w, v⟩ := h
  have : w = [] := by
    rw [v] at hl
    rw [List.length_append] at hl
    exact List.length_eq_zero_iff.1 (by omega)
  subst this
  cases b
  cases c
  simp_all

theorem add_ne {e : CppErrors} (h : Room e) (x : Err) : e.add x ≠ e := by
  intro h'
  have h : e.values.length < e.cap := h
  have := congrArg (fun e => e.values.length) h'
  simp [CppErrors.add, h] at this

theorem add_ne' {a b : CppErrors} (h : Room a) (hb : Ext a b) (x : Err) : b.add x ≠ a := by
  intro h'
  have h1 : Ext b (b.add x) := by
    have hl := hb.le
    refine Ext.add ⟨rfl, hl, [], by simp⟩ x
  have := hb.eq_of_eq h1 h'
  subst this
  exact add_ne h x h'

theorem Ext.room {a b : CppErrors} (h : Ext a b) (hf : b.full = false) : Room b := by
  have hl := h.le
  unfold CppErrors.full at hf
  simp at hf
  exact Nat.lt_of_le_of_ne hl hf

theorem Room.not_full {e : CppErrors} (h : Room e) : e.full = false := by
  have h : e.values.length < e.cap := h
  unfold CppErrors.full
  simp
  omega

end Mapry.CppRead
