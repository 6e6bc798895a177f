import Verif.PyFrom

/-!
# The functions whose code does not depend on the schema
-/

namespace Mapry.PyCode

variable {ok : Name → Prop}

/-- The variable of the name is there, if it is one. -/
def Name.boundIn (A : List Var) : Name → Bool
  | .var x => decide (x ∈ A)
  | _ => true

instance (xs : List Var) (y : Var) : Decidable (Stays xs y) := inferInstanceAs (Decidable (∀ x ∈ xs, _ → _))
instance (xs : List Var) : Decidable (Distinct xs) := inferInstanceAs (Decidable (∀ x ∈ xs, _))

instance (c : Code) (y : Var) : Decidable (Kept c y) :=
  if h : (∀ x ∈ c.sets, x.text = y.text → x = y) ∧ ∀ x ∈ c.drops, x.text ≠ y.text then isTrue ⟨h.1, h.2⟩
  else isFalse fun k => h ⟨k.sets, k.drops⟩

/-- The variables which are there after two alternatives; `none` is an alternative which does not reach its end. -/
def meet : Option (List Var) → Option (List Var) → Option (List Var)
  | none, B => B
  | B, none => B
  | some B, some B' => some (B.filter (· ∈ B'))

/-- The variables which are there at the end of the code. There is no result if a variable may be looked up before it
is bound (or if there is a loop). -/
def flow : Code → List Var → Option (Option (List Var))
  | .done, A => some (some A)
  | .use xs c, A => if xs.all (Name.boundIn A) then flow c A else none
  | .call f _ _ c, A => if f.boundIn A then flow c A else none
  | .bind xs c, A => if Distinct xs ∧ ∀ y ∈ A, Stays xs y then flow c (xs ++ A) else none
  | .forget _ _, _ => none
  | .branch y n c, A =>
    match flow y A, flow n A with
    | some B, some B' =>
      match meet B B' with
      | some C => flow c C
      | none => if c = .done then some none else none
    | _, _ => none
  | .loop _ _ _, _ => none
  | .attempt y n c, A =>
    match flow y A, flow n (A.filter fun z => Kept y z) with
    | some B, some B' =>
      match meet B B' with
      | some C => flow c C
      | none => if c = .done then some none else none
    | _, _ => none
  | .leave, _ => some none
  | .stop, _ => some none

/-- `Safe` where the end may not be reached. -/
def Safe' (ok : Name → Prop) (c : Code) (A : List Var) : Option (List Var) → Prop
  | some B => Safe ok c A B
  | none => ∀ B, Safe ok c A B

theorem safe_meet_left {c A B B' C} (h : Safe' ok c A B) (hm : meet B B' = some C) : Safe ok c A C := by
  cases B with
  | none => exact h C
  | some B =>
    cases B' with
    | none => cases hm; exact h
    | some B' =>
      cases hm
      exact Safe.weaken h (fun _ h => h) (by simp +contextual)

theorem safe_meet_right {c A B B' C} (h : Safe' ok c A B') (hm : meet B B' = some C) : Safe ok c A C := by
  cases B' with
  | none => exact h C
  | some B' =>
    cases B with
    | none => cases hm; exact h
    | some B =>
      cases hm
      exact Safe.weaken h (fun _ h => h) (by simp +contextual)

theorem meet_none {B B'} (h : meet B B' = none) : B = none ∧ B' = none := by
  cases B <;> cases B' <;> simp_all [meet]

theorem good_of_bound {A x} (h : Name.boundIn A x = true) (hs : Static ok x) : Good ok A x := by
  cases x <;> simp_all [Name.boundIn]

theorem flow_safe {c A B} (h : flow c A = some B) (hn : All (Static ok) c) : Safe' ok c A B := by
  induction c generalizing A B with
  | done => cases h; exact Safe.done
  | use xs c ih =>
    simp only [flow, Option.ite_none_right_eq_some, List.all_eq_true] at h
    rw [all_use] at hn
    have hg : ∀ x ∈ xs, Good ok A x := fun x hx => good_of_bound (h.1 x hx) (hn.1 x hx)
    have := ih h.2 hn.2
    cases B with
    | none => exact fun B => .use hg (this B)
    | some B => exact .use hg this
  | call f a k c ih =>
    simp only [flow, Option.ite_none_right_eq_some] at h
    rw [all_call] at hn
    have hg := good_of_bound h.1 hn.1
    have := ih h.2 hn.2
    cases B with
    | none => exact fun B => .call hg (this B)
    | some B => exact .call hg this
  | bind xs c ih =>
    simp only [flow, Option.ite_none_right_eq_some] at h
    have := ih h.2 hn
    cases B with
    | none => exact fun B => .bind h.1.1 h.1.2 (this B)
    | some B => exact .bind h.1.1 h.1.2 this
  | forget xs c ih => cases h
  | branch y n c ih1 ih2 ih3 =>
    rw [all_branch] at hn
    simp only [flow] at h
    split at h
    · rename_i B1 B2 e1 e2
      have h1 := ih1 e1 hn.1
      have h2 := ih2 e2 hn.2.1
      split at h
      · rename_i C e
        have := ih3 h hn.2.2
        cases B with
        | none => exact fun B => .branch (safe_meet_left h1 e) (safe_meet_right h2 e) (this B)
        | some B => exact .branch (safe_meet_left h1 e) (safe_meet_right h2 e) this
      · rename_i e
        obtain ⟨rfl, rfl⟩ := meet_none e
        simp only [Option.ite_none_right_eq_some, Option.some.injEq] at h
        obtain ⟨rfl, rfl⟩ := h
        exact fun B => .branch (h1 B) (h2 B) .done
    · cases h
  | loop xs c d ih1 ih2 => cases h
  | attempt y n c ih1 ih2 ih3 =>
    rw [all_attempt] at hn
    simp only [flow] at h
    have hD : ∀ z ∈ A.filter (fun z => Kept y z), z ∈ A ∧ Kept y z := by simp
    split at h
    · rename_i B1 B2 e1 e2
      have h1 := ih1 e1 hn.1
      have h2 := ih2 e2 hn.2.1
      split at h
      · rename_i C e
        have := ih3 h hn.2.2
        cases B with
        | none => exact fun B => .attempt (safe_meet_left h1 e) hD (safe_meet_right h2 e) (this B)
        | some B => exact .attempt (safe_meet_left h1 e) hD (safe_meet_right h2 e) this
      · rename_i e
        obtain ⟨rfl, rfl⟩ := meet_none e
        simp only [Option.ite_none_right_eq_some, Option.some.injEq] at h
        obtain ⟨rfl, rfl⟩ := h
        exact fun B => .attempt (h1 B) hD (h2 B) .done
    · cases h
  | leave => cases h; exact fun B => .leave
  | stop => cases h; exact fun B => .stop

/-- A function whose code passes the check. -/
theorem func_safe {f : Func} (h : (flow f.body (f.params.map (·.var))).isSome = true) : f.Safe ok := by
  intro hn
  obtain ⟨B, hB⟩ := Option.isSome_iff_exists.1 h
  have := flow_safe hB hn
  cases B with
  | none => exact this []
  | some B => exact Safe.weaken this (fun _ h => h) (by simp)

theorem durationFrom_safe : ∀ i ∈ durationFromString, ∀ f ∈ i.funcs, f.Safe ok := by
  have h : ∀ i ∈ durationFromString, ∀ f ∈ i.funcs, (flow f.body (f.params.map (·.var))).isSome = true := by decide +kernel
  exact fun i hi f hf => func_safe (h i hi f hf)

theorem durationTo_safe : ∀ i ∈ durationToString, ∀ f ∈ i.funcs, f.Safe ok := by
  have h : ∀ i ∈ durationToString, ∀ f ∈ i.funcs, (flow f.body (f.params.map (·.var))).isSome = true := by decide +kernel
  exact fun i hi f hf => func_safe (h i hi f hf)

theorem errors_safe : ∀ i ∈ errorClasses, ∀ f ∈ i.funcs, f.Safe ok := by
  have h : ∀ i ∈ errorClasses, ∀ f ∈ i.funcs, (flow f.body (f.params.map (·.var))).isSome = true := by decide +kernel
  exact fun i hi f hf => func_safe (h i hi f hf)

end Mapry.PyCode
