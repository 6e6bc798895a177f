import Verif.PyScope
import Verif.DurationLemmas
import Verif.GoDeclared

/-!
# When no execution looks up a wrong name

`Safe ok c A B`: from an environment with the variables `A`, no execution of `c` is wrong, and an execution which
reaches the end has the variables `B`. The rules below follow the statements.
-/

namespace Mapry.PyCode

/-- The variables which are bound anywhere in the code. -/
def Code.sets : Code → List Var
  | .done => []
  | .use _ c => c.sets
  | .call _ _ _ c => c.sets
  | .bind xs c => xs ++ c.sets
  | .forget _ c => c.sets
  | .branch y n c => y.sets ++ n.sets ++ c.sets
  | .loop xs b c => xs ++ b.sets ++ c.sets
  | .attempt b h c => b.sets ++ h.sets ++ c.sets
  | .leave => []
  | .stop => []

/-- The variables which are deleted anywhere in the code. -/
def Code.drops : Code → List Var
  | .done => []
  | .use _ c => c.drops
  | .call _ _ _ c => c.drops
  | .bind _ c => c.drops
  | .forget xs c => xs ++ c.drops
  | .branch y n c => y.drops ++ n.drops ++ c.drops
  | .loop _ b c => b.drops ++ c.drops
  | .attempt b h c => b.drops ++ h.drops ++ c.drops
  | .leave => []
  | .stop => []

theorem binds_iff (c : Code) (x : Var) : x ∈ c.binds ↔ x ∈ c.sets ∨ x ∈ c.drops := by
  induction c <;> simp_all [Code.binds, Code.sets, Code.drops] <;> grind

@[simp] theorem append_eq (c d : Code) : c.append d = c ++ d := rfl

@[simp] theorem done_append (d : Code) : (Code.done ++ d) = d := rfl
@[simp] theorem use_append (xs c d) : (Code.use xs c ++ d) = .use xs (c ++ d) := rfl
@[simp] theorem call_append (f a k c d) : (Code.call f a k c ++ d) = .call f a k (c ++ d) := rfl
@[simp] theorem bind_append (xs c d) : (Code.bind xs c ++ d) = .bind xs (c ++ d) := rfl
@[simp] theorem forget_append (xs c d) : (Code.forget xs c ++ d) = .forget xs (c ++ d) := rfl
@[simp] theorem branch_append (y n c d) : (Code.branch y n c ++ d) = .branch y n (c ++ d) := rfl
@[simp] theorem loop_append (xs b c d) : (Code.loop xs b c ++ d) = .loop xs b (c ++ d) := rfl
@[simp] theorem attempt_append (b h c d) : (Code.attempt b h c ++ d) = .attempt b h (c ++ d) := rfl

/-- Whether the code may reach its end, as far as the last statement tells. -/
def Code.Open : Code → Prop
  | .done => True
  | .use _ c => c.Open
  | .call _ _ _ c => c.Open
  | .bind _ c => c.Open
  | .forget _ c => c.Open
  | .branch _ _ c => c.Open
  | .loop _ _ c => c.Open
  | .attempt _ _ c => c.Open
  | .leave => False
  | .stop => False

theorem sets_append {c d : Code} {x} (h : x ∈ (c ++ d).sets) : x ∈ c.sets ∨ x ∈ d.sets := by
  induction c <;> simp_all [Code.sets] <;> first | (rcases h with h | h <;> grind) | grind | skip
  all_goals simp_all [HAppend.hAppend, Append.append, Code.append, Code.sets]

theorem drops_append {c d : Code} {x} (h : x ∈ (c ++ d).drops) : x ∈ c.drops ∨ x ∈ d.drops := by
  induction c <;> simp_all [Code.drops] <;> first | (rcases h with h | h <;> grind) | grind | skip
  all_goals simp_all [HAppend.hAppend, Append.append, Code.append, Code.drops]

theorem names_append {c d : Code} {x} (h : x ∈ (c ++ d).names) : x ∈ c.names ∨ x ∈ d.names := by
  induction c <;> simp_all [Code.names] <;> first | (rcases h with h | h <;> grind) | grind | skip
  all_goals simp_all [HAppend.hAppend, Append.append, Code.append, Code.names]

theorem calls_append {c d : Code} {x} (h : x ∈ (c ++ d).calls) : x ∈ c.calls ∨ x ∈ d.calls := by
  induction c <;> simp_all [Code.calls] <;> first | (rcases h with h | h <;> grind) | grind | skip
  all_goals simp_all [HAppend.hAppend, Append.append, Code.append, Code.calls]

theorem names_left {c d : Code} {x} (h : x ∈ c.names) : x ∈ (c ++ d).names := by
  induction c <;> simp_all [Code.names] <;> grind

theorem names_right {c d : Code} {x} (hc : c.Open) (h : x ∈ d.names) : x ∈ (c ++ d).names := by
  induction c <;> simp_all [Code.names, Code.Open]

theorem open_append {c d : Code} (hc : c.Open) (hd : d.Open) : (c ++ d).Open := by
  induction c <;> simp_all [Code.Open]

/-! ## Environments -/

/-- The variable keeps its value when the others are assigned. -/
def Stays (xs : List Var) (y : Var) : Prop := ∀ x ∈ xs, x.text = y.text → x = y

theorem mem_assign_of_mem {xs : List Var} {e : Env} {y : Var} (hy : y ∈ e) (h : Stays xs y) : y ∈ assign xs e := by
  induction xs generalizing e with
  | nil => exact hy
  | cons x xs ih =>
    refine ih ?_ (fun z hz => h z (List.mem_cons_of_mem _ hz))
    by_cases hx : x = y
    · simp [hx]
    · refine List.mem_cons_of_mem _ (List.mem_filter.2 ⟨hy, ?_⟩)
      have : x.text ≠ y.text := fun e => hx (h x List.mem_cons_self e)
      simp only [bne_iff_ne, ne_eq]
      exact fun e => this e.symm

theorem mem_assign_self {xs : List Var} {e : Env} {y : Var} (hy : y ∈ xs) (h : Stays xs y) : y ∈ assign xs e := by
  induction xs generalizing e with
  | nil => cases hy
  | cons x xs ih =>
    have h' : Stays xs y := fun z hz => h z (List.mem_cons_of_mem _ hz)
    rcases List.mem_cons.1 hy with rfl | hy
    · show y ∈ assign xs _
      exact mem_assign_of_mem List.mem_cons_self h'
    · exact ih hy h'

theorem mem_unassign {xs : List Var} {e : Env} {y : Var} (hy : y ∈ e) (h : ∀ x ∈ xs, x.text ≠ y.text) :
    y ∈ unassign xs e := by
  refine List.mem_filter.2 ⟨hy, ?_⟩
  simpa using h

/-- The variable is neither replaced nor deleted by the code. -/
structure Kept (c : Code) (y : Var) : Prop where
  sets : Stays c.sets y
  drops : ∀ x ∈ c.drops, x.text ≠ y.text

/-- The environment at the end, unless the function is left. -/
def Outcome.env? : Outcome → Option Env
  | .next e => some e
  | .stopped e => some e
  | .raised e => some e
  | .left => none
  | .wrong => none

theorem Kept.mono {c d : Code} {y} (h : Kept d y) (hs : ∀ x ∈ c.sets, x ∈ d.sets) (hd : ∀ x ∈ c.drops, x ∈ d.drops) :
    Kept c y := ⟨fun x hx => h.sets x (hs x hx), fun x hx => h.drops x (hd x hx)⟩

/-- What is kept is there at the end. -/
theorem run_kept {ok : Name → Prop} {c : Code} {e : Env} {o : Outcome} (h : Run ok c e o) {y : Var} :
    y ∈ e → Kept c y → ∀ e', o.env? = some e' → y ∈ e' := by
  have sub : ∀ {c d : Code}, (∀ x ∈ c.sets, x ∈ d.sets) → (∀ x ∈ c.drops, x ∈ d.drops) → Kept d y → Kept c y :=
    fun hs hd h => h.mono hs hd
  induction h with
  | done => intro hy _ e' he; simp [Outcome.env?] at he; exact he ▸ hy
  | use_wrong => intro _ _ _ he; simp [Outcome.env?] at he
  | use_raised => intro hy _ e' he; simp [Outcome.env?] at he; exact he ▸ hy
  | use _ _ ih => intro hy k; exact ih hy (sub (by simp [Code.sets]) (by simp [Code.drops]) k)
  | call_wrong => intro _ _ _ he; simp [Outcome.env?] at he
  | call_raised => intro hy _ e' he; simp [Outcome.env?] at he; exact he ▸ hy
  | call _ _ ih => intro hy k; exact ih hy (sub (by simp [Code.sets]) (by simp [Code.drops]) k)
  | bind _ ih =>
    intro hy k
    refine ih (mem_assign_of_mem hy (fun x hx => k.sets x (by simp [Code.sets, hx]))) (sub ?_ ?_ k) <;>
      simp +contextual [Code.sets, Code.drops]
  | forget _ ih =>
    intro hy k
    refine ih (mem_unassign hy (fun x hx => k.drops x (by simp [Code.drops, hx]))) (sub ?_ ?_ k) <;>
      simp +contextual [Code.sets, Code.drops]
  | leave => intro _ _ _ he; simp [Outcome.env?] at he
  | stop => intro hy _ e' he; simp [Outcome.env?] at he; exact he ▸ hy
  | yes _ _ ih1 ih2 =>
    intro hy k
    refine ih2 (ih1 hy (sub ?_ ?_ k) _ rfl) (sub ?_ ?_ k) <;> simp +contextual [Code.sets, Code.drops]
  | no _ _ ih1 ih2 =>
    intro hy k
    refine ih2 (ih1 hy (sub ?_ ?_ k) _ rfl) (sub ?_ ?_ k) <;> simp +contextual [Code.sets, Code.drops]
  | yes_out _ _ ih =>
    intro hy k
    refine ih hy (sub ?_ ?_ k) <;> simp +contextual [Code.sets, Code.drops]
  | no_out _ _ ih =>
    intro hy k
    refine ih hy (sub ?_ ?_ k) <;> simp +contextual [Code.sets, Code.drops]
  | over _ ih =>
    intro hy k
    refine ih hy (sub ?_ ?_ k) <;> simp +contextual [Code.sets, Code.drops]
  | again _ _ ih1 ih2 =>
    intro hy k
    refine ih2 (ih1 (mem_assign_of_mem hy (fun x hx => k.sets x (by simp [Code.sets, hx]))) (sub ?_ ?_ k) _ rfl) k <;>
      simp +contextual [Code.sets, Code.drops]
  | stopped _ _ ih1 ih2 =>
    intro hy k
    refine ih2 (ih1 (mem_assign_of_mem hy (fun x hx => k.sets x (by simp [Code.sets, hx]))) (sub ?_ ?_ k) _ rfl) k <;>
      simp +contextual [Code.sets, Code.drops]
  | body_out _ _ ih =>
    intro hy k
    refine ih (mem_assign_of_mem hy (fun x hx => k.sets x (by simp [Code.sets, hx]))) (sub ?_ ?_ k) <;>
      simp +contextual [Code.sets, Code.drops]
  | tried _ _ ih1 ih2 =>
    intro hy k
    refine ih2 (ih1 hy (sub ?_ ?_ k) _ rfl) (sub ?_ ?_ k) <;> simp +contextual [Code.sets, Code.drops]
  | tried_out _ _ ih =>
    intro hy k
    refine ih hy (sub ?_ ?_ k) <;> simp +contextual [Code.sets, Code.drops]
  | caught _ _ _ ih1 ih2 ih3 =>
    intro hy k
    refine ih3 (ih2 (ih1 hy (sub ?_ ?_ k) _ rfl) (sub ?_ ?_ k) _ rfl) (sub ?_ ?_ k) <;>
      simp +contextual [Code.sets, Code.drops]
  | caught_out _ _ _ ih1 ih2 =>
    intro hy k
    refine ih2 (ih1 hy (sub ?_ ?_ k) _ rfl) (sub ?_ ?_ k) <;> simp +contextual [Code.sets, Code.drops]

/-! ## The rules -/

/-- No execution from an environment with the variables `A` is wrong, and at the end there are the variables `B`. -/
def Safe (ok : Name → Prop) (c : Code) (A B : List Var) : Prop :=
  ∀ e, (∀ y ∈ A, y ∈ e) → ∀ o, Run ok c e o → o ≠ .wrong ∧ ∀ e', o = .next e' → ∀ y ∈ B, y ∈ e'

variable {ok : Name → Prop}

theorem Good.mono {A e : List Var} (h : ∀ y ∈ A, y ∈ e) {x : Name} (hx : Good ok A x) : Good ok e x := by
  cases x <;> simp_all [Good]

theorem Safe.weaken {c A A' B B'} (h : Safe ok c A B) (hA : ∀ y ∈ A, y ∈ A') (hB : ∀ y ∈ B', y ∈ B) :
    Safe ok c A' B' := by
  intro e he o hr
  have := h e (fun y hy => he y (hA y hy)) o hr
  exact ⟨this.1, fun e' ho y hy => this.2 e' ho y (hB y hy)⟩

/-- What the code keeps is still there. -/
theorem Safe.keep {c A B} (h : Safe ok c A B) {C : List Var} (hC : ∀ y ∈ C, y ∈ A ∧ Kept c y) : Safe ok c A (C ++ B) := by
  intro e he o hr
  refine ⟨(h e he o hr).1, fun e' ho y hy => ?_⟩
  rcases List.mem_append.1 hy with hy | hy
  · exact run_kept hr (he y (hC y hy).1) (hC y hy).2 e' (by rw [ho]; rfl)
  · exact (h e he o hr).2 e' ho y hy

theorem Safe.done {A} : Safe ok .done A A := by
  intro e he o hr
  cases hr
  exact ⟨by simp, fun e' ho y hy => by cases ho; exact he y hy⟩

theorem Safe.leave {A B} : Safe ok .leave A B := by
  intro e he o hr
  cases hr
  exact ⟨by simp, fun e' ho => by cases ho⟩

theorem Safe.stop {A B} : Safe ok .stop A B := by
  intro e he o hr
  cases hr
  exact ⟨by simp, fun e' ho => by cases ho⟩

theorem Safe.use {xs c A B} (hx : ∀ x ∈ xs, Good ok A x) (h : Safe ok c A B) : Safe ok (.use xs c) A B := by
  intro e he o hr
  cases hr with
  | use_wrong hm hn => exact absurd ((hx _ hm).mono he) hn
  | use_raised => exact ⟨by simp, fun e' ho => by cases ho⟩
  | use _ hr => exact h e he o hr

theorem Safe.call {f a k c A B} (hx : Good ok A f) (h : Safe ok c A B) : Safe ok (.call f a k c) A B := by
  intro e he o hr
  cases hr with
  | call_wrong hn => exact absurd (hx.mono he) hn
  | call_raised => exact ⟨by simp, fun e' ho => by cases ho⟩
  | call _ hr => exact h e he o hr

/-- The variables are different places. -/
def Distinct (xs : List Var) : Prop := ∀ x ∈ xs, Stays xs x

theorem assigned {xs A : List Var} {e : Env} (he : ∀ y ∈ A, y ∈ e) (hd : Distinct xs) (hk : ∀ y ∈ A, Stays xs y) :
    ∀ y ∈ xs ++ A, y ∈ assign xs e := by
  intro y hy
  rcases List.mem_append.1 hy with hy | hy
  · exact mem_assign_self hy (hd y hy)
  · exact mem_assign_of_mem (he y hy) (hk y hy)

theorem Safe.bind {xs c A B} (hd : Distinct xs) (hk : ∀ y ∈ A, Stays xs y) (h : Safe ok c (xs ++ A) B) :
    Safe ok (.bind xs c) A B := by
  intro e he o hr
  cases hr with
  | bind hr => exact h _ (assigned he hd hk) o hr

theorem Safe.forget {xs c A B} (hk : ∀ y ∈ A, ∀ x ∈ xs, x.text ≠ y.text) (h : Safe ok c A B) :
    Safe ok (.forget xs c) A B := by
  intro e he o hr
  cases hr with
  | forget hr => exact h _ (fun y hy => mem_unassign (he y hy) (hk y hy)) o hr

theorem Safe.branch {y n c A B C} (hy : Safe ok y A C) (hn : Safe ok n A C) (h : Safe ok c C B) :
    Safe ok (.branch y n c) A B := by
  intro e he o hr
  cases hr with
  | yes h1 h2 => exact h _ ((hy e he _ h1).2 _ rfl) o h2
  | no h1 h2 => exact h _ ((hn e he _ h1).2 _ rfl) o h2
  | yes_out h1 h2 => exact ⟨(hy e he _ h1).1, fun e' ho => absurd ho (h2 e')⟩
  | no_out h1 h2 => exact ⟨(hn e he _ h1).1, fun e' ho => absurd ho (h2 e')⟩

theorem Safe.loop {xs b c A B C} (hd : Distinct xs) (hk : ∀ y ∈ A, Stays xs y ∧ Kept b y) (hb : Safe ok b (xs ++ A) C)
    (h : Safe ok c A B) : Safe ok (.loop xs b c) A B := by
  intro e he o hr
  generalize hc : Code.loop xs b c = d at hr
  have step : ∀ {e e' : Env} {o}, (∀ y ∈ A, y ∈ e) → Run ok b (assign xs e) o → o.env? = some e' → ∀ y ∈ A, y ∈ e' :=
    fun he hr ho y hy => run_kept hr (mem_assign_of_mem (he y hy) (hk y hy).1) (hk y hy).2 _ ho
  induction hr with
  | over hr => cases hc; exact h _ he _ hr
  | again h1 _ _ ih => cases hc; exact ih (step he h1 rfl) rfl
  | stopped h1 _ _ ih => cases hc; exact ih (step he h1 rfl) rfl
  | body_out h1 h2 =>
    cases hc
    exact ⟨(hb _ (assigned he hd fun y hy => (hk y hy).1) _ h1).1, fun e' ho => absurd ho (h2 e').1⟩
  | _ => cases hc

theorem Safe.attempt {b h c A B C D} (hb : Safe ok b A C) (hD : ∀ y ∈ D, y ∈ A ∧ Kept b y) (hh : Safe ok h D C)
    (hc : Safe ok c C B) : Safe ok (.attempt b h c) A B := by
  intro e he o hr
  have step : ∀ {e'}, Run ok b e (.raised e') → ∀ y ∈ D, y ∈ e' :=
    fun hr y hy => run_kept hr (he y (hD y hy).1) (hD y hy).2 _ rfl
  cases hr with
  | tried h1 h2 => exact hc _ ((hb e he _ h1).2 _ rfl) o h2
  | tried_out h1 h2 => exact ⟨(hb e he _ h1).1, fun e' ho => absurd ho (h2 e')⟩
  | caught h1 h2 h3 => exact hc _ ((hh _ (step h1) _ h2).2 _ rfl) o h3
  | caught_out h1 h2 h3 => exact ⟨(hh _ (step h1) _ h2).1, fun e' ho => absurd ho (h3 e')⟩

@[simp] theorem leave_append (d) : (Code.leave ++ d) = .leave := rfl
@[simp] theorem stop_append (d) : (Code.stop ++ d) = .stop := rfl

/-- The executions of two pieces of code. -/
theorem run_append {c d : Code} {e o} (h : Run ok (c ++ d) e o) :
    (∃ e', Run ok c e (.next e') ∧ Run ok d e' o) ∨ (Run ok c e o ∧ ∀ e', o ≠ .next e') := by
  induction c generalizing e o with
  | done => exact .inl ⟨e, .done, h⟩
  | use xs c ih =>
    cases h with
    | use_wrong h1 h2 => exact .inr ⟨.use_wrong h1 h2, by simp⟩
    | use_raised h1 => exact .inr ⟨.use_raised h1, by simp⟩
    | use h1 h2 =>
      rcases ih h2 with ⟨e', r1, r2⟩ | ⟨r1, r2⟩
      · exact .inl ⟨e', .use h1 r1, r2⟩
      · exact .inr ⟨.use h1 r1, r2⟩
  | call f a k c ih =>
    cases h with
    | call_wrong h1 => exact .inr ⟨.call_wrong h1, by simp⟩
    | call_raised h1 => exact .inr ⟨.call_raised h1, by simp⟩
    | call h1 h2 =>
      rcases ih h2 with ⟨e', r1, r2⟩ | ⟨r1, r2⟩
      · exact .inl ⟨e', .call h1 r1, r2⟩
      · exact .inr ⟨.call h1 r1, r2⟩
  | bind xs c ih =>
    cases h with
    | bind h2 =>
      rcases ih h2 with ⟨e', r1, r2⟩ | ⟨r1, r2⟩
      · exact .inl ⟨e', .bind r1, r2⟩
      · exact .inr ⟨.bind r1, r2⟩
  | forget xs c ih =>
    cases h with
    | forget h2 =>
      rcases ih h2 with ⟨e', r1, r2⟩ | ⟨r1, r2⟩
      · exact .inl ⟨e', .forget r1, r2⟩
      · exact .inr ⟨.forget r1, r2⟩
  | branch y n c _ _ ih =>
    cases h with
    | yes h1 h2 =>
      rcases ih h2 with ⟨e', r1, r2⟩ | ⟨r1, r2⟩
      · exact .inl ⟨e', .yes h1 r1, r2⟩
      · exact .inr ⟨.yes h1 r1, r2⟩
    | no h1 h2 =>
      rcases ih h2 with ⟨e', r1, r2⟩ | ⟨r1, r2⟩
      · exact .inl ⟨e', .no h1 r1, r2⟩
      · exact .inr ⟨.no h1 r1, r2⟩
    | yes_out h1 h2 => exact .inr ⟨.yes_out h1 h2, h2⟩
    | no_out h1 h2 => exact .inr ⟨.no_out h1 h2, h2⟩
  | loop xs b c _ ih =>
    generalize hx : Code.loop xs b c ++ d = x at h
    induction h with
    | over h2 =>
      cases hx
      rcases ih h2 with ⟨e', r1, r2⟩ | ⟨r1, r2⟩
      · exact .inl ⟨e', .over r1, r2⟩
      · exact .inr ⟨.over r1, r2⟩
    | again h1 _ _ ih2 =>
      cases hx
      rcases ih2 rfl with ⟨e', r1, r2⟩ | ⟨r1, r2⟩
      · exact .inl ⟨e', .again h1 r1, r2⟩
      · exact .inr ⟨.again h1 r1, r2⟩
    | stopped h1 _ _ ih2 =>
      cases hx
      rcases ih2 rfl with ⟨e', r1, r2⟩ | ⟨r1, r2⟩
      · exact .inl ⟨e', .stopped h1 r1, r2⟩
      · exact .inr ⟨.stopped h1 r1, r2⟩
    | body_out h1 h2 =>
      cases hx
      exact .inr ⟨.body_out h1 h2, fun e' => (h2 e').1⟩
    | _ => cases hx
  | attempt b h' c _ _ ih =>
    cases h with
    | tried h1 h2 =>
      rcases ih h2 with ⟨e', r1, r2⟩ | ⟨r1, r2⟩
      · exact .inl ⟨e', .tried h1 r1, r2⟩
      · exact .inr ⟨.tried h1 r1, r2⟩
    | tried_out h1 h2 => exact .inr ⟨.tried_out h1 h2, h2⟩
    | caught h1 h2 h3 =>
      rcases ih h3 with ⟨e', r1, r2⟩ | ⟨r1, r2⟩
      · exact .inl ⟨e', .caught h1 h2 r1, r2⟩
      · exact .inr ⟨.caught h1 h2 r1, r2⟩
    | caught_out h1 h2 h3 => exact .inr ⟨.caught_out h1 h2 h3, h3⟩
  | leave => exact .inr ⟨h, by cases h; simp⟩
  | stop => exact .inr ⟨h, by cases h; simp⟩

theorem Safe.append {c d A B C} (hc : Safe ok c A B) (hd : Safe ok d B C) : Safe ok (c ++ d) A C := by
  intro e he o hr
  rcases run_append hr with ⟨e', r1, r2⟩ | ⟨r1, r2⟩
  · exact hd e' ((hc e he _ r1).2 _ rfl) o r2
  · exact ⟨(hc e he _ r1).1, fun e' ho => absurd ho (r2 e')⟩

/-! ## The texts of variables -/

/-- The text does not end with a digit. -/
def NoDigit (x : Str) : Prop := ∀ c, x.getLast? = some c → c.isDigit = false

instance (x : Str) : Decidable (NoDigit x) :=
  match h : x.getLast? with
  | none => isTrue (by simp [NoDigit, h])
  | some c => if hc : c.isDigit = false then isTrue (by simp [NoDigit, h, hc])
    else isFalse (by simp [NoDigit, h]; simpa using hc)

theorem noDigit_append {x y : Str} (hy : y ≠ []) (h : NoDigit y) : NoDigit (x ++ y) := by
  intro c hc
  rw [List.getLast?_append] at hc
  cases hx : y.getLast? with
  | none => simp [List.getLast?_eq_none_iff] at hx; exact absurd hx hy
  | some d => rw [hx] at hc; simp at hc; exact hc ▸ h d hx

theorem natStr_last (n : Nat) : ∃ c, (Text.natStr n).getLast? = some c ∧ c.isDigit = true := by
  cases hx : (Text.natStr n).getLast? with
  | none => simp [List.getLast?_eq_none_iff] at hx; exact absurd hx (Duration.natStr_ne_nil n)
  | some c => exact ⟨c, rfl, Duration.natStr_digits n c (List.mem_of_getLast? hx)⟩

theorem temp_digit (b : Str) (n : Nat) : ¬ NoDigit (Var.temp b n).text := by
  intro h
  obtain ⟨c, hc, hd⟩ := natStr_last n
  have : (Var.temp b n).text.getLast? = some c := by
    show (b ++ ('_' :: Text.natStr n)).getLast? = _
    rw [List.getLast?_append, List.getLast?_cons, hc]
    rfl
  rw [h c this] at hd
  cases hd

/-- The text of a variable with an identifier tells the identifier. -/
theorem temp_inj {b b' : Str} {n n' : Nat} (h : (Var.temp b n).text = (Var.temp b' n').text) : b = b' ∧ n = n' := by
  have hr := congrArg List.reverse h
  simp only [Var.text, List.reverse_append, List.reverse_cons, List.append_assoc, List.singleton_append] at hr
  have digits : ∀ k (c : Char), c ∈ (Text.natStr k).reverse → c.isDigit = true :=
    fun k c hc => Duration.natStr_digits k c (List.mem_reverse.1 hc)
  have take : ∀ k (xs : Str), ((Text.natStr k).reverse ++ '_' :: xs).takeWhile Char.isDigit = (Text.natStr k).reverse := by
    intro k xs
    rw [List.takeWhile_append_of_pos (digits k)]
    simp [List.takeWhile]
  have hn : (Text.natStr n).reverse = (Text.natStr n').reverse := by
    rw [← take n b.reverse, hr, take]
  rw [hn] at hr
  have := List.append_cancel_left hr
  simp only [List.cons.injEq, List.reverse_inj, true_and] at this
  exact ⟨this, GoCode.natStr_inj (List.reverse_inj.1 hn)⟩

end Mapry.PyCode
