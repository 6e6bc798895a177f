import Verif.PyParse
import Verif.GoPackage

/-!
# The names and the calls in the code which parses a value
-/

namespace Mapry.PyCode

set_option linter.unusedSimpArgs false

open Mapry.TypeGraph Mapry.Naming Mapry.ParseSchema
open Mapry.GoCode (referencesOf hasPattern)

/-- A variable or a builtin. -/
inductive Plain : Name → Prop where
  | var (x) : Plain (.var x)
  | builtin (x) : x ∈ builtins → Plain (.builtin x)

@[simp] theorem plain_var (x) : Plain (.var x) ↔ True := ⟨fun _ => trivial, fun _ => .var x⟩
@[simp] theorem plain_v (x) : Plain (v x) ↔ True := ⟨fun _ => trivial, fun _ => .var _⟩
@[simp] theorem plain_t (x n) : Plain (t x n) ↔ True := ⟨fun _ => trivial, fun _ => .var _⟩
@[simp] theorem plain_errors : Plain errors ↔ True := ⟨fun _ => trivial, fun _ => .var _⟩
@[simp] theorem plain_b (x) : Plain (b x) ↔ x ∈ builtins := ⟨fun h => by cases h; assumption, .builtin x⟩

theorem asVariable_eq {x f : Str} (h : asVariable x = .ok f) : f = lower x ∧ ∃ c cs, x = c :: cs ∧ isUpper c = true := by
  unfold asVariable at h
  split at h
  · cases h
  · split at h
    · cases h; exact ⟨rfl, _, _, rfl, by assumption⟩
    · cases h

theorem asAttribute_eq {x f : Str} (h : asAttribute x = .ok f) : f = lower x ∧ x ≠ [] := by
  unfold asAttribute at h
  split at h
  · cases h
  · cases h; exact ⟨rfl, by assumption⟩

/-- The names of a type in the module `fromjsonable`. -/
def fromNames (py : Py) : Ty → List Name
  | .string p => if p.isSome then [re] else []
  | .path p => (if p.isSome then [re] else []) ++ if py.pathAs = c!"pathlib.Path" then [pathlib] else []
  | .date _ => [datetime]
  | .time _ => [datetime]
  | .datetime _ => [datetime]
  | .timeZone => if py.timezoneAs = c!"pytz.timezone" then [lib c!"pytz", lib c!"pytz.exceptions"] else []
  | .duration => [.glob c!"_duration_from_string"]
  | .map _ => [collections]
  | .embed name => [.member (parsePath py) (c!"placeholder_" ++ lower name), .glob (c!"_" ++ lower name ++ c!"_from")]
  | _ => []

/-- All the names in a piece of code. -/
def All (P : Name → Prop) (c : Code) : Prop := ∀ x ∈ c.names, P x

variable {P : Name → Prop}

@[simp] theorem all_done : All P .done ↔ True := by simp [All, Code.names]
@[simp] theorem all_leave : All P .leave ↔ True := by simp [All, Code.names]
@[simp] theorem all_stop : All P .stop ↔ True := by simp [All, Code.names]
@[simp] theorem all_use (xs c) : All P (.use xs c) ↔ (∀ x ∈ xs, P x) ∧ All P c := by
  simp only [All, Code.names, List.forall_mem_append]
@[simp] theorem all_call (f a k c) : All P (.call f a k c) ↔ P f ∧ All P c := by
  simp only [All, Code.names, List.forall_mem_cons]
@[simp] theorem all_bind (xs c) : All P (.bind xs c) ↔ All P c := Iff.rfl
@[simp] theorem all_forget (xs c) : All P (.forget xs c) ↔ All P c := Iff.rfl
@[simp] theorem all_branch (y n c) : All P (.branch y n c) ↔ All P y ∧ All P n ∧ All P c := by
  simp only [All, Code.names, List.forall_mem_append, and_assoc]
@[simp] theorem all_loop (xs c d) : All P (.loop xs c d) ↔ All P c ∧ All P d := by
  simp only [All, Code.names, List.forall_mem_append]
@[simp] theorem all_attempt (y n c) : All P (.attempt y n c) ↔ All P y ∧ All P n ∧ All P c := by
  simp only [All, Code.names, List.forall_mem_append, and_assoc]
theorem all_append {c d} (hc : All P c) (hd : All P d) : All P (c ++ d) := by
  intro x hx
  exact (names_append hx).elim (hc x) (hd x)
@[simp] theorem all_report (ref args) : All P (report ref args) ↔ P errors ∧ (∀ x ∈ ref, P x) ∧ ∀ x ∈ args, P x := by
  simp only [report, all_use, List.cons_append, List.forall_mem_append, List.forall_mem_cons, all_done, and_true]
@[simp] theorem all_store (tgt xs) : All P (store tgt xs) ↔ (∀ x ∈ xs, P x) ∧ ∀ x ∈ tgt.uses, P x := by
  simp only [store, all_use, List.forall_mem_append, all_bind, all_done, and_true]
@[simp] theorem all_expect (value types ref body) : All P (expect value types ref body) ↔
    P (b c!"isinstance") ∧ P value ∧ (∀ x ∈ types, P x) ∧ P errors ∧ (∀ x ∈ ref, P x) ∧ P (b c!"type") ∧ All P body := by
  simp only [expect, all_use, List.forall_mem_cons, all_branch, all_report, List.not_mem_nil, false_implies, implies_true,
    all_done, and_true]
  grind

theorem all_bounds {ref bd value body} (hv : P value) (he : P errors) (hr : ∀ x ∈ ref, P x) (h : All P body) :
    All P (checkBounds ref bd value body) := by
  unfold checkBounds
  split <;> simp [hv, he, h] <;> exact hr

theorem all_pattern {ref p value body} (hv : P value) (he : P errors) (hr : ∀ x ∈ ref, P x) (hp : p.isSome → P re)
    (h : All P body) : All P (checkPattern ref p value body) := by
  unfold checkPattern
  split <;> simp_all

theorem all_size {ref p value body} (hv : P value) (he : P errors) (hr : ∀ x ∈ ref, P x) (hl : P (b c!"len"))
    (h : All P body) : All P (checkSize ref p value body) := by
  unfold checkSize
  split <;> simp_all

/-- The names of the parts of a type. -/
def Uses (py : Py) (ty : Ty) (x : Name) : Prop := Plain x ∨ ∃ u ∈ parts ty, x ∈ fromNames py u

theorem Uses.plain {py ty x} (h : Plain x) : Uses py ty x := .inl h
theorem Uses.own {py ty x} (h : x ∈ fromNames py ty) : Uses py ty x := .inr ⟨ty, self_mem_parts ty, h⟩

variable {py : Py} {ty : Ty}

@[simp] theorem uses_var (x) : Uses py ty (.var x) ↔ True := ⟨fun _ => trivial, fun _ => .plain (.var x)⟩
@[simp] theorem uses_v (x) : Uses py ty (v x) ↔ True := ⟨fun _ => trivial, fun _ => .plain (.var _)⟩
@[simp] theorem uses_t (x n) : Uses py ty (t x n) ↔ True := ⟨fun _ => trivial, fun _ => .plain (.var _)⟩
@[simp] theorem uses_errors : Uses py ty errors ↔ True := ⟨fun _ => trivial, fun _ => .plain (.var _)⟩
theorem uses_b (x) (h : x ∈ builtins) : Uses py ty (b x) := .plain (.builtin x h)

macro "known" : tactic => `(tactic| exact uses_b _ (by simp [builtins]))

theorem dateTime_all {value tgt ref} (hd : Uses py ty datetime) (h1 : ∀ x ∈ tgt.uses, Plain x)
    (h2 : ∀ x ∈ ref, Plain x) : All (Uses py ty) (parseDateTime value tgt ref) := by
  have i1 : Uses py ty (b c!"isinstance") := by known
  have i2 : Uses py ty (b c!"type") := by known
  have i3 : Uses py ty (b c!"str") := by known
  have i4 : Uses py ty (b c!"ValueError") := by known
  have h1' : ∀ x ∈ tgt.uses, Uses py ty x := fun x hx => .plain (h1 x hx)
  have h2' : ∀ x ∈ ref, Uses py ty x := fun x hx => .plain (h2 x hx)
  simp only [parseDateTime, all_expect, all_attempt, all_store, all_use, all_report, all_done, uses_var, uses_errors,
    List.forall_mem_cons, List.not_mem_nil, false_implies, implies_true, true_and, and_true]
  exact ⟨i1, i3, h2', i2, ⟨hd, h1'⟩, i4, h2'⟩

theorem parses_names {ctx : Ctx} {ty value tgt ref n c} (h : Parses ctx ty value tgt ref n c)
    (h1 : ∀ x ∈ tgt.uses, Plain x) (h2 : ∀ x ∈ ref, Plain x)
    (h3 : ∀ c l, ctx.registry c = .ok l → ∀ x ∈ l, Plain x) : All (Uses ctx.py ty) c := by
  have i1 : ∀ {py ty}, Uses py ty (b c!"isinstance") := by intros; known
  have i2 : ∀ {py ty}, Uses py ty (b c!"type") := by intros; known
  have i3 : ∀ {py ty}, Uses py ty (b c!"str") := by intros; known
  have i4 : ∀ {py ty}, Uses py ty (b c!"int") := by intros; known
  have i5 : ∀ {py ty}, Uses py ty (b c!"float") := by intros; known
  have i6 : ∀ {py ty}, Uses py ty (b c!"bool") := by intros; known
  have i7 : ∀ {py ty}, Uses py ty (b c!"len") := by intros; known
  have i8 : ∀ {py ty}, Uses py ty (b c!"list") := by intros; known
  have i9 : ∀ {py ty}, Uses py ty (b c!"dict") := by intros; known
  have i10 : ∀ {py ty}, Uses py ty (b c!"enumerate") := by intros; known
  have i11 : ∀ {py ty}, Uses py ty (b c!"ValueError") := by intros; known
  have i12 : ∀ {py ty}, Uses py ty (b c!"OverflowError") := by intros; known
  have h1' : ∀ {py ty}, ∀ x ∈ tgt.uses, Uses py ty x := fun x hx => .plain (h1 x hx)
  have h2' : ∀ {py ty}, ∀ x ∈ ref, Uses py ty x := fun x hx => .plain (h2 x hx)
  induction h with
  | boolean value tgt ref n => simpa [*] using ⟨h2', h1'⟩
  | integer bd value tgt ref n =>
    simp only [all_expect, List.forall_mem_cons, List.not_mem_nil, false_implies, implies_true, true_and, and_true]
    exact ⟨i1, .plain (.var _), i4, .plain (.var _), h2', i2, all_bounds (by simp) (by simp) h2' ((all_store _ _).2 ⟨by simp [*], h1'⟩)⟩
  | float bd value tgt ref n =>
    simp only [all_expect, List.forall_mem_cons, List.not_mem_nil, false_implies, implies_true, true_and, and_true]
    exact ⟨i1, .plain (.var _), ⟨i4, i5⟩, .plain (.var _), h2', i2, all_bounds (by simp) (by simp) h2' ((all_store _ _).2 ⟨by simp [*], h1'⟩)⟩
  | string p value tgt ref n =>
    simp only [all_expect, List.forall_mem_cons, List.not_mem_nil, false_implies, implies_true, true_and, and_true]
    exact ⟨i1, .plain (.var _), i3, .plain (.var _), h2', i2, all_pattern (by simp) (by simp) h2'
      (fun hp => .own (by simp [fromNames, hp])) ((all_store _ _).2 ⟨by simp [*], h1'⟩)⟩
  | pathStr p value tgt ref n hpa =>
    simp only [all_expect, List.forall_mem_cons, List.not_mem_nil, false_implies, implies_true, true_and, and_true]
    exact ⟨i1, .plain (.var _), i3, .plain (.var _), h2', i2, all_pattern (by simp) (by simp) h2'
      (fun hp => .own (by simp [fromNames, hp])) ((all_store _ _).2 ⟨by simp [*], h1'⟩)⟩
  | pathLib p value tgt ref n hpa =>
    simp only [all_expect, List.forall_mem_cons, List.not_mem_nil, false_implies, implies_true, true_and, and_true]
    have : Uses ctx.py (.path p) pathlib := .own (by simp [fromNames, hpa])
    exact ⟨i1, .plain (.var _), i3, .plain (.var _), h2', i2, all_pattern (by simp) (by simp) h2'
      (fun hp => .own (by simp [fromNames, hp])) ((all_store _ _).2 ⟨by simp [*], h1'⟩)⟩
  | date f value tgt ref n => exact dateTime_all (.own (by simp [fromNames])) h1 h2
  | time f value tgt ref n => exact dateTime_all (.own (by simp [fromNames])) h1 h2
  | datetime f value tgt ref n => exact dateTime_all (.own (by simp [fromNames])) h1 h2
  | zoneStr value tgt ref n hz => simpa [*] using ⟨h2', h1'⟩
  | zonePytz value tgt ref n hz =>
    have u1 : Uses ctx.py .timeZone (lib c!"pytz") := .own (by simp [fromNames, hz])
    have u2 : Uses ctx.py .timeZone (lib c!"pytz.exceptions") := .own (by simp [fromNames, hz])
    simpa [*] using ⟨h2', h1', h2'⟩
  | duration value tgt ref n =>
    have u1 : Uses ctx.py .duration (.glob c!"_duration_from_string") := .own (by simp [fromNames])
    simp only [all_expect, all_attempt, all_store, all_use, all_call, all_bind, all_forget, all_done, uses_var, uses_errors,
      uses_v, List.forall_mem_cons, List.forall_mem_append, List.cons_append, List.not_mem_nil, false_implies, implies_true,
      true_and, and_true]
    exact ⟨i1, i3, h2', i2, ⟨u1, h1'⟩, ⟨i11, i12⟩, h2', i3⟩
  | array x lo hi value tgt ref n item hp ih =>
    have hi' : All (Uses ctx.py (.array x lo hi)) item := by
      intro y hy
      refine (ih (by simp) ?_ (by simp) ?_ y hy).imp id (fun ⟨u, hu, hy⟩ => ⟨u, List.mem_cons_of_mem _ hu, hy⟩)
      · simp only [List.forall_mem_append, List.forall_mem_cons, plain_b, plain_t]
        exact ⟨h2, by simp [builtins], by simp⟩
      · simp only [List.forall_mem_append, List.forall_mem_cons, uses_t]
        exact ⟨h2', i3, by simp⟩
    simp only [arrayCode, all_expect, List.forall_mem_cons, List.not_mem_nil, false_implies, implies_true, true_and, and_true]
    refine ⟨i1, .plain (.var _), i8, .plain (.var _), h2', i2, all_size (by simp) (by simp) h2' i7
      (all_size (by simp) (by simp) h2' i7 ?_)⟩
    simp only [all_bind, all_use, all_loop, all_store, List.forall_mem_cons, List.not_mem_nil, false_implies, implies_true,
      true_and, and_true, uses_var, uses_t]
    exact ⟨i10, all_append hi' (by simp), h1'⟩
  | map x value tgt ref n item hp ih =>
    have hi' : All (Uses ctx.py (.map x)) item := by
      intro y hy
      refine (ih (by simp) ?_ (by simp) ?_ y hy).imp id (fun ⟨u, hu, hy⟩ => ⟨u, List.mem_cons_of_mem _ hu, hy⟩)
      · simp only [List.forall_mem_append, List.forall_mem_cons, plain_b, plain_t]
        exact ⟨h2, by simp [builtins], by simp⟩
      · simp only [List.forall_mem_append, List.forall_mem_cons, uses_t]
        exact ⟨h2', by known, by simp⟩
    have u1 : Uses ctx.py (.map x) collections := .own (by simp [fromNames])
    simp only [mapCode, all_expect, all_bind, all_use, all_loop, all_branch, all_store, all_done, all_stop, report,
      use_append, done_append, List.forall_mem_cons, List.forall_mem_append, List.cons_append, List.not_mem_nil,
      false_implies, implies_true, true_and, and_true, uses_var, uses_t, uses_errors]
    exact ⟨i1, i9, h2', i2, ⟨i1, u1⟩, u1, i9, ⟨⟨i1, i3⟩, ⟨h2', i2⟩, all_append hi' (by simp)⟩, h1'⟩
  | cls c value tgt ref n registry hr =>
    have h3' : ∀ {py ty}, ∀ x ∈ registry, Uses py ty x := fun x hx => .plain (h3 c registry hr x hx)
    simp only [all_expect, all_bind, all_use, all_branch, all_store, all_done, all_report,
      List.forall_mem_cons, List.forall_mem_append, List.cons_append, List.not_mem_nil,
      false_implies, implies_true, true_and, and_true, uses_var, uses_t, uses_errors]
    exact ⟨i1, i3, h2', i2, h3', h2', h1'⟩
  | embed name value tgt ref n refs registries f hrf hrs hf =>
    obtain ⟨rfl, _⟩ := asVariable_eq hf
    have h3' : ∀ {py ty}, ∀ x ∈ registries.flatten, Uses py ty x := by
      intro py ty x hx
      obtain ⟨l, hl, hx⟩ := List.mem_flatten.1 hx
      obtain ⟨r, _, hr⟩ := GoCode.mapM_mem hrs hl
      exact .plain (h3 r l hr x hx)
    simp only [all_call, all_bind, all_use, all_branch, all_store, all_done,
      List.forall_mem_cons, List.forall_mem_append, List.cons_append, List.not_mem_nil,
      false_implies, implies_true, true_and, and_true, uses_var, uses_t, uses_errors]
    exact ⟨.own (by simp [fromNames]), ⟨h3', h2'⟩, .own (by simp [fromNames]), h1'⟩

/-- Every name of the parts is looked up. -/
theorem parses_uses {ctx : Ctx} {ty value tgt ref n c} (h : Parses ctx ty value tgt ref n c) {u : Ty} (hu : u ∈ parts ty)
    {x : Name} (hx : x ∈ fromNames ctx.py u) : x ∈ c.names := by
  induction h with
  | boolean | integer | float | zoneStr | cls =>
    simp only [parts, List.mem_singleton] at hu
    subst hu
    simp_all [fromNames]
  | string p value tgt ref n =>
    simp only [parts, List.mem_singleton] at hu
    subst hu
    cases p with
    | none => simp [fromNames] at hx
    | some p =>
      simp [fromNames] at hx
      simp [hx, expect, checkPattern, Code.names]
  | pathStr p value tgt ref n hp =>
    simp only [parts, List.mem_singleton] at hu
    subst hu
    cases p with
    | none => simp [fromNames, hp] at hx
    | some p =>
      simp [fromNames, hp] at hx
      simp [hx, expect, checkPattern, store, Code.names]
  | pathLib p value tgt ref n hp =>
    simp only [parts, List.mem_singleton] at hu
    subst hu
    cases p with
    | none =>
      simp [fromNames, hp] at hx
      simp [hx, expect, checkPattern, store, Code.names]
    | some p =>
      simp [fromNames, hp] at hx
      rcases hx with hx | hx <;> simp [hx, expect, checkPattern, store, Code.names]
  | date f value tgt ref n | time f value tgt ref n | datetime f value tgt ref n =>
    simp only [parts, List.mem_singleton] at hu
    subst hu
    simp [fromNames] at hx
    simp [hx, expect, parseDateTime, store, Code.names]
  | zonePytz value tgt ref n hz =>
    simp only [parts, List.mem_singleton] at hu
    subst hu
    simp [fromNames, hz] at hx
    rcases hx with hx | hx <;> simp [hx, expect, store, Code.names]
  | duration value tgt ref n =>
    simp only [parts, List.mem_singleton] at hu
    subst hu
    simp [fromNames] at hx
    simp [hx, expect, store, Code.names]
  | array y lo hi value tgt ref n item hp ih =>
    simp only [parts, List.mem_cons] at hu
    rcases hu with rfl | hu
    · simp [fromNames] at hx
    · have := ih hu
      unfold arrayCode
      refine (expect_names fun _ h => h).2.2.2.2.2.2 x ((size_names fun _ h => h).2 x ((size_names fun _ h => h).2 x ?_))
      simp only [Code.names, List.mem_append]
      exact .inr (.inl (names_left this))
  | map y value tgt ref n item hp ih =>
    simp only [parts, List.mem_cons] at hu
    unfold mapCode
    refine (expect_names fun _ h => h).2.2.2.2.2.2 x ?_
    rcases hu with rfl | hu
    · simp [fromNames] at hx
      simp [hx, Code.names]
    · have := ih hu
      simp only [Code.names, List.mem_append]
      exact .inr (.inr (.inr (.inl (.inr (.inr (names_left this))))))
  | embed name value tgt ref n refs registries f hrf hrs hf =>
    obtain ⟨rfl, _⟩ := asVariable_eq hf
    simp only [parts, List.mem_singleton] at hu
    subst hu
    simp [fromNames] at hx
    rcases hx with hx | hx <;> simp [hx, Code.names]

/-- The calls of a type in the module `fromjsonable`. -/
inductive FromCall (g : Graph) (py : Py) : Ty → Call → Prop where
  | duration : FromCall g py .duration ⟨.glob c!"_duration_from_string", [.other], []⟩
  | placeholder (name) : FromCall g py (.embed name) ⟨.member (parsePath py) (c!"placeholder_" ++ lower name), [], []⟩
  | parse (name refs) : referencesOf g (.embed name) = .ok refs → FromCall g py (.embed name)
    ⟨.glob (c!"_" ++ lower name ++ c!"_from"), .value :: refs.map .registry ++ [.ref, .target name, .errors], []⟩

theorem bounds_calls {ref bd value body} : (checkBounds ref bd value body).calls = body.calls := by
  unfold checkBounds
  split <;> simp [Code.calls, report]

theorem pattern_calls {ref p value body} : (checkPattern ref p value body).calls = body.calls := by
  unfold checkPattern
  split <;> simp [Code.calls, report]

theorem size_calls {ref p value body} : (checkSize ref p value body).calls = body.calls := by
  unfold checkSize
  split <;> simp [Code.calls, report]

@[simp] theorem expect_calls {value types ref body} : (expect value types ref body).calls = body.calls := by
  simp [expect, Code.calls, report]

@[simp] theorem store_calls {tgt xs} : (store tgt xs).calls = [] := rfl

@[simp] theorem report_calls {ref args} : (report ref args).calls = [] := rfl

theorem parses_calls {ctx : Ctx} {ty value tgt ref n c} (h : Parses ctx ty value tgt ref n c) {a : Call}
    (ha : a ∈ c.calls) : ∃ u ∈ parts ty, FromCall ctx.graph ctx.py u a := by
  induction h with
  | boolean | integer | float | zoneStr | cls | string | pathStr | pathLib | date | time | datetime | zonePytz =>
    simp [bounds_calls, pattern_calls, parseDateTime, Code.calls] at ha
  | duration value tgt ref n =>
    simp [Code.calls] at ha
    subst ha
    exact ⟨_, self_mem_parts _, .duration⟩
  | array y lo hi value tgt ref n item hp ih =>
    simp only [arrayCode, expect_calls, size_calls, Code.calls, store_calls, List.append_nil] at ha
    rcases calls_append ha with ha | ha
    · obtain ⟨u, hu, h⟩ := ih ha
      exact ⟨u, List.mem_cons_of_mem _ hu, h⟩
    · simp [Code.calls] at ha
  | map y value tgt ref n item hp ih =>
    simp only [mapCode, expect_calls, report, use_append, done_append, Code.calls, store_calls, List.append_nil,
      List.nil_append] at ha
    rcases calls_append ha with ha | ha
    · obtain ⟨u, hu, h⟩ := ih ha
      exact ⟨u, List.mem_cons_of_mem _ hu, h⟩
    · simp [Code.calls] at ha
  | embed name value tgt ref n refs registries f hrf hrs hf =>
    obtain ⟨rfl, _⟩ := asVariable_eq hf
    simp only [Code.calls, store_calls, List.mem_cons, List.not_mem_nil, or_false] at ha
    rcases ha with rfl | rfl
    · exact ⟨_, self_mem_parts _, .placeholder name⟩
    · exact ⟨_, self_mem_parts _, .parse name refs hrf⟩

end Mapry.PyCode
