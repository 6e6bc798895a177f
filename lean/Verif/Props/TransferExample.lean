import Verif.Props.Transfer
import Verif.Props.InteropExample
import Verif.Props.CppRound

/-! # Examples for C64 -/

namespace Mapry.Props.TransferExample

open Mapry.Duration Mapry.Interop Mapry.LangValidate

abbrev schema : Graph := PyRuntime.Demo.schema

theorem keys : OwnKeys schema := by constructor <;> decide +kernel

/-- The values of the examples -/
def Small : Ty → AVal → Prop
  | .integer _, a => a = .none ∨ ∃ i : Int, a = .int i ∧ i.natAbs ≤ 150
  | .float _, a => ∃ q : Rat, a = .float (.fin q) ∧ -10 < q ∧ q < 10
  | .date f, a => f = c!"%Y-%m-%d" ∧ (a = .none ∨ a = .date 2020 1 2)
  | .duration, a => a = .none ∨ a = .duration 1000000000
  | .string _, _ => True
  | .cls _, _ => True
  | _, _ => False

theorem zip_of {α β γ : Type} {R : α → β → γ → Prop} {l : List α} {m : List β} {k : List γ} (h : Forall₃ R l m k) :
    ∀ e ∈ l.zip m, ∃ x, (e.1, x) ∈ l.zip k ∧ R e.1 e.2 x := by
  induction h with
  | nil => intro e he; cases he
  | cons h _ ih =>
    intro e he
    rcases List.mem_cons.1 he with rfl | he
    · exact ⟨_, .head _, h⟩
    · obtain ⟨x, hx, hr⟩ := ih e he
      exact ⟨x, .tail _ hx, hr⟩

theorem mem_of {α β : Type} {R : α → β → Prop} {l : List α} {m : List β} (h : Unordered R l m) :
    ∀ a ∈ l, ∃ b ∈ m, R a b := by
  obtain ⟨m', hp, h⟩ := h
  intro a ha
  obtain ⟨b, hb, hr⟩ := PyRuntime.forall₂_left h a ha
  exact ⟨b, hp.mem_iff.1 hb, hr⟩

/-- Whatever the Go graph of the examples shows is small. -/
theorem go_small : ∀ a, GoGraph schema 3 a GoRuntime.Demo.value → AllGraph Small (fun _ _ => True) schema 3 a := by
  rintro ⟨fs, rs⟩ ⟨h1, h2⟩
  refine ⟨?_, ?_⟩
  · intro e he
    obtain ⟨x, hx, _, _, h⟩ := zip_of h2 e he
    simp only [schema, PyRuntime.Demo.schema, GoRuntime.Demo.value, List.zip_cons_cons, List.zip_nil_right,
      List.mem_cons, List.not_mem_nil, or_false, Prod.mk.injEq] at hx
    rcases hx with ⟨e1, rfl⟩ | ⟨e1, rfl⟩ | ⟨e1, rfl⟩ <;> rw [e1] at h ⊢
    · rcases h with ⟨h, _⟩ | ⟨as, xs, e2, e3, h⟩
      · cases h
      · intro as' e4 a ha
        cases e3
        rw [e2] at e4
        cases e4
        obtain ⟨v, hv, e, fields, fields', he, rfl, e5, h⟩ := PyRuntime.forall₂_left h a ha
        intro e'' fs' he' e6 f hf
        cases e6
        cases he
        cases he'
        obtain ⟨x, hx, _, _, h⟩ := zip_of h f hf
        simp only [List.mem_cons, List.not_mem_nil, or_false] at hv
        rcases hv with rfl | rfl <;> cases e5 <;>
          simp only [List.zip_cons_cons, List.zip_nil_right, List.mem_cons, List.not_mem_nil, or_false,
            Prod.mk.injEq] at hx <;>
          rcases hx with ⟨e1, rfl⟩ | ⟨e1, rfl⟩ <;> rw [e1] at h ⊢ <;>
          simp [AllTy, Small, GoTy] at h ⊢ <;> simp [h]
    · rcases h with ⟨_, _, h⟩ | ⟨as, xs, e2, e3, h⟩
      · cases h
      · intro as' e4 a ha
        cases e3
        rw [e2] at e4
        cases e4
        obtain ⟨v, hv, _, h⟩ := mem_of h a ha
        simp only [List.mem_cons, List.not_mem_nil, or_false] at hv
        rcases hv with rfl | rfl <;> simp [AllTy, Small, GoTy] at h ⊢ <;> refine ⟨_, h, ?_, ?_⟩ <;> decide +kernel
    · simp [AllTy, Small, GoTy] at h ⊢
      simp [h]
  · intro e he i hi
    refine ⟨fun _ _ => trivial, ?_⟩
    obtain ⟨x, hx, _, _, h⟩ := zip_of h1 e he
    simp only [schema, PyRuntime.Demo.schema, GoRuntime.Demo.value, List.zip_cons_cons, List.zip_nil_right,
      List.mem_cons, List.not_mem_nil, or_false, Prod.mk.injEq] at hx
    obtain ⟨e1, rfl⟩ := hx
    rw [e1] at h ⊢
    obtain ⟨j, hj, _, _, h'⟩ := mem_of h i hi
    simp only [List.mem_cons, List.not_mem_nil, or_false] at hj
    intro f hf
    obtain ⟨x, hx, _, _, h⟩ := zip_of h' f hf
    rcases hj with rfl | rfl <;>
      simp only [List.zip_cons_cons, List.zip_nil_right, List.mem_cons, List.not_mem_nil, or_false,
        Prod.mk.injEq] at hx <;>
      rcases hx with ⟨e1, rfl⟩ | ⟨e1, rfl⟩ | ⟨e1, rfl⟩ | ⟨e1, rfl⟩ <;> rw [e1] at h ⊢ <;>
      simp [AllTy, Small, GoTy] at h ⊢ <;> simp [h]
    all_goals
      obtain ⟨t, h, rfl⟩ := h
      exact .inr h

/-- Whatever the C++ graph of the examples shows is small. -/
theorem cpp_small : ∀ a, CppGraph schema 3 a CppRuntime.Demo.value → AllGraph Small (fun _ _ => True) schema 3 a := by
  rintro ⟨fs, rs⟩ ⟨h1, h2⟩
  refine ⟨?_, ?_⟩
  · intro e he
    obtain ⟨x, hx, _, _, h⟩ := zip_of h2 e he
    simp only [schema, PyRuntime.Demo.schema, CppRuntime.Demo.value, List.zip_cons_cons, List.zip_nil_right,
      List.mem_cons, List.not_mem_nil, or_false, Prod.mk.injEq] at hx
    rcases hx with ⟨e1, rfl⟩ | ⟨e1, rfl⟩ | ⟨e1, rfl⟩ <;> rw [e1] at h ⊢
    · rcases h with ⟨h, _⟩ | ⟨as, xs, e2, e3, h⟩
      · cases h
      · intro as' e4 a ha
        cases e3
        rw [e2] at e4
        cases e4
        obtain ⟨v, hv, e, fields, fields', he, rfl, e5, h⟩ := PyRuntime.forall₂_left h a ha
        intro e'' fs' he' e6 f hf
        cases e6
        cases he
        cases he'
        obtain ⟨x, hx, _, _, h⟩ := zip_of h f hf
        simp only [List.mem_cons, List.not_mem_nil, or_false] at hv
        rcases hv with rfl | rfl <;> cases e5 <;>
          simp only [List.zip_cons_cons, List.zip_nil_right, List.mem_cons, List.not_mem_nil, or_false,
            Prod.mk.injEq] at hx <;>
          rcases hx with ⟨e1, rfl⟩ | ⟨e1, rfl⟩ <;> rw [e1] at h ⊢ <;>
          simp [AllTy, Small, CppTy] at h ⊢ <;> simp [h]
    · rcases h with ⟨_, _, h⟩ | ⟨as, xs, e2, e3, h⟩
      · cases h
      · intro as' e4 a ha
        cases e3
        rw [e2] at e4
        cases e4
        obtain ⟨v, hv, _, h⟩ := mem_of h a ha
        simp only [List.mem_cons, List.not_mem_nil, or_false] at hv
        rcases hv with rfl | rfl <;> simp [AllTy, Small, CppTy] at h ⊢ <;> refine ⟨_, h, ?_, ?_⟩ <;> decide +kernel
    · simp [AllTy, Small, CppTy] at h ⊢
      simp [h]
  · intro e he i hi
    refine ⟨fun _ _ => trivial, ?_⟩
    obtain ⟨x, hx, _, _, h⟩ := zip_of h1 e he
    simp only [schema, PyRuntime.Demo.schema, CppRuntime.Demo.value, List.zip_cons_cons, List.zip_nil_right,
      List.mem_cons, List.not_mem_nil, or_false, Prod.mk.injEq] at hx
    obtain ⟨e1, rfl⟩ := hx
    rw [e1] at h ⊢
    obtain ⟨j, hj, _, _, h'⟩ := mem_of h i hi
    simp only [List.mem_cons, List.not_mem_nil, or_false] at hj
    intro f hf
    obtain ⟨x, hx, _, _, h⟩ := zip_of h' f hf
    rcases hj with rfl | rfl <;>
      simp only [List.zip_cons_cons, List.zip_nil_right, List.mem_cons, List.not_mem_nil, or_false,
        Prod.mk.injEq] at hx <;>
      rcases hx with ⟨e1, rfl⟩ | ⟨e1, rfl⟩ | ⟨e1, rfl⟩ | ⟨e1, rfl⟩ <;> rw [e1] at h ⊢ <;>
      simp [AllTy, Small, CppTy] at h ⊢ <;> simp [h]
    all_goals
      obtain ⟨t, h, rfl⟩ := h
      exact .inr h

/-- A Python graph for the schema -/
def pyValue : PyRuntime.GraphVal where
  registries := [(c!"Person", ⟨true, [
    (c!"p1", ⟨c!"p1", [(c!"full_name", .str c!"Al"), (c!"age", .int 33), (c!"born", .none),
      (c!"best_friend", .ref c!"Person" c!"p2")]⟩),
    (c!"p2", ⟨c!"p2", [(c!"full_name", .str c!"Ada"), (c!"age", .int 1),
      (c!"born", .date ⟨2020, 1, 2⟩), (c!"best_friend", .none)]⟩)]⟩)]
  attrs := [
    (c!"homes", .list [.obj c!"Address" [(c!"street", .str c!"Main"), (c!"number", .int (-3))],
      .obj c!"Address" [(c!"street", .str c!"Side"), (c!"number", .none)]]),
    (c!"weights", .map false [(c!"x", .float (.fin 2)), (c!"y", .float (.fin 7))]),
    (c!"wait", .none)]

/-- Whatever the Python graph of the examples shows is small. -/
theorem py_small : ∀ a, PyGraph {} schema 3 a pyValue → AllGraph Small (fun _ _ => True) schema 3 a := by
  rintro ⟨fs, rs⟩ ⟨h1, h2⟩
  refine ⟨?_, ?_⟩
  · intro e he
    obtain ⟨x, hx, _, _, h⟩ := zip_of h2 e he
    simp only [schema, PyRuntime.Demo.schema, pyValue, List.zip_cons_cons, List.zip_nil_right,
      List.mem_cons, List.not_mem_nil, or_false, Prod.mk.injEq] at hx
    rcases hx with ⟨e1, rfl⟩ | ⟨e1, rfl⟩ | ⟨e1, rfl⟩ <;> rw [e1] at h ⊢
    · rcases h with ⟨h, _⟩ | ⟨as, xs, e2, e3, h⟩
      · cases h
      · intro as' e4 a ha
        cases e3
        rw [e2] at e4
        cases e4
        obtain ⟨v, hv, e, fields, fields', he, rfl, e5, h⟩ := PyRuntime.forall₂_left h a ha
        intro e'' fs' he' e6 f hf
        cases e6
        cases he
        cases he'
        obtain ⟨x, hx, _, _, h⟩ := zip_of h f hf
        simp only [List.mem_cons, List.not_mem_nil, or_false] at hv
        rcases hv with rfl | rfl <;> cases e5 <;>
          simp only [List.zip_cons_cons, List.zip_nil_right, List.mem_cons, List.not_mem_nil, or_false,
            Prod.mk.injEq] at hx <;>
          rcases hx with ⟨e1, rfl⟩ | ⟨e1, rfl⟩ <;> rw [e1] at h ⊢ <;>
          simp [AllTy, Small, PyTy] at h ⊢ <;> simp [h]
    · rcases h with ⟨_, _, h⟩ | ⟨as, o, xs, e2, e3, h⟩
      · cases h
      · intro as' e4 a ha
        cases e3
        rw [e2] at e4
        cases e4
        obtain ⟨v, hv, _, h⟩ := mem_of h a ha
        simp only [List.mem_cons, List.not_mem_nil, or_false] at hv
        rcases hv with rfl | rfl <;> simp [AllTy, Small, PyTy] at h ⊢ <;> refine ⟨_, h, ?_, ?_⟩ <;> decide +kernel
    · simp [AllTy, Small, PyTy] at h ⊢
      simp [h]
  · intro e he i hi
    refine ⟨fun _ _ => trivial, ?_⟩
    obtain ⟨x, hx, _, _, h⟩ := zip_of h1 e he
    simp only [schema, PyRuntime.Demo.schema, pyValue, List.zip_cons_cons, List.zip_nil_right,
      List.mem_cons, List.not_mem_nil, or_false, Prod.mk.injEq] at hx
    obtain ⟨e1, rfl⟩ := hx
    rw [e1] at h ⊢
    obtain ⟨j, hj, _, _, h'⟩ := mem_of h i hi
    simp only [List.mem_cons, List.not_mem_nil, or_false] at hj
    intro f hf
    obtain ⟨x, hx, _, _, h⟩ := zip_of h' f hf
    rcases hj with rfl | rfl <;>
      simp only [List.zip_cons_cons, List.zip_nil_right, List.mem_cons, List.not_mem_nil, or_false,
        Prod.mk.injEq] at hx <;>
      rcases hx with ⟨e1, rfl⟩ | ⟨e1, rfl⟩ | ⟨e1, rfl⟩ | ⟨e1, rfl⟩ <;> rw [e1] at h ⊢ <;>
      simp [AllTy, Small, PyTy] at h ⊢ <;> simp [h]
    all_goals
      obtain ⟨t, h, rfl⟩ := h
      exact .inr h

/-- The text of the only date of the libraries -/
theorem py_no_date {f : Str} {d : Doc} (h : pyWrites PyRuntime.Demo.lib {} (.date f) d .none) : False := by
  obtain ⟨t, _, h⟩ := h
  cases h

theorem go_no_date {f : Str} {d : Doc} (h : goWrites GoRuntime.Demo.lib (.date f) d .none) : False := by
  obtain ⟨t, _, h⟩ := h
  cases h

theorem cpp_no_date {f : Str} {d : Doc} (h : cppWrites .ctime CppRuntime.Demo.lib (.date f) d .none) : False := by
  obtain ⟨s, t, _, _, h⟩ := h
  cases h

theorem py_writes_date {d : Doc} (h : pyWrites PyRuntime.Demo.lib {} (.date c!"%Y-%m-%d") d (.date 2020 1 2)) :
    d = .str c!"2020-01-02" := by
  obtain ⟨⟨y, m, e⟩, rfl, h⟩ := h
  cases h
  rfl

theorem go_writes_date {d : Doc} (h : goWrites GoRuntime.Demo.lib (.date c!"%Y-%m-%d") d (.date 2020 1 2)) :
    d = .str c!"2020-01-02" := by
  obtain ⟨t, rfl, h⟩ := h
  have e : GoRuntime.layout c!"%Y-%m-%d" = c!"2006-01-02" := by decide +kernel
  rw [e]
  rfl

theorem cpp_writes_date {d : Doc}
    (h : cppWrites .ctime CppRuntime.Demo.lib (.date c!"%Y-%m-%d") d (.date 2020 1 2)) : d = .str c!"2020-01-02" := by
  obtain ⟨s, t, rfl, ⟨h, _⟩ | ⟨_, rfl, _⟩, _⟩ := h
  · cases h
  · rfl

theorem py_reads_date : pyLeaf PyRuntime.Demo.lib {} (.date c!"%Y-%m-%d") (.str c!"2020-01-02") (.date 2020 1 2) :=
  ⟨_, _, rfl, rfl, rfl⟩

theorem go_reads_date : goLeaf GoRuntime.Demo.lib (.date c!"%Y-%m-%d") (.str c!"2020-01-02") (.date 2020 1 2) :=
  ⟨_, { year := 2020, month := 1, day := 2 }, rfl, by decide +kernel, rfl⟩

theorem cpp_reads_date :
    cppLeaf .ctime CppRuntime.Demo.lib (.date c!"%Y-%m-%d") (.str c!"2020-01-02") (.date 2020 1 2) :=
  ⟨_, { year := 2020, month := 1, day := 2 }, rfl, ⟨c!"2020-01-02", [], rfl, by decide, .inl rfl, by decide⟩, rfl⟩

/-- What is small is plain. -/
theorem plain_py_go {t : Ty} {a : AVal} (h : Small t a) : PlainValue (pyWriter PyRuntime.Demo.lib {}) (goLeaves GoRuntime.Demo.lib) (fun _ => True) t a := by
  cases t with
  | integer b =>
    rcases h with rfl | ⟨i, rfl, hi⟩
    · simp [PlainValue]
    · refine ⟨fun c h => (by cases h), fun j e => ?_⟩
      cases e
      exact Nat.le_trans hi (by decide)
  | float b =>
    obtain ⟨q, rfl, h1, h2⟩ := h
    refine .inr fun r e => ?_
    cases e
    constructor <;> grind
  | string p => exact fun s _ r _ h => h
  | date f =>
    obtain ⟨rfl, rfl | rfl⟩ := h
    · intro d hd
      exact (py_no_date hd).elim
    · intro d hd
      cases py_writes_date hd
      exact go_reads_date
  | duration =>
    rcases h with rfl | rfl
    · intro x e; cases e
    · intro x e; cases e; decide
  | cls c => trivial
  | boolean => trivial
  | _ => cases h

/-- What is small is plain. -/
theorem plain_py_cpp {t : Ty} {a : AVal} (h : Small t a) : PlainValue (pyWriter PyRuntime.Demo.lib {}) (cppLeaves .ctime CppRuntime.Demo.lib) (fun _ => True) t a := by
  cases t with
  | integer b =>
    rcases h with rfl | ⟨i, rfl, hi⟩
    · simp [PlainValue]
    · refine ⟨fun c h => (by cases h), fun j e => ?_⟩
      cases e
      exact Nat.le_trans hi (by decide)
  | float b =>
    obtain ⟨q, rfl, h1, h2⟩ := h
    refine .inr fun r e => ?_
    cases e
    constructor <;> grind
  | string p => exact fun s _ r _ h => h
  | date f =>
    obtain ⟨rfl, rfl | rfl⟩ := h
    · intro d hd
      exact (py_no_date hd).elim
    · intro d hd
      cases py_writes_date hd
      exact cpp_reads_date
  | duration =>
    rcases h with rfl | rfl
    · intro x e; cases e
    · intro x e; cases e; decide
  | cls c => trivial
  | boolean => trivial
  | _ => cases h

/-- What is small is plain. -/
theorem plain_go_py {t : Ty} {a : AVal} (h : Small t a) : PlainValue (goWriter GoRuntime.Demo.lib) (pyLeaves PyRuntime.Demo.lib {}) (fun s => ({} : PyRuntime.Settings).pathlib = true → PyRuntime.Demo.lib.normPath s = s) t a := by
  cases t with
  | integer b =>
    rcases h with rfl | ⟨i, rfl, hi⟩
    · simp [PlainValue]
    · refine ⟨fun c h => (by cases h), fun j e => ?_⟩
      cases e
      exact Nat.le_trans hi (by decide)
  | float b =>
    obtain ⟨q, rfl, h1, h2⟩ := h
    refine .inr fun r e => ?_
    cases e
    constructor <;> grind
  | string p => exact fun s _ r _ h => h
  | date f =>
    obtain ⟨rfl, rfl | rfl⟩ := h
    · intro d hd
      exact (go_no_date hd).elim
    · intro d hd
      cases go_writes_date hd
      exact py_reads_date
  | duration =>
    rcases h with rfl | rfl
    · intro x e; cases e
    · intro x e; cases e; decide
  | cls c => trivial
  | boolean => trivial
  | _ => cases h

/-- What is small is plain. -/
theorem plain_go_cpp {t : Ty} {a : AVal} (h : Small t a) : PlainValue (goWriter GoRuntime.Demo.lib) (cppLeaves .ctime CppRuntime.Demo.lib) (fun _ => True) t a := by
  cases t with
  | integer b =>
    rcases h with rfl | ⟨i, rfl, hi⟩
    · simp [PlainValue]
    · refine ⟨fun c h => (by cases h), fun j e => ?_⟩
      cases e
      exact Nat.le_trans hi (by decide)
  | float b =>
    obtain ⟨q, rfl, h1, h2⟩ := h
    refine .inr fun r e => ?_
    cases e
    constructor <;> grind
  | string p => exact fun s _ r _ h => h
  | date f =>
    obtain ⟨rfl, rfl | rfl⟩ := h
    · intro d hd
      exact (go_no_date hd).elim
    · intro d hd
      cases go_writes_date hd
      exact cpp_reads_date
  | duration =>
    rcases h with rfl | rfl
    · intro x e; cases e
    · intro x e; cases e; decide
  | cls c => trivial
  | boolean => trivial
  | _ => cases h

/-- What is small is plain. -/
theorem plain_cpp_py {t : Ty} {a : AVal} (h : Small t a) : PlainValue (cppWriter .ctime CppRuntime.Demo.lib) (pyLeaves PyRuntime.Demo.lib {}) (fun s => ({} : PyRuntime.Settings).pathlib = true → PyRuntime.Demo.lib.normPath s = s) t a := by
  cases t with
  | integer b =>
    rcases h with rfl | ⟨i, rfl, hi⟩
    · simp [PlainValue]
    · refine ⟨fun c h => (by cases h), fun j e => ?_⟩
      cases e
      exact Nat.le_trans hi (by decide)
  | float b =>
    obtain ⟨q, rfl, h1, h2⟩ := h
    refine .inr fun r e => ?_
    cases e
    constructor <;> grind
  | string p => exact fun s _ r _ h => h
  | date f =>
    obtain ⟨rfl, rfl | rfl⟩ := h
    · intro d hd
      exact (cpp_no_date hd).elim
    · intro d hd
      cases cpp_writes_date hd
      exact py_reads_date
  | duration =>
    rcases h with rfl | rfl
    · intro x e; cases e
    · intro x e; cases e; decide
  | cls c => trivial
  | boolean => trivial
  | _ => cases h

/-- What is small is plain. -/
theorem plain_cpp_go {t : Ty} {a : AVal} (h : Small t a) : PlainValue (cppWriter .ctime CppRuntime.Demo.lib) (goLeaves GoRuntime.Demo.lib) (fun _ => True) t a := by
  cases t with
  | integer b =>
    rcases h with rfl | ⟨i, rfl, hi⟩
    · simp [PlainValue]
    · refine ⟨fun c h => (by cases h), fun j e => ?_⟩
      cases e
      exact Nat.le_trans hi (by decide)
  | float b =>
    obtain ⟨q, rfl, h1, h2⟩ := h
    refine .inr fun r e => ?_
    cases e
    constructor <;> grind
  | string p => exact fun s _ r _ h => h
  | date f =>
    obtain ⟨rfl, rfl | rfl⟩ := h
    · intro d hd
      exact (cpp_no_date hd).elim
    · intro d hd
      cases cpp_writes_date hd
      exact go_reads_date
  | duration =>
    rcases h with rfl | rfl
    · intro x e; cases e
    · intro x e; cases e; decide
  | cls c => trivial
  | boolean => trivial
  | _ => cases h

/-! ## From Python -/

/-- The input from which the Python graph can be parsed -/
def pyInput : PyRuntime.Json := .obj false [
  (c!"persons", .obj true [
    (c!"p1", .obj false [(c!"name", .str c!"Al"), (c!"age", .int 33), (c!"friend", .str c!"p2")]),
    (c!"p2", .obj false [(c!"age", .int 1), (c!"name", .str c!"Ada"), (c!"born", .str c!"2020-01-02")])]),
  (c!"homes", .arr [.obj false [(c!"street", .str c!"Main"), (c!"no", .int (-3))],
    .obj false [(c!"street", .str c!"Side")]]),
  (c!"weights", .obj false [(c!"x", .float (.fin 2)), (c!"y", .float (.fin 7))])]

open PyRuntime in
theorem py_valid : PyRuntime.Spec.ValidGraph false PyRuntime.Demo.lib {} schema false 3 pyValue :=
  C30_valid_without_corner_cases PyRuntime.Demo.lib {} schema 3 pyInput c!"#" 10 pyValue (Errors.new 10)
    (by decide +kernel) (by decide)
    (by simp [pyInput, occurs_obj, occurs_arr, occurs_str, occurs_int, occurs_float])
    (by
      intro i hi
      simp [pyInput, occurs_obj, occurs_arr, occurs_str, occurs_int, occurs_float] at hi
      omega)
    rfl

open PyRuntime.Spec in
theorem py_dicts : PyDicts schema 3 pyValue where
  registries := by
    simp only [schema, PyRuntime.Demo.schema, List.forall_mem_cons, List.not_mem_nil, false_imp_iff, implies_true, and_true]
    intro r hr
    cases hr
    refine ⟨by decide, ?_⟩
    simp only [List.forall_mem_cons, List.not_mem_nil, false_imp_iff, implies_true, and_true]
    refine ⟨?_, ?_⟩
    all_goals
      simp only [FaithfulProps, List.forall_mem_cons, List.not_mem_nil, false_imp_iff, implies_true, and_true]
      exact ⟨fun x _ _ => trivial, fun x _ _ => trivial, fun x _ _ => trivial, fun x _ _ => trivial⟩
  attrs := by
    simp only [schema, PyRuntime.Demo.schema, FaithfulProps, List.forall_mem_cons, List.not_mem_nil, false_imp_iff,
      implies_true, and_true]
    refine ⟨fun x hx _ => ?_, fun x hx _ => ?_, fun x hx _ => trivial⟩
    · cases hx
      intro vs hvs
      cases hvs
      simp only [List.forall_mem_cons, List.not_mem_nil, false_imp_iff, implies_true, and_true]
      constructor
      all_goals
        intro e fields he hx
        cases he
        cases hx
        simp only [FaithfulProps, List.forall_mem_cons, List.not_mem_nil, false_imp_iff, implies_true, and_true]
        exact ⟨fun x _ _ => trivial, fun x _ _ => trivial⟩
    · cases hx
      intro o kvs hk
      cases hk
      refine ⟨by decide, fun kv hkv => trivial⟩

/-- The Python graph reaches Go and C++. -/
example := C64_py_go_plain_partial InteropExample.portable keys 3 c!"#" 5 PyRuntime.Demo.lib {} false py_valid py_dicts
  GoRuntime.Demo.order_proper GoRuntime.Demo.lib
  fun a ha => by
    unfold Interop.PlainGraph
    exact (py_small a ha).imp (fun _ _ => plain_py_go) (fun p s _ (h : p.isPrefixOf s = true) => h)

example := C64_py_cpp_plain_partial InteropExample.portable keys 3 c!"#" 5 PyRuntime.Demo.lib {} false py_valid py_dicts
  (by decide) .ctime CppRuntime.Demo.lib_garbage
  fun a ha => by
    unfold Interop.PlainGraph
    exact (py_small a ha).imp (fun _ _ => plain_py_cpp) (fun p s _ (h : p.isPrefixOf s = true) => h)

/-- The document which Python writes -/
def pyDoc : Doc := .obj [
  (c!"homes", .arr [.obj [(c!"street", .str c!"Main"), (c!"no", .int (-3))], .obj [(c!"street", .str c!"Side")]]),
  (c!"weights", .obj [(c!"x", .real 2), (c!"y", .real 7)]),
  (c!"persons", .obj [
    (c!"p1", .obj [(c!"name", .str c!"Al"), (c!"age", .int 33), (c!"friend", .str c!"p2")]),
    (c!"p2", .obj [(c!"name", .str c!"Ada"), (c!"age", .int 1), (c!"born", .str c!"2020-01-02")])])]

/-- The JSON-able of the Python graph -/
def pyJson : PyRuntime.Json := .obj false [
  (c!"homes", .arr [.obj false [(c!"street", .str c!"Main"), (c!"no", .int (-3))],
    .obj false [(c!"street", .str c!"Side")]]),
  (c!"weights", .obj false [(c!"x", .float (.fin 2)), (c!"y", .float (.fin 7))]),
  (c!"persons", .obj false [
    (c!"p1", .obj false [(c!"name", .str c!"Al"), (c!"age", .int 33), (c!"friend", .str c!"p2")]),
    (c!"p2", .obj false [(c!"name", .str c!"Ada"), (c!"age", .int 1), (c!"born", .str c!"2020-01-02")])])]

example : PyRuntime.serGraph PyRuntime.Demo.lib {} schema 3 false pyValue = .ok pyJson := rfl

example : PyText pyJson pyDoc := by
  have r2 : F64.round 2 = .fin 2 := by decide +kernel
  have r7 : F64.round 7 = .fin 7 := by decide +kernel
  repeat' first
    | exact rfl
    | exact ⟨_, _, rfl, rfl, by first | with_reducible exact r2 | with_reducible exact r7⟩
    | refine ⟨_, rfl, ?_⟩
    | refine ⟨_, _, rfl, rfl, ?_, ?_⟩
    | refine ⟨_, _, rfl, ?_, ?_⟩

/-! ## From Go -/

theorem go_valid : GoRuntime.Spec.ValidGraph GoRuntime.Demo.lib schema 3 GoRuntime.Demo.value :=
  C41_valid_partial GoRuntime.Demo.order GoRuntime.Demo.lib schema 3 GoRuntime.Demo.input c!"#"
    GoRuntime.Demo.order_proper GoExample.schema_valid GoExample.schema_exact GoExample.input_canon 0 GoRuntime.Demo.value _
    demo_parsed rfl

/-- The Go graph reaches Python and C++. -/
example := C64_go_py_plain_partial InteropExample.portable keys 3 c!"#" 5 GoRuntime.Demo.order_proper GoRuntime.Demo.lib
  (fun _ => rfl) go_valid 0 (by decide) false PyRuntime.Demo.lib {}
  fun a ha => by
    unfold Interop.PlainGraph
    exact (go_small a ha).imp (fun _ _ => plain_go_py) (fun p s _ (h : p.isPrefixOf s = true) => h)

example := C64_go_cpp_plain_partial InteropExample.portable keys 3 c!"#" 5 GoRuntime.Demo.order_proper GoRuntime.Demo.lib
  (fun _ => rfl) go_valid 0 (by decide) .ctime CppRuntime.Demo.lib_garbage
  fun a ha => by
    unfold Interop.PlainGraph
    exact (go_small a ha).imp (fun _ _ => plain_go_cpp) (fun p s _ (h : p.isPrefixOf s = true) => h)

/-! ## From C++ -/

open CppRuntime.Spec in
theorem cpp_writable : CppWritable .ctime CppRuntime.Demo.lib schema 3 CppRuntime.Demo.value where
  registries := by
    simp only [schema, PyRuntime.Demo.schema, List.forall_mem_cons, List.not_mem_nil, false_imp_iff, implies_true, and_true]
    intro r hr
    cases hr
    simp only [List.forall_mem_cons, List.not_mem_nil, false_imp_iff, implies_true, and_true]
    refine ⟨⟨?_, .inr ⟨_, List.mem_cons_self, _, rfl, by decide⟩⟩, ?_, .inr ⟨_, List.mem_cons_self, _, rfl, by decide⟩⟩
    all_goals
      simp only [FaithfulProps, List.forall_mem_cons, List.not_mem_nil, false_imp_iff, implies_true, and_true]
      refine ⟨fun x _ => trivial, fun x _ => trivial, fun x hx => ?_, fun x _ => trivial⟩
      cases hx
      intro t ht
      cases ht
    obtain ⟨s, hs, _⟩ := Cpp.Example.date_back
    exact ⟨s, hs⟩
  fields := by
    simp only [schema, PyRuntime.Demo.schema, FaithfulProps, List.forall_mem_cons, List.not_mem_nil, false_imp_iff,
      implies_true, and_true]
    refine ⟨fun x hx => ?_, fun x hx => ?_, fun x hx => ?_⟩
    · cases hx
      intro vs hvs
      cases hvs
      simp only [List.forall_mem_cons, List.not_mem_nil, false_imp_iff, implies_true, and_true]
      constructor
      all_goals
        intro e fields he hx
        cases he
        cases hx
        refine ⟨?_, .inr ⟨_, List.mem_cons_self, _, rfl, by decide⟩⟩
        simp only [FaithfulProps, List.forall_mem_cons, List.not_mem_nil, false_imp_iff, implies_true, and_true]
        exact ⟨fun x _ => trivial, fun x _ => trivial⟩
    · cases hx
      intro kvs hk kv hkv
      trivial
    · cases hx
      intro d hd
      cases hd
      decide
  shown := .inr (.inl ⟨_, List.mem_cons_self, _, rfl, by decide⟩)

/-- The C++ graph reaches Python and Go. -/
example := C64_cpp_py_plain_partial InteropExample.portable keys 3 c!"#" 5 .ctime CppRuntime.Demo.lib Cpp.Example.demo_valid
  cpp_writable (by decide) false PyRuntime.Demo.lib {}
  fun a ha => by
    unfold Interop.PlainGraph
    exact (cpp_small a ha).imp (fun _ _ => plain_cpp_py) (fun p s _ (h : p.isPrefixOf s = true) => h)

example := C64_cpp_go_plain_partial InteropExample.portable keys 3 c!"#" 5 .ctime CppRuntime.Demo.lib Cpp.Example.demo_valid
  cpp_writable GoRuntime.Demo.order_proper GoRuntime.Demo.lib
  fun a ha => by
    unfold Interop.PlainGraph
    exact (cpp_small a ha).imp (fun _ _ => plain_cpp_go) (fun p s _ (h : p.isPrefixOf s = true) => h)

end Mapry.Props.TransferExample
