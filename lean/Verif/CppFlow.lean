import Verif.CppCode
import Verif.PyFlow

/-! # The types of expressions and the variables after a piece of code -/

namespace Mapry.CppCode

open Mapry.TypeGraph Mapry.Naming Mapry.ParseSchema

/-! ## Variables -/

/-- A variable is added to the innermost block. -/
def Env.push (Γ : Env) (x : Var) (t : CTy) : Env := ⟨(x, t) :: Γ.block, Γ.outer⟩

@[simp] theorem push_block (Γ : Env) (x t) : (Γ.push x t).block = (x, t) :: Γ.block := rfl
@[simp] theorem push_all (Γ : Env) (x t) : (Γ.push x t).all = (x, t) :: Γ.all := rfl
@[simp] theorem enter_block (Γ : Env) : Γ.enter.block = [] := rfl
@[simp] theorem enter_all (Γ : Env) : Γ.enter.all = Γ.all := rfl

@[simp] theorem hides_push (Γ : Env) (x t f) : (Γ.push x t).hides f = (x.text == f || Γ.hides f) := by
  simp [Env.hides]

@[simp] theorem hides_enter (Γ : Env) (f) : Γ.enter.hides f = Γ.hides f := by simp [Env.hides]

@[simp] theorem lookup_enter (Γ : Env) (x) : Γ.enter.lookup x = Γ.lookup x := by simp [Env.lookup]

@[simp] theorem lookup_push_self (Γ : Env) (x t) : (Γ.push x t).lookup x = some t := by simp [Env.lookup]

theorem lookup_push_ne {Γ : Env} {x y : Var} {t} (h : y.text ≠ x.text) : (Γ.push y t).lookup x = Γ.lookup x := by
  simp [Env.lookup, h]

/-- The second has only variables of the kind `P` in addition. -/
def Extends (P : Var → Prop) (Γ Δ : Env) : Prop := ∃ new, Δ.all = new ++ Γ.all ∧ ∀ e ∈ new, P e.1

theorem Extends.refl {P} (Γ : Env) : Extends P Γ Γ := ⟨[], rfl, by simp⟩

theorem Extends.trans {P Γ Δ Θ} (h : Extends P Γ Δ) (h' : Extends P Δ Θ) : Extends P Γ Θ := by
  obtain ⟨a, ea, ha⟩ := h
  obtain ⟨b, eb, hb⟩ := h'
  refine ⟨b ++ a, by rw [eb, ea, List.append_assoc], fun e he => ?_⟩
  rcases List.mem_append.1 he with he | he
  · exact hb e he
  · exact ha e he

theorem Extends.mono {P Q : Var → Prop} {Γ Δ} (hPQ : ∀ x, P x → Q x) (h : Extends P Γ Δ) : Extends Q Γ Δ := by
  obtain ⟨a, ea, ha⟩ := h
  exact ⟨a, ea, fun e he => hPQ _ (ha e he)⟩

theorem Extends.push {P Γ Δ x t} (h : Extends P Γ Δ) (hx : P x) : Extends P Γ (Δ.push x t) := by
  refine h.trans ⟨[(x, t)], rfl, ?_⟩
  simp [hx]

theorem Extends.enter {P Γ Δ} (h : Extends P Γ Δ) : Extends P Γ Δ.enter := by
  obtain ⟨a, ea, ha⟩ := h
  exact ⟨a, by simp [ea], ha⟩

theorem Extends.of_enter {P Γ Δ} (h : Extends P Γ.enter Δ) : Extends P Γ Δ := by
  obtain ⟨a, ea, ha⟩ := h
  exact ⟨a, by simp [ea], ha⟩

theorem find_new {P : Var → Prop} {x : Var} (hP : ∀ y, P y → y.text ≠ x.text) :
    ∀ {new all : List (Var × CTy)}, (∀ e ∈ new, P e.1) →
      (new ++ all).find? (fun e => e.1.text == x.text) = all.find? fun e => e.1.text == x.text
  | [], _, _ => rfl
  | e :: new, all, h => by
    have he : (e.1.text == x.text) = false := by simpa using hP _ (h e (by simp))
    simp only [List.cons_append, List.find?_cons, he]
    exact find_new hP fun e' he' => h e' (by simp [he'])

theorem Extends.lookup {P : Var → Prop} {Γ Δ x} (h : Extends P Γ Δ) (hP : ∀ y, P y → y.text ≠ x.text) :
    Δ.lookup x = Γ.lookup x := by
  obtain ⟨a, ea, ha⟩ := h
  rw [Env.lookup, Env.lookup, ea, find_new hP ha]

theorem Extends.hides {P : Var → Prop} {Γ Δ : Env} {f} (h : Extends P Γ Δ) (hP : ∀ y, P y → y.text ≠ f) :
    Δ.hides f = Γ.hides f := by
  obtain ⟨a, ea, ha⟩ := h
  rw [Env.hides, Env.hides, ea, List.any_append, Bool.or_eq_right_iff_imp]
  intro h
  obtain ⟨e, he, h⟩ := List.any_eq_true.1 h
  exact absurd (by simpa using h) (hP _ (ha e he))

/-- The statement holds also if there are more variables of the kind `P`. -/
def Always (P : Var → Prop) (Γ : Env) (φ : Env → Prop) : Prop := ∀ Δ, Extends P Γ Δ → φ Δ

theorem Always.now {P Γ φ} (h : Always P Γ φ) : φ Γ := h Γ (.refl Γ)

theorem Always.of {P Q : Var → Prop} {Γ Δ φ} (h : Always P Γ φ) (hQ : ∀ x, Q x → P x) (hΔ : Extends P Γ Δ) :
    Always Q Δ φ := fun _ hΘ => h _ (hΔ.trans (hΘ.mono hQ))

/-! ## The types of expressions -/

variable {W : World} {Γ : Env}

theorem typeOf_var (x : Var) : typeOf W Γ (.var x) = Γ.lookup x := by
  simp only [typeOf, infer]; cases Γ.lookup x <;> rfl

theorem typeOf_num (i : Int) : typeOf W Γ (.num i) = if i.natAbs < 2 ^ 63 then some .int else none := by
  simp only [typeOf, infer]; split <;> rfl

theorem typeOf_text : typeOf W Γ .text = some .text := rfl
theorem typeOf_bool : typeOf W Γ .bool = some .bool := rfl
theorem typeOf_null : typeOf W Γ .null = some .null := rfl
theorem typeOf_kind : typeOf W Γ .kind = some .json := rfl

theorem typeOf_zeroTm : typeOf W Γ .zeroTm = if Γ.hides c!"tm" then none else some .tm := by
  simp only [typeOf, infer]; split <;> rfl

theorem typeOf_dot (e f) : typeOf W Γ (.dot e f) = (typeOf W Γ e).bind fun t => member W t f := by
  simp only [typeOf, infer]
  cases Res.type? (infer W Γ e) with
  | none => rfl
  | some t => simp only [Option.bind_some]; cases member W t f <;> rfl

theorem typeOf_arrow (e f) : typeOf W Γ (.arrow e f) = (typeOf W Γ e).bind fun t => member W (behind t) f := by
  simp only [typeOf, infer]
  cases Res.type? (infer W Γ e) with
  | none => rfl
  | some t => simp only [Option.bind_some]; cases member W (behind t) f <;> rfl

theorem typeOf_star (e) : typeOf W Γ (.star e) = (typeOf W Γ e).bind pointee := by
  simp only [typeOf, infer]
  cases Res.type? (infer W Γ e) with
  | none => rfl
  | some t => simp only [Option.bind_some]; cases pointee t <;> rfl

theorem typeOf_addr (e) : typeOf W Γ (.addr e) = (typeOf W Γ e).map .ptr := by
  simp only [typeOf, infer]
  cases Res.type? (infer W Γ e) <;> rfl

theorem typeOf_move (e) : typeOf W Γ (.move e) = typeOf W Γ e := by
  simp only [typeOf, infer]
  cases Res.type? (infer W Γ e) <;> rfl

theorem typeOf_index (e i) : typeOf W Γ (.index e i) =
    (typeOf W Γ e).bind fun t => (typeOf W Γ i).bind fun s => element t s := by
  simp only [typeOf, infer]
  cases Res.type? (infer W Γ e) with
  | none => rfl
  | some t =>
    cases Res.type? (infer W Γ i) with
    | none => rfl
    | some s => simp only [Option.bind_some]; cases element t s <;> rfl

theorem typeOf_make (n) : typeOf W Γ (.make n) = if typeOk W Γ (.struct n) then some (.owner n) else none := by
  simp only [typeOf, infer]; split <;> rfl

theorem typeOf_pattern (n) : typeOf W Γ (.pattern n) = if n ∈ W.patterns then some .regex else none := by
  simp only [typeOf, infer]; split <;> rfl

theorem typeOf_cmp (a b) : typeOf W Γ (.cmp a b) =
    (typeOf W Γ a).bind fun t => (typeOf W Γ b).bind fun s => if comparable t s then some .bool else none := by
  simp only [typeOf, infer]
  cases Res.type? (infer W Γ a) with
  | none => rfl
  | some t =>
    cases Res.type? (infer W Γ b) with
    | none => rfl
    | some s => simp only [Option.bind_some]; split <;> rfl

theorem typeOf_neg (e) : typeOf W Γ (.neg e) = (typeOf W Γ e).bind fun t => if testable t then some .bool else none := by
  simp only [typeOf, infer]
  cases Res.type? (infer W Γ e) with
  | none => rfl
  | some t => simp only [Option.bind_some]; split <;> rfl

theorem typeOf_or (a b) : typeOf W Γ (.or a b) =
    (typeOf W Γ a).bind fun t => (typeOf W Γ b).bind fun s => if testable t && testable s then some .bool else none := by
  simp only [typeOf, infer]
  cases Res.type? (infer W Γ a) with
  | none => rfl
  | some t =>
    cases Res.type? (infer W Γ b) with
    | none => rfl
    | some s => simp only [Option.bind_some]; split <;> rfl

theorem typeOf_plus (a b) : typeOf W Γ (.plus a b) =
    (typeOf W Γ a).bind fun t => (typeOf W Γ b).bind fun s => if t.number && s.number then some t else none := by
  simp only [typeOf, infer]
  cases Res.type? (infer W Γ a) with
  | none => rfl
  | some t =>
    cases Res.type? (infer W Γ b) with
    | none => rfl
    | some s => simp only [Option.bind_some]; split <;> rfl

/-- The types of the arguments -/
def types (W : World) (Γ : Env) : List Expr → Option (List CTy)
  | [] => some []
  | e :: es => (typeOf W Γ e).bind fun t => (types W Γ es).map (t :: ·)

theorem infer_args {c : Callee} : ∀ (args : List Expr) (f : Expr) (ts : List CTy), infer W Γ f = some (.callee c ts) →
    infer W Γ (args.foldl .arg f) = (types W Γ args).map fun ss => .callee c (ts ++ ss)
  | [], f, ts, h => by simp [types, h]
  | e :: es, f, ts, h => by
    simp only [List.foldl_cons, types]
    have h' : infer W Γ (.arg f e) = (typeOf W Γ e).map fun t => .callee c (ts ++ [t]) := by
      simp only [infer, h]; rfl
    cases ht : typeOf W Γ e with
    | none =>
      rw [ht] at h'
      simp only [Option.map_none, Option.bind_none] at h' ⊢
      clear h
      generalize Expr.arg f e = f' at h'
      induction es generalizing f' with
      | nil => exact h'
      | cons x xs ih => exact ih (.arg f' x) (by simp [infer, h'])
    | some t =>
      rw [ht] at h'
      rw [infer_args es (.arg f e) (ts ++ [t]) h']
      simp only [Option.bind_some, Option.map_map]
      cases types W Γ es <;> simp

theorem args_none : ∀ (args : List Expr) (f : Expr), infer W Γ f = none → infer W Γ (args.foldl .arg f) = none
  | [], _, h => h
  | x :: xs, f, h => args_none xs (.arg f x) (by simp [infer, h])

theorem typeOf_call {c : Callee} {f : Expr} {args : List Expr} (h : infer W Γ f = some (.callee c [])) :
    typeOf W Γ (.call (args.foldl .arg f)) = (types W Γ args).bind (resolve W c) := by
  simp only [typeOf, infer, infer_args args f [] h]
  cases types W Γ args with
  | none => rfl
  | some ss =>
    simp only [Option.map_some, List.nil_append, Option.bind_some]
    cases resolve W c ss <;> rfl

theorem typeOf_method {e : Expr} {m : Str} {args : List Expr} : typeOf W Γ (.call (args.foldl .arg (.method e m))) =
    (typeOf W Γ e).bind fun t => (types W Γ args).bind (pick (methods t) m) := by
  cases h : typeOf W Γ e with
  | none =>
    simp only [typeOf, infer] at h ⊢
    rw [args_none args _ (by simp [infer, h])]
    rfl
  | some t =>
    rw [typeOf_call (c := .method t m) (by simp only [typeOf] at h; simp [infer, h])]
    rfl

theorem typeOf_via {e : Expr} {m : Str} {args : List Expr} : typeOf W Γ (.call (args.foldl .arg (.via e m))) =
    (typeOf W Γ e).bind fun t => (types W Γ args).bind (pick (methodsVia t) m) := by
  cases h : typeOf W Γ e with
  | none =>
    simp only [typeOf, infer] at h ⊢
    rw [args_none args _ (by simp [infer, h])]
    rfl
  | some t =>
    rw [typeOf_call (c := .via t m) (by simp only [typeOf] at h; simp [infer, h])]
    rfl

theorem typeOf_call₀ (e m) : typeOf W Γ (call₀ e m) = (typeOf W Γ e).bind fun t => pick (methods t) m [] :=
  typeOf_method (args := [])

theorem typeOf_call₁ (e m a) : typeOf W Γ (call₁ e m a) =
    (typeOf W Γ e).bind fun t => (typeOf W Γ a).bind fun s => pick (methods t) m [s] := by
  have h := typeOf_method (W := W) (Γ := Γ) (e := e) (m := m) (args := [a])
  simp only [List.foldl_cons, List.foldl_nil, types, Option.map_some] at h
  rw [call₁, h]
  cases typeOf W Γ a <;> rfl

theorem typeOf_via₀ (e m) : typeOf W Γ (.call (.via e m)) = (typeOf W Γ e).bind fun t => pick (methodsVia t) m [] :=
  typeOf_via (args := [])

theorem typeOf_via₂ (e m a b) : typeOf W Γ (.call (.arg (.arg (.via e m) a) b)) =
    (typeOf W Γ e).bind fun t => (typeOf W Γ a).bind fun s => (typeOf W Γ b).bind fun u => pick (methodsVia t) m [s, u] := by
  have h := typeOf_via (W := W) (Γ := Γ) (e := e) (m := m) (args := [a, b])
  simp only [List.foldl_cons, List.foldl_nil, types, Option.map_some] at h
  rw [h]
  cases typeOf W Γ a <;> cases typeOf W Γ b <;> rfl

theorem typeOf_lib (f args) : typeOf W Γ (libCall f args) = (types W Γ args).bind (pick library f) :=
  typeOf_call (c := .lib f) rfl

theorem typeOf_fn (f args) : typeOf W Γ (fnCall f args) =
    if Γ.hides f then none else (types W Γ args).bind (pick W.funcs f) := by
  by_cases h : Γ.hides f = true
  · rw [if_pos h]
    simp only [fnCall, typeOf, infer]
    rw [args_none args _ (by simp [infer, h])]
    rfl
  · rw [if_neg h]
    exact typeOf_call (c := .fn f) (by simp [infer, h])

/-! ## Statements -/

theorem run_append {W : World} {R : CTy} (a b : Code) : ∀ Γ, run W R Γ (a ++ b) = (run W R Γ a).bind fun Δ => run W R Δ b := by
  show ∀ Γ, run W R Γ (a.append b) = _
  induction a with
  | done => intro Γ; simp [Code.append, run]
  | eval e c ih =>
    intro Γ; simp only [Code.append, run]
    cases typeOf W Γ e <;> simp [ih]
  | test e c ih =>
    intro Γ; simp only [Code.append, run]
    cases typeOf W Γ e with
    | none => rfl
    | some t => simp only [Option.bind_some]; split <;> simp [ih]
  | assign l r c ih =>
    intro Γ; simp only [Code.append, run]
    cases typeOf W Γ l with
    | none => rfl
    | some t =>
      cases typeOf W Γ r with
      | none => rfl
      | some s => simp only [Option.bind_some]; split <;> simp [ih]
  | extract l r c ih =>
    intro Γ; simp only [Code.append, run]
    cases typeOf W Γ l with
    | none => rfl
    | some t =>
      cases typeOf W Γ r with
      | none => rfl
      | some s => simp only [Option.bind_some]; split <;> simp [ih]
  | decl x t i c ih =>
    intro Γ
    cases i with
    | none => 
      simp only [Code.append, run]
      cases Γ.declare W x t <;> simp [ih]
    | some e =>
      simp only [Code.append, run]
      cases Γ.declare W x t with
      | none => rfl
      | some Δ =>
        simp only [Option.bind_some]
        cases typeOf W Δ e with
        | none => rfl
        | some s => simp only [Option.bind_some]; split <;> simp [ih]
  | ref x t e c ih =>
    intro Γ
    simp only [Code.append, run]
    cases Γ.declare W x t with
    | none => rfl
    | some Δ =>
      simp only [Option.bind_some]
      cases typeOf W Δ e with
      | none => rfl
      | some s => simp only [Option.bind_some]; split <;> simp [ih]
  | auto x e c ih =>
    intro Γ
    simp only [Code.append, run]
    cases Γ.declare W x .void with
    | none => rfl
    | some Δ =>
      simp only [Option.bind_some]
      cases typeOf W Δ e with
      | none => rfl
      | some s => simp only [Option.bind_some]; split <;> simp [ih]
  | each x t e bd c _ ih =>
    intro Γ
    simp only [Code.append, run]
    cases typeOf W Γ e with
    | none => rfl
    | some r =>
      simp only [Option.bind_some]
      cases item r with
      | none => rfl
      | some s =>
        simp only [Option.bind_some]
        split
        · cases Γ.enter.declare W x (t.getD s) with
          | none => rfl
          | some Δ =>
            simp only [Option.bind_some]
            cases run W R Δ bd <;> simp [ih]
        · rfl
  | block bd c _ ih =>
    intro Γ
    simp only [Code.append, run]
    cases run W R Γ.enter bd <;> simp [ih]
  | give e c ih =>
    intro Γ; simp only [Code.append, run]
    cases typeOf W Γ e with
    | none => rfl
    | some t => simp only [Option.bind_some]; split <;> simp [ih]

theorem run_ifElse {R : CTy} (c a b) : run W R Γ (ifElse c a b) = (typeOf W Γ c).bind fun t => if testable t then
    (run W R Γ.enter a).bind fun _ => (run W R Γ.enter b).bind fun _ => some Γ else none := rfl

theorem run_ifThen {R : CTy} (c a) : run W R Γ (ifThen c a) = (typeOf W Γ c).bind fun t => if testable t then
    (run W R Γ.enter a).bind fun _ => some Γ else none := rfl

theorem declare_eq {x : Var} {t : CTy} (hk : x.text ∉ keywords) (hb : ∀ e ∈ Γ.block, e.1.text ≠ x.text)
    (ht : typeOk W Γ t = true) : Γ.declare W x t = some (Γ.push x t) := by
  have h : Γ.block.any (fun e => e.1.text == x.text) = false := by
    rw [List.any_eq_false]
    intro e he
    simpa using hb e he
  simp [Env.declare, hk, h, ht, Env.push]

/-- The type names no structure. -/
theorem typeOk_plain {t : CTy} (h : t.names = []) : typeOk W Γ t = true := by simp [typeOk, h]

/-! ## Functions -/

/-- The function is declared and no other one has its name and its parameters. -/
def Knows (W : World) (s : Sig) : Prop := s ∈ W.funcs ∧ ∀ r ∈ W.funcs, r.name = s.name → r.params = s.params → r = s

theorem Knows.pick {s : Sig} (h : Knows W s) : pick W.funcs s.name s.params = some s.result := by
  have hm : s ∈ W.funcs.filter (fun r => r.name == s.name && r.params == s.params) := by simp [h.1]
  have hall : ∀ r ∈ W.funcs.filter (fun r => r.name == s.name && r.params == s.params), r = s := by
    intro r hr
    simp only [List.mem_filter, Bool.and_eq_true, beq_iff_eq] at hr
    exact h.2 r hr.1 hr.2.1 hr.2.2
  rw [CppCode.pick]
  cases hl : W.funcs.filter (fun r => r.name == s.name && r.params == s.params) with
  | nil => rw [hl] at hm; cases hm
  | cons a rest =>
    rw [hl] at hall
    have ha := hall a (by simp)
    subst ha
    have : rest.all (· == a) = true := by
      rw [List.all_eq_true]
      intro r hr
      simp [hall r (by simp [hr])]
    simp [this]

end Mapry.CppCode
