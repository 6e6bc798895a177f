import Verif.CppGen

/-! # The generated C++ code which serializes values -/

namespace Mapry.CppExec

open Mapry.CppLang Mapry.CppGen Mapry.Naming Mapry.ParseSchema
open Mapry.CppCode (Var objVar asValue pluralValue)
open Mapry.CppRuntime (JVal Lib DateLib serTy serItems serEntries tmToString putMember)

/-- A value of the model -/
abbrev CV := CppRuntime.Val

/-! ## What a value holds -/

mutual

/-- The C++ value of the type is the value of the model; `g` gives the embeds and `heap` the instances. A vector has at most as
many items as an `int` counts. -/
inductive Holds (D : DateLib) (g : Graph) (heap : List Val) : Ty → Val → CV → Prop
  | boolean (b) : Holds D g heap .boolean (.bool b) (.bool b)
  | integer (bd i) : Holds D g heap (.integer bd) (.int i) (.int i)
  | float (bd f) : Holds D g heap (.float bd) (.float f) (.float f)
  | string (p s) : Holds D g heap (.string p) (.str s) (.str s)
  | path (p s) : Holds D g heap (.path p) (.path s) (.str s)
  | dateC (f t) : D = .ctime → Holds D g heap (.date f) (.tm t) (.time t)
  | date (f t) : D = .dateH → Holds D g heap (.date f) (.day t) (.time t)
  | timeC (f t) : D = .ctime → Holds D g heap (.time f) (.tm t) (.time t)
  | time (f t) : D = .dateH → Holds D g heap (.time f) (.tod t) (.time t)
  | datetimeC (f t) : D = .ctime → Holds D g heap (.datetime f) (.tm t) (.time t)
  | datetime (f t) : D = .dateH → Holds D g heap (.datetime f) (.stamp t) (.time t)
  | zoneC (s) : D = .ctime → Holds D g heap .timeZone (.str s) (.zone s)
  | zone (s) : D = .dateH → Holds D g heap .timeZone (.zone (some s)) (.zone s)
  | zoneNull : D = .dateH → Holds D g heap .timeZone (.zone none) .nil
  | duration (d) : Holds D g heap .duration (.nanos d) (.duration d)
  | array {t lo hi xs ys} : xs.length = ys.length → xs.length ≤ maxInt →
      (∀ (i : Nat) x y, xs[i]? = some x → ys[i]? = some y → Holds D g heap t x y) →
      Holds D g heap (.array t lo hi) (.vector xs) (.list ys)
  | map {t xs ys} : xs.map (·.1) = ys.map (·.1) →
      (∀ (i : Nat) x y, xs[i]? = some x → ys[i]? = some y → Holds D g heap t x.2 y.2) → Holds D g heap (.map t) (.map xs) (.map ys)
  /-- a pointer to an instance with the identifier -/
  | cls {c c' l x id} : heap[l]? = some x → member c!"id" x = .ok (.str id) → Holds D g heap (.cls c) (.ptr (some l)) (.ref c' id)
  | clsNull {c} : Holds D g heap (.cls c) (.ptr none) .nil
  /-- a structure -/
  | embed {n n' e ty xs fields} (V : Property → CV) (w : Property → Val) : g.embed? n = some e → asComposite e.name = .ok ty →
      (∀ p ∈ e.properties, fields.lookup p.name = some (V p)) →
      (∀ p ∈ e.properties, member p.name (.struct ty xs) = .ok (w p)) →
      (∀ p ∈ e.properties, HoldsProp D g heap p (w p) (V p)) → Holds D g heap (.embed n) (.struct ty xs) (.obj n' fields)

/-- The member of the property is the value of the model. The model does not represent the optional type; hence the value in it
is not a null pointer. -/
inductive HoldsProp (D : DateLib) (g : Graph) (heap : List Val) : Property → Val → CV → Prop
  | direct {p x y} : p.optional = false → Holds D g heap p.ty x y → HoldsProp D g heap p x y
  | none {p} : p.optional = true → HoldsProp D g heap p (.optional .none) .nil
  | some {p x y} : p.optional = true → Holds D g heap p.ty x y → y ≠ .nil → HoldsProp D g heap p (.optional (.some x)) y

end

/-! ## Variables -/

/-- The variable which is meant -/
abbrev meant : Var → Var → Bool := fun a b => decide (a = b)

theorem get_cons (x y : Var) (v : Val) (ρ : Env) :
    Env.get meant x ((y, v) :: ρ) = if y = x then some v else Env.get meant x ρ := by
  simp [Env.get]

theorem set_cons (x y : Var) (v w : Val) (ρ : Env) :
    Env.set meant x v ((y, w) :: ρ) = if y = x then (y, v) :: ρ else (y, w) :: Env.set meant x v ρ := by
  simp [Env.set]

theorem get_set_same {x : Var} {v w : Val} : ∀ {ρ : Env}, Env.get meant x ρ = some w → Env.get meant x (Env.set meant x v ρ) = some v := by
  intro ρ
  induction ρ with
  | nil => intro h; cases h
  | cons a ρ ih =>
    obtain ⟨y, u⟩ := a
    intro h
    rw [get_cons] at h
    rw [set_cons]
    split
    · rename_i e; rw [get_cons, if_pos e]
    · rename_i e
      rw [if_neg e] at h
      rw [get_cons, if_neg e, ih h]

theorem get_set_other {x z : Var} {v : Val} (hz : x ≠ z) : ∀ {ρ : Env}, Env.get meant z (Env.set meant x v ρ) = Env.get meant z ρ := by
  intro ρ
  induction ρ with
  | nil => rfl
  | cons a ρ ih =>
    obtain ⟨y, u⟩ := a
    rw [set_cons]
    split
    · rename_i e
      subst e
      rw [get_cons, get_cons, if_neg hz, if_neg hz]
    · rw [get_cons, get_cons, ih]

theorem set_set {x : Var} {v w : Val} : ∀ {ρ : Env}, Env.set meant x v (Env.set meant x w ρ) = Env.set meant x v ρ := by
  intro ρ
  induction ρ with
  | nil => rfl
  | cons a ρ ih =>
    obtain ⟨y, u⟩ := a
    rw [set_cons, set_cons]
    split
    · rename_i e
      rw [set_cons, if_pos e]
    · rename_i e
      rw [set_cons, if_neg e, ih]

theorem length_set {x : Var} {v : Val} : ∀ {ρ : Env}, (Env.set meant x v ρ).length = ρ.length := by
  intro ρ
  induction ρ with
  | nil => rfl
  | cons a ρ ih =>
    obtain ⟨y, u⟩ := a
    rw [set_cons]
    split <;> simp [ih]

theorem get_append {x : Var} {ext ρ : Env} (h : ∀ b ∈ ext, b.1 ≠ x) : Env.get meant x (ext ++ ρ) = Env.get meant x ρ := by
  induction ext with
  | nil => rfl
  | cons a ext ih =>
    obtain ⟨y, u⟩ := a
    rw [List.cons_append, get_cons, if_neg (h _ (List.mem_cons_self ..)), ih fun b hb => h b (List.mem_cons_of_mem _ hb)]

theorem set_append {x : Var} {v : Val} {ext ρ : Env} (h : ∀ b ∈ ext, b.1 ≠ x) :
    Env.set meant x v (ext ++ ρ) = ext ++ Env.set meant x v ρ := by
  induction ext with
  | nil => rfl
  | cons a ext ih =>
    obtain ⟨y, u⟩ := a
    rw [List.cons_append, set_cons, if_neg (h _ (List.mem_cons_self ..)), ih fun b hb => h b (List.mem_cons_of_mem _ hb)]
    rfl

theorem leave_append {n : Nat} {ext ρ : Env} (h : ρ.length = n) : leave n (ext ++ ρ) = ρ := by
  unfold leave
  rw [List.length_append, h, Nat.add_sub_cancel]
  simp

/-- The variables which an expression reads -/
def reads : Expr → List Var
  | .var x => [x]
  | .text _ | .kind _ => []
  | .dot e _ | .arrow e _ | .star e | .string e | .toDuration e | .name e | .empty e | .size e | .get e | .dateFormat _ e
  | .tmText e _ | .durationText e | .strlen e | .not e => reads e
  | .index a b | .plus a b | .ne a b => reads a ++ reads b

theorem eval_congr {same : Var → Var → Bool} {L : Lib} {heap : List Val} {ρ ρ' : Env} {e : Expr}
    (h : ∀ x ∈ reads e, Env.get same x ρ' = Env.get same x ρ) : eval same L heap ρ' e = eval same L heap ρ e := by
  induction e with
  | var x => simp only [eval, h x (List.mem_singleton.2 rfl)]
  | text s => rfl
  | kind k => rfl
  | index a b iha ihb =>
    simp only [eval, iha fun x hx => h x (List.mem_append_left _ hx), ihb fun x hx => h x (List.mem_append_right _ hx)]
  | plus a b iha ihb =>
    simp only [eval, iha fun x hx => h x (List.mem_append_left _ hx), ihb fun x hx => h x (List.mem_append_right _ hx)]
  | ne a b iha ihb =>
    simp only [eval, iha fun x hx => h x (List.mem_append_left _ hx), ihb fun x hx => h x (List.mem_append_right _ hx)]
  | _ => rename_i ih; simp only [eval, ih h]

/-- The variable is numbered with `n` or later. -/
def New (n : Nat) (x : Var) : Prop := ∃ b k, x = temp b k ∧ n ≤ k

theorem New.le {n m : Nat} {x : Var} (h : New m x) (hn : n ≤ m) : New n x := by
  obtain ⟨b, k, e, hk⟩ := h
  exact ⟨b, k, e, by omega⟩

theorem new_temp (b : Str) (n : Nat) : New n (temp b n) := ⟨b, n, rfl, Nat.le_refl _⟩

theorem old_temp {b : Str} {n : Nat} : ¬ New (n + 1) (temp b n) := by
  rintro ⟨b', k, e, hk⟩
  simp only [temp, Var.temp.injEq] at e
  omega

theorem ne_of_new {n : Nat} {x z : Var} (h : New n x) (hz : ¬ New n z) : x ≠ z := fun e => hz (e ▸ h)

theorem temp_inj {a b : Str} {n : Nat} : temp a n = temp b n ↔ a = b := by
  simp [temp]

/-! ## Outcomes -/

/-- What the code does, given what the serializer says: it ends with the variables described by `post`, or it raises the same
exception. Nothing is said if the serializer has run out of the stack. -/
def Does (post : JVal → Env → Prop) : Except Exc JVal → Except Exc Flow → Prop
  | .ok j, R => ∃ ρ, R = .ok (ρ, none) ∧ post j ρ
  | .error .recursionError, _ => True
  | .error e, R => R = .error e

theorem Does.error {post : JVal → Env → Prop} (e : Exc) : Does post (.error e) (.error e) := by
  cases e <;> simp [Does]

/-- The same for functions -/
def Mirrors : Except Exc JVal → Except Exc JVal → Prop
  | .error .recursionError, _ => True
  | r, R => R = r

theorem Mirrors.rfl' (r : Except Exc JVal) : Mirrors r r := by
  cases r with
  | ok j => rfl
  | error e => cases e <;> simp [Mirrors]

section

variable {D : DateLib} {L : Lib} {g : Graph} {heap : List Val} {call : Str → Val → Except Exc JVal}
  {embed : Str → CV → Except Exc JVal}

/-- The variables after a value has been written to `x` -/
def Wrote (n : Nat) (x : Var) (put : JVal → JVal) (ρ : Env) (j : JVal) (ρ' : Env) : Prop :=
  ∃ ext : Env, (∀ b ∈ ext, New n b.1) ∧ ρ' = ext ++ Env.set meant x (.json (put j)) ρ

/-- The place `x[key]` to which a value is written -/
structure Place (L : Lib) (heap : List Val) (n : Nat) (ρ : Env) (x : Var) (key : Expr) (put : JVal → JVal) : Prop where
  old : ¬ New n x
  reads : ∀ z ∈ reads key, ¬ New n z
  key : ∃ k old, eval meant L heap ρ key = .ok k ∧ Env.get meant x ρ = some (.json old) ∧ ∀ j, putAt k j old = .ok (put j)

theorem Place.assign {n : Nat} {ρ : Env} {x : Var} {key e : Expr} {put : JVal → JVal}
    (hp : Place L heap n ρ x key put) {v : Val} (he : eval meant L heap ρ e = .ok v) {j : JVal} (hj : toJson v = .ok j) :
    ∃ ρ', exec meant L heap call (.assign x key (.val e)) ρ = .ok (ρ', none) ∧ Wrote n x put ρ j ρ' := by
  obtain ⟨k, old, hk, hx, hput⟩ := hp.key
  refine ⟨_, ?_, [], by simp, rfl⟩
  simp [exec, he, hj, hk, jsonOf, hx, hput, Bind.bind, Except.bind, pure, Except.pure]

theorem Place.called {n : Nat} {ρ : Env} {x : Var} {key e : Expr} {put : JVal → JVal}
    (hp : Place L heap n ρ x key put) {f : Str} {v : Val} (he : eval meant L heap ρ e = .ok v) {r : Except Exc JVal}
    (hj : Mirrors r (call f v)) :
    Does (Wrote n x put ρ) r (exec meant L heap call (.assign x key (.call f e)) ρ) := by
  obtain ⟨k, old, hk, hx, hput⟩ := hp.key
  cases r with
  | ok j =>
    have hj : call f v = .ok j := hj
    refine ⟨_, ?_, [], by simp, rfl⟩
    simp [exec, he, hj, hk, jsonOf, hx, hput, Bind.bind, Except.bind, pure, Except.pure]
  | error err =>
    by_cases h : err = .recursionError
    · subst h; trivial
    · have hj : call f v = .error err := by cases err <;> first | exact absurd rfl h | exact hj
      have : exec meant L heap call (.assign x key (.call f e)) ρ = .error err := by
        simp [exec, he, hj, Bind.bind, Except.bind]
      rw [this]
      exact Does.error err

/-- A value which is converted by an expression -/
theorem Place.does {n : Nat} {ρ : Env} {x : Var} {key e : Expr} {put : JVal → JVal}
    (hp : Place L heap n ρ x key put) {r : Except Exc JVal} (he : (eval meant L heap ρ e).bind toJson = r) :
    Does (Wrote n x put ρ) r (exec meant L heap call (.assign x key (.val e)) ρ) := by
  cases h : eval meant L heap ρ e with
  | ok v =>
    rw [h] at he
    cases h' : toJson v with
    | ok j =>
      obtain rfl : Except.ok j = r := by rw [← he]; exact h'.symm
      exact hp.assign h h'
    | error err =>
      obtain rfl : Except.error err = r := by rw [← he]; exact h'.symm
      have : exec meant L heap call (.assign x key (.val e)) ρ = .error err := by
        simp [exec, h, h', Bind.bind, Except.bind]
      rw [this]
      exact Does.error err
  | error err =>
    rw [h] at he
    obtain rfl : Except.error err = r := he
    have : exec meant L heap call (.assign x key (.val e)) ρ = .error err := by
      simp [exec, h, Bind.bind, Except.bind]
    rw [this]
    exact Does.error err

/-! ## The loops -/

theorem putItem_end {js : List JVal} {j : JVal} : putItem js.length j js = js ++ [j] := by
  induction js with
  | nil => rfl
  | cons a js ih => simp [putItem, ih]

theorem loop_cons {α : Type} {step : α → Env → Except Exc Flow} {a : α} {as : List α} {ρ ρ' : Env}
    (h : step a ρ = .ok (ρ', none)) : loop step (a :: as) ρ = loop step as ρ' := by
  simp [loop, h, Bind.bind, Except.bind]

theorem loop_error {α : Type} {step : α → Env → Except Exc Flow} {a : α} {as : List α} {ρ : Env} {e : Exc}
    (h : step a ρ = .error e) : loop step (a :: as) ρ = .error e := by
  simp [loop, h, Bind.bind, Except.bind]

theorem Does.cases {post : JVal → Env → Prop} {r : Except Exc JVal} {R : Except Exc Flow} (h : Does post r R) :
    r = .error .recursionError ∨ (∃ j ρ, r = .ok j ∧ R = .ok (ρ, none) ∧ post j ρ) ∨ ∃ e, r = .error e ∧ R = .error e := by
  cases r with
  | ok j => obtain ⟨ρ, h1, h2⟩ := h; exact .inr (.inl ⟨j, ρ, rfl, h1, h2⟩)
  | error e =>
    by_cases he : e = .recursionError
    · exact .inl (by rw [he])
    · refine .inr (.inr ⟨e, rfl, ?_⟩)
      cases e <;> first | exact absurd rfl he | exact h

theorem items_ok {n : Nat} {body : Stmt} {xs : List Val} {ρ : Env} {f : CV → Except Exc JVal} :
    ∀ (rest : List Val) (ys : List CV) (js : List JVal), rest.length = ys.length → xs.drop js.length = rest →
      (∀ (i : Nat) x y, rest[i]? = some x → ys[i]? = some y → ∀ (ρ : Env) (key e : Expr) (put : JVal → JVal),
        Place L heap (n + 1) ρ (temp c!"target" n) key put → key = .var (temp c!"i" n) →
        e = .index (.var (temp c!"vector" n)) (.var (temp c!"i" n)) → eval meant L heap ρ e = .ok x →
        Does (Wrote (n + 1) (temp c!"target" n) put ρ) (f y) (exec meant L heap call body ρ)) →
      Does (fun j ρ' => ∃ js', j = .arr (js ++ js') ∧
          ρ' = (temp c!"vector" n, .vector xs) :: (temp c!"target" n, .json j) :: ρ)
        ((serItems f ys).map (fun js' => .arr (js ++ js')))
        (loop (fun (k : Nat) ρ => do
          let r ← exec meant L heap call body ((temp c!"i" n, .int k) :: ρ)
          pure (CppLang.block ρ.length r)) (List.range' js.length rest.length)
          ((temp c!"vector" n, .vector xs) :: (temp c!"target" n, .json (.arr js)) :: ρ)) := by
  intro rest
  induction rest with
  | nil =>
    intro ys js hl hd _
    cases ys with
    | cons => cases hl
    | nil =>
      exact ⟨_, rfl, [], rfl, by simp⟩
  | cons a rest ih =>
    intro ys js hl hd hi
    cases ys with
    | nil => cases hl
    | cons y ys =>
      have hd' : xs[js.length]? = some a := by
        have : (xs.drop js.length)[0]? = some a := by rw [hd]; rfl
        simpa using this
      have hdrop : xs.drop (js.length + 1) = rest := by
        rw [← List.drop_drop, hd]; rfl
      rw [List.length_cons, List.range'_succ]
      generalize hρ : (temp c!"vector" n, Val.vector xs) :: (temp c!"target" n, Val.json (JVal.arr js)) :: ρ = ρ₁
      have hplace : Place L heap (n + 1) ((temp c!"i" n, .int js.length) :: ρ₁) (temp c!"target" n) (.var (temp c!"i" n))
          (fun j => .arr (js ++ [j])) := by
        refine ⟨old_temp, ?_, .int js.length, .arr js, ?_, ?_, ?_⟩
        · intro z hz
          cases List.mem_singleton.1 hz
          exact old_temp
        · simp [eval, get_cons]
        · simp [← hρ, get_cons, temp_inj]
        · intro j
          simp [putAt, putItem_end]
      have heval : eval meant L heap ((temp c!"i" n, .int js.length) :: ρ₁)
          (.index (.var (temp c!"vector" n)) (.var (temp c!"i" n))) = .ok a := by
        simp [eval, ← hρ, get_cons, temp_inj, item, hd', Bind.bind, Except.bind]
      have h1 := hi 0 a y rfl rfl _ _ _ _ hplace rfl rfl heval
      rcases h1.cases with hr | ⟨j, ρ', hr, hR, ext, hext, hw⟩ | ⟨e, hr, hR⟩
      · have : (serItems f (y :: ys)).map (fun js' => JVal.arr (js ++ js')) = .error .recursionError := by
          simp [serItems, hr, Bind.bind, Except.bind, Except.map]
        rw [this]
        trivial
      · have hset : Env.set meant (temp c!"target" n) (.json (.arr (js ++ [j]))) ((temp c!"i" n, .int js.length) :: ρ₁) =
            (temp c!"i" n, .int js.length) :: (temp c!"vector" n, .vector xs) :: (temp c!"target" n, .json (.arr (js ++ [j]))) :: ρ := by
          simp [← hρ, set_cons, temp_inj]
        rw [hset] at hw
        have hstep : (do
            let r ← exec meant L heap call body ((temp c!"i" n, .int js.length) :: ρ₁)
            pure (CppLang.block ρ₁.length r) : Except Exc Flow) =
            .ok ((temp c!"vector" n, .vector xs) :: (temp c!"target" n, .json (.arr (js ++ [j]))) :: ρ, none) := by
          rw [hR, hw]
          simp only [Bind.bind, Except.bind, pure, Except.pure, CppLang.block]
          congr 2
          have : ext ++ (temp c!"i" n, Val.int js.length) :: (temp c!"vector" n, .vector xs) ::
              (temp c!"target" n, .json (.arr (js ++ [j]))) :: ρ =
              (ext ++ [(temp c!"i" n, Val.int js.length)]) ++ ((temp c!"vector" n, .vector xs) ::
              (temp c!"target" n, .json (.arr (js ++ [j]))) :: ρ) := by simp
          rw [this]
          exact leave_append (by simp [← hρ])
        rw [loop_cons hstep]
        have h2 := ih ys (js ++ [j]) (by simpa using hl) (by simpa using hdrop)
          (fun i x y hx hy => hi (i + 1) x y hx hy)
        rw [List.length_append] at h2
        have hser : (serItems f (y :: ys)).map (fun js' => JVal.arr (js ++ js')) =
            (serItems f ys).map (fun js' => .arr (js ++ [j] ++ js')) := by
          simp only [serItems, hr, Bind.bind, Except.bind]
          cases serItems f ys with
          | ok ks => simp [Except.map, pure, Except.pure]
          | error e => rfl
        rw [hser]
        have h3 := h2.cases
        rcases h3 with h3 | ⟨j', ρ', h3, h4, js', h5, h6⟩ | ⟨e, h3, h4⟩
        · rw [h3]; trivial
        · rw [h3]
          refine ⟨ρ', h4, j :: js', by simpa using h5, h6⟩
        · rw [h3]
          have h4 : _ = Except.error e := h4
          simp only [List.length_cons, List.length_nil, Nat.zero_add] at h4
          rw [h4]
          exact Does.error e
      · have : (serItems f (y :: ys)).map (fun js' => JVal.arr (js ++ js')) = .error e := by
          simp [serItems, hr, Bind.bind, Except.bind, Except.map]
        rw [this, loop_error (e := e)]
        · exact Does.error e
        · rw [hR]; rfl

theorem entries_ok {n : Nat} {body : Stmt} {mv : Val} {ρ : Env} {f : CV → Except Exc JVal} :
    ∀ (xs : List (Str × Val)) (ys : List (Str × CV)) (m : GoMap JVal), xs.map (·.1) = ys.map (·.1) →
      (∀ (i : Nat) x y, xs[i]? = some x → ys[i]? = some y → ∀ (ρ : Env) (key e : Expr) (put : JVal → JVal),
        Place L heap (n + 1) ρ (temp c!"target" n) key put → key = .dot (.var (temp c!"kv" n)) c!"first" →
        e = .dot (.var (temp c!"kv" n)) c!"second" → eval meant L heap ρ e = .ok x.2 →
        Does (Wrote (n + 1) (temp c!"target" n) put ρ) (f y.2) (exec meant L heap call body ρ)) →
      Does (fun j ρ' => (∃ m', j = .obj m') ∧ ρ' = (temp c!"map" n, mv) :: (temp c!"target" n, .json j) :: ρ)
        ((serEntries f ys m).map .obj)
        (loop (fun kv ρ => do
          let r ← exec meant L heap call body ((temp c!"kv" n, pairOf kv) :: ρ)
          pure (CppLang.block ρ.length r)) xs
          ((temp c!"map" n, mv) :: (temp c!"target" n, .json (.obj m)) :: ρ)) := by
  intro xs
  induction xs with
  | nil =>
    intro ys m hk _
    cases ys with
    | cons => cases hk
    | nil => exact ⟨_, rfl, ⟨_, rfl⟩, rfl⟩
  | cons a xs ih =>
    intro ys m hk hi
    cases ys with
    | nil => cases hk
    | cons y ys =>
      obtain ⟨k, v⟩ := a
      obtain ⟨k', y⟩ := y
      obtain ⟨rfl, hkeys⟩ : k = k' ∧ xs.map (·.1) = ys.map (·.1) := by simpa using hk
      generalize hρ : (temp c!"map" n, mv) :: (temp c!"target" n, Val.json (JVal.obj m)) :: ρ = ρ₁
      have hplace : Place L heap (n + 1) ((temp c!"kv" n, pairOf (k, v)) :: ρ₁) (temp c!"target" n)
          (.dot (.var (temp c!"kv" n)) c!"first") (fun j => .obj (GoMap.put k j m)) := by
        refine ⟨old_temp, ?_, .str k, .obj m, ?_, ?_, ?_⟩
        · intro z hz
          cases List.mem_singleton.1 hz
          exact old_temp
        · simp [eval, get_cons, pairOf, member, Bind.bind, Except.bind, List.lookup]
        · simp [← hρ, get_cons, temp_inj]
        · intro j
          simp [putAt]
      have heval : eval meant L heap ((temp c!"kv" n, pairOf (k, v)) :: ρ₁) (.dot (.var (temp c!"kv" n)) c!"second") = .ok v := by
        simp [eval, get_cons, pairOf, member, Bind.bind, Except.bind, List.lookup]
      have h1 := hi 0 (k, v) (k, y) rfl rfl _ _ _ _ hplace rfl rfl heval
      rcases h1.cases with hr | ⟨j, ρ', hr, hR, ext, hext, hw⟩ | ⟨e, hr, hR⟩
      · have : (serEntries f ((k, y) :: ys) m).map JVal.obj = .error .recursionError := by
          simp only at hr
          simp [serEntries, hr, Bind.bind, Except.bind, Except.map]
        rw [this]
        trivial
      · have hset : Env.set meant (temp c!"target" n) (.json (.obj (GoMap.put k j m))) ((temp c!"kv" n, pairOf (k, v)) :: ρ₁) =
            (temp c!"kv" n, pairOf (k, v)) :: (temp c!"map" n, mv) :: (temp c!"target" n, .json (.obj (GoMap.put k j m))) :: ρ := by
          simp [← hρ, set_cons, temp_inj]
        rw [hset] at hw
        have hstep : (do
            let r ← exec meant L heap call body ((temp c!"kv" n, pairOf (k, v)) :: ρ₁)
            pure (CppLang.block ρ₁.length r) : Except Exc Flow) =
            .ok ((temp c!"map" n, mv) :: (temp c!"target" n, .json (.obj (GoMap.put k j m))) :: ρ, none) := by
          rw [hR, hw]
          simp only [Bind.bind, Except.bind, pure, Except.pure, CppLang.block]
          congr 2
          have : ext ++ (temp c!"kv" n, pairOf (k, v)) :: (temp c!"map" n, mv) ::
              (temp c!"target" n, .json (.obj (GoMap.put k j m))) :: ρ =
              (ext ++ [(temp c!"kv" n, pairOf (k, v))]) ++ ((temp c!"map" n, mv) ::
              (temp c!"target" n, .json (.obj (GoMap.put k j m))) :: ρ) := by simp
          rw [this]
          exact leave_append (by simp [← hρ])
        rw [loop_cons hstep]
        have h2 := ih ys (GoMap.put k j m) hkeys (fun i x y hx hy => hi (i + 1) x y hx hy)
        have hser : serEntries f ((k, y) :: ys) m = serEntries f ys (GoMap.put k j m) := by
          simp only at hr
          simp [serEntries, hr, Bind.bind, Except.bind]
        rw [hser]
        exact h2
      · have : (serEntries f ((k, y) :: ys) m).map JVal.obj = .error e := by
          simp only at hr
          simp [serEntries, hr, Bind.bind, Except.bind, Except.map]
        rw [this, loop_error (e := e)]
        · exact Does.error e
        · rw [hR]; rfl

/-! ## Values -/

/-- A date, a time of day or both -/
theorem time_ok {n : Nat} {k : CppRuntime.TimeKind} {f : Str} {t : CppRuntime.Time} {ρ : Env} {x : Var} {key e : Expr} {put : JVal → JVal}
    (hp : Place L heap n ρ x key put)
    (hc : D = .ctime → (eval meant L heap ρ e).bind toJson = (tmToString L t f).map .str)
    (hd : D = .dateH → eval meant L heap ρ e = .ok (.str (L.dateFormat k f t))) :
    Does (Wrote n x put ρ) (CppRuntime.serTime D L k f (.time t))
      (exec meant L heap call (serializeTime x key f e) ρ) := by
  by_cases hf : f = []
  · subst hf
    have : CppRuntime.serTime D L k [] (.time t) = .ok (.str []) := by
      cases D <;> simp [CppRuntime.serTime, tmToString, Except.map]
    rw [this]
    simp only [serializeTime]
    exact hp.assign rfl rfl
  · simp only [serializeTime, if_neg hf]
    refine hp.does ?_
    cases D with
    | ctime => rw [hc rfl]; rfl
    | dateH =>
      rw [hd rfl]
      simp [CppRuntime.serTime, hf, Except.bind, toJson]

theorem vectorOf_cons {i v : Var} {xs : List Val} {ρ : Env} {w : Val} (h : i ≠ v) :
    vectorOf meant v ((i, w) :: (v, .vector xs) :: ρ) = .ok xs := by
  simp [vectorOf, get_cons, h]

/-- **Values.** The code for a value of the type does what the serializer does. -/
theorem value_ok {cpp : Cpp} (hD : dateLib cpp = .ok D)
    (hcall : ∀ name f x y, asVariable name = .ok f → Holds D g heap (.embed name) x y →
      Mirrors (embed name y) (call (c!"serialize_" ++ f) x)) :
    ∀ (t : Ty) (x : Var) (key e : Expr) (n m : Nat) (code : Stmt), serializeValue cpp t x key e n = .ok (code, m) →
      ∀ (v : Val) (y : CV) (ρ : Env) (put : JVal → JVal), Holds D g heap t v y → Place L heap n ρ x key put →
        eval meant L heap ρ e = .ok v → (∀ z ∈ reads e, ¬ New n z) →
        Does (Wrote n x put ρ) (serTy D L embed t y) (exec meant L heap call code ρ) := by
  intro t
  induction t with
  | boolean =>
    intro x key e n m code hc v y ρ put hh hp he hr
    cases hc
    cases hh
    exact hp.assign he rfl
  | integer b =>
    intro x key e n m code hc v y ρ put hh hp he hr
    cases hc
    cases hh
    exact hp.assign he rfl
  | float b =>
    intro x key e n m code hc v y ρ put hh hp he hr
    cases hc
    cases hh
    exact hp.assign he rfl
  | string p =>
    intro x key e n m code hc v y ρ put hh hp he hr
    cases hc
    cases hh
    exact hp.assign he rfl
  | path p =>
    intro x key e n m code hc v y ρ put hh hp he hr
    cases hc
    cases hh
    exact hp.does (by simp [eval, he, pathText, Bind.bind, Except.bind, toJson, serTy])
  | date f =>
    intro x key e n m code hc v y ρ put hh hp he hr
    simp only [serializeValue, hD, Bind.bind, Except.bind, pure, Except.pure] at hc
    cases hc
    cases hh <;> rename_i hd <;> subst hd <;> refine time_ok hp ?_ ?_ <;> intro h <;> cases h
    · simp only [eval, he, CppLang.tmText, Bind.bind, Except.bind]
      cases tmToString L _ f <;> rfl
    · simp [eval, he, CppLang.formatted, Bind.bind, Except.bind]
  | time f =>
    intro x key e n m code hc v y ρ put hh hp he hr
    simp only [serializeValue, hD, Bind.bind, Except.bind, pure, Except.pure] at hc
    cases hc
    cases hh <;> rename_i hd <;> subst hd <;> refine time_ok hp ?_ ?_ <;> intro h <;> cases h
    · simp only [eval, he, CppLang.tmText, Bind.bind, Except.bind]
      cases tmToString L _ f <;> rfl
    · simp [eval, he, CppLang.formatted, CppLang.toDuration, Bind.bind, Except.bind]
  | datetime f =>
    intro x key e n m code hc v y ρ put hh hp he hr
    simp only [serializeValue, hD, Bind.bind, Except.bind, pure, Except.pure] at hc
    cases hc
    cases hh <;> rename_i hd <;> subst hd <;> refine time_ok hp ?_ ?_ <;> intro h <;> cases h
    · simp only [eval, he, CppLang.tmText, Bind.bind, Except.bind]
      cases tmToString L _ f <;> rfl
    · simp [eval, he, CppLang.formatted, Bind.bind, Except.bind]
  | timeZone =>
    intro x key e n m code hc v y ρ put hh hp he hr
    simp only [serializeValue, hD, Bind.bind, Except.bind, pure, Except.pure] at hc
    cases hc
    cases hh <;> rename_i hd <;> subst hd
    · exact hp.assign he rfl
    · exact hp.does (by simp [eval, he, zoneName, Bind.bind, Except.bind, toJson, serTy])
    · exact hp.does (by simp [eval, he, zoneName, Bind.bind, Except.bind, serTy, nullPointer])
  | duration =>
    intro x key e n m code hc v y ρ put hh hp he hr
    cases hc
    cases hh with
    | duration d =>
    refine hp.does ?_
    simp only [eval, he, CppLang.durationText, Bind.bind, Except.bind, serTy]
    cases Duration.cppToString d <;> rfl
  | cls c =>
    intro x key e n m code hc v y ρ put hh hp he hr
    cases hc
    cases hh with
    | cls hl hid => exact hp.does (by simp [eval, he, pointee, hl, hid, Bind.bind, Except.bind, toJson, serTy])
    | clsNull => exact hp.does (by simp [eval, he, pointee, Bind.bind, Except.bind, serTy, nullPointer])
  | embed name =>
    intro x key e n m code hc v y ρ put hh hp he hr
    simp only [serializeValue] at hc
    cases hf : asVariable name with
    | error err => rw [hf] at hc; cases hc
    | ok f =>
      rw [hf] at hc
      cases hc
      exact hp.called he (hcall name f v y hf hh)
  | array t lo hi ih =>
    intro x key e n m code hc v y ρ put hh hp he hr
    simp only [serializeValue] at hc
    cases hb : serializeValue cpp t (temp c!"target" n) (.var (temp c!"i" n))
        (.index (.var (temp c!"vector" n)) (.var (temp c!"i" n))) (n + 1) with
    | error err => rw [hb] at hc; cases hc
    | ok bm =>
      obtain ⟨body, m'⟩ := bm
      rw [hb] at hc
      cases hc
      cases hh with
      | array hlen hmax hitems =>
      rename_i xs ys
      have hnew : ∀ b, New n (temp b n) := fun b => new_temp b n
      have he1 : eval meant L heap ((temp c!"vector" n, .void) :: (temp c!"target" n, .json (.arr [])) :: ρ) e = .ok (.vector xs) := by
        rw [← he]
        refine eval_congr fun z hz => ?_
        rw [get_cons, if_neg (ne_of_new (hnew _) (hr z hz)), get_cons, if_neg (ne_of_new (hnew _) (hr z hz))]
      have hloop := items_ok (L := L) (heap := heap) (call := call) (n := n) (body := body) (xs := xs) (ρ := ρ)
        (f := serTy D L embed t) xs ys [] hlen rfl (by
          intro i x y hx hy ρ' key' e' put' hp' hk he' hev
          subst hk he'
          refine ih _ _ _ _ _ _ hb _ _ _ _ (hitems i x y hx hy) hp' hev ?_
          intro z hz
          simp only [reads, List.mem_append, List.mem_singleton] at hz
          rcases hz with rfl | rfl <;> exact old_temp)
      simp only [List.nil_append] at hloop
      have hrun : exec meant L heap call (.seq (.json (temp c!"target" n) (some .array)) (.seq (.auto (temp c!"vector" n) e)
          (.seq (.forCount (temp c!"i" n) (temp c!"vector" n) body) (.assign x key (.move (temp c!"target" n)))))) ρ =
          ((loop (fun (k : Nat) ρ => do
            let r ← exec meant L heap call body ((temp c!"i" n, .int k) :: ρ)
            pure (CppLang.block ρ.length r)) (List.range' 0 xs.length)
            ((temp c!"vector" n, .vector xs) :: (temp c!"target" n, .json (.arr [])) :: ρ)).bind fun (ρ', r) =>
              match r with
              | some j => .ok (ρ', some j)
              | none => exec meant L heap call (.assign x key (.move (temp c!"target" n))) ρ') := by
        simp only [exec, Kind.empty, Bind.bind, Except.bind, he1, pure, Except.pure]
        rw [vectorOf_cons (by simp [temp_inj])]
        simp only [if_neg (Nat.not_lt.2 hmax), List.range_eq_range']
        rfl
      rw [hrun]
      rcases hloop.cases with h | ⟨j, ρ', h, hR, js, rfl, rfl⟩ | ⟨err, h, hR⟩
      · have : serTy D L embed (.array t lo hi) (.list ys) = .error .recursionError := h
        rw [this]; trivial
      · have : serTy D L embed (.array t lo hi) (.list ys) = .ok (.arr js) := h
        rw [this]
        simp only [List.length_nil] at hR
        rw [hR]
        obtain ⟨k, old, hk, hx, hput⟩ := hp.key
        have hne : ∀ b, temp b n ≠ x := fun b => ne_of_new (hnew b) hp.old
        have hk' : eval meant L heap ((temp c!"vector" n, .vector xs) :: (temp c!"target" n, .json (.arr js)) :: ρ) key = .ok k := by
          rw [← hk]
          refine eval_congr fun z hz => ?_
          rw [get_cons, if_neg (ne_of_new (hnew _) (hp.reads z hz)), get_cons, if_neg (ne_of_new (hnew _) (hp.reads z hz))]
        refine ⟨[(temp c!"vector" n, .vector xs), (temp c!"target" n, .json (.arr js))] ++ Env.set meant x (.json (put (.arr js))) ρ, ?_,
          [(temp c!"vector" n, .vector xs), (temp c!"target" n, .json (.arr js))], ?_, rfl⟩
        rotate_left
        · intro b hb
          simp only [List.mem_cons, List.not_mem_nil, or_false] at hb
          rcases hb with rfl | rfl <;> exact hnew _
        · simp [exec, Except.bind, hk', jsonOf, get_cons, set_cons, temp_inj, hne, hx, hput, Bind.bind, pure, Except.pure]
      · have : serTy D L embed (.array t lo hi) (.list ys) = .error err := h
        rw [this]
        simp only [List.length_nil] at hR
        rw [hR]
        exact Does.error err
  | map t ih =>
    intro x key e n m code hc v y ρ put hh hp he hr
    simp only [serializeValue] at hc
    cases hb : serializeValue cpp t (temp c!"target" n) (.dot (.var (temp c!"kv" n)) c!"first")
        (.dot (.var (temp c!"kv" n)) c!"second") (n + 1) with
    | error err => rw [hb] at hc; cases hc
    | ok bm =>
      obtain ⟨body, m'⟩ := bm
      rw [hb] at hc
      cases hc
      cases hh with
      | map hkeys hitems =>
      rename_i xs ys
      have hnew : ∀ b, New n (temp b n) := fun b => new_temp b n
      have he1 : eval meant L heap ((temp c!"map" n, .void) :: (temp c!"target" n, .json (.obj [])) :: ρ) e = .ok (.map xs) := by
        rw [← he]
        refine eval_congr fun z hz => ?_
        rw [get_cons, if_neg (ne_of_new (hnew _) (hr z hz)), get_cons, if_neg (ne_of_new (hnew _) (hr z hz))]
      have hloop := entries_ok (L := L) (heap := heap) (call := call) (n := n) (body := body) (mv := .map xs) (ρ := ρ)
        (f := serTy D L embed t) xs ys [] hkeys (by
          intro i x y hx hy ρ' key' e' put' hp' hk he' hev
          subst hk he'
          refine ih _ _ _ _ _ _ hb _ _ _ _ (hitems i x y hx hy) hp' hev ?_
          intro z hz
          simp only [reads, List.mem_singleton] at hz
          subst hz
          exact old_temp)
      have hrun : exec meant L heap call (.seq (.json (temp c!"target" n) (some .object)) (.seq (.auto (temp c!"map" n) e)
          (.seq (.forEach (temp c!"kv" n) (.var (temp c!"map" n)) body) (.assign x key (.move (temp c!"target" n)))))) ρ =
          ((loop (fun kv ρ => do
            let r ← exec meant L heap call body ((temp c!"kv" n, pairOf kv) :: ρ)
            pure (CppLang.block ρ.length r)) xs
            ((temp c!"map" n, .map xs) :: (temp c!"target" n, .json (.obj [])) :: ρ)).bind fun (ρ', r) =>
              match r with
              | some j => .ok (ρ', some j)
              | none => exec meant L heap call (.assign x key (.move (temp c!"target" n))) ρ') := by
        have hm : eval meant L heap ((temp c!"map" n, .map xs) :: (temp c!"target" n, .json (.obj [])) :: ρ)
            (.var (temp c!"map" n)) = .ok (.map xs) := by
          simp [eval, get_cons]
        simp only [exec, Kind.empty, Bind.bind, Except.bind, he1, pure, Except.pure, hm, entriesOf]
        rfl
      rw [hrun]
      rcases hloop.cases with h | ⟨j, ρ', h, hR, ⟨js, rfl⟩, rfl⟩ | ⟨err, h, hR⟩
      · have : serTy D L embed (.map t) (.map ys) = .error .recursionError := h
        rw [this]; trivial
      · have : serTy D L embed (.map t) (.map ys) = .ok (.obj js) := h
        rw [this, hR]
        obtain ⟨k, old, hk, hx, hput⟩ := hp.key
        have hne : ∀ b, temp b n ≠ x := fun b => ne_of_new (hnew b) hp.old
        have hk' : eval meant L heap ((temp c!"map" n, .map xs) :: (temp c!"target" n, .json (.obj js)) :: ρ) key = .ok k := by
          rw [← hk]
          refine eval_congr fun z hz => ?_
          rw [get_cons, if_neg (ne_of_new (hnew _) (hp.reads z hz)), get_cons, if_neg (ne_of_new (hnew _) (hp.reads z hz))]
        refine ⟨[(temp c!"map" n, .map xs), (temp c!"target" n, .json (.obj js))] ++ Env.set meant x (.json (put (.obj js))) ρ, ?_,
          [(temp c!"map" n, .map xs), (temp c!"target" n, .json (.obj js))], ?_, rfl⟩
        rotate_left
        · intro b hb
          simp only [List.mem_cons, List.not_mem_nil, or_false] at hb
          rcases hb with rfl | rfl <;> exact hnew _
        · simp [exec, Except.bind, hk', jsonOf, get_cons, set_cons, temp_inj, hne, hx, hput, Bind.bind, pure, Except.pure]
      · have : serTy D L embed (.map t) (.map ys) = .error err := h
        rw [this, hR]
        exact Does.error err

end

end Mapry.CppExec
