import Verif.GoWriteTy

/-!
# The generated Go code which parses a value: the memory, the statements and the simple types
-/

namespace Mapry.GoExec

open Mapry.GoLang Mapry.GoGen
open Mapry.GoRuntime (JVal Lib field isPointer)
open Mapry.GoCode (Name v vi own)

/-! ## Parts of a value -/

theorem update_some : ∀ {path : List Step} {c x : Val}, part path c = some x → ∀ w, ∃ c', update path w c = some c'
  | [], _, _, _, w => ⟨w, rfl⟩
  | .field f :: ss, c, x, h, w => by
    cases c with
    | zero =>
      obtain ⟨c', hc⟩ := update_some (path := ss) (show part ss .zero = some x from h) w
      exact ⟨_, by rw [update, hc]; rfl⟩
    | struct fs =>
      obtain ⟨c', hc⟩ := update_some (path := ss) (show part ss ((fs.lookup f).getD .zero) = some x from h) w
      exact ⟨_, by rw [update, hc]; rfl⟩
    | _ => cases h
  | .item i :: ss, c, x, h, w => by
    cases c with
    | array xs =>
      cases hi : xs[i]? with
      | none => simp only [part, step, hi] at h; cases h
      | some y =>
        simp only [part, step, hi] at h
        obtain ⟨c', hc⟩ := update_some (path := ss) (show part ss y = some x from h) w
        exact ⟨_, by rw [update, hi, Option.bind_some, hc]; rfl⟩
    | _ => cases h

theorem setField_lookup (f : Str) (w : Val) : ∀ (fs : List (Str × Val)) (f' : Str),
    (setField f w fs).lookup f' = if f' = f then some w else fs.lookup f'
  | [], f' => by
    rw [setField, List.lookup_cons]
    by_cases h : f' = f
    · subst h; simp
    · rw [beq_eq_false_iff_ne.2 h, if_neg h]
  | (k, x) :: fs, f' => by
    rw [setField]
    split
    · rename_i hk
      subst hk
      rw [List.lookup_cons, List.lookup_cons]
      by_cases h : f' = k
      · subst h; simp
      · rw [beq_eq_false_iff_ne.2 h, if_neg h]
    · rename_i hk
      rw [List.lookup_cons, List.lookup_cons, setField_lookup f w fs f']
      by_cases h : f' = k
      · subst h
        simp [hk]
      · rw [beq_eq_false_iff_ne.2 h]

theorem setField_twice (f : Str) (w w' : Val) : ∀ (fs : List (Str × Val)),
    setField f w' (setField f w fs) = setField f w' fs
  | [] => by simp [setField]
  | (k, x) :: fs => by
    rw [setField]
    split
    · rename_i hk
      rw [setField, if_pos rfl, setField, if_pos hk]
    · rename_i hk
      rw [setField, if_neg hk, setField, if_neg hk, setField_twice]

/-- The part is the one which has been put there. -/
theorem part_update : ∀ {path : List Step} {c w c' : Val}, update path w c = some c' → part path c' = some w
  | [], _, _, _, h => by cases h; rfl
  | .field f :: ss, c, w, c', h => by
    cases c with
    | zero =>
      rw [update] at h
      cases hu : update ss w .zero with
      | none => rw [hu] at h; cases h
      | some y =>
        rw [hu] at h
        cases h
        have e : step (.field f) (.struct [(f, y)]) = some y := by simp [step, fieldOf]
        rw [part, e]
        exact part_update hu
    | struct fs =>
      rw [update] at h
      cases hu : update ss w ((fs.lookup f).getD .zero) with
      | none => rw [hu] at h; cases h
      | some y =>
        rw [hu] at h
        cases h
        have e : step (.field f) (.struct (setField f y fs)) = some y := by
          rw [step, fieldOf, setField_lookup, if_pos rfl]
          rfl
        rw [part, e]
        exact part_update hu
    | _ => cases h
  | .item i :: ss, c, w, c', h => by
    cases c with
    | array xs =>
      rw [update] at h
      cases hi : xs[i]? with
      | none => rw [hi] at h; cases h
      | some x =>
        rw [hi, Option.bind_some] at h
        cases hu : update ss w x with
        | none => rw [hu] at h; cases h
        | some y =>
          rw [hu] at h
          cases h
          have e : step (.item i) (.array (xs.set i y)) = some y := by
            rw [step, List.getElem?_set_self (lt_of_get hi)]
          rw [part, e]
          exact part_update hu
    | _ => cases h

/-- A second update replaces the first one. -/
theorem update_update : ∀ {path : List Step} {c w c' : Val}, update path w c = some c' → ∀ w', update path w' c' = update path w' c
  | [], _, _, _, _, _ => rfl
  | .field f :: ss, c, w, c', h, w' => by
    cases c with
    | zero =>
      rw [update] at h
      cases hu : update ss w .zero with
      | none => rw [hu] at h; cases h
      | some y =>
        rw [hu] at h
        cases h
        rw [update, update]
        have e : (List.lookup f [(f, y)]).getD .zero = y := by simp
        rw [e, update_update hu w']
        cases update ss w' .zero with
        | none => rfl
        | some z => simp [setField]
    | struct fs =>
      rw [update] at h
      cases hu : update ss w ((fs.lookup f).getD .zero) with
      | none => rw [hu] at h; cases h
      | some y =>
        rw [hu] at h
        cases h
        rw [update, update, setField_lookup, if_pos rfl]
        show Option.map _ (update ss w' y) = _
        rw [update_update hu w']
        cases update ss w' ((fs.lookup f).getD .zero) with
        | none => rfl
        | some z => simp [setField_twice]
    | _ => cases h
  | .item i :: ss, c, w, c', h, w' => by
    cases c with
    | array xs =>
      rw [update] at h
      cases hi : xs[i]? with
      | none => rw [hi] at h; cases h
      | some x =>
        rw [hi, Option.bind_some] at h
        cases hu : update ss w x with
        | none => rw [hu] at h; cases h
        | some y =>
          rw [hu] at h
          cases h
          rw [update, update, List.getElem?_set_self (lt_of_get hi), hi, Option.bind_some, Option.bind_some,
            update_update hu w']
          cases update ss w' x with
          | none => rfl
          | some z => simp
    | _ => cases h

/-- The update of a part of a part -/
theorem update_append : ∀ {path : List Step} {s : Step} {c x y w c' : Val}, part path c = some x → update [s] w x = some y →
    update path y c = some c' → update (path ++ [s]) w c = some c'
  | [], s, c, x, y, w, c', hp, hu, hc => by
    cases hp
    cases hc
    exact hu
  | .field f :: ss, s, c, x, y, w, c', hp, hu, hc => by
    cases c with
    | zero =>
      rw [update] at hc
      cases hu' : update ss y .zero with
      | none => rw [hu'] at hc; cases hc
      | some z =>
        rw [hu'] at hc
        rw [List.cons_append, update, update_append (show part ss .zero = some x from hp) hu hu']
        exact hc
    | struct fs =>
      rw [update] at hc
      cases hu' : update ss y ((fs.lookup f).getD .zero) with
      | none => rw [hu'] at hc; cases hc
      | some z =>
        rw [hu'] at hc
        rw [List.cons_append, update, update_append (show part ss ((fs.lookup f).getD .zero) = some x from hp) hu hu']
        exact hc
    | _ => cases hp
  | .item i :: ss, s, c, x, y, w, c', hp, hu, hc => by
    cases c with
    | array xs =>
      rw [update] at hc
      cases hi : xs[i]? with
      | none => rw [hi] at hc; cases hc
      | some a =>
        rw [hi, Option.bind_some] at hc
        simp only [part, step, hi] at hp
        cases hu' : update ss y a with
        | none => rw [hu'] at hc; cases hc
        | some z =>
          rw [hu'] at hc
          rw [List.cons_append, update, hi, Option.bind_some, update_append (show part ss a = some x from hp) hu hu']
          exact hc
    | _ => cases hp

/-! ## What has been parsed -/

mutual

/-- The Go value of the type is the value of the model. Its slices, maps and pointers are at the location `lo` or later; `reg`
gives the instances by class and identifier. -/
inductive Built (g : Graph) (reg : Str → Str → Option Addr) (h : List Val) (lo : Nat) : Ty → Val → GV → Prop
  | boolean (b) : Built g reg h lo .boolean (.bool b) (.bool b)
  | integer (bd i) : Built g reg h lo (.integer bd) (.int i) (.int i)
  | float (bd f) : Built g reg h lo (.float bd) (.float f) (.float f)
  | string (p s) : Built g reg h lo (.string p) (.str s) (.str s)
  | path (p s) : Built g reg h lo (.path p) (.str s) (.str s)
  | date (f t) : Built g reg h lo (.date f) (.time t) (.time t)
  | time (f t) : Built g reg h lo (.time f) (.time t) (.time t)
  | datetime (f t) : Built g reg h lo (.datetime f) (.time t) (.time t)
  | zone (s) : Built g reg h lo .timeZone (.zone s) (.zone s)
  | duration (d) : Built g reg h lo .duration (.duration d) (.duration d)
  | array {t m M l xs ys} : lo ≤ l → h[l]? = some (.array xs) → xs.length = ys.length →
      (∀ (i : Nat) x y, xs[i]? = some x → ys[i]? = some y → Built g reg h lo t x y) →
      Built g reg h lo (.array t m M) (.slice l) (.list ys)
  | map {t l xs ys} : lo ≤ l → h[l]? = some (.table xs) → xs.map (·.1) = ys.map (·.1) →
      (∀ (i : Nat) x y, xs[i]? = some x → ys[i]? = some y → Built g reg h lo t x.2 y.2) →
      Built g reg h lo (.map t) (.map l) (.map ys)
  | cls {c a id} : reg c id = some a → Built g reg h lo (.cls c) (.ptr a) (.ref c id)
  | embed {n e x fields} (V : Property → GV) (w : Property → Val) : g.embed? n = some e →
      (∀ p ∈ e.properties, fields.lookup (field p) = some (V p)) →
      (∀ p ∈ e.properties, fieldOf (field p) x = some (w p)) →
      (∀ p ∈ e.properties, BuiltProp g reg h lo p (w p) (V p)) → Built g reg h lo (.embed n) x (.obj n fields)

/-- The field of the property -/
inductive BuiltProp (g : Graph) (reg : Str → Str → Option Addr) (h : List Val) (lo : Nat) : Property → Val → GV → Prop
  | direct {p x y} : p.optional = false ∨ isPointer p.ty = true → Built g reg h lo p.ty x y → BuiltProp g reg h lo p x y
  | none {p} {x : Val} : p.optional = true → x.isNil = true → BuiltProp g reg h lo p x .nil
  | some {p l x y} : p.optional = true → isPointer p.ty = false → lo ≤ l → h[l]? = some x → Built g reg h lo p.ty x y →
      BuiltProp g reg h lo p (.ptr ⟨l, []⟩) y

end

section
variable {g : Graph} {reg : Str → Str → Option Addr}

mutual

/-- What has been parsed is not changed by what happens to older cells. -/
theorem Built.frame {T : Nat → Prop} {h h' : List Val} {lo lo' : Nat} (hf : Frame T h h') (ht : ∀ a, T a → a < lo)
    (hl : lo' ≤ lo) : ∀ {t : Ty} {x : Val} {y : GV}, Built g reg h lo t x y → Built g reg h' lo' t x y
  | _, _, _, .boolean b => .boolean b
  | _, _, _, .integer b i => .integer b i
  | _, _, _, .float b f => .float b f
  | _, _, _, .string p s => .string p s
  | _, _, _, .path p s => .path p s
  | _, _, _, .date f t => .date f t
  | _, _, _, .time f t => .time f t
  | _, _, _, .datetime f t => .datetime f t
  | _, _, _, .zone s => .zone s
  | _, _, _, .duration d => .duration d
  | _, _, _, .array h1 h2 h3 h4 => .array (Nat.le_trans hl h1)
      (hf.get (fun h => Nat.lt_irrefl _ (Nat.lt_of_lt_of_le (ht _ h) h1)) h2) h3
      fun i x y hx hy => Built.frame hf ht hl (h4 i x y hx hy)
  | _, _, _, .map h1 h2 h3 h4 => .map (Nat.le_trans hl h1)
      (hf.get (fun h => Nat.lt_irrefl _ (Nat.lt_of_lt_of_le (ht _ h) h1)) h2) h3
      fun i x y hx hy => Built.frame hf ht hl (h4 i x y hx hy)
  | _, _, _, .cls h => .cls h
  | _, _, _, .embed V w h1 h2 h3 h4 => .embed V w h1 h2 h3 fun p hp => BuiltProp.frame hf ht hl (h4 p hp)

theorem BuiltProp.frame {T : Nat → Prop} {h h' : List Val} {lo lo' : Nat} (hf : Frame T h h') (ht : ∀ a, T a → a < lo)
    (hl : lo' ≤ lo) : ∀ {p : Property} {x : Val} {y : GV}, BuiltProp g reg h lo p x y → BuiltProp g reg h' lo' p x y
  | _, _, _, .direct h1 h2 => .direct h1 (h2.frame hf ht hl)
  | _, _, _, .none h1 h2 => .none h1 h2
  | _, _, _, .some h1 h2 h3 h4 h5 => .some h1 h2 (Nat.le_trans hl h3)
      (hf.get (fun h => Nat.lt_irrefl _ (Nat.lt_of_lt_of_le (ht _ h) h3)) h4) (h5.frame hf ht hl)

end

end

/-! ## Where a value is put -/

/-- A part of a cell or an entry of a map -/
inductive Slot where
  | addr (loc : Nat) (path : List Step)
  | entry (loc : Nat) (key : Str)

namespace Slot

def loc : Slot → Nat
  | .addr l _ => l
  | .entry l _ => l

/-- The contents of the cell when the value is put there -/
def put : Slot → Val → Val → Option Val
  | .addr _ path, c, w => update path w c
  | .entry _ k, c, w => store c (.str k) w

/-- The contents of a cell in which nothing has been put -/
def Fresh : Slot → Val → Prop
  | .addr _ path, c => part path c = some .zero
  | .entry _ _, c => ∃ kvs, c = .table kvs

/-- The cell contains the value at the slot, and is otherwise as before. -/
def Is : Slot → (before w after : Val) → Prop
  | .addr _ path, c0, w, c => update path w c0 = some c ∨ (c = c0 ∧ w = .zero)
  | .entry _ k, c0, w, c => store c0 (.str k) w = some c

theorem Fresh.put {s : Slot} {c : Val} (h : s.Fresh c) (w : Val) : ∃ c', s.put c w = some c' := by
  cases s with
  | addr l path => exact update_some h w
  | entry l k =>
    obtain ⟨kvs, rfl⟩ := h
    exact ⟨_, rfl⟩

theorem is_of_put {s : Slot} {c w c' : Val} (h : s.put c w = some c') : s.Is c w c' := by
  cases s with
  | addr l path => exact .inl h
  | entry l k => exact h

end Slot

/-- The state of the model -/
def stOf (σ : St) : GoRuntime.St := ⟨σ.errors, σ.ranges⟩

/-- What has gone wrong in the model goes wrong in the code, too, unless the stack of the model is exhausted. -/
def Stops {α : Type} (e : Exc) (X : Except Exc α) : Prop := e = .recursionError ∨ X = .error e

/-- What is in the cell of the slot afterwards: the cell is unchanged and there are errors; or the value has been put, which is the
one of the model if there are no errors. -/
def Placed (s : Slot) (c0 c : Val) (e e' : GoErrors) (R : Val → GV → Prop) : Option GV → Prop
  | none => c = c0 ∧ e'.empty = false
  | some x => ∃ w, s.Is c0 w c ∧ (e'.empty = true → e.empty = true ∧ R w x)

/-- The code has done what the model does. -/
def Done (n : Nat) (s : Slot) (c0 : Val) (R : List Val → Val → GV → Prop) (ρ : Env) (σ : St) :
    Except Exc (Option GV × GoRuntime.St) → Result → Prop
  | .ok (o, st), X => ∃ ρ' σ' c, X = .ok (.next, ρ', σ') ∧ Later n (· = s.loc) ρ σ ρ' σ' ∧ stOf σ' = st ∧
      σ'.heap[s.loc]? = some c ∧ Placed s c0 c σ.errors σ'.errors (R σ'.heap) o
  | .error e, X => Stops e X

theorem Done.error {n : Nat} {s : Slot} {c0 : Val} {R : List Val → Val → GV → Prop} {ρ : Env} {σ : St} {e : Exc} {X : Result} :
    Done n s c0 R ρ σ (.error e) X ↔ Stops e X := .rfl

theorem Stops.close {e : Exc} {ρ : Env} {X : Result} (h : Stops e X) : Stops e (close ρ X) := by
  rcases h with h | h
  · exact .inl h
  · exact .inr (by rw [h]; rfl)

theorem Stops.body {e : Exc} {X : Result} (h : Stops e X) : Stops e (bodyOf X) := by
  rcases h with h | h
  · exact .inl h
  · exact .inr (by rw [h]; rfl)

theorem Done.close {n : Nat} {s : Slot} {c0 : Val} {R : List Val → Val → GV → Prop} {ρ ρ1 : Env} {σ : St}
    {r : Except Exc (Option GV × GoRuntime.St)} {X : Result} (h : Done n s c0 R ρ σ r X)
    (hv : ∀ x, Old n x → ρ1.lookup x = ρ.lookup x) : Done n s c0 R ρ σ r (close ρ1 X) := by
  cases r with
  | error e => exact Stops.close h
  | ok p =>
    obtain ⟨ρ', σ', c, hX, hl, h⟩ := h
    exact ⟨ρ1, σ', c, by rw [hX]; rfl, ⟨hv, hl.frame⟩, h⟩

theorem add_empty (e : GoErrors) (x : Err) : (e.add x).empty = false := by
  unfold GoErrors.add GoErrors.empty
  split
  · simp
  · rename_i h
    simp only [not_or] at h
    simp only [decide_eq_false_iff_not]
    omega

section
variable {O : Order} {L : Lib} {pats : Nat → Str} {call : Call}

/-! ## What the code is given -/

variable (L pats) in
/-- The expression is the JSONable, also in later states. -/
def Given (n : Nat) (ρ : Env) (σ : St) (e : Expr) (j : JVal) : Prop :=
  ∀ ρ' σ', Later n (fun _ => False) ρ σ ρ' σ' → eval L pats ρ' σ' e = .ok (.json j)

variable (L pats) in
/-- The place is the slot, also in later states. -/
def At (n : Nat) (ρ : Env) (σ : St) (p : Place) (s : Slot) : Prop :=
  ∀ ρ' σ', Later n (fun _ => False) ρ σ ρ' σ' →
    (∀ w, assignTo L pats ρ' σ' w p = need ((σ'.heap[s.loc]?).bind fun c => (s.put c w).map fun c => σ'.put s.loc c)) ∧
    ∀ l path, s = .addr l path → addrOf L pats ρ' σ' (expr p) = .ok ⟨l, path⟩

variable (L pats) in
/-- The parts of the reference are the texts, also in later states. -/
def Refers (n : Nat) (ρ : Env) (σ : St) (ref : List Expr) (ts : List Str) : Prop :=
  ∀ ρ' σ', Later n (fun _ => False) ρ σ ρ' σ' → evalAll L pats ρ' σ' ref = .ok (ts.map .str)

theorem Given.later {n m : Nat} {ρ ρ' : Env} {σ σ' : St} {e : Expr} {j : JVal} (h : Given L pats n ρ σ e j) (hm : n ≤ m)
    (hl : Later n (fun _ => False) ρ σ ρ' σ') : Given L pats m ρ' σ' e j :=
  fun ρ'' σ'' hl' => h ρ'' σ'' (hl.trans (hl'.mono hm fun _ _ h => h))

theorem At.later {n m : Nat} {ρ ρ' : Env} {σ σ' : St} {p : Place} {s : Slot} (h : At L pats n ρ σ p s) (hm : n ≤ m)
    (hl : Later n (fun _ => False) ρ σ ρ' σ') : At L pats m ρ' σ' p s :=
  fun ρ'' σ'' hl' => h ρ'' σ'' (hl.trans (hl'.mono hm fun _ _ h => h))

theorem Refers.later {n m : Nat} {ρ ρ' : Env} {σ σ' : St} {ref : List Expr} {ts : List Str} (h : Refers L pats n ρ σ ref ts)
    (hm : n ≤ m) (hl : Later n (fun _ => False) ρ σ ρ' σ') : Refers L pats m ρ' σ' ref ts :=
  fun ρ'' σ'' hl' => h ρ'' σ'' (hl.trans (hl'.mono hm fun _ _ h => h))

theorem texts_ok (ts : List Str) : (ts.map Val.str).mapM textOf = .ok ts := by
  induction ts with
  | nil => rfl
  | cons t ts ih =>
    rw [List.map_cons, List.mapM_cons, ih]
    rfl

theorem eval_join {ρ : Env} {σ : St} {ref : List Expr} {ts : List Str} (h : evalAll L pats ρ σ ref = .ok (ts.map .str)) :
    eval L pats ρ σ (.join ref) = .ok (.str (joinWith c!"/" ts)) := by
  rw [eval, h]
  show (do let ts ← (ts.map Val.str).mapM textOf; return Val.str (joinWith c!"/" ts)) = _
  rw [texts_ok]
  rfl

/-- All that the code of a value is given -/
structure Here (L : Lib) (pats : Nat → Str) (n : Nat) (ρ : Env) (σ : St) (value : Expr) (target : Place) (ref : List Expr)
    (j : JVal) (s : Slot) (c0 : Val) (ts : List Str) : Prop where
  value : Given L pats n ρ σ value j
  target : At L pats n ρ σ target s
  ref : Refers L pats n ρ σ ref ts
  cell : σ.heap[s.loc]? = some c0
  fresh : s.Fresh c0

theorem evalAll_cons {ρ : Env} {σ : St} {e : Expr} {es : List Expr} {x : Val} {xs : List Val} (h : eval L pats ρ σ e = .ok x)
    (hs : evalAll L pats ρ σ es = .ok xs) : evalAll L pats ρ σ (e :: es) = .ok (x :: xs) := by
  rw [evalAll, h, hs]
  rfl

theorem evalAll_one {ρ : Env} {σ : St} {e : Expr} {x : Val} (h : eval L pats ρ σ e = .ok x) :
    evalAll L pats ρ σ [e] = .ok [x] := evalAll_cons h rfl

theorem evalAll_append {ρ : Env} {σ : St} : ∀ {es : List Expr} {xs : List Val}, evalAll L pats ρ σ es = .ok xs →
    ∀ {fs : List Expr} {ys : List Val}, evalAll L pats ρ σ fs = .ok ys → evalAll L pats ρ σ (es ++ fs) = .ok (xs ++ ys)
  | [], xs, h, fs, ys, h' => by cases h; exact h'
  | e :: es, xs, h, fs, ys, h' => by
    rw [evalAll] at h
    cases h1 : eval L pats ρ σ e with
    | error _ => rw [h1] at h; cases h
    | ok x =>
      cases h2 : evalAll L pats ρ σ es with
      | error _ => rw [h1, h2] at h; cases h
      | ok xs' =>
        rw [h1, h2] at h
        cases h
        exact evalAll_cons h1 (evalAll_append h2 h')

/-! ## Reports and assignments -/

section
variable {n : Nat} {ρ ρ1 : Env} {σ σ1 : St} {value : Expr} {target : Place} {ref : List Expr} {j : JVal} {s : Slot} {c0 : Val}
  {ts : List Str} {R : List Val → Val → GV → Prop}

theorem eval_sprintf {fmt : Str} {args : List Expr} {vs : List Val} {js : List JVal}
    (he : evalAll L pats ρ1 σ1 args = .ok vs) (hj : vs.mapM argOf = .ok js) :
    eval L pats ρ1 σ1 (.sprintf fmt args) = .ok (.str (L.sprintf fmt js)) := by
  rw [eval, he]
  show (do let js ← vs.mapM argOf; return Val.str (L.sprintf fmt js)) = _
  rw [hj]
  rfl

theorem exec_report {fmt : Str} {args : List Expr} {vs : List Val} {js : List JVal}
    (hr : evalAll L pats ρ1 σ1 ref = .ok (ts.map .str)) (he : evalAll L pats ρ1 σ1 args = .ok vs) (hj : vs.mapM argOf = .ok js) :
    exec L pats O call (reportAt ref fmt args) ρ1 σ1 =
      .ok (.next, ρ1, { σ1 with errors := σ1.errors.add ⟨joinWith c!"/" ts, L.sprintf fmt js⟩ }) := by
  rw [reportAt, exec, eval_join hr, eval_sprintf he hj]
  rfl

/-- A report instead of a value -/
theorem report_ok (H : Here L pats n ρ σ value target ref j s c0 ts) (hl : Later n (fun _ => False) ρ σ ρ1 σ1)
    (hst : stOf σ1 = stOf σ) {fmt : Str} {args : List Expr} {vs : List Val} {js : List JVal}
    (he : evalAll L pats ρ1 σ1 args = .ok vs) (hj : vs.mapM argOf = .ok js) :
    Done n s c0 R ρ σ (.ok (none, (stOf σ).add (joinWith c!"/" ts) (L.sprintf fmt js)))
      (exec L pats O call (reportAt ref fmt args) ρ1 σ1) := by
  refine ⟨ρ1, _, c0, exec_report (H.ref ρ1 σ1 hl) he hj, ⟨hl.vars, hl.frame.grown⟩, ?_,
    hl.frame.get (fun h => h) H.cell, rfl, add_empty _ _⟩
  have h1 : σ1.errors = σ.errors := congrArg GoRuntime.St.errors hst
  have h2 : σ1.ranges = σ.ranges := congrArg GoRuntime.St.ranges hst
  simp only [stOf, GoRuntime.St.add, h1, h2]

/-- The assignment of a value -/
theorem put_ok (H : Here L pats n ρ σ value target ref j s c0 ts) (hl : Later n (fun _ => False) ρ σ ρ1 σ1)
    {e : Expr} {w : Val} {x : GV} (he : eval L pats ρ1 σ1 e = .ok w)
    (hR : σ1.errors.empty = true → σ.errors.empty = true ∧ ∀ h, Frame (· = s.loc) σ1.heap h → R h w x) :
    Done n s c0 R ρ σ (.ok (some x, stOf σ1)) (exec L pats O call (.assign target (.val e)) ρ1 σ1) := by
  obtain ⟨c, hc⟩ := H.fresh.put w
  have h0 := hl.frame.get (fun h => h) H.cell
  have ha := (H.target ρ1 σ1 hl).1 w
  rw [h0, Option.bind_some, hc, Option.map_some, need] at ha
  refine ⟨ρ1, σ1.put s.loc c, c, ?_, ⟨hl.vars, hl.frame.grown.trans (frame_set _ _ _)⟩, rfl, ?_, w, Slot.is_of_put hc,
    fun hemp => ⟨(hR hemp).1, (hR hemp).2 _ (frame_set _ _ _)⟩⟩
  · simp only [exec, evalRhs_val L pats call he]
    show (do let σ ← assignTo L pats ρ1 σ1 w target; return (Flow.next, ρ1, σ)) = _
    rw [ha]
    rfl
  · exact List.getElem?_set_self (lt_of_get h0)

/-- The assignment of a value without slices, maps or pointers -/
theorem simple_put (H : Here L pats n ρ σ value target ref j s c0 ts) (hl : Later n (fun _ => False) ρ σ ρ1 σ1)
    (hst : stOf σ1 = stOf σ) {e : Expr} {w : Val} {x : GV} (he : eval L pats ρ1 σ1 e = .ok w) (hR : ∀ h, R h w x) :
    Done n s c0 R ρ σ (.ok (some x, stOf σ)) (exec L pats O call (.assign target (.val e)) ρ1 σ1) := by
  have := put_ok (O := O) (call := call) (R := R) H hl he (x := x) fun h =>
    ⟨by rw [← show σ1.errors = σ.errors from congrArg GoRuntime.St.errors hst]; exact h, fun h _ => hR h⟩
  rwa [hst] at this

/-! ## The dynamic type -/

/-- The value of the dynamic type -/
def kindVal : Kind → JVal → Option Val
  | .bool, .bool b => some (.bool b)
  | .float64, .float f => some (.float f)
  | .string, .str s => some (.str s)
  | .slice, .arr xs => some (.json (.arr xs))
  | .map, .obj kvs => some (.json (.obj kvs))
  | _, _ => none

theorem evalTwo_assert {k : Kind} {e : Expr} (h : eval L pats ρ σ e = .ok (.json j)) :
    evalTwo L pats ρ σ (.assert k e) = .ok (match kindVal k j with
      | some w => (w, .bool true)
      | none => (.zero, .bool false)) := by
  rw [evalTwo, h]
  cases k <;> cases j <;> rfl

/-- The state after the type assertion -/
def after2 (x y : Name) (ρ : Env) (σ : St) : Env := (y, σ.heap.length + 1) :: (x, σ.heap.length) :: ρ

theorem exec_declare2 {x y : Name} {two : Two} {a b : Val} (h : evalTwo L pats ρ σ two = .ok (a, b)) :
    exec L pats O call (.declare2 (some x) y two) ρ σ =
      .ok (.next, after2 x y ρ σ, ((σ.alloc a).2.alloc b).2) := by
  rw [exec, h]
  rfl

theorem later_declare2 {n u : Nat} (h : n ≤ u) (b b' : Str) (ρ : Env) (σ : St) (x y : Val) :
    Later n (fun _ => False) ρ σ (after2 (vi b u) (vi b' u) ρ σ) ((σ.alloc x).2.alloc y).2 := by
  have h1 := later_declare h (fun _ => False) ρ σ b x
  have h2 := later_declare h (fun _ => False) ((vi b u, σ.heap.length) :: ρ) (σ.alloc x).2 b' y
  rw [alloc_len] at h2
  exact h1.trans h2

theorem eval_second {x y : Name} {a b : Val} :
    eval L pats (after2 x y ρ σ) ((σ.alloc a).2.alloc b).2 (.var y) = .ok b := by
  refine eval_var L pats (lookup_self _ _ _) ?_
  rw [← alloc_len σ a]
  exact alloc_get _ _

theorem eval_first {x y : Name} (hxy : x ≠ y) {a b : Val} :
    eval L pats (after2 x y ρ σ) ((σ.alloc a).2.alloc b).2 (.var x) = .ok a :=
  eval_var L pats ((lookup_ne hxy _ _).trans (lookup_self _ _ _)) (alloc_old _ _ (alloc_get _ _))

theorem exec_ite {c : Expr} {a b : Stmt} {t : Bool} (h : eval L pats ρ σ c = .ok (.bool t)) :
    exec L pats O call (.ite c a b) ρ σ = if t then close ρ (exec L pats O call a ρ σ) else close ρ (exec L pats O call b ρ σ) := by
  rw [exec, h]
  rfl

theorem eval_not {e : Expr} {t : Bool} (h : eval L pats ρ σ e = .ok (.bool t)) : eval L pats ρ σ (.not e) = .ok (.bool (!t)) := by
  rw [eval, h]
  rfl

/-- The value has the dynamic type. -/
theorem cast_good {b : Str} {k : Kind} {what : Str} {rest : Stmt} {w : Val} (hv : Given L pats n ρ σ value j)
    (hk : kindVal k j = some w) : exec L pats O call (castTo (vi b n) n k what value ref rest) ρ σ =
      close (after2 (vi b n) (vi c!"ok" n) ρ σ)
        (exec L pats O call rest (after2 (vi b n) (vi c!"ok" n) ρ σ) ((σ.alloc w).2.alloc (.bool true)).2) := by
  have h2 := evalTwo_assert (k := k) (hv ρ σ (.refl _ _ _ _))
  rw [hk] at h2
  rw [castTo, exec_seq O L pats call (exec_declare2 h2), exec_ite (eval_not eval_second)]
  rfl

/-- The value has another dynamic type. -/
theorem cast_bad (H : Here L pats n ρ σ value target ref j s c0 ts) {b : Str} {k : Kind} {what : Str} {rest : Stmt}
    (hk : kindVal k j = none) : Done n s c0 R ρ σ (GoRuntime.expected L what j (joinWith c!"/" ts) (stOf σ))
      (exec L pats O call (castTo (vi b n) n k what value ref rest) ρ σ) := by
  have h2 := evalTwo_assert (k := k) (H.value ρ σ (.refl _ _ _ _))
  rw [hk] at h2
  rw [castTo, exec_seq O L pats call (exec_declare2 h2), exec_ite (eval_not eval_second)]
  have hl := later_declare2 (Nat.le_refl n) b c!"ok" ρ σ .zero (.bool false)
  exact (report_ok H hl rfl (evalAll_one (H.value _ _ hl)) rfl).close hl.vars

/-- A cast followed by code for values of the type -/
theorem cast_ok (H : Here L pats n ρ σ value target ref j s c0 ts) {b : Str} (hb : b ≠ c!"ok") {k : Kind} {what : Str}
    {rest : Stmt} {r : Except Exc (Option GV × GoRuntime.St)}
    (hn : kindVal k j = none → r = GoRuntime.expected L what j (joinWith c!"/" ts) (stOf σ))
    (hs : ∀ w, kindVal k j = some w → ∀ ρ1 σ1, Later n (fun _ => False) ρ σ ρ1 σ1 → stOf σ1 = stOf σ →
      eval L pats ρ1 σ1 (.var (vi b n)) = .ok w → (∃ S, ρ1.lookup (vi b n) = some S ∧ σ1.heap[S]? = some w) →
      Done n s c0 R ρ σ r (exec L pats O call rest ρ1 σ1)) :
    Done n s c0 R ρ σ r (exec L pats O call (castTo (vi b n) n k what value ref rest) ρ σ) := by
  cases hk : kindVal k j with
  | none =>
    rw [hn hk]
    exact cast_bad H hk
  | some w =>
    rw [cast_good H.value hk]
    have hl := later_declare2 (Nat.le_refl n) b c!"ok" ρ σ w (.bool true)
    exact (hs w hk _ _ hl rfl (eval_first (vi_ne hb n)) ⟨_, (lookup_ne (vi_ne hb n) _ _).trans (lookup_self _ _ _),
      alloc_old _ _ (alloc_get _ _)⟩).close hl.vars

/-- `if cond { report } else { rest }` -/
theorem check_ok (H : Here L pats n ρ σ value target ref j s c0 ts) (hl : Later n (fun _ => False) ρ σ ρ1 σ1)
    (hst : stOf σ1 = stOf σ) {cond : Expr} {t : Bool} (hc : eval L pats ρ1 σ1 cond = .ok (.bool t)) {fmt : Str}
    {args : List Expr} {vs : List Val} {js : List JVal} (he : evalAll L pats ρ1 σ1 args = .ok vs) (hj : vs.mapM argOf = .ok js)
    {rest : Stmt} {r : Except Exc (Option GV × GoRuntime.St)}
    (ht : t = true → r = .ok (none, (stOf σ).add (joinWith c!"/" ts) (L.sprintf fmt js)))
    (hf : t = false → Done n s c0 R ρ σ r (exec L pats O call rest ρ1 σ1)) :
    Done n s c0 R ρ σ r (exec L pats O call (.ite cond (reportAt ref fmt args) rest) ρ1 σ1) := by
  rw [exec_ite hc]
  cases t with
  | true =>
    rw [ht rfl]
    exact (report_ok H hl hst he hj).close hl.vars
  | false => exact (hf rfl).close hl.vars

end

end

end Mapry.GoExec
