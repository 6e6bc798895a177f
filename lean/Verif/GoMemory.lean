import Verif.GoGen

/-!
# The memory of the generated Go code: what it holds and how it changes
-/

namespace Mapry.GoExec

open Mapry.GoLang
open Mapry.GoRuntime (JVal Lib field isPointer)
open Mapry.GoCode (Name v vi own)

/-- A value of the model -/
abbrev GV := GoRuntime.Val

theorem lt_of_get {α : Type} {l : List α} {i : Nat} {a : α} (h : l[i]? = some a) : i < l.length := by
  rcases Nat.lt_or_ge i l.length with h' | h'
  · exact h'
  · rw [List.getElem?_eq_none h'] at h
    cases h

/-! ## What a value holds -/

mutual

/-- The Go value of the type is the value of the model; `g` gives the embeds and `σ` the memory. -/
inductive Holds (g : Graph) (σ : St) : Ty → Val → GV → Prop
  | boolean (b) : Holds g σ .boolean (.bool b) (.bool b)
  | integer (bd i) : Holds g σ (.integer bd) (.int i) (.int i)
  | float (bd f) : Holds g σ (.float bd) (.float f) (.float f)
  | string (p s) : Holds g σ (.string p) (.str s) (.str s)
  | path (p s) : Holds g σ (.path p) (.str s) (.str s)
  | date (f t) : Holds g σ (.date f) (.time t) (.time t)
  | time (f t) : Holds g σ (.time f) (.time t) (.time t)
  | datetime (f t) : Holds g σ (.datetime f) (.time t) (.time t)
  | zone (s) : Holds g σ .timeZone (.zone s) (.zone s)
  | zoneNil {x : Val} : x.isNil = true → Holds g σ .timeZone x .nil
  | duration (d) : Holds g σ .duration (.duration d) (.duration d)
  /-- a slice -/
  | array {t lo hi l xs ys} : σ.heap[l]? = some (.array xs) → xs.length = ys.length →
      (∀ (i : Nat) x y, xs[i]? = some x → ys[i]? = some y → Holds g σ t x y) → Holds g σ (.array t lo hi) (.slice l) (.list ys)
  | arrayNil {t lo hi} {x : Val} : x.isNil = true → Holds g σ (.array t lo hi) x .nil
  | map {t l xs ys} : σ.heap[l]? = some (.table xs) → xs.map (·.1) = ys.map (·.1) →
      (∀ (i : Nat) x y, xs[i]? = some x → ys[i]? = some y → Holds g σ t x.2 y.2) → Holds g σ (.map t) (.map l) (.map ys)
  | mapNil {t} {x : Val} : x.isNil = true → Holds g σ (.map t) x .nil
  /-- a pointer to an instance with the identifier -/
  | cls {c c' a id} : σ.read ⟨a.loc, a.path ++ [.field c!"ID"]⟩ = some (.str id) → Holds g σ (.cls c) (.ptr a) (.ref c' id)
  | clsNil {c} {x : Val} : x.isNil = true → Holds g σ (.cls c) x .nil
  /-- a structure -/
  | embed {n n' e x fields} (V : Property → GV) (w : Property → Val) : g.embed? n = some e →
      (∀ p ∈ e.properties, fields.lookup (field p) = some (V p)) →
      (∀ p ∈ e.properties, fieldOf (field p) x = some (w p)) →
      (∀ p ∈ e.properties, HoldsProp g σ p (w p) (V p)) → Holds g σ (.embed n) x (.obj n' fields)

/-- The field of the property is the value of the model: an optional value is pointed to, unless its type is a pointer, a slice
or a map. -/
inductive HoldsProp (g : Graph) (σ : St) : Property → Val → GV → Prop
  | direct {p x y} : p.optional = false ∨ isPointer p.ty = true → Holds g σ p.ty x y → HoldsProp g σ p x y
  | none {p} {x : Val} : p.optional = true → isPointer p.ty = false → x.isNil = true → HoldsProp g σ p x .nil
  | some {p a x y} : p.optional = true → isPointer p.ty = false → σ.read a = .some x → Holds g σ p.ty x y →
      HoldsProp g σ p (.ptr a) y

end

/-- The Go value is the JSONable, all whose slices and maps are at the location `lo` or later. -/
inductive Jsonable (h : List Val) (lo : Nat) : JVal → Val → Prop
  | bool (b) : Jsonable h lo (.bool b) (.bool b)
  | int (i) : Jsonable h lo (.int64 i) (.int i)
  | float (f) : Jsonable h lo (.float f) (.float f)
  | str (s) : Jsonable h lo (.str s) (.str s)
  | arr {l xs ys} : lo ≤ l → h[l]? = some (.array ys) → xs.length = ys.length →
      (∀ (i : Nat) x y, xs[i]? = some x → ys[i]? = some y → Jsonable h lo x y) → Jsonable h lo (.arr xs) (.slice l)
  | obj {l xs ys} : lo ≤ l → h[l]? = some (.table ys) → xs.map (·.1) = ys.map (·.1) →
      (∀ (i : Nat) x y, xs[i]? = some x → ys[i]? = some y → Jsonable h lo x.2 y.2) → Jsonable h lo (.obj xs) (.map l)

/-! ## How the memory changes -/

/-- The cells stay as they are except those of `T`, and there may be further ones. -/
structure Frame (T : Nat → Prop) (h h' : List Val) : Prop where
  more : h.length ≤ h'.length
  same : ∀ a, a < h.length → ¬ T a → h'[a]? = h[a]?

/-- No cell changes. -/
abbrev Grown := Frame fun _ => False

theorem Frame.refl (T : Nat → Prop) (h : List Val) : Frame T h h := ⟨Nat.le_refl _, fun _ _ _ => rfl⟩

theorem Frame.mono {T U : Nat → Prop} {h h' : List Val} (f : Frame T h h') (hu : ∀ a, a < h.length → T a → U a) : Frame U h h' :=
  ⟨f.more, fun a ha hn => f.same a ha fun ht => hn (hu a ha ht)⟩

theorem Frame.trans {T : Nat → Prop} {h h' h'' : List Val} (f : Frame T h h') (f' : Frame T h' h'') : Frame T h h'' :=
  ⟨Nat.le_trans f.more f'.more, fun a ha hn => (f'.same a (Nat.lt_of_lt_of_le ha f.more) hn).trans (f.same a ha hn)⟩

theorem Frame.get {T : Nat → Prop} {h h' : List Val} (f : Frame T h h') {a : Nat} {x : Val} (hn : ¬ T a) (e : h[a]? = some x) :
    h'[a]? = some x := (f.same a (lt_of_get e) hn).trans e

theorem Frame.grown {T : Nat → Prop} {h h' : List Val} (f : Grown h h') : Frame T h h' := f.mono fun _ _ h => h.elim

/-- A further cell -/
theorem grown_append (h : List Val) (x : Val) : Grown h (h ++ [x]) :=
  ⟨by simp, fun a ha _ => List.getElem?_append_left ha⟩

theorem frame_set (h : List Val) (l : Nat) (x : Val) : Frame (· = l) h (h.set l x) :=
  ⟨by simp, fun a _ hn => List.getElem?_set_ne (Ne.symm hn)⟩

theorem read_frame {T : Nat → Prop} {σ σ' : St} (f : Frame T σ.heap σ'.heap) {a : Addr} {x : Val} (hn : ¬ T a.loc)
    (e : σ.read a = some x) : σ'.read a = some x := by
  unfold St.read at e ⊢
  cases hc : σ.heap[a.loc]? with
  | none => rw [hc] at e; cases e
  | some c => rw [f.get hn hc]; rw [hc] at e; exact e

theorem read_lt {σ : St} {a : Addr} {x : Val} (e : σ.read a = some x) : a.loc < σ.heap.length := by
  unfold St.read at e
  cases hc : σ.heap[a.loc]? with
  | none => rw [hc] at e; cases e
  | some c => exact lt_of_get hc

theorem part_append (ss : List Step) (s : Step) (x : Val) : part (ss ++ [s]) x = (part ss x).bind (step s) := by
  induction ss generalizing x with
  | nil =>
    simp only [List.nil_append, part, Option.bind_some]
    cases step s x <;> rfl
  | cons a ss ih =>
    simp only [List.cons_append, part]
    cases step a x with
    | none => rfl
    | some y => exact ih y

/-- A field of what is pointed to -/
theorem read_field {σ : St} {a : Addr} {x : Val} (e : σ.read a = some x) (f : Str) :
    σ.read ⟨a.loc, a.path ++ [.field f]⟩ = fieldOf f x := by
  unfold St.read at e ⊢
  cases hc : σ.heap[a.loc]? with
  | none => rw [hc] at e; cases e
  | some c =>
    rw [hc] at e
    simp only [Option.bind_some] at e ⊢
    rw [part_append, e]
    rfl

theorem Jsonable.mono {h : List Val} {lo lo' : Nat} (hl : lo' ≤ lo) {j : JVal} {p : Val} (hj : Jsonable h lo j p) :
    Jsonable h lo' j p := by
  induction hj with
  | bool => exact .bool _
  | int => exact .int _
  | float => exact .float _
  | str => exact .str _
  | arr h1 h2 h3 _ ih => exact .arr (Nat.le_trans hl h1) h2 h3 ih
  | obj h1 h2 h3 _ ih => exact .obj (Nat.le_trans hl h1) h2 h3 ih

theorem Jsonable.frame {T : Nat → Prop} {h h' : List Val} {lo : Nat} (hf : Frame T h h') (ht : ∀ a, T a → a < lo) {j : JVal}
    {p : Val} (hj : Jsonable h lo j p) : Jsonable h' lo j p := by
  induction hj with
  | bool => exact .bool _
  | int => exact .int _
  | float => exact .float _
  | str => exact .str _
  | arr h1 h2 h3 _ ih => exact .arr h1 (hf.get (fun h => Nat.lt_irrefl _ (Nat.lt_of_lt_of_le (ht _ h) h1)) h2) h3 ih
  | obj h1 h2 h3 _ ih => exact .obj h1 (hf.get (fun h => Nat.lt_irrefl _ (Nat.lt_of_lt_of_le (ht _ h) h1)) h2) h3 ih

theorem forall₂_get {α β : Type} {R : α → β → Prop} {xs : List α} {ys : List β} (h : Forall₂ R xs ys) : xs.length = ys.length ∧
    ∀ (i : Nat) a b, xs[i]? = some a → ys[i]? = some b → R a b := by
  induction h with
  | nil => exact ⟨rfl, fun i a b h => by simp at h⟩
  | cons hh _ ih =>
    refine ⟨by simp [ih.1], fun i a b h1 h2 => ?_⟩
    cases i with
    | zero =>
      cases Option.some.inj h1
      cases Option.some.inj h2
      exact hh
    | succ i => exact ih.2 i a b (by simpa using h1) (by simpa using h2)

theorem forall₂_of_get {α β : Type} {R : α → β → Prop} : ∀ {xs : List α} {ys : List β}, xs.length = ys.length →
    (∀ (i : Nat) a b, xs[i]? = some a → ys[i]? = some b → R a b) → Forall₂ R xs ys
  | [], [], _, _ => .nil
  | [], _ :: _, h, _ => by cases h
  | _ :: _, [], h, _ => by cases h
  | x :: xs, y :: ys, h, hr => .cons (hr 0 x y rfl rfl)
      (forall₂_of_get (by simpa using h) fun i a b h1 h2 => hr (i + 1) a b (by simpa using h1) (by simpa using h2))

theorem forall₂_imp {α β : Type} {R S : α → β → Prop} (hi : ∀ a b, R a b → S a b) {xs : List α} {ys : List β}
    (h : Forall₂ R xs ys) : Forall₂ S xs ys := by
  induction h with
  | nil => exact .nil
  | cons hh _ ih => exact .cons (hi _ _ hh) ih

theorem forall₂_append {α β : Type} {R : α → β → Prop} {xs : List α} {ys : List β} (h : Forall₂ R xs ys) {xs' : List α}
    {ys' : List β} (h' : Forall₂ R xs' ys') : Forall₂ R (xs ++ xs') (ys ++ ys') := by
  induction h with
  | nil => exact h'
  | cons hh _ ih => exact .cons hh ih

/-- The entries visited correspond. -/
theorem visit_forall₂ {α β : Type} {R : α → β → Prop} {xs : List α} {ys : List β} (O : Order) (r : Nat) (h : Forall₂ R xs ys) :
    Forall₂ R (O.visit r xs) (O.visit r ys) := by
  obtain ⟨hl, hg⟩ := forall₂_get h
  unfold Order.visit
  rw [hl]
  induction O r ys.length with
  | nil => exact .nil
  | cons i is ih =>
    simp only [List.filterMap_cons]
    rcases Nat.lt_or_ge i ys.length with hi | hi
    · have hx := List.getElem?_eq_getElem (hl ▸ hi : i < xs.length)
      have hy := List.getElem?_eq_getElem hi
      rw [hx, hy]
      exact .cons (hg i _ _ hx hy) ih
    · rw [List.getElem?_eq_none hi, List.getElem?_eq_none (hl ▸ hi)]
      exact ih

/-- An entry of a map -/
def Entry {α β : Type} (R : α → β → Prop) (x : Str × α) (y : Str × β) : Prop := x.1 = y.1 ∧ R x.2 y.2

theorem entry_keys {α β : Type} {R : α → β → Prop} {xs : List (Str × α)} {ys : List (Str × β)} (h : Forall₂ (Entry R) xs ys) :
    xs.map (·.1) = ys.map (·.1) := by
  induction h with
  | nil => rfl
  | cons hh _ ih => rw [List.map_cons, List.map_cons, hh.1, ih]

theorem entries_of {α β : Type} {R : α → β → Prop} {xs : List (Str × α)} {ys : List (Str × β)}
    (hk : xs.map (·.1) = ys.map (·.1)) (hr : ∀ (i : Nat) x y, xs[i]? = some x → ys[i]? = some y → R x.2 y.2) :
    Forall₂ (Entry R) xs ys := by
  refine forall₂_of_get (by simpa using congrArg List.length hk) fun i x y hx hy => ⟨?_, hr i x y hx hy⟩
  have := congrArg (·[i]?) hk
  simpa [hx, hy] using this

theorem entry_put {α β : Type} {R : α → β → Prop} (k : Str) {a : α} {b : β} (hx : R a b) : ∀ {xs : List (Str × α)}
    {ys : List (Str × β)}, Forall₂ (Entry R) xs ys → Forall₂ (Entry R) (GoMap.put k a xs) (GoMap.put k b ys)
  | _, _, .nil => .cons ⟨rfl, hx⟩ .nil
  | (k', x') :: xs, (k'', p') :: ys, .cons hh ht => by
    have e : k' = k'' := hh.1
    subst e
    rw [GoMap.put, GoMap.put]
    split
    · exact .cons ⟨rfl, hx⟩ ht
    · split
      · exact .cons ⟨rfl, hx⟩ (.cons ⟨rfl, hh.2⟩ ht)
      · exact .cons ⟨rfl, hh.2⟩ (entry_put k hx ht)

theorem Jsonable.ofArray {h : List Val} {lo l : Nat} {xs : List JVal} {ys : List Val} (ha : lo ≤ l)
    (e : h[l]? = some (.array ys)) (hf : Forall₂ (Jsonable h lo) xs ys) : Jsonable h lo (.arr xs) (.slice l) :=
  .arr ha e (forall₂_get hf).1 (forall₂_get hf).2

theorem Jsonable.ofTable {h : List Val} {lo l : Nat} {xs : List (Str × JVal)} {ys : List (Str × Val)} (ha : lo ≤ l)
    (e : h[l]? = some (.table ys)) (hf : Forall₂ (Entry (Jsonable h lo)) xs ys) : Jsonable h lo (.obj xs) (.map l) :=
  .obj ha e (entry_keys hf) fun i x y h1 h2 => ((forall₂_get hf).2 i x y h1 h2).2

/-! ## Variables -/

/-- The variable is not numbered `n` or more. -/
def Old (n : Nat) (x : Name) : Prop := ∀ b u, x = .var b (some u) → u < n

theorem old_vi {n : Nat} {b : Str} {u : Nat} (h : u < n) : Old n (vi b u) := by
  intro b' u' e
  cases e
  exact h

theorem old_v (n : Nat) (b : Str) : Old n (v b) := by
  intro b' u' e
  cases e

theorem old_own (n : Nat) (a b c : Str) : Old n (own a b c) := by
  intro b' u' e
  cases e

theorem Old.mono {n m : Nat} (h : n ≤ m) {x : Name} (hx : Old n x) : Old m x := fun b u e => Nat.lt_of_lt_of_le (hx b u e) h

/-- Variables numbered `n` or more may be declared, cells of `T` may change. -/
structure Later (n : Nat) (T : Nat → Prop) (ρ : Env) (σ : St) (ρ' : Env) (σ' : St) : Prop where
  vars : ∀ x, Old n x → ρ'.lookup x = ρ.lookup x
  frame : Frame T σ.heap σ'.heap

theorem Later.refl (n : Nat) (T : Nat → Prop) (ρ : Env) (σ : St) : Later n T ρ σ ρ σ := ⟨fun _ _ => rfl, .refl _ _⟩

theorem Later.trans {n : Nat} {T : Nat → Prop} {ρ ρ' ρ'' : Env} {σ σ' σ'' : St} (a : Later n T ρ σ ρ' σ')
    (b : Later n T ρ' σ' ρ'' σ'') : Later n T ρ σ ρ'' σ'' :=
  ⟨fun x hx => (b.vars x hx).trans (a.vars x hx), a.frame.trans b.frame⟩

theorem Later.mono {n m : Nat} {T U : Nat → Prop} {ρ ρ' : Env} {σ σ' : St} (a : Later m T ρ σ ρ' σ') (h : n ≤ m)
    (hu : ∀ a, a < σ.heap.length → T a → U a) : Later n U ρ σ ρ' σ' :=
  ⟨fun x hx => a.vars x (hx.mono h), a.frame.mono hu⟩

/-- The declaration of a numbered variable -/
theorem later_declare {n u : Nat} (h : n ≤ u) (T : Nat → Prop) (ρ : Env) (σ : St) (b : Str) (x : Val) :
    Later n T ρ σ ((vi b u, σ.heap.length) :: ρ) (σ.alloc x).2 := by
  refine ⟨fun y hy => ?_, (grown_append _ _).grown⟩
  rw [List.lookup_cons]
  split
  · rename_i he
    have he := beq_iff_eq.1 he
    exact absurd (hy b u he) (Nat.not_lt.2 h)
  · rfl

end Mapry.GoExec
