import Verif.PyGen
import Verif.PyFlow

/-!
# Lemmas about the heap and about single statements of the generated Python code
-/

namespace Mapry.PyExec

open Mapry.PyLang Mapry.PyGen Mapry.PyRuntime Mapry.Text Mapry.Duration
open Mapry.TypeGraph hiding Obj
open Mapry.PyRuntime (Json Lib Val)

/-! ## Computations -/

section

variable {α β : Type} {m : M α} {f : α → M β} {s s' : St}

theorem bind_ok {a : α} (h : m s = (.ok a, s')) : (m >>= f) s = f a s' := by
  show M.bind m f s = _
  rw [M.bind, h]

theorem bind_error {x : Raised} (h : m s = (.error x, s')) : (m >>= f) s = (.error x, s') := by
  show M.bind m f s = _
  rw [M.bind, h]

theorem pure_run (a : α) : (pure a : M α) s = (.ok a, s) := rfl
theorem raise_run (x : Exc) : (raise x : M α) s = (.error (.exc x []), s) := rfl

theorem load_run {a : Addr} {o : Obj} (h : s.heap[a]? = some o) : load a s = (.ok o, s) := by
  simp [load, h]

theorem getVar_run {x : Str} {p : PV} (h : s.vars x = some p) : getVar x s = (.ok p, s) := by
  simp [getVar, h]

end

/-- The state after `s` with another value of the variable. -/
def _root_.Mapry.PyLang.St.set (s : St) (x : Str) (p : PV) : St := ⟨s.heap, fun y => if y = x then some p else s.vars y⟩

/-- The state after `s` with another object at the address. -/
def _root_.Mapry.PyLang.St.write (s : St) (a : Addr) (o : Obj) : St := ⟨s.heap.set a o, s.vars⟩

/-- The state after `s` with a further object. -/
def _root_.Mapry.PyLang.St.push (s : St) (o : Obj) : St := ⟨s.heap ++ [o], s.vars⟩

@[simp] theorem set_heap (s : St) (x p) : (s.set x p).heap = s.heap := rfl
@[simp] theorem set_self (s : St) (x p) : (s.set x p).vars x = some p := by simp [St.set]
theorem set_ne (s : St) {x y : Str} (p) (h : y ≠ x) : (s.set x p).vars y = s.vars y := by simp [St.set, h]
@[simp] theorem write_vars (s : St) (a o) : (s.write a o).vars = s.vars := rfl
@[simp] theorem push_vars (s : St) (o) : (s.push o).vars = s.vars := rfl
@[simp] theorem write_length (s : St) (a o) : (s.write a o).heap.length = s.heap.length := by simp [St.write]
@[simp] theorem push_length (s : St) (o) : (s.push o).heap.length = s.heap.length + 1 := by simp [St.push]

theorem write_self {s : St} {a : Addr} {o : Obj} (o') (h : s.heap[a]? = some o) : (s.write a o').heap[a]? = some o' := by
  have : a < s.heap.length := (List.getElem?_eq_some_iff.1 h).1
  simp [St.write, this]

theorem write_ne {s : St} {a b : Addr} (o) (h : b ≠ a) : (s.write a o).heap[b]? = s.heap[b]? := by
  simp [St.write, Ne.symm h]

theorem push_self (s : St) (o) : (s.push o).heap[s.heap.length]? = some o := by simp [St.push]

theorem push_lt {s : St} {a : Addr} (o) (h : a < s.heap.length) : (s.push o).heap[a]? = s.heap[a]? := by
  simp [St.push, List.getElem?_append_left h]

theorem lt_of_get {h : List Obj} {a : Addr} {o : Obj} (e : h[a]? = some o) : a < h.length :=
  (List.getElem?_eq_some_iff.1 e).1

/-! ## Temporary variables -/

/-- The variable is neither a temporary variable of a later identifier nor `err`. -/
def Keep (n : Nat) (x : Str) : Prop := (∀ b k, n ≤ k → x ≠ tmp b k) ∧ x ≠ c!"err"

theorem Keep.mono {n m : Nat} (h : n ≤ m) {x : Str} (hx : Keep n x) : Keep m x :=
  ⟨fun b k hk => hx.1 b k (by omega), hx.2⟩

theorem tmp_digit (b : Str) (n : Nat) : ¬ PyCode.NoDigit (tmp b n) := PyCode.temp_digit b n

theorem tmp_inj {b b' : Str} {n n' : Nat} (h : tmp b n = tmp b' n') : b = b' ∧ n = n' := PyCode.temp_inj h

theorem keep_plain {n : Nat} {x : Str} (h : PyCode.NoDigit x) (he : x ≠ c!"err") : Keep n x :=
  ⟨fun b k _ e => tmp_digit b k (e ▸ h), he⟩

theorem keep_tmp {n m : Nat} (b : Str) (h : n < m) : Keep m (tmp b n) := by
  refine ⟨fun b' k hk e => ?_, fun e => tmp_digit b n (e ▸ (by decide))⟩
  have := (tmp_inj e).2
  omega

theorem keep_errors {n : Nat} : Keep n c!"errors" := keep_plain (by decide) (by decide)
theorem keep_ref {n : Nat} : Keep n c!"ref" := keep_plain (by decide) (by decide)
theorem keep_value {n : Nat} : Keep n c!"value" := keep_plain (by decide) (by decide)
theorem keep_target {n : Nat} : Keep n c!"target" := keep_plain (by decide) (by decide)
theorem keep_graph {n : Nat} : Keep n c!"graph" := keep_plain (by decide) (by decide)

theorem Keep.ne_tmp {n k : Nat} {x : Str} (h : Keep n x) (b : Str) (hk : n ≤ k) : x ≠ tmp b k := h.1 b k hk

/-! ## What a piece of code changes -/

/-- From the state `s` to the state `s'`, only the objects at the addresses `w`, fresh objects, and temporary variables
of the identifiers from `n` on have changed. -/
structure Step (w : Addr → Prop) (n : Nat) (s s' : St) : Prop where
  vars : ∀ x, Keep n x → s'.vars x = s.vars x
  grow : s.heap.length ≤ s'.heap.length
  frame : ∀ a, a < s.heap.length → ¬ w a → s'.heap[a]? = s.heap[a]?

theorem Step.refl (w n) (s : St) : Step w n s s := ⟨fun _ _ => rfl, Nat.le_refl _, fun _ _ _ => rfl⟩

theorem Step.trans {w w' : Addr → Prop} {n m : Nat} {s s' s'' : St} (h : Step w n s s') (h' : Step w' m s' s'') (hm : n ≤ m)
    (hw : ∀ a, a < s.heap.length → w' a → w a) : Step w n s s'' where
  vars x hx := (h'.vars x (hx.mono hm)).trans (h.vars x hx)
  grow := Nat.le_trans h.grow h'.grow
  frame a ha hn := (h'.frame a (Nat.lt_of_lt_of_le ha h.grow) (fun e => hn (hw a ha e))).trans (h.frame a ha hn)

theorem Step.weaken {w w' : Addr → Prop} {n m : Nat} {s s' : St} (h : Step w m s s') (hm : n ≤ m)
    (hw : ∀ a, a < s.heap.length → w a → w' a) : Step w' n s s' :=
  ⟨fun x hx => h.vars x (hx.mono hm), h.grow, fun a ha hn => h.frame a ha fun e => hn (hw a ha e)⟩

theorem step_write {w : Addr → Prop} {n : Nat} (s : St) (a o) (h : w a) : Step w n s (s.write a o) :=
  ⟨fun _ _ => rfl, by simp, fun b _ hb => write_ne o (fun e => hb (e ▸ h))⟩

theorem step_push {w : Addr → Prop} {n : Nat} (s : St) (o) : Step w n s (s.push o) :=
  ⟨fun _ _ => rfl, by simp, fun _ ha _ => push_lt o ha⟩

theorem step_set {w : Addr → Prop} {n k : Nat} (s : St) (b : Str) (p) (h : n ≤ k) : Step w n s (s.set (tmp b k) p) :=
  ⟨fun _ hx => set_ne s p (hx.ne_tmp b h), Nat.le_refl _, fun _ _ _ => rfl⟩

/-! ## Values in the heap -/

/-- The JSONable values as Python makes them: a dictionary has every key once. -/
inductive Keyed : Json → Prop
  | null : Keyed .null
  | bool (b) : Keyed (.bool b)
  | int (i) : Keyed (.int i)
  | float (f) : Keyed (.float f)
  | str (s) : Keyed (.str s)
  | arr {xs} : (∀ x ∈ xs, Keyed x) → Keyed (.arr xs)
  | obj {o kvs} : (kvs.map (·.1)).Nodup → (∀ kv ∈ kvs, Keyed kv.2) → Keyed (.obj o kvs)

/-- The Python value `p` in the heap `h` represents the value. The lists, the dictionaries and the embedded structures are
objects at the address `lo` or later, a reference is the address `place cls id`. -/
inductive Rep (place : Str → Str → Addr) (h : List Obj) (lo : Nat) : Val → PV → Prop
  | none : Rep place h lo .none .none
  | bool (b) : Rep place h lo (.bool b) (.bool b)
  | int (i) : Rep place h lo (.int i) (.int i)
  | float (f) : Rep place h lo (.float f) (.float f)
  | str (s) : Rep place h lo (.str s) (.str s)
  | path (s) : Rep place h lo (.path s) (.path s)
  | date (d) : Rep place h lo (.date d) (.date d)
  | time (t) : Rep place h lo (.time t) (.time t)
  | datetime (d) : Rep place h lo (.datetime d) (.datetime d)
  | zone (s) : Rep place h lo (.zone s) (.zone s)
  | duration (d) : Rep place h lo (.duration d) (.duration d)
  | list {a vs ps} : lo ≤ a → h[a]? = some (.list ps) → vs.length = ps.length →
      (∀ (i : Nat) v p, vs[i]? = some v → ps[i]? = some p → Rep place h lo v p) → Rep place h lo (.list vs) (.addr a)
  | map {a o kvs ps} : lo ≤ a → h[a]? = some (.dict o ps) → kvs.map (·.1) = ps.map (·.1) →
      (∀ (i : Nat) v p, kvs[i]? = some v → ps[i]? = some p → Rep place h lo v.2 p.2) →
      Rep place h lo (.map o kvs) (.addr a)
  | ref (c id) : Rep place h lo (.ref c id) (.addr (place c id))
  | obj {a name cn attrs ps} : lo ≤ a → h[a]? = some (.inst cn ps) → Naming.asComposite name = .ok cn →
      (∀ x, attrs.lookup x = Option.none ↔ ps.lookup x = Option.none) →
      (∀ x v p, attrs.lookup x = some v → ps.lookup x = some p → Rep place h lo v p) →
      Rep place h lo (.obj name attrs) (.addr a)

variable {place : Str → Str → Addr} {h h' : List Obj} {lo lo' : Nat}

theorem Rep.mono (hl : lo' ≤ lo) {v : Val} {p : PV} (hr : Rep place h lo v p) : Rep place h lo' v p := by
  induction hr with
  | none => exact .none
  | bool => exact .bool _
  | int => exact .int _
  | float => exact .float _
  | str => exact .str _
  | path => exact .path _
  | date => exact .date _
  | time => exact .time _
  | datetime => exact .datetime _
  | zone => exact .zone _
  | duration => exact .duration _
  | list h1 h2 h3 _ ih => exact .list (by omega) h2 h3 ih
  | map h1 h2 h3 _ ih => exact .map (by omega) h2 h3 ih
  | ref => exact .ref _ _
  | obj h1 h2 h3 h4 _ ih => exact .obj (by omega) h2 h3 h4 ih

theorem Rep.frame (hf : ∀ a, lo ≤ a → a < h.length → h'[a]? = h[a]?) {v : Val} {p : PV} (hr : Rep place h lo v p) :
    Rep place h' lo v p := by
  induction hr with
  | none => exact .none
  | bool => exact .bool _
  | int => exact .int _
  | float => exact .float _
  | str => exact .str _
  | path => exact .path _
  | date => exact .date _
  | time => exact .time _
  | datetime => exact .datetime _
  | zone => exact .zone _
  | duration => exact .duration _
  | list h1 h2 h3 _ ih => exact .list h1 ((hf _ h1 (lt_of_get h2)).trans h2) h3 ih
  | map h1 h2 h3 _ ih => exact .map h1 ((hf _ h1 (lt_of_get h2)).trans h2) h3 ih
  | ref => exact .ref _ _
  | obj h1 h2 h3 h4 _ ih => exact .obj h1 ((hf _ h1 (lt_of_get h2)).trans h2) h3 h4 ih

/-- The representation lasts if only older objects change. -/
theorem Rep.step {w : Addr → Prop} {n : Nat} {s s' : St} {v : Val} {p : PV} (hr : Rep place s.heap lo v p)
    (hs : Step w n s s') (hw : ∀ a, lo ≤ a → a < s.heap.length → ¬ w a) : Rep place s'.heap lo v p :=
  hr.frame fun a h1 h2 => hs.frame a h2 (hw a h1 h2)

/-- Attributes of the object: the ones in `attrs`, and further ones with the names `extra` -/
def AttrsRep (place : Str → Str → Addr) (h : List Obj) (lo : Nat) (extra : List Str) (attrs : Attrs)
    (ps : List (Str × PV)) : Prop :=
  (∀ x, x ∉ extra → (attrs.lookup x = none ↔ ps.lookup x = none)) ∧
  ∀ x v p, x ∉ extra → attrs.lookup x = some v → ps.lookup x = some p → Rep place h lo v p

theorem AttrsRep.frame {extra attrs ps} (hr : AttrsRep place h lo extra attrs ps)
    (hf : ∀ a, lo ≤ a → a < h.length → h'[a]? = h[a]?) : AttrsRep place h' lo extra attrs ps :=
  ⟨hr.1, fun x v p hx h1 h2 => (hr.2 x v p hx h1 h2).frame hf⟩

theorem AttrsRep.step {extra attrs ps} {w : Addr → Prop} {n : Nat} {s s' : St}
    (hr : AttrsRep place s.heap lo extra attrs ps) (hs : Step w n s s')
    (hw : ∀ a, lo ≤ a → a < s.heap.length → ¬ w a) : AttrsRep place s'.heap lo extra attrs ps :=
  hr.frame fun a h1 h2 => hs.frame a h2 (hw a h1 h2)

theorem AttrsRep.mono {extra attrs ps} (hr : AttrsRep place h lo extra attrs ps) (hl : lo' ≤ lo) :
    AttrsRep place h lo' extra attrs ps :=
  ⟨hr.1, fun x v p hx h1 h2 => (hr.2 x v p hx h1 h2).mono hl⟩

theorem AttrsRep.obj {name cn : Str} {attrs ps} {a : Addr} (hr : AttrsRep place h lo [] attrs ps) (ha : lo ≤ a)
    (h1 : h[a]? = some (.inst cn ps)) (h2 : Naming.asComposite name = .ok cn) :
    Rep place h lo (.obj name attrs) (.addr a) :=
  .obj ha h1 h2 (fun x => hr.1 x (by simp)) (fun x v p => hr.2 x v p (by simp))

/-! ## Dictionaries -/

theorem lookup_put {α : Type} (k : Str) (v : α) (l : List (Str × α)) (x : Str) :
    (put k v l).lookup x = if x = k then some v else l.lookup x := by
  induction l with
  | nil => simp only [put, List.lookup]; split <;> simp_all
  | cons kv rest ih =>
    obtain ⟨k', v'⟩ := kv
    simp only [put]
    split
    · rename_i e; subst e
      simp only [List.lookup_cons]
      by_cases e : x = k'
      · simp [e]
      · have : (x == k') = false := by simpa using e
        simp [this, e]
    · rename_i hne
      simp only [List.lookup_cons, ih]
      by_cases e : x = k'
      · subst e; simp [hne]
      · have : (x == k') = false := by simpa using e
        simp [this]

theorem put_new {α : Type} {k : Str} (v : α) {l : List (Str × α)} (h : k ∉ l.map (·.1)) : put k v l = l ++ [(k, v)] := by
  induction l with
  | nil => rfl
  | cons kv rest ih =>
    obtain ⟨k', v'⟩ := kv
    simp only [List.map_cons, List.mem_cons, not_or] at h
    simp only [put, if_neg (Ne.symm h.1), ih h.2, List.cons_append]

theorem lookup_setAttr (a : Str) (v : Val) (l : Attrs) (x : Str) :
    (PyRuntime.setAttr a v l).lookup x = if x = a then some v else l.lookup x := by
  induction l with
  | nil => simp only [PyRuntime.setAttr, List.lookup]; split <;> simp_all
  | cons kv rest ih =>
    obtain ⟨k', v'⟩ := kv
    simp only [PyRuntime.setAttr]
    split
    · rename_i e; subst e
      simp only [List.lookup_cons]
      by_cases e : x = k'
      · simp [e]
      · have : (x == k') = false := by simpa using e
        simp [this, e]
    · rename_i hne
      simp only [List.lookup_cons, ih]
      by_cases e : x = k'
      · subst e; simp [hne]
      · have : (x == k') = false := by simpa using e
        simp [this]

/-- A further attribute is assigned. -/
theorem AttrsRep.set {extra attrs ps} (hr : AttrsRep place h lo extra attrs ps) (a : Str) {v : Val} {p : PV}
    (hv : Rep place h lo v p) : AttrsRep place h lo extra (PyRuntime.setAttr a v attrs) (put a p ps) := by
  refine ⟨fun x hx => ?_, fun x v' p' hx h1 h2 => ?_⟩
  · rw [lookup_setAttr, lookup_put]
    split
    · simp
    · exact hr.1 x hx
  · rw [lookup_setAttr] at h1
    rw [lookup_put] at h2
    split at h1
    · rename_i e
      rw [if_pos e] at h2
      cases h1; cases h2; exact hv
    · rename_i e
      rw [if_neg e] at h2
      exact hr.2 x v' p' hx h1 h2

/-! ## Parts of the reference path -/

/-- The expression of a part of the path and its text. -/
inductive Part (n : Nat) (L : Lib) (vars : Str → Option PV) : Expr → Str → Prop
  | name {x s} : Keep n x → vars x = some (.str s) → Part n L vars (.name x) s
  | lit (s) : Part n L vars (.str s) s
  | num {x i} : Keep n x → vars x = some (.int i) → Part n L vars (.strOf (.name x)) (intStr i)
  | key {x s} : Keep n x → vars x = some (.str s) → Part n L vars (.reprOf (.name x)) (L.repr s)

theorem Part.keep {n m : Nat} {L : Lib} {vars vars' : Str → Option PV} {e : Expr} {t : Str} (hp : Part n L vars e t)
    (hm : n ≤ m) (hv : ∀ x, Keep n x → vars' x = vars x) : Part m L vars' e t := by
  cases hp with
  | name hk hx => exact .name (hk.mono hm) ((hv _ hk).trans hx)
  | lit => exact .lit _
  | num hk hx => exact .num (hk.mono hm) ((hv _ hk).trans hx)
  | key hk hx => exact .key (hk.mono hm) ((hv _ hk).trans hx)

section

variable {L : Lib} {call : Fn → Actual → M PV} {n : Nat} {s s' : St}

theorem eval_name {x : Str} {p : PV} (hx : s.vars x = some p) : eval L call (v x) s = (.ok p, s) := by
  rw [v, eval]; exact getVar_run hx

theorem eval_part {e : Expr} {t : Str} (hp : Part n L s.vars e t) : eval L call e s = (.ok (.str t), s) := by
  cases hp with
  | name _ hx => exact eval_name hx
  | lit => rw [eval]; rfl
  | num _ hx => rw [eval, bind_ok (eval_name hx)]; rfl
  | key _ hx => rw [eval, bind_ok (eval_name hx)]; rfl

/-- `'/'.join(ts)` -/
def joined : List Str → Str
  | [] => []
  | [t] => t
  | t :: ts => t ++ '/' :: joined ts

theorem joined_snoc {ts : List Str} (hne : ts ≠ []) (t : Str) : joined (ts ++ [t]) = sub (joined ts) t := by
  induction ts with
  | nil => exact absurd rfl hne
  | cons x xs ih =>
    cases xs with
    | nil => simp [joined, sub]
    | cons y ys =>
      have := ih (by simp)
      simp only [List.cons_append] at this ⊢
      simp only [joined, this, sub, List.append_assoc, List.cons_append]

theorem joinTexts_str (ts : List Str) : joinTexts (ts.map PV.str) = .ok (joined ts) := by
  induction ts with
  | nil => rfl
  | cons x xs ih =>
    cases xs with
    | nil => rfl
    | cons y ys =>
      simp only [List.map_cons] at ih ⊢
      simp only [joinTexts, ih, joined]
      rfl

/-- The parts of the path and its text -/
def PathIs (n : Nat) (L : Lib) (vars : Str → Option PV) (parts : List Expr) (ref : Str) : Prop :=
  ∃ ts, ts ≠ [] ∧ Forall₂ (Part n L vars) parts ts ∧ joined ts = ref

theorem evalArgs_parts {parts : List Expr} {ts : List Str} (hp : Forall₂ (Part n L s.vars) parts ts) :
    evalArgs L call (args parts) s = (.ok (ts.map fun t => (none, .str t)), s) := by
  induction hp with
  | nil => rw [args, evalArgs]; rfl
  | cons hh _ ih => rw [args, evalArgs, bind_ok (eval_part hh), bind_ok ih]; rfl

theorem eval_path {parts : List Expr} {ref : Str} (hp : PathIs n L s.vars parts ref) :
    eval L call (path parts) s = (.ok (.str ref), s) := by
  obtain ⟨ts, _, hf, rfl⟩ := hp
  rw [path, eval, bind_ok (evalArgs_parts hf)]
  have : (ts.map fun t => ((none : Option Str), PV.str t)).map (·.2) = ts.map PV.str := by simp [List.map_map, Function.comp_def]
  rw [this, joinTexts_str]
  rfl

theorem forall₂_snoc {α β : Type} {R : α → β → Prop} {xs : List α} {ys : List β} (h : Forall₂ R xs ys) {x : α} {y : β}
    (hx : R x y) : Forall₂ R (xs ++ [x]) (ys ++ [y]) := by
  induction h with
  | nil => exact .cons hx .nil
  | cons hh _ ih => exact .cons hh ih

theorem forall₂_imp {α β : Type} {R S : α → β → Prop} (hi : ∀ a b, R a b → S a b) {xs : List α} {ys : List β}
    (h : Forall₂ R xs ys) : Forall₂ S xs ys := by
  induction h with
  | nil => exact .nil
  | cons hh _ ih => exact .cons (hi _ _ hh) ih

theorem PathIs.snoc {vars : Str → Option PV} {parts : List Expr} {ref : Str} (hp : PathIs n L vars parts ref) {e : Expr}
    {t : Str} (he : Part n L vars e t) : PathIs n L vars (parts ++ [e]) (sub ref t) := by
  obtain ⟨ts, hne, hf, rfl⟩ := hp
  exact ⟨ts ++ [t], by simp, forall₂_snoc hf he, joined_snoc hne t⟩

theorem PathIs.keep {m : Nat} {vars vars' : Str → Option PV} {parts : List Expr} {ref : Str} (hp : PathIs n L vars parts ref)
    (hm : n ≤ m) (hv : ∀ x, Keep n x → vars' x = vars x) : PathIs m L vars' parts ref := by
  obtain ⟨ts, hne, hf, e⟩ := hp
  exact ⟨ts, hne, forall₂_imp (fun _ _ hh => hh.keep hm hv) hf, e⟩

/-! ## Errors -/

/-- The container of errors is known and holds the errors. -/
structure Errs (ae : Addr) (s : St) (es : Errors) : Prop where
  var : s.vars c!"errors" = some (.addr ae)
  obj : s.heap[ae]? = some (.errors es)

theorem eval_errors {ae : Addr} {es : Errors} (h : Errs ae s es) : eval L call errors s = (.ok (.addr ae), s) :=
  eval_name h.var

theorem errorsOf_run {ae : Addr} {es : Errors} (h : Errs ae s es) : errorsOf (.addr ae) s = (.ok (ae, es), s) := by
  rw [errorsOf, bind_ok (load_run h.obj)]; rfl

theorem eval_full {ae : Addr} {es : Errors} (h : Errs ae s es) :
    eval L call (.isFull errors) s = (.ok (.bool es.full), s) := by
  rw [eval, bind_ok (eval_errors h), bind_ok (errorsOf_run h)]; rfl

theorem eval_empty {ae : Addr} {es : Errors} (h : Errs ae s es) :
    eval L call (.isEmpty errors) s = (.ok (.bool es.empty), s) := by
  rw [eval, bind_ok (eval_errors h), bind_ok (errorsOf_run h)]; rfl

/-- `errors.add(ref, message)` -/
theorem exec_report {ae : Addr} {es : Errors} (h : Errs ae s es) {ref message : Expr} {r m : Str}
    (hr : eval L call ref s = (.ok (.str r), s)) (hm : eval L call message s = (.ok (.str m), s)) :
    exec L call (report ref message) s = (.ok .normal, s.write ae (.errors (es.add ⟨r, m⟩))) := by
  rw [report, exec, eval]
  have : (do
      let v ← eval L call errors
      let r ← eval L call ref
      let m ← eval L call message
      let (p, es) ← errorsOf v
      let r ← textOf r
      let m ← textOf m
      save p (.errors (es.add ⟨r, m⟩))
      pure PV.none : M PV) s = (.ok .none, s.write ae (.errors (es.add ⟨r, m⟩))) := by
    rw [bind_ok (eval_errors h), bind_ok hr, bind_ok hm, bind_ok (errorsOf_run h)]
    rfl
  rw [bind_ok this]
  rfl

theorem exec_report_error {ae : Addr} {es : Errors} (h : Errs ae s es) {ref message : Expr} {r : Str} {x : Raised}
    (hr : eval L call ref s = (.ok (.str r), s)) (hm : eval L call message s = (.error x, s)) :
    exec L call (report ref message) s = (.error x, s) := by
  rw [report, exec, eval]
  apply bind_error
  rw [bind_ok (eval_errors h), bind_ok hr, bind_error hm]

theorem Errs.write {ae : Addr} {es : Errors} (h : Errs ae s es) (es') : Errs ae (s.write ae (.errors es')) es' :=
  ⟨h.var, write_self _ h.obj⟩

theorem Errs.step {w : Addr → Prop} {ae : Addr} {es es' : Errors} (h : Errs ae s es) (hs : Step w n s s')
    (ho : s'.heap[ae]? = some (.errors es')) : Errs ae s' es' := ⟨(hs.vars _ keep_errors).trans h.var, ho⟩

/-! ## Statements -/

theorem exec_seq {a b : Stmt} (h : exec L call a s = (.ok .normal, s')) :
    exec L call (.seq a b) s = exec L call b s' := by rw [exec, bind_ok h]

theorem exec_seq_error {a b : Stmt} {x : Raised} (h : exec L call a s = (.error x, s')) :
    exec L call (.seq a b) s = (.error x, s') := by rw [exec, bind_error h]

theorem exec_seq_ret {a b : Stmt} {p : PV} (h : exec L call a s = (.ok (.ret p), s')) :
    exec L call (.seq a b) s = (.ok (.ret p), s') := by rw [exec, bind_ok h]; rfl

theorem exec_seq_brk {a b : Stmt} (h : exec L call a s = (.ok .brk, s')) :
    exec L call (.seq a b) s = (.ok .brk, s') := by rw [exec, bind_ok h]; rfl

theorem exec_if {c : Expr} {a b : Stmt} {p : PV} (h : eval L call c s = (.ok p, s')) :
    exec L call (.ite c a b) s = if truth p then exec L call a s' else exec L call b s' := by
  rw [exec, bind_ok h]
  split <;> rfl

theorem exec_if_true {c : Expr} {a b : Stmt} (h : eval L call c s = (.ok (.bool true), s')) :
    exec L call (.ite c a b) s = exec L call a s' := by rw [exec_if h]; rfl

theorem exec_if_false {c : Expr} {a b : Stmt} (h : eval L call c s = (.ok (.bool false), s')) :
    exec L call (.ite c a b) s = exec L call b s' := by rw [exec_if h]; rfl

theorem exec_pass : exec L call .pass s = (.ok .normal, s) := by rw [exec]; rfl

theorem exec_assign {t : Target} {e : Expr} {p : PV} (h : eval L call e s = (.ok p, s')) :
    exec L call (.assign t e) s = (do assignTo L call t p; pure .normal : M Flow) s' := by rw [exec, bind_ok h]

theorem exec_assign_var {x : Str} {e : Expr} {p : PV} (h : eval L call e s = (.ok p, s')) :
    exec L call (.assign (.var x) e) s = (.ok .normal, s'.set x p) := by rw [exec_assign h]; rfl

theorem exec_expr {e : Expr} {p : PV} (h : eval L call e s = (.ok p, s')) :
    exec L call (.expr e) s = (.ok .normal, s') := by rw [exec, bind_ok h]; rfl

theorem exec_expr_error {e : Expr} {x : Raised} (h : eval L call e s = (.error x, s')) :
    exec L call (.expr e) s = (.error x, s') := by rw [exec, bind_error h]

theorem exec_full {ae : Addr} {es : Errors} (h : Errs ae s es) (st : Stmt) :
    exec L call (ifFull st) s = if es.full then exec L call st s else (.ok .normal, s) := by
  rw [ifFull, when, exec_if (eval_full h)]
  simp only [truth]
  split <;> simp_all [exec_pass]

theorem eval_not {e : Expr} {b : Bool} (h : eval L call e s = (.ok (.bool b), s')) :
    eval L call (.not e) s = (.ok (.bool (!b)), s') := by rw [eval, bind_ok h]; rfl

theorem eval_isinstance {x : Str} {p : PV} (c : Cls) (h : s.vars x = some p) :
    eval L call (.isinstance (v x) c) s = (.ok (.bool (isInstance s.heap p c)), s) := by
  rw [eval, bind_ok (eval_name h)]; rfl

theorem eval_typeOf {x : Str} {p : PV} (h : s.vars x = some p) :
    eval L call (.typeOf (v x)) s = (.ok (.type (typeText s.heap p)), s) := by
  rw [eval, bind_ok (eval_name h)]; rfl

theorem typeText_ofJson (h : List Obj) (j : Json) : typeText h (ofJson j) = typeName j := by
  cases j with
  | obj o kvs => cases o <;> rfl
  | _ => rfl

theorem eval_isNone {e : Expr} {p : PV} (h : eval L call e s = (.ok p, s')) :
    eval L call (.isNone e) s = (.ok (.bool p.isNone), s') := by
  rw [eval, bind_ok h]; rfl

theorem eval_isNotNone {e : Expr} {p : PV} (h : eval L call e s = (.ok p, s')) :
    eval L call (.isNotNone e) s = (.ok (.bool (!p.isNone)), s') := by
  rw [eval, bind_ok h]; rfl

/-! ## Messages -/

/-- A text without braces -/
def Braceless (t : Str) : Prop := '{' ∉ t ∧ '}' ∉ t

instance (t : Str) : Decidable (Braceless t) := inferInstanceAs (Decidable (_ ∧ _))

theorem formatText_braceless {t : Str} (h : Braceless t) (rest : Str) (vs : List PV) :
    formatText L (t ++ rest) vs = (formatText L rest vs).map (t ++ ·) := by
  induction t with
  | nil => simp only [List.nil_append]; cases formatText L rest vs <;> rfl
  | cons c cs ih =>
    simp only [Braceless, List.mem_cons, not_or] at h
    rw [List.cons_append, formatText]
    · rw [ih ⟨h.1.2, h.2.2⟩]
      cases formatText L rest vs <;> rfl
    all_goals intros; simp_all

theorem formatText_got (p : PV) : formatText L c!", but got: {}" [p] = .ok (c!", but got: " ++ text L p) := by
  simp [formatText, bind, Except.bind, pure, Except.pure]

theorem formatText_one {t : Str} (h : Braceless t) (p : PV) : formatText L (t ++ c!"{}") [p] = .ok (t ++ text L p) := by
  rw [formatText_braceless h]
  simp [formatText, bind, Except.bind, pure, Except.pure, Except.map]

/-- A template with no argument left -/
theorem formatText_field (t : Str) : formatText L (t ++ c!", but got: {}") [] = .error .indexError := by
  fun_induction literalPart t with
  | case1 => simp [formatText, bind, Except.bind]
  | case2 rest ih => simp only [List.cons_append, formatText, ih]; rfl
  | case3 rest ih => simp only [List.cons_append, formatText, ih]; rfl
  | case4 rest h =>
    rw [List.cons_append, formatText]
    · intro r e
      cases rest with
      | nil => simp at e
      | cons x xs => simp only [List.cons_append, List.cons.injEq] at e; exact h xs (by rw [e.1])
    · intros; simp_all
    · intros; simp_all
  | case5 rest h =>
    rw [List.cons_append, formatText]
    · intro r e
      cases rest with
      | nil => simp at e
      | cons x xs => simp only [List.cons_append, List.cons.injEq] at e; exact h xs (by rw [e.1])
  | case6 c rest h1 h2 h3 h4 ih =>
    rw [List.cons_append, formatText, ih]
    · rfl
    all_goals intros; simp_all

theorem formatText_message (t : Str) (p : PV) : formatText L (t ++ c!", but got: {}") [p] = gotMessage t (text L p) := by
  unfold gotMessage
  fun_induction literalPart t with
  | case1 => simp [formatText_got]
  | case2 rest ih =>
    simp only [List.cons_append, formatText, ih]
    cases literalPart rest <;> rfl
  | case3 rest ih =>
    simp only [List.cons_append, formatText, ih]
    cases literalPart rest <;> rfl
  | case4 rest h =>
    rw [List.cons_append]
    have hb : ∀ r, rest ++ c!", but got: {}" = '{' :: r → False := by
      intro r e
      cases rest with
      | nil => simp at e
      | cons x xs => simp only [List.cons_append, List.cons.injEq] at e; exact h xs (by rw [e.1])
    by_cases h1 : ∃ r, rest ++ c!", but got: {}" = '}' :: r
    · obtain ⟨r, e⟩ := h1
      cases rest with
      | nil => simp at e
      | cons x xs =>
        simp only [List.cons_append, List.cons.injEq] at e
        obtain ⟨rfl, _⟩ := e
        simp only [List.cons_append, formatText, formatText_field]
        rfl
    · by_cases h2 : ∃ r, rest ++ c!", but got: {}" = '!' :: 'r' :: '}' :: r
      · obtain ⟨r, e⟩ := h2
        match rest, e with
        | [], e => simp at e
        | [x], e => simp at e
        | [x, y], e => simp at e
        | x :: y :: z :: zs, e =>
          simp only [List.cons_append, List.cons.injEq] at e
          obtain ⟨rfl, rfl, rfl, _⟩ := e
          simp only [List.cons_append, formatText, formatText_field]
          rfl
      · rw [formatText]
        · exact hb
        · intros; exact h1 ⟨_, by assumption⟩
        · intros; exact h2 ⟨_, by assumption⟩
  | case5 rest h =>
    rw [List.cons_append, formatText]
    intro r e
    cases rest with
    | nil => simp at e
    | cons x xs => simp only [List.cons_append, List.cons.injEq] at e; exact h xs (by rw [e.1])
  | case6 c rest h1 h2 h3 h4 ih =>
    rw [List.cons_append, formatText, ih]
    · cases literalPart rest <;> rfl
    all_goals intros; simp_all

theorem eval_format {e : Expr} {p : PV} (h : eval L call e s = (.ok p, s)) (t : Str) :
    eval L call (format t e) s = match formatText L t [p] with
      | .ok m => (.ok (.str m), s)
      | .error x => (.error (.exc x []), s) := by
  rw [format, eval]
  have : evalArgs L call (args [e]) s = (.ok [(none, p)], s) := by
    rw [args, args, evalArgs, bind_ok h, evalArgs]; rfl
  rw [bind_ok this]
  show (liftExc (formatText L t [p]) >>= fun t => pure (PV.str t)) s = _
  cases formatText L t [p] <;> rfl

end

end Mapry.PyExec
