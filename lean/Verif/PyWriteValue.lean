import Verif.PyExecTypes
import Verif.PyExecCall

/-!
# The generated Python code which serializes a value
-/

namespace Mapry.PyExec

open Mapry.PyLang Mapry.PyGen Mapry.PyRuntime Mapry.Text Mapry.Duration
open Mapry.TypeGraph hiding Obj
open Mapry.PyRuntime (Json Lib Val)
open PyCode (ok_bind)

/-! ## Values and JSONables in the heap -/

/-- The Python value `p` in the heap `h` is the value. A reference is an instance with the identifier. -/
inductive Shows (h : List Obj) : Val → PV → Prop
  | none : Shows h .none .none
  | bool (b) : Shows h (.bool b) (.bool b)
  | int (i) : Shows h (.int i) (.int i)
  | float (f) : Shows h (.float f) (.float f)
  | str (s) : Shows h (.str s) (.str s)
  | path (s) : Shows h (.path s) (.path s)
  | date (d) : Shows h (.date d) (.date d)
  | time (t) : Shows h (.time t) (.time t)
  | datetime (d) : Shows h (.datetime d) (.datetime d)
  | zone (s) : Shows h (.zone s) (.zone s)
  | duration (d) : Shows h (.duration d) (.duration d)
  | list {a : Addr} {vs ps} : h[a]? = some (.list ps) → vs.length = ps.length →
      (∀ (i : Nat) v p, vs[i]? = some v → ps[i]? = some p → Shows h v p) → Shows h (.list vs) (.addr a)
  | map {a : Addr} {o kvs ps} : h[a]? = some (.dict o ps) → kvs.map (·.1) = ps.map (·.1) → (ps.map (·.1)).Nodup →
      (∀ (i : Nat) v p, kvs[i]? = some v → ps[i]? = some p → Shows h v.2 p.2) → Shows h (.map o kvs) (.addr a)
  | ref {a : Addr} {c id cn ps} : h[a]? = some (.inst cn ps) → ps.lookup c!"id" = some (.str id) →
      Shows h (.ref c id) (.addr a)
  | obj {a : Addr} {name cn attrs ps} : h[a]? = some (.inst cn ps) →
      (∀ x, attrs.lookup x = Option.none ↔ ps.lookup x = Option.none) →
      (∀ x v p, attrs.lookup x = some v → ps.lookup x = some p → Shows h v p) → Shows h (.obj name attrs) (.addr a)

/-- The Python value `p` in the heap `h` is the JSONable, all whose lists and dictionaries are objects at the address `lo`
or later. -/
inductive Jsonable (h : List Obj) (lo : Nat) : Json → PV → Prop
  | null : Jsonable h lo .null .none
  | bool (b) : Jsonable h lo (.bool b) (.bool b)
  | int (i) : Jsonable h lo (.int i) (.int i)
  | float (f) : Jsonable h lo (.float f) (.float f)
  | str (s) : Jsonable h lo (.str s) (.str s)
  | arr {a : Addr} {xs ps} : lo ≤ a → h[a]? = some (.list ps) → xs.length = ps.length →
      (∀ (i : Nat) x p, xs[i]? = some x → ps[i]? = some p → Jsonable h lo x p) → Jsonable h lo (.arr xs) (.addr a)
  | obj {a : Addr} {o kvs ps} : lo ≤ a → h[a]? = some (.dict o ps) → kvs.map (·.1) = ps.map (·.1) →
      (∀ (i : Nat) x p, kvs[i]? = some x → ps[i]? = some p → Jsonable h lo x.2 p.2) → Jsonable h lo (.obj o kvs) (.addr a)

/-- All the objects stay as they are, and there may be further ones. -/
structure Grown (h h' : List Obj) : Prop where
  length : h.length ≤ h'.length
  same : ∀ a, a < h.length → h'[a]? = h[a]?

theorem Grown.refl (h : List Obj) : Grown h h := ⟨Nat.le_refl _, fun _ _ => rfl⟩

theorem Grown.trans {h h' h'' : List Obj} (a : Grown h h') (b : Grown h' h'') : Grown h h'' :=
  ⟨Nat.le_trans a.length b.length, fun i hi => (b.same i (Nat.lt_of_lt_of_le hi a.length)).trans (a.same i hi)⟩

theorem Grown.get {h h' : List Obj} (g : Grown h h') {a : Addr} {o : Obj} (e : h[a]? = some o) : h'[a]? = some o :=
  (g.same a (lt_of_get e)).trans e

theorem Step.grown {n : Nat} {s s' : St} (h : Step (fun _ => False) n s s') : Grown s.heap s'.heap :=
  ⟨h.grow, fun a ha => h.frame a ha id⟩

theorem Shows.grown {h h' : List Obj} (g : Grown h h') {v : Val} {p : PV} (hs : Shows h v p) : Shows h' v p := by
  induction hs with
  | none => exact .none
  | bool => exact .bool _
  | int => exact .int _
  | float => exact .float _
  | str => exact .str _
  | path => exact .path _
  | date => exact .date _
  | time => exact .time _
  | datetime => exact .datetime _
  | zone => exact .zone _
  | duration => exact .duration _
  | list h1 h2 _ ih => exact .list (g.get h1) h2 ih
  | map h1 h2 h3 _ ih => exact .map (g.get h1) h2 h3 ih
  | ref h1 h2 => exact .ref (g.get h1) h2
  | obj h1 h2 _ ih => exact .obj (g.get h1) h2 ih

theorem Jsonable.mono {h : List Obj} {lo lo' : Nat} (hl : lo' ≤ lo) {j : Json} {p : PV} (hj : Jsonable h lo j p) :
    Jsonable h lo' j p := by
  induction hj with
  | null => exact .null
  | bool => exact .bool _
  | int => exact .int _
  | float => exact .float _
  | str => exact .str _
  | arr h1 h2 h3 _ ih => exact .arr (Nat.le_trans hl h1) h2 h3 ih
  | obj h1 h2 h3 _ ih => exact .obj (Nat.le_trans hl h1) h2 h3 ih

theorem Jsonable.frame {h h' : List Obj} {lo : Nat} (hf : ∀ a, lo ≤ a → a < h.length → h'[a]? = h[a]?) {j : Json} {p : PV}
    (hj : Jsonable h lo j p) : Jsonable h' lo j p := by
  induction hj with
  | null => exact .null
  | bool => exact .bool _
  | int => exact .int _
  | float => exact .float _
  | str => exact .str _
  | arr h1 h2 h3 _ ih => exact .arr h1 ((hf _ h1 (lt_of_get h2)).trans h2) h3 ih
  | obj h1 h2 h3 _ ih => exact .obj h1 ((hf _ h1 (lt_of_get h2)).trans h2) h3 ih

theorem Jsonable.grown {h h' : List Obj} {lo : Nat} (g : Grown h h') {j : Json} {p : PV} (hj : Jsonable h lo j p) :
    Jsonable h' lo j p := hj.frame fun a _ ha => g.same a ha

theorem forall₂_of_get {α β : Type} {R : α → β → Prop} : ∀ {xs : List α} {ys : List β}, xs.length = ys.length →
    (∀ (i : Nat) a b, xs[i]? = some a → ys[i]? = some b → R a b) → Forall₂ R xs ys
  | [], [], _, _ => .nil
  | [], _ :: _, h, _ => by cases h
  | _ :: _, [], h, _ => by cases h
  | x :: xs, y :: ys, h, hr => .cons (hr 0 x y rfl rfl)
      (forall₂_of_get (by simpa using h) fun i a b h1 h2 => hr (i + 1) a b (by simpa using h1) (by simpa using h2))

theorem Jsonable.ofList {h : List Obj} {lo : Nat} {a : Addr} {xs : List Json} {ps : List PV} (ha : lo ≤ a)
    (e : h[a]? = some (.list ps)) (hf : Forall₂ (Jsonable h lo) xs ps) : Jsonable h lo (.arr xs) (.addr a) :=
  .arr ha e (forall₂_get hf).1 (forall₂_get hf).2

/-- The entries of a dictionary -/
def Entry (R : Json → PV → Prop) (x : Str × Json) (p : Str × PV) : Prop := x.1 = p.1 ∧ R x.2 p.2

theorem entry_keys {R : Json → PV → Prop} {xs : List (Str × Json)} {ps : List (Str × PV)} (h : Forall₂ (Entry R) xs ps) :
    xs.map (·.1) = ps.map (·.1) := by
  induction h with
  | nil => rfl
  | cons hh _ ih => rw [List.map_cons, List.map_cons, hh.1, ih]

theorem Jsonable.ofDict {h : List Obj} {lo : Nat} {a : Addr} {o : Bool} {xs : List (Str × Json)} {ps : List (Str × PV)}
    (ha : lo ≤ a) (e : h[a]? = some (.dict o ps)) (hf : Forall₂ (Entry (Jsonable h lo)) xs ps) :
    Jsonable h lo (.obj o xs) (.addr a) :=
  .obj ha e (entry_keys hf) fun i x p h1 h2 => ((forall₂_get hf).2 i x p h1 h2).2

theorem entry_put {R : Json → PV → Prop} (k : Str) {x : Json} {p : PV} (hx : R x p) : ∀ {xs : List (Str × Json)}
    {ps : List (Str × PV)}, Forall₂ (Entry R) xs ps → Forall₂ (Entry R) (putKey k x xs) (put k p ps)
  | _, _, .nil => .cons ⟨rfl, hx⟩ .nil
  | (k', x') :: xs, (k'', p') :: ps, .cons hh ht => by
    have e : k' = k'' := hh.1
    subst e
    rw [putKey, put]
    split
    · exact .cons ⟨rfl, hx⟩ ht
    · exact .cons ⟨rfl, hh.2⟩ (entry_put k hx ht)

/-! ## Results -/

/-- The exception is raised. (A value which is not of the type in the schema is a `TypeError` of the serializer, about which
nothing is said, and so is an embed which is not in the schema.) -/
def Raises {α : Type} (R : Except Raised α × St) (x : Exc) : Prop :=
  x = .typeError ∨ ∃ t s', R = (.error (.exc x t), s')

/-- The expression makes the JSONable, all of it new. -/
def Made (s : St) (R : Except Raised PV × St) : Except Exc Json → Prop
  | .error x => Raises R x
  | .ok j => ∃ s' q, R = (.ok q, s') ∧ s'.vars = s.vars ∧ Grown s.heap s'.heap ∧ Jsonable s'.heap s.heap.length j q

/-- The functions of the embeds serialize them. -/
def EmbedMakes (call : Fn → Actual → M PV) (embed : Str → Val → Except Exc Json) (N : Str → Prop) : Prop :=
  ∀ name, N name → ∀ s val p, Shows s.heap val p →
    Made s (call (.own (c!"serialize_" ++ lower name)) [(none, p)] s) (embed name val)

/-- The expression has the value, also later on. -/
def Reads (L : Lib) (call : Fn → Actual → M PV) (n : Nat) (s : St) (e : Expr) (p : PV) : Prop :=
  ∀ s', (∀ x, Keep n x → s'.vars x = s.vars x) → Grown s.heap s'.heap → eval L call e s' = (.ok p, s')

section

variable {L : Lib} {S : Settings} {py : ParseSchema.Py} {call : Fn → Actual → M PV} {embed : Str → Val → Except Exc Json}
  {N : Str → Prop} {s s' : St} {n : Nat}

theorem Reads.now {e : Expr} {p : PV} (h : Reads L call n s e p) : eval L call e s = (.ok p, s) :=
  h s (fun _ _ => rfl) (Grown.refl _)

theorem Reads.later {e : Expr} {p : PV} (h : Reads L call n s e p) (hv : ∀ x, Keep n x → s'.vars x = s.vars x)
    (hg : Grown s.heap s'.heap) {m : Nat} (hm : n ≤ m) : Reads L call m s' e p :=
  fun s'' h1 h2 => h s'' (fun x hx => (h1 x (hx.mono hm)).trans (hv x hx)) (hg.trans h2)

theorem reads_name {x : Str} {p : PV} (hx : Keep n x) (h : s.vars x = some p) : Reads L call n s (v x) p :=
  fun _ h1 _ => eval_name ((h1 x hx).trans h)

theorem serDirect_made {val : Val} {p : PV} (hs : Shows s.heap val p) {h : List Obj} {lo : Nat} :
    match serDirect val with
    | .error x => x = .typeError
    | .ok j => Jsonable h lo j p := by
  cases hs <;> first | rfl | exact .null | exact .bool _ | exact .int _ | exact .float _ | exact .str _

theorem made_pure {e : Expr} {p : PV} {j : Json} (he : eval L call e s = (.ok p, s))
    (hj : ∀ h lo, Jsonable h lo j p) : Made s (eval L call e s) (.ok j) :=
  ⟨s, p, he, rfl, Grown.refl _, hj _ _⟩

theorem made_direct {e : Expr} {p : PV} {val : Val} (he : eval L call e s = (.ok p, s)) (hs : Shows s.heap val p) :
    Made s (eval L call e s) (serDirect val) := by
  have h := fun h lo => serDirect_made hs (h := h) (lo := lo)
  generalize serDirect val = r at h ⊢
  cases r with
  | error x => exact .inl (h [] 0)
  | ok j => exact made_pure he h

theorem made_type {R : Except Raised PV × St} : Made s R (.error .typeError) := .inl rfl

theorem expr_made (hS : SettingsOk S py) (hE : EmbedMakes call embed N) {ty : Ty} {value e : Expr}
    (h : serializationExpr py value ty = .ok (some e)) (hn : ∀ n, ty = .embed n → N n) {val : Val} {p : PV}
    (hv : eval L call value s = (.ok p, s)) (hs : Shows s.heap val p) :
    Made s (eval L call e s) (serTy L S embed ty val) := by
  cases ty with
  | boolean => cases h; rw [serTy]; exact made_direct hv hs
  | integer b => cases h; rw [serTy]; exact made_direct hv hs
  | float b => cases h; rw [serTy]; exact made_direct hv hs
  | string p => cases h; rw [serTy]; exact made_direct hv hs
  | path pt =>
    obtain ⟨b, h1, h⟩ := ok_bind h
    have hb := hS.1 b h1
    cases b with
    | false =>
      cases h
      have : serTy L S embed (.path pt) val = serDirect val := by cases val <;> simp [serTy, hb]
      rw [this]
      exact made_direct hv hs
    | true =>
      cases h
      cases hs <;> simp only [serTy, hb, if_true] <;> first | exact made_type | skip
      refine made_pure (p := .str _) ?_ fun _ _ => .str _
      rw [eval, bind_ok hv]; rfl
  | timeZone =>
    obtain ⟨b, h1, h⟩ := ok_bind h
    have hb := hS.2 b h1
    cases b with
    | false =>
      cases h
      have : serTy L S embed .timeZone val = serDirect val := by cases val <;> simp [serTy, hb]
      rw [this]
      exact made_direct hv hs
    | true =>
      cases h
      cases hs <;> simp only [serTy, hb, if_true] <;> first | exact made_type | skip
      refine made_pure (p := .str _) ?_ fun _ _ => .str _
      rw [eval, bind_ok hv]; rfl
  | date f =>
    cases h
    cases hs <;> simp only [serTy] <;> first | exact made_type | skip
    refine made_pure (p := .str _) ?_ fun _ _ => .str _
    rw [eval, bind_ok hv]; rfl
  | time f =>
    cases h
    cases hs <;> simp only [serTy] <;> first | exact made_type | skip
    refine made_pure (p := .str _) ?_ fun _ _ => .str _
    rw [eval, bind_ok hv]; rfl
  | datetime f =>
    cases h
    cases hs <;> simp only [serTy] <;> first | exact made_type | skip
    refine made_pure (p := .str _) ?_ fun _ _ => .str _
    rw [eval, bind_ok hv]; rfl
  | duration =>
    cases h
    cases hs <;> simp only [serTy] <;> first | exact made_type | skip
    refine made_pure (p := .str _) ?_ fun _ _ => .str _
    rw [eval, bind_ok hv]; rfl
  | array => cases h
  | map => cases h
  | cls c =>
    cases h
    cases hs <;> simp only [serTy] <;> first | exact made_type | skip
    rename_i h1 h2
    refine made_pure (p := .str _) ?_ fun _ _ => .str _
    rw [eval, bind_ok hv, PyLang.getAttr, bind_ok (load_run h1)]
    simp only [h2]
    rfl
  | embed name =>
    obtain ⟨f, h1, h⟩ := ok_bind h
    obtain ⟨rfl, -⟩ := PyCode.asVariable_eq h1
    cases h
    rw [serTy, eval]
    have : evalArgs L call (args [value]) s = (.ok [(none, p)], s) := by
      rw [args, args, evalArgs, bind_ok hv, evalArgs]; rfl
    rw [bind_ok this]
    exact hE name (hn name rfl) s val p hs

/-! ## Arrays -/

/-- The code makes the JSONable, all of it new, and assigns it to the target; the variables `K` are kept. -/
def PutTo (L : Lib) (call : Fn → Actual → M PV) (K : Str → Prop) (tgt : Target) (s : St) (R : Except Raised Flow × St) :
    Except Exc Json → Prop
  | .error x => Raises R x
  | .ok j => ∃ s' q, R = (do assignTo L call tgt q; pure .normal : M Flow) s' ∧ (∀ x, K x → s'.vars x = s.vars x) ∧
      Grown s.heap s'.heap ∧ Jsonable s'.heap s.heap.length j q

theorem put_expr {K : Str → Prop} {tgt : Target} {e : Expr} {r : Except Exc Json} (h : Made s (eval L call e s) r) :
    PutTo L call K tgt s (exec L call (.assign tgt e) s) r := by
  cases r with
  | error x =>
    rcases h with h | ⟨t, s', h⟩
    · exact .inl h
    · exact .inr ⟨t, s', by rw [exec, bind_error h]⟩
  | ok j =>
    obtain ⟨s', q, h1, h2, h3, h4⟩ := h
    exact ⟨s', q, exec_assign h1, fun x _ => by rw [h2], h3, h4⟩

theorem Raises.bind {α β : Type} {m : M α} {f : α → M β} {x : Exc} (h : Raises (m s) x) : Raises ((m >>= f) s) x := by
  rcases h with h | ⟨t, s', h⟩
  · exact .inl h
  · exact .inr ⟨t, s', bind_error h⟩

/-- The values of a comprehension -/
def MadeAll (s : St) (R : Except Raised (List PV) × St) : Except Exc (List Json) → Prop
  | .error x => Raises R x
  | .ok js => ∃ s' qs, R = (.ok qs, s') ∧ s'.vars = s.vars ∧ Grown s.heap s'.heap ∧
      Forall₂ (Jsonable s'.heap s.heap.length) js qs

theorem forall₂_shows {h h' : List Obj} (g : Grown h h') {vs : List Val} {ps : List PV} (hf : Forall₂ (Shows h) vs ps) :
    Forall₂ (Shows h') vs ps := forall₂_imp (fun _ _ hs => hs.grown g) hf

theorem forall₂_jsonable {h h' : List Obj} {lo lo' : Nat} (hl : lo' ≤ lo) (hf : ∀ a, lo ≤ a → a < h.length → h'[a]? = h[a]?)
    {js : List Json} {ps : List PV} (h2 : Forall₂ (Jsonable h lo) js ps) : Forall₂ (Jsonable h' lo') js ps :=
  forall₂_imp (fun _ _ hj => (hj.frame hf).mono hl) h2

theorem mapItems_made {f : PV → M PV} {ser : Val → Except Exc Json}
    (hf : ∀ s val p, Shows s.heap val p → Made s (f p s) (ser val)) : ∀ {vs : List Val} {ps : List PV} (s : St),
    Forall₂ (Shows s.heap) vs ps → MadeAll s (mapItems f ps s) (serItems ser vs)
  | _, _, s, .nil => ⟨s, [], rfl, rfl, Grown.refl _, .nil⟩
  | val :: vs, p :: ps, s, .cons hh ht => by
    have h1 := hf s val p hh
    rw [serItems, mapItems]
    generalize ser val = r at h1 ⊢
    cases r with
    | error x => exact Raises.bind h1
    | ok j =>
      obtain ⟨s1, q, e1, v1, g1, j1⟩ := h1
      have h2 := mapItems_made hf s1 (forall₂_shows g1 ht)
      rw [bind_ok e1]
      change MadeAll s _ (serItems ser vs >>= fun xs => pure (j :: xs))
      generalize serItems ser vs = r2 at h2 ⊢
      cases r2 with
      | error x => exact Raises.bind h2
      | ok js =>
        obtain ⟨s2, qs, e2, v2, g2, j2⟩ := h2
        exact ⟨s2, q :: qs, by rw [bind_ok e2]; rfl, v2.trans v1, g1.trans g2,
          .cons (j1.grown g2) (forall₂_jsonable g1.length (fun _ _ _ => rfl) j2)⟩

theorem within_made {x : Str} {p : PV} {m : M PV} {r : Except Exc Json} (h : Made (s.set x p) (m (s.set x p)) r) :
    Made s (within x p m s) r := by
  cases r with
  | error y =>
    rcases h with h | ⟨t, s', h⟩
    · exact .inl h
    · refine .inr ⟨t, ⟨s'.heap, s.vars⟩, ?_⟩
      rw [within]
      change (match m (s.set x p) with | (r, s') => (r, { s' with vars := s.vars })) = _
      rw [h]
  | ok j =>
    obtain ⟨s', q, h1, _, h3, h4⟩ := h
    refine ⟨⟨s'.heap, s.vars⟩, q, ?_, rfl, h3, h4⟩
    rw [within]
    change (match m (s.set x p) with | (r, s') => (r, { s' with vars := s.vars })) = _
    rw [h1]

theorem grown_push (s : St) (o : Obj) : Grown s.heap (s.push o).heap := ⟨by simp, fun _ ha => push_lt o ha⟩

theorem elements_list {a : Addr} {ps : List PV} (h : s.heap[a]? = some (.list ps)) :
    elements (.addr a) s = (.ok ps, s) := by rw [elements, bind_ok (load_run h)]; rfl

theorem entries_dict {a : Addr} {o : Bool} {ps : List (Str × PV)} (x : Exc) (h : s.heap[a]? = some (.dict o ps)) :
    entries x (.addr a) s = (.ok ps, s) := by rw [entries, bind_ok (load_run h)]; rfl

/-- The array by a comprehension -/
theorem comp_made {e value : Expr} {x : Str} {a : Addr} {ps : List PV} {vs : List Val} {ser : Val → Except Exc Json}
    (hv : eval L call value s = (.ok (.addr a), s)) (ha : s.heap[a]? = some (.list ps)) (hs : Forall₂ (Shows s.heap) vs ps)
    (hf : ∀ s val p, Shows s.heap val p → s.vars x = some p → Made s (eval L call e s) (ser val)) :
    Made s (eval L call (.comp e x value) s) (do let xs ← serItems ser vs; return .arr xs) := by
  have h := mapItems_made (f := fun p => within x p (eval L call e)) (ser := ser)
    (fun s val p hh => within_made (hf _ val p hh (set_self ..))) s hs
  rw [eval, bind_ok hv, bind_ok (elements_list ha)]
  generalize serItems ser vs = r at h ⊢
  cases r with
  | error x => exact Raises.bind h
  | ok js =>
    obtain ⟨s1, qs, e1, v1, g1, j1⟩ := h
    refine ⟨s1.push (.list qs), .addr s1.heap.length, by rw [bind_ok e1]; rfl, v1, g1.trans (grown_push ..), ?_⟩
    exact .ofList g1.length (push_self ..) (forall₂_imp (fun _ _ hj => hj.grown (grown_push ..)) j1)

/-- The state in the loop over the items -/
structure ListInv (n : Nat) (s0 : St) (a : Addr) (js : List Json) (s : St) : Prop where
  vars : ∀ x, Keep n x → s.vars x = s0.vars x
  grown : Grown s0.heap s.heap
  low : s0.heap.length ≤ a
  var : s.vars (tmp c!"target" n) = some (.addr a)
  obj : ∃ qs, s.heap[a]? = some (.list qs) ∧ Forall₂ (Jsonable s.heap (a + 1)) js qs

/-- What the loop leaves behind -/
def ListLooped (n : Nat) (s0 : St) (a : Addr) (acc : List Json) (R : Except Raised Flow × St) : Except Exc (List Json) → Prop
  | .error x => Raises R x
  | .ok js => ∃ s', R = (.ok .normal, s') ∧ ListInv n s0 a (acc ++ js) s'

theorem exec_append {x y : Str} {a : Addr} {ps : List PV} {q : PV} (hx : s.vars x = some (.addr a)) (hy : s.vars y = some q)
    (ha : s.heap[a]? = some (.list ps)) :
    exec L call (.expr (.append (v x) (v y))) s = (.ok .normal, s.write a (.list (ps ++ [q]))) := by
  refine exec_expr (p := .none) ?_
  rw [eval, bind_ok (eval_name hx), bind_ok (eval_name hy)]
  simp only
  rw [bind_ok (load_run ha)]
  rfl

theorem grown_write {h : List Obj} {s : St} {a : Addr} (o : Obj) (g : Grown h s.heap) (ha : h.length ≤ a) :
    Grown h (s.write a o).heap :=
  ⟨by rw [write_length]; exact g.length, fun b hb => by
    rw [write_ne o (fun e => by subst e; exact absurd hb (Nat.not_lt.2 ha))]; exact g.same b hb⟩

theorem list_loop {s0 : St} {a : Addr} {item : Stmt} {ser : Val → Except Exc Json}
    (hf : ∀ s val p, Shows s.heap val p → s.vars (tmp c!"item" n) = some p →
      PutTo L call (Keep (n + 1)) (.var (tmp c!"target_item" n)) s (exec L call item s) (ser val)) :
    ∀ {vs : List Val} {ps : List PV}, Forall₂ (Shows s0.heap) vs ps → ∀ (acc : List Json) (s : St), ListInv n s0 a acc s →
    ListLooped n s0 a acc (loop (setVar (tmp c!"item" n))
      (exec L call (.seq item (.expr (.append (t c!"target" n) (t c!"target_item" n))))) ps s) (serItems ser vs)
  | _, _, .nil, acc, s, hI => ⟨s, rfl, by simpa using hI⟩
  | val :: vs, p :: ps, .cons hh ht, acc, s, hI => by
    have h1 := hf (s.set (tmp c!"item" n) p) val p (hh.grown hI.grown) (set_self ..)
    rw [serItems]
    generalize ser val = r at h1 ⊢
    cases r with
    | error x =>
      rcases h1 with h | ⟨t, s', h⟩
      · exact .inl h
      · exact .inr ⟨t, s', loop_error _ (exec_seq_error h)⟩
    | ok j =>
      obtain ⟨s1, q, e1, v1, g1, j1⟩ := h1
      obtain ⟨qs, ho, hq⟩ := hI.obj
      have hs1 : s1.vars (tmp c!"target" n) = some (.addr a) := by
        rw [v1 _ (keep_tmp _ (Nat.lt_succ_self n)), set_ne _ _ (tmp_ne (by decide) n)]
        exact hI.var
      have ho1 : s1.heap[a]? = some (.list qs) := g1.get ho
      replace e1 : exec L call item (s.set (tmp c!"item" n) p) = (.ok .normal, s1.set (tmp c!"target_item" n) q) := e1
      have hrun : exec L call (.seq item (.expr (.append (t c!"target" n) (t c!"target_item" n)))) (s.set (tmp c!"item" n) p) =
          (.ok .normal, (s1.set (tmp c!"target_item" n) q).write a (.list (qs ++ [q]))) := by
        rw [exec_seq e1]
        refine exec_append ?_ (set_self ..) ho1
        rw [set_ne _ _ (tmp_ne (by decide) n)]
        exact hs1
      rw [loop_normal ps hrun]
      have hI' : ListInv n s0 a (acc ++ [j]) ((s1.set (tmp c!"target_item" n) q).write a (.list (qs ++ [q]))) := by
        refine ⟨fun x hx => ?_, grown_write _ (hI.grown.trans g1) hI.low, hI.low, ?_, qs ++ [q], write_self _ ho1, ?_⟩
        · rw [write_vars, set_ne _ _ (hx.ne_tmp _ (Nat.le_refl n)), v1 x (hx.mono (Nat.le_succ n)),
            set_ne _ _ (hx.ne_tmp _ (Nat.le_refl n))]
          exact hI.vars x hx
        · rw [write_vars, set_ne _ _ (tmp_ne (by decide) n)]
          exact hs1
        · have hfr : ∀ b, a + 1 ≤ b → ((s1.set (tmp c!"target_item" n) q).write a (.list (qs ++ [q]))).heap[b]? = s1.heap[b]? :=
            fun b hb => write_ne _ (fun e => by subst e; exact absurd hb (Nat.not_succ_le_self _))
          refine forall₂_snoc (forall₂_jsonable (Nat.le_refl _) (fun b hb hl => ?_) hq) ?_
          · rw [hfr b hb]
            exact g1.same b hl
          · exact (j1.mono (lo' := a + 1) (lt_of_get ho)).frame fun b hb _ => hfr b hb
      have h2 := list_loop hf ht _ _ hI'
      change ListLooped n s0 a acc _ (serItems ser vs >>= fun xs => pure (j :: xs))
      generalize serItems ser vs = r2 at h2 ⊢
      cases r2 with
      | error x => exact h2
      | ok js =>
        obtain ⟨s', e', hI''⟩ := h2
        exact ⟨s', e', by simpa using hI''⟩

/-! ## Maps -/

/-- The state in the loop over the entries -/
structure DictInv (n : Nat) (s0 : St) (a : Addr) (o : Bool) (js : List (Str × Json)) (s : St) : Prop where
  vars : ∀ x, Keep n x → s.vars x = s0.vars x
  grown : Grown s0.heap s.heap
  low : s0.heap.length ≤ a
  var : s.vars (tmp c!"target" n) = some (.addr a)
  obj : ∃ qs, s.heap[a]? = some (.dict o qs) ∧ Forall₂ (Entry (Jsonable s.heap (a + 1))) js qs

/-- What the loop leaves behind -/
def DictLooped (n : Nat) (s0 : St) (a : Addr) (o : Bool) (acc : List (Str × Json)) (R : Except Raised Flow × St) :
    Except Exc (List (Str × Json)) → Prop
  | .error x => Raises R x
  | .ok js => ∃ s', R = (.ok .normal, s') ∧ DictInv n s0 a o (acc ++ js) s'

/-- `x[y] = q` -/
theorem assign_item {x y : Expr} {a : Addr} {k : Str} {o : Bool} {ps : List (Str × PV)} {q : PV}
    (hx : eval L call x s = (.ok (.addr a), s)) (hy : eval L call y s = (.ok (.str k), s))
    (ha : s.heap[a]? = some (.dict o ps)) :
    (do assignTo L call (.item x y) q; pure .normal : M Flow) s = (.ok .normal, s.write a (.dict o (put k q ps))) := by
  have : assignTo L call (.item x y) q s = (.ok (), s.write a (.dict o (put k q ps))) := by
    rw [assignTo, bind_ok hx, bind_ok hy, setItem, bind_ok (load_run ha)]
    rfl
  rw [bind_ok this]
  rfl

theorem forall₂_entries {h h' : List Obj} {lo lo' : Nat} (hl : lo' ≤ lo) (hf : ∀ a, lo ≤ a → a < h.length → h'[a]? = h[a]?)
    {js : List (Str × Json)} {ps : List (Str × PV)} (h2 : Forall₂ (Entry (Jsonable h lo)) js ps) :
    Forall₂ (Entry (Jsonable h' lo')) js ps :=
  forall₂_imp (fun _ _ hj => ⟨hj.1, (hj.2.frame hf).mono hl⟩) h2

/-- The variables which an entry keeps -/
def EntryKeep (n : Nat) (x : Str) : Prop := Keep (n + 1) x ∧ x ≠ tmp c!"target_value" n

theorem dict_loop {s0 : St} {a : Addr} {o : Bool} {item : Stmt} {ser : Val → Except Exc Json}
    (hf : ∀ s val p, Shows s.heap val p → s.vars (tmp c!"value" n) = some p →
      PutTo L call (EntryKeep n) (.item (t c!"target" n) (t c!"key" n)) s (exec L call item s) (ser val)) :
    ∀ {vs : List (Str × Val)} {ps : List (Str × PV)}, Forall₂ (fun v p => v.1 = p.1 ∧ Shows s0.heap v.2 p.2) vs ps →
    (ps.map (·.1)).Nodup → ∀ (acc : List (Str × Json)) (s : St), DictInv n s0 a o acc s →
    (∀ k ∈ ps.map (·.1), k ∉ acc.map (·.1)) →
    DictLooped n s0 a o acc (loop (fun p : Str × PV => do setVar (tmp c!"key" n) (.str p.1); setVar (tmp c!"value" n) p.2)
      (exec L call item) ps s) (serEntries ser vs)
  | _, _, .nil, _, acc, s, hI, _ => ⟨s, rfl, by simpa using hI⟩
  | (k, val) :: vs, (k', p) :: ps, .cons hh ht, hnd, acc, s, hI, hdis => by
    have ek : k = k' := hh.1
    subst ek
    have h1 := hf ((s.set (tmp c!"key" n) (.str k)).set (tmp c!"value" n) p) val p (hh.2.grown hI.grown) (set_self ..)
    rw [serEntries]
    generalize ser val = r at h1 ⊢
    cases r with
    | error x =>
      rcases h1 with h | ⟨t, s', h⟩
      · exact .inl h
      · exact .inr ⟨t, s', loop_error _ h⟩
    | ok j =>
      obtain ⟨s1, q, e1, v1, g1, j1⟩ := h1
      obtain ⟨qs, ho, hq⟩ := hI.obj
      have hkeep : ∀ b, b ≠ c!"target_value" → EntryKeep n (tmp b n) :=
        fun b hb => ⟨keep_tmp _ (Nat.lt_succ_self n), tmp_ne hb n⟩
      have hs1 : s1.vars (tmp c!"target" n) = some (.addr a) := by
        rw [v1 _ (hkeep _ (by decide)), set_ne _ _ (tmp_ne (by decide) n), set_ne _ _ (tmp_ne (by decide) n)]
        exact hI.var
      have hk1 : s1.vars (tmp c!"key" n) = some (.str k) := by
        rw [v1 _ (hkeep _ (by decide)), set_ne _ _ (tmp_ne (by decide) n), set_self]
      have ho1 : s1.heap[a]? = some (.dict o qs) := g1.get ho
      have hnew : put k q qs = qs ++ [(k, q)] := put_new q (by
        rw [← entry_keys hq]
        exact hdis k (by simp))
      rw [assign_item (eval_name hs1) (eval_name hk1) ho1, hnew] at e1
      rw [loop_normal ps (s' := s1.write a (.dict o (qs ++ [(k, q)]))) e1]
      have hI' : DictInv n s0 a o (acc ++ [(k, j)]) (s1.write a (.dict o (qs ++ [(k, q)]))) := by
        refine ⟨fun x hx => ?_, grown_write _ (hI.grown.trans g1) hI.low, hI.low, hs1, _, write_self _ ho1, ?_⟩
        · rw [write_vars, v1 x ⟨hx.mono (Nat.le_succ n), hx.ne_tmp _ (Nat.le_refl n)⟩,
            set_ne _ _ (hx.ne_tmp _ (Nat.le_refl n)), set_ne _ _ (hx.ne_tmp _ (Nat.le_refl n))]
          exact hI.vars x hx
        · have hfr : ∀ b, a + 1 ≤ b → (s1.write a (.dict o (qs ++ [(k, q)]))).heap[b]? = s1.heap[b]? :=
            fun b hb => write_ne _ (fun e => by subst e; exact absurd hb (Nat.not_succ_le_self _))
          refine forall₂_snoc (forall₂_entries (Nat.le_refl _) (fun b hb hl => ?_) hq) ⟨rfl, ?_⟩
          · rw [hfr b hb]
            exact g1.same b hl
          · exact (j1.mono (lo' := a + 1) (lt_of_get ho)).frame fun b hb _ => hfr b hb
      simp only [List.map_cons, List.nodup_cons] at hnd
      have h2 := dict_loop hf ht hnd.2 _ _ hI' (by
        intro k' hk' hm
        simp only [List.map_append, List.map_cons, List.map_nil, List.mem_append, List.mem_singleton] at hm
        rcases hm with hm | hm
        · exact hdis k' (by simp [hk']) hm
        · subst hm
          exact hnd.1 hk')
      change DictLooped n s0 a o acc _ (serEntries ser vs >>= fun xs => pure ((k, j) :: xs))
      generalize serEntries ser vs = r2 at h2 ⊢
      cases r2 with
      | error x => exact h2
      | ok js =>
        obtain ⟨s', e', hI''⟩ := h2
        exact ⟨s', e', by simpa using hI''⟩

/-! ## All the types -/

/-- The code serializes a value of the type. -/
def Writes (L : Lib) (py : ParseSchema.Py) (call : Fn → Actual → M PV) (ser : Ty → Val → Except Exc Json) (ty : Ty) : Prop :=
  ∀ tgt value n code m, serializeValue py ty tgt value n = .ok (code, m) → n ≤ m ∧
    ∀ s val p, Reads L call n s value p → Shows s.heap val p →
      PutTo L call (Keep n) tgt s (exec L call code s) (ser ty val)

theorem shows_list {h : List Obj} {val : Val} {p : PV} (hs : Shows h val p) :
    (∃ vs a ps, val = .list vs ∧ p = .addr a ∧ h[a]? = some (.list ps) ∧ Forall₂ (Shows h) vs ps) ∨ ∀ vs, val ≠ .list vs := by
  cases hs <;> first | (refine .inr fun _ e => ?_; cases e; done) | skip
  rename_i a vs ps h1 h2 h3
  exact .inl ⟨vs, a, ps, rfl, rfl, h1, forall₂_of_get h2 h3⟩

theorem shows_map {h : List Obj} {val : Val} {p : PV} (hs : Shows h val p) :
    (∃ o vs a ps, val = .map o vs ∧ p = .addr a ∧ h[a]? = some (.dict o ps) ∧ (ps.map (·.1)).Nodup ∧
      Forall₂ (fun v p => v.1 = p.1 ∧ Shows h v.2 p.2) vs ps) ∨ ∀ o vs, val ≠ .map o vs := by
  cases hs <;> first | (refine .inr fun _ _ e => ?_; cases e; done) | skip
  rename_i a o vs ps h1 h2 h3 h4
  refine .inl ⟨o, vs, a, ps, rfl, rfl, h1, h3, forall₂_of_get (by simpa using congrArg List.length h2) fun i v p e1 e2 => ⟨?_, h4 i v p e1 e2⟩⟩
  have := congrArg (·[i]?) h2
  simpa [e1, e2] using this

theorem serTy_not_list {x : Ty} {lo hi : Option Int} {val : Val} (h : ∀ vs, val ≠ .list vs) :
    serTy L S embed (.array x lo hi) val = .error .typeError := by
  cases val <;> first | rfl | exact absurd rfl (h _)

theorem serTy_not_map {x : Ty} {val : Val} (h : ∀ o vs, val ≠ .map o vs) :
    serTy L S embed (.map x) val = .error .typeError := by
  cases val <;> first | rfl | exact absurd rfl (h _ _)

theorem serItems_direct {h : List Obj} {vs : List Val} {ps : List PV} (hf : Forall₂ (Shows h) vs ps) :
    match serItems serDirect vs with
    | .error x => x = .typeError
    | .ok js => ∀ h' lo', Forall₂ (Jsonable h' lo') js ps := by
  induction hf with
  | nil => exact fun _ _ => .nil
  | cons hh _ ih =>
    rename_i val p vs ps _
    rw [serItems]
    have h1 := fun h' lo' => serDirect_made (s := ⟨h, fun _ => none⟩) hh (h := h') (lo := lo')
    generalize serDirect val = r at h1 ⊢
    cases r with
    | error x => exact h1 [] 0
    | ok j =>
      generalize serItems serDirect vs = r2 at ih ⊢
      cases r2 with
      | error x => exact ih
      | ok js => exact fun h' lo' => .cons (h1 h' lo') (ih h' lo')

theorem directCopy_ser (hS : SettingsOk S py) {x : Ty} (h : PyCode.directCopy py x = true) :
    serTy L S embed x = serDirect := by
  funext val
  cases x with
  | boolean => rw [serTy]
  | integer => rw [serTy]
  | float => rw [serTy]
  | string => rw [serTy]
  | path =>
    simp only [PyCode.directCopy, decide_eq_true_eq] at h
    have := hS.1 false (by rw [pathlib, if_pos h])
    cases val <;> simp [serTy, this]
  | timeZone =>
    simp only [PyCode.directCopy, decide_eq_true_eq] at h
    have := hS.2 false (by rw [pytz, if_pos h])
    cases val <;> simp [serTy, this]
  | _ => cases h

theorem serTy_list {x : Ty} {lo hi : Option Int} {vs : List Val} :
    serTy L S embed (.array x lo hi) (.list vs) = (do let xs ← serItems (serTy L S embed x) vs; return .arr xs) := rfl

theorem serTy_map {x : Ty} {o : Bool} {vs : List (Str × Val)} :
    serTy L S embed (.map x) (.map o vs) = (do let xs ← serEntries (serTy L S embed x) vs; return .obj o xs) := rfl

/-- The array is a plain copy. -/
theorem copy_made {value : Expr} {a : Addr} {ps : List PV} {vs : List Val}
    (hv : eval L call value s = (.ok (.addr a), s)) (ha : s.heap[a]? = some (.list ps)) (hs : Forall₂ (Shows s.heap) vs ps) :
    Made s (eval L call (.copy value) s) (do let xs ← serItems serDirect vs; return .arr xs) := by
  have h := serItems_direct hs
  generalize serItems serDirect vs = r at h ⊢
  cases r with
  | error x => exact .inl h
  | ok js =>
    refine ⟨s.push (.list ps), .addr s.heap.length, ?_, rfl, grown_push .., .ofList (Nat.le_refl _) (push_self ..) (h _ _)⟩
    rw [eval, bind_ok hv]
    simp only
    rw [bind_ok (load_run ha)]
    rfl

/-- The code for a value which an expression serializes -/
theorem plain_writes (hS : SettingsOk S py) (hE : EmbedMakes call embed N) {ty : Ty} (hn : ∀ n, ty = .embed n → N n)
    (hplain : ∀ tgt value n, serializeValue py ty tgt value n = (do
      match ← serializationExpr py value ty with
      | some e => pure (.assign tgt e, n)
      | none => .error (.notImplemented []))) : Writes L py call (serTy L S embed) ty := by
  intro tgt value n code m h
  rw [hplain] at h
  obtain ⟨e, h1, h⟩ := ok_bind h
  cases e with
  | none => cases h
  | some e =>
    cases h
    exact ⟨Nat.le_refl _, fun s val p hv hs => put_expr (expr_made hS hE h1 hn hv.now hs)⟩

/-- The code makes the JSONable and goes on with it in the variable. -/
def ThenRuns (L : Lib) (call : Fn → Actual → M PV) (K : Str → Prop) (x : Str) (st rest : Stmt) (s : St) : Except Exc Json → Prop
  | .error y => Raises (exec L call (.seq st rest) s) y
  | .ok j => ∃ (s' : St) (q : PV), exec L call (.seq st rest) s = exec L call rest (s'.set x q) ∧
      (∀ x, K x → s'.vars x = s.vars x) ∧ Grown s.heap s'.heap ∧ Jsonable s'.heap s.heap.length j q

theorem putTo_var {x : Str} {K : Str → Prop} {r : Except Exc Json} {st rest : Stmt}
    (h : PutTo L call K (.var x) s (exec L call st s) r) : ThenRuns L call K x st rest s r := by
  cases r with
  | error y =>
    rcases h with h | ⟨t, s', h⟩
    · exact .inl h
    · exact .inr ⟨t, s', exec_seq_error h⟩
  | ok j =>
    obtain ⟨s', q, h1, h2, h3, h4⟩ := h
    exact ⟨s', q, exec_seq (s' := s'.set x q) h1, h2, h3, h4⟩

theorem Raises.seq {a b : Stmt} {x : Exc} (h : Raises (exec L call a s) x) : Raises (exec L call (.seq a b) s) x := by
  rw [exec]
  exact Raises.bind h

theorem exec_last (a : Stmt) : exec L call (block [a]) s = exec L call a s := by
  rw [block, block]
  rcases hr : exec L call a s with ⟨r, s'⟩
  cases r with
  | error x => exact exec_seq_error hr
  | ok f => cases f with
    | normal => rw [exec_seq hr, exec_pass]
    | brk => exact exec_seq_brk hr
    | cont => rw [exec, bind_ok hr]; rfl
    | ret p => exact exec_seq_ret hr

theorem exec_forIn {x : Str} {e : Expr} {body : Stmt} {a : Addr} {ps : List PV} (hv : eval L call e s = (.ok (.addr a), s))
    (ha : s.heap[a]? = some (.list ps)) : exec L call (.forIn x e body) s = loop (setVar x) (exec L call body) ps s := by
  rw [exec, bind_ok hv, bind_ok (elements_list ha)]

theorem exec_forItems {k x : Str} {e : Expr} {body : Stmt} {a : Addr} {o : Bool} {ps : List (Str × PV)}
    (hv : eval L call e s = (.ok (.addr a), s)) (ha : s.heap[a]? = some (.dict o ps)) :
    exec L call (.forItems k x e body) s =
      loop (fun p : Str × PV => do setVar k (.str p.1); setVar x p.2) (exec L call body) ps s := by
  rw [exec, bind_ok hv, bind_ok (entries_dict _ ha)]

theorem array_writes (hS : SettingsOk S py) (hE : EmbedMakes call embed N) {x : Ty} {lo hi : Option Int}
    (hn : ∀ n, x = .embed n → N n) (ih : Writes L py call (serTy L S embed) x) :
    Writes L py call (serTy L S embed) (.array x lo hi) := by
  intro tgt value n code m h
  rw [serializeValue] at h
  split at h
  · rename_i hd
    cases h
    refine ⟨Nat.le_succ n, fun s val p hv hs => ?_⟩
    rcases shows_list hs with ⟨vs, a, ps, rfl, rfl, ha, hf⟩ | hno
    · rw [serTy_list, directCopy_ser hS hd]
      exact put_expr (copy_made hv.now ha hf)
    · rw [serTy_not_list hno]
      exact .inl rfl
  · obtain ⟨e, h1, h⟩ := ok_bind h
    cases e with
    | some e =>
      cases h
      refine ⟨Nat.le_succ n, fun s val p hv hs => ?_⟩
      rcases shows_list hs with ⟨vs, a, ps, rfl, rfl, ha, hf⟩ | hno
      · rw [serTy_list]
        have hm := comp_made (L := L) (call := call) (e := e) (x := tmp c!"item" n) (ser := serTy L S embed x) hv.now ha hf
          fun s val p h2 h3 => expr_made hS hE h1 hn (eval_name h3) h2
        have hp := putTo_var (rest := .assign tgt (t c!"target" n))
          (put_expr (K := Keep n) (tgt := .var (tmp c!"target" n)) hm)
        generalize (do let xs ← serItems (serTy L S embed x) vs; return .arr xs : Except Exc Json) = r at hp ⊢
        cases r with
        | error y => exact hp
        | ok j =>
          obtain ⟨s', q, e1, e2, e3, e4⟩ := hp
          refine ⟨s'.set (tmp c!"target" n) q, q, by rw [e1, exec_assign (eval_name (set_self ..))], fun y hy => ?_, e3, e4⟩
          rw [set_ne _ _ (hy.ne_tmp _ (Nat.le_refl n))]
          exact e2 y hy
      · rw [serTy_not_list hno]
        exact .inl rfl
    | none =>
      obtain ⟨⟨item, k⟩, h2, h⟩ := ok_bind h
      cases h
      obtain ⟨hk, hw⟩ := ih _ _ _ _ _ h2
      refine ⟨Nat.le_of_succ_le hk, fun s val p hv hs => ?_⟩
      rcases shows_list hs with ⟨vs, a, ps, rfl, rfl, ha, hf⟩ | hno
      · rw [serTy_list]
        have h0 : exec L call (.assign (.var (tmp c!"target" n)) .newList) s =
            (.ok .normal, (s.push (.list [])).set (tmp c!"target" n) (.addr s.heap.length)) :=
          exec_assign_var (by rw [eval]; rfl)
        have hI : ListInv n s s.heap.length [] ((s.push (.list [])).set (tmp c!"target" n) (.addr s.heap.length)) :=
          ⟨fun y hy => set_ne _ _ (hy.ne_tmp _ (Nat.le_refl n)), grown_push .., Nat.le_refl _, set_self .., [],
            push_self .., .nil⟩
        have hv' : eval L call value ((s.push (.list [])).set (tmp c!"target" n) (.addr s.heap.length)) =
            (.ok (.addr a), (s.push (.list [])).set (tmp c!"target" n) (.addr s.heap.length)) :=
          hv _ hI.vars hI.grown
        have hl := list_loop (L := L) (call := call) (item := item) (ser := serTy L S embed x)
          (fun s val p h3 h4 => hw s val p (reads_name (keep_tmp _ (Nat.lt_succ_self n)) h4) h3) hf [] _ hI
        rw [← exec_forIn hv' (hI.grown.get ha)] at hl
        rw [block, exec_seq h0, block]
        generalize serItems (serTy L S embed x) vs = r at hl ⊢
        cases r with
        | error y => exact Raises.seq hl
        | ok js =>
          obtain ⟨s1, e1, hI1⟩ := hl
          obtain ⟨qs, ho, hq⟩ := hI1.obj
          refine ⟨s1, .addr s.heap.length, ?_, hI1.vars, hI1.grown, ?_⟩
          · rw [exec_seq e1, exec_last, exec_assign (eval_name hI1.var)]
          · exact .ofList hI1.low ho (forall₂_jsonable (Nat.le_succ _) (fun _ _ _ => rfl) hq)
      · rw [serTy_not_list hno]
        exact .inl rfl

theorem map_item (hS : SettingsOk S py) (hE : EmbedMakes call embed N) {x : Ty} (hn : ∀ n, x = .embed n → N n)
    (ih : Writes L py call (serTy L S embed) x) {item : Stmt} {m : Nat}
    (h : (do
      match ← serializationExpr py (t c!"value" n) x with
      | some item => pure (.assign (.item (t c!"target" n) (t c!"key" n)) item, n + 1)
      | none =>
        let (item, m) ← serializeValue py x (.var (tmp c!"target_value" n)) (t c!"value" n) (n + 1)
        pure (.seq item (.assign (.item (t c!"target" n) (t c!"key" n)) (t c!"target_value" n)), m) : Except Exc (Stmt × Nat)) =
      .ok (item, m)) : n ≤ m ∧ ∀ s val p, Shows s.heap val p → s.vars (tmp c!"value" n) = some p →
      PutTo L call (EntryKeep n) (.item (t c!"target" n) (t c!"key" n)) s (exec L call item s) (serTy L S embed x val) := by
  obtain ⟨e, h1, h⟩ := ok_bind h
  cases e with
  | some e =>
    cases h
    exact ⟨Nat.le_succ n, fun s val p hs hv => put_expr (expr_made hS hE h1 hn (eval_name hv) hs)⟩
  | none =>
    obtain ⟨⟨item, k⟩, h2, h⟩ := ok_bind h
    cases h
    obtain ⟨hk, hw⟩ := ih _ _ _ _ _ h2
    refine ⟨Nat.le_of_succ_le hk, fun s val p hs hv => ?_⟩
    have hp := putTo_var (rest := .assign (.item (t c!"target" n) (t c!"key" n)) (t c!"target_value" n))
      (hw s val p (reads_name (keep_tmp _ (Nat.lt_succ_self n)) hv) hs)
    generalize serTy L S embed x val = r at hp ⊢
    cases r with
    | error y => exact hp
    | ok j =>
      obtain ⟨s', q, e1, e2, e3, e4⟩ := hp
      refine ⟨s'.set (tmp c!"target_value" n) q, q, by rw [e1, exec_assign (eval_name (set_self ..))], fun y hy => ?_, e3, e4⟩
      rw [set_ne _ _ hy.2]
      exact e2 y hy.1

theorem map_writes (hS : SettingsOk S py) (hE : EmbedMakes call embed N) {x : Ty} (hn : ∀ n, x = .embed n → N n)
    (ih : Writes L py call (serTy L S embed) x) : Writes L py call (serTy L S embed) (.map x) := by
  intro tgt value n code m h
  rw [serializeValue] at h
  obtain ⟨⟨item, k⟩, h1, h⟩ := ok_bind h
  cases h
  obtain ⟨hk, hw⟩ := map_item hS hE hn ih h1
  refine ⟨hk, fun s val p hv hs => ?_⟩
  rcases shows_map hs with ⟨o, vs, a, ps, rfl, rfl, ha, hnd, hf⟩ | hno
  · rw [serTy_map]
    have h0 : exec L call (.ite (.isinstance value .orderedDict) (.assign (.var (tmp c!"target" n)) (.newDict true))
        (.assign (.var (tmp c!"target" n)) (.newDict false))) s =
        (.ok .normal, (s.push (.dict o [])).set (tmp c!"target" n) (.addr s.heap.length)) := by
      have hi : eval L call (.isinstance value .orderedDict) s = (.ok (.bool o), s) := by
        rw [eval, bind_ok hv.now]
        show (Except.ok (PV.bool (isInstance s.heap (.addr a) .orderedDict)), s) = _
        simp only [isInstance, ha]
      rw [exec_if hi]
      cases o
      · exact exec_assign_var (by rw [eval]; rfl)
      · exact exec_assign_var (by rw [eval]; rfl)
    have hI : DictInv n s s.heap.length o [] ((s.push (.dict o [])).set (tmp c!"target" n) (.addr s.heap.length)) :=
      ⟨fun y hy => set_ne _ _ (hy.ne_tmp _ (Nat.le_refl n)), grown_push .., Nat.le_refl _, set_self .., [],
        push_self .., .nil⟩
    have hv' : eval L call value ((s.push (.dict o [])).set (tmp c!"target" n) (.addr s.heap.length)) =
        (.ok (.addr a), (s.push (.dict o [])).set (tmp c!"target" n) (.addr s.heap.length)) :=
      hv _ hI.vars hI.grown
    have hl := dict_loop (L := L) (call := call) (item := item) (ser := serTy L S embed x) hw hf hnd [] _ hI (by simp)
    rw [← exec_forItems hv' (hI.grown.get ha)] at hl
    rw [block, exec_seq h0, block]
    generalize serEntries (serTy L S embed x) vs = r at hl ⊢
    cases r with
    | error y => exact Raises.seq hl
    | ok js =>
      obtain ⟨s1, e1, hI1⟩ := hl
      obtain ⟨qs, ho, hq⟩ := hI1.obj
      refine ⟨s1, .addr s.heap.length, ?_, hI1.vars, hI1.grown, ?_⟩
      · rw [exec_seq e1, exec_last, exec_assign (eval_name hI1.var)]
      · exact .ofDict hI1.low ho (forall₂_entries (Nat.le_succ _) (fun _ _ _ => rfl) hq)
  · rw [serTy_not_map hno]
    exact .inl rfl

/-- The code serializes the values of every type. -/
theorem writes_ty (hS : SettingsOk S py) (hE : EmbedMakes call embed N) : ∀ ty : Ty, (∀ n, .embed n ∈ parts ty → N n) →
    Writes L py call (serTy L S embed) ty
  | .array x lo hi, hn => array_writes hS hE (fun n e => hn n (by subst e; simp [parts]))
      (writes_ty hS hE x fun n h => hn n (by simp [parts, h]))
  | .map x, hn => map_writes hS hE (fun n e => hn n (by subst e; simp [parts]))
      (writes_ty hS hE x fun n h => hn n (by simp [parts, h]))
  | .boolean, _ => plain_writes hS hE (fun _ e => nomatch e) fun _ _ _ => rfl
  | .integer _, _ => plain_writes hS hE (fun _ e => nomatch e) fun _ _ _ => rfl
  | .float _, _ => plain_writes hS hE (fun _ e => nomatch e) fun _ _ _ => rfl
  | .string _, _ => plain_writes hS hE (fun _ e => nomatch e) fun _ _ _ => rfl
  | .path _, _ => plain_writes hS hE (fun _ e => nomatch e) fun _ _ _ => rfl
  | .date _, _ => plain_writes hS hE (fun _ e => nomatch e) fun _ _ _ => rfl
  | .time _, _ => plain_writes hS hE (fun _ e => nomatch e) fun _ _ _ => rfl
  | .datetime _, _ => plain_writes hS hE (fun _ e => nomatch e) fun _ _ _ => rfl
  | .timeZone, _ => plain_writes hS hE (fun _ e => nomatch e) fun _ _ _ => rfl
  | .duration, _ => plain_writes hS hE (fun _ e => nomatch e) fun _ _ _ => rfl
  | .cls _, _ => plain_writes hS hE (fun _ e => nomatch e) fun _ _ _ => rfl
  | .embed name, hn => plain_writes hS hE (fun n e => hn n (by rw [e]; simp [parts])) fun _ _ _ => rfl

end

end Mapry.PyExec
