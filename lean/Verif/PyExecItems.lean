import Verif.PyExecValue
import Verif.PyFrom
import Verif.DurationValue

/-!
# The generated Python code of a value agrees with `parseTy`: arrays, maps and references
-/

namespace Mapry.PyExec

open Mapry.PyLang Mapry.PyGen Mapry.PyRuntime Mapry.Text Mapry.Duration
open Mapry.TypeGraph hiding Obj
open Mapry.PyRuntime (Json Lib Val)

/-- The code generated for a value of the type agrees with the parser of the type. -/
def ValueOk (W : World) (E : Env) (ctx : Ctx) (call : Fn → Actual → M PV)
    (embed : Str → Json → Str → Errors → Except Exc (Val × Errors)) (ty : Ty) : Prop :=
  ∀ x tgt parts n code m, PyGen.parseValue ctx ty x tgt parts n = .ok (code, m) →
    ∀ s j ref es, Keyed j → At W E ctx.registry n x j tgt parts ref s es →
      Agrees W E.lib call n s tgt (exec E.lib call code s) (parseTy E embed ty j ref es)

section

variable {W : World} {E : Env} {call : Fn → Actual → M PV} {n : Nat} {s : St} {reg : Str → Except Exc Expr}
  {x : Str} {j : Json} {tgt : Target} {parts : List Expr} {ref : Str} {es : Errors}

/-- The state within the loop over the items: the container is the object `o` which holds the values `ps`. -/
structure Inv (W : World) (n : Nat) (s0 : St) (es : Errors) (o : Obj) (vs : List Val) (ps : List PV) (s : St) : Prop where
  step : Step W.errs n s0 s
  errs : s.heap[W.ae]? = some (.errors es)
  var : s.vars (tmp c!"target" n) = some (.addr s0.heap.length)
  cont : s.heap[s0.heap.length]? = some o
  reps : Forall₂ (Rep W.place s.heap (s0.heap.length + 1)) vs ps

theorem not_errs {a : Addr} {h : List Obj} {es : Errors} (he : h[W.ae]? = some (.errors es)) (ha : h.length ≤ a) :
    ¬ W.errs a := fun e => by
  have h1 : W.ae < h.length := lt_of_get he
  have h2 : a = W.ae := e
  rw [h2] at ha
  exact absurd h1 (Nat.not_lt.2 ha)

theorem tmp_ne {b b' : Str} (h : b ≠ b') (n : Nat) : tmp b n ≠ tmp b' n := fun e => h (tmp_inj e).1

/-- Binding a temporary variable other than the container does not matter. -/
theorem Inv.set {s0 : St} {o : Obj} {vs ps} (h : Inv W n s0 es o vs ps s) (b : Str) (p : PV) (hb : b ≠ c!"target") :
    Inv W n s0 es o vs ps (s.set (tmp b n) p) where
  step := h.step.trans (step_set s b p (Nat.le_refl n)) (Nat.le_refl _) fun _ _ h => h
  errs := h.errs
  var := (set_ne s p (tmp_ne (Ne.symm hb) n)).trans h.var
  cont := h.cont
  reps := h.reps

/-- Code of later identifiers which only reports errors does not matter. -/
theorem Inv.after {s0 s' : St} {o : Obj} {vs ps} {es' : Errors} (h : Inv W n s0 es o vs ps s)
    (h0 : s0.heap[W.ae]? = some (.errors es0)) (hs : Step W.errs (n + 1) s s') (he : s'.heap[W.ae]? = some (.errors es')) :
    Inv W n s0 es' o vs ps s' where
  step := h.step.trans hs (Nat.le_succ n) fun _ _ h => h
  errs := he
  var := (hs.vars _ (keep_tmp _ (Nat.lt_succ_self n))).trans h.var
  cont := by
    rw [hs.frame _ (lt_of_get h.cont) (not_errs h0 (Nat.le_refl _)), h.cont]
  reps := forall₂_imp (fun _ _ hr => hr.step hs fun _ h1 _ => not_errs h0 (Nat.le_of_succ_le h1)) h.reps

/-- What the code of an item leaves behind in the variable `target_item` -/
def ItemRan (W : World) (E : Env) (call : Fn → Actual → M PV) (n : Nat) (s0 : St) (o : Obj) (vs : List Val) (ps : List PV)
    (s : St) (item : Stmt) : Except Exc (Option Val × Errors) → Prop
  | .error y => ∃ t s', exec E.lib call item (s.set (tmp c!"target_item" n) .none) = (.error (.exc y t), s')
  | .ok (none, es') => ∃ s', exec E.lib call item (s.set (tmp c!"target_item" n) .none) = (.ok .normal, s') ∧
      Inv W n s0 es' o vs ps s' ∧ s'.vars (tmp c!"target_item" n) = some .none ∧
      ∀ y, Keep (n + 1) y → y ≠ tmp c!"target_item" n → s'.vars y = s.vars y
  | .ok (some w, es') => ∃ s' p, exec E.lib call item (s.set (tmp c!"target_item" n) .none) = (.ok .normal, s') ∧
      Inv W n s0 es' o vs ps s' ∧ s'.vars (tmp c!"target_item" n) = some p ∧ p.isNone = false ∧
      Rep W.place s'.heap (s0.heap.length + 1) w p ∧
      ∀ y, Keep (n + 1) y → y ≠ tmp c!"target_item" n → s'.vars y = s.vars y

theorem item_run {s0 : St} {o : Obj} {vs ps} {es0 : Errors} (hI : Inv W n s0 es o vs ps s)
    (h0 : s0.heap[W.ae]? = some (.errors es0)) {item : Stmt} {r : Except Exc (Option Val × Errors)}
    (hc : Agrees W E.lib call (n + 1) (s.set (tmp c!"target_item" n) .none) (.var (tmp c!"target_item" n))
      (exec E.lib call item (s.set (tmp c!"target_item" n) .none)) r) : ItemRan W E call n s0 o vs ps s item r := by
  have hI' := hI.set c!"target_item" .none (by decide)
  match r, hc with
  | .error y, hc => exact hc
  | .ok (none, es'), ⟨s', h1, h2, h3⟩ =>
    refine ⟨s', h1, hI'.after h0 h2 h3, ?_, fun y hy hne => ?_⟩
    · rw [h2.vars _ (keep_tmp _ (Nat.lt_succ_self n)), set_self]
    · rw [h2.vars _ hy, set_ne _ _ hne]
  | .ok (some w, es'), ⟨s1, p, s2, h1, h2, h3, h4, h5, h6⟩ =>
    rw [assignTo, setVar_run] at h4
    cases h4
    refine ⟨_, p, h1, (hI'.after h0 h2 h3).set _ _ (by decide), set_self _ _ _, h6, ?_, fun y hy hne => ?_⟩
    · exact h5.mono (lt_of_get hI.cont)
    · rw [set_ne _ _ hne, h2.vars _ hy, set_ne _ _ hne]

theorem Inv.errs' {s0 : St} {o : Obj} {vs ps} {es0 : Errors} (hI : Inv W n s0 es o vs ps s) (h0 : Errs W.ae s0 es0) :
    Errs W.ae s es := h0.step hI.step hI.errs

theorem At.later {s0 : St} {es0 : Errors} {m : Nat} (h : At W E reg n x j tgt parts ref s0 es0) (hs : Step W.errs n s0 s)
    (he : s.heap[W.ae]? = some (.errors es)) (hm : n ≤ m) : At W E reg m x j tgt parts ref s es :=
  let h' := h.step hs he
  ⟨h'.errs, h'.keep.mono hm, h'.val, h'.path.keep hm fun _ _ => rfl, h'.sto.step h'.errs.obj (.refl W.errs n s) hm,
    h'.regs.step h'.errs.obj (.refl W.errs n s) hm⟩

/-- The container gets a further value. -/
theorem Inv.put {s0 : St} {o o' : Obj} {vs ps} {es0 : Errors} {w : Val} {p : PV} (hI : Inv W n s0 es o vs ps s)
    (h0 : s0.heap[W.ae]? = some (.errors es0)) (hw : Rep W.place s.heap (s0.heap.length + 1) w p) :
    Inv W n s0 es o' (vs ++ [w]) (ps ++ [p]) (s.write s0.heap.length o') := by
  have hs : Step (fun a => a = s0.heap.length) n s (s.write s0.heap.length o') := step_write _ _ _ rfl
  refine ⟨hI.step.trans hs (Nat.le_refl _) fun a ha e => absurd ha (e ▸ Nat.lt_irrefl _), ?_, hI.var, write_self _ hI.cont, ?_⟩
  · rw [write_ne _ (Nat.ne_of_lt (lt_of_get h0)), hI.errs]
  · exact forall₂_imp (fun _ _ hr => hr.step hs (fun a h1 _ e => by cases e; exact absurd h1 (Nat.not_succ_le_self _))) (forall₂_snoc hI.reps hw)

/-- The variables of the loop over the items. -/
def bindItem (n : Nat) : Nat × PV → M Unit := fun p => do
  setVar (tmp c!"i" n) (.int p.1); setVar (tmp c!"item" n) p.2

theorem bindItem_run (i : Nat) (p : PV) : bindItem n (i, p) s =
    (.ok (), (s.set (tmp c!"i" n) (.int i)).set (tmp c!"item" n) p) := rfl

/-- What one iteration leaves behind -/
def Iterated (W : World) (n : Nat) (s0 : St) (acc : List Val) (R : Except Raised Flow × St) :
    Except Exc (Option Val × Errors) → Prop
  | .error z => ∃ t s', R = (.error (.exc z t), s')
  | .ok (w, es') => ∃ s' ps', R = (.ok (if es'.full then .brk else .normal), s') ∧
      Inv W n s0 es' (.list ps') (acc ++ w.toList) ps' s'

/-- One item -/
theorem item_loop {s0 : St} {es0 : Errors} (h0 : At W E reg n x j tgt parts ref s0 es0) {item : Stmt} {f : ParseFn} {y : Json}
    (hf : ∀ s i es, At W E reg (n + 1) (tmp c!"item" n) y (.var (tmp c!"target_item" n)) (parts ++ [.strOf (t c!"i" n)])
      (sub ref (natStr i)) s es → Agrees W E.lib call (n + 1) s (.var (tmp c!"target_item" n)) (exec E.lib call item s)
        (f y (sub ref (natStr i)) es))
    {ps : List PV} {acc : List Val} (hI : Inv W n s0 es (.list ps) acc ps s) (i : Nat) :
    Iterated W n s0 acc ((bindItem n (i, ofJson y) >>= fun _ => exec E.lib call (itemLoop n item)) s)
      (f y (sub ref (natStr i)) es) := by
  rw [bind_ok (bindItem_run i (ofJson y))]
  have hI1 := (hI.set c!"i" (.int i) (by decide)).set c!"item" (ofJson y) (by decide)
  generalize hs1 : (s.set (tmp c!"i" n) (.int i)).set (tmp c!"item" n) (ofJson y) = s1 at hI1 ⊢
  have hi : s1.vars (tmp c!"i" n) = some (.int i) := by
    rw [← hs1, set_ne _ _ (tmp_ne (by decide) n), set_self]
  have hv : s1.vars (tmp c!"item" n) = some (ofJson y) := by rw [← hs1, set_self]
  rw [itemLoop, block, exec_seq (exec_assign_var (by rw [eval]; rfl))]
  have hI2 := hI1.set c!"target_item" .none (by decide)
  have hA2 := h0.later hI2.step hI2.errs (Nat.le_succ n)
  have hA3 : At W E reg (n + 1) (tmp c!"item" n) y (.var (tmp c!"target_item" n)) (parts ++ [.strOf (t c!"i" n)])
      (sub ref (natStr i)) (s1.set (tmp c!"target_item" n) .none) es := by
    refine ⟨hA2.errs, keep_tmp _ (Nat.lt_succ_self n), ?_, hA2.path.snoc ?_, .var (keep_tmp _ (Nat.lt_succ_self n)), hA2.regs⟩
    · rw [set_ne _ _ (tmp_ne (by decide) n), hv]
    · rw [← intStr_natCast]
      refine .num (keep_tmp _ (Nat.lt_succ_self n)) ?_
      rw [set_ne _ _ (tmp_ne (by decide) n), hi]
  have hr := item_run hI1 h0.errs.obj (hf _ i es hA3)
  generalize f y (sub ref (natStr i)) es = r at hr ⊢
  match r, hr with
  | .error z, ⟨t, s', e⟩ => exact ⟨t, s', by rw [block, exec_seq_error e]⟩
  | .ok (none, es'), ⟨s', e, hI', ht, _⟩ =>
    refine ⟨s', ps, ?_, by simpa using hI'⟩
    rw [block, exec_seq e, block, exec_seq (s' := s'), block, block, exec_full_last (hI'.errs' h0.errs)]
    rw [PyGen.when, exec_if_false (s' := s') (by rw [eval_isNotNone (eval_name ht)]; rfl), exec_pass]
  | .ok (some w, es'), ⟨s', p, e, hI', ht, hp, hw, _⟩ =>
    have hI'' := hI'.put (o' := .list (ps ++ [p])) h0.errs.obj hw
    refine ⟨_, ps ++ [p], ?_, by simpa using hI''⟩
    rw [block, exec_seq e, block, exec_seq (s' := s'.write s0.heap.length (.list (ps ++ [p]))), block, block,
      exec_full_last (hI''.errs' h0.errs)]
    rw [PyGen.when, exec_if_true (s' := s') (by rw [eval_isNotNone (eval_name ht), hp]; rfl)]
    apply exec_expr (p := .none)
    rw [eval, bind_ok (eval_name hI'.var), bind_ok (eval_name ht)]
    simp only
    rw [bind_ok (load_run hI'.cont)]
    rfl

/-! ## Loops -/

section

variable {α : Type} {b : α → M Unit} {body : M Flow} {s' : St} {a : α}

theorem loop_normal (xs : List α) (h : (b a >>= fun _ => body) s = (.ok .normal, s')) :
    loop b body (a :: xs) s = loop b body xs s' := by
  rw [loop]
  cases hb : b a s with
  | mk r s1 =>
    cases r with
    | error x => rw [bind_error hb] at h; cases h
    | ok u => rw [bind_ok hb] at h; rw [bind_ok hb, bind_ok h]

theorem loop_cont (xs : List α) (h : (b a >>= fun _ => body) s = (.ok .cont, s')) :
    loop b body (a :: xs) s = loop b body xs s' := by
  rw [loop]
  cases hb : b a s with
  | mk r s1 =>
    cases r with
    | error x => rw [bind_error hb] at h; cases h
    | ok u => rw [bind_ok hb] at h; rw [bind_ok hb, bind_ok h]

theorem loop_brk (xs : List α) (h : (b a >>= fun _ => body) s = (.ok .brk, s')) :
    loop b body (a :: xs) s = (.ok .normal, s') := by
  rw [loop]
  cases hb : b a s with
  | mk r s1 =>
    cases r with
    | error x => rw [bind_error hb] at h; cases h
    | ok u => rw [bind_ok hb] at h; rw [bind_ok hb, bind_ok h]; rfl

theorem loop_ret (xs : List α) {p : PV} (h : (b a >>= fun _ => body) s = (.ok (.ret p), s')) :
    loop b body (a :: xs) s = (.ok (.ret p), s') := by
  rw [loop]
  cases hb : b a s with
  | mk r s1 =>
    cases r with
    | error x => rw [bind_error hb] at h; cases h
    | ok u => rw [bind_ok hb] at h; rw [bind_ok hb, bind_ok h]; rfl

theorem loop_error (xs : List α) {x : Raised} (h : (b a >>= fun _ => body) s = (.error x, s')) :
    loop b body (a :: xs) s = (.error x, s') := by
  rw [loop]
  cases hb : b a s with
  | mk r s1 =>
    cases r with
    | error y => rw [bind_error hb] at h ⊢; exact h
    | ok u => rw [bind_ok hb] at h; rw [bind_ok hb, bind_error h]

end

/-- What the loop leaves behind -/
def Looped (W : World) (n : Nat) (s0 : St) (R : Except Raised Flow × St) : Except Exc (List Val × Errors) → Prop
  | .error z => ∃ t s', R = (.error (.exc z t), s')
  | .ok (acc, es') => ∃ s' ps', R = (.ok .normal, s') ∧ Inv W n s0 es' (.list ps') acc ps' s'

theorem items_loop {s0 : St} {es0 : Errors} (h0 : At W E reg n x j tgt parts ref s0 es0) {item : Stmt} {f : ParseFn}
    (xs : List Json)
    (hf : ∀ y ∈ xs, ∀ s i es, At W E reg (n + 1) (tmp c!"item" n) y (.var (tmp c!"target_item" n))
      (parts ++ [.strOf (t c!"i" n)]) (sub ref (natStr i)) s es → Agrees W E.lib call (n + 1) s
        (.var (tmp c!"target_item" n)) (exec E.lib call item s) (f y (sub ref (natStr i)) es)) :
    ∀ (s : St) (es : Errors) (ps : List PV) (acc : List Val) (i : Nat), Inv W n s0 es (.list ps) acc ps s →
    Looped W n s0 (loop (bindItem n) (exec E.lib call (itemLoop n item)) (indexed i (xs.map ofJson)) s)
      (parseItems f ref i acc xs es) := by
  induction xs with
  | nil => intro s es ps acc i hI; exact ⟨s, ps, rfl, hI⟩
  | cons y ys ih =>
    intro s es ps acc i hI
    have h1 := item_loop h0 (hf y (by simp)) hI i
    rw [List.map_cons, indexed, parseItems]
    cases hr : f y (sub ref (natStr i)) es with
    | error z =>
      rw [hr] at h1
      obtain ⟨t, s', h1⟩ := h1
      exact ⟨t, s', loop_error _ h1⟩
    | ok r =>
      obtain ⟨w, es'⟩ := r
      rw [hr] at h1
      obtain ⟨s', ps', h1, hI'⟩ := h1
      have key : ∀ acc', acc' = acc ++ w.toList → Looped W n s0 (loop (bindItem n) (exec E.lib call (itemLoop n item))
          ((i, ofJson y) :: indexed (i + 1) (ys.map ofJson)) s)
          (if es'.full then .ok (acc', es') else parseItems f ref (i + 1) acc' ys es') := by
        intro acc' hacc
        subst hacc
        cases hfull : es'.full with
        | true =>
          rw [hfull, if_pos rfl] at h1
          exact ⟨s', ps', loop_brk _ h1, hI'⟩
        | false =>
          rw [hfull, if_neg (by decide)] at h1
          rw [if_neg (by decide), loop_normal _ h1]
          exact ih (fun y hy => hf y (by simp [hy])) s' es' ps' _ (i + 1) hI'
      cases w
      · exact key acc (by simp)
      · exact key (acc ++ [_]) rfl

theorem forall₂_get {α β : Type} {R : α → β → Prop} {xs : List α} {ys : List β} (h : Forall₂ R xs ys) :
    xs.length = ys.length ∧ ∀ (i : Nat) a b, xs[i]? = some a → ys[i]? = some b → R a b := by
  induction h with
  | nil => exact ⟨rfl, fun i a b h => by simp at h⟩
  | cons hh _ ih =>
    refine ⟨by simp [ih.1], fun i a b h1 h2 => ?_⟩
    cases i with
    | zero => simp at h1 h2; subst h1; subst h2; exact hh
    | succ i => exact ih.2 i a b (by simpa using h1) (by simpa using h2)

/-- `x_0 = []`, `x_0 = dict()` -/
theorem Inv.start {s0 : St} {es0 : Errors} (h0 : s0.heap[W.ae]? = some (.errors es0)) (o : Obj) :
    Inv W n s0 es0 o [] [] ((s0.push o).set (tmp c!"target" n) (.addr s0.heap.length)) where
  step := (step_push s0 o).trans (step_set (w := W.errs) _ _ _ (Nat.le_refl n)) (Nat.le_refl _) fun _ _ h => h
  errs := by rw [set_heap, push_lt _ (lt_of_get h0), h0]
  var := set_self _ _ _
  cont := push_self _ _
  reps := .nil

theorem eval_len {xs : List Json} (h : s.vars x = some (.arr xs)) :
    eval E.lib call (.len (v x)) s = (.ok (.int xs.length), s) := by
  rw [eval, bind_ok (eval_name h)]
  rfl

theorem exec_size (h : At W E reg n x j tgt parts ref s es) {xs : List Json} (hj : j = .arr xs) (op : Cmp) (kind : Str)
    (hk : Braceless kind) (m : Int) (body : Stmt) :
    exec E.lib call (.ite (.cmp op (.len (v x)) m)
      (report (path parts) (PyGen.format (c!"Expected a list of " ++ kind ++ c!" size " ++ intStr m ++ c!", but got size: {}")
        (.len (v x)))) body) s = if compare op (.int xs.length) m then
      (.ok .normal, s.write W.ae (.errors (es.add ⟨ref, c!"Expected a list of " ++ kind ++ c!" size " ++ intStr m ++
        c!", but got size: " ++ intStr xs.length⟩))) else exec E.lib call body s := by
  have hv : s.vars x = some (.arr xs) := by rw [h.val, hj]; rfl
  have hc : eval E.lib call (.cmp op (.len (v x)) m) s = (.ok (.bool (compare op (.int xs.length) m)), s) := by
    rw [eval, bind_ok (eval_len hv)]
    rfl
  rw [exec_if hc]
  cases compare op (.int xs.length) m with
  | false => rfl
  | true =>
    simp only [truth, if_true]
    rw [exec_report h.errs (eval_path h.path)]
    rw [eval_format (eval_len hv)]
    have : formatText E.lib (c!"Expected a list of " ++ kind ++ c!" size " ++ intStr m ++ c!", but got size: {}")
        [PV.int xs.length] = .ok (c!"Expected a list of " ++ kind ++ c!" size " ++ intStr m ++
          c!", but got size: " ++ intStr xs.length) := by
      have e : c!", but got size: {}" = c!", but got size: " ++ c!"{}" := rfl
      rw [e]
      simp only [List.append_assoc]
      rw [formatText_braceless (by decide), formatText_braceless hk, formatText_braceless (by decide),
        formatText_braceless (intStr_braceless m), formatText_one (by decide)]
      simp [Except.map, text]
    rw [this]

theorem list_cases (hp : List Obj) (j : Json) : (isInstance hp (ofJson j) .list = true ∧ ∃ xs, j = .arr xs) ∨
    (isInstance hp (ofJson j) .list = false ∧ ∀ xs, j ≠ .arr xs) := by
  cases j with
  | arr xs => exact .inl ⟨rfl, xs, rfl⟩
  | _ => exact .inr ⟨rfl, fun _ e => by cases e⟩

theorem dict_cases (hp : List Obj) (j : Json) : (isInstance hp (ofJson j) .dict = true ∧ ∃ o kvs, j = .obj o kvs) ∨
    (isInstance hp (ofJson j) .dict = false ∧ ∀ o kvs, j ≠ .obj o kvs) := by
  cases j with
  | obj o kvs => exact .inl ⟨rfl, o, kvs, rfl⟩
  | _ => exact .inr ⟨rfl, fun _ _ e => by cases e⟩

theorem agrees_array (h : At W E reg n x j tgt parts ref s es) (lo hi : Option Int) {item : Stmt} {f : ParseFn}
    (hf : ∀ xs, j = .arr xs → ∀ y ∈ xs, ∀ s i es, At W E reg (n + 1) (tmp c!"item" n) y (.var (tmp c!"target_item" n))
      (parts ++ [.strOf (t c!"i" n)]) (sub ref (natStr i)) s es → Agrees W E.lib call (n + 1) s
        (.var (tmp c!"target_item" n)) (exec E.lib call item s) (f y (sub ref (natStr i)) es)) :
    Agrees W E.lib call n s tgt (exec E.lib call (expect x .list c!"a list" parts (minSize parts x lo
      (maxSize parts x hi (block [
        .assign (.var (tmp c!"target" n)) .newList,
        .forEnum (tmp c!"i" n) (tmp c!"item" n) (v x) (itemLoop n item),
        .assign tgt (t c!"target" n)])))) s) (parseArray f lo hi j ref es) := by
  rcases list_cases s.heap j with ⟨hi', xs, rfl⟩ | ⟨hi', hne⟩
  · refine agrees_expect h (by decide) (fun _ => ?_) (fun h' => by rw [h'] at hi'; cases hi')
    have hmain : Agrees W E.lib call n s tgt (exec E.lib call (block [
        .assign (.var (tmp c!"target" n)) .newList,
        .forEnum (tmp c!"i" n) (tmp c!"item" n) (v x) (itemLoop n item),
        .assign tgt (t c!"target" n)]) s) (do
          let (vs, es) ← parseItems f ref 0 [] xs es
          return (some (.list vs), es)) := by
      have e1 : eval E.lib call .newList s = (.ok (.addr s.heap.length), s.push (.list [])) := by rw [eval, alloc_run]
      rw [block, exec_seq (exec_assign_var e1)]
      have hI := Inv.start (n := n) h.errs.obj (.list [])
      generalize (s.push (.list [])).set (tmp c!"target" n) (.addr s.heap.length) = s1 at hI ⊢
      have hA := h.step hI.step hI.errs
      have el : exec E.lib call (.forEnum (tmp c!"i" n) (tmp c!"item" n) (v x) (itemLoop n item)) s1 =
          loop (bindItem n) (exec E.lib call (itemLoop n item)) (indexed 0 (xs.map ofJson)) s1 := by
        rw [exec, bind_ok (eval_name hA.val)]
        rfl
      have hl := items_loop h xs (hf xs rfl) s1 es [] [] 0 hI
      rw [← el] at hl
      cases hr : parseItems f ref 0 [] xs es with
      | error z =>
        rw [hr] at hl
        obtain ⟨t, s', hl⟩ := hl
        exact ⟨t, s', by rw [block, exec_seq_error hl]⟩
      | ok r =>
        obtain ⟨vs, es'⟩ := r
        rw [hr] at hl
        obtain ⟨s', ps', hl, hI'⟩ := hl
        rw [block, exec_seq hl, block, block]
        have hst : Storable n s' tgt := h.sto.step h.errs.obj hI'.step (Nat.le_refl _)
        obtain ⟨s2, h2⟩ := hst.assign (L := E.lib) (call := call) (.addr s.heap.length)
        have hget := forall₂_get hI'.reps
        refine ⟨s', _, s2, ?_, hI'.step, hI'.errs, h2,
          .list (Nat.le_refl _) hI'.cont hget.1 fun i a b h1 h2 => (hget.2 i a b h1 h2).mono (Nat.le_succ _), rfl⟩
        rw [exec_seq (s' := s2) (by rw [exec_assign (eval_name hI'.var), bind_ok h2]; rfl), exec_pass]
    have hmax : Agrees W E.lib call n s tgt (exec E.lib call (maxSize parts x hi (block [
        .assign (.var (tmp c!"target" n)) .newList,
        .forEnum (tmp c!"i" n) (tmp c!"item" n) (v x) (itemLoop n item),
        .assign tgt (t c!"target" n)])) s)
        (if hi.any (fun m => m < (xs.length : Int)) then
          .ok (none, es.add ⟨ref, c!"Expected a list of maximum size " ++ intStr (hi.getD 0) ++
            c!", but got size: " ++ intStr xs.length⟩)
        else do
          let (vs, es) ← parseItems f ref 0 [] xs es
          return (some (.list vs), es)) := by
      cases hi with
      | none => exact hmain
      | some m =>
        have := exec_size (call := call) h rfl .gt c!"maximum" (by decide) m (block [
          .assign (.var (tmp c!"target" n)) .newList,
          .forEnum (tmp c!"i" n) (tmp c!"item" n) (v x) (itemLoop n item),
          .assign tgt (t c!"target" n)])
        rw [maxSize]
        refine Eq.mpr (congrArg (fun R => Agrees W E.lib call n s tgt R _) this) ?_
        simp only [Option.any_some, Option.getD_some]
        cases hb : decide (m < (xs.length : Int)) with
        | false =>
          rw [if_neg (by simp [PyLang.compare, PyRuntime.Num.gt, hb]), if_neg (by simp)]
          exact hmain
        | true =>
          rw [if_pos (by simp only [PyLang.compare, PyRuntime.Num.gt, hb]), if_pos rfl]
          exact agrees_written h _
    unfold parseArray
    simp only
    cases lo with
    | none => exact hmax
    | some m =>
      have := exec_size (call := call) h rfl .lt c!"minimum" (by decide) m (maxSize parts x hi (block [
          .assign (.var (tmp c!"target" n)) .newList,
          .forEnum (tmp c!"i" n) (tmp c!"item" n) (v x) (itemLoop n item),
          .assign tgt (t c!"target" n)]))
      rw [minSize]
      refine Eq.mpr (congrArg (fun R => Agrees W E.lib call n s tgt R _) this) ?_
      simp only [Option.any_some, Option.getD_some]
      cases hb : decide ((xs.length : Int) < m) with
      | false =>
        rw [if_neg (by simp [PyLang.compare, PyRuntime.Num.lt, hb]), if_neg (by simp)]
        exact hmax
      | true =>
        rw [if_pos (by simp only [PyLang.compare, PyRuntime.Num.lt, hb]), if_pos rfl]
        exact agrees_written h _
  · refine agrees_expect h (by decide) (fun h' => by rw [h'] at hi'; cases hi') (fun _ => ?_)
    cases j with
    | arr t => exact absurd rfl (hne t)
    | _ => rfl

end

end Mapry.PyExec
