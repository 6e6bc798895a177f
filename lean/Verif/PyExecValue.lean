import Verif.PyHeap

/-!
# The generated Python code of a value agrees with `parseTy`: values without items
-/

namespace Mapry.PyExec

open Mapry.PyLang Mapry.PyGen Mapry.PyRuntime Mapry.Text Mapry.Duration
open Mapry.TypeGraph hiding Obj
open Mapry.PyRuntime (Json Lib Val)

/-- Where the objects are: the container of errors, the registries and the instances in them -/
structure World where
  ae : Addr
  regs : Str → Addr
  place : Str → Str → Addr

/-- Only the container of errors -/
def World.errs (W : World) : Addr → Prop := fun a => a = W.ae

/-- The registry of the class holds exactly the instances with the identifiers. -/
def RegOk (W : World) (E : Env) (h : List Obj) (c : Str) : Prop :=
  ∃ o kvs, h[W.regs c]? = some (.dict o kvs) ∧
    ∀ id, kvs.lookup id = if id ∈ E.ids c then some (.addr (W.place c id)) else none

/-- The expression of a registry and its address -/
inductive RegExpr (n : Nat) (s : St) : Expr → Addr → Prop
  | var {x a} : Keep n x → s.vars x = some (.addr a) → RegExpr n s (.name x) a
  | attr {x o c attrs p a} : Keep n x → s.vars x = some (.addr o) → s.heap[o]? = some (.inst c attrs) →
      attrs.lookup p = some (.addr a) → RegExpr n s (.attr (.name x) p) a

/-- The registries can be read. -/
def RegsAt (W : World) (E : Env) (reg : Str → Except Exc Expr) (n : Nat) (s : St) : Prop :=
  ∀ c e, reg c = .ok e → RegExpr n s e (W.regs c) ∧ RegOk W E s.heap c

/-- The target can be assigned to. -/
inductive Storable (n : Nat) (s : St) : Target → Prop
  | var {x} : Keep n x → Storable n s (.var x)
  | attr {x o c attrs a} : Keep n x → s.vars x = some (.addr o) → s.heap[o]? = some (.inst c attrs) →
      Storable n s (.attr (.name x) a)

section

variable {W : World} {E : Env} {L : Lib} {call : Fn → Actual → M PV} {n : Nat} {s s' : St} {reg : Str → Except Exc Expr}

theorem textOf_run (t : Str) : textOf (.str t) s = (.ok t, s) := rfl

theorem keyOf_run (k : Str) : keyOf (.str k) s = (.ok k, s) := rfl

theorem setVar_run (s : St) (x : Str) (p : PV) : setVar x p s = (.ok (), s.set x p) := rfl

theorem save_run (s : St) (a : Addr) (o : Obj) : save a o s = (.ok (), s.write a o) := rfl

theorem alloc_run (s : St) (o : Obj) : alloc o s = (.ok (.addr s.heap.length), s.push o) := rfl

theorem setAttr_run {a : Addr} {c : Str} {attrs} (h : s.heap[a]? = some (.inst c attrs)) (k : Str) (p : PV) :
    PyLang.setAttr (.addr a) k p s = (.ok (), s.write a (.inst c (put k p attrs))) := by
  rw [PyLang.setAttr, bind_ok (load_run h)]
  rfl

theorem assign_attr {x : Str} {o : Addr} {c : Str} {attrs} (h1 : s.vars x = some (.addr o))
    (h2 : s.heap[o]? = some (.inst c attrs)) (a : Str) (p : PV) :
    assignTo L call (.attr (.name x) a) p s = (.ok (), s.write o (.inst c (put a p attrs))) := by
  rw [assignTo, bind_ok (eval_name h1), setAttr_run h2]

/-- `if errors.full(): break` at the end of a loop -/
theorem exec_full_last {ae : Addr} {es : Errors} (h : Errs ae s es) :
    exec L call (.seq (ifFull .brk) .pass) s = (.ok (if es.full then .brk else .normal), s) := by
  cases hf : es.full with
  | false =>
    rw [exec_seq (s' := s) (by rw [exec_full h, hf]; rfl), exec_pass]
    rfl
  | true =>
    rw [exec_seq_brk (s' := s) (by rw [exec_full h, hf, if_pos rfl, exec]; rfl)]
    rfl

theorem get_step {es : Errors} {a : Addr} {o : Obj} (he : s.heap[W.ae]? = some (.errors es)) (hs : Step W.errs n s s')
    (h : s.heap[a]? = some o) (ho : ∀ es, o ≠ .errors es) : s'.heap[a]? = some o := by
  rw [hs.frame a (lt_of_get h) (fun e => ?_), h]
  rw [World.errs] at e
  subst e
  rw [he] at h
  cases h
  exact ho es rfl

theorem eval_reg {e : Expr} {a : Addr} (h : RegExpr n s e a) : eval L call e s = (.ok (.addr a), s) := by
  cases h with
  | var _ h => exact eval_name h
  | attr _ h1 h2 h3 =>
    rw [eval, bind_ok (eval_name h1), getAttr, bind_ok (load_run h2)]
    simp only [h3]
    rfl

theorem RegOk.step {es : Errors} {c : Str} (h : RegOk W E s.heap c) (he : s.heap[W.ae]? = some (.errors es))
    (hs : Step W.errs n s s') : RegOk W E s'.heap c := by
  obtain ⟨o, kvs, h1, h2⟩ := h
  exact ⟨o, kvs, get_step he hs h1 (by intro _ e; cases e), h2⟩

theorem RegExpr.step {es : Errors} {e : Expr} {a : Addr} {m : Nat} (h : RegExpr n s e a)
    (he : s.heap[W.ae]? = some (.errors es)) (hs : Step W.errs n s s') (hm : n ≤ m) : RegExpr m s' e a := by
  cases h with
  | var hk h => exact .var (hk.mono hm) ((hs.vars _ hk).trans h)
  | attr hk h1 h2 h3 =>
    exact .attr (hk.mono hm) ((hs.vars _ hk).trans h1) (get_step he hs h2 (by intro _ e; cases e)) h3

theorem RegsAt.step {es : Errors} {m : Nat} (h : RegsAt W E reg n s) (he : s.heap[W.ae]? = some (.errors es))
    (hs : Step W.errs n s s') (hm : n ≤ m) : RegsAt W E reg m s' :=
  fun c e hc => ⟨(h c e hc).1.step he hs hm, (h c e hc).2.step he hs⟩

theorem Storable.step {es : Errors} {tgt : Target} {m : Nat} (h : Storable n s tgt)
    (he : s.heap[W.ae]? = some (.errors es)) (hs : Step W.errs n s s') (hm : n ≤ m) : Storable m s' tgt := by
  cases h with
  | var hk => exact .var (hk.mono hm)
  | attr hk h1 h2 =>
    exact .attr (hk.mono hm) ((hs.vars _ hk).trans h1) (get_step he hs h2 (by intro _ e; cases e))

theorem Storable.assign {tgt : Target} (h : Storable n s tgt) (p : PV) : ∃ s2, assignTo L call tgt p s = (.ok (), s2) := by
  cases h with
  | var _ => exact ⟨_, rfl⟩
  | attr _ h1 h2 =>
    exact ⟨_, assign_attr h1 h2 _ p⟩

/-- The situation in which the code of a value runs -/
structure At (W : World) (E : Env) (reg : Str → Except Exc Expr) (n : Nat) (x : Str) (v : Json) (tgt : Target)
    (parts : List Expr) (ref : Str) (s : St) (es : Errors) : Prop where
  errs : Errs W.ae s es
  keep : Keep n x
  val : s.vars x = some (ofJson v)
  path : PathIs n E.lib s.vars parts ref
  sto : Storable n s tgt
  regs : RegsAt W E reg n s

/-- What the code of a value does, compared with the result of the parser -/
def Agrees (W : World) (L : Lib) (call : Fn → Actual → M PV) (n : Nat) (s : St) (tgt : Target)
    (R : Except Raised Flow × St) : Except Exc (Option Val × Errors) → Prop
  | .error x => ∃ t s', R = (.error (.exc x t), s')
  | .ok (none, es) => ∃ s', R = (.ok .normal, s') ∧ Step W.errs n s s' ∧ s'.heap[W.ae]? = some (.errors es)
  | .ok (some w, es) => ∃ s1 p s2, R = (.ok .normal, s2) ∧ Step W.errs n s s1 ∧ s1.heap[W.ae]? = some (.errors es) ∧
      assignTo L call tgt p s1 = (.ok (), s2) ∧ Rep W.place s1.heap s.heap.length w p ∧ p.isNone = false

variable {x : Str} {j : Json} {tgt : Target} {parts : List Expr} {ref : Str} {es : Errors}

theorem At.step {es' : Errors} (h : At W E reg n x j tgt parts ref s es) (hs : Step W.errs n s s')
    (he : s'.heap[W.ae]? = some (.errors es')) : At W E reg n x j tgt parts ref s' es' where
  errs := h.errs.step hs he
  keep := h.keep
  val := (hs.vars _ h.keep).trans h.val
  path := h.path.keep (Nat.le_refl _) hs.vars
  sto := h.sto.step h.errs.obj hs (Nat.le_refl _)
  regs := h.regs.step h.errs.obj hs (Nat.le_refl _)

theorem Agrees.trans {R : Except Raised Flow × St} {r : Except Exc (Option Val × Errors)} (hs : Step W.errs n s s')
    (h : Agrees W L call n s' tgt R r) : Agrees W L call n s tgt R r := by
  match r, h with
  | .error _, h => exact h
  | .ok (none, _), ⟨s1, h1, h2, h3⟩ => exact ⟨s1, h1, hs.trans h2 (Nat.le_refl _) fun _ _ h => h, h3⟩
  | .ok (some _, _), ⟨s1, p, s2, h1, h2, h3, h4, h5, h6⟩ =>
    exact ⟨s1, p, s2, h1, hs.trans h2 (Nat.le_refl _) fun _ _ h => h, h3, h4, h5.mono hs.grow, h6⟩

/-- The value of the expression is assigned. -/
theorem agrees_store {w : Val} {p : PV} {e : Expr} (he : eval L call e s = (.ok p, s')) (hs : Step W.errs n s s')
    (ho : s'.heap[W.ae]? = some (.errors es)) (ht : Storable n s' tgt) (hr : Rep W.place s'.heap s.heap.length w p)
    (hp : p.isNone = false) : Agrees W L call n s tgt (exec L call (.assign tgt e) s) (.ok (some w, es)) := by
  obtain ⟨s2, h2⟩ := ht.assign (L := L) (call := call) p
  exact ⟨s', p, s2, by rw [exec_assign he, bind_ok h2]; rfl, hs, ho, h2, hr, hp⟩

theorem At.store (h : At W E reg n x j tgt parts ref s es) {w : Val} {p : PV} {e : Expr}
    (he : eval L call e s = (.ok p, s)) (hr : Rep W.place s.heap s.heap.length w p) (hp : p.isNone = false) :
    Agrees W L call n s tgt (exec L call (.assign tgt e) s) (.ok (some w, es)) :=
  agrees_store he (.refl _ _ _) h.errs.obj h.sto hr hp

/-- An error is reported. -/
theorem At.report (h : At W E reg n x j tgt parts ref s es) {message : Expr} {m : Str}
    (hm : eval E.lib call message s = (.ok (.str m), s)) :
    Agrees W E.lib call n s tgt (exec E.lib call (PyGen.report (PyGen.path parts) message) s) (.ok (none, es.add ⟨ref, m⟩)) :=
  ⟨_, exec_report h.errs (eval_path h.path) hm, step_write _ _ _ rfl, write_self _ h.errs.obj⟩

theorem agrees_expect (h : At W E reg n x j tgt parts ref s es) {c : Cls} {what : Str} {body : Stmt}
    {r : Except Exc (Option Val × Errors)} (hw : Braceless what)
    (hyes : isInstance s.heap (ofJson j) c = true → Agrees W E.lib call n s tgt (exec E.lib call body s) r)
    (hno : isInstance s.heap (ofJson j) c = false → r = .ok (none, es.add ⟨ref, expected what j⟩)) :
    Agrees W E.lib call n s tgt (exec E.lib call (expect x c what parts body) s) r := by
  rw [expect, exec_if (eval_not (eval_isinstance c h.val))]
  cases hb : isInstance s.heap (ofJson j) c with
  | true => simpa [truth] using hyes hb
  | false =>
    rw [hno hb]
    simp only [truth, Bool.not_false, if_true]
    apply h.report
    rw [eval_format (eval_typeOf h.val)]
    have : formatText E.lib (c!"Expected " ++ what ++ c!", but got: {}") [PV.type (typeText s.heap (ofJson j))] =
        .ok (expected what j) := by
      rw [List.append_assoc, formatText_braceless (by decide), formatText_braceless hw, formatText_got, typeText_ofJson]
      simp [Except.map, expected, text]
    rw [this]

/-! ## Numbers -/

theorem eval_cmp {num : PyRuntime.Num} (op : Cmp) (m : Int) (hx : s.vars x = some (ofJson j))
    (hn : num? (ofJson j) = some num) :
    eval L call (.cmp op (v x) m) s = (.ok (.bool (compare op num m)), s) := by
  rw [eval, bind_ok (eval_name hx)]
  simp only [hn]
  rfl

theorem intStr_braceless (i : Int) : Braceless (intStr i) := by
  have hd : ∀ k (c : Char), c ∈ natStr k → c.isDigit = true := fun k c hc => natStr_digits k c hc
  have h1 : ∀ k, '{' ∉ natStr k := fun k hm => by have := hd k _ hm; revert this; decide
  have h2 : ∀ k, '}' ∉ natStr k := fun k hm => by have := hd k _ hm; revert this; decide
  unfold intStr Braceless
  split <;> simp [h1, h2]

theorem text_num (j : Json) {num : PyRuntime.Num} (hn : num? (ofJson j) = some num) : text L (ofJson j) = showNum L j := by
  cases j with
  | bool b => cases b <;> rfl
  | _ => first | rfl | cases hn

/-- The check of one bound -/
theorem exec_bound (h : At W E reg n x j tgt parts ref s es) {num : PyRuntime.Num} (hn : num? (ofJson j) = some num)
    (op : Cmp) {sign : Str} (hsign : Braceless sign) (m : Int) (body : Stmt) :
    exec E.lib call (bound parts x op sign m body) s = if compare op num m then exec E.lib call body s
      else (.ok .normal, s.write W.ae (.errors (es.add ⟨ref, c!"Expected " ++ sign ++ c!" " ++ intStr m ++ c!", but got: " ++
        showNum E.lib j⟩))) := by
  rw [bound, exec_if (eval_not (eval_cmp op m h.val hn))]
  cases compare op num m with
  | true => rfl
  | false =>
    simp only [truth, Bool.not_false, if_true]
    rw [exec_report h.errs (eval_path h.path)]
    · rfl
    · rw [eval_format (eval_name h.val)]
      have : formatText E.lib (c!"Expected " ++ sign ++ c!" " ++ intStr m ++ c!", but got: {}") [ofJson j] =
          .ok (c!"Expected " ++ sign ++ c!" " ++ intStr m ++ c!", but got: " ++ showNum E.lib j) := by
        simp only [List.append_assoc]
        rw [formatText_braceless (by decide), formatText_braceless hsign, formatText_braceless (by decide),
          formatText_braceless (intStr_braceless m), formatText_got, text_num j hn]
        simp [Except.map]
      rw [this]

theorem exec_minimum (h : At W E reg n x j tgt parts ref s es) {num : PyRuntime.Num} (hn : num? (ofJson j) = some num)
    {bd : Bounds} {m : Int} (hm : bd.min = some m) (body : Stmt) :
    exec E.lib call (minimum parts x bd m body) s = if minOk bd num then exec E.lib call body s
      else (.ok .normal, s.write W.ae (.errors (es.add ⟨ref, minMessage E.lib bd j⟩))) := by
  unfold minimum minOk minMessage
  cases bd.exMin
  · simp only [Bool.false_eq_true, if_false, hm, Option.getD_some]
    exact exec_bound h hn .ge (by decide) m body
  · simp only [if_true, hm, Option.getD_some]
    exact exec_bound h hn .gt (by decide) m body

theorem exec_maximum (h : At W E reg n x j tgt parts ref s es) {num : PyRuntime.Num} (hn : num? (ofJson j) = some num)
    {bd : Bounds} {m : Int} (hm : bd.max = some m) (body : Stmt) :
    exec E.lib call (maximum parts x bd m body) s = if maxOk bd num then exec E.lib call body s
      else (.ok .normal, s.write W.ae (.errors (es.add ⟨ref, maxMessage E.lib bd j⟩))) := by
  unfold maximum maxOk maxMessage
  cases bd.exMax
  · simp only [Bool.false_eq_true, if_false, hm, Option.getD_some]
    exact exec_bound h hn .le (by decide) m body
  · simp only [if_true, hm, Option.getD_some]
    exact exec_bound h hn .lt (by decide) m body

theorem agrees_written (h : At W E reg n x j tgt parts ref s es) (es' : Errors) :
    Agrees W L call n s tgt (.ok .normal, s.write W.ae (.errors es')) (.ok (none, es')) :=
  ⟨_, rfl, step_write _ _ _ rfl, write_self _ h.errs.obj⟩

theorem agrees_bounds (h : At W E reg n x j tgt parts ref s es) {num : PyRuntime.Num} (hn : num? (ofJson j) = some num)
    (bd : Bounds) {body : Stmt} {K : Errors → Except Exc (Option Val × Errors)}
    (hK : ∀ s es, At W E reg n x j tgt parts ref s es → Agrees W E.lib call n s tgt (exec E.lib call body s) (K es)) :
    Agrees W E.lib call n s tgt (exec E.lib call (PyGen.checkBounds parts x bd body) s)
      (if (PyRuntime.checkBounds E.lib bd num j ref es).1 then K (PyRuntime.checkBounds E.lib bd num j ref es).2
        else .ok (none, (PyRuntime.checkBounds E.lib bd num j ref es).2)) := by
  unfold PyGen.checkBounds PyRuntime.checkBounds
  cases hmin : bd.min with
  | none =>
    have hmo : minOk bd num = true := by rw [minOk, hmin]
    cases hmax : bd.max with
    | none => simpa [hmo] using hK s es h
    | some m =>
      simp only [hmo, if_true]
      rw [exec_maximum h hn hmax]
      cases maxOk bd num
      · exact agrees_written h _
      · exact hK s es h
  | some m =>
    cases hmax : bd.max with
    | none =>
      simp only
      rw [exec_minimum h hn hmin]
      cases minOk bd num
      · exact agrees_written h _
      · exact hK s es h
    | some k =>
      simp only
      cases hmo : minOk bd num
      · have e : exec E.lib call (minimum parts x bd m .pass) s =
            (.ok .normal, s.write W.ae (.errors (es.add ⟨ref, minMessage E.lib bd j⟩))) := by
          rw [exec_minimum h hn hmin, hmo]; rfl
        rw [exec_seq e]
        have hst : Step W.errs n s (s.write W.ae (.errors (es.add ⟨ref, minMessage E.lib bd j⟩))) := step_write _ _ _ rfl
        have h' := h.step hst (write_self _ h.errs.obj)
        apply Agrees.trans hst
        rw [exec_maximum h' hn hmax]
        cases maxOk bd num
        · exact agrees_written h' _
        · exact hK _ _ h'
      · have e : exec E.lib call (minimum parts x bd m .pass) s = (.ok .normal, s) := by
          rw [exec_minimum h hn hmin, hmo, if_pos rfl, exec_pass]
        rw [exec_seq e, exec_maximum h hn hmax]
        cases maxOk bd num
        · exact agrees_written h _
        · exact hK _ _ h

theorem isInstance_int (hp : List Obj) (j : Json) : isInstance hp (ofJson j) .int = j.int?.isSome := by
  cases j <;> rfl

theorem isInstance_number (hp : List Obj) (j : Json) : isInstance hp (ofJson j) .number = j.num?.isSome := by
  cases j <;> rfl

theorem num_int {j : Json} {num : PyRuntime.Num} (h : j.int? = some num) : num? (ofJson j) = some num := by
  cases j <;> first | exact h | cases h

theorem num_num {j : Json} {num : PyRuntime.Num} (h : j.num? = some num) : num? (ofJson j) = some num := by
  cases j <;> first | exact h | cases h

theorem agrees_integer (h : At W E reg n x j tgt parts ref s es) (bd : Bounds) :
    Agrees W E.lib call n s tgt (exec E.lib call (expect x .int c!"an integer" parts
      (PyGen.checkBounds parts x bd (.assign tgt (v x)))) s) (parseInteger E.lib bd j ref es) := by
  unfold parseInteger
  refine agrees_expect h (by decide) (fun hi => ?_) (fun hi => ?_)
  · rw [isInstance_int] at hi
    obtain ⟨num, hnum⟩ := Option.isSome_iff_exists.1 hi
    rw [hnum]
    have := agrees_bounds (call := call) h (num_int hnum) bd (body := .assign tgt (v x))
      (K := fun es => .ok (some j.intVal, es)) fun s es h => by
        refine h.store (eval_name h.val) ?_ ?_
        · cases j <;> first | exact .bool _ | exact .int _ | cases hnum
        · cases j <;> first | rfl | cases hnum
    revert this
    simp only
    cases (PyRuntime.checkBounds E.lib bd num j ref es).1 <;> exact id
  · rw [isInstance_int] at hi
    cases hnum : j.int? with
    | none => rfl
    | some _ => rw [hnum] at hi; cases hi

theorem agrees_float (h : At W E reg n x j tgt parts ref s es) (bd : Bounds) :
    Agrees W E.lib call n s tgt (exec E.lib call (expect x .number c!"a number" parts
      (PyGen.checkBounds parts x bd (.assign tgt (.floatOf (v x))))) s) (parseFloat E.lib bd j ref es) := by
  unfold parseFloat
  refine agrees_expect h (by decide) (fun hi => ?_) (fun hi => ?_)
  · rw [isInstance_number] at hi
    obtain ⟨num, hnum⟩ := Option.isSome_iff_exists.1 hi
    rw [hnum]
    have := agrees_bounds (call := call) h (num_num hnum) bd (body := .assign tgt (.floatOf (v x)))
      (K := fun es => do let f ← num.toFloat; return (some (.float f), es)) fun s es h => by
        have e : eval E.lib call (.floatOf (v x)) s = (liftExc num.toFloat >>= fun f => pure (PV.float f)) s := by
          rw [eval, bind_ok (eval_name h.val)]
          simp only [num_num hnum]
        cases hf : num.toFloat with
        | ok f =>
          rw [hf] at e
          exact h.store e (.float f) rfl
        | error y =>
          rw [hf] at e
          exact ⟨[], s, by rw [exec, bind_error (e.trans rfl)]⟩
    revert this
    simp only
    cases (PyRuntime.checkBounds E.lib bd num j ref es).1 <;> exact id
  · rw [isInstance_number] at hi
    cases hnum : j.num? with
    | none => rfl
    | some _ => rw [hnum] at hi; cases hi

theorem agrees_boolean (h : At W E reg n x j tgt parts ref s es) :
    Agrees W E.lib call n s tgt (exec E.lib call (expect x .bool c!"a bool" parts (.assign tgt (v x))) s)
      (parseBoolean j ref es) := by
  refine agrees_expect h (by decide) (fun hi => ?_) (fun hi => ?_)
  · cases j with
    | bool b => exact h.store (eval_name h.val) (.bool b) rfl
    | _ => cases hi
  · cases j with
    | bool b => cases hi
    | _ => rfl

/-! ## Texts -/

theorem str_cases (hp : List Obj) (j : Json) : (isInstance hp (ofJson j) .str = true ∧ ∃ t, j = .str t) ∨
    (isInstance hp (ofJson j) .str = false ∧ ∀ t, j ≠ .str t) := by
  cases j with
  | str t => exact .inl ⟨rfl, t, rfl⟩
  | _ => exact .inr ⟨rfl, fun _ e => by cases e⟩

theorem agrees_matched (h : At W E reg n x j tgt parts ref s es) (set : Str → Val) (p : Option Str) {body : Stmt}
    (hb : ∀ t, j = .str t → Agrees W E.lib call n s tgt (exec E.lib call body s) (.ok (some (set t), es))) :
    Agrees W E.lib call n s tgt (exec E.lib call (expect x .str c!"a string" parts (checkPattern parts x p body)) s)
      (parseMatched E.lib set p j ref es) := by
  rcases str_cases s.heap j with ⟨hi, t, rfl⟩ | ⟨hi, hne⟩
  · refine agrees_expect h (by decide) (fun _ => ?_) (fun h' => by rw [h'] at hi; cases hi)
    unfold checkPattern parseMatched
    cases p with
    | none => exact hb t rfl
    | some p =>
      have em : eval E.lib call (.reMatch p (v x)) s = (.ok (.bool (E.lib.reMatch p t)), s) := by
        rw [eval, bind_ok (eval_name h.val)]; rfl
      simp only
      rw [exec_if (eval_not em)]
      cases E.lib.reMatch p t with
      | true => exact hb t rfl
      | false =>
        simp only [truth, Bool.not_false, if_true]
        have ef := eval_format (L := E.lib) (call := call) (eval_name h.val) (c!"Expected to match " ++ p ++ c!", but got: {}")
        rw [formatText_message] at ef
        simp only [ofJson, text] at ef
        cases hg : gotMessage (c!"Expected to match " ++ p) t with
        | ok m => rw [hg] at ef; exact h.report ef
        | error y => rw [hg] at ef; exact ⟨[], s, exec_report_error h.errs (eval_path h.path) ef⟩
  · refine agrees_expect h (by decide) (fun h' => by rw [h'] at hi; cases hi) (fun _ => ?_)
    cases j with
    | str t => exact absurd rfl (hne t)
    | _ => rfl

theorem try_ok {body handler : Stmt} {cs y} {R} (hb : exec L call body s = (.ok R, s')) :
    exec L call (.attempt body cs y handler) s = (.ok R, s') := by
  rw [exec, tryExcept, hb]

theorem try_other {body handler : Stmt} {cs y} {x : Raised} (hb : exec L call body s = (.error x, s'))
    (hc : cs.any (·.catches x) = false) : exec L call (.attempt body cs y handler) s = (.error x, s') := by
  rw [exec, tryExcept, hb]
  simp [hc]

theorem try_caught {body handler : Stmt} {cs} {x : Raised} (hb : exec L call body s = (.error x, s'))
    (hc : cs.any (·.catches x) = true) : exec L call (.attempt body cs none handler) s = exec L call handler s' := by
  rw [exec, tryExcept, hb]
  simp [hc]

theorem exec_assign_error {e : Expr} {x : Raised} (h : eval L call e s = (.error x, s')) :
    exec L call (.assign tgt e) s = (.error x, s') := by rw [exec, bind_error h]

theorem Agrees.attempt {w : Val} {body handler : Stmt} {cs y}
    (h : Agrees W L call n s tgt (exec L call body s) (.ok (some w, es))) :
    Agrees W L call n s tgt (exec L call (.attempt body cs y handler) s) (.ok (some w, es)) := by
  obtain ⟨s1, p, s2, h1, hr⟩ := h
  exact ⟨s1, p, s2, try_ok h1, hr⟩

theorem agrees_datetime (h : At W E reg n x j tgt parts ref s es) (set : DateTime → Val) (fmt : Str) (get : Expr → Expr)
    (pv : DateTime → PV)
    (hget : ∀ e d s, eval E.lib call e s = (.ok (.datetime d), s) → eval E.lib call (get e) s = (.ok (pv d), s))
    (herr : ∀ e x s, eval E.lib call e s = (.error x, s) → eval E.lib call (get e) s = (.error x, s))
    (hr : ∀ d h lo, Rep W.place h lo (set d) (pv d)) (hp : ∀ d, (pv d).isNone = false) :
    Agrees W E.lib call n s tgt (exec E.lib call (PyGen.parseDateTime x tgt parts fmt get) s)
      (PyRuntime.parseDateTime E.lib set fmt j ref es) := by
  unfold PyGen.parseDateTime
  rcases str_cases s.heap j with ⟨hi, t, rfl⟩ | ⟨hi, hne⟩
  · refine agrees_expect h (by decide) (fun _ => ?_) (fun h' => by rw [h'] at hi; cases hi)
    unfold PyRuntime.parseDateTime
    have es1 : eval E.lib call (.strptime (v x) fmt) s =
        (liftExc (E.lib.strptime t fmt) >>= fun d => pure (PV.datetime d)) s := by
      rw [eval, bind_ok (eval_name h.val)]; rfl
    cases hs : E.lib.strptime t fmt with
    | ok d =>
      rw [hs] at es1
      simp only [hs]
      exact (h.store (hget _ d s es1) (hr d _ _) (hp d)).attempt
    | error y =>
      rw [hs] at es1
      have ea := exec_assign_error (tgt := tgt) (herr _ (.exc y []) s es1)
      cases hy : (Catch.valueError.catches (.exc y [])) with
      | true =>
        rw [try_caught ea (by simp [hy])]
        cases y with
        | valueError _ =>
          simp only [hs]
          have ef := eval_format (L := E.lib) (call := call) (eval_name h.val) (c!"Expected to strptime " ++ fmt ++ c!", but got: {}")
          rw [formatText_message] at ef
          simp only [ofJson, text] at ef
          cases hg : gotMessage (c!"Expected to strptime " ++ fmt) t with
          | ok m => rw [hg] at ef; exact h.report ef
          | error z => rw [hg] at ef; exact ⟨[], s, exec_report_error h.errs (eval_path h.path) ef⟩
        | _ => simp [Catch.catches] at hy
      | false =>
        rw [try_other ea (by simp [hy])]
        cases y with
        | valueError _ => simp [Catch.catches] at hy
        | _ => simp only [hs]; exact ⟨[], s, rfl⟩
  · refine agrees_expect h (by decide) (fun h' => by rw [h'] at hi; cases hi) (fun _ => ?_)
    cases j with
    | str t => exact absurd rfl (hne t)
    | _ => rfl

theorem agrees_timeZone (h : At W E reg n x j tgt parts ref s es) (asZone : Bool) (hz : asZone = E.settings.pytz) :
    Agrees W E.lib call n s tgt (exec E.lib call (expect x .str c!"a string" parts
      (if asZone then
        .attempt (.assign tgt (.timezone (v x))) [.unknownTimeZone] none
          (PyGen.report (PyGen.path parts) (PyGen.format c!"Expected a valid IANA time zone, but got: {}" (v x)))
      else .assign tgt (v x))) s) (parseTimeZone E.lib E.settings j ref es) := by
  rcases str_cases s.heap j with ⟨hi, t, rfl⟩ | ⟨hi, hne⟩
  · refine agrees_expect h (by decide) (fun _ => ?_) (fun h' => by rw [h'] at hi; cases hi)
    unfold parseTimeZone
    simp only [← hz]
    cases asZone with
    | false => exact h.store (eval_name h.val) (.str t) rfl
    | true =>
      simp only [if_true]
      cases hl : E.lib.timezone t with
      | some z =>
        have ez : eval E.lib call (.timezone (v x)) s = (.ok (.zone z), s) := by
          rw [eval, bind_ok (eval_name h.val)]
          simp only [ofJson]
          rw [bind_ok (textOf_run t)]
          simp only [hl]
          rfl
        exact (h.store ez (.zone z) rfl).attempt
      | none =>
        have ez : eval E.lib call (.timezone (v x)) s = (.error .unknownTimeZone, s) := by
          rw [eval, bind_ok (eval_name h.val)]
          simp only [ofJson]
          rw [bind_ok (textOf_run t)]
          simp only [hl]
          rfl
        rw [try_caught (exec_assign_error ez) rfl]
        apply h.report
        rw [eval_format (eval_name h.val)]
        have e : c!"Expected a valid IANA time zone, but got: {}" = c!"Expected a valid IANA time zone, but got: " ++ c!"{}" := rfl
        rw [e, formatText_one (by decide)]
        rfl
  · refine agrees_expect h (by decide) (fun h' => by rw [h'] at hi; cases hi) (fun _ => ?_)
    cases j with
    | str t => exact absurd rfl (hne t)
    | _ => rfl

theorem Errs.err {ae : Addr} {p : PV} (h : Errs ae s es) : Errs ae (s.set c!"err" p) es :=
  ⟨(set_ne s p (by decide)).trans h.var, h.obj⟩

theorem step_err {w : Addr → Prop} (s : St) (p : PV) : Step w n s (s.set c!"err" p) :=
  ⟨fun _ hx => set_ne s p hx.2, Nat.le_refl _, fun _ _ _ => rfl⟩

/-- The handler `errors.add(ref, str(err))` -/
theorem agrees_handler (h : At W E reg n x j tgt parts ref s es) {body : Stmt} {cs : List Catch} {y : Raised}
    (hb : exec E.lib call body s = (.error y, s)) (hc : cs.any (·.catches y) = true) :
    Agrees W E.lib call n s tgt (exec E.lib call (.attempt body cs (some c!"err")
      (PyGen.report (PyGen.path parts) (.strOf (v c!"err")))) s) (.ok (none, es.add ⟨ref, y.text⟩)) := by
  have h' : At W E reg n x j tgt parts ref (s.set c!"err" (.str y.text)) es := h.step (step_err _ _) h.errs.obj
  have hm : eval E.lib call (.strOf (v c!"err")) (s.set c!"err" (.str y.text)) =
      (.ok (.str y.text), s.set c!"err" (.str y.text)) := by
    rw [eval, bind_ok (eval_name (set_self _ _ _))]; rfl
  have hr := exec_report h'.errs (eval_path h'.path) hm
  let s2 := (s.set c!"err" (.str y.text)).write W.ae (.errors (es.add ⟨ref, y.text⟩))
  refine ⟨⟨s2.heap, fun z => if z = c!"err" then none else s2.vars z⟩, ?_, ?_, ?_⟩
  · rw [exec, tryExcept, hb]
    simp only [hc, if_true]
    rw [bind_ok (setVar_run _ _ _), bind_ok hr]
    rfl
  · have h1 : Step W.errs n s s2 := (step_err s _).trans (step_write (w := W.errs) _ _ _ rfl) (Nat.le_refl _) fun _ _ h => h
    exact ⟨fun z hz => by simp only [hz.2, if_false]; exact h1.vars z hz, h1.grow, h1.frame⟩
  · exact write_self _ h'.errs.obj

theorem agrees_duration (h : At W E reg n x j tgt parts ref s es) :
    Agrees W E.lib call n s tgt (exec E.lib call (expect x .str c!"a string" parts
      (.attempt (.assign tgt (.durationFrom (v x))) [.valueError, .overflowError] (some c!"err")
        (PyGen.report (PyGen.path parts) (.strOf (v c!"err"))))) s) (parseDuration E.lib j ref es) := by
  rcases str_cases s.heap j with ⟨hi, t, rfl⟩ | ⟨hi, hne⟩
  · refine agrees_expect h (by decide) (fun _ => ?_) (fun h' => by rw [h'] at hi; cases hi)
    unfold parseDuration
    have ed : eval E.lib call (.durationFrom (v x)) s = durationFrom E.lib t s := by
      rw [eval, bind_ok (eval_name h.val)]
      simp only [ofJson]
      rw [bind_ok (textOf_run t)]
    unfold durationFrom at ed
    cases hp : pyFromString t with
    | ok d =>
      rw [hp] at ed
      simp only [hp]
      exact (h.store ed (.duration d) rfl).attempt
    | error y =>
      rw [hp] at ed
      cases y with
      | valueError msg =>
        simp only [hp]
        exact agrees_handler (cs := [.valueError, .overflowError]) h (exec_assign_error ed) rfl
      | overflowError =>
        simp only [hp]
        exact agrees_handler (cs := [.valueError, .overflowError]) h (exec_assign_error ed) rfl
      | _ => simp only [hp]; exact ⟨[], s, by rw [try_other (exec_assign_error ed) rfl]⟩
  · refine agrees_expect h (by decide) (fun h' => by rw [h'] at hi; cases hi) (fun _ => ?_)
    cases j with
    | str t => exact absurd rfl (hne t)
    | _ => rfl

end

end Mapry.PyExec
