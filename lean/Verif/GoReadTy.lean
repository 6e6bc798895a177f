import Verif.GoReadValue
import Verif.GoSpec

/-!
# The generated Go code which parses a value: all the types
-/

namespace Mapry.GoExec

open Mapry.GoLang Mapry.GoGen Mapry.Naming
open Mapry.GoRuntime (JVal Lib field isPointer parseTy parseItems parseEntries sub goName)
open Mapry.GoRuntime.Spec (Canon)
open Mapry.GoCode (Name v vi own)

section
variable {O : Order} {L : Lib} {pats : Nat → Str} {call : Call}

section
variable {n : Nat} {ρ ρ1 : Env} {σ σ1 : St} {value : Expr} {target : Place} {ref : List Expr} {j : JVal} {s : Slot} {c0 : Val}
  {ts : List Str} {R : List Val → Val → GV → Prop}

theorem eval_cmp {op : Cmp} {e : Expr} {m : Int} {w : Val} {t : Bool} (h : eval L pats ρ σ e = .ok w)
    (hc : compare op w m = .ok t) : eval L pats ρ σ (.cmp op e m) = .ok (.bool t) := by
  rw [eval, h]
  show (do return Val.bool (← compare op w m)) = _
  rw [hc]
  rfl

/-- The checks of the bounds -/
theorem bounds_ok (H : Here L pats n ρ σ value target ref j s c0 ts) (hl : Later n (fun _ => False) ρ σ ρ1 σ1)
    (hst : stOf σ1 = stOf σ) {b : Bounds} {zeros verb : Str} {cast : Name} {w : Val} {jw : JVal} {x : GV} {lo hi : Bool}
    (hc : eval L pats ρ1 σ1 (.var cast) = .ok w) (hj : argOf w = .ok jw) (hR : ∀ h, R h w x)
    (hlo : ∀ m, b.min = some m → compare (minCmp b) w m = .ok lo) (hlo' : b.min = none → lo = true)
    (hhi : ∀ m, b.max = some m → compare (maxCmp b) w m = .ok hi) (hhi' : b.max = none → hi = true) :
    Done n s c0 R ρ σ (if lo = false then .ok (none, (stOf σ).add (joinWith c!"/" ts) (L.sprintf
        (c!"expected " ++ GoRuntime.minOp b ++ c!" " ++ Duration.intStr (b.min.getD 0) ++ zeros ++ c!", but got: " ++ verb) [jw]))
      else if hi = false then .ok (none, (stOf σ).add (joinWith c!"/" ts) (L.sprintf
        (c!"expected " ++ GoRuntime.maxOp b ++ c!" " ++ Duration.intStr (b.max.getD 0) ++ zeros ++ c!", but got: " ++ verb) [jw]))
      else .ok (some x, stOf σ))
      (exec L pats O call (checkBounds ref b zeros verb cast target) ρ1 σ1) := by
  have hjs : [w].mapM argOf = .ok [jw] := by rw [List.mapM_cons, hj]; rfl
  have upper : lo = true → Done n s c0 R ρ σ (if lo = false then .ok (none, (stOf σ).add (joinWith c!"/" ts) (L.sprintf
        (c!"expected " ++ GoRuntime.minOp b ++ c!" " ++ Duration.intStr (b.min.getD 0) ++ zeros ++ c!", but got: " ++ verb) [jw]))
      else if hi = false then .ok (none, (stOf σ).add (joinWith c!"/" ts) (L.sprintf
        (c!"expected " ++ GoRuntime.maxOp b ++ c!" " ++ Duration.intStr (b.max.getD 0) ++ zeros ++ c!", but got: " ++ verb) [jw]))
      else .ok (some x, stOf σ))
      (exec L pats O call (match b.max with
        | none => storeVar target cast
        | some m => .ite (.not (.cmp (maxCmp b) (.var cast) m)) (reportAt ref (c!"expected " ++ GoRuntime.maxOp b ++ c!" " ++
            Duration.intStr m ++ zeros ++ c!", but got: " ++ verb) [.var cast]) (storeVar target cast)) ρ1 σ1) := by
    intro ht
    rw [ht, if_neg (by simp)]
    cases hm : b.max with
    | none =>
      rw [hhi' hm, if_neg (by simp)]
      exact simple_put H hl hst hc hR
    | some m =>
      refine check_ok H hl hst (eval_not (eval_cmp hc (hhi m hm))) (evalAll_one hc) hjs (fun h => ?_) fun h => ?_
      · rw [if_pos (by simpa using h)]
        rfl
      · rw [if_neg (by simpa using h)]
        exact simple_put H hl hst hc hR
  unfold checkBounds
  cases hm : b.min with
  | none => rw [hm] at upper; exact upper (hlo' hm)
  | some m =>
    rw [hm] at upper
    refine check_ok H hl hst (eval_not (eval_cmp hc (hlo m hm))) (evalAll_one hc) hjs (fun h => ?_) fun h => ?_
    · rw [if_pos (by simpa using h)]
      rfl
    · exact upper (by simpa using h)

/-- `_parse_boolean` -/
theorem boolean_ok (H : Here L pats n ρ σ value target ref j s c0 ts) (hR : ∀ h b, R h (.bool b) (.bool b)) :
    Done n s c0 R ρ σ (GoRuntime.parseBoolean L j (joinWith c!"/" ts) .zero (stOf σ))
      (exec L pats O call (castTo (vi c!"cast" n) n .bool c!"a bool" value ref (storeVar target (vi c!"cast" n))) ρ σ) := by
  refine cast_ok H (by decide) (fun h => ?_) fun w hw ρ1 σ1 hl hst hc _ => ?_
  · cases j <;> first | rfl | cases h
  · cases j <;> try (cases hw; done)
    cases hw
    exact simple_put H hl hst hc (fun h => hR h _)

/-- `_parse_float` -/
theorem float_ok (H : Here L pats n ρ σ value target ref j s c0 ts) {b : Bounds} (hR : ∀ h f, R h (.float f) (.float f)) :
    Done n s c0 R ρ σ (GoRuntime.parseFloat L b j (joinWith c!"/" ts) .zero (stOf σ))
      (exec L pats O call (castTo (vi c!"cast" n) n .float64 c!"a float64" value ref
        (checkBounds ref b c!".000000" c!"%f" (vi c!"cast" n) target)) ρ σ) := by
  refine cast_ok H (by decide) (fun h => ?_) fun w hw ρ1 σ1 hl hst hc _ => ?_
  · cases j <;> first | rfl | cases h
  · cases j <;> try (cases hw; done)
    rename_i f
    cases hw
    have := bounds_ok (O := O) (call := call) (R := R) (b := b) (zeros := c!".000000") (verb := c!"%f") H hl hst hc (jw := .float f) rfl
      (fun h => hR h f) (lo := GoRuntime.floatMinOk b f) (hi := GoRuntime.floatMaxOk b f)
      (fun m hm => by unfold minCmp GoRuntime.floatMinOk; rw [hm]; cases b.exMin <;> rfl)
      (fun hm => by unfold GoRuntime.floatMinOk; rw [hm])
      (fun m hm => by unfold maxCmp GoRuntime.floatMaxOk; rw [hm]; cases b.exMax <;> rfl)
      (fun hm => by unfold GoRuntime.floatMaxOk; rw [hm])
    rw [GoRuntime.parseFloat]
    simp only [List.append_assoc] at this ⊢
    exact this

theorem eval_fractional {e : Expr} {f : F64} (h : eval L pats ρ σ e = .ok (.float f)) :
    eval L pats ρ σ (.fractional e) = .ok (.bool (isFractional f)) := by
  rw [eval, h]
  rfl

theorem eval_beyond {e : Expr} {f : F64} (h : eval L pats ρ σ e = .ok (.float f)) :
    eval L pats ρ σ (.beyondInt64 e) = .ok (.bool (isBeyond f)) := by
  rw [eval, h]
  rfl

theorem eval_toInt64 {e : Expr} {q : Rat} (h : eval L pats ρ σ e = .ok (.float (.fin q))) :
    eval L pats ρ σ (.toInt64 e) = .ok (.int (F64.truncRat q)) := by
  rw [eval, h]
  rfl

/-- `_parse_integer` -/
theorem integer_ok (H : Here L pats n ρ σ value target ref j s c0 ts) {b : Bounds} (hR : ∀ h i, R h (.int i) (.int i)) :
    Done n s c0 R ρ σ (GoRuntime.parseInteger L b j (joinWith c!"/" ts) .zero (stOf σ))
      (exec L pats O call (castTo (vi c!"fcast" n) n .float64 c!"a float64" value ref
      (.ite (.fractional (.var (vi c!"fcast" n)))
        (reportAt ref c!"expected a whole number, but got: %f" [.var (vi c!"fcast" n)])
        (.ite (.beyondInt64 (.var (vi c!"fcast" n)))
          (reportAt ref c!"expected the value to fit into int64, but got an overflow: %f" [.var (vi c!"fcast" n)])
          (if b.min.isNone && b.max.isNone then .assign target (.val (.toInt64 (.var (vi c!"fcast" n))))
            else .seq (.declare (vi c!"cast" n) (.val (.toInt64 (.var (vi c!"fcast" n)))))
              (checkBounds ref b [] c!"%d" (vi c!"cast" n) target))))) ρ σ) := by
  refine cast_ok H (by decide) (fun h => ?_) fun w hw ρ1 σ1 hl hst hc _ => ?_
  · cases j <;> first | rfl | cases h
  · cases j <;> try (cases hw; done)
    rename_i f
    cases hw
    refine check_ok H hl hst (eval_fractional hc) (evalAll_one hc) (js := [.float f]) rfl (fun h => ?_) fun h => ?_
    · cases f with
      | nan => rfl
      | inf _ => cases h
      | fin q =>
        rw [GoRuntime.parseInteger]
        exact if_pos (by simpa [isFractional] using h)
    · refine check_ok H hl hst (eval_beyond hc) (evalAll_one hc) (js := [.float f]) rfl (fun h' => ?_) fun h' => ?_
      · cases f with
        | nan => cases h
        | inf _ => rfl
        | fin q =>
          rw [GoRuntime.parseInteger]
          exact (if_neg (by simpa [isFractional] using h)).trans (if_pos (by simpa [isBeyond] using h'))
      · cases f with
        | nan => cases h
        | inf _ => cases h'
        | fin q =>
          rw [GoRuntime.parseInteger]
          rw [if_neg (by simpa [isFractional] using h), if_neg (by simpa [isBeyond] using h')]
          unfold GoRuntime.parseInt64
          cases hb : (b.min.isNone && b.max.isNone) with
          | true =>
            rw [if_pos rfl]
            simp only [Bool.and_eq_true, Option.isNone_iff_eq_none] at hb
            unfold GoRuntime.intMinOk GoRuntime.intMaxOk
            rw [hb.1, hb.2, if_neg (by simp), if_neg (by simp)]
            exact simple_put H hl hst (eval_toInt64 hc) (fun h => hR h _)
          | false =>
            simp only [Bool.false_eq_true, if_false]
            rw [exec_seq O L pats call (exec_declare O L pats call (evalRhs_val L pats call (eval_toInt64 hc)))]
            have hl' := hl.trans (later_declare (Nat.le_refl n) (fun _ => False) ρ1 σ1 c!"cast" (.int (F64.truncRat q)))
            have := bounds_ok (O := O) (call := call) (R := R) (b := b) (zeros := []) (verb := c!"%d") (cast := vi c!"cast" n) H hl' hst
              (eval_var L pats (lookup_self _ _ _) (alloc_get _ _)) (jw := .int64 (F64.truncRat q)) rfl
              (fun h => hR h _) (lo := GoRuntime.intMinOk b (F64.truncRat q)) (hi := GoRuntime.intMaxOk b (F64.truncRat q))
              (fun m hm => by unfold minCmp GoRuntime.intMinOk; rw [hm]; cases b.exMin <;> rfl)
              (fun hm => by unfold GoRuntime.intMinOk; rw [hm])
              (fun m hm => by unfold maxCmp GoRuntime.intMaxOk; rw [hm]; cases b.exMax <;> rfl)
              (fun hm => by unfold GoRuntime.intMaxOk; rw [hm])
            simp only [List.append_assoc] at this ⊢
            exact this

theorem eval_matches {e : Expr} {uid : Nat} {t : Str} (h : eval L pats ρ σ e = .ok (.str t)) :
    eval L pats ρ σ (.matches uid e) = .ok (.bool (L.matchString (pats uid) t)) := by
  rw [eval, h]
  rfl

/-- `_parse_string` -/
theorem text_ok (H : Here L pats n ρ σ value target ref j s c0 ts) {ctx : Ctx} {p : Option Str} {code : Stmt} {m : Nat}
    (hg : parseText ctx p value target ref n = .ok (code, m)) (hu : ∀ q uid, uidOf ctx.uids q = .ok uid → pats uid = q)
    (hR : ∀ h t, R h (.str t) (.str t)) :
    m = n + 1 ∧ Done n s c0 R ρ σ (GoRuntime.parseString L p j (joinWith c!"/" ts) .zero (stOf σ))
      (exec L pats O call code ρ σ) := by
  unfold parseText at hg
  cases p with
  | none =>
    cases hg
    refine ⟨rfl, cast_ok H (by decide) (fun h => ?_) fun w hw ρ1 σ1 hl hst hc _ => ?_⟩
    · cases j <;> first | rfl | cases h
    · cases j <;> try (cases hw; done)
      cases hw
      exact simple_put H hl hst hc (fun h => hR h _)
  | some q =>
    cases huid : uidOf ctx.uids q with
    | error _ => simp only [huid] at hg; cases hg
    | ok uid =>
      simp only [huid] at hg
      cases hg
      refine ⟨rfl, cast_ok H (by decide) (fun h => ?_) fun w hw ρ1 σ1 hl hst hc _ => ?_⟩
      · cases j <;> first | rfl | cases h
      · cases j <;> try (cases hw; done)
        rename_i t
        cases hw
        have he := eval_not (eval_matches (uid := uid) hc)
        rw [hu q uid huid] at he
        refine check_ok H hl hst he (evalAll_one hc) (js := [.str t]) rfl (fun h => ?_) fun h => ?_
        · rw [GoRuntime.parseString]
          exact if_neg (by simpa using h)
        · rw [GoRuntime.parseString]
          rw [if_pos (by simpa using h)]
          exact simple_put H hl hst hc (fun h => hR h _)

theorem eval_notNil {e : Expr} {w : Val} (h : eval L pats ρ σ e = .ok w) : eval L pats ρ σ (.notNil e) = .ok (.bool (!w.isNil)) := by
  rw [eval, h]
  rfl

/-- `_parse_date_time`, `_parse_time_zone` and `_parse_duration` -/
theorem convert_ok (H : Here L pats n ρ σ value target ref j s c0 ts) {two : Expr → Two} {fmt : Str} {args : List Expr}
    {r : Except Exc (Option GV × GoRuntime.St)}
    (hn : kindVal .string j = none → r = GoRuntime.expected L c!"a string" j (joinWith c!"/" ts) (stOf σ))
    (hs : ∀ t, j = .str t → (∃ w x, (∀ ρ1 σ1 e, eval L pats ρ1 σ1 e = .ok (.str t) → evalTwo L pats ρ1 σ1 (two e) = .ok (w, .nil)) ∧
        (∀ h, R h w x) ∧ r = .ok (some x, stOf σ)) ∨
      (∃ w msg js, (∀ ρ1 σ1 e, eval L pats ρ1 σ1 e = .ok (.str t) → evalTwo L pats ρ1 σ1 (two e) = .ok (w, .error msg)) ∧
        (∀ ρ1 σ1, eval L pats ρ1 σ1 (.var (vi c!"err" n)) = .ok (.error msg) →
          ∃ vs, evalAll L pats ρ1 σ1 args = .ok vs ∧ vs.mapM argOf = .ok js) ∧
        r = .ok (none, (stOf σ).add (joinWith c!"/" ts) (L.sprintf fmt (.str t :: js)))) ∨
      ∃ e, (∀ ρ1 σ1 x, eval L pats ρ1 σ1 x = .ok (.str t) → evalTwo L pats ρ1 σ1 (two x) = .error e) ∧ r = .error e) :
    Done n s c0 R ρ σ r (exec L pats O call (convertWith two fmt args value target ref n) ρ σ) := by
  refine cast_ok H (by decide) hn fun w hw ρ1 σ1 hl hst hc hS => ?_
  cases j <;> try (cases hw; done)
  rename_i t
  cases hw
  rcases hs t rfl with ⟨w, x, h1, hR, rfl⟩ | ⟨w, msg, js, h1, h2, rfl⟩ | ⟨e, h1, rfl⟩
  · rw [exec_seq O L pats call (exec_declare2 (h1 ρ1 σ1 _ hc)), exec_ite (eval_notNil eval_second)]
    have hl' := hl.trans (later_declare2 (Nat.le_refl n) c!"target" c!"err" ρ1 σ1 w .nil)
    exact (simple_put H hl' hst (eval_first (vi_ne (by decide) n)) hR).close hl'.vars
  · rw [exec_seq O L pats call (exec_declare2 (h1 ρ1 σ1 _ hc)), exec_ite (eval_notNil eval_second)]
    have hl1 := later_declare2 (Nat.le_refl n) c!"target" c!"err" ρ1 σ1 w (.error msg)
    have hl' := hl.trans hl1
    obtain ⟨S, hS1, hS2⟩ := hS
    obtain ⟨vs, he, hj⟩ := h2 _ _ (eval_second (x := vi c!"target" n) (y := vi c!"err" n) (ρ := ρ1) (σ := σ1) (a := w))
    have hc' : eval L pats (after2 (vi c!"target" n) (vi c!"err" n) ρ1 σ1) ((σ1.alloc w).2.alloc (.error msg)).2
        (.var (vi c!"cast" n)) = .ok (.str t) :=
      eval_var L pats (((lookup_ne (vi_ne (by decide) n) _ _).trans (lookup_ne (vi_ne (by decide) n) _ _)).trans hS1)
        (alloc_old _ _ (alloc_old _ _ hS2))
    refine (report_ok H hl' hst (evalAll_cons hc' he) (js := .str t :: js) ?_).close hl'.vars
    rw [List.mapM_cons, hj]
    rfl
  · refine .inr (exec_seq_error O L pats call ?_)
    rw [exec, h1 ρ1 σ1 _ hc]
    rfl

/-! ## Loops -/

/-- The code of an item has been executed, and the loop goes on unless the container of errors is full. -/
def BodyDone (s : Slot) (c0 : Val) (R : List Val → Val → GV → Prop) (σ : St) :
    Except Exc (Option GV × GoRuntime.St) → Except Exc (Flow × St) → Prop
  | .ok (o, st), X => ∃ σ' c, X = .ok (if st.errors.full then .brk else .next, σ') ∧ Frame (· = s.loc) σ.heap σ'.heap ∧
      stOf σ' = st ∧ σ'.heap[s.loc]? = some c ∧ Placed s c0 c σ.errors σ'.errors (R σ'.heap) o
  | .error e, X => Stops e X

theorem exec_untilFull {item : Stmt} {ρ2 : Env} {σ2 : St} (h : exec L pats O call item ρ1 σ1 = .ok (.next, ρ2, σ2)) :
    bodyOf (exec L pats O call (untilFull item) ρ1 σ1) = .ok (if σ2.errors.full then .brk else .next, σ2) := by
  rw [untilFull, exec_seq O L pats call h, when, exec]
  show bodyOf (if σ2.errors.full = true then close ρ2 (exec L pats O call .brk ρ2 σ2)
    else close ρ2 (exec L pats O call .skip ρ2 σ2)) = _
  cases σ2.errors.full <;> rfl

theorem Done.until {item : Stmt} {r : Except Exc (Option GV × GoRuntime.St)}
    (h : Done n s c0 R ρ σ r (exec L pats O call item ρ1 σ1)) :
    BodyDone s c0 R σ r (bodyOf (exec L pats O call (untilFull item) ρ1 σ1)) := by
  cases r with
  | error e =>
    rcases h with h | h
    · exact .inl h
    · exact .inr (by rw [untilFull, exec_seq_error O L pats call h]; rfl)
  | ok p =>
    obtain ⟨o, st⟩ := p
    obtain ⟨ρ', σ', c, hX, hl, hst, hc, hp⟩ := h
    refine ⟨σ', c, ?_, hl.frame, hst, hc, hp⟩
    rw [exec_untilFull hX, ← hst]
    rfl

theorem full_empty {e : GoErrors} (h : e.full = true) : e.empty = false := by
  unfold GoErrors.full at h
  unfold GoErrors.empty
  simp only [Bool.and_eq_true, decide_eq_true_eq] at h
  simp only [decide_eq_false_iff_not]
  omega

end

theorem okBind {α β : Type} (a : α) (f : α → Except Exc β) : (Except.ok a >>= f) = f a := rfl

/-- The items have been parsed. -/
def ItemsRead (T : Nat → Prop) (A : Nat) (R : List Val → Val → GV → Prop) (τ0 : St) (zs : List GV) :
    Except Exc (List GV × GoRuntime.St) → Except Exc (Flow × St) → Prop
  | .ok (ys, st), X => ∃ τ ws, X = .ok (.next, τ) ∧ Frame T τ0.heap τ.heap ∧ τ.heap[A]? = some (.array ws) ∧ stOf τ = st ∧
      (τ.errors.empty = true → τ0.errors.empty = true ∧ Forall₂ (R τ.heap) ws (zs ++ ys))
  | .error e, X => Stops e X

/-- What is in the array after an item -/
theorem item_placed {A : Nat} {ws : List Val} {k : Nat} {c : Val} {e e' : GoErrors} {R : Val → GV → Prop} {o : Option GV}
    (h : Placed (.addr A [.item ws.length]) (.array (ws ++ List.replicate (k + 1) .zero)) c e e' R o) :
    ∃ w, c = .array ((ws ++ [w]) ++ List.replicate k .zero) ∧
      (e'.empty = true → e.empty = true ∧ R w (o.getD .zero)) := by
  have hz : Val.array (ws ++ List.replicate (k + 1) .zero) = .array ((ws ++ [.zero]) ++ List.replicate k .zero) := by
    rw [List.replicate_succ, List.append_assoc]
    rfl
  cases o with
  | none =>
    obtain ⟨h1, h2⟩ := h
    exact ⟨.zero, by rw [h1, hz], fun h => by rw [h2] at h; cases h⟩
  | some x =>
    obtain ⟨w, h1, h2⟩ := h
    refine ⟨w, ?_, h2⟩
    rcases h1 with h1 | ⟨h1, rfl⟩
    · rw [update] at h1
      rw [List.getElem?_append_right (Nat.le_refl _), Nat.sub_self, List.replicate_succ] at h1
      simp only [List.getElem?_cons_zero, Option.bind_some, update, Option.map_some, Option.some.injEq] at h1
      rw [← h1, set_next]
    · rw [h1, hz]

theorem loop_read {T : Nat → Prop} {A C : Nat} {τ0 : St} {f : GoRuntime.ParseFn} {ref : Str}
    {R : List Val → Val → GV → Prop} {body : St → Except Exc (Flow × St)} (hA : T A) (hC : T C) (hne : A ≠ C)
    (hT : ∀ a, T a → a < τ0.heap.length) (hR : ∀ h h' w x, Frame T h h' → R h w x → R h' w x) :
    ∀ (xs : List JVal) (τ : St) (ws : List Val) (zs : List GV), Frame T τ0.heap τ.heap →
      τ.heap[A]? = some (.array (ws ++ List.replicate xs.length .zero)) →
      (τ.errors.empty = true → τ0.errors.empty = true ∧ Forall₂ (R τ.heap) ws zs) →
      (∀ τ i x ws', Frame T τ0.heap τ.heap → xs[i]? = some x → τ.heap[C]? = some (.int ((ws.length + i : Nat) : Int)) →
        ws'.length = ws.length + i →
        τ.heap[A]? = some (.array (ws' ++ List.replicate (xs.length - i) .zero)) →
        BodyDone (.addr A [.item (ws.length + i)]) (.array (ws' ++ List.replicate (xs.length - i) .zero)) R τ
          (f x (sub ref (Text.natStr (ws.length + i))) .zero (stOf τ)) (body τ)) →
      ItemsRead T A R τ0 zs (parseItems f ref ws.length xs (stOf τ))
        (loop (fun k τ => .ok (τ.put C (.int k))) body ((List.range' ws.length xs.length).map fun (k : Nat) => (k : Int)) τ)
  | [], τ, ws, zs, hf, hc, hz, _ => by
    exact ⟨τ, ws, rfl, hf, by simpa using hc, rfl, fun h => ⟨(hz h).1, by simpa using (hz h).2⟩⟩
  | x :: xs, τ, ws, zs, hf, hc, hz, hb => by
    have hf1 : Frame T τ.heap (τ.put C (.int ws.length)).heap := (frame_set _ _ _).mono fun a _ h => h ▸ hC
    have hf01 : Frame T τ0.heap (τ.put C (.int ws.length)).heap := hf.trans hf1
    have hCl : C < τ.heap.length := Nat.lt_of_lt_of_le (hT C hC) hf.more
    have hC1 : (τ.put C (.int ws.length)).heap[C]? = some (.int ws.length) := List.getElem?_set_self hCl
    have hA1 : (τ.put C (.int ws.length)).heap[A]? = some (.array (ws ++ List.replicate (xs.length + 1) .zero)) :=
      ((frame_set _ _ _).same A (lt_of_get hc) hne).trans hc
    have hb1 := hb (τ.put C (.int ws.length)) 0 x ws hf01 rfl (by simpa using hC1) rfl hA1
    simp only [Nat.add_zero, Nat.sub_zero, List.length_cons] at hb1
    rw [parseItems, List.length_cons, List.range'_succ, List.map_cons, loop]
    show ItemsRead T A R τ0 zs (do
      let (v, st) ← f x (sub ref (Text.natStr ws.length)) .zero (stOf τ)
      if st.errors.full then return (v.getD .zero :: xs.map (fun _ => .zero), st)
      else do
        let (vs, st) ← parseItems f ref (ws.length + 1) xs st
        return (v.getD .zero :: vs, st)) (do
        let (f, σ) ← body (τ.put C (.int ws.length))
        match f with
        | .next =>
          loop (fun k τ => .ok (τ.put C (.int k))) body
            ((List.range' (ws.length + 1) xs.length).map fun (k : Nat) => (k : Int)) σ
        | .brk => return (.next, σ)
        | .ret => return (.ret, σ))
    replace hb1 : BodyDone (.addr A [.item ws.length]) (.array (ws ++ List.replicate (xs.length + 1) .zero)) R
      (τ.put C (.int ws.length)) (f x (sub ref (Text.natStr ws.length)) .zero (stOf τ)) (body (τ.put C (.int ws.length))) := hb1
    generalize f x (sub ref (Text.natStr ws.length)) .zero (stOf τ) = fy at hb1 ⊢
    cases fy with
    | error e =>
      rcases hb1 with h | h
      · exact .inl h
      · exact .inr (by rw [h]; rfl)
    | ok p =>
      obtain ⟨o, st⟩ := p
      obtain ⟨τ2, c, hX, hf2, hst, hc2, hp⟩ := hb1
      rw [hX]
      obtain ⟨w, rfl, hw⟩ := item_placed hp
      have hf12 : Frame T (τ.put C (.int ws.length)).heap τ2.heap := hf2.mono fun a _ h => h ▸ hA
      have hz2 : τ2.errors.empty = true → τ0.errors.empty = true ∧ Forall₂ (R τ2.heap) (ws ++ [w]) (zs ++ [o.getD .zero]) := by
        intro h
        obtain ⟨h1, h2⟩ := hw h
        obtain ⟨h3, h4⟩ := hz h1
        exact ⟨h3, forall₂_append (forall₂_imp (fun a b => hR _ _ _ _ (hf1.trans hf12)) h4) (.cons h2 .nil)⟩
      have he : τ2.errors = st.errors := by rw [← hst]; rfl
      simp only [okBind]
      cases hfull : st.errors.full with
      | true =>
        rw [if_pos rfl]
        refine ⟨τ2, (ws ++ [w]) ++ List.replicate xs.length Val.zero, rfl, hf01.trans hf12, hc2, hst, fun h => ?_⟩
        rw [he, full_empty hfull] at h
        cases h
      | false =>
        have ih := loop_read (body := body) (f := f) (ref := ref) hA hC hne hT hR xs τ2 (ws ++ [w]) (zs ++ [o.getD .zero])
          (hf01.trans hf12) hc2 hz2 (by
            intro τ' i x' ws' hf' hx hci hlen hc'
            have e : (ws ++ [w]).length + i = ws.length + (i + 1) := by simp; omega
            rw [e] at hci hlen ⊢
            have e2 : xs.length - i = (x :: xs).length - (i + 1) := by simp
            rw [e2] at hc' ⊢
            exact hb τ' (i + 1) x' ws' hf' (by simpa using hx) hci hlen hc')
        rw [hst, List.length_append, List.length_singleton] at ih
        simp only [Bool.false_eq_true, if_false]
        show ItemsRead T A R τ0 zs (do
          let (vs, st) ← parseItems f ref (ws.length + 1) xs st
          return (o.getD .zero :: vs, st)) (loop (fun k τ => .ok (τ.put C (.int k))) body
            ((List.range' (ws.length + 1) xs.length).map fun (k : Nat) => (k : Int)) τ2)
        generalize parseItems f ref (ws.length + 1) xs st = q at ih ⊢
        cases q with
        | error e => exact ih
        | ok q =>
          obtain ⟨ys, st'⟩ := q
          obtain ⟨τ3, ws3, h1, h2, h3, h4, h5⟩ := ih
          exact ⟨τ3, ws3, h1, h2, h3, h4, fun h => ⟨(h5 h).1, by simpa using (h5 h).2⟩⟩

/-- The entries have been parsed. -/
def EntriesRead (T : Nat → Prop) (A : Nat) (R : List Val → Val → GV → Prop) (τ0 : St) :
    Except Exc (GoMap GV × GoRuntime.St) → Except Exc (Flow × St) → Prop
  | .ok (ys, st), X => ∃ τ ws, X = .ok (.next, τ) ∧ Frame T τ0.heap τ.heap ∧ τ.heap[A]? = some (.table ws) ∧ stOf τ = st ∧
      (τ.errors.empty = true → τ0.errors.empty = true ∧ Forall₂ (Entry (R τ.heap)) ws ys)
  | .error e, X => Stops e X

theorem loop_read_map {T : Nat → Prop} {A K : Nat} {τ0 : St} {f : GoRuntime.ParseFn} {ref : Str}
    {R : List Val → Val → GV → Prop} {body : St → Except Exc (Flow × St)} (hA : T A) (hK : T K) (hne : A ≠ K)
    (hT : ∀ a, T a → a < τ0.heap.length) (hR : ∀ h h' w x, Frame T h h' → R h w x → R h' w x) {kvs : List (Str × JVal)}
    (hb : ∀ τ k x ws, Frame T τ0.heap τ.heap → (k, x) ∈ kvs → τ.heap[K]? = some (.str k) → τ.heap[A]? = some (.table ws) →
        BodyDone (.entry A k) (.table ws) R τ (f x (sub ref k) .zero (stOf τ)) (body τ)) :
    ∀ (xs : List (Str × JVal)), (∀ e ∈ xs, e ∈ kvs) → ∀ (τ : St) (ws : List (Str × Val)) (acc : GoMap GV),
      Frame T τ0.heap τ.heap → τ.heap[A]? = some (.table ws) →
      (τ.errors.empty = true → τ0.errors.empty = true ∧ Forall₂ (Entry (R τ.heap)) ws acc) →
      EntriesRead T A R τ0 (parseEntries f ref acc xs (stOf τ))
        (loop (fun (kv : Str × Val) τ => .ok (τ.put K (.str kv.1))) body (xs.map fun kv => (kv.1, .json kv.2)) τ)
  | [], _, τ, ws, acc, hf, hc, hz => ⟨τ, ws, rfl, hf, hc, rfl, hz⟩
  | (k, x) :: xs, hm, τ, ws, acc, hf, hc, hz => by
    have hf1 : Frame T τ.heap (τ.put K (.str k)).heap := (frame_set _ _ _).mono fun a _ h => h ▸ hK
    have hf01 : Frame T τ0.heap (τ.put K (.str k)).heap := hf.trans hf1
    have hKl : K < τ.heap.length := Nat.lt_of_lt_of_le (hT K hK) hf.more
    have hK1 : (τ.put K (.str k)).heap[K]? = some (.str k) := List.getElem?_set_self hKl
    have hA1 : (τ.put K (.str k)).heap[A]? = some (.table ws) :=
      ((frame_set _ _ _).same A (lt_of_get hc) hne).trans hc
    have hb1 := hb (τ.put K (.str k)) k x ws hf01 (hm _ (by simp)) hK1 hA1
    rw [parseEntries, List.map_cons, loop]
    show EntriesRead T A R τ0 (do
      let (v, st) ← f x (sub ref k) .zero (stOf τ)
      let acc := match v with
        | some v => GoMap.put k v acc
        | none => acc
      if st.errors.full then return (acc, st) else parseEntries f ref acc xs st) (do
        let (f, σ) ← body (τ.put K (.str k))
        match f with
        | .next => loop (fun (kv : Str × Val) τ => .ok (τ.put K (.str kv.1))) body (xs.map fun kv => (kv.1, .json kv.2)) σ
        | .brk => return (.next, σ)
        | .ret => return (.ret, σ))
    replace hb1 : BodyDone (.entry A k) (.table ws) R (τ.put K (.str k)) (f x (sub ref k) .zero (stOf τ))
      (body (τ.put K (.str k))) := hb1
    generalize f x (sub ref k) .zero (stOf τ) = fy at hb1 ⊢
    cases fy with
    | error e =>
      rcases hb1 with h | h
      · exact .inl h
      · exact .inr (by rw [h]; rfl)
    | ok p =>
      obtain ⟨o, st⟩ := p
      obtain ⟨τ2, c, hX, hf2, hst, hc2, hp⟩ := hb1
      rw [hX]
      have hf12 : Frame T (τ.put K (.str k)).heap τ2.heap := hf2.mono fun a _ h => h ▸ hA
      have he : τ2.errors = st.errors := by rw [← hst]; rfl
      have key : ∃ ws2, c = .table ws2 ∧ (τ2.errors.empty = true → τ0.errors.empty = true ∧
          Forall₂ (Entry (R τ2.heap)) ws2 (match (generalizing := false) o with | some v => GoMap.put k v acc | none => acc)) := by
        cases o with
        | none =>
          obtain ⟨rfl, h2⟩ := hp
          exact ⟨ws, rfl, fun h => by rw [h2] at h; cases h⟩
        | some y =>
          obtain ⟨w, h1, h2⟩ := hp
          cases h1
          refine ⟨_, rfl, fun h => ?_⟩
          obtain ⟨h3, h4⟩ := hz (h2 h).1
          exact ⟨h3, entry_put k (h2 h).2 (forall₂_imp (fun a b h => ⟨h.1, hR _ _ _ _ (hf1.trans hf12) h.2⟩) h4)⟩
      obtain ⟨ws2, rfl, hz2⟩ := key
      simp only [okBind]
      cases hfull : st.errors.full with
      | true =>
        rw [if_pos rfl]
        refine ⟨τ2, ws2, rfl, hf01.trans hf12, hc2, hst, hz2⟩
      | false =>
        have ih := loop_read_map (body := body) (f := f) (ref := ref) hA hK hne hT hR hb xs
          (fun e he => hm e (by simp [he])) τ2 ws2 _ (hf01.trans hf12) hc2 hz2
        rw [hst] at ih
        simp only [Bool.false_eq_true, if_false]
        exact ih

end

end Mapry.GoExec
