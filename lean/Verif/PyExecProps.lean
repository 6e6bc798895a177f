import Verif.PyExecTypes

/-!
# The generated Python code of the properties agrees with `parseProps`
-/

namespace Mapry.PyExec

open Mapry.PyLang Mapry.PyGen Mapry.PyRuntime Mapry.Text Mapry.Duration
open Mapry.TypeGraph hiding Obj
open Mapry.PyRuntime (Json Lib Val)
open PyCode (ok_bind)

theorem parseValue_le (ctx : Ctx) (ty : Ty) : ∀ x tgt parts n code m,
    PyGen.parseValue ctx ty x tgt parts n = .ok (code, m) → n ≤ m := by
  induction ty with
  | array ty lo hi ih =>
    intro x tgt parts n code m hg
    obtain ⟨⟨item, m'⟩, h1, hg⟩ := ok_bind hg
    obtain ⟨_, _, hg⟩ := ok_bind hg
    cases hg
    exact Nat.le_of_succ_le (ih _ _ _ _ _ _ h1)
  | map ty ih =>
    intro x tgt parts n code m hg
    obtain ⟨⟨item, m'⟩, h1, hg⟩ := ok_bind hg
    obtain ⟨_, _, hg⟩ := ok_bind hg
    cases hg
    exact Nat.le_of_succ_le (ih _ _ _ _ _ _ h1)
  | path p =>
    intro x tgt parts n code m hg
    obtain ⟨_, _, hg⟩ := ok_bind hg
    cases hg; exact Nat.le_succ n
  | timeZone =>
    intro x tgt parts n code m hg
    obtain ⟨_, _, hg⟩ := ok_bind hg
    cases hg; exact Nat.le_succ n
  | cls c =>
    intro x tgt parts n code m hg
    obtain ⟨_, _, hg⟩ := ok_bind hg
    cases hg; exact Nat.le_succ n
  | embed name =>
    intro x tgt parts n code m hg
    obtain ⟨_, _, hg⟩ := ok_bind hg
    obtain ⟨_, _, hg⟩ := ok_bind hg
    obtain ⟨_, _, hg⟩ := ok_bind hg
    cases hg; exact Nat.le_succ n
  | _ => intro x tgt parts n code m hg; cases hg; exact Nat.le_succ n

/-- The container of errors and the object whose attributes are assigned. -/
def World.obj (W : World) (o : Addr) : Addr → Prop := fun a => a = W.ae ∨ a = o

/-- Where the code of the properties runs: the variable `var` holds the object at `o` of the class `cn`, and what the
attributes refer to is at `lo` or later. -/
structure Spot where
  var : Str
  cn : Str
  o : Addr
  lo : Nat
  extra : List Str

/-- The state between the properties. -/
structure PropsInv (W : World) (E : Env) (reg : Str → Except Exc Expr) (P : Spot) (s0 : St) (es : Errors) (attrs : Attrs)
    (s : St) : Prop where
  step : Step (W.obj P.o) 0 s0 s
  errs : Errs W.ae s es
  inst : ∃ ps, s.heap[P.o]? = some (.inst P.cn ps) ∧ AttrsRep W.place s.heap P.lo P.extra attrs ps ∧
    ∃ ps0, s0.heap[P.o]? = some (.inst P.cn ps0) ∧ ∀ x ∈ P.extra, ps.lookup x = ps0.lookup x
  regs : RegsAt W E reg 0 s

/-- The state before the properties: the variables and the order of the addresses. -/
structure Ready (W : World) (P : Spot) (b : Bool) (kvs : List (Str × Json)) (ref : Str) (s0 : St) : Prop where
  keep : Keep 0 P.var
  var : s0.vars P.var = some (.addr P.o)
  value : s0.vars c!"value" = some (.obj b kvs)
  ref : s0.vars c!"ref" = some (.str ref)
  below : P.o < P.lo ∧ W.ae < P.lo ∧ P.lo ≤ s0.heap.length

section

variable {W : World} {E : Env} {call : Fn → Actual → M PV} {n : Nat} {reg : Str → Except Exc Expr} {P : Spot}
  {b : Bool} {kvs : List (Str × Json)} {ref : Str} {s0 s s' : St} {es es' : Errors} {attrs : Attrs}

theorem PropsInv.low (h : PropsInv W E reg P s0 es attrs s) (hr : Ready W P b kvs ref s0) : P.lo ≤ s.heap.length :=
  Nat.le_trans hr.below.2.2 h.step.grow

theorem RegExpr.mono {e : Expr} {a : Addr} {m : Nat} (h : RegExpr n s e a) (hm : n ≤ m) : RegExpr m s e a := by
  cases h with
  | var hk h => exact .var (hk.mono hm) h
  | attr hk h1 h2 h3 => exact .attr (hk.mono hm) h1 h2 h3

theorem RegsAt.mono {m : Nat} (h : RegsAt W E reg n s) (hm : n ≤ m) : RegsAt W E reg m s :=
  fun c e hc => ⟨(h c e hc).1.mono hm, (h c e hc).2⟩

/-- Code which only reports errors does not matter. -/
theorem PropsInv.after (h : PropsInv W E reg P s0 es attrs s) (hr : Ready W P b kvs ref s0) (hs : Step W.errs n s s')
    (he : s'.heap[W.ae]? = some (.errors es')) : PropsInv W E reg P s0 es' attrs s' := by
  have hs' : Step W.errs 0 s s' := hs.weaken (Nat.zero_le n) fun _ _ h => h
  refine ⟨h.step.trans hs' (Nat.le_refl _) fun _ _ h => .inl h, h.errs.step hs' he, ?_, h.regs.step h.errs.obj hs' (Nat.le_refl _)⟩
  obtain ⟨ps, h1, h2, h3⟩ := h.inst
  exact ⟨ps, get_step h.errs.obj hs' h1 (by intro _ e; cases e), h2.step hs' fun a h1 _ e => by
    have e : a = W.ae := e
    have := hr.below.2.1
    rw [← e] at this
    exact absurd h1 (Nat.not_le.2 this), h3⟩

/-- An attribute is assigned. -/
theorem PropsInv.assign (h : PropsInv W E reg P s0 es attrs s) (hr : Ready W P b kvs ref s0) {a : Str} {w : Val} {p : PV}
    (hreg : ∀ c y q, reg c = .ok (.attr y q) → q ≠ a) (hex : a ∉ P.extra)
    (hw : Rep W.place s.heap P.lo w p) (hp : assignTo E.lib call (.attr (v P.var) a) p s = (.ok (), s')) :
    PropsInv W E reg P s0 es (PyRuntime.setAttr a w attrs) s' := by
  obtain ⟨ps, h1, h2, h3⟩ := h.inst
  have hv : s.vars P.var = some (.addr P.o) := (h.step.vars _ hr.keep).trans hr.var
  rw [assign_attr hv h1] at hp
  cases hp
  have hne : W.ae ≠ P.o := fun e => by
    have := h.errs.obj
    rw [e, h1] at this
    cases this
  have hst : Step (W.obj P.o) 0 s (s.write P.o (.inst P.cn (put a p ps))) := step_write _ _ _ (.inr rfl)
  have hlow : ∀ a, P.lo ≤ a → a < s.heap.length → ¬ W.obj P.o a := by
    intro a h1 _ e
    rcases e with e | e
    · exact absurd h1 (Nat.not_le.2 (e ▸ hr.below.2.1))
    · exact absurd h1 (Nat.not_le.2 (e ▸ hr.below.1))
  refine ⟨h.step.trans hst (Nat.le_refl _) fun _ _ h => h, ⟨h.errs.var, by rw [write_ne _ hne]; exact h.errs.obj⟩,
    ⟨_, write_self _ h1, (h2.set a hw).step hst hlow, ?_⟩, fun c e hc => ?_⟩
  · obtain ⟨ps0, h4, h5⟩ := h3
    refine ⟨ps0, h4, fun x hx => ?_⟩
    rw [lookup_put, if_neg (fun e : x = a => hex (e ▸ hx)), h5 x hx]
  · obtain ⟨hx, o, kvs, hd, hids⟩ := h.regs c e hc
    refine ⟨?_, o, kvs, ?_, hids⟩
    · cases hx with
      | var hk hx => exact .var hk hx
      | attr hk hx ho hl =>
        rename_i x o' c' at' q
        by_cases e : o' = P.o
        · subst e
          rw [h1] at ho
          cases ho
          refine .attr hk hx (write_self _ h1) ?_
          rw [lookup_put, if_neg (hreg c _ q hc), hl]
        · exact .attr hk hx (by rw [write_ne _ e]; exact ho) hl
    · rw [write_ne]
      · exact hd
      · intro e
        rw [e, h1] at hd
        cases hd

/-- What the code of a property leaves behind -/
def PropRan (W : World) (E : Env) (reg : Str → Except Exc Expr) (P : Spot) (s0 : St) (R : Except Raised Flow × St) :
    Except Exc (Attrs × Errors) → Prop
  | .error x => ∃ t s', R = (.error (.exc x t), s')
  | .ok (attrs, es) => ∃ s', R = (.ok .normal, s') ∧ PropsInv W E reg P s0 es attrs s'

theorem lookup_ofJson (k : Str) (kvs : List (Str × Json)) :
    (kvs.map fun kv => (kv.1, ofJson kv.2)).lookup k = (kvs.lookup k).map ofJson := by
  induction kvs with
  | nil => rfl
  | cons kv rest ih =>
    obtain ⟨k', j⟩ := kv
    simp only [List.map_cons, List.lookup_cons, ih]
    cases k == k' <;> rfl

theorem isNone_ofJson (j : Json) : (ofJson j).isNone = true ↔ j = .null := by
  cases j <;> simp [ofJson, PV.isNone]

theorem keyed_lookup {k : Str} {j : Json} (hk : ∀ kv ∈ kvs, Keyed kv.2) (h : kvs.lookup k = some j) : Keyed j := by
  induction kvs with
  | nil => cases h
  | cons kv rest ih =>
    obtain ⟨k', j'⟩ := kv
    rw [List.lookup_cons] at h
    split at h
    · cases h; exact hk (k', j) (by simp)
    · exact ih (fun kv hkv => hk kv (by simp [hkv])) h

theorem prop_run {ctx : Ctx} {embed : Str → Json → Str → Errors → Except Exc (Val × Errors)} {p : Property} {code : Stmt}
    {m : Nat} (hg : PyGen.parseProperty ctx P.var p n = .ok (code, m))
    (hval : ValueOk W E ctx call embed p.ty) (hr : Ready W P b kvs ref s0) (hk : ∀ kv ∈ kvs, Keyed kv.2)
    (hreg : ∀ c y q, ctx.registry c = .ok (.attr y q) → q ≠ attr p) (hex : attr p ∉ P.extra)
    (h : PropsInv W E ctx.registry P s0 es attrs s) :
    PropRan W E ctx.registry P s0 (exec E.lib call code s)
      (PyRuntime.parseProperty (parseTy E embed) kvs ref p attrs es) := by
  obtain ⟨a, ha, hg⟩ := ok_bind hg
  obtain ⟨rfl, -⟩ := PyCode.asAttribute_eq ha
  obtain ⟨⟨parsing, m'⟩, hgen, hg⟩ := ok_bind hg
  cases hg
  have hval1 : s.vars c!"value" = some (.obj b kvs) := (h.step.vars _ keep_value).trans hr.value
  have href : s.vars c!"ref" = some (.str ref) := (h.step.vars _ keep_ref).trans hr.ref
  have eg : eval E.lib call (.get (v c!"value") (.str p.json)) s =
      (.ok (((kvs.lookup p.json).map ofJson).getD .none), s) := by
    rw [eval, bind_ok (eval_name hval1)]
    have : eval E.lib call (.str p.json) s = (.ok (.str p.json), s) := by rw [eval]; rfl
    rw [bind_ok this, entries, bind_ok (pure_run _), ← lookup_ofJson]
    rfl
  rw [exec_seq (exec_assign_var eg)]
  have hst : Step W.errs n s (s.set (tmp c!"value" n) (((kvs.lookup p.json).map ofJson).getD .none)) :=
    step_set _ _ _ (Nat.le_refl n)
  have h1 := h.after hr hst h.errs.obj
  generalize hs1 : s.set (tmp c!"value" n) (((kvs.lookup p.json).map ofJson).getD .none) = s1 at h1 hst ⊢
  have hx : s1.vars (tmp c!"value" n) = some (((kvs.lookup p.json).map ofJson).getD .none) := by rw [← hs1, set_self]
  have hmiss : (((kvs.lookup p.json).map ofJson).getD .none).isNone = true →
      PropRan W E ctx.registry P s0 (exec E.lib call
      (if !p.optional then .ite (.isNone (t c!"value" n))
        (report (v c!"ref") (.str (c!"Property is missing: " ++ p.json))) parsing
      else PyGen.when (.isNotNone (t c!"value" n)) parsing) s1)
      (if p.optional then .ok (attrs, es) else .ok (attrs, es.add ⟨ref, c!"Property is missing: " ++ p.json⟩)) := by
    intro hn
    cases p.optional with
    | true =>
      refine ⟨s1, ?_, h1⟩
      simp only [Bool.not_true, Bool.false_eq_true, if_false]
      rw [PyGen.when, exec_if_false (s' := s1) (by rw [eval_isNotNone (eval_name hx), hn]; rfl), exec_pass]
    | false =>
      simp only [Bool.not_false, if_true, Bool.false_eq_true, if_false]
      have hst1 : Step W.errs n s1 (s1.write W.ae (.errors (es.add ⟨ref, c!"Property is missing: " ++ p.json⟩))) :=
        step_write _ _ _ rfl
      refine ⟨_, ?_, h1.after hr hst1 (write_self _ h1.errs.obj)⟩
      rw [exec_if_true (s' := s1) (by rw [eval_isNone (eval_name hx), hn])]
      exact exec_report h1.errs (eval_name ((h1.step.vars _ keep_ref).trans hr.ref)) (by rw [eval]; rfl)
  have hthere : ∀ j, kvs.lookup p.json = some j → j ≠ .null → PropRan W E ctx.registry P s0 (exec E.lib call
      (if !p.optional then .ite (.isNone (t c!"value" n))
        (report (v c!"ref") (.str (c!"Property is missing: " ++ p.json))) parsing
      else PyGen.when (.isNotNone (t c!"value" n)) parsing) s1) (do
        let (x, es) ← parseTy E embed p.ty j (sub ref p.json) es
        return (match x with
          | some x => PyRuntime.setAttr (attr p) x attrs
          | none => attrs, es)) := by
    intro j hj hnull
    rw [hj] at hx
    simp only [Option.map_some, Option.getD_some] at hx
    have hnn : (ofJson j).isNone = false := by
      cases e : (ofJson j).isNone with
      | false => rfl
      | true => exact absurd ((isNone_ofJson j).1 e) hnull
    have e1 : exec E.lib call (if !p.optional then .ite (.isNone (t c!"value" n))
        (report (v c!"ref") (.str (c!"Property is missing: " ++ p.json))) parsing
        else PyGen.when (.isNotNone (t c!"value" n)) parsing) s1 = exec E.lib call parsing s1 := by
      cases p.optional with
      | true =>
        simp only [Bool.not_true, Bool.false_eq_true, if_false]
        rw [PyGen.when, exec_if_true (s' := s1) (by rw [eval_isNotNone (eval_name hx), hnn]; rfl)]
      | false =>
        simp only [Bool.not_false, if_true]
        rw [exec_if_false (s' := s1) (by rw [eval_isNone (eval_name hx), hnn])]
    rw [e1]
    obtain ⟨ps, ho, -, -⟩ := h1.inst
    have hA : At W E ctx.registry (n + 1) (tmp c!"value" n) j (.attr (v P.var) (lower p.name)) [v c!"ref", .str p.json]
        (sub ref p.json) s1 es := by
      refine ⟨h1.errs, keep_tmp _ (Nat.lt_succ_self n), hx, ⟨[ref, p.json], by simp, .cons (.name keep_ref ?_)
        (.cons (.lit _) .nil), by simp [joined, sub]⟩, .attr (hr.keep.mono (Nat.zero_le _)) ?_ ho,
        h1.regs.mono (Nat.zero_le _)⟩
      · exact (h1.step.vars _ keep_ref).trans hr.ref
      · exact (h1.step.vars _ hr.keep).trans hr.var
    have hag := hval _ _ _ _ _ _ hgen s1 j (sub ref p.json) es (keyed_lookup hk hj) hA
    generalize parseTy E embed p.ty j (sub ref p.json) es = r at hag ⊢
    match r, hag with
    | .error z, hag => exact hag
    | .ok (none, es'), ⟨s2, e2, h2, h3⟩ => exact ⟨s2, e2, h1.after hr h2 h3⟩
    | .ok (some w, es'), ⟨s2, q, s3, e3, h2, h3, h4, h5, _⟩ =>
      exact ⟨s3, e3, (h1.after hr h2 h3).assign hr hreg hex (h5.mono (h1.low hr)) h4⟩
  unfold PyRuntime.parseProperty
  cases hj : kvs.lookup p.json with
  | none => exact hmiss (by rw [hj]; rfl)
  | some j =>
    cases j with
    | null => exact hmiss (by rw [hj]; rfl)
    | _ => exact hthere _ hj (by intro e; cases e)

/-- What the code of the properties leaves behind: it returns early if the container is full. -/
def PropsRan (W : World) (E : Env) (reg : Str → Except Exc Expr) (P : Spot) (s0 : St) (some_ : Bool)
    (R : Except Raised Flow × St) : Except Exc (Attrs × Errors) → Prop
  | .error x => ∃ t s', R = (.error (.exc x t), s')
  | .ok (attrs, es) => ∃ s', R = (.ok (if some_ && es.full then .ret .none else .normal), s') ∧
      PropsInv W E reg P s0 es attrs s'

theorem props_run {ctx : Ctx} {embed : Str → Json → Str → Errors → Except Exc (Val × Errors)}
    (hr : Ready W P b kvs ref s0) (hk : ∀ kv ∈ kvs, Keyed kv.2) (ps : List Property)
    (hval : ∀ p ∈ ps, ValueOk W E ctx call embed p.ty)
    (hreg : ∀ p ∈ ps, ∀ c y q, ctx.registry c = .ok (.attr y q) → q ≠ attr p) (hex : ∀ p ∈ ps, attr p ∉ P.extra) :
    ∀ code n, PyGen.parseProps ctx P.var ps n = .ok code → ∀ s es attrs, PropsInv W E ctx.registry P s0 es attrs s →
    PropsRan W E ctx.registry P s0 (!ps.isEmpty) (exec E.lib call code s)
      (PyRuntime.parseProps (parseTy E embed) kvs ref ps attrs es) := by
  induction ps with
  | nil =>
    intro code n hg s es attrs h
    cases hg
    exact ⟨s, by rw [exec_pass]; rfl, h⟩
  | cons p ps ih =>
    intro code n hg s es attrs h
    obtain ⟨⟨c, m⟩, h1, hg⟩ := ok_bind hg
    obtain ⟨rest, h2, hg⟩ := ok_bind hg
    cases hg
    have hp := prop_run h1 (hval p (by simp)) hr hk (hreg p (by simp)) (hex p (by simp)) h
    rw [PyRuntime.parseProps]
    generalize PyRuntime.parseProperty (parseTy E embed) kvs ref p attrs es = r at hp ⊢
    match r, hp with
    | .error z, ⟨t, s', e⟩ => exact ⟨t, s', by rw [exec_seq_error e]⟩
    | .ok (attrs', es'), ⟨s', e, hI⟩ =>
      rw [exec_seq e]
      show PropsRan _ _ _ _ _ _ _ (if es'.full then _ else _)
      cases hf : es'.full with
      | true =>
        refine ⟨s', ?_, hI⟩
        rw [exec_seq_ret (p := .none) (s' := s')]
        · simp [hf]
        · rw [exec_full hI.errs, hf, if_pos rfl, exec]; rfl
      | false =>
        rw [exec_seq (s' := s') (by rw [exec_full hI.errs, hf]; rfl), if_neg (by decide)]
        have := ih (fun p hp => hval p (by simp [hp])) (fun p hp => hreg p (by simp [hp])) (fun p hp => hex p (by simp [hp]))
          rest m h2 s' es' attrs' hI
        cases ps with
        | nil =>
          cases h2
          exact ⟨s', by rw [exec_pass, hf]; rfl, hI⟩
        | cons q qs => exact this

end

end Mapry.PyExec
