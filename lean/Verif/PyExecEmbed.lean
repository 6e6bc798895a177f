import Verif.PyExecCall

/-!
# The generated Python functions of the composites agree with `parseComposite` and `parseEmbed`
-/

namespace Mapry.PyExec

open Mapry.PyLang Mapry.PyGen Mapry.PyRuntime Mapry.Text Mapry.Duration Mapry.Naming
open Mapry.TypeGraph hiding Obj
open Mapry.PyRuntime (Json Lib Val)
open PyCode (ok_bind attrs idOf allNames defNames)
open GoCode (referencesOf)

/-! ## Parameters for registries -/

theorem registryParam_eq {g : Graph} {name x : Str} (h : PyGen.registryParam g name = .ok x) :
    ∃ c ∈ g.classes, c.name = name ∧ g.cls? name = some c ∧ x = lower c.plural ++ c!"_registry" := by
  unfold PyGen.registryParam at h
  split at h
  · rename_i c hc
    obtain ⟨y, hy, h⟩ := ok_bind h
    obtain ⟨rfl, -⟩ := PyCode.asVariable_eq hy
    cases h
    have := TypeGraph.find_mem hc
    exact ⟨c, this.1, by simpa using this.2, hc, rfl⟩
  · cases h

theorem registry_keep (x : Str) (n : Nat) : Keep n (x ++ c!"_registry") :=
  keep_plain (PyCode.noDigit_append (by simp) (by decide)) (PyCode.registry_ne (b := 'r') (by rfl) (by decide))

theorem registryParam_inj {g : Graph} (hf : PyCode.Facts g) {a b x : Str} (ha : PyGen.registryParam g a = .ok x)
    (hb : PyGen.registryParam g b = .ok x) : a = b := by
  obtain ⟨c, hc, rfl, _, rfl⟩ := registryParam_eq ha
  obtain ⟨d, hd, rfl, _, e⟩ := registryParam_eq hb
  have e := List.append_cancel_right e
  rw [nodup_inj (f := fun c : Class => lower c.plural) (List.nodup_append.1 hf.graph).2.1 hc hd e]

theorem referencesOf_nodup {g : Graph} {o : Owner} {refs : List Str} (h : referencesOf g o = .ok refs) : refs.Nodup := by
  unfold referencesOf at h
  split at h
  · cases h
    exact nodup_references (by assumption)
  · cases h

/-- The names of the parameters of `_x_from` -/
def paramNames (params : List Str) : List Str := [c!"value"] ++ params ++ [c!"ref", c!"target", c!"errors"]

theorem paramNames_nodup {g : Graph} (hf : PyCode.Facts g) {refs params : List Str} (hn : refs.Nodup)
    (h : refs.mapM (PyGen.registryParam g) = .ok params) : (paramNames params).Nodup := by
  have hp : params.Nodup := GoCode.mapM_nodup h hn fun a _ b _ y ha hb => registryParam_inj hf ha hb
  have hne : ∀ (z : Str) (b : Char), z.getLast? = some b → b ≠ 'y' → z ∉ params := by
    intro z b hz hb hm
    obtain ⟨c, _, hc⟩ := GoCode.mapM_mem h hm
    obtain ⟨_, _, _, _, e⟩ := registryParam_eq hc
    exact PyCode.registry_ne hz hb e.symm
  have h1 := hne c!"value" 'e' (by rfl) (by decide)
  have h2 := hne c!"ref" 'f' (by rfl) (by decide)
  have h3 := hne c!"target" 't' (by rfl) (by decide)
  have h4 := hne c!"errors" 's' (by rfl) (by decide)
  unfold paramNames
  rw [List.append_assoc, List.singleton_append, List.nodup_cons, List.nodup_append]
  refine ⟨?_, hp, by decide, ?_⟩
  · rw [List.mem_append, not_or]
    exact ⟨h1, by decide⟩
  · intro a ha b hb e
    subst e
    simp only [List.mem_cons, List.not_mem_nil, or_false] at hb
    rcases hb with rfl | rfl | rfl
    · exact h2 ha
    · exact h3 ha
    · exact h4 ha

theorem mem_zip_mapM {α β γ : Type} {F : α → Except Exc β} {k : α → γ} {l : List α} {ys : List β} (h : l.mapM F = .ok ys)
    {a : α} (ha : a ∈ l) {y : β} (hy : F a = .ok y) : (y, k a) ∈ ys.zip (l.map k) := by
  induction l generalizing ys with
  | nil => cases ha
  | cons b l ih =>
    obtain ⟨z, zs, h1, h2, rfl⟩ := GoCode.mapM_cons h
    rw [List.map_cons, List.zip_cons_cons, List.mem_cons]
    rcases List.mem_cons.1 ha with rfl | ha
    · rw [h1] at hy
      cases hy
      exact .inl rfl
    · exact .inr (ih h2 ha)

/-! ## The function of a composite -/

/-- The values of the arguments of `_x_from` -/
def compositeArgs (W : World) (refs : List Str) (j : Json) (ref : Str) (o : Addr) : List PV :=
  [ofJson j] ++ refs.map (fun c => .addr (W.regs c)) ++ [.str ref, .addr o, .addr W.ae]

/-- The object at the place has the attributes. -/
structure Filled (W : World) (S : Spot) (s s' : St) (es : Errors) (attrs : Attrs) : Prop where
  vars : s'.vars = s.vars
  grow : s.heap.length ≤ s'.heap.length
  frame : ∀ a, a < s.heap.length → ¬ W.obj S.o a → s'.heap[a]? = s.heap[a]?
  errs : s'.heap[W.ae]? = some (.errors es)
  inst : ∃ ps, s'.heap[S.o]? = some (.inst S.cn ps) ∧ AttrsRep W.place s'.heap S.lo S.extra attrs ps ∧
    ∃ ps0, s.heap[S.o]? = some (.inst S.cn ps0) ∧ ∀ x ∈ S.extra, ps.lookup x = ps0.lookup x

theorem Filled.step {W : World} {S : Spot} {s s' : St} {es : Errors} {attrs : Attrs} (h : Filled W S s s' es attrs) (n : Nat) :
    Step (W.obj S.o) n s s' := ⟨fun x _ => by rw [h.vars], h.grow, h.frame⟩

/-- What a call of the function leaves behind -/
def CallRan (W : World) (S : Spot) (s : St) (R : Except Raised PV × St) : Except Exc (Attrs × Errors) → Prop
  | .error x => ∃ t s', R = (.error (.exc x t), s')
  | .ok (attrs, es) => ∃ s', R = (.ok .none, s') ∧ Filled W S s s' es attrs

/-- The state when the function is called -/
structure Callable (W : World) (E : Env) (S : Spot) (refs : List Str) (ps : List Property) (s : St) (es : Errors) : Prop where
  errs : s.heap[W.ae]? = some (.errors es)
  inst : ∃ ps0, s.heap[S.o]? = some (.inst S.cn ps0) ∧ AttrsRep W.place s.heap S.lo S.extra (PyRuntime.placeholder ps) ps0
  below : S.o < S.lo ∧ W.ae < S.lo ∧ S.lo ≤ s.heap.length
  regs : ∀ c ∈ refs, RegOk W E s.heap c

section

variable {W : World} {E : Env} {call : Fn → Actual → M PV} {g : Graph} {py : ParseSchema.Py} {S : Spot} {s : St}
  {es : Errors} {j : Json} {ref : Str}

/-- The settings of the generator within a function of a composite -/
def compositeCtx (g : Graph) (py : ParseSchema.Py) (refs : List Str) : Ctx := ⟨g, py, fun c => if c ∈ refs then do
    let x ← PyGen.registryParam g c
    pure (v x) else .error .keyError⟩

theorem compositeCtx_registry {refs : List Str} {c : Str} {e : Expr} (h : (compositeCtx g py refs).registry c = .ok e) :
    c ∈ refs ∧ ∃ x, PyGen.registryParam g c = .ok x ∧ e = v x := by
  change (if c ∈ refs then (do
    let x ← PyGen.registryParam g c
    pure (v x) : Except Exc Expr) else .error .keyError) = .ok e at h
  split at h
  · obtain ⟨x, hx, h⟩ := ok_bind h
    cases h
    exact ⟨by assumption, x, hx, rfl⟩
  · cases h

theorem composite_run (hf : PyCode.Facts g) {refs params : List Str} {props : List Property} {code : Stmt}
    {embed : Str → Json → Str → Errors → Except Exc (Val × Errors)}
    (hn : refs.Nodup) (hp : refs.mapM (PyGen.registryParam g) = .ok params)
    (hc : PyGen.parseProps (compositeCtx g py refs) c!"target" props 0 = .ok code) (hv : S.var = c!"target")
    (hval : ∀ p ∈ props, ValueOk W E (compositeCtx g py refs) call embed p.ty) (hex : ∀ p ∈ props, attr p ∉ S.extra)
    (hj : Keyed j) (H : Callable W E S refs props s es) (name : Str) :
    CallRan W S s (apply E.lib call ⟨name, (paramNames params).map (⟨·, none⟩), .seq unlessDict code⟩
      ((compositeArgs W refs j ref S.o).map fun p => (none, p)) s)
      (PyRuntime.parseComposite (parseTy E embed) props j ref es) := by
  have hlen := PyCode.mapM_length hp
  have hl : (paramNames params).length = (compositeArgs W refs j ref S.o).length := by
    simp [paramNames, compositeArgs, hlen]
  have happ : apply E.lib call ⟨name, (paramNames params).map (⟨·, none⟩), .seq unlessDict code⟩
      ((compositeArgs W refs j ref S.o).map fun p => (none, p)) s = run E.lib call (.seq unlessDict code)
        ((paramNames params).zip (compositeArgs W refs j ref S.o)) s := by
    rw [apply]
    simp only [bindArgs_pos hl]
  rw [happ]
  generalize hvars : (paramNames params).zip (compositeArgs W refs j ref S.o) = vars
  have hnd : (vars.map (·.1)).Nodup := by
    rw [← hvars, List.map_fst_zip (Nat.le_of_eq hl)]
    exact paramNames_nodup hf hn hp
  have hz : vars = (c!"value", ofJson j) :: (params.zip (refs.map fun c => PV.addr (W.regs c)) ++
      [(c!"ref", .str ref), (c!"target", .addr S.o), (c!"errors", .addr W.ae)]) := by
    rw [← hvars, paramNames, compositeArgs, List.append_assoc, List.append_assoc, List.singleton_append, List.singleton_append,
      List.zip_cons_cons, List.zip_append (by simp [hlen])]
    rfl
  have l1 : vars.lookup c!"value" = some (ofJson j) := lookup_mem hnd (by simp [hz])
  have l2 : vars.lookup c!"ref" = some (.str ref) := lookup_mem hnd (by simp [hz])
  have l3 : vars.lookup c!"target" = some (.addr S.o) := lookup_mem hnd (by simp [hz])
  have l4 : vars.lookup c!"errors" = some (.addr W.ae) := lookup_mem hnd (by simp [hz])
  have herrs : Errs W.ae (frame s vars) es := ⟨l4, H.errs⟩
  obtain ⟨ps0, hi, ha⟩ := H.inst
  have hregs : RegsAt W E (compositeCtx g py refs).registry 0 (frame s vars) := by
    intro c e hce
    obtain ⟨hm, x, hx, rfl⟩ := compositeCtx_registry hce
    obtain ⟨_, _, _, _, e⟩ := registryParam_eq hx
    refine ⟨.var (e ▸ registry_keep _ _) (lookup_mem hnd ?_), H.regs c hm⟩
    rw [hz]
    exact List.mem_cons_of_mem _ (List.mem_append_left _ (mem_zip_mapM (k := fun c => PV.addr (W.regs c)) hp hm hx))
  have hinv : PropsInv W E (compositeCtx g py refs).registry S (frame s vars) es (PyRuntime.placeholder props) (frame s vars) :=
    ⟨.refl _ _ _, herrs, ⟨ps0, hi, ha, ps0, hi, fun _ _ => rfl⟩, hregs⟩
  have hif : eval E.lib call (.not (.isinstance (v c!"value") .dict)) (frame s vars) =
      (.ok (.bool (!isInstance s.heap (ofJson j) .dict)), frame s vars) := eval_not (eval_isinstance _ l1)
  -- the state afterwards is seen by the caller
  have hout : ∀ s' es' attrs', PropsInv W E (compositeCtx g py refs).registry S (frame s vars) es' attrs' s' →
      Filled W S s ⟨s'.heap, s.vars⟩ es' attrs' := fun s' es' attrs' h =>
    ⟨rfl, h.step.grow, h.step.frame, h.errs.obj, h.inst⟩
  rcases dict_cases s.heap j with ⟨hd, b, kvs, rfl⟩ | ⟨hd, hne⟩
  · have hready : Ready W S b kvs ref (frame s vars) := ⟨hv ▸ keep_target, hv ▸ l3, l1, l2, H.below⟩
    have hk : ∀ kv ∈ kvs, Keyed kv.2 := by
      cases hj with
      | obj _ hall => exact hall
    have hr := props_run (call := call) hready hk props hval (by
      intro p _ c y q hcq
      obtain ⟨_, x, _, e⟩ := compositeCtx_registry hcq
      cases e) hex code 0 (by rw [hv]; exact hc) _ _ _ hinv
    rw [PyRuntime.parseComposite]
    have e1 : exec E.lib call (.seq unlessDict code) (frame s vars) = exec E.lib call code (frame s vars) := by
      apply exec_seq
      rw [unlessDict, PyGen.when, exec_if hif, hd]
      simp only [truth, Bool.not_true, if_false, Bool.false_eq_true]
      exact exec_pass
    generalize PyRuntime.parseProps (parseTy E embed) kvs ref props (PyRuntime.placeholder props) es = r at hr ⊢
    match r, hr with
    | .error x, ⟨t, s', e⟩ =>
      rw [← e1] at e
      refine ⟨t, ⟨s'.heap, s.vars⟩, ?_⟩
      rw [run]
      rw [frame] at e
      rw [e]
    | .ok (attrs', es'), ⟨s', e, hI⟩ =>
      rw [← e1] at e
      refine ⟨⟨s'.heap, s.vars⟩, ?_, hout _ _ _ hI⟩
      rw [run]
      rw [frame] at e
      rw [e]
      cases (!props.isEmpty && es'.full) <;> rfl
  · have e1 : exec E.lib call (.seq unlessDict code) (frame s vars) = (.ok (.ret .none),
        (frame s vars).write W.ae (.errors (es.add ⟨ref, expected c!"a dictionary" j⟩))) := by
      apply exec_seq_ret
      rw [unlessDict, PyGen.when, exec_if hif, hd]
      simp only [truth, Bool.not_false, if_true]
      have hm : eval E.lib call (PyGen.format c!"Expected a dictionary, but got: {}" (.typeOf (v c!"value"))) (frame s vars) =
          (.ok (.str (expected c!"a dictionary" j)), frame s vars) := by
        rw [eval_format (eval_typeOf l1)]
        have e : c!"Expected a dictionary, but got: {}" = c!"Expected a dictionary" ++ c!", but got: {}" := rfl
        rw [e, formatText_braceless (by decide), formatText_got, typeText_ofJson]
        rfl
      rw [exec_seq (exec_report herrs (eval_name l2) hm), exec]
      rfl
    have hr : PyRuntime.parseComposite (parseTy E embed) props j ref es =
        .ok (PyRuntime.placeholder props, es.add ⟨ref, expected c!"a dictionary" j⟩) := by
      cases j with
      | obj b kvs => exact absurd rfl (hne b kvs)
      | _ => rfl
    rw [hr]
    have hst : Step W.errs 0 (frame s vars) ((frame s vars).write W.ae (.errors (es.add ⟨ref, expected c!"a dictionary" j⟩))) :=
      step_write _ _ _ rfl
    refine ⟨⟨((frame s vars).write W.ae (.errors (es.add ⟨ref, expected c!"a dictionary" j⟩))).heap, s.vars⟩, ?_, ?_⟩
    · rw [run]
      rw [frame] at e1
      rw [e1]
      rfl
    · refine ⟨rfl, hst.grow, fun a h1 h2 => hst.frame a h1 fun h => h2 (.inl h), write_self _ H.errs, ps0, ?_, ?_, ps0, hi, fun _ _ => rfl⟩
      · exact get_step (s := frame s vars) (s' := (frame s vars).write W.ae (.errors (es.add ⟨ref, expected c!"a dictionary" j⟩)))
          H.errs hst hi (by intro _ e; cases e)
      · exact AttrsRep.step (s := frame s vars) (s' := (frame s vars).write W.ae (.errors (es.add ⟨ref, expected c!"a dictionary" j⟩)))
          ha hst fun a h1 _ e => by
          have e : a = W.ae := e
          exact absurd h1 (Nat.not_le.2 (e ▸ H.below.2.1))

end

/-! ## The embeds -/

section

variable {W : World} {E : Env} {g : Graph} {py : ParseSchema.Py} {P : Program}

/-- The function `_x_from` of the module -/
theorem Good.own_call (G : Good g py P) {o : Owner} {name : Str} {b : Bool} {fs : List Func}
    (h : PyGen.parseComposite g py o name b = .ok fs) (hfs : ∀ f ∈ fs, f ∈ P.own) :
    ∃ refs params code, referencesOf g o = .ok refs ∧ refs.mapM (PyGen.registryParam g) = .ok params ∧
      PyGen.parseProps (compositeCtx g py refs) c!"target" (ownerProps g o) 0 = .ok code ∧
      ∀ L k args, callOwn L P (k + 1) (.own (c!"_" ++ lower name ++ c!"_from")) args =
        apply L (callOwn L P k) ⟨c!"_" ++ lower name ++ c!"_from", (paramNames params).map (⟨·, none⟩), .seq unlessDict code⟩ args := by
  obtain ⟨refs, h1, h⟩ := ok_bind h
  obtain ⟨params, h2, h⟩ := ok_bind h
  obtain ⟨code, h3, h⟩ := ok_bind h
  obtain ⟨f, h4, h⟩ := ok_bind h
  obtain ⟨rfl, -⟩ := PyCode.asVariable_eq h4
  have h := Except.ok.inj h
  subst h
  refine ⟨refs, params, code, h1, h2, h3, fun L k args => ?_⟩
  have := G.find_own (hfs _ (List.mem_cons_self ..))
  rw [callOwn]
  simp only at this
  simp only [this]
  rfl

theorem Good.composite (G : Good g py P) {e : Embed} (he : e ∈ g.embeds) : Naming.asComposite e.name = .ok (idOf e.name) := by
  obtain ⟨cs, es, d, _, h, _⟩ := G.types
  obtain ⟨d, _, hd⟩ := GoCode.mapM_mem' h he
  obtain ⟨n, hn, _⟩ := ok_bind hd
  rw [PyCode.idOf_eq hn, hn]

theorem lookup_placeholder (ps : List Property) (x : Str) :
    (PyRuntime.placeholder ps).lookup x = if x ∈ attrs ps then some .none else none := by
  induction ps with
  | nil => rfl
  | cons p ps ih =>
    have e1 : PyRuntime.placeholder (p :: ps) = (attr p, .none) :: PyRuntime.placeholder ps := rfl
    have e2 : attrs (p :: ps) = attr p :: attrs ps := rfl
    rw [e1, e2, List.lookup_cons]
    by_cases e : x = attr p
    · simp [e]
    · have h0 : (x == attr p) = false := by simpa using e
      rw [h0]
      simp only [List.mem_cons, e, false_or]
      exact ih

theorem attrsRep_nones {place : Str → Str → Addr} {h : List Obj} {lo : Nat} {ps : List Property} {rest q : List (Str × PV)}
    {extra : List Str} (hq : NoneAttrs (attrs ps) rest q) (hr : ∀ x ∉ extra, rest.lookup x = none) :
    AttrsRep place h lo extra (PyRuntime.placeholder ps) q := by
  refine ⟨fun x hx => ?_, fun x w p hx h1 h2 => ?_⟩
  · rw [lookup_placeholder, hq x, hr x hx]
    by_cases e : x ∈ attrs ps <;> simp [e]
  · rw [lookup_placeholder] at h1
    rw [hq x, hr x hx] at h2
    by_cases e : x ∈ attrs ps
    · rw [if_pos e] at h1 h2
      cases h1
      cases h2
      exact .none
    · rw [if_neg e] at h1
      cases h1

/-- The registries passed on -/
theorem registries_eval {ctx : Ctx} {n : Nat} {s : St} {L : Lib} {call : Fn → Actual → M PV} {refs : List Str} {es : List Expr}
    (h : refs.mapM ctx.registry = .ok es) (hr : RegsAt W E ctx.registry n s) :
    Forall₂ (fun e p => eval L call e s = (.ok p, s)) es (refs.map fun c => .addr (W.regs c)) := by
  induction refs generalizing es with
  | nil => rw [GoCode.mapM_nil] at h; cases h; exact .nil
  | cons c refs ih =>
    obtain ⟨e, es', h1, h2, rfl⟩ := GoCode.mapM_cons h
    exact .cons (eval_reg (hr c e h1).1) (ih h2)

theorem forall₂_append {α β : Type} {R : α → β → Prop} {xs xs' : List α} {ys ys' : List β} (h : Forall₂ R xs ys)
    (h' : Forall₂ R xs' ys') : Forall₂ R (xs ++ xs') (ys ++ ys') := by
  induction h with
  | nil => exact h'
  | cons hh _ ih => exact .cons hh ih

theorem Good.braceless (G : Good g py P) {refs : List Str} {c : Str} {e : Expr}
    (h : (compositeCtx g py refs).registry c = .ok e) : Braceless c := by
  obtain ⟨_, x, hx, _⟩ := compositeCtx_registry h
  obtain ⟨d, hd, rfl, _⟩ := registryParam_eq hx
  exact G.brace d hd

theorem get_push {s : St} {a : Addr} {o o' : Obj} (h : s.heap[a]? = some o') : (s.push o).heap[a]? = some o' := by
  rw [push_lt o (lt_of_get h), h]

/-- An expression statement followed by further code -/
theorem exec_seq_call {L : Lib} {call : Fn → Actual → M PV} {s : St} {f : Fn} {as : Args} {vs : Actual} {rest : Stmt}
    (h : evalArgs L call as s = (.ok vs, s)) :
    exec L call (.seq (.expr (.call f as)) rest) s = (do let _ ← call f vs; exec L call rest : M Flow) s := by
  have e : eval L call (.call f as) s = call f vs s := by rw [eval, bind_ok h]
  cases hc : call f vs s with
  | mk r s' =>
    rw [hc] at e
    cases r with
    | ok p => rw [exec_seq (exec_expr e), bind_ok hc]
    | error x => rw [exec_seq_error (exec_expr_error e), bind_error hc]

/-- The state in which the function of the embed is called -/
def embedState (n : Nat) (s : St) (cn : Str) (q : List (Str × PV)) : St :=
  (s.push (.inst cn q)).set (tmp c!"target" n) (.addr s.heap.length)

theorem embedState_step (w : Addr → Prop) (n : Nat) (s : St) (cn : Str) (q : List (Str × PV)) :
    Step w n s (embedState n s cn q) :=
  (step_push s _).trans (step_set _ _ _ (Nat.le_refl n)) (Nat.le_refl n) fun _ _ h => h

/-- The call of the function of the embed -/
theorem embed_call (G : Good g py P) {k : Nat} {ctx : Ctx} {e : Embed} (he : e ∈ g.embeds) {x : Str}
    {tgt : Target} {parts : List Expr} {n m : Nat} {code : Stmt}
    (hg : PyGen.parseValue ctx (.embed e.name) x tgt parts n = .ok (code, m)) {s : St} {j : Json} {ref : Str} {es : Errors}
    (h : At W E ctx.registry n x j tgt parts ref s es) : ∃ refs regs q, referencesOf ctx.graph (.embed e.name) = .ok refs ∧
      refs.mapM ctx.registry = .ok regs ∧ NoneAttrs (attrs e.properties) [] q ∧
      exec E.lib (callOwn E.lib P k) code s = (do
        let _ ← callOwn E.lib P k (.own (c!"_" ++ lower e.name ++ c!"_from"))
          ((compositeArgs W refs j ref s.heap.length).map fun p => (none, p))
        exec E.lib (callOwn E.lib P k) (.seq (.assign tgt (t c!"target" n)) .pass) : M Flow)
          (embedState n s (idOf e.name) q) := by
  obtain ⟨refs, h1, hg⟩ := ok_bind hg
  obtain ⟨regs, h2, hg⟩ := ok_bind hg
  obtain ⟨f, h3, hg⟩ := ok_bind hg
  obtain ⟨rfl, -⟩ := PyCode.asVariable_eq h3
  cases hg
  obtain ⟨q, hq, hn⟩ := placeholder_embed (L := E.lib) G he s
  refine ⟨refs, regs, q, h1, h2, hn, ?_⟩
  have e0 : eval E.lib (callOwn E.lib P k) (.call (.parse (c!"placeholder_" ++ lower e.name)) .nil) s =
      (.ok (.addr s.heap.length), s.push (.inst (idOf e.name) q)) := by
    have ea : evalArgs E.lib (callOwn E.lib P k) .nil s = (.ok [], s) := by rw [evalArgs]; rfl
    rw [eval, bind_ok ea]
    cases k <;> rw [callOwn, hq]
  rw [block, exec_seq (exec_assign_var e0)]
  have hst := embedState_step W.errs n s (idOf e.name) q
  have hee := get_push (o := .inst (idOf e.name) q) h.errs.obj
  have h' := h.step hst hee
  have hev : evalArgs E.lib (callOwn E.lib P k) (args (v x :: regs ++ [path parts, t c!"target" n, errors]))
      (embedState n s (idOf e.name) q) = (.ok ((compositeArgs W refs j ref s.heap.length).map fun p => (none, p)),
        embedState n s (idOf e.name) q) := by
    apply evalArgs_args
    rw [compositeArgs]
    exact forall₂_append (.cons (eval_name h'.val) (registries_eval h2 h'.regs))
      (.cons (eval_path h'.path) (.cons (eval_name (by rw [embedState, set_self])) (.cons (eval_errors h'.errs) .nil)))
  rw [block, block, block]
  exact exec_seq_call hev

/-- The code for a value which is an embedded structure -/
theorem embed_ok (G : Good g py P) (hE : E.graph = g) (hS : SettingsOk E.settings py) : ∀ k (ctx : Ctx), ctx.graph = g →
    ∀ e ∈ g.embeds, ValueOk W E ctx (callOwn E.lib P k) (parseEmbed E k) (.embed e.name) := by
  intro k
  induction k with
  | zero =>
    intro ctx hctx e he x tgt parts n code m hg s j ref es hj h
    obtain ⟨refs, regs, q, _, _, _, hx⟩ := embed_call (k := 0) G he hg h
    rw [hx]
    exact ⟨[], _, rfl⟩
  | succ k ih =>
    intro ctx hctx e he x tgt parts n code m hg s j ref es hj h
    obtain ⟨refs, regs, q, h1, h2, hq, hx⟩ := embed_call (k := k + 1) G he hg h
    rw [hx]
    obtain ⟨_, fss, _, _, hes, _, hown⟩ := G.own
    obtain ⟨fs, hfs, hfs'⟩ := GoCode.mapM_mem' hes he
    obtain ⟨refs', params, body, g1, g2, g3, g4⟩ := G.own_call hfs' (fun f hf => by
      rw [hown]
      exact List.mem_append_left _ (List.mem_append_right _ (List.mem_flatten.2 ⟨fs, hfs, hf⟩)))
    rw [hctx, g1] at h1
    cases h1
    have hprops : ownerProps g (.embed e.name) = e.properties := by
      simp [ownerProps, G.facts.named.embed? he]
    have hst := embedState_step W.errs n s (idOf e.name) q
    have hee := get_push (o := .inst (idOf e.name) q) h.errs.obj
    have h' := h.step hst hee
    have hcall : Callable W E ⟨c!"target", idOf e.name, s.heap.length, s.heap.length + 1, []⟩ refs e.properties
        (embedState n s (idOf e.name) q) es := by
      refine ⟨hee, ⟨q, push_self _ _, attrsRep_nones hq fun _ _ => rfl⟩, ⟨Nat.lt_succ_self _, ?_, ?_⟩, fun c hc => ?_⟩
      · exact Nat.lt_succ_of_lt (lt_of_get h.errs.obj)
      · simp [embedState]
      · obtain ⟨e', _, hce⟩ := GoCode.mapM_mem' h2 hc
        exact (h'.regs c e' hce).2
    have hval : ∀ p ∈ ownerProps g (.embed e.name), ValueOk W E (compositeCtx g py refs) (callOwn E.lib P k) (parseEmbed E k) p.ty := by
      intro p hp
      refine value_ok hS (fun c e' hce => G.braceless hce) p.ty fun name hn => ?_
      obtain ⟨e', he', rfl⟩ := G.facts.resolves.2 name ((occurs_owner hp).part hn)
      exact ih _ rfl e' he'
    rw [hprops] at hval g3
    have hr := composite_run (call := callOwn E.lib P k) G.facts (referencesOf_nodup g1) g2 g3 rfl hval (fun _ _ => by simp)
      (ref := ref) hj hcall (c!"_" ++ lower e.name ++ c!"_from")
    rw [← g4] at hr
    have hp : parseEmbed E (k + 1) e.name j ref es = (do
        let (attrs, es) ← PyRuntime.parseComposite (parseTy E (parseEmbed E k)) e.properties j ref es
        return (.obj e.name attrs, es)) := by
      rw [parseEmbed, hE, G.facts.named.embed? he]
    have hT : parseTy E (parseEmbed E (k + 1)) (.embed e.name) j ref es = (do
        let (attrs, es) ← PyRuntime.parseComposite (parseTy E (parseEmbed E k)) e.properties j ref es
        return (some (.obj e.name attrs), es)) := by
      rw [parseTy]
      simp only [hp]
      cases PyRuntime.parseComposite (parseTy E (parseEmbed E k)) e.properties j ref es <;> rfl
    rw [hT]
    generalize PyRuntime.parseComposite (parseTy E (parseEmbed E k)) e.properties j ref es = r at hr ⊢
    match r, hr with
    | .error y, ⟨t', s', hR⟩ => exact ⟨t', s', by rw [bind_error hR]⟩
    | .ok (attrs', es'), ⟨s', hR, hF⟩ =>
      rw [bind_ok hR]
      have hs' : Step W.errs n s s' := by
        refine hst.trans (w' := W.obj s.heap.length) (m := n) (hF.step n) (Nat.le_refl n) fun a ha hw => ?_
        rcases hw with hw | hw
        · exact hw
        · exact absurd ha (Nat.not_lt.2 (Nat.le_of_eq hw.symm))
      obtain ⟨ps, hi, ha, _⟩ := hF.inst
      obtain ⟨s2, h2⟩ := (h.sto.step h.errs.obj hs' (Nat.le_refl n)).assign (L := E.lib) (call := callOwn E.lib P (k + 1))
        (.addr s.heap.length)
      refine ⟨s', .addr s.heap.length, s2, ?_, hs', hF.errs, h2, (ha.mono (Nat.le_succ _)).obj (Nat.le_refl _) hi
        (G.composite he), rfl⟩
      have ht : s'.vars (tmp c!"target" n) = some (.addr s.heap.length) := by rw [hF.vars, embedState, set_self]
      rw [exec_seq (s' := s2), exec_pass]
      rw [PyGen.t, exec_assign (eval_name ht), bind_ok h2]
      rfl

/-- The code for a value of any type of the schema -/
theorem types_ok (G : Good g py P) (hE : E.graph = g) (hS : SettingsOk E.settings py) (k : Nat) {ctx : Ctx} (hctx : ctx.graph = g)
    (hpy : ctx.py = py) (hb : ∀ c e, ctx.registry c = .ok e → Braceless c) {ty : Ty} (ht : Occurs g ty) :
    ValueOk W E ctx (callOwn E.lib P k) (parseEmbed E k) ty :=
  value_ok (hpy ▸ hS) hb ty fun name hn => by
    obtain ⟨e', he', rfl⟩ := G.facts.resolves.2 name (ht.part hn)
    exact embed_ok G hE hS k ctx hctx e' he'

end

end Mapry.PyExec
