import Verif.GoReadProps

/-!
# The generated Go code which parses the classes and the embeddable structures
-/

namespace Mapry.GoExec

open Mapry.GoLang Mapry.GoGen Mapry.Naming
open Mapry.GoRuntime (JVal Lib field isPointer parseTy sub goName)
open Mapry.GoRuntime.Spec (Canon)
open Mapry.GoCode (Name v vi own)

/-! ## Parameters -/

/-- The parameters are bound to cells with the arguments. -/
theorem bind_ok {R : Name → Val → Prop} : ∀ {xs : List Name} {ws : List Val}, Forall₂ R xs ws → ∀ (ρ : Env) (σ : St),
    ∃ ρ', GoLang.bind xs ws ρ σ = .ok (ρ', { σ with heap := σ.heap ++ ws }) ∧ (∀ y, y ∉ xs → ρ'.lookup y = ρ.lookup y) ∧
      ∀ x ∈ xs, ∃ l w, ρ'.lookup x = some l ∧ σ.heap.length ≤ l ∧ (σ.heap ++ ws)[l]? = some w ∧ R x w := by
  intro xs ws h
  induction h with
  | nil =>
    intro ρ σ
    refine ⟨ρ, ?_, fun _ _ => rfl, nofun⟩
    rw [GoLang.bind, List.append_nil]
  | @cons x w xs ws hxw _ ih =>
    intro ρ σ
    obtain ⟨ρ', h1, h2, h3⟩ := ih ((x, σ.heap.length) :: ρ) (σ.alloc w).2
    refine ⟨ρ', ?_, fun y hy => ?_, fun y hy => ?_⟩
    · rw [GoLang.bind, h1]
      simp [St.alloc]
    · rw [List.mem_cons, not_or] at hy
      rw [h2 y hy.2, lookup_ne hy.1]
    · have happ : (σ.alloc w).2.heap ++ ws = σ.heap ++ w :: ws := by simp [St.alloc]
      by_cases hm : y ∈ xs
      · obtain ⟨l, w', h4, h5, h6, h7⟩ := h3 y hm
        rw [alloc_len] at h5
        rw [happ] at h6
        exact ⟨l, w', h4, by omega, h6, h7⟩
      · have hyx : y = x := by
          rcases List.mem_cons.1 hy with h | h
          · exact h
          · exact absurd h hm
        subst hyx
        refine ⟨σ.heap.length, w, ?_, Nat.le_refl _, by simp, hxw⟩
        rw [h2 y hm, lookup_self]

/-- The statements of a function in sequence -/
theorem exec_next {O : Order} {L : Lib} {pats : Nat → Str} {call : Call} {s : Stmt} {ss : List Stmt} {ρ ρ' : Env} {σ σ' : St}
    (h : exec L pats O call s ρ σ = .ok (.next, ρ', σ')) :
    exec L pats O call (block (s :: ss)) ρ σ = exec L pats O call (block ss) ρ' σ' := by
  rw [block, exec_seq O L pats call h]

theorem exec_stop {O : Order} {L : Lib} {pats : Nat → Str} {call : Call} {s : Stmt} {ss : List Stmt} {ρ : Env} {σ : St} {e : Exc}
    (h : exec L pats O call s ρ σ = .error e) : exec L pats O call (block (s :: ss)) ρ σ = .error e := by
  rw [block, exec_seq_error O L pats call h]

theorem exec_return {O : Order} {L : Lib} {pats : Nat → Str} {call : Call} {s : Stmt} {ss : List Stmt} {ρ ρ' : Env} {σ σ' : St}
    (h : exec L pats O call s ρ σ = .ok (.ret, ρ', σ')) : exec L pats O call (block (s :: ss)) ρ σ = .ok (.ret, ρ', σ') := by
  rw [block, exec_seq_ret O L pats call h]

theorem eval_isNil {L : Lib} {pats : Nat → Str} {ρ : Env} {σ : St} {e : Expr} {w : Val} (h : eval L pats ρ σ e = .ok w) :
    eval L pats ρ σ (.isNil e) = .ok (.bool w.isNil) := by
  rw [eval, h]
  rfl

/-- The checks at the start -/
theorem preamble_ok {O : Order} {L : Lib} {pats : Nat → Str} {call : Call} {ρ : Env} {σ : St} {w : Val}
    (ht : eval L pats ρ σ (.var (v c!"target")) = .ok w) (he : eval L pats ρ σ (.var GoCode.errors) = .ok .errors) :
    exec L pats O call preamble ρ σ = if w.isNil then .error (.panic c!"unexpected nil target")
      else if σ.errors.empty then .ok (.next, ρ, σ) else .error (.panic c!"unexpected non-empty errors") := by
  have h1 := eval_isNil ht
  have h2 := eval_isNil he
  rw [preamble]
  cases hw : w.isNil with
  | true =>
    rw [hw] at h1
    rw [if_pos rfl]
    exact exec_stop (by rw [exec_when_true h1]; rfl)
  | false =>
    rw [hw] at h1
    simp only [Bool.false_eq_true, if_false]
    rw [exec_next (exec_when_false h1), exec_next (exec_when_false h2)]
    have h3 : eval L pats ρ σ (.not .errorsEmpty) = .ok (.bool (!σ.errors.empty)) := eval_not rfl
    cases hem : σ.errors.empty with
    | true =>
      rw [hem] at h3
      rw [exec_next (exec_when_false h3)]
      rfl
    | false =>
      rw [hem] at h3
      exact exec_stop (by rw [exec_when_true h3]; rfl)

/-- The cast of the value to a map -/
theorem castMap_bad {O : Order} {L : Lib} {pats : Nat → Str} {call : Call} {ρ : Env} {σ : St} {j : JVal} {r : Str} {Sv Sr : Nat}
    {cast : Option Name} (hcast : cast = none ∨ cast = some (v c!"cast")) (hv : ρ.lookup (v c!"value") = some Sv)
    (hv' : σ.heap[Sv]? = some (.json j)) (hr : ρ.lookup (v c!"ref") = some Sr) (hr' : σ.heap[Sr]? = some (.str r))
    (hj : kindVal .map j = none) : ∃ ρ' h', Grown σ.heap h' ∧ exec L pats O call (castMap cast) ρ σ = .ok (.ret, ρ', { σ with
      heap := h', errors := σ.errors.add ⟨r, L.sprintf c!"expected a map[string]interface{}, but got: %T" [j]⟩ }) := by
  have h2 := evalTwo_assert (k := .map) (eval_var L pats hv hv')
  rw [hj] at h2
  have key : ∃ ρ1 σ1, exec L pats O call (.declare2 cast (v c!"ok") (.assert .map (.var (v c!"value")))) ρ σ =
      .ok (.next, ρ1, σ1) ∧ eval L pats ρ1 σ1 (.var (v c!"ok")) = .ok (.bool false) ∧ ρ1.lookup (v c!"value") = some Sv ∧
      ρ1.lookup (v c!"ref") = some Sr ∧ Grown σ.heap σ1.heap ∧ σ1.errors = σ.errors ∧ σ1.ranges = σ.ranges := by
    rcases hcast with rfl | rfl
    · refine ⟨(v c!"ok", σ.heap.length) :: ρ, (σ.alloc (.bool false)).2, ?_, eval_var L pats (lookup_self _ _ _) (alloc_get _ _),
        (lookup_ne (by decide) _ _).trans hv, (lookup_ne (by decide) _ _).trans hr, grown_append _ _, rfl, rfl⟩
      rw [exec, h2]
      rfl
    · refine ⟨_, _, exec_declare2 h2, eval_second, ?_, ?_, (grown_append _ _).trans (grown_append _ _), rfl, rfl⟩
      · exact (lookup_ne (by decide) _ _).trans ((lookup_ne (by decide) _ _).trans hv)
      · exact (lookup_ne (by decide) _ _).trans ((lookup_ne (by decide) _ _).trans hr)
  obtain ⟨ρ1, σ1, h3, h4, h5, h6, h7, h8, h9⟩ := key
  refine ⟨ρ1, σ1.heap, h7, ?_⟩
  rw [castMap, exec_seq O L pats call h3, exec_when_true (eval_not h4)]
  have h10 : eval L pats ρ1 σ1 (.var (v c!"ref")) = .ok (.str r) := eval_var L pats h6 (h7.get (fun h => h) hr')
  have h11 : eval L pats ρ1 σ1 (.sprintf c!"expected a map[string]interface{}, but got: %T" [.var (v c!"value")]) =
      .ok (.str (L.sprintf c!"expected a map[string]interface{}, but got: %T" [j])) :=
    eval_sprintf (evalAll_one (eval_var L pats h5 (h7.get (fun h => h) hv'))) rfl
  have h12 : exec L pats O call (.report (.var (v c!"ref"))
      (.sprintf c!"expected a map[string]interface{}, but got: %T" [.var (v c!"value")])) ρ1 σ1 = .ok (.next, ρ1,
      { σ1 with errors := σ1.errors.add ⟨r, L.sprintf c!"expected a map[string]interface{}, but got: %T" [j]⟩ }) := by
    rw [exec, h10, h11]
    rfl
  rw [exec_seq O L pats call h12]
  show Except.ok _ = _
  rw [← h8, ← h9]

theorem castMap_good {O : Order} {L : Lib} {pats : Nat → Str} {call : Call} {ρ : Env} {σ : St} {kvs : List (Str × JVal)} {Sv : Nat}
    {cast : Option Name} (hcast : cast = none ∨ cast = some (v c!"cast")) (hv : ρ.lookup (v c!"value") = some Sv)
    (hv' : σ.heap[Sv]? = some (.json (.obj kvs))) : ∃ ρ' σ', exec L pats O call (castMap cast) ρ σ = .ok (.next, ρ', σ') ∧
      Grown σ.heap σ'.heap ∧ stOf σ' = stOf σ ∧ (∀ x, x ≠ v c!"cast" → x ≠ v c!"ok" → ρ'.lookup x = ρ.lookup x) ∧
      (∃ l, ρ'.lookup (v c!"ok") = some l ∧ σ.heap.length ≤ l ∧ σ'.heap[l]? = some (.bool true)) ∧
      (cast = some (v c!"cast") → ∃ l, ρ'.lookup (v c!"cast") = some l ∧ σ.heap.length ≤ l ∧
        σ'.heap[l]? = some (.json (.obj kvs))) := by
  have h2 : evalTwo L pats ρ σ (.assert .map (.var (v c!"value"))) = .ok (.json (.obj kvs), .bool true) :=
    evalTwo_assert (k := .map) (eval_var L pats hv hv')
  rcases hcast with rfl | rfl
  · refine ⟨(v c!"ok", σ.heap.length) :: ρ, (σ.alloc (.bool true)).2, ?_, grown_append _ _, rfl,
      fun x _ hx => lookup_ne hx _ _, ⟨_, lookup_self _ _ _, Nat.le_refl _, alloc_get _ _⟩, fun h => by cases h⟩
    have h3 : exec L pats O call (.declare2 none (v c!"ok") (.assert .map (.var (v c!"value")))) ρ σ =
        .ok (.next, (v c!"ok", σ.heap.length) :: ρ, (σ.alloc (.bool true)).2) := by
      rw [exec, h2]
      rfl
    rw [castMap, exec_seq O L pats call h3]
    exact exec_when_false (eval_not (eval_var L pats (lookup_self _ _ _) (alloc_get _ _)))
  · refine ⟨after2 (v c!"cast") (v c!"ok") ρ σ, ((σ.alloc (.json (.obj kvs))).2.alloc (.bool true)).2, ?_,
      (grown_append _ _).trans (grown_append _ _), rfl, fun x hx hx' => (lookup_ne hx' _ _).trans
      (lookup_ne hx _ _), ⟨_, lookup_self _ _ _, Nat.le_succ _, by rw [← alloc_len σ (.json (.obj kvs))]; exact alloc_get _ _⟩,
      fun _ => ⟨σ.heap.length, (lookup_ne (by decide) _ _).trans (lookup_self _ _ _), Nat.le_refl _,
      alloc_old _ _ (alloc_get _ _)⟩⟩
    rw [castMap, exec_seq O L pats call (exec_declare2 h2)]
    exact exec_when_false (eval_not eval_second)

/-! ## The functions -/

/-- What a function has done with the structure at the address -/
def CompositeRead (g : Graph) (reg : Str → Str → Option Addr) (a : Addr) (c0 : Val) (ps : List Property) (id : Option Str) (σ : St) :
    Except Exc ((GoRuntime.Fields × Bool) × GoRuntime.St) → Except Exc (List Val × St) → Prop
  | .ok ((fields, b), st), X => ∃ σ' c x, X = .ok ([], σ') ∧ Frame (· = a.loc) σ.heap σ'.heap ∧ stOf σ' = st ∧
      σ'.heap[a.loc]? = some c ∧ Within a.path c0 .zero c x ∧
      (σ'.errors.empty = true → σ.errors.empty = true ∧ b = true ∧ (∀ s, id = some s → fieldOf c!"ID" x = some (.str s)) ∧
        ∀ p ∈ ps, ∃ w y, fieldOf (field p) x = some w ∧ fields.lookup (field p) = some y ∧
          BuiltProp g reg σ'.heap σ.heap.length p w y)
  | .error e, X => Stops e X

/-- The arguments of a function -/
def argsOf (j : JVal) (id : Option Str) (vs : List Val) (r : Str) (t : Val) : List Val :=
  Val.json j :: ((match id with | some s => [Val.str s] | none => []) ++ vs ++ [Val.str r, t, .errors])

theorem zeroFields_lookup {ps : List Property} (hn : (ps.map field).Nodup) {p : Property} (hp : p ∈ ps) :
    (GoRuntime.zeroFields ps).lookup (field p) = some (zeroField p) := by
  induction ps with
  | nil => cases hp
  | cons q ps ih =>
    rw [List.map_cons, List.nodup_cons] at hn
    show List.lookup (field p) ((field q, zeroField q) :: GoRuntime.zeroFields ps) = _
    rw [List.lookup_cons]
    rcases List.mem_cons.1 hp with rfl | hp
    · simp
    · have hne : field p ≠ field q := fun e => hn.1 (e ▸ List.mem_map_of_mem hp)
      rw [beq_eq_false_iff_ne.2 hne]
      exact ih hn.2 hp

/-- What a parameter is bound to -/
def ParamOk (g : Graph) (T : Nat → Prop) (h₀ : List Val) (reg : Str → Str → Option Addr) (refs : List Str) (j : JVal)
    (id : Option Str) (r : Str) (t : Val) (x : Name) (w : Val) : Prop :=
  (x = v c!"value" → w = .json j) ∧ (x = v c!"ref" → w = .str r) ∧ (x = v c!"target" → w = t) ∧
  (x = GoCode.errors → w = .errors) ∧ (x = v c!"id" → ∀ s, id = some s → w = .str s) ∧
  ∀ c ∈ refs, GoCode.registryParam g c = .ok x → RegVal T h₀ reg c w

theorem param_own {g : Graph} {c : Str} {x : Name} (h : GoCode.registryParam g c = .ok x) : ∃ d p, g.cls? c = some d ∧
    camelCase d.plural = .ok p ∧ x = own [] p c!"Registry" := by
  unfold GoCode.registryParam at h
  cases hc : g.cls? c with
  | none => rw [hc] at h; cases h
  | some d =>
    rw [hc] at h
    cases hp : camelCase d.plural with
    | error _ => simp only [hp] at h; cases h
    | ok p =>
      simp only [hp] at h
      cases h
      exact ⟨d, p, rfl, hp, rfl⟩

theorem cls_mem {g : Graph} {c : Str} {d : Class} (h : g.cls? c = some d) : d ∈ g.classes ∧ d.name = c := by
  unfold Graph.cls? at h
  exact ⟨List.mem_of_find?_eq_some h, by simpa using List.find?_some h⟩

theorem params_ok {g : Graph} {T : Nat → Prop} {h₀ : List Val} {reg : Str → Str → Option Addr}
    (hpl : ∀ c ∈ g.classes, ∀ d ∈ g.classes, camelCase c.plural = camelCase d.plural → c.name = d.name)
    {refs : List Str} {params : List Name} (hp : refs.mapM (GoCode.registryParam g) = .ok params) {vs : List Val}
    (hvs : Forall₂ (RegVal T h₀ reg) refs vs) (j : JVal) (isClass : Bool) (id : Option Str) (hid : isClass = id.isSome) (r : Str)
    (t : Val) : Forall₂ (ParamOk g T h₀ reg refs j id r t)
      ([v c!"value"] ++ (if isClass then [v c!"id"] else []) ++ params ++ [v c!"ref", v c!"target", GoCode.errors])
      (argsOf j id vs r t) := by
  have hnot : ∀ b c, GoCode.registryParam g c ≠ .ok (v b) := by
    intro b c h
    obtain ⟨_, _, _, _, h⟩ := param_own h
    exact absurd h (v_ne_own _ _ _ _)
  have hv : ∀ b w, (b = c!"value" → w = .json j) → (b = c!"ref" → w = .str r) → (b = c!"target" → w = t) →
      (b = c!"errors" → w = .errors) → (b = c!"id" → ∀ s, id = some s → w = .str s) →
      ParamOk g T h₀ reg refs j id r t (v b) w := by
    intro b w h1 h2 h3 h4 h5
    have hi : ∀ b', v b = v b' → b = b' := fun b' h => by cases h; rfl
    exact ⟨fun h => h1 (hi _ h), fun h => h2 (hi _ h), fun h => h3 (hi _ h), fun h => h4 (hi _ h), fun h => h5 (hi _ h),
      fun c _ h => absurd h (hnot b c)⟩
  have hown : ∀ (rs : List Str) (xs : List Name) (ws : List Val), (∀ c ∈ rs, c ∈ refs) → rs.mapM (GoCode.registryParam g) = .ok xs →
      Forall₂ (RegVal T h₀ reg) rs ws → Forall₂ (ParamOk g T h₀ reg refs j id r t) xs ws := by
    intro rs
    induction rs with
    | nil =>
      intro xs ws _ h1 h2
      cases h1
      cases h2
      exact .nil
    | cons c rs ih =>
      intro xs ws hm h1 h2
      rw [List.mapM_cons] at h1
      cases h3 : GoCode.registryParam g c with
      | error _ => rw [h3] at h1; cases h1
      | ok x =>
        cases h4 : rs.mapM (GoCode.registryParam g) with
        | error _ => rw [h3, h4] at h1; cases h1
        | ok ys =>
          rw [h3, h4] at h1
          cases h1
          cases h2 with
          | cons h5 h6 =>
            refine .cons ?_ (ih _ _ (fun c hc => hm c (List.mem_cons_of_mem _ hc)) h4 h6)
            obtain ⟨d, p, hd, hp, rfl⟩ := param_own h3
            have hne : ∀ b, own [] p c!"Registry" ≠ v b := fun b => own_ne_v _ _ _ _
            refine ⟨fun h => absurd h (hne _), fun h => absurd h (hne _), fun h => absurd h (hne _), fun h => absurd h (hne _),
              fun h => absurd h (hne _), fun c' hc' h => ?_⟩
            obtain ⟨d', p', hd', hp', he⟩ := param_own h
            cases he
            have : c = c' := by
              rw [← (cls_mem hd).2, ← (cls_mem hd').2]
              exact hpl _ (cls_mem hd).1 _ (cls_mem hd').1 (hp.trans hp'.symm)
            exact this ▸ h5
  have hlast : Forall₂ (ParamOk g T h₀ reg refs j id r t) [v c!"ref", v c!"target", GoCode.errors] [Val.str r, t, .errors] := by
    refine .cons (hv _ _ ?_ ?_ ?_ ?_ ?_) (.cons (hv _ _ ?_ ?_ ?_ ?_ ?_) (.cons (hv _ _ ?_ ?_ ?_ ?_ ?_) .nil)) <;>
      first | exact fun _ => rfl | exact fun h => absurd h (by decide)
  have hfirst : Forall₂ (ParamOk g T h₀ reg refs j id r t) (if isClass then [v c!"id"] else [])
      (match id with | some s => [Val.str s] | none => []) := by
    cases id with
    | none =>
      cases hid
      exact .nil
    | some s =>
      cases hid
      refine .cons (hv _ _ ?_ ?_ ?_ ?_ ?_) .nil <;> first | (exact fun h => absurd h (by decide)) | skip
      intro _ s' h
      cases h
      rfl
  unfold argsOf
  simp only [List.append_assoc, List.cons_append, List.nil_append]
  refine .cons (hv _ _ ?_ ?_ ?_ ?_ ?_) (forall₂_append hfirst (forall₂_append (hown _ _ _ (fun _ h => h) hp hvs) hlast)) <;>
    first | exact fun _ => rfl | exact fun h => absurd h (by decide)

/-- The assignment of a field of the target -/
theorem assign_field {O : Order} {L : Lib} {pats : Nat → Str} {call : Call} {ρ : Env} {σ σ1 : St} {x : Name} {S : Nat} {a : Addr}
    {f : Str} {e : Rhs} {w c0 x0 z : Val} (hr : evalRhs L pats call ρ σ e = .ok (w, σ1)) (ht : ρ.lookup x = some S)
    (ht' : σ1.heap[S]? = some (.ptr a)) (hc : σ1.heap[a.loc]? = some c0) (hx : part a.path c0 = some x0)
    (hf : fieldOf f x0 = some z) : ∃ c y, exec L pats O call (.assign (.field (.var x) f) e) ρ σ =
      .ok (.next, ρ, σ1.put a.loc c) ∧ Within a.path c0 x0 c y ∧ fieldOf f y = some w ∧ ∀ f', f' ≠ f → fieldOf f' y = fieldOf f' x0 := by
  obtain ⟨y0, h1, _, _⟩ := update_field hf w
  obtain ⟨c, h2⟩ := update_some hx y0
  have h3 : update (a.path ++ [.field f]) w c0 = some c := update_append hx h1 h2
  obtain ⟨y, h4, h5, h6⟩ := update_within hx hf h3
  refine ⟨c, y, ?_, .inl h4, h5, h6⟩
  rw [exec, hr]
  simp only [okBind]
  rw [assignTo, eval_var L pats ht ht']
  show (do let σ ← need (σ1.write ⟨a.loc, a.path ++ [Step.field f]⟩ w); return (Flow.next, ρ, σ)) = _
  have h7 : σ1.write ⟨a.loc, a.path ++ [Step.field f]⟩ w = some (σ1.put a.loc c) := by
    rw [St.write, hc, Option.bind_some, h3]
    rfl
  rw [h7]
  rfl

/-- A function without results -/
theorem run_void {O : Order} {L : Lib} {P : Program} {F : Func} (hn : (P.funcs.map (·.name)).Nodup) (hF : F ∈ P.funcs)
    (hr : F.results = []) (hd : F.deferred = .skip) (fuel : Nat) {args : List Val} {σ σ1 : St} {ρ : Env}
    (hb : GoLang.bind F.params args [] σ = .ok (ρ, σ1)) : run O L P (fuel + 1) F.name args σ =
      (exec L P.patterns O (run O L P fuel) F.body ρ σ1).map fun q => ([], q.2.2) := by
  rw [run_eq hn hF, hb, hr, hd]
  simp only [okBind, List.map_nil, GoLang.bind]
  cases exec L P.patterns O (run O L P fuel) F.body ρ σ1 <;> rfl

theorem exec_last {O : Order} {L : Lib} {pats : Nat → Str} {call : Call} {s : Stmt} {ρ ρ' : Env} {σ σ' : St} {fl : Flow}
    (h : exec L pats O call s ρ σ = .ok (fl, ρ', σ')) :
    ∃ fl', exec L pats O call (block [s, .ret]) ρ σ = .ok (fl', ρ', σ') := by
  cases fl with
  | next => exact ⟨.ret, by rw [exec_next h]; rfl⟩
  | ret => exact ⟨.ret, exec_return h⟩
  | brk =>
    refine ⟨.brk, ?_⟩
    rw [block, exec, h]
    rfl

section
variable {E : GoRuntime.Env} {P : Program} {T : Nat → Prop} {h₀ : List Val}
  {reg : Str → Str → Option Addr} {embed : Str → JVal → Str → GV → GoRuntime.St → Except Exc (GV × GoRuntime.St)}

theorem composite_read (hn : (P.funcs.map (·.name)).Nodup) {uids : List (Str × Nat)}
    (hu : ∀ q uid, uidOf uids q = .ok uid → P.patterns uid = q) (hids : ∀ c s, s ∈ E.ids c ↔ (reg c s).isSome = true)
    (hpl : ∀ c ∈ E.graph.classes, ∀ d ∈ E.graph.classes, camelCase c.plural = camelCase d.plural → c.name = d.name) {fuel : Nat}
    (hcall : Calls E.graph T h₀ reg embed (run E.order E.lib P fuel)) {o : TypeGraph.Owner} {name : Str} {ps : List Property}
    {isClass : Bool} {F : Func} (hgen : GoGen.parseComposite E.graph uids o name ps isClass = .ok F) (hF : F ∈ P.funcs)
    (hnd : (ps.map field).Nodup) (hres : ∀ p ∈ ps, Resolved E.graph p.ty) (hnoid : isClass = true → c!"ID" ∉ ps.map field) {refs : List Str}
    (hrefs : GoCode.referencesOf E.graph o = .ok refs) {vs : List Val} (hvs : Forall₂ (RegVal T h₀ reg) refs vs) {j : JVal}
    {id : Option Str} (hid : isClass = id.isSome) {r : Str} {a : Addr} {c0 : Val} {σ : St} (hfr : Frame T h₀ σ.heap)
    (hfree : Free T h₀ a.loc) (hc : σ.heap[a.loc]? = some c0) (hx : part a.path c0 = some .zero) (hcan : Canon j) :
    CompositeRead E.graph reg a c0 ps id σ
      (GoRuntime.parseComposite E.lib (parseTy E embed) ps j r (GoRuntime.zeroFields ps) (stOf σ))
      (run E.order E.lib P (fuel + 1) F.name (argsOf j id vs r (.ptr a)) σ) := by
  unfold GoGen.parseComposite at hgen
  rw [hrefs] at hgen
  simp only [okBind] at hgen
  cases hp : refs.mapM (GoCode.registryParam E.graph) with
  | error _ => rw [hp] at hgen; cases hgen
  | ok params =>
  rw [hp] at hgen
  simp only [okBind] at hgen
  generalize hctx : (⟨E.graph, uids, fun c => if c ∈ refs then do pure (Expr.var (← GoCode.registryParam E.graph c))
    else .error .keyError⟩ : Ctx) = ctx at hgen
  cases hprops : GoGen.parseProps ctx ps 0 with
  | error _ => rw [hprops] at hgen; cases hgen
  | ok props =>
  rw [hprops] at hgen
  simp only [okBind] at hgen
  cases hname : ucamelCase name with
  | error _ => rw [hname] at hgen; cases hgen
  | ok f =>
  rw [hname] at hgen
  have hlt : a.loc < σ.heap.length := lt_of_get hc
  obtain ⟨ρ1, hb, -, hpar⟩ := bind_ok (params_ok hpl hp hvs j isClass id hid r (.ptr a)) [] σ
  have hFp : F.params = [v c!"value"] ++ (if isClass then [v c!"id"] else []) ++ params ++
      [v c!"ref", v c!"target", GoCode.errors] := by cases hgen; rfl
  have hFb : F.body = block [preamble, castMap (if ps.isEmpty then none else some (v c!"cast")),
      if isClass then .assign (.field (.var (v c!"target")) c!"ID") (.val (.var (v c!"id"))) else .skip, props, .ret] := by
    cases hgen; rfl
  rw [run_void hn hF (by cases hgen; rfl) (by cases hgen; rfl) fuel (hFp.symm ▸ hb), hFb]
  clear hFb hFp hgen hb
  generalize hσ1 : ({ σ with heap := σ.heap ++ argsOf j id vs r (.ptr a) } : St) = σ1
  have hh1 : σ1.heap = σ.heap ++ argsOf j id vs r (.ptr a) := by rw [← hσ1]
  rw [← hh1] at hpar
  have hg1 : Grown σ.heap σ1.heap := by
    rw [hh1]
    exact ⟨by simp, fun k hk _ => List.getElem?_append_left hk⟩
  have hst1 : stOf σ1 = stOf σ := by rw [← hσ1]; rfl
  clear hσ1 hh1
  obtain ⟨lt, wt, hlt1, hlt2, hlt3, hlt4⟩ := hpar (v c!"target") (by simp)
  cases hlt4.2.2.1 rfl
  obtain ⟨lr, wr, hlr1, hlr2, hlr3, hlr4⟩ := hpar (v c!"ref") (by simp)
  cases hlr4.2.1 rfl
  obtain ⟨lv, wv, hlv1, hlv2, hlv3, hlv4⟩ := hpar (v c!"value") (by simp)
  cases hlv4.1 rfl
  obtain ⟨le, we, hle1, hle2, hle3, hle4⟩ := hpar GoCode.errors (by simp)
  cases hle4.2.2.2.1 rfl
  have hpre := preamble_ok (O := E.order) (L := E.lib) (pats := P.patterns) (call := run E.order E.lib P fuel)
    (eval_var E.lib P.patterns hlt1 hlt3) (eval_var E.lib P.patterns hle1 hle3)
  have herr : σ1.errors = σ.errors := congrArg GoRuntime.St.errors hst1
  rw [herr] at hpre
  replace hpre : exec E.lib P.patterns E.order (run E.order E.lib P fuel) preamble ρ1 σ1 = if σ.errors.empty = true then
    .ok (.next, ρ1, σ1) else .error (.panic c!"unexpected non-empty errors") := hpre
  unfold GoRuntime.parseComposite
  cases hem : (stOf σ).errors.empty with
  | false =>
    have hem' : σ.errors.empty = false := hem
    rw [hem'] at hpre
    exact .inr (by rw [exec_stop hpre]; rfl)
  | true =>
  have hem' : σ.errors.empty = true := hem
  rw [hem', if_pos rfl] at hpre
  simp only [Bool.not_true, Bool.false_eq_true, if_false]
  rw [exec_next hpre]
  have hcast : (if ps.isEmpty then none else some (v c!"cast")) = none ∨ (if ps.isEmpty then none else some (v c!"cast")) =
      some (v c!"cast") := by split <;> simp
  have hbad : kindVal .map j = none → CompositeRead E.graph reg a c0 ps id σ (.ok ((GoRuntime.zeroFields ps, false),
      (stOf σ).add r (E.lib.sprintf c!"expected a map[string]interface{}, but got: %T" [j])))
      ((exec E.lib P.patterns E.order (run E.order E.lib P fuel) (block [castMap (if ps.isEmpty then none else some (v c!"cast")),
        if isClass then .assign (.field (.var (v c!"target")) c!"ID") (.val (.var (v c!"id"))) else .skip, props, .ret]) ρ1 σ1).map
        fun q => ([], q.2.2)) := by
    intro hj
    obtain ⟨ρ2, h2, h3, h4⟩ := castMap_bad (O := E.order) (L := E.lib) (pats := P.patterns) (call := run E.order E.lib P fuel)
      hcast hlv1 hlv3 hlr1 hlr3 hj
    rw [exec_return h4]
    refine ⟨_, c0, .zero, rfl, Frame.grown (hg1.trans h3), ?_, (hg1.trans h3).get (fun h => h) hc, .inr ⟨rfl, rfl⟩, fun h => ?_⟩
    · have hr1 : σ1.ranges = σ.ranges := congrArg GoRuntime.St.ranges hst1
      simp only [stOf, GoRuntime.St.add, herr, hr1]
    · have := add_empty σ1.errors ⟨r, E.lib.sprintf c!"expected a map[string]interface{}, but got: %T" [j]⟩
      exact absurd (this.symm.trans h) (by simp)
  cases j with
  | obj kvs =>
    obtain ⟨ρ2, σ2, h1, h2, h3, h4, -, h6⟩ := castMap_good (O := E.order) (L := E.lib) (pats := P.patterns)
      (call := run E.order E.lib P fuel) hcast hlv1 hlv3
    rw [exec_next h1]
    have hold : ∀ {l w}, σ1.heap[l]? = some w → σ2.heap[l]? = some w := fun h => h2.get (fun h => h) h
    have ht2 := (h4 (v c!"target") (by decide) (by decide)).trans hlt1
    have hr2 := (h4 (v c!"ref") (by decide) (by decide)).trans hlr1
    have hc2 : σ2.heap[a.loc]? = some c0 := (hg1.trans h2).get (fun h => h) hc
    have hassign : ∃ σ3 c1 x1, exec E.lib P.patterns E.order (run E.order E.lib P fuel)
        (if isClass then .assign (.field (.var (v c!"target")) c!"ID") (.val (.var (v c!"id"))) else .skip) ρ2 σ2 =
        .ok (.next, ρ2, σ3) ∧ Frame (· = a.loc) σ2.heap σ3.heap ∧ stOf σ3 = stOf σ2 ∧ σ3.heap[a.loc]? = some c1 ∧
        Within a.path c0 .zero c1 x1 ∧ (∀ s, id = some s → fieldOf c!"ID" x1 = some (.str s)) ∧
        ∀ f, (isClass = true → f ≠ c!"ID") → fieldOf f x1 = some .zero := by
      cases isClass with
      | false =>
        refine ⟨σ2, c0, .zero, rfl, .refl _ _, rfl, hc2, .inr ⟨rfl, rfl⟩, fun s hs => ?_, fun f _ => rfl⟩
        rw [hs] at hid
        cases hid
      | true =>
        obtain ⟨li, wi, hli1, hli2, hli3, hli4⟩ := hpar (v c!"id") (by simp)
        cases id with
        | none => cases hid
        | some s =>
          cases hli4.2.2.2.2.1 rfl s rfl
          have he := eval_var E.lib P.patterns ((h4 (v c!"id") (by decide) (by decide)).trans hli1) (hold hli3)
          obtain ⟨c1, x1, e1, e2, e3, e4⟩ := assign_field (O := E.order) (f := c!"ID")
            (evalRhs_val E.lib P.patterns (run E.order E.lib P fuel) he) ht2 (hold hlt3) hc2 hx rfl
          refine ⟨σ2.put a.loc c1, c1, x1, e1, frame_set _ _ _, rfl, List.getElem?_set_self (lt_of_get hc2), e2, fun s' hs' => ?_,
            fun f hf => e4 f (hf rfl)⟩
          cases hs'
          exact e3
    obtain ⟨σ3, c1, x1, g1, g2, g3, g4, g5, g6, g7⟩ := hassign
    rw [exec_next g1]
    have hx1 := g5.part hx
    have hst3 : stOf σ3 = stOf σ := g3.trans (h3.trans hst1)
    have hlen : σ.heap.length ≤ σ3.heap.length := Nat.le_trans (hg1.trans h2).more g2.more
    have hget : ∀ {l w}, σ.heap.length ≤ l → σ2.heap[l]? = some w → σ3.heap[l]? = some w := by
      intro l w hl hw
      exact g2.get (fun h => by have : l = a.loc := h; omega) hw
    have hfr3 : Frame T h₀ σ3.heap := hfree.frame (hfr.trans (Frame.grown (hg1.trans h2))) g2
    have HP : PropsRead E.graph reg σ.heap.length a c1 x1 ps (GoRuntime.zeroFields ps) ρ2 σ3
        (GoRuntime.parseProps (parseTy E embed) kvs r ps (GoRuntime.zeroFields ps) (stOf σ3))
        (exec E.lib P.patterns E.order (run E.order E.lib P fuel) props ρ2 σ3) := by
      cases ps with
      | nil =>
        cases hprops
        exact ⟨.next, ρ2, σ3, c1, x1, rfl, .refl _ _ _ _, rfl, g4, .inr ⟨rfl, rfl⟩, fun _ _ => rfl, fun _ _ => rfl,
          fun he => ⟨he, nofun⟩⟩
      | cons q ps =>
        obtain ⟨lc, hlc1, hlc2, hlc3⟩ := h6 rfl
        have HF : Frames ρ2 σ3 a r kvs :=
          ⟨⟨lt, ht2, hget hlt2 (hold hlt3), by omega⟩, ⟨lr, hr2, hget hlr2 (hold hlr3), by omega⟩,
            ⟨lc, hlc1, hget (Nat.le_trans hg1.more hlc2) hlc3, by have := hg1.more; omega⟩⟩
        refine props_read (x₀ := x1) (fs := (q :: ps).map field) (by rw [← hctx]) hcall (by rw [← hctx]; exact hu) hids HF ?_ hfree
          hcan hfr3 hlt (q :: ps) 0 props hprops ρ2 σ3 c1 x1 _ ⟨.refl _ _ _ _, c1, x1, g4, hx1, fun _ _ => rfl⟩ g4 hx1 hnd
          (fun p hp => List.mem_map_of_mem hp) (fun p hp => g7 _ fun hcl e => hnoid hcl (e ▸ List.mem_map_of_mem hp))
          (fun p hp => zeroFields_lookup hnd hp) hres hlen
        intro n ρ τ hin
        have hvar : ∀ {x : Name} {l : Nat} {w : Val}, (∀ m, Old m x) → ρ2.lookup x = some l → σ.heap.length ≤ l →
            σ2.heap[l]? = some w → ρ.lookup x = some l ∧ τ.heap[l]? = some w := by
          intro x l w ho hl hle hw
          exact ⟨(hin.1.vars x (ho 0)).trans hl, hin.1.frame.get (fun h => by have : l = a.loc := h; omega) (hget hle hw)⟩
        refine ⟨fun c e he => ?_, fun ρ' σ' hl => ?_⟩
        · rw [← hctx] at he
          have he' : (if c ∈ refs then do pure (Expr.var (← GoCode.registryParam E.graph c)) else .error .keyError) = .ok e := he
          by_cases hm : c ∈ refs
          · rw [if_pos hm] at he'
            cases hrp : GoCode.registryParam E.graph c with
            | error _ => rw [hrp] at he'; cases he'
            | ok x =>
              rw [hrp] at he'
              cases he'
              obtain ⟨y, hy, hy'⟩ := GoCode.mapM_mem' hp hm
              rw [hrp] at hy'
              cases hy'
              obtain ⟨l, w, k1, k2, k3, k4⟩ := hpar x (by simp [hy])
              have hxo : ∃ p, x = own [] p c!"Registry" := by
                obtain ⟨_, p, _, _, h⟩ := param_own hrp
                exact ⟨p, h⟩
              obtain ⟨p', rfl⟩ := hxo
              have hv := hvar (fun m => old_own m _ _ _) ((h4 _ (own_ne_v _ _ _ _) (own_ne_v _ _ _ _)).trans k1) k2 (hold k3)
              exact ⟨w, k4.2.2.2.2.2 c hm hrp, fun ρ' σ' hl => var_later (old_own _ _ _ _) hv.1 hv.2 hl⟩
          · rw [if_neg hm] at he'
            cases he'
        · have hv := hvar (fun m => old_v m _) ((h4 GoCode.errors (by decide) (by decide)).trans hle1) hle2 (hold hle3)
          exact var_later (old_v _ _) hv.1 hv.2 hl
    rw [hst3] at HP
    show CompositeRead E.graph reg a c0 ps id σ (do
      let (fields, st) ← GoRuntime.parseProps (parseTy E embed) kvs r ps (GoRuntime.zeroFields ps) (stOf σ)
      return ((fields, true), st)) _
    generalize GoRuntime.parseProps (parseTy E embed) kvs r ps (GoRuntime.zeroFields ps) (stOf σ) = m at HP ⊢
    cases m with
    | error e =>
      rcases HP with h | h
      · exact .inl h
      · exact .inr (by rw [exec_stop h]; rfl)
    | ok q =>
      obtain ⟨fields, st⟩ := q
      obtain ⟨fl, ρ4, σ4, c, x, k1, k2, k3, k4, k5, k6, k7, k8⟩ := HP
      obtain ⟨fl', k9⟩ := exec_last k1
      rw [k9]
      refine ⟨σ4, c, x, rfl, (Frame.grown (hg1.trans h2)).trans (g2.trans k2.frame), k3, k4, g5.trans k5, fun he => ?_⟩
      obtain ⟨_, h10⟩ := k8 he
      exact ⟨hem', rfl, fun s hs => (k6 _ (hnoid (by rw [hid, hs]; rfl))).trans (g6 s hs), h10⟩
  | _ => exact hbad rfl

/-! ## The calls -/

theorem parseComposite_name {g : Graph} {uids : List (Str × Nat)} {o : TypeGraph.Owner} {name f : Str} {ps : List Property}
    {isClass : Bool} {F : Func} (h : GoGen.parseComposite g uids o name ps isClass = .ok F) (hf : ucamelCase name = .ok f) :
    F.name = f ++ c!"FromJSONable" := by
  unfold GoGen.parseComposite at h
  cases h1 : GoCode.referencesOf g o with
  | error _ => rw [h1] at h; cases h
  | ok refs =>
  rw [h1] at h
  simp only [okBind] at h
  cases h2 : refs.mapM (GoCode.registryParam g) with
  | error _ => rw [h2] at h; cases h
  | ok params =>
  rw [h2] at h
  simp only [okBind] at h
  generalize (⟨g, uids, fun c => if c ∈ refs then do pure (Expr.var (← GoCode.registryParam g c))
    else .error .keyError⟩ : Ctx) = ctx at h
  cases h3 : GoGen.parseProps ctx ps 0 with
  | error _ => rw [h3] at h; cases h
  | ok props =>
  rw [h3, hf] at h
  cases h
  rfl

/-- What is known of a program which parses: the functions have different names, the fields of a structure have different names,
the types are those of the schema. -/
structure Reads (g : Graph) (P : Program) : Prop where
  names : (P.funcs.map (·.name)).Nodup
  pats : ∀ q uid, uidOf (GoCode.enumeratePatterns g) q = .ok uid → P.patterns uid = q
  plurals : ∀ c ∈ g.classes, ∀ d ∈ g.classes, camelCase c.plural = camelCase d.plural → c.name = d.name
  embeds : ∀ e ∈ g.embeds, ∃ F ∈ P.funcs, GoGen.parseComposite g (GoCode.enumeratePatterns g) (.embed e.name) e.name e.properties
    false = .ok F ∧ (e.properties.map field).Nodup ∧ ∀ p ∈ e.properties, Resolved g p.ty
  classes : ∀ c ∈ g.classes, ∃ F ∈ P.funcs, GoGen.parseComposite g (GoCode.enumeratePatterns g) (.cls c.name) c.name c.properties
    true = .ok F ∧ (c.properties.map field).Nodup ∧ (∀ p ∈ c.properties, Resolved g p.ty) ∧ c!"ID" ∉ c.properties.map field

/-- The functions of the embeddable structures do what the parser does. -/
theorem calls_ok (hR : Reads E.graph P) (hids : ∀ c s, s ∈ E.ids c ↔ (reg c s).isSome = true) : ∀ fuel fuel', fuel ≤ fuel' →
    Calls E.graph T h₀ reg (GoRuntime.parseEmbed E fuel) (run E.order E.lib P fuel') := by
  intro fuel
  induction fuel with
  | zero =>
    intro fuel' _ name f refs vs j r l path c0 σ _ _ _ _ _ _ _ _ _
    exact .inl rfl
  | succ fuel ih =>
    intro fuel' hle name f refs vs j r l path c0 σ hf hrefs hvs hfr hfree hc hx hcan hsome
    obtain ⟨k, rfl⟩ : ∃ k, fuel' = k + 1 := ⟨fuel' - 1, by omega⟩
    cases he : E.graph.embed? name with
    | none => rw [he] at hsome; cases hsome
    | some e =>
    have hmem : e ∈ E.graph.embeds := List.mem_of_find?_eq_some he
    have hname : e.name = name := by simpa using List.find?_some he
    obtain ⟨F, hF, hgen, hnd, hres⟩ := hR.embeds e hmem
    rw [hname] at hgen
    have hm := composite_read (a := ⟨l, path⟩) (r := r) hR.names hR.pats hids hR.plurals (ih k (by omega)) hgen hF hnd hres nofun hrefs
      hvs (id := none) rfl hfr hfree hc hx hcan
    rw [parseComposite_name hgen hf] at hm
    have hargs : argsOf j none vs r (.ptr ⟨l, path⟩) = .json j :: vs ++ [.str r, .ptr ⟨l, path⟩, .errors] := by
      unfold argsOf
      simp
    rw [hargs] at hm
    rw [GoRuntime.parseEmbed, he]
    show CallDone _ _ _ _ (do
      let (r, st) ← GoRuntime.parseComposite E.lib (parseTy E (GoRuntime.parseEmbed E fuel)) e.properties j r
        (GoRuntime.zeroFields e.properties) (stOf σ)
      return (.obj name r.1, st)) _
    generalize GoRuntime.parseComposite E.lib (parseTy E (GoRuntime.parseEmbed E fuel)) e.properties j r
        (GoRuntime.zeroFields e.properties) (stOf σ) = m at hm ⊢
    cases m with
    | error x => exact hm
    | ok q =>
      obtain ⟨⟨fields, b⟩, st⟩ := q
      obtain ⟨σ', c, x, h1, h2, h3, h4, h5, h6⟩ := hm
      refine ⟨[], σ', c, h1, h2, h3, h4, x, h5, fun hem => ⟨(h6 hem).1, ?_⟩⟩
      obtain ⟨_, _, _, h7⟩ := h6 hem
      refine .embed (fun p => (fields.lookup (field p)).getD .nil) (fun p => (fieldOf (field p) x).getD .zero) he ?_ ?_ ?_
      all_goals
        intro p hp
        obtain ⟨w, y, k1, k2, k3⟩ := h7 p hp
        simp only [k1, k2, Option.getD_some]
      exact k3

end

end Mapry.GoExec
