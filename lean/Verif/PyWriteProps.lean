import Verif.PyWriteValue

/-!
# The generated Python code which serializes the properties of an object
-/

namespace Mapry.PyExec

open Mapry.PyLang Mapry.PyGen Mapry.PyRuntime Mapry.Text Mapry.Duration
open Mapry.TypeGraph hiding Obj
open Mapry.PyRuntime (Json Lib Val)
open PyCode (ok_bind)

section

variable {L : Lib} {S : Settings} {py : ParseSchema.Py} {call : Fn → Actual → M PV} {ser : Ty → Val → Except Exc Json}
  {s s' : St} {n : Nat}

/-! ## A missing attribute -/

/-- The expression raises `AttributeError`, also later on. -/
def Misses (L : Lib) (call : Fn → Actual → M PV) (n : Nat) (s : St) (e : Expr) : Prop :=
  ∀ s', (∀ x, Keep n x → s'.vars x = s.vars x) → Grown s.heap s'.heap → eval L call e s' = (.error (.exc .attributeError []), s')

theorem expr_missing {ty : Ty} {value e : Expr} (h : serializationExpr py value ty = .ok (some e)) {x : Raised}
    (hv : eval L call value s = (.error x, s)) : eval L call e s = (.error x, s) := by
  cases ty with
  | boolean => cases h; exact hv
  | integer b => cases h; exact hv
  | float b => cases h; exact hv
  | string p => cases h; exact hv
  | path _ =>
    obtain ⟨b, _, h⟩ := ok_bind h
    cases b <;> cases h
    · exact hv
    · rw [if_pos rfl, eval, bind_error hv]
  | timeZone =>
    obtain ⟨b, _, h⟩ := ok_bind h
    cases b <;> cases h
    · exact hv
    · rw [if_pos rfl, eval, bind_error hv]
  | date f => cases h; rw [eval, bind_error hv]
  | time f => cases h; rw [eval, bind_error hv]
  | datetime f => cases h; rw [eval, bind_error hv]
  | duration => cases h; rw [eval, bind_error hv]
  | array => cases h
  | map => cases h
  | cls c => cases h; rw [eval, bind_error hv]
  | embed name =>
    obtain ⟨f, _, h⟩ := ok_bind h
    cases h
    rw [eval]
    have : evalArgs L call (args [value]) s = (.error x, s) := by rw [args, evalArgs, bind_error hv]
    rw [bind_error this]

theorem value_missing {ty : Ty} {tgt : Target} {value : Expr} {code : Stmt} {m : Nat}
    (h : serializeValue py ty tgt value n = .ok (code, m)) (hv : Misses L call n s value) :
    ∃ s', exec L call code s = (.error (.exc .attributeError []), s') := by
  have now := hv s (fun _ _ => rfl) (Grown.refl _)
  have plain : ∀ e, serializationExpr py value ty = .ok (some e) →
      ∃ s', exec L call (.assign tgt e) s = (.error (.exc .attributeError []), s') := fun e he =>
    ⟨s, by rw [exec, bind_error (expr_missing he now)]⟩
  have scalar : ∀ (r : Except Exc (Option Expr)), r = serializationExpr py value ty → (do
      match ← r with
      | some e => pure (.assign tgt e, n)
      | none => .error (.notImplemented []) : Except Exc (Stmt × Nat)) = .ok (code, m) →
      ∃ s', exec L call code s = (.error (.exc .attributeError []), s') := by
    intro r hr h
    obtain ⟨e, h1, h⟩ := ok_bind h
    cases e with
    | none => cases h
    | some e => cases h; exact plain e (hr ▸ h1)
  cases ty with
  | array x lo hi =>
    rw [serializeValue] at h
    split at h
    · cases h
      exact ⟨s, by rw [exec, eval, bind_error (bind_error now)]⟩
    · obtain ⟨e, _, h⟩ := ok_bind h
      cases e with
      | some e =>
        cases h
        exact ⟨s, exec_seq_error (by rw [exec, eval, bind_error (bind_error now)])⟩
      | none =>
        obtain ⟨⟨item, k⟩, _, h⟩ := ok_bind h
        cases h
        have h0 : exec L call (.assign (.var (tmp c!"target" n)) .newList) s =
            (.ok .normal, (s.push (.list [])).set (tmp c!"target" n) (.addr s.heap.length)) :=
          exec_assign_var (by rw [eval]; rfl)
        rw [block, exec_seq h0, block]
        refine ⟨(s.push (.list [])).set (tmp c!"target" n) (.addr s.heap.length), exec_seq_error ?_⟩
        have hlate := hv ((s.push (.list [])).set (tmp c!"target" n) (.addr s.heap.length))
          (fun y hy => set_ne _ _ (hy.ne_tmp _ (Nat.le_refl n))) (grown_push ..)
        rw [exec, bind_error hlate]
  | map x =>
    rw [serializeValue] at h
    obtain ⟨⟨item, k⟩, _, h⟩ := ok_bind h
    cases h
    rw [block]
    refine ⟨s, exec_seq_error ?_⟩
    rw [exec, eval, bind_error (bind_error now)]
  | boolean => exact scalar _ rfl h
  | integer => exact scalar _ rfl h
  | float => exact scalar _ rfl h
  | string => exact scalar _ rfl h
  | path => exact scalar _ rfl h
  | date => exact scalar _ rfl h
  | time => exact scalar _ rfl h
  | datetime => exact scalar _ rfl h
  | timeZone => exact scalar _ rfl h
  | duration => exact scalar _ rfl h
  | cls => exact scalar _ rfl h
  | embed => exact scalar _ rfl h

/-! ## Properties -/

theorem keep_instance {n : Nat} : Keep n c!"instance" := keep_plain (by decide) (by decide)
theorem keep_ordered {n : Nat} : Keep n c!"ordered" := keep_plain (by decide) (by decide)

/-- The object which is serialized -/
structure Source (s : St) (i : Addr) (cn : Str) (q : List (Str × PV)) : Prop where
  var : s.vars c!"instance" = some (.addr i)
  obj : s.heap[i]? = some (.inst cn q)

theorem Source.eval {i : Addr} {cn x : Str} {q : List (Str × PV)} {p : PV} (h : Source s i cn q) (hx : q.lookup x = some p) :
    PyLang.eval L call (.attr (v c!"instance") x) s = (.ok p, s) := by
  rw [PyLang.eval, bind_ok (eval_name h.var), PyLang.getAttr, bind_ok (load_run h.obj)]
  simp only [hx]
  rfl

theorem Source.later {i : Addr} {cn : Str} {q : List (Str × PV)} (h : Source s i cn q)
    (hv : ∀ x, Keep n x → s'.vars x = s.vars x) (hg : Grown s.heap s'.heap) : Source s' i cn q :=
  ⟨(hv _ keep_instance).trans h.var, hg.get h.obj⟩

theorem Source.reads {i : Addr} {cn x : Str} {q : List (Str × PV)} {p : PV} (h : Source s i cn q) (hx : q.lookup x = some p) :
    Reads L call n s (.attr (v c!"instance") x) p := fun _ hv hg => (h.later hv hg).eval hx

theorem Source.misses {i : Addr} {cn x : Str} {q : List (Str × PV)} (h : Source s i cn q) (hx : q.lookup x = none) :
    Misses L call n s (.attr (v c!"instance") x) := fun s' hv hg => by
  have h' := h.later hv hg
  rw [PyLang.eval, bind_ok (eval_name h'.var), PyLang.getAttr, bind_ok (load_run h'.obj)]
  simp only [hx]
  rfl

/-- The state in a function which serializes the object at the address `i`: `target` is a new dictionary. -/
structure FnInv (h0 : List Obj) (i a : Addr) (o : Bool) (js : List (Str × Json)) (s : St) : Prop where
  inst : s.vars c!"instance" = some (.addr i)
  tgt : s.vars c!"target" = some (.addr a)
  ord : s.vars c!"ordered" = some (.bool o)
  grown : Grown h0 s.heap
  low : h0.length ≤ a
  obj : ∃ qs, s.heap[a]? = some (.dict o qs) ∧ Forall₂ (Entry (Jsonable s.heap (a + 1))) js qs

/-- The attribute of the object shows the value. -/
def AttrShows (h : List Obj) (attrs : Attrs) (q : List (Str × PV)) (x : Str) : Prop :=
  (attrs.lookup x = none ↔ q.lookup x = none) ∧ ∀ val p, attrs.lookup x = some val → q.lookup x = some p → Shows h val p

/-- What the code of the properties leaves behind -/
def PropsPut (h0 : List Obj) (i a : Addr) (o : Bool) (R : Except Raised Flow × St) : Except Exc (List (Str × Json)) → Prop
  | .error x => Raises R x
  | .ok js => ∃ s', R = (.ok .normal, s') ∧ FnInv h0 i a o js s'

theorem shows_isNone {h : List Obj} {val : Val} {p : PV} (hs : Shows h val p) : p.isNone = true ↔ val = .none := by
  cases hs <;> simp [PV.isNone]

variable {h0 : List Obj} {i a : Addr} {o : Bool} {cn : Str} {q : List (Str × PV)} {attrs : Attrs}

theorem FnInv.source {js : List (Str × Json)} (h : FnInv h0 i a o js s) (hi : h0[i]? = some (.inst cn q)) : Source s i cn q :=
  ⟨h.inst, h.grown.get hi⟩

/-- The target of a property -/
theorem FnInv.store {js : List (Str × Json)} (h : FnInv h0 i a o js s) (h1 : s'.vars c!"instance" = s.vars c!"instance")
    (ht : s'.vars c!"target" = some (.addr a)) (h3 : s'.vars c!"ordered" = s.vars c!"ordered") (hg : Grown s.heap s'.heap) {j : Json} {p : PV} (hj : Jsonable s'.heap s.heap.length j p) (k : Str) :
    ∃ s'', (do assignTo L call (.item (v c!"target") (.str k)) p; pure .normal : M Flow) s' = (.ok .normal, s'') ∧
      FnInv h0 i a o (putKey k j js) s'' := by
  obtain ⟨qs, ho, hq⟩ := h.obj
  refine ⟨_, assign_item (eval_name ht) (by rw [eval]; rfl) (hg.get ho), h1.trans h.inst, ht,
    h3.trans h.ord, grown_write _ (h.grown.trans hg) h.low, h.low, _, write_self _ (hg.get ho), ?_⟩
  have hfr : ∀ b, a + 1 ≤ b → (s'.write a (.dict o (PyLang.put k p qs))).heap[b]? = s'.heap[b]? :=
    fun b hb => write_ne _ (fun e => by subst e; exact absurd hb (Nat.not_succ_le_self _))
  refine entry_put k ?_ (forall₂_entries (Nat.le_refl _) (fun b hb hl => ?_) hq)
  · exact (hj.mono (lo' := a + 1) (lt_of_get ho)).frame fun b hb _ => hfr b hb
  · rw [hfr b hb]
    exact hg.same b hl

theorem FnInv.put {js : List (Str × Json)} (h : FnInv h0 i a o js s) (hv : ∀ x, Keep n x → s'.vars x = s.vars x)
    (hg : Grown s.heap s'.heap) {j : Json} {p : PV} (hj : Jsonable s'.heap s.heap.length j p) (k : Str) :
    ∃ s'', (do assignTo L call (.item (v c!"target") (.str k)) p; pure .normal : M Flow) s' = (.ok .normal, s'') ∧
      FnInv h0 i a o (putKey k j js) s'' :=
  h.store (hv _ keep_instance) ((hv _ keep_target).trans h.tgt) (hv _ keep_ordered) hg hj k

theorem serProps_cons {field : Property → Str} {p : Property} {ps : List Property} {js : List (Str × Json)} {val : Val}
    (h : attrs.lookup (field p) = some val) (hn : val ≠ .none ∨ p.optional = false) :
    serProps ser field attrs (p :: ps) js = (do
      let x ← ser p.ty val
      serProps ser field attrs ps (putKey p.json x js)) := by
  rw [serProps, h]
  cases val <;> first | rfl | skip
  rcases hn with hn | hn
  · exact absurd rfl hn
  · simp [hn]

theorem serProps_skip {field : Property → Str} {p : Property} {ps : List Property} {js : List (Str × Json)}
    (h : attrs.lookup (field p) = some .none) (hn : p.optional = true) :
    serProps ser field attrs (p :: ps) js = serProps ser field attrs ps js := by
  rw [serProps, h]
  simp [hn]

theorem serProps_missing {field : Property → Str} {p : Property} {ps : List Property} {js : List (Str × Json)}
    (h : attrs.lookup (field p) = none) : serProps ser field attrs (p :: ps) js = .error .attributeError := by
  rw [serProps, h]

/-- The code of the properties serializes them. -/
theorem props_write {field : Property → Str} {gen : Property → Except Exc Str} (hgen : ∀ p x, gen p = .ok x → x = field p)
    (hi : h0[i]? = some (.inst cn q)) : ∀ (ps : List Property) (n : Nat) (code : Stmt),
    serializeProps py gen ps n = .ok code → (∀ p ∈ ps, Writes L py call ser p.ty) →
    (∀ p ∈ ps, AttrShows h0 attrs q (field p)) → ∀ (js : List (Str × Json)) (s : St), FnInv h0 i a o js s →
    PropsPut h0 i a o (exec L call code s) (serProps ser field attrs ps js)
  | [], n, code, h, _, _, js, s, hI => by
    cases h
    exact ⟨s, exec_pass, hI⟩
  | p :: ps, n, code, h, hw, ha, js, s, hI => by
    rw [serializeProps] at h
    obtain ⟨x, h1, h⟩ := ok_bind h
    obtain ⟨⟨c, m⟩, h2, h⟩ := ok_bind h
    obtain ⟨rest, h3, h⟩ := ok_bind h
    cases h
    have hx := hgen p x h1
    subst hx
    obtain ⟨⟨c, m'⟩, h4, h2⟩ := ok_bind h2
    obtain ⟨_, _, h2⟩ := ok_bind h2
    cases h2
    have ih := props_write hgen hi ps m rest h3 (fun p hp => hw p (by simp [hp])) (fun p hp => ha p (by simp [hp]))
    obtain ⟨_, hwrite⟩ := hw p (by simp) _ _ _ _ _ h4
    obtain ⟨hnone, hshow⟩ := ha p (by simp)
    have hsrc := hI.source hi
    cases hl : attrs.lookup (field p) with
    | none =>
      rw [serProps_missing hl]
      have hq := hnone.1 hl
      refine Raises.seq ?_
      split
      · have := (hsrc.misses hq (L := L) (call := call) (n := n)) s (fun _ _ => rfl) (Grown.refl _)
        exact .inr ⟨[], s, by rw [when, exec, eval, bind_error (bind_error this)]⟩
      · obtain ⟨s', e⟩ := value_missing h4 (hsrc.misses hq)
        exact .inr ⟨[], s', e⟩
    | some val =>
      cases hq : q.lookup (field p) with
      | none => rw [hnone.2 hq] at hl; cases hl
      | some pv =>
        have hs := hshow val pv hl hq
        by_cases hskip : val = .none ∧ p.optional = true
        · obtain ⟨rfl, ho⟩ := hskip
          rw [serProps_skip hl ho]
          have hn := (shows_isNone hs).2 rfl
          have : exec L call (if p.optional = true then when (.isNotNone (.attr (v c!"instance") (field p))) c else c) s =
              (.ok .normal, s) := by
            rw [if_pos ho, when, exec_if (eval_isNotNone (hsrc.eval hq)), hn]
            exact exec_pass (L := L) (call := call)
          rw [exec_seq this]
          exact ih js s hI
        · rw [serProps_cons hl (by
            cases ho : p.optional with
            | false => exact .inr rfl
            | true => exact .inl fun e => hskip ⟨e, ho⟩)]
          have hp := hwrite s val pv (hsrc.reads hq) (hs.grown hI.grown)
          have hc : exec L call (if p.optional = true then when (.isNotNone (.attr (v c!"instance") (field p))) c else c) s =
              exec L call c s := by
            split
            · rename_i ho
              have hn : pv.isNone = false := by
                cases hb : pv.isNone with
                | false => rfl
                | true => exact absurd ⟨(shows_isNone hs).1 hb, ho⟩ hskip
              rw [when, exec_if (eval_isNotNone (hsrc.eval hq)), hn]
              rfl
            · rfl
          generalize ser p.ty val = r at hp ⊢
          cases r with
          | error y =>
            refine Raises.seq ?_
            rw [hc]
            exact hp
          | ok j =>
            obtain ⟨s1, w, e1, e2, e3, e4⟩ := hp
            obtain ⟨s2, e5, hI2⟩ := hI.put (L := L) (call := call) e2 e3 e4 p.json
            rw [exec_seq (hc.trans (e1.trans e5))]
            exact ih _ s2 hI2

/-! ## The functions -/

theorem serializer_args (p : PV) : bindArgs [⟨c!"instance", none⟩, ⟨c!"ordered", some (.bool false)⟩] [(none, p)] =
    some [(c!"instance", p), (c!"ordered", .bool false)] := rfl

theorem serializer_kwargs (p : PV) (b : PV) : bindArgs [⟨c!"instance", none⟩, ⟨c!"ordered", some (.bool false)⟩]
    [(some c!"instance", p), (some c!"ordered", b)] = some [(c!"instance", p), (c!"ordered", b)] := rfl

/-- `x = dict()` or `x = collections.OrderedDict()` -/
theorem mapping_run {x : Str} (h : s.vars c!"ordered" = some (.bool o)) :
    exec L call (newMapping x) s = (.ok .normal, (s.push (.dict o [])).set x (.addr s.heap.length)) := by
  rw [newMapping, exec_if (eval_name h)]
  cases o
  · exact exec_assign_var (by rw [eval]; rfl)
  · exact exec_assign_var (by rw [eval]; rfl)

/-- The frame of the function -/
def serFrame (s : St) (i : Addr) (o : Bool) : St :=
  ⟨s.heap, fun x => [(c!"instance", PV.addr i), (c!"ordered", .bool o)].lookup x⟩

theorem start_inv (s : St) (i : Addr) (o : Bool) : FnInv s.heap i s.heap.length o []
    (((serFrame s i o).push (.dict o [])).set c!"target" (.addr s.heap.length)) :=
  ⟨rfl, rfl, rfl, grown_push .., Nat.le_refl _, [], push_self .., .nil⟩

/-- The function as a whole, given what the code between the creation of the target and the `return` does -/
theorem serializer_made {body : Stmt} {r : Except Exc (List (Str × Json))}
    (hb : PropsPut s.heap i s.heap.length o (exec L call body
      (((serFrame s i o).push (.dict o [])).set c!"target" (.addr s.heap.length))) r) :
    Made s (run L call (block [newMapping c!"target", body, .ret (v c!"target")])
      [(c!"instance", .addr i), (c!"ordered", .bool o)] s) (do let kvs ← r; return .obj o kvs) := by
  have hm : exec L call (newMapping c!"target") (serFrame s i o) =
      (.ok .normal, ((serFrame s i o).push (.dict o [])).set c!"target" (.addr s.heap.length)) := mapping_run rfl
  have he : exec L call (block [newMapping c!"target", body, .ret (v c!"target")]) (serFrame s i o) =
      exec L call (.seq body (block [.ret (v c!"target")]))
        (((serFrame s i o).push (.dict o [])).set c!"target" (.addr s.heap.length)) := by
    rw [block, exec_seq hm, block]
  rw [run]
  change Made s (match exec L call (block [newMapping c!"target", body, .ret (v c!"target")]) (serFrame s i o) with
    | (.ok (.ret v), s') => (.ok v, ⟨s'.heap, s.vars⟩)
    | (.ok _, s') => (.ok .none, ⟨s'.heap, s.vars⟩)
    | (.error x, s') => (.error x, ⟨s'.heap, s.vars⟩)) _
  rw [he]
  cases r with
  | error x =>
    rcases hb with hb | ⟨t, s', hb⟩
    · exact .inl hb
    · exact .inr ⟨t, ⟨s'.heap, s.vars⟩, by rw [exec_seq_error hb]⟩
  | ok js =>
    obtain ⟨s', e, hI⟩ := hb
    obtain ⟨qs, ho, hq⟩ := hI.obj
    refine ⟨⟨s'.heap, s.vars⟩, .addr s.heap.length, ?_, rfl, hI.grown, ?_⟩
    · have : exec L call (block [.ret (v c!"target")]) s' = (.ok (.ret (.addr s.heap.length)), s') := by
        rw [exec_last, exec, bind_ok (eval_name hI.tgt)]; rfl
      rw [exec_seq e, this]
    · exact .ofDict hI.low ho (forall₂_entries (Nat.le_succ _) (fun _ _ _ => rfl) hq)

end

end Mapry.PyExec
