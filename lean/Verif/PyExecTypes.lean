import Verif.PyExecItems

/-!
# The generated Python code of a value agrees with `parseTy`: maps, references and all types
-/

namespace Mapry.PyExec

open Mapry.PyLang Mapry.PyGen Mapry.PyRuntime Mapry.Text Mapry.Duration
open Mapry.TypeGraph hiding Obj
open Mapry.PyRuntime (Json Lib Val)

section

variable {W : World} {E : Env} {call : Fn → Actual → M PV} {n : Nat} {s : St} {reg : Str → Except Exc Expr}
  {x : Str} {j : Json} {tgt : Target} {parts : List Expr} {ref : Str} {es : Errors}

/-! ## Maps -/

/-- The variables of the loop over the entries. -/
def bindEntry (n : Nat) : Str × PV → M Unit := fun p => do
  setVar (tmp c!"key" n) (.str p.1); setVar (tmp c!"value" n) p.2

theorem bindEntry_run (k : Str) (p : PV) : bindEntry n (k, p) s =
    (.ok (), (s.set (tmp c!"key" n) (.str k)).set (tmp c!"value" n) p) := rfl

/-- The dictionary which is being filled -/
def InvMap (W : World) (n : Nat) (s0 : St) (es : Errors) (o : Bool) (acc : List (Str × Val)) (s : St) : Prop :=
  ∃ ps : List (Str × PV), acc.map (·.1) = ps.map (·.1) ∧
    Inv W n s0 es (.dict o ps) (acc.map (·.2)) (ps.map (·.2)) s

def IteratedMap (W : World) (n : Nat) (s0 : St) (o : Bool) (acc : List (Str × Val)) (k : Str)
    (R : Except Raised Flow × St) : Except Exc (Option Val × Errors) → Prop
  | .error z => ∃ t s', R = (.error (.exc z t), s')
  | .ok (w, es') => ∃ s', R = (.ok (if es'.full then .brk else .normal), s') ∧
      InvMap W n s0 es' o (acc ++ w.toList.map (k, ·)) s'

/-- One entry -/
theorem entry_loop {s0 : St} {es0 : Errors} (h0 : At W E reg n x j tgt parts ref s0 es0) {item : Stmt} {f : ParseFn} {y : Json}
    (hf : ∀ s k es, At W E reg (n + 1) (tmp c!"value" n) y (.var (tmp c!"target_item" n)) (parts ++ [.reprOf (t c!"key" n)])
      (sub ref (E.lib.repr k)) s es → Agrees W E.lib call (n + 1) s (.var (tmp c!"target_item" n)) (exec E.lib call item s)
        (f y (sub ref (E.lib.repr k)) es))
    {o : Bool} {acc : List (Str × Val)} (hM : InvMap W n s0 es o acc s) (k : Str) (hk : k ∉ acc.map (·.1)) :
    IteratedMap W n s0 o acc k ((bindEntry n (k, ofJson y) >>= fun _ => exec E.lib call (entryLoop parts n item)) s)
      (f y (sub ref (E.lib.repr k)) es) := by
  obtain ⟨ps, hkeys, hI⟩ := hM
  rw [bind_ok (bindEntry_run k (ofJson y))]
  have hI1 := (hI.set c!"key" (.str k) (by decide)).set c!"value" (ofJson y) (by decide)
  generalize hs1 : (s.set (tmp c!"key" n) (.str k)).set (tmp c!"value" n) (ofJson y) = s1 at hI1 ⊢
  have hi : s1.vars (tmp c!"key" n) = some (.str k) := by
    rw [← hs1, set_ne _ _ (tmp_ne (by decide) n), set_self]
  have hv : s1.vars (tmp c!"value" n) = some (ofJson y) := by rw [← hs1, set_self]
  rw [entryLoop, block, exec_seq (s' := s1) (by
    rw [PyGen.when, exec_if_false (s' := s1) (by rw [eval_not (eval_isinstance .str hi)]; rfl), exec_pass]),
    block, exec_seq (exec_assign_var (by rw [eval]; rfl))]
  have hI2 := hI1.set c!"target_item" .none (by decide)
  have hA2 := h0.later hI2.step hI2.errs (Nat.le_succ n)
  have hA3 : At W E reg (n + 1) (tmp c!"value" n) y (.var (tmp c!"target_item" n)) (parts ++ [.reprOf (t c!"key" n)])
      (sub ref (E.lib.repr k)) (s1.set (tmp c!"target_item" n) .none) es := by
    refine ⟨hA2.errs, keep_tmp _ (Nat.lt_succ_self n), ?_, hA2.path.snoc ?_, .var (keep_tmp _ (Nat.lt_succ_self n)), hA2.regs⟩
    · rw [set_ne _ _ (tmp_ne (by decide) n), hv]
    · refine .key (keep_tmp _ (Nat.lt_succ_self n)) ?_
      rw [set_ne _ _ (tmp_ne (by decide) n), hi]
  have hr := item_run hI1 h0.errs.obj (hf _ k es hA3)
  generalize f y (sub ref (E.lib.repr k)) es = r at hr ⊢
  match r, hr with
  | .error z, ⟨t, s', e⟩ => exact ⟨t, s', by rw [block, exec_seq_error e]⟩
  | .ok (none, es'), ⟨s', e, hI', ht, _⟩ =>
    refine ⟨s', ?_, ps, by simpa using hkeys, by simpa using hI'⟩
    rw [block, exec_seq e, block, exec_seq (s' := s'), block, block, exec_full_last (hI'.errs' h0.errs)]
    rw [PyGen.when, exec_if_false (s' := s') (by rw [eval_isNotNone (eval_name ht)]; rfl), exec_pass]
  | .ok (some w, es'), ⟨s', p, e, hI', ht, hp, hw, hkeep⟩ =>
    have hI'' := hI'.put (o' := .dict o (ps ++ [(k, p)])) h0.errs.obj hw
    have hk' : s'.vars (tmp c!"key" n) = some (.str k) :=
      (hkeep _ (keep_tmp _ (Nat.lt_succ_self n)) (tmp_ne (by decide) n)).trans hi
    refine ⟨_, ?_, ps ++ [(k, p)], by simp [hkeys], by simpa using hI''⟩
    rw [block, exec_seq e, block, exec_seq (s' := s'.write s0.heap.length (.dict o (ps ++ [(k, p)]))), block, block,
      exec_full_last (hI''.errs' h0.errs)]
    rw [PyGen.when, exec_if_true (s' := s') (by rw [eval_isNotNone (eval_name ht), hp]; rfl), exec_assign (eval_name ht)]
    have : assignTo E.lib call (.item (t c!"target" n) (t c!"key" n)) p s' =
        (.ok (), s'.write s0.heap.length (.dict o (ps ++ [(k, p)]))) := by
      rw [assignTo, bind_ok (eval_name hI'.var), bind_ok (eval_name hk'), setItem, bind_ok (load_run hI'.cont)]
      simp only
      rw [bind_ok (keyOf_run k), save_run, put_new p (by rw [← hkeys]; exact hk)]
    rw [bind_ok this]
    rfl

def LoopedMap (W : World) (n : Nat) (s0 : St) (o : Bool) (R : Except Raised Flow × St) :
    Except Exc (List (Str × Val) × Errors) → Prop
  | .error z => ∃ t s', R = (.error (.exc z t), s')
  | .ok (acc, es') => ∃ s', R = (.ok .normal, s') ∧ InvMap W n s0 es' o acc s'

theorem entries_loop {s0 : St} {es0 : Errors} (h0 : At W E reg n x j tgt parts ref s0 es0) {item : Stmt} {f : ParseFn}
    {o : Bool} (kvs : List (Str × Json))
    (hf : ∀ kv ∈ kvs, ∀ s k es, At W E reg (n + 1) (tmp c!"value" n) kv.2 (.var (tmp c!"target_item" n))
      (parts ++ [.reprOf (t c!"key" n)]) (sub ref (E.lib.repr k)) s es → Agrees W E.lib call (n + 1) s
        (.var (tmp c!"target_item" n)) (exec E.lib call item s) (f kv.2 (sub ref (E.lib.repr k)) es))
    (hnd : (kvs.map (·.1)).Nodup) :
    ∀ (s : St) (es : Errors) (acc : List (Str × Val)), InvMap W n s0 es o acc s → (∀ k ∈ kvs.map (·.1), k ∉ acc.map (·.1)) →
    LoopedMap W n s0 o (loop (bindEntry n) (exec E.lib call (entryLoop parts n item))
      (kvs.map fun kv => (kv.1, ofJson kv.2)) s) (parseEntries E.lib f ref acc kvs es) := by
  induction kvs with
  | nil => intro s es acc hI _; exact ⟨s, rfl, hI⟩
  | cons kv ys ih =>
    obtain ⟨k, y⟩ := kv
    intro s es acc hI hk
    have h1 := entry_loop h0 (hf (k, y) (by simp)) hI k (hk k (by simp))
    rw [List.map_cons, parseEntries]
    simp only [List.map_cons, List.nodup_cons] at hnd
    cases hr : f y (sub ref (E.lib.repr k)) es with
    | error z =>
      rw [hr] at h1
      obtain ⟨t, s', h1⟩ := h1
      exact ⟨t, s', loop_error _ h1⟩
    | ok r =>
      obtain ⟨w, es'⟩ := r
      rw [hr] at h1
      obtain ⟨s', h1, hI'⟩ := h1
      have key : ∀ acc', acc' = acc ++ w.toList.map (k, ·) → LoopedMap W n s0 o
          (loop (bindEntry n) (exec E.lib call (entryLoop parts n item))
          ((k, ofJson y) :: ys.map fun kv => (kv.1, ofJson kv.2)) s)
          (if es'.full then .ok (acc', es') else parseEntries E.lib f ref acc' ys es') := by
        intro acc' hacc
        subst hacc
        cases hfull : es'.full with
        | true =>
          rw [hfull, if_pos rfl] at h1
          exact ⟨s', loop_brk _ h1, hI'⟩
        | false =>
          rw [hfull, if_neg (by decide)] at h1
          rw [if_neg (by decide), loop_normal _ h1]
          refine ih (fun y hy => hf y (by simp [hy])) hnd.2 s' es' _ hI' fun k' hk' hm => ?_
          rw [List.map_append, List.mem_append] at hm
          rcases hm with hm | hm
          · exact hk k' (by simp only [List.map_cons, List.mem_cons]; exact .inr hk') hm
          · have : k' = k := by
              cases w with
              | none => simp at hm
              | some w => simpa using hm
            exact hnd.1 (this ▸ hk')
      cases w
      · exact key acc (by simp)
      · exact key (acc ++ [(k, _)]) rfl

theorem agrees_map (h : At W E reg n x j tgt parts ref s es) (hj : Keyed j) {item : Stmt} {f : ParseFn}
    (hf : ∀ o kvs, j = .obj o kvs → ∀ kv ∈ kvs, ∀ s k es, At W E reg (n + 1) (tmp c!"value" n) kv.2
      (.var (tmp c!"target_item" n)) (parts ++ [.reprOf (t c!"key" n)]) (sub ref (E.lib.repr k)) s es →
      Agrees W E.lib call (n + 1) s (.var (tmp c!"target_item" n)) (exec E.lib call item s)
        (f kv.2 (sub ref (E.lib.repr k)) es)) :
    Agrees W E.lib call n s tgt (exec E.lib call (expect x .dict c!"a dict" parts (block [
      .ite (.isinstance (v x) .orderedDict) (.assign (.var (tmp c!"target" n)) (.newDict true))
        (.assign (.var (tmp c!"target" n)) (.newDict false)),
      .forItems (tmp c!"key" n) (tmp c!"value" n) (v x) (entryLoop parts n item),
      PyGen.when (.isNotNone (t c!"target" n)) (.assign tgt (t c!"target" n))])) s) (parseMap E.lib f j ref es) := by
  rcases dict_cases s.heap j with ⟨hi', o, kvs, rfl⟩ | ⟨hi', hne⟩
  · refine agrees_expect h (by decide) (fun _ => ?_) (fun h' => by rw [h'] at hi'; cases hi')
    have e1 : exec E.lib call (.ite (.isinstance (v x) .orderedDict) (.assign (.var (tmp c!"target" n)) (.newDict true))
        (.assign (.var (tmp c!"target" n)) (.newDict false))) s =
        (.ok .normal, (s.push (.dict o [])).set (tmp c!"target" n) (.addr s.heap.length)) := by
      rw [exec_if (eval_isinstance .orderedDict h.val)]
      have : ∀ b, exec E.lib call (.assign (.var (tmp c!"target" n)) (.newDict b)) s =
          (.ok .normal, (s.push (.dict b [])).set (tmp c!"target" n) (.addr s.heap.length)) :=
        fun b => exec_assign_var (by rw [eval, alloc_run])
      cases o <;> exact this _
    rw [block, exec_seq e1]
    have hI := Inv.start (n := n) h.errs.obj (.dict o [])
    generalize (s.push (.dict o [])).set (tmp c!"target" n) (.addr s.heap.length) = s1 at hI ⊢
    have hA := h.step hI.step hI.errs
    have el : exec E.lib call (.forItems (tmp c!"key" n) (tmp c!"value" n) (v x) (entryLoop parts n item)) s1 =
        loop (bindEntry n) (exec E.lib call (entryLoop parts n item)) (kvs.map fun kv => (kv.1, ofJson kv.2)) s1 := by
      rw [exec, bind_ok (eval_name hA.val)]
      rfl
    have hnd : (kvs.map (·.1)).Nodup := by cases hj; assumption
    have hl := entries_loop h kvs (hf o kvs rfl) hnd s1 es [] (o := o) ⟨[], rfl, hI⟩ (by simp)
    rw [← el] at hl
    unfold parseMap
    simp only
    cases hr : parseEntries E.lib f ref [] kvs es with
    | error z =>
      rw [hr] at hl
      obtain ⟨t, s', hl⟩ := hl
      exact ⟨t, s', by rw [block, exec_seq_error hl]⟩
    | ok r =>
      obtain ⟨vs, es'⟩ := r
      rw [hr] at hl
      obtain ⟨s', hl, ps', hkeys, hI'⟩ := hl
      rw [block, exec_seq hl, block, block]
      have hst : Storable n s' tgt := h.sto.step h.errs.obj hI'.step (Nat.le_refl _)
      obtain ⟨s2, h2⟩ := hst.assign (L := E.lib) (call := call) (.addr s.heap.length)
      have hget := forall₂_get hI'.reps
      refine ⟨s', _, s2, ?_, hI'.step, hI'.errs, h2,
        .map (Nat.le_refl _) hI'.cont hkeys fun i a b h1 h2 => ?_, rfl⟩
      · rw [exec_seq (s' := s2), exec_pass]
        rw [PyGen.when, exec_if_true (s' := s') (by rw [eval_isNotNone (eval_name hI'.var)]; rfl),
          exec_assign (eval_name hI'.var), bind_ok h2]
        rfl
      · exact (hget.2 i a.2 b.2 (by rw [List.getElem?_map, h1]; rfl) (by rw [List.getElem?_map, h2]; rfl)).mono (Nat.le_succ _)
  · refine agrees_expect h (by decide) (fun h' => by rw [h'] at hi'; cases hi') (fun _ => ?_)
    cases j with
    | obj o t => exact absurd rfl (hne o t)
    | _ => rfl

/-! ## References -/

theorem agrees_reference (h : At W E reg n x j tgt parts ref s es) (c : Str) (hc : Braceless c) {registry : Expr}
    (hreg : reg c = .ok registry) :
    Agrees W E.lib call n s tgt (exec E.lib call (expect x .str c!"a str" parts (block [
      .assign (.var (tmp c!"target" n)) (.get registry (v x)),
      .ite (.isNone (t c!"target" n))
        (report (path parts) (PyGen.format (c!"Reference to an instance of class " ++ c ++ c!" not found: {}") (v x)))
        (.assign tgt (t c!"target" n))])) s) (parseReference c (E.ids c) j ref es) := by
  rcases str_cases s.heap j with ⟨hi, id, rfl⟩ | ⟨hi, hne⟩
  · refine agrees_expect h (by decide) (fun _ => ?_) (fun h' => by rw [h'] at hi; cases hi)
    obtain ⟨hexpr, o, kvs, hobj, hids⟩ := h.regs c registry hreg
    have eg : eval E.lib call (.get registry (v x)) s = (.ok ((kvs.lookup id).getD .none), s) := by
      rw [eval, bind_ok (eval_reg hexpr), bind_ok (eval_name h.val)]
      have : entries .attributeError (.addr (W.regs c)) s = (.ok kvs, s) := by
        rw [entries, bind_ok (load_run hobj)]; rfl
      rw [bind_ok this]
      rfl
    rw [block, exec_seq (exec_assign_var eg)]
    have hst : Step W.errs n s (s.set (tmp c!"target" n) ((kvs.lookup id).getD .none)) := step_set _ _ _ (Nat.le_refl n)
    have h' := h.step hst h.errs.obj
    apply Agrees.trans hst
    generalize hs1 : s.set (tmp c!"target" n) ((kvs.lookup id).getD .none) = s1 at h' ⊢
    have ht : s1.vars (tmp c!"target" n) = some ((kvs.lookup id).getD .none) := by rw [← hs1, set_self]
    rw [block, block]
    unfold parseReference
    simp only
    rw [hids] at ht
    by_cases hm : id ∈ E.ids c
    · rw [if_pos hm] at ht ⊢
      obtain ⟨s2, h2⟩ := h'.sto.assign (L := E.lib) (call := call) (.addr (W.place c id))
      refine ⟨s1, _, s2, ?_, .refl _ _ _, h'.errs.obj, h2, .ref c id, rfl⟩
      rw [exec_seq (s' := s2), exec_pass]
      rw [exec_if_false (s' := s1) (by rw [eval_isNone (eval_name ht)]; rfl), exec_assign (eval_name ht)]
      simp only [Option.getD_some]
      rw [bind_ok h2]
      rfl
    · rw [if_neg hm] at ht ⊢
      refine ⟨s1.write W.ae (.errors (es.add ⟨ref, c!"Reference to an instance of class " ++ c ++ c!" not found: " ++ id⟩)),
        ?_, step_write _ _ _ rfl, write_self _ h'.errs.obj⟩
      rw [exec_seq (s' := s1.write W.ae (.errors (es.add ⟨ref, c!"Reference to an instance of class " ++ c ++
        c!" not found: " ++ id⟩))), exec_pass]
      rw [exec_if_true (s' := s1) (by rw [eval_isNone (eval_name ht)]; rfl), exec_report h'.errs (eval_path h'.path)]
      rw [eval_format (eval_name h'.val)]
      have e : c!" not found: {}" = c!" not found: " ++ c!"{}" := rfl
      rw [e]
      simp only [List.append_assoc]
      rw [formatText_braceless (by decide), formatText_braceless hc, formatText_one (by decide)]
      rfl
  · refine agrees_expect h (by decide) (fun h' => by rw [h'] at hi; cases hi) (fun _ => ?_)
    cases j with
    | str t => exact absurd rfl (hne t)
    | _ => rfl

end

/-! ## All types -/

/-- The settings of the interpreter are the ones of the generator. -/
def SettingsOk (S : Settings) (py : ParseSchema.Py) : Prop :=
  (∀ b, PyGen.pathlib py = .ok b → S.pathlib = b) ∧ ∀ b, PyGen.pytz py = .ok b → S.pytz = b

open PyCode (ok_bind)

theorem value_ok {W : World} {E : Env} {ctx : Ctx} {call : Fn → Actual → M PV}
    {embed : Str → Json → Str → Errors → Except Exc (Val × Errors)} (hS : SettingsOk E.settings ctx.py)
    (hc : ∀ c e, ctx.registry c = .ok e → Braceless c) (ty : Ty)
    (he : ∀ name, .embed name ∈ parts ty → ValueOk W E ctx call embed (.embed name)) : ValueOk W E ctx call embed ty := by
  induction ty with
  | boolean =>
    intro x tgt parts n code m hg s j ref es _ h
    cases hg
    exact agrees_boolean h
  | integer bd =>
    intro x tgt parts n code m hg s j ref es _ h
    cases hg
    exact agrees_integer h bd
  | float bd =>
    intro x tgt parts n code m hg s j ref es _ h
    cases hg
    exact agrees_float h bd
  | string p =>
    intro x tgt parts n code m hg s j ref es _ h
    cases hg
    refine agrees_matched h .str p fun t e => ?_
    subst e
    exact h.store (eval_name h.val) (.str t) rfl
  | path p =>
    intro x tgt parts n code m hg s j ref es _ h
    obtain ⟨b, hb, hg⟩ := ok_bind hg
    cases hg
    refine agrees_matched h _ p fun t e => ?_
    subst e
    rw [hS.1 b hb]
    cases b with
    | false => exact h.store (eval_name h.val) (.str t) rfl
    | true =>
      refine h.store (p := .path (E.lib.normPath t)) ?_ (.path _) rfl
      rw [if_pos rfl, eval, bind_ok (eval_name h.val)]
      rfl
  | date f =>
    intro x tgt parts n code m hg s j ref es _ h
    cases hg
    refine agrees_datetime h _ f .dateOf (fun d => .date d.date) (fun e d s he => ?_) (fun e x s he => ?_)
      (fun d _ _ => .date _) (fun _ => rfl)
    · rw [eval, bind_ok he]; rfl
    · rw [eval, bind_error he]
  | time f =>
    intro x tgt parts n code m hg s j ref es _ h
    cases hg
    refine agrees_datetime h _ f .timeOf (fun d => .time d.time) (fun e d s he => ?_) (fun e x s he => ?_)
      (fun d _ _ => .time _) (fun _ => rfl)
    · rw [eval, bind_ok he]; rfl
    · rw [eval, bind_error he]
  | datetime f =>
    intro x tgt parts n code m hg s j ref es _ h
    cases hg
    exact agrees_datetime h _ f id .datetime (fun e d s he => he) (fun e x s he => he) (fun d _ _ => .datetime _) (fun _ => rfl)
  | timeZone =>
    intro x tgt parts n code m hg s j ref es _ h
    obtain ⟨b, hb, hg⟩ := ok_bind hg
    cases hg
    exact agrees_timeZone h b (hS.2 b hb).symm
  | duration =>
    intro x tgt parts n code m hg s j ref es _ h
    cases hg
    exact agrees_duration h
  | array ty lo hi ih =>
    intro x tgt parts n code m hg s j ref es hj h
    obtain ⟨⟨item, m'⟩, h1, hg⟩ := ok_bind hg
    obtain ⟨_, _, hg⟩ := ok_bind hg
    cases hg
    refine agrees_array h lo hi fun xs e y hy s i es h' => ?_
    subst e
    refine ih (fun name hm => he name (by simp [TypeGraph.parts, hm])) _ _ _ _ _ _ h1 s y _ es ?_ h'
    cases hj with
    | arr hall => exact hall y hy
  | map ty ih =>
    intro x tgt parts n code m hg s j ref es hj h
    obtain ⟨⟨item, m'⟩, h1, hg⟩ := ok_bind hg
    obtain ⟨_, _, hg⟩ := ok_bind hg
    cases hg
    refine agrees_map h hj fun o kvs e kv hkv s k es h' => ?_
    subst e
    refine ih (fun name hm => he name (by simp [TypeGraph.parts, hm])) _ _ _ _ _ _ h1 s kv.2 _ es ?_ h'
    cases hj with
    | obj _ hall => exact hall kv hkv
  | cls c =>
    intro x tgt parts n code m hg s j ref es _ h
    obtain ⟨e, he, hg⟩ := ok_bind hg
    cases hg
    exact agrees_reference h c (hc c e he) he
  | embed name => exact he name (by simp [TypeGraph.parts])

end Mapry.PyExec
