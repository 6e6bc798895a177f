import Verif.PyExecEmbed

/-!
# The generated Python code which allocates the instances agrees with `preallocAll`
-/

namespace Mapry.PyExec

open Mapry.PyLang Mapry.PyGen Mapry.PyRuntime Mapry.Text Mapry.Duration Mapry.Naming
open Mapry.TypeGraph hiding Obj
open Mapry.PyRuntime (Json Lib Val)
open PyCode (ok_bind attrs idOf allNames defNames)
open GoCode (referencesOf)

theorem jsonPlural_eq {p k : Str} (h : jsonPlural p = .ok k) : k = lower p := by
  unfold jsonPlural at h
  split at h
  · cases h
  · split at h
    · cases h; rfl
    · cases h

/-- The object is the placeholder of an instance. -/
def Blank (c : Class) (id : Str) (o : Option Obj) : Prop :=
  ∃ q, o = some (.inst (idOf c.name) q) ∧ NoneAttrs (attrs c.properties) [(c!"id", .str id)] q

/-- The registry with the placeholders under the identifiers -/
def Holds (h : List Obj) (lo : Nat) (c : Class) (a : Addr) (b : Bool) (ids : List Str) : Prop :=
  ∃ kvs, h[a]? = some (.dict b kvs) ∧ kvs.map (·.1) = ids ∧
    ∀ kv ∈ kvs, ∃ d : Addr, kv.2 = .addr d ∧ lo ≤ d ∧ Blank c kv.1 h[d]?

theorem Holds.frame {h h' : List Obj} {lo lo' : Nat} {c : Class} {a : Addr} {b : Bool} {ids : List Str} (H : Holds h lo c a b ids)
    (hl : lo' ≤ lo) (hf : ∀ d : Addr, (d = a ∨ lo ≤ d) → d < h.length → h'[d]? = h[d]?) : Holds h' lo' c a b ids := by
  obtain ⟨kvs, h1, h2, h3⟩ := H
  refine ⟨kvs, (hf a (.inl rfl) (lt_of_get h1)).trans h1, h2, fun kv hkv => ?_⟩
  obtain ⟨d, e, hd, q, hq, hn⟩ := h3 kv hkv
  exact ⟨d, e, Nat.le_trans hl hd, q, (hf d (.inr hd) (lt_of_get hq)).trans hq, hn⟩

/-- The body of the loop over the identifiers -/
def putId (c : Class) (registry : Str) : Stmt := .assign (.item (v registry) (v c!"id"))
  (.call (.parse (c!"placeholder_" ++ lower c.name)) (kwargs [(c!"id", v c!"id")]))

def idBody (c : Class) (registry : Str) : Stmt := match c.idPattern with
  | some p => .seq
      (PyGen.when (.not (.reMatch p (v c!"id"))) (.seq
        (report (path [v c!"ref", .str (registryKey c)])
          (.plus (.str (c!"Expected ID to match " ++ p ++ c!", but got: ")) (v c!"id")))
        (ifFull .brk))) (putId c registry)
  | none => putId c registry

theorem allocLoop_eq (c : Class) (registry : Str) :
    allocLoop c (registryKey c) registry (lower c.name) = .forIn c!"id" (v c!"registry_value") (idBody c registry) := rfl

section

variable {g : Graph} {py : ParseSchema.Py} {P : Program} {L : Lib} {k : Nat}

theorem callOwn_parse (name : Str) (args : Actual) : callOwn L P k (.parse name) args = callParse L P name args := by
  cases k <;> rfl

/-- The call of the placeholder of a class -/
theorem eval_placeholder (G : Good g py P) {c : Class} (hc : c ∈ g.classes) {s : St} {id : Str} (hid : s.vars c!"id" = some (.str id)) :
    ∃ q, eval L (callOwn L P k) (.call (.parse (c!"placeholder_" ++ lower c.name)) (kwargs [(c!"id", v c!"id")])) s =
      (.ok (.addr s.heap.length), s.push (.inst (idOf c.name) q)) ∧ NoneAttrs (attrs c.properties) [(c!"id", .str id)] q := by
  obtain ⟨q, hq, hn⟩ := placeholder_class (L := L) G hc (.str id) s
  refine ⟨q, ?_, hn⟩
  have ea : evalArgs L (callOwn L P k) (kwargs [(c!"id", v c!"id")]) s = (.ok [(some c!"id", .str id)], s) :=
    evalArgs_kwargs (ps := [(c!"id", .str id)]) (.cons ⟨rfl, eval_name hid⟩ .nil)
  rw [eval, bind_ok ea, callOwn_parse, hq]

theorem setItem_run {s : St} {a : Addr} {o : Bool} {kvs : List (Str × PV)} (h : s.heap[a]? = some (.dict o kvs)) (key : Str) (p : PV) :
    setItem (.addr a) (.str key) p s = (.ok (), s.write a (.dict o (put key p kvs))) := by
  rw [setItem, bind_ok (load_run h)]
  rfl

/-- The state within the loop over the identifiers -/
structure IdsInv (c : Class) (b : Bool) (ae rd : Addr) (s0 : St) (acc : List Str) (es : Errors) (s : St) : Prop where
  vars : ∀ x, x ≠ c!"id" → s.vars x = s0.vars x
  grow : s0.heap.length ≤ s.heap.length
  frame : ∀ a, a < s0.heap.length → a ≠ ae → a ≠ rd → s.heap[a]? = s0.heap[a]?
  errs : s.heap[ae]? = some (.errors es)
  dict : Holds s.heap (rd + 1) c rd b acc

/-- What stays while the identifiers are read -/
structure IdsReady (ae rd : Addr) (registry ref : Str) (s0 : St) : Prop where
  reg : s0.vars registry = some (.addr rd)
  ne : registry ≠ c!"id"
  errors : s0.vars c!"errors" = some (.addr ae)
  path : s0.vars c!"ref" = some (.str ref)
  lt : ae < rd ∧ rd < s0.heap.length

/-- One placeholder is put into the registry. -/
theorem alloc_one (G : Good g py P) {c : Class} (hc : c ∈ g.classes) {b : Bool} {ae rd : Addr} {registry ref : Str} {s0 : St}
    (hr : IdsReady ae rd registry ref s0) {acc : List Str} {es : Errors} {s : St} (hI : IdsInv c b ae rd s0 acc es s)
    {id : Str} (hid : s.vars c!"id" = some (.str id)) (hnew : id ∉ acc) :
    ∃ s', exec L (callOwn L P k) (putId c registry) s = (.ok .normal, s') ∧
      IdsInv c b ae rd s0 (acc ++ [id]) es s' := by
  obtain ⟨q, hq, hn⟩ := eval_placeholder (L := L) (k := k) G hc hid
  obtain ⟨kvs, hd, hk, hall⟩ := hI.dict
  have hlt := lt_of_get hd
  have hd' : (s.push (.inst (idOf c.name) q)).heap[rd]? = some (.dict b kvs) := get_push hd
  have hreg : (s.push (.inst (idOf c.name) q)).vars registry = some (.addr rd) := by
    rw [push_vars, hI.vars _ hr.ne, hr.reg]
  refine ⟨(s.push (.inst (idOf c.name) q)).write rd (.dict b (put id (.addr s.heap.length) kvs)), ?_, ?_⟩
  · rw [putId, exec_assign hq]
    have : assignTo L (callOwn L P k) (.item (v registry) (v c!"id")) (.addr s.heap.length) (s.push (.inst (idOf c.name) q)) =
        (.ok (), (s.push (.inst (idOf c.name) q)).write rd (.dict b (put id (.addr s.heap.length) kvs))) := by
      rw [assignTo, bind_ok (eval_name hreg), bind_ok (eval_name (s := s.push (.inst (idOf c.name) q)) hid), setItem_run hd']
    rw [bind_ok this]
    rfl
  · have hne : ∀ a : Addr, a < s.heap.length → a ≠ rd →
        ((s.push (.inst (idOf c.name) q)).write rd (.dict b (put id (.addr s.heap.length) kvs))).heap[a]? = s.heap[a]? :=
      fun a h1 h2 => by rw [write_ne _ h2, push_lt _ h1]
    refine ⟨hI.vars, ?_, fun a h1 h2 h3 => ?_, ?_, ?_⟩
    · rw [write_length, push_length]
      exact Nat.le_succ_of_le hI.grow
    · rw [hne a (Nat.lt_of_lt_of_le h1 hI.grow) h3, hI.frame a h1 h2 h3]
    · rw [hne ae (lt_of_get hI.errs) (Nat.ne_of_lt hr.lt.1), hI.errs]
    · refine ⟨_, write_self _ hd', ?_, ?_⟩
      · rw [put_new _ (by rw [hk]; exact hnew), List.map_append, hk]
        rfl
      · intro kv hkv
        rw [put_new _ (by rw [hk]; exact hnew)] at hkv
        rcases List.mem_append.1 hkv with hkv | hkv
        · obtain ⟨d, e, hd, q', hq', hn'⟩ := hall kv hkv
          exact ⟨d, e, hd, q', by rw [hne d (lt_of_get hq') (Nat.ne_of_gt hd), hq'], hn'⟩
        · simp only [List.mem_singleton] at hkv
          subst hkv
          exact ⟨s.heap.length, rfl, hlt, q, by rw [write_ne _ (Nat.ne_of_gt hlt), push_self], hn⟩

theorem path_two {n : Nat} {s : St} {ref key : Str} (h : s.vars c!"ref" = some (.str ref)) :
    PathIs n L s.vars [v c!"ref", .str key] (sub ref key) :=
  ⟨[ref, key], by simp, .cons (.name keep_ref h) (.cons (.lit key) .nil), joined_snoc (ts := [ref]) (by simp) key⟩

/-- The loop over the identifiers -/
theorem alloc_loop (G : Good g py P) {c : Class} (hc : c ∈ g.classes) {b : Bool} {ae rd : Addr} {registry ref : Str} {s0 : St}
    (hr : IdsReady ae rd registry ref s0) : ∀ (ids acc : List Str) (es : Errors) (s : St), IdsInv c b ae rd s0 acc es s →
    (acc ++ ids).Nodup →
    ∃ s', loop (setVar c!"id") (exec L (callOwn L P k) (idBody c registry)) (ids.map .str) s = (.ok .normal, s') ∧
      IdsInv c b ae rd s0 (preallocIds L c ref acc ids es).1 (preallocIds L c ref acc ids es).2 s' := by
  intro ids
  induction ids with
  | nil => intro acc es s h _; exact ⟨s, rfl, h⟩
  | cons id ids ih =>
    intro acc es s h hnd
    have h1 : IdsInv c b ae rd s0 acc es (s.set c!"id" (.str id)) :=
      ⟨fun x hx => by rw [set_ne _ _ hx]; exact h.vars x hx, h.grow, h.frame, h.errs, h.dict⟩
    have hid : (s.set c!"id" (.str id)).vars c!"id" = some (.str id) := set_self ..
    have hset : setVar c!"id" (.str id) s = (.ok (), s.set c!"id" (.str id)) := setVar_run _ _ _
    have hnew : id ∉ acc := by
      intro hm
      exact (List.nodup_append.1 hnd).2.2 id hm id (by simp) rfl
    have hnd' : ((acc ++ [id]) ++ ids).Nodup := by simpa using hnd
    rw [List.map_cons]
    generalize s.set c!"id" (.str id) = s1 at h1 hid hset
    rw [preallocIds]
    cases hp : c.idPattern with
    | none =>
      simp only [idBody, hp] at ih ⊢
      obtain ⟨s2, e2, h2⟩ := alloc_one (L := L) (k := k) G hc hr h1 hid hnew
      rw [loop_normal (s' := s2) _ (by rw [bind_ok hset, e2])]
      exact ih _ _ _ h2 hnd'
    | some p =>
      simp only [idBody, hp] at ih ⊢
      have em : eval L (callOwn L P k) (.not (.reMatch p (v c!"id"))) s1 = (.ok (.bool (!L.reMatch p id)), s1) := by
        apply eval_not
        rw [eval, bind_ok (eval_name hid)]
        rfl
      cases hm : L.reMatch p id with
      | true =>
        rw [hm] at em
        simp only [if_true]
        obtain ⟨s2, e2, h2⟩ := alloc_one (L := L) (k := k) G hc hr h1 hid hnew
        rw [loop_normal (s' := s2) _ (by
          rw [bind_ok hset, exec_seq (s' := s1) (by rw [PyGen.when, exec_if_false em]; exact exec_pass), e2])]
        exact ih _ _ _ h2 hnd'
      | false =>
        rw [hm] at em
        simp only [Bool.false_eq_true, if_false]
        have hE : Errs ae s1 es := ⟨by rw [h1.vars _ (by decide), hr.errors], h1.errs⟩
        have hR : s1.vars c!"ref" = some (.str ref) := by rw [h1.vars _ (by decide), hr.path]
        have emsg : eval L (callOwn L P k) (.plus (.str (c!"Expected ID to match " ++ p ++ c!", but got: ")) (v c!"id")) s1 =
            (.ok (.str (c!"Expected ID to match " ++ p ++ c!", but got: " ++ id)), s1) := by
          have e0 : eval L (callOwn L P k) (.str (c!"Expected ID to match " ++ p ++ c!", but got: ")) s1 =
            (.ok (.str (c!"Expected ID to match " ++ p ++ c!", but got: ")), s1) := by rw [eval]; rfl
          rw [eval, bind_ok e0, bind_ok (eval_name hid)]
          rfl
        have erep := exec_report (L := L) (call := callOwn L P k) hE (eval_path (n := 0) (path_two (key := registryKey c) hR)) emsg
        have hne : rd ≠ ae := (Nat.ne_of_lt hr.lt.1).symm
        have h2 : IdsInv c b ae rd s0 acc (es.add ⟨sub ref (registryKey c), c!"Expected ID to match " ++ p ++ c!", but got: " ++ id⟩)
            (s1.write ae (.errors (es.add ⟨sub ref (registryKey c), c!"Expected ID to match " ++ p ++ c!", but got: " ++ id⟩))) := by
          refine ⟨h1.vars, by rw [write_length]; exact h1.grow, fun a x1 x2 x3 => by rw [write_ne _ x2, h1.frame a x1 x2 x3],
            write_self _ h1.errs, ?_⟩
          refine Holds.frame h1.dict (Nat.le_refl _) fun d hd _ => write_ne _ ?_
          rcases hd with rfl | hd
          · exact hne
          · exact Nat.ne_of_gt (Nat.lt_of_lt_of_le hr.lt.1 (Nat.le_of_succ_le hd))
        have hE2 := hE.write (es.add ⟨sub ref (registryKey c), c!"Expected ID to match " ++ p ++ c!", but got: " ++ id⟩)
        have hid2 : (s1.write ae (.errors (es.add ⟨sub ref (registryKey c), c!"Expected ID to match " ++ p ++ c!", but got: " ++ id⟩))).vars
          c!"id" = some (.str id) := hid
        generalize s1.write ae (.errors (es.add ⟨sub ref (registryKey c), c!"Expected ID to match " ++ p ++ c!", but got: " ++ id⟩)) = s2
          at erep h2 hE2 hid2
        generalize es.add ⟨sub ref (registryKey c), c!"Expected ID to match " ++ p ++ c!", but got: " ++ id⟩ = es2 at h2 hE2 ⊢
        cases hf : es2.full with
        | true =>
          simp only [if_true]
          refine ⟨s2, ?_, h2⟩
          rw [loop_brk (s' := s2)]
          rw [bind_ok hset]
          apply exec_seq_brk
          rw [PyGen.when, exec_if_true em, exec_seq erep, exec_full hE2, hf, if_pos rfl, exec]
          rfl
        | false =>
          simp only [Bool.false_eq_true, if_false]
          obtain ⟨s3, e3, h3⟩ := alloc_one (L := L) (k := k) G hc hr h2 hid2 hnew
          rw [loop_normal (s' := s3) _ (by
            rw [bind_ok hset, exec_seq (s' := s2) (by
              rw [PyGen.when, exec_if_true em, exec_seq erep, exec_full hE2, hf]; rfl), e3])]
          exact ih _ _ _ h3 hnd'

end

/-! ## The registries -/

def plurals (g : Graph) : List Str := g.classes.map fun c => lower c.plural

/-- The attribute of the graph is the registry with the placeholders. -/
def Registered (h : List Obj) (o : Addr) (c : Class) (q : List (Str × PV)) (entry : Bool × List Str) : Prop :=
  ∃ a : Addr, q.lookup (lower c.plural) = some (.addr a) ∧ o < a ∧ Holds h (o + 1) c a entry.1 entry.2

theorem Registered.frame {h h' : List Obj} {o : Addr} {c : Class} {q q' : List (Str × PV)} {e : Bool × List Str}
    (H : Registered h o c q e) (hq : q'.lookup (lower c.plural) = q.lookup (lower c.plural))
    (hf : ∀ d : Addr, o < d → d < h.length → h'[d]? = h[d]?) : Registered h' o c q' e := by
  obtain ⟨a, h1, h2, h3⟩ := H
  refine ⟨a, hq.trans h1, h2, h3.frame (Nat.le_refl _) fun d hd hl => ?_⟩
  rcases hd with rfl | hd
  · exact hf d h2 hl
  · exact hf d hd hl

/-- The result of the pre-allocation for a class which is not allocated yet is the one of an empty registry. -/
def entryOf (pre : List (Str × Bool × List Str)) (n : Str) : Bool × List Str := (pre.lookup n).getD (true, [])

theorem entryOf_append {pre : List (Str × Bool × List Str)} {n : Str} {e : Bool × List Str} (hn : n ∉ pre.map (·.1)) (m : Str) :
    entryOf (pre ++ [(n, e)]) m = if m = n then e else entryOf pre m := by
  have hl : ∀ l : List (Str × Bool × List Str), (l ++ [(n, e)]).lookup m = (l.lookup m).or ([(n, e)].lookup m) := by
    intro l
    induction l with
    | nil => rfl
    | cons kv l ih =>
      obtain ⟨a, b⟩ := kv
      rw [List.cons_append, List.lookup_cons, List.lookup_cons]
      split
      · rfl
      · exact ih
  unfold entryOf
  rw [hl]
  by_cases h : m = n
  · subst h
    rw [lookup_none_iff.2 hn]
    simp [List.lookup]
  · have : (m == n) = false := by simpa using h
    simp [List.lookup, this, h]

/-- The variables of the function of the graph -/
structure GVars (b : Bool) (kvs : List (Str × Json)) (ref : Str) (ae o : Addr) (s : St) : Prop where
  value : s.vars c!"value" = some (.obj b kvs)
  path : s.vars c!"ref" = some (.str ref)
  errors : s.vars c!"errors" = some (.addr ae)
  graph : s.vars c!"graph" = some (.addr o)

theorem GVars.of_eq {b : Bool} {kvs : List (Str × Json)} {ref : Str} {ae o : Addr} {s s' : St} (h : GVars b kvs ref ae o s)
    (he : ∀ x ∈ [c!"value", c!"ref", c!"errors", c!"graph"], s'.vars x = s.vars x) : GVars b kvs ref ae o s' :=
  ⟨by rw [he _ (by simp), h.value], by rw [he _ (by simp), h.path], by rw [he _ (by simp), h.errors], by rw [he _ (by simp), h.graph]⟩

/-- The state while the registries are allocated; the function has been called with the heap `h0`. -/
structure AllocInv (g : Graph) (b : Bool) (kvs : List (Str × Json)) (ref : Str) (ae : Addr) (h0 : List Obj)
    (pre : List (Str × Bool × List Str)) (es : Errors) (s : St) : Prop where
  vars : GVars b kvs ref ae h0.length s
  lt : ae < h0.length
  frame : ∀ a, a < h0.length → a ≠ ae → s.heap[a]? = h0[a]?
  errs : s.heap[ae]? = some (.errors es)
  graph : ∃ q, s.heap[h0.length]? = some (.inst (idOf g.name) q) ∧
    (∀ x, x ∉ plurals g → q.lookup x = if x ∈ attrs g.properties then some .none else none) ∧
    ∀ c ∈ g.classes, Registered s.heap h0.length c q (entryOf pre c.name)

section

variable {g : Graph} {py : ParseSchema.Py} {P : Program} {L : Lib} {k : Nat} {b : Bool} {kvs : List (Str × Json)} {ref : Str}
  {ae : Addr} {h0 : List Obj} {pre : List (Str × Bool × List Str)} {es : Errors} {s : St}

theorem AllocInv.set (h : AllocInv g b kvs ref ae h0 pre es s) {x : Str} (p : PV)
    (hx : x ∉ [c!"value", c!"ref", c!"errors", c!"graph"]) : AllocInv g b kvs ref ae h0 pre es (s.set x p) :=
  ⟨h.vars.of_eq fun _ hy => set_ne _ _ fun e => hx (e ▸ hy), h.lt, h.frame, h.errs, h.graph⟩

theorem AllocInv.add (h : AllocInv g b kvs ref ae h0 pre es s) (es' : Errors) :
    AllocInv g b kvs ref ae h0 pre es' (s.write ae (.errors es')) := by
  refine ⟨h.vars.of_eq fun _ _ => rfl, h.lt, fun a h1 h2 => by rw [write_ne _ h2, h.frame a h1 h2], write_self _ h.errs, ?_⟩
  obtain ⟨q, h1, h2, h3⟩ := h.graph
  exact ⟨q, by rw [write_ne _ (Nat.ne_of_gt h.lt), h1], h2, fun c hc => (h3 c hc).frame rfl fun d hd _ =>
    write_ne _ (Nat.ne_of_gt (Nat.lt_trans h.lt hd))⟩

theorem AllocInv.same (h : AllocInv g b kvs ref ae h0 pre es s) {n : Str} (hn : n ∉ pre.map (·.1)) :
    AllocInv g b kvs ref ae h0 (pre ++ [(n, true, [])]) es s := by
  refine ⟨h.vars, h.lt, h.frame, h.errs, ?_⟩
  obtain ⟨q, h1, h2, h3⟩ := h.graph
  refine ⟨q, h1, h2, fun c hc => ?_⟩
  rw [entryOf_append hn]
  split
  · rename_i e
    have := h3 c hc
    rwa [entryOf, e, lookup_none_iff.2 hn] at this
  · exact h3 c hc

theorem AllocInv.errs' (h : AllocInv g b kvs ref ae h0 pre es s) : Errs ae s es := ⟨h.vars.errors, h.errs⟩

/-- `if errors.full(): return` -/
theorem exec_full_ret (h : Errs ae s es) (call : Fn → Actual → M PV) :
    exec L call (.seq (ifFull (.ret .none)) .pass) s = (.ok (if es.full then .ret .none else .normal), s) := by
  cases hf : es.full with
  | false =>
    rw [exec_seq (s' := s) (by rw [exec_full h, hf]; rfl), exec_pass]
    rfl
  | true =>
    rw [exec_seq_ret (p := .none) (s' := s) (by rw [exec_full h, hf, if_pos rfl, exec]; rfl)]
    rfl

/-- The code between the look-up of the registry and the check of the container -/
def allocMid (c : Class) : Stmt := PyGen.when (.isNotNone (v c!"registry_value"))
  (.ite (.not (.isinstance (v c!"registry_value") .dict))
    (report (path [v c!"ref", .str (lower c.plural)])
      (PyGen.format c!"Expected a dictionary, but got: {}" (.typeOf (v c!"registry_value"))))
    (.seq (.ite (.isinstance (v c!"registry_value") .orderedDict)
        (.assign (.attr (v c!"graph") (lower c.plural)) (.newDict true))
        (.assign (.attr (v c!"graph") (lower c.plural)) (.newDict false)))
      (.seq (.assign (.var (lower c.plural ++ c!"_registry")) (.attr (v c!"graph") (lower c.plural)))
        (.seq (.forIn c!"id" (v c!"registry_value") (idBody c (lower c.plural ++ c!"_registry"))) .pass))))

theorem preallocate_eq {c : Class} {code : Stmt} (hcode : preallocate c = .ok code) :
    code = .seq (.assign (.var c!"registry_value") (.get (v c!"value") (.str (lower c.plural))))
      (.seq (allocMid c) (.seq (ifFull (.ret .none)) .pass)) := by
  obtain ⟨key, e1, hcode⟩ := ok_bind hcode
  have := jsonPlural_eq e1
  subst this
  obtain ⟨p, e2, hcode⟩ := ok_bind hcode
  obtain ⟨rfl, -⟩ := PyCode.asAttribute_eq e2
  obtain ⟨f, e3, hcode⟩ := ok_bind hcode
  obtain ⟨rfl, -⟩ := PyCode.asVariable_eq e3
  cases hcode
  rfl

/-- The registry of a class is allocated. -/
theorem prealloc_run (G : Good g py P) {c : Class} (hc : c ∈ g.classes) {code : Stmt} (hcode : preallocate c = .ok code)
    (hk : ∀ kv ∈ kvs, Keyed kv.2) (h : AllocInv g b kvs ref ae h0 pre es s) (hn : c.name ∉ pre.map (·.1)) :
    ∃ s', exec L (callOwn L P k) code s = (.ok (if (prealloc L kvs ref c es).2.full then .ret .none else .normal), s') ∧
      AllocInv g b kvs ref ae h0 (pre ++ [(c.name, (prealloc L kvs ref c es).1)]) (prealloc L kvs ref c es).2 s' := by
  rw [preallocate_eq hcode]
  have eg : eval L (callOwn L P k) (.get (v c!"value") (.str (lower c.plural))) s =
      (.ok (((kvs.lookup (lower c.plural)).map ofJson).getD .none), s) := by
    rw [eval, bind_ok (eval_name h.vars.value)]
    have : eval L (callOwn L P k) (.str (lower c.plural)) s = (.ok (.str (lower c.plural)), s) := by rw [eval]; rfl
    rw [bind_ok this, entries, bind_ok (pure_run _), ← lookup_ofJson]
    rfl
  rw [exec_seq (exec_assign_var eg)]
  have h1 := h.set (x := c!"registry_value") (((kvs.lookup (lower c.plural)).map ofJson).getD .none) (by decide)
  have hv : (s.set c!"registry_value" (((kvs.lookup (lower c.plural)).map ofJson).getD .none)).vars c!"registry_value" =
    some (((kvs.lookup (lower c.plural)).map ofJson).getD .none) := set_self ..
  generalize s.set c!"registry_value" (((kvs.lookup (lower c.plural)).map ofJson).getD .none) = s1 at h1 hv ⊢
  -- the middle part decides
  suffices hmid : ∃ s', exec L (callOwn L P k) (allocMid c) s1 = (.ok .normal, s') ∧
      AllocInv g b kvs ref ae h0 (pre ++ [(c.name, (prealloc L kvs ref c es).1)]) (prealloc L kvs ref c es).2 s' by
    obtain ⟨s', e, hI⟩ := hmid
    exact ⟨s', by rw [exec_seq e, exec_full_ret hI.errs'], hI⟩
  have hnone : ((kvs.lookup (lower c.plural)).map ofJson).getD .none = .none → prealloc L kvs ref c es = ((true, []), es) →
      ∃ s', exec L (callOwn L P k) (allocMid c) s1 = (.ok .normal, s') ∧
      AllocInv g b kvs ref ae h0 (pre ++ [(c.name, (prealloc L kvs ref c es).1)]) (prealloc L kvs ref c es).2 s' := by
    intro hp hr
    rw [hr]
    refine ⟨s1, ?_, h1.same hn⟩
    rw [allocMid, PyGen.when, exec_if_false (s' := s1) (by rw [eval_isNotNone (eval_name hv), hp]; rfl), exec_pass]
  cases hl : kvs.lookup (lower c.plural) with
  | none => exact hnone (by rw [hl]; rfl) (by simp only [prealloc, registryKey, hl])
  | some j =>
    by_cases hj : j = .null
    · subst hj
      exact hnone (by rw [hl]; rfl) (by simp only [prealloc, registryKey, hl])
    have hv' : s1.vars c!"registry_value" = some (ofJson j) := by rw [hv, hl]; rfl
    have hjn : (ofJson j).isNone = false := by
      cases j with
      | null => exact absurd rfl hj
      | _ => rfl
    rw [allocMid, PyGen.when, exec_if_true (s' := s1) (by rw [eval_isNotNone (eval_name hv'), hjn]; rfl)]
    rcases dict_cases s1.heap j with ⟨hd, o, entries, rfl⟩ | ⟨hd, hne⟩
    · rw [exec_if_false (s' := s1) (by rw [eval_not (eval_isinstance _ hv'), hd]; rfl)]
      obtain ⟨q, hq, hq1, hq2⟩ := h1.graph
      have ho : (s1.push (.dict o [])).heap[h0.length]? = some (.inst (idOf g.name) q) := get_push hq
      have hgv : (s1.push (.dict o [])).vars c!"graph" = some (.addr h0.length) := h1.vars.graph
      have hlt := lt_of_get hq
      have ea : exec L (callOwn L P k) (.ite (.isinstance (v c!"registry_value") .orderedDict)
          (.assign (.attr (v c!"graph") (lower c.plural)) (.newDict true))
          (.assign (.attr (v c!"graph") (lower c.plural)) (.newDict false))) s1 = (.ok .normal,
            (s1.push (.dict o [])).write h0.length (.inst (idOf g.name) (put (lower c.plural) (.addr s1.heap.length) q))) := by
        rw [exec_if (eval_isinstance .orderedDict hv')]
        have hx : ∀ b', b' = o → exec L (callOwn L P k) (.assign (.attr (v c!"graph") (lower c.plural)) (.newDict b')) s1 = (.ok .normal,
            (s1.push (.dict o [])).write h0.length (.inst (idOf g.name) (put (lower c.plural) (.addr s1.heap.length) q))) := by
          intro b' hb
          subst hb
          have en : eval L (callOwn L P k) (.newDict b') s1 = (.ok (.addr s1.heap.length), s1.push (.dict b' [])) := by
            rw [eval, alloc_run]
          rw [exec_assign en, v, bind_ok (assign_attr hgv ho _ _)]
          rfl
        cases o
        · exact hx false rfl
        · exact hx true rfl
      rw [exec_seq ea]
      generalize hs2 : (s1.push (.dict o [])).write h0.length (.inst (idOf g.name) (put (lower c.plural) (.addr s1.heap.length) q)) = s2
      have g2 : s2.heap[h0.length]? = some (.inst (idOf g.name) (put (lower c.plural) (.addr s1.heap.length) q)) := by
        rw [← hs2]; exact write_self _ ho
      have l2 : s2.heap.length = s1.heap.length + 1 := by rw [← hs2, write_length, push_length]
      have f2 : ∀ a : Addr, a < s1.heap.length → a ≠ h0.length → s2.heap[a]? = s1.heap[a]? := by
        intro a x1 x2
        rw [← hs2, write_ne _ x2, push_lt _ x1]
      have d2 : s2.heap[s1.heap.length]? = some (.dict o []) := by
        rw [← hs2, write_ne _ (Nat.ne_of_gt hlt), push_self]
      have v2 : s2.vars = s1.vars := by rw [← hs2]; rfl
      have eb : eval L (callOwn L P k) (.attr (v c!"graph") (lower c.plural)) s2 = (.ok (.addr s1.heap.length), s2) := by
        rw [eval, bind_ok (eval_name (by rw [v2]; exact h1.vars.graph)), getAttr, bind_ok (load_run g2)]
        simp only [lookup_put, if_true]
        rfl
      rw [exec_seq (exec_assign_var eb)]
      have hne : ∀ (z : Str) (ch : Char), z.getLast? = some ch → ch ≠ 'y' → z ≠ lower c.plural ++ c!"_registry" :=
        fun z ch x1 x2 => (PyCode.registry_ne x1 x2).symm
      have n1 := hne c!"value" 'e' (by rfl) (by decide)
      have n2 := hne c!"ref" 'f' (by rfl) (by decide)
      have n3 := hne c!"errors" 's' (by rfl) (by decide)
      have n4 := hne c!"graph" 'h' (by rfl) (by decide)
      have n5 := hne c!"id" 'd' (by rfl) (by decide)
      have n6 := hne c!"registry_value" 'e' (by rfl) (by decide)
      generalize hs3 : s2.set (lower c.plural ++ c!"_registry") (.addr s1.heap.length) = s3
      have v3 : ∀ x, x ≠ lower c.plural ++ c!"_registry" → s3.vars x = s1.vars x := by
        intro x hx
        rw [← hs3, set_ne _ _ hx, v2]
      have h3 : s3.heap = s2.heap := by rw [← hs3]; rfl
      have hlt' : ae < s1.heap.length := lt_of_get h1.errs
      have hready : IdsReady ae s1.heap.length (lower c.plural ++ c!"_registry") ref s3 :=
        ⟨by rw [← hs3, set_self], Ne.symm n5, by rw [v3 _ n3, h1.vars.errors], by rw [v3 _ n2, h1.vars.path], hlt',
          by rw [h3, l2]; exact Nat.lt_succ_self _⟩
      have hstart : IdsInv c o ae s1.heap.length s3 [] es s3 :=
        ⟨fun _ _ => rfl, Nat.le_refl _, fun _ _ _ _ => rfl, by rw [h3, f2 ae hlt' (Nat.ne_of_lt h1.lt), h1.errs],
          [], by rw [h3, d2], rfl, by simp⟩
      have hkeyed : (entries.map (·.1)).Nodup := by
        have := hk _ (mem_of_lookup hl)
        cases this
        assumption
      obtain ⟨s4, e4, h4⟩ := alloc_loop (L := L) (k := k) G hc hready (entries.map (·.1)) [] es s3 hstart (by simpa using hkeyed)
      have el : exec L (callOwn L P k) (.forIn c!"id" (v c!"registry_value") (idBody c (lower c.plural ++ c!"_registry"))) s3 =
          (.ok .normal, s4) := by
        rw [exec, bind_ok (eval_name (by rw [v3 _ n6, hv']))]
        have : elements (ofJson (.obj o entries)) s3 = (.ok ((entries.map (·.1)).map .str), s3) := by
          rw [List.map_map]
          rfl
        rw [bind_ok this, e4]
      have hr : prealloc L kvs ref c es = ((o, (preallocIds L c ref [] (entries.map (·.1)) es).1),
          (preallocIds L c ref [] (entries.map (·.1)) es).2) := by
        simp only [prealloc, registryKey, hl]
      rw [hr]
      generalize preallocIds L c ref [] (entries.map (·.1)) es = r at h4 ⊢
      refine ⟨s4, by rw [exec_seq el, exec_pass], ?_⟩
      have f4 : ∀ a : Addr, a < s1.heap.length → a ≠ ae → a ≠ h0.length → s4.heap[a]? = s1.heap[a]? := by
        intro a x1 x2 x3
        rw [h4.frame a (by rw [h3, l2]; exact Nat.lt_succ_of_lt x1) x2 (Nat.ne_of_lt x1), h3, f2 a x1 x3]
      refine ⟨h1.vars.of_eq fun x hx => ?_, h1.lt, fun a x1 x2 => ?_, h4.errs, put (lower c.plural) (.addr s1.heap.length) q, ?_,
        fun x hx => ?_, fun c' hc' => ?_⟩
      · simp only [List.mem_cons, List.not_mem_nil, or_false] at hx
        rcases hx with rfl | rfl | rfl | rfl <;> rw [h4.vars _ (by decide), v3 _ (by assumption)]
      · rw [f4 a (Nat.lt_trans x1 hlt) x2 (Nat.ne_of_lt x1), h1.frame a x1 x2]
      · rw [h4.frame _ (by rw [h3, l2]; exact Nat.lt_succ_of_lt hlt) (Nat.ne_of_gt h1.lt) (Nat.ne_of_lt hlt), h3, g2]
      · rw [lookup_put, if_neg, hq1 x hx]
        intro e
        exact hx (e ▸ List.mem_map.2 ⟨c, hc, rfl⟩)
      · rw [entryOf_append hn]
        by_cases e : c'.name = c.name
        · have e' : c' = c := nodup_inj (f := (·.name)) G.facts.named.classes hc' hc e
          subst e'
          rw [if_pos rfl]
          exact ⟨s1.heap.length, by rw [lookup_put, if_pos rfl], hlt, h4.dict.frame (Nat.succ_le_succ (Nat.le_of_lt hlt)) fun _ _ _ => rfl⟩
        · rw [if_neg e]
          refine (hq2 c' hc').frame ?_ fun d x1 x2 => f4 d x2 (Nat.ne_of_gt (Nat.lt_trans h1.lt x1)) (Nat.ne_of_gt x1)
          rw [lookup_put, if_neg]
          intro e2
          exact e (congrArg (·.name) (nodup_inj (f := fun c : Class => lower c.plural) (List.nodup_append.1 G.facts.graph).2.1 hc' hc e2))
    · have hr : prealloc L kvs ref c es = ((true, []), es.add ⟨sub ref (registryKey c), expected c!"a dictionary" j⟩) := by
        cases j with
        | null => exact absurd rfl hj
        | obj o l => exact absurd rfl (hne o l)
        | _ => simp only [prealloc, registryKey, hl]
      rw [hr]
      have hm : eval L (callOwn L P k) (PyGen.format c!"Expected a dictionary, but got: {}" (.typeOf (v c!"registry_value"))) s1 =
          (.ok (.str (expected c!"a dictionary" j)), s1) := by
        rw [eval_format (eval_typeOf hv')]
        have e : c!"Expected a dictionary, but got: {}" = c!"Expected a dictionary" ++ c!", but got: {}" := rfl
        rw [e, formatText_braceless (by decide), formatText_got, typeText_ofJson]
        rfl
      refine ⟨_, ?_, (h1.add (es.add ⟨sub ref (registryKey c), expected c!"a dictionary" j⟩)).same hn⟩
      rw [exec_if_true (s' := s1) (by rw [eval_not (eval_isinstance _ hv'), hd]; rfl),
        exec_report h1.errs' (eval_path (n := 0) (path_two h1.vars.path)) hm]
      rfl

/-- What the code to allocate the registries leaves behind -/
def AllocRan (g : Graph) (b : Bool) (kvs : List (Str × Json)) (ref : Str) (ae : Addr) (h0 : List Obj)
    (R : Except Raised Flow × St) : Option (List (Str × Bool × List Str)) × Errors → Prop
  | (none, es) => ∃ s' pre, R = (.ok (.ret .none), s') ∧ AllocInv g b kvs ref ae h0 pre es s'
  | (some pre, es) => ∃ s', R = (.ok .normal, s') ∧ AllocInv g b kvs ref ae h0 pre es s'

theorem preallocs_run (G : Good g py P) (hk : ∀ kv ∈ kvs, Keyed kv.2) : ∀ (cs : List Class) (codes : List Stmt),
    cs.mapM preallocate = .ok codes → (∀ c ∈ cs, c ∈ g.classes) → ∀ pre es s, AllocInv g b kvs ref ae h0 pre es s →
    (pre.map (·.1) ++ cs.map (·.name)).Nodup →
    AllocRan g b kvs ref ae h0 (exec L (callOwn L P k) (block codes) s) (preallocAll L kvs ref cs pre es) := by
  intro cs
  induction cs with
  | nil =>
    intro codes hc _ pre es s h _
    rw [GoCode.mapM_nil] at hc
    cases hc
    exact ⟨s, exec_pass, h⟩
  | cons c cs ih =>
    intro codes hcodes hcs pre es s h hnd
    obtain ⟨code, codes', h1, h2, rfl⟩ := GoCode.mapM_cons hcodes
    have hn : c.name ∉ pre.map (·.1) := fun hm => (List.nodup_append.1 hnd).2.2 _ hm c.name (by simp) rfl
    obtain ⟨s', e, hI⟩ := prealloc_run (L := L) (k := k) G (hcs c (by simp)) h1 hk h hn
    rw [preallocAll]
    generalize prealloc L kvs ref c es = r at e hI ⊢
    cases hf : r.2.full with
    | true =>
      rw [hf] at e
      rw [if_pos rfl]
      exact ⟨s', _, by rw [block, exec_seq_ret e], hI⟩
    | false =>
      rw [hf] at e
      rw [if_neg (by decide)]
      rw [block, exec_seq e]
      exact ih codes' h2 (fun c hc => hcs c (by simp [hc])) _ _ _ hI (by simpa using hnd)

end

/-! ## The result of the interpreter -/

/-- The registry allocated for a class unless the container is full -/
def entryFor (kvs : List (Str × Json)) (c : Class) : Bool × List Str :=
  match kvs.lookup (registryKey c) with
  | some (.obj o entries) => (o, entries.map (·.1))
  | _ => (true, [])

theorem preallocIds_all {L : Lib} {c : Class} {ref : Str} : ∀ (ids acc : List Str) (es : Errors),
    (preallocIds L c ref acc ids es).2.full = false → (preallocIds L c ref acc ids es).1 = acc ++ ids := by
  intro ids
  induction ids with
  | nil => intro acc es _; simp [preallocIds]
  | cons id ids ih =>
    intro acc es h
    rw [preallocIds] at h ⊢
    split at h
    · rw [ih _ _ h]
      simp
    · split at h
      · rename_i hm
        simp only [hm, if_true]
        rw [ih _ _ h]
        simp
      · rename_i hm
        simp only [hm, Bool.false_eq_true, if_false]
        simp only at h
        split at h
        · rename_i hf
          rw [hf] at h
          cases h
        · rename_i hf
          rw [if_neg hf, ih _ _ h]
          simp

theorem prealloc_entry {L : Lib} {kvs : List (Str × Json)} {ref : Str} {c : Class} {es : Errors}
    (h : (prealloc L kvs ref c es).2.full = false) : (prealloc L kvs ref c es).1 = entryFor kvs c := by
  unfold prealloc at h ⊢
  unfold entryFor
  cases hl : kvs.lookup (registryKey c) with
  | none => rfl
  | some j =>
    rw [hl] at h
    cases j with
    | obj o entries =>
      simp only at h ⊢
      rw [preallocIds_all _ _ _ h]
      rfl
    | _ => rfl

theorem preallocAll_entries {L : Lib} {kvs : List (Str × Json)} {ref : Str} : ∀ (cs : List Class) pre es pre' es',
    preallocAll L kvs ref cs pre es = (some pre', es') → pre' = pre ++ cs.map fun c => (c.name, entryFor kvs c) := by
  intro cs
  induction cs with
  | nil =>
    intro pre es pre' es' h
    cases h
    simp
  | cons c cs ih =>
    intro pre es pre' es' h
    rw [preallocAll] at h
    split at h
    · cases h
    · rename_i hf
      rw [ih _ _ _ _ h, prealloc_entry (by simpa using hf)]
      simp

end Mapry.PyExec
