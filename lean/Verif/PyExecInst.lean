import Verif.PyExecAlloc

/-!
# The generated Python code which parses the instances agrees with `parseRegistries`
-/

namespace Mapry.PyExec

open Mapry.PyLang Mapry.PyGen Mapry.PyRuntime Mapry.Text Mapry.Duration Mapry.Naming
open Mapry.TypeGraph hiding Obj
open Mapry.PyRuntime (Json Lib Val)
open PyCode (ok_bind attrs idOf allNames defNames)
open GoCode (referencesOf)

/-- The entries of a registry: the instances under their identifiers -/
def entriesAt (W : World) (n : Str) (ids : List Str) : List (Str × PV) := ids.map fun id => (id, .addr (W.place n id))

theorem entriesAt_lookup (W : World) (n : Str) (ids : List Str) (id : Str) :
    (entriesAt W n ids).lookup id = if id ∈ ids then some (.addr (W.place n id)) else none := by
  induction ids with
  | nil => rfl
  | cons x xs ih =>
    have e : entriesAt W n (x :: xs) = (x, .addr (W.place n x)) :: entriesAt W n xs := rfl
    rw [e, List.lookup_cons]
    by_cases h : id = x
    · subst h; simp
    · have h0 : (id == x) = false := by simpa using h
      rw [h0]
      simp only [List.mem_cons, h, false_or]
      exact ih

/-- Where the objects are after the allocation -/
structure Placed (W : World) (g : Graph) (o : Addr) (top : Nat) (q : List (Str × PV)) (pre : List (Str × Bool × List Str)) : Prop where
  ae : W.ae < o
  graph : o < top
  regs : ∀ c ∈ g.classes, q.lookup (lower c.plural) = some (.addr (W.regs c.name)) ∧ o < W.regs c.name ∧ W.regs c.name < top
  place : ∀ c ∈ g.classes, ∀ id ∈ (entryOf pre c.name).2, o < W.place c.name id ∧ W.place c.name id < top

/-- The state while the instances are parsed: `parsed` are the attributes of the instances which are parsed. -/
structure InstInv (W : World) (g : Graph) (b : Bool) (kvs : List (Str × Json)) (ref : Str) (h0 : List Obj) (top : Nat)
    (q : List (Str × PV)) (pre : List (Str × Bool × List Str)) (parsed : Str → Str → Option Attrs) (es : Errors) (s : St) : Prop where
  vars : GVars b kvs ref W.ae h0.length s
  frame : ∀ a, a < h0.length → a ≠ W.ae → s.heap[a]? = h0[a]?
  high : top ≤ s.heap.length
  errs : s.heap[W.ae]? = some (.errors es)
  graph : s.heap[h0.length]? = some (.inst (idOf g.name) q)
  regs : ∀ c ∈ g.classes, s.heap[W.regs c.name]? =
    some (.dict (entryOf pre c.name).1 (entriesAt W c.name (entryOf pre c.name).2))
  insts : ∀ c ∈ g.classes, ∀ id ∈ (entryOf pre c.name).2, ∃ p, s.heap[W.place c.name id]? = some (.inst (idOf c.name) p) ∧
    p.lookup c!"id" = some (.str id) ∧
    AttrsRep W.place s.heap top [c!"id"] ((parsed c.name id).getD (PyRuntime.placeholder c.properties)) p

/-- The places are found in the registries. -/
def worldOf (g : Graph) (ae : Addr) (q : List (Str × PV)) (h : List Obj) : World where
  ae := ae
  regs n := match g.cls? n with
    | some c => match q.lookup (lower c.plural) with
      | some (.addr a) => a
      | _ => 0
    | none => 0
  place n id := match g.cls? n with
    | some c => match q.lookup (lower c.plural) with
      | some (.addr a) => match h[a]? with
        | some (.dict _ kvs) => match kvs.lookup id with
          | some (.addr d) => d
          | _ => 0
        | _ => 0
      | _ => 0
    | none => 0

/-- The placeholders are the instances none of which is parsed. -/
theorem inst_start {g : Graph} (hN : Named g) (hid : ∀ c ∈ g.classes, c!"id" ∉ attrs c.properties) {b : Bool}
    {kvs : List (Str × Json)} {ref : Str} {ae : Addr} {h0 : List Obj} {pre : List (Str × Bool × List Str)} {es : Errors} {s : St}
    (h : AllocInv g b kvs ref ae h0 pre es s) (hnd : ∀ c ∈ g.classes, (entryOf pre c.name).2.Nodup) :
    ∃ W q, W.ae = ae ∧ Placed W g h0.length s.heap.length q pre ∧
      (∀ x, x ∉ plurals g → q.lookup x = if x ∈ attrs g.properties then some .none else none) ∧
      InstInv W g b kvs ref h0 s.heap.length q pre (fun _ _ => none) es s := by
  obtain ⟨q, hq, hq1, hq2⟩ := h.graph
  have key : ∀ c ∈ g.classes, q.lookup (lower c.plural) = some (.addr ((worldOf g ae q s.heap).regs c.name)) ∧
      h0.length < (worldOf g ae q s.heap).regs c.name ∧
      s.heap[(worldOf g ae q s.heap).regs c.name]? =
        some (.dict (entryOf pre c.name).1 (entriesAt (worldOf g ae q s.heap) c.name (entryOf pre c.name).2)) ∧
      ∀ id ∈ (entryOf pre c.name).2, h0.length < (worldOf g ae q s.heap).place c.name id ∧
        Blank c id s.heap[(worldOf g ae q s.heap).place c.name id]? := by
    intro c hc
    obtain ⟨a, ha, hlt, l, hd, hk, hall⟩ := hq2 c hc
    have hr : (worldOf g ae q s.heap).regs c.name = a := by
      simp only [worldOf, hN.cls? hc, ha]
    have hp : ∀ kv ∈ l, kv = (kv.1, .addr ((worldOf g ae q s.heap).place c.name kv.1)) ∧
        h0.length < (worldOf g ae q s.heap).place c.name kv.1 ∧
        Blank c kv.1 s.heap[(worldOf g ae q s.heap).place c.name kv.1]? := by
      intro kv hkv
      obtain ⟨id, p⟩ := kv
      obtain ⟨d, e, hd', hB⟩ := hall _ hkv
      simp only at e hB
      subst e
      have hl : l.lookup id = some (.addr d) := lookup_mem (by rw [hk]; exact hnd c hc) hkv
      have : (worldOf g ae q s.heap).place c.name id = d := by
        simp only [worldOf, hN.cls? hc, ha, hd, hl]
      simp only [this]
      exact ⟨trivial, hd', hB⟩
    rw [hr]
    refine ⟨ha, hlt, ?_, fun id hi => ?_⟩
    · rw [hd, ← hk, entriesAt, List.map_map]
      congr 2
      exact (List.map_id l).symm.trans (List.map_congr_left fun kv hkv => (hp kv hkv).1)
    · rw [← hk] at hi
      obtain ⟨kv, hkv, rfl⟩ := List.mem_map.1 hi
      exact (hp kv hkv).2
  refine ⟨worldOf g ae q s.heap, q, rfl, ⟨h.lt, lt_of_get hq, fun c hc => ?_, fun c hc id hi => ?_⟩, hq1,
    ⟨h.vars, h.frame, Nat.le_refl _, h.errs, hq, fun c hc => (key c hc).2.2.1, fun c hc id hi => ?_⟩⟩
  · exact ⟨(key c hc).1, (key c hc).2.1, lt_of_get (key c hc).2.2.1⟩
  · obtain ⟨p, hp, _⟩ := ((key c hc).2.2.2 id hi).2
    exact ⟨((key c hc).2.2.2 id hi).1, lt_of_get hp⟩
  · obtain ⟨p, hp, hn⟩ := ((key c hc).2.2.2 id hi).2
    refine ⟨p, hp, ?_, attrsRep_nones hn fun x hx => ?_⟩
    · rw [hn, if_neg (hid c hc)]
      rfl
    · simp only [List.mem_singleton] at hx
      have : (x == c!"id") = false := by simpa using hx
      simp [List.lookup, this]

section

variable {W : World} {g : Graph} {py : ParseSchema.Py} {P : Program} {L : Lib} {k : Nat} {b : Bool} {kvs : List (Str × Json)}
  {ref : Str} {h0 : List Obj} {top : Nat} {q : List (Str × PV)} {pre : List (Str × Bool × List Str)}
  {parsed : Str → Str → Option Attrs} {es : Errors} {s : St}

theorem InstInv.set (h : InstInv W g b kvs ref h0 top q pre parsed es s) {x : Str} (p : PV)
    (hx : x ∉ [c!"value", c!"ref", c!"errors", c!"graph"]) : InstInv W g b kvs ref h0 top q pre parsed es (s.set x p) :=
  ⟨h.vars.of_eq fun _ hy => set_ne _ _ fun e => hx (e ▸ hy), h.frame, h.high, h.errs, h.graph, h.regs, h.insts⟩

theorem InstInv.errs' (h : InstInv W g b kvs ref h0 top q pre parsed es s) : Errs W.ae s es := ⟨h.vars.errors, h.errs⟩

/-- The places of different instances are different. -/
theorem InstInv.inj (G : Good g py P) (h : InstInv W g b kvs ref h0 top q pre parsed es s) {c d : Class} (hc : c ∈ g.classes)
    (hd : d ∈ g.classes) {i j : Str} (hi : i ∈ (entryOf pre c.name).2) (hj : j ∈ (entryOf pre d.name).2)
    (e : W.place c.name i = W.place d.name j) : c = d ∧ i = j := by
  obtain ⟨p, h1, h2, _⟩ := h.insts c hc i hi
  obtain ⟨p', h1', h2', _⟩ := h.insts d hd j hj
  rw [e, h1'] at h1
  injection h1 with h1
  injection h1 with h1 h1''
  subst h1''
  rw [h2'] at h2
  injection h2 with h2
  injection h2 with h2
  refine ⟨nodup_inj (f := fun c : Class => idOf c.name) ?_ hc hd h1.symm, h2.symm⟩
  have := G.facts.ids
  rw [defNames, List.map_append, List.map_map] at this
  exact (List.nodup_append.1 this).1

theorem ids_entry {S : PyRuntime.Settings} (c : Str) : (envOf L S g pre).ids c = (entryOf pre c).2 := by
  show ((pre.lookup c).map (·.2)).getD [] = ((pre.lookup c).getD (true, [])).2
  cases pre.lookup c <;> rfl

theorem InstInv.reg {S : PyRuntime.Settings} (h : InstInv W g b kvs ref h0 top q pre parsed es s) {c : Class} (hc : c ∈ g.classes) :
    RegOk W (envOf L S g pre) s.heap c.name :=
  ⟨_, _, h.regs c hc, fun id => by rw [entriesAt_lookup, ids_entry]⟩

theorem registryAttr_eq {name : Str} {e : Expr} (h : registryAttr g name = .ok e) :
    ∃ c ∈ g.classes, c.name = name ∧ e = .attr (v c!"graph") (lower c.plural) := by
  unfold registryAttr at h
  split at h
  · rename_i c hc
    obtain ⟨y, hy, h⟩ := ok_bind h
    obtain ⟨rfl, -⟩ := PyCode.asAttribute_eq hy
    cases h
    have := TypeGraph.find_mem hc
    exact ⟨c, this.1, by simpa using this.2, rfl⟩
  · cases h

theorem InstInv.regsAt {S : PyRuntime.Settings} (hP : Placed W g h0.length top q pre)
    (h : InstInv W g b kvs ref h0 top q pre parsed es s) : RegsAt W (envOf L S g pre) (registryAttr g) 0 s := by
  intro c e he
  obtain ⟨d, hd, rfl, rfl⟩ := registryAttr_eq he
  exact ⟨.attr keep_graph h.vars.graph h.graph (hP.regs d hd).1, h.reg hd⟩

/-- An instance is parsed. -/
def mark (parsed : Str → Str → Option Attrs) (n i : Str) (attrs : Attrs) : Str → Str → Option Attrs :=
  fun m j => if m = n ∧ j = i then some attrs else parsed m j

/-- The object of an instance changes. -/
theorem InstInv.update (G : Good g py P) (hP : Placed W g h0.length top q pre)
    (h : InstInv W g b kvs ref h0 top q pre parsed es s) {c : Class} (hc : c ∈ g.classes) {id : Str}
    (hi : id ∈ (entryOf pre c.name).2) {s' : St} {es' : Errors} {parsed' : Str → Str → Option Attrs}
    (hvars : s'.vars = s.vars) (hgrow : s.heap.length ≤ s'.heap.length)
    (hframe : ∀ a, a < s.heap.length → a ≠ W.ae → a ≠ W.place c.name id → s'.heap[a]? = s.heap[a]?)
    (herrs : s'.heap[W.ae]? = some (.errors es'))
    (hne : ∀ d ∈ g.classes, ∀ j ∈ (entryOf pre d.name).2, ¬ (d = c ∧ j = id) → parsed' d.name j = parsed d.name j)
    (hinst : ∃ p, s'.heap[W.place c.name id]? = some (.inst (idOf c.name) p) ∧ p.lookup c!"id" = some (.str id) ∧
      AttrsRep W.place s'.heap top [c!"id"] ((parsed' c.name id).getD (PyRuntime.placeholder c.properties)) p) :
    InstInv W g b kvs ref h0 top q pre parsed' es' s' := by
  have hpl := hP.place c hc id hi
  have hlo : h0.length < s.heap.length := lt_of_get h.graph
  refine ⟨h.vars.of_eq fun _ _ => by rw [hvars], fun a h1 h2 => ?_, Nat.le_trans h.high hgrow, herrs, ?_, fun d hd => ?_,
    fun d hd j hj => ?_⟩
  · rw [hframe a (Nat.lt_trans h1 hlo) h2 (Nat.ne_of_lt (Nat.lt_trans h1 hpl.1)), h.frame a h1 h2]
  · rw [hframe _ hlo (Nat.ne_of_gt hP.ae) (Nat.ne_of_lt hpl.1), h.graph]
  · have hr := hP.regs d hd
    rw [hframe _ (Nat.lt_of_lt_of_le hr.2.2 h.high) (Nat.ne_of_gt (Nat.lt_trans hP.ae hr.2.1)), h.regs d hd]
    intro e
    obtain ⟨p, hp, _⟩ := h.insts c hc id hi
    have := h.regs d hd
    rw [e, hp] at this
    cases this
  · by_cases e : d = c ∧ j = id
    · obtain ⟨rfl, rfl⟩ := e
      exact hinst
    · obtain ⟨p, h1, h2, h3⟩ := h.insts d hd j hj
      have hpd := hP.place d hd j hj
      refine ⟨p, ?_, h2, ?_⟩
      · rw [hframe _ (Nat.lt_of_lt_of_le hpd.2 h.high) (Nat.ne_of_gt (Nat.lt_trans hP.ae hpd.1)), h1]
        intro e'
        exact e (h.inj G hd hc hj hi e')
      · rw [hne d hd j hj e]
        refine h3.frame fun a x1 x2 => hframe a x2 ?_ ?_
        · exact Nat.ne_of_gt (Nat.lt_of_lt_of_le (Nat.lt_trans hP.ae hP.graph) x1)
        · exact Nat.ne_of_gt (Nat.lt_of_lt_of_le hpl.2 x1)

/-- The code for one instance -/
def instBody (c : Class) (registries : List Expr) : Stmt := .seq
  (.assign (.var (c!"target_" ++ lower c.name)) (.index (.attr (v c!"graph") (lower c.plural)) (v c!"id"))) (.seq
  (.assign (.attr (v (c!"target_" ++ lower c.name)) c!"id") (v c!"id")) (.seq
  (.expr (.call (.own (c!"_" ++ lower c.name ++ c!"_from"))
        (args (v c!"instance_value" :: registries ++
          [path [v c!"ref", .str (lower c.plural), .reprOf (v c!"id")], v (c!"target_" ++ lower c.name), errors])))) (.seq
  (ifFull (.ret .none)) .pass)))

theorem parseInstances_eq {c : Class} {code : Stmt} (h : PyGen.parseInstances g c = .ok code) :
    ∃ refs registries, referencesOf g (.cls c.name) = .ok refs ∧ refs.mapM (registryAttr g) = .ok registries ∧
      code = PyGen.when (.isIn (.str (lower c.plural)) (v c!"value"))
        (.seq (.assign (.var c!"registry_value") (.index (v c!"value") (.str (lower c.plural))))
          (.forItems c!"id" c!"instance_value" (v c!"registry_value") (instBody c registries))) := by
  obtain ⟨key, e1, h⟩ := ok_bind h
  have := jsonPlural_eq e1
  subst this
  obtain ⟨p, e2, h⟩ := ok_bind h
  obtain ⟨rfl, -⟩ := PyCode.asAttribute_eq e2
  obtain ⟨f, e3, h⟩ := ok_bind h
  obtain ⟨rfl, -⟩ := PyCode.asVariable_eq e3
  obtain ⟨refs, e4, h⟩ := ok_bind h
  obtain ⟨registries, e5, h⟩ := ok_bind h
  cases h
  exact ⟨refs, registries, e4, e5, rfl⟩

/-- What the code of an instance leaves behind -/
def InstRan (W : World) (g : Graph) (b : Bool) (kvs : List (Str × Json)) (ref : Str) (h0 : List Obj) (top : Nat)
    (q : List (Str × PV)) (pre : List (Str × Bool × List Str)) (parsed : Str → Str → Option Attrs) (n i : Str)
    (R : Except Raised Flow × St) : Except Exc (Attrs × Errors) → Prop
  | .error x => ∃ t s', R = (.error (.exc x t), s')
  | .ok (attrs, es) => ∃ s', R = (.ok (if es.full then .ret .none else .normal), s') ∧
      InstInv W g b kvs ref h0 top q pre (mark parsed n i attrs) es s'

/-- The function of a class agrees with the parser. -/
theorem class_call (G : Good g py P) {S : PyRuntime.Settings} (hS : SettingsOk S py) {c : Class} (hc : c ∈ g.classes)
    {refs : List Str} (hrefs : referencesOf g (.cls c.name) = .ok refs) {sp : Spot} (hv : sp.var = c!"target")
    (hex : sp.extra = [c!"id"]) {j : Json} (hj : Keyed j) (H : Callable W (envOf L S g pre) sp refs c.properties s es) (path : Str) :
    CallRan W sp s (callOwn L P (k + 1) (.own (c!"_" ++ lower c.name ++ c!"_from"))
      ((compositeArgs W refs j path sp.o).map fun p => (none, p)) s)
      (PyRuntime.parseComposite (parseTy (envOf L S g pre) (parseEmbed (envOf L S g pre) k)) c.properties j path es) := by
  obtain ⟨fss, _, _, hcs, _, _, hown⟩ := G.own
  obtain ⟨fs, hfs, hfs'⟩ := GoCode.mapM_mem' hcs hc
  obtain ⟨refs', params, body, g1, g2, g3, g4⟩ := G.own_call hfs' (fun f hf => by
    rw [hown]
    exact List.mem_append_left _ (List.mem_append_left _ (List.mem_flatten.2 ⟨fs, hfs, hf⟩)))
  rw [hrefs] at g1
  cases g1
  have hprops : ownerProps g (.cls c.name) = c.properties := by
    simp [ownerProps, G.facts.named.cls? hc]
  have hval : ∀ p ∈ ownerProps g (.cls c.name), ValueOk W (envOf L S g pre) (compositeCtx g py refs) (callOwn L P k)
      (parseEmbed (envOf L S g pre) k) p.ty := by
    intro p hp
    exact types_ok (E := envOf L S g pre) G rfl hS k (ctx := compositeCtx g py refs) rfl rfl (fun c e' hce => G.braceless hce) (occurs_owner hp)
  rw [hprops] at hval g3
  have hr := composite_run (E := envOf L S g pre) (call := callOwn L P k) G.facts (referencesOf_nodup hrefs) g2 g3 hv hval (fun p hp => by
    rw [hex, List.mem_singleton]
    intro e
    exact (G.facts.cls c hc).2 (e ▸ List.mem_map.2 ⟨p, hp, rfl⟩))
    (ref := path) hj H (c!"_" ++ lower c.name ++ c!"_from")
  rw [g4]
  exact hr

theorem target_ne (f x : Str) (h : x.head? ≠ some 't') : x ≠ c!"target_" ++ f := by
  intro e
  subst e
  exact h rfl

theorem eval_index {call : Fn → Actual → M PV} {x a : Str} {o d : Addr} {cn id : Str} {b' : Bool} {l : List (Str × PV)}
    {y : Str} (h1 : s.vars x = some (.addr o)) (h2 : s.heap[o]? = some (.inst cn q)) (h3 : q.lookup a = some (.addr d))
    (h4 : s.heap[d]? = some (.dict b' l)) (h5 : s.vars y = some (.str id)) :
    eval L call (.index (.attr (v x) a) (v y)) s = (match l.lookup id with
      | some w => (.ok w, s)
      | none => (.error (.exc .keyError []), s)) := by
  have e : eval L call (.attr (v x) a) s = (.ok (.addr d), s) := by
    rw [eval, bind_ok (eval_name h1), getAttr, bind_ok (load_run h2)]
    simp only [h3]
    rfl
  have e2 : entries .typeError (.addr d) s = (.ok l, s) := by
    rw [entries, bind_ok (load_run h4)]
    rfl
  rw [eval, bind_ok e, bind_ok (eval_name h5), bind_ok e2, bind_ok (keyOf_run id)]
  cases l.lookup id <;> rfl

/-- The code for one instance agrees with the parser. -/
theorem inst_run (G : Good g py P) {S : PyRuntime.Settings} (hS : SettingsOk S py) (hP : Placed W g h0.length top q pre)
    {c : Class} (hc : c ∈ g.classes) {refs : List Str} {registries : List Expr}
    (hrefs : referencesOf g (.cls c.name) = .ok refs) (hregs : refs.mapM (registryAttr g) = .ok registries)
    {id : Str} {j : Json} (hj : Keyed j) (h : InstInv W g b kvs ref h0 top q pre parsed es s)
    (hid : s.vars c!"id" = some (.str id)) (hval : s.vars c!"instance_value" = some (ofJson j))
    (hnew : parsed c.name id = none) :
    InstRan W g b kvs ref h0 top q pre parsed c.name id (exec L (callOwn L P (k + 1)) (instBody c registries) s)
      (if id ∈ (entryOf pre c.name).2 then
        PyRuntime.parseComposite (parseTy (envOf L S g pre) (parseEmbed (envOf L S g pre) k)) c.properties j
          (sub (sub ref (registryKey c)) (L.repr id)) es
      else .error .keyError) := by
  have hx := eval_index (L := L) (call := callOwn L P (k + 1)) h.vars.graph h.graph (hP.regs c hc).1 (h.regs c hc) hid
  rw [entriesAt_lookup] at hx
  by_cases hi : id ∈ (entryOf pre c.name).2
  · rw [if_pos hi] at hx ⊢
    simp only at hx
    rw [instBody, exec_seq (exec_assign_var hx)]
    obtain ⟨p, hp1, hp2, hp3⟩ := h.insts c hc id hi
    have hpl := hP.place c hc id hi
    generalize hs1 : s.set (c!"target_" ++ lower c.name) (.addr (W.place c.name id)) = s1
    have v1 : ∀ x, x.head? ≠ some 't' → s1.vars x = s.vars x := fun x hx => by
      rw [← hs1]; exact set_ne _ _ (target_ne _ _ hx)
    have t1 : s1.vars (c!"target_" ++ lower c.name) = some (.addr (W.place c.name id)) := by rw [← hs1, set_self]
    have h1 : InstInv W g b kvs ref h0 top q pre parsed es s1 := by
      rw [← hs1]
      refine h.set _ fun hm => ?_
      simp only [List.mem_cons, List.not_mem_nil, or_false] at hm
      rcases hm with e | e | e | e <;> exact absurd e.symm (target_ne _ _ (by decide))
    have hp1' : s1.heap[W.place c.name id]? = some (.inst (idOf c.name) p) := by rw [← hs1]; exact hp1
    have ea : exec L (callOwn L P (k + 1)) (.assign (.attr (v (c!"target_" ++ lower c.name)) c!"id") (v c!"id")) s1 =
        (.ok .normal, s1.write (W.place c.name id) (.inst (idOf c.name) (put c!"id" (.str id) p))) := by
      rw [exec_assign (eval_name (by rw [v1 _ (by decide), hid])), v, bind_ok (assign_attr t1 hp1' _ _)]
      rfl
    rw [exec_seq ea]
    have h2 : InstInv W g b kvs ref h0 top q pre parsed es
        (s1.write (W.place c.name id) (.inst (idOf c.name) (put c!"id" (.str id) p))) := by
      refine h1.update G hP hc hi rfl (by rw [write_length]; exact Nat.le_refl _) (fun a _ _ x => write_ne _ x) ?_
        (fun _ _ _ _ _ => rfl) ⟨_, write_self _ hp1', by rw [lookup_put, if_pos rfl], ?_⟩
      · rw [write_ne _ (Nat.ne_of_lt (Nat.lt_trans hP.ae hpl.1)), h1.errs]
      · have hfr : ∀ a, top ≤ a → a < s.heap.length →
            (s1.write (W.place c.name id) (.inst (idOf c.name) (put c!"id" (.str id) p))).heap[a]? = s.heap[a]? := by
          intro a x1 _
          rw [write_ne _ (Nat.ne_of_gt (Nat.lt_of_lt_of_le hpl.2 x1)), ← hs1]
          rfl
        have := hp3.frame hfr
        refine ⟨fun x hx => ?_, fun x w r hx e1 e2 => ?_⟩
        · rw [lookup_put, if_neg (by simpa using hx)]
          exact this.1 x hx
        · rw [lookup_put, if_neg (by simpa using hx)] at e2
          exact this.2 x w r hx e1 e2
    generalize hs2 : s1.write (W.place c.name id) (.inst (idOf c.name) (put c!"id" (.str id) p)) = s2 at h2
    have v2 : s2.vars = s1.vars := by rw [← hs2]; rfl
    have hid2 : s2.vars c!"id" = some (.str id) := by rw [v2, v1 _ (by decide), hid]
    have hev : evalArgs L (callOwn L P (k + 1)) (args (v c!"instance_value" :: registries ++
          [path [v c!"ref", .str (lower c.plural), .reprOf (v c!"id")], v (c!"target_" ++ lower c.name), errors])) s2 =
        (.ok ((compositeArgs W refs j (sub (sub ref (registryKey c)) (L.repr id)) (W.place c.name id)).map fun p => (none, p)), s2) := by
      apply evalArgs_args
      rw [compositeArgs]
      refine forall₂_append (.cons (eval_name (by rw [v2, v1 _ (by decide), hval])) ?_) (.cons (eval_path (n := 0) ?_)
        (.cons (eval_name (by rw [v2, t1])) (.cons (eval_errors h2.errs') .nil)))
      · exact registries_eval (ctx := ⟨g, py, registryAttr g⟩) hregs (h2.regsAt (L := L) (S := S) hP)
      · exact (path_two h2.vars.path).snoc (.key (keep_plain (by decide) (by decide)) hid2)
    rw [exec_seq_call hev]
    obtain ⟨p2, hq1, hq2, hq3⟩ := h2.insts c hc id hi
    rw [hnew, Option.getD_none] at hq3
    have hcall : Callable W (envOf L S g pre) ⟨c!"target", idOf c.name, W.place c.name id, top, [c!"id"]⟩ refs c.properties s2 es := by
      refine ⟨h2.errs, ⟨p2, hq1, hq3⟩, ⟨hpl.2, Nat.lt_trans hP.ae hP.graph, h2.high⟩, fun d hd => ?_⟩
      obtain ⟨e, _, he⟩ := GoCode.mapM_mem' hregs hd
      obtain ⟨d', hd', rfl, _⟩ := registryAttr_eq he
      exact h2.reg hd'
    have hr := class_call (k := k) (L := L) G hS hc hrefs rfl rfl hj hcall (sub (sub ref (registryKey c)) (L.repr id))
    generalize PyRuntime.parseComposite (parseTy (envOf L S g pre) (parseEmbed (envOf L S g pre) k)) c.properties j
          (sub (sub ref (registryKey c)) (L.repr id)) es = r at hr ⊢
    match r, hr with
    | .error x, ⟨t, s', e⟩ => exact ⟨t, s', by rw [bind_error e]⟩
    | .ok (attrs', es'), ⟨s3, e, hF⟩ =>
      rw [bind_ok e]
      have h3 : InstInv W g b kvs ref h0 top q pre (mark parsed c.name id attrs') es' s3 := by
        refine h2.update G hP hc hi hF.vars hF.grow (fun a x1 x2 x3 => hF.frame a x1 ?_) hF.errs (fun d hd i _ x => ?_) ?_
        · rintro (x | x)
          · exact x2 x
          · exact x3 x
        · rw [mark, if_neg]
          rintro ⟨e1, e2⟩
          exact x ⟨nodup_inj (f := fun c : Class => c.name) G.facts.named.classes hd hc e1, e2⟩
        · obtain ⟨p3, f1, f2, p0, f3, f4⟩ := hF.inst
          refine ⟨p3, f1, ?_, ?_⟩
          · have f3 : s2.heap[W.place c.name id]? = some (.inst (idOf c.name) p0) := f3
            rw [hq1] at f3
            injection f3 with f3
            injection f3 with _ f3
            rw [f4 c!"id" (List.mem_singleton.2 rfl), ← f3, hq2]
          · rw [mark, if_pos ⟨rfl, rfl⟩, Option.getD_some]
            exact f2
      exact ⟨s3, exec_full_ret h3.errs' _, h3⟩
  · rw [if_neg hi] at hx ⊢
    simp only at hx
    exact ⟨[], s, by rw [instBody, exec_seq_error (exec_assign_error hx)]⟩

/-- What the code of the instances of a class leaves behind -/
def InstsRan (W : World) (g : Graph) (b : Bool) (kvs : List (Str × Json)) (ref : Str) (h0 : List Obj) (top : Nat)
    (q : List (Str × PV)) (pre : List (Str × Bool × List Str)) (parsed : Str → Str → Option Attrs) (n : Str) (ids : List Str)
    (R : Except Raised Flow × St) : Except Exc (Option (List (Str × Instance)) × Errors) → Prop
  | .error x => ∃ t s', R = (.error (.exc x t), s')
  | .ok (none, es) => ∃ s' parsed', R = (.ok (.ret .none), s') ∧ InstInv W g b kvs ref h0 top q pre parsed' es s'
  | .ok (some l, es) => ∃ s' parsed', R = (.ok .normal, s') ∧ InstInv W g b kvs ref h0 top q pre parsed' es s' ∧
      l.map (·.1) = ids ∧ (∀ x ∈ l, x.2.id = x.1 ∧ parsed' n x.1 = some x.2.attrs) ∧
      ∀ m, m ≠ n → ∀ i, parsed' m i = parsed m i

/-- The loop over the instances of a class agrees with `parseInstances`. -/
theorem insts_run (G : Good g py P) {S : PyRuntime.Settings} (hS : SettingsOk S py) (hP : Placed W g h0.length top q pre)
    {c : Class} (hc : c ∈ g.classes) {refs : List Str} {registries : List Expr}
    (hrefs : referencesOf g (.cls c.name) = .ok refs) (hregs : refs.mapM (registryAttr g) = .ok registries)
    (parsed0 : Str → Str → Option Attrs) : ∀ (l : List (Str × Json)), (∀ x ∈ l, Keyed x.2) →
    ∀ (acc : List (Str × Instance)) parsed es s, InstInv W g b kvs ref h0 top q pre parsed es s →
    (acc.map (·.1) ++ l.map (·.1)).Nodup → (∀ x ∈ acc, x.2.id = x.1 ∧ parsed c.name x.1 = some x.2.attrs) →
    (∀ i ∈ l.map (·.1), parsed c.name i = none) → (∀ m, m ≠ c.name → ∀ i, parsed m i = parsed0 m i) →
    InstsRan W g b kvs ref h0 top q pre parsed0 c.name (acc.map (·.1) ++ l.map (·.1))
      (loop (fun p : Str × PV => do setVar c!"id" (.str p.1); setVar c!"instance_value" p.2)
        (exec L (callOwn L P (k + 1)) (instBody c registries)) (l.map fun kv => (kv.1, ofJson kv.2)) s)
      (PyRuntime.parseInstances L (parseTy (envOf L S g pre) (parseEmbed (envOf L S g pre) k)) c ref (entryOf pre c.name).2 l acc es) := by
  intro l
  induction l with
  | nil =>
    intro _ acc parsed es s h _ hacc _ ho
    exact ⟨s, parsed, rfl, h, by simp, hacc, ho⟩
  | cons kv l ih =>
    obtain ⟨id, j⟩ := kv
    intro hk acc parsed es s h hnd hacc hnew ho
    have hset : (do setVar c!"id" (.str id); setVar c!"instance_value" (ofJson j) : M Unit) s =
        (.ok (), (s.set c!"id" (.str id)).set c!"instance_value" (ofJson j)) := rfl
    have h1 := (h.set (x := c!"id") (.str id) (by decide)).set (x := c!"instance_value") (ofJson j) (by decide)
    have hid : ((s.set c!"id" (.str id)).set c!"instance_value" (ofJson j)).vars c!"id" = some (.str id) := by
      rw [set_ne _ _ (by decide), set_self]
    have hval : ((s.set c!"id" (.str id)).set c!"instance_value" (ofJson j)).vars c!"instance_value" = some (ofJson j) := set_self ..
    generalize (s.set c!"id" (.str id)).set c!"instance_value" (ofJson j) = s1 at hset h1 hid hval
    have hr := inst_run (k := k) (L := L) G hS hP hc hrefs hregs (hk (id, j) (by simp)) h1 hid hval (hnew id (by simp))
    rw [PyRuntime.parseInstances, List.map_cons, List.map_cons]
    by_cases hi : id ∈ (entryOf pre c.name).2
    · rw [if_pos hi] at hr ⊢
      generalize PyRuntime.parseComposite (parseTy (envOf L S g pre) (parseEmbed (envOf L S g pre) k)) c.properties j
          (sub (sub ref (registryKey c)) (L.repr id)) es = r at hr ⊢
      match r, hr with
      | .error x, ⟨t, s', e⟩ => exact ⟨t, s', by rw [loop_error]; rw [bind_ok hset, e]⟩
      | .ok (attrs', es'), ⟨s2, e, h2⟩ =>
        show InstsRan _ _ _ _ _ _ _ _ _ _ _ _ _ (if es'.full = true then _ else _)
        cases hf : es'.full with
        | true =>
          rw [hf] at e
          rw [if_pos rfl]
          exact ⟨s2, _, by rw [loop_ret]; rw [bind_ok hset, e]; rfl, h2⟩
        | false =>
          rw [hf] at e
          rw [if_neg (by decide), loop_normal (s' := s2) _ (by rw [bind_ok hset, e]; rfl)]
          have hid' : id ∉ acc.map (·.1) := fun hm => (List.nodup_append.1 hnd).2.2 _ hm id (by simp) rfl
          have hl : id ∉ l.map (·.1) := (List.nodup_cons.1 (List.nodup_append.1 hnd).2.1).1
          have := ih (fun x hx => hk x (by simp [hx])) (acc ++ [(id, ⟨id, attrs'⟩)]) _ es' s2 h2 (by simpa using hnd) (fun x hx => ?_) (fun i hi => ?_)
            (fun m hm i => ?_)
          · simpa using this
          · rcases List.mem_append.1 hx with hx | hx
            · rw [mark, if_neg]
              · exact hacc x hx
              · rintro ⟨_, e⟩
                exact hid' (List.mem_map.2 ⟨x, hx, e⟩)
            · simp only [List.mem_singleton] at hx
              subst hx
              exact ⟨rfl, by rw [mark, if_pos ⟨rfl, rfl⟩]⟩
          · rw [mark, if_neg]
            · exact hnew i (by simp [hi])
            · rintro ⟨_, e⟩
              exact hl (e ▸ hi)
          · rw [mark, if_neg (fun e => hm e.1), ho m hm i]
    · rw [if_neg hi] at hr ⊢
      obtain ⟨t, s', e⟩ := hr
      exact ⟨t, s', by rw [loop_error]; rw [bind_ok hset, e]⟩

end

end Mapry.PyExec
