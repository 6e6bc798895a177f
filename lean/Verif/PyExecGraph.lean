import Verif.PyExecInst

/-!
# The generated Python function of the graph agrees with `parseGraph`
-/

namespace Mapry.PyExec

open Mapry.PyLang Mapry.PyGen Mapry.PyRuntime Mapry.Text Mapry.Duration Mapry.Naming
open Mapry.TypeGraph hiding Obj
open Mapry.PyRuntime (Json Lib Val)
open PyCode (ok_bind attrs idOf allNames defNames)
open GoCode (referencesOf)

/-- The registry of the interpreter and what has been parsed into the objects -/
structure RegDone (pre : List (Str × Bool × List Str)) (parsed : Str → Str → Option Attrs) (n : Str) (r : Registry) : Prop where
  ordered : r.ordered = (entryOf pre n).1
  ids : r.instances.map (·.1) = (entryOf pre n).2
  insts : ∀ x ∈ r.instances, x.2.id = x.1 ∧ parsed n x.1 = some x.2.attrs

/-- What the code of the registry of a class leaves behind -/
def RegRan (W : World) (g : Graph) (b : Bool) (kvs : List (Str × Json)) (ref : Str) (h0 : List Obj) (top : Nat)
    (q : List (Str × PV)) (pre : List (Str × Bool × List Str)) (parsed : Str → Str → Option Attrs) (n : Str)
    (R : Except Raised Flow × St) : Except Exc (Option Registry × Errors) → Prop
  | .error x => ∃ t s', R = (.error (.exc x t), s')
  | .ok (none, es) => ∃ s' parsed', R = (.ok (.ret .none), s') ∧ InstInv W g b kvs ref h0 top q pre parsed' es s'
  | .ok (some r, es) => ∃ s' parsed', R = (.ok .normal, s') ∧ InstInv W g b kvs ref h0 top q pre parsed' es s' ∧
      RegDone pre parsed' n r ∧ ∀ m, m ≠ n → ∀ i, parsed' m i = parsed m i

section

variable {W : World} {g : Graph} {py : ParseSchema.Py} {P : Program} {L : Lib} {k : Nat} {b : Bool} {kvs : List (Str × Json)}
  {ref : Str} {h0 : List Obj} {top : Nat} {q : List (Str × PV)} {pre : List (Str × Bool × List Str)}
  {parsed : Str → Str → Option Attrs} {es : Errors} {s : St}

theorem registry_run (G : Good g py P) {S : PyRuntime.Settings} (hS : SettingsOk S py) (hP : Placed W g h0.length top q pre)
    (hk : ∀ kv ∈ kvs, Keyed kv.2) {c : Class} (hc : c ∈ g.classes) {code : Stmt} (hcode : PyGen.parseInstances g c = .ok code)
    (hpre : entryOf pre c.name = entryFor kvs c) (h : InstInv W g b kvs ref h0 top q pre parsed es s)
    (hnew : ∀ i, parsed c.name i = none) :
    RegRan W g b kvs ref h0 top q pre parsed c.name (exec L (callOwn L P (k + 1)) code s)
      (parseRegistry L (parseTy (envOf L S g pre) (parseEmbed (envOf L S g pre) k)) kvs ref c (entryOf pre c.name) es) := by
  obtain ⟨refs, registries, h1, h2, rfl⟩ := parseInstances_eq hcode
  have el : eval L (callOwn L P (k + 1)) (.str (lower c.plural)) s = (.ok (.str (lower c.plural)), s) := by rw [eval]; rfl
  have ein : eval L (callOwn L P (k + 1)) (.isIn (.str (lower c.plural)) (v c!"value")) s =
      (.ok (.bool (kvs.lookup (lower c.plural)).isSome), s) := by
    rw [eval, bind_ok el, bind_ok (eval_name h.vars.value), entries, bind_ok (pure_run _)]
    simp only [lookup_ofJson, Option.isSome_map]
    rfl
  unfold parseRegistry
  rw [registryKey]
  cases hl : kvs.lookup (lower c.plural) with
  | none =>
    rw [hl] at ein
    refine ⟨s, parsed, ?_, h, ⟨rfl, ?_, by simp⟩, fun _ _ _ => rfl⟩
    · rw [PyGen.when, exec_if_false ein, exec_pass]
    · rw [hpre, entryFor, registryKey, hl]
      rfl
  | some j =>
    rw [hl] at ein
    have eix : eval L (callOwn L P (k + 1)) (.index (v c!"value") (.str (lower c.plural))) s = (.ok (ofJson j), s) := by
      rw [eval, bind_ok (eval_name h.vars.value), bind_ok el, entries, bind_ok (pure_run _), bind_ok (keyOf_run _)]
      simp only [lookup_ofJson, hl]
      rfl
    rw [PyGen.when, exec_if_true ein, exec_seq (exec_assign_var eix)]
    have hs := h.set (x := c!"registry_value") (ofJson j) (by decide)
    have hv : (s.set c!"registry_value" (ofJson j)).vars c!"registry_value" = some (ofJson j) := set_self ..
    generalize s.set c!"registry_value" (ofJson j) = s1 at hs hv ⊢
    rw [exec, bind_ok (eval_name hv)]
    have hbad : ∀ p, (∀ o l, j ≠ .obj o l) → p = ofJson j →
        RegRan W g b kvs ref h0 top q pre parsed c.name ((do
          let kvs ← entries .attributeError p
          loop (fun p : Str × PV => do setVar c!"id" (.str p.1); setVar c!"instance_value" p.2)
            (exec L (callOwn L P (k + 1)) (instBody c registries)) kvs : M Flow) s1) (.error .attributeError) := by
      intro p hne hp
      refine ⟨[], s1, ?_⟩
      rw [bind_error]
      subst hp
      cases j with
      | obj o l => exact absurd rfl (hne o l)
      | _ => rfl
    cases j with
    | obj o l =>
      have hkj := hk _ (mem_of_lookup hl)
      have hnd : (l.map (·.1)).Nodup := by cases hkj; assumption
      have hkl : ∀ x ∈ l, Keyed x.2 := by cases hkj; assumption
      have e2 : entries .attributeError (ofJson (.obj o l)) s1 = (.ok (l.map fun kv => (kv.1, ofJson kv.2)), s1) := rfl
      rw [bind_ok e2]
      have hr := insts_run (k := k) (L := L) G hS hP hc h1 h2 parsed l hkl [] parsed es s1 hs (by simpa using hnd) (by simp)
        (fun i _ => hnew i) (fun _ _ _ => rfl)
      dsimp only
      generalize PyRuntime.parseInstances L (parseTy (envOf L S g pre) (parseEmbed (envOf L S g pre) k)) c ref
        (entryOf pre c.name).2 l [] es = r at hr ⊢
      match r, hr with
      | .error x, hr => exact hr
      | .ok (none, es'), hr => exact hr
      | .ok (some l', es'), ⟨s', parsed', e, hI, hids, hall, ho⟩ =>
        refine ⟨s', parsed', e, hI, ⟨rfl, ?_, hall⟩, ho⟩
        rw [hpre, entryFor, registryKey, hl]
        simpa using hids
    | _ => exact hbad _ (by intro _ _ e; cases e) rfl

/-- What the code of all the registries leaves behind -/
def RegsRan (W : World) (g : Graph) (b : Bool) (kvs : List (Str × Json)) (ref : Str) (h0 : List Obj) (top : Nat)
    (q : List (Str × PV)) (pre : List (Str × Bool × List Str)) (names : List Str)
    (R : Except Raised Flow × St) : Except Exc (Option (List (Str × Registry)) × Errors) → Prop
  | .error x => ∃ t s', R = (.error (.exc x t), s')
  | .ok (none, es) => ∃ s' parsed', R = (.ok (.ret .none), s') ∧ InstInv W g b kvs ref h0 top q pre parsed' es s'
  | .ok (some l, es) => ∃ s' parsed', R = (.ok .normal, s') ∧ InstInv W g b kvs ref h0 top q pre parsed' es s' ∧
      l.map (·.1) = names ∧ ∀ x ∈ l, RegDone pre parsed' x.1 x.2

theorem regs_run (G : Good g py P) {S : PyRuntime.Settings} (hS : SettingsOk S py) (hP : Placed W g h0.length top q pre)
    (hk : ∀ kv ∈ kvs, Keyed kv.2) : ∀ (cs : List Class) (codes : List Stmt), cs.mapM (PyGen.parseInstances g) = .ok codes →
    (∀ c ∈ cs, c ∈ g.classes ∧ entryOf pre c.name = entryFor kvs c) → ∀ acc parsed es s,
    InstInv W g b kvs ref h0 top q pre parsed es s → (acc.map (·.1) ++ cs.map (·.name)).Nodup →
    (∀ x ∈ acc, RegDone pre parsed x.1 x.2) → (∀ c ∈ cs, ∀ i, parsed c.name i = none) →
    RegsRan W g b kvs ref h0 top q pre (acc.map (·.1) ++ cs.map (·.name)) (exec L (callOwn L P (k + 1)) (block codes) s)
      (parseRegistries L (parseTy (envOf L S g pre) (parseEmbed (envOf L S g pre) k)) kvs ref pre cs acc es) := by
  intro cs
  induction cs with
  | nil =>
    intro codes hcodes _ acc parsed es s h _ hacc _
    rw [GoCode.mapM_nil] at hcodes
    cases hcodes
    exact ⟨s, parsed, exec_pass, h, by simp, hacc⟩
  | cons c cs ih =>
    intro codes hcodes hcs acc parsed es s h hnd hacc hnew
    obtain ⟨code, codes', h1, h2, rfl⟩ := GoCode.mapM_cons hcodes
    have hr := registry_run (k := k) (L := L) G hS hP hk (hcs c (by simp)).1 h1 (hcs c (by simp)).2 h (hnew c (by simp))
    rw [parseRegistries, block]
    change RegRan _ _ _ _ _ _ _ _ _ _ _ _ (parseRegistry _ _ _ _ _ ((pre.lookup c.name).getD (true, [])) _) at hr
    generalize parseRegistry L (parseTy (envOf L S g pre) (parseEmbed (envOf L S g pre) k)) kvs ref c
      ((pre.lookup c.name).getD (true, [])) es = r at hr ⊢
    match r, hr with
    | .error x, ⟨t, s', e⟩ => exact ⟨t, s', by rw [exec_seq_error e]⟩
    | .ok (none, es'), ⟨s', parsed', e, hI⟩ => exact ⟨s', parsed', by rw [exec_seq_ret e], hI⟩
    | .ok (some r, es'), ⟨s', parsed', e, hI, hd, ho⟩ =>
      rw [exec_seq e]
      have hn : c.name ∉ acc.map (·.1) := fun hm => (List.nodup_append.1 hnd).2.2 _ hm c.name (by simp) rfl
      have hn' : c.name ∉ cs.map (·.name) := (List.nodup_cons.1 (List.nodup_append.1 hnd).2.1).1
      have := ih codes' h2 (fun c hc => hcs c (by simp [hc])) (acc ++ [(c.name, r)]) parsed' es' s' hI (by simpa using hnd)
        (fun x hx => ?_) (fun d hd' i => ?_)
      · have e3 : (acc ++ [(c.name, r)]).map (·.1) ++ cs.map (·.name) = acc.map (·.1) ++ (c :: cs).map (·.name) := by simp
        rw [e3] at this
        exact this
      · rcases List.mem_append.1 hx with hx | hx
        · obtain ⟨a1, a2, a3⟩ := hacc x hx
          refine ⟨a1, a2, fun y hy => ?_⟩
          rw [ho x.1 (fun e => hn (e ▸ List.mem_map.2 ⟨x, hx, rfl⟩))]
          exact a3 y hy
        · simp only [List.mem_singleton] at hx
          subst hx
          exact hd
      · rw [ho d.name (fun e => hn' (e ▸ List.mem_map.2 ⟨d, hd', rfl⟩)), hnew d (by simp [hd'])]

end

/-! ## The container between the registries -/

theorem preallocAll_full {L : Lib} {kvs : List (Str × Json)} {ref : Str} : ∀ (cs : List Class) pre es pre' es',
    preallocAll L kvs ref cs pre es = (some pre', es') → es.full = false → es'.full = false := by
  intro cs
  induction cs with
  | nil =>
    intro pre es pre' es' h hf
    cases h
    exact hf
  | cons c cs ih =>
    intro pre es pre' es' h _
    rw [preallocAll] at h
    split at h
    · cases h
    · rename_i hf
      exact ih _ _ _ _ h (by simpa using hf)

theorem parseInstances_full {L : Lib} {parse : Ty → ParseFn} {c : Class} {ref : Str} {ids : List Str} :
    ∀ (l : List (Str × Json)) acc es r es', PyRuntime.parseInstances L parse c ref ids l acc es = .ok (some r, es') →
    es.full = false → es'.full = false := by
  intro l
  induction l with
  | nil =>
    intro acc es r es' h hf
    cases h
    exact hf
  | cons kv l ih =>
    obtain ⟨id, j⟩ := kv
    intro acc es r es' h hf
    rw [PyRuntime.parseInstances] at h
    split at h
    · obtain ⟨⟨attrs, es1⟩, _, h⟩ := ok_bind h
      dsimp only at h
      split at h
      · cases h
      · rename_i hf
        exact ih _ _ _ _ h (by simpa using hf)
    · cases h

theorem parseRegistry_full {L : Lib} {parse : Ty → ParseFn} {kvs : List (Str × Json)} {ref : Str} {c : Class}
    {pre : Bool × List Str} {es : Errors} {r : Registry} {es' : Errors}
    (h : parseRegistry L parse kvs ref c pre es = .ok (some r, es')) (hf : es.full = false) : es'.full = false := by
  unfold parseRegistry at h
  split at h
  · cases h
    exact hf
  · obtain ⟨⟨r', es1⟩, h1, h⟩ := ok_bind h
    cases r' with
    | none => cases h
    | some r' =>
      cases h
      exact parseInstances_full _ _ _ _ _ h1 hf
  · cases h

theorem parseRegistries_full {L : Lib} {parse : Ty → ParseFn} {kvs : List (Str × Json)} {ref : Str}
    {pre : List (Str × Bool × List Str)} : ∀ (cs : List Class) acc es r es',
    parseRegistries L parse kvs ref pre cs acc es = .ok (some r, es') → es.full = false → es'.full = false := by
  intro cs
  induction cs with
  | nil =>
    intro acc es r es' h hf
    cases h
    exact hf
  | cons c cs ih =>
    intro acc es r es' h hf
    rw [parseRegistries] at h
    obtain ⟨⟨r', es1⟩, h1, h⟩ := ok_bind h
    cases r' with
    | none => cases h
    | some r' => exact ih _ _ _ _ h (parseRegistry_full h1 hf)

/-! ## The function of the graph -/

/-- `parseGraph` with different depths of the stack for the instances and the properties of the graph -/
def parseGraphAt (L : Lib) (S : PyRuntime.Settings) (g : Graph) (kc kg : Nat) (v : Json) (ref : Str)
    (es : Errors) : Except Exc (Option GraphVal × Errors) :=
  if es.full then .ok (none, es)
  else
    match v with
    | .obj _ kvs =>
      match preallocAll L kvs ref g.classes [] es with
      | (none, es) => .ok (none, es)
      | (some pre, es) =>
        if !g.classes.isEmpty && !es.empty then .ok (none, es)
        else do
          let (regs, es) ← parseRegistries L (parseTy (envOf L S g pre) (parseEmbed (envOf L S g pre) kc)) kvs ref pre g.classes [] es
          match regs with
          | none => return (none, es)
          | some regs =>
            let (attrs, es) ← PyRuntime.parseProps (parseTy (envOf L S g pre) (parseEmbed (envOf L S g pre) kg)) kvs ref g.properties
              (PyRuntime.placeholder g.properties) es
            if es.full then return (none, es)
            else if !es.empty then return (none, es)
            else return (some ⟨attrs, regs⟩, es)
    | _ => .ok (none, es.add ⟨ref, expected c!"a dictionary" v⟩)

theorem parseGraphAt_same (L : Lib) (S : PyRuntime.Settings) (g : Graph) (k : Nat) : parseGraphAt L S g k k = PyRuntime.parseGraph L S g k := rfl

/-- The object at `a` is the graph: its attributes are the values of its properties and the registries, in which every
instance is under its identifier. `place` says where the instances are, also the ones which are referred to. -/
structure GraphRep (g : Graph) (h : List Obj) (place : Str → Str → Addr) (lo : Nat) (a : Addr) (gv : GraphVal) : Prop where
  names : gv.registries.map (·.1) = g.classes.map (·.name)
  graph : ∃ q, h[a]? = some (.inst (idOf g.name) q) ∧ AttrsRep place h lo (plurals g) gv.attrs q ∧
    ∀ c ∈ g.classes, ∀ r, (c.name, r) ∈ gv.registries → ∃ d : Addr, q.lookup (lower c.plural) = some (.addr d) ∧ lo ≤ d ∧
      h[d]? = some (.dict r.ordered (r.instances.map fun i => (i.1, .addr (place c.name i.1))))
  insts : ∀ c ∈ g.classes, ∀ r, (c.name, r) ∈ gv.registries → ∀ i ∈ r.instances, i.2.id = i.1 ∧ lo ≤ place c.name i.1 ∧
    ∃ p, h[place c.name i.1]? = some (.inst (idOf c.name) p) ∧ p.lookup c!"id" = some (.str i.1) ∧
      AttrsRep place h lo [c!"id"] i.2.attrs p

/-- Only the container of errors and new objects differ. -/
structure Outside (ae : Addr) (h h' : List Obj) (es : Errors) : Prop where
  frame : ∀ a, a < h.length → a ≠ ae → h'[a]? = h[a]?
  errs : h'[ae]? = some (.errors es)

/-- What the body of the function of the graph leaves behind -/
def BodyRan (g : Graph) (ae : Addr) (h0 : List Obj) (R : Except Raised Flow × St) :
    Except Exc (Option GraphVal × Errors) → Prop
  | .error x => ∃ t s', R = (.error (.exc x t), s')
  | .ok (none, es) => ∃ s', R = (.ok (.ret .none), s') ∧ Outside ae h0 s'.heap es
  | .ok (some gv, es) => ∃ s' place, R = (.ok (.ret (.addr h0.length)), s') ∧ Outside ae h0 s'.heap es ∧
      GraphRep g s'.heap place (h0.length + 1) h0.length gv

section

variable {W : World} {g : Graph} {py : ParseSchema.Py} {P : Program} {L : Lib} {k : Nat} {b : Bool} {kvs : List (Str × Json)}
  {ref : Str} {h0 : List Obj} {top : Nat} {q : List (Str × PV)} {pre : List (Str × Bool × List Str)}
  {parsed : Str → Str → Option Attrs} {es : Errors} {s : St}

theorem InstInv.outside (h : InstInv W g b kvs ref h0 top q pre parsed es s) : Outside W.ae h0 s.heap es := ⟨h.frame, h.errs⟩

theorem AllocInv.outside {ae : Addr} (h : AllocInv g b kvs ref ae h0 pre es s) : Outside ae h0 s.heap es := ⟨h.frame, h.errs⟩

/-- `if not errors.empty(): return` -/
theorem exec_nonempty {call : Fn → Actual → M PV} {ae : Addr} (h : Errs ae s es) :
    exec L call (PyGen.when (.not (.isEmpty errors)) (.ret .none)) s =
      (.ok (if es.empty then .normal else .ret .none), s) := by
  rw [PyGen.when, exec_if (eval_not (eval_empty h))]
  cases es.empty
  · simp only [truth, Bool.not_false, if_true]
    rw [exec]
    rfl
  · simp only [truth, Bool.not_true, if_false, Bool.false_eq_true]
    exact exec_pass

/-- The properties of the graph and the end of the function -/
theorem graph_end (G : Good g py P) {S : PyRuntime.Settings} (hS : SettingsOk S py) (hP : Placed W g h0.length top q pre)
    (hk : ∀ kv ∈ kvs, Keyed kv.2) (hq : ∀ x, x ∉ plurals g → q.lookup x = if x ∈ attrs g.properties then some .none else none)
    {code : Stmt} (hcode : PyGen.parseProps ⟨g, py, registryAttr g⟩ c!"graph" g.properties 0 = .ok code)
    (h : InstInv W g b kvs ref h0 top q pre parsed es s) (hf : es.full = false) {regs : List (Str × Registry)}
    (hn : regs.map (·.1) = g.classes.map (·.name)) (hd : ∀ x ∈ regs, RegDone pre parsed x.1 x.2) :
    BodyRan g W.ae h0 (exec L (callOwn L P k) (.seq code (.seq (PyGen.when (.not (.isEmpty errors)) (.ret .none))
      (.seq (.ret (v c!"graph")) .pass))) s) (do
        let (attrs, es) ← PyRuntime.parseProps (parseTy (envOf L S g pre) (parseEmbed (envOf L S g pre) k)) kvs ref g.properties
              (PyRuntime.placeholder g.properties) es
        if es.full then return (none, es)
        else if !es.empty then return (none, es)
        else return (some ⟨attrs, regs⟩, es)) := by
  have hready : Ready W ⟨c!"graph", idOf g.name, h0.length, top, plurals g⟩ b kvs ref s :=
    ⟨keep_graph, h.vars.graph, h.vars.value, h.vars.path, hP.graph, Nat.lt_trans hP.ae hP.graph, h.high⟩
  have hnd := List.nodup_append.1 G.facts.graph
  have hne : ∀ p ∈ g.properties, attr p ∉ plurals g := by
    intro p hp hm
    exact hnd.2.2 _ (List.mem_map.2 ⟨p, hp, rfl⟩) _ hm rfl
  have hrep : AttrsRep W.place s.heap top (plurals g) (PyRuntime.placeholder g.properties) q := by
    refine ⟨fun x hx => ?_, fun x w p hx e1 e2 => ?_⟩
    · rw [lookup_placeholder, hq x hx]
      split <;> simp
    · rw [lookup_placeholder] at e1
      rw [hq x hx] at e2
      split at e1
      · rename_i hm
        rw [if_pos hm] at e2
        cases e1
        cases e2
        exact .none
      · cases e1
  have hinv : PropsInv W (envOf L S g pre) (registryAttr g) ⟨c!"graph", idOf g.name, h0.length, top, plurals g⟩ s es
      (PyRuntime.placeholder g.properties) s :=
    ⟨.refl _ _ _, h.errs', ⟨q, h.graph, hrep, q, h.graph, fun _ _ => rfl⟩, h.regsAt hP⟩
  have hr := props_run (E := envOf L S g pre) (call := callOwn L P k) (ctx := ⟨g, py, registryAttr g⟩)
    (embed := parseEmbed (envOf L S g pre) k) hready hk g.properties (fun p hp => by
      refine types_ok (E := envOf L S g pre) G rfl hS k rfl rfl (fun c e hce => ?_) (occurs_owner (o := .graph) hp)
      obtain ⟨d, hd, rfl, _⟩ := registryAttr_eq hce
      exact G.brace d hd) (fun p hp c y r hce => by
      obtain ⟨d, hd, _, e⟩ := registryAttr_eq hce
      cases e
      intro e
      exact hne p hp (e ▸ List.mem_map.2 ⟨d, hd, rfl⟩)) hne code 0 hcode s es _ hinv
  change PropsRan _ _ _ _ _ _ (exec L (callOwn L P k) code s) _ at hr
  have hempty : ∀ attrs' es', PyRuntime.parseProps (parseTy (envOf L S g pre) (parseEmbed (envOf L S g pre) k)) kvs ref g.properties
      (PyRuntime.placeholder g.properties) es = .ok (attrs', es') → g.properties.isEmpty = true → es'.full = false := by
    intro attrs' es' he hem
    rw [List.isEmpty_iff] at hem
    rw [hem] at he
    cases he
    exact hf
  generalize PyRuntime.parseProps (parseTy (envOf L S g pre) (parseEmbed (envOf L S g pre) k)) kvs ref g.properties
      (PyRuntime.placeholder g.properties) es = r at hr hempty ⊢
  match r, hr, hempty with
  | .error x, ⟨t, s', e⟩, _ =>
    exact ⟨t, s', by rw [exec_seq_error e]⟩
  | .ok (attrs', es'), ⟨s', e, hI⟩, hempty =>
    have hlt : h0.length < s.heap.length := lt_of_get h.graph
    have hfr : ∀ a, a < s.heap.length → a ≠ W.ae → a ≠ h0.length → s'.heap[a]? = s.heap[a]? := by
      intro a x1 x2 x3
      refine hI.step.frame a x1 ?_
      rintro (x | x)
      · exact x2 x
      · exact x3 x
    have hout : Outside W.ae h0 s'.heap es' :=
      ⟨fun a x1 x2 => by rw [hfr a (Nat.lt_trans x1 hlt) x2 (Nat.ne_of_lt x1), h.frame a x1 x2], hI.errs.obj⟩
    show BodyRan _ _ _ _ (if es'.full = true then _ else if (!es'.empty) = true then _ else _)
    have e := e
    cases hf' : es'.full with
    | true =>
      have hne' : g.properties.isEmpty = false := by
        cases hx : g.properties.isEmpty with
        | false => rfl
        | true => rw [hempty _ _ rfl hx] at hf'; cases hf'
      rw [if_pos rfl]
      refine ⟨s', ?_, hout⟩
      rw [exec_seq_ret (p := .none) (s' := s')]
      rw [e, hf', hne']
      rfl
    | false =>
      rw [if_neg (by decide)]
      have e : exec L (callOwn L P k) code s = (.ok .normal, s') := by
        rw [hf', Bool.and_false] at e
        exact e
      rw [exec_seq e]
      cases hx : es'.empty with
      | false =>
        refine ⟨s', ?_, hout⟩
        rw [exec_seq_ret (p := .none) (s' := s')]
        rw [exec_nonempty hI.errs, hx]
        rfl
      | true =>
        obtain ⟨q', i1, i2, q0, i3, i4⟩ := hI.inst
        have i3 : s.heap[h0.length]? = some (.inst (idOf g.name) q0) := i3
        rw [h.graph] at i3
        injection i3 with i3
        injection i3 with _ i3
        subst i3
        refine ⟨s', W.place, ?_, hout, hn, ⟨q', i1, i2.mono hP.graph, fun c hc r hcr => ?_⟩, fun c hc r hcr i hi => ?_⟩
        · rw [exec_seq (s' := s') (by rw [exec_nonempty hI.errs, hx]; rfl)]
          apply exec_seq_ret
          rw [exec, bind_ok (eval_name ((hI.step.vars _ keep_graph).trans h.vars.graph))]
          rfl
        · have hr := hP.regs c hc
          have hdone := hd _ hcr
          refine ⟨W.regs c.name, by rw [i4 _ (List.mem_map.2 ⟨c, hc, rfl⟩), hr.1], hr.2.1, ?_⟩
          rw [hfr _ (Nat.lt_of_lt_of_le hr.2.2 h.high) (Nat.ne_of_gt (Nat.lt_trans hP.ae hr.2.1)) (Nat.ne_of_gt hr.2.1), h.regs c hc,
            ← hdone.ordered, ← hdone.ids, entriesAt, List.map_map]
          rfl
        · have hdone := hd _ hcr
          have hi' : i.1 ∈ (entryOf pre c.name).2 := by
            rw [← hdone.ids]
            exact List.mem_map.2 ⟨i, hi, rfl⟩
          have hpl := hP.place c hc _ hi'
          obtain ⟨p, p1, p2, p3⟩ := h.insts c hc _ hi'
          refine ⟨(hdone.insts i hi).1, hpl.1, p, ?_, p2, ?_⟩
          · rw [hfr _ (Nat.lt_of_lt_of_le hpl.2 h.high) (Nat.ne_of_gt (Nat.lt_trans hP.ae hpl.1)) (Nat.ne_of_gt hpl.1), p1]
          · have p3 : AttrsRep W.place s.heap top [c!"id"] ((parsed c.name i.1).getD (PyRuntime.placeholder c.properties)) p := p3
            have hp : parsed c.name i.1 = some i.2.attrs := (hdone.insts i hi).2
            rw [hp, Option.getD_some] at p3
            refine (p3.frame fun a x1 x2 => hfr a x2 ?_ ?_).mono hP.graph
            · exact Nat.ne_of_gt (Nat.lt_of_lt_of_le (Nat.lt_trans hP.ae hP.graph) x1)
            · exact Nat.ne_of_gt (Nat.lt_of_lt_of_le hP.graph x1)

/-- `if not errors.empty(): return` after the allocation -/
def allocCheck (g : Graph) : Stmt := if g.classes.isEmpty then .pass else PyGen.when (.not (.isEmpty errors)) (.ret .none)

/-- The body of the function of the graph -/
def graphBody (g : Graph) (allocs insts : List Stmt) (props : Stmt) : Stmt :=
  .seq (ifFull (.ret .none)) (.seq unlessDict
    (.seq (.assign (.var c!"graph") (.call (.parse (c!"placeholder_" ++ lower g.name)) .nil))
      (.seq (block allocs)
        (.seq (allocCheck g)
          (.seq (block insts) (.seq props (.seq (PyGen.when (.not (.isEmpty errors)) (.ret .none))
            (.seq (.ret (v c!"graph")) .pass))))))))

theorem parseGraph_eq {f : Func} (h : PyGen.parseGraph g py = .ok f) : ∃ props allocs insts,
    PyGen.parseProps ⟨g, py, registryAttr g⟩ c!"graph" g.properties 0 = .ok props ∧ g.classes.mapM preallocate = .ok allocs ∧
    g.classes.mapM (PyGen.parseInstances g) = .ok insts ∧
    f = ⟨lower g.name ++ c!"_from", [c!"value", c!"ref", c!"errors"].map (⟨·, none⟩), graphBody g allocs insts props⟩ := by
  obtain ⟨props, h1, h⟩ := ok_bind h
  obtain ⟨n, hn, h⟩ := ok_bind h
  obtain ⟨rfl, -⟩ := PyCode.asVariable_eq hn
  obtain ⟨allocs, h2, h⟩ := ok_bind h
  obtain ⟨insts, h3, h⟩ := ok_bind h
  exact ⟨props, allocs, insts, h1, h2, h3, (Except.ok.inj h).symm⟩

/-- The graph without instances -/
theorem alloc_start (G : Good g py P) {ae : Addr} (hv : s.vars c!"value" = some (.obj b kvs)) (hr : s.vars c!"ref" = some (.str ref))
    (he : Errs ae s es) : ∃ s', exec L (callOwn L P k) (.assign (.var c!"graph") (.call (.parse (c!"placeholder_" ++ lower g.name)) .nil)) s =
      (.ok .normal, s') ∧ AllocInv g b kvs ref ae s.heap [] es s' := by
  obtain ⟨q, hq, hq1, hq2⟩ := placeholder_graph (L := L) G s
  have e0 : eval L (callOwn L P k) (.call (.parse (c!"placeholder_" ++ lower g.name)) .nil) s =
      (.ok (.addr s.heap.length), ⟨s.heap ++ .inst (idOf g.name) q :: dicts g.classes, s.vars⟩) := by
    have ea : evalArgs L (callOwn L P k) .nil s = (.ok [], s) := by rw [evalArgs]; rfl
    rw [eval, bind_ok ea, callOwn_parse, hq]
  refine ⟨_, exec_assign_var e0, ⟨?_, ?_, ?_, ?_⟩, lt_of_get he.obj, fun a h1 _ => ?_, ?_, q, ?_, hq1, fun c hc => ?_⟩
  · rw [set_ne _ _ (by decide)]; exact hv
  · rw [set_ne _ _ (by decide)]; exact hr
  · rw [set_ne _ _ (by decide)]; exact he.var
  · rw [set_self]
  · exact List.getElem?_append_left h1
  · exact (List.getElem?_append_left (lt_of_get he.obj)).trans he.obj
  · show (s.heap ++ .inst (idOf g.name) q :: dicts g.classes)[s.heap.length]? = _
    simp
  · obtain ⟨i, hi⟩ := List.getElem?_of_mem hc
    refine ⟨s.heap.length + 1 + i, hq2 i c hi, ?_, [], ?_, rfl, by simp⟩
    · rw [Nat.add_assoc]
      exact Nat.lt_add_of_pos_right (Nat.add_comm 1 i ▸ Nat.succ_pos i)
    · show (s.heap ++ .inst (idOf g.name) q :: dicts g.classes)[s.heap.length + 1 + i]? = _
      rw [Nat.add_assoc, List.getElem?_append_right (Nat.le_add_right _ _), Nat.add_sub_cancel_left, Nat.add_comm 1 i,
        List.getElem?_cons_succ, dicts, List.getElem?_map, hi]
      rfl

/-- The body of the function of the graph agrees with the parser. -/
theorem graph_body (G : Good g py P) {S : PyRuntime.Settings} (hS : SettingsOk S py) {allocs insts : List Stmt} {props : Stmt}
    (hprops : PyGen.parseProps ⟨g, py, registryAttr g⟩ c!"graph" g.properties 0 = .ok props)
    (hallocs : g.classes.mapM preallocate = .ok allocs) (hinsts : g.classes.mapM (PyGen.parseInstances g) = .ok insts)
    {j : Json} (hj : Keyed j) {ae : Addr} (hv : s.vars c!"value" = some (ofJson j)) (hr : s.vars c!"ref" = some (.str ref))
    (he : Errs ae s es) :
    BodyRan g ae s.heap (exec L (callOwn L P (k + 1)) (graphBody g allocs insts props) s)
      (parseGraphAt L S g k (k + 1) j ref es) := by
  unfold parseGraphAt graphBody
  cases hf : es.full with
  | true =>
    rw [if_pos rfl]
    refine ⟨s, ?_, fun _ _ _ => rfl, he.obj⟩
    rw [exec_seq_ret (p := .none) (s' := s)]
    rw [exec_full he, hf, if_pos rfl, exec]
    rfl
  | false =>
    rw [if_neg (by decide), exec_seq (s' := s) (by rw [exec_full he, hf]; rfl)]
    have hif : eval L (callOwn L P (k + 1)) (.not (.isinstance (v c!"value") .dict)) s =
      (.ok (.bool (!isInstance s.heap (ofJson j) .dict)), s) := eval_not (eval_isinstance _ hv)
    rcases dict_cases s.heap j with ⟨hd, b, kvs, rfl⟩ | ⟨hd, hne⟩
    · have e1 : exec L (callOwn L P (k + 1)) unlessDict s = (.ok .normal, s) := by
        rw [unlessDict, PyGen.when, exec_if hif, hd]
        simp only [truth, Bool.not_true, if_false, Bool.false_eq_true]
        exact exec_pass
      rw [exec_seq e1]
      have hk : ∀ kv ∈ kvs, Keyed kv.2 := by
        cases hj
        assumption
      obtain ⟨s1, e2, h1⟩ := alloc_start (L := L) (k := k + 1) (ref := ref) (b := b) (kvs := kvs) G hv hr he
      rw [exec_seq e2]
      have ha := preallocs_run (L := L) (k := k + 1) G hk g.classes allocs hallocs (fun _ h => h) [] es s1 h1
        (by simpa using G.facts.named.classes)
      have hent := preallocAll_entries (L := L) (kvs := kvs) (ref := ref) g.classes [] es
      have hfull := preallocAll_full (L := L) (kvs := kvs) (ref := ref) g.classes [] es
      dsimp only
      generalize preallocAll L kvs ref g.classes [] es = r at ha hent hfull ⊢
      match r, ha, hent, hfull with
      | (none, es'), ⟨s', pre, e, hI⟩, _, _ => exact ⟨s', by rw [exec_seq_ret e], hI.outside⟩
      | (some pre, es'), ⟨s2, e, hI⟩, hent, hfull =>
        have hent := hent pre es' rfl
        have hfull := hfull pre es' rfl hf
        rw [exec_seq e]
        have hx : exec L (callOwn L P (k + 1)) (allocCheck g) s2 =
            (.ok (if !g.classes.isEmpty && !es'.empty then .ret .none else .normal), s2) := by
          rw [allocCheck]
          cases g.classes.isEmpty with
          | true => exact exec_pass
          | false =>
            have := exec_nonempty (L := L) (call := callOwn L P (k + 1)) hI.errs'
            cases hx : es'.empty <;> rw [hx] at this <;> exact this
        dsimp only
        cases hc : (!g.classes.isEmpty && !es'.empty) with
        | true =>
          rw [hc, if_pos rfl] at hx
          rw [if_pos rfl]
          exact ⟨s2, by rw [exec_seq_ret hx], hI.outside⟩
        | false =>
          rw [hc, if_neg (by decide)] at hx
          rw [if_neg (by decide), exec_seq hx]
          have hpre : ∀ c ∈ g.classes, entryOf pre c.name = entryFor kvs c := by
            intro c hc
            rw [hent, List.nil_append, entryOf, lookup_mem (p := entryFor kvs c) ?_ (List.mem_map.2 ⟨c, hc, rfl⟩)]
            · rfl
            · rw [List.map_map]
              exact G.facts.named.classes
          obtain ⟨W, q, rfl, hP, hq, hI'⟩ := inst_start G.facts.named (fun c hc => (G.facts.cls c hc).2) hI (fun c hc => by
            rw [hpre c hc, entryFor]
            split
            · rename_i hl
              have := hk _ (mem_of_lookup hl)
              cases this
              assumption
            · simp)
          have hrr := regs_run (k := k) (L := L) G hS hP hk g.classes insts hinsts (fun c hc => ⟨hc, hpre c hc⟩) [] _ es' s2 hI'
            (by simpa using G.facts.named.classes) (by simp) (fun _ _ _ => rfl)
          have hff := parseRegistries_full (L := L) (parse := parseTy (envOf L S g pre) (parseEmbed (envOf L S g pre) k)) (kvs := kvs)
            (ref := ref) (pre := pre) g.classes [] es'
          generalize parseRegistries L (parseTy (envOf L S g pre) (parseEmbed (envOf L S g pre) k)) kvs ref pre g.classes [] es' = r2
            at hrr hff ⊢
          match r2, hrr, hff with
          | .error x, ⟨t, s', e⟩, _ => exact ⟨t, s', by rw [exec_seq_error e]⟩
          | .ok (none, es2), ⟨s', parsed', e, hI2⟩, _ => exact ⟨s', by rw [exec_seq_ret e], hI2.outside⟩
          | .ok (some regs, es2), ⟨s', parsed', e, hI2, hn, hd⟩, hff =>
            rw [exec_seq e]
            exact graph_end G hS hP hk hq hprops hI2 (hff _ _ rfl hfull) (by simpa using hn) hd
    · have e1 : exec L (callOwn L P (k + 1)) unlessDict s = (.ok (.ret .none),
          s.write ae (.errors (es.add ⟨ref, expected c!"a dictionary" j⟩))) := by
        rw [unlessDict, PyGen.when, exec_if hif, hd]
        simp only [truth, Bool.not_false, if_true]
        have hm : eval L (callOwn L P (k + 1)) (PyGen.format c!"Expected a dictionary, but got: {}" (.typeOf (v c!"value"))) s =
            (.ok (.str (expected c!"a dictionary" j)), s) := by
          rw [eval_format (eval_typeOf hv)]
          have e : c!"Expected a dictionary, but got: {}" = c!"Expected a dictionary" ++ c!", but got: {}" := rfl
          rw [e, formatText_braceless (by decide), formatText_got, typeText_ofJson]
          rfl
        rw [exec_seq (exec_report he (eval_name hr) hm), exec]
        rfl
      rw [exec_seq_ret e1]
      have hres : BodyRan g ae s.heap (.ok (.ret .none), s.write ae (.errors (es.add ⟨ref, expected c!"a dictionary" j⟩)))
          (.ok (none, es.add ⟨ref, expected c!"a dictionary" j⟩)) :=
        ⟨_, rfl, fun _ _ x => write_ne _ x, write_self _ he.obj⟩
      cases j with
      | obj b kvs => exact absurd rfl (hne b kvs)
      | _ => exact hres

/-- What a call of the function of the graph leaves behind -/
def GraphRan (g : Graph) (ae : Addr) (s : St) (R : Except Raised PV × St) : Except Exc (Option GraphVal × Errors) → Prop
  | .error x => ∃ t s', R = (.error (.exc x t), s')
  | .ok (none, es) => ∃ s', R = (.ok .none, s') ∧ s'.vars = s.vars ∧ Outside ae s.heap s'.heap es
  | .ok (some gv, es) => ∃ s' place, R = (.ok (.addr s.heap.length), s') ∧ s'.vars = s.vars ∧ Outside ae s.heap s'.heap es ∧
      GraphRep g s'.heap place (s.heap.length + 1) s.heap.length gv

/-- The generated function of the graph agrees with the parser. -/
theorem graph_run (G : Good g py P) {S : PyRuntime.Settings} (hS : SettingsOk S py) {j : Json} (hj : Keyed j) {ae : Addr}
    (he : s.heap[ae]? = some (.errors es)) (ref : Str) :
    GraphRan g ae s (callOwn L P (k + 2) (.own (lower g.name ++ c!"_from"))
      [(none, ofJson j), (none, .str ref), (none, .addr ae)] s) (parseGraphAt L S g k (k + 1) j ref es) := by
  obtain ⟨_, _, f, _, _, hf, hown⟩ := G.own
  have hfm : f ∈ P.own := by rw [hown]; simp
  have hfind := G.find_own hfm
  obtain ⟨props, allocs, insts, h1, h2, h3, rfl⟩ := parseGraph_eq hf
  have hcall : callOwn L P (k + 2) (.own (lower g.name ++ c!"_from")) [(none, ofJson j), (none, .str ref), (none, .addr ae)] s =
      run L (callOwn L P (k + 1)) (graphBody g allocs insts props)
        [(c!"value", ofJson j), (c!"ref", .str ref), (c!"errors", .addr ae)] s := by
    rw [callOwn]
    simp only at hfind
    simp only [hfind]
    rfl
  rw [hcall]
  have hb := graph_body (L := L) (k := k) (es := es) (s := frame s [(c!"value", ofJson j), (c!"ref", .str ref), (c!"errors", .addr ae)]) (ref := ref)
    G hS h1 h2 h3 hj (ae := ae) rfl rfl ⟨rfl, he⟩
  rw [run]
  rw [frame] at hb
  generalize exec L (callOwn L P (k + 1)) (graphBody g allocs insts props) ⟨s.heap, fun x =>
    [(c!"value", ofJson j), (c!"ref", .str ref), (c!"errors", .addr ae)].lookup x⟩ = R at hb ⊢
  generalize parseGraphAt L S g k (k + 1) j ref es = r at hb ⊢
  match r, hb with
  | .error x, ⟨t, s', e⟩ => subst e; exact ⟨t, _, rfl⟩
  | .ok (none, es'), ⟨s', e, ho⟩ => subst e; exact ⟨_, rfl, rfl, ho⟩
  | .ok (some gv, es'), ⟨s', place, e, ho, hg⟩ => subst e; exact ⟨_, place, rfl, rfl, ho, hg⟩

end

end Mapry.PyExec
