import Verif.PyWriteProps
import Verif.PyToModule
import Verif.PyExecInst

/-!
# The functions which serialize the embeddable structures and the classes
-/

namespace Mapry.PyExec

open Mapry.PyLang Mapry.PyGen Mapry.PyRuntime Mapry.Text Mapry.Duration
open Mapry.TypeGraph hiding Obj Occurs
open Mapry.PyRuntime (Json Lib Val)
open PyCode (ok_bind idOf allNames defNames)

/-- The program which is generated, and what is known of the schema. -/
structure Writer (g : Graph) (py : ParseSchema.Py) (P : Program) : Prop where
  gen : PyGen.writer g py = .ok P
  facts : PyCode.Facts g
  lows : ((allNames g).map lower).Nodup
  brace : ∀ c ∈ g.classes, Braceless (idOf c.name)
  targets : PyCode.TargetsApart g
  calls : PyCode.CallsApart g

section

variable {g : Graph} {py : ParseSchema.Py} {P : Program} {L : Lib} {S : PyRuntime.Settings} {call : Fn → Actual → M PV}
  {embed : Str → Val → Except Exc Json} {N : Str → Prop} {s : St}

theorem Writer.own (G : Writer g py P) : ∃ cs es f,
    g.classes.mapM (fun c => PyGen.serializeComposite py c.name c.properties) = .ok cs ∧
    g.embeds.mapM (fun e => PyGen.serializeComposite py e.name e.properties) = .ok es ∧
    PyGen.serializeGraph g py = .ok f ∧ P.own = cs ++ es ++ [f] := by
  obtain ⟨ts, _, h⟩ := ok_bind G.gen
  obtain ⟨own, h2, h⟩ := ok_bind h
  cases h
  obtain ⟨cs, h3, h⟩ := ok_bind h2
  obtain ⟨es, h4, h⟩ := ok_bind h
  obtain ⟨f, h5, h⟩ := ok_bind h
  exact ⟨cs, es, f, h3, h4, h5, (Except.ok.inj h).symm⟩

theorem serializeComposite_eq {name : Str} {ps : List Property} {f : Func} (h : PyGen.serializeComposite py name ps = .ok f) :
    ∃ props, PyGen.serializeProps py (fun p => .ok p.name) ps 0 = .ok props ∧ f = serializer (lower name) props := by
  obtain ⟨props, h1, h⟩ := ok_bind h
  obtain ⟨x, h2, h⟩ := ok_bind h
  cases h
  rw [(PyCode.asVariable_eq h2).1]
  exact ⟨props, h1, rfl⟩

theorem serializeGraph_eq {f : Func} (h : PyGen.serializeGraph g py = .ok f) : ∃ props registries,
    PyGen.serializeProps py (fun p => Naming.asAttribute p.name) g.properties 0 = .ok props ∧
    g.classes.mapM serializeRegistry = .ok registries ∧ f = serializer (lower g.name) (.seq props (block registries)) := by
  obtain ⟨props, h1, h⟩ := ok_bind h
  obtain ⟨x, h2, h⟩ := ok_bind h
  obtain ⟨rs, h3, h⟩ := ok_bind h
  cases h
  rw [(PyCode.asVariable_eq h2).1]
  exact ⟨props, rs, h1, h3, rfl⟩

theorem Writer.find (G : Writer g py P) {f : Func} (hf : f ∈ P.own) : findLast (·.name) P.own f.name = some f := by
  obtain ⟨cs, es, fg, h1, h2, h3, h4⟩ := G.own
  refine findLast_unique hf fun b hb e => nodup_inj (f := (·.name)) ?_ hb hf e
  have e1 := mapM_names (k := Func.name) (m := fun c : Class => c!"serialize_" ++ lower c.name) h1 fun c f _ h => by
    obtain ⟨_, _, rfl⟩ := serializeComposite_eq h
    rfl
  have e2 := mapM_names (k := Func.name) (m := fun c : Embed => c!"serialize_" ++ lower c.name) h2 fun c f _ h => by
    obtain ⟨_, _, rfl⟩ := serializeComposite_eq h
    rfl
  have e3 : fg.name = c!"serialize_" ++ lower g.name := by
    obtain ⟨_, _, _, _, rfl⟩ := serializeGraph_eq h3
    rfl
  have e : (cs ++ es ++ [fg]).map (·.name) = ((allNames g).map lower).map (c!"serialize_" ++ ·) := by
    rw [List.map_append, List.map_append, e1, e2, List.map_cons, List.map_nil, e3]
    simp [allNames, defNames, Function.comp_def]
  rw [h4, e]
  exact nodup_map_inj (fun a b h => List.append_cancel_left h) G.lows

/-! ## Composites -/

/-- The function of an embed or of a class -/
theorem composite_made (hS : SettingsOk S py) (hE : EmbedMakes call embed N) {ps : List Property} {props : Stmt}
    (hp : PyGen.serializeProps py (fun p => .ok p.name) ps 0 = .ok props) (hn : ∀ p ∈ ps, ∀ n, .embed n ∈ parts p.ty → N n)
    {i : Addr} {cn : Str} {q : List (Str × PV)} {attrs : Attrs} (hi : s.heap[i]? = some (.inst cn q))
    (ha : ∀ p ∈ ps, AttrShows s.heap attrs q p.name) (o : Bool) :
    Made s (run L call (block [newMapping c!"target", props, .ret (v c!"target")])
      [(c!"instance", .addr i), (c!"ordered", .bool o)] s) (serComposite (serTy L S embed) o ps attrs) :=
  serializer_made (props_write (field := fun p => p.name) (fun _ _ h => (Except.ok.inj h).symm) hi ps 0 props hp
    (fun p hp => writes_ty hS hE p.ty (hn p hp)) ha [] _ (start_inv s i o))

/-- There is an embed with the name. -/
def IsEmbed (g : Graph) (n : Str) : Prop := ∃ e ∈ g.embeds, e.name = n

theorem shows_attr {h : List Obj} {a : Addr} {name cn : Str} {attrs : Attrs} {ps : List (Str × PV)}
    (hs : Shows h (.obj name attrs) (.addr a)) (hi : h[a]? = some (.inst cn ps)) (x : Str) : AttrShows h attrs ps x := by
  cases hs with
  | obj h1 h2 h3 =>
    rw [h1] at hi
    cases hi
    exact ⟨h2 x, h3 x⟩

theorem embeds_make (G : Writer g py P) (hS : SettingsOk S py) : ∀ k,
    EmbedMakes (callOwn L P k) (serEmbed L S g k) (IsEmbed g)
  | 0 => fun name _ s val p _ => .inr ⟨[], s, rfl⟩
  | k + 1 => by
    rintro _ ⟨e, he, rfl⟩ s val p hs
    have ih := embeds_make G hS k
    have hfind : g.embed? e.name = some e := G.facts.named.embed? he
    rw [serEmbed, hfind]
    obtain ⟨cs, es, fg, h1, h2, h3, h4⟩ := G.own
    obtain ⟨f, hf, hfe⟩ := GoCode.mapM_mem' h2 he
    obtain ⟨props, hp, rfl⟩ := serializeComposite_eq hfe
    have := G.find (f := serializer (lower e.name) props) (by rw [h4]; simp [hf])
    cases hs with
    | obj hi h5 h6 =>
      have hm := composite_made (L := L) hS ih hp (fun p hp n hn => ?_) hi (fun p _ => ⟨h5 p.name, h6 p.name⟩) false
      · rw [callOwn]
        simp only [show findLast (·.name) P.own (c!"serialize_" ++ lower e.name) = _ from this]
        exact hm
      · exact G.facts.resolves.2 n (.embed e p he hp hn)
    | _ => exact .inl rfl

/-! ## Classes -/

/-- The object is the instance, whose class is given. -/
def ShowsInst (h : List Obj) (inst : Instance) (p : PV) : Prop :=
  ∃ (a : Addr) (cn : Str) (q : List (Str × PV)), p = .addr a ∧ h[a]? = some (.inst cn q) ∧
    q.lookup c!"id" = some (.str inst.id) ∧ ∀ x, x ≠ c!"id" → AttrShows h inst.attrs q x

theorem AttrShows.grown {h h' : List Obj} (g : Grown h h') {attrs : Attrs} {q : List (Str × PV)} {x : Str}
    (hs : AttrShows h attrs q x) : AttrShows h' attrs q x := ⟨hs.1, fun val p h1 h2 => (hs.2 val p h1 h2).grown g⟩

theorem ShowsInst.grown {h h' : List Obj} (g : Grown h h') {inst : Instance} {p : PV} (hs : ShowsInst h inst p) :
    ShowsInst h' inst p := by
  obtain ⟨a, cn, q, h1, h2, h3, h4⟩ := hs
  exact ⟨a, cn, q, h1, g.get h2, h3, fun x hx => (h4 x hx).grown g⟩

/-- The function of the class serializes its instances. -/
def ClassMakes (call : Fn → Actual → M PV) (ser : Ty → Val → Except Exc Json) (o : Bool) (c : Class) : Prop :=
  ∀ s inst p, ShowsInst s.heap inst p → Made s (call (.own (c!"serialize_" ++ lower c.name))
    [(some c!"instance", p), (some c!"ordered", .bool o)] s) (serComposite ser o c.properties inst.attrs)

theorem class_makes (G : Writer g py P) (hS : SettingsOk S py) {c : Class} (hc : c ∈ g.classes) (k : Nat) (o : Bool) :
    ClassMakes (callOwn L P (k + 1)) (serTy L S (serEmbed L S g k)) o c := by
  rintro s inst _ ⟨a, cn, q, rfl, hi, _, ha⟩
  obtain ⟨cs, es, fg, h1, h2, h3, h4⟩ := G.own
  obtain ⟨f, hf, hfc⟩ := GoCode.mapM_mem' h1 hc
  obtain ⟨props, hp, rfl⟩ := serializeComposite_eq hfc
  have := G.find (f := serializer (lower c.name) props) (by rw [h4]; simp [hf])
  have hm := composite_made (L := L) hS (embeds_make (L := L) G hS k) hp (fun p hp n hn => G.facts.resolves.2 n (.cls c p hc hp hn)) hi
    (fun p hp => ha p.name fun e => (G.facts.cls c hc).2 (List.mem_map.2 ⟨p, hp, by rw [e]; decide⟩)) o
  rw [callOwn]
  simp only [show findLast (·.name) P.own (c!"serialize_" ++ lower c.name) = _ from this]
  exact hm

/-! ## Registries -/

theorem serializeRegistry_eq {c : Class} {code : Stmt} (h : serializeRegistry c = .ok code) :
    code = when (.cmp .gt (.len (.attr (v c!"instance") (lower c.plural))) 0) (block [
      newMapping (c!"target_" ++ lower c.plural),
      .forItems c!"id" (lower c.name ++ c!"_instance") (.attr (v c!"instance") (lower c.plural)) (.seq
        (when (.ne (v c!"id") (.attr (v (lower c.name ++ c!"_instance")) c!"id"))
          (.raiseValue (.format (c!"Expected ID {!r} of the instance of " ++ idOf c.name ++ c!", but got: {!r}")
            (args [v c!"id", .attr (v (lower c.name ++ c!"_instance")) c!"id"]))))
        (.assign (.item (v (c!"target_" ++ lower c.plural)) (v c!"id")) (.call (.own (c!"serialize_" ++ lower c.name))
          (kwargs [(c!"instance", v (lower c.name ++ c!"_instance")), (c!"ordered", v c!"ordered")])))),
      .assign (.item (v c!"target") (.str (registryKey c))) (v (c!"target_" ++ lower c.plural))]) ∧
    Naming.asComposite c.name = .ok (idOf c.name) := by
  obtain ⟨comp, e0, h⟩ := ok_bind h
  obtain ⟨p, e1, h⟩ := ok_bind h
  obtain ⟨a, e2, h⟩ := ok_bind h
  obtain ⟨f, e3, h⟩ := ok_bind h
  obtain ⟨key, e4, h⟩ := ok_bind h
  obtain ⟨rfl, _⟩ := PyCode.asVariable_eq e1
  obtain ⟨rfl, _⟩ := PyCode.asAttribute_eq e2
  obtain ⟨rfl, _⟩ := PyCode.asVariable_eq e3
  have hk : key = registryKey c := jsonPlural_eq e4
  subst hk
  have hi := PyCode.idOf_eq e0
  rw [hi]
  cases h
  exact ⟨rfl, e0⟩

/-- The variable of the instances -/
def instVar (c : Class) : Str := lower c.name ++ c!"_instance"

/-- The variable of the registry -/
def regVar (c : Class) : Str := c!"target_" ++ lower c.plural

/-- The body of the loop over the instances -/
def instLoop (c : Class) : Stmt :=
  .seq (when (.ne (v c!"id") (.attr (v (instVar c)) c!"id"))
    (.raiseValue (.format (c!"Expected ID {!r} of the instance of " ++ idOf c.name ++ c!", but got: {!r}")
      (args [v c!"id", .attr (v (instVar c)) c!"id"]))))
  (.assign (.item (v (regVar c)) (v c!"id")) (.call (.own (c!"serialize_" ++ lower c.name))
    (kwargs [(c!"instance", v (instVar c)), (c!"ordered", v c!"ordered")])))

/-- The state in the loop over the instances -/
structure LoopInv (s0 : St) (i a : Addr) (o : Bool) (x : Str) (acc : List (Str × Json)) (s : St) : Prop where
  inst : s.vars c!"instance" = some (.addr i)
  tgt : s.vars c!"target" = some (.addr a)
  ord : s.vars c!"ordered" = some (.bool o)
  var : s.vars x = some (.addr s0.heap.length)
  grown : Grown s0.heap s.heap
  obj : ∃ qs, s.heap[s0.heap.length]? = some (.dict o qs) ∧ Forall₂ (Entry (Jsonable s.heap (s0.heap.length + 1))) acc qs

/-- The result of the loop -/
def InstLooped (s0 : St) (i a : Addr) (o : Bool) (x : Str) (acc : List (Str × Json)) (R : Except Raised Flow × St) :
    Except Exc (List (Str × Json)) → Prop
  | .error e => Raises R e
  | .ok js => ∃ s', R = (.ok .normal, s') ∧ LoopInv s0 i a o x (acc ++ js) s'

theorem format_id {t : Str} (h : Braceless t) (a b : Str) :
    formatText L (c!"Expected ID {!r} of the instance of " ++ t ++ c!", but got: {!r}") [.str a, .str b] =
      .ok (c!"Expected ID " ++ L.repr a ++ c!" of the instance of " ++ t ++ c!", but got: " ++ L.repr b) := by
  have e : c!"Expected ID {!r} of the instance of " ++ t ++ c!", but got: {!r}" =
      c!"Expected ID " ++ (c!"{!r}" ++ (c!" of the instance of " ++ (t ++ c!", but got: {!r}"))) := by simp
  rw [e, formatText_braceless (by decide)]
  have e2 : formatText L (c!"{!r}" ++ (c!" of the instance of " ++ (t ++ c!", but got: {!r}"))) [.str a, .str b] =
      (formatText L (c!" of the instance of " ++ (t ++ c!", but got: {!r}")) [.str b]).map (L.repr a ++ ·) := by
    simp only [List.cons_append, List.nil_append]
    rw [formatText]
    cases formatText L _ [.str b] <;> rfl
  have e3 : formatText L c!", but got: {!r}" [.str b] = .ok (c!", but got: " ++ L.repr b) := by
    simp [formatText, bind, Except.bind, pure, Except.pure, reprText]
  rw [e2, formatText_braceless (by decide), formatText_braceless h, e3]
  simp [Except.map]

theorem instVar_ne {c : Class} {x : Str} (h : c!"_instance".isSuffixOf x = false) : x ≠ instVar c := by
  rintro rfl
  have : c!"_instance" <:+ instVar c := ⟨_, rfl⟩
  rw [← List.isSuffixOf_iff_suffix, h] at this
  cases this

theorem regVar_ne {c : Class} {x : Str} (h : c!"target_".isPrefixOf x = false) : x ≠ regVar c := by
  rintro rfl
  have : c!"target_" <+: regVar c := ⟨_, rfl⟩
  rw [← List.isPrefixOf_iff_prefix, h] at this
  cases this

variable {i a : Addr} {o : Bool} {s0 : St} {ser : Ty → Val → Except Exc Json}

theorem LoopInv.set {x y : Str} {acc : List (Str × Json)} (h : LoopInv s0 i a o x acc s) (p : PV) (h1 : c!"instance" ≠ y)
    (h2 : c!"target" ≠ y) (h3 : c!"ordered" ≠ y) (h4 : x ≠ y) : LoopInv s0 i a o x acc (s.set y p) :=
  ⟨(set_ne _ _ h1).trans h.inst, (set_ne _ _ h2).trans h.tgt, (set_ne _ _ h3).trans h.ord, (set_ne _ _ h4).trans h.var, h.grown,
    h.obj⟩

/-- What the code of an instance leaves behind -/
def InstPut (s0 : St) (i a : Addr) (o : Bool) (x : Str) (acc : List (Str × Json)) (k : Str) (R : Except Raised Flow × St) :
    Except Exc Json → Prop
  | .error e => Raises R e
  | .ok j => ∃ s', R = (.ok .normal, s') ∧ LoopInv s0 i a o x (acc ++ [(k, j)]) s'

/-- An instance whose identifier is its key -/
theorem inst_put {c : Class} (hm : ClassMakes call ser o c) {acc : List (Str × Json)} (h : LoopInv s0 i a o (regVar c) acc s)
    {inst : Instance} {p : PV} (hs : ShowsInst s.heap inst p) (hid : s.vars c!"id" = some (.str inst.id))
    (hp : s.vars (instVar c) = some p) (hnew : inst.id ∉ acc.map (·.1)) :
    InstPut s0 i a o (regVar c) acc inst.id (exec L call (instLoop c) s) (serComposite ser o c.properties inst.attrs) := by
  obtain ⟨b, cn, q, rfl, hb, hi, _⟩ := id hs
  have e1 : eval L call (.attr (v (instVar c)) c!"id") s = (.ok (.str inst.id), s) := by
    rw [eval, bind_ok (eval_name hp), PyLang.getAttr, bind_ok (load_run hb)]
    simp only [hi]
    rfl
  have e2 : eval L call (.ne (v c!"id") (.attr (v (instVar c)) c!"id")) s = (.ok (.bool false), s) := by
    rw [eval, bind_ok (eval_name hid), bind_ok e1]
    simp
    rfl
  have e3 : exec L call (when (.ne (v c!"id") (.attr (v (instVar c)) c!"id"))
      (.raiseValue (.format (c!"Expected ID {!r} of the instance of " ++ idOf c.name ++ c!", but got: {!r}")
        (args [v c!"id", .attr (v (instVar c)) c!"id"])))) s = (.ok .normal, s) := by
    rw [when, exec_if e2]
    exact exec_pass (L := L) (call := call)
  have e4 : evalArgs L call (kwargs [(c!"instance", v (instVar c)), (c!"ordered", v c!"ordered")]) s =
      (.ok [(some c!"instance", .addr b), (some c!"ordered", .bool o)], s) := by
    exact evalArgs_kwargs (ps := [(c!"instance", .addr b), (c!"ordered", .bool o)])
      (.cons ⟨rfl, eval_name hp⟩ (.cons ⟨rfl, eval_name h.ord⟩ .nil))
  have e5 : exec L call (instLoop c) s = exec L call (.assign (.item (v (regVar c)) (v c!"id"))
      (.call (.own (c!"serialize_" ++ lower c.name)) (kwargs [(c!"instance", v (instVar c)), (c!"ordered", v c!"ordered")]))) s := by
    rw [instLoop]
    exact exec_seq e3
  have e0 : eval L call (.call (.own (c!"serialize_" ++ lower c.name))
      (kwargs [(c!"instance", v (instVar c)), (c!"ordered", v c!"ordered")])) s =
        call (.own (c!"serialize_" ++ lower c.name)) [(some c!"instance", .addr b), (some c!"ordered", .bool o)] s := by
    rw [eval, bind_ok e4]
  rw [e5, exec]
  have hmade := hm s inst _ hs
  rw [← e0] at hmade
  generalize serComposite ser o c.properties inst.attrs = r at hmade ⊢
  cases r with
  | error x => exact Raises.bind hmade
  | ok j =>
    obtain ⟨s1, w, e6, v1, g1, j1⟩ := hmade
    obtain ⟨qs, ho, hq⟩ := h.obj
    rw [bind_ok e6]
    have hnew' : put inst.id w qs = qs ++ [(inst.id, w)] := put_new w (by rw [← entry_keys hq]; exact hnew)
    have e7 := assign_item (L := L) (call := call) (s := s1) (q := w) (eval_name (x := regVar c) (by rw [v1]; exact h.var))
      (eval_name (x := c!"id") (by rw [v1]; exact hid)) (g1.get ho)
    refine ⟨_, e7, by rw [write_vars, v1]; exact h.inst, by rw [write_vars, v1]; exact h.tgt, by rw [write_vars, v1]; exact h.ord,
      by rw [write_vars, v1]; exact h.var, grown_write _ (h.grown.trans g1) (Nat.le_refl _), _, write_self _ (g1.get ho), ?_⟩
    rw [hnew']
    have hfr : ∀ b, s0.heap.length + 1 ≤ b →
        (s1.write s0.heap.length (.dict o (qs ++ [(inst.id, w)]))).heap[b]? = s1.heap[b]? :=
      fun b hb => write_ne _ (fun e => by subst e; exact absurd hb (Nat.not_succ_le_self _))
    refine forall₂_snoc (forall₂_entries (Nat.le_refl _) (fun b hb hl => ?_) hq) ⟨rfl, ?_⟩
    · rw [hfr b hb]
      exact g1.same b hl
    · exact (j1.mono (lo' := s0.heap.length + 1) (lt_of_get ho)).frame fun b hb _ => hfr b hb

/-- An instance under another key -/
theorem inst_refused {c : Class} (hn : Naming.asComposite c.name = .ok (idOf c.name)) (hb : Braceless (idOf c.name)) {k : Str}
    {inst : Instance} {p : PV} (hs : ShowsInst s.heap inst p) (hid : s.vars c!"id" = some (.str k))
    (hp : s.vars (instVar c) = some p) (hne : k ≠ inst.id) :
    exec L call (instLoop c) s = (.error (.exc (.valueError (idMessage L c k inst.id)) (idMessage L c k inst.id)), s) := by
  obtain ⟨b, cn, q, rfl, hq, hi, _⟩ := hs
  have e1 : eval L call (.attr (v (instVar c)) c!"id") s = (.ok (.str inst.id), s) := by
    rw [eval, bind_ok (eval_name hp), PyLang.getAttr, bind_ok (load_run hq)]
    simp only [hi]
    rfl
  have e2 : eval L call (.ne (v c!"id") (.attr (v (instVar c)) c!"id")) s = (.ok (.bool true), s) := by
    rw [eval, bind_ok (eval_name hid), bind_ok e1]
    simp [hne]
    rfl
  have e4 : evalArgs L call (args [v c!"id", .attr (v (instVar c)) c!"id"]) s =
      (.ok [(none, .str k), (none, .str inst.id)], s) := by
    exact evalArgs_args (ps := [.str k, .str inst.id]) (.cons (eval_name hid) (.cons e1 .nil))
  have e5 : eval L call (.format (c!"Expected ID {!r} of the instance of " ++ idOf c.name ++ c!", but got: {!r}")
      (args [v c!"id", .attr (v (instVar c)) c!"id"])) s = (.ok (.str (idMessage L c k inst.id)), s) := by
    rw [eval, bind_ok e4]
    simp only [List.map_cons, List.map_nil]
    rw [format_id hb, idMessage, hn]
    rfl
  rw [instLoop]
  refine exec_seq_error ?_
  rw [when, exec_if e2]
  simp only [truth, if_true]
  rw [exec, bind_ok e5]
  rfl

theorem inst_loop {c : Class} (hn : Naming.asComposite c.name = .ok (idOf c.name)) (hb : Braceless (idOf c.name))
    (ht : regVar c ≠ instVar c) (hm : ClassMakes call ser o c) : ∀ {is : List (Str × Instance)} {ps : List (Str × PV)},
    Forall₂ (fun x p => x.1 = p.1 ∧ ShowsInst s0.heap x.2 p.2) is ps → (ps.map (·.1)).Nodup →
    ∀ (acc : List (Str × Json)) (s : St), LoopInv s0 i a o (regVar c) acc s → (∀ k ∈ ps.map (·.1), k ∉ acc.map (·.1)) →
    InstLooped s0 i a o (regVar c) acc (loop (fun p : Str × PV => do setVar c!"id" (.str p.1); setVar (instVar c) p.2)
      (exec L call (instLoop c)) ps s) (serInstances L ser o c is)
  | _, _, .nil, _, acc, s, hI, _ => ⟨s, rfl, by simpa using hI⟩
  | (k, inst) :: is, (k', p) :: ps, .cons hh htl, hnd, acc, s, hI, hdis => by
    have ek : k = k' := hh.1
    subst ek
    have hset : (do setVar c!"id" (.str k); setVar (instVar c) p : M Unit) s =
        (.ok (), (s.set c!"id" (.str k)).set (instVar c) p) := rfl
    have hI1 : LoopInv s0 i a o (regVar c) acc ((s.set c!"id" (.str k)).set (instVar c) p) :=
      (hI.set (.str k) (by decide) (by decide) (by decide) (Ne.symm (regVar_ne (by decide)))).set p (instVar_ne (by decide))
        (instVar_ne (by decide)) (instVar_ne (by decide)) ht
    have hid : ((s.set c!"id" (.str k)).set (instVar c) p).vars c!"id" = some (.str k) := by
      rw [set_ne _ _ (instVar_ne (by decide)), set_self]
    have hp : ((s.set c!"id" (.str k)).set (instVar c) p).vars (instVar c) = some p := set_self ..
    have hs : ShowsInst ((s.set c!"id" (.str k)).set (instVar c) p).heap inst p := hh.2.grown hI.grown
    generalize (s.set c!"id" (.str k)).set (instVar c) p = s1 at hset hI1 hid hp hs
    rw [serInstances]
    by_cases hki : k = inst.id
    · rw [if_neg (by simpa using hki)]
      subst hki
      have hput := inst_put (L := L) hm hI1 hs hid hp (hdis inst.id (by simp))
      generalize serComposite ser o c.properties inst.attrs = r at hput ⊢
      cases r with
      | error x =>
        rcases hput with h | ⟨t, s', h⟩
        · exact .inl h
        · exact .inr ⟨t, s', loop_error _ (by rw [bind_ok hset, h])⟩
      | ok j =>
        obtain ⟨s2, e, hI2⟩ := hput
        rw [loop_normal (s' := s2) _ (by rw [bind_ok hset, e])]
        simp only [List.map_cons, List.nodup_cons] at hnd
        have h2 := inst_loop hn hb ht hm htl hnd.2 _ s2 hI2 (by
          intro k' hk' hm
          simp only [List.map_append, List.map_cons, List.map_nil, List.mem_append, List.mem_singleton] at hm
          rcases hm with hm | hm
          · exact hdis k' (by simp [hk']) hm
          · subst hm
            exact hnd.1 hk')
        change InstLooped s0 i a o (regVar c) acc _ (serInstances L ser o c is >>= fun xs => pure ((inst.id, j) :: xs))
        generalize serInstances L ser o c is = r2 at h2 ⊢
        cases r2 with
        | error x => exact h2
        | ok js =>
          obtain ⟨s', e', hI''⟩ := h2
          exact ⟨s', e', by simpa using hI''⟩
    · rw [if_pos hki]
      have := inst_refused (L := L) (call := call) hn hb hs hid hp hki
      exact .inr ⟨_, s1, loop_error _ (by rw [bind_ok hset, this])⟩

/-- The attribute of the graph is the registry. -/
def ShowsReg (h : List Obj) (r : Option Registry) (p : Option PV) : Prop :=
  (r = none ↔ p = none) ∧ ∀ r' p', r = some r' → p = some p' → ∃ (d : Addr) (ps : List (Str × PV)), p' = .addr d ∧
    h[d]? = some (.dict r'.ordered ps) ∧ (ps.map (·.1)).Nodup ∧
    Forall₂ (fun x p => x.1 = p.1 ∧ ShowsInst h x.2 p.2) r'.instances ps

theorem ShowsReg.grown {h h' : List Obj} (g : Grown h h') {r : Option Registry} {p : Option PV} (hs : ShowsReg h r p) :
    ShowsReg h' r p := by
  refine ⟨hs.1, fun r' p' h1 h2 => ?_⟩
  obtain ⟨d, ps, e, hd, hn, hf⟩ := hs.2 r' p' h1 h2
  exact ⟨d, ps, e, g.get hd, hn, forall₂_imp (fun _ _ hx => ⟨hx.1, hx.2.grown g⟩) hf⟩

/-- The registry of a class, then the rest -/
def serRegistry (L : Lib) (ser : Ty → Val → Except Exc Json) (o : Bool) (c : Class) (r : Option Registry)
    (js : List (Str × Json)) : Except Exc (List (Str × Json)) :=
  match r with
  | none => .error .attributeError
  | some r => if r.instances.isEmpty then .ok js else do
      let xs ← serInstances L ser o c r.instances
      return putKey (registryKey c) (.obj o xs) js

theorem serRegistries_cons {gv : GraphVal} {c : Class} {cs : List Class} {js : List (Str × Json)} :
    serRegistries L ser o gv (c :: cs) js = (do
      let js ← serRegistry L ser o c (gv.registries.lookup c.name) js
      serRegistries L ser o gv cs js) := by
  rw [serRegistries]
  cases gv.registries.lookup c.name with
  | none => rfl
  | some r =>
    simp only [serRegistry]
    split
    · rfl
    · cases serInstances L ser o c r.instances <;> rfl

theorem registry_put {c : Class} {code : Stmt} (h : serializeRegistry c = .ok code) (hb : Braceless (idOf c.name))
    (ht : regVar c ≠ instVar c) (hm : ClassMakes call ser o c) {h0 : List Obj} {cn : Str} {q : List (Str × PV)}
    (hi : h0[i]? = some (.inst cn q)) {r : Option Registry} (hr : ShowsReg h0 r (q.lookup (lower c.plural)))
    {js : List (Str × Json)} (hI : FnInv h0 i a o js s) :
    PropsPut h0 i a o (exec L call code s) (serRegistry L ser o c r js) := by
  obtain ⟨rfl, hn⟩ := serializeRegistry_eq h
  have hsrc := hI.source hi
  cases r with
  | none =>
    have hq := hr.1.1 rfl
    have := hsrc.misses (L := L) (call := call) (n := 0) hq s (fun _ _ => rfl) (Grown.refl _)
    exact .inr ⟨[], s, by rw [when, exec, eval, eval, bind_error (bind_error (bind_error this))]⟩
  | some r =>
    cases hq : q.lookup (lower c.plural) with
    | none => cases hr.1.2 hq
    | some p =>
      obtain ⟨d, ps, rfl, hd, hnd, hf⟩ := hr.2 r p rfl hq
      have e1 := hsrc.eval (L := L) (call := call) hq
      have hd' := hI.grown.get hd
      have e2 : eval L call (.cmp .gt (.len (.attr (v c!"instance") (lower c.plural))) 0) s =
          (.ok (.bool (decide (0 < ps.length))), s) := by
        have : eval L call (.len (.attr (v c!"instance") (lower c.plural))) s = (.ok (.int ps.length), s) := by
          rw [eval, bind_ok e1]
          simp only
          rw [bind_ok (load_run hd')]
          rfl
        rw [eval, bind_ok this]
        change (pure (.bool (PyLang.compare .gt (.int ps.length) 0)) : M PV) s = _
        have hc : PyLang.compare .gt (.int ps.length) 0 = decide (0 < ps.length) := by
          simp [PyLang.compare, PyRuntime.Num.gt]
        rw [hc]
        rfl
      rw [when, exec_if e2]
      have hser : serRegistry L ser o c (some r) js = if r.instances.isEmpty then .ok js else do
          let xs ← serInstances L ser o c r.instances
          return putKey (registryKey c) (.obj o xs) js := rfl
      rw [hser]
      cases hin : r.instances with
      | nil =>
        rw [hin] at hf
        cases hf
        exact ⟨s, exec_pass (L := L) (call := call), hI⟩
      | cons x xs =>
        rw [hin] at hf
        have hlen : decide (0 < ps.length) = true := by cases hf; simp
        rw [hlen]
        simp only [truth, if_true]
        rw [block, exec_seq (mapping_run hI.ord), block, ← hin]
        rw [← hin] at hf
        have hs0 : LoopInv s i a o (regVar c) []
            ((s.push (.dict o [])).set (c!"target_" ++ lower c.plural) (.addr s.heap.length)) :=
          ⟨(set_ne _ _ (regVar_ne (c := c) (by decide))).trans hI.inst, (set_ne _ _ (regVar_ne (c := c) (by decide))).trans hI.tgt,
            (set_ne _ _ (regVar_ne (c := c) (by decide))).trans hI.ord, set_self .., grown_push .., [], push_self .., .nil⟩
        have hsrc0 : Source ((s.push (.dict o [])).set (c!"target_" ++ lower c.plural) (.addr s.heap.length)) i cn q :=
          ⟨hs0.inst, hs0.grown.get hsrc.obj⟩
        have hloop := inst_loop (L := L) hn hb ht hm (s0 := s) (forall₂_imp (fun _ _ hx => ⟨hx.1, hx.2.grown hI.grown⟩) hf) hnd []
          _ hs0 (by simp)
        have hfor := exec_forItems (L := L) (call := call) (k := c!"id") (x := lower c.name ++ c!"_instance")
          (body := instLoop c) (hsrc0.eval hq) (hs0.grown.get hd')
        have hemp : r.instances.isEmpty = false := by rw [hin]; rfl
        rw [if_neg (by simp [hemp])]
        rw [instLoop] at hfor
        generalize serInstances L ser o c r.instances = res at hloop ⊢
        cases res with
        | error x =>
          refine Raises.seq ?_
          rcases hloop with h | ⟨t, s', h⟩
          · exact .inl h
          · exact .inr ⟨t, s', hfor.trans h⟩
        | ok xs =>
          obtain ⟨s', e3, hI'⟩ := hloop
          obtain ⟨qs, ho, hqs⟩ := hI'.obj
          have hj : Jsonable s'.heap s.heap.length (.obj o xs) (.addr s.heap.length) :=
            .ofDict (Nat.le_refl _) ho (forall₂_entries (Nat.le_succ _) (fun _ _ _ => rfl) hqs)
          obtain ⟨s'', e4, hI''⟩ := hI.store (L := L) (call := call) (hI'.inst.trans hI.inst.symm) hI'.tgt
            (hI'.ord.trans hI.ord.symm) hI'.grown hj (registryKey c)
          refine ⟨s'', (exec_seq (hfor.trans e3)).trans ?_, hI''⟩
          exact (exec_last _).trans ((exec_assign (eval_name hI'.var)).trans e4)

end

end Mapry.PyExec
