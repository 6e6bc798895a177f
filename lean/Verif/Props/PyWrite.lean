import Verif.PyGenTotal
import Verif.PyShown
import Verif.PyTyped
import Verif.Props.PyExec
import Verif.Props.PySer

/-! # C83, C84: the generated Python code of the serializer, run statement by statement -/

namespace Mapry.Props.PyExec

open Mapry.PyLang Mapry.PyExec Mapry.Naming Mapry.LangValidate Mapry.ParseSchema
open Mapry.TypeGraph hiding Obj Occurs
open Mapry.PyRuntime (Json GraphVal Val Attrs Lib parseGraph serGraph)
open Mapry.PyRuntime.Spec (ReadsGraph Occurs TypedGraph LowerNames JsonKeys Misregistered ValidGraph FaithfulGraph withOrdered)
open Mapry.PyCode (idOf)
open Mapry.Props.PyNames (names VariablesApart)

/-- The schema passes the validations of mapry and of the Python generator, and the code of the serializer is generated. A
schema which is parsed from a mapping has the other properties (`saved_of_parsed`). -/
structure Saved (g : Graph) (py : Py) (Q : Program) : Prop where
  named : Named g
  resolves : GoCode.Resolves g
  valid : validateSchema LangValidate.py g = .ok []
  code : PyGen.writer g py = .ok Q
  brace : ∀ c ∈ g.classes, '{' ∉ c.name ∧ '}' ∉ c.name

/-- A schema which is parsed from a mapping -/
theorem saved_of_parsed {V : Validation.Lib} {mapping : Json} {ref : Str} {s : Schema} {py : Py} {Q : Program}
    (h : schemaFromMapping V mapping ref = .ok s) (hv : validateSchema LangValidate.py s.graph = .ok [])
    (hc : PyGen.writer s.graph py = .ok Q) : Saved s.graph py Q :=
  ⟨(GoCode.parsed_facts h).1, (GoCode.parsed_facts h).2, hv, hc, parsed_brace h⟩

/-- C69 for the code which is run: the code of the parser and the code of the serializer are generated exactly if every plural
starts with a capital. Hence `Written` and `Saved` hold for every such schema. -/
theorem C69_code_partial (V : Validation.Lib) (mapping : Json) (ref : Str) (s : Schema) (settings : Py)
    (hs : schemaFromMapping V mapping ref = .ok s) (hv : validateSchema LangValidate.py s.graph = .ok [])
    (hp : s.py = some settings) :
    ((∃ P, Written s.graph settings P) ↔ ∀ c ∈ s.graph.classes, ∃ x xs, c.plural = x :: xs ∧ 'A' ≤ x ∧ x ≤ 'Z') ∧
    ((∃ Q, Saved s.graph settings Q) ↔ ∀ c ∈ s.graph.classes, ∃ x xs, c.plural = x :: xs ∧ 'A' ≤ x ∧ x ≤ 'Z') := by
  have hf := PyCode.facts_of (GoCode.parsed_facts hs).1 (GoCode.parsed_facts hs).2 hv
  have hset := PyCode.settings_of hs hp
  refine ⟨⟨?_, ?_⟩, ⟨?_, ?_⟩⟩
  · rintro ⟨P, h⟩
    exact (PyGen.parser_ok_iff hf hset).1 ⟨P, h.code⟩
  · intro h
    obtain ⟨P, hP⟩ := (PyGen.parser_ok_iff hf hset).2 h
    exact ⟨P, written_of_parsed hs hv hP⟩
  · rintro ⟨Q, h⟩
    exact (PyGen.writer_ok_iff hf hset).1 ⟨Q, h.code⟩
  · intro h
    obtain ⟨Q, hQ⟩ := (PyGen.writer_ok_iff hf hset).2 h
    exact ⟨Q, saved_of_parsed hs hv hQ⟩

example : (∃ P, Written SchemaDemo.schema.graph ⟨c!"some.shop", c!"str", c!"str", c!"    "⟩ P) ∧
    ∃ Q, Saved SchemaDemo.schema.graph ⟨c!"some.shop", c!"str", c!"str", c!"    "⟩ Q := by
  have h := C69_code_partial _ _ _ _ _ SchemaDemo.parsed (by decide +kernel) rfl
  have hc : ∀ c ∈ SchemaDemo.schema.graph.classes, ∃ x xs, c.plural = x :: xs ∧ 'A' ≤ x ∧ x ≤ 'Z' := by
    intro c hc
    cases List.mem_singleton.1 hc
    exact ⟨'P', c!"eople", rfl, by decide, by decide⟩
  exact ⟨h.1.2 hc, h.2.2 hc⟩

/-- The names of the functions of the serializer are different, and its variables are apart. -/
structure PlainTo (g : Graph) : Prop where
  lows : ((names g).map lower).Nodup
  apart : VariablesApart g

theorem camel_brace : ∀ (b : Bool) (n : Str), '{' ∉ n ∧ '}' ∉ n → '{' ∉ camelSpec b n ∧ '}' ∉ camelSpec b n
  | _, [], _ => ⟨nofun, nofun⟩
  | b, c :: cs, h => by
    have h1 : '{' ≠ c := fun e => h.1 (e ▸ List.mem_cons_self)
    have h2 : '}' ≠ c := fun e => h.2 (e ▸ List.mem_cons_self)
    have hs : '{' ∉ cs ∧ '}' ∉ cs := ⟨fun e => h.1 (by simp [e]), fun e => h.2 (by simp [e])⟩
    have u1 : '{' ≠ c.toUpper := by
      intro e
      rw [char_eq_iff_toNat, toNat_toUpper] at e
      rw [Ne, char_eq_iff_toNat] at h1
      have : '{'.toNat = 123 := rfl
      split at e <;> omega
    have u2 : '}' ≠ c.toUpper := by
      intro e
      rw [char_eq_iff_toNat, toNat_toUpper] at e
      rw [Ne, char_eq_iff_toNat] at h2
      have : '}'.toNat = 125 := rfl
      split at e <;> omega
    rw [camelSpec]
    split
    · exact camel_brace true cs hs
    · obtain ⟨i1, i2⟩ := camel_brace false cs hs
      cases b <;> simp [h1, h2, u1, u2, i1, i2]

theorem writer_of {g : Graph} {py : Py} {Q : Program} (W : Saved g py Q) (N : PlainTo g) : Writer g py Q := by
  have hf := PyCode.facts_of W.named W.resolves W.valid
  refine ⟨W.code, hf, N.lows, fun c hc => ?_, fun c hc e => N.apart.registries c hc e.symm, fun c hc n hn => ?_⟩
  · rw [id_camel hf (class_name hc)]
    exact camel_brace true _ (W.brace c hc)
  · rcases hn with ⟨d, hd, rfl⟩ | ⟨p, hp, he⟩
    · exact N.apart.classes c hc d hd
    · exact N.apart.embeds c hc p hp n he

/-- The call of the generated function of the graph, `serialize_<graph>(instance, ordered=o)`, with a stack of `n` frames -/
def callTo (L : Lib) (g : Graph) (Q : Program) (n : Nat) (i : Addr) (o : Bool) : M PV :=
  callModule L Q n (.own (c!"serialize_" ++ lower g.name)) [(none, .addr i), (some c!"ordered", .bool o)]

/-- What a call of the serializer does which starts in the state `s`. If the serializer is supposed to return a JSONable, the
JSONable is returned, all whose lists and dictionaries are new, and nothing is changed. If it is supposed to raise an exception,
this exception is raised; nothing is said about values of a wrong type. -/
def Does (s : St) (R : Except Raised PV × St) : Except Exc Json → Prop
  | .ok j => ∃ s' q, R = (.ok q, s') ∧ s'.vars = s.vars ∧ (∀ a, a < s.heap.length → s'.heap[a]? = s.heap[a]?) ∧
      Jsonable s'.heap s.heap.length j q
  | .error .typeError => True
  | .error x => ∃ t s', R = (.error (.exc x t), s')

theorem does_of {s : St} {R : Except Raised PV × St} {r : Except Exc Json} (h : Made s R r) : Does s R r := by
  cases r with
  | ok j =>
    obtain ⟨s', q, h1, h2, h3, h4⟩ := h
    exact ⟨s', q, h1, h2, h3.same, h4⟩
  | error x =>
    rcases h with rfl | h
    · trivial
    · cases x <;> first | trivial | exact h

section

variable {L : Lib} {g : Graph} {py : Py} {Q : Program} {gv : GraphVal} {i : Addr} {s : St} {o : Bool}

theorem callTo_eq (W : Saved g py Q) (N : PlainTo g) (n : Nat) : callTo L g Q n i o s =
    callOwn L Q n (.own (c!"serialize_" ++ lower g.name)) [(none, .addr i), (some c!"ordered", .bool o)] s := by
  rw [callTo, callModule_eq (writer_unhidden (writer_of W N).calls W.code)]

/-! ## C83: the code does what the serializer does -/

/-- **C83 (partial).** The serializer, unless it exhausts a stack of `k` frames, says what the generated code does with two
frames more: the same JSONable, or the same exception. -/
theorem C83_code_partial (W : Saved g py Q) (N : PlainTo g) (hs : ShowsGraph s.heap g gv i) (o : Bool) (k : Nat)
    (hk : serGraph L (settingsOf py) g k o gv ≠ .error .recursionError) :
    Does s (callTo L g Q (k + 2) i o s) (serGraph L (settingsOf py) g k o gv) := by
  rcases (serGraph_below (L := L) (S := settingsOf py) (g := g) (o := o) k gv).1 with h | h
  · exact absurd h hk
  · rw [h, callTo_eq W N]
    exact does_of (serGraph_run (writer_of W N) (settings_ok py) hs k o)

/-- The code does with a stack of `k + 2` frames what the serializer does with `k + 1` frames, unless the stack is exhausted. -/
theorem C83_conversely_partial (W : Saved g py Q) (N : PlainTo g) (hs : ShowsGraph s.heap g gv i) (o : Bool) (k : Nat)
    (hk : ∀ t s', callTo L g Q (k + 2) i o s ≠ (.error (.exc .recursionError t), s')) :
    Does s (callTo L g Q (k + 2) i o s) (serGraph L (settingsOf py) g (k + 1) o gv) := by
  have h := does_of (serGraph_run (L := L) (writer_of W N) (settings_ok py) hs k o)
  rw [← callTo_eq W N] at h
  rcases (serGraph_below (L := L) (S := settingsOf py) (g := g) (o := o) k gv).2 with e | e
  · rw [e] at h
    obtain ⟨t, s', h⟩ := h
    exact absurd h (hk t s')
  · rw [← e]
    exact h

theorem jsonable_reach {h : List Obj} {lo : Nat} {p q : PV} (hr : Reach h p q) : ∀ j, Jsonable h lo j p → ∃ j', Jsonable h lo j' q := by
  induction hr with
  | here p => exact fun j hj => ⟨j, hj⟩
  | item e hm _ ih =>
    intro j hj
    cases hj with
    | arr _ e' hl ha =>
      rw [e] at e'
      cases e'
      obtain ⟨n, hn, hp⟩ := List.mem_iff_getElem.1 hm
      exact ih _ (ha n _ _ (List.getElem?_eq_getElem (hl ▸ hn)) (by rw [← hp]; exact List.getElem?_eq_getElem hn))
    | obj _ e' _ _ =>
      rw [e] at e'
      cases e'
  | entry e hm _ ih =>
    intro j hj
    cases hj with
    | arr _ e' hl ha =>
      rw [e] at e'
      cases e'
    | obj _ e' hl ha =>
      rw [e] at e'
      cases e'
      have hl := congrArg List.length hl
      simp only [List.length_map] at hl
      obtain ⟨n, hn, hp⟩ := List.mem_iff_getElem.1 hm
      have := ha n _ _ (List.getElem?_eq_getElem (hl ▸ hn)) (List.getElem?_eq_getElem hn)
      rw [hp] at this
      exact ih _ this
  | attr e _ _ ih =>
    intro j hj
    cases hj with
    | arr _ e' hl ha =>
      rw [e] at e'
      cases e'
    | obj _ e' _ _ =>
      rw [e] at e'
      cases e'

/-- Whatever can be reached from what the code returns is a new list, a new dictionary or a JSON scalar: none of the objects of
the graph is handed out. -/
theorem C83_new_partial (W : Saved g py Q) (N : PlainTo g) (hs : ShowsGraph s.heap g gv i) (k : Nat)
    (ht : serGraph L (settingsOf py) g (k + 1) o gv ≠ .error .typeError) (p : PV) (s' : St)
    (h : callTo L g Q (k + 2) i o s = (.ok p, s')) (q : PV) (hq : Reach s'.heap p q) :
    q = .none ∨ (∃ b, q = .bool b) ∨ (∃ n, q = .int n) ∨ (∃ f, q = .float f) ∨ (∃ t, q = .str t) ∨
    ∃ a, q = .addr a ∧ s.heap.length ≤ a ∧
      ((∃ ps, s'.heap[a]? = some (.list ps)) ∨ ∃ o ps, s'.heap[a]? = some (.dict o ps)) := by
  have hd := C83_conversely_partial W N hs o k (L := L) (by rw [h]; nofun)
  rw [h] at hd
  cases hr : serGraph L (settingsOf py) g (k + 1) o gv with
  | error x =>
    rw [hr] at hd
    cases x with
    | typeError => exact absurd hr ht
    | _ => obtain ⟨_, _, e⟩ := hd; cases e
  | ok j =>
    rw [hr] at hd
    obtain ⟨s1, q1, e, _, _, hj⟩ := hd
    cases e
    obtain ⟨j', hj'⟩ := jsonable_reach hq j hj
    cases hj' with
    | null => exact .inl rfl
    | bool b => exact .inr (.inl ⟨b, rfl⟩)
    | int b => exact .inr (.inr (.inl ⟨b, rfl⟩))
    | float b => exact .inr (.inr (.inr (.inl ⟨b, rfl⟩)))
    | str b => exact .inr (.inr (.inr (.inr (.inl ⟨b, rfl⟩))))
    | arr h1 h2 _ _ => exact .inr (.inr (.inr (.inr (.inr ⟨_, rfl, h1, .inl ⟨_, h2⟩⟩))))
    | obj h1 h2 _ _ => exact .inr (.inr (.inr (.inr (.inr ⟨_, rfl, h1, .inr ⟨_, _, h2⟩⟩))))

/-! ## C33: exceptions of the code -/

/-- If the objects of the graph have their attributes and the names are in lower case, the code raises `ValueError` if an instance is
registered under another identifier, and returns otherwise. -/
theorem C33_code_partial (W : Saved g py Q) (N : PlainTo g) (hs : ShowsGraph s.heap g gv i) (o : Bool) (k : Nat)
    (hlow : LowerNames g) (ht : TypedGraph (settingsOf py) g k gv) :
    (Misregistered g gv ∧ ∃ m t s', callTo L g Q (k + 2) i o s = (.error (.exc (.valueError m) t), s')) ∨
    (¬ Misregistered g gv ∧ ∃ p s', callTo L g Q (k + 2) i o s = (.ok p, s')) := by
  have hi := C33_iff_partial L (settingsOf py) g k o gv hlow ht
  rcases C33_outcomes_partial L (settingsOf py) g k o gv hlow ht with ⟨j, hj⟩ | ⟨m, hm⟩
  · refine .inr ⟨fun hmis => ?_, ?_⟩
    · obtain ⟨m, hm⟩ := hi.2 hmis
      rw [hj] at hm
      cases hm
    · have h := C83_code_partial W N hs o k (L := L) (by rw [hj]; nofun)
      rw [hj] at h
      obtain ⟨s', p, h, _⟩ := h
      exact ⟨p, s', h⟩
  · refine .inl ⟨hi.1 ⟨m, hm⟩, m, ?_⟩
    have h := C83_code_partial W N hs o k (L := L) (by rw [hm]; nofun)
    rw [hm] at h
    exact h

end

/-- The full property: the names need not be plain. -/
def C83Full : Prop := ∀ (L : Lib) (g : Graph) (py : Py) (Q : Program) (gv : GraphVal) (i : Addr) (s : St) (o : Bool) (k : Nat),
  Saved g py Q → ShowsGraph s.heap g gv i → serGraph L (settingsOf py) g k o gv ≠ .error .recursionError →
  Does s (callTo L g Q (k + 2) i o s) (serGraph L (settingsOf py) g k o gv)

namespace Demo

open PyRuntime.Demo (lib)

/-- The code of the serializer of a schema -/
def writerOf (g : Graph) : Program :=
  match PyGen.writer g settings with
  | .ok P => P
  | .error _ => ⟨[], [], []⟩

def generatesWriter (g : Graph) : Bool :=
  match PyGen.writer g settings with
  | .ok _ => true
  | .error _ => false

theorem writer_code {g : Graph} (h : generatesWriter g = true) : PyGen.writer g settings = .ok (writerOf g) := by
  unfold generatesWriter at h
  unfold writerOf
  split at h
  · rename_i e
    rw [e]
  · cases h

theorem saved_of {g : Graph} (h1 : (g.classes.map (·.name)).Nodup) (h2 : (g.embeds.map (·.name)).Nodup)
    (h3 : (allTypes g).all (defined g) = true) (h4 : validateSchema LangValidate.py g = .ok []) (h5 : generatesWriter g = true)
    (h6 : ∀ c ∈ g.classes, '{' ∉ c.name ∧ '}' ∉ c.name) :
    Saved g settings (writerOf g) := ⟨⟨h1, h2⟩, resolves_of h3, h4, writer_code h5, h6⟩

/-- A graph of two classes, with one instance of the first class -/
def pair (c1 c2 : Class) : Graph := { ref := c!"#", name := c!"Town", classes := [c1, c2] }

def pairValue (c1 c2 : Class) : GraphVal :=
  ⟨[], [(c1.name, ⟨true, [(c!"a", ⟨c!"a", []⟩)]⟩), (c2.name, ⟨true, []⟩)]⟩

/-- The graph at the address 0, its registries and the instance -/
def pairState (c1 c2 : Class) : St :=
  ⟨[.inst c!"Town" [(lower c1.plural, .addr 1), (lower c2.plural, .addr 2)], .dict true [(c!"a", .addr 3)], .dict true [],
    .inst c!"Some" [(c!"id", .str c!"a")]], fun _ => none⟩

theorem pair_shown {c1 c2 : Class} (hn : c1.name ≠ c2.name) (hp : lower c1.plural ≠ lower c2.plural) :
    ShowsGraph (pairState c1 c2).heap (pair c1 c2) (pairValue c1 c2) 0 := by
  have n1 : (c2.name == c1.name) = false := beq_false_of_ne fun e => hn e.symm
  have n2 : (lower c2.plural == lower c1.plural) = false := beq_false_of_ne fun e => hp e.symm
  refine ⟨_, _, rfl, fun x hx => ?_, fun c hc => ?_⟩
  · have h1 : (x == lower c1.plural) = false := beq_false_of_ne fun e => hx (by simp [plurals, pair, e])
    have h2 : (x == lower c2.plural) = false := beq_false_of_ne fun e => hx (by simp [plurals, pair, e])
    refine ⟨by simp [pairValue, List.lookup, h1, h2], fun v p h => ?_⟩
    cases h
  · simp only [pair, List.mem_cons, List.not_mem_nil, or_false] at hc
    rcases hc with rfl | rfl
    · refine ⟨by simp [pairValue, List.lookup], fun r p h1 h2 => ?_⟩
      simp only [pairValue, List.lookup, beq_self_eq_true, Option.some.injEq] at h1 h2
      subst h1
      subst h2
      refine ⟨1, _, rfl, rfl, by simp, .cons ⟨rfl, 3, _, _, rfl, rfl, rfl, fun x hx => ?_⟩ .nil⟩
      have : (x == c!"id") = false := beq_false_of_ne hx
      refine ⟨by simp [List.lookup, this], fun v p h => ?_⟩
      cases h
    · refine ⟨by simp [pairValue, List.lookup, n1, n2], fun r p h1 h2 => ?_⟩
      simp only [pairValue, List.lookup, n1, n2, beq_self_eq_true, Option.some.injEq] at h1 h2
      subst h1
      subst h2
      exact ⟨2, [], rfl, rfl, by simp, .nil⟩

def writes (r : Except Exc Json) : Bool :=
  match r with
  | .ok _ => true
  | _ => false

/-- A schema violates C83 if the code raises an exception where the serializer returns. -/
theorem violates {c1 c2 : Class} (hn : c1.name ≠ c2.name) (hp : lower c1.plural ≠ lower c2.plural)
    (hs : Saved (pair c1 c2) settings (writerOf (pair c1 c2)))
    (h1 : writes (serGraph lib (settingsOf settings) (pair c1 c2) 2 false (pairValue c1 c2)) = true)
    (h2 : raises (callTo lib (pair c1 c2) (writerOf (pair c1 c2)) 4 0 false (pairState c1 c2)) = true) : ¬ C83Full := by
  intro h
  unfold writes at h1
  split at h1
  · rename_i j e
    have := h lib (pair c1 c2) settings (writerOf (pair c1 c2)) (pairValue c1 c2) 0 (pairState c1 c2) false 2 hs (pair_shown hn hp)
      (by rw [e]; nofun)
    rw [e] at this
    obtain ⟨s', q, e, _⟩ := this
    rw [e] at h2
    cases h2
  · cases h1

end Demo

open Demo in
/-- It is violated by two classes whose names differ in the case of a letter: the first one is serialized as the second one, and
an attribute is missing. -/
theorem C83_violated_case : ¬ C83Full := by
  refine violates (c1 := { name := c!"FooBar", plural := c!"Firsts", ref := c!"#" })
    (c2 := { name := c!"Foobar", plural := c!"Seconds", ref := c!"#", properties := [{ name := c!"x", ty := .boolean, json := c!"x" }] })
    (by decide) (by decide) (saved_of ?_ ?_ ?_ ?_ ?_ ?_) ?_ ?_
  all_goals decide +kernel

open Demo in
/-- It is violated by the classes `Instance` and `Serialize`: the variable for an instance of the latter hides the function for
the instances of the former. -/
theorem C83_violated_hidden : ¬ C83Full := by
  refine violates (c1 := { name := c!"Instance", plural := c!"Others", ref := c!"#" })
    (c2 := { name := c!"Serialize", plural := c!"Abcs", ref := c!"#" })
    (by decide) (by decide) (saved_of ?_ ?_ ?_ ?_ ?_ ?_) ?_ ?_
  all_goals decide +kernel

open Demo in
/-- It is violated by a class `Target_foo` with the plural `Foo_instance`: the variable for its instances is the one for the
dictionary which they are written into. -/
theorem C83_violated_target : ¬ C83Full := by
  refine violates (c1 := { name := c!"Target_foo", plural := c!"Foo_instance", ref := c!"#" })
    (c2 := { name := c!"Abc", plural := c!"Abcs", ref := c!"#" })
    (by decide) (by decide) (saved_of ?_ ?_ ?_ ?_ ?_ ?_) ?_ ?_
  all_goals decide +kernel

/-! ## C84: round trips through the code -/

theorem dicts_of_keyed {v : Json} (h : Keyed v) : Dicts v := by
  intro o kvs ho
  generalize hw : Json.obj o kvs = w at ho
  revert h
  induction ho with
  | here =>
    intro h
    subst hw
    cases h with
    | obj h1 _ => exact h1
  | item hx _ ih =>
    intro h
    cases h with
    | arr h1 => exact ih (h1 _ hx)
  | entry hx _ ih =>
    intro h
    cases h with
    | obj _ h1 => exact ih (h1 _ hx)

section

variable {L : Lib} {g : Graph} {py : Py} {P Q : Program} {gv : GraphVal} {i : Addr} {s : St} {v : Json} {ref : Str} {ae : Addr} {cap : Int}

/-- **C84 (partial).** The code of the serializer returns a JSONable for a graph which satisfies the schema. The code of the parser
accepts this JSONable and returns a new object which represents the same graph. -/
theorem C84_round_trip_partial (W : Written g py P) (N : PlainNames g) (W' : Saved g py Q) (A : VariablesApart g)
    (hlow : LowerNames g) (hj : JsonKeys g) (hs : ShowsGraph s.heap g gv i) (k : Nat) (lax : Bool)
    (hv : ValidGraph lax L (settingsOf py) g false k gv) (hf : FaithfulGraph L g k gv) (o : Bool) :
    ∃ j p s', callTo L g Q (k + 2) i o s = (.ok p, s') ∧ Jsonable s'.heap s.heap.length j p ∧
      ∀ s1 ref ae cap, 0 < cap → s1.heap[ae]? = some (.errors (Errors.new cap)) → ∃ s2 place,
        callFrom L g P (k + 2) j ref ae s1 = (.ok (.addr s1.heap.length), s2) ∧ Outside ae s1.heap s2.heap (Errors.new cap) ∧
        GraphRep g s2.heap place (s1.heap.length + 1) s1.heap.length (withOrdered o gv) := by
  have N' : PlainTo g := ⟨N.lows, A⟩
  obtain ⟨j, e, _⟩ := C31_round_trip_partial lax L (settingsOf py) g k o gv [] 1 W.valid (by decide) hlow hj hv hf
  have hd := C83_code_partial W' N' hs o k (L := L) (by rw [e]; nofun)
  rw [e] at hd
  obtain ⟨s', p, h1, _, _, h2⟩ := hd
  refine ⟨j, p, s', h1, h2, fun s1 ref ae cap hcap he => ?_⟩
  have hk := serGraph_keyed (writer_of W' N').facts hs e
  obtain ⟨j', e', hp⟩ := C31_round_trip_partial lax L (settingsOf py) g k o gv ref cap W.valid hcap hlow hj hv hf
  rw [e] at e'
  cases e'
  have hr := C80_code_partial W N (dicts_of_keyed hk) he (ref := ref) (L := L) k (by rw [hp]; nofun)
  rw [hp] at hr
  obtain ⟨s2, place, h3, _, h4, h5⟩ := hr
  exact ⟨s2, place, h3, h4, h5⟩

/-- A graph which the code of the parser returns can be serialized: the code of the serializer returns the JSONable which the
serializer makes of the graph which the input describes. -/
theorem C84_parsed_partial (W : Written g py P) (N : PlainNames g) (W' : Saved g py Q) (A : VariablesApart g) (hlow : LowerNames g)
    (hv : Dicts v) (hcap : 0 < cap) (he : s.heap[ae]? = some (.errors (Errors.new cap))) (k : Nat) (a : Addr) (s' : St)
    (h : callFrom L g P (k + 2) v ref ae s = (.ok (.addr a), s')) (o : Bool) :
    ∃ gv j p s'', ReadsGraph true L (settingsOf py) g (k + 1) v gv ∧ serGraph L (settingsOf py) g (k + 1) o gv = .ok j ∧
      callTo L g Q (k + 3) a o s' = (.ok p, s'') ∧ Jsonable s''.heap s'.heap.length j p := by
  have N' : PlainTo g := ⟨N.lows, A⟩
  rcases C81_returned_partial W N hv hcap he k _ _ h with ⟨ha, _, gv, place, hg, hG⟩ | ⟨ha, _⟩
  · cases ha
    have hs := graph_shown W.named.classes (keyed_of v hv) hg hG
    obtain ⟨ht, hm⟩ := PyRuntime.Spec.typed_graph (distinct_of_valid W.valid)
      (PyRuntime.valid_graph (rounded := true) (k + 1) v gv nofun hg)
    rcases C33_outcomes_partial L (settingsOf py) g (k + 1) o gv hlow ht with ⟨j, hj⟩ | hx
    · have hd := C83_code_partial W' N' hs o (k + 1) (L := L) (by rw [hj]; nofun)
      rw [hj] at hd
      obtain ⟨s'', p, h1, _, _, h2⟩ := hd
      exact ⟨gv, j, p, s'', hg, hj, h1, h2⟩
    · exact absurd ((C33_iff_partial L (settingsOf py) g (k + 1) o gv hlow ht).1 hx) hm
  · cases ha

end

/-- The full property: there is no condition on the names and the JSON keys. -/
def C84Full : Prop := ∀ (L : Lib) (g : Graph) (py : Py) (P Q : Program) (gv : GraphVal) (i : Addr) (s : St) (k : Nat) (lax o : Bool),
  Written g py P → Saved g py Q → ShowsGraph s.heap g gv i → ValidGraph lax L (settingsOf py) g false k gv →
  FaithfulGraph L g k gv → ∃ j p s', callTo L g Q (k + 2) i o s = (.ok p, s') ∧ Jsonable s'.heap s.heap.length j p ∧
    ∀ s1 ref ae cap, 0 < cap → s1.heap[ae]? = some (.errors (Errors.new cap)) → ∃ s2 place,
      callFrom L g P (k + 2) j ref ae s1 = (.ok (.addr s1.heap.length), s2) ∧ Outside ae s1.heap s2.heap (Errors.new cap) ∧
      GraphRep g s2.heap place (s1.heap.length + 1) s1.heap.length (withOrdered o gv)

namespace Demo

/-- The objects of `capitalValue` -/
def capitalState : St :=
  ⟨[.inst c!"Shop" [(c!"links", .addr 1)], .dict true [(c!"l1", .addr 2)],
    .inst c!"Link" [(c!"id", .str c!"l1"), (c!"some_url", .str c!"http")]], fun _ => none⟩

theorem capital_shown : ShowsGraph capitalState.heap capitalGraph capitalValue 0 := by
  refine ⟨_, _, rfl, fun x hx => ?_, fun c hc => ?_⟩
  · have h1 : (x == c!"links") = false := beq_false_of_ne fun e => hx (by rw [e]; decide)
    refine ⟨by simp [capitalValue, List.lookup, h1], fun v p h => ?_⟩
    cases h
  · simp only [capitalGraph, List.mem_singleton] at hc
    subst hc
    refine ⟨⟨nofun, nofun⟩, fun r p h1 h2 => ?_⟩
    cases h1
    cases h2
    refine ⟨1, _, rfl, rfl, by simp, .cons ⟨rfl, 2, _, _, rfl, rfl, rfl, fun x hx => ?_⟩ .nil⟩
    have : (x == c!"id") = false := beq_false_of_ne hx
    by_cases hx' : x = c!"some_url"
    · subst hx'
      refine ⟨by simp [List.lookup], fun v p h1 h2 => ?_⟩
      cases h1
      cases h2
      exact .str _
    · have h2 : (x == c!"some_url") = false := beq_false_of_ne hx'
      refine ⟨by simp [List.lookup, this, h2], fun v p h => ?_⟩
      simp only [List.lookup, h2] at h
      cases h

end Demo

open Demo in
/-- It is violated by a capital in the name of a property of a class: the code of the serializer raises an `AttributeError`. -/
theorem C84_violated : ¬ C84Full := by
  intro h
  obtain ⟨_, _, _, h1, _⟩ := h PyRuntime.Demo.lib capitalGraph settings (codeOf capitalGraph) (writerOf capitalGraph) capitalValue 0
    capitalState 1 false false
    (written_of (by decide) (by decide) (by decide +kernel) (by decide +kernel) (by decide +kernel) (by decide))
    (saved_of (by decide) (by decide) (by decide +kernel) (by decide +kernel) (by decide +kernel) (by decide))
    capital_shown capital_valid capital_faithful
  have h2 : raises (callTo PyRuntime.Demo.lib capitalGraph (writerOf capitalGraph) 3 0 false capitalState) = true := by decide +kernel
  rw [h1] at h2
  cases h2

namespace Demo

open PyRuntime.Demo

theorem saved : Saved schema settings (writerOf schema) :=
  saved_of (by decide) (by decide) (by decide +kernel) (by decide +kernel) (by decide +kernel) (by decide)

theorem apart : VariablesApart schema := by
  refine ⟨by decide +kernel, ?_, by decide +kernel⟩
  intro c hc p _ e _ he
  simp only [schema, List.mem_singleton] at hc
  subst hc
  have : (lower c!"Person" ++ c!"_instance").head? = (c!"serialize_" ++ lower e).head? := congrArg List.head? he
  have e1 : (lower c!"Person" ++ c!"_instance").head? = some 'p' := by decide
  rw [e1] at this
  cases this

theorem lower_names : LowerNames schema := ⟨by decide +kernel, by decide +kernel⟩

/-- The keys of a returned dictionary -/
def keysOf (r : Except Raised PV × St) : List Str :=
  match r with
  | (.ok (.addr a), s) => match s.heap[a]? with
    | some (Obj.dict _ kvs) => kvs.map (·.1)
    | _ => []
  | _ => []

/-- The state in which the example is parsed -/
def parsed : St := (callFrom lib schema (codeOf schema) 4 input c!"#" 0 start).2

theorem parsed_eq : callFrom lib schema (codeOf schema) 4 input c!"#" 0 start = (.ok (.addr 1), parsed) := by
  have h : returnsGraph (callFrom lib schema (codeOf schema) 4 input c!"#" 0 start) = true := by decide +kernel
  unfold parsed
  generalize callFrom lib schema (codeOf schema) 4 input c!"#" 0 start = r at h ⊢
  unfold returnsGraph at h
  split at h
  · rfl
  · cases h

/-- The example is parsed and serialized by the code. -/
example : ∃ gv, ShowsGraph parsed.heap schema gv 1 ∧ LowerNames schema ∧ PlainTo schema ∧ Saved schema settings (writerOf schema) ∧
    ValidGraph true lib (settingsOf settings) schema true 3 gv ∧
    keysOf (callTo lib schema (writerOf schema) 5 1 true parsed) = [c!"homes", c!"weights", c!"persons"] := by
  rcases C81_returned_partial written plain demo_input (by decide) rfl 2 _ _ parsed_eq with ⟨_, _, gv, place, hg, hG⟩ | ⟨ha, _⟩
  · exact ⟨gv, graph_shown written.named.classes (keyed_of _ demo_input) hg hG, lower_names, ⟨plain.lows, apart⟩, saved,
      PyRuntime.valid_graph _ _ _ nofun hg, by decide +kernel⟩
  · cases ha

/-- The schema of `capitalGraph` in lower case -/
def links : Graph :=
  { name := c!"Shop"
    classes := [{ name := c!"Link", plural := c!"Links"
                  properties := [{ name := c!"some_url", ty := .string none, json := c!"url" }] }] }

theorem links_shown : ShowsGraph capitalState.heap links capitalValue 0 := by
  obtain ⟨cn, q, h1, h2, h3⟩ := capital_shown
  refine ⟨cn, q, h1, h2, fun c hc => ?_⟩
  simp only [links, List.mem_singleton] at hc
  subst hc
  exact h3 { name := c!"Link", plural := c!"Links", properties := [{ name := c!"some_URL", ty := .string none, json := c!"url" }] }
    (by simp [capitalGraph])

theorem links_valid : ValidGraph false lib (settingsOf settings) links false 1 capitalValue where
  registries := by
    refine .cons ⟨rfl, ?_⟩ .nil
    intro i hi
    simp only [List.mem_singleton] at hi
    subst hi
    refine ⟨rfl, by simp [PyRuntime.Spec.Matches], .cons ⟨by decide, .inr ⟨_, rfl, by simp [PyRuntime.Spec.Matches]⟩⟩ .nil⟩
  attrs := .nil

theorem links_faithful : FaithfulGraph lib links 1 capitalValue where
  registries := by
    intro c hc r hr i hi p hp x hx hn
    simp only [links, List.mem_singleton] at hc
    subst hc
    simp only [List.mem_singleton] at hp
    subst hp
    trivial
  attrs := by intro p hp; simp [links] at hp

theorem links_written : Written links settings (codeOf links) :=
  written_of (by decide) (by decide) (by decide +kernel) (by decide +kernel) (by decide +kernel) (by decide)

/-- The hypotheses of C84 are met. -/
example : ∃ j p s', callTo lib links (writerOf links) 3 0 true capitalState = (.ok p, s') ∧ Jsonable s'.heap 3 j p ∧
    ∃ s2 place, callFrom lib links (codeOf links) 3 j c!"#" 0 start = (.ok (.addr 1), s2) ∧
      GraphRep links s2.heap place 2 1 (withOrdered true capitalValue) := by
  obtain ⟨j, p, s', h1, h2, h3⟩ := C84_round_trip_partial links_written
    ⟨by decide +kernel, by decide +kernel, (PyNames.selfFree_iff links_written.named).1 (by unfold PyCode.NoSelf; decide +kernel)⟩
    (saved_of (by decide) (by decide) (by decide +kernel) (by decide +kernel) (by decide +kernel) (by decide))
    ⟨by decide +kernel, by intro c _ p hp; simp [links] at hp, by decide +kernel⟩ ⟨by decide +kernel, by decide +kernel⟩
    ⟨by decide, by decide, by decide⟩ links_shown 1 false links_valid links_faithful true
  obtain ⟨s2, place, h4, _, h5⟩ := h3 start c!"#" 0 10 (by decide) rfl
  exact ⟨j, p, s', h1, h2, s2, place, h4, h5⟩

end Demo

end Mapry.Props.PyExec
