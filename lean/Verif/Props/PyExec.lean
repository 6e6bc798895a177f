import Verif.PyExecGraph
import Verif.PyFuel
import Verif.PyUnhidden
import Verif.PyIdentity
import Verif.PyDemo
import Verif.Props.PyNames
import Verif.Props.PyFaults

/-! # C80 - C82: the generated Python code of the parser, run statement by statement -/

namespace Mapry.Props.PyExec

open Mapry.PyLang Mapry.PyExec Mapry.Naming Mapry.LangValidate Mapry.ParseSchema
open Mapry.TypeGraph hiding Obj Occurs
open Mapry.PyRuntime (Json GraphVal Val Attrs Lib parseGraph)
open Mapry.PyRuntime.Spec (ReadsGraph Occurs)
open Mapry.PyCode (idOf)
open Mapry.Props.PyNames (names SelfFree)

/-- The schema passes the validations of mapry and of the Python generator, and the code of the parser is generated. A schema
which is parsed from a mapping has the other properties (`written_of_parsed`). -/
structure Written (g : Graph) (py : Py) (P : Program) : Prop where
  named : Named g
  resolves : GoCode.Resolves g
  valid : validateSchema LangValidate.py g = .ok []
  code : PyGen.parser g py = .ok P
  brace : ∀ c ∈ g.classes, '{' ∉ c.name ∧ '}' ∉ c.name

section

open Mapry.Validation Mapry.SchemaSpec

theorem word_brace {n : Str} (h : n.all isWord = true) : '{' ∉ n ∧ '}' ∉ n := by
  rw [List.all_eq_true] at h
  exact ⟨fun hm => absurd (h _ hm) (by decide), fun hm => absurd (h _ hm) (by decide)⟩

theorem ident_brace {n : Str} (h : identBody Char.isUpper n = true) : '{' ∉ n ∧ '}' ∉ n := by
  cases n with
  | nil => cases h
  | cons c cs =>
    simp only [identBody, Bool.and_eq_true] at h
    obtain ⟨h1, h2⟩ := word_brace h.1.2
    have hc := h.1.1
    constructor
    · intro hm
      rcases List.mem_cons.1 hm with rfl | hm
      · exact absurd hc (by decide)
      · exact h1 hm
    · intro hm
      rcases List.mem_cons.1 hm with rfl | hm
      · exact absurd hc (by decide)
      · exact h2 hm

theorem class_brace {n : Str} (h : classNameRe n = true) : '{' ∉ n ∧ '}' ∉ n := by
  simp only [classNameRe, dollar, Bool.or_eq_true, Bool.and_eq_true, beq_iff_eq] at h
  rcases h with h | ⟨hl, h⟩
  · exact ident_brace h
  · obtain ⟨h1, h2⟩ := ident_brace h
    have e : n = n.dropLast ++ ['\n'] := by
      obtain ⟨l, rfl⟩ := List.getLast?_eq_some_iff.1 hl
      simp
    rw [e]
    exact ⟨by simpa using h1, by simpa using h2⟩

theorem parsed_brace {V : Validation.Lib} {mapping : Json} {ref : Str} {s : Schema}
    (h : schemaFromMapping V mapping ref = .ok s) : ∀ c ∈ s.graph.classes, '{' ∉ c.name ∧ '}' ∉ c.name := by
  intro c hc
  have hg := graph_spec h fun _ _ p _ _ => cutFloats_by p
  obtain ⟨types, hcl⟩ := Validation.clean_of (validated_of h).1
  obtain ⟨o, kvs, rfl, _⟩ := objectOf_obj hcl.check
  obtain ⟨m1, _⟩ := members_check hcl.check
  obtain ⟨x, hx, hn⟩ := graph_class_names hg (List.mem_map_of_mem hc)
  have hc := m1 x hx
  obtain ⟨o', kvs', rfl, _⟩ := objectOf_obj hc
  obtain ⟨s, hs, hre⟩ := isStr_str (objectOf_field hc (k := c!"name") hn)
  cases hs
  exact class_brace hre

end

/-- A schema which is parsed from a mapping -/
theorem written_of_parsed {V : Validation.Lib} {mapping : Json} {ref : Str} {s : Schema} {py : Py} {P : Program}
    (h : schemaFromMapping V mapping ref = .ok s) (hv : validateSchema LangValidate.py s.graph = .ok [])
    (hc : PyGen.parser s.graph py = .ok P) : Written s.graph py P :=
  ⟨(GoCode.parsed_facts h).1, (GoCode.parsed_facts h).2, hv, hc, parsed_brace h⟩

/-- The names of the classes, of the embeds and of the graph stay different in the code, and none of the attributes is
called `self`. -/
structure PlainNames (g : Graph) : Prop where
  ids : ((names g).map (camelSpec true)).Nodup
  lows : ((names g).map lower).Nodup
  noSelf : SelfFree g

/-- The settings which the code of the parser depends on -/
def settingsOf (py : Py) : PyRuntime.Settings where
  pathlib := decide (py.pathAs = c!"pathlib.Path")
  pytz := decide (py.timezoneAs = c!"pytz.timezone")

/-- Every key occurs once in a dictionary. -/
def Dicts (v : Json) : Prop := ∀ o kvs, Occurs (.obj o kvs) v → (kvs.map (·.1)).Nodup

theorem good {g : Graph} {py : Py} {P : Program} (W : Written g py P) (N : PlainNames g) : Good g py P := by
  have hf := PyCode.facts_of W.named W.resolves W.valid
  refine ⟨W.code, hf, ?_, N.lows, ?_, ?_, ?_, W.brace⟩
  · rw [PyNames.ids_eq hf]
    exact N.ids
  · rintro c hc hm
    obtain ⟨p, hp, e⟩ := List.mem_map.1 hm
    exact N.noSelf.1 p (.inr (.inl ⟨c, hc, hp⟩)) e
  · rintro c hc hm
    obtain ⟨p, hp, e⟩ := List.mem_map.1 hm
    exact N.noSelf.1 p (.inr (.inr ⟨c, hc, hp⟩)) e
  · intro hm
    rcases List.mem_append.1 hm with hm | hm
    · obtain ⟨p, hp, e⟩ := List.mem_map.1 hm
      exact N.noSelf.1 p (.inl hp) e
    · obtain ⟨c, hc, e⟩ := List.mem_map.1 hm
      exact N.noSelf.2 c hc e

theorem settings_ok (py : Py) : SettingsOk (settingsOf py) py := by
  unfold SettingsOk settingsOf PyGen.pathlib PyGen.pytz
  constructor
  · intro b h
    split at h
    · rename_i e
      cases h
      simp [e]
    · split at h
      · rename_i e
        cases h
        simp [e]
      · cases h
  · intro b h
    split at h
    · rename_i e
      cases h
      simp [e]
    · split at h
      · rename_i e
        cases h
        simp [e]
      · cases h

theorem keyed_of : ∀ (v : Json), Dicts v → Keyed v
  | .null, _ => .null
  | .bool _, _ => .bool _
  | .int _, _ => .int _
  | .float _, _ => .float _
  | .str _, _ => .str _
  | .arr xs, h => .arr fun x hx => keyed_of x fun o kvs ho => h o kvs (.item hx ho)
  | .obj o kvs, h => .obj (h o kvs (.here _)) fun kv hkv => keyed_of kv.2 fun o' kvs' ho => h o' kvs' (.entry (k := kv.1) hkv ho)
termination_by v => sizeOf v
decreasing_by
  · have := List.sizeOf_lt_of_mem hx
    simp only [PyRuntime.Json.arr.sizeOf_spec]
    omega
  · have := List.sizeOf_lt_of_mem hkv
    obtain ⟨k, w⟩ := kv
    simp only [PyRuntime.Json.obj.sizeOf_spec, Prod.mk.sizeOf_spec] at this ⊢
    omega

/-- The call of the generated function of the graph, `<graph>_from(value, ref, errors)`, with a stack of `n` frames -/
def callFrom (L : Lib) (g : Graph) (P : Program) (n : Nat) (v : Json) (ref : Str) (errors : Addr) : M PV :=
  callModule L P n (.own (lower g.name ++ c!"_from")) [(none, ofJson v), (none, .str ref), (none, .addr errors)]

section

variable {L : Lib} {g : Graph} {py : Py} {P : Program} {v : Json} {ref : Str} {ae : Addr} {es : Errors} {s : St}

theorem callFrom_eq (W : Written g py P) (n : Nat) : callFrom L g P n v ref ae s =
    callOwn L P n (.own (lower g.name ++ c!"_from")) [(none, ofJson v), (none, .str ref), (none, .addr ae)] s := by
  rw [callFrom, callModule_eq (parser_unhidden W.code)]

/-! ## C80: the code does what the parser does -/

/-- **C80 (partial).** The parser, unless it exhausts a stack of `k` frames, says what the generated code does with two frames
more: the same exception, the same errors, `None` or a new object with the graph which is parsed. Nothing else is changed
which existed before. -/
theorem C80_code_partial (W : Written g py P) (N : PlainNames g) (hv : Dicts v) (he : s.heap[ae]? = some (.errors es)) (k : Nat)
    (hk : parseGraph L (settingsOf py) g k v ref es ≠ .error .recursionError) :
    GraphRan g ae s (callFrom L g P (k + 2) v ref ae s) (parseGraph L (settingsOf py) g k v ref es) := by
  rcases (parseGraph_below (L := L) (S := settingsOf py) (g := g) k v ref es).1 with h | h
  · exact absurd h hk
  · rw [h, callFrom_eq W]
    exact graph_run (good W N) (settings_ok py) (keyed_of v hv) he ref

/-- The code does with a stack of `k + 2` frames what the parser does with `k + 1` frames, unless the stack is exhausted. -/
theorem C80_conversely_partial (W : Written g py P) (N : PlainNames g) (hv : Dicts v) (he : s.heap[ae]? = some (.errors es)) (k : Nat)
    (hk : ∀ t s', callFrom L g P (k + 2) v ref ae s ≠ (.error (.exc .recursionError t), s')) :
    GraphRan g ae s (callFrom L g P (k + 2) v ref ae s) (parseGraph L (settingsOf py) g (k + 1) v ref es) := by
  have h := graph_run (L := L) (k := k) (good W N) (settings_ok py) (keyed_of v hv) he ref
  rw [← callFrom_eq W] at h
  rcases (parseGraph_below (L := L) (S := settingsOf py) (g := g) k v ref es).2 with e | e
  · rw [e] at h
    obtain ⟨t, s', h⟩ := h
    exact absurd h (hk t s')
  · rw [← e]
    exact h

end

/-- The full property: the names need not be plain. -/
def C80Full : Prop := ∀ (L : Lib) (g : Graph) (py : Py) (P : Program) (v : Json) (ref : Str) (ae : Addr) (es : Errors) (s : St)
  (k : Nat), Written g py P → Dicts v → s.heap[ae]? = some (.errors es) →
  parseGraph L (settingsOf py) g k v ref es ≠ .error .recursionError →
  GraphRan g ae s (callFrom L g P (k + 2) v ref ae s) (parseGraph L (settingsOf py) g k v ref es)

namespace Demo

open PyRuntime.Demo (lib schema input wrong value)

def settings : Py := { moduleName := c!"some.town", pathAs := c!"str", timezoneAs := c!"str", indention := c!"    " }

/-- The code of the parser of a schema -/
def codeOf (g : Graph) : Program :=
  match PyGen.parser g settings with
  | .ok P => P
  | .error _ => ⟨[], [], []⟩

/-- There is an empty container of errors at the address 0. -/
def start : St := ⟨[.errors (Errors.new 10)], fun _ => none⟩

def generates (g : Graph) : Bool :=
  match PyGen.parser g settings with
  | .ok _ => true
  | .error _ => false

theorem code_of {g : Graph} (h : generates g = true) : PyGen.parser g settings = .ok (codeOf g) := by
  unfold generates at h
  unfold codeOf
  split at h
  · rename_i e
    rw [e]
  · cases h

/-- The code returns the graph at the address 1. -/
def returnsGraph (r : Except Raised PV × St) : Bool :=
  match r with
  | (.ok (.addr 1), _) => true
  | _ => false

/-- The code returns `None`, having recorded so many errors. -/
def returnsNone (n : Nat) (r : Except Raised PV × St) : Bool :=
  match r with
  | (.ok .none, s) => match s.heap[0]? with
    | some (Obj.errors es) => decide (es.values.length = n)
    | _ => false
  | _ => false

/-- All the types in the schema -/
def allTypes (g : Graph) : List Ty :=
  (g.properties ++ g.classes.flatMap (·.properties) ++ g.embeds.flatMap (·.properties)).flatMap fun p => parts p.ty

/-- The type is defined if it is a class or an embed. -/
def defined (g : Graph) : Ty → Bool
  | .cls n => g.classes.any fun c => c.name = n
  | .embed n => g.embeds.any fun e => e.name = n
  | _ => true

theorem resolves_of {g : Graph} (h : (allTypes g).all (defined g) = true) : GoCode.Resolves g := by
  have key : ∀ t, TypeGraph.Occurs g t → defined g t = true := by
    intro t ht
    refine List.all_eq_true.1 h t ?_
    simp only [allTypes, List.mem_flatMap, List.mem_append]
    cases ht with
    | graph p hp ht => exact ⟨p, .inl (.inl hp), ht⟩
    | cls c p hc hp ht => exact ⟨p, .inl (.inr ⟨c, hc, hp⟩), ht⟩
    | embed e p he hp ht => exact ⟨p, .inr ⟨e, he, hp⟩, ht⟩
  constructor
  · intro n hn
    have := key _ hn
    simpa [defined, List.any_eq_true] using this
  · intro n hn
    have := key _ hn
    simpa [defined, List.any_eq_true] using this

theorem written_of {g : Graph} (h1 : (g.classes.map (·.name)).Nodup) (h2 : (g.embeds.map (·.name)).Nodup)
    (h3 : (allTypes g).all (defined g) = true) (h4 : validateSchema LangValidate.py g = .ok []) (h5 : generates g = true)
    (h6 : ∀ c ∈ g.classes, '{' ∉ c.name ∧ '}' ∉ c.name) :
    Written g settings (codeOf g) := ⟨⟨h1, h2⟩, resolves_of h3, h4, code_of h5, h6⟩

theorem written : Written schema settings (codeOf schema) :=
  written_of (by decide) (by decide) (by decide +kernel) (by decide +kernel) (by decide +kernel) (by decide)

theorem plain : PlainNames schema :=
  ⟨by decide +kernel, by decide +kernel, (PyNames.selfFree_iff written.named).1 (by unfold PyCode.NoSelf; decide +kernel)⟩

example : Written schema settings (codeOf schema) ∧ PlainNames schema ∧
    returnsGraph (callFrom lib schema (codeOf schema) 4 input c!"#" 0 start) = true ∧
    returnsNone 4 (callFrom lib schema (codeOf schema) 4 wrong c!"#" 0 start) = true :=
  ⟨written, plain, by decide +kernel, by decide +kernel⟩

/-- Two classes which differ by the case of a letter -/
def cases : Graph where
  ref := c!"#"
  name := c!"Town"
  classes := [
    { name := c!"FooBar", plural := c!"Firsts", ref := c!"#", properties := [{ name := c!"x", ty := .boolean, json := c!"x" }] },
    { name := c!"Foobar", plural := c!"Seconds", ref := c!"#", properties := [] }]

/-- A class and a graph with the same identifier -/
def camel : Graph where
  ref := c!"#"
  name := c!"ShoP"
  classes := [{ name := c!"Sho_p", plural := c!"Items", ref := c!"#", properties := [] }]

/-- The input without the required property `x` is accepted. -/
def firsts : Json := .obj false [(c!"firsts", .obj false [(c!"a", .obj false [])])]

/-- Every key occurs once, as far as the depth allows to see. -/
def dicts : Nat → Json → Bool
  | 0, _ => false
  | n + 1, .arr xs => xs.all (dicts n)
  | n + 1, .obj _ kvs => decide (kvs.map (·.1)).Nodup && kvs.all fun kv => dicts n kv.2
  | _ + 1, _ => true

theorem dicts_of : ∀ n v, dicts n v = true → Dicts v := by
  intro n
  induction n with
  | zero => exact fun _ h => by cases h
  | succ n ih =>
    intro v h o kvs ho
    cases ho with
    | here =>
      simp only [dicts, Bool.and_eq_true, decide_eq_true_eq] at h
      exact h.1
    | item hx ho =>
      simp only [dicts, List.all_eq_true] at h
      exact ih _ (h _ hx) o kvs ho
    | entry hx ho =>
      simp only [dicts, Bool.and_eq_true, List.all_eq_true] at h
      exact ih _ (h.2 _ hx) o kvs ho

/-- The parser records an error. -/
def records (r : Except Exc (Option GraphVal × Errors)) : Bool :=
  match r with
  | .ok (none, es) => decide (es.values.length = 1)
  | _ => false

def items : Json := .obj false [(c!"items", .obj false [(c!"a", .obj false [])])]

def parses (r : Except Exc (Option GraphVal × Errors)) : Bool :=
  match r with
  | .ok (some _, _) => true
  | _ => false

def raises (r : Except Raised PV × St) : Bool :=
  match r with
  | (.error _, _) => true
  | _ => false

end Demo

open Demo in
/-- It is violated: of two classes whose names differ in the case of a letter, the code parses both as the second one. -/
theorem C80_violated : ¬ C80Full := by
  intro h
  have h1 : records (parseGraph PyRuntime.Demo.lib (settingsOf settings) Demo.cases 2 firsts c!"#" (Errors.new 10)) = true := by
    decide +kernel
  have h2 : returnsGraph (callFrom PyRuntime.Demo.lib Demo.cases (codeOf Demo.cases) 4 firsts c!"#" 0 start) = true := by decide +kernel
  have h3 := h PyRuntime.Demo.lib Demo.cases settings (codeOf Demo.cases) firsts c!"#" 0 (Errors.new 10) start 2
    (written_of (by decide) (by decide) (by decide +kernel) (by decide +kernel) (by decide +kernel) (by decide)) ?_ rfl
  · unfold records at h1
    split at h1
    · rename_i e
      rw [e] at h3
      obtain ⟨s', hs, _⟩ := h3 nofun
      rw [hs] at h2
      cases h2
    · cases h1
  · exact dicts_of 9 _ (by decide +kernel)

open Demo in
/-- It is violated as well by a class with the identifier of the graph: the code raises a `TypeError`. -/
theorem C80_violated_by_identifier : ¬ C80Full := by
  intro h
  have h1 : parses (parseGraph PyRuntime.Demo.lib (settingsOf settings) Demo.camel 2 items c!"#" (Errors.new 10)) = true := by
    decide +kernel
  have h2 : raises (callFrom PyRuntime.Demo.lib Demo.camel (codeOf Demo.camel) 4 items c!"#" 0 start) = true := by decide +kernel
  have h3 := h PyRuntime.Demo.lib Demo.camel settings (codeOf Demo.camel) items c!"#" 0 (Errors.new 10) start 2
    (written_of (by decide) (by decide) (by decide +kernel) (by decide +kernel) (by decide +kernel) (by decide)) ?_ rfl
  · unfold parses at h1
    split at h1
    · rename_i e
      rw [e] at h3
      obtain ⟨s', _, hs, _⟩ := h3 nofun
      rw [hs] at h2
      cases h2
    · cases h1
  · exact dicts_of 9 _ (by decide +kernel)

/-! ## C81: the code accepts the inputs which the schema describes -/

section

variable {L : Lib} {g : Graph} {py : Py} {P : Program} {v : Json} {ref : Str} {ae : Addr} {cap : Int} {s : St}

/-- **C81 (partial).** An input which describes a graph is accepted: a new object which represents the graph is returned, and
no error is recorded. -/
theorem C81_accepts_partial (W : Written g py P) (N : PlainNames g) (hv : Dicts v) (hcap : 0 < cap)
    (he : s.heap[ae]? = some (.errors (Errors.new cap))) (k : Nat) (gv : GraphVal)
    (h : ReadsGraph true L (settingsOf py) g k v gv) :
    ∃ s' place, callFrom L g P (k + 2) v ref ae s = (.ok (.addr s.heap.length), s') ∧
      Outside ae s.heap s'.heap (Errors.new cap) ∧ GraphRep g s'.heap place (s.heap.length + 1) s.heap.length gv := by
  obtain ⟨es, h⟩ := (C29_accepts_partial L (settingsOf py) g k v ref cap W.valid hcap gv).2 h
  have := (C28_complete L (settingsOf py) g k v ref cap W.valid hcap gv es h).1
  subst this
  have hr := C80_code_partial W N hv he (ref := ref) (L := L) k (by rw [h]; nofun)
  rw [h] at hr
  obtain ⟨s', place, h1, _, h2, h3⟩ := hr
  exact ⟨s', place, h1, h2, h3⟩

/-- Whatever is returned is either the graph which the input describes, and no error is recorded, or it is `None`, some error
is recorded and the input describes no graph. -/
theorem C81_returned_partial (W : Written g py P) (N : PlainNames g) (hv : Dicts v) (hcap : 0 < cap)
    (he : s.heap[ae]? = some (.errors (Errors.new cap))) (k : Nat) (p : PV) (s' : St)
    (h : callFrom L g P (k + 2) v ref ae s = (.ok p, s')) :
    (p = .addr s.heap.length ∧ Outside ae s.heap s'.heap (Errors.new cap) ∧ ∃ gv place,
      ReadsGraph true L (settingsOf py) g (k + 1) v gv ∧ GraphRep g s'.heap place (s.heap.length + 1) s.heap.length gv) ∨
    (p = .none ∧ (∃ es, Outside ae s.heap s'.heap es ∧ es.values ≠ [] ∧ (es.values.length : Int) ≤ cap) ∧
      ∀ gv, ¬ ReadsGraph true L (settingsOf py) g (k + 1) v gv) := by
  have hr := C80_conversely_partial W N hv he (ref := ref) (L := L) k (by rw [h]; nofun)
  rw [h] at hr
  cases hp : parseGraph L (settingsOf py) g (k + 1) v ref (Errors.new cap) with
  | error x =>
    rw [hp] at hr
    obtain ⟨t, s1, e⟩ := hr
    cases e
  | ok r =>
    obtain ⟨o, es⟩ := r
    have h28 := C28_graph_iff_no_error L (settingsOf py) g (k + 1) v ref cap hcap o es hp
    rw [hp] at hr
    cases o with
    | none =>
      obtain ⟨s1, e, _, hO⟩ := hr
      cases e
      refine .inr ⟨rfl, ⟨es, hO, fun e => ?_, h28.2⟩, fun gv hg => ?_⟩
      · have := h28.1.2 e
        cases this
      · obtain ⟨es', h'⟩ := (C29_accepts_partial L (settingsOf py) g (k + 1) v ref cap W.valid hcap gv).2 hg
        rw [hp] at h'
        cases h'
    | some gv =>
      obtain ⟨s1, place, e, _, hO, hG⟩ := hr
      cases e
      obtain ⟨rfl, hg⟩ := C28_complete L (settingsOf py) g (k + 1) v ref cap W.valid hcap gv es hp
      exact .inl ⟨rfl, hO, gv, place, hg, hG⟩

end

theorem demo_input : Dicts PyRuntime.Demo.input := Demo.dicts_of 9 _ (by decide +kernel)

open Demo PyRuntime.Demo in
example : Written schema settings (codeOf schema) ∧ PlainNames schema ∧ Dicts input ∧
    ReadsGraph true lib (settingsOf settings) schema 2 input value ∧
    (callFrom lib schema (codeOf schema) 4 input c!"#" 0 start).2.heap.length = 10 :=
  ⟨written, plain, demo_input, (C29_accepts_partial lib _ schema 2 input c!"#" 10 (by decide +kernel) (by decide) value).1
    ⟨Errors.new 10, rfl⟩, by decide +kernel⟩

/-! ## C32: exceptions of the code -/

/-- The code raises no exception under the conditions of `C32_never_raises_partial`. -/
theorem C32_code_partial {L : Lib} {g : Graph} {py : Py} {P : Program} {v : Json} {ref : Str} {ae : Addr} {cap : Int} {s : St}
    (W : Written g py P) (N : PlainNames g) (hv : Dicts v) (hcap : 0 < cap) (he : s.heap[ae]? = some (.errors (Errors.new cap)))
    (k : Nat) (hL : PyRuntime.Spec.TameLib L) (ht : PyRuntime.Spec.TameGraph g)
    (hd : PyRuntime.Spec.DepthLe k v) (hi : PyRuntime.Spec.FloatInts v)
    (hnull : ∀ o kvs, v = .obj o kvs → ∀ c ∈ g.classes, PyRuntime.Spec.registryOf kvs c ≠ some .null) :
    ∃ p s', callFrom L g P (k + 2) v ref ae s = (.ok p, s') := by
  obtain ⟨⟨o, es⟩, h⟩ := C32_never_raises_partial L (settingsOf py) g k v ref W.valid hL ht hd hi hnull cap hcap
  have hr := C80_code_partial W N hv he (ref := ref) (L := L) k (by rw [h]; nofun)
  rw [h] at hr
  cases o with
  | none =>
    obtain ⟨s', hr, _⟩ := hr
    exact ⟨_, s', hr⟩
  | some gv =>
    obtain ⟨s', _, hr, _⟩ := hr
    exact ⟨_, s', hr⟩

/-! ## C82: the objects of a parsed graph -/

/-- The registry of the class in the graph at the address `a` -/
def IsRegistry (g : Graph) (h : List Obj) (a : Addr) (c : Class) (o : Bool) (entries : List (Str × PV)) : Prop :=
  ∃ q d, h[a]? = some (.inst (camelSpec true g.name) q) ∧ q.lookup (lower c.plural) = some (.addr d) ∧
    h[d]? = some (.dict o entries)

theorem id_camel {g : Graph} (hf : PyCode.Facts g) {n : Str} (hn : n ∈ names g) : idOf n = camelSpec true n := by
  have h := hf.composite n hn
  unfold asComposite at h
  split at h
  · cases h
  · split at h
    · exact ((C01_ucamel_case_ok_iff _ _).1 h).2
    · cases h

/-- The attribute of an object -/
def Demo.attr (h : List Obj) (x : Str) : PV → Option PV
  | .addr a => match h[a]? with
    | some (.inst _ q) => q.lookup x
    | _ => none
  | _ => none

/-- The entry of a dictionary -/
def Demo.entry (h : List Obj) (x : Str) : PV → Option PV
  | .addr a => match h[a]? with
    | some (.dict _ q) => q.lookup x
    | _ => none
  | _ => none

def Demo.address : Option PV → Option Addr
  | some (.addr a) => some a
  | _ => none

open Demo PyRuntime.Demo in
/-- `graph.persons['p1'].best_friend is graph.persons['p2']` -/
example : let h := (callFrom lib schema (codeOf schema) 4 input c!"#" 0 start).2.heap
    address ((attr h c!"persons" (.addr 1)).bind (entry h c!"p2")) = some 5 ∧
    address (((attr h c!"persons" (.addr 1)).bind (entry h c!"p1")).bind (attr h c!"best_friend")) = some 5 := by decide +kernel

section

variable {L : Lib} {g : Graph} {py : Py} {P : Program} {v : Json} {ref : Str} {ae : Addr} {cap : Int} {s : St}

/-- **C82 (partial).** In a graph which is returned, an entry of a registry is an instance of the class with this identifier, and
every instance of the class which can be reached from the graph in any way is in the registry. Thus a reference is the very
object in the registry. -/
theorem C82_registered_partial (W : Written g py P) (N : PlainNames g) (hv : Dicts v) (hcap : 0 < cap)
    (he : s.heap[ae]? = some (.errors (Errors.new cap))) (k : Nat) (a : Addr) (s' : St)
    (h : callFrom L g P (k + 2) v ref ae s = (.ok (.addr a), s')) (c : Class) (hc : c ∈ g.classes) :
    ∃ o entries, IsRegistry g s'.heap a c o entries ∧
      (∀ id p, entries.lookup id = some p → ∃ b q, p = .addr b ∧ s'.heap[b]? = some (.inst (camelSpec true c.name) q) ∧
        q.lookup c!"id" = some (.str id)) ∧
      ∀ b q, Reach s'.heap (.addr a) (.addr b) → s'.heap[b]? = some (.inst (camelSpec true c.name) q) →
        ∃ id, entries.lookup id = some (.addr b) := by
  have hf := PyCode.facts_of W.named W.resolves W.valid
  have hid : idOf c.name = camelSpec true c.name := id_camel hf (class_name hc)
  rcases C81_returned_partial W N hv hcap he k _ _ h with ⟨ha, _, gv, place, hg, hG⟩ | ⟨ha, _⟩
  · cases ha
    obtain ⟨hA, hI⟩ := graph_closed hg
    obtain ⟨r, hr⟩ := hG.registry hc
    obtain ⟨q, h1, _, h2⟩ := hG.graph
    obtain ⟨d, h3, _, h4⟩ := h2 c hc r hr
    refine ⟨_, _, ⟨q, d, ?_, h3, h4⟩, ?_, ?_⟩
    · rw [h1, id_camel hf graph_name]
    · intro id p hp
      obtain ⟨⟨i, hi, rfl⟩, rfl⟩ := entries_lookup (f := fun id => .addr (place c.name id)) hp
      obtain ⟨_, _, p, h5, h6, _⟩ := hG.insts c hc r hr i hi
      exact ⟨_, p, rfl, by rw [h5, hid], h6⟩
    · intro b q hb hq
      have hk := reach_known hG hA hI hb .graph
      rw [← hid] at hq
      obtain ⟨id, hh, rfl⟩ := known_inst hG (good W N).ids hk hc hq
      obtain ⟨d', _, _, r', hr', i, hi, rfl⟩ := hh
      have hnd : (gv.registries.map (·.1)).Nodup := by
        rw [hG.names]
        exact W.named.classes
      have := lookup_mem hnd hr
      rw [lookup_mem hnd hr'] at this
      cases this
      exact ⟨i.1, lookup_entries (f := fun id => .addr (place c.name id)) ⟨i, hi, rfl⟩⟩
  · cases ha

/-- Whatever can be reached from a graph which is returned is new: it is no object which existed before, and no list and no
dictionary of the input. -/
theorem C82_new_partial (W : Written g py P) (N : PlainNames g) (hv : Dicts v) (hcap : 0 < cap)
    (he : s.heap[ae]? = some (.errors (Errors.new cap))) (k : Nat) (a : Addr) (s' : St)
    (h : callFrom L g P (k + 2) v ref ae s = (.ok (.addr a), s')) (p : PV) (hp : Reach s'.heap (.addr a) p) :
    (∀ b, p = .addr b → s.heap.length ≤ b) ∧ (∀ xs, p ≠ .arr xs) ∧ ∀ o kvs, p ≠ .obj o kvs := by
  rcases C81_returned_partial W N hv hcap he k _ _ h with ⟨ha, _, gv, place, hg, hG⟩ | ⟨ha, _⟩
  · cases ha
    obtain ⟨hA, hI⟩ := graph_closed hg
    obtain ⟨h1, h2, h3⟩ := known_fresh hG (reach_known hG hA hI hp .graph)
    refine ⟨fun b e => ?_, h2, h3⟩
    rcases h1 b e with rfl | h1
    · exact Nat.le_refl _
    · exact Nat.le_of_succ_le h1
  · cases ha

end

end Mapry.Props.PyExec
