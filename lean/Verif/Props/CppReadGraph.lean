import Verif.CppReadGraphRun
import Verif.Props.CppRead
import Verif.Props.CppWrite

/-! # C93: the generated C++ code which parses the graph, run statement by statement -/

namespace Mapry.Props.CppExec

open Mapry.CppRead
open Mapry.CppRuntime (JVal Val Lib DateLib Fields GraphVal newGraph)
open Mapry.CppRuntime.Spec
open Mapry.Naming Mapry.TypeGraph Mapry.LangValidate
open Mapry.Props.Cpp (Accepts LowerNames)

/-- `P` and `body` are the code of the parser. As the C++ compiler demands it, the variables of the function for the graph are
distinct and the structures which are used are defined. -/
structure GraphReaders (g : Graph) (D : DateLib) (P : Program) (body : GStmt) : Prop extends Readers g D P where
  graph : parseGraphCode g D = .ok body
  vars : ∃ vs, g.classes.mapM (fun c => asVariable c.plural) = .ok vs ∧ vs.Nodup
  props : ∀ p ∈ g.properties, Known g p.ty

/-- The graph passed as the target has a map for every class; the keys of a map are in order. -/
structure Allocated (g : Graph) (t : GraphVal) : Prop where
  has : ∀ c ∈ g.classes, (t.registries.lookup c.name).isSome = true
  ordered : ∀ c m, t.registries.lookup c = some m → GoMap.Ascending m

/-- The code ends as the parser: with the same exception or with the same errors, and without an error with the same graph. -/
def FollowsGraph : Except Exc (GraphVal × CppErrors) → Except Exc (GraphVal × CppErrors) → Prop
  | .error ex, R => R = .error ex
  | .ok (t, errors), R => ∃ t', R = .ok (t', errors) ∧ (errors.values = [] → t' = t)

theorem Allocated.typed {g : Graph} {t : GraphVal} (h : Allocated g t) : Typed g t := by
  refine ⟨h.has, fun d => ?_⟩
  unfold CppRuntime.registryIn
  cases hl : t.registries.lookup d with
  | none => exact List.Pairwise.nil
  | some m => exact h.ordered d m hl

theorem new_allocated (g : Graph) : Allocated g (newGraph g) := by
  refine ⟨fun c hc => ?_, fun c m hm => ?_⟩
  · cases hl : (newGraph g).registries.lookup c.name with
    | some m => rfl
    | none =>
      refine absurd ?_ (GoMap.lookup_none.1 hl)
      simp only [newGraph, List.map_map]
      exact List.mem_map.2 ⟨c, hc, rfl⟩
  · obtain ⟨x, _, h⟩ := List.mem_map.1 (GoMap.lookup_mem hm)
    cases h
    exact List.Pairwise.nil

section

variable {g : Graph} {D : DateLib} {P : Program} {body : GStmt} {L : Lib}

/-- **C93 (partial).** The statements of the generated function which parses the graph do what the parser does. -/
theorem C93_graph_partial (h : GraphReaders g D P body) (n : Nat) (j : JVal) (ref : Str) (target : GraphVal) (ht : Allocated g target)
    (errors : CppErrors) (hcap : 0 < errors.cap) :
    FollowsGraph (CppRuntime.parseGraph D L g n j ref target errors) (runGraph L P n body j ref target errors) := by
  obtain ⟨vs, hv, hn⟩ := h.vars
  have hd := graph_done (L := L) (n := n) ⟨h.functions, h.params⟩ h.code ⟨h.classes, h.embeds⟩ h.props h.graph hv hn j ref target ht.typed
    errors hcap
  cases hm : CppRuntime.parseGraph D L g n j ref target errors with
  | error x => rw [hm] at hd; exact hd
  | ok q =>
    obtain ⟨t, e'⟩ := q
    rw [hm] at hd
    obtain ⟨t', h1, h2, h3⟩ := hd
    exact ⟨t', h1, fun h4 => h3 (empty_eq h2 (List.isEmpty_iff.2 h4))⟩

/-- The code returns a graph without an error exactly if the parser does. -/
theorem C93_accepts_iff (h : GraphReaders g D P body) (n : Nat) (j : JVal) (ref : Str) (target : GraphVal) (ht : Allocated g target)
    (cap : Nat) (hcap : 0 < cap) (t : GraphVal) :
    (∃ e, runGraph L P n body j ref target (.new cap) = .ok (t, e) ∧ e.values = []) ↔ Accepts D L g n j ref target cap t := by
  have hd := C93_graph_partial (L := L) h n j ref target ht (.new cap) hcap
  unfold Accepts
  cases hm : CppRuntime.parseGraph D L g n j ref target (.new cap) with
  | error x =>
    rw [hm] at hd
    have hd : runGraph L P n body j ref target (.new cap) = .error x := hd
    rw [hd]
  | ok q =>
    obtain ⟨t1, e1⟩ := q
    rw [hm] at hd
    obtain ⟨t2, h1, h2⟩ := hd
    rw [h1]
    constructor
    · rintro ⟨e, he, hv⟩
      cases he
      exact ⟨_, by rw [h2 hv], hv⟩
    · rintro ⟨e, he, hv⟩
      cases he
      exact ⟨_, by rw [h2 hv], hv⟩

/-- C52 for the code which is run: no error is reported exactly if the input conforms to the schema. -/
theorem C93_conforms_partial (h : GraphReaders g D P body) (n : Nat) (ref : Str) (cap : Nat) (j : JVal)
    (hg : validateSchema cpp g = .ok []) (hl : LowerNames g) (hs : SoundGraph g) (hG : NoGarbage L) (hcap : 0 < cap) (hj : Canon j)
    (t : GraphVal) :
    (∃ e, runGraph L P n body j ref (newGraph g) (.new cap) = .ok (t, e) ∧ e.values = []) ↔ ReadsGraph D L (Loose D L) g n j t :=
  (C93_accepts_iff h n j ref _ (new_allocated g) cap hcap t).trans (Cpp.C52_accepts_partial D L g n ref cap j hg hl hs hG hcap hj t)

/-- C54 for the code which is run: the code of the parser reads what the code of the serializer writes. -/
theorem C93_round_trip_partial (h : GraphReaders g D P body) {settings : ParseSchema.Cpp} {Q : CppLang.Program} {heap : List CppLang.Val}
    {x : CppLang.Val} {t : GraphVal} (E : Emitted g settings D Q) (hh : Mapry.CppExec.HoldsGraph D g heap x t) {d cap : Nat} {ref : Str}
    (hg : validateSchema cpp g = .ok []) (hl : LowerNames g) (hs : SoundGraph g) (hG : NoGarbage L) (hJ : JsonKeys g)
    (hv : ValidGraph g D L d t) (hf : FaithfulGraph g D L d t) (hcap : 0 < cap) {n : Nat} (hn : d + 2 ≤ n) :
    ∃ j, callTo L heap g Q n x = .ok j ∧
      ∃ e, runGraph L P d body j ref (newGraph g) (.new cap) = .ok (t, e) ∧ e.values = [] := by
  obtain ⟨j, h1, _, h3⟩ := C54_code_partial (ref := ref) hg hl hs hG hJ E hh hv hf hcap hn
  exact ⟨j, h1, (C93_accepts_iff h d j ref _ (new_allocated g) cap hcap t).2 h3⟩

/-- A container which is not empty is the caller's mistake. -/
theorem C93_nonempty (h : GraphReaders g D P body) (n : Nat) (j : JVal) (ref : Str) (target : GraphVal) (errors : CppErrors)
    (he : errors.values ≠ []) : runGraph L P n body j ref target errors = .error (.valueError c!"Unexpected non-empty errors") := by
  have hb := h.graph
  rw [parseGraphCode] at hb
  cases h1 : parseProps ⟨g, D, memberOfGraph g⟩ g.properties 0 with
  | error a => rw [h1] at hb; cases hb
  | ok props =>
    cases h2 : allInstances g g.classes with
    | error a => simp only [h1, h2, bind, Except.bind] at hb; cases hb
    | ok instances =>
      simp only [h1, h2, bind, Except.bind] at hb
      cases h3 : preallocsCode g.classes (.seq (if g.classes.isEmpty = true then .skip else .ifErrors .ret)
          (.seq instances (.code (g.classes.map (·.name)) props))) with
      | error a => rw [h3] at hb; cases hb
      | ok code =>
        rw [h3] at hb
        cases hb
        have : errors.empty = false := by
          unfold CppErrors.empty
          cases hv : errors.values with
          | nil => exact absurd hv he
          | cons _ _ => rfl
        simp [runGraph, gexec, this, bind, Except.bind]

end

/-- The full claim: for all containers, and the graph is the same even if errors are reported. -/
def C93Full : Prop := ∀ (g : Graph) (D : DateLib) (P : Program) (body : GStmt) (L : Lib), GraphReaders g D P body →
  ∀ (n : Nat) (j : JVal) (ref : Str) (target : GraphVal) (errors : CppErrors), Allocated g target →
    runGraph L P n body j ref target errors = CppRuntime.parseGraph D L g n j ref target errors

/-! ### The examples -/

namespace ReadDemo

open Mapry.CppRuntime.Demo (lib schema)

/-- The function which parses the graph -/
def body : GStmt := ((parseGraphCode schema .ctime).toOption).getD .skip

theorem body_generated : parseGraphCode schema .ctime = .ok body := by
  cases h : parseGraphCode schema .ctime with
  | ok P => simp [body, h, Except.toOption]
  | error e =>
    have : (parseGraphCode schema .ctime).toBool = true := by decide +kernel
    rw [h] at this
    cases this

theorem graph_readers : GraphReaders schema .ctime code body where
  toReaders := readers
  graph := body_generated
  vars := ⟨[c!"persons"], by decide +kernel, by decide⟩
  props := by
    intro p hp
    simp only [schema, PyRuntime.Demo.schema, List.mem_cons, List.not_mem_nil, or_false] at hp
    rcases hp with rfl | rfl | rfl
    · exact (rfl : (schema.embed? c!"Address").isSome = true)
    · trivial
    · trivial

def boxBody : GStmt := ((parseGraphCode boxes .dateH).toOption).getD .skip

theorem box_body_generated : parseGraphCode boxes .dateH = .ok boxBody := by
  cases h : parseGraphCode boxes .dateH with
  | ok P => simp [boxBody, h, Except.toOption]
  | error e =>
    have : (parseGraphCode boxes .dateH).toBool = true := by decide +kernel
    rw [h] at this
    cases this

theorem box_graph_readers : GraphReaders boxes .dateH boxCode boxBody where
  toReaders := box_readers
  graph := box_body_generated
  vars := ⟨[c!"boxes"], by decide +kernel, by decide⟩
  props := nofun

/-- The first field of the first box -/
def counts (t : GraphVal) : Val :=
  match (CppRuntime.registryIn t.registries c!"Box").lookup c!"b1" with
  | some b => (b.fields.lookup c!"counts").getD .zero
  | none => .zero

end ReadDemo

/-- The full claim does not hold: if an entry of a map in an instance is not valid, the code leaves it out, but the parser of the model
adds it. -/
theorem C93_violated_target : ¬ C93Full := by
  intro h
  have h1 := h ReadDemo.boxes .dateH ReadDemo.boxCode ReadDemo.boxBody CppRuntime.Demo.lib ReadDemo.box_graph_readers 3
    (.obj [(c!"boxes", .obj [(c!"b1", .obj [(c!"counts", .obj [(c!"a", .null)])])])]) [] (newGraph ReadDemo.boxes) (.new 5)
    (new_allocated _)
  have h2 := congrArg (fun r => r.map fun x => CppRuntime.Demo.Val.same (ReadDemo.counts x.1) (.map [])) h1
  exact absurd h2 (by decide +kernel)

/-- The code reads the graph of the examples. -/
example : ∃ e, runGraph CppRuntime.Demo.lib ReadDemo.code 3 ReadDemo.body CppRuntime.Demo.input c!"#" (newGraph CppRuntime.Demo.schema)
    (.new 5) = .ok (CppRuntime.Demo.value, e) ∧ e.values = [] :=
  (C93_accepts_iff ReadDemo.graph_readers 3 _ _ _ (new_allocated _) 5 (by decide) _).2 ⟨_, Cpp.Example.demo_parsed, rfl⟩

/-- The errors of two instances and of a property -/
example : ((runGraph CppRuntime.Demo.lib ReadDemo.code 3 ReadDemo.body CppRuntime.Demo.wrong c!"#" (newGraph CppRuntime.Demo.schema)
    (.new 5)).map fun r => r.2.values.map fun e => e.ref) = .ok
    [c!"#/persons/p1/age", c!"#/persons/p2/name", c!"#/homes"] := by decide +kernel

/-- A registry which is not an object ends the parsing. -/
example : ((runGraph CppRuntime.Demo.lib ReadDemo.boxCode 3 ReadDemo.boxBody (.obj [(c!"boxes", .arr [])]) c!"#"
    (newGraph ReadDemo.boxes) (.new 5)).map fun r => r.2.values.map fun e => e.ref) = .ok [c!"#/boxes"] := by decide +kernel

/-- The graph in the memory is written by the code and read back by the code. -/
example : ∃ Q j e, Emitted CppRuntime.Demo.schema (Demo.settings false) .ctime Q ∧
    callTo CppRuntime.Demo.lib Demo.heap CppRuntime.Demo.schema Q 5 (Demo.town c!"p1") = .ok j ∧
    runGraph CppRuntime.Demo.lib ReadDemo.code 3 ReadDemo.body j c!"#" (newGraph CppRuntime.Demo.schema) (.new 5) =
      .ok (CppRuntime.Demo.value, e) ∧ e.values = [] := by
  obtain ⟨Q, E⟩ := Demo.code
  obtain ⟨j, h1, e, h2, h3⟩ := C93_round_trip_partial (L := CppRuntime.Demo.lib) (ref := c!"#") (cap := 5) ReadDemo.graph_readers E
    (Demo.holds c!"p1") Cpp.Example.schema_valid Cpp.Example.schema_lower Cpp.Example.schema_sound CppRuntime.Demo.lib_garbage
    Cpp.Example.schema_keys Cpp.Example.demo_valid Cpp.Example.demo_faithful (by decide) (Nat.le_refl 5)
  exact ⟨Q, j, e, E, h1, h2, h3⟩

end Mapry.Props.CppExec
