import Verif.GoGenTotal
import Verif.GoOutcome
import Verif.Props.GoNames
import Verif.Props.GoParse

/-! # C85: the generated Go code of the serializer, run statement by statement -/

namespace Mapry.Props.GoExec

open Mapry.GoLang Mapry.GoExec Mapry.Naming Mapry.LangValidate Mapry.ParseSchema
open Mapry.GoRuntime (JVal Lib GraphVal serGraph parseGraph newGraph wire Instance idMessage)
open Mapry.GoRuntime.Spec (ExactGraph JsonKeys ValidGraph FaithfulGraph)
open Mapry.PyRuntime (Json)
open Mapry.Props.Go (Generated)
open Mapry.Props.GoExample (schema_valid schema_exact input_canon)

/-- `P` is the code of the serializer of the generated Go package, and no two of its functions have the same name. This is the
case whenever the package is generated from a schema and no two of its declarations have the same name (`emitted`). -/
structure Emitted (g : Graph) (P : Program) : Prop where
  code : GoGen.writer g = .ok P
  camel : ∃ name, ucamelCase g.name = .ok name
  apart : (P.funcs.map (·.name)).Nodup

/-- C60 for the code which is run: the code of the serializer is generated whenever the package is. -/
theorem C60_code (V : Validation.Lib) (mapping : Json) (ref : Str) (s : Schema) (fs : List GoCode.File)
    (h : Generated V mapping ref s fs) : ∃ P, GoGen.writer s.graph = .ok P :=
  GoGen.writer_gen (GoCode.parsed_facts h.parsed).2 (GoCode.package_needs ⟨fs, h.files⟩)

/-- The names of the functions are distinct if the names of all the declarations are. -/
theorem emitted {V : Validation.Lib} {mapping : Json} {ref : Str} {s : Schema} {fs : List GoCode.File} {P : Program}
    (h : Generated V mapping ref s fs) (hd : ((GoCode.declared fs).map GoCode.Name.text).Nodup)
    (hP : GoGen.writer s.graph = .ok P) : Emitted s.graph P :=
  ⟨hP, (GoCode.package_needs ⟨fs, h.files⟩).graph,
    GoGen.writer_nodup hP ((Go.C59_declared_partial _ _ _ _ _ h).1 hd).nodup⟩

/-- The call `<Graph>ToJSONable(instance)` with a stack of `n` frames -/
def callTo (O : Order) (L : Lib) (g : Graph) (P : Program) (n : Nat) (i : Val) (σ : St) : Except Exc (List Val × St) :=
  run O L P n (camelSpec true g.name ++ c!"ToJSONable") [i] σ

section

variable {O : Order} {L : Lib} {g : Graph} {P : Program} {σ : St} {a : Addr} {x : Val} {gv : GraphVal}

theorem call_camel (E : Emitted g P) : ucamelCase g.name = .ok (camelSpec true g.name) := by
  obtain ⟨name, h⟩ := E.camel
  rw [h, ((C01_ucamel_case_ok_iff _ _).1 h).2]

/-! ## The code does what the serializer does -/

/-- **C85.** The serializer with `k` frames says what the generated code does with at least two frames more: it
returns the same JSONable and no error, or `nil` and the same error, or it panics in the same way. -/
theorem C85_code (E : Emitted g P) (ha : σ.read a = some x) (hh : HoldsGraph g σ x gv) {k n : Nat} (hn : k + 2 ≤ n) :
    Written σ (serGraph O L g k gv σ.ranges) (callTo O L g P n (.ptr a) σ) := by
  obtain ⟨m, rfl⟩ : ∃ m, n = m + 2 := ⟨n - 2, by omega⟩
  exact graph_ok E.code E.apart (call_camel E) (by omega) ha hh

/-- A call without a graph -/
theorem C85_nil (E : Emitted g P) (n : Nat) :
    callTo O L g P (n + 1) .nil σ = .error (.panic c!"unexpected nil instance") :=
  graph_nil E.code E.apart (call_camel E) n

/-! ## What the caller sees -/

/-- What a call returns for a graph in the memory `σ`: a JSONable without an error, if all the instances are registered under
their identifiers and no reference is `nil`; `nil` and the error about an instance which is registered under another
identifier; or a panic because a reference is `nil`. Everything in the JSONable is new, and nothing in the memory of the caller
is changed. -/
def Outcome (L : Lib) (g : Graph) (gv : GraphVal) (σ : St) : Except Exc (List Val × St) → Prop
  | .ok ([w, e], σ') => (∀ l, l < σ.heap.length → σ'.heap[l]? = σ.heap[l]?) ∧ σ'.errors = σ.errors ∧
      ((e.isNil = true ∧ (∃ j, Jsonable σ'.heap σ.heap.length j w) ∧ (∀ m, ¬ Wrong L g gv m) ∧ ¬ NilInGraph g gv) ∨
        ∃ m, w = .nil ∧ e = .error m ∧ Wrong L g gv m)
  | .error (.panic _) => NilInGraph g gv
  | _ => False

/-- The outcome is as described for every stack which is large enough. In particular the call ends. -/
theorem C85_outcome (hO : O.Proper) (E : Emitted g P) (ha : σ.read a = some x) (hh : HoldsGraph g σ x gv) :
    ∃ k, ∀ n, k ≤ n → Outcome L g gv σ (callTo O L g P n (.ptr a) σ) := by
  refine ⟨sizeOf gv + 2, fun n hn => ?_⟩
  have h1 := C85_code (O := O) (L := L) E ha hh hn
  have h2 := ends_graph (L := L) hO hh (Nat.le_refl _) σ.ranges
  generalize serGraph O L g (sizeOf gv) gv σ.ranges = r at h1 h2
  cases r with
  | ok jr =>
    obtain ⟨w, e, σ', h, he, hg, hj, _, hs⟩ := h1
    rw [h]
    exact ⟨fun l hl => hg.same l hl id, hs, .inl ⟨he, ⟨_, hj⟩, h2⟩⟩
  | error e =>
    cases e <;> first | exact (h2 : False).elim | skip
    case valueError m =>
      obtain ⟨σ', h, hg, hs⟩ := h1
      rw [h]
      exact ⟨fun l hl => hg.same l hl id, hs, .inr ⟨m, rfl, rfl, h2⟩⟩
    case panic m =>
      rcases h1 with h | ⟨_, h⟩
      · cases h
      · rw [h]
        exact h2

/-- Hence the order in which the maps are visited does not decide whether the graph is written. -/
theorem C85_written_iff (hO : O.Proper) (E : Emitted g P) (ha : σ.read a = some x) (hh : HoldsGraph g σ x gv) :
    ∃ k, ∀ n, k ≤ n → ((∃ w e σ', callTo O L g P n (.ptr a) σ = .ok ([w, e], σ') ∧ e.isNil = true) ↔
      (∀ c ∈ g.classes, ∀ i ∈ gv.registry c.name, i.1 = i.2.id) ∧ ¬ NilInGraph g gv) := by
  obtain ⟨k, hk⟩ := C85_outcome (L := L) hO E ha hh
  have hw : (∀ m, ¬ Wrong L g gv m) ↔ ∀ c ∈ g.classes, ∀ i ∈ gv.registry c.name, i.1 = i.2.id := by
    constructor
    · intro h c hc i hi
      refine Decidable.byContradiction fun hne => h _ ⟨c, hc, i, hi, hne, rfl⟩
    · rintro h m ⟨c, hc, i, hi, hne, _⟩
      exact hne (h c hc i hi)
  refine ⟨k, fun n hn => ?_⟩
  have h := hk n hn
  rw [← hw]
  constructor
  · rintro ⟨w, e, σ', hr, he⟩
    rw [hr] at h
    rcases h.2.2 with h | ⟨m, _, rfl, _⟩
    · exact h.2.2
    · cases he
  · rintro ⟨h1, h2⟩
    generalize callTo O L g P n (.ptr a) σ = R at h
    unfold Outcome at h
    split at h
    · rename_i w e σ'
      rcases h.2.2 with h | ⟨m, _, _, hm⟩
      · exact ⟨w, e, σ', rfl, h.1⟩
      · exact absurd hm (h1 m)
    · exact absurd h h2
    · exact h.elim

/-- The memory holds at most one JSONable at a value. -/
theorem jsonable_unique {h : List Val} {lo : Nat} {j : JVal} {w : Val} (hj : Jsonable h lo j w) :
    ∀ {lo' : Nat} {j' : JVal}, Jsonable h lo' j' w → j = j' := by
  induction hj with
  | arr hl hc hlen _ ih =>
    intro lo' j' h'
    cases h' with
    | arr _ hc' hlen' hi' =>
      rw [hc] at hc'
      cases hc'
      congr 1
      refine List.ext_getElem (hlen.trans hlen'.symm) fun i h1 h2 => ?_
      exact ih i _ _ (List.getElem?_eq_getElem h1) (List.getElem?_eq_getElem (hlen ▸ h1))
        (hi' i _ _ (List.getElem?_eq_getElem h2) (List.getElem?_eq_getElem (hlen ▸ h1)))
  | obj hl hc hk _ ih =>
    intro lo' j' h'
    cases h' with
    | obj _ hc' hk' hi' =>
      rw [hc] at hc'
      cases hc'
      congr 1
      have hkk := hk.trans hk'.symm
      have hlen := congrArg List.length hk
      have hlen' := congrArg List.length hk'
      simp only [List.length_map] at hlen hlen'
      refine List.ext_getElem (by omega) fun i h1 h2 => ?_
      refine Prod.ext ?_ ?_
      · have h3 := congrArg (·[i]?) hkk
        simp only [List.getElem?_map, List.getElem?_eq_getElem h1, List.getElem?_eq_getElem h2] at h3
        simpa using h3
      · exact ih i _ _ (List.getElem?_eq_getElem h1) (List.getElem?_eq_getElem (hlen ▸ h1))
          (hi' i _ _ (List.getElem?_eq_getElem h2) (List.getElem?_eq_getElem (hlen ▸ h1)))
  | _ =>
    intro lo' j' h'
    cases h'
    rfl

/-- C42 for the code which is run: a graph which satisfies the schema is written without an error, and the parser reads the JSON text of the result as the same
graph. -/
theorem C42_code_partial {O' : Order} {d cap : Nat} {ref : Str} (hO : O.Proper) (hO' : O'.Proper)
    (hL : ∀ t, L.formatTime t [] = []) (hg : goValidateSchema g = .ok []) (hx : ExactGraph g) (hk : JsonKeys g)
    (E : Emitted g P) (ha : σ.read a = some x) (hh : HoldsGraph g σ x gv) (hv : ValidGraph L g d gv)
    (hf : FaithfulGraph L g d gv) {n : Nat} (hn : d + 2 ≤ n) :
    ∃ w e σ' j t st, callTo O L g P n (.ptr a) σ = .ok ([w, e], σ') ∧ e.isNil = true ∧
      Jsonable σ'.heap σ.heap.length j w ∧ wire j = some t ∧
      parseGraph O' L g d t ref (newGraph g) (Props.start cap) = .ok (gv, st) ∧ st.errors.values = [] := by
  obtain ⟨j, r', t, st, h1, h2, h3, h4⟩ :=
    C42_round_trip_faithful_partial O L g d ref cap O' hO hO' hL hg hx hk gv hv hf σ.ranges
  have h := C85_code (O := O) (L := L) E ha hh hn
  rw [h1] at h
  obtain ⟨w, e, σ', h5, h6, _, h7, _⟩ := h
  exact ⟨w, e, σ', j, t, st, h5, h6, h7, h2, h3, h4⟩

end

/-! ## Examples -/

namespace Demo

open Mapry.GoRuntime.Demo (lib order order_proper schema value)

/-- A memory with a graph: the number of the first house and the birthday are pointed to, and the first person, which is
registered under the identifier `k`, refers to the second one. -/
def memory (k : Str) : St where
  heap := [
    .struct [(c!"Homes", .slice 1), (c!"Weights", .map 3), (c!"Persons", .map 4)],
    .array [.struct [(c!"Street", .str c!"Main"), (c!"Number", .ptr ⟨2, []⟩)], .struct [(c!"Street", .str c!"Side")]],
    .int (-3),
    .table [(c!"x", .float (.fin 2)), (c!"y", .float (.fin 7))],
    .table [(k, .ptr ⟨5, []⟩), (c!"p2", .ptr ⟨6, []⟩)],
    .struct [(c!"ID", .str c!"p1"), (c!"FullName", .str c!"Al"), (c!"Age", .int 33), (c!"BestFriend", .ptr ⟨6, []⟩)],
    .struct [(c!"ID", .str c!"p2"), (c!"FullName", .str c!"Ada"), (c!"Age", .int 1), (c!"Born", .ptr ⟨7, []⟩)],
    .time { year := 2020, month := 1, day := 2 }]
  errors := GoErrors.new 0
  ranges := 0

/-- The graph -/
def graph (k : Str) : GraphVal where
  registries := [(c!"Person", [
    (k, ⟨c!"p1", [(c!"FullName", .str c!"Al"), (c!"Age", .int 33), (c!"Born", .nil), (c!"BestFriend", .ref c!"Person" c!"p2")]⟩),
    (c!"p2", ⟨c!"p2", [(c!"FullName", .str c!"Ada"), (c!"Age", .int 1),
      (c!"Born", .time { year := 2020, month := 1, day := 2 }), (c!"BestFriend", .nil)]⟩)])]
  fields := value.fields

theorem holds_address {k : Str} {x : Val} {fs : List (Str × GV)} {i : GV} {s : Str} {w : Val} (h1 : fieldOf c!"Street" x = some (.str s))
    (h2 : fieldOf c!"Number" x = some w) (h3 : fs = [(c!"Street", .str s), (c!"Number", i)])
    (h4 : HoldsProp schema (memory k) { name := c!"number", ty := .integer {}, json := c!"no", optional := true } w i) :
    Holds schema (memory k) (.embed c!"Address") x (.obj c!"Address" fs) := by
  subst h3
  refine .embed (e := schema.embeds.head (by decide)) (fun p => if p.name = c!"street" then .str s else i)
    (fun p => if p.name = c!"street" then .str s else w) rfl ?_ ?_ ?_ <;> intro p hp <;>
    simp only [schema, PyRuntime.Demo.schema, List.head_cons, List.mem_cons, List.not_mem_nil, or_false] at hp <;>
    rcases hp with rfl | rfl
  · rfl
  · rfl
  · exact h1
  · exact h2
  · exact .direct (.inl rfl) (.string _ _)
  · exact h4

theorem holds {k : Str} (hk : k ≠ c!"p2") :
    HoldsGraph schema (memory k) (.struct [(c!"Homes", .slice 1), (c!"Weights", .map 3), (c!"Persons", .map 4)]) (graph k) := by
  refine ⟨?_, ?_⟩
  · intro p hp
    simp only [schema, PyRuntime.Demo.schema, List.mem_cons, List.not_mem_nil, or_false] at hp
    rcases hp with rfl | rfl | rfl
    · refine ⟨.slice 1, _, rfl, rfl, .direct (.inl rfl) (.array rfl rfl ?_)⟩
      intro i x y hx hy
      rcases i with _ | _ | i
      · cases hx
        cases hy
        exact holds_address rfl rfl rfl (.some rfl rfl rfl (.integer _ _))
      · cases hx
        cases hy
        exact holds_address rfl rfl rfl (.none rfl rfl rfl)
      · cases hx
    · refine ⟨.map 3, _, rfl, rfl, .direct (.inr rfl) (.map rfl rfl ?_)⟩
      intro i x y hx hy
      rcases i with _ | _ | i
      · cases hx
        cases hy
        exact .float _ _
      · cases hx
        cases hy
        exact .float _ _
      · cases hx
    · exact ⟨.zero, _, rfl, rfl, .none rfl rfl rfl⟩
  · intro c hc
    simp only [schema, PyRuntime.Demo.schema, List.mem_cons, List.not_mem_nil, or_false] at hc
    subst hc
    refine ⟨.map 4, rfl, .map rfl (by simpa using hk) (.cons ⟨rfl, ⟨5, []⟩, _, rfl, rfl, rfl, ?_⟩
      (.cons ⟨rfl, ⟨6, []⟩, _, rfl, rfl, rfl, ?_⟩ .nil))⟩
    · intro p hp
      simp only [List.mem_cons, List.not_mem_nil, or_false] at hp
      rcases hp with rfl | rfl | rfl | rfl
      · exact ⟨_, _, rfl, rfl, .direct (.inl rfl) (.string _ _)⟩
      · exact ⟨_, _, rfl, rfl, .direct (.inl rfl) (.integer _ _)⟩
      · exact ⟨_, _, rfl, rfl, .none rfl rfl rfl⟩
      · exact ⟨_, _, rfl, rfl, .direct (.inr rfl) (.cls rfl)⟩
    · intro p hp
      simp only [List.mem_cons, List.not_mem_nil, or_false] at hp
      rcases hp with rfl | rfl | rfl | rfl
      · exact ⟨_, _, rfl, rfl, .direct (.inl rfl) (.string _ _)⟩
      · exact ⟨_, _, rfl, rfl, .direct (.inl rfl) (.integer _ _)⟩
      · exact ⟨_, _, rfl, rfl, .some rfl rfl rfl (.date _ _)⟩
      · exact ⟨_, _, rfl, rfl, .direct (.inr rfl) (.clsNil rfl)⟩

theorem code : ∃ P, Emitted schema P := by
  obtain ⟨P, h⟩ := Go.Demo.of_isOk (x := GoGen.writer schema) (by decide +kernel)
  exact ⟨P, h, ⟨_, rfl⟩, GoGen.writer_nodup h (by decide +kernel)⟩

end Demo

/-- The code for the schema of the examples -/
example : ∃ P, Emitted SchemaDemo.schema.graph P := by
  obtain ⟨fs, h⟩ := Go.Demo.generated
  obtain ⟨P, hP⟩ := C60_code _ _ _ _ _ h
  exact ⟨P, emitted h ((Go.C59_declared_partial _ _ _ _ _ h).2 ⟨by decide +kernel, by decide +kernel, by decide +kernel⟩) hP⟩

/-- The graph in the memory is written and read back. -/
example : ∃ P w e σ' j t st, Emitted GoRuntime.Demo.schema P ∧
    callTo GoRuntime.Demo.order GoRuntime.Demo.lib GoRuntime.Demo.schema P 5 (.ptr ⟨0, []⟩)
      (Demo.memory c!"p1") = .ok ([w, e], σ') ∧
    e.isNil = true ∧ Jsonable σ'.heap 8 j w ∧ wire j = some t ∧
    parseGraph GoRuntime.Demo.order GoRuntime.Demo.lib GoRuntime.Demo.schema 3 t c!"#" (newGraph GoRuntime.Demo.schema)
      (Props.start 0) = .ok (GoRuntime.Demo.value, st) ∧ st.errors.values = [] := by
  obtain ⟨P, E⟩ := Demo.code
  have hv := C41_valid_partial GoRuntime.Demo.order GoRuntime.Demo.lib GoRuntime.Demo.schema 3 GoRuntime.Demo.input c!"#"
    GoRuntime.Demo.order_proper schema_valid schema_exact input_canon 0 GoRuntime.Demo.value _ demo_parsed rfl
  obtain ⟨w, e, σ', j, t, st, h⟩ := C42_code_partial (L := GoRuntime.Demo.lib) (ref := c!"#") (cap := 0)
    GoRuntime.Demo.order_proper GoRuntime.Demo.order_proper demo_reliable.empty schema_valid schema_exact demo_keys E
    (show (Demo.memory c!"p1").read ⟨0, []⟩ = some _ from rfl) (Demo.holds (by decide)) hv
    (GoRuntime.faithful_graph demo_reliable (go_distinct_of_valid schema_valid) hv demo_plain) (Nat.le_refl 5)
  exact ⟨P, w, e, σ', j, t, st, E, h⟩

/-- The error about a person who is registered under another identifier -/
example : ∃ P k, Emitted GoRuntime.Demo.schema P ∧ ∀ n, k ≤ n → ∃ e σ',
    callTo GoRuntime.Demo.order GoRuntime.Demo.lib GoRuntime.Demo.schema P n (.ptr ⟨0, []⟩) (Demo.memory c!"p9") =
      .ok ([.nil, .error e], σ') := by
  obtain ⟨P, E⟩ := Demo.code
  have ha : (Demo.memory c!"p9").read ⟨0, []⟩ = some _ := rfl
  have hh := Demo.holds (k := c!"p9") (by decide)
  obtain ⟨k, hk⟩ := C85_outcome (L := GoRuntime.Demo.lib) GoRuntime.Demo.order_proper E ha hh
  have hw : Wrong GoRuntime.Demo.lib GoRuntime.Demo.schema (Demo.graph c!"p9") _ :=
    ⟨_, List.mem_cons_self .., _, List.mem_cons_self .., by decide, rfl⟩
  have hn : ¬ NilInGraph GoRuntime.Demo.schema (Demo.graph c!"p9") := by
    have h1 := ends_graph (L := GoRuntime.Demo.lib) GoRuntime.Demo.order_proper (Demo.holds (k := c!"p1") (by decide))
      (Nat.le_add_right _ 3) 0
    have h2 : ∀ n, 3 ≤ n → ∃ r, serGraph GoRuntime.Demo.order GoRuntime.Demo.lib GoRuntime.Demo.schema n (Demo.graph c!"p1") 0 =
        .ok r := by
      intro n hn
      obtain ⟨m, rfl⟩ : ∃ m, n = m + 1 := ⟨n - 1, by omega⟩
      exact ⟨_, rfl⟩
    obtain ⟨r, hr⟩ := h2 (sizeOf (Demo.graph c!"p1") + 3) (by omega)
    rw [hr] at h1
    refine fun h => h1.2 (h.imp id ?_)
    rintro ⟨c, hc, e, he, h⟩
    cases List.mem_singleton.1 hc
    rcases List.mem_cons.1 he with rfl | he
    · exact ⟨_, hc, _, List.mem_cons_self .., h⟩
    · exact ⟨_, hc, e, List.mem_cons_of_mem _ he, h⟩
  refine ⟨P, k, E, fun n hn' => ?_⟩
  have h := hk n hn'
  generalize callTo GoRuntime.Demo.order GoRuntime.Demo.lib GoRuntime.Demo.schema P n (.ptr ⟨0, []⟩) (Demo.memory c!"p9") = R at h
  unfold Outcome at h
  split at h
  · rename_i w e σ'
    rcases h.2.2 with h | ⟨m, rfl, rfl, _⟩
    · exact absurd hw (h.2.2.1 _)
    · exact ⟨m, σ', rfl⟩
  · exact absurd h hn
  · exact h.elim

/-- No graph -/
example : ∃ P, Emitted GoRuntime.Demo.schema P ∧
    callTo GoRuntime.Demo.order GoRuntime.Demo.lib GoRuntime.Demo.schema P 3 .nil (Demo.memory []) =
      .error (.panic c!"unexpected nil instance") := by
  obtain ⟨P, E⟩ := Demo.code
  exact ⟨P, E, C85_nil E 2⟩

end Mapry.Props.GoExec
