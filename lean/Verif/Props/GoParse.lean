import Verif.GoDemo
import Verif.GoPlain
import Verif.Props.PySer
import Verif.Props.Schema

/-! # C41, C42: what the generated Go parser accepts and returns, and the round trip -/

namespace Mapry.Props

open Mapry.Duration Mapry.GoRuntime Mapry.GoRuntime.Spec Mapry.LangValidate

/-! ## Schemas which pass the validation for Go -/

theorem goName_eq {s n : Str} (h : Naming.ucamelCase s = .ok n) : n = goName s := by
  unfold goName
  rw [h]

/-- The validation for Go guarantees distinct fields and class names. -/
theorem go_distinct_of_valid {g : Graph} (h : goValidateSchema g = .ok []) : Distinct g := by
  obtain ⟨⟨_, ⟨ids, hids, hnd, _⟩, hfields, ⟨ns, rs, hns, _, hgn, _⟩⟩, _⟩ := (C25_valid_iff_partial g).1 h
  have key : ∀ ps ns, Forall₂ (FieldName ⟨goSpecKeywords, Naming.ucamelCase, Naming.ucamelCase, c!"ID"⟩) ps ns →
      ns.Nodup → (ps.map fun p : Property => goName p.name).Nodup := by
    intro ps ns h hn
    rwa [← nodup_of_forall₂ (fun p n hp => goName_eq hp) h]
  refine ⟨key _ _ hns (List.nodup_append.1 hgn).1, ?_, ?_, ?_⟩
  · intro c hc
    obtain ⟨ns, h1, h2, _⟩ := hfields ⟨.cls, c.name, c.ref, c.properties⟩ (by
      unfold definitions
      exact List.mem_append_left _ (List.mem_map.2 ⟨c, hc, rfl⟩))
    exact key _ _ h1 h2
  · intro e he
    obtain ⟨ns, h1, h2, _⟩ := hfields ⟨.embed, e.name, e.ref, e.properties⟩ (by
      unfold definitions
      exact List.mem_append_right _ (List.mem_map.2 ⟨e, he, rfl⟩))
    exact key _ _ h1 h2
  · have := nodup_names (name := fun c : Comp => c.name) (fun x y n m hx hy hxy => by
      unfold CompId at hx hy
      rw [hxy, hy] at hx
      exact (Except.ok.inj hx).symm) hids hnd
    unfold definitions at this
    rw [List.map_append, List.map_map] at this
    exact (List.nodup_append.1 this).1

/-- An empty container and no `range` statement executed yet -/
def start (cap : Nat) : St := ⟨GoErrors.new cap, 0⟩

/-! ## C41 -/

/-- The full property: parsing into a new graph with an empty container returns, and if no error is
recorded, the graph satisfies the schema. The stack is large enough for the input. -/
def C41Full : Prop := ∀ (O : Order) (L : Lib) (g : Graph) (n : Nat) (v : JVal) (ref : Str) (cap : Nat),
  O.Proper → goValidateSchema g = .ok [] → DefinedGraph g → Canon v → DepthLe n v →
  ∃ gv st, parseGraph O L g n v ref (newGraph g) (start cap) = .ok (gv, st) ∧
    (st.errors.values = [] → ValidGraph L g n gv)

section

variable (O : Order) (L : Lib) (g : Graph) (n : Nat) (v : JVal) (ref : Str)

/-- **C41 (partial), termination.** With a container for a single error, the parser returns for every
input, and at most this error is recorded. -/
theorem C41_no_panic_partial (hO : O.Proper) (hg : goValidateSchema g = .ok []) (hd : DefinedGraph g)
    (hv : Canon v) (hn : DepthLe n v) (target : GraphVal) :
    ∃ gv st, parseGraph O L g n v ref target (start 1) = .ok (gv, st) ∧ st.errors.values.length ≤ 1 := by
  obtain ⟨gv, st, h, h1⟩ := (graph_total hO (go_distinct_of_valid hg).names hd n v hv hn ref target (start 1) rfl).2 rfl
  exact ⟨gv, st, h, h1.2⟩

/-- Whatever the container, the only panic is the one of a generated function which is called after an
error has been recorded. -/
theorem C41_only_panic (hO : O.Proper) (hg : goValidateSchema g = .ok []) (hd : DefinedGraph g)
    (hv : Canon v) (hn : DepthLe n v) (target : GraphVal) (cap : Nat) (x : Exc)
    (h : parseGraph O L g n v ref target (start cap) = .error x) :
    x = .panic c!"unexpected non-empty errors" :=
  (graph_total hO (go_distinct_of_valid hg).names hd n v hv hn ref target (start cap) rfl).1 x h

/-- An input which conforms to the schema is parsed without a panic whatever the container and however
the maps are visited. -/
theorem C41_conforming (hO : O.Proper) (hg : goValidateSchema g = .ok []) (hx : ExactGraph g) (hv : Canon v)
    (cap : Nat) (gv : GraphVal) (h : ReadsGraph L g n v gv) :
    ∃ st, parseGraph O L g n v ref (newGraph g) (start cap) = .ok (gv, st) ∧ st.errors.values = [] := by
  obtain ⟨st, h1, h2⟩ := graph_yes hO (go_distinct_of_valid hg) hx n v hv ref (start cap) rfl gv h
  exact ⟨st, h1, by rw [h2]; rfl⟩

/-- **C41 (partial), validity.** If no error is recorded, the graph satisfies the schema; the bounds of
the floats have to be `float64`s. -/
theorem C41_valid_partial (hO : O.Proper) (hg : goValidateSchema g = .ok []) (hx : ExactGraph g) (hv : Canon v)
    (cap : Nat) (gv : GraphVal) (st : St)
    (h : parseGraph O L g n v ref (newGraph g) (start cap) = .ok (gv, st)) (he : st.errors.values = []) :
    ValidGraph L g n gv :=
  valid_of_reads hv (graph_no hO (go_distinct_of_valid hg) hx n v hv ref (start cap) rfl gv st h he)

end

/-- Bounds up to 2^53 are `float64`s. -/
theorem exactBounds_of_small (b : Bounds) (h : ∀ m, b.min = some m ∨ b.max = some m → m.natAbs ≤ 2 ^ 53) :
    ExactBounds b :=
  ⟨fun m hm => PyRuntime.round_int_exact m (h m (.inl hm)), fun m hm => PyRuntime.round_int_exact m (h m (.inr hm))⟩

/-! ### The embeddable structures are defined -/

theorem definedTy_of {fl : PyRuntime.Json → Bounds → Prop} {classes : List Str} {g : Graph}
    (he : ∀ e ∈ g.embeds, g.embed? e.name = some e) {j : PyRuntime.Json} {t : Ty}
    (h : SchemaSpec.TypeOf fl classes (g.embeds.map (·.name)) j t) : DefinedTy g t := by
  induction h with
  | array _ _ _ _ _ ih => exact ih
  | map _ _ _ ih => exact ih
  | embed _ hn =>
    obtain ⟨e, hm, rfl⟩ := List.mem_map.1 hn
    exact ⟨e, he e hm⟩
  | _ => trivial

theorem definedProps_of {fl : PyRuntime.Json → Bounds → Prop} {classes : List Str} {g : Graph}
    (he : ∀ e ∈ g.embeds, g.embed? e.name = some e) {ref : Str} {j : PyRuntime.Json} {ps : List Property}
    (h : SchemaSpec.PropertiesOf fl classes (g.embeds.map (·.name)) ref j ps) : ∀ p ∈ ps, DefinedTy g p.ty := by
  obtain ⟨items, _, hf⟩ := h
  intro p hp
  obtain ⟨i, _, hi⟩ := GoRuntime.forall₂_right hf hp
  exact definedTy_of he hi.ty

/-- In a schema read from a mapping, they are. -/
theorem defined_of_parsed {L : Validation.Lib} {mapping : PyRuntime.Json} {ref : Str} {s : ParseSchema.Schema}
    (h : ParseSchema.schemaFromMapping L mapping ref = .ok s) : DefinedGraph s.graph := by
  have hs := C20_preserved_partial L mapping ref s h
  refine ⟨definedProps_of hs.embed hs.graph.properties, ?_, ?_⟩
  · intro c hc
    obtain ⟨x, _, hx⟩ := GoRuntime.forall₂_right hs.graph.classes hc
    exact definedProps_of hs.embed hx.properties
  · intro e he
    obtain ⟨x, _, hx⟩ := GoRuntime.forall₂_right hs.graph.embeds he
    exact definedProps_of hs.embed hx.properties

/-- The code generated for a schema which is read from a mapping and passes the validation for Go does not
panic with a container for a single error. -/
theorem C41_no_panic_parsed_partial (V : Validation.Lib) (mapping : PyRuntime.Json) (at_ref : Str)
    (s : ParseSchema.Schema) (hs : ParseSchema.schemaFromMapping V mapping at_ref = .ok s)
    (hg : goValidateSchema s.graph = .ok []) (O : Order) (hO : O.Proper) (L : Lib) (n : Nat) (v : JVal)
    (hv : Canon v) (hn : DepthLe n v) (ref : Str) (target : GraphVal) :
    ∃ gv st, parseGraph O L s.graph n v ref target (start 1) = .ok (gv, st) ∧ st.errors.values.length ≤ 1 :=
  C41_no_panic_partial O L s.graph n v ref hO hg (defined_of_parsed hs) hv hn target

/-! ### The examples -/

theorem canon_obj (kvs : List (Str × JVal)) :
    Canon (.obj kvs) ↔ GoMap.Ascending kvs ∧ ∀ kv ∈ kvs, Canon kv.2 :=
  ⟨fun h => by cases h with | obj _ h1 h2 => exact ⟨h1, h2⟩, fun h => .obj _ h.1 h.2⟩

theorem canon_arr (xs : List JVal) : Canon (.arr xs) ↔ ∀ x ∈ xs, Canon x :=
  ⟨fun h => by cases h with | arr _ h1 => exact h1, fun h => .arr _ h⟩

theorem canon_str (s : Str) : Canon (.str s) ↔ True := ⟨fun _ => trivial, fun _ => .str s⟩
theorem canon_float (f : F64) : Canon (.float f) ↔ True := ⟨fun _ => trivial, fun _ => .float f⟩

theorem depth_obj (n : Nat) (kvs : List (Str × JVal)) :
    DepthLe (n + 1) (.obj kvs) ↔ ∀ kv ∈ kvs, DepthLe n kv.2 :=
  ⟨fun h => by cases h with | obj _ _ h1 => exact h1, fun h => .obj _ _ h⟩

theorem depth_arr (n : Nat) (xs : List JVal) : DepthLe n (.arr xs) ↔ ∀ x ∈ xs, DepthLe n x :=
  ⟨fun h => by cases h with | arr _ _ h1 => exact h1, fun h => .arr _ _ h⟩

theorem depth_str (n : Nat) (s : Str) : DepthLe n (.str s) ↔ True := ⟨fun _ => trivial, fun _ => .str n s⟩
theorem depth_float (n : Nat) (f : F64) : DepthLe n (.float f) ↔ True := ⟨fun _ => trivial, fun _ => .float n f⟩

namespace GoExample

theorem input_canon : Canon Demo.input := by
  simp only [Demo.input, canon_obj, canon_arr, canon_str, canon_float, List.forall_mem_cons, and_true,
    List.not_mem_nil, false_imp_iff, implies_true, GoMap.Ascending]
  decide

theorem wrong_canon : Canon Demo.wrong := by
  simp only [Demo.wrong, canon_obj, canon_arr, canon_str, canon_float, List.forall_mem_cons, and_true,
    List.not_mem_nil, false_imp_iff, implies_true, GoMap.Ascending]
  decide

theorem input_depth : DepthLe 3 Demo.input := by
  simp [Demo.input, depth_obj, depth_arr, depth_str, depth_float]

theorem wrong_depth : DepthLe 3 Demo.wrong := by
  simp [Demo.wrong, depth_obj, depth_arr, depth_str, depth_float]

theorem schema_valid : goValidateSchema Demo.schema = .ok [] := by decide +kernel

theorem schema_defined : DefinedGraph Demo.schema := by
  constructor
  · simp only [PyRuntime.Demo.schema, List.forall_mem_cons, List.not_mem_nil, false_imp_iff, implies_true, and_true]
    exact ⟨⟨_, rfl⟩, trivial, trivial⟩
  · simp only [PyRuntime.Demo.schema, List.forall_mem_cons, List.not_mem_nil, false_imp_iff, implies_true, and_true]
    exact ⟨trivial, trivial, trivial, trivial⟩
  · simp only [PyRuntime.Demo.schema, List.forall_mem_cons, List.not_mem_nil, false_imp_iff, implies_true, and_true]
    exact ⟨trivial, trivial⟩

theorem schema_exact : ExactGraph Demo.schema := by
  constructor
  · simp only [PyRuntime.Demo.schema, List.forall_mem_cons, List.not_mem_nil, false_imp_iff, implies_true, and_true]
    refine ⟨trivial, exactBounds_of_small _ ?_, trivial⟩
    rintro m (h | h) <;> cases h
    decide
  · simp only [PyRuntime.Demo.schema, List.forall_mem_cons, List.not_mem_nil, false_imp_iff, implies_true, and_true]
    exact ⟨trivial, trivial, trivial, trivial⟩
  · simp only [PyRuntime.Demo.schema, List.forall_mem_cons, List.not_mem_nil, false_imp_iff, implies_true, and_true]
    exact ⟨trivial, trivial⟩

end GoExample

open GoExample

/-- It is violated: with an unlimited container, the second faulty instance panics ... -/
theorem C41_violated : ¬ C41Full := by
  intro h
  obtain ⟨gv, st, h1, _⟩ := h Demo.order Demo.lib Demo.schema 3 Demo.wrong c!"#" 0 Demo.order_proper
    schema_valid schema_defined wrong_canon wrong_depth
  have : parseGraph Demo.order Demo.lib Demo.schema 3 Demo.wrong c!"#" (newGraph Demo.schema) (start 0) =
    .error (.panic c!"unexpected non-empty errors") := by rfl
  rw [this] at h1
  cases h1

theorem mass_parsed (b : Bounds) (f : F64) (h1 : floatMinOk b f = true) (h2 : floatMaxOk b f = true) :
    parseGraph Demo.order Demo.lib
      { massGraph with properties := [{ name := c!"mass", ty := .float b, json := c!"mass" }] } 1
      (.obj [(c!"mass", .float f)]) []
      (newGraph { massGraph with properties := [{ name := c!"mass", ty := .float b, json := c!"mass" }] }) (start 1) =
    .ok (⟨[(c!"Mass", .float f)], []⟩, start 1) := by
  have h3 : goName c!"mass" = c!"Mass" := by decide
  simp [parseGraph, massGraph, preallocAll, parseRegistries, parseProps, parseProperty, parseTy, parseFloat,
    newGraph, zeroFields, h1, h2, h3, field, setField, start, GoErrors.new, GoErrors.empty, GoErrors.full,
    bind, Except.bind, pure, Except.pure, envOf, isPointer]

/-- ... and a float below the bound is accepted with every container: the bound 2^53 + 1 is rounded. -/
theorem C41_violated_by_rounding : ¬ ∀ (O : Order) (L : Lib) (g : Graph) (n : Nat) (v : JVal) (ref : Str)
    (cap : Nat) (gv : GraphVal) (st : St), O.Proper → goValidateSchema g = .ok [] → Canon v →
    parseGraph O L g n v ref (newGraph g) (start cap) = .ok (gv, st) → st.errors.values = [] →
    ValidGraph L g n gv := by
  intro h
  have hr := h Demo.order Demo.lib massGraph 1 (.obj [(c!"mass", .float (.fin (2 ^ 53)))]) [] 1
    ⟨[(c!"Mass", .float (.fin (2 ^ 53)))], []⟩ (start 1) Demo.order_proper (by decide +kernel)
    (by simp [canon_obj, canon_float, GoMap.Ascending])
    (mass_parsed _ _ (by decide +kernel) rfl) rfl
  cases hr.fields with
  | cons h1 _ =>
    rcases h1.2 with ⟨h2, _⟩ | ⟨f, h2, h3⟩
    · simp at h2
    · cases h2
      exact absurd (h3.lower _ rfl) (by decide +kernel)

/-- The wrong input has one error with a container for one, and panics with a container for two. -/
example : (parseGraph Demo.order Demo.lib Demo.schema 3 Demo.wrong c!"#" (newGraph Demo.schema) (start 1)).map
    (fun r => r.2.errors.values.map (·.ref)) = .ok [c!"#/persons/p2/name"] := by decide +kernel
example : (parseGraph Demo.order Demo.lib Demo.schema 3 Demo.wrong c!"#" (newGraph Demo.schema) (start 2)).map
    (fun r => r.2.errors.values.map (·.ref)) = .error (.panic c!"unexpected non-empty errors") := by decide +kernel
/-- The input of the examples is read. -/
theorem demo_parsed : parseGraph Demo.order Demo.lib Demo.schema 3 Demo.input c!"#" (newGraph Demo.schema) (start 0) =
    .ok (Demo.value, ⟨GoErrors.new 0, 3⟩) := by rfl
example : ValidGraph Demo.lib Demo.schema 3 Demo.value :=
  C41_valid_partial Demo.order Demo.lib Demo.schema 3 Demo.input c!"#" Demo.order_proper schema_valid schema_exact
    input_canon 0 Demo.value _ demo_parsed rfl
example : ∃ gv st, parseGraph Demo.order Demo.lib Demo.schema 3 Demo.wrong c!"#" Demo.value (start 1) = .ok (gv, st) ∧
    st.errors.values.length ≤ 1 :=
  C41_no_panic_partial Demo.order Demo.lib Demo.schema 3 Demo.wrong c!"#" Demo.order_proper schema_valid schema_defined
    wrong_canon wrong_depth Demo.value

/-! ## C42 -/

/-- The full property, acceptance: no error is recorded iff the input conforms to the schema, and the graph is
the one described. -/
def C42AcceptsFull : Prop := ∀ (O : Order) (L : Lib) (g : Graph) (n : Nat) (v : JVal) (ref : Str) (cap : Nat)
  (gv : GraphVal), O.Proper → goValidateSchema g = .ok [] → Canon v →
  ((∃ st, parseGraph O L g n v ref (newGraph g) (start cap) = .ok (gv, st) ∧ st.errors.values = []) ↔
    ReadsGraph L g n v gv)

/-- The full property, round trip: the JSON text of a serialized graph which satisfies the schema is parsed to
the same graph. -/
def C42RoundTripFull : Prop := ∀ (O O' : Order) (L : Lib) (g : Graph) (n : Nat) (gv : GraphVal) (r : Nat) (ref : Str)
  (cap : Nat), O.Proper → O'.Proper → Reliable L → goValidateSchema g = .ok [] → ValidGraph L g n gv →
  ∃ v r' w st, serGraph O L g n gv r = .ok (v, r') ∧ wire v = some w ∧
    parseGraph O' L g n w ref (newGraph g) (start cap) = .ok (gv, st) ∧ st.errors.values = []

section

variable (O : Order) (L : Lib) (g : Graph) (n : Nat) (ref : Str) (cap : Nat)

/-- **C42 (partial), acceptance.** It holds if the bounds of the floats are `float64`s. -/
theorem C42_accepts_partial (hO : O.Proper) (hg : goValidateSchema g = .ok []) (hx : ExactGraph g) (v : JVal)
    (hv : Canon v) (gv : GraphVal) :
    (∃ st, parseGraph O L g n v ref (newGraph g) (start cap) = .ok (gv, st) ∧ st.errors.values = []) ↔
      ReadsGraph L g n v gv := by
  constructor
  · rintro ⟨st, h, he⟩
    exact graph_no hO (go_distinct_of_valid hg) hx n v hv ref (start cap) rfl gv st h he
  · exact C41_conforming O L g n v ref hO hg hx hv cap gv

/-- Hence the graph which is read does not depend on the order in which the maps are visited. -/
theorem C42_order_independent (O' : Order) (hO : O.Proper) (hO' : O'.Proper) (hg : goValidateSchema g = .ok [])
    (hx : ExactGraph g) (v : JVal) (hv : Canon v) (gv : GraphVal) (st : St)
    (h : parseGraph O L g n v ref (newGraph g) (start cap) = .ok (gv, st)) (he : st.errors.values = []) :
    ∃ st', parseGraph O' L g n v ref (newGraph g) (start cap) = .ok (gv, st') ∧ st'.errors.values = [] :=
  (C42_accepts_partial O' L g n ref cap hO' hg hx v hv gv).2
    ((C42_accepts_partial O L g n ref cap hO hg hx v hv gv).1 ⟨st, h, he⟩)

/-- A particular graph survives if the library reads back its times and locations. -/
theorem C42_round_trip_faithful_partial (O' : Order) (hO : O.Proper) (hO' : O'.Proper) (hL : ∀ t, L.formatTime t [] = [])
    (hg : goValidateSchema g = .ok []) (hx : ExactGraph g) (hk : JsonKeys g) (gv : GraphVal) (hv : ValidGraph L g n gv)
    (hf : FaithfulGraph L g n gv) (r : Nat) :
    ∃ v r' w st, serGraph O L g n gv r = .ok (v, r') ∧ wire v = some w ∧
      parseGraph O' L g n w ref (newGraph g) (start cap) = .ok (gv, st) ∧ st.errors.values = [] := by
  obtain ⟨v, r', w, h1, h2, h3, h4⟩ := ser_graph hO hL (go_distinct_of_valid hg) hk n gv hv hf r
  obtain ⟨st, h5, h6⟩ := C41_conforming O' L g n w ref hO' hg hx h3 cap gv h4
  exact ⟨v, r', w, st, h1, h2, h5, h6⟩

/-- **C42 (partial), round trip.** It holds if the JSON keys do not clash, the bounds of the floats are
`float64`s, the numbers of the graph are finite `float64`s and no duration is the least one. -/
theorem C42_round_trip_partial (O' : Order) (hO : O.Proper) (hO' : O'.Proper) (hL : Reliable L)
    (hg : goValidateSchema g = .ok []) (hx : ExactGraph g) (hk : JsonKeys g) (gv : GraphVal) (hv : ValidGraph L g n gv)
    (hp : PlainGraph gv) (r : Nat) :
    ∃ v r' w st, serGraph O L g n gv r = .ok (v, r') ∧ wire v = some w ∧
      parseGraph O' L g n w ref (newGraph g) (start cap) = .ok (gv, st) ∧ st.errors.values = [] :=
  C42_round_trip_faithful_partial O L g n ref cap O' hO hO' hL.empty hg hx hk gv hv
    (faithful_graph hL (go_distinct_of_valid hg) hv hp) r

end

/-- Acceptance is violated by a bound which is not a `float64`. -/
theorem C42_accepts_violated : ¬ C42AcceptsFull := by
  intro h
  obtain ⟨kvs, hk, _, hp⟩ := (h Demo.order Demo.lib massGraph 1 (.obj [(c!"mass", .float (.fin (2 ^ 53)))]) [] 1
    ⟨[(c!"Mass", .float (.fin (2 ^ 53)))], []⟩ Demo.order_proper (by decide +kernel)
    (by simp [canon_obj, canon_float, GoMap.Ascending])).1 ⟨_, mass_parsed _ _ (by decide +kernel) rfl, rfl⟩
  cases hk
  cases hp with
  | cons h1 _ =>
    obtain ⟨f, hf, _, h3⟩ := h1.2
    cases hf
    exact absurd (h3.lower _ rfl) (by decide +kernel)

theorem demo_reliable : Reliable Demo.lib where
  empty _ := rfl
  time l s t h := by
    simp only [Demo.lib, Option.ite_none_right_eq_some] at h ⊢
    obtain ⟨⟨rfl, rfl⟩, h⟩ := h
    exact ⟨by decide, h⟩
  location s z h := by
    simp only [Demo.lib, Option.ite_none_right_eq_some] at h ⊢
    obtain ⟨rfl, h⟩ := h
    cases h
    simp

theorem count_exact : ExactGraph countGraph := by
  constructor
  · intro p hp
    simp only [countGraph, List.mem_singleton] at hp
    subst hp
    trivial
  · intro c hc; simp [countGraph] at hc
  · intro c hc; simp [countGraph] at hc

theorem count_valid (i : Int) (hi : IsInt64 i) : ValidGraph Demo.lib countGraph 1 ⟨[(c!"Count", .int i)], []⟩ where
  registries := .nil
  fields := .cons ⟨rfl, .inr ⟨i, rfl, hi,
    ⟨fun m hm => by simp at hm, fun m hm => by simp at hm, fun m hm => by simp at hm, fun m hm => by simp at hm⟩⟩⟩ .nil

/-- The round trip is violated by an integer which is not a `float64` ... -/
theorem C42_round_trip_violated : ¬ C42RoundTripFull := by
  intro h
  obtain ⟨v, r', w, st, h1, h2, h3, h4⟩ := h Demo.order Demo.order Demo.lib countGraph 1
    ⟨[(c!"Count", .int (2 ^ 53 + 1))], []⟩ 0 [] 1 Demo.order_proper Demo.order_proper demo_reliable (by decide +kernel)
    (count_valid _ (by decide))
  have hs : serGraph Demo.order Demo.lib countGraph 1 ⟨[(c!"Count", .int (2 ^ 53 + 1))], []⟩ 0 =
    .ok (.obj [(c!"count", .int64 (2 ^ 53 + 1))], 0) := rfl
  rw [hs] at h1
  cases h1
  simp only [wire, wireEntries, Option.map_some, Option.some.injEq] at h2
  subst h2
  obtain ⟨kvs, hk, _, hp⟩ := (C42_accepts_partial Demo.order Demo.lib countGraph 1 [] 1 Demo.order_proper
    (by decide +kernel) count_exact _ (by simp [canon_obj, canon_float, GoMap.Ascending]) _).1 ⟨st, h3, h4⟩
  cases hk
  cases hp with
  | cons h1 _ =>
    obtain ⟨i, hi, h5, _⟩ := h1.2
    simp only [Val.int.injEq] at h5
    subst h5
    simp only [JVal.float.injEq] at hi
    exact absurd hi (by decide +kernel)

/-- ... by two properties with the same key ... -/
theorem C42_round_trip_violated_by_clash : ¬ C42RoundTripFull := by
  intro h
  obtain ⟨v, r', w, st, h1, h2, h3, _⟩ := h Demo.order Demo.order Demo.lib clashGraph 1
    ⟨[(c!"A", .bool true), (c!"B", .bool false)], []⟩ 0 [] 1 Demo.order_proper Demo.order_proper demo_reliable
    (by decide +kernel) ⟨.nil, .cons ⟨rfl, .inr ⟨_, rfl⟩⟩ (.cons ⟨rfl, .inr ⟨_, rfl⟩⟩ .nil)⟩
  have hs : serGraph Demo.order Demo.lib clashGraph 1 ⟨[(c!"A", .bool true), (c!"B", .bool false)], []⟩ 0 =
    .ok (.obj [(c!"x", .bool false)], 0) := rfl
  rw [hs] at h1
  cases h1
  simp only [wire, wireEntries, Option.map_some, Option.some.injEq] at h2
  subst h2
  have hp : parseGraph Demo.order Demo.lib clashGraph 1 (.obj [(c!"x", .bool false)]) [] (newGraph clashGraph) (start 1) =
    .ok (⟨[(c!"A", .bool false), (c!"B", .bool false)], []⟩, start 1) := rfl
  rw [hp] at h3
  cases h3

/-- ... and by a NaN, which has no JSON text. -/
theorem C42_round_trip_violated_nan : ¬ C42RoundTripFull := by
  intro h
  obtain ⟨v, r', w, st, h1, h2, _⟩ := h Demo.order Demo.order Demo.lib
    { massGraph with properties := [{ name := c!"mass", ty := .float {}, json := c!"mass" }] } 1
    ⟨[(c!"Mass", .float .nan)], []⟩ 0 [] 1 Demo.order_proper Demo.order_proper demo_reliable (by decide +kernel)
    ⟨.nil, .cons ⟨by decide, .inr ⟨.nan, rfl, rfl, rfl⟩⟩ .nil⟩
  have hs : serGraph Demo.order Demo.lib
      { massGraph with properties := [{ name := c!"mass", ty := .float {}, json := c!"mass" }] } 1
      ⟨[(c!"Mass", .float .nan)], []⟩ 0 = .ok (.obj [(c!"mass", .float .nan)], 0) := rfl
  rw [hs] at h1
  cases h1
  simp [wire, wireEntries] at h2

/-- The graph of the examples meets the hypotheses. -/
theorem demo_keys : JsonKeys Demo.schema := by
  constructor
  · decide
  · intro c hc
    simp only [PyRuntime.Demo.schema, List.mem_singleton] at hc
    subst hc
    decide
  · intro c hc
    simp only [PyRuntime.Demo.schema, List.mem_singleton] at hc
    subst hc
    decide

theorem inside_obj (w : Val) (name : Str) (fields : GoRuntime.Fields) :
    Inside w (.obj name fields) ↔ w = .obj name fields ∨ ∃ f ∈ fields, Inside w f.2 := by
  constructor
  · intro h
    cases h with
    | here => exact .inl rfl
    | field hm hi => exact .inr ⟨_, hm, hi⟩
  · rintro (rfl | ⟨f, hm, hi⟩)
    · exact .here
    · exact .field (k := f.1) hm hi

theorem inside_list (w : Val) (xs : List Val) : Inside w (.list xs) ↔ w = .list xs ∨ ∃ x ∈ xs, Inside w x := by
  constructor
  · intro h
    cases h with
    | here => exact .inl rfl
    | item hm hi => exact .inr ⟨_, hm, hi⟩
  · rintro (rfl | ⟨f, hm, hi⟩)
    · exact .here
    · exact .item hm hi

theorem inside_map (w : Val) (kvs : List (Str × Val)) :
    Inside w (.map kvs) ↔ w = .map kvs ∨ ∃ f ∈ kvs, Inside w f.2 := by
  constructor
  · intro h
    cases h with
    | here => exact .inl rfl
    | entry hm hi => exact .inr ⟨_, hm, hi⟩
  · rintro (rfl | ⟨f, hm, hi⟩)
    · exact .here
    · exact .entry (k := f.1) hm hi

theorem inside_atom {w x : Val} (hl : ∀ xs, x ≠ .list xs) (hm : ∀ kvs, x ≠ .map kvs) (ho : ∀ n fs, x ≠ .obj n fs) :
    Inside w x ↔ w = x := by
  constructor
  · intro h
    cases h with
    | here => rfl
    | item => exact absurd rfl (hl _)
    | entry => exact absurd rfl (hm _)
    | field => exact absurd rfl (ho _ _)
  · rintro rfl; exact .here

theorem demo_plain : PlainGraph Demo.value := by
  have key : ∀ x : Val, (∀ i : Int, Inside (.int i) x → i.natAbs ≤ 2 ^ 53) → (∀ f, Inside (.float f) x → ∃ q, f = .fin q) →
      (∀ d, Inside (.duration d) x → d ≠ minInt64) → PlainVal x := fun x h1 h2 h3 =>
    ⟨fun i hi => PyRuntime.round_int_exact i (h1 i hi), h2, h3⟩
  constructor
  · intro r hr i hi f hf
    simp only [Demo.value, List.mem_singleton] at hr
    subst hr
    simp only [List.mem_cons, List.not_mem_nil, or_false] at hi
    rcases hi with rfl | rfl <;> simp only [List.mem_cons, List.not_mem_nil, or_false] at hf <;>
      rcases hf with rfl | rfl | rfl | rfl <;> refine key _ ?_ ?_ ?_ <;> intro y hy <;> cases hy <;> decide
  · intro f hf
    simp only [Demo.value, List.mem_cons, List.not_mem_nil, or_false] at hf
    have hatom : ∀ (w : Val), (Inside w (.str c!"Main") ↔ w = .str c!"Main") ∧ (Inside w (.str c!"Side") ↔ w = .str c!"Side") ∧
      (Inside w (.int (-3)) ↔ w = .int (-3)) ∧ (Inside w .nil ↔ w = .nil) ∧
      ∀ q, Inside w (.float q) ↔ w = .float q := fun w =>
        ⟨inside_atom (by simp) (by simp) (by simp), inside_atom (by simp) (by simp) (by simp),
         inside_atom (by simp) (by simp) (by simp), inside_atom (by simp) (by simp) (by simp),
         fun q => inside_atom (by simp) (by simp) (by simp)⟩
    rcases hf with rfl | rfl | rfl <;> refine key _ ?_ ?_ ?_ <;> intro y hy <;>
      simp [inside_list, inside_obj, inside_map, (hatom _).1, (hatom _).2.1, (hatom _).2.2.1, (hatom _).2.2.2.1,
        (hatom _).2.2.2.2] at hy
    · subst hy; decide
    · rcases hy with rfl | rfl <;> exact ⟨_, rfl⟩

example : ∃ v r' w st, serGraph Demo.order Demo.lib Demo.schema 3 Demo.value 0 = .ok (v, r') ∧ wire v = some w ∧
    parseGraph Demo.order Demo.lib Demo.schema 3 w c!"#" (newGraph Demo.schema) (start 0) = .ok (Demo.value, st) ∧
    st.errors.values = [] :=
  C42_round_trip_partial Demo.order Demo.lib Demo.schema 3 c!"#" 0 Demo.order Demo.order_proper Demo.order_proper
    demo_reliable schema_valid schema_exact demo_keys Demo.value
    (C41_valid_partial Demo.order Demo.lib Demo.schema 3 Demo.input c!"#" Demo.order_proper schema_valid schema_exact
      input_canon 0 Demo.value _ demo_parsed rfl) demo_plain 0

end Mapry.Props
