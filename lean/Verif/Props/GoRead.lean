import Verif.GoGenReader
import Verif.GoReadGraph
import Verif.Props.GoCompiles
import Verif.Props.GoWrite

/-! # C86: the generated Go code of the parser, run statement by statement -/

namespace Mapry.Props.GoExec

open Mapry.GoLang Mapry.GoExec Mapry.Naming Mapry.LangValidate Mapry.ParseSchema Mapry.TypeGraph
open Mapry.GoRuntime (JVal Lib GraphVal serGraph parseGraph newGraph wire Instance goName field thePanic)
open Mapry.GoRuntime.Spec (ExactGraph JsonKeys ValidGraph FaithfulGraph Canon DepthLe DefinedGraph)
open Mapry.GoTypes (goFacts_of camel)
open Mapry.PyRuntime (Json)
open Mapry.Props.Go (Generated SchemaFits)
open Mapry.Props.GoExample (schema_valid schema_exact schema_defined input_canon input_depth wrong_canon wrong_depth)

/-- `P` is the code of the parser of the generated Go package; the schema passes the Go validation, the names of the functions are
distinct, and so are the variables of the classes. This is the case whenever the package is generated from a schema and compiles
(`parses`). -/
structure Parses (g : Graph) (P : Program) : Prop where
  code : GoGen.reader g = .ok P
  apart : (P.funcs.map (·.name)).Nodup
  named : Named g
  resolves : GoCode.Resolves g
  valid : goValidateSchema g = .ok []
  graph : ∃ name, ucamelCase g.name = .ok name
  plurals : ∀ c ∈ g.classes, ∀ d ∈ g.classes, camelCase c.plural = camelCase d.plural → c.name = d.name

/-- C60 for the code which is run: the code of the parser is generated whenever the package is. -/
theorem C60_read (V : Validation.Lib) (mapping : Json) (ref : Str) (s : Schema) (fs : List GoCode.File)
    (h : Generated V mapping ref s fs) : ∃ P, GoGen.reader s.graph = .ok P := by
  obtain ⟨hn, hr⟩ := GoCode.parsed_facts h.parsed
  exact GoGen.reader_gen hn hr (GoCode.package_needs ⟨fs, h.files⟩) (GoCode.package_bounds hn ⟨fs, h.files⟩)

/-- The code is as required if the schema fits, i.e. if the package compiles (C79). -/
theorem parses {V : Validation.Lib} {mapping : Json} {ref : Str} {s : Schema} {fs : List GoCode.File} {P : Program}
    (h : Generated V mapping ref s fs) (hf : SchemaFits s.graph) (hP : GoGen.reader s.graph = .ok P) : Parses s.graph P :=
  ⟨hP, GoGen.reader_nodup hP hf.apart.nodup, (GoCode.parsed_facts h.parsed).1, (GoCode.parsed_facts h.parsed).2, h.valid,
    (GoCode.package_needs ⟨fs, h.files⟩).graph, hf.plurals⟩

theorem resolved_of {g : Graph} (hr : GoCode.Resolves g) : ∀ {t : Ty}, Occurs g t → GoExec.Resolved g t := by
  intro t
  induction t with
  | array t lo hi ih => exact fun h => ih (h.part (by simp [parts, self_mem_parts]))
  | map t ih => exact fun h => ih (h.part (by simp [parts, self_mem_parts]))
  | embed n =>
    intro h
    obtain ⟨e, he, rfl⟩ := hr.2 n h
    unfold GoExec.Resolved
    rw [Graph.embed?, List.find?_isSome]
    exact ⟨e, he, by simp⟩
  | _ => exact fun _ => trivial

theorem defined_of {g : Graph} (hr : GoCode.Resolves g) : DefinedGraph g := by
  have key : ∀ {t : Ty}, GoExec.Resolved g t → GoRuntime.Spec.DefinedTy g t := by
    intro t
    induction t with
    | array t lo hi ih => exact ih
    | map t ih => exact ih
    | embed n => exact fun h => Option.isSome_iff_exists.1 h
    | _ => exact fun _ => trivial
  exact ⟨fun p hp => key (resolved_of hr (.graph p hp (self_mem_parts _))),
    fun c hc p hp => key (resolved_of hr (.cls c p hc hp (self_mem_parts _))),
    fun e he p hp => key (resolved_of hr (.embed e p he hp (self_mem_parts _)))⟩

theorem reader_ok {g : Graph} {P : Program} (H : Parses g P) : ReaderOk g P := by
  have facts := goFacts_of H.named H.resolves H.valid
  obtain ⟨h1, h2, h3, h4⟩ := GoGen.reader_parts H.code
  have hcls : ∀ c ∈ g.classes, c.properties.map field = c.properties.map fun p => camel p.name := fun c hc =>
    List.map_congr_left fun p hp => (goName_eq (facts.fields.1 c hc p hp)).symm
  have hemb : ∀ e ∈ g.embeds, e.properties.map field = e.properties.map fun p => camel p.name := fun e he =>
    List.map_congr_left fun p hp => (goName_eq (facts.fields.2.1 e he p hp)).symm
  have hgr : g.properties.map field = g.properties.map fun p => camel p.name :=
    List.map_congr_left fun p hp => (goName_eq (facts.fields.2.2 p hp)).symm
  have hpl : (g.classes.map fun c => goName c.plural) = g.classes.map fun c => camel c.plural :=
    List.map_congr_left fun c hc => (goName_eq (facts.plurals c hc)).symm
  refine ⟨⟨H.apart, ?_, H.plurals, fun e he => ?_, fun c hc => ?_⟩, H.named.classes, ?_, fun p hp => ?_, h4⟩
  · intro q uid hq
    rw [h1]
    exact GoGen.uid_compiled hq
  · obtain ⟨F, hF, hF'⟩ := h3 e he
    exact ⟨F, hF, hF', by rw [hemb e he]; exact facts.embed e he,
      fun p hp => resolved_of H.resolves (.embed e p he hp (self_mem_parts _))⟩
  · obtain ⟨F, hF, hF'⟩ := h2 c hc
    exact ⟨F, hF, hF', by rw [hcls c hc]; exact (facts.cls c hc).1,
      fun p hp => resolved_of H.resolves (.cls c p hc hp (self_mem_parts _)), by rw [hcls c hc]; exact (facts.cls c hc).2⟩
  · rw [hgr, hpl]
    exact facts.graph
  · exact resolved_of H.resolves (.graph p hp (self_mem_parts _))

/-- The call `<Graph>FromJSONable(value, ref, target, errors)` with a stack of `n` frames -/
def callFrom (O : Order) (L : Lib) (g : Graph) (P : Program) (n : Nat) (v : JVal) (ref : Str) (target es : Val) (σ : St) :
    Except Exc (List Val × St) :=
  run O L P n (camelSpec true g.name ++ c!"FromJSONable") [.json v, .str ref, target, es] σ

section

variable {O : Order} {L : Lib} {g : Graph} {P : Program} {σ : St} {v : JVal} {ref : Str} {l : Nat}

theorem graph_camel (H : Parses g P) : ucamelCase g.name = .ok (camelSpec true g.name) := by
  obtain ⟨name, h⟩ := H.graph
  rw [h, ((C01_ucamel_case_ok_iff _ _).1 h).2]

/-! ## The code does what the parser does -/

theorem empty_iff (e : GoErrors) : e.empty = true ↔ e.values = [] := by
  unfold GoErrors.empty
  simp only [decide_eq_true_eq]
  exact List.length_eq_zero_iff

/-- **C86.** The parser with `k` frames says what the generated code does with at least two frames more: it panics in the same
way, or it returns and has recorded the same errors; if there are none, the memory holds at the target the graph which the parser
has read. Nothing else in the memory of the caller is changed. -/
theorem C86_code (H : Parses g P) (hO : O.Proper) (hv : Canon v) (hl : σ.heap[l]? = some .zero) {k n : Nat} (hn : k + 2 ≤ n) :
    GraphRead g l σ (parseGraph O L g k v ref (newGraph g) (stOf σ)) (callFrom O L g P n v ref (.ptr ⟨l, []⟩) .errors σ) := by
  obtain ⟨m, rfl⟩ : ∃ m, n = m + 2 := ⟨n - 2, by omega⟩
  exact graph_read (reader_ok H) hO (by omega) (graph_camel H) hv hl

/-- With a stack which is large enough for the nesting of the value the call ends. It returns, and then it has changed nothing but the
target in the memory of the caller, or it panics because a function is called after an error has been recorded. The latter cannot
happen with a container for a single error. -/
theorem C86_ends (H : Parses g P) (hO : O.Proper) (hv : Canon v) (hl : σ.heap[l]? = some .zero) (he : σ.errors.values = [])
    {k n : Nat} (hk : DepthLe k v) (hn : k + 2 ≤ n) :
    (∃ σ', callFrom O L g P n v ref (.ptr ⟨l, []⟩) .errors σ = .ok ([], σ') ∧
      (∀ a, a < σ.heap.length → a ≠ l → σ'.heap[a]? = σ.heap[a]?) ∧
      (σ'.errors.values = [] → ∃ x gv, σ'.heap[l]? = some x ∧ HoldsGraph g σ' x gv)) ∨
    (callFrom O L g P n v ref (.ptr ⟨l, []⟩) .errors σ = .error (.panic c!"unexpected non-empty errors") ∧ σ.errors.cap ≠ 1) := by
  have h1 := C86_code (O := O) (L := L) (ref := ref) H hO hv hl hn
  obtain ⟨h2, h3⟩ := GoRuntime.graph_total (L := L) hO (go_distinct_of_valid H.valid).names (defined_of H.resolves) k v hv hk ref
    (newGraph g) (stOf σ) he
  generalize parseGraph O L g k v ref (newGraph g) (stOf σ) = r at h1 h2 h3
  cases r with
  | error e =>
    have hp : e = .panic c!"unexpected non-empty errors" := h2 e rfl
    subst hp
    rcases h1 with h | h
    · cases h
    · refine .inr ⟨h, fun h => ?_⟩
      obtain ⟨_, _, h, _⟩ := h3 h
      cases h
  | ok q =>
    obtain ⟨gv, st⟩ := q
    obtain ⟨σ', g1, g2, g3, g4⟩ := h1
    refine .inl ⟨σ', g1, fun a ha hne => g2.same a ha hne, fun h => ?_⟩
    obtain ⟨x, h5, h6⟩ := g4 ((empty_iff _).2 h)
    exact ⟨x, gv, h5, h6⟩

/-! ## What the caller sees -/

/-- What a call does with a value whose objects are nested at most `k` deep: it returns without an error and the memory holds at
the target the graph which the value describes, exactly if it describes one. Otherwise it returns with errors, or it panics because a
function is called after an error has been recorded, which cannot happen with a container for a single error. Only the target
is changed in the memory of the caller. -/
def Reading (L : Lib) (g : Graph) (k : Nat) (v : JVal) (l : Nat) (σ : St) : Except Exc (List Val × St) → Prop
  | .ok (rs, σ') => rs = [] ∧ (∀ a, a < σ.heap.length → a ≠ l → σ'.heap[a]? = σ.heap[a]?) ∧
      (σ'.errors.values = [] ↔ ∃ gv, GoRuntime.Spec.ReadsGraph L g k v gv) ∧
      ∀ gv, GoRuntime.Spec.ReadsGraph L g k v gv → ∃ x, σ'.heap[l]? = some x ∧ HoldsGraph g σ' x gv
  | .error e => e = .panic c!"unexpected non-empty errors" ∧ σ.errors.cap ≠ 1 ∧ ¬ ∃ gv, GoRuntime.Spec.ReadsGraph L g k v gv

/-- C42 for the code which is run, acceptance: the outcome is as described for every stack which is large enough. -/
theorem C42_code_accepts_partial (H : Parses g P) (hO : O.Proper) (hx : ExactGraph g) (hv : Canon v)
    (hl : σ.heap[l]? = some .zero) (he : σ.errors.values = []) {k n : Nat} (hk : DepthLe k v) (hn : k + 2 ≤ n) :
    Reading L g k v l σ (callFrom O L g P n v ref (.ptr ⟨l, []⟩) .errors σ) := by
  have hD := go_distinct_of_valid H.valid
  have hc : GoRuntime.Clean (stOf σ) := he
  have h1 := C86_code (O := O) (L := L) (ref := ref) H hO hv hl hn
  obtain ⟨h2, h3⟩ := GoRuntime.graph_total (L := L) hO hD.names (defined_of H.resolves) k v hv hk ref (newGraph g) (stOf σ) hc
  have h4 := fun gv => GoRuntime.graph_yes (L := L) hO hD hx k v hv ref (stOf σ) hc gv
  have h5 := fun gv st => GoRuntime.graph_no (L := L) hO hD hx k v hv ref (stOf σ) hc gv st
  generalize parseGraph O L g k v ref (newGraph g) (stOf σ) = r at h1 h2 h3 h4 h5
  cases r with
  | error e =>
    have hp : e = .panic c!"unexpected non-empty errors" := h2 e rfl
    subst hp
    rcases h1 with h | h
    · cases h
    · rw [h]
      refine ⟨rfl, fun h => ?_, ?_⟩
      · obtain ⟨_, _, h, _⟩ := h3 h
        cases h
      · rintro ⟨gv, h⟩
        obtain ⟨_, h, _⟩ := h4 gv h
        cases h
  | ok q =>
    obtain ⟨gv, st⟩ := q
    obtain ⟨σ', g1, g2, g3, g4⟩ := h1
    rw [g1]
    have hst : st.errors = σ'.errors := by rw [← g3]; rfl
    have huniq : ∀ gv', GoRuntime.Spec.ReadsGraph L g k v gv' → gv = gv' ∧ σ'.errors.values = [] := by
      intro gv' h
      obtain ⟨st', h6, h7⟩ := h4 gv' h
      cases h6
      exact ⟨rfl, by rw [← hst, h7]; exact he⟩
    refine ⟨rfl, fun a ha hne => g2.same a ha hne, ⟨fun h => ⟨gv, h5 gv st rfl (by rw [← hst] at h; exact h)⟩, ?_⟩, ?_⟩
    · rintro ⟨gv', h⟩
      exact (huniq gv' h).2
    · intro gv' h
      obtain ⟨rfl, h'⟩ := huniq gv' h
      exact g4 ((empty_iff _).2 h')

/-- C41 for the code which is run: with a container for a single error, the call returns for every value; if no error is recorded, the
memory holds a graph which satisfies the schema. -/
theorem C41_code_partial (H : Parses g P) (hO : O.Proper) (hx : ExactGraph g) (hv : Canon v)
    (hl : σ.heap[l]? = some .zero) (he : σ.errors = GoErrors.new 1) {k n : Nat} (hk : DepthLe k v) (hn : k + 2 ≤ n) :
    ∃ σ', callFrom O L g P n v ref (.ptr ⟨l, []⟩) .errors σ = .ok ([], σ') ∧
      (σ'.errors.values = [] → ∃ x gv, σ'.heap[l]? = some x ∧ HoldsGraph g σ' x gv ∧ ValidGraph L g k gv) := by
  have h := C42_code_accepts_partial (O := O) (L := L) (ref := ref) H hO hx hv hl (by rw [he]; rfl) hk hn
  generalize callFrom O L g P n v ref (.ptr ⟨l, []⟩) .errors σ = R at h
  cases R with
  | error e => exact absurd (by rw [he]; rfl) h.2.1
  | ok q =>
    obtain ⟨rs, σ'⟩ := q
    obtain ⟨rfl, _, h1, h2⟩ := h
    refine ⟨σ', rfl, fun h => ?_⟩
    obtain ⟨gv, hg⟩ := h1.1 h
    obtain ⟨x, hx, hh⟩ := h2 gv hg
    exact ⟨x, gv, hx, hh, GoRuntime.valid_of_reads hv hg⟩

/-- C42 for the code which is run, both ways: a graph in the memory which satisfies the schema is written without an error, and the
code of the parser reads the JSON text of the result without an error into a memory which holds the same graph. -/
theorem C42_code_both_partial {O' : Order} {Q : Program} {d : Nat} {a : Addr} {x : Val} {gv : GraphVal} {τ : St} (hO : O.Proper)
    (hO' : O'.Proper) (hL : ∀ t, L.formatTime t [] = []) (hx : ExactGraph g) (hk : JsonKeys g) (E : Emitted g Q) (H : Parses g P)
    (ha : σ.read a = some x) (hh : HoldsGraph g σ x gv) (hv : ValidGraph L g d gv) (hf : FaithfulGraph L g d gv)
    (hl : τ.heap[l]? = some .zero) (he : τ.errors.values = []) {n m : Nat} (hn : d + 2 ≤ n) (hm : d + 2 ≤ m) :
    ∃ w e σ' j t τ' y, callTo O L g Q n (.ptr a) σ = .ok ([w, e], σ') ∧ e.isNil = true ∧ Jsonable σ'.heap σ.heap.length j w ∧
      wire j = some t ∧ callFrom O' L g P m t ref (.ptr ⟨l, []⟩) .errors τ = .ok ([], τ') ∧ τ'.errors.values = [] ∧
      τ'.heap[l]? = some y ∧ HoldsGraph g τ' y gv := by
  obtain ⟨j, r', t, h1, h2, h3, h4⟩ := GoRuntime.ser_graph hO hL (go_distinct_of_valid H.valid) hk d gv hv hf σ.ranges
  have h := C85_code (O := O) (L := L) E ha hh hn
  rw [h1] at h
  obtain ⟨w, e, σ', h5, h6, _, h7, _⟩ := h
  obtain ⟨st, h8, h9⟩ := GoRuntime.graph_yes (L := L) hO' (go_distinct_of_valid H.valid) hx d t h3 ref (stOf τ) he gv h4
  have h10 := C86_code (O := O') (L := L) (ref := ref) H hO' h3 hl hm
  rw [h8] at h10
  obtain ⟨τ', g1, _, g3, g4⟩ := h10
  have hvals : τ'.errors.values = [] := by
    have : (stOf τ').errors = τ.errors := by rw [g3, h9]; rfl
    rw [show τ'.errors = τ.errors from this]
    exact he
  obtain ⟨y, hy, hy'⟩ := g4 ((empty_iff _).2 hvals)
  exact ⟨w, e, σ', j, t, τ', y, h5, h6, h7, h2, g1, hvals, hy, hy'⟩

/-- The code of the serializer writes what the code of the parser has read, in the memory in which the parser has left it. -/
theorem C42_code_again_partial {O' : Order} {Q : Program} (H : Parses g P) (E : Emitted g Q) (hO : O.Proper) (hO' : O'.Proper)
    (hL : ∀ t, L.formatTime t [] = []) (hx : ExactGraph g) (hk : JsonKeys g) (hv : Canon v) (hl : σ.heap[l]? = some .zero)
    (he : σ.errors.values = []) {d n m : Nat} {gv : GraphVal} (hr : GoRuntime.Spec.ReadsGraph L g d v gv)
    (hf : FaithfulGraph L g d gv) (hn : d + 2 ≤ n) (hm : d + 2 ≤ m) :
    ∃ σ' w e σ'' j t, callFrom O L g P n v ref (.ptr ⟨l, []⟩) .errors σ = .ok ([], σ') ∧ σ'.errors.values = [] ∧
      callTo O' L g Q m (.ptr ⟨l, []⟩) σ' = .ok ([w, e], σ'') ∧ e.isNil = true ∧
      Jsonable σ''.heap σ'.heap.length j w ∧ wire j = some t ∧ GoRuntime.Spec.ReadsGraph L g d t gv := by
  have hD := go_distinct_of_valid H.valid
  obtain ⟨st, h1, h2⟩ := GoRuntime.graph_yes (L := L) hO hD hx d v hv ref (stOf σ) he gv hr
  have h3 := C86_code (O := O) (L := L) (ref := ref) H hO hv hl hn
  rw [h1] at h3
  obtain ⟨σ', g1, _, g3, g4⟩ := h3
  have hvals : σ'.errors.values = [] := by
    have : (stOf σ').errors = σ.errors := by rw [g3, h2]; rfl
    rw [show σ'.errors = σ.errors from this]
    exact he
  obtain ⟨y, hy, hh⟩ := g4 ((empty_iff _).2 hvals)
  have ha : σ'.read ⟨l, []⟩ = some y := by
    unfold St.read
    rw [hy]
    rfl
  obtain ⟨j, r', t, k1, k2, k3, k4⟩ := GoRuntime.ser_graph hO' hL hD hk d gv (GoRuntime.valid_of_reads hv hr) hf σ'.ranges
  have h := C85_code (O := O') (L := L) E ha hh hm
  rw [k1] at h
  obtain ⟨w, e, σ'', h5, h6, _, h7, _⟩ := h
  exact ⟨σ', w, e, σ'', j, t, g1, hvals, h5, h6, h7, k2, k4⟩

/-- The code starts with the checks of its arguments. -/
theorem call_checks (H : Parses g P) (n : Nat) (t e : Val) : ∃ ρ h' ss, Grown σ.heap h' ∧
    eval L P.patterns ρ { σ with heap := h' } (.var (GoCode.v c!"target")) = .ok t ∧
    eval L P.patterns ρ { σ with heap := h' } (.var GoCode.errors) = .ok e ∧
    callFrom O L g P (n + 1) v ref t e σ =
      (exec L P.patterns O (run O L P n) (GoGen.block (GoGen.preamble :: ss)) ρ { σ with heap := h' }).map fun q => ([], q.2.2) := by
  obtain ⟨F, hF, hgen⟩ := (reader_ok H).graph
  obtain ⟨f, alloc, insts, props, h1, -, -, -, hFe⟩ := graph_code hgen
  rw [graph_camel H] at h1
  cases h1
  have hFn : F.name = camelSpec true g.name ++ c!"FromJSONable" := by rw [hFe]
  obtain ⟨ρ1, hb, -, hpar⟩ := bind_ok (R := fun y w => (y = GoCode.v c!"target" → w = t) ∧ (y = GoCode.errors → w = e))
    (xs := [GoCode.v c!"value", GoCode.v c!"ref", GoCode.v c!"target", GoCode.errors]) (ws := [.json v, .str ref, t, e])
    (.cons ⟨fun h => absurd h (by decide), fun h => absurd h (by decide)⟩
      (.cons ⟨fun h => absurd h (by decide), fun h => absurd h (by decide)⟩
      (.cons ⟨fun _ => rfl, fun h => absurd h (by decide)⟩ (.cons ⟨fun h => absurd h (by decide), fun _ => rfl⟩ .nil)))) [] σ
  obtain ⟨lt, wt, hlt1, -, hlt3, hlt4⟩ := hpar (GoCode.v c!"target") (by simp)
  cases hlt4.1 rfl
  obtain ⟨le, we, hle1, -, hle3, hle4⟩ := hpar GoCode.errors (by simp)
  cases hle4.2 rfl
  refine ⟨ρ1, _, [GoGen.castMap (some (GoCode.v c!"cast")), GoGen.block alloc,
    if g.classes.isEmpty then Stmt.skip else GoGen.when Expr.errorsEmpty.not Stmt.ret, GoGen.block insts, props, Stmt.ret],
    ⟨by simp, fun k hk _ => List.getElem?_append_left hk⟩, eval_var L P.patterns hlt1 hlt3, eval_var L P.patterns hle1 hle3, ?_⟩
  · unfold callFrom
    rw [← hFn, run_void (reader_ok H).names hF (by rw [hFe]) (by rw [hFe]) n (ρ := ρ1) (by rw [hFe]; exact hb)]
    rw [hFe]

/-- A call without a target -/
theorem C86_nil_target (H : Parses g P) (n : Nat) (e : Val) :
    callFrom O L g P (n + 1) v ref .nil e σ = .error (.panic c!"unexpected nil target") := by
  obtain ⟨ρ, h', ss, -, h1, h2, h3⟩ := call_checks (O := O) (L := L) (v := v) (ref := ref) (σ := σ) H n .nil e
  rw [h3, exec_stop (e := .panic c!"unexpected nil target")]
  · rfl
  · rw [GoGen.preamble, exec_stop]
    exact exec_when_true (eval_isNil h1)

/-- A call without a container of errors -/
theorem C86_nil_errors (H : Parses g P) (n : Nat) (a : Addr) :
    callFrom O L g P (n + 1) v ref (.ptr a) .nil σ = .error (.panic c!"unexpected nil errors") := by
  obtain ⟨ρ, h', ss, -, h1, h2, h3⟩ := call_checks (O := O) (L := L) (v := v) (ref := ref) (σ := σ) H n (.ptr a) .nil
  rw [h3, exec_stop (e := .panic c!"unexpected nil errors")]
  · rfl
  · rw [GoGen.preamble, exec_next (exec_when_false (eval_isNil h1)), exec_stop]
    exact exec_when_true (eval_isNil h2)

/-- A call with a container which holds errors -/
theorem C86_nonempty_errors (H : Parses g P) (n : Nat) (a : Addr) (he : σ.errors.values ≠ []) :
    callFrom O L g P (n + 1) v ref (.ptr a) .errors σ = .error (.panic c!"unexpected non-empty errors") := by
  obtain ⟨ρ, h', ss, -, h1, h2, h3⟩ := call_checks (O := O) (L := L) (v := v) (ref := ref) (σ := σ) H n (.ptr a) .errors
  have hne : σ.errors.empty = false := by
    cases h : σ.errors.empty with
    | false => rfl
    | true => exact absurd ((empty_iff _).1 h) he
  have := preamble_ok (O := O) (L := L) (pats := P.patterns) (call := run O L P n) h1 h2
  rw [h3, exec_stop (e := .panic c!"unexpected non-empty errors")]
  · rfl
  · rw [this, if_neg (show ¬ (Val.ptr a).isNil = true from Bool.false_ne_true), if_neg]
    rw [show ({ σ with heap := h' } : St).errors.empty = σ.errors.empty from rfl, hne]
    exact Bool.false_ne_true

end

/-! ## Examples -/

namespace Demo

theorem resolves : GoCode.Resolves GoRuntime.Demo.schema := by
  have key : ∀ x ∈ iterateOverTypes GoRuntime.Demo.schema, (match x.1 with
      | .cls n => decide (n ∈ GoRuntime.Demo.schema.classes.map (·.name))
      | .embed n => decide (n ∈ GoRuntime.Demo.schema.embeds.map (·.name))
      | _ => true) = true := List.all_eq_true.1 (by decide +kernel)
  constructor
  · intro n hn
    obtain ⟨r, hm⟩ := GoCode.mem_iterate.2 hn
    have := key _ hm
    simp only [decide_eq_true_eq, List.mem_map] at this
    exact this
  · intro n hn
    obtain ⟨r, hm⟩ := GoCode.mem_iterate.2 hn
    have := key _ hm
    simp only [decide_eq_true_eq, List.mem_map] at this
    exact this

theorem read_code : ∃ P, Parses GoRuntime.Demo.schema P := by
  obtain ⟨P, h⟩ := Go.Demo.of_isOk (x := GoGen.reader GoRuntime.Demo.schema) (by decide +kernel)
  exact ⟨P, h, GoGen.reader_nodup h (by decide +kernel), ⟨by decide +kernel, by decide +kernel⟩, resolves, schema_valid, ⟨_, rfl⟩,
    by decide +kernel⟩

/-- A memory with a new graph and a container for at most `cap` errors -/
def fresh (cap : Nat) : St := ⟨[.zero], GoErrors.new cap, 0⟩

end Demo

/-- The code for the schema of the examples -/
example : ∃ P, Parses SchemaDemo.schema.graph P := by
  obtain ⟨fs, h⟩ := Go.Demo.generated
  obtain ⟨P, hP⟩ := C60_read _ _ _ _ _ h
  obtain ⟨h1, h2, h3, h4, h5, h6⟩ := Go.Demo.fine_fits (g := SchemaDemo.schema.graph) (by decide +kernel)
  exact ⟨P, parses h ⟨h1, h2, h3, h4, h5, h6, Go.Demo.bounded_iff.1 (by decide +kernel)⟩ hP⟩

/-- A graph is read. -/
example : ∃ P σ' x, Parses GoRuntime.Demo.schema P ∧
    callFrom GoRuntime.Demo.order GoRuntime.Demo.lib GoRuntime.Demo.schema P 5 GoRuntime.Demo.input c!"#" (.ptr ⟨0, []⟩) .errors
      (Demo.fresh 0) = .ok ([], σ') ∧ σ'.errors = GoErrors.new 0 ∧ σ'.heap[0]? = some x ∧
    HoldsGraph GoRuntime.Demo.schema σ' x GoRuntime.Demo.value := by
  obtain ⟨P, H⟩ := Demo.read_code
  have h := C86_code (O := GoRuntime.Demo.order) (L := GoRuntime.Demo.lib) (ref := c!"#") (σ := Demo.fresh 0) (l := 0) H
    GoRuntime.Demo.order_proper input_canon rfl (Nat.le_refl 5)
  rw [show parseGraph GoRuntime.Demo.order GoRuntime.Demo.lib GoRuntime.Demo.schema 3 GoRuntime.Demo.input c!"#"
    (newGraph GoRuntime.Demo.schema) (stOf (Demo.fresh 0)) = _ from demo_parsed] at h
  obtain ⟨σ', h1, _, h3, h4⟩ := h
  have he : σ'.errors = GoErrors.new 0 := congrArg GoRuntime.St.errors h3
  obtain ⟨x, h5, h6⟩ := h4 (by rw [he]; rfl)
  exact ⟨P, σ', x, H, h1, he, h5, h6⟩

/-- C41 is violated by the code: it panics although the container is empty at the start. -/
theorem C41_code_violated : ∃ P, Parses GoRuntime.Demo.schema P ∧
    callFrom GoRuntime.Demo.order GoRuntime.Demo.lib GoRuntime.Demo.schema P 5 GoRuntime.Demo.wrong c!"#" (.ptr ⟨0, []⟩) .errors
      (Demo.fresh 0) = .error (.panic c!"unexpected non-empty errors") := by
  obtain ⟨P, H⟩ := Demo.read_code
  have h := C86_code (O := GoRuntime.Demo.order) (L := GoRuntime.Demo.lib) (ref := c!"#") (σ := Demo.fresh 0) (l := 0) H
    GoRuntime.Demo.order_proper wrong_canon rfl (Nat.le_refl 5)
  rw [show parseGraph GoRuntime.Demo.order GoRuntime.Demo.lib GoRuntime.Demo.schema 3 GoRuntime.Demo.wrong c!"#"
    (newGraph GoRuntime.Demo.schema) (stOf (Demo.fresh 0)) = .error (.panic c!"unexpected non-empty errors") from rfl] at h
  rcases h with h | h
  · cases h
  · exact ⟨P, H, h⟩

/-- With a container for a single error it returns. -/
example : ∃ P σ', Parses GoRuntime.Demo.schema P ∧
    callFrom GoRuntime.Demo.order GoRuntime.Demo.lib GoRuntime.Demo.schema P 5 GoRuntime.Demo.wrong c!"#" (.ptr ⟨0, []⟩) .errors
      (Demo.fresh 1) = .ok ([], σ') := by
  obtain ⟨P, H⟩ := Demo.read_code
  obtain ⟨σ', h, _⟩ := C41_code_partial (O := GoRuntime.Demo.order) (L := GoRuntime.Demo.lib) (ref := c!"#") (σ := Demo.fresh 1) (l := 0)
    H GoRuntime.Demo.order_proper schema_exact wrong_canon rfl rfl wrong_depth (Nat.le_refl 5)
  exact ⟨P, σ', H, h⟩

/-- The graph in the memory is written and read back by the generated code. -/
example : ∃ P Q w e σ' j t τ' y, Parses GoRuntime.Demo.schema P ∧ Emitted GoRuntime.Demo.schema Q ∧
    callTo GoRuntime.Demo.order GoRuntime.Demo.lib GoRuntime.Demo.schema Q 5 (.ptr ⟨0, []⟩) (Demo.memory c!"p1") = .ok ([w, e], σ') ∧
    e.isNil = true ∧ Jsonable σ'.heap 8 j w ∧ wire j = some t ∧
    callFrom GoRuntime.Demo.order GoRuntime.Demo.lib GoRuntime.Demo.schema P 5 t c!"#" (.ptr ⟨0, []⟩) .errors (Demo.fresh 7) =
      .ok ([], τ') ∧ τ'.errors.values = [] ∧ τ'.heap[0]? = some y ∧ HoldsGraph GoRuntime.Demo.schema τ' y GoRuntime.Demo.value := by
  obtain ⟨P, H⟩ := Demo.read_code
  obtain ⟨Q, E⟩ := Demo.code
  have hv := C41_valid_partial GoRuntime.Demo.order GoRuntime.Demo.lib GoRuntime.Demo.schema 3 GoRuntime.Demo.input c!"#"
    GoRuntime.Demo.order_proper schema_valid schema_exact input_canon 0 GoRuntime.Demo.value _ demo_parsed rfl
  obtain ⟨w, e, σ', j, t, τ', y, h⟩ := C42_code_both_partial (L := GoRuntime.Demo.lib) (ref := c!"#") (τ := Demo.fresh 7) (l := 0)
    GoRuntime.Demo.order_proper GoRuntime.Demo.order_proper demo_reliable.empty schema_exact demo_keys E H
    (show (Demo.memory c!"p1").read ⟨0, []⟩ = some _ from rfl) (Demo.holds (by decide)) hv
    (GoRuntime.faithful_graph demo_reliable (go_distinct_of_valid schema_valid) hv demo_plain) rfl rfl (Nat.le_refl 5) (Nat.le_refl 5)
  exact ⟨P, Q, w, e, σ', j, t, τ', y, H, E, h⟩

/-- What has been read is written in the same memory. -/
example : ∃ P Q σ' w e σ'' j t, Parses GoRuntime.Demo.schema P ∧ Emitted GoRuntime.Demo.schema Q ∧
    callFrom GoRuntime.Demo.order GoRuntime.Demo.lib GoRuntime.Demo.schema P 5 GoRuntime.Demo.input c!"#" (.ptr ⟨0, []⟩) .errors
      (Demo.fresh 0) = .ok ([], σ') ∧ σ'.errors.values = [] ∧
    callTo GoRuntime.Demo.order GoRuntime.Demo.lib GoRuntime.Demo.schema Q 5 (.ptr ⟨0, []⟩) σ' = .ok ([w, e], σ'') ∧
    e.isNil = true ∧ Jsonable σ''.heap σ'.heap.length j w ∧ wire j = some t ∧
    GoRuntime.Spec.ReadsGraph GoRuntime.Demo.lib GoRuntime.Demo.schema 3 t GoRuntime.Demo.value := by
  obtain ⟨P, H⟩ := Demo.read_code
  obtain ⟨Q, E⟩ := Demo.code
  have hr := (C42_accepts_partial GoRuntime.Demo.order GoRuntime.Demo.lib GoRuntime.Demo.schema 3 c!"#" 0 GoRuntime.Demo.order_proper
    schema_valid schema_exact GoRuntime.Demo.input input_canon GoRuntime.Demo.value).1 ⟨_, demo_parsed, rfl⟩
  obtain ⟨σ', w, e, σ'', j, t, h⟩ := C42_code_again_partial (O := GoRuntime.Demo.order) (O' := GoRuntime.Demo.order)
    (ref := c!"#") (σ := Demo.fresh 0) (l := 0) H E GoRuntime.Demo.order_proper GoRuntime.Demo.order_proper demo_reliable.empty schema_exact
    demo_keys input_canon rfl rfl hr (GoRuntime.faithful_graph demo_reliable (go_distinct_of_valid schema_valid)
      (GoRuntime.valid_of_reads input_canon hr) demo_plain) (Nat.le_refl 5) (Nat.le_refl 5)
  exact ⟨P, Q, σ', w, e, σ'', j, t, H, E, h⟩

/-- Wrong arguments -/
example : ∃ P, Parses GoRuntime.Demo.schema P ∧
    callFrom GoRuntime.Demo.order GoRuntime.Demo.lib GoRuntime.Demo.schema P 3 .null [] .nil .errors (Demo.fresh 0) =
      .error (.panic c!"unexpected nil target") ∧
    callFrom GoRuntime.Demo.order GoRuntime.Demo.lib GoRuntime.Demo.schema P 3 .null [] (.ptr ⟨0, []⟩) .nil (Demo.fresh 0) =
      .error (.panic c!"unexpected nil errors") ∧
    callFrom GoRuntime.Demo.order GoRuntime.Demo.lib GoRuntime.Demo.schema P 3 .null [] (.ptr ⟨0, []⟩) .errors
      ⟨[.zero], ⟨0, [⟨[], []⟩]⟩, 0⟩ = .error (.panic c!"unexpected non-empty errors") := by
  obtain ⟨P, H⟩ := Demo.read_code
  exact ⟨P, H, C86_nil_target H 2 _, C86_nil_errors H 2 _, C86_nonempty_errors H 2 _ (by simp)⟩

end Mapry.Props.GoExec
