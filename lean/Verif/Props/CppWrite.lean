import Verif.CppOutcome
import Verif.CppWritten
import Verif.Props.CppCompiles
import Verif.Props.CppRound

/-! # C89: the generated C++ code of the serializer, run statement by statement -/

namespace Mapry.Props.CppExec

open Mapry.CppLang Mapry.CppExec Mapry.Naming Mapry.LangValidate Mapry.ParseSchema
open Mapry.CppRuntime (JVal Lib DateLib GraphVal serGraph newGraph Instance idMessage registryIn)
open Mapry.CppRuntime.Spec (SoundGraph NoGarbage JsonKeys ValidGraph FaithfulGraph Canon)
open Mapry.Props.Cpp (Accepts LowerNames)
open Mapry.PyRuntime (Json)
open Mapry.Props.CppNames (Generated Compiles usesDateH)

/-- `P` is the code of the serializer of the generated file, the compiler accepts its functions, and no two of them have the same
name and the same parameter. This is the case whenever the generated files compile (`C89_emitted`). -/
structure Emitted (g : Graph) (settings : Cpp) (D : DateLib) (P : Program) : Prop where
  code : CppGen.writer g settings = .ok P
  dates : CppGen.dateLib settings = .ok D
  apart : Apart P
  accepted : Accepted P

/-- The library of the settings -/
def library (settings : Cpp) : DateLib := if usesDateH settings then .dateH else .ctime

theorem body_ok {f : CppCode.Func} : ∀ {items : List CppCode.Item} {W : CppCode.World}, CppCode.bodiesOk W items → .func f ∈ items →
    ∃ W', f.ok W' = true := by
  intro items
  induction items with
  | nil => intro W _ h; cases h
  | cons i items ih =>
    intro W h hf
    cases i with
    | func f' =>
      rcases List.mem_cons.1 hf with e | hf
      · cases e; exact ⟨_, h.1⟩
      · exact ih h.2 hf
    | helper s => exact ih (W := W.declare s) h ((List.mem_cons.1 hf).resolve_left nofun)
    | pattern n => exact ih (W := { W with patterns := n :: W.patterns }) h ((List.mem_cons.1 hf).resolve_left nofun)

/-- The functions which are run are those which the compiler sees. -/
theorem C90_same_code {g : Graph} {settings : Cpp} {items : List CppCode.Item} (h : CppCode.jsonImpl g settings = .ok items) :
    ∃ P before, CppGen.writer g settings = .ok P ∧ items = before ++ P.map fun f => .func (CppErase.func f) := by
  obtain ⟨ps, graph, date, classes, embeds, classesTo, embedsTo, graphTo, _, _, _, _, _, h1, h2, h3, rfl⟩ := CppCode.jsonImpl_inv h
  have hw : CppErase.writer g settings = .ok (classesTo ++ embedsTo ++ [graphTo]) := by
    simp only [CppErase.writer, h1, h2, h3]
    rfl
  rw [CppErase.writer_eq] at hw
  cases hP : CppGen.writer g settings with
  | error e => rw [hP] at hw; cases hw
  | ok P =>
    rw [hP] at hw
    have he : P.map CppErase.func = classesTo ++ embedsTo ++ [graphTo] := Except.ok.inj hw
    have hm : (P.map fun f => CppCode.Item.func (CppErase.func f)) = (classesTo ++ embedsTo ++ [graphTo]).map .func := by
      rw [← he, List.map_map]
      rfl
    rw [show classes ++ embeds ++ classesTo ++ embedsTo ++ [graphTo] = (classes ++ embeds) ++ (classesTo ++ embedsTo ++ [graphTo]) by simp,
      List.map_append, ← List.append_assoc, ← hm]
    exact ⟨P, _, rfl, rfl⟩

/-- The code is generated and accepted whenever the files compile. -/
theorem C89_emitted {V : Validation.Lib} {mapping : Json} {ref : Str} {s : Schema} {settings : Cpp} {H : CppCode.TypesHeader}
    {sigs : List CppCode.Sig} {items : List CppCode.Item} (h : Generated V mapping ref s settings H sigs items)
    (hc : Compiles H sigs items) : ∃ P, Emitted s.graph settings (library settings) P := by
  obtain ⟨P, before, hP, rfl⟩ := C90_same_code h.impl
  refine ⟨P, hP, ?_, ?_, fun f hf => ?_⟩
  · simp only [CppGen.dateLib, h.date, library]
    rfl
  · have hn := hc.2.1.1
    rw [List.filterMap_append, List.map_append] at hn
    have hn := (List.nodup_append.1 hn).2.1
    have he : (P.map fun f => CppCode.Item.func (CppErase.func f)).filterMap CppCode.Item.sig? = P.map fun f => (CppErase.func f).sig := by
      rw [List.filterMap_map]
      exact congrFun List.filterMap_eq_map P
    rw [he, List.map_map] at hn
    unfold Apart
    have hm : (P.map fun f => (f.name, f.ty)).map (fun k => (k.1, [CppCode.CTy.struct k.2])) =
        P.map ((fun s => (s.name, s.params)) ∘ fun f => (CppErase.func f).sig) := by
      rw [List.map_map]
      rfl
    rw [← hm] at hn
    exact List.Pairwise.of_map _ (fun a b h e => h (e ▸ rfl)) hn
  · exact body_ok hc.2.2 (List.mem_append_right _ (List.mem_map_of_mem (f := fun f => CppCode.Item.func (CppErase.func f)) hf))

/-- **C90.** The variable which is found by its text is the one which is meant. -/
theorem C90_written {V : Validation.Lib} {mapping : Json} {ref : Str} {s : Schema} {settings : Cpp} {H : CppCode.TypesHeader}
    {sigs : List CppCode.Sig} {items : List CppCode.Item} (h : Generated V mapping ref s settings H sigs items)
    (hc : Compiles H sigs items) (L : Lib) (heap : List Val) : ∃ P, CppGen.writer s.graph settings = .ok P ∧
      ∀ n f v, run written L heap P n f v = run meant L heap P n f v := by
  obtain ⟨P, E⟩ := C89_emitted h hc
  exact ⟨P, E.code, run_written E.accepted⟩

/-- The call `serialize_<graph>(x)` with a stack of `n` frames. The variables are found by their texts. -/
def callTo (L : Lib) (heap : List Val) (g : Graph) (P : Program) (n : Nat) (x : Val) : Except Exc JVal :=
  run written L heap P n (c!"serialize_" ++ lower g.name) x

section

variable {L : Lib} {heap : List Val} {g : Graph} {settings : Cpp} {D : DateLib} {P : Program} {x : Val} {gv : GraphVal}

theorem graph_variable (E : Emitted g settings D P) : asVariable g.name = .ok (lower g.name) := by
  obtain ⟨fn, _, h⟩ := (parts E.code).graph
  simp only [CppGen.serializeGraph] at h
  cases hf : asVariable g.name with
  | error e => rw [hf] at h; cases h
  | ok f => rw [(PyCode.asVariable_eq hf).1]

/-! ## The code does what the serializer does -/

/-- **C89**, for graphs in which no vector has more items than an `int` counts (`C89_violated_long`) and no optional value is a
null pointer (`C89_violated_null`), and for files which the checker of C77 accepts (`C89_violated_hidden`). If the serializer ends with `k` frames, the generated code returns the same `Json::Value` with at least two frames
more, or it throws the same exception. -/
theorem C89_code_partial (E : Emitted g settings D P) (hh : HoldsGraph D g heap x gv) {k n : Nat} (hn : k + 2 ≤ n)
    (hk : serGraph D L g k gv ≠ .error .recursionError) : callTo L heap g P n x = serGraph D L g k gv := by
  obtain ⟨m, rfl⟩ : ∃ m, n = m + 2 := ⟨n - 2, by omega⟩
  have h := graph_ok (L := L) E.dates E.code E.apart (k := k) (n := m) (by omega) hh (graph_variable E)
  rw [callTo, run_written E.accepted]
  generalize serGraph D L g k gv = r at h hk
  cases r with
  | ok j => exact h
  | error e => cases e <;> first | exact absurd rfl hk | exact h

/-! ## What the caller sees -/

theorem no_recursion_value {t : Ty} {y : CV} {e : Exc} (h : Raises D L g t y e) : e ≠ .recursionError := by
  induction h <;> first | (intro h; cases h; done) | assumption

theorem no_recursion {e : Exc} (h : RaisesGraph D L g gv e) : e ≠ .recursionError := by
  rcases h with ⟨_, _, _, _, _, h⟩ | ⟨_, _, _, _, ⟨_, h⟩ | ⟨_, _, _, _, _, h⟩⟩
  · exact no_recursion_value h
  · intro he; rw [he] at h; cases h
  · exact no_recursion_value h

/-- With a stack which is large enough the call ends. It returns a value exactly if nothing in the graph prevents it, and
otherwise it throws one of the exceptions which the graph gives rise to (`RaisesGraph`). -/
theorem C89_outcome_partial (E : Emitted g settings D P) (hh : HoldsGraph D g heap x gv) : ∃ k, ∀ n, k ≤ n →
    (∃ j, callTo L heap g P n x = .ok j ∧ ∀ e, ¬ RaisesGraph D L g gv e) ∨
      ∃ e, callTo L heap g P n x = .error e ∧ RaisesGraph D L g gv e := by
  refine ⟨sizeOf gv + 2, fun n hn => ?_⟩
  have h2 := tells_graph (L := L) hh (Nat.le_refl _)
  have h1 := C89_code_partial (L := L) E hh hn
  cases hr : serGraph D L g (sizeOf gv) gv with
  | ok j =>
    rw [hr] at h1 h2
    exact .inl ⟨j, h1 nofun, h2⟩
  | error e =>
    rw [hr] at h1 h2
    refine .inr ⟨e, h1 ?_, h2⟩
    rintro ⟨⟩
    exact no_recursion h2 rfl

/-- The call returns exactly if nothing in the graph prevents it. -/
theorem C89_returns_iff_partial (E : Emitted g settings D P) (hh : HoldsGraph D g heap x gv) : ∃ k, ∀ n, k ≤ n →
    ((∃ j, callTo L heap g P n x = .ok j) ↔ ∀ e, ¬ RaisesGraph D L g gv e) := by
  obtain ⟨k, hk⟩ := C89_outcome_partial (L := L) E hh
  refine ⟨k, fun n hn => ?_⟩
  rcases hk n hn with ⟨j, h1, h2⟩ | ⟨e, h1, h2⟩
  · exact ⟨fun _ => h2, fun _ => ⟨j, h1⟩⟩
  · refine ⟨fun ⟨j, h⟩ => ?_, fun h => absurd h2 (h e)⟩
    rw [h1] at h
    cases h

/-- The result does not depend on the stack if it is large enough. -/
theorem C89_stack_partial (E : Emitted g settings D P) (hh : HoldsGraph D g heap x gv) : ∃ k r, r ≠ .error .recursionError ∧
    ∀ n, k ≤ n → callTo L heap g P n x = r := by
  have h2 := tells_graph (L := L) hh (Nat.le_refl _)
  have hne : serGraph D L g (sizeOf gv) gv ≠ .error .recursionError := by
    intro he
    rw [he] at h2
    exact no_recursion h2 rfl
  exact ⟨sizeOf gv + 2, _, hne, fun n hn => C89_code_partial E hh hn hne⟩

/-- C54 for the code which is run: a graph which satisfies the schema is written without an exception, and the parser reads the
result as the same graph. -/
theorem C54_code_partial {d cap : Nat} {ref : Str} (hg : validateSchema cpp g = .ok []) (hl : LowerNames g)
    (hs : SoundGraph g) (hG : NoGarbage L) (hJ : JsonKeys g) (E : Emitted g settings D P) (hh : HoldsGraph D g heap x gv)
    (hv : ValidGraph g D L d gv) (hf : FaithfulGraph g D L d gv) (hcap : 0 < cap) {n : Nat} (hn : d + 2 ≤ n) :
    ∃ j, callTo L heap g P n x = .ok j ∧ Canon j ∧ Accepts D L g d j ref (newGraph g) cap gv := by
  obtain ⟨j, h1, h2, h3⟩ := Cpp.C54_round_trip_partial D L g d gv ref cap hg hl hs hG hJ hv hf hcap
  refine ⟨j, ?_, h2, h3⟩
  rw [C89_code_partial E hh hn (by rw [h1]; nofun), h1]

end

/-! ## Examples -/

namespace Demo

open Mapry.CppRuntime.Demo (lib schema value single)

/-- The settings: `struct tm`, or date.h -/
def settings (date : Bool) : Cpp where
  ns := c!"town"
  pathAs := c!"std::filesystem::path"
  optionalAs := c!"std::optional"
  datetimeLibrary := if date then c!"date.h" else c!"ctime"
  indention := c!"  "

/-- The code is generated, and the compiler accepts it. -/
def accepts (g : Graph) (date : Bool) : Bool :=
  match CppCode.typesHeader g (settings date), CppCode.jsonHeader g (settings date), CppCode.jsonImpl g (settings date),
    CppGen.writer g (settings date) with
  | .ok H, .ok sigs, .ok items, .ok P =>
    (P.all fun f => (CppErase.func f).ok (CppCode.worldAfter (CppCode.world H sigs) items)) &&
      decide (P.map fun f => (f.name, f.ty)).Nodup
  | _, _, _, _ => false

theorem emitted {g : Graph} {date : Bool} (h : accepts g date = true) :
    ∃ P, Emitted g (settings date) (if date then .dateH else .ctime) P := by
  unfold accepts at h
  split at h
  · rename_i H sigs items P h1 h2 h3 h4
    simp only [Bool.and_eq_true, List.all_eq_true, decide_eq_true_eq] at h
    exact ⟨P, h4, (by cases date <;> rfl), h.2, fun f hf => ⟨_, h.1 f hf⟩⟩
  · cases h

/-- The persons: the first one refers to the second one. -/
def heap : List Val := [
  .struct c!"Person" [(c!"id", .str c!"p1"), (c!"full_name", .str c!"Al"), (c!"age", .int 33), (c!"born", .optional none),
    (c!"best_friend", .optional (some (.ptr (some 1))))],
  .struct c!"Person" [(c!"id", .str c!"p2"), (c!"full_name", .str c!"Ada"), (c!"age", .int 1),
    (c!"born", .optional (some (.tm { year := 2020, month := 1, day := 2 }))), (c!"best_friend", .optional none)]]

/-- The graph: the first person is registered under the identifier `k`. -/
def town (k : Str) : Val := .struct c!"Town" [
  (c!"homes", .vector [
    .struct c!"Address" [(c!"street", .str c!"Main"), (c!"number", .optional (some (.int (-3))))],
    .struct c!"Address" [(c!"street", .str c!"Side"), (c!"number", .optional none)]]),
  (c!"weights", .optional (some (.map [(c!"x", .float (.fin 2)), (c!"y", .float (.fin 7))]))),
  (c!"wait", .optional (some (.nanos 1000000000))),
  (c!"persons", .map [(k, .ptr (some 0)), (c!"p2", .ptr (some 1))])]

/-- The graph of the model -/
def graph (k : Str) : GraphVal where
  registries := [(c!"Person", [
    (k, ⟨c!"p1", [(c!"full_name", .str c!"Al"), (c!"age", .int 33), (c!"born", .nil), (c!"best_friend", .ref c!"Person" c!"p2")]⟩),
    (c!"p2", ⟨c!"p2", [(c!"full_name", .str c!"Ada"), (c!"age", .int 1),
      (c!"born", .time { year := 2020, month := 1, day := 2 }), (c!"best_friend", .nil)]⟩)])]
  fields := value.fields

theorem holds_address {s : Str} {i : CV} {w : Val}
    (h : HoldsProp .ctime schema heap { name := c!"number", ty := .integer {}, json := c!"no", optional := true } w i) :
    Holds .ctime schema heap (.embed c!"Address") (.struct c!"Address" [(c!"street", .str s), (c!"number", w)])
      (.obj c!"Address" [(c!"street", .str s), (c!"number", i)]) := by
  refine .embed (e := schema.embeds.head (by decide)) (fun p => if p.name = c!"street" then .str s else i)
    (fun p => if p.name = c!"street" then .str s else w) rfl rfl ?_ ?_ ?_ <;> intro p hp <;>
    simp only [schema, PyRuntime.Demo.schema, List.head_cons, List.mem_cons, List.not_mem_nil, or_false] at hp <;>
    rcases hp with rfl | rfl
  · rfl
  · rfl
  · rfl
  · rfl
  · exact .direct rfl (.string _ _)
  · exact h

theorem holds (k : Str) : HoldsGraph .ctime schema heap (town k) (graph k) := by
  refine ⟨⟨_, _, rfl, rfl⟩, ?_, ?_⟩
  · intro p hp
    simp only [schema, PyRuntime.Demo.schema, List.mem_cons, List.not_mem_nil, or_false] at hp
    rcases hp with rfl | rfl | rfl
    · refine ⟨_, _, rfl, rfl, .direct rfl (.array rfl (by decide) ?_)⟩
      intro i x y hx hy
      rcases i with _ | _ | i
      · cases hx
        cases hy
        exact holds_address (.some rfl (.integer _ _) nofun)
      · cases hx
        cases hy
        exact holds_address (.none rfl)
      · cases hx
    · refine ⟨_, _, rfl, rfl, .some rfl (.map rfl ?_) nofun⟩
      intro i x y hx hy
      rcases i with _ | _ | i
      · cases hx
        cases hy
        exact .float _ _
      · cases hx
        cases hy
        exact .float _ _
      · cases hx
    · exact ⟨_, _, rfl, rfl, .some rfl (.duration _) nofun⟩
  · intro c hc
    simp only [schema, PyRuntime.Demo.schema, List.mem_cons, List.not_mem_nil, or_false] at hc
    subst hc
    refine ⟨_, rfl, .cons ⟨rfl, 0, _, _, rfl, rfl, rfl, rfl, ?_⟩ (.cons ⟨rfl, 1, _, _, rfl, rfl, rfl, rfl, ?_⟩ .nil)⟩
    · intro p hp
      simp only [List.mem_cons, List.not_mem_nil, or_false] at hp
      rcases hp with rfl | rfl | rfl | rfl
      · exact ⟨_, _, rfl, rfl, .direct rfl (.string _ _)⟩
      · exact ⟨_, _, rfl, rfl, .direct rfl (.integer _ _)⟩
      · exact ⟨_, _, rfl, rfl, .none rfl⟩
      · exact ⟨_, _, rfl, rfl, .some rfl (.cls (l := 1) rfl rfl) nofun⟩
    · intro p hp
      simp only [List.mem_cons, List.not_mem_nil, or_false] at hp
      rcases hp with rfl | rfl | rfl | rfl
      · exact ⟨_, _, rfl, rfl, .direct rfl (.string _ _)⟩
      · exact ⟨_, _, rfl, rfl, .direct rfl (.integer _ _)⟩
      · exact ⟨_, _, rfl, rfl, .some rfl (.dateC _ _ rfl) nofun⟩
      · exact ⟨_, _, rfl, rfl, .none rfl⟩

theorem code : ∃ P, Emitted schema (settings false) .ctime P := emitted (date := false) (by decide +kernel)

end Demo

/-- The code for the schema of the examples -/
example : ∃ P settings, Emitted SchemaDemo.schema.graph settings .ctime P := by
  obtain ⟨s, p, H, sigs, items, h, e1, e2, _, hc⟩ := CppNames.Demo.compiles
  obtain ⟨P, E⟩ := C89_emitted h hc
  rw [e1] at E
  exact ⟨P, p, by simpa [library, e2] using E⟩

/-- The graph in the memory is written and read back. -/
example : ∃ P j, Emitted CppRuntime.Demo.schema (Demo.settings false) .ctime P ∧
    callTo CppRuntime.Demo.lib Demo.heap CppRuntime.Demo.schema P 5 (Demo.town c!"p1") = .ok j ∧ Canon j ∧
    Accepts .ctime CppRuntime.Demo.lib CppRuntime.Demo.schema 3 j c!"#" (newGraph CppRuntime.Demo.schema) 5 CppRuntime.Demo.value := by
  obtain ⟨P, E⟩ := Demo.code
  obtain ⟨j, h⟩ := C54_code_partial (L := CppRuntime.Demo.lib) (ref := c!"#") (cap := 5) Cpp.Example.schema_valid
    Cpp.Example.schema_lower Cpp.Example.schema_sound CppRuntime.Demo.lib_garbage Cpp.Example.schema_keys E (Demo.holds c!"p1")
    Cpp.Example.demo_valid Cpp.Example.demo_faithful (by decide) (Nat.le_refl 5)
  exact ⟨P, j, E, h⟩

/-- The exception about a person who is registered under another identifier -/
example : ∃ P, Emitted CppRuntime.Demo.schema (Demo.settings false) .ctime P ∧ ∀ n, 5 ≤ n →
    callTo CppRuntime.Demo.lib Demo.heap CppRuntime.Demo.schema P n (Demo.town c!"p9") =
      .error (.valueError (idMessage (CppRuntime.Demo.schema.classes.head (by decide)) c!"p9" c!"p1")) := by
  obtain ⟨P, E⟩ := Demo.code
  have h : serGraph .ctime CppRuntime.Demo.lib CppRuntime.Demo.schema 3 (Demo.graph c!"p9") =
    .error (.valueError (idMessage (CppRuntime.Demo.schema.classes.head (by decide)) c!"p9" c!"p1")) := rfl
  exact ⟨P, E, fun n hn => (C89_code_partial E (Demo.holds c!"p9") hn (by rw [h]; intro h; cases h)).trans h⟩

/-! ## Violations -/

/-- A vector with more items than an `int` counts: the counter overflows, which is undefined behaviour. -/
theorem C89_violated_long (L : Lib) (heap xs : List Val) (h : maxInt < xs.length) :
    ∃ P, Emitted (CppRuntime.Demo.single (.array .boolean none none)) (Demo.settings false) .ctime P ∧ ∀ n,
      callTo L heap (CppRuntime.Demo.single (.array .boolean none none)) P (n + 1) (.struct c!"Single" [(c!"it", .vector xs)]) =
        .error (.panic c!"int") := by
  obtain ⟨P, E⟩ := Demo.emitted (g := CppRuntime.Demo.single (.array .boolean none none)) (date := false) (by decide +kernel)
  refine ⟨P, E, fun n => ?_⟩
  have hP := E.code
  rw [show CppGen.writer (CppRuntime.Demo.single (.array .boolean none none)) (Demo.settings false) = .ok _ from rfl] at hP
  cases hP
  rw [callTo, run_written E.accepted]
  simp [run, select, exec, lower, CppRuntime.Demo.single, Bind.bind, Except.bind, pure, Except.pure, eval, member, vectorOf, Env.get, CppGen.temp,
    CppCode.asValue, CppCode.objVar, h]

/-- Such a vector -/
example : maxInt < (List.replicate (maxInt + 1) (Val.bool true)).length := by simp

/-- An optional time zone which is there, but whose pointer is null: it is dereferenced. -/
theorem C89_violated_null (L : Lib) (heap : List Val) :
    ∃ P, Emitted (CppRuntime.Demo.single .timeZone true) (Demo.settings true) .dateH P ∧ ∀ n,
      callTo L heap (CppRuntime.Demo.single .timeZone true) P (n + 1) (.struct c!"Single" [(c!"it", .optional (some (.zone none)))]) =
        .error (.panic c!"null pointer") := by
  obtain ⟨P, E⟩ := Demo.emitted (g := CppRuntime.Demo.single .timeZone true) (date := true) (by decide +kernel)
  refine ⟨P, E, fun n => ?_⟩
  have hP := E.code
  rw [show CppGen.writer (CppRuntime.Demo.single .timeZone true) (Demo.settings true) = .ok _ from rfl] at hP
  cases hP
  rw [callTo, run_written E.accepted]
  simp [run, select, exec, lower, CppRuntime.Demo.single, Bind.bind, Except.bind, eval, member, Env.get, truth, pointee, zoneName,
    nullPointer, CppCode.asValue, CppCode.objVar]

/-- The class `Some` in the plural `Single`, in the graph `Single` -/
def Demo.hiding : Graph where
  ref := []
  name := c!"Single"
  classes := [{ name := c!"Some", plural := c!"Single", ref := [], idPattern := none, properties := [] }]
  embeds := []
  properties := []

/-- The value of the registry hides the value of the graph: the schema is valid, the instances are serialized and lost. -/
theorem C89_violated_hidden (L : Lib) : validateSchema cpp Demo.hiding = .ok [] ∧
    ∃ P heap x gv, CppGen.writer Demo.hiding (Demo.settings false) = .ok P ∧ HoldsGraph .ctime Demo.hiding heap x gv ∧
      serGraph .ctime L Demo.hiding 1 gv = .ok (.obj [(c!"single", .obj [(c!"a", .obj [])])]) ∧
      (∀ n, run meant L heap P (n + 2) c!"serialize_single" x = .ok (.obj [(c!"single", .obj [(c!"a", .obj [])])])) ∧
      ∀ n, callTo L heap Demo.hiding P (n + 2) x = .ok .null := by
  refine ⟨by decide +kernel, _, [.struct c!"Some" [(c!"id", .str c!"a")]], .struct c!"Single" [(c!"single", .map [(c!"a", .ptr (some 0))])],
    { registries := [(c!"Some", [(c!"a", ⟨c!"a", []⟩)])], fields := [] }, rfl, ⟨⟨_, _, rfl, rfl⟩, nofun, ?_⟩, rfl, fun n => rfl, fun n => ?_⟩
  · intro c hc
    cases List.mem_singleton.1 hc
    exact ⟨_, rfl, .cons ⟨rfl, 0, _, _, rfl, rfl, rfl, rfl, nofun⟩ .nil⟩
  · rfl

end Mapry.Props.CppExec
