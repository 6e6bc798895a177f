import Verif.GoWritten
import Verif.Props.GoMeaning
import Verif.Props.GoRead

/-!
# C88: the generated Go code as it is written

In the code of `Verif/GoGen.lean` a variable is known by what it is for: `own c!"target" c!"Persons" []` and `v c!"target"` are two
variables whatever their texts are. The Go compiler sees the texts only. Here the code is run with variables which are nothing but
their texts.
-/

namespace Mapry.Props.GoExec

open Mapry.GoLang Mapry.GoExec Mapry.Naming Mapry.LangValidate Mapry.ParseSchema
open Mapry.GoCode (Name)
open Mapry.GoRuntime (JVal Lib GraphVal serGraph parseGraph newGraph wire)
open Mapry.GoRuntime.Spec (Canon ExactGraph JsonKeys ValidGraph FaithfulGraph)
open Mapry.PyRuntime (Json)
open Mapry.Props.Go (Generated)

/-- The program in which two variables are the same if and only if they are written in the same way -/
def Textual (P : Program) : Program := P.rename fun x => .glob x.text

/-- Whatever function is called with whatever arguments in whatever memory, the program does the same if nothing but the texts tells
the variables apart. -/
def TextSuffices (P : Program) : Prop := ∀ O L n f args σ, run O L (Textual P) n f args σ = run O L P n f args σ

section

variable {V : Validation.Lib} {mapping : Json} {ref : Str} {s : Schema} {fs : List GoCode.File}
  (h : Generated V mapping ref s fs)

include h

/-- It holds for the parsing code of every package which is generated. -/
theorem C88_reader {P : Program} (hP : GoGen.reader s.graph = .ok P) : TextSuffices P := fun O L n f args σ => by
  unfold Textual
  exact congrFun (congrFun (congrFun (run_rename (GoGen.safe_reader (Go.capitals h) hP) O L n) f) args) σ

/-- It holds for the serializing code unless the variables for a registry and for an instance in it are written in the same way. -/
theorem C88_writer (ha : ∀ c ∈ s.graph.classes, ¬ ∃ x, camelCase c.name = .ok (c!"target" ++ x) ∧
      camelSpec true c.plural = x ++ c!"Instance") {P : Program} (hP : GoGen.writer s.graph = .ok P) : TextSuffices P := by
  intro O L n f args σ
  refine congrFun (congrFun (congrFun (run_rename (GoGen.safe_writer (Go.capitals h) ?_ hP) O L n) f) args) σ
  intro c hc p i hp hi e
  rw [((C01_ucamel_case_ok_iff _ _).1 hp).2] at e
  refine ha c hc ?_
  rcases List.append_eq_append_iff.1 e with ⟨x, h1, h2⟩ | ⟨x, h1, h2⟩
  · exact ⟨x, by rw [hi, h1], h2⟩
  · cases x with
    | nil => exact ⟨[], by rw [hi]; simp at h1 ⊢; exact h1.symm, by simpa using h2.symm⟩
    | cons a x =>
      simp only [List.cons_append, List.cons.injEq] at h2
      have : 'I' ∈ c!"target" := by
        rw [h1, h2.1]
        simp
      exact absurd this (by decide)

/-- **C88.** If the package compiles, then its code does the same as it is written. -/
theorem C88_compiled {ds : List GoTypes.TypeDef} {R S : List GoCheck.Func} (ht : Go.Typed s.graph ds R S)
    (hc : Go.Compiles s.graph fs ds R S) :
    ∃ P Q, Parses s.graph P ∧ Emitted s.graph Q ∧ TextSuffices P ∧ TextSuffices Q := by
  have hf := (Go.C79_compiles_partial _ _ _ _ _ _ _ _ h ht).1 hc
  obtain ⟨P, hP⟩ := C60_read _ _ _ _ _ h
  obtain ⟨Q, hQ⟩ := C60_code _ _ _ _ _ h
  exact ⟨P, Q, parses h hf hP, emitted h hc.declared hQ, C88_reader h hP, C88_writer h hf.targets hQ⟩

/-- C85 for the code as it is written -/
theorem C88_serializes (ha : ∀ c ∈ s.graph.classes, ¬ ∃ x, camelCase c.name = .ok (c!"target" ++ x) ∧
      camelSpec true c.plural = x ++ c!"Instance") {P : Program} (E : Emitted s.graph P) {O : Order} {L : Lib} {σ : St} {a : Addr}
    {x : Val} {gv : GraphVal} (hx : σ.read a = some x) (hh : HoldsGraph s.graph σ x gv) {k n : Nat} (hn : k + 2 ≤ n) :
    Written σ (serGraph O L s.graph k gv σ.ranges) (callTo O L s.graph (Textual P) n (.ptr a) σ) := by
  unfold callTo
  rw [C88_writer h ha E.code]
  exact C85_code E hx hh hn

/-- C86 for the code as it is written -/
theorem C88_parses {P : Program} (H : Parses s.graph P) {O : Order} (hO : O.Proper) {L : Lib} {σ : St} {v : JVal} {r : Str} {l : Nat}
    (hv : Canon v) (hl : σ.heap[l]? = some .zero) {k n : Nat} (hn : k + 2 ≤ n) :
    GraphRead s.graph l σ (parseGraph O L s.graph k v r (newGraph s.graph) (stOf σ))
      (callFrom O L s.graph (Textual P) n v r (.ptr ⟨l, []⟩) .errors σ) := by
  unfold callFrom
  rw [C88_reader h H.code]
  exact C86_code H hO hv hl hn

/-- C42 for a package which compiles, as it is written: a graph in the memory which satisfies the schema is written without an
error, and the JSON text of the result is read without an error into a memory which holds the same graph. -/
theorem C42_compiled_partial {ds : List GoTypes.TypeDef} {R S : List GoCheck.Func} (ht : Go.Typed s.graph ds R S)
    (hc : Go.Compiles s.graph fs ds R S) (hx : ExactGraph s.graph) (hk : JsonKeys s.graph) :
    ∃ P Q, GoGen.reader s.graph = .ok P ∧ GoGen.writer s.graph = .ok Q ∧
      ∀ (O O' : Order) (L : Lib) (d n m : Nat) (σ τ : St) (a : Addr) (x : Val) (gv : GraphVal) (l : Nat) (r : Str),
        O.Proper → O'.Proper → (∀ t, L.formatTime t [] = []) → σ.read a = some x → HoldsGraph s.graph σ x gv →
        ValidGraph L s.graph d gv → FaithfulGraph L s.graph d gv → τ.heap[l]? = some .zero → τ.errors.values = [] →
        d + 2 ≤ n → d + 2 ≤ m →
        ∃ w e σ' j t τ' y, callTo O L s.graph (Textual Q) n (.ptr a) σ = .ok ([w, e], σ') ∧ e.isNil = true ∧
          Jsonable σ'.heap σ.heap.length j w ∧ wire j = some t ∧
          callFrom O' L s.graph (Textual P) m t r (.ptr ⟨l, []⟩) .errors τ = .ok ([], τ') ∧ τ'.errors.values = [] ∧
          τ'.heap[l]? = some y ∧ HoldsGraph s.graph τ' y gv := by
  obtain ⟨P, Q, H, E, hP, hQ⟩ := C88_compiled h ht hc
  refine ⟨P, Q, H.code, E.code, ?_⟩
  intro O O' L d n m σ τ a x gv l r hO hO' hL ha hh hv hf hl he hn hm
  unfold callTo callFrom
  simp only [hQ _ _ _ _ _ _, hP _ _ _ _ _ _]
  exact C42_code_both_partial hO hO' hL hx hk E H ha hh hv hf hl he hn hm

end

/-! ## The exception -/

namespace Demo

/-- A graph with an instance of the class `Target` in the plural `Instance` -/
def targets : St where
  heap := [.struct [(c!"Instance", .map 1)], .table [(c!"a", .ptr ⟨2, []⟩)], .struct [(c!"ID", .str c!"a")]]
  errors := GoErrors.new 0
  ranges := 0

def targetSchema : Graph := (Go.Demo.classesSchema [Go.Demo.clsOf c!"0" c!"Target" c!"Instance"]).graph

/-- Whether the graph is written, by the code with variables for what they are and with variables as they are written -/
def wrote (r : Program → Program) : Option Bool :=
  match GoGen.writer targetSchema with
  | .ok P => match callTo GoRuntime.Demo.order GoRuntime.Demo.lib targetSchema (r P) 3 (.ptr ⟨0, []⟩) targets with
    | .ok _ => some true
    | .error _ => some false
  | .error _ => none

end Demo

/-- Without the condition it is wrong, for the same schema as C62: the graph is written, but not by the code as it is written. Its
package does not compile (C79). -/
theorem C88_needed : ∃ Q, GoGen.writer Demo.targetSchema = .ok Q ∧ ¬ TextSuffices Q := by
  obtain ⟨fs, hg⟩ := Go.Demo.target_generated
  obtain ⟨Q, hQ⟩ := C60_code _ _ _ _ _ hg
  have hQ : GoGen.writer Demo.targetSchema = .ok Q := hQ
  refine ⟨Q, hQ, fun h => ?_⟩
  have h1 : Demo.wrote id = some true := by decide +kernel
  have h2 : Demo.wrote Textual = some false := by decide +kernel
  unfold Demo.wrote callTo at h1 h2
  rw [hQ] at h1 h2
  simp only [id, h _ _ _ _ _ _] at h1 h2
  rw [h1] at h2
  cases h2

/-! ## Examples -/

/-- The code for the schema of the examples -/
example : ∃ P Q, Parses SchemaDemo.schema.graph P ∧ Emitted SchemaDemo.schema.graph Q ∧ TextSuffices P ∧ TextSuffices Q := by
  obtain ⟨fs, h⟩ := Go.Demo.generated
  obtain ⟨ds, R, S, ht⟩ := Go.typed_exists h
  obtain ⟨h1, h2, h3, h4, h5, h6⟩ := Go.Demo.fine_fits (g := SchemaDemo.schema.graph) (by decide +kernel)
  exact C88_compiled h ht ((Go.C79_compiles_partial _ _ _ _ _ _ _ _ h ht).2
    ⟨h1, h2, h3, h4, h5, h6, Go.Demo.bounded_iff.1 (by decide +kernel)⟩)

/-- The variables of a function as they are written: the one for the registry is `targetPersons`. -/
example : (match GoGen.writer GoRuntime.Demo.schema with
    | .ok P => (Textual P).funcs.map fun F => (F.params, F.results)
    | .error _ => []) = [([.glob c!"instance"], [.glob c!"target"]), ([.glob c!"instance"], [.glob c!"target"]),
      ([.glob c!"instance"], [.glob c!"target", .glob c!"err"])] := by decide +kernel

end Mapry.Props.GoExec
