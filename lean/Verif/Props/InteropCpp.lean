import Verif.Props.InteropCode
import Verif.Props.CppWrite

/-! # C91: the generated C++ code writes, the generated Python code and the generated Go code read -/

namespace Mapry.Props

open Mapry.Interop Mapry.LangValidate Mapry.ParseSchema
open Mapry.PyRuntime (Json)

section

variable {g : Graph} (hg : Portable g) (hk : OwnKeys g) {py : Py} {settings : Cpp} {n : Nat} {D : CppRuntime.DateLib}
  {C : CppRuntime.Lib} {Q : CppLang.Program} (E : CppExec.Emitted g settings D Q) {heap : List CppLang.Val} {q : CppLang.Val}
  {z : CppRuntime.GraphVal} (hh : Mapry.CppExec.HoldsGraph D g heap q z) (hv : CppRuntime.Spec.ValidGraph g D C n z)
  (hw : CppWritable D C g n z) {m : Nat} (hm : n + 2 ≤ m)

include hg hk E hh hv hw hm

/-- **C91, from C++ to Python (partial).** The code of the C++ serializer writes a graph in the memory. Whichever text is made of the
result, the code of the Python parser returns for it a new object which represents the same graph. -/
theorem C91_cpp_py_partial {P : PyLang.Program} (W : PyExec.Written g py P) (N : PyExec.PlainNames g) {L : PyRuntime.Lib}
    (hx : ∀ a, CppGraph g n a z → Crosses (cppWriter D C) (pyLeaves L (PyExec.settingsOf py)) g n a) :
    ∃ j, CppExec.callTo C heap g Q m q = .ok j ∧
      ∀ d, CppText j d → ∀ (o : Bool) (s : PyLang.St) (ae : Nat) (ref : Str) (cap : Int), 0 < cap →
        s.heap[ae]? = some (.errors (Errors.new cap)) →
        ∃ s' place x a, PyExec.callFrom L g P (n + 2) (pyOf o d) ref ae s = (.ok (.addr s.heap.length), s') ∧
          Mapry.PyExec.Outside ae s.heap s'.heap (Errors.new cap) ∧
          Mapry.PyExec.GraphRep g s'.heap place (s.heap.length + 1) s.heap.length x ∧
          CppGraph g n a z ∧ PyGraph (PyExec.settingsOf py) g n a x := by
  obtain ⟨j, hj, h⟩ := cpp_describes hg hk n D C hv hw
  have hc := CppExec.C89_code_partial (L := C) E hh hm (by rw [hj]; nofun)
  refine ⟨j, hc.trans hj, fun d ht o s ae ref cap hcap he => ?_⟩
  obtain ⟨a, ha, hp⟩ := h d ht
  obtain ⟨hmean, _, hdist, _⟩ := written_means (fun _ _ _ hw _ => cpp_sound hw) ha (hx a hp)
  obtain ⟨s', place, x, k1, k2, k3, k4⟩ := py_code_reads W N hdist o hmean ref hcap he
  exact ⟨s', place, x, a, k1, k2, k3, hp, k4⟩

/-- **C91, from C++ to Go (partial).** The code of the C++ serializer writes a graph in the memory. Whichever text is made of the
result, the code of the Go parser reads it without an error, and its memory holds the same graph. -/
theorem C91_cpp_go_partial {P : GoLang.Program} (H : GoExec.Parses g P) {G : GoRuntime.Lib}
    (hx : ∀ a, CppGraph g n a z → Crosses (cppWriter D C) (goLeaves G) g n a) :
    ∃ j, CppExec.callTo C heap g Q m q = .ok j ∧
      ∀ d, CppText j d → ∀ (O : Order), O.Proper → ∀ (σ : GoLang.St) (l : Nat) (ref : Str) (k : Nat),
        σ.heap[l]? = some .zero → σ.errors.values = [] → n + 2 ≤ k →
        ∃ v σ' w y a, goOf d = some v ∧ GoExec.callFrom O G g P k v ref (.ptr ⟨l, []⟩) .errors σ = .ok ([], σ') ∧
          σ'.errors.values = [] ∧ σ'.heap[l]? = some w ∧ Mapry.GoExec.HoldsGraph g σ' w y ∧
          CppGraph g n a z ∧ GoGraph g n a y := by
  obtain ⟨j, hj, h⟩ := cpp_describes hg hk n D C hv hw
  have hc := CppExec.C89_code_partial (L := C) E hh hm (by rw [hj]; nofun)
  refine ⟨j, hc.trans hj, fun d ht O hO σ l ref k hl he hk' => ?_⟩
  obtain ⟨a, ha, hp⟩ := h d ht
  obtain ⟨hmean, _, hdist, hfin⟩ := written_means (fun _ _ _ hw _ => cpp_sound hw) ha (hx a hp)
  obtain ⟨v, σ', w, y, k1, k2, k3, k4, k5, k6⟩ := go_code_reads hg H hdist hfin hO hmean ref hl he hk'
  exact ⟨v, σ', w, y, a, k1, k2, k3, k4, k5, hp, k6⟩

end

/-! ## Values which do not cross over -/

/-- **C91** in full, from C++ to Python: for all values. -/
def C91CppPyFull : Prop := ∀ (g : Graph) (py : Py) (settings : Cpp) (D : CppRuntime.DateLib) (Q : CppLang.Program) (P : PyLang.Program)
  (L : PyRuntime.Lib) (C : CppRuntime.Lib) (heap : List CppLang.Val) (q : CppLang.Val) (z : CppRuntime.GraphVal) (n m : Nat) (o : Bool)
  (s : PyLang.St) (ae : Nat) (ref : Str) (cap : Int), Portable g → OwnKeys g → CppExec.Emitted g settings D Q → PyExec.Written g py P →
  PyExec.PlainNames g → Mapry.CppExec.HoldsGraph D g heap q z → CppRuntime.Spec.ValidGraph g D C n z → CppWritable D C g n z → n + 2 ≤ m →
  0 < cap → s.heap[ae]? = some (.errors (Errors.new cap)) →
  ∃ j, CppExec.callTo C heap g Q m q = .ok j ∧ ∀ d, CppText j d →
    ∃ s' place x a, PyExec.callFrom L g P (n + 2) (pyOf o d) ref ae s = (.ok (.addr s.heap.length), s') ∧
      Mapry.PyExec.Outside ae s.heap s'.heap (Errors.new cap) ∧
      Mapry.PyExec.GraphRep g s'.heap place (s.heap.length + 1) s.heap.length x ∧ CppGraph g n a z ∧ PyGraph (PyExec.settingsOf py) g n a x

/-- **C91** in full, from C++ to Go: for all values. -/
def C91CppGoFull : Prop := ∀ (g : Graph) (settings : Cpp) (D : CppRuntime.DateLib) (Q : CppLang.Program) (P : GoLang.Program)
  (G : GoRuntime.Lib) (C : CppRuntime.Lib) (heap : List CppLang.Val) (q : CppLang.Val) (z : CppRuntime.GraphVal) (n m k : Nat)
  (O : Order) (σ : GoLang.St) (l : Nat) (ref : Str), Portable g → OwnKeys g → CppExec.Emitted g settings D Q → GoExec.Parses g P →
  Mapry.CppExec.HoldsGraph D g heap q z → CppRuntime.Spec.ValidGraph g D C n z → CppWritable D C g n z → n + 2 ≤ m →
  O.Proper → σ.heap[l]? = some .zero → σ.errors.values = [] → n + 2 ≤ k →
  ∃ j, CppExec.callTo C heap g Q m q = .ok j ∧ ∀ d, CppText j d →
    ∃ v σ' w y a, goOf d = some v ∧ GoExec.callFrom O G g P k v ref (.ptr ⟨l, []⟩) .errors σ = .ok ([], σ') ∧
      σ'.errors.values = [] ∧ σ'.heap[l]? = some w ∧ Mapry.GoExec.HoldsGraph g σ' w y ∧ CppGraph g n a z ∧ GoGraph g n a y

/-- A C++ structure with a single optional member -/
def cppOne (v : CppLang.Val) : CppLang.Val := .struct c!"G" [(c!"x", .optional (some v))]

/-- **C91 is violated** from C++ to Python: the Python code rejects a duration of a nanosecond. -/
theorem C91_violated_cpp_py : ¬ C91CppPyFull := by
  intro h
  have W : PyExec.Written (one .duration) PyExec.Demo.settings (PyExec.Demo.codeOf (one .duration)) :=
    PyExec.Demo.written_of (by decide) (by decide) (by decide +kernel) (by decide +kernel) (by decide +kernel) (by decide)
  have N : PyExec.PlainNames (one .duration) :=
    ⟨by decide +kernel, by decide +kernel, (PyNames.selfFree_iff W.named).1 (by unfold PyCode.NoSelf; decide +kernel)⟩
  obtain ⟨Q, E⟩ : ∃ Q, CppExec.Emitted (one .duration) (CppExec.Demo.settings false) .ctime Q :=
    CppExec.Demo.emitted (g := one .duration) (date := false) (by decide +kernel)
  have hh : Mapry.CppExec.HoldsGraph .ctime (one .duration) [] (cppOne (.nanos 1)) (cppWait 1) := by
    refine ⟨⟨_, _, rfl, rfl⟩, fun p hp => ?_, fun c hc => (by cases hc)⟩
    cases List.mem_singleton.1 hp
    exact ⟨_, _, rfl, rfl, .some rfl (.duration _) nofun⟩
  obtain ⟨j, h1, h3⟩ := h (one .duration) PyExec.Demo.settings _ .ctime Q _ PyRuntime.Demo.lib CppRuntime.Demo.lib [] _ (cppWait 1) 1 3
    true PyExec.Demo.start 0 [] 10 one_duration (one_keys _) E W N hh (cpp_wait_valid _ 1 _ (by decide))
    (cpp_wait_writable _ 1 _ (by decide)) (Nat.le_refl 3) (by decide) rfl
  obtain ⟨⟨⟨j', hj', ht⟩, _⟩, _⟩ := C64_violated_cpp (O := GoRuntime.Demo.order) (C := CppRuntime.Demo.lib)
    PyRuntime.Demo.lib (PyExec.settingsOf PyExec.Demo.settings) GoRuntime.Demo.lib .ctime 1 [] 10 true (by decide)
    GoRuntime.Demo.order_proper
  have hc := CppExec.C89_code_partial (L := CppRuntime.Demo.lib) (k := 1) E hh (Nat.le_refl 3) (by rw [hj']; nofun)
  rw [h1, hj'] at hc
  cases hc
  obtain ⟨s', place, x, a, k1, _⟩ := h3 _ ht
  have hd : PyExec.Dicts (pyOf true (just (.str c!"PT0.000000001S"))) :=
    PyExec.dicts_of_keyed (keyed_pyOf true (just_distinct (.str _)))
  rcases PyExec.C81_returned_partial W N hd (cap := 10) (by decide) (s := PyExec.Demo.start) (ae := 0) rfl 1 _ _ k1 with
    ⟨_, _, x, _, hx, _⟩ | ⟨e, _⟩
  · exact (C64_violated_go_nanosecond (O := GoRuntime.Demo.order) PyRuntime.Demo.lib
      (PyExec.settingsOf PyExec.Demo.settings) GoRuntime.Demo.lib 2 [] 10 true 0 (by decide)).2
      ⟨x, (C29_accepts_partial _ _ _ _ _ [] 10 W.valid (by decide) x).2 hx⟩
  · cases e

/-- The memory behind the only field of a Go graph -/
theorem go_one_memory {σ : GoLang.St} {w : GoLang.Val} {y : GoRuntime.GraphVal} {i : Int}
    (h : Mapry.GoExec.HoldsGraph (one (.integer {})) σ w y) (hy : y.fields = [(c!"X", .int i)]) :
    ∃ a, GoLang.fieldOf c!"X" w = some (.ptr a) ∧ σ.read a = some (.int i) := by
  obtain ⟨u, v, h1, h2, h3⟩ := h.fields _ (List.mem_singleton.2 rfl)
  rw [hy] at h2
  cases h2
  cases h3 with
  | direct h4 _ => rcases h4 with h4 | h4 <;> cases h4
  | some _ _ h4 h5 =>
    cases h5
    exact ⟨_, h1, h4⟩

/-- The C++ graph and a Go graph show the same graph. -/
theorem go_one_same {a : AGraph} {y : GoRuntime.GraphVal} {n : Nat} {i : Int} (h1 : CppGraph (one (.integer {})) n a (cppInt i))
    (h2 : GoGraph (one (.integer {})) n a y) : y.fields = [(c!"X", .int i)] := by
  obtain ⟨_, h1⟩ := h1
  obtain ⟨_, h2⟩ := h2
  revert h2
  generalize a.fields = af at h1
  generalize y.fields = yf
  intro h2
  cases h1 with
  | cons k1 k2 =>
    cases k2
    cases h2 with
    | cons k3 k4 =>
      cases k4
      obtain ⟨_, _, k1⟩ := k1
      obtain ⟨_, k5, k3⟩ := k3
      rcases k1 with ⟨_, _, k⟩ | ⟨i1, e1, e2⟩
      · cases k
      · cases e2
        rcases k3 with ⟨_, k, _⟩ | ⟨i2, e3, e4⟩
        · rw [k] at e1
          cases e1
        · rw [e1] at e3
          cases e3
          exact congrArg (· :: []) (Prod.ext k5 e4)

/-- **C91 is violated** from C++ to Go: the Go code reads another integer. -/
theorem C91_violated_cpp_go : ¬ C91CppGoFull := by
  intro h
  obtain ⟨P, H⟩ := one_parses (t := .integer {}) (by decide +kernel) (by decide +kernel) (by decide +kernel)
    (fun P h => GoGen.reader_nodup h (by decide +kernel))
  obtain ⟨Q, E⟩ : ∃ Q, CppExec.Emitted (one (.integer {})) (CppExec.Demo.settings false) .ctime Q :=
    CppExec.Demo.emitted (g := one (.integer {})) (date := false) (by decide +kernel)
  have hh : Mapry.CppExec.HoldsGraph .ctime (one (.integer {})) [] (cppOne (.int odd)) (cppInt odd) := by
    refine ⟨⟨_, _, rfl, rfl⟩, fun p hp => ?_, fun c hc => (by cases hc)⟩
    cases List.mem_singleton.1 hp
    exact ⟨_, _, rfl, rfl, .some rfl (.integer _ _) nofun⟩
  obtain ⟨j, h1, h3⟩ := h (one (.integer {})) _ .ctime Q P GoRuntime.Demo.lib CppRuntime.Demo.lib [] _ (cppInt odd) 1 3 3
    GoRuntime.Demo.order (GoExec.Demo.fresh 1) 0 [] one_integer (one_keys _) E H hh (cpp_int_valid _ _ _ (by decide))
    (cpp_int_writable _ _ _) (Nat.le_refl 3) GoRuntime.Demo.order_proper rfl rfl (Nat.le_refl 3)
  obtain ⟨_, ⟨j', hj', ht⟩, hr⟩ := C64_violated_cpp (O := GoRuntime.Demo.order) (C := CppRuntime.Demo.lib)
    PyRuntime.Demo.lib (PyExec.settingsOf PyExec.Demo.settings) GoRuntime.Demo.lib .ctime 1 [] 1 true (by decide)
    GoRuntime.Demo.order_proper
  have hc := CppExec.C89_code_partial (L := CppRuntime.Demo.lib) (k := 1) E hh (Nat.le_refl 3) (by rw [hj']; nofun)
  rw [h1, hj'] at hc
  cases hc
  obtain ⟨v, σ', w, y, a, k1, k2, k3, k4, k5, k6, k7⟩ := h3 _ ht
  have ev : v = goVal (just (.int odd)) := by
    rw [goOf] at k1
    split at k1 <;> cases k1
    rfl
  have hcan := goVal_canon (just (.int odd))
  rw [← ev] at hcan
  have hdep : GoRuntime.Spec.DepthLe 1 v := by
    rw [ev]
    refine .obj _ _ fun kv hkv => ?_
    simp [goEntries, GoMap.putAll, GoMap.put] at hkv
    subst hkv
    exact .float _ _
  have hA := GoExec.C42_code_accepts_partial (O := GoRuntime.Demo.order) (L := GoRuntime.Demo.lib) (ref := []) (σ := GoExec.Demo.fresh 1)
    (l := 0) (k := 1) H GoRuntime.Demo.order_proper one_integer.exact hcan rfl rfl hdep (Nat.le_refl 3)
  have hR := GoExec.C86_code (O := GoRuntime.Demo.order) (L := GoRuntime.Demo.lib) (ref := []) (σ := GoExec.Demo.fresh 1)
    (l := 0) (k := 1) H GoRuntime.Demo.order_proper hcan rfl (Nat.le_refl 3)
  rw [k2] at hA hR
  obtain ⟨_, _, h5, _⟩ := hA
  obtain ⟨y', hy'⟩ := h5.1 k3
  obtain ⟨st, hp, h7⟩ := GoRuntime.graph_yes GoRuntime.Demo.order_proper (go_distinct_of_valid one_integer.go) one_integer.exact 1 v
    hcan [] (start 1) rfl y' hy'
  rw [show Mapry.GoExec.stOf (GoExec.Demo.fresh 1) = start 1 from rfl, hp] at hR
  obtain ⟨_, e, _, _, h8⟩ := hR
  cases e
  obtain ⟨w', e3, h9⟩ := h8 ((GoExec.empty_iff _).2 k3)
  rw [k4] at e3
  cases e3
  obtain ⟨a1, m1, m2⟩ := go_one_memory h9 (hr y' ⟨v, k1, st, hp, by rw [h7]; rfl⟩)
  obtain ⟨a2, m3, m4⟩ := go_one_memory k5 (go_one_same k6 k7)
  rw [m1] at m3
  cases m3
  rw [m2] at m4
  cases m4

namespace InteropCppExample

open TransferExample InteropCodeExample

theorem cpp_py_crosses : ∀ a, CppGraph schema 3 a CppRuntime.Demo.value →
    Crosses (cppWriter .ctime CppRuntime.Demo.lib) (pyLeaves PyRuntime.Demo.lib (PyExec.settingsOf PyExec.Demo.settings)) schema 3 a := by
  rw [settings_eq]
  intro a ha
  exact (cpp_small a ha).imp (fun _ _ h => Interop.plain_cpp_py (TransferExample.plain_cpp_py h))
    (fun p s _ (h : p.isPrefixOf s = true) => h)

theorem cpp_go_crosses : ∀ a, CppGraph schema 3 a CppRuntime.Demo.value →
    Crosses (cppWriter .ctime CppRuntime.Demo.lib) (goLeaves GoRuntime.Demo.lib) schema 3 a := by
  intro a ha
  exact (cpp_small a ha).imp (fun _ _ h => Interop.plain_cpp_go (TransferExample.plain_cpp_go h))
    (fun p s _ (h : p.isPrefixOf s = true) => h)

/-- The C++ code writes a graph, and the Python code reads it. -/
example : ∃ Q j, CppExec.Emitted schema (CppExec.Demo.settings false) .ctime Q ∧
    CppExec.callTo CppRuntime.Demo.lib CppExec.Demo.heap schema Q 5 (CppExec.Demo.town c!"p1") = .ok j ∧ ∀ d, CppText j d →
    ∃ s' place x a, PyExec.callFrom PyRuntime.Demo.lib schema (PyExec.Demo.codeOf schema) 5 (pyOf false d) c!"#" 0 PyExec.Demo.start =
        (.ok (.addr 1), s') ∧
      Mapry.PyExec.Outside 0 PyExec.Demo.start.heap s'.heap (Errors.new 10) ∧
      Mapry.PyExec.GraphRep schema s'.heap place 2 1 x ∧ CppGraph schema 3 a CppRuntime.Demo.value ∧
      PyGraph (PyExec.settingsOf PyExec.Demo.settings) schema 3 a x := by
  obtain ⟨Q, E⟩ := CppExec.Demo.code
  obtain ⟨j, h1, h2⟩ := C91_cpp_py_partial InteropExample.portable keys E (CppExec.Demo.holds c!"p1") Cpp.Example.demo_valid
    cpp_writable (Nat.le_refl 5) PyExec.Demo.written PyExec.Demo.plain cpp_py_crosses
  exact ⟨Q, j, E, h1, fun d hd => h2 d hd false PyExec.Demo.start 0 c!"#" 10 (by decide) rfl⟩

/-- The C++ code writes a graph, and the Go code reads it. -/
example : ∃ Q P j, CppExec.Emitted schema (CppExec.Demo.settings false) .ctime Q ∧ GoExec.Parses schema P ∧
    CppExec.callTo CppRuntime.Demo.lib CppExec.Demo.heap schema Q 5 (CppExec.Demo.town c!"p1") = .ok j ∧ ∀ d, CppText j d →
    ∃ v σ' w y a, goOf d = some v ∧ GoExec.callFrom GoRuntime.Demo.order GoRuntime.Demo.lib schema P 5 v c!"#" (.ptr ⟨0, []⟩) .errors
        (GoExec.Demo.fresh 3) = .ok ([], σ') ∧
      σ'.errors.values = [] ∧ σ'.heap[0]? = some w ∧ Mapry.GoExec.HoldsGraph schema σ' w y ∧
      CppGraph schema 3 a CppRuntime.Demo.value ∧ GoGraph schema 3 a y := by
  obtain ⟨Q, E⟩ := CppExec.Demo.code
  obtain ⟨P, H⟩ := GoExec.Demo.read_code
  obtain ⟨j, h1, h2⟩ := C91_cpp_go_partial InteropExample.portable keys E (CppExec.Demo.holds c!"p1") Cpp.Example.demo_valid
    cpp_writable (Nat.le_refl 5) H cpp_go_crosses
  exact ⟨Q, P, j, E, H, h1, fun d hd => h2 d hd _ GoRuntime.Demo.order_proper (GoExec.Demo.fresh 3) 0 c!"#" 5 rfl rfl (by decide)⟩

end InteropCppExample

end Mapry.Props
