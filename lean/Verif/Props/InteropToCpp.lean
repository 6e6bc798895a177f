import Verif.Props.InteropCpp
import Verif.Props.CppReadGraph

/-! # C94: the generated Python code and the generated Go code write, the generated C++ code reads -/

namespace Mapry.Props

open Mapry.Interop Mapry.LangValidate Mapry.ParseSchema
open Mapry.Duration (minInt64)

section

variable {g : Graph} (hg : Portable g) {n : Nat} {D : CppRuntime.DateLib} {C : CppRuntime.Lib} (hC : CppRuntime.Spec.NoGarbage C)
  {R : CppRead.Program} {body : CppRead.GStmt} (B : CppExec.GraphReaders g D R body)

include hg hC B

/-- What the code of the C++ parser does with a document which describes a graph -/
theorem cpp_code_reads {d : Doc} (hd : d.Distinct) (hf : d.finite = true) {a : AGraph} (ha : MeansGraph (cppLeaves D C) g n d a)
    (ref : Str) {cap : Nat} (hcap : 0 < cap) :
    ∃ v z e, cppOf d = some v ∧ CppRead.runGraph C R n body v ref (CppRuntime.newGraph g) (.new cap) = .ok (z, e) ∧ e.values = [] ∧
      CppGraph g n a z := by
  obtain ⟨z, ⟨v, h1, h2⟩, h3⟩ := (cpp_means hg n hd ref cap hcap D hC).2 hf a ha
  obtain ⟨e, h4, h5⟩ := (CppExec.C93_accepts_iff B n v ref _ (CppExec.new_allocated g) cap hcap z).2 h2
  exact ⟨v, z, e, h1, h4, h5, h3⟩

/-- **C94, from Python to C++ (partial).** The code of the Python serializer writes a graph in the heap. Whichever text is made of the
result, the code of the C++ parser reads it without an error and gives the same graph. -/
theorem C94_py_cpp_partial (hk : OwnKeys g) {py : Py} {Q : PyLang.Program} (W : PyExec.Saved g py Q) (N : PyExec.PlainTo g)
    {L : PyRuntime.Lib} {x : PyRuntime.GraphVal} {s : PyLang.St} {i : Nat} {lax : Bool} (hs : Mapry.PyExec.ShowsGraph s.heap g x i)
    (hv : PyRuntime.Spec.ValidGraph lax L (PyExec.settingsOf py) g false n x)
    (hx : ∀ a, PyGraph (PyExec.settingsOf py) g n a x → Crosses (pyWriter L (PyExec.settingsOf py)) (cppLeaves D C) g n a) (o : Bool) :
    ∃ j p s', PyExec.callTo L g Q (n + 2) i o s = (.ok p, s') ∧ Mapry.PyExec.Jsonable s'.heap s.heap.length j p ∧
      ∀ d, PyText j d → ∀ (ref : Str) (cap : Nat), 0 < cap →
        ∃ v z e a, cppOf d = some v ∧ CppRead.runGraph C R n body v ref (CppRuntime.newGraph g) (.new cap) = .ok (z, e) ∧ e.values = [] ∧
          PyGraph (PyExec.settingsOf py) g n a x ∧ CppGraph g n a z := by
  have hd := dicts_shown (PyExec.writer_of W N).facts hs n
  obtain ⟨j, hj, h⟩ := py_describes hg hk n L (PyExec.settingsOf py) o hv hd
  have hc := PyExec.C83_code_partial W N hs o n (L := L) (by rw [hj]; nofun)
  rw [hj] at hc
  obtain ⟨s', p, h1, _, _, h2⟩ := hc
  refine ⟨j, p, s', h1, h2, fun d hw ref cap hcap => ?_⟩
  obtain ⟨a, ha, hp⟩ := h d hw
  obtain ⟨hmean, _, hdist, hfin⟩ := written_means (fun _ _ _ => py_cpp_sound) ha (hx a hp)
  obtain ⟨v, z, e, k1, k2, k3, k4⟩ := cpp_code_reads hg hC B hdist hfin hmean ref hcap
  exact ⟨v, z, e, a, k1, k2, k3, hp, k4⟩

/-- **C94, from Go to C++ (partial).** The code of the Go serializer writes a graph in the memory without an error. Whichever text is
made of the result, the code of the C++ parser reads it without an error and gives the same graph. -/
theorem C94_go_cpp_partial (hk : OwnKeys g) {Q : GoLang.Program} (E : GoExec.Emitted g Q) {G : GoRuntime.Lib}
    (hfmt : ∀ t, G.formatTime t [] = []) {O : Order} (hO : O.Proper) {y : GoRuntime.GraphVal} {σ : GoLang.St} {b : GoLang.Addr}
    {w : GoLang.Val} (hb : σ.read b = some w) (hh : Mapry.GoExec.HoldsGraph g σ w y) (hv : GoRuntime.Spec.ValidGraph G g n y)
    (hx : ∀ a, GoGraph g n a y → Crosses (goWriter G) (cppLeaves D C) g n a) {m : Nat} (hm : n + 2 ≤ m) :
    ∃ j u e σ', GoExec.callTo O G g Q m (.ptr b) σ = .ok ([u, e], σ') ∧ e.isNil = true ∧
      Mapry.GoExec.Jsonable σ'.heap σ.heap.length j u ∧
      ∀ d, GoText j d → ∀ (ref : Str) (cap : Nat), 0 < cap →
        ∃ v z e a, cppOf d = some v ∧ CppRead.runGraph C R n body v ref (CppRuntime.newGraph g) (.new cap) = .ok (z, e) ∧ e.values = [] ∧
          GoGraph g n a y ∧ CppGraph g n a z := by
  obtain ⟨j, r', hj, h⟩ := go_describes hg hk n hO G hfmt hv σ.ranges
  have hc := GoExec.C85_code (O := O) (L := G) E hb hh hm
  rw [hj] at hc
  obtain ⟨u, e, σ', h5, h6, _, h7, _⟩ := hc
  refine ⟨j, u, e, σ', h5, h6, h7, fun d hw ref cap hcap => ?_⟩
  obtain ⟨a, ha, hp⟩ := h d hw
  obtain ⟨hmean, _, hdist, hfin⟩ := written_means (fun _ _ _ hw _ => go_sound hw) ha (hx a hp)
  obtain ⟨v, z, e', k1, k2, k3, k4⟩ := cpp_code_reads hg hC B hdist hfin hmean ref hcap
  exact ⟨v, z, e', a, k1, k2, k3, hp, k4⟩

end

/-- **C94** in full, from Python to C++: for all values. -/
def C94PyCppFull : Prop := ∀ (g : Graph) (py : Py) (Q : PyLang.Program) (D : CppRuntime.DateLib) (R : CppRead.Program)
  (body : CppRead.GStmt) (L : PyRuntime.Lib) (C : CppRuntime.Lib) (x : PyRuntime.GraphVal) (s : PyLang.St) (i n : Nat) (o : Bool)
  (ref : Str) (cap : Nat), Portable g → OwnKeys g → PyExec.Saved g py Q → PyExec.PlainTo g → CppExec.GraphReaders g D R body →
  CppRuntime.Spec.NoGarbage C → Mapry.PyExec.ShowsGraph s.heap g x i →
  PyRuntime.Spec.ValidGraph false L (PyExec.settingsOf py) g false n x → 0 < cap →
  ∃ j p s', PyExec.callTo L g Q (n + 2) i o s = (.ok p, s') ∧ Mapry.PyExec.Jsonable s'.heap s.heap.length j p ∧
    ∀ d, PyText j d → ∃ v z e a, cppOf d = some v ∧
      CppRead.runGraph C R n body v ref (CppRuntime.newGraph g) (.new cap) = .ok (z, e) ∧ e.values = [] ∧
      PyGraph (PyExec.settingsOf py) g n a x ∧ CppGraph g n a z

/-- **C94** in full, from Go to C++: for all values. -/
def C94GoCppFull : Prop := ∀ (g : Graph) (Q : GoLang.Program) (D : CppRuntime.DateLib) (R : CppRead.Program) (body : CppRead.GStmt)
  (G : GoRuntime.Lib) (C : CppRuntime.Lib) (y : GoRuntime.GraphVal) (O : Order) (σ : GoLang.St) (b : GoLang.Addr) (w : GoLang.Val)
  (n m : Nat) (ref : Str) (cap : Nat), Portable g → OwnKeys g → GoExec.Emitted g Q → CppExec.GraphReaders g D R body →
  CppRuntime.Spec.NoGarbage C → (∀ t, G.formatTime t [] = []) → O.Proper → σ.read b = some w → Mapry.GoExec.HoldsGraph g σ w y →
  GoRuntime.Spec.ValidGraph G g n y → n + 2 ≤ m → 0 < cap →
  ∃ j u e σ', GoExec.callTo O G g Q m (.ptr b) σ = .ok ([u, e], σ') ∧ e.isNil = true ∧
    Mapry.GoExec.Jsonable σ'.heap σ.heap.length j u ∧
    ∀ d, GoText j d → ∃ v z e a, cppOf d = some v ∧
      CppRead.runGraph C R n body v ref (CppRuntime.newGraph g) (.new cap) = .ok (z, e) ∧ e.values = [] ∧
      GoGraph g n a y ∧ CppGraph g n a z

/-- The code of a schema with one property of a type without structures -/
theorem one_readers {t : Ty} (hc : (CppRead.reader (one t) .ctime).toOption.map List.length = some 0)
    (hb : (CppRead.parseGraphCode (one t) .ctime).toBool = true) (hk : CppRead.Known (one t) t) :
    ∃ body, CppExec.GraphReaders (one t) .ctime [] body := by
  cases h : CppRead.parseGraphCode (one t) .ctime with
  | error e =>
    rw [h] at hb
    cases hb
  | ok body =>
    refine ⟨body, ⟨⟨?_, List.Pairwise.nil, nofun, nofun, nofun⟩, h, ⟨[], rfl, List.Pairwise.nil⟩, ?_⟩⟩
    · cases h : CppRead.reader (one t) .ctime with
      | error e =>
        rw [h] at hc
        cases hc
      | ok P =>
        rw [h] at hc
        simp only [Except.toOption, Option.map_some, Option.some.injEq, List.length_eq_zero_iff] at hc
        rw [hc]
    · intro p hp
      simp only [one, List.mem_cons, List.not_mem_nil, or_false] at hp
      subst hp
      exact hk

/-- **C94 is violated** from Python to C++: the C++ code rejects an integer of more than 64 bits. -/
theorem C94_violated_py_cpp : ¬ C94PyCppFull := by
  intro h
  have W : PyExec.Saved (one (.integer {})) PyExec.Demo.settings (PyExec.Demo.writerOf (one (.integer {}))) :=
    PyExec.Demo.saved_of (by decide) (by decide) (by decide +kernel) (by decide +kernel) (by decide +kernel) (by decide)
  have N : PyExec.PlainTo (one (.integer {})) := ⟨by decide +kernel, by decide +kernel, (fun c hc => by cases hc), by decide +kernel⟩
  obtain ⟨body, B⟩ := one_readers (t := .integer {}) (by decide +kernel) (by decide +kernel) trivial
  have hv := py_int_valid PyRuntime.Demo.lib (PyExec.settingsOf PyExec.Demo.settings) 1 (2 ^ 63)
  obtain ⟨j, p, s', h1, h2, h3⟩ := h (one (.integer {})) PyExec.Demo.settings _ .ctime [] body PyRuntime.Demo.lib CppRuntime.Demo.lib
    (pyInt (2 ^ 63)) largeState 0 1 true [] 1 one_integer (one_keys _) W N B CppRuntime.Demo.lib_garbage large_shown hv (by decide)
  obtain ⟨⟨j', hj', ht⟩, _, hn⟩ := C64_violated_py_large PyRuntime.Demo.lib (PyExec.settingsOf PyExec.Demo.settings) GoRuntime.Demo.lib
    .ctime 1 [] 1 true (by decide) GoRuntime.Demo.order_proper CppRuntime.Demo.lib_garbage
  have hc := PyExec.C83_code_partial W N large_shown true 1 (L := PyRuntime.Demo.lib) (by rw [hj']; nofun)
  rw [hj', h1] at hc
  obtain ⟨_, _, e, _, _, h4⟩ := hc
  cases e
  cases py_jsonable_unique h2 h4
  obtain ⟨v, z, e, a, k1, k2, k3, _⟩ := h3 _ ht
  exact hn ⟨z, v, k1, (CppExec.C93_accepts_iff B 1 v [] _ (CppExec.new_allocated _) 1 (by decide) z).1 ⟨e, k2, k3⟩⟩

/-- A Go graph with the least duration, which its field points to -/
def leastMemory : GoLang.St := ⟨[.struct [(c!"X", .ptr ⟨1, []⟩)], .duration minInt64], GoErrors.new 0, 0⟩

theorem least_holds : Mapry.GoExec.HoldsGraph (one .duration) leastMemory (.struct [(c!"X", .ptr ⟨1, []⟩)]) (goWait minInt64) := by
  refine ⟨?_, fun c hc => (by cases hc)⟩
  intro p hp
  simp only [one, List.mem_cons, List.not_mem_nil, or_false] at hp
  subst hp
  exact ⟨_, _, rfl, rfl, .some rfl rfl rfl (.duration _)⟩

/-- **C94 is violated** from Go to C++: the C++ code reads zero for the least duration. -/
theorem C94_violated_go_cpp : ¬ C94GoCppFull := by
  intro h
  obtain ⟨body, B⟩ := one_readers (t := .duration) (by decide +kernel) (by decide +kernel) trivial
  obtain ⟨Q, hQ⟩ := Go.Demo.of_isOk (x := GoGen.writer (one .duration)) (by decide +kernel)
  have E : GoExec.Emitted (one .duration) Q := ⟨hQ, ⟨c!"G", rfl⟩, GoGen.writer_nodup hQ (by decide +kernel)⟩
  obtain ⟨j, w, e, σ', h1, _, h2, h3⟩ := h (one .duration) Q .ctime [] body GoRuntime.Demo.lib CppRuntime.Demo.lib (goWait minInt64)
    GoRuntime.Demo.order leastMemory ⟨0, []⟩ _ 1 3 [] 10 one_duration (one_keys _) E B CppRuntime.Demo.lib_garbage (fun _ => rfl)
    GoRuntime.Demo.order_proper rfl least_holds (go_wait_valid _ 1 _ (by decide)) (Nat.le_refl 3) (by decide)
  obtain ⟨⟨j', r', hj', ht⟩, hz⟩ := C64_violated_go_least (O := GoRuntime.Demo.order) GoRuntime.Demo.lib .ctime 1 [] 10 0 (by decide)
    CppRuntime.Demo.lib_garbage
  have hc := GoExec.C85_code (O := GoRuntime.Demo.order) (L := GoRuntime.Demo.lib) (k := 1) E
    (show leastMemory.read ⟨0, []⟩ = some _ from rfl) least_holds (Nat.le_refl 3)
  rw [show GoRuntime.serGraph GoRuntime.Demo.order GoRuntime.Demo.lib (one .duration) 1 (goWait minInt64) leastMemory.ranges = _ from hj',
    h1] at hc
  obtain ⟨_, _, _, e1, _, _, h4, _⟩ := hc
  cases e1
  cases GoExec.jsonable_unique h2 h4
  obtain ⟨v, z, e, a, k1, k2, k3, k4, k5⟩ := h3 _ ht
  have hf := hz z ⟨v, k1, (CppExec.C93_accepts_iff B 1 v [] _ (CppExec.new_allocated _) 10 (by decide) z).1 ⟨e, k2, k3⟩⟩
  obtain ⟨_, k4⟩ := k4
  obtain ⟨_, k5⟩ := k5
  rw [hf] at k5
  obtain ⟨fs, rs⟩ := a
  cases k4 with
  | @cons _ f _ _ _ _ q4 q4' =>
    cases k5 with
    | cons q5 q5' =>
      obtain ⟨k, u⟩ := f
      obtain ⟨_, _, q4⟩ := q4
      obtain ⟨_, _, q5⟩ := q5
      rcases q4 with ⟨_, _, q4⟩ | ⟨_, q4, q⟩
      · cases q4
      · rcases q5 with ⟨_, _, q5⟩ | ⟨_, q5, q'⟩
        · cases q5
        · cases q4
          cases q5
          cases q
          cases q'

namespace InteropToCppExample

open TransferExample InteropCodeExample

theorem py_cpp_crosses : ∀ a, PyGraph {} schema 3 a pyValue →
    Crosses (pyWriter PyRuntime.Demo.lib {}) (cppLeaves .ctime CppRuntime.Demo.lib) schema 3 a := by
  intro a ha
  exact (py_small a ha).imp (fun _ _ h => Interop.plain_py_cpp (TransferExample.plain_py_cpp h))
    (fun p s _ (h : p.isPrefixOf s = true) => h)

theorem go_cpp_crosses : ∀ a, GoGraph schema 3 a GoRuntime.Demo.value →
    Crosses (goWriter GoRuntime.Demo.lib) (cppLeaves .ctime CppRuntime.Demo.lib) schema 3 a := by
  intro a ha
  exact (go_small a ha).imp (fun _ _ h => Interop.plain_go_cpp (TransferExample.plain_go_cpp h))
    (fun p s _ (h : p.isPrefixOf s = true) => h)

/-- The Python code reads a graph and writes it, and the C++ code reads it. -/
example : ∃ R, R = PyExec.callFrom PyRuntime.Demo.lib schema (PyExec.Demo.codeOf schema) 5 pyInput c!"#" 0
      PyExec.Demo.start ∧ R.1 = .ok (.addr 1) ∧
    ∃ j p s', PyExec.callTo PyRuntime.Demo.lib schema (PyExec.Demo.writerOf schema) 5 1 false R.2 = (.ok p, s') ∧
      Mapry.PyExec.Jsonable s'.heap R.2.heap.length j p ∧ ∀ d, PyText j d →
      ∃ v z e a, cppOf d = some v ∧ CppRead.runGraph CppRuntime.Demo.lib CppExec.ReadDemo.code 3 CppExec.ReadDemo.body v c!"#"
          (CppRuntime.newGraph schema) (.new 5) = .ok (z, e) ∧ e.values = [] ∧
        PyGraph {} schema 3 a pyValue ∧ CppGraph schema 3 a z := by
  have hd : PyExec.Dicts pyInput := PyExec.Demo.dicts_of 9 _ (by decide +kernel)
  have hg : PyRuntime.Spec.ReadsGraph true PyRuntime.Demo.lib (PyExec.settingsOf PyExec.Demo.settings) schema 3 pyInput pyValue :=
    (C29_accepts_partial _ _ _ _ pyInput c!"#" 10 PyExec.Demo.written.valid (by decide) pyValue).1
      ⟨Errors.new 10, by rw [settings_eq]; rfl⟩
  obtain ⟨s', place, h1, _, hG⟩ := PyExec.C81_accepts_partial PyExec.Demo.written PyExec.Demo.plain hd (cap := 10) (by decide)
    (s := PyExec.Demo.start) (ae := 0) rfl 3 pyValue hg (ref := c!"#")
  have hs := Mapry.PyExec.graph_shown PyExec.Demo.written.named.classes (PyExec.keyed_of _ hd) hg hG
  obtain ⟨j, p, s2, k1, k2, k3⟩ := C94_py_cpp_partial InteropExample.portable CppRuntime.Demo.lib_garbage CppExec.ReadDemo.graph_readers
    keys PyExec.Demo.saved ⟨PyExec.Demo.plain.lows, PyExec.Demo.apart⟩ hs (by rw [settings_eq]; exact py_valid)
    (by rw [settings_eq]; exact py_cpp_crosses) false
  rw [settings_eq] at k3
  exact ⟨_, rfl, by rw [h1]; rfl, j, p, s2, by rw [h1]; exact k1, by rw [h1]; exact k2, fun d hd => k3 d hd c!"#" 5 (by decide)⟩

/-- The Go code writes a graph, and the C++ code reads it. -/
example : ∃ Q j u e σ', GoExec.Emitted schema Q ∧
    GoExec.callTo GoRuntime.Demo.order GoRuntime.Demo.lib schema Q 5 (.ptr ⟨0, []⟩) (GoExec.Demo.memory c!"p1") = .ok ([u, e], σ') ∧
    e.isNil = true ∧ Mapry.GoExec.Jsonable σ'.heap (GoExec.Demo.memory c!"p1").heap.length j u ∧ ∀ d, GoText j d →
    ∃ v z e a, cppOf d = some v ∧ CppRead.runGraph CppRuntime.Demo.lib CppExec.ReadDemo.code 3 CppExec.ReadDemo.body v c!"#"
        (CppRuntime.newGraph schema) (.new 5) = .ok (z, e) ∧ e.values = [] ∧
      GoGraph schema 3 a GoRuntime.Demo.value ∧ CppGraph schema 3 a z := by
  obtain ⟨Q, E⟩ := GoExec.Demo.code
  obtain ⟨j, w, e, σ', h1, h2, h3, h4⟩ := C94_go_cpp_partial InteropExample.portable CppRuntime.Demo.lib_garbage
    CppExec.ReadDemo.graph_readers keys E (fun _ => rfl) GoRuntime.Demo.order_proper
    (show (GoExec.Demo.memory c!"p1").read ⟨0, []⟩ = some _ from rfl) (GoExec.Demo.holds (by decide)) go_valid go_cpp_crosses
    (Nat.le_refl 5)
  exact ⟨Q, j, w, e, σ', E, h1, h2, h3, fun d hd => h4 d hd c!"#" 5 (by decide)⟩

end InteropToCppExample

end Mapry.Props
