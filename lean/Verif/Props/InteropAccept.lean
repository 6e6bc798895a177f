import Verif.Props.InteropToCpp

/-! # C95: the generated code of the three languages accepts the same documents -/

namespace Mapry.Props

open Mapry.Interop Mapry.LangValidate Mapry.ParseSchema

section

variable {g : Graph} (hg : Portable g) {n : Nat} {d : Doc} {py : Py} {Q : PyLang.Program} {P : GoLang.Program} {D : CppRuntime.DateLib}
  {C : CppRuntime.Lib} (hC : CppRuntime.Spec.NoGarbage C) {R : CppRead.Program} {body : CppRead.GStmt}
  (W : PyExec.Written g py Q) (N : PyExec.PlainNames g) (H : GoExec.Parses g P) (B : CppExec.GraphReaders g D R body)
  {L : PyRuntime.Lib} {G : GoRuntime.Lib} (hd : d.Distinct) {O : Order} (hO : O.Proper)
  {s : PyLang.St} {ae : Nat} {cap : Int} (hcap : 0 < cap) (he : s.heap[ae]? = some (.errors (Errors.new cap))) (ref : Str)
  {σ : GoLang.St} {l : Nat} (hl : σ.heap[l]? = some .zero) (hempty : σ.errors.values = []) {room : Nat} (hroom : 0 < room) (o : Bool)

include hg hC W N H B hd hO hcap he hl hempty hroom

/-- **C95, from C++ (partial).** What the C++ code accepts, the Python code and the Go code accept, and all of them read the same
graph. -/
theorem C95_cpp_accepted_partial (h1 : Alike (pyLeaves L (PyExec.settingsOf py)) (goLeaves G) g n d)
    (h2 : Alike (pyLeaves L (PyExec.settingsOf py)) (cppLeaves D C) g n d) {v : CppRuntime.JVal} (hv : cppOf d = some v)
    {z : CppRuntime.GraphVal} {e : CppErrors} (h : CppRead.runGraph C R n body v ref (CppRuntime.newGraph g) (.new room) = .ok (z, e))
    (hnone : e.values = []) {m : Nat} (hm : n + 2 ≤ m) :
    ∃ s' place x u σ' w y a, PyExec.callFrom L g Q (n + 2) (pyOf o d) ref ae s = (.ok (.addr s.heap.length), s') ∧
      Mapry.PyExec.GraphRep g s'.heap place (s.heap.length + 1) s.heap.length x ∧
      goOf d = some u ∧ GoExec.callFrom O G g P m u ref (.ptr ⟨l, []⟩) .errors σ = .ok ([], σ') ∧ σ'.errors.values = [] ∧
      σ'.heap[l]? = some w ∧ Mapry.GoExec.HoldsGraph g σ' w y ∧
      PyGraph (PyExec.settingsOf py) g n a x ∧ GoGraph g n a y ∧ CppGraph g n a z := by
  obtain ⟨hf, a, ha, hz⟩ := (cpp_means hg n hd ref room hroom D hC).1 z
    ⟨v, hv, (CppExec.C93_accepts_iff B n v ref _ (CppExec.new_allocated g) room hroom z).1 ⟨e, h, hnone⟩⟩
  have hp := (means_congr h2 a).2 ha
  obtain ⟨s', place, x, k1, _, k3, k4⟩ := py_code_reads W N hd o hp ref hcap he
  obtain ⟨u, σ', w, y, q1, q2, q3, q4, q5, q6⟩ := go_code_reads hg H hd hf hO ((means_congr h1 a).1 hp) ref hl hempty hm
  exact ⟨s', place, x, u, σ', w, y, a, k1, k3, q1, q2, q3, q4, q5, k4, q6, hz⟩

omit H hO hl hempty in
/-- **C95, from Python (partial).** What the Python code accepts, the C++ code accepts, and reads the same graph. -/
theorem C95_py_accepted_partial (hf : d.finite = true) (h2 : Alike (pyLeaves L (PyExec.settingsOf py)) (cppLeaves D C) g (n + 1) d)
    {b : Nat} {s' : PyLang.St} (h : PyExec.callFrom L g Q (n + 2) (pyOf o d) ref ae s = (.ok (.addr b), s')) :
    ∃ v z e x a place, cppOf d = some v ∧
      CppRead.runGraph C R (n + 1) body v ref (CppRuntime.newGraph g) (.new room) = .ok (z, e) ∧ e.values = [] ∧
      Mapry.PyExec.GraphRep g s'.heap place (s.heap.length + 1) b x ∧ PyGraph (PyExec.settingsOf py) g (n + 1) a x ∧
      CppGraph g (n + 1) a z := by
  rcases PyExec.C81_returned_partial W N (PyExec.dicts_of_keyed (keyed_pyOf o hd)) hcap he n _ _ h with
    ⟨hb, _, x, place, hr, hG⟩ | ⟨hb, _⟩
  · cases hb
    obtain ⟨a, hmean, hp⟩ := (py_graph o L (PyExec.settingsOf py) g (n + 1) hd).1 x hr
    obtain ⟨v, z, e, k1, k2, k3, k4⟩ := cpp_code_reads hg hC B hd hf ((means_congr h2 a).1 hmean) ref hroom
    exact ⟨v, z, e, x, a, place, k1, k2, k3, hG, hp, k4⟩
  · cases hb

omit W N hcap he in
/-- **C95, from Go (partial).** What the Go code accepts, the C++ code accepts, and reads the same graph. -/
theorem C95_go_accepted_partial (h1 : Alike (pyLeaves L (PyExec.settingsOf py)) (goLeaves G) g n d)
    (h2 : Alike (pyLeaves L (PyExec.settingsOf py)) (cppLeaves D C) g n d) {σ' : GoLang.St}
    {u : GoRuntime.JVal} (hu : goOf d = some u) (hdep : GoRuntime.Spec.DepthLe n u) {m : Nat} (hm : n + 2 ≤ m)
    (h : GoExec.callFrom O G g P m u ref (.ptr ⟨l, []⟩) .errors σ = .ok ([], σ')) (hnone : σ'.errors.values = []) :
    ∃ v z e w y a, cppOf d = some v ∧ CppRead.runGraph C R n body v ref (CppRuntime.newGraph g) (.new room) = .ok (z, e) ∧ e.values = [] ∧
      σ'.heap[l]? = some w ∧ Mapry.GoExec.HoldsGraph g σ' w y ∧ GoGraph g n a y ∧ CppGraph g n a z := by
  have hf : d.finite = true ∧ u = goVal d := by
    rw [goOf] at hu
    split at hu <;> cases hu
    exact ⟨by assumption, rfl⟩
  obtain ⟨hf, rfl⟩ := hf
  have hR := GoExec.C42_code_accepts_partial (O := O) (L := G) (ref := ref) H hO hg.exact (goVal_canon d) hl hempty hdep hm
  rw [h] at hR
  obtain ⟨_, _, q1, q2⟩ := hR
  obtain ⟨y, hy⟩ := q1.1 hnone
  obtain ⟨w, hw, hh⟩ := q2 y hy
  obtain ⟨a, hmean, hq⟩ := (go_graph G g n hd).1 y hy
  obtain ⟨v, z, e, k1, k2, k3, k4⟩ := cpp_code_reads hg hC B hd hf ((means_congr h2 a).1 ((means_congr h1 a).2 hmean)) ref hroom
  exact ⟨v, z, e, w, y, a, k1, k2, k3, hw, hh, hq, k4⟩

end

/-- **C95** in full: the Python code and the C++ code accept the same documents. -/
def C95Full : Prop := ∀ (g : Graph) (py : Py) (Q : PyLang.Program) (D : CppRuntime.DateLib) (R : CppRead.Program)
  (body : CppRead.GStmt) (L : PyRuntime.Lib) (C : CppRuntime.Lib) (d : Doc) (s : PyLang.St) (ae n : Nat) (cap : Int) (room : Nat)
  (ref : Str) (o : Bool), Portable g → PyExec.Written g py Q → PyExec.PlainNames g → CppExec.GraphReaders g D R body →
  CppRuntime.Spec.NoGarbage C → d.Distinct → d.finite = true → 0 < cap → s.heap[ae]? = some (.errors (Errors.new cap)) → 0 < room →
  ((∃ b s', PyExec.callFrom L g Q (n + 2) (pyOf o d) ref ae s = (.ok (.addr b), s')) ↔
    ∃ v z e, cppOf d = some v ∧ CppRead.runGraph C R n body v ref (CppRuntime.newGraph g) (.new room) = .ok (z, e) ∧ e.values = [])

/-- **C95 is violated**: the Python code accepts null for an optional property, and the C++ code rejects it. -/
theorem C95_violated : ¬ C95Full := by
  intro h
  have W : PyExec.Written (one (.integer {})) PyExec.Demo.settings (PyExec.Demo.codeOf (one (.integer {}))) :=
    PyExec.Demo.written_of (by decide) (by decide) (by decide +kernel) (by decide +kernel) (by decide +kernel) (by decide)
  have N : PyExec.PlainNames (one (.integer {})) :=
    ⟨by decide +kernel, by decide +kernel, (PyNames.selfFree_iff W.named).1 (by unfold PyCode.NoSelf; decide +kernel)⟩
  obtain ⟨body, B⟩ := one_readers (t := .integer {}) (by decide +kernel) (by decide +kernel) trivial
  obtain ⟨⟨⟨x, hx⟩, _, hn⟩, _⟩ := C63_violated 1 [] 10 (by decide) true PyRuntime.Demo.lib (PyExec.settingsOf PyExec.Demo.settings)
    GoRuntime.Demo.order_proper GoRuntime.Demo.lib .ctime CppRuntime.Demo.lib_garbage
  have hr := (C29_accepts_partial _ _ _ _ _ [] 10 W.valid (by decide) x).1 hx
  obtain ⟨s', place, h1, _, _⟩ := PyExec.C81_accepts_partial W N (PyExec.dicts_of_keyed (keyed_pyOf true (just_distinct .null)))
    (cap := 10) (by decide) (s := PyExec.Demo.start) (ae := 0) rfl 1 x hr (ref := [])
  obtain ⟨v, z, e, k1, k2, k3⟩ := (h (one (.integer {})) _ _ .ctime [] body PyRuntime.Demo.lib CppRuntime.Demo.lib (just .null)
    PyExec.Demo.start 0 1 10 10 [] true one_integer W N B CppRuntime.Demo.lib_garbage (just_distinct .null) (by decide +kernel) (by decide)
    rfl (by decide)).1 ⟨_, _, h1⟩
  exact hn ⟨z, v, k1, (CppExec.C93_accepts_iff B 1 v [] _ (CppExec.new_allocated _) 10 (by decide) z).1 ⟨e, k2, k3⟩⟩

namespace InteropAcceptExample

open InteropCodeExample TransferExample

theorem alike_cpp : Alike (pyLeaves PyRuntime.Demo.lib (PyExec.settingsOf PyExec.Demo.settings))
    (cppLeaves .ctime CppRuntime.Demo.lib) schema 3 InteropExample.doc := by
  rw [settings_eq]
  exact plain_cpp InteropExample.plain

/-- The Python code accepts the document, and so do the C++ code and the Go code. -/
theorem accepted_cpp : ∃ P v z e, GoExec.Parses schema P ∧ cppOf InteropExample.doc = some v ∧
    CppRead.runGraph CppRuntime.Demo.lib CppExec.ReadDemo.code 3 CppExec.ReadDemo.body v c!"#" (CppRuntime.newGraph schema) (.new 5) =
      .ok (z, e) ∧ e.values = [] := by
  obtain ⟨P, _, _, _, _, _, _, _, s', H, hr, _⟩ := accepted
  obtain ⟨v, z, e, _, _, _, k1, k2, k3, _⟩ := C95_py_accepted_partial (n := 2) InteropExample.portable CppRuntime.Demo.lib_garbage
    PyExec.Demo.written PyExec.Demo.plain CppExec.ReadDemo.graph_readers InteropExample.distinct (by decide : (0 : Int) < 10)
    (s := PyExec.Demo.start) (ae := 0) rfl c!"#" (by decide : 0 < 5) false (by decide +kernel) alike_cpp hr
  exact ⟨P, v, z, e, H, k1, k2, k3⟩

/-- The C++ code accepts the document, and so do the others. -/
example : ∃ P z s' place x u σ' w y a, GoExec.Parses schema P ∧
    PyExec.callFrom PyRuntime.Demo.lib schema (PyExec.Demo.codeOf schema) 5 (pyOf false InteropExample.doc) c!"#" 0 PyExec.Demo.start =
      (.ok (.addr PyExec.Demo.start.heap.length), s') ∧
    Mapry.PyExec.GraphRep schema s'.heap place (PyExec.Demo.start.heap.length + 1) PyExec.Demo.start.heap.length x ∧
    goOf InteropExample.doc = some u ∧ GoExec.callFrom GoRuntime.Demo.order GoRuntime.Demo.lib schema P 5 u c!"#" (.ptr ⟨0, []⟩) .errors
      (GoExec.Demo.fresh 3) = .ok ([], σ') ∧ σ'.errors.values = [] ∧ σ'.heap[0]? = some w ∧ Mapry.GoExec.HoldsGraph schema σ' w y ∧
    PyGraph (PyExec.settingsOf PyExec.Demo.settings) schema 3 a x ∧ GoGraph schema 3 a y ∧ CppGraph schema 3 a z := by
  obtain ⟨P, v, z, e, H, k1, k2, k3⟩ := accepted_cpp
  obtain ⟨s', place, x, u, σ', w, y, a, h⟩ := C95_cpp_accepted_partial InteropExample.portable CppRuntime.Demo.lib_garbage
    PyExec.Demo.written PyExec.Demo.plain H CppExec.ReadDemo.graph_readers InteropExample.distinct GoRuntime.Demo.order_proper
    (by decide : (0 : Int) < 10) (s := PyExec.Demo.start) (ae := 0) rfl c!"#" (σ := GoExec.Demo.fresh 3) (l := 0) rfl rfl
    (by decide : 0 < 5) false alike alike_cpp k1 k2 k3 (Nat.le_refl 5)
  exact ⟨P, z, s', place, x, u, σ', w, y, a, H, h⟩

/-- The Go code accepts the document, and so does the C++ code. -/
example : ∃ P u v z σ' e w y a, GoExec.Parses schema P ∧ goOf InteropExample.doc = some u ∧
    GoExec.callFrom GoRuntime.Demo.order GoRuntime.Demo.lib schema P 5 u c!"#" (.ptr ⟨0, []⟩) .errors (GoExec.Demo.fresh 3) =
      .ok ([], σ') ∧ cppOf InteropExample.doc = some v ∧
    CppRead.runGraph CppRuntime.Demo.lib CppExec.ReadDemo.code 3 CppExec.ReadDemo.body v c!"#" (CppRuntime.newGraph schema) (.new 5) =
      .ok (z, e) ∧ e.values = [] ∧
    σ'.heap[0]? = some w ∧ Mapry.GoExec.HoldsGraph schema σ' w y ∧ GoGraph schema 3 a y ∧ CppGraph schema 3 a z := by
  obtain ⟨P, u, σ', _, _, _, _, _, _, H, _, hu, h1, h2, _⟩ := accepted
  have hdep : GoRuntime.Spec.DepthLe 3 u := by
    have e : u = goVal InteropExample.doc := by
      rw [goOf] at hu
      split at hu <;> cases hu
      rfl
    rw [e]
    exact depth_of_shallow (k := 9) (by decide +kernel)
  obtain ⟨v, z, e, w, y, a, k1, k2, k3, k4⟩ := C95_go_accepted_partial InteropExample.portable CppRuntime.Demo.lib_garbage
    H CppExec.ReadDemo.graph_readers InteropExample.distinct GoRuntime.Demo.order_proper
    c!"#" (σ := GoExec.Demo.fresh 3) (l := 0) rfl rfl (by decide : 0 < 5) alike alike_cpp hu hdep (Nat.le_refl 5) h1 h2
  exact ⟨P, u, v, z, σ', e, w, y, a, H, hu, h1, k1, k2, k3, k4⟩

end InteropAcceptExample

end Mapry.Props
