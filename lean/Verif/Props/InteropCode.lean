import Verif.InteropCode
import Verif.Props.GoRead
import Verif.Props.PyWrite
import Verif.Props.TransferExample

/-! # C87: the generated Python code and the generated Go code, run statement by statement, exchange graphs -/

namespace Mapry.Props

open Mapry.Interop Mapry.LangValidate Mapry.ParseSchema
open Mapry.PyRuntime (Json)

section

variable {g : Graph} (hg : Portable g) {py : Py} {n : Nat} {d : Doc}

include hg

/-- What the code of the Go parser does with a document which describes a graph -/
theorem go_code_reads {P : GoLang.Program} (H : GoExec.Parses g P) (hd : d.Distinct) (hf : d.finite = true) {O : Order} (hO : O.Proper)
    {G : GoRuntime.Lib} {a : AGraph} (ha : MeansGraph (goLeaves G) g n d a) {σ : GoLang.St} {l : Nat} (ref : Str)
    (hl : σ.heap[l]? = some .zero) (he : σ.errors.values = []) {m : Nat} (hm : n + 2 ≤ m) :
    ∃ v σ' w y, goOf d = some v ∧ GoExec.callFrom O G g P m v ref (.ptr ⟨l, []⟩) .errors σ = .ok ([], σ') ∧
      σ'.errors.values = [] ∧ σ'.heap[l]? = some w ∧ Mapry.GoExec.HoldsGraph g σ' w y ∧ GoGraph g n a y := by
  obtain ⟨y, hy, hq⟩ := (go_graph G g n hd).2 a ha
  obtain ⟨st, h1, h2⟩ := GoRuntime.graph_yes (L := G) hO (go_distinct_of_valid hg.go) hg.exact n (goVal d) (goVal_canon d) ref
    (Mapry.GoExec.stOf σ) he y hy
  have h3 := GoExec.C86_code (O := O) (L := G) (ref := ref) H hO (goVal_canon d) hl hm
  rw [h1] at h3
  obtain ⟨σ', g1, _, g3, g4⟩ := h3
  have hvals : σ'.errors.values = [] := by
    have : (Mapry.GoExec.stOf σ').errors = σ.errors := by rw [g3, h2]; rfl
    rw [show σ'.errors = σ.errors from this]
    exact he
  obtain ⟨w, hw, hh⟩ := g4 ((GoExec.empty_iff _).2 hvals)
  exact ⟨_, σ', w, y, by rw [goOf, if_pos hf], g1, hvals, hw, hh, hq⟩

omit hg in
/-- What the code of the Python parser does with a document which describes a graph -/
theorem py_code_reads {P : PyLang.Program} (W : PyExec.Written g py P) (N : PyExec.PlainNames g) (hd : d.Distinct) (o : Bool)
    {L : PyRuntime.Lib} {a : AGraph} (ha : MeansGraph (pyLeaves L (PyExec.settingsOf py)) g n d a) {s : PyLang.St} {ae : Nat}
    (ref : Str) {cap : Int} (hcap : 0 < cap) (he : s.heap[ae]? = some (.errors (Errors.new cap))) :
    ∃ s' place x, PyExec.callFrom L g P (n + 2) (pyOf o d) ref ae s = (.ok (.addr s.heap.length), s') ∧
      Mapry.PyExec.Outside ae s.heap s'.heap (Errors.new cap) ∧
      Mapry.PyExec.GraphRep g s'.heap place (s.heap.length + 1) s.heap.length x ∧ PyGraph (PyExec.settingsOf py) g n a x := by
  obtain ⟨x, hx, hq⟩ := (py_graph o L (PyExec.settingsOf py) g n hd).2 a ha
  obtain ⟨s', place, h1, h2, h3⟩ := PyExec.C81_accepts_partial W N (PyExec.dicts_of_keyed (keyed_pyOf o hd)) hcap he n x hx (ref := ref)
  exact ⟨s', place, x, h1, h2, h3, hq⟩

/-! ## One writes, the other reads -/

/-- **C87, from Python to Go (partial).** The code of the Python serializer writes a graph in the heap. Whichever text is made of the
result, the code of the Go parser reads it without an error, and the memory holds the same graph. -/
theorem C87_py_go_partial (hk : OwnKeys g) {Q : PyLang.Program} {P : GoLang.Program} (W : PyExec.Saved g py Q) (N : PyExec.PlainTo g)
    (H : GoExec.Parses g P) {L : PyRuntime.Lib} {G : GoRuntime.Lib} {x : PyRuntime.GraphVal} {s : PyLang.St} {i : Nat} {lax : Bool}
    (hs : Mapry.PyExec.ShowsGraph s.heap g x i) (hv : PyRuntime.Spec.ValidGraph lax L (PyExec.settingsOf py) g false n x)
    (hx : ∀ a, PyGraph (PyExec.settingsOf py) g n a x → Crosses (pyWriter L (PyExec.settingsOf py)) (goLeaves G) g n a) (o : Bool) :
    ∃ j p s', PyExec.callTo L g Q (n + 2) i o s = (.ok p, s') ∧ Mapry.PyExec.Jsonable s'.heap s.heap.length j p ∧
      ∀ d, PyText j d → ∀ (O : Order), O.Proper → ∀ (σ : GoLang.St) (l : Nat) (ref : Str) (m : Nat),
        σ.heap[l]? = some .zero → σ.errors.values = [] → n + 2 ≤ m →
        ∃ v σ' w y a, goOf d = some v ∧ GoExec.callFrom O G g P m v ref (.ptr ⟨l, []⟩) .errors σ = .ok ([], σ') ∧
          σ'.errors.values = [] ∧ σ'.heap[l]? = some w ∧ Mapry.GoExec.HoldsGraph g σ' w y ∧
          PyGraph (PyExec.settingsOf py) g n a x ∧ GoGraph g n a y := by
  have hd := dicts_shown (PyExec.writer_of W N).facts hs n
  obtain ⟨j, hj, h⟩ := py_describes hg hk n L (PyExec.settingsOf py) o hv hd
  have hc := PyExec.C83_code_partial W N hs o n (L := L) (by rw [hj]; nofun)
  rw [hj] at hc
  obtain ⟨s', p, h1, _, _, h2⟩ := hc
  refine ⟨j, p, s', h1, h2, fun d hw O hO σ l ref m hl he hm => ?_⟩
  obtain ⟨a, ha, hp⟩ := h d hw
  obtain ⟨hmean, _, hdist, hfin⟩ := written_means (fun _ _ _ => py_go_sound) ha (hx a hp)
  obtain ⟨v, σ', w, y, k1, k2, k3, k4, k5, k6⟩ := go_code_reads hg H hdist hfin hO hmean ref hl he hm
  exact ⟨v, σ', w, y, a, k1, k2, k3, k4, k5, hp, k6⟩

/-- **C87, from Go to Python (partial).** The code of the Go serializer writes a graph in the memory without an error. Whichever text
is made of the result, the code of the Python parser returns for it a new object which represents the same graph. -/
theorem C87_go_py_partial (hk : OwnKeys g) {Q : GoLang.Program} {P : PyLang.Program} (E : GoExec.Emitted g Q) (W : PyExec.Written g py P)
    (N : PyExec.PlainNames g) {L : PyRuntime.Lib} {G : GoRuntime.Lib} (hfmt : ∀ t, G.formatTime t [] = []) {O : Order} (hO : O.Proper)
    {y : GoRuntime.GraphVal} {σ : GoLang.St} {b : GoLang.Addr} {z : GoLang.Val} (hb : σ.read b = some z)
    (hh : Mapry.GoExec.HoldsGraph g σ z y) (hv : GoRuntime.Spec.ValidGraph G g n y)
    (hx : ∀ a, GoGraph g n a y → Crosses (goWriter G) (pyLeaves L (PyExec.settingsOf py)) g n a) {m : Nat} (hm : n + 2 ≤ m) :
    ∃ j w e σ', GoExec.callTo O G g Q m (.ptr b) σ = .ok ([w, e], σ') ∧ e.isNil = true ∧
      Mapry.GoExec.Jsonable σ'.heap σ.heap.length j w ∧
      ∀ d, GoText j d → ∀ (o : Bool) (s : PyLang.St) (ae : Nat) (ref : Str) (cap : Int), 0 < cap →
        s.heap[ae]? = some (.errors (Errors.new cap)) →
        ∃ s' place x a, PyExec.callFrom L g P (n + 2) (pyOf o d) ref ae s = (.ok (.addr s.heap.length), s') ∧
          Mapry.PyExec.Outside ae s.heap s'.heap (Errors.new cap) ∧
          Mapry.PyExec.GraphRep g s'.heap place (s.heap.length + 1) s.heap.length x ∧
          GoGraph g n a y ∧ PyGraph (PyExec.settingsOf py) g n a x := by
  obtain ⟨j, r', hj, h⟩ := go_describes hg hk n hO G hfmt hv σ.ranges
  have hc := GoExec.C85_code (O := O) (L := G) E hb hh hm
  rw [hj] at hc
  obtain ⟨w, e, σ', h5, h6, _, h7, _⟩ := hc
  refine ⟨j, w, e, σ', h5, h6, h7, fun d hw o s ae ref cap hcap he => ?_⟩
  obtain ⟨a, ha, hp⟩ := h d hw
  obtain ⟨hmean, _, hdist, _⟩ := written_means (fun _ _ _ hw _ => go_sound hw) ha (hx a hp)
  obtain ⟨s', place, x, k1, k2, k3, k4⟩ := py_code_reads W N hdist o hmean ref hcap he
  exact ⟨s', place, x, a, k1, k2, k3, hp, k4⟩

/-! ## Both read the same document -/

section

variable {Q : PyLang.Program} {P : GoLang.Program} (W : PyExec.Written g py Q) (N : PyExec.PlainNames g) (H : GoExec.Parses g P)
  {L : PyRuntime.Lib} {G : GoRuntime.Lib} (hd : d.Distinct) (hf : d.finite = true) {O : Order} (hO : O.Proper)
  {s : PyLang.St} {ae : Nat} {cap : Int} (hcap : 0 < cap) (he : s.heap[ae]? = some (.errors (Errors.new cap))) (ref : Str)
  {σ : GoLang.St} {l : Nat} (hl : σ.heap[l]? = some .zero) (hempty : σ.errors.values = []) (o : Bool)

include W N H hd hf hO hcap he hl hempty

/-- **C87, acceptance (partial).** What the Python code accepts, the Go code accepts, and reads the same graph. -/
theorem C87_py_accepted_partial (ha : Alike (pyLeaves L (PyExec.settingsOf py)) (goLeaves G) g (n + 1) d) {b : Nat} {s' : PyLang.St}
    (h : PyExec.callFrom L g Q (n + 2) (pyOf o d) ref ae s = (.ok (.addr b), s')) {m : Nat} (hm : n + 3 ≤ m) :
    ∃ v σ' w x y a place, goOf d = some v ∧ GoExec.callFrom O G g P m v ref (.ptr ⟨l, []⟩) .errors σ = .ok ([], σ') ∧
      σ'.errors.values = [] ∧ σ'.heap[l]? = some w ∧ Mapry.GoExec.HoldsGraph g σ' w y ∧
      Mapry.PyExec.GraphRep g s'.heap place (s.heap.length + 1) b x ∧ PyGraph (PyExec.settingsOf py) g (n + 1) a x ∧
      GoGraph g (n + 1) a y := by
  rcases PyExec.C81_returned_partial W N (PyExec.dicts_of_keyed (keyed_pyOf o hd)) hcap he n _ _ h with
    ⟨hb, _, x, place, hr, hG⟩ | ⟨hb, _⟩
  · cases hb
    obtain ⟨a, hmean, hp⟩ := (py_graph o L (PyExec.settingsOf py) g (n + 1) hd).1 x hr
    obtain ⟨v, σ', w, y, k1, k2, k3, k4, k5, k6⟩ := go_code_reads hg H hd hf hO ((means_congr ha a).1 hmean) ref hl hempty hm
    exact ⟨v, σ', w, x, y, a, place, k1, k2, k3, k4, k5, hG, hp, k6⟩
  · cases hb

omit hf in
/-- What the Go code accepts, the Python code accepts, and reads the same graph. -/
theorem C87_go_accepted_partial (ha : Alike (pyLeaves L (PyExec.settingsOf py)) (goLeaves G) g n d) {σ' : GoLang.St}
    {v : GoRuntime.JVal} (hv : goOf d = some v) (hdep : GoRuntime.Spec.DepthLe n v) {m : Nat} (hm : n + 2 ≤ m)
    (h : GoExec.callFrom O G g P m v ref (.ptr ⟨l, []⟩) .errors σ = .ok ([], σ')) (hnone : σ'.errors.values = []) :
    ∃ s' place w x y a, PyExec.callFrom L g Q (n + 2) (pyOf o d) ref ae s = (.ok (.addr s.heap.length), s') ∧
      Mapry.PyExec.GraphRep g s'.heap place (s.heap.length + 1) s.heap.length x ∧
      σ'.heap[l]? = some w ∧ Mapry.GoExec.HoldsGraph g σ' w y ∧ PyGraph (PyExec.settingsOf py) g n a x ∧ GoGraph g n a y := by
  have ev : v = goVal d := by
    rw [goOf] at hv
    split at hv <;> cases hv
    rfl
  subst ev
  have hR := GoExec.C42_code_accepts_partial (O := O) (L := G) (ref := ref) H hO hg.exact (goVal_canon d) hl hempty hdep hm
  rw [h] at hR
  obtain ⟨_, _, h1, h2⟩ := hR
  obtain ⟨y, hy⟩ := h1.1 hnone
  obtain ⟨w, hw, hh⟩ := h2 y hy
  obtain ⟨a, hmean, hq⟩ := (go_graph G g n hd).1 y hy
  obtain ⟨s', place, x, k1, _, k3, k4⟩ := py_code_reads W N hd o ((means_congr ha a).2 hmean) ref hcap he
  exact ⟨s', place, w, x, y, a, k1, k3, hw, hh, k4, hq⟩

end

end

/-! ## Values which do not cross over -/

/-- **C87** in full, from Python to Go: for all values. -/
def C87PyGoFull : Prop := ∀ (g : Graph) (py : Py) (Q : PyLang.Program) (P : GoLang.Program) (L : PyRuntime.Lib) (G : GoRuntime.Lib)
  (x : PyRuntime.GraphVal) (s : PyLang.St) (i n : Nat) (o : Bool) (O : Order) (σ : GoLang.St) (l : Nat) (ref : Str) (m : Nat),
  Portable g → OwnKeys g → PyExec.Saved g py Q → PyExec.PlainTo g → GoExec.Parses g P →
  Mapry.PyExec.ShowsGraph s.heap g x i → PyRuntime.Spec.ValidGraph false L (PyExec.settingsOf py) g false n x →
  O.Proper → σ.heap[l]? = some .zero → σ.errors.values = [] → n + 2 ≤ m →
  ∃ j p s', PyExec.callTo L g Q (n + 2) i o s = (.ok p, s') ∧ Mapry.PyExec.Jsonable s'.heap s.heap.length j p ∧
    ∀ d, PyText j d → ∃ v σ' w y a, goOf d = some v ∧
      GoExec.callFrom O G g P m v ref (.ptr ⟨l, []⟩) .errors σ = .ok ([], σ') ∧ σ'.errors.values = [] ∧ σ'.heap[l]? = some w ∧
      Mapry.GoExec.HoldsGraph g σ' w y ∧ PyGraph (PyExec.settingsOf py) g n a x ∧ GoGraph g n a y

/-- **C87** in full, from Go to Python: for all values. -/
def C87GoPyFull : Prop := ∀ (g : Graph) (py : Py) (Q : GoLang.Program) (P : PyLang.Program) (L : PyRuntime.Lib) (G : GoRuntime.Lib)
  (y : GoRuntime.GraphVal) (O : Order) (σ : GoLang.St) (b : GoLang.Addr) (z : GoLang.Val) (n m : Nat) (o : Bool) (s : PyLang.St)
  (ae : Nat) (ref : Str) (cap : Int), Portable g → OwnKeys g → GoExec.Emitted g Q → PyExec.Written g py P → PyExec.PlainNames g →
  (∀ t, G.formatTime t [] = []) → O.Proper → σ.read b = some z → Mapry.GoExec.HoldsGraph g σ z y →
  GoRuntime.Spec.ValidGraph G g n y → n + 2 ≤ m → 0 < cap → s.heap[ae]? = some (.errors (Errors.new cap)) →
  ∃ j w e σ', GoExec.callTo O G g Q m (.ptr b) σ = .ok ([w, e], σ') ∧ e.isNil = true ∧
    Mapry.GoExec.Jsonable σ'.heap σ.heap.length j w ∧
    ∀ d, GoText j d → ∃ s' place x a, PyExec.callFrom L g P (n + 2) (pyOf o d) ref ae s = (.ok (.addr s.heap.length), s') ∧
      Mapry.PyExec.Outside ae s.heap s'.heap (Errors.new cap) ∧
      Mapry.PyExec.GraphRep g s'.heap place (s.heap.length + 1) s.heap.length x ∧
      GoGraph g n a y ∧ PyGraph (PyExec.settingsOf py) g n a x

/-- The heap holds at most one JSONable at a value. -/
theorem py_jsonable_unique {h : List PyLang.Obj} {lo : Nat} {j : Json} {w : PyLang.PV} (hj : Mapry.PyExec.Jsonable h lo j w) :
    ∀ {lo' : Nat} {j' : Json}, Mapry.PyExec.Jsonable h lo' j' w → j = j' := by
  induction hj with
  | arr hl hc hlen _ ih =>
    intro lo' j' h'
    cases h' with
    | arr _ hc' hlen' hi' =>
      rw [hc] at hc'
      cases hc'
      congr 1
      refine List.ext_getElem (hlen.trans hlen'.symm) fun i h1 h2 => ?_
      exact ih i _ _ (List.getElem?_eq_getElem h1) (List.getElem?_eq_getElem (hlen ▸ h1))
        (hi' i _ _ (List.getElem?_eq_getElem h2) (List.getElem?_eq_getElem (hlen ▸ h1)))
    | obj _ hc' _ _ =>
      rw [hc] at hc'
      cases hc'
  | obj hl hc hk _ ih =>
    intro lo' j' h'
    cases h' with
    | arr _ hc' _ _ =>
      rw [hc] at hc'
      cases hc'
    | obj _ hc' hk' hi' =>
      rw [hc] at hc'
      cases hc'
      congr 1
      have hkk := hk.trans hk'.symm
      have hlen := congrArg List.length hk
      have hlen' := congrArg List.length hk'
      simp only [List.length_map] at hlen hlen'
      refine List.ext_getElem (by omega) fun i h1 h2 => ?_
      refine Prod.ext ?_ ?_
      · have h3 := congrArg (·[i]?) hkk
        simp only [List.getElem?_map, List.getElem?_eq_getElem h1, List.getElem?_eq_getElem h2] at h3
        simpa using h3
      · exact ih i _ _ (List.getElem?_eq_getElem h1) (List.getElem?_eq_getElem (hlen ▸ h1))
          (hi' i _ _ (List.getElem?_eq_getElem h2) (List.getElem?_eq_getElem (hlen ▸ h1)))
  | _ =>
    intro lo' j' h'
    cases h'
    rfl

theorem one_parses {t : Ty} (h1 : Go.Demo.isOk (GoGen.reader (one t)) = true)
    (h2 : (PyExec.Demo.allTypes (one t)).all (PyExec.Demo.defined (one t)) = true)
    (h3 : goValidateSchema (one t) = .ok []) (h4 : ∀ P, GoGen.reader (one t) = .ok P → (P.funcs.map (·.name)).Nodup) :
    ∃ P, GoExec.Parses (one t) P := by
  obtain ⟨P, h⟩ := Go.Demo.of_isOk h1
  exact ⟨P, h, h4 P h, ⟨.nil, .nil⟩, PyExec.Demo.resolves_of h2, h3, ⟨c!"G", rfl⟩, fun c hc => (by cases hc)⟩

/-- A Python object with an integer of more than 64 bits -/
def largeState : PyLang.St := ⟨[.inst c!"G" [(c!"x", .int (2 ^ 63))]], fun _ => none⟩

theorem large_shown : Mapry.PyExec.ShowsGraph largeState.heap (one (.integer {})) (pyInt (2 ^ 63)) 0 := by
  refine ⟨_, _, rfl, fun x hx => ?_, fun c hc => (by cases hc)⟩
  by_cases h : x = c!"x"
  · subst h
    refine ⟨by simp [pyInt, List.lookup], fun v p h1 h2 => ?_⟩
    cases h1
    cases h2
    exact .int _
  · have : (x == c!"x") = false := beq_false_of_ne h
    refine ⟨by simp [pyInt, List.lookup, this], fun v p h => ?_⟩
    simp only [pyInt, List.lookup, this] at h
    cases h

/-- **C87 is violated** from Python to Go: the Go code rejects an integer of more than 64 bits. -/
theorem C87_violated_py_go : ¬ C87PyGoFull := by
  intro h
  have W : PyExec.Saved (one (.integer {})) PyExec.Demo.settings (PyExec.Demo.writerOf (one (.integer {}))) :=
    PyExec.Demo.saved_of (by decide) (by decide) (by decide +kernel) (by decide +kernel) (by decide +kernel) (by decide)
  have N : PyExec.PlainTo (one (.integer {})) := ⟨by decide +kernel, by decide +kernel, (fun c hc => by cases hc), by decide +kernel⟩
  obtain ⟨P, H⟩ := one_parses (t := .integer {}) (by decide +kernel) (by decide +kernel) (by decide +kernel)
    (fun P h => GoGen.reader_nodup h (by decide +kernel))
  have hv := py_int_valid PyRuntime.Demo.lib (PyExec.settingsOf PyExec.Demo.settings) 1 (2 ^ 63)
  obtain ⟨j, p, s', h1, h2, h3⟩ := h (one (.integer {})) PyExec.Demo.settings _ P PyRuntime.Demo.lib GoRuntime.Demo.lib (pyInt (2 ^ 63))
    largeState 0 1 true GoRuntime.Demo.order (GoExec.Demo.fresh 1) 0 [] 3 one_integer (one_keys _) W N H large_shown hv
    GoRuntime.Demo.order_proper rfl rfl (Nat.le_refl 3)
  obtain ⟨⟨j', hj', ht⟩, hn, _⟩ := C64_violated_py_large PyRuntime.Demo.lib (PyExec.settingsOf PyExec.Demo.settings) GoRuntime.Demo.lib
    .ctime 1 [] 1 true (by decide) GoRuntime.Demo.order_proper CppRuntime.Demo.lib_garbage
  have hc := PyExec.C83_code_partial W N large_shown true 1 (L := PyRuntime.Demo.lib) (by rw [hj']; nofun)
  rw [hj', h1] at hc
  obtain ⟨_, _, e, _, _, h4⟩ := hc
  cases e
  cases py_jsonable_unique h2 h4
  obtain ⟨v, σ', w, y, a, k1, k2, k3, _⟩ := h3 _ ht
  have ev : v = goVal (just (.int (2 ^ 63))) := by
    rw [goOf] at k1
    split at k1 <;> cases k1
    rfl
  have hcan := goVal_canon (just (.int (2 ^ 63)))
  rw [← ev] at hcan
  have hdep : GoRuntime.Spec.DepthLe 1 v := by
    rw [ev]
    refine .obj _ _ fun kv hkv => ?_
    simp [goEntries, GoMap.putAll, GoMap.put] at hkv
    subst hkv
    exact .float _ _
  have hR := GoExec.C42_code_accepts_partial (O := GoRuntime.Demo.order) (L := GoRuntime.Demo.lib) (ref := []) (σ := GoExec.Demo.fresh 1)
    (l := 0) (k := 1) H GoRuntime.Demo.order_proper one_integer.exact hcan rfl rfl hdep (Nat.le_refl 3)
  rw [k2] at hR
  obtain ⟨_, _, h5, _⟩ := hR
  obtain ⟨y, hy⟩ := h5.1 k3
  obtain ⟨st, h6, h7⟩ := GoRuntime.graph_yes GoRuntime.Demo.order_proper (go_distinct_of_valid one_integer.go) one_integer.exact 1 v
    hcan [] (start 1) rfl y hy
  exact hn ⟨y, v, k1, st, h6, by rw [h7]; rfl⟩

/-- A Go graph with a duration of a nanosecond, which its field points to -/
def waitMemory : GoLang.St := ⟨[.struct [(c!"X", .ptr ⟨1, []⟩)], .duration 1], GoErrors.new 0, 0⟩

theorem wait_holds : Mapry.GoExec.HoldsGraph (one .duration) waitMemory (.struct [(c!"X", .ptr ⟨1, []⟩)]) (goWait 1) := by
  refine ⟨?_, fun c hc => (by cases hc)⟩
  intro p hp
  simp only [one, List.mem_cons, List.not_mem_nil, or_false] at hp
  subst hp
  exact ⟨_, _, rfl, rfl, .some rfl rfl rfl (.duration _)⟩

/-- **C87 is violated** from Go to Python: the Python code rejects a duration of a nanosecond. -/
theorem C87_violated_go_py : ¬ C87GoPyFull := by
  intro h
  have W : PyExec.Written (one .duration) PyExec.Demo.settings (PyExec.Demo.codeOf (one .duration)) :=
    PyExec.Demo.written_of (by decide) (by decide) (by decide +kernel) (by decide +kernel) (by decide +kernel) (by decide)
  have N : PyExec.PlainNames (one .duration) :=
    ⟨by decide +kernel, by decide +kernel, (PyNames.selfFree_iff W.named).1 (by unfold PyCode.NoSelf; decide +kernel)⟩
  obtain ⟨Q, hQ⟩ := Go.Demo.of_isOk (x := GoGen.writer (one .duration)) (by decide +kernel)
  have E : GoExec.Emitted (one .duration) Q := ⟨hQ, ⟨c!"G", rfl⟩, GoGen.writer_nodup hQ (by decide +kernel)⟩
  obtain ⟨j, w, e, σ', h1, _, h2, h3⟩ := h (one .duration) PyExec.Demo.settings Q _ PyRuntime.Demo.lib GoRuntime.Demo.lib (goWait 1)
    GoRuntime.Demo.order waitMemory ⟨0, []⟩ _ 1 3 true PyExec.Demo.start 0 [] 10 one_duration (one_keys _) E W N (fun _ => rfl)
    GoRuntime.Demo.order_proper rfl wait_holds (go_wait_valid _ 1 _ (by decide)) (Nat.le_refl 3) (by decide) rfl
  obtain ⟨⟨j', r', hj', ht⟩, hn⟩ := C64_violated_go_nanosecond (O := GoRuntime.Demo.order) PyRuntime.Demo.lib
    (PyExec.settingsOf PyExec.Demo.settings) GoRuntime.Demo.lib 1 [] 10 true 0 (by decide)
  have hc := GoExec.C85_code (O := GoRuntime.Demo.order) (L := GoRuntime.Demo.lib) (k := 1) E (show waitMemory.read ⟨0, []⟩ = some _ from rfl)
    wait_holds (Nat.le_refl 3)
  rw [show GoRuntime.serGraph GoRuntime.Demo.order GoRuntime.Demo.lib (one .duration) 1 (goWait 1) waitMemory.ranges = _ from hj', h1] at hc
  obtain ⟨_, _, _, e1, _, _, h4, _⟩ := hc
  cases e1
  cases GoExec.jsonable_unique h2 h4
  obtain ⟨s', place, x, a, k1, _⟩ := h3 _ ht
  have hd : PyExec.Dicts (pyOf true (just (.str c!"PT0.000000001S"))) :=
    PyExec.dicts_of_keyed (keyed_pyOf true (just_distinct (.str _)))
  rcases PyExec.C81_returned_partial W N hd (cap := 10) (by decide) (s := PyExec.Demo.start) (ae := 0) rfl 1 _ _ k1 with
    ⟨_, _, x, _, hx, _⟩ | ⟨e, _⟩
  · exact (C64_violated_go_nanosecond (O := GoRuntime.Demo.order) PyRuntime.Demo.lib
      (PyExec.settingsOf PyExec.Demo.settings) GoRuntime.Demo.lib 2 [] 10 true 0 (by decide)).2
      ⟨x, (C29_accepts_partial _ _ _ _ _ [] 10 W.valid (by decide) x).2 hx⟩
  · cases e

namespace InteropCodeExample

open TransferExample

/-- The settings of the example -/
theorem settings_eq : PyExec.settingsOf PyExec.Demo.settings = {} := by
  have h1 : decide (PyExec.Demo.settings.pathAs = c!"pathlib.Path") = false := by decide
  have h2 : decide (PyExec.Demo.settings.timezoneAs = c!"pytz.timezone") = false := by decide
  rw [PyExec.settingsOf, h1, h2]

theorem py_crosses : ∀ a, PyGraph (PyExec.settingsOf PyExec.Demo.settings) schema 3 a pyValue →
    Crosses (pyWriter PyRuntime.Demo.lib (PyExec.settingsOf PyExec.Demo.settings)) (goLeaves GoRuntime.Demo.lib) schema 3 a := by
  rw [settings_eq]
  intro a ha
  exact (py_small a ha).imp (fun _ _ h => Interop.plain_py_go (TransferExample.plain_py_go h))
    (fun p s _ (h : p.isPrefixOf s = true) => h)

theorem go_crosses : ∀ a, GoGraph schema 3 a GoRuntime.Demo.value →
    Crosses (goWriter GoRuntime.Demo.lib) (pyLeaves PyRuntime.Demo.lib (PyExec.settingsOf PyExec.Demo.settings)) schema 3 a := by
  rw [settings_eq]
  intro a ha
  exact (go_small a ha).imp (fun _ _ h => Interop.plain_go_py (TransferExample.plain_go_py h))
    (fun p s _ (h : p.isPrefixOf s = true) => h)

/-- The Python code reads a graph and writes it, and the Go code reads it. -/
example : ∃ P R, GoExec.Parses schema P ∧ R = PyExec.callFrom PyRuntime.Demo.lib schema (PyExec.Demo.codeOf schema) 5 pyInput c!"#" 0
      PyExec.Demo.start ∧ R.1 = .ok (.addr 1) ∧
    ∃ j p s', PyExec.callTo PyRuntime.Demo.lib schema (PyExec.Demo.writerOf schema) 5 1 false R.2 = (.ok p, s') ∧
      Mapry.PyExec.Jsonable s'.heap R.2.heap.length j p ∧ ∀ d, PyText j d →
      ∃ v σ' w y a, goOf d = some v ∧ GoExec.callFrom GoRuntime.Demo.order GoRuntime.Demo.lib schema P 5 v c!"#" (.ptr ⟨0, []⟩) .errors
          (GoExec.Demo.fresh 3) = .ok ([], σ') ∧
        σ'.errors.values = [] ∧ σ'.heap[0]? = some w ∧ Mapry.GoExec.HoldsGraph schema σ' w y ∧
        PyGraph {} schema 3 a pyValue ∧ GoGraph schema 3 a y := by
  obtain ⟨P, H⟩ := GoExec.Demo.read_code
  have hd : PyExec.Dicts pyInput := PyExec.Demo.dicts_of 9 _ (by decide +kernel)
  have hg : PyRuntime.Spec.ReadsGraph true PyRuntime.Demo.lib (PyExec.settingsOf PyExec.Demo.settings) schema 3 pyInput pyValue :=
    (C29_accepts_partial _ _ _ _ pyInput c!"#" 10 PyExec.Demo.written.valid (by decide) pyValue).1
      ⟨Errors.new 10, by rw [settings_eq]; rfl⟩
  obtain ⟨s', place, h1, _, hG⟩ := PyExec.C81_accepts_partial PyExec.Demo.written PyExec.Demo.plain hd (cap := 10) (by decide)
    (s := PyExec.Demo.start) (ae := 0) rfl 3 pyValue hg (ref := c!"#")
  have hs := Mapry.PyExec.graph_shown PyExec.Demo.written.named.classes (PyExec.keyed_of _ hd) hg hG
  obtain ⟨j, p, s2, k1, k2, k3⟩ := C87_py_go_partial InteropExample.portable keys PyExec.Demo.saved
    ⟨PyExec.Demo.plain.lows, PyExec.Demo.apart⟩ H hs (by rw [settings_eq]; exact py_valid) py_crosses false
  rw [settings_eq] at k3
  exact ⟨P, _, H, rfl, by rw [h1]; rfl, j, p, s2, by rw [h1]; exact k1, by rw [h1]; exact k2,
    fun d hd => k3 d hd _ GoRuntime.Demo.order_proper (GoExec.Demo.fresh 3) 0 c!"#" 5 rfl rfl (by decide)⟩

/-- The Go code writes a graph, and the Python code reads it. -/
example : ∃ Q j w e σ', GoExec.Emitted schema Q ∧
    GoExec.callTo GoRuntime.Demo.order GoRuntime.Demo.lib schema Q 5 (.ptr ⟨0, []⟩) (GoExec.Demo.memory c!"p1") = .ok ([w, e], σ') ∧
    e.isNil = true ∧ Mapry.GoExec.Jsonable σ'.heap 8 j w ∧ ∀ d, GoText j d →
    ∃ s' place x a, PyExec.callFrom PyRuntime.Demo.lib schema (PyExec.Demo.codeOf schema) 5 (pyOf false d) c!"#" 0 PyExec.Demo.start =
        (.ok (.addr 1), s') ∧
      Mapry.PyExec.Outside 0 PyExec.Demo.start.heap s'.heap (Errors.new 10) ∧
      Mapry.PyExec.GraphRep schema s'.heap place 2 1 x ∧ GoGraph schema 3 a GoRuntime.Demo.value ∧ PyGraph {} schema 3 a x := by
  obtain ⟨Q, E⟩ := GoExec.Demo.code
  obtain ⟨j, w, e, σ', h1, h2, h3, h4⟩ := C87_go_py_partial InteropExample.portable keys E PyExec.Demo.written PyExec.Demo.plain
    (L := PyRuntime.Demo.lib) (fun _ => rfl) GoRuntime.Demo.order_proper
    (show (GoExec.Demo.memory c!"p1").read ⟨0, []⟩ = some _ from rfl) (GoExec.Demo.holds (by decide)) go_valid go_crosses (Nat.le_refl 5)
  rw [settings_eq] at h4
  exact ⟨Q, j, w, e, σ', E, h1, h2, h3, fun d hd => h4 d hd false PyExec.Demo.start 0 c!"#" 10 (by decide) rfl⟩

/-- The depth of the value is at most `n`, as far as `k` steps show. -/
def shallow : Nat → Nat → GoRuntime.JVal → Bool
  | k + 1, n, .arr xs => xs.all (shallow k n)
  | k + 1, n + 1, .obj kvs => kvs.all fun kv => shallow k n kv.2
  | _, _, .str _ => true
  | _, _, .float _ => true
  | _, _, _ => false

theorem depth_of_shallow : ∀ {k n : Nat} {v : GoRuntime.JVal}, shallow k n v = true → GoRuntime.Spec.DepthLe n v := by
  intro k
  induction k with
  | zero =>
    intro n v h
    cases v <;> first | exact .str _ _ | exact .float _ _ | (cases n <;> cases h)
  | succ k ih =>
    intro n v h
    cases v with
    | str s => exact .str _ _
    | float f => exact .float _ _
    | arr xs => exact .arr _ _ fun x hx => ih (List.all_eq_true.1 h x hx)
    | obj kvs =>
      cases n with
      | zero => cases h
      | succ n => exact .obj _ _ fun kv hx => ih (List.all_eq_true.1 h kv hx)
    | _ => cases n <;> cases h

theorem alike : Alike (pyLeaves PyRuntime.Demo.lib (PyExec.settingsOf PyExec.Demo.settings)) (goLeaves GoRuntime.Demo.lib) schema 3
    InteropExample.doc := by
  rw [settings_eq]
  exact plain_go InteropExample.plain

/-- The Python code accepts the document, and so does the Go code. -/
theorem accepted : ∃ P v σ' w x y a place s', GoExec.Parses schema P ∧
    PyExec.callFrom PyRuntime.Demo.lib schema (PyExec.Demo.codeOf schema) 4 (pyOf false InteropExample.doc) c!"#" 0 PyExec.Demo.start =
      (.ok (.addr 1), s') ∧
    goOf InteropExample.doc = some v ∧ GoExec.callFrom GoRuntime.Demo.order GoRuntime.Demo.lib schema P 5 v c!"#" (.ptr ⟨0, []⟩) .errors
      (GoExec.Demo.fresh 3) = .ok ([], σ') ∧
    σ'.errors.values = [] ∧ σ'.heap[0]? = some w ∧ Mapry.GoExec.HoldsGraph schema σ' w y ∧
    Mapry.PyExec.GraphRep schema s'.heap place 2 1 x ∧ PyGraph (PyExec.settingsOf PyExec.Demo.settings) schema 3 a x ∧
    GoGraph schema 3 a y := by
  obtain ⟨P, H⟩ := GoExec.Demo.read_code
  have hr : ∃ s', PyExec.callFrom PyRuntime.Demo.lib schema (PyExec.Demo.codeOf schema) 4 (pyOf false InteropExample.doc) c!"#" 0
      PyExec.Demo.start = (.ok (.addr 1), s') := by
    have h : PyExec.Demo.returnsGraph (PyExec.callFrom PyRuntime.Demo.lib schema (PyExec.Demo.codeOf schema) 4
      (pyOf false InteropExample.doc) c!"#" 0 PyExec.Demo.start) = true := by decide +kernel
    generalize PyExec.callFrom PyRuntime.Demo.lib schema (PyExec.Demo.codeOf schema) 4 (pyOf false InteropExample.doc) c!"#" 0
      PyExec.Demo.start = r at h ⊢
    unfold PyExec.Demo.returnsGraph at h
    split at h
    · exact ⟨_, rfl⟩
    · cases h
  obtain ⟨s', hr⟩ := hr
  obtain ⟨v, σ', w, x, y, a, place, h⟩ := C87_py_accepted_partial (n := 2) InteropExample.portable PyExec.Demo.written PyExec.Demo.plain H
    InteropExample.distinct (by decide +kernel) GoRuntime.Demo.order_proper (by decide) (s := PyExec.Demo.start) (ae := 0) (cap := 10) rfl
    c!"#" (σ := GoExec.Demo.fresh 3) (l := 0) rfl rfl false alike hr (Nat.le_refl 5)
  exact ⟨P, v, σ', w, x, y, a, place, s', H, hr, h⟩

/-- The Go code accepts the document, and so does the Python code. -/
example : ∃ P v σ' s' place w x y a, GoExec.Parses schema P ∧ goOf InteropExample.doc = some v ∧
    GoExec.callFrom GoRuntime.Demo.order GoRuntime.Demo.lib schema P 5 v c!"#" (.ptr ⟨0, []⟩) .errors (GoExec.Demo.fresh 3) =
      .ok ([], σ') ∧ σ'.errors.values = [] ∧
    PyExec.callFrom PyRuntime.Demo.lib schema (PyExec.Demo.codeOf schema) 5 (pyOf false InteropExample.doc) c!"#" 0 PyExec.Demo.start =
      (.ok (.addr 1), s') ∧
    Mapry.PyExec.GraphRep schema s'.heap place 2 1 x ∧ σ'.heap[0]? = some w ∧ Mapry.GoExec.HoldsGraph schema σ' w y ∧
    PyGraph (PyExec.settingsOf PyExec.Demo.settings) schema 3 a x ∧ GoGraph schema 3 a y := by
  obtain ⟨P, v, σ', _, _, _, _, _, _, H, _, hv, h1, h2, _⟩ := accepted
  have hdep : GoRuntime.Spec.DepthLe 3 v := by
    have e : v = goVal InteropExample.doc := by
      rw [goOf] at hv
      split at hv <;> cases hv
      rfl
    rw [e]
    exact depth_of_shallow (k := 9) (by decide +kernel)
  obtain ⟨s', place, w, x, y, a, h⟩ := C87_go_accepted_partial InteropExample.portable PyExec.Demo.written PyExec.Demo.plain H
    InteropExample.distinct GoRuntime.Demo.order_proper (by decide) (s := PyExec.Demo.start) (ae := 0) (cap := 10) rfl
    c!"#" (σ := GoExec.Demo.fresh 3) (l := 0) rfl rfl false alike hv hdep (Nat.le_refl 5) h1 h2
  exact ⟨P, v, σ', s', place, w, x, y, a, H, hv, h1, h2, h⟩

end InteropCodeExample

end Mapry.Props
