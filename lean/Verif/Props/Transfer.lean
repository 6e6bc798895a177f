import Verif.TransferCpp
import Verif.TransferGo
import Verif.TransferPy
import Verif.TransferLeaves
import Verif.Props.Interop
import Verif.Props.GoParse
import Verif.PyDemo
import Verif.GoDemo
import Verif.CppDemo

/-! # C64: what one language serializes, the others parse to the same graph -/

namespace Mapry.Props

open Mapry.Duration Mapry.Interop Mapry.LangValidate

/-- No datum overwrites another one in the JSON representation. -/
structure OwnKeys (g : Graph) : Prop where
  graph : (g.properties.map (·.json) ++ g.classes.map fun c => Mapry.lower c.plural).Nodup
  cls : ∀ c ∈ g.classes, (c.properties.map (·.json)).Nodup
  embed : ∀ e ∈ g.embeds, (e.properties.map (·.json)).Nodup

section

variable {g : Graph} (hg : Portable g) (hk : OwnKeys g) (n : Nat) (ref : Str) (cap : Nat)

include hg hk

/-! ## Documents which Python writes -/

section Python

variable (L : PyRuntime.Lib) (S : PyRuntime.Settings) (ordered : Bool) {x : PyRuntime.GraphVal} {lax : Bool}
  (hv : PyRuntime.Spec.ValidGraph lax L S g false n x) (hd : PyDicts g n x)

include hv hd

/-- The serializer in Python gives a JSON-able, and each of its texts describes the graph. -/
theorem py_describes : ∃ j, PyRuntime.serGraph L S g n ordered x = .ok j ∧
    ∀ d, PyText j d → ∃ a, WrittenGraph (pyWriter L S) g n d a ∧ PyGraph S g n a x :=
  py_writes_graph (distinct_of_valid hg.py) ⟨hk.graph, hk.cls, hk.embed⟩ ⟨hg.lower.cls, hg.lower.embed⟩ n ordered x hv hd

/-- **C64, from Python to Go (partial).** -/
theorem C64_py_go_partial {O : Order} (hO : O.Proper) (G : GoRuntime.Lib)
    (hx : ∀ a, PyGraph S g n a x → Crosses (pyWriter L S) (goLeaves G) g n a) :
    ∃ j, PyRuntime.serGraph L S g n ordered x = .ok j ∧ ∀ d, PyText j d →
      ∃ y, GoReads g n d ref cap O G y ∧ ∃ a, PyGraph S g n a x ∧ GoGraph g n a y := by
  obtain ⟨j, hj, h⟩ := py_describes hg hk n L S ordered hv hd
  refine ⟨j, hj, fun d hw => ?_⟩
  obtain ⟨a, ha, hp⟩ := h d hw
  obtain ⟨hm, _, hs, hf⟩ := written_means (fun _ _ _ => py_go_sound) ha (hx a hp)
  obtain ⟨y, hy, hq⟩ := (go_means hg n hs ref cap hO G).2 hf a hm
  exact ⟨y, hy, a, hp, hq⟩

/-- **C64, from Python to C++ (partial).** -/
theorem C64_py_cpp_partial (hcap : 0 < cap) (D : CppRuntime.DateLib) {C : CppRuntime.Lib}
    (hC : CppRuntime.Spec.NoGarbage C)
    (hx : ∀ a, PyGraph S g n a x → Crosses (pyWriter L S) (cppLeaves D C) g n a) :
    ∃ j, PyRuntime.serGraph L S g n ordered x = .ok j ∧ ∀ d, PyText j d →
      ∃ z, CppReads g n d ref cap D C z ∧ ∃ a, PyGraph S g n a x ∧ CppGraph g n a z := by
  obtain ⟨j, hj, h⟩ := py_describes hg hk n L S ordered hv hd
  refine ⟨j, hj, fun d hw => ?_⟩
  obtain ⟨a, ha, hp⟩ := h d hw
  obtain ⟨hm, _, hs, hf⟩ := written_means (fun _ _ _ => py_cpp_sound) ha (hx a hp)
  obtain ⟨z, hz, hq⟩ := (cpp_means hg n hs ref cap hcap D hC).2 hf a hm
  exact ⟨z, hz, a, hp, hq⟩

/-- **C64, from Python to Go, for plain values (partial).** -/
theorem C64_py_go_plain_partial {O : Order} (hO : O.Proper) (G : GoRuntime.Lib)
    (hx : ∀ a, PyGraph S g n a x → Interop.PlainGraph (pyWriter L S) (goLeaves G) (fun _ => True) g n a) :
    ∃ j, PyRuntime.serGraph L S g n ordered x = .ok j ∧ ∀ d, PyText j d →
      ∃ y, GoReads g n d ref cap O G y ∧ ∃ a, PyGraph S g n a x ∧ GoGraph g n a y :=
  C64_py_go_partial hg hk n ref cap L S ordered hv hd hO G
    fun a ha => (hx a ha).imp (fun _ _ => plain_py_go) (fun _ _ h => h)

/-- **C64, from Python to C++, for plain values (partial).** -/
theorem C64_py_cpp_plain_partial (hcap : 0 < cap) (D : CppRuntime.DateLib) {C : CppRuntime.Lib}
    (hC : CppRuntime.Spec.NoGarbage C)
    (hx : ∀ a, PyGraph S g n a x → Interop.PlainGraph (pyWriter L S) (cppLeaves D C) (fun _ => True) g n a) :
    ∃ j, PyRuntime.serGraph L S g n ordered x = .ok j ∧ ∀ d, PyText j d →
      ∃ z, CppReads g n d ref cap D C z ∧ ∃ a, PyGraph S g n a x ∧ CppGraph g n a z :=
  C64_py_cpp_partial hg hk n ref cap L S ordered hv hd hcap D hC
    fun a ha => (hx a ha).imp (fun _ _ => plain_py_cpp) (fun _ _ h => h)

end Python

/-! ## Documents which Go writes -/

section Go

variable {O : Order} (hO : O.Proper) (G : GoRuntime.Lib) (hfmt : ∀ t, G.formatTime t [] = []) {y : GoRuntime.GraphVal}
  (hv : GoRuntime.Spec.ValidGraph G g n y) (r : Nat)

include hO hfmt hv

/-- The serializer in Go gives a JSON-able, and each of its texts describes the graph. -/
theorem go_describes : ∃ j r', GoRuntime.serGraph O G g n y r = .ok (j, r') ∧
    ∀ d, GoText j d → ∃ a, WrittenGraph (goWriter G) g n d a ∧ GoGraph g n a y :=
  go_writes_graph hO hfmt (go_distinct_of_valid hg.go) ⟨hk.graph, hk.cls, hk.embed⟩ n y hv r

/-- **C64, from Go to Python (partial).** -/
theorem C64_go_py_partial (hcap : 0 < cap) (o : Bool) (L : PyRuntime.Lib) (S : PyRuntime.Settings)
    (hx : ∀ a, GoGraph g n a y → Crosses (goWriter G) (pyLeaves L S) g n a) :
    ∃ j r', GoRuntime.serGraph O G g n y r = .ok (j, r') ∧ ∀ d, GoText j d →
      ∃ x, PyReads g n d ref cap o L S x ∧ ∃ a, GoGraph g n a y ∧ PyGraph S g n a x := by
  obtain ⟨j, r', hj, h⟩ := go_describes hg hk n hO G hfmt hv r
  refine ⟨j, r', hj, fun d hw => ?_⟩
  obtain ⟨a, ha, hp⟩ := h d hw
  obtain ⟨hm, _, hs, _⟩ := written_means (fun _ _ _ hw _ => go_sound hw) ha (hx a hp)
  obtain ⟨x, hx, hq⟩ := (py_means hg n hs ref cap hcap o L S).2 a hm
  exact ⟨x, hx, a, hp, hq⟩

/-- **C64, from Go to C++ (partial).** -/
theorem C64_go_cpp_partial (hcap : 0 < cap) (D : CppRuntime.DateLib) {C : CppRuntime.Lib}
    (hC : CppRuntime.Spec.NoGarbage C) (hx : ∀ a, GoGraph g n a y → Crosses (goWriter G) (cppLeaves D C) g n a) :
    ∃ j r', GoRuntime.serGraph O G g n y r = .ok (j, r') ∧ ∀ d, GoText j d →
      ∃ z, CppReads g n d ref cap D C z ∧ ∃ a, GoGraph g n a y ∧ CppGraph g n a z := by
  obtain ⟨j, r', hj, h⟩ := go_describes hg hk n hO G hfmt hv r
  refine ⟨j, r', hj, fun d hw => ?_⟩
  obtain ⟨a, ha, hp⟩ := h d hw
  obtain ⟨hm, _, hs, hf⟩ := written_means (fun _ _ _ hw _ => go_sound hw) ha (hx a hp)
  obtain ⟨z, hz, hq⟩ := (cpp_means hg n hs ref cap hcap D hC).2 hf a hm
  exact ⟨z, hz, a, hp, hq⟩

/-- **C64, from Go to Python, for plain values (partial).** -/
theorem C64_go_py_plain_partial (hcap : 0 < cap) (o : Bool) (L : PyRuntime.Lib) (S : PyRuntime.Settings)
    (hx : ∀ a, GoGraph g n a y → Interop.PlainGraph (goWriter G) (pyLeaves L S)
      (fun s => S.pathlib = true → L.normPath s = s) g n a) :
    ∃ j r', GoRuntime.serGraph O G g n y r = .ok (j, r') ∧ ∀ d, GoText j d →
      ∃ x, PyReads g n d ref cap o L S x ∧ ∃ a, GoGraph g n a y ∧ PyGraph S g n a x :=
  C64_go_py_partial hg hk n ref cap hO G hfmt hv r hcap o L S
    fun a ha => (hx a ha).imp (fun _ _ => plain_go_py) (fun _ _ h => h)

/-- **C64, from Go to C++, for plain values (partial).** -/
theorem C64_go_cpp_plain_partial (hcap : 0 < cap) (D : CppRuntime.DateLib) {C : CppRuntime.Lib}
    (hC : CppRuntime.Spec.NoGarbage C)
    (hx : ∀ a, GoGraph g n a y → Interop.PlainGraph (goWriter G) (cppLeaves D C) (fun _ => True) g n a) :
    ∃ j r', GoRuntime.serGraph O G g n y r = .ok (j, r') ∧ ∀ d, GoText j d →
      ∃ z, CppReads g n d ref cap D C z ∧ ∃ a, GoGraph g n a y ∧ CppGraph g n a z :=
  C64_go_cpp_partial hg hk n ref cap hO G hfmt hv r hcap D hC
    fun a ha => (hx a ha).imp (fun _ _ => plain_go_cpp) (fun _ _ h => h)

end Go

/-! ## Documents which C++ writes -/

section Cpp

variable (D : CppRuntime.DateLib) (C : CppRuntime.Lib) {z : CppRuntime.GraphVal}
  (hv : CppRuntime.Spec.ValidGraph g D C n z) (hd : CppWritable D C g n z)

include hv hd

/-- The serializer in C++ gives a JSON-able, and each of its texts describes the graph. -/
theorem cpp_describes : ∃ j, CppRuntime.serGraph D C g n z = .ok j ∧
    ∀ d, CppText j d → ∃ a, WrittenGraph (cppWriter D C) g n d a ∧ CppGraph g n a z :=
  cpp_writes_graph (Cpp.compiles_of_valid hg.cpp hg.lower) ⟨hk.graph, hk.cls, hk.embed⟩ n z hv hd

/-- **C64, from C++ to Python (partial).** -/
theorem C64_cpp_py_partial (hcap : 0 < cap) (o : Bool) (L : PyRuntime.Lib) (S : PyRuntime.Settings)
    (hx : ∀ a, CppGraph g n a z → Crosses (cppWriter D C) (pyLeaves L S) g n a) :
    ∃ j, CppRuntime.serGraph D C g n z = .ok j ∧ ∀ d, CppText j d →
      ∃ x, PyReads g n d ref cap o L S x ∧ ∃ a, CppGraph g n a z ∧ PyGraph S g n a x := by
  obtain ⟨j, hj, h⟩ := cpp_describes hg hk n D C hv hd
  refine ⟨j, hj, fun d hw => ?_⟩
  obtain ⟨a, ha, hp⟩ := h d hw
  obtain ⟨hm, _, hs, _⟩ := written_means (fun _ _ _ hw _ => cpp_sound hw) ha (hx a hp)
  obtain ⟨x, hx, hq⟩ := (py_means hg n hs ref cap hcap o L S).2 a hm
  exact ⟨x, hx, a, hp, hq⟩

/-- **C64, from C++ to Go (partial).** -/
theorem C64_cpp_go_partial {O : Order} (hO : O.Proper) (G : GoRuntime.Lib)
    (hx : ∀ a, CppGraph g n a z → Crosses (cppWriter D C) (goLeaves G) g n a) :
    ∃ j, CppRuntime.serGraph D C g n z = .ok j ∧ ∀ d, CppText j d →
      ∃ y, GoReads g n d ref cap O G y ∧ ∃ a, CppGraph g n a z ∧ GoGraph g n a y := by
  obtain ⟨j, hj, h⟩ := cpp_describes hg hk n D C hv hd
  refine ⟨j, hj, fun d hw => ?_⟩
  obtain ⟨a, ha, hp⟩ := h d hw
  obtain ⟨hm, _, hs, hf⟩ := written_means (fun _ _ _ hw _ => cpp_sound hw) ha (hx a hp)
  obtain ⟨y, hy, hq⟩ := (go_means hg n hs ref cap hO G).2 hf a hm
  exact ⟨y, hy, a, hp, hq⟩

/-- **C64, from C++ to Python, for plain values (partial).** -/
theorem C64_cpp_py_plain_partial (hcap : 0 < cap) (o : Bool) (L : PyRuntime.Lib) (S : PyRuntime.Settings)
    (hx : ∀ a, CppGraph g n a z → Interop.PlainGraph (cppWriter D C) (pyLeaves L S)
      (fun s => S.pathlib = true → L.normPath s = s) g n a) :
    ∃ j, CppRuntime.serGraph D C g n z = .ok j ∧ ∀ d, CppText j d →
      ∃ x, PyReads g n d ref cap o L S x ∧ ∃ a, CppGraph g n a z ∧ PyGraph S g n a x :=
  C64_cpp_py_partial hg hk n ref cap D C hv hd hcap o L S
    fun a ha => (hx a ha).imp (fun _ _ => plain_cpp_py) (fun _ _ h => h)

/-- **C64, from C++ to Go, for plain values (partial).** -/
theorem C64_cpp_go_plain_partial {O : Order} (hO : O.Proper) (G : GoRuntime.Lib)
    (hx : ∀ a, CppGraph g n a z → Interop.PlainGraph (cppWriter D C) (goLeaves G) (fun _ => True) g n a) :
    ∃ j, CppRuntime.serGraph D C g n z = .ok j ∧ ∀ d, CppText j d →
      ∃ y, GoReads g n d ref cap O G y ∧ ∃ a, CppGraph g n a z ∧ GoGraph g n a y :=
  C64_cpp_go_partial hg hk n ref cap D C hv hd hO G
    fun a ha => (hx a ha).imp (fun _ _ => plain_cpp_go) (fun _ _ h => h)

end Cpp

end

/-! ## Violations -/

/-- What Python serializes, Go and C++ should parse to the same graph. -/
def C64PyFull : Prop := ∀ (L : PyRuntime.Lib) (S : PyRuntime.Settings) (G : GoRuntime.Lib) (D : CppRuntime.DateLib)
  (C : CppRuntime.Lib) (O : Order) (g : Graph) (n : Nat) (ref : Str) (cap : Nat) (ordered : Bool)
  (x : PyRuntime.GraphVal), Portable g → OwnKeys g → O.Proper → CppRuntime.Spec.NoGarbage C → 0 < cap →
  PyRuntime.Spec.ValidGraph false L S g false n x → PyDicts g n x →
  ∃ j, PyRuntime.serGraph L S g n ordered x = .ok j ∧ ∀ d, PyText j d →
    (∃ y, GoReads g n d ref cap O G y ∧ ∃ a, PyGraph S g n a x ∧ GoGraph g n a y) ∧
    ∃ z, CppReads g n d ref cap D C z ∧ ∃ a, PyGraph S g n a x ∧ CppGraph g n a z

/-- What Go serializes, Python and C++ should parse to the same graph. -/
def C64GoFull : Prop := ∀ (L : PyRuntime.Lib) (S : PyRuntime.Settings) (G : GoRuntime.Lib) (D : CppRuntime.DateLib)
  (C : CppRuntime.Lib) (O : Order) (g : Graph) (n : Nat) (ref : Str) (cap r : Nat) (o : Bool)
  (y : GoRuntime.GraphVal), Portable g → OwnKeys g → O.Proper → CppRuntime.Spec.NoGarbage C → 0 < cap →
  (∀ t, G.formatTime t [] = []) → GoRuntime.Spec.ValidGraph G g n y →
  ∃ j r', GoRuntime.serGraph O G g n y r = .ok (j, r') ∧ ∀ d, GoText j d →
    (∃ x, PyReads g n d ref cap o L S x ∧ ∃ a, GoGraph g n a y ∧ PyGraph S g n a x) ∧
    ∃ z, CppReads g n d ref cap D C z ∧ ∃ a, GoGraph g n a y ∧ CppGraph g n a z

/-- What C++ serializes, Python and Go should parse to the same graph. -/
def C64CppFull : Prop := ∀ (L : PyRuntime.Lib) (S : PyRuntime.Settings) (G : GoRuntime.Lib) (D : CppRuntime.DateLib)
  (C : CppRuntime.Lib) (O : Order) (g : Graph) (n : Nat) (ref : Str) (cap : Nat) (o : Bool)
  (z : CppRuntime.GraphVal), Portable g → OwnKeys g → O.Proper → 0 < cap →
  CppRuntime.Spec.ValidGraph g D C n z → CppWritable D C g n z →
  ∃ j, CppRuntime.serGraph D C g n z = .ok j ∧ ∀ d, CppText j d →
    (∃ x, PyReads g n d ref cap o L S x ∧ ∃ a, CppGraph g n a z ∧ PyGraph S g n a x) ∧
    ∃ y, GoReads g n d ref cap O G y ∧ ∃ a, CppGraph g n a z ∧ GoGraph g n a y

theorem one_keys (t : Ty) : OwnKeys (one t) := ⟨by simp [one], by simp [one], by simp [one]⟩

theorem one_duration : Portable (one .duration) :=
  one_portable (by decide +kernel) (by decide +kernel) (by decide +kernel) trivial trivial

section

variable (L : PyRuntime.Lib) (S : PyRuntime.Settings) (G : GoRuntime.Lib) (D : CppRuntime.DateLib) {C : CppRuntime.Lib}
  {O : Order} (n : Nat) (ref : Str) (cap : Nat) (ordered o : Bool) (r : Nat)

/-! ### From Python -/

theorem py_one {t : Ty} {w : PyRuntime.Val} (h : PyRuntime.Spec.Fits false L S (one t) false
    (PyRuntime.Spec.Registered ⟨[(c!"x", w)], []⟩) n t w) :
    PyRuntime.Spec.ValidGraph false L S (one t) false n ⟨[(c!"x", w)], []⟩ :=
  ⟨.nil, .cons ⟨rfl, .inr h⟩ .nil⟩

/-- A Python graph with an integer -/
def pyInt (i : Int) : PyRuntime.GraphVal := ⟨[(c!"x", .int i)], []⟩

theorem py_int_valid (i : Int) : PyRuntime.Spec.ValidGraph false L S (one (.integer {})) false n (pyInt i) :=
  py_one L S n (.inl ⟨i, rfl, noBounds _⟩)

theorem py_int_dicts (i : Int) : PyDicts (one (.integer {})) n (pyInt i) := by
  refine ⟨fun c hc => (by cases hc), ?_⟩
  intro p hp x hx _
  simp only [one, List.mem_cons, List.not_mem_nil, or_false] at hp
  subst hp
  trivial

theorem py_int_written (i : Int) : ∃ j, PyRuntime.serGraph L S (one (.integer {})) n ordered (pyInt i) = .ok j ∧
    PyText j (just (.int i)) :=
  ⟨_, rfl, _, rfl, _, _, rfl, rfl, rfl, rfl⟩

/-- Neither Go nor C++ accepts an integer of more than 64 bits. -/
theorem C64_violated_py_large (hcap : 0 < cap) (hO : O.Proper) (hC : CppRuntime.Spec.NoGarbage C) :
    (∃ j, PyRuntime.serGraph L S (one (.integer {})) n ordered (pyInt (2 ^ 63)) = .ok j ∧
      PyText j (just (.int (2 ^ 63)))) ∧
    ¬ GoTakes n ref cap G O (.integer {}) (.int (2 ^ 63)) ∧ ¬ CppTakes n ref cap D C (.integer {}) (.int (2 ^ 63)) := by
  have h := (C63_violated n ref cap hcap true L S hO G D hC).2.2.2.1
  exact ⟨py_int_written L S n ordered _, h.2⟩

/-- Go reads another integer than Python has written. -/
theorem C64_violated_py_value (hO : O.Proper) :
    (∃ j, PyRuntime.serGraph L S (one (.integer {})) n ordered (pyInt odd) = .ok j ∧ PyText j (just (.int odd))) ∧
    ∀ y, GoReads (one (.integer {})) n (just (.int odd)) ref cap O G y → y.fields = [(c!"X", .int even)] :=
  ⟨py_int_written L S n ordered _, go_integer n ref cap hO G odd even (by decide +kernel)⟩

/-! ### From Go -/

/-- A Go graph with a duration -/
def goWait (x : Int) : GoRuntime.GraphVal := ⟨[(c!"X", .duration x)], []⟩

theorem go_wait_valid (x : Int) (h : IsInt64 x) : GoRuntime.Spec.ValidGraph G (one .duration) n (goWait x) :=
  ⟨.nil, .cons ⟨(by decide : c!"X" = GoRuntime.goName c!"x"), .inr ⟨x, rfl, h⟩⟩ .nil⟩

theorem go_wait_written (x : Int) : ∃ j r', GoRuntime.serGraph O G (one .duration) n (goWait x) r = .ok (j, r') ∧
    GoText j (just (.str (goToString x))) :=
  ⟨_, _, rfl, _, rfl, _, _, rfl, rfl, rfl, rfl⟩

/-- Python rejects a duration with nanoseconds. -/
theorem C64_violated_go_nanosecond (hcap : 0 < cap) :
    (∃ j r', GoRuntime.serGraph O G (one .duration) n (goWait 1) r = .ok (j, r') ∧
      GoText j (just (.str c!"PT0.000000001S"))) ∧
    ¬ PyTakes n ref cap o L S .duration (.str c!"PT0.000000001S") := by
  have e : goToString 1 = c!"PT0.000000001S" := by decide +kernel
  refine ⟨e ▸ go_wait_written G n r 1, fun h => ?_⟩
  obtain ⟨b, s, x, h, hx, _⟩ := (takes_py one_duration n (.str _) (by simp) ref cap hcap o L S).1 h
  cases h
  have : (pyFromString c!"PT0.000000001S").toOption = none := by decide +kernel
  rw [hx] at this
  cases this

/-- C++ reads the least duration as zero. -/
theorem C64_violated_go_least (hcap : 0 < cap) (hC : CppRuntime.Spec.NoGarbage C) :
    (∃ j r', GoRuntime.serGraph O G (one .duration) n (goWait minInt64) r = .ok (j, r') ∧
      GoText j (just (.str c!"-P"))) ∧
    ∀ z, CppReads (one .duration) n (just (.str c!"-P")) ref cap D C z → z.fields = [(c!"x", .duration 0)] := by
  have e : goToString minInt64 = c!"-P" := by decide +kernel
  refine ⟨e ▸ go_wait_written G n r minInt64, ?_⟩
  rintro ⟨fs, rs⟩ hx
  obtain ⟨_, a, ha, hp⟩ := (cpp_means one_duration n (just_distinct (.str _)) ref cap hcap D hC).1 _ hx
  obtain ⟨b, rfl, hb⟩ := (means_one (by simp) a).1 ha
  obtain ⟨_, h⟩ := hp
  cases h with
  | cons h h' =>
    rename_i f _ _
    cases h'
    obtain ⟨k, w⟩ := f
    obtain ⟨_, rfl, h⟩ := h
    obtain ⟨s, x, hs, hv, rfl⟩ := hb
    cases hs
    have hz : cppFromString false c!"-P" = .value 0 := by decide +kernel
    rw [hz] at hv
    cases hv
    rcases h with ⟨_, h, _⟩ | ⟨y, h, rfl⟩
    · cases h
    · cases h
      rfl

/-! ### From C++ -/

/-- C++ graphs with a duration and an integer -/
def cppWait (x : Int) : CppRuntime.GraphVal := ⟨[(c!"x", .duration x)], []⟩

def cppInt (i : Int) : CppRuntime.GraphVal := ⟨[(c!"x", .int i)], []⟩

theorem cpp_wait_valid (x : Int) (h : IsInt64 x) : CppRuntime.Spec.ValidGraph (one .duration) D C n (cppWait x) :=
  ⟨.nil, .cons ⟨rfl, .inr ⟨x, rfl, h⟩⟩ .nil⟩

theorem cpp_int_valid (i : Int) (h : IsInt64 i) : CppRuntime.Spec.ValidGraph (one (.integer {})) D C n (cppInt i) :=
  ⟨.nil, .cons ⟨rfl, .inr ⟨i, rfl, h, noBounds _⟩⟩ .nil⟩

theorem cpp_one_writable {t : Ty} {w : CppRuntime.Val} (hw : w ≠ .nil)
    (h : CppWritableTy D C (CppWritableEmbed D C (one t) n) t w) : CppWritable D C (one t) n ⟨[(c!"x", w)], []⟩ := by
  refine ⟨fun c hc => (by cases hc), ?_, .inr (.inl ⟨_, List.mem_cons_self, w, rfl, fun e => hw e.2⟩)⟩
  intro p hp x hx
  simp only [one, List.mem_cons, List.not_mem_nil, or_false] at hp
  subst hp
  cases hx
  exact h

theorem cpp_wait_writable (x : Int) (h : x ≠ minInt64) : CppWritable D C (one .duration) n (cppWait x) :=
  cpp_one_writable D n (by simp) (fun d e => by cases e; exact h)

theorem cpp_int_writable (i : Int) : CppWritable D C (one (.integer {})) n (cppInt i) :=
  cpp_one_writable D n (by simp) trivial

/-- Python rejects a duration with nanoseconds, and Go reads another integer than C++ has written. -/
theorem C64_violated_cpp (hcap : 0 < cap) (hO : O.Proper) :
    ((∃ j, CppRuntime.serGraph D C (one .duration) n (cppWait 1) = .ok j ∧
        CppText j (just (.str c!"PT0.000000001S"))) ∧
      ¬ PyTakes n ref cap o L S .duration (.str c!"PT0.000000001S")) ∧
    (∃ j, CppRuntime.serGraph D C (one (.integer {})) n (cppInt odd) = .ok j ∧ CppText j (just (.int odd))) ∧
    ∀ y, GoReads (one (.integer {})) n (just (.int odd)) ref cap O G y → y.fields = [(c!"X", .int even)] := by
  have e : cppToString 1 = some c!"PT0.000000001S" := by decide +kernel
  refine ⟨⟨?_, (C64_violated_go_nanosecond (O := O) L S G n ref cap o 0 hcap).2⟩, ?_,
    go_integer n ref cap hO G odd even (by decide +kernel)⟩
  · refine ⟨.obj [(c!"x", .str c!"PT0.000000001S")], ?_, _, rfl, _, _, rfl, rfl, rfl, rfl⟩
    simp [CppRuntime.serGraph, one, cppWait, CppRuntime.serProps, CppRuntime.serTy, e, CppRuntime.putMember,
      CppRuntime.serRegistries, bind, Except.bind]
  · exact ⟨_, rfl, _, rfl, _, _, rfl, rfl, rfl, rfl⟩

end

/-! ### The full claims are false -/

/-- **C64 is violated** from Python: an integer of more than 64 bits is rejected. -/
theorem C64_violated_from_py : ¬ C64PyFull := by
  intro h
  obtain ⟨j, hj, h⟩ := h PyRuntime.Demo.lib {} GoRuntime.Demo.lib .ctime CppRuntime.Demo.lib GoRuntime.Demo.order
    (one (.integer {})) 1 [] 1 true (pyInt (2 ^ 63)) one_integer (one_keys _) GoRuntime.Demo.order_proper
    CppRuntime.Demo.lib_garbage (by decide) (py_int_valid _ _ 1 _) (py_int_dicts 1 _)
  have v := C64_violated_py_large PyRuntime.Demo.lib {} GoRuntime.Demo.lib .ctime 1 [] 1 true (by decide)
    GoRuntime.Demo.order_proper CppRuntime.Demo.lib_garbage
  obtain ⟨⟨j', hj', ht⟩, hn, _⟩ := v
  rw [hj] at hj'
  cases hj'
  obtain ⟨⟨y, hy, _⟩, _⟩ := h _ ht
  exact hn ⟨y, hy⟩

/-- **C64 is violated** from Go: a duration with nanoseconds is rejected. -/
theorem C64_violated_from_go : ¬ C64GoFull := by
  intro h
  obtain ⟨j, r', hj, h⟩ := h PyRuntime.Demo.lib {} GoRuntime.Demo.lib .ctime CppRuntime.Demo.lib GoRuntime.Demo.order
    (one .duration) 1 [] 1 0 true (goWait 1) one_duration (one_keys _) GoRuntime.Demo.order_proper
    CppRuntime.Demo.lib_garbage (by decide) (fun _ => rfl) (go_wait_valid _ 1 _ (by decide))
  obtain ⟨⟨j', r'', hj', ht⟩, hn⟩ := C64_violated_go_nanosecond (O := GoRuntime.Demo.order) PyRuntime.Demo.lib {}
    GoRuntime.Demo.lib 1 [] 1 true 0 (by decide)
  rw [hj] at hj'
  cases hj'
  obtain ⟨⟨y, hy, _⟩, _⟩ := h _ ht
  exact hn ⟨y, hy⟩

/-- **C64 is violated** from C++: a duration with nanoseconds is rejected. -/
theorem C64_violated_from_cpp : ¬ C64CppFull := by
  intro h
  obtain ⟨j, hj, h⟩ := h PyRuntime.Demo.lib {} GoRuntime.Demo.lib .ctime CppRuntime.Demo.lib GoRuntime.Demo.order
    (one .duration) 1 [] 1 true (cppWait 1) one_duration (one_keys _) GoRuntime.Demo.order_proper (by decide)
    (cpp_wait_valid _ 1 _ (by decide)) (cpp_wait_writable _ 1 _ (by decide))
  obtain ⟨⟨⟨j', hj', ht⟩, hn⟩, _⟩ := C64_violated_cpp (O := GoRuntime.Demo.order) (C := CppRuntime.Demo.lib)
    PyRuntime.Demo.lib {} GoRuntime.Demo.lib .ctime 1 [] 1 true (by decide) GoRuntime.Demo.order_proper
  rw [hj] at hj'
  cases hj'
  obtain ⟨⟨y, hy, _⟩, _⟩ := h _ ht
  exact hn ⟨y, hy⟩

end Mapry.Props
