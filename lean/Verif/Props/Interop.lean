import Verif.InteropMeans
import Verif.Props.CppParse

/-! # C63: one document read by the parsers of the three languages -/

namespace Mapry.Props

open Mapry.Duration Mapry.Interop Mapry.LangValidate

/-! ## What the parsers make of a document -/

/-- The schema is accepted for the three languages, the names of the properties have no capital letters, and the bounds
of floats are exact. -/
structure Portable (g : Graph) : Prop where
  py : validateSchema py g = .ok []
  go : goValidateSchema g = .ok []
  cpp : validateSchema cpp g = .ok []
  lower : Cpp.LowerNames g
  sound : CppRuntime.Spec.SoundGraph g
  exact : GoRuntime.Spec.ExactGraph g

section

variable (g : Graph) (n : Nat) (d : Doc) (ref : Str) (cap : Nat)

/-- `json.loads` and the parser in Python give the graph. -/
def PyReads (o : Bool) (L : PyRuntime.Lib) (S : PyRuntime.Settings) (x : PyRuntime.GraphVal) : Prop :=
  ∃ es, PyRuntime.parseGraph L S g n (pyOf o d) ref (Errors.new cap) = .ok (some x, es)

/-- `json.Unmarshal` and the parser in Go give the graph without an error. -/
def GoReads (O : Order) (G : GoRuntime.Lib) (y : GoRuntime.GraphVal) : Prop :=
  ∃ v, goOf d = some v ∧ ∃ st, GoRuntime.parseGraph O G g n v ref (GoRuntime.newGraph g) (start cap) =
    .ok (y, st) ∧ st.errors.values = []

/-- jsoncpp and the parser in C++ give the graph without an error. -/
def CppReads (D : CppRuntime.DateLib) (C : CppRuntime.Lib) (z : CppRuntime.GraphVal) : Prop :=
  ∃ v, cppOf d = some v ∧ Cpp.Accepts D C g n v ref (CppRuntime.newGraph g) cap z

end

section

variable {g : Graph} (hg : Portable g) (n : Nat) {d : Doc} (hd : d.Distinct) (ref : Str) (cap : Nat) (hcap : 0 < cap)

include hg hd

include hcap in
theorem py_means (o : Bool) (L : PyRuntime.Lib) (S : PyRuntime.Settings) :
    (∀ x, PyReads g n d ref cap o L S x → ∃ a, MeansGraph (pyLeaves L S) g n d a ∧ PyGraph S g n a x) ∧
    ∀ a, MeansGraph (pyLeaves L S) g n d a → ∃ x, PyReads g n d ref cap o L S x ∧ PyGraph S g n a x := by
  have h := py_graph o L S g n hd
  have e := C29_accepts_partial L S g n (pyOf o d) ref cap hg.py (by omega)
  refine ⟨fun x hx => h.1 x ((e x).1 hx), fun a ha => ?_⟩
  obtain ⟨x, hx, hp⟩ := h.2 a ha
  exact ⟨x, (e x).2 hx, hp⟩

theorem go_means {O : Order} (hO : O.Proper) (G : GoRuntime.Lib) :
    (∀ y, GoReads g n d ref cap O G y → d.finite = true ∧ ∃ a, MeansGraph (goLeaves G) g n d a ∧ GoGraph g n a y) ∧
    (d.finite = true → ∀ a, MeansGraph (goLeaves G) g n d a → ∃ y, GoReads g n d ref cap O G y ∧ GoGraph g n a y) := by
  have h := go_graph G g n hd
  have e := C42_accepts_partial O G g n ref cap hO hg.go hg.exact (goVal d) (goVal_canon d)
  refine ⟨?_, fun hf a ha => ?_⟩
  · rintro y ⟨v, hv, hy⟩
    unfold goOf at hv
    split at hv
    · rename_i hf
      cases hv
      exact ⟨hf, h.1 y ((e y).1 hy)⟩
    · cases hv
  · obtain ⟨y, hy, hp⟩ := h.2 a ha
    exact ⟨y, ⟨_, by rw [goOf, if_pos hf], (e y).2 hy⟩, hp⟩

include hcap in
theorem cpp_means (D : CppRuntime.DateLib) {C : CppRuntime.Lib} (hC : CppRuntime.Spec.NoGarbage C) :
    (∀ z, CppReads g n d ref cap D C z → d.finite = true ∧
      ∃ a, MeansGraph (cppLeaves D C) g n d a ∧ CppGraph g n a z) ∧
    (d.finite = true → ∀ a, MeansGraph (cppLeaves D C) g n d a →
      ∃ z, CppReads g n d ref cap D C z ∧ CppGraph g n a z) := by
  have h := cpp_graph D C g n hd
  have e := Cpp.C52_accepts_partial D C g n ref cap (cppVal d) hg.cpp hg.lower hg.sound hC hcap (cppVal_canon d)
  refine ⟨?_, fun hf a ha => ?_⟩
  · rintro z ⟨v, hv, hz⟩
    unfold cppOf at hv
    split at hv
    · rename_i hf
      cases hv
      exact ⟨hf, h.1 z ((e z).1 hz)⟩
    · cases hv
  · obtain ⟨z, hz, hp⟩ := h.2 a ha
    exact ⟨z, ⟨_, by rw [cppOf, if_pos hf], (e z).2 hz⟩, hp⟩

end

/-! ## C63 -/

/-- The three graphs show the same values. -/
def Corresponding (S : PyRuntime.Settings) (g : Graph) (n : Nat) (x : PyRuntime.GraphVal) (y : GoRuntime.GraphVal)
    (z : CppRuntime.GraphVal) : Prop :=
  ∃ a, PyGraph S g n a x ∧ GoGraph g n a y ∧ CppGraph g n a z

section

variable {g : Graph} (hg : Portable g) (n : Nat) {d : Doc} (hd : d.Distinct) (ref : Str) (cap : Nat) (hcap : 0 < cap)
  (o : Bool) (L : PyRuntime.Lib) (S : PyRuntime.Settings) {O : Order} (hO : O.Proper) (G : GoRuntime.Lib)
  (D : CppRuntime.DateLib) {C : CppRuntime.Lib} (hC : CppRuntime.Spec.NoGarbage C)

include hg hd hcap hO hC

/-- The languages agree on every document whose values they read alike. -/
theorem C63_alike_partial (hf : d.finite = true) (h1 : Alike (pyLeaves L S) (goLeaves G) g n d)
    (h2 : Alike (pyLeaves L S) (cppLeaves D C) g n d) :
    (∀ x, PyReads g n d ref cap o L S x →
      ∃ y z, GoReads g n d ref cap O G y ∧ CppReads g n d ref cap D C z ∧ Corresponding S g n x y z) ∧
    (∀ y, GoReads g n d ref cap O G y →
      ∃ x z, PyReads g n d ref cap o L S x ∧ CppReads g n d ref cap D C z ∧ Corresponding S g n x y z) ∧
    ∀ z, CppReads g n d ref cap D C z →
      ∃ x y, PyReads g n d ref cap o L S x ∧ GoReads g n d ref cap O G y ∧ Corresponding S g n x y z := by
  have p := py_means hg n hd ref cap hcap o L S
  have q := go_means hg n hd ref cap hO G
  have r := cpp_means hg n hd ref cap hcap D hC
  refine ⟨fun x hx => ?_, fun y hy => ?_, fun z hz => ?_⟩
  · obtain ⟨a, ha, hp⟩ := p.1 x hx
    obtain ⟨y, hy, hq⟩ := q.2 hf a ((means_congr h1 a).1 ha)
    obtain ⟨z, hz, hr⟩ := r.2 hf a ((means_congr h2 a).1 ha)
    exact ⟨y, z, hy, hz, a, hp, hq, hr⟩
  · obtain ⟨_, a, ha, hq⟩ := q.1 y hy
    have ha := (means_congr h1 a).2 ha
    obtain ⟨x, hx, hp⟩ := p.2 a ha
    obtain ⟨z, hz, hr⟩ := r.2 hf a ((means_congr h2 a).1 ha)
    exact ⟨x, z, hx, hz, a, hp, hq, hr⟩
  · obtain ⟨_, a, ha, hr⟩ := r.1 z hz
    have ha := (means_congr h2 a).2 ha
    obtain ⟨x, hx, hp⟩ := p.2 a ha
    obtain ⟨y, hy, hq⟩ := q.2 hf a ((means_congr h1 a).1 ha)
    exact ⟨x, y, hx, hy, a, hp, hq, hr⟩

/-- **C63 (partial).** The three parsers accept the same plain documents and read the same graph. -/
theorem C63_plain_partial (hf : d.finite = true) (h : Mapry.Interop.Plain L S G D C g n d) :
    (∀ x, PyReads g n d ref cap o L S x →
      ∃ y z, GoReads g n d ref cap O G y ∧ CppReads g n d ref cap D C z ∧ Corresponding S g n x y z) ∧
    (∀ y, GoReads g n d ref cap O G y →
      ∃ x z, PyReads g n d ref cap o L S x ∧ CppReads g n d ref cap D C z ∧ Corresponding S g n x y z) ∧
    ∀ z, CppReads g n d ref cap D C z →
      ∃ x y, PyReads g n d ref cap o L S x ∧ GoReads g n d ref cap O G y ∧ Corresponding S g n x y z :=
  C63_alike_partial hg n hd ref cap hcap o L S hO G D hC hf (plain_go h) (plain_cpp h)

end

/-! ## Where the languages differ -/

/-- A schema with one optional property -/
def one (t : Ty) : Graph where
  name := c!"G"
  properties := [{ name := c!"x", ty := t, json := c!"x", optional := true }]

/-- A document with a value for the property -/
def just (d : Doc) : Doc := .obj [(c!"x", d)]

theorem just_distinct {d : Doc} (h : d.Distinct) : (just d).Distinct := by
  refine .obj _ (by simp) ?_
  intro kv hkv
  cases hkv with
  | head => exact h
  | tail _ h => cases h

/-- The property is read from its value. -/
theorem means_one {V : Leaves} {t : Ty} {n : Nat} {d : Doc} (hd : d ≠ .null) (a : AGraph) :
    MeansGraph V (one t) n (just d) a ↔ ∃ b, a = ⟨[(c!"x", b)], []⟩ ∧
      Means V (one t) (Described (one t) [(c!"x", d)]) n t d b := by
  have hg : given V.nullMissing [(c!"x", d)] c!"x" = some d := by
    have hl : List.lookup c!"x" [(c!"x", d)] = some d := rfl
    unfold given
    rw [hl]
    split
    · rename_i e; cases e; exact (hd rfl).elim
    · rfl
  unfold MeansGraph just
  constructor
  · rintro ⟨kvs, e, h1, h2⟩
    cases e
    obtain ⟨fs, rs⟩ := a
    cases h1
    cases h2 with
    | cons h h' =>
      rename_i f _
      cases h'
      obtain ⟨k, b⟩ := f
      obtain ⟨rfl, h⟩ := h
      simp only [MeansProperty, hg] at h
      exact ⟨b, rfl, h⟩
  · rintro ⟨b, rfl, h⟩
    refine ⟨_, rfl, .nil, .cons ⟨rfl, ?_⟩ .nil⟩
    simp only [MeansProperty, hg]
    exact h

theorem means_null {V : Leaves} {b : Bounds} {n : Nat} :
    (∃ a, MeansGraph V (one (.integer b)) n (just .null) a) ↔ V.nullMissing = true ∨ ∃ a, V.leaf (.integer b) .null a := by
  have hl : List.lookup c!"x" [(c!"x", Doc.null)] = some .null := rfl
  constructor
  · rintro ⟨⟨fs, rs⟩, kvs, e, _, h2⟩
    cases e
    cases h2 with
    | cons h _ =>
      have h := h.2
      unfold MeansProperty given at h
      simp only [one] at h
      rw [hl] at h
      cases hn : V.nullMissing with
      | true => exact .inl rfl
      | false =>
        rw [hn] at h
        exact .inr ⟨_, h⟩
  · intro h
    cases hn : V.nullMissing with
    | true =>
      refine ⟨⟨[(c!"x", .none)], []⟩, _, rfl, .nil, .cons ⟨rfl, ?_⟩ .nil⟩
      unfold MeansProperty given
      simp only [one]
      rw [hl, hn]
      exact ⟨trivial, trivial⟩
    | false =>
      rw [hn] at h
      obtain ⟨a, ha⟩ := h.resolve_left (by simp)
      refine ⟨⟨[(c!"x", a)], []⟩, _, rfl, .nil, .cons ⟨rfl, ?_⟩ .nil⟩
      unfold MeansProperty given
      simp only [one]
      rw [hl, hn]
      exact ha

theorem one_portable {t : Ty} (h1 : validateSchema py (one t) = .ok []) (h2 : goValidateSchema (one t) = .ok [])
    (h3 : validateSchema cpp (one t) = .ok []) (h4 : CppRuntime.Spec.SoundTy (one t) t)
    (h5 : GoRuntime.Spec.ExactTy t) : Portable (one t) := by
  have key : ∀ p ∈ (one t).properties, p = { name := c!"x", ty := t, json := c!"x", optional := true } := by
    intro p hp
    simpa [one] using hp
  refine ⟨h1, h2, h3, ⟨fun p hp => ?_, fun c hc => (by cases hc), fun c hc => (by cases hc)⟩,
    ⟨fun p hp => ?_, fun c hc => (by cases hc), fun c hc => (by cases hc)⟩,
    ⟨fun p hp => ?_, fun c hc => (by cases hc), fun c hc => (by cases hc)⟩⟩
  · rw [key p hp]; rfl
  · rw [key p hp]; exact h4
  · rw [key p hp]; exact h5

theorem one_integer : Portable (one (.integer {})) :=
  one_portable (by decide +kernel) (by decide +kernel) (by decide +kernel) trivial trivial

theorem one_float : Portable (one (.float {})) :=
  one_portable (by decide +kernel) (by decide +kernel) (by decide +kernel) ⟨by simp, by simp⟩ ⟨by simp, by simp⟩

theorem one_string : Portable (one (.string (some c!"a"))) :=
  one_portable (by decide +kernel) (by decide +kernel) (by decide +kernel) trivial trivial

section

variable {t : Ty} (hg : Portable (one t)) (n : Nat) {d : Doc} (hd : d.Distinct) (hn : d ≠ .null) (ref : Str)
  (cap : Nat) (hcap : 0 < cap)

include hg hd hn

include hcap in
theorem takes_py (o : Bool) (L : PyRuntime.Lib) (S : PyRuntime.Settings) :
    (∃ x, PyReads (one t) n (just d) ref cap o L S x) ↔
      ∃ b, Means (pyLeaves L S) (one t) (Described (one t) [(c!"x", d)]) n t d b := by
  have h := py_means hg n (just_distinct hd) ref cap hcap o L S
  constructor
  · rintro ⟨x, hx⟩
    obtain ⟨a, ha, _⟩ := h.1 x hx
    obtain ⟨b, _, hb⟩ := (means_one hn a).1 ha
    exact ⟨b, hb⟩
  · rintro ⟨b, hb⟩
    obtain ⟨x, hx, _⟩ := h.2 _ ((means_one hn _).2 ⟨b, rfl, hb⟩)
    exact ⟨x, hx⟩

theorem takes_go {O : Order} (hO : O.Proper) (G : GoRuntime.Lib) :
    (∃ y, GoReads (one t) n (just d) ref cap O G y) ↔ (just d).finite = true ∧
      ∃ b, Means (goLeaves G) (one t) (Described (one t) [(c!"x", d)]) n t d b := by
  have h := go_means hg n (just_distinct hd) ref cap hO G
  constructor
  · rintro ⟨x, hx⟩
    obtain ⟨hf, a, ha, _⟩ := h.1 x hx
    obtain ⟨b, _, hb⟩ := (means_one hn a).1 ha
    exact ⟨hf, b, hb⟩
  · rintro ⟨hf, b, hb⟩
    obtain ⟨x, hx, _⟩ := h.2 hf _ ((means_one hn _).2 ⟨b, rfl, hb⟩)
    exact ⟨x, hx⟩

include hcap in
theorem takes_cpp (D : CppRuntime.DateLib) {C : CppRuntime.Lib} (hC : CppRuntime.Spec.NoGarbage C) :
    (∃ z, CppReads (one t) n (just d) ref cap D C z) ↔ (just d).finite = true ∧
      ∃ b, Means (cppLeaves D C) (one t) (Described (one t) [(c!"x", d)]) n t d b := by
  have h := cpp_means hg n (just_distinct hd) ref cap hcap D hC
  constructor
  · rintro ⟨x, hx⟩
    obtain ⟨hf, a, ha, _⟩ := h.1 x hx
    obtain ⟨b, _, hb⟩ := (means_one hn a).1 ha
    exact ⟨hf, b, hb⟩
  · rintro ⟨hf, b, hb⟩
    obtain ⟨x, hx, _⟩ := h.2 hf _ ((means_one hn _).2 ⟨b, rfl, hb⟩)
    exact ⟨x, hx⟩

end

section

variable (n : Nat) (ref : Str) (cap : Nat) (hcap : 0 < cap) (o : Bool) (L : PyRuntime.Lib) (S : PyRuntime.Settings)
  {O : Order} (hO : O.Proper) (G : GoRuntime.Lib) (D : CppRuntime.DateLib) {C : CppRuntime.Lib}
  (hC : CppRuntime.Spec.NoGarbage C)

include hcap in
theorem py_integer (i₀ : Int) : ∀ x, PyReads (one (.integer {})) n (just (.int i₀)) ref cap o L S x →
    x.attrs = [(c!"x", .int i₀)] := by
  rintro ⟨fs, rs⟩ hx
  obtain ⟨a, ha, hp⟩ := (py_means one_integer n (just_distinct (.int _)) ref cap hcap o L S).1 _ hx
  obtain ⟨b, rfl, hb⟩ := (means_one (by simp) a).1 ha
  obtain ⟨_, h⟩ := hp
  cases h with
  | cons h h' =>
    rename_i f _ _
    cases h'
    obtain ⟨k, w⟩ := f
    obtain ⟨_, rfl, h⟩ := h
    rcases hb with ⟨i, hi, rfl, _⟩ | ⟨c, hi, _⟩
    · injection hi with hi
      subst hi
      rcases h with ⟨_, h, _⟩ | ⟨j, h, rfl⟩ | ⟨c, h, _⟩
      · cases h
      · injection h with h
        subst h
        rfl
      · cases h
    · cases hi

include hO in
theorem go_integer (i₀ j₀ : Int) (r : F64.round (i₀ : Rat) = .fin (j₀ : Rat)) :
    ∀ y, GoReads (one (.integer {})) n (just (.int i₀)) ref cap O G y → y.fields = [(c!"X", .int j₀)] := by
  rintro ⟨fs, rs⟩ hx
  obtain ⟨_, a, ha, hp⟩ := (go_means one_integer n (just_distinct (.int _)) ref cap hO G).1 _ hx
  obtain ⟨b, rfl, hb⟩ := (means_one (by simp) a).1 ha
  obtain ⟨_, h⟩ := hp
  cases h with
  | cons h h' =>
    rename_i f _ _
    cases h'
    obtain ⟨k, w⟩ := f
    obtain ⟨_, rfl, h⟩ := h
    obtain ⟨q, i, hq, hr, rfl, _⟩ := hb
    simp only [number, Option.some.injEq] at hq
    subst hq
    rw [r] at hr
    have e := Rat.intCast_inj.1 (fin_inj hr)
    subst e
    rcases h with ⟨_, h, _⟩ | ⟨j, h, rfl⟩
    · cases h
    · injection h with h
      subst h
      rfl

include hcap hC in
theorem cpp_integer (i₀ : Int) (ht : ¬ TooLarge i₀) : ∀ z, CppReads (one (.integer {})) n (just (.int i₀)) ref cap D C z →
    z.fields = [(c!"x", .int i₀)] := by
  rintro ⟨fs, rs⟩ hx
  obtain ⟨_, a, ha, hp⟩ := (cpp_means one_integer n (just_distinct (.int _)) ref cap hcap D hC).1 _ hx
  obtain ⟨b, rfl, hb⟩ := (means_one (by simp) a).1 ha
  obtain ⟨_, h⟩ := hp
  cases h with
  | cons h h' =>
    rename_i f _ _
    cases h'
    obtain ⟨k, w⟩ := f
    obtain ⟨_, rfl, h⟩ := h
    obtain ⟨i, hi, rfl, _⟩ := hb
    have e : i = i₀ := by
      rcases hi with hi | ⟨q, hi | ⟨j, hi, hj, _⟩, _⟩
      · injection hi with hi; exact hi.symm
      · cases hi
      · injection hi with hi
        subst hi
        exact (ht hj).elim
    subst e
    rcases h with ⟨_, h, _⟩ | ⟨j, h, rfl⟩
    · cases h
    · injection h with h
      subst h
      rfl

end

section

variable (n : Nat) (ref : Str) (cap : Nat) (hcap : 0 < cap) (o : Bool) (L : PyRuntime.Lib) (S : PyRuntime.Settings)
  {O : Order} (hO : O.Proper) (G : GoRuntime.Lib) (D : CppRuntime.DateLib) {C : CppRuntime.Lib}
  (hC : CppRuntime.Spec.NoGarbage C)

/-- The parser in Python accepts the value of the property. -/
def PyTakes (t : Ty) (d : Doc) : Prop := ∃ x, PyReads (one t) n (just d) ref cap o L S x

/-- So does the one in Go. -/
def GoTakes (O : Order) (t : Ty) (d : Doc) : Prop := ∃ y, GoReads (one t) n (just d) ref cap O G y

/-- So does the one in C++. -/
def CppTakes (C : CppRuntime.Lib) (t : Ty) (d : Doc) : Prop := ∃ z, CppReads (one t) n (just d) ref cap D C z

/-- A number out of the range of floating-point numbers -/
def huge : Rat := ((10 ^ 200) ^ 2 : Nat)

/-- The first integer which is no floating-point number, and what it is rounded to -/
def odd : Int := 2 ^ 53 + 1

def even : Int := 2 ^ 53

theorem noBounds (q : Rat) : PyRuntime.Spec.Within {} q :=
  ⟨fun _ h => (by cases h), fun _ h => (by cases h), fun _ h => (by cases h), fun _ h => (by cases h)⟩

include hcap hO hC

/-- **C63 is violated.** Only Python accepts `null` for an optional property, a boolean for an integer, an integer of more
than 64 bits and a float out of range. Only Go and C++ accept `1.0` for an integer. -/
theorem C63_violated :
    (PyTakes n ref cap o L S (.integer {}) .null ∧ ¬ GoTakes n ref cap G O (.integer {}) .null ∧
      ¬ CppTakes n ref cap D C (.integer {}) .null) ∧
    (PyTakes n ref cap o L S (.integer {}) (.bool true) ∧ ¬ GoTakes n ref cap G O (.integer {}) (.bool true) ∧
      ¬ CppTakes n ref cap D C (.integer {}) (.bool true)) ∧
    (¬ PyTakes n ref cap o L S (.integer {}) (.real 1) ∧ GoTakes n ref cap G O (.integer {}) (.real 1) ∧
      CppTakes n ref cap D C (.integer {}) (.real 1)) ∧
    (PyTakes n ref cap o L S (.integer {}) (.int (2 ^ 63)) ∧ ¬ GoTakes n ref cap G O (.integer {}) (.int (2 ^ 63)) ∧
      ¬ CppTakes n ref cap D C (.integer {}) (.int (2 ^ 63))) ∧
    (PyTakes n ref cap o L S (.float {}) (.real huge) ∧
      ¬ GoTakes n ref cap G O (.float {}) (.real huge) ∧
      ¬ CppTakes n ref cap D C (.float {}) (.real huge)) := by
  have r1 : F64.round 1 = .fin 1 := by decide +kernel
  have r63 : F64.round ((2 ^ 63 : Int) : Rat) = .fin ((2 ^ 63 : Int) : Rat) := by decide +kernel
  have rbig : F64.round huge = .inf false := by decide +kernel
  have n63 : ¬ IsInt64 (2 ^ 63) := by decide
  have t63 : ¬ TooLarge (2 ^ 63) := by unfold TooLarge; omega
  refine ⟨⟨?_, ?_, ?_⟩, ⟨?_, ?_, ?_⟩, ⟨?_, ?_, ?_⟩, ⟨?_, ?_, ?_⟩, ⟨?_, ?_, ?_⟩⟩
  · obtain ⟨a, ha⟩ := (means_null (V := pyLeaves L S) (b := {}) (n := n)).2 (.inl rfl)
    obtain ⟨x, hx, _⟩ := (py_means one_integer n (just_distinct .null) ref cap hcap o L S).2 a ha
    exact ⟨x, hx⟩
  · rintro ⟨y, hy⟩
    obtain ⟨_, a, ha, _⟩ := (go_means one_integer n (just_distinct .null) ref cap hO G).1 y hy
    rcases (means_null (V := goLeaves G) (b := {}) (n := n)).1 ⟨a, ha⟩ with h | ⟨b, q, i, h, _⟩
    · cases h
    · cases h
  · rintro ⟨z, hz⟩
    obtain ⟨_, a, ha, _⟩ := (cpp_means one_integer n (just_distinct .null) ref cap hcap D hC).1 z hz
    rcases (means_null (V := cppLeaves D C) (b := {}) (n := n)).1 ⟨a, ha⟩ with h | ⟨b, i, h, _⟩
    · cases h
    · simp at h
  · exact (takes_py one_integer n (.bool true) (by simp) ref cap hcap o L S).2
      ⟨.bool true, .inr ⟨true, rfl, rfl, noBounds _⟩⟩
  · rintro h
    obtain ⟨_, b, q, i, h, _⟩ := (takes_go one_integer n (.bool true) (by simp) ref cap hO G).1 h
    cases h
  · rintro h
    obtain ⟨_, b, i, h, _⟩ := (takes_cpp one_integer n (.bool true) (by simp) ref cap hcap D hC).1 h
    simp at h
  · rintro h
    obtain ⟨b, ⟨i, h, _⟩ | ⟨c, h, _⟩⟩ := (takes_py one_integer n (.real 1) (by simp) ref cap hcap o L S).1 h
    · cases h
    · cases h
  · exact (takes_go one_integer n (.real 1) (by simp) ref cap hO G).2
      ⟨by decide +kernel, .int 1, 1, 1, rfl, r1, rfl, by decide, noBounds _⟩
  · exact (takes_cpp one_integer n (.real 1) (by simp) ref cap hcap D hC).2
      ⟨by decide +kernel, .int 1, 1, .inr ⟨1, .inl rfl, r1⟩, rfl, by decide, noBounds _⟩
  · exact (takes_py one_integer n (.int _) (by simp) ref cap hcap o L S).2
      ⟨.int _, .inl ⟨_, rfl, rfl, noBounds _⟩⟩
  · rintro h
    obtain ⟨_, b, q, i, h, hr, _, hi, _⟩ := (takes_go one_integer n (.int _) (by simp) ref cap hO G).1 h
    simp only [number, Option.some.injEq] at h
    subst h
    rw [r63] at hr
    have e := Rat.intCast_inj.1 (fin_inj hr)
    exact n63 (e ▸ hi)
  · rintro h
    obtain ⟨_, b, i, h, _, hi, _⟩ := (takes_cpp one_integer n (.int _) (by simp) ref cap hcap D hC).1 h
    rcases h with h | ⟨q, h | ⟨j, h, hj, _⟩, _⟩
    · injection h with h
      exact n63 (h ▸ hi)
    · cases h
    · injection h with h
      exact t63 (h ▸ hj)
  · exact (takes_py one_float n (.real _) (by simp) ref cap hcap o L S).2
      ⟨.float (.inf false), .inl ⟨_, rfl, by rw [rbig], by rw [rbig]; exact rfl⟩⟩
  · rintro h
    have := ((takes_go one_float n (.real _) (by simp) ref cap hO G).1 h).1
    simp [just, Doc.finite, finiteEntries, rbig, inRange] at this
  · rintro h
    have := ((takes_cpp one_float n (.real _) (by simp) ref cap hcap D hC).1 h).1
    simp [just, Doc.finite, finiteEntries, rbig, inRange] at this

/-- Go reads an integer of more than 53 bits as another one. -/
theorem C63_violated_value :
    (∃ x, PyReads (one (.integer {})) n (just (.int odd)) ref cap o L S x) ∧
    (∀ x, PyReads (one (.integer {})) n (just (.int odd)) ref cap o L S x →
      x.attrs = [(c!"x", .int odd)]) ∧
    (∃ y, GoReads (one (.integer {})) n (just (.int odd)) ref cap O G y) ∧
    (∀ y, GoReads (one (.integer {})) n (just (.int odd)) ref cap O G y →
      y.fields = [(c!"X", .int even)]) ∧
    (∃ z, CppReads (one (.integer {})) n (just (.int odd)) ref cap D C z) ∧
    ∀ z, CppReads (one (.integer {})) n (just (.int odd)) ref cap D C z →
      z.fields = [(c!"x", .int odd)] := by
  have r : F64.round (odd : Rat) = .fin (even : Rat) := by decide +kernel
  refine ⟨?_, ?_, ?_, ?_, ?_, ?_⟩
  · exact (takes_py one_integer n (.int _) (by simp) ref cap hcap o L S).2
      ⟨.int _, .inl ⟨_, rfl, rfl, noBounds _⟩⟩
  · exact py_integer n ref cap hcap o L S odd
  · exact (takes_go one_integer n (.int _) (by simp) ref cap hO G).2
      ⟨by decide +kernel, .int _, _, _, rfl, r, rfl, by decide, noBounds _⟩
  · exact go_integer n ref cap hO G odd even r
  · exact (takes_cpp one_integer n (.int _) (by simp) ref cap hcap D hC).2
      ⟨by decide +kernel, .int _, _, .inl rfl, rfl, by decide, noBounds _⟩
  · exact cpp_integer n ref cap hcap D hC odd (by unfold TooLarge odd; omega)

/-- A pattern is looked for at the start of the text in Python, anywhere in Go, and has to match all of it in C++. -/
theorem C63_violated_patterns (h1 : L.reMatch c!"a" c!"ab" = true) (h2 : L.reMatch c!"a" c!"ba" = false)
    (h3 : G.matchString c!"a" c!"ab" = true) (h4 : G.matchString c!"a" c!"ba" = true)
    (h5 : C.regexMatch c!"a" c!"ab" = false) :
    PyTakes n ref cap o L S (.string (some c!"a")) (.str c!"ab") ∧
    GoTakes n ref cap G O (.string (some c!"a")) (.str c!"ab") ∧
    ¬ CppTakes n ref cap D C (.string (some c!"a")) (.str c!"ab") ∧
    ¬ PyTakes n ref cap o L S (.string (some c!"a")) (.str c!"ba") ∧
    GoTakes n ref cap G O (.string (some c!"a")) (.str c!"ba") := by
  refine ⟨?_, ?_, ?_, ?_, ?_⟩
  · exact (takes_py one_string n (.str _) (by simp) ref cap hcap o L S).2
      ⟨.str _, _, rfl, rfl, fun r e => by cases e; exact h1⟩
  · exact (takes_go one_string n (.str _) (by simp) ref cap hO G).2
      ⟨by decide +kernel, .str _, _, rfl, rfl, fun r e => by cases e; exact h3⟩
  · rintro h
    obtain ⟨_, b, s, e, _, h⟩ := (takes_cpp one_string n (.str _) (by simp) ref cap hcap D hC).1 h
    cases e
    have := h _ rfl
    rw [h5] at this
    cases this
  · rintro h
    obtain ⟨b, s, e, _, h⟩ := (takes_py one_string n (.str _) (by simp) ref cap hcap o L S).1 h
    cases e
    have := h _ rfl
    rw [h2] at this
    cases this
  · exact (takes_go one_string n (.str _) (by simp) ref cap hO G).2
      ⟨by decide +kernel, .str _, _, rfl, rfl, fun r e => by cases e; exact h4⟩

end

end Mapry.Props
