import Verif.Props.CppReadGraph
import Verif.Props.CppRound

/-! # C96: exceptions, the number of the errors and old contents, for the generated C++ code which is run -/

namespace Mapry.Props.CppExec

open Mapry.CppRead
open Mapry.CppRuntime (JVal Val Lib DateLib GraphVal newGraph DefinedGraph)
open Mapry.CppRuntime.Spec
open Mapry.Duration (cppFromString)
open Mapry.TypeGraph Mapry.LangValidate
open Mapry.Props.Cpp (LowerNames)

section

variable {g : Graph} {D : DateLib} {P : Program} {body : GStmt} {L : Lib}

/-- The code throws exactly if the parser does, and the same. -/
theorem code_throws_iff (h : GraphReaders g D P body) (n : Nat) (j : JVal) (ref : Str) (target : GraphVal) (ht : Allocated g target)
    (cap : Nat) (hcap : 0 < cap) (x : Exc) :
    runGraph L P n body j ref target (.new cap) = .error x ↔ CppRuntime.parseGraph D L g n j ref target (.new cap) = .error x := by
  have hd := C93_graph_partial (L := L) h n j ref target ht (.new cap) hcap
  cases hm : CppRuntime.parseGraph D L g n j ref target (.new cap) with
  | error y =>
    rw [hm] at hd
    rw [show runGraph L P n body j ref target (.new cap) = .error y from hd]
  | ok q =>
    obtain ⟨t1, e1⟩ := q
    rw [hm] at hd
    obtain ⟨t2, h1, _⟩ := hd
    rw [h1]
    simp

/-- The only exceptions of the code are `std::out_of_range` on a text which is a duration with too large numbers and the exhausted stack
for an input which is nested too deeply. -/
theorem C96_only_throws (h : GraphReaders g D P body) (n : Nat) (j : JVal) (ref : Str) (target : GraphVal) (ht : Allocated g target)
    (cap : Nat) (hcap : 0 < cap) (hd : DefinedGraph g) (x : Exc) (hx : runGraph L P n body j ref target (.new cap) = .error x) :
    (x = .overflowError ∧ ∃ s, InsideJ (.str s) j ∧ cppFromString (L.garbage s) s = .throws) ∨
      (x = .recursionError ∧ ∀ m, m < n → ¬ DepthLe m j) :=
  Cpp.C53_only_throws D L g n ref target cap j hd hcap x ((code_throws_iff h n j ref target ht cap hcap x).1 hx)

/-- **C96 (partial).** Without such a text in the input the code returns, with at most as many errors as the container holds. -/
theorem C96_returns_partial (h : GraphReaders g D P body) {n : Nat} (j : JVal) (ref : Str) (target : GraphVal) (ht : Allocated g target)
    (cap : Nat) (hcap : 0 < cap) (hd : DefinedGraph g) {m : Nat} (hm : DepthLe m j) (hn : m < n)
    (hs : ∀ s, InsideJ (.str s) j → cppFromString (L.garbage s) s ≠ .throws) :
    ∃ t e, runGraph L P n body j ref target (.new cap) = .ok (t, e) ∧ e.cap = cap ∧ e.values.length ≤ cap := by
  obtain ⟨⟨t, e⟩, hr⟩ := Cpp.C53_returns_partial D L g n ref target cap j m hd hcap hm hn hs
  obtain ⟨vs, hv, hnd⟩ := h.vars
  have hdone := graph_done (L := L) (n := n) ⟨h.functions, h.params⟩ h.code ⟨h.classes, h.embeds⟩ h.props h.graph hv hnd j ref target
    ht.typed (.new cap) hcap
  rw [hr] at hdone
  obtain ⟨t', h1, h2, _⟩ := hdone
  exact ⟨t', e, h1, h2.cap, (show (CppErrors.new cap).cap = cap from rfl) ▸ h2.cap ▸ h2.le⟩

/-- Whatever the input, the container never holds more errors than its capacity. -/
theorem C96_limit (h : GraphReaders g D P body) (n : Nat) (j : JVal) (ref : Str) (target : GraphVal) (ht : Allocated g target)
    (cap : Nat) (hcap : 0 < cap) {t : GraphVal} {e : CppErrors} (hr : runGraph L P n body j ref target (.new cap) = .ok (t, e)) :
    e.values.length ≤ cap := by
  obtain ⟨vs, hv, hnd⟩ := h.vars
  have hdone := graph_done (L := L) (n := n) ⟨h.functions, h.params⟩ h.code ⟨h.classes, h.embeds⟩ h.props h.graph hv hnd j ref target
    ht.typed (.new cap) hcap
  rw [hr] at hdone
  cases hm : CppRuntime.parseGraph D L g n j ref target (.new cap) with
  | error y => rw [hm] at hdone; cases hdone
  | ok q =>
    obtain ⟨t1, e1⟩ := q
    rw [hm] at hdone
    obtain ⟨t2, h1, h2, _⟩ := hdone
    cases h1
    exact (show (CppErrors.new cap).cap = cap from rfl) ▸ h2.cap ▸ h2.le

/-- C55 for the code which is run: old contents do not matter if the registries of the target, its maps and its optional properties are
empty. -/
theorem C96_clean_partial (h : GraphReaders g D P body) (n : Nat) (j : JVal) (ref : Str) (target : GraphVal) (ht : Allocated g target)
    (cap : Nat) (hcap : 0 < cap) (hg : validateSchema cpp g = .ok []) (hl : LowerNames g) (hs : SoundGraph g) (hG : NoGarbage L)
    (hj : Canon j) (hc : CleanGraph g n target) (t : GraphVal) :
    (∃ e, runGraph L P n body j ref target (.new cap) = .ok (t, e) ∧ e.values = []) ↔
      ∃ e, runGraph L P n body j ref (newGraph g) (.new cap) = .ok (t, e) ∧ e.values = [] :=
  (C93_accepts_iff h n j ref target ht cap hcap t).trans
    ((Cpp.C55_clean_partial D L g n j ref cap target t hg hl hs hG hj hcap hc).trans
      (C93_accepts_iff h n j ref _ (new_allocated g) cap hcap t).symm)

end

/-- The full claim: the code never throws on an input which is not nested too deeply. -/
def C96Full : Prop := ∀ (g : Graph) (D : DateLib) (P : Program) (body : GStmt) (L : Lib), GraphReaders g D P body → DefinedGraph g →
  ∀ (n m : Nat) (j : JVal) (ref : Str) (target : GraphVal) (cap : Nat), Allocated g target → Canon j → DepthLe m j → m < n → 0 < cap →
    ∃ r, runGraph L P n body j ref target (.new cap) = .ok r

namespace ReadDemo

open Mapry.CppRuntime.Demo (single)

def singleBody : GStmt := ((parseGraphCode (single .duration) .ctime).toOption).getD .skip

theorem single_readers : GraphReaders (single .duration) .ctime [] singleBody where
  code := by rfl
  functions := List.Pairwise.nil
  params := nofun
  classes := nofun
  embeds := nofun
  graph := by
    cases h : parseGraphCode (single .duration) .ctime with
    | ok P => simp [singleBody, h, Except.toOption]
    | error e =>
      have : (parseGraphCode (single .duration) .ctime).toBool = true := by decide +kernel
      rw [h] at this
      cases this
  vars := ⟨[], rfl, List.Pairwise.nil⟩
  props := by
    intro p hp
    simp only [single, List.mem_cons, List.not_mem_nil, or_false] at hp
    subst hp
    trivial

theorem value_allocated : Allocated CppRuntime.Demo.schema CppRuntime.Demo.value where
  has := by decide +kernel
  ordered := by
    intro c m h
    simp only [CppRuntime.Demo.value, List.lookup_cons, List.lookup_nil] at h
    split at h
    · cases h
      decide +kernel
    · cases h

end ReadDemo

/-- The full claim does not hold: the numbers of a duration are not limited. -/
theorem C96_violated_duration : ¬ C96Full := by
  intro h
  obtain ⟨r, hr⟩ := h _ _ _ _ CppRuntime.Demo.lib ReadDemo.single_readers (Cpp.single_defined trivial) 2 1
    (.obj [(c!"it", .str c!"PT9223372036854775808S")]) [] (newGraph (CppRuntime.Demo.single .duration)) 5 (new_allocated _)
    (Cpp.text_canon _) (by simp [Cpp.depth_obj, Cpp.depth_str]) (by decide) (by decide)
  have : (runGraph CppRuntime.Demo.lib [] 2 ReadDemo.singleBody (.obj [(c!"it", .str c!"PT9223372036854775808S")]) []
    (newGraph (CppRuntime.Demo.single .duration)) (.new 5)).toBool = false := by decide +kernel
  rw [hr] at this
  cases this

/-- A wrong input with a container for one error, on a graph which is not empty -/
example : ∃ t e, runGraph CppRuntime.Demo.lib ReadDemo.code 4 ReadDemo.body CppRuntime.Demo.wrong c!"#" CppRuntime.Demo.value (.new 1) =
      .ok (t, e) ∧ e.cap = 1 ∧ e.values.length ≤ 1 := by
  refine C96_returns_partial ReadDemo.graph_readers _ _ _ ReadDemo.value_allocated 1 (by decide)
    (CppRuntime.SoundGraph.defined Cpp.Example.schema_sound) Cpp.Example.wrong_depth (by decide) ?_
  show CppRuntime.Texts _ _
  simp only [CppRuntime.Demo.wrong, Cpp.texts_obj, Cpp.texts_arr, Cpp.texts_str, Cpp.texts_int,
    List.forall_mem_cons, List.not_mem_nil, false_imp_iff, implies_true, and_true, true_and, CppRuntime.Demo.lib]
  decide +kernel

/-- The duration in the target is replaced. -/
example : ∃ e, runGraph CppRuntime.Demo.lib [] 2 ReadDemo.singleBody (.obj [(c!"it", .str c!"PT1S")]) []
    ⟨[(c!"it", .duration 7)], []⟩ (.new 1) = .ok (⟨[(c!"it", .duration 1000000000)], []⟩, e) ∧ e.values = [] := by
  refine (C96_clean_partial ReadDemo.single_readers 2 _ []
    ⟨[(c!"it", .duration 7)], []⟩ ⟨nofun, nofun⟩ 1 (by decide) (by decide +kernel) ?_ ?_
    CppRuntime.Demo.lib_garbage (Cpp.text_canon _) ⟨rfl, .cons ⟨rfl, nofun, fun _ => trivial⟩ .nil⟩ _).2 ⟨.new 1, by decide +kernel, rfl⟩
  · constructor <;> decide
  · constructor <;> simp [CppRuntime.Demo.single, SoundTy]

end Mapry.Props.CppExec
