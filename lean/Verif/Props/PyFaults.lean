import Verif.PyFaults
import Verif.PyDemo
import Verif.Props.PyParse
import Verif.Props.PySer

/-!
# C32 and C44: no exceptions, and every violation is reported

The violations of an input are specified in `PySpec` (`FaultGraph`); `report` reads off an error what it
reports: the reference and, for a missing property, the key of the property.
-/

namespace Mapry.Props

open Mapry.PyRuntime Mapry.PyRuntime.Spec Mapry.LangValidate

section

variable (L : Lib) (S : Settings) (g : Graph) (n : Nat) (v : Json) (ref : Str)

/-! ## C44 -/

/-- **C44.** If the container did not become full, then the errors in it report exactly the violations of
the input: none hides another one, and none is invented. -/
theorem C44_all_reported (hg : validateSchema py g = .ok []) (cap : Int) (hcap : 0 < cap)
    (o : Option GraphVal) (es : Errors) (h : parseGraph L S g n v ref (Errors.new cap) = .ok (o, es))
    (hfew : (es.values.length : Int) < cap) (r : Report) :
    r ∈ es.values.map report ↔ FaultGraph L S g n v ref r := by
  rcases run_spec L S g n v ref cap hcap o es h with ⟨log, ht, rfl⟩ | ⟨_, x, log, _, rfl, hf⟩
  · rw [new_values hcap] at hfew ⊢
    have hlog : log.take cap.toNat = log := by
      apply List.take_of_length_le
      rw [List.length_take] at hfew
      omega
    rw [hlog]
    exact graph_reports L S g (distinct_of_valid hg).names n v ref o log ht r
  · unfold Errors.full at hf
    rw [addAll_cap] at hf
    have : ((addAll (Errors.new cap) log).values.length : Int) = (Errors.new cap).cap := of_decide_eq_true hf
    have hc : (Errors.new cap).cap = cap := rfl
    omega

/-- **C44.** When nothing raises, there is one list of errors which reports exactly the violations, whatever
the cap: the parser records its first `cap` elements, all of them if the cap allows it, and returns a
graph iff there is no violation. -/
theorem C44_every_cap (hg : validateSchema py g = .ok []) (hL : TameLib L) (ht : TameGraph g)
    (hd : DepthLe n v) (hi : FloatInts v)
    (hnull : ∀ o kvs, v = .obj o kvs → ∀ c ∈ g.classes, registryOf kvs c ≠ some .null) :
    ∃ all : List Err, (∀ r, r ∈ all.map report ↔ FaultGraph L S g n v ref r) ∧
      ∀ cap : Int, 0 < cap → ∃ o es, parseGraph L S g n v ref (Errors.new cap) = .ok (o, es) ∧
        es.values = all.take cap.toNat ∧ (o.isSome ↔ ∀ r, ¬ FaultGraph L S g n v ref r) := by
  obtain ⟨o, log, h⟩ := graph_calm S hL ht (distinct_of_valid hg).names n v ⟨hd, hi⟩ hnull ref
  have hr := graph_reports L S g (distinct_of_valid hg).names n v ref o log h
  refine ⟨log, hr, fun cap hcap => ⟨o, _, (sim_graph L S g n v ref cap hcap).1 o log h, new_values hcap log, ?_⟩⟩
  rw [trace_some L S g n v ref o log h, refs_nil]
  simp only [hr]

/-! ## C32 -/

/-- **C32 (partial).** The parser raises no exception provided that

* `strptime` raises nothing but `ValueError`,
* no pattern and no format contains a brace,
* the stack admits the nesting of the objects,
* the integers are within the range of a float,
* no registry is `null`. -/
theorem C32_never_raises_partial (hg : validateSchema py g = .ok []) (hL : TameLib L) (ht : TameGraph g)
    (hd : DepthLe n v) (hi : FloatInts v)
    (hnull : ∀ o kvs, v = .obj o kvs → ∀ c ∈ g.classes, registryOf kvs c ≠ some .null)
    (cap : Int) (hcap : 0 < cap) : ∃ r, parseGraph L S g n v ref (Errors.new cap) = .ok r := by
  obtain ⟨o, log, h⟩ := graph_calm S hL ht (distinct_of_valid hg).names n v ⟨hd, hi⟩ hnull ref
  exact ⟨_, (sim_graph L S g n v ref cap hcap).1 o log h⟩

end

/-- Integers up to 2^53 are within the range of a float. -/
theorem floatInts_of_small {v : Json} (h : SmallInts v) : FloatInts v :=
  fun i hi => ⟨_, round_int_exact i (h i hi)⟩

/-- The full property: the parser never raises as long as the stack admits the nesting of the objects. -/
def C32Full : Prop :=
  ∀ (L : Lib) (S : Settings) (g : Graph) (n : Nat) (v : Json) (ref : Str) (cap : Int), TameLib L →
    validateSchema py g = .ok [] → DepthLe n v → 0 < cap →
    ∃ r, parseGraph L S g n v ref (Errors.new cap) = .ok r

theorem demo_tame : TameLib Demo.lib := by
  intro s f x h
  simp only [Demo.lib] at h
  split at h
  · split at h
    · simp at h
    · exact ⟨_, (Except.error.inj h).symm⟩
  · exact ⟨_, (Except.error.inj h).symm⟩

/-- A schema with one class -/
def oneClass : Graph := { name := c!"Shop", classes := [{ name := c!"Link", plural := c!"Links" }] }

/-- A registry which is `null` raises `AttributeError`. -/
theorem C32_null_registry : validateSchema py oneClass = .ok [] ∧
    parseGraph Demo.lib {} oneClass 2 (.obj false [(c!"links", .null)]) c!"#" (Errors.new 10) =
      .error .attributeError := ⟨by decide, rfl⟩

/-- It is violated. -/
theorem C32_violated : ¬ C32Full := by
  intro h
  obtain ⟨r, hr⟩ := h Demo.lib {} oneClass 1 (.obj false [(c!"links", .null)]) c!"#" 10 demo_tame (by decide)
    (.obj 0 _ _ (by intro kv hkv; rw [List.mem_singleton.1 hkv]; exact .null 0)) (by decide)
  have : parseGraph Demo.lib {} oneClass 1 (.obj false [(c!"links", .null)]) c!"#" (Errors.new 10) =
    .error .attributeError := rfl
  rw [this] at hr
  simp at hr

/-- A schema with a floating-point number -/
def oneFloat : Graph := { name := c!"Shop", properties := [{ name := c!"weight", ty := .float {}, json := c!"weight" }] }

/-- An integer beyond the range of a float raises `OverflowError`. -/
theorem C32_large_integer : validateSchema py oneFloat = .ok [] ∧
    parseGraph Demo.lib {} oneFloat 2 (.obj false [(c!"weight", .int (2 ^ 1024))]) c!"#" (Errors.new 10) =
      .error .overflowError := by
  refine ⟨by decide, ?_⟩
  have key : (parseGraph Demo.lib {} oneFloat 2 (.obj false [(c!"weight", .int (2 ^ 1024))]) c!"#"
      (Errors.new 10)).map (fun _ => ()) = .error .overflowError := by decide +kernel
  revert key
  cases parseGraph Demo.lib {} oneFloat 2 (.obj false [(c!"weight", .int (2 ^ 1024))]) c!"#" (Errors.new 10) with
  | ok r => intro h; exact nomatch h
  | error x => intro h; exact congrArg Except.error (Except.error.inj h)

/-- A schema with a counted repetition in a pattern -/
def onePattern : Graph :=
  { name := c!"Shop", properties := [{ name := c!"code", ty := .string (some c!"^[A-Z]{3}$"), json := c!"code" }] }

/-- A text which does not match a pattern with braces raises. -/
theorem C32_braces : validateSchema py onePattern = .ok [] ∧
    parseGraph Demo.lib {} onePattern 2 (.obj false [(c!"code", .str c!"abc")]) c!"#" (Errors.new 10) =
      .error .indexError := ⟨by decide, rfl⟩

/-- A schema with a structure which contains itself -/
def chain : Graph :=
  { name := c!"Shop"
    embeds := [{ name := c!"Node", properties := [
      { name := c!"next", ty := .embed c!"Node", json := c!"next", optional := true }] }]
    properties := [{ name := c!"first", ty := .embed c!"Node", json := c!"first" }] }

/-- A chain of `n` nodes in front of the last one -/
def nodes : Nat → Json
  | 0 => .obj false []
  | n + 1 => .obj false [(c!"next", nodes n)]

theorem nodes_depth (n : Nat) : DepthLe (n + 1) (nodes n) := by
  induction n with
  | zero => exact .obj _ _ _ (by simp)
  | succ n ih => exact .obj _ _ _ (by intro kv hkv; rw [List.mem_singleton.1 hkv]; exact ih)

theorem nodes_raise (E : Env) (hE : E.graph = chain) (n : Nat) (ref : Str) :
    tEmbed E n c!"Node" (nodes n) ref = .error (.recursionError, []) := by
  induction n generalizing ref with
  | zero => rfl
  | succ n ih =>
    have he : E.graph.embed? c!"Node" = some ⟨c!"Node", [], [], [
      { name := c!"next", ty := .embed c!"Node", json := c!"next", optional := true }]⟩ := by rw [hE]; rfl
    have hn : nodes n ≠ .null := by cases n <;> simp [nodes]
    simp only [tEmbed, he, nodes, tComposite, tProps]
    rw [property_present (v := nodes n)]
    · simp only [tTy, ih, thenPure, andThen]
    · unfold present
      simp [hn]

/-- However deep the stack is, there is an input which exhausts it. -/
theorem C32_recursion : validateSchema py chain = .ok [] ∧ ∀ n ref cap, 0 < cap →
    parseGraph Demo.lib {} chain n (.obj false [(c!"first", nodes n)]) ref (Errors.new cap) =
      .error .recursionError := by
  refine ⟨by decide, fun n ref cap hcap => ?_⟩
  have ht : tGraph Demo.lib {} chain n (.obj false [(c!"first", nodes n)]) ref = .error (.recursionError, []) := by
    have hn : nodes n ≠ .null := by cases n <;> simp [nodes]
    have hp : present [(c!"first", nodes n)] c!"first" = some (nodes n) := by
      unfold present
      simp [hn]
    show (match tBody Demo.lib {} chain n [(c!"first", nodes n)] ref with
      | .error x => Except.error x
      | .ok (gv, log) => .ok (if log = [] then some gv else none, log)) = _
    have hb : tBody Demo.lib {} chain n [(c!"first", nodes n)] ref = .error (.recursionError, []) := by
      have hr := fun r => nodes_raise (envOf Demo.lib {} chain (allocated Demo.lib [(c!"first", nodes n)] ref
        chain.classes)) rfl n r
      unfold tBody
      dsimp only
      rw [show chain.classes = [] from rfl, show chain.properties =
        [{ name := c!"first", ty := .embed c!"Node", json := c!"first" }] from rfl] at *
      simp only [tRegistries, andThen, tProps]
      rw [property_present (v := nodes n) _ _ _ hp]
      simp only [tTy, hr, thenPure, List.append_nil]
    rw [hb]
  exact ((sim_graph _ _ _ _ _ _ cap hcap).2 _ _ ht).1 (decide_eq_false (Int.ne_of_lt hcap))

/-! ## Examples -/

/-- The schema of the examples provokes no exception. -/
theorem demo_graph_tame : TameGraph Demo.schema where
  graph := by
    intro p hp
    simp only [Demo.schema, List.mem_cons, List.not_mem_nil, or_false] at hp
    rcases hp with rfl | rfl | rfl
    · exact ⟨_, rfl⟩
    · trivial
    · trivial
  cls := by
    intro c hc p hp
    simp only [Demo.schema, List.mem_singleton] at hc
    subst hc
    simp only [List.mem_cons, List.not_mem_nil, or_false] at hp
    rcases hp with rfl | rfl | rfl | rfl
    · intro s hs; cases hs; exact ⟨by decide, by decide⟩
    · trivial
    · exact ⟨by decide, by decide⟩
    · trivial
  embed := by
    intro e he p hp
    simp only [Demo.schema, List.mem_singleton] at he
    subst he
    simp only [List.mem_cons, List.not_mem_nil, or_false] at hp
    rcases hp with rfl | rfl
    · intro s hs; cases hs
    · trivial

/-- The wrong input violates the schema four times, all the violations are reported. -/
example : ∀ r, FaultGraph Demo.lib {} Demo.schema 5 Demo.wrong c!"#" r ↔
    r ∈ [(c!"#/persons/'p1'/name", none), (c!"#/persons/'p1'/age", none), (c!"#/persons/'p1'/friend", none),
      (c!"#/homes", none)] := by
  intro r
  have h := C44_all_reported Demo.lib {} Demo.schema 5 Demo.wrong c!"#" (by decide) 10 (by decide) _ _ rfl
    (by decide) r
  exact h.symm

/-- An instance without properties -/
def bare : Json := .obj false [(c!"persons", .obj false [(c!"p1", .obj false [])])]

/-- Missing properties are told apart. -/
example : ∀ r, FaultGraph Demo.lib {} Demo.schema 5 bare c!"#" r ↔
    r ∈ [(c!"#/persons/'p1'", some c!"name"), (c!"#/persons/'p1'", some c!"age"), (c!"#", some c!"homes")] := by
  intro r
  have h := C44_all_reported Demo.lib {} Demo.schema 5 bare c!"#" (by decide) 10 (by decide) _ _ rfl
    (by decide) r
  exact h.symm

/-- The wrong input meets the conditions of `C32_never_raises_partial` and `C44_every_cap`. -/
example : DepthLe 3 Demo.wrong := by
  refine .obj _ _ _ ?_
  intro kv hkv
  simp only [List.mem_cons, List.not_mem_nil, or_false] at hkv
  rcases hkv with rfl | rfl
  · refine .obj _ _ _ ?_
    intro kv hkv
    rw [List.mem_singleton.1 hkv]
    refine .obj _ _ _ ?_
    intro kv hkv
    simp only [List.mem_cons, List.not_mem_nil, or_false] at hkv
    rcases hkv with rfl | rfl | rfl <;> constructor
  · exact .arr _ _ (by simp)
example : FloatInts Demo.wrong := by
  refine floatInts_of_small ?_
  intro i hi
  simp [Demo.wrong, occurs_obj, occurs_arr, occurs_str, occurs_int] at hi
  omega

end Mapry.Props
