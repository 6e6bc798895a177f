import Verif.CppReadRun
import Verif.CppDemo

/-! # C92: the generated C++ code which parses classes and embeddable structures, run statement by statement -/

namespace Mapry.Props.CppExec

open Mapry.CppRead
open Mapry.CppRuntime (JVal Val Lib DateLib Fields)
open Mapry.Naming Mapry.TypeGraph
open Mapry.GoCode (referencesOf)

/-- `P` is the code of the functions which parse the classes and the embeddable structures. As the C++ compiler demands it, no two
of them have the same name and the same type of the target, no two parameters of a function have the same name, and the structures
which are used are defined. -/
structure Readers (g : Graph) (D : DateLib) (P : Program) : Prop where
  code : reader g D = .ok P
  functions : (P.map fun F => (F.name, F.ty)).Nodup
  params : ∀ F ∈ P, F.registries.Nodup
  classes : ∀ c ∈ g.classes, ∀ p ∈ c.properties, Known g p.ty
  embeds : ∀ m ∈ g.embeds, ∀ p ∈ m.properties, Known g p.ty

/-- The call of the function `{name}_from` with the registries of the classes to which the composite refers -/
def parseCall (E : CppRuntime.Env) (P : Program) (n : Nat) (o : Owner) (name : Str) (j : JVal) (ref : Str) (target : Val)
    (errors : CppErrors) : Except Exc (Val × CppErrors) := do
  let f ← asVariable name
  let refs ← referencesOf E.graph o
  run E.lib P n (f ++ c!"_from") name j (refs.map fun c => .registry c (E.ids c)) ref target errors

/-- The fields of the structure which is passed; those of a new one if nothing has been stored -/
def fieldsOf (ps : List Property) : Val → Fields
  | .obj _ fields => fields
  | _ => CppRuntime.zeroFields ps

/-- The code ends as the parser: with the same exception or with the same errors, and without a new error with the same
structure. -/
def Follows (errors : CppErrors) : Except Exc (Val × CppErrors) → Except Exc (Val × CppErrors) → Prop
  | .error ex, R => R = .error ex
  | .ok (x, errors'), R => ∃ x', R = .ok (x', errors') ∧ (errors' = errors → x' = x)

variable {E : CppRuntime.Env} {P : Program}

theorem Readers.apart (h : Readers E.graph E.dateLib P) : Apart P := ⟨h.functions, h.params⟩

theorem Readers.known (h : Readers E.graph E.dateLib P) : KnownGraph E.graph := ⟨h.classes, h.embeds⟩

/-- Generated code has a name and registries for every class. -/
theorem class_named (h : Readers E.graph E.dateLib P) {c : Class} (hc : c ∈ E.graph.classes) :
    ∃ f refs, asVariable c.name = .ok f ∧ referencesOf E.graph (.cls c.name) = .ok refs := by
  obtain ⟨F, _, h⟩ := (parts h.code).classes c hc
  rw [parseComposite] at h
  cases h1 : referencesOf E.graph (.cls c.name) with
  | error a => rw [h1] at h; cases h
  | ok refs =>
    simp only [h1, bind, Except.bind] at h
    cases h2 : refs.mapM (registryParam E.graph) with
    | error a => rw [h2] at h; cases h
    | ok vs =>
      simp only [h2] at h
      cases h3 : parseProps ⟨E.graph, E.dateLib, registryVar E.graph refs⟩ c.properties 0 with
      | error a => rw [h3] at h; cases h
      | ok code =>
        simp only [h3] at h
        cases h4 : asVariable c.name with
        | error a => rw [h4] at h; cases h
        | ok f => exact ⟨f, refs, rfl, rfl⟩

theorem embed_named (h : Readers E.graph E.dateLib P) {m : Embed} (hm : m ∈ E.graph.embeds) :
    ∃ f refs, asVariable m.name = .ok f ∧ referencesOf E.graph (.embed m.name) = .ok refs := by
  obtain ⟨F, _, h⟩ := (parts h.code).embeds m hm
  rw [parseComposite] at h
  cases h1 : referencesOf E.graph (.embed m.name) with
  | error a => rw [h1] at h; cases h
  | ok refs =>
    simp only [h1, bind, Except.bind] at h
    cases h2 : refs.mapM (registryParam E.graph) with
    | error a => rw [h2] at h; cases h
    | ok vs =>
      simp only [h2] at h
      cases h3 : parseProps ⟨E.graph, E.dateLib, registryVar E.graph refs⟩ m.properties 0 with
      | error a => rw [h3] at h; cases h
      | ok code =>
        simp only [h3] at h
        cases h4 : asVariable m.name with
        | error a => rw [h4] at h; cases h
        | ok f => exact ⟨f, refs, rfl, rfl⟩

theorem class_called (h : Readers E.graph E.dateLib P) {c : Class} (hc : c ∈ E.graph.classes) (n : Nat) (j : JVal) (ref : Str)
    (tm target : Val) (errors : CppErrors) (he : errors.values.length < errors.cap) :
    Called errors tm target ((CppRuntime.parseComposite (CppRuntime.parseTy E (CppRuntime.parseEmbed E n)) c.properties j ref
        (CppRuntime.targetFields c.properties tm) errors).map fun r => (.obj c.name r.1, r.2))
      (parseCall E P (n + 1) (.cls c.name) c.name j ref target errors) := by
  obtain ⟨f, refs, hf, hr⟩ := class_named h hc
  simp only [parseCall, hf, hr, bind, Except.bind]
  exact class_run h.apart h.code h.known hc hf hr j ref tm target errors he

theorem called_follows {e : CppErrors} {x : Val} {M R : Except Exc (Val × CppErrors)} (h : Called e x x M R) : Follows e M R := by
  cases M with
  | error a => exact h
  | ok q =>
    obtain ⟨t, e'⟩ := q
    obtain ⟨x', h1, _, h3⟩ := h
    exact ⟨x', h1, fun a => h3 a rfl⟩

theorem called_errors {e : CppErrors} {tm x : Val} {M R : Except Exc (Val × CppErrors)} (h : Called e tm x M R) :
    R.map (·.2) = M.map (·.2) := by
  cases M with
  | error a =>
    have h : R = .error a := h
    subst h
    rfl
  | ok q =>
    obtain ⟨t, e'⟩ := q
    obtain ⟨x', rfl, _⟩ := h
    rfl

theorem called_grows {e : CppErrors} {tm x : Val} {M R : Except Exc (Val × CppErrors)} (h : Called e tm x M R) {x' : Val} {e' : CppErrors}
    (hr : R = .ok (x', e')) : Ext e e' := by
  cases M with
  | error a =>
    have h : R = .error a := h
    rw [h] at hr
    cases hr
  | ok q =>
    obtain ⟨t, e''⟩ := q
    obtain ⟨x'', h1, h2, _⟩ := h
    rw [h1] at hr
    cases hr
    exact h2

/-- **C92 (partial).** The statements of the generated function which parses a class do what the parser does. -/
theorem C92_class_partial (h : Readers E.graph E.dateLib P) {c : Class} (hc : c ∈ E.graph.classes) (n : Nat) (j : JVal) (ref : Str)
    (target : Val) (errors : CppErrors) (he : errors.values.length < errors.cap) :
    Follows errors ((CppRuntime.parseComposite (CppRuntime.parseTy E (CppRuntime.parseEmbed E n)) c.properties j ref
        (fieldsOf c.properties target) errors).map fun r => (.obj c.name r.1, r.2))
      (parseCall E P (n + 1) (.cls c.name) c.name j ref target errors) := by
  have : fieldsOf c.properties target = CppRuntime.targetFields c.properties target := by cases target <;> rfl
  rw [this]
  exact called_follows (class_called h hc n j ref target target errors he)

/-- **C92 (partial).** The statements of the generated function which parses an embeddable structure do what the parser does. -/
theorem C92_embed_partial (h : Readers E.graph E.dateLib P) {m : Embed} (hm : E.graph.embed? m.name = some m) (n : Nat) (j : JVal)
    (ref : Str) (target : Val) (errors : CppErrors) (he : errors.values.length < errors.cap) :
    Follows errors (CppRuntime.parseEmbed E n m.name j ref target errors)
      (parseCall E P n (.embed m.name) m.name j ref target errors) := by
  obtain ⟨f, refs, hf, hr⟩ := embed_named h (CppExec.embed_found hm).1
  have := calls_done h.apart h.code h.known n m.name f refs (by rw [hm]; rfl) hf hr j ref target target errors he
  simp only [parseCall, hf, hr, bind, Except.bind]
  exact called_follows this

/-- Whether there is an exception and which errors are reported does not depend on what has been in the target. -/
theorem C92_target_free (h : Readers E.graph E.dateLib P) {c : Class} (hc : c ∈ E.graph.classes) (n : Nat) (j : JVal) (ref : Str)
    (target target' : Val) (errors : CppErrors) (he : errors.values.length < errors.cap) :
    (parseCall E P (n + 1) (.cls c.name) c.name j ref target errors).map (·.2) =
      (parseCall E P (n + 1) (.cls c.name) c.name j ref target' errors).map (·.2) :=
  (called_errors (class_called h hc n j ref target target errors he)).trans
    (called_errors (class_called h hc n j ref target target' errors he)).symm

/-- Errors are only added, and not more than fit. -/
theorem C92_errors (h : Readers E.graph E.dateLib P) {c : Class} (hc : c ∈ E.graph.classes) (n : Nat) (j : JVal) (ref : Str)
    (target target' : Val) (errors errors' : CppErrors) (he : errors.values.length < errors.cap)
    (hr : parseCall E P (n + 1) (.cls c.name) c.name j ref target errors = .ok (target', errors')) :
    errors'.cap = errors.cap ∧ errors'.values.length ≤ errors.cap ∧ ∃ new, errors'.values = errors.values ++ new := by
  have hx := called_grows (class_called h hc n j ref target target errors he) hr
  exact ⟨hx.cap, hx.cap ▸ hx.le, hx.values⟩

/-- The full claim: the structure is the same even if errors are reported. -/
def C92Full : Prop := ∀ (E : CppRuntime.Env) (P : Program), Readers E.graph E.dateLib P → ∀ c ∈ E.graph.classes,
  ∀ (n : Nat) (j : JVal) (ref : Str) (target : Val) (errors : CppErrors), errors.values.length < errors.cap →
    parseCall E P (n + 1) (.cls c.name) c.name j ref target errors =
      (CppRuntime.parseComposite (CppRuntime.parseTy E (CppRuntime.parseEmbed E n)) c.properties j ref
        (fieldsOf c.properties target) errors).map fun r => (.obj c.name r.1, r.2)

/-! ### The examples -/

namespace ReadDemo

open Mapry.CppRuntime.Demo (lib schema)

/-- The schema with a class and an embeddable structure, after its persons have been allocated -/
def env : CppRuntime.Env := ⟨.ctime, lib, schema, fun _ => [c!"p1", c!"p2"]⟩

/-- The generated code -/
def code : Program := ((reader schema .ctime).toOption).getD []

theorem generated : reader schema .ctime = .ok code := by
  cases h : reader schema .ctime with
  | ok P => simp [code, h, Except.toOption]
  | error e =>
    have : (reader schema .ctime).toBool = true := by decide +kernel
    rw [h] at this
    cases this

theorem readers : Readers env.graph env.dateLib code where
  code := generated
  functions := by decide +kernel
  params := by
    have : code.all (fun F => decide F.registries.Nodup) = true := by decide +kernel
    intro F hF
    simpa using List.all_eq_true.1 this F hF
  classes := by
    intro c hc p hp
    simp only [env, schema, PyRuntime.Demo.schema, List.mem_cons, List.not_mem_nil, or_false] at hc
    subst hc
    simp only [List.mem_cons, List.not_mem_nil, or_false] at hp
    rcases hp with rfl | rfl | rfl | rfl <;> trivial
  embeds := by
    intro m hm p hp
    simp only [env, schema, PyRuntime.Demo.schema, List.mem_cons, List.not_mem_nil, or_false] at hm
    subst hm
    simp only [List.mem_cons, List.not_mem_nil, or_false] at hp
    rcases hp with rfl | rfl <;> trivial

/-- A person with an age which is not an integer and with a friend who is not there -/
def faulty : JVal := .obj [(c!"age", .str c!"x"), (c!"friend", .str c!"p7"), (c!"name", .str c!"Al")]

/-- A schema in which a structure refers to a class and contains itself -/
def boxes : Graph where
  ref := []
  name := c!"Store"
  classes := [{ name := c!"Box", plural := c!"Boxes", ref := [], idPattern := none, properties := [
    { name := c!"content", ty := .array (.embed c!"Item") (some 1) none, json := c!"content", optional := true },
    { name := c!"counts", ty := .map (.integer { min := some 0 }), json := c!"counts" }] }]
  embeds := [{ name := c!"Item", ref := [], properties := [
    { name := c!"origin", ty := .cls c!"Box", json := c!"origin" },
    { name := c!"parts", ty := .map (.embed c!"Item"), json := c!"parts", optional := true }] }]
  properties := []

def boxEnv : CppRuntime.Env := ⟨.dateH, lib, boxes, fun _ => [c!"b1"]⟩

def boxCode : Program := ((reader boxes .dateH).toOption).getD []

theorem box_generated : reader boxes .dateH = .ok boxCode := by
  cases h : reader boxes .dateH with
  | ok P => simp [boxCode, h, Except.toOption]
  | error e =>
    have : (reader boxes .dateH).toBool = true := by decide +kernel
    rw [h] at this
    cases this

theorem box_readers : Readers boxEnv.graph boxEnv.dateLib boxCode where
  code := box_generated
  functions := by decide +kernel
  params := by
    have : boxCode.all (fun F => decide F.registries.Nodup) = true := by decide +kernel
    intro F hF
    simpa using List.all_eq_true.1 this F hF
  classes := by
    intro c hc p hp
    simp only [boxEnv, boxes, List.mem_cons, List.not_mem_nil, or_false] at hc
    subst hc
    simp only [List.mem_cons, List.not_mem_nil, or_false] at hp
    rcases hp with rfl | rfl
    · exact (rfl : (boxes.embed? c!"Item").isSome = true)
    · trivial
  embeds := by
    intro m hm p hp
    simp only [boxEnv, boxes, List.mem_cons, List.not_mem_nil, or_false] at hm
    subst hm
    simp only [List.mem_cons, List.not_mem_nil, or_false] at hp
    rcases hp with rfl | rfl
    · trivial
    · exact (rfl : (boxes.embed? c!"Item").isSome = true)

/-- A box with an item which has a part -/
def box : JVal := .obj [
  (c!"content", .arr [.obj [(c!"origin", .str c!"b1"), (c!"parts", .obj [(c!"p", .obj [(c!"origin", .str c!"b1")])])]]),
  (c!"counts", .obj [(c!"a", .int 2)])]

end ReadDemo

/-- The full claim does not hold: if an entry of a map is not valid, the code leaves it out, but the parser of the model adds it. -/
theorem C92_violated_target : ¬ C92Full := by
  intro h
  have h1 := h ReadDemo.boxEnv ReadDemo.boxCode ReadDemo.box_readers (ReadDemo.boxes.classes.head (by decide)) (List.head_mem _) 3
    (.obj [(c!"counts", .obj [(c!"a", .null)])]) [] .zero (.new 5) (by decide)
  have h2 := congrArg (fun r => r.map fun x => CppRuntime.Demo.Val.same x.1
    (.obj c!"Box" [(c!"content", .nil), (c!"counts", .map [])])) h1
  exact absurd h2 (by decide +kernel)

example : (parseCall ReadDemo.boxEnv ReadDemo.boxCode 4 (.cls c!"Box") c!"Box" ReadDemo.box c!"#" .zero (.new 5)).map
    (fun r => CppRuntime.Demo.Val.same r.1 (.obj c!"Box" [
      (c!"content", .list [.obj c!"Item" [(c!"origin", .ref c!"Box" c!"b1"),
        (c!"parts", .map [(c!"p", .obj c!"Item" [(c!"origin", .ref c!"Box" c!"b1"), (c!"parts", .nil)])])]]),
      (c!"counts", .map [(c!"a", .int 2)])]) && r.2.values.isEmpty) = .ok true := by decide +kernel

/-- The stack is not deep enough. -/
example : (parseCall ReadDemo.boxEnv ReadDemo.boxCode 2 (.cls c!"Box") c!"Box" ReadDemo.box c!"#" .zero (.new 5)).map (fun _ => ()) =
    .error .recursionError := by decide +kernel

example : (parseCall ReadDemo.env ReadDemo.code 2 (.cls c!"Person") c!"Person"
    (.obj [(c!"age", .int 33), (c!"friend", .str c!"p2"), (c!"name", .str c!"Al")]) c!"#/persons/p1" .zero (.new 5)).map
      (fun r => CppRuntime.Demo.Val.same r.1 (.obj c!"Person" [(c!"full_name", .str c!"Al"), (c!"age", .int 33), (c!"born", .nil),
        (c!"best_friend", .ref c!"Person" c!"p2")]) && r.2.values.isEmpty) = .ok true := by decide +kernel

example : (parseCall ReadDemo.env ReadDemo.code 2 (.cls c!"Person") c!"Person" ReadDemo.faulty c!"#/persons/p1" .zero (.new 5)).map
    (fun r => r.2.values.map fun e => e.ref) = .ok [c!"#/persons/p1/age", c!"#/persons/p1/friend"] := by decide +kernel

example : ∀ target, (parseCall ReadDemo.env ReadDemo.code 2 (.cls c!"Person") c!"Person" ReadDemo.faulty c!"#" target (.new 5)).map (·.2) =
    (parseCall ReadDemo.env ReadDemo.code 2 (.cls c!"Person") c!"Person" ReadDemo.faulty c!"#" .zero (.new 5)).map (·.2) :=
  fun target => C92_target_free (c := CppRuntime.Demo.schema.classes.head (by decide)) ReadDemo.readers (List.head_mem _) 1 ReadDemo.faulty
    c!"#" target .zero (.new 5) (by decide)

end Mapry.Props.CppExec
