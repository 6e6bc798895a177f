import Verif.CppSpec
import Verif.PyDemo

/-!
# A library, inputs and a graph for the examples of the generated C++ code

The schema is the one of the Python examples.
-/

namespace Mapry.CppRuntime.Demo

/-! ### Deciding the equality of values, for the examples -/

mutual

def Val.same : Val → Val → Bool
  | .nil, .nil => true
  | .zero, .zero => true
  | .bool a, .bool b => decide (a = b)
  | .int a, .int b => decide (a = b)
  | .float a, .float b => decide (a = b)
  | .str a, .str b => decide (a = b)
  | .time a, .time b => decide (a = b)
  | .zone a, .zone b => decide (a = b)
  | .duration a, .duration b => decide (a = b)
  | .list a, .list b => sameItems a b
  | .map a, .map b => sameEntries a b
  | .ref c a, .ref d b => decide (c = d) && decide (a = b)
  | .obj c a, .obj d b => decide (c = d) && sameEntries a b
  | _, _ => false

def sameItems : List Val → List Val → Bool
  | [], [] => true
  | a :: as, b :: bs => Val.same a b && sameItems as bs
  | _, _ => false

def sameEntries : List (Str × Val) → List (Str × Val) → Bool
  | [], [] => true
  | (k, a) :: as, (l, b) :: bs => decide (k = l) && Val.same a b && sameEntries as bs
  | _, _ => false

end

mutual

theorem same_eq : ∀ a b, Val.same a b = true → a = b := by
  intro a b h
  cases a <;> cases b <;> simp only [Val.same, Bool.false_eq_true, decide_eq_true_eq, Bool.and_eq_true] at h
  · rfl
  · rfl
  · rw [h]
  · rw [h]
  · rw [h]
  · rw [h]
  · rw [h]
  · rw [h]
  · rw [h]
  · rw [sameItems_eq _ _ h]
  · rw [sameEntries_eq _ _ h]
  · rw [h.1, h.2]
  · rw [h.1, sameEntries_eq _ _ h.2]

theorem sameItems_eq : ∀ a b, sameItems a b = true → a = b := by
  intro a b h
  match a, b with
  | [], [] => rfl
  | [], _ :: _ => simp [sameItems] at h
  | _ :: _, [] => simp [sameItems] at h
  | a :: as, b :: bs =>
    simp only [sameItems, Bool.and_eq_true] at h
    rw [same_eq a b h.1, sameItems_eq as bs h.2]

theorem sameEntries_eq : ∀ a b, sameEntries a b = true → a = b := by
  intro a b h
  match a, b with
  | [], [] => rfl
  | [], _ :: _ => simp [sameEntries] at h
  | _ :: _, [] => simp [sameEntries] at h
  | (k, a) :: as, (l, b) :: bs =>
    simp only [sameEntries, Bool.and_eq_true, decide_eq_true_eq] at h
    rw [h.1.1, same_eq a b h.1.2, sameEntries_eq as bs h.2]

end

mutual

theorem same_refl : ∀ a, Val.same a a = true := by
  intro a
  match a with
  | .nil => rfl
  | .zero => rfl
  | .bool _ => simp [Val.same]
  | .int _ => simp [Val.same]
  | .float _ => simp [Val.same]
  | .str _ => simp [Val.same]
  | .time _ => simp [Val.same]
  | .zone _ => simp [Val.same]
  | .duration _ => simp [Val.same]
  | .list xs => simp [Val.same, sameItems_refl xs]
  | .map xs => simp [Val.same, sameEntries_refl xs]
  | .ref _ _ => simp [Val.same]
  | .obj _ xs => simp [Val.same, sameEntries_refl xs]

theorem sameItems_refl : ∀ a, sameItems a a = true := by
  intro a
  match a with
  | [] => rfl
  | a :: as => simp [sameItems, same_refl a, sameItems_refl as]

theorem sameEntries_refl : ∀ a, sameEntries a a = true := by
  intro a
  match a with
  | [] => rfl
  | (k, a) :: as => simp [sameEntries, same_refl a, sameEntries_refl as]

end

instance : DecidableEq Val := fun a b =>
  if h : Val.same a b = true then .isTrue (same_eq a b h)
  else .isFalse fun e => h (by rw [e]; exact same_refl b)

deriving instance DecidableEq for Instance
deriving instance DecidableEq for GraphVal
deriving instance DecidableEq for CppErrors

/-- A small library: a pattern is a prefix, there are one date and one time zone. `date.h` leaves what follows
the date in the stream. -/
def lib : Lib where
  regexMatch p s := p.isPrefixOf s
  strptime f s := if f = c!"%Y-%m-%d" ∧ s = c!"2020-01-02" then some ({ year := 2020, month := 1, day := 2 }, []) else none
  strftime f _ := if f = c!"%Y-%m-%d" then c!"2020-01-02" else []
  dateParse _ f s :=
    if f = c!"%Y-%m-%d" ∧ s.take 10 = c!"2020-01-02" then some ({ year := 2020, month := 1, day := 2 }, s.drop 10) else none
  dateFormat _ f _ := if f = c!"%Y-%m-%d" then c!"2020-01-02" else []
  locateZone s := if s = c!"UTC" then some s else none
  doubleStr _ := c!"0.000000"
  garbage _ := false

theorem lib_garbage : Spec.NoGarbage lib := fun _ => rfl

abbrev schema : Graph := PyRuntime.Demo.schema

/-- An input which conforms to the schema -/
def input : JVal := .obj [
  (c!"homes", .arr [.obj [(c!"no", .int (-3)), (c!"street", .str c!"Main")],
    .obj [(c!"street", .str c!"Side")]]),
  (c!"persons", .obj [
    (c!"p1", .obj [(c!"age", .int 33), (c!"friend", .str c!"p2"), (c!"name", .str c!"Al")]),
    (c!"p2", .obj [(c!"age", .uint 1), (c!"born", .str c!"2020-01-02"), (c!"name", .str c!"Ada")])]),
  (c!"wait", .str c!"PT1S"),
  (c!"weights", .obj [(c!"x", .real (.fin 2)), (c!"y", .real (.fin 7))])]

/-- What it describes -/
def value : GraphVal where
  registries := [(c!"Person", [
    (c!"p1", ⟨c!"p1", [(c!"full_name", .str c!"Al"), (c!"age", .int 33), (c!"born", .nil),
      (c!"best_friend", .ref c!"Person" c!"p2")]⟩),
    (c!"p2", ⟨c!"p2", [(c!"full_name", .str c!"Ada"), (c!"age", .int 1),
      (c!"born", .time { year := 2020, month := 1, day := 2 }), (c!"best_friend", .nil)]⟩)])]
  fields := [
    (c!"homes", .list [.obj c!"Address" [(c!"street", .str c!"Main"), (c!"number", .int (-3))],
      .obj c!"Address" [(c!"street", .str c!"Side"), (c!"number", .nil)]]),
    (c!"weights", .map [(c!"x", .float (.fin 2)), (c!"y", .float (.fin 7))]),
    (c!"wait", .duration 1000000000)]

/-- An input with two faulty instances -/
def wrong : JVal := .obj [
  (c!"homes", .arr []),
  (c!"persons", .obj [
    (c!"p1", .obj [(c!"age", .int 0), (c!"name", .str c!"Al")]),
    (c!"p2", .obj [(c!"age", .int 1), (c!"name", .str c!"Bob")])])]

/-- A graph with a single property -/
def single (ty : Ty) (optional : Bool := false) : Graph where
  ref := []
  name := c!"Single"
  classes := []
  embeds := []
  properties := [{ name := c!"it", ty := ty, json := c!"it", optional := optional }]

/-- A graph with a single class without properties -/
def registry (idPattern : Option Str) : Graph where
  ref := []
  name := c!"Single"
  classes := [{ name := c!"Some", plural := c!"Somes", ref := [], idPattern := idPattern, properties := [] }]
  embeds := []
  properties := []

/-- A graph with an embeddable structure with an optional property -/
def nested : Graph where
  ref := []
  name := c!"Single"
  classes := []
  embeds := [{ name := c!"Inner", ref := [], properties := [
    { name := c!"it", ty := .boolean, json := c!"it", optional := true }] }]
  properties := [{ name := c!"inner", ty := .embed c!"Inner", json := c!"inner" }]

end Mapry.CppRuntime.Demo
