import Verif.GoSpec
import Verif.PyDemo

/-!
# A library, inputs and a graph for the examples of the generated Go code

The schema is the one of the Python examples.
-/

namespace Mapry.GoRuntime.Demo

/-- A small library: a pattern is a prefix, there are one layout and one location. -/
def lib : Lib where
  matchString p s := p.isPrefixOf s
  parseTime l s := if l = c!"2006-01-02" ∧ s = c!"2020-01-02" then some { year := 2020, month := 1, day := 2 } else none
  formatTime _ l := if l = [] then [] else c!"2020-01-02"
  loadLocation s := if s = c!"UTC" then some s else none
  sprintf f _ := f

/-- Maps are visited from the last entry to the first one. -/
def order : Order := fun _ n => (List.range n).reverse

theorem order_proper : order.Proper := fun _ n => List.reverse_perm (List.range n)

abbrev schema : Graph := PyRuntime.Demo.schema

/-- An input which conforms to the schema -/
def input : JVal := .obj [
  (c!"homes", .arr [.obj [(c!"no", .float (.fin (-3))), (c!"street", .str c!"Main")],
    .obj [(c!"street", .str c!"Side")]]),
  (c!"persons", .obj [
    (c!"p1", .obj [(c!"age", .float (.fin 33)), (c!"friend", .str c!"p2"), (c!"name", .str c!"Al")]),
    (c!"p2", .obj [(c!"age", .float (.fin 1)), (c!"born", .str c!"2020-01-02"), (c!"name", .str c!"Ada")])]),
  (c!"weights", .obj [(c!"x", .float (.fin 2)), (c!"y", .float (.fin 7))])]

/-- What it describes -/
def value : GraphVal where
  registries := [(c!"Person", [
    (c!"p1", ⟨c!"p1", [(c!"FullName", .str c!"Al"), (c!"Age", .int 33), (c!"Born", .nil),
      (c!"BestFriend", .ref c!"Person" c!"p2")]⟩),
    (c!"p2", ⟨c!"p2", [(c!"FullName", .str c!"Ada"), (c!"Age", .int 1),
      (c!"Born", .time { year := 2020, month := 1, day := 2 }), (c!"BestFriend", .nil)]⟩)])]
  fields := [
    (c!"Homes", .list [.obj c!"Address" [(c!"Street", .str c!"Main"), (c!"Number", .int (-3))],
      .obj c!"Address" [(c!"Street", .str c!"Side"), (c!"Number", .nil)]]),
    (c!"Weights", .map [(c!"x", .float (.fin 2)), (c!"y", .float (.fin 7))]),
    (c!"Wait", .nil)]

/-- An input with two faulty instances -/
def wrong : JVal := .obj [
  (c!"homes", .arr []),
  (c!"persons", .obj [
    (c!"p1", .obj [(c!"age", .float (.fin 0)), (c!"name", .str c!"Al")]),
    (c!"p2", .obj [(c!"age", .float (.fin 1)), (c!"name", .str c!"Bob")])])]

end Mapry.GoRuntime.Demo
