import Verif.PyRuntime

/-!
# A schema, a library and an input for the examples
-/

namespace Mapry.PyRuntime.Demo

/-- A small library: a pattern is a prefix, there are one format and one time zone. -/
def lib : Lib where
  reMatch p s := p.isPrefixOf s
  strptime s f :=
    if f = c!"%Y-%m-%d" then
      (if s = c!"2020-01-02" then .ok ⟨2020, 1, 2, 0, 0, 0, 0, none⟩ else .error (.valueError []))
    else .error (.valueError [])
  strftime d _ := if d.year = 2020 then c!"2020-01-02" else c!"1970-01-01"
  normPath s := s
  timezone s := if s = c!"UTC" then some s else none
  repr s := c!"'" ++ s ++ c!"'"
  floatRepr _ := c!"0.0"

/-- A schema with a class which refers to itself, an embeddable structure and nested containers -/
def schema : Graph where
  ref := c!"g"
  name := c!"Town"
  classes := [{
    name := c!"Person", plural := c!"Persons", ref := c!"p", idPattern := some c!"p"
    properties := [
      { name := c!"full_name", ty := .string (some c!"A"), json := c!"name" },
      { name := c!"age", ty := .integer ⟨some 0, true, some 150, false⟩, json := c!"age" },
      { name := c!"born", ty := .date c!"%Y-%m-%d", json := c!"born", optional := true },
      { name := c!"best_friend", ty := .cls c!"Person", json := c!"friend", optional := true }] }]
  embeds := [{
    name := c!"Address", ref := c!"a"
    properties := [
      { name := c!"street", ty := .string none, json := c!"street" },
      { name := c!"number", ty := .integer {}, json := c!"no", optional := true }] }]
  properties := [
    { name := c!"homes", ty := .array (.embed c!"Address") (some 1) (some 3), json := c!"homes" },
    { name := c!"weights", ty := .map (.float { min := some 0 }), json := c!"weights", optional := true },
    { name := c!"wait", ty := .duration, json := c!"wait", optional := true }]

/-- An input which conforms to the schema -/
def input : Json := .obj false [
  (c!"persons", .obj true [
    (c!"p1", .obj false [(c!"name", .str c!"Al"), (c!"age", .int 33), (c!"friend", .str c!"p2")]),
    (c!"p2", .obj false [(c!"age", .int 1), (c!"name", .str c!"Ada"), (c!"born", .str c!"2020-01-02")])]),
  (c!"homes", .arr [.obj false [(c!"street", .str c!"Main"), (c!"no", .int (-3))],
    .obj false [(c!"street", .str c!"Side"), (c!"no", .null)]]),
  (c!"weights", .obj false [(c!"x", .float (.fin 2)), (c!"y", .float (.inf false))])]

/-- What it describes -/
def value : GraphVal where
  registries := [(c!"Person", ⟨true, [
    (c!"p1", ⟨c!"p1", [(c!"full_name", .str c!"Al"), (c!"age", .int 33), (c!"born", .none),
      (c!"best_friend", .ref c!"Person" c!"p2")]⟩),
    (c!"p2", ⟨c!"p2", [(c!"full_name", .str c!"Ada"), (c!"age", .int 1),
      (c!"born", .date ⟨2020, 1, 2⟩), (c!"best_friend", .none)]⟩)]⟩)]
  attrs := [
    (c!"homes", .list [.obj c!"Address" [(c!"street", .str c!"Main"), (c!"number", .int (-3))],
      .obj c!"Address" [(c!"street", .str c!"Side"), (c!"number", .none)]]),
    (c!"weights", .map false [(c!"x", .float (.fin 2)), (c!"y", .float (.inf false))]),
    (c!"wait", .none)]

/-- An input with four violations -/
def wrong : Json := .obj false [
  (c!"persons", .obj true [
    (c!"p1", .obj false [(c!"name", .str c!"Bob"), (c!"age", .int 0), (c!"friend", .str c!"p3")])]),
  (c!"homes", .arr [])]

end Mapry.PyRuntime.Demo
