import Verif.GoRuntime
import Verif.PySpec

/-!
# What it means that a JSONable value describes a Go value

The relation `Reads` is written from the documentation of the schema. It does not mention error
containers, the order of the checks, targets, the order of iterations or the phases of the parser.
-/

namespace Mapry.GoRuntime.Spec

open Mapry.Duration
open Mapry.PyRuntime.Spec (Within FloatWithin SizeWithin)

/-- The text matches the optional pattern. -/
def Matches (L : Lib) (pattern : Option Str) (s : Str) : Prop :=
  ∀ p, pattern = some p → L.matchString p s = true

variable (L : Lib) (g : Graph) (ids : Str → Str → Prop)

/-- The JSON value `v` describes the value `x` of a type. `ids c id` says that there is an instance of
the class `c` with the identifier `id`; `embed` is the relation for the embeddable structures. All the
numbers of JSON are `float64`s in Go. -/
def ReadsTy (embed : Str → JVal → Val → Prop) : Ty → JVal → Val → Prop
  | .boolean, v, x => ∃ c, v = .bool c ∧ x = .bool c
  | .integer b, v, x => ∃ i : Int, v = .float (.fin i) ∧ x = .int i ∧ IsInt64 i ∧ Within b i
  | .float b, v, x => ∃ f, v = .float f ∧ x = .float f ∧ FloatWithin b f
  | .string p, v, x => ∃ s, v = .str s ∧ x = .str s ∧ Matches L p s
  | .path p, v, x => ∃ s, v = .str s ∧ x = .str s ∧ Matches L p s
  | .date f, v, x => ∃ s t, v = .str s ∧ L.parseTime (layout f) s = some t ∧ x = .time t
  | .time f, v, x => ∃ s t, v = .str s ∧ L.parseTime (layout f) s = some t ∧ x = .time t
  | .datetime f, v, x => ∃ s t, v = .str s ∧ L.parseTime (layout f) s = some t ∧ x = .time t
  | .timeZone, v, x => ∃ s z, v = .str s ∧ L.loadLocation s = some z ∧ x = .zone z
  | .duration, v, x => ∃ s d, v = .str s ∧ goFromString s = .ok d ∧ x = .duration d
  | .array t lo hi, v, x => ∃ xs vs, v = .arr xs ∧ x = .list vs ∧ SizeWithin lo hi xs.length ∧
    Forall₂ (ReadsTy embed t) xs vs
  | .map t, v, x => ∃ kvs ws, v = .obj kvs ∧ x = .map ws ∧
    Forall₂ (fun kv w => kv.1 = w.1 ∧ ReadsTy embed t kv.2 w.2) kvs ws
  | .cls c, v, x => ∃ id, v = .str id ∧ x = .ref c id ∧ ids c id
  | .embed name, v, x => embed name v x

/-- The entry of a JSON object describes the value `x` of a property: unset if it is missing, which
only an optional property may be. -/
def ReadsProperty (reads : Ty → JVal → Val → Prop) (kvs : List (Str × JVal)) (p : Property)
    (x : Val) : Prop :=
  match kvs.lookup p.json with
  | none => p.optional = true ∧ x = .nil
  | some v => reads p.ty v x

/-- The entries of a JSON object describe the fields, one for each property. -/
def ReadsProps (reads : Ty → JVal → Val → Prop) (kvs : List (Str × JVal)) (ps : List Property)
    (fields : Fields) : Prop :=
  Forall₂ (fun p f => f.1 = goName p.name ∧ ReadsProperty reads kvs p f.2) ps fields

/-- A JSON object describes an embeddable structure; `n` bounds the number of structures nested in
each other. -/
def ReadsEmbed : Nat → Str → JVal → Val → Prop
  | 0, _, _, _ => False
  | n + 1, name, v, x => ∃ e kvs fields, g.embed? name = some e ∧ v = .obj kvs ∧
    x = .obj name fields ∧ ReadsProps (ReadsTy L ids (ReadsEmbed n)) kvs e.properties fields

/-- The relation for the values, `n` levels of embeddable structures deep -/
def Reads (n : Nat) : Ty → JVal → Val → Prop := ReadsTy L ids (ReadsEmbed L g ids n)

/-- The registry of a class in the JSON object of the graph: the key is the plural in lower case. -/
def registryOf (kvs : List (Str × JVal)) (c : Class) : Option JVal := kvs.lookup (Mapry.lower c.plural)

/-- The identifiers of the instances described by the JSON object of the graph -/
def Described (kvs : List (Str × JVal)) (c id : Str) : Prop :=
  ∃ d ∈ g.classes, d.name = c ∧ ∃ entries, registryOf kvs d = some (.obj entries) ∧
    id ∈ entries.map (·.1)

/-- The JSON object of the graph describes the registry of a class: the instances under their own
identifiers which match the pattern. -/
def ReadsRegistry (n : Nat) (kvs : List (Str × JVal)) (c : Class) (r : GoMap Instance) : Prop :=
  (registryOf kvs c = none ∧ r = []) ∨
  ∃ entries, registryOf kvs c = some (.obj entries) ∧
    Forall₂ (fun (e : Str × JVal) (i : Str × Instance) =>
      i.1 = e.1 ∧ i.2.id = e.1 ∧ Matches L c.idPattern e.1 ∧
      ∃ kvs', e.2 = .obj kvs' ∧
        ReadsProps (Reads L g (Described g kvs) n) kvs' c.properties i.2.fields) entries r

/-- A JSON object describes a graph. -/
def ReadsGraph (n : Nat) (v : JVal) (gv : GraphVal) : Prop :=
  ∃ kvs, v = .obj kvs ∧
    Forall₂ (fun (c : Class) (r : Str × GoMap Instance) =>
      r.1 = c.name ∧ ReadsRegistry L g n kvs c r.2) g.classes gv.registries ∧
    ReadsProps (Reads L g (Described g kvs) n) kvs g.properties gv.fields

/-- A JSONable value: the keys of every map are in ascending order (the representation of maps). -/
inductive Canon : JVal → Prop where
  | null : Canon .null
  | bool (b : Bool) : Canon (.bool b)
  | float (f : F64) : Canon (.float f)
  | int64 (i : Int) : Canon (.int64 i)
  | str (s : Str) : Canon (.str s)
  | arr (xs : List JVal) : (∀ x ∈ xs, Canon x) → Canon (.arr xs)
  | obj (kvs : GoMap JVal) : GoMap.Ascending kvs → (∀ kv ∈ kvs, Canon kv.2) → Canon (.obj kvs)

/-- The fields of each composite are distinct (see C25), and so are the names of the classes. -/
structure Distinct : Prop where
  graph : (g.properties.map fun p => goName p.name).Nodup
  cls : ∀ c ∈ g.classes, (c.properties.map fun p => goName p.name).Nodup
  embed : ∀ e ∈ g.embeds, (e.properties.map fun p => goName p.name).Nodup
  names : (g.classes.map (·.name)).Nodup

/-- The bounds are exact as `float64`s. -/
def ExactBounds (b : Bounds) : Prop :=
  (∀ m, b.min = some m → F64.round m = .fin m) ∧ (∀ m, b.max = some m → F64.round m = .fin m)

/-- The bounds of the floats are exact; the embeddable structures are defined. -/
def ExactTy : Ty → Prop
  | .float b => ExactBounds b
  | .array t _ _ => ExactTy t
  | .map t => ExactTy t
  | _ => True

structure ExactGraph : Prop where
  graph : ∀ p ∈ g.properties, ExactTy p.ty
  cls : ∀ c ∈ g.classes, ∀ p ∈ c.properties, ExactTy p.ty
  embed : ∀ e ∈ g.embeds, ∀ p ∈ e.properties, ExactTy p.ty

/-- The embeddable structures are defined. -/
def DefinedTy : Ty → Prop
  | .array t _ _ => DefinedTy t
  | .map t => DefinedTy t
  | .embed name => ∃ e, g.embed? name = some e
  | _ => True

structure DefinedGraph : Prop where
  graph : ∀ p ∈ g.properties, DefinedTy g p.ty
  cls : ∀ c ∈ g.classes, ∀ p ∈ c.properties, DefinedTy g p.ty
  embed : ∀ e ∈ g.embeds, ∀ p ∈ e.properties, DefinedTy g p.ty

/-- At most `n` objects nested in each other -/
inductive DepthLe : Nat → JVal → Prop where
  | null (n : Nat) : DepthLe n .null
  | bool (n : Nat) (b : Bool) : DepthLe n (.bool b)
  | float (n : Nat) (f : F64) : DepthLe n (.float f)
  | int64 (n : Nat) (i : Int) : DepthLe n (.int64 i)
  | str (n : Nat) (s : Str) : DepthLe n (.str s)
  | arr (n : Nat) (xs : List JVal) : (∀ x ∈ xs, DepthLe n x) → DepthLe n (.arr xs)
  | obj (n : Nat) (kvs : List (Str × JVal)) : (∀ kv ∈ kvs, DepthLe n kv.2) → DepthLe (n + 1) (.obj kvs)

/-! ## Graphs which satisfy the schema -/

/-- The value satisfies the type. `registered c id` says that an instance of the class `c` is
registered under `id`. A date is allowed if it is what some text means in the format. -/
def FitsTy (registered : Str → Str → Prop) (embed : Str → Val → Prop) : Ty → Val → Prop
  | .boolean, x => ∃ c, x = .bool c
  | .integer b, x => ∃ i : Int, x = .int i ∧ IsInt64 i ∧ Within b i
  | .float b, x => ∃ f, x = .float f ∧ FloatWithin b f
  | .string p, x => ∃ s, x = .str s ∧ Matches L p s
  | .path p, x => ∃ s, x = .str s ∧ Matches L p s
  | .date f, x => ∃ s t, L.parseTime (layout f) s = some t ∧ x = .time t
  | .time f, x => ∃ s t, L.parseTime (layout f) s = some t ∧ x = .time t
  | .datetime f, x => ∃ s t, L.parseTime (layout f) s = some t ∧ x = .time t
  | .timeZone, x => ∃ s z, L.loadLocation s = some z ∧ x = .zone z
  | .duration, x => ∃ d, x = .duration d ∧ IsInt64 d
  | .array t lo hi, x => ∃ vs, x = .list vs ∧ SizeWithin lo hi vs.length ∧
    ∀ v ∈ vs, FitsTy registered embed t v
  | .map t, x => ∃ kvs, x = .map kvs ∧ GoMap.Ascending kvs ∧ ∀ kv ∈ kvs, FitsTy registered embed t kv.2
  | .cls c, x => ∃ id, x = .ref c id ∧ registered c id
  | .embed name, x => embed name x

/-- The fields satisfy the properties: a required one is set. -/
def FitsProps (fits : Ty → Val → Prop) (ps : List Property) (fields : Fields) : Prop :=
  Forall₂ (fun p f => f.1 = goName p.name ∧
    ((p.optional = true ∧ f.2 = .nil) ∨ fits p.ty f.2)) ps fields

/-- At most `n` embeddable structures nested in each other -/
def FitsEmbed (registered : Str → Str → Prop) : Nat → Str → Val → Prop
  | 0, _, _ => False
  | n + 1, name, x => ∃ e fields, g.embed? name = some e ∧ x = .obj name fields ∧
    FitsProps (FitsTy L registered (FitsEmbed registered n)) e.properties fields

def Fits (registered : Str → Str → Prop) (n : Nat) : Ty → Val → Prop :=
  FitsTy L registered (FitsEmbed L g registered n)

/-- There is an instance registered under the identifier. -/
def Registered (gv : GraphVal) (c id : Str) : Prop :=
  ∃ r, (c, r) ∈ gv.registries ∧ ∃ i, (id, i) ∈ r

/-- The graph satisfies the schema. -/
structure ValidGraph (n : Nat) (gv : GraphVal) : Prop where
  /-- there is one registry for each class; the instances are registered under their own identifiers,
  which match the pattern, and their fields satisfy the properties -/
  registries : Forall₂ (fun (c : Class) (r : Str × GoMap Instance) => r.1 = c.name ∧
    GoMap.Ascending r.2 ∧ ∀ i ∈ r.2, i.2.id = i.1 ∧ Matches L c.idPattern i.1 ∧
      FitsProps (Fits L g (Registered gv) n) c.properties i.2.fields) g.classes gv.registries
  /-- the fields of the graph satisfy its properties -/
  fields : FitsProps (Fits L g (Registered gv) n) g.properties gv.fields

/-! ## Serializing -/

/-- No datum overwrites another one in the JSON representation. -/
structure JsonKeys : Prop where
  graph : (g.properties.map (·.json) ++ g.classes.map fun c => Mapry.lower c.plural).Nodup
  cls : ∀ c ∈ g.classes, (c.properties.map (·.json)).Nodup
  embed : ∀ e ∈ g.embeds, (e.properties.map (·.json)).Nodup

/-- What survives the way through JSON text: the numbers are exact as `float64`s and finite, the
durations are not the least one, and the library reads back what it writes for times and locations. -/
def FaithfulTy (embed : Str → Val → Prop) : Ty → Val → Prop
  | .integer _, x => ∀ i : Int, x = .int i → F64.round i = .fin i
  | .float _, x => ∀ f, x = .float f → ∃ q, f = .fin q
  | .date f, x => ∀ t, x = .time t → L.parseTime (layout f) (L.formatTime t (layout f)) = some t
  | .time f, x => ∀ t, x = .time t → L.parseTime (layout f) (L.formatTime t (layout f)) = some t
  | .datetime f, x => ∀ t, x = .time t → L.parseTime (layout f) (L.formatTime t (layout f)) = some t
  | .timeZone, x => ∀ z, x = .zone z → L.loadLocation z = some z
  | .duration, x => ∀ d, x = .duration d → d ≠ minInt64
  | .array t _ _, x => ∀ vs, x = .list vs → ∀ v ∈ vs, FaithfulTy embed t v
  | .map t, x => ∀ kvs, x = .map kvs → ∀ kv ∈ kvs, FaithfulTy embed t kv.2
  | .embed name, x => embed name x
  | _, _ => True

/-- All the values of the fields -/
def FaithfulProps (faithful : Ty → Val → Prop) (ps : List Property) (fields : Fields) : Prop :=
  ∀ p ∈ ps, ∀ x, fields.lookup (goName p.name) = some x → faithful p.ty x

def FaithfulEmbed : Nat → Str → Val → Prop
  | 0, _, _ => True
  | n + 1, name, x => ∀ e fields, g.embed? name = some e → x = .obj name fields →
    FaithfulProps (FaithfulTy L (FaithfulEmbed n)) e.properties fields

def Faithful (n : Nat) : Ty → Val → Prop := FaithfulTy L (FaithfulEmbed L g n)

structure FaithfulGraph (n : Nat) (gv : GraphVal) : Prop where
  registries : ∀ c ∈ g.classes, ∀ r, gv.registries.lookup c.name = some r →
    ∀ i ∈ r, FaithfulProps (Faithful L g n) c.properties i.2.fields
  fields : FaithfulProps (Faithful L g n) g.properties gv.fields

/-- The library reads back the times and locations which it writes. -/
structure Reliable (L : Lib) : Prop where
  empty : ∀ t, L.formatTime t [] = []
  time : ∀ l s t, L.parseTime l s = some t → L.parseTime l (L.formatTime t l) = some t
  location : ∀ s z, L.loadLocation s = some z → L.loadLocation z = some z

/-- The value `w` is the value or inside of it. -/
inductive Inside (w : Val) : Val → Prop where
  | here : Inside w w
  | item {xs : List Val} {v : Val} : v ∈ xs → Inside w v → Inside w (.list xs)
  | entry {kvs : List (Str × Val)} {k : Str} {v : Val} : (k, v) ∈ kvs → Inside w v → Inside w (.map kvs)
  | field {name : Str} {fields : Fields} {k : Str} {v : Val} : (k, v) ∈ fields → Inside w v →
      Inside w (.obj name fields)

/-- The numbers are finite `float64`s, and no duration is the least one. -/
structure PlainVal (x : Val) : Prop where
  ints : ∀ i : Int, Inside (.int i) x → F64.round i = .fin i
  floats : ∀ f, Inside (.float f) x → ∃ q, f = .fin q
  durations : ∀ d, Inside (.duration d) x → d ≠ minInt64

structure PlainGraph (gv : GraphVal) : Prop where
  registries : ∀ r ∈ gv.registries, ∀ i ∈ r.2, ∀ f ∈ i.2.fields, PlainVal f.2
  fields : ∀ f ∈ gv.fields, PlainVal f.2

end Mapry.GoRuntime.Spec
