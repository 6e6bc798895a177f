import Verif.CppRuntime
import Verif.PySpec

/-!
# What it means that a `Json::Value` describes a C++ value

The relation `Reads` is written from the documentation of the schema. It does not mention error
containers, the order of the checks, targets or the phases of the parser.
-/

namespace Mapry.CppRuntime.Spec

open Mapry.Duration
open Mapry.PyRuntime.Spec (Within FloatWithin SizeWithin)

/-- The text matches the optional pattern. -/
def Matches (L : Lib) (pattern : Option Str) (s : Str) : Prop :=
  ∀ p, pattern = some p → L.regexMatch p s = true

/-- The number is written as an integer or as a real. -/
def IsInteger (v : JVal) (i : Int) : Prop :=
  v = .int i ∨ (∃ n : Nat, v = .uint n ∧ i = n) ∨ v = .real (.fin i)

/-- The number, rounded to a double -/
def IsDouble (v : JVal) (f : F64) : Prop :=
  (∃ i : Int, v = .int i ∧ f = F64.round i) ∨ (∃ n : Nat, v = .uint n ∧ f = F64.round (n : Int)) ∨
    v = .real f

/-- What a text means in a format. -/
abbrev Meaning := TimeKind → Str → Str → Time → Prop

/-- The whole text is a time in the format. -/
def Whole (D : DateLib) (L : Lib) : Meaning := fun k f s t =>
  match D with
  | .ctime => Char.ofNat 0 ∉ s ∧ L.strptime f s = some (t, [])
  | .dateH => L.dateParse k f s = some (t, [])

/-- The text is a time in the format up to the first NUL; with `date.h`, a time followed by anything. -/
def Loose (D : DateLib) (L : Lib) : Meaning := fun k f s t =>
  match D with
  | .ctime => ∃ s' rest, s = s' ++ rest ∧ Char.ofNat 0 ∉ s' ∧ (rest = [] ∨ rest.head? = some (Char.ofNat 0)) ∧
    L.strptime f s' = some (t, [])
  | .dateH => ∃ rest, L.dateParse k f s = some (t, rest)

/-- With `ctime` a time zone is any text, with `date.h` it has to be found. -/
def IsZone (D : DateLib) (L : Lib) (s z : Str) : Prop :=
  match D with
  | .ctime => z = s
  | .dateH => L.locateZone s = some z

section

variable (D : DateLib) (L : Lib) (M : Meaning) (g : Graph) (ids : Str → Str → Prop)

/-- The JSON value `v` describes the value `x` of a type. `ids c id` says that there is an instance of
the class `c` with the identifier `id`; `embed` is the relation for the embeddable structures. -/
def ReadsTy (embed : Str → JVal → Val → Prop) : Ty → JVal → Val → Prop
  | .boolean, v, x => ∃ c, v = .bool c ∧ x = .bool c
  | .integer b, v, x => ∃ i : Int, IsInteger v i ∧ x = .int i ∧ IsInt64 i ∧ Within b i
  | .float b, v, x => ∃ f, IsDouble v f ∧ x = .float f ∧ FloatWithin b f
  | .string p, v, x => ∃ s, v = .str s ∧ x = .str s ∧ Matches L p s
  | .path p, v, x => ∃ s, v = .str s ∧ x = .str s ∧ Matches L p s
  | .date f, v, x => ∃ s t, v = .str s ∧ M .date f s t ∧ x = .time t
  | .time f, v, x => ∃ s t, v = .str s ∧ M .time f s t ∧ x = .time t
  | .datetime f, v, x => ∃ s t, v = .str s ∧ M .datetime f s t ∧ x = .time t
  | .timeZone, v, x => ∃ s z, v = .str s ∧ IsZone D L s z ∧ x = .zone z
  | .duration, v, x => ∃ s d, v = .str s ∧ cppFromString false s = .value d ∧ x = .duration d
  | .array t lo hi, v, x => ∃ xs vs, v = .arr xs ∧ x = .list vs ∧ SizeWithin lo hi xs.length ∧
    Forall₂ (ReadsTy embed t) xs vs
  | .map t, v, x => ∃ kvs ws, v = .obj kvs ∧ x = .map ws ∧
    Forall₂ (fun kv w => kv.1 = w.1 ∧ ReadsTy embed t kv.2 w.2) kvs ws
  | .cls c, v, x => ∃ id, v = .str id ∧ x = .ref c id ∧ ids c id
  | .embed name, v, x => embed name v x

/-- The member of a JSON object describes the value `x` of a property: unset if it is missing, which
only an optional property may be. -/
def ReadsProperty (reads : Ty → JVal → Val → Prop) (kvs : List (Str × JVal)) (p : Property)
    (x : Val) : Prop :=
  match kvs.lookup p.json with
  | none => p.optional = true ∧ x = .nil
  | some v => reads p.ty v x

/-- The members of a JSON object describe the fields, one for each property. -/
def ReadsProps (reads : Ty → JVal → Val → Prop) (kvs : List (Str × JVal)) (ps : List Property)
    (fields : Fields) : Prop :=
  Forall₂ (fun p f => f.1 = p.name ∧ ReadsProperty reads kvs p f.2) ps fields

/-- A JSON object describes an embeddable structure; `n` bounds the number of structures nested in
each other. -/
def ReadsEmbed : Nat → Str → JVal → Val → Prop
  | 0, _, _, _ => False
  | n + 1, name, v, x => ∃ e kvs fields, g.embed? name = some e ∧ v = .obj kvs ∧
    x = .obj name fields ∧ ReadsProps (ReadsTy D L M ids (ReadsEmbed n)) kvs e.properties fields

/-- The relation for the values, `n` levels of embeddable structures deep -/
def Reads (n : Nat) : Ty → JVal → Val → Prop := ReadsTy D L M ids (ReadsEmbed D L M g ids n)

/-- The registry of a class in the JSON object of the graph: the key is the plural in lower case. -/
def registryOf (kvs : List (Str × JVal)) (c : Class) : Option JVal := kvs.lookup (Mapry.lower c.plural)

/-- The identifiers of the instances described by the JSON object of the graph -/
def Described (kvs : List (Str × JVal)) (c id : Str) : Prop :=
  ∃ d ∈ g.classes, d.name = c ∧ ∃ entries, registryOf kvs d = some (.obj entries) ∧
    id ∈ entries.map (·.1)

/-- The JSON value describes an instance of a class under the identifier. -/
def ReadsInstance (reads : Ty → JVal → Val → Prop) (c : Class) (e : Str × JVal) (i : Str × Instance) :
    Prop :=
  i.1 = e.1 ∧ i.2.id = e.1 ∧ Matches L c.idPattern e.1 ∧
    ∃ kvs, e.2 = .obj kvs ∧ ReadsProps reads kvs c.properties i.2.fields

/-- The JSON object of the graph describes the registry of a class: the instances under their own
identifiers which match the pattern. -/
def ReadsRegistry (n : Nat) (kvs : List (Str × JVal)) (c : Class) (r : GoMap Instance) : Prop :=
  (registryOf kvs c = none ∧ r = []) ∨
  ∃ entries, registryOf kvs c = some (.obj entries) ∧
    Forall₂ (ReadsInstance L (Reads D L M g (Described g kvs) n) c) entries r

/-- A JSON object describes a graph. -/
def ReadsGraph (n : Nat) (v : JVal) (gv : GraphVal) : Prop :=
  ∃ kvs, v = .obj kvs ∧
    Forall₂ (fun (c : Class) (r : Str × GoMap Instance) =>
      r.1 = c.name ∧ ReadsRegistry D L M g n kvs c r.2) g.classes gv.registries ∧
    ReadsProps (Reads D L M g (Described g kvs) n) kvs g.properties gv.fields

end

/-- A `Json::Value`: the members of every object are in ascending order, the integers have 64 bits. -/
inductive Canon : JVal → Prop where
  | null : Canon .null
  | bool (b : Bool) : Canon (.bool b)
  | int (i : Int) : IsInt64 i → Canon (.int i)
  | uint (n : Nat) : Canon (.uint n)
  | real (f : F64) : Canon (.real f)
  | str (s : Str) : Canon (.str s)
  | arr (xs : List JVal) : (∀ x ∈ xs, Canon x) → Canon (.arr xs)
  | obj (kvs : GoMap JVal) : GoMap.Ascending kvs → (∀ kv ∈ kvs, Canon kv.2) → Canon (.obj kvs)

/-- The value `w` is the value or inside of it. -/
inductive InsideJ (w : JVal) : JVal → Prop where
  | here : InsideJ w w
  | item {xs : List JVal} {v : JVal} : v ∈ xs → InsideJ w v → InsideJ w (.arr xs)
  | entry {kvs : List (Str × JVal)} {kv : Str × JVal} : kv ∈ kvs → InsideJ w kv.2 → InsideJ w (.obj kvs)

/-- At most `n` objects nested in each other -/
inductive DepthLe : Nat → JVal → Prop where
  | null (n : Nat) : DepthLe n .null
  | bool (n : Nat) (b : Bool) : DepthLe n (.bool b)
  | int (n : Nat) (i : Int) : DepthLe n (.int i)
  | uint (n : Nat) (i : Nat) : DepthLe n (.uint i)
  | real (n : Nat) (f : F64) : DepthLe n (.real f)
  | str (n : Nat) (s : Str) : DepthLe n (.str s)
  | arr (n : Nat) (xs : List JVal) : (∀ x ∈ xs, DepthLe n x) → DepthLe n (.arr xs)
  | obj (n : Nat) (kvs : List (Str × JVal)) : (∀ kv ∈ kvs, DepthLe n kv.2) → DepthLe (n + 1) (.obj kvs)

variable (g : Graph)

/-- A composite can be compiled: the field named in the parser is the declared one, and the fields are
distinct. -/
structure FieldsOk (ps : List Property) : Prop where
  lower : ∀ p ∈ ps, Mapry.lower p.name = p.name
  nodup : (ps.map (·.name)).Nodup

/-- All the composites can be compiled, and the names of the classes are distinct. -/
structure Compiles : Prop where
  graph : FieldsOk g.properties
  cls : ∀ c ∈ g.classes, FieldsOk c.properties
  embed : ∀ e ∈ g.embeds, FieldsOk e.properties
  names : (g.classes.map (·.name)).Nodup

/-- The bounds are exact as doubles. -/
def ExactBounds (b : Bounds) : Prop :=
  (∀ m, b.min = some m → F64.round m = .fin m) ∧ (∀ m, b.max = some m → F64.round m = .fin m)

/-- The bounds of the floats are exact; the embeddable structures are defined. -/
def SoundTy : Ty → Prop
  | .float b => ExactBounds b
  | .array t _ _ => SoundTy t
  | .map t => SoundTy t
  | .embed name => ∃ e, g.embed? name = some e
  | _ => True

structure SoundGraph : Prop where
  graph : ∀ p ∈ g.properties, SoundTy g p.ty
  cls : ∀ c ∈ g.classes, ∀ p ∈ c.properties, SoundTy g p.ty
  embed : ∀ e ∈ g.embeds, ∀ p ∈ e.properties, SoundTy g p.ty

/-- The variable `overflows` happens to be false whenever a duration is read. -/
def NoGarbage (L : Lib) : Prop := ∀ s, L.garbage s = false

/-! ## Targets which do not show in the result -/

/-- All the maps in the value are empty, and so are all the optional properties of the structures in it. -/
def CleanTy (embed : Str → Val → Prop) : Ty → Val → Prop
  | .array t _ _, x => ∀ vs, x = .list vs → ∀ v ∈ vs, CleanTy embed t v
  | .map _, x => ∀ kvs, x = .map kvs → kvs = []
  | .embed name, x => embed name x
  | _, _ => True

/-- The fields are there, the optional ones are empty. -/
def CleanProps (clean : Ty → Val → Prop) (ps : List Property) (fields : Fields) : Prop :=
  Forall₂ (fun p f => f.1 = p.name ∧ (p.optional = true → f.2 = .nil) ∧ (p.optional = false → clean p.ty f.2))
    ps fields

def CleanEmbed : Nat → Str → Val → Prop
  | 0, _, _ => True
  | n + 1, name, x => ∀ e, g.embed? name = some e → ∀ k fields, x = .obj k fields →
    CleanProps (CleanTy (CleanEmbed n)) e.properties fields

/-- `n` levels of embeddable structures deep -/
def Clean (n : Nat) : Ty → Val → Prop := CleanTy (CleanEmbed g n)

/-- The registries of the graph are empty as well. -/
structure CleanGraph (n : Nat) (gv : GraphVal) : Prop where
  registries : gv.registries = g.classes.map fun c => (c.name, [])
  fields : CleanProps (Clean g n) g.properties gv.fields

/-! ## Graphs which satisfy the schema -/

section

variable (D : DateLib) (L : Lib)

/-- The value satisfies the type. `registered c id` says that an instance of the class `c` is
registered under `id`. A time or a time zone is allowed if it is what some text means. -/
def FitsTy (registered : Str → Str → Prop) (embed : Str → Val → Prop) : Ty → Val → Prop
  | .boolean, x => ∃ c, x = .bool c
  | .integer b, x => ∃ i : Int, x = .int i ∧ IsInt64 i ∧ Within b i
  | .float b, x => ∃ f, x = .float f ∧ FloatWithin b f
  | .string p, x => ∃ s, x = .str s ∧ Matches L p s
  | .path p, x => ∃ s, x = .str s ∧ Matches L p s
  | .date f, x => ∃ s t, Loose D L .date f s t ∧ x = .time t
  | .time f, x => ∃ s t, Loose D L .time f s t ∧ x = .time t
  | .datetime f, x => ∃ s t, Loose D L .datetime f s t ∧ x = .time t
  | .timeZone, x => ∃ s z, IsZone D L s z ∧ x = .zone z
  | .duration, x => ∃ d, x = .duration d ∧ IsInt64 d
  | .array t lo hi, x => ∃ vs, x = .list vs ∧ SizeWithin lo hi vs.length ∧
    ∀ v ∈ vs, FitsTy registered embed t v
  | .map t, x => ∃ kvs, x = .map kvs ∧ GoMap.Ascending kvs ∧ ∀ kv ∈ kvs, FitsTy registered embed t kv.2
  | .cls c, x => ∃ id, x = .ref c id ∧ registered c id
  | .embed name, x => embed name x

/-- The fields satisfy the properties: a required one is set. -/
def FitsProps (fits : Ty → Val → Prop) (ps : List Property) (fields : Fields) : Prop :=
  Forall₂ (fun p f => f.1 = p.name ∧ ((p.optional = true ∧ f.2 = .nil) ∨ fits p.ty f.2)) ps fields

/-- At most `n` embeddable structures nested in each other -/
def FitsEmbed (registered : Str → Str → Prop) : Nat → Str → Val → Prop
  | 0, _, _ => False
  | n + 1, name, x => ∃ e fields, g.embed? name = some e ∧ x = .obj name fields ∧
    FitsProps (FitsTy D L registered (FitsEmbed registered n)) e.properties fields

def Fits (registered : Str → Str → Prop) (n : Nat) : Ty → Val → Prop :=
  FitsTy D L registered (FitsEmbed g D L registered n)

/-- There is an instance registered under the identifier. -/
def Registered (gv : GraphVal) (c id : Str) : Prop :=
  ∃ r, (c, r) ∈ gv.registries ∧ ∃ i, (id, i) ∈ r

/-- The graph satisfies the schema. -/
structure ValidGraph (n : Nat) (gv : GraphVal) : Prop where
  /-- there is one registry for each class; the instances are registered under their own identifiers,
  which match the pattern, and their fields satisfy the properties -/
  registries : Forall₂ (fun (c : Class) (r : Str × GoMap Instance) => r.1 = c.name ∧
    GoMap.Ascending r.2 ∧ ∀ i ∈ r.2, i.2.id = i.1 ∧ Matches L c.idPattern i.1 ∧
      FitsProps (Fits g D L (Registered gv) n) c.properties i.2.fields) g.classes gv.registries
  /-- the fields of the graph satisfy its properties -/
  fields : FitsProps (Fits g D L (Registered gv) n) g.properties gv.fields

/-! ## Serializing -/

/-- No datum overwrites another one in the JSON representation. -/
structure JsonKeys : Prop where
  graph : (g.properties.map (·.json) ++ g.classes.map fun c => Mapry.lower c.plural).Nodup
  cls : ∀ c ∈ g.classes, (c.properties.map (·.json)).Nodup
  embed : ∀ e ∈ g.embeds, (e.properties.map (·.json)).Nodup

/-- The number of bytes of the text in UTF-8 -/
def bytes (s : Str) : Nat := (s.map Char.utf8Size).sum

/-- The text of a time. With `ctime` it is not empty (unless the format is) and shorter than four times
the format. -/
def TextOf (k : TimeKind) (f : Str) (t : Time) (s : Str) : Prop :=
  (f = [] ∧ s = []) ∨ (f ≠ [] ∧ match D with
    | .ctime => s = L.strftime f t ∧ s ≠ [] ∧ bytes s < 4 * bytes f
    | .dateH => s = L.dateFormat k f t)

/-- The time has a text which means the time. -/
def ReadsBack (k : TimeKind) (f : Str) (t : Time) : Prop := ∃ s, TextOf D L k f t s ∧ Loose D L k f s t

/-- At least one property is set. -/
def SomeSet (ps : List Property) (fields : Fields) : Prop :=
  ∃ p ∈ ps, ∃ x, fields.lookup p.name = some x ∧ ¬ (p.optional = true ∧ x = .nil)

/-- What survives serializing: the durations are not the least one, the library reads back what it writes,
and in every structure (with properties) something is set. -/
def FaithfulTy (embed : Str → Val → Prop) : Ty → Val → Prop
  | .date f, x => ∀ t, x = .time t → ReadsBack D L .date f t
  | .time f, x => ∀ t, x = .time t → ReadsBack D L .time f t
  | .datetime f, x => ∀ t, x = .time t → ReadsBack D L .datetime f t
  | .timeZone, x => ∀ z, x = .zone z → IsZone D L z z
  | .duration, x => ∀ d, x = .duration d → d ≠ minInt64
  | .array t _ _, x => ∀ vs, x = .list vs → ∀ v ∈ vs, FaithfulTy embed t v
  | .map t, x => ∀ kvs, x = .map kvs → ∀ kv ∈ kvs, FaithfulTy embed t kv.2
  | .embed name, x => embed name x
  | _, _ => True

/-- All the values of the fields -/
def FaithfulProps (faithful : Ty → Val → Prop) (ps : List Property) (fields : Fields) : Prop :=
  ∀ p ∈ ps, ∀ x, fields.lookup p.name = some x → faithful p.ty x

/-- A class or an embeddable structure -/
def FaithfulComposite (faithful : Ty → Val → Prop) (ps : List Property) (fields : Fields) : Prop :=
  FaithfulProps faithful ps fields ∧ (ps = [] ∨ SomeSet ps fields)

def FaithfulEmbed : Nat → Str → Val → Prop
  | 0, _, _ => True
  | n + 1, name, x => ∀ e fields, g.embed? name = some e → x = .obj name fields →
    FaithfulComposite (FaithfulTy D L (FaithfulEmbed n)) e.properties fields

def Faithful (n : Nat) : Ty → Val → Prop := FaithfulTy D L (FaithfulEmbed g D L n)

structure FaithfulGraph (n : Nat) (gv : GraphVal) : Prop where
  registries : ∀ c ∈ g.classes, ∀ r, gv.registries.lookup c.name = some r →
    ∀ i ∈ r, FaithfulComposite (Faithful g D L n) c.properties i.2.fields
  fields : FaithfulProps (Faithful g D L n) g.properties gv.fields
  /-- the graph is not empty, or nothing can be in it -/
  shown : (g.properties = [] ∧ g.classes = []) ∨ SomeSet g.properties gv.fields ∨
    ∃ c ∈ g.classes, ∃ r, gv.registries.lookup c.name = some r ∧ r ≠ []

end

end Mapry.CppRuntime.Spec
