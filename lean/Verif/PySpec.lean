import Verif.PyRuntime

/-!
# What it means that a JSONable value describes a Python value

The relation `Reads` is written from the documentation of the schema. It does not mention error
containers, the order of the checks, placeholders or the phases of the parser.

The flag `lax` says if a JSON boolean counts as a number (in Python, `isinstance(True, int)` holds).
-/

namespace Mapry.PyRuntime.Spec

open Mapry.Duration

/-- A number within the bounds. -/
structure Within (b : Bounds) (q : Rat) : Prop where
  lower : ∀ m, b.min = some m → (m : Rat) ≤ q
  lowerStrict : ∀ m, b.min = some m → b.exMin = true → (m : Rat) ≠ q
  upper : ∀ m, b.max = some m → q ≤ (m : Rat)
  upperStrict : ∀ m, b.max = some m → b.exMax = true → q ≠ (m : Rat)

/-- A float within the bounds: infinities have only one bound, and NaN has none. -/
def FloatWithin (b : Bounds) : F64 → Prop
  | .fin q => Within b q
  | .inf false => b.max = none
  | .inf true => b.min = none
  | .nan => b.min = none ∧ b.max = none

/-- The number of a boolean -/
def boolNum (c : Bool) : Int := if c then 1 else 0

/-- The value describes an integer `i` and is kept as it is. -/
inductive IntValue (lax : Bool) : Json → Val → Int → Prop where
  | int (i : Int) : IntValue lax (.int i) (.int i) i
  | bool (c : Bool) : lax = true → IntValue lax (.bool c) (.bool c) (boolNum c)

/-- The text matches the optional pattern. -/
def Matches (L : Lib) (pattern : Option Str) (s : Str) : Prop :=
  ∀ p, pattern = some p → L.reMatch p s = true

/-- Paths are kept as text or as normalised paths. -/
def pathVal (L : Lib) (S : Settings) (s : Str) : Val :=
  if S.pathlib then .path (L.normPath s) else .str s

/-- What describes a property in a JSON object: `null` counts as missing. -/
def present (kvs : List (Str × Json)) (key : Str) : Option Json :=
  match kvs.lookup key with
  | some .null => none
  | r => r

/-- The number of items is allowed. -/
structure SizeWithin (lo hi : Option Int) (n : Nat) : Prop where
  lower : ∀ m, lo = some m → m ≤ n
  upper : ∀ m, hi = some m → (n : Int) ≤ m

variable (lax : Bool) (L : Lib) (S : Settings) (g : Graph) (ids : Str → Str → Prop)

/-- The JSON value `v` describes the value `x` of a type. `ids c id` says that there is an instance of
the class `c` with the identifier `id`; `embed` is the relation for the embeddable structures. -/
def ReadsTy (embed : Str → Json → Val → Prop) : Ty → Json → Val → Prop
  | .boolean, v, x => ∃ c, v = .bool c ∧ x = .bool c
  | .integer b, v, x => ∃ i, IntValue lax v x i ∧ Within b i
  | .float b, v, x =>
    (∃ f, v = .float f ∧ x = .float f ∧ FloatWithin b f) ∨
    (∃ w i q, IntValue lax v w i ∧ x = .float (.fin q) ∧ Within b i ∧ F64.round i = .fin q)
  | .string p, v, x => ∃ s, v = .str s ∧ x = .str s ∧ Matches L p s
  | .path p, v, x => ∃ s, v = .str s ∧ x = pathVal L S s ∧ Matches L p s
  | .date f, v, x => ∃ s d, v = .str s ∧ L.strptime s f = .ok d ∧ x = .date ⟨d.year, d.month, d.day⟩
  | .time f, v, x =>
    ∃ s d, v = .str s ∧ L.strptime s f = .ok d ∧ x = .time ⟨d.hour, d.minute, d.second, d.micro⟩
  | .datetime f, v, x => ∃ s d, v = .str s ∧ L.strptime s f = .ok d ∧ x = .datetime d
  | .timeZone, v, x => ∃ s, v = .str s ∧
    if S.pytz then ∃ z, L.timezone s = some z ∧ x = .zone z else x = .str s
  | .duration, v, x => ∃ s d, v = .str s ∧ pyFromString s = .ok d ∧ x = .duration d
  | .array t lo hi, v, x => ∃ xs vs, v = .arr xs ∧ x = .list vs ∧ SizeWithin lo hi xs.length ∧
    Forall₂ (ReadsTy embed t) xs vs
  | .map t, v, x => ∃ o kvs ws, v = .obj o kvs ∧ x = .map o ws ∧
    Forall₂ (fun kv w => kv.1 = w.1 ∧ ReadsTy embed t kv.2 w.2) kvs ws
  | .cls c, v, x => ∃ id, v = .str id ∧ x = .ref c id ∧ ids c id
  | .embed name, v, x => embed name v x

/-- The entry of a JSON object describes the value `x` of a property: unset if it is missing, which
only an optional property may be. -/
def ReadsProperty (reads : Ty → Json → Val → Prop) (kvs : List (Str × Json)) (p : Property)
    (x : Val) : Prop :=
  match present kvs p.json with
  | none => p.optional = true ∧ x = .none
  | some v => reads p.ty v x

/-- The entries of a JSON object describe the attributes, one for each property. -/
def ReadsProps (reads : Ty → Json → Val → Prop) (kvs : List (Str × Json)) (ps : List Property)
    (attrs : Attrs) : Prop :=
  Forall₂ (fun p a => a.1 = Mapry.lower p.name ∧ ReadsProperty reads kvs p a.2) ps attrs

/-- A JSON object describes an embeddable structure; `n` bounds the number of structures nested in
each other. -/
def ReadsEmbed : Nat → Str → Json → Val → Prop
  | 0, _, _, _ => False
  | n + 1, name, v, x => ∃ e o kvs attrs, g.embed? name = some e ∧ v = .obj o kvs ∧
    x = .obj name attrs ∧ ReadsProps (ReadsTy lax L S ids (ReadsEmbed n)) kvs e.properties attrs

/-- The relation for the values, `n` levels of embeddable structures deep -/
def Reads (n : Nat) : Ty → Json → Val → Prop :=
  ReadsTy lax L S ids (ReadsEmbed lax L S g ids n)

/-- The registry of a class in the JSON object of the graph: the key is the plural in lower case. -/
def registryOf (kvs : List (Str × Json)) (c : Class) : Option Json := kvs.lookup (Mapry.lower c.plural)

/-- The identifiers of the instances described by the JSON object of the graph -/
def Described (kvs : List (Str × Json)) (c id : Str) : Prop :=
  ∃ d ∈ g.classes, d.name = c ∧ ∃ o entries, registryOf kvs d = some (.obj o entries) ∧
    id ∈ entries.map (·.1)

/-- The JSON object of the graph describes the registry of a class: the instances in the same order,
each one under its own identifier which matches the pattern. -/
def ReadsRegistry (n : Nat) (kvs : List (Str × Json)) (c : Class) (r : Registry) : Prop :=
  (registryOf kvs c = none ∧ r = ⟨true, []⟩) ∨
  ∃ o entries, registryOf kvs c = some (.obj o entries) ∧ r.ordered = o ∧
    Forall₂ (fun (e : Str × Json) (i : Str × Instance) =>
      i.1 = e.1 ∧ i.2.id = e.1 ∧ Matches L c.idPattern e.1 ∧
      ∃ o' kvs', e.2 = .obj o' kvs' ∧
        ReadsProps (Reads lax L S g (Described g kvs) n) kvs' c.properties i.2.attrs)
      entries r.instances

/-- A JSON object describes a graph. -/
def ReadsGraph (n : Nat) (v : Json) (gv : GraphVal) : Prop :=
  ∃ o kvs, v = .obj o kvs ∧
    Forall₂ (fun (c : Class) (r : Str × Registry) =>
      r.1 = c.name ∧ ReadsRegistry lax L S g n kvs c r.2) g.classes gv.registries ∧
    ReadsProps (Reads lax L S g (Described g kvs) n) kvs g.properties gv.attrs

/-- The attributes of each composite are distinct (see C23), and so are the names of the classes. -/
structure Distinct : Prop where
  graph : (g.properties.map fun p => Mapry.lower p.name).Nodup
  cls : ∀ c ∈ g.classes, (c.properties.map fun p => Mapry.lower p.name).Nodup
  embed : ∀ e ∈ g.embeds, (e.properties.map fun p => Mapry.lower p.name).Nodup
  names : (g.classes.map (·.name)).Nodup

/-! ## Graphs which satisfy the schema

Independent of any JSON value. The flag `lax` admits booleans as integers; the flag `rounded` admits a
float which is the rounding of an integer beyond 2^53 within the bounds (which may itself be out of
the bounds). -/

/-- A float which the schema allows -/
def FitsFloat (rounded : Bool) (b : Bounds) (f : F64) : Prop :=
  FloatWithin b f ∨
  (rounded = true ∧ ∃ i : Int, 2 ^ 53 < i.natAbs ∧ Within b i ∧ F64.round i = f)

/-- The value satisfies the type. `registered c id` says that an instance of the class `c` is
registered under `id`. A date is allowed if it is what some text means in the format. -/
def FitsTy (rounded : Bool) (registered : Str → Str → Prop) (embed : Str → Val → Prop) :
    Ty → Val → Prop
  | .boolean, x => ∃ c, x = .bool c
  | .integer b, x =>
    (∃ i : Int, x = .int i ∧ Within b i) ∨ (lax = true ∧ ∃ c, x = .bool c ∧ Within b (boolNum c))
  | .float b, x => ∃ f, x = .float f ∧ FitsFloat rounded b f
  | .string p, x => ∃ s, x = .str s ∧ Matches L p s
  | .path p, x => ∃ s, x = pathVal L S s ∧ Matches L p s
  | .date f, x => ∃ s d, L.strptime s f = .ok d ∧ x = .date ⟨d.year, d.month, d.day⟩
  | .time f, x => ∃ s d, L.strptime s f = .ok d ∧ x = .time ⟨d.hour, d.minute, d.second, d.micro⟩
  | .datetime f, x => ∃ s d, L.strptime s f = .ok d ∧ x = .datetime d
  | .timeZone, x => if S.pytz then ∃ s z, L.timezone s = some z ∧ x = .zone z else ∃ s, x = .str s
  | .duration, x => ∃ d, x = .duration d ∧ Timedelta.InRange d
  | .array t lo hi, x => ∃ vs, x = .list vs ∧ SizeWithin lo hi vs.length ∧
    ∀ v ∈ vs, FitsTy rounded registered embed t v
  | .map t, x => ∃ o kvs, x = .map o kvs ∧ ∀ kv ∈ kvs, FitsTy rounded registered embed t kv.2
  | .cls c, x => ∃ id, x = .ref c id ∧ registered c id
  | .embed name, x => embed name x

/-- The attributes satisfy the properties: a required one is set. -/
def FitsProps (fits : Ty → Val → Prop) (ps : List Property) (attrs : Attrs) : Prop :=
  Forall₂ (fun p a => a.1 = Mapry.lower p.name ∧
    ((p.optional = true ∧ a.2 = .none) ∨ fits p.ty a.2)) ps attrs

/-- At most `n` embeddable structures nested in each other -/
def FitsEmbed (rounded : Bool) (registered : Str → Str → Prop) : Nat → Str → Val → Prop
  | 0, _, _ => False
  | n + 1, name, x => ∃ e attrs, g.embed? name = some e ∧ x = .obj name attrs ∧
    FitsProps (FitsTy lax L S rounded registered (FitsEmbed rounded registered n)) e.properties attrs

def Fits (rounded : Bool) (registered : Str → Str → Prop) (n : Nat) : Ty → Val → Prop :=
  FitsTy lax L S rounded registered (FitsEmbed lax L S g rounded registered n)

/-- There is an instance registered under the identifier. -/
def Registered (gv : GraphVal) (c id : Str) : Prop :=
  ∃ r, (c, r) ∈ gv.registries ∧ ∃ i, (id, i) ∈ r.instances

/-- The graph satisfies the schema. -/
structure ValidGraph (rounded : Bool) (n : Nat) (gv : GraphVal) : Prop where
  /-- there is one registry for each class; the instances are registered under their own identifiers,
  which match the pattern, and their attributes satisfy the properties -/
  registries : Forall₂ (fun (c : Class) (r : Str × Registry) => r.1 = c.name ∧
    ∀ i ∈ r.2.instances, i.2.id = i.1 ∧ Matches L c.idPattern i.1 ∧
      FitsProps (Fits lax L S g rounded (Registered gv) n) c.properties i.2.attrs)
    g.classes gv.registries
  /-- the attributes of the graph satisfy its properties -/
  attrs : FitsProps (Fits lax L S g rounded (Registered gv) n) g.properties gv.attrs

/-- A value contained in a JSON value -/
inductive Occurs : Json → Json → Prop where
  | here (v : Json) : Occurs v v
  | item {w x : Json} {xs : List Json} : x ∈ xs → Occurs w x → Occurs w (.arr xs)
  | entry {w x : Json} {k : Str} {o : Bool} {kvs : List (Str × Json)} :
    (k, x) ∈ kvs → Occurs w x → Occurs w (.obj o kvs)

/-- All the integers of the JSON value are exact as floating-point numbers. -/
def SmallInts (v : Json) : Prop := ∀ i : Int, Occurs (.int i) v → i.natAbs ≤ 2 ^ 53

/-! ## Graphs which can be serialized -/

/-- The value is of the kind stated by the annotations of the generated classes; no constraints. -/
def TypedTy (embed : Str → Val → Prop) : Ty → Val → Prop
  | .boolean, x => ∃ c, x = .bool c
  | .integer _, x => (∃ i, x = .int i) ∨ ∃ c, x = .bool c
  | .float _, x => (∃ f, x = .float f) ∨ (∃ i, x = .int i) ∨ ∃ c, x = .bool c
  | .string _, x => ∃ s, x = .str s
  | .path _, x => if S.pathlib then ∃ s, x = .path s else ∃ s, x = .str s
  | .date _, x => ∃ d, x = .date d
  | .time _, x => ∃ t, x = .time t
  | .datetime _, x => ∃ d, x = .datetime d
  | .timeZone, x => if S.pytz then ∃ z, x = .zone z else ∃ s, x = .str s
  | .duration, x => ∃ d, x = .duration d
  | .array t _ _, x => ∃ vs, x = .list vs ∧ ∀ v ∈ vs, TypedTy embed t v
  | .map t, x => ∃ o kvs, x = .map o kvs ∧ ∀ kv ∈ kvs, TypedTy embed t kv.2
  | .cls c, x => ∃ id, x = .ref c id
  | .embed name, x => embed name x

/-- The object has the attribute of every property: the lower case of its name. -/
def TypedProps (typed : Ty → Val → Prop) (ps : List Property) (attrs : Attrs) : Prop :=
  ∀ p ∈ ps, ∃ x, attrs.lookup (Mapry.lower p.name) = some x ∧
    ((p.optional = true ∧ x = .none) ∨ typed p.ty x)

def TypedEmbed : Nat → Str → Val → Prop
  | 0, _, _ => False
  | n + 1, name, x => ∃ e attrs, g.embed? name = some e ∧ x = .obj name attrs ∧
    TypedProps (TypedTy S (TypedEmbed n)) e.properties attrs

def Typed (n : Nat) : Ty → Val → Prop := TypedTy S (TypedEmbed S g n)

/-- There is a registry for every class, and the objects have their attributes. -/
structure TypedGraph (n : Nat) (gv : GraphVal) : Prop where
  registries : ∀ c ∈ g.classes, ∃ r, gv.registries.lookup c.name = some r ∧
    ∀ i ∈ r.instances, TypedProps (Typed S g n) c.properties i.2.attrs
  attrs : TypedProps (Typed S g n) g.properties gv.attrs

/-- An instance registered under an identifier which is not its own -/
def Misregistered (gv : GraphVal) : Prop :=
  ∃ c ∈ g.classes, ∃ r, gv.registries.lookup c.name = some r ∧ ∃ i ∈ r.instances, i.1 ≠ i.2.id

/-- The names of the properties of classes and embeddable structures are in lower case. -/
structure LowerNames : Prop where
  cls : ∀ c ∈ g.classes, ∀ p ∈ c.properties, Mapry.lower p.name = p.name
  embed : ∀ e ∈ g.embeds, ∀ p ∈ e.properties, Mapry.lower p.name = p.name

/-- No datum overwrites another one in the JSON representation. -/
structure JsonKeys : Prop where
  graph : (g.properties.map (·.json) ++ g.classes.map fun c => Mapry.lower c.plural).Nodup
  cls : ∀ c ∈ g.classes, (c.properties.map (·.json)).Nodup
  embed : ∀ e ∈ g.embeds, (e.properties.map (·.json)).Nodup

/-- The library reads back what it writes for the values of dates, times, paths and time zones. -/
def FaithfulTy (embed : Str → Val → Prop) : Ty → Val → Prop
  | .path p, x => ∀ s, x = .path s → L.normPath s = s ∧ Matches L p s
  | .date f, x => ∀ d, x = .date d →
    ∃ d', L.strptime (L.strftime ⟨d.year, d.month, d.day, 0, 0, 0, 0, none⟩ f) f = .ok d' ∧
      d'.year = d.year ∧ d'.month = d.month ∧ d'.day = d.day
  | .time f, x => ∀ t, x = .time t →
    ∃ d', L.strptime (L.strftime ⟨1900, 1, 1, t.hour, t.minute, t.second, t.micro, none⟩ f) f = .ok d' ∧
      d'.hour = t.hour ∧ d'.minute = t.minute ∧ d'.second = t.second ∧ d'.micro = t.micro
  | .datetime f, x => ∀ d, x = .datetime d → L.strptime (L.strftime d f) f = .ok d
  | .timeZone, x => ∀ z, x = .zone z → L.timezone z = some z
  | .array t _ _, x => ∀ vs, x = .list vs → ∀ v ∈ vs, FaithfulTy embed t v
  | .map t, x => ∀ o kvs, x = .map o kvs → ∀ kv ∈ kvs, FaithfulTy embed t kv.2
  | .embed name, x => embed name x
  | _, _ => True

/-- All the values of the attributes -/
def FaithfulProps (faithful : Ty → Val → Prop) (ps : List Property) (attrs : Attrs) : Prop :=
  ∀ p ∈ ps, ∀ x, attrs.lookup (Mapry.lower p.name) = some x → x ≠ .none → faithful p.ty x

def FaithfulEmbed : Nat → Str → Val → Prop
  | 0, _, _ => True
  | n + 1, name, x => ∀ e attrs, g.embed? name = some e → x = .obj name attrs →
    FaithfulProps (FaithfulTy L (FaithfulEmbed n)) e.properties attrs

def Faithful (n : Nat) : Ty → Val → Prop := FaithfulTy L (FaithfulEmbed L g n)

structure FaithfulGraph (n : Nat) (gv : GraphVal) : Prop where
  registries : ∀ c ∈ g.classes, ∀ r, gv.registries.lookup c.name = some r →
    ∀ i ∈ r.instances, FaithfulProps (Faithful L g n) c.properties i.2.attrs
  attrs : FaithfulProps (Faithful L g n) g.properties gv.attrs

/-- The graph with registries of the given kind; an empty registry is not serialized, and the parser
makes an ordered one. -/
def withOrdered (ordered : Bool) (gv : GraphVal) : GraphVal where
  attrs := gv.attrs
  registries := gv.registries.map fun (k, r) =>
    (k, ⟨if r.instances = [] then true else ordered, r.instances⟩)

/-! ## Faults

Where an input violates the schema: `Fault … r` says that there is a violation to be reported as `r`.
A list of a wrong size and an object which is none are one violation each. -/

/-- The reference to the violation and, if a property is missing, its key in the JSON object -/
abbrev Report := Str × Option Str

/-- The key of the missing property named by a message -/
def missingOf (message : Str) : Option Str :=
  if message.take 21 = c!"Property is missing: " then some (message.drop 21) else none

/-- What an error reports -/
def report (e : Err) : Report := (e.ref, missingOf e.message)

/-- The reference to a part -/
def part (ref name : Str) : Str := ref ++ '/' :: name

def FaultTy (embed : Str → Json → Str → Report → Prop) : Ty → Json → Str → Report → Prop
  | .array t lo hi, v, ref, r =>
    ((¬ ∃ xs, v = .arr xs ∧ SizeWithin lo hi xs.length) ∧ r = (ref, none)) ∨
    ∃ xs, v = .arr xs ∧ SizeWithin lo hi xs.length ∧
      ∃ i x, xs[i]? = some x ∧ FaultTy embed t x (part ref (Text.natStr i)) r
  | .map t, v, ref, r =>
    ((¬ ∃ o kvs, v = .obj o kvs) ∧ r = (ref, none)) ∨
    ∃ o kvs, v = .obj o kvs ∧ ∃ kv ∈ kvs, FaultTy embed t kv.2 (part ref (L.repr kv.1)) r
  | .embed name, v, ref, r => embed name v ref r
  | t, v, ref, r => (¬ ∃ x, ReadsTy true L S ids (fun _ _ _ => False) t v x) ∧ r = (ref, none)

/-- A property is missing although it is required, or there is a fault in its value. -/
def FaultProps (fault : Ty → Json → Str → Report → Prop) (kvs : List (Str × Json)) (ps : List Property)
    (ref : Str) (r : Report) : Prop :=
  ∃ p ∈ ps, (present kvs p.json = none ∧ p.optional = false ∧ r = (ref, some p.json)) ∨
    ∃ v, present kvs p.json = some v ∧ fault p.ty v (part ref p.json) r

def FaultComposite (fault : Ty → Json → Str → Report → Prop) (ps : List Property) (v : Json) (ref : Str) (r : Report) :
    Prop :=
  ((¬ ∃ o kvs, v = .obj o kvs) ∧ r = (ref, none)) ∨ ∃ o kvs, v = .obj o kvs ∧ FaultProps fault kvs ps ref r

def FaultEmbed : Nat → Str → Json → Str → Report → Prop
  | 0, _, _, _, _ => False
  | n + 1, name, v, ref, r => ∃ e, g.embed? name = some e ∧
    FaultComposite (FaultTy L S ids (FaultEmbed n)) e.properties v ref r

/-- A registry is no object, or one of its identifiers does not match the pattern. -/
def RegistryFault (kvs : List (Str × Json)) (ref : Str) (r : Report) : Prop :=
  ∃ c ∈ g.classes, r = (part ref (Mapry.lower c.plural), none) ∧
    ∃ v, present kvs (Mapry.lower c.plural) = some v ∧
      ((¬ ∃ o entries, v = .obj o entries) ∨
       ∃ o entries, v = .obj o entries ∧ ∃ e ∈ entries, ¬ Matches L c.idPattern e.1)

/-- A fault in an instance or in a property of the graph -/
def ContentFault (n : Nat) (kvs : List (Str × Json)) (ref : Str) (r : Report) : Prop :=
  (∃ c ∈ g.classes, ∃ o entries, registryOf kvs c = some (.obj o entries) ∧ ∃ e ∈ entries,
    FaultComposite (FaultTy L S (Described g kvs) (FaultEmbed L S g (Described g kvs) n)) c.properties e.2
      (part (part ref (Mapry.lower c.plural)) (L.repr e.1)) r) ∨
  FaultProps (FaultTy L S (Described g kvs) (FaultEmbed L S g (Described g kvs) n)) kvs g.properties ref r

/-- The faults of the input. The ones of the registries are critical: the contents are not looked at. -/
def FaultGraph (n : Nat) (v : Json) (ref : Str) (r : Report) : Prop :=
  ((¬ ∃ o kvs, v = .obj o kvs) ∧ r = (ref, none)) ∨
  ∃ o kvs, v = .obj o kvs ∧ (RegistryFault L g kvs ref r ∨
    ((∀ r', ¬ RegistryFault L g kvs ref r') ∧ ContentFault L S g n kvs ref r))

/-! ## Inputs which cannot make the parser raise -/

/-- No braces -/
def NoBraces (s : Str) : Prop := '{' ∉ s ∧ '}' ∉ s

/-- No braces in patterns and formats; the embeddable structures are defined. -/
def TameTy : Ty → Prop
  | .string p | .path p => ∀ s, p = some s → NoBraces s
  | .date f | .time f | .datetime f => NoBraces f
  | .array t _ _ => TameTy t
  | .map t => TameTy t
  | .embed name => ∃ e, g.embed? name = some e
  | _ => True

structure TameGraph : Prop where
  graph : ∀ p ∈ g.properties, TameTy g p.ty
  cls : ∀ c ∈ g.classes, ∀ p ∈ c.properties, TameTy g p.ty
  embed : ∀ e ∈ g.embeds, ∀ p ∈ e.properties, TameTy g p.ty

/-- At most `n` objects nested in each other -/
inductive DepthLe : Nat → Json → Prop where
  | null (n : Nat) : DepthLe n .null
  | bool (n : Nat) (b : Bool) : DepthLe n (.bool b)
  | int (n : Nat) (i : Int) : DepthLe n (.int i)
  | float (n : Nat) (f : F64) : DepthLe n (.float f)
  | str (n : Nat) (s : Str) : DepthLe n (.str s)
  | arr (n : Nat) (xs : List Json) : (∀ x ∈ xs, DepthLe n x) → DepthLe n (.arr xs)
  | obj (n : Nat) (o : Bool) (kvs : List (Str × Json)) : (∀ kv ∈ kvs, DepthLe n kv.2) → DepthLe (n + 1) (.obj o kvs)

/-- Every integer of the input is within the range of a float. -/
def FloatInts (v : Json) : Prop := ∀ i : Int, Occurs (.int i) v → ∃ q, F64.round i = .fin q

/-- `strptime` raises nothing but `ValueError`. -/
def TameLib : Prop := ∀ s f x, L.strptime s f = .error x → ∃ m, x = .valueError m

end Mapry.PyRuntime.Spec
