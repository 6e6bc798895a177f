import Verif.Schema
import Verif.PyRuntime

/-!
# What a schema mapping says

Specification for the properties of the schema validation and parsing, independent of both models: what the
definitions in a JSON mapping are, which numbers they allow and which schema they describe
(`/repo/docs/source/schema.rst`).
-/

namespace Mapry.SchemaSpec

open Mapry.PyRuntime (Json)

/-- The value at the key of a JSON object -/
def field : Json → Str → Option Json
  | .obj _ kvs, k => kvs.lookup k
  | _, _ => none

/-- The type named by a definition -/
def HasType (j : Json) (t : Str) : Prop := field j c!"type" = some (.str t)

/-- The definition `w` is the definition `j` itself or nested in it by arrays and maps. -/
inductive Nested : Json → Json → Prop where
  | self (j : Json) : Nested j j
  | values {j v w : Json} : HasType j c!"array" ∨ HasType j c!"map" → field j c!"values" = some v →
      Nested v w → Nested j w

/-- The JSON values of an array of the mapping -/
def members (mapping : Json) (key : Str) : List Json :=
  match field mapping key with
  | some (.arr xs) => xs
  | _ => []

/-- The graph itself, a class or an embeddable structure -/
def IsComposite (mapping c : Json) : Prop :=
  c = mapping ∨ c ∈ members mapping c!"classes" ∨ c ∈ members mapping c!"embeds"

/-- A property of the composite -/
def IsProperty (c : Json) (name : Str) (p : Json) : Prop :=
  ∃ ordered kvs, field c c!"properties" = some (.obj ordered kvs) ∧ (name, p) ∈ kvs

/-- A definition of a type anywhere in the schema -/
def Within (mapping w : Json) : Prop :=
  ∃ c name p, IsComposite mapping c ∧ IsProperty c name p ∧ Nested p w

/-- The exact value of a finite JSON number -/
inductive Value : Json → Rat → Prop where
  | int (i : Int) : Value (.int i) i
  | float (q : Rat) : Value (.float (.fin q)) q

/-- The flag of a definition, absent means false -/
def Flag (j : Json) (key : Str) (b : Bool) : Prop :=
  field j key = some (.bool b) ∨ (field j key = none ∧ b = false)

/-- The order of the numbers with both infinities; NaN is not comparable. -/
inductive Le : F64 → F64 → Prop where
  | fin {a b : Rat} : a ≤ b → Le (.fin a) (.fin b)
  | bot {b : F64} : b ≠ .nan → Le (.inf true) b
  | top {a : F64} : a ≠ .nan → Le a (.inf false)

def Lt (a b : F64) : Prop := Le a b ∧ ¬ Le b a

/-- The value of any JSON number; Python also reads `NaN`, `Infinity` and numbers too large for a float. -/
inductive Number : Json → F64 → Prop where
  | int (i : Int) : Number (.int i) (.fin i)
  | float (f : F64) : Number (.float f) f

/-- `x` is within the bounds written in the definition. -/
structure InRange (j : Json) (x : F64) : Prop where
  min : ∀ v a, field j c!"minimum" = some v → Number v a → Le a x ∧ (Flag j c!"exclusive_minimum" true → Lt a x)
  max : ∀ v a, field j c!"maximum" = some v → Number v a → Le x a ∧ (Flag j c!"exclusive_maximum" true → Lt x a)

/-- A number of elements is within the sizes written in the definition. -/
structure InSizes (j : Json) (n : Nat) : Prop where
  min : ∀ v q, field j c!"minimum_size" = some v → Value v q → q ≤ n
  max : ∀ v q, field j c!"maximum_size" = some v → Value v q → n ≤ q

/-- An optional whole number of the definition -/
inductive Limit (j : Json) (key : Str) : Option Int → Prop where
  | absent : field j key = none → Limit j key none
  | present {v : Json} {i : Int} : field j key = some v → Value v i → Limit j key (some i)

/-- An optional text of the definition -/
inductive Text (j : Json) (key : Str) : Option Str → Prop where
  | absent : field j key = none → Text j key none
  | present {s : Str} : field j key = some (.str s) → Text j key (some s)

/-- A text of the definition with a default -/
def TextOr (j : Json) (key default s : Str) : Prop := ∃ o, Text j key o ∧ o.getD default = s

/-- The bounds written in the definition -/
structure BoundsOf (j : Json) (b : Bounds) : Prop where
  min : Limit j c!"minimum" b.min
  exMin : Flag j c!"exclusive_minimum" b.exMin
  max : Limit j c!"maximum" b.max
  exMax : Flag j c!"exclusive_maximum" b.exMax

/-- The integer `i` is the number `q` without its fractional part. -/
structure IntegralPart (q : Rat) (i : Int) : Prop where
  nonneg : 0 ≤ q → 0 ≤ i ∧ (i : Rat) ≤ q ∧ q < i + 1
  neg : q < 0 → i ≤ 0 ∧ q ≤ i ∧ (i : Rat) - 1 < q

/-- An optional number of the definition without its fractional part -/
inductive CutLimit (j : Json) (key : Str) : Option Int → Prop where
  | absent : field j key = none → CutLimit j key none
  | present {v : Json} {q : Rat} {i : Int} : field j key = some v → Value v q → IntegralPart q i →
      CutLimit j key (some i)

/-- The bounds written in the definition without their fractional parts -/
structure CutBoundsOf (j : Json) (b : Bounds) : Prop where
  min : CutLimit j c!"minimum" b.min
  exMin : Flag j c!"exclusive_minimum" b.exMin
  max : CutLimit j c!"maximum" b.max
  exMax : Flag j c!"exclusive_maximum" b.exMax

/-! The relation `fl` gives the bounds of the floats: `BoundsOf` or `CutBoundsOf`. -/

/-- The type which a definition describes -/
inductive TypeOf (fl : Json → Bounds → Prop) (classes embeds : List Str) : Json → Ty → Prop where
  | boolean {j} : HasType j c!"boolean" → TypeOf fl classes embeds j .boolean
  | integer {j b} : HasType j c!"integer" → BoundsOf j b → TypeOf fl classes embeds j (.integer b)
  | float {j b} : HasType j c!"float" → fl j b → TypeOf fl classes embeds j (.float b)
  | string {j p} : HasType j c!"string" → Text j c!"pattern" p → TypeOf fl classes embeds j (.string p)
  | path {j p} : HasType j c!"path" → Text j c!"pattern" p → TypeOf fl classes embeds j (.path p)
  | date {j f} : HasType j c!"date" → TextOr j c!"format" c!"%Y-%m-%d" f → TypeOf fl classes embeds j (.date f)
  | time {j f} : HasType j c!"time" → TextOr j c!"format" c!"%H:%M:%S" f → TypeOf fl classes embeds j (.time f)
  | datetime {j f} : HasType j c!"datetime" → TextOr j c!"format" c!"%Y-%m-%dT%H:%M:%SZ" f →
      TypeOf fl classes embeds j (.datetime f)
  | timeZone {j} : HasType j c!"time_zone" → TypeOf fl classes embeds j .timeZone
  | duration {j} : HasType j c!"duration" → TypeOf fl classes embeds j .duration
  | array {j v t lo hi} : HasType j c!"array" → field j c!"values" = some v → TypeOf fl classes embeds v t →
      Limit j c!"minimum_size" lo → Limit j c!"maximum_size" hi → TypeOf fl classes embeds j (.array t lo hi)
  | map {j v t} : HasType j c!"map" → field j c!"values" = some v → TypeOf fl classes embeds v t →
      TypeOf fl classes embeds j (.map t)
  | cls {j n} : HasType j n → n ∈ classes → TypeOf fl classes embeds j (.cls n)
  | embed {j n} : HasType j n → n ∈ embeds → TypeOf fl classes embeds j (.embed n)

/-- The names of the types which do not have to be defined -/
def builtin : List Str :=
  [c!"boolean", c!"integer", c!"float", c!"string", c!"path", c!"date", c!"time", c!"datetime", c!"time_zone",
   c!"duration", c!"array", c!"map"]

/-- The name given in a JSON object -/
def IsName (j : Json) (n : Str) : Prop := field j c!"name" = some (.str n)

/-- The class with the name is defined in the mapping. -/
def ClassNamed (mapping : Json) (n : Str) : Prop := ∃ x ∈ members mapping c!"classes", IsName x n

/-- The embeddable structure with the name is defined in the mapping. -/
def EmbedNamed (mapping : Json) (n : Str) : Prop := ∃ x ∈ members mapping c!"embeds", IsName x n

/-- The property described by a name and a definition -/
structure PropertyOf (fl : Json → Bounds → Prop) (classes embeds : List Str) (ref : Str) (item : Str × Json) (p : Property) : Prop where
  at_ref : p.ref = ref ++ c!"/" ++ item.1
  name : p.name = item.1
  description : field item.2 c!"description" = some (.str p.description)
  json : TextOr item.2 c!"json" item.1 p.json
  optional : Flag item.2 c!"optional" p.optional
  ty : TypeOf fl classes embeds item.2 p.ty

/-- The names and definitions of the properties in their order: the order of the mapping if it is ordered, else
sorted by the name -/
inductive Items (c : Json) : List (Str × Json) → Prop where
  | absent : field c c!"properties" = none → Items c []
  | ordered {kvs} : field c c!"properties" = some (.obj true kvs) → Items c kvs
  | sorted {kvs items} : field c c!"properties" = some (.obj false kvs) → items.Perm kvs →
      items.Pairwise (fun a b => ¬ b.1 < a.1) → Items c items

def PropertiesOf (fl : Json → Bounds → Prop) (classes embeds : List Str) (ref : Str) (c : Json)
    (ps : List Property) : Prop :=
  ∃ items, Items c items ∧ Forall₂ (PropertyOf fl classes embeds ref) items ps

/-- The class described by a JSON object; `plural` gives the plural of a name. -/
structure ClassOf (fl : Json → Bounds → Prop) (plural : Str → Str) (classes embeds : List Str) (ref : Str) (x : Json)
    (c : Class) : Prop where
  name : IsName x c.name
  description : field x c!"description" = some (.str c.description)
  at_plural : TextOr x c!"plural" (plural c.name) c.plural
  idPattern : Text x c!"id_pattern" c.idPattern
  at_ref : c.ref = ref
  properties : PropertiesOf fl classes embeds ref x c.properties

/-- The embeddable structure described by a JSON object -/
structure EmbedOf (fl : Json → Bounds → Prop) (classes embeds : List Str) (ref : Str) (x : Json) (e : Embed) : Prop where
  name : IsName x e.name
  description : field x c!"description" = some (.str e.description)
  at_ref : e.ref = ref
  properties : PropertiesOf fl classes embeds ref x e.properties

/-- The reference to the member at the index -/
def memberRef (ref key : Str) (i : Nat) : Str := ref ++ c!"/" ++ key ++ c!"/" ++ Nat.toDigits 10 i

/-- The graph described by the mapping -/
structure GraphOf (fl : Json → Bounds → Prop) (plural : Str → Str) (ref : Str) (mapping : Json) (g : Graph) : Prop where
  at_ref : g.ref = ref
  name : IsName mapping g.name
  description : field mapping c!"description" = some (.str g.description)
  classes : Forall₂ (fun (xi : Json × Nat) c => ClassOf fl plural (g.classes.map (·.name)) (g.embeds.map (·.name))
    (memberRef ref c!"classes" xi.2) xi.1 c) (members mapping c!"classes").zipIdx g.classes
  embeds : Forall₂ (fun (xi : Json × Nat) e => EmbedOf fl (g.classes.map (·.name)) (g.embeds.map (·.name))
    (memberRef ref c!"embeds" xi.2) xi.1 e) (members mapping c!"embeds").zipIdx g.embeds
  properties : PropertiesOf fl (g.classes.map (·.name)) (g.embeds.map (·.name)) ref mapping g.properties

end Mapry.SchemaSpec
