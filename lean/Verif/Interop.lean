import Verif.DurationSpec
import Verif.PySpec
import Verif.GoSpec
import Verif.CppSpec

/-!
# One document read by the three languages

A JSON document, what the decoders of the three languages make of it (external specification of
`json.loads`, `encoding/json` and jsoncpp), and what the document means in a language: the same rules for the
structures, and a table for the values without parts (`Leaves`).
-/

namespace Mapry.Interop

open Mapry.Duration
open Mapry.PyRuntime.Spec (Within FloatWithin SizeWithin boolNum)

/-- A JSON document. A number is written without a fraction and an exponent (`int`) or with one of them (`real`);
`q` is its exact value. -/
inductive Doc where
  | null
  | bool (b : Bool)
  | int (i : Int)
  | real (q : Rat)
  | str (s : Str)
  | arr (xs : List Doc)
  | obj (kvs : List (Str × Doc))

/-- No object has a key twice. -/
inductive Doc.Distinct : Doc → Prop where
  | null : Distinct .null
  | bool (b : Bool) : Distinct (.bool b)
  | int (i : Int) : Distinct (.int i)
  | real (q : Rat) : Distinct (.real q)
  | str (s : Str) : Distinct (.str s)
  | arr (xs : List Doc) : (∀ x ∈ xs, Distinct x) → Distinct (.arr xs)
  | obj (kvs : List (Str × Doc)) : (kvs.map (·.1)).Nodup → (∀ kv ∈ kvs, Distinct kv.2) → Distinct (.obj kvs)

/-! ## The decoders -/

/-- The number is in the range of a floating-point number. -/
def inRange : F64 → Bool
  | .fin _ => true
  | _ => false

mutual

/-- All the numbers are in the range of the floating-point numbers. -/
def Doc.finite : Doc → Bool
  | .int i => inRange (F64.round i)
  | .real q => inRange (F64.round q)
  | .arr xs => finiteItems xs
  | .obj kvs => finiteEntries kvs
  | _ => true

def finiteItems : List Doc → Bool
  | [] => true
  | x :: xs => x.finite && finiteItems xs

def finiteEntries : List (Str × Doc) → Bool
  | [] => true
  | kv :: kvs => kv.2.finite && finiteEntries kvs

end

mutual

/-- `json.loads`; `ordered` says if `object_pairs_hook=collections.OrderedDict` is given. -/
def pyOf (ordered : Bool) : Doc → PyRuntime.Json
  | .null => .null
  | .bool b => .bool b
  | .int i => .int i
  | .real q => .float (F64.round q)
  | .str s => .str s
  | .arr xs => .arr (pyItems ordered xs)
  | .obj kvs => .obj ordered (pyEntries ordered kvs)

def pyItems (ordered : Bool) : List Doc → List PyRuntime.Json
  | [] => []
  | x :: xs => pyOf ordered x :: pyItems ordered xs

def pyEntries (ordered : Bool) : List (Str × Doc) → List (Str × PyRuntime.Json)
  | [] => []
  | kv :: kvs => (kv.1, pyOf ordered kv.2) :: pyEntries ordered kvs

end

mutual

/-- What `json.Unmarshal` puts into an `interface{}`: all the numbers are `float64`s. -/
def goVal : Doc → GoRuntime.JVal
  | .null => .null
  | .bool b => .bool b
  | .int i => .float (F64.round i)
  | .real q => .float (F64.round q)
  | .str s => .str s
  | .arr xs => .arr (goItems xs)
  | .obj kvs => .obj (GoMap.putAll [] (goEntries kvs))

def goItems : List Doc → List GoRuntime.JVal
  | [] => []
  | x :: xs => goVal x :: goItems xs

def goEntries : List (Str × Doc) → List (Str × GoRuntime.JVal)
  | [] => []
  | kv :: kvs => (kv.1, goVal kv.2) :: goEntries kvs

end

mutual

/-- What `Json::Reader` makes of the document: an integer of 64 bits is signed if possible, otherwise unsigned; a larger
one is a double. -/
def cppVal : Doc → CppRuntime.JVal
  | .null => .null
  | .bool b => .bool b
  | .int i => if IsInt64 i then .int i else if 0 ≤ i ∧ i < 2 ^ 64 then .uint i.toNat else .real (F64.round i)
  | .real q => .real (F64.round q)
  | .str s => .str s
  | .arr xs => .arr (cppItems xs)
  | .obj kvs => .obj (GoMap.putAll [] (cppEntries kvs))

def cppItems : List Doc → List CppRuntime.JVal
  | [] => []
  | x :: xs => cppVal x :: cppItems xs

def cppEntries : List (Str × Doc) → List (Str × CppRuntime.JVal)
  | [] => []
  | kv :: kvs => (kv.1, cppVal kv.2) :: cppEntries kvs

end

/-- `json.Unmarshal` returns an error for a number out of the range of a `float64`. -/
def goOf (d : Doc) : Option GoRuntime.JVal := if d.finite then some (goVal d) else none

/-- So does jsoncpp. -/
def cppOf (d : Doc) : Option CppRuntime.JVal := if d.finite then some (cppVal d) else none

/-! ## Values which do not belong to a language -/

/-- A value. The zones of times are left out. -/
inductive AVal where
  /-- an optional property which is not set -/
  | none
  | bool (b : Bool)
  | int (i : Int)
  | float (f : F64)
  | str (s : Str)
  | date (year : Int) (month day : Nat)
  | time (hour minute second nano : Nat)
  | datetime (year : Int) (month day hour minute second nano : Nat)
  | zone (name : Str)
  /-- nanoseconds -/
  | duration (d : Int)
  | list (xs : List AVal)
  | map (kvs : List (Str × AVal))
  | ref (cls id : Str)
  | obj (embed : Str) (fields : List (Str × AVal))

/-- The values of the properties by their names -/
abbrev AFields := List (Str × AVal)

/-- A graph: the values of its properties, and for every class the instances with their identifiers. -/
structure AGraph where
  fields : AFields
  registries : List (Str × List (Str × AFields))

/-! ## What a document means -/

/-- How a language reads the values without parts -/
structure Leaves where
  leaf : Ty → Doc → AVal → Prop
  /-- the text matches the pattern -/
  matching : Str → Str → Prop
  /-- `null` counts as a missing property -/
  nullMissing : Bool

/-- The value given for a property -/
def given (nullMissing : Bool) (kvs : List (Str × Doc)) (key : Str) : Option Doc :=
  match kvs.lookup key with
  | some .null => if nullMissing then none else some .null
  | r => r

/-- The identifiers of the instances in the document -/
def Described (g : Graph) (kvs : List (Str × Doc)) (c id : Str) : Prop :=
  ∃ d ∈ g.classes, d.name = c ∧ ∃ entries, kvs.lookup (lower d.plural) = some (.obj entries) ∧ id ∈ entries.map (·.1)

section

variable (V : Leaves) (g : Graph) (ids : Str → Str → Prop)

/-- The document means the value of the type; `ids c id` says that there is an instance of the class `c` with the
identifier `id`. -/
def MeansTy (embed : Str → Doc → AVal → Prop) : Ty → Doc → AVal → Prop
  | .array t lo hi, d, a => ∃ ds as, d = .arr ds ∧ a = .list as ∧ SizeWithin lo hi ds.length ∧
    Forall₂ (MeansTy embed t) ds as
  | .map t, d, a => ∃ ds as, d = .obj ds ∧ a = .map as ∧
    Forall₂ (fun e b => b.1 = e.1 ∧ MeansTy embed t e.2 b.2) ds as
  | .cls c, d, a => ∃ id, d = .str id ∧ a = .ref c id ∧ ids c id
  | .embed name, d, a => embed name d a
  | t, d, a => V.leaf t d a

/-- The members of an object mean the values of the properties; only an optional property may be missing. -/
def MeansProperty (means : Ty → Doc → AVal → Prop) (kvs : List (Str × Doc)) (p : Property) (a : AVal) : Prop :=
  match given V.nullMissing kvs p.json with
  | none => p.optional = true ∧ a = .none
  | some d => means p.ty d a

def MeansProps (means : Ty → Doc → AVal → Prop) (kvs : List (Str × Doc)) (ps : List Property) (fields : AFields) :
    Prop :=
  Forall₂ (fun p f => f.1 = p.name ∧ MeansProperty V means kvs p f.2) ps fields

/-- At most `n` embeddable structures nested in each other -/
def MeansEmbed : Nat → Str → Doc → AVal → Prop
  | 0, _, _, _ => False
  | n + 1, name, d, a => ∃ e kvs fields, g.embed? name = some e ∧ d = .obj kvs ∧ a = .obj name fields ∧
    MeansProps V (MeansTy V ids (MeansEmbed n)) kvs e.properties fields

def Means (n : Nat) : Ty → Doc → AVal → Prop := MeansTy V ids (MeansEmbed V g ids n)

/-- A member of a registry means an instance under an identifier which matches the pattern. -/
def MeansInstance (means : Ty → Doc → AVal → Prop) (c : Class) (e : Str × Doc) (i : Str × AFields) : Prop :=
  i.1 = e.1 ∧ (∀ p, c.idPattern = some p → V.matching p e.1) ∧
    ∃ kvs, e.2 = .obj kvs ∧ MeansProps V means kvs c.properties i.2

def MeansRegistry (means : Ty → Doc → AVal → Prop) (kvs : List (Str × Doc)) (c : Class) (r : List (Str × AFields)) :
    Prop :=
  (kvs.lookup (lower c.plural) = none ∧ r = []) ∨
  ∃ entries, kvs.lookup (lower c.plural) = some (.obj entries) ∧ Forall₂ (MeansInstance V means c) entries r

/-- The document means the graph. -/
def MeansGraph (n : Nat) (d : Doc) (a : AGraph) : Prop :=
  ∃ kvs, d = .obj kvs ∧
    Forall₂ (fun (c : Class) (r : Str × List (Str × AFields)) => r.1 = c.name ∧
      MeansRegistry V (Means V g (Described g kvs) n) kvs c r.2) g.classes a.registries ∧
    MeansProps V (Means V g (Described g kvs) n) kvs g.properties a.fields

end

/-! ## The tables of the languages -/

/-- Python. A boolean passes for a number; an integer for a float is compared with the bounds before it is rounded; a
number out of range is infinite. -/
def pyLeaf (L : PyRuntime.Lib) (S : PyRuntime.Settings) : Ty → Doc → AVal → Prop
  | .boolean, d, a => ∃ c, d = .bool c ∧ a = .bool c
  | .integer b, d, a => (∃ i : Int, d = .int i ∧ a = .int i ∧ Within b i) ∨
    ∃ c, d = .bool c ∧ a = .bool c ∧ Within b (boolNum c)
  | .float b, d, a => (∃ q, d = .real q ∧ a = .float (F64.round q) ∧ FloatWithin b (F64.round q)) ∨
    ∃ (i : Int) (q : Rat), (d = .int i ∨ ∃ c, d = .bool c ∧ i = boolNum c) ∧ a = .float (.fin q) ∧ Within b i ∧
      F64.round i = .fin q
  | .string p, d, a => ∃ s, d = .str s ∧ a = .str s ∧ ∀ r, p = some r → L.reMatch r s = true
  | .path p, d, a => ∃ s, d = .str s ∧ a = .str (if S.pathlib then L.normPath s else s) ∧
    ∀ r, p = some r → L.reMatch r s = true
  | .date f, d, a => ∃ s t, d = .str s ∧ L.strptime s f = .ok t ∧ a = .date t.year t.month t.day
  | .time f, d, a => ∃ s t, d = .str s ∧ L.strptime s f = .ok t ∧ a = .time t.hour t.minute t.second (t.micro * 1000)
  | .datetime f, d, a => ∃ s t, d = .str s ∧ L.strptime s f = .ok t ∧
    a = .datetime t.year t.month t.day t.hour t.minute t.second (t.micro * 1000)
  | .timeZone, d, a => ∃ s, d = .str s ∧ if S.pytz then ∃ z, L.timezone s = some z ∧ a = .zone z else a = .zone s
  | .duration, d, a => ∃ s x, d = .str s ∧ pyFromString s = .ok x ∧ a = .duration (x * 1000)
  | _, _, _ => False

/-- Python: `null` counts as a missing property. -/
def pyLeaves (L : PyRuntime.Lib) (S : PyRuntime.Settings) : Leaves :=
  ⟨pyLeaf L S, fun p s => L.reMatch p s = true, true⟩

/-- The exact value of a number -/
def number : Doc → Option Rat
  | .int i => some i
  | .real q => some q
  | _ => none

/-- Go. A number is rounded first; it passes for an integer if the result is one of 64 bits. -/
def goLeaf (L : GoRuntime.Lib) : Ty → Doc → AVal → Prop
  | .boolean, d, a => ∃ c, d = .bool c ∧ a = .bool c
  | .integer b, d, a => ∃ (q : Rat) (i : Int), number d = some q ∧ F64.round q = .fin i ∧ a = .int i ∧ IsInt64 i ∧
    Within b i
  | .float b, d, a => ∃ q, number d = some q ∧ a = .float (F64.round q) ∧ FloatWithin b (F64.round q)
  | .string p, d, a => ∃ s, d = .str s ∧ a = .str s ∧ ∀ r, p = some r → L.matchString r s = true
  | .path p, d, a => ∃ s, d = .str s ∧ a = .str s ∧ ∀ r, p = some r → L.matchString r s = true
  | .date f, d, a => ∃ s t, d = .str s ∧ L.parseTime (GoRuntime.layout f) s = some t ∧ a = .date t.year t.month t.day
  | .time f, d, a => ∃ s t, d = .str s ∧ L.parseTime (GoRuntime.layout f) s = some t ∧
    a = .time t.hour t.minute t.second t.nano
  | .datetime f, d, a => ∃ s t, d = .str s ∧ L.parseTime (GoRuntime.layout f) s = some t ∧
    a = .datetime t.year t.month t.day t.hour t.minute t.second t.nano
  | .timeZone, d, a => ∃ s z, d = .str s ∧ L.loadLocation s = some z ∧ a = .zone z
  | .duration, d, a => ∃ s x, d = .str s ∧ goFromString s = .ok x ∧ a = .duration x
  | _, _, _ => False

def goLeaves (L : GoRuntime.Lib) : Leaves := ⟨goLeaf L, fun p s => L.matchString p s = true, false⟩

/-- The integer has neither a signed nor an unsigned representation of 64 bits. -/
def TooLarge (i : Int) : Prop := i < -(2 ^ 63) ∨ 2 ^ 64 ≤ i

/-- C++. A number passes for an integer if it is one of 64 bits, where a number with a fraction or an exponent and a
number which is too large are rounded first. -/
def cppLeaf (D : CppRuntime.DateLib) (L : CppRuntime.Lib) : Ty → Doc → AVal → Prop
  | .boolean, d, a => ∃ c, d = .bool c ∧ a = .bool c
  | .integer b, d, a => ∃ i : Int, (d = .int i ∨ ∃ q, (d = .real q ∨ ∃ j : Int, d = .int j ∧ TooLarge j ∧ q = j) ∧
    F64.round q = .fin i) ∧ a = .int i ∧ IsInt64 i ∧ Within b i
  | .float b, d, a => ∃ q, number d = some q ∧ a = .float (F64.round q) ∧ FloatWithin b (F64.round q)
  | .string p, d, a => ∃ s, d = .str s ∧ a = .str s ∧ ∀ r, p = some r → L.regexMatch r s = true
  | .path p, d, a => ∃ s, d = .str s ∧ a = .str s ∧ ∀ r, p = some r → L.regexMatch r s = true
  | .date f, d, a => ∃ s t, d = .str s ∧ CppRuntime.Spec.Loose D L .date f s t ∧ a = .date t.year t.month t.day
  | .time f, d, a => ∃ s t, d = .str s ∧ CppRuntime.Spec.Loose D L .time f s t ∧ a = .time t.hour t.minute t.second 0
  | .datetime f, d, a => ∃ s t, d = .str s ∧ CppRuntime.Spec.Loose D L .datetime f s t ∧
    a = .datetime t.year t.month t.day t.hour t.minute t.second 0
  | .timeZone, d, a => ∃ s z, d = .str s ∧ CppRuntime.Spec.IsZone D L s z ∧ a = .zone z
  | .duration, d, a => ∃ s x, d = .str s ∧ cppFromString false s = .value x ∧ a = .duration x
  | _, _, _ => False

def cppLeaves (D : CppRuntime.DateLib) (L : CppRuntime.Lib) : Leaves :=
  ⟨cppLeaf D L, fun p s => L.regexMatch p s = true, false⟩

/-! ## How a language shows the values -/

/-- Three lists of the same length, related item by item -/
inductive Forall₃ {α β γ : Type} (R : α → β → γ → Prop) : List α → List β → List γ → Prop where
  | nil : Forall₃ R [] [] []
  | cons {a b c as bs cs} : R a b c → Forall₃ R as bs cs → Forall₃ R (a :: as) (b :: bs) (c :: cs)

/-- The entries are related in some order. -/
def Unordered {α β : Type} (R : α → β → Prop) (l : List α) (m : List β) : Prop := ∃ m', m'.Perm m ∧ Forall₂ R l m'

section Python

open PyRuntime

variable (S : Settings) (g : Graph)

/-- The Python value shows the value of the type. -/
def PyTy (embed : Str → AVal → Val → Prop) : Ty → AVal → Val → Prop
  | .boolean, a, x => ∃ c, a = .bool c ∧ x = .bool c
  | .integer _, a, x => (∃ i, a = .int i ∧ x = .int i) ∨ ∃ c, a = .bool c ∧ x = .bool c
  | .float _, a, x => ∃ f, a = .float f ∧ x = .float f
  | .string _, a, x => ∃ s, a = .str s ∧ x = .str s
  | .path _, a, x => ∃ s, a = .str s ∧ x = if S.pathlib then .path s else .str s
  | .date _, a, x => ∃ t : Date, a = .date t.year t.month t.day ∧ x = .date t
  | .time _, a, x => ∃ t : Time, a = .time t.hour t.minute t.second (t.micro * 1000) ∧ x = .time t
  | .datetime _, a, x => ∃ t : DateTime,
    a = .datetime t.year t.month t.day t.hour t.minute t.second (t.micro * 1000) ∧ x = .datetime t
  | .timeZone, a, x => ∃ z, a = .zone z ∧ x = if S.pytz then .zone z else .str z
  | .duration, a, x => ∃ d : Timedelta, a = .duration (d * 1000) ∧ x = .duration d
  | .array t _ _, a, x => ∃ as xs, a = .list as ∧ x = .list xs ∧ Forall₂ (PyTy embed t) as xs
  | .map t, a, x => ∃ as o xs, a = .map as ∧ x = .map o xs ∧
    Unordered (fun b y => y.1 = b.1 ∧ PyTy embed t b.2 y.2) as xs
  | .cls _, a, x => ∃ c id, a = .ref c id ∧ x = .ref c id
  | .embed name, a, x => embed name a x

def PyField (shows : Ty → AVal → Val → Prop) (p : Property) (a : Str × AVal) (x : Str × Val) : Prop :=
  a.1 = p.name ∧ x.1 = lower p.name ∧
    ((p.optional = true ∧ a.2 = .none ∧ x.2 = .none) ∨ shows p.ty a.2 x.2)

def PyEmbed : Nat → Str → AVal → Val → Prop
  | 0, _, _, _ => False
  | n + 1, name, a, x => ∃ e fields attrs, g.embed? name = some e ∧ a = .obj name fields ∧ x = .obj name attrs ∧
    Forall₃ (PyField (PyTy S (PyEmbed n))) e.properties fields attrs

/-- The instance under its identifier -/
def PyInstance (n : Nat) (c : Class) (a : Str × AFields) (i : Str × Instance) : Prop :=
  i.1 = a.1 ∧ i.2.id = a.1 ∧ Forall₃ (PyField (PyTy S (PyEmbed S g n))) c.properties a.2 i.2.attrs

/-- The Python graph shows the graph. -/
def PyGraph (n : Nat) (a : AGraph) (gv : GraphVal) : Prop :=
  Forall₃ (fun (c : Class) r r' => r.1 = c.name ∧ r'.1 = c.name ∧
    Unordered (PyInstance S g n c) r.2 r'.2.instances) g.classes a.registries gv.registries ∧
  Forall₃ (PyField (PyTy S (PyEmbed S g n))) g.properties a.fields gv.attrs

end Python

section Go

open GoRuntime

variable (g : Graph)

/-- The Go value shows the value of the type. -/
def GoTy (embed : Str → AVal → Val → Prop) : Ty → AVal → Val → Prop
  | .boolean, a, x => ∃ c, a = .bool c ∧ x = .bool c
  | .integer _, a, x => ∃ i, a = .int i ∧ x = .int i
  | .float _, a, x => ∃ f, a = .float f ∧ x = .float f
  | .string _, a, x => ∃ s, a = .str s ∧ x = .str s
  | .path _, a, x => ∃ s, a = .str s ∧ x = .str s
  | .date _, a, x => ∃ t : Time, a = .date t.year t.month t.day ∧ x = .time t
  | .time _, a, x => ∃ t : Time, a = .time t.hour t.minute t.second t.nano ∧ x = .time t
  | .datetime _, a, x => ∃ t : Time, a = .datetime t.year t.month t.day t.hour t.minute t.second t.nano ∧ x = .time t
  | .timeZone, a, x => ∃ z, a = .zone z ∧ x = .zone z
  | .duration, a, x => ∃ d, a = .duration d ∧ x = .duration d
  | .array t _ _, a, x => ∃ as xs, a = .list as ∧ x = .list xs ∧ Forall₂ (GoTy embed t) as xs
  | .map t, a, x => ∃ as xs, a = .map as ∧ x = .map xs ∧ Unordered (fun b y => y.1 = b.1 ∧ GoTy embed t b.2 y.2) as xs
  | .cls _, a, x => ∃ c id, a = .ref c id ∧ x = .ref c id
  | .embed name, a, x => embed name a x

def GoField (shows : Ty → AVal → Val → Prop) (p : Property) (a : Str × AVal) (x : Str × Val) : Prop :=
  a.1 = p.name ∧ x.1 = goName p.name ∧
    ((p.optional = true ∧ a.2 = .none ∧ x.2 = .nil) ∨ shows p.ty a.2 x.2)

def GoEmbed : Nat → Str → AVal → Val → Prop
  | 0, _, _, _ => False
  | n + 1, name, a, x => ∃ e fields fields', g.embed? name = some e ∧ a = .obj name fields ∧ x = .obj name fields' ∧
    Forall₃ (GoField (GoTy (GoEmbed n))) e.properties fields fields'

def GoInstance (n : Nat) (c : Class) (a : Str × AFields) (i : Str × Instance) : Prop :=
  i.1 = a.1 ∧ i.2.id = a.1 ∧ Forall₃ (GoField (GoTy (GoEmbed g n))) c.properties a.2 i.2.fields

/-- The Go graph shows the graph. -/
def GoGraph (n : Nat) (a : AGraph) (gv : GraphVal) : Prop :=
  Forall₃ (fun (c : Class) r r' => r.1 = c.name ∧ r'.1 = c.name ∧ Unordered (GoInstance g n c) r.2 r'.2) g.classes
    a.registries gv.registries ∧
  Forall₃ (GoField (GoTy (GoEmbed g n))) g.properties a.fields gv.fields

end Go

section Cpp

open CppRuntime

variable (g : Graph)

/-- The C++ value shows the value of the type. -/
def CppTy (embed : Str → AVal → Val → Prop) : Ty → AVal → Val → Prop
  | .boolean, a, x => ∃ c, a = .bool c ∧ x = .bool c
  | .integer _, a, x => ∃ i, a = .int i ∧ x = .int i
  | .float _, a, x => ∃ f, a = .float f ∧ x = .float f
  | .string _, a, x => ∃ s, a = .str s ∧ x = .str s
  | .path _, a, x => ∃ s, a = .str s ∧ x = .str s
  | .date _, a, x => ∃ t : Time, a = .date t.year t.month t.day ∧ x = .time t
  | .time _, a, x => ∃ t : Time, a = .time t.hour t.minute t.second 0 ∧ x = .time t
  | .datetime _, a, x => ∃ t : Time, a = .datetime t.year t.month t.day t.hour t.minute t.second 0 ∧ x = .time t
  | .timeZone, a, x => ∃ z, a = .zone z ∧ x = .zone z
  | .duration, a, x => ∃ d, a = .duration d ∧ x = .duration d
  | .array t _ _, a, x => ∃ as xs, a = .list as ∧ x = .list xs ∧ Forall₂ (CppTy embed t) as xs
  | .map t, a, x => ∃ as xs, a = .map as ∧ x = .map xs ∧ Unordered (fun b y => y.1 = b.1 ∧ CppTy embed t b.2 y.2) as xs
  | .cls _, a, x => ∃ c id, a = .ref c id ∧ x = .ref c id
  | .embed name, a, x => embed name a x

def CppField (shows : Ty → AVal → Val → Prop) (p : Property) (a : Str × AVal) (x : Str × Val) : Prop :=
  a.1 = p.name ∧ x.1 = p.name ∧
    ((p.optional = true ∧ a.2 = .none ∧ x.2 = .nil) ∨ shows p.ty a.2 x.2)

def CppEmbed : Nat → Str → AVal → Val → Prop
  | 0, _, _, _ => False
  | n + 1, name, a, x => ∃ e fields fields', g.embed? name = some e ∧ a = .obj name fields ∧ x = .obj name fields' ∧
    Forall₃ (CppField (CppTy (CppEmbed n))) e.properties fields fields'

def CppInstance (n : Nat) (c : Class) (a : Str × AFields) (i : Str × Instance) : Prop :=
  i.1 = a.1 ∧ i.2.id = a.1 ∧ Forall₃ (CppField (CppTy (CppEmbed g n))) c.properties a.2 i.2.fields

/-- The C++ graph shows the graph. -/
def CppGraph (n : Nat) (a : AGraph) (gv : GraphVal) : Prop :=
  Forall₃ (fun (c : Class) r r' => r.1 = c.name ∧ r'.1 = c.name ∧ Unordered (CppInstance g n c) r.2 r'.2) g.classes
    a.registries gv.registries ∧
  Forall₃ (CppField (CppTy (CppEmbed g n))) g.properties a.fields gv.fields

end Cpp

/-! ## Where two languages may differ -/

section

variable (P : Ty → Doc → Prop) (key : Str → Str → Prop) (null : Prop) (g : Graph)

/-- `P` holds for every value without parts. -/
def EveryTy (embed : Str → Doc → Prop) : Ty → Doc → Prop
  | .array t _ _, d => ∀ ds, d = .arr ds → ∀ x ∈ ds, EveryTy embed t x
  | .map t, d => ∀ ds, d = .obj ds → ∀ e ∈ ds, EveryTy embed t e.2
  | .cls _, _ => True
  | .embed name, d => embed name d
  | t, d => P t d

/-- `null` is only given for a property if it is allowed. -/
def EveryProps (every : Ty → Doc → Prop) (kvs : List (Str × Doc)) (ps : List Property) : Prop :=
  ∀ p ∈ ps, ∀ d, kvs.lookup p.json = some d → (d = .null → null) ∧ every p.ty d

def EveryEmbed : Nat → Str → Doc → Prop
  | 0, _, _ => True
  | n + 1, name, d => ∀ e kvs, g.embed? name = some e → d = .obj kvs →
    EveryProps null (EveryTy P (EveryEmbed n)) kvs e.properties

/-- `P` holds for every value without parts in the document, `key` for the patterns and identifiers of the classes. -/
def Every (n : Nat) (d : Doc) : Prop :=
  ∀ kvs, d = .obj kvs → EveryProps null (EveryTy P (EveryEmbed P null g n)) kvs g.properties ∧
    ∀ c ∈ g.classes, ∀ entries, kvs.lookup (lower c.plural) = some (.obj entries) → ∀ e ∈ entries,
      (∀ p, c.idPattern = some p → key p e.1) ∧
      ∀ kvs', e.2 = .obj kvs' → EveryProps null (EveryTy P (EveryEmbed P null g n)) kvs' c.properties

end

/-- The two languages read the values of the document alike. -/
def Alike (V W : Leaves) (g : Graph) (n : Nat) (d : Doc) : Prop :=
  Every (fun t d => ∀ a, V.leaf t d a ↔ W.leaf t d a) (fun p s => V.matching p s ↔ W.matching p s)
    (V.nullMissing = W.nullMissing) g n d

/-! ## Plain documents -/

/-- A duration in whole weeks, days, hours and minutes, and seconds with at most six digits after the point, which fits
into 64 bits as nanoseconds -/
def PlainDuration (s : Str) : Prop :=
  ∃ f : Fields, f.Valid ∧ f.Integral ∧ (fractionOf f.seconds).length ≤ 6 ∧ (span 9 f : Int) ≤ maxInt64 ∧ s = render f

/-- The regular expressions of the three languages agree. -/
def SameMatch (L : PyRuntime.Lib) (G : GoRuntime.Lib) (C : CppRuntime.Lib) (r s : Str) : Prop :=
  L.reMatch r s = G.matchString r s ∧ L.reMatch r s = C.regexMatch r s

/-- A value on which the languages agree: no boolean for a number; an integer is not written with a fraction or an exponent
and has at most 53 bits; the regular expressions agree; a path is normal; the libraries read the same date, time or time
zone; the duration is plain. -/
def PlainLeaf (L : PyRuntime.Lib) (S : PyRuntime.Settings) (G : GoRuntime.Lib) (D : CppRuntime.DateLib)
    (C : CppRuntime.Lib) : Ty → Doc → Prop
  | .integer _, d => (∀ c, d ≠ .bool c) ∧ (∀ q, d = .real q → ∀ i : Int, F64.round q ≠ .fin i) ∧
    ∀ i, d = .int i → i.natAbs ≤ 2 ^ 53
  | .float _, d => (∀ c, d ≠ .bool c) ∧ ∀ i, d = .int i → i.natAbs ≤ 2 ^ 53
  | .string p, d => ∀ s, d = .str s → ∀ r, p = some r → SameMatch L G C r s
  | .path p, d => ∀ s, d = .str s → (S.pathlib = true → L.normPath s = s) ∧ ∀ r, p = some r → SameMatch L G C r s
  | t@(.date _), d | t@(.time _), d | t@(.datetime _), d | t@.timeZone, d =>
    ∀ a, (pyLeaf L S t d a ↔ goLeaf G t d a) ∧ (pyLeaf L S t d a ↔ cppLeaf D C t d a)
  | .duration, d => ∀ s, d = .str s → PlainDuration s
  | _, _ => True

/-- All the values of the document are plain, no property is `null`, and the patterns of the identifiers agree. -/
def Plain (L : PyRuntime.Lib) (S : PyRuntime.Settings) (G : GoRuntime.Lib) (D : CppRuntime.DateLib)
    (C : CppRuntime.Lib) (g : Graph) (n : Nat) (d : Doc) : Prop :=
  Every (PlainLeaf L S G D C) (SameMatch L G C) False g n d

end Mapry.Interop
