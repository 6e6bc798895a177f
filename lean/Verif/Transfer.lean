import Verif.Interop

/-!
# A graph serialized in one language and parsed in another

How the three languages write the JSONable values as documents (external specification of `json.dumps`,
`json.Marshal` and the writers of jsoncpp), what it means that a document is written for a graph, and which
values cross over to another language.
-/

namespace Mapry.Interop

open Mapry.Duration
open Mapry.PyRuntime.Spec (Within FloatWithin SizeWithin boolNum)

/-! ## The encoders -/

/-- The number is written with enough digits to be read back. -/
def Digits (q : Rat) (d : Doc) : Prop := ∃ r, number d = some r ∧ F64.round r = .fin q

mutual

/-- `json.dumps` writes the document. A float always has a fraction or an exponent; NaN and the infinities are no
JSON. -/
def PyText : PyRuntime.Json → Doc → Prop
  | .null, d => d = .null
  | .bool b, d => d = .bool b
  | .int i, d => d = .int i
  | .float f, d => ∃ q r, f = .fin q ∧ d = .real r ∧ F64.round r = .fin q
  | .str s, d => d = .str s
  | .arr xs, d => ∃ ds, d = .arr ds ∧ PyTexts xs ds
  | .obj _ kvs, d => ∃ ds, d = .obj ds ∧ PyMembers kvs ds

def PyTexts : List PyRuntime.Json → List Doc → Prop
  | [], ds => ds = []
  | x :: xs, ds => ∃ e es, ds = e :: es ∧ PyText x e ∧ PyTexts xs es

def PyMembers : List (Str × PyRuntime.Json) → List (Str × Doc) → Prop
  | [], ds => ds = []
  | kv :: kvs, ds => ∃ e es, ds = e :: es ∧ e.1 = kv.1 ∧ PyText kv.2 e.2 ∧ PyMembers kvs es

end

mutual

/-- `json.Marshal` writes the document. A float which is a whole number may have neither a fraction nor an
exponent; NaN and the infinities are errors. -/
def GoText : GoRuntime.JVal → Doc → Prop
  | .null, d => d = .null
  | .bool b, d => d = .bool b
  | .int64 i, d => d = .int i
  | .float f, d => ∃ q, f = .fin q ∧ Digits q d
  | .str s, d => d = .str s
  | .arr xs, d => ∃ ds, d = .arr ds ∧ GoTexts xs ds
  | .obj kvs, d => ∃ ds, d = .obj ds ∧ GoMembers kvs ds

def GoTexts : List GoRuntime.JVal → List Doc → Prop
  | [], ds => ds = []
  | x :: xs, ds => ∃ e es, ds = e :: es ∧ GoText x e ∧ GoTexts xs es

def GoMembers : List (Str × GoRuntime.JVal) → List (Str × Doc) → Prop
  | [], ds => ds = []
  | kv :: kvs, ds => ∃ e es, ds = e :: es ∧ e.1 = kv.1 ∧ GoText kv.2 e.2 ∧ GoMembers kvs es

end

mutual

/-- A writer of jsoncpp writes the document. (Some versions write `1` for the double 1.0, others `1.0`.) -/
def CppText : CppRuntime.JVal → Doc → Prop
  | .null, d => d = .null
  | .bool b, d => d = .bool b
  | .int i, d => d = .int i
  | .uint i, d => d = .int i
  | .real f, d => ∃ q, f = .fin q ∧ Digits q d
  | .str s, d => d = .str s
  | .arr xs, d => ∃ ds, d = .arr ds ∧ CppTexts xs ds
  | .obj kvs, d => ∃ ds, d = .obj ds ∧ CppMembers kvs ds

def CppTexts : List CppRuntime.JVal → List Doc → Prop
  | [], ds => ds = []
  | x :: xs, ds => ∃ e es, ds = e :: es ∧ CppText x e ∧ CppTexts xs es

def CppMembers : List (Str × CppRuntime.JVal) → List (Str × Doc) → Prop
  | [], ds => ds = []
  | kv :: kvs, ds => ∃ e es, ds = e :: es ∧ e.1 = kv.1 ∧ CppText kv.2 e.2 ∧ CppMembers kvs es

end

/-! ## Documents written for a graph -/

/-- Every key is there once and is one of the given ones. -/
def Closed (kvs : List (Str × Doc)) (keys : List Str) : Prop :=
  (kvs.map (·.1)).Nodup ∧ ∀ k ∈ kvs.map (·.1), k ∈ keys

section

variable (W : Leaves) (g : Graph) (ids : Str → Str → Prop)

/-- The document is written for the value of the type; `W` is the table for the values without parts. -/
def WrittenTy (embed : Str → Doc → AVal → Prop) : Ty → Doc → AVal → Prop
  | .array t lo hi, d, a => ∃ ds as, d = .arr ds ∧ a = .list as ∧ SizeWithin lo hi ds.length ∧
    Forall₂ (WrittenTy embed t) ds as
  | .map t, d, a => ∃ ds as, d = .obj ds ∧ a = .map as ∧ (ds.map (·.1)).Nodup ∧
    Forall₂ (fun e b => b.1 = e.1 ∧ WrittenTy embed t e.2 b.2) ds as
  | .cls c, d, a => ∃ id, d = .str id ∧ a = .ref c id ∧ ids c id
  | .embed name, d, a => embed name d a
  | t, d, a => W.leaf t d a

/-- The member for the property: there is none if the optional property is not set. -/
def WrittenProperty (written : Ty → Doc → AVal → Prop) (kvs : List (Str × Doc)) (p : Property) (a : AVal) : Prop :=
  match kvs.lookup p.json with
  | none => p.optional = true ∧ a = .none
  | some d => written p.ty d a

def WrittenProps (written : Ty → Doc → AVal → Prop) (kvs : List (Str × Doc)) (ps : List Property) (fields : AFields) :
    Prop :=
  Forall₂ (fun p f => f.1 = p.name ∧ WrittenProperty written kvs p f.2) ps fields

/-- An object with members only for the properties -/
def WrittenObject (written : Ty → Doc → AVal → Prop) (ps : List Property) (d : Doc) (fields : AFields) : Prop :=
  ∃ kvs, d = .obj kvs ∧ Closed kvs (ps.map (·.json)) ∧ WrittenProps written kvs ps fields

/-- At most `n` embeddable structures nested in each other -/
def WrittenEmbed : Nat → Str → Doc → AVal → Prop
  | 0, _, _, _ => False
  | n + 1, name, d, a => ∃ e fields, g.embed? name = some e ∧ a = .obj name fields ∧
    WrittenObject (WrittenTy W ids (WrittenEmbed n)) e.properties d fields

def Written (n : Nat) : Ty → Doc → AVal → Prop := WrittenTy W ids (WrittenEmbed W g ids n)

def WrittenInstance (written : Ty → Doc → AVal → Prop) (c : Class) (e : Str × Doc) (i : Str × AFields) : Prop :=
  i.1 = e.1 ∧ (∀ p, c.idPattern = some p → W.matching p e.1) ∧ WrittenObject written c.properties e.2 i.2

/-- A registry without instances is left out. -/
def WrittenRegistry (written : Ty → Doc → AVal → Prop) (kvs : List (Str × Doc)) (c : Class)
    (r : List (Str × AFields)) : Prop :=
  (kvs.lookup (lower c.plural) = none ∧ r = []) ∨
  ∃ entries, kvs.lookup (lower c.plural) = some (.obj entries) ∧ (entries.map (·.1)).Nodup ∧
    Forall₂ (WrittenInstance W written c) entries r

/-- The document is written for the graph. -/
def WrittenGraph (n : Nat) (d : Doc) (a : AGraph) : Prop :=
  ∃ kvs, d = .obj kvs ∧ Closed kvs (g.properties.map (·.json) ++ g.classes.map fun c => lower c.plural) ∧
    Forall₂ (fun (c : Class) (r : Str × List (Str × AFields)) => r.1 = c.name ∧
      WrittenRegistry W (Written W g (Described g kvs) n) kvs c r.2) g.classes a.registries ∧
    WrittenProps (Written W g (Described g kvs) n) kvs g.properties a.fields

end

/-! ## What the languages write for the values without parts -/

/-- Python. The value satisfies the type. The text of a normalized path need not match the pattern. -/
def pyWrites (L : PyRuntime.Lib) (S : PyRuntime.Settings) : Ty → Doc → AVal → Prop
  | .boolean, d, a => ∃ c, d = .bool c ∧ a = .bool c
  | .integer b, d, a => (∃ i : Int, d = .int i ∧ a = .int i ∧ Within b i) ∨
    ∃ c, d = .bool c ∧ a = .bool c ∧ Within b (boolNum c)
  | .float b, d, a => ∃ q r, d = .real r ∧ F64.round r = .fin q ∧ a = .float (.fin q) ∧ Within b q
  | .string p, d, a => ∃ s, d = .str s ∧ a = .str s ∧ ∀ r, p = some r → L.reMatch r s = true
  | .path p, d, a => ∃ s, d = .str s ∧ a = .str s ∧ (S.pathlib = false → ∀ r, p = some r → L.reMatch r s = true)
  | .date f, d, a => ∃ t : PyRuntime.Date, d = .str (L.strftime t.full f) ∧ a = .date t.year t.month t.day
  | .time f, d, a => ∃ t : PyRuntime.Time, d = .str (L.strftime t.full f) ∧
    a = .time t.hour t.minute t.second (t.micro * 1000)
  | .datetime f, d, a => ∃ t : PyRuntime.DateTime, d = .str (L.strftime t f) ∧
    a = .datetime t.year t.month t.day t.hour t.minute t.second (t.micro * 1000)
  | .timeZone, d, a => ∃ z, d = .str z ∧ a = .zone z
  | .duration, d, a => ∃ x : Timedelta, d = .str (pyToString x) ∧ a = .duration (x * 1000)
  | _, _, _ => False

/-- Go -/
def goWrites (L : GoRuntime.Lib) : Ty → Doc → AVal → Prop
  | .boolean, d, a => ∃ c, d = .bool c ∧ a = .bool c
  | .integer b, d, a => ∃ i : Int, d = .int i ∧ a = .int i ∧ IsInt64 i ∧ Within b i
  | .float b, d, a => ∃ q, Digits q d ∧ a = .float (.fin q) ∧ Within b q
  | .string p, d, a => ∃ s, d = .str s ∧ a = .str s ∧ ∀ r, p = some r → L.matchString r s = true
  | .path p, d, a => ∃ s, d = .str s ∧ a = .str s ∧ ∀ r, p = some r → L.matchString r s = true
  | .date f, d, a => ∃ t : GoRuntime.Time, d = .str (L.formatTime t (GoRuntime.layout f)) ∧
    a = .date t.year t.month t.day
  | .time f, d, a => ∃ t : GoRuntime.Time, d = .str (L.formatTime t (GoRuntime.layout f)) ∧
    a = .time t.hour t.minute t.second t.nano
  | .datetime f, d, a => ∃ t : GoRuntime.Time, d = .str (L.formatTime t (GoRuntime.layout f)) ∧
    a = .datetime t.year t.month t.day t.hour t.minute t.second t.nano
  | .timeZone, d, a => ∃ z, d = .str z ∧ a = .zone z
  | .duration, d, a => ∃ x, d = .str (goToString x) ∧ a = .duration x ∧ IsInt64 x
  | _, _, _ => False

/-- C++. The least duration is not serialized. -/
def cppWrites (D : CppRuntime.DateLib) (L : CppRuntime.Lib) : Ty → Doc → AVal → Prop
  | .boolean, d, a => ∃ c, d = .bool c ∧ a = .bool c
  | .integer b, d, a => ∃ i : Int, d = .int i ∧ a = .int i ∧ IsInt64 i ∧ Within b i
  | .float b, d, a => ∃ q, Digits q d ∧ a = .float (.fin q) ∧ Within b q
  | .string p, d, a => ∃ s, d = .str s ∧ a = .str s ∧ ∀ r, p = some r → L.regexMatch r s = true
  | .path p, d, a => ∃ s, d = .str s ∧ a = .str s ∧ ∀ r, p = some r → L.regexMatch r s = true
  | .date f, d, a => ∃ s t, d = .str s ∧ CppRuntime.Spec.TextOf D L .date f t s ∧ a = .date t.year t.month t.day
  | .time f, d, a => ∃ s t, d = .str s ∧ CppRuntime.Spec.TextOf D L .time f t s ∧
    a = .time t.hour t.minute t.second 0
  | .datetime f, d, a => ∃ s t, d = .str s ∧ CppRuntime.Spec.TextOf D L .datetime f t s ∧
    a = .datetime t.year t.month t.day t.hour t.minute t.second 0
  | .timeZone, d, a => ∃ z, d = .str z ∧ a = .zone z
  | .duration, d, a => ∃ s x, d = .str s ∧ cppToString x = some s ∧ a = .duration x ∧ IsInt64 x ∧ x ≠ minInt64
  | _, _, _ => False

def pyWriter (L : PyRuntime.Lib) (S : PyRuntime.Settings) : Leaves :=
  ⟨pyWrites L S, fun p s => L.reMatch p s = true, false⟩

def goWriter (L : GoRuntime.Lib) : Leaves := ⟨goWrites L, fun p s => L.matchString p s = true, false⟩

def cppWriter (D : CppRuntime.DateLib) (L : CppRuntime.Lib) : Leaves :=
  ⟨cppWrites D L, fun p s => L.regexMatch p s = true, false⟩

/-! ## Dictionaries of Python -/

section Python

open PyRuntime PyRuntime.Spec

variable (g : Graph)

/-- The model keeps a dictionary as the list of its items; in a dictionary every key is there once. -/
def PyDictsTy (embed : Str → Val → Prop) : Ty → Val → Prop
  | .array t _ _, x => ∀ vs, x = .list vs → ∀ v ∈ vs, PyDictsTy embed t v
  | .map t, x => ∀ o kvs, x = .map o kvs → (kvs.map (·.1)).Nodup ∧ ∀ kv ∈ kvs, PyDictsTy embed t kv.2
  | .embed name, x => embed name x
  | _, _ => True

def PyDictsEmbed : Nat → Str → Val → Prop
  | 0, _, _ => True
  | n + 1, name, x => ∀ e attrs, g.embed? name = some e → x = .obj name attrs →
    FaithfulProps (PyDictsTy (PyDictsEmbed n)) e.properties attrs

structure PyDicts (n : Nat) (gv : GraphVal) : Prop where
  registries : ∀ c ∈ g.classes, ∀ r, gv.registries.lookup c.name = some r → (r.instances.map (·.1)).Nodup ∧
    ∀ i ∈ r.instances, FaithfulProps (PyDictsTy (PyDictsEmbed g n)) c.properties i.2.attrs
  attrs : FaithfulProps (PyDictsTy (PyDictsEmbed g n)) g.properties gv.attrs

end Python

/-! ## Graphs which C++ can serialize -/

section Cpp

open CppRuntime CppRuntime.Spec

variable (D : DateLib) (C : Lib) (g : Graph)

/-- The times have a text, the durations are not the least one, and in every structure (with properties) something is
set: otherwise `null` is written. -/
def CppWritableTy (embed : Str → Val → Prop) : Ty → Val → Prop
  | .date f, x => ∀ t, x = .time t → ∃ s, TextOf D C .date f t s
  | .time f, x => ∀ t, x = .time t → ∃ s, TextOf D C .time f t s
  | .datetime f, x => ∀ t, x = .time t → ∃ s, TextOf D C .datetime f t s
  | .duration, x => ∀ d, x = .duration d → d ≠ minInt64
  | .array t _ _, x => ∀ vs, x = .list vs → ∀ v ∈ vs, CppWritableTy embed t v
  | .map t, x => ∀ kvs, x = .map kvs → ∀ kv ∈ kvs, CppWritableTy embed t kv.2
  | .embed name, x => embed name x
  | _, _ => True

def CppWritableEmbed : Nat → Str → Val → Prop
  | 0, _, _ => True
  | n + 1, name, x => ∀ e fields, g.embed? name = some e → x = .obj name fields →
    FaithfulComposite (CppWritableTy D C (CppWritableEmbed n)) e.properties fields

structure CppWritable (n : Nat) (gv : GraphVal) : Prop where
  registries : ∀ c ∈ g.classes, ∀ r, gv.registries.lookup c.name = some r →
    ∀ i ∈ r, FaithfulComposite (CppWritableTy D C (CppWritableEmbed D C g n)) c.properties i.2.fields
  fields : FaithfulProps (CppWritableTy D C (CppWritableEmbed D C g n)) g.properties gv.fields
  /-- the graph is not empty, or nothing can be in it -/
  shown : (g.properties = [] ∧ g.classes = []) ∨ SomeSet g.properties gv.fields ∨
    ∃ c ∈ g.classes, ∃ r, gv.registries.lookup c.name = some r ∧ r ≠ []

end Cpp

/-! ## Values which cross over -/

section

variable (P : Ty → AVal → Prop) (key : Str → Str → Prop) (g : Graph)

/-- `P` holds for every value without parts. -/
def AllTy (embed : Str → AVal → Prop) : Ty → AVal → Prop
  | .array t _ _, a => ∀ as, a = .list as → ∀ x ∈ as, AllTy embed t x
  | .map t, a => ∀ as, a = .map as → ∀ e ∈ as, AllTy embed t e.2
  | .cls _, _ => True
  | .embed name, a => embed name a
  | t, a => P t a

def AllProps (all : Ty → AVal → Prop) (ps : List Property) (fields : AFields) : Prop :=
  ∀ e ∈ ps.zip fields, all e.1.ty e.2.2

def AllEmbed : Nat → Str → AVal → Prop
  | 0, _, _ => True
  | n + 1, name, a => ∀ e fields, g.embed? name = some e → a = .obj name fields →
    AllProps (AllTy P (AllEmbed n)) e.properties fields

/-- `P` holds for every value without parts in the graph, `key` for the patterns and identifiers of the classes. -/
def AllGraph (n : Nat) (a : AGraph) : Prop :=
  AllProps (AllTy P (AllEmbed P g n)) g.properties a.fields ∧
  ∀ e ∈ g.classes.zip a.registries, ∀ i ∈ e.2.2,
    (∀ p, e.1.idPattern = some p → key p i.1) ∧ AllProps (AllTy P (AllEmbed P g n)) e.1.properties i.2

end

/-- Whatever the one language writes for the value, the other reads as the value. -/
def CrossLeaf (W V : Leaves) (t : Ty) (a : AVal) : Prop := ∀ d, W.leaf t d a → V.leaf t d a

/-- All the values of the graph and its identifiers cross over from the writer `W` to the reader `V`. -/
def Crosses (W V : Leaves) (g : Graph) (n : Nat) (a : AGraph) : Prop :=
  AllGraph (CrossLeaf W V) (fun p s => W.matching p s → V.matching p s) g n a

/-- A value which every other language reads: no boolean for an integer, integers of at most 53 bits; a float is smaller
than `2 ^ 53` or has no bounds; the text of a string which matches the pattern in the one language matches it in the
other; the text of a path matches it and the path is normal; the date, time or time zone is read as it is written; a
duration is in microseconds and fits into 64 bits as nanoseconds. -/
def PlainValue (W V : Leaves) (normal : Str → Prop) : Ty → AVal → Prop
  | .integer _, a => (∀ c, a ≠ .bool c) ∧ ∀ i : Int, a = .int i → i.natAbs ≤ 2 ^ 53
  | .float b, a => b = {} ∨ ∀ q, a = .float (.fin q) → -(2 ^ 53) < q ∧ q < 2 ^ 53
  | .string p, a => ∀ s, a = .str s → ∀ r, p = some r → W.matching r s → V.matching r s
  | .path p, a => ∀ s, a = .str s → normal s ∧ ∀ r, p = some r → V.matching r s
  | t@(.date _), a | t@(.time _), a | t@(.datetime _), a | t@.timeZone, a => CrossLeaf W V t a
  | .duration, a => ∀ x, a = .duration x → x % 1000 = 0 ∧ (x.natAbs : Int) ≤ maxInt64
  | _, _ => True

/-- All the values of the graph are plain, and an identifier which matches the pattern in the one language matches it in
the other. -/
def PlainGraph (W V : Leaves) (normal : Str → Prop) (g : Graph) (n : Nat) (a : AGraph) : Prop :=
  AllGraph (PlainValue W V normal) (fun p s => W.matching p s → V.matching p s) g n a

end Mapry.Interop
