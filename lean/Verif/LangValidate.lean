import Verif.Naming
import Verif.Schema
import Verif.Strftime

/-!
# Model of `mapry/py/validation.py`, `mapry/cpp/validation.py` and `mapry/go/validation.py`

The three modules have the same structure and differ in the keywords and in the translation of the
names; Go has two more checks at the end.

An error is modelled by its reference and the arguments of its message.
-/

namespace Mapry.LangValidate

open Mapry.Naming

/-- The kind of a composite, as worded in the messages. -/
inductive Kind where
  | graph | cls | embed
  deriving DecidableEq, Repr

/-- The message of an error: its template and its arguments. -/
inductive Msg where
  /-- "The ... identifier `name` is reserved / is a keyword" -/
  | fieldKeyword (name : Str)
  /-- "The ... identifier `name` conflicts another attribute (`ref`)" -/
  | fieldDuplicate (name : Str) (ref : Str)
  /-- "The ... identifier `name` is reserved for class identifiers ..." -/
  | fieldReserved (name : Str)
  /-- "The ... identifier `field` corresponding to the registry of the class `cls` ... is reserved" -/
  | registryKeyword (field cls : Str)
  /-- "... conflicts with another attribute corresponding to a property ... (`ref`)" -/
  | registryProperty (field cls ref : Str)
  /-- "... conflicts with the attribute corresponding to another registry of the class `other`
  (`ref`)" -/
  | registryRegistry (field cls other ref : Str)
  /-- "... identifier (`id`) corresponding to the name of the `kind` (`name`) is reserved" -/
  | compositeKeyword (kind : Kind) (id name : Str)
  /-- "`kind` `name` and the composite `other` (`ref`) have conflicting identifiers: `id`" -/
  | compositeDuplicate (kind : Kind) (name other ref id : Str)
  /-- "... format contains a conflicting Go time.Format directive `directive`: `format`" -/
  | formatConflict (directive format : Str)
  deriving DecidableEq, Repr

/-- `mapry.validation.SchemaError` (`/repo/mapry/validation.py:18-29`) -/
structure SErr where
  ref : Str
  msg : Msg
  deriving DecidableEq, Repr

/-- What distinguishes the target languages. -/
structure Lang where
  /-- `_KEYWORDS` -/
  keywords : List Str
  /-- name of the field or attribute of a property or registry -/
  field : Str → Except Exc Str
  /-- identifier of a composite -/
  composite : Str → Except Exc Str
  /-- the field reserved in classes -/
  reserved : Str

/-- `/repo/mapry/py/validation.py:9-14` -/
def pyKeywords : List Str :=
  [c!"False", c!"None", c!"True", c!"and", c!"as", c!"assert", c!"break", c!"class",
   c!"continue", c!"def", c!"del", c!"elif", c!"else", c!"except", c!"finally", c!"for",
   c!"from", c!"global", c!"if", c!"import", c!"in", c!"is", c!"lambda", c!"nonlocal", c!"not",
   c!"or", c!"pass", c!"raise", c!"return", c!"try", c!"while", c!"with", c!"yield"]

/-- `/repo/mapry/cpp/validation.py:10-25` -/
def cppKeywords : List Str :=
  [c!"alignas", c!"alignof", c!"and", c!"and_eq", c!"asm", c!"atomic_cancel",
   c!"atomic_commit", c!"atomic_noexcept", c!"auto", c!"bitand", c!"bitor", c!"bool",
   c!"break", c!"case", c!"catch", c!"char", c!"char16_t", c!"char32_t", c!"class", c!"compl",
   c!"concept", c!"const", c!"constexpr", c!"const_cast", c!"continue", c!"co_await",
   c!"co_return", c!"co_yield", c!"decltype", c!"default", c!"delete", c!"do", c!"double",
   c!"dynamic_cast", c!"else", c!"enum", c!"explicit", c!"export", c!"extern", c!"false",
   c!"float", c!"for", c!"friend", c!"goto", c!"if", c!"import", c!"inline", c!"int", c!"long",
   c!"module", c!"mutable", c!"namespace", c!"new", c!"noexcept", c!"not", c!"not_eq",
   c!"nullptr", c!"operator", c!"or", c!"or_eq", c!"private", c!"protected", c!"public",
   c!"register", c!"reinterpret_cast", c!"requires", c!"return", c!"short", c!"signed",
   c!"sizeof", c!"static", c!"static_assert", c!"static_cast", c!"struct", c!"switch",
   c!"synchronized", c!"template", c!"this", c!"thread_local", c!"throw", c!"true", c!"try",
   c!"typedef", c!"typeid", c!"typename", c!"union", c!"unsigned", c!"using", c!"virtual",
   c!"void", c!"volatile", c!"wchar_t", c!"while", c!"xor", c!"xor_eq"]

/-- `/repo/mapry/go/validation.py:10-15` -/
def goKeywords : List Str :=
  [c!"break", c!"default", c!"func", c!"interface", c!"select", c!"case", c!"defer", c!"go",
   c!"map", c!"struct", c!"chan", c!"else", c!"goto", c!"package", c!"switch", c!"const",
   c!"fallthrough", c!"if", c!"range", c!"type", c!"continue", c!"for", c!"import", c!"return",
   c!"var"]

def py : Lang := ⟨pyKeywords, asAttribute, asComposite, c!"id"⟩
def cpp : Lang := ⟨cppKeywords, asAttribute, asComposite, c!"id"⟩
def go : Lang := ⟨goKeywords, ucamelCase, ucamelCase, c!"ID"⟩

/-- A field with its name and reference (`_Attribute`, `_Field`). -/
abbrev Field := Str × Str

/-- `_properties_to_attributes` (`/repo/mapry/py/validation.py:32-47`), `_properties_to_fields`
(`/repo/mapry/cpp/validation.py:42-55`, `/repo/mapry/go/validation.py:33-47`) -/
def toFields (L : Lang) : List Property → Except Exc (List Field)
  | [] => .ok []
  | p :: ps => do
    let name ← L.field p.name
    let rest ← toFields L ps
    return (name, p.ref) :: rest

/-- The loop of `_validate_attributes` (`/repo/mapry/py/validation.py:59-85`) and `_validate_fields`
(`/repo/mapry/cpp/validation.py:58-93`, `/repo/mapry/go/validation.py:50-84`); `seen` is
`name_to_attributes` with the references. -/
def fieldErrors (keywords : List Str) : List Field → List Field → List SErr
  | _, [] => []
  | seen, (name, ref) :: rest =>
    (if name ∈ keywords then [⟨ref, .fieldKeyword name⟩] else []) ++
    match seen.lookup name with
    | some other => ⟨ref, .fieldDuplicate name other⟩ :: fieldErrors keywords seen rest
    | none => fieldErrors keywords ((name, ref) :: seen) rest

/-- `_validate_attributes`, `_validate_fields` -/
def validateFields (L : Lang) (fields : List Field) : List SErr := fieldErrors L.keywords [] fields

/-- The loop of `_validate_class_attributes` (`/repo/mapry/py/validation.py:104-113`), analogously in
C++ and Go. -/
def reservedErrors (L : Lang) (fields : List Field) : List SErr :=
  fields.filterMap fun f => if f.1 = L.reserved then some ⟨f.2, .fieldReserved f.1⟩ else none

/-- `_validate_class_attributes` (`/repo/mapry/py/validation.py:88-114`), `_validate_class_fields`
(`/repo/mapry/cpp/validation.py:96-118`, `/repo/mapry/go/validation.py:87-109`) -/
def validateClass (L : Lang) (ps : List Property) : Except Exc (List SErr) := do
  let fields ← toFields L ps
  return validateFields L fields ++ reservedErrors L fields

/-- `_validate_embed_fields` (`/repo/mapry/cpp/validation.py:121-134`,
`/repo/mapry/go/validation.py:112-125`; inlined at `/repo/mapry/py/validation.py:263-266`) -/
def validateEmbed (L : Lang) (ps : List Property) : Except Exc (List SErr) := do
  let fields ← toFields L ps
  return validateFields L fields

/-- The loop over the registries, `/repo/mapry/py/validation.py:140-179`,
`/repo/mapry/cpp/validation.py:152-191`, `/repo/mapry/go/validation.py:143-180`.
`propertyMap` is the dictionary of the fields of the properties (a later one replaces an earlier one
of the same name, hence it is looked up from the end), `seen` is the map of the registries. -/
def registryErrors (L : Lang) (fields : List Field) :
    List (Str × Str × Str) → List Class → Except Exc (List SErr)
  | _, [] => .ok []
  | seen, c :: cs => do
    let field ← L.field c.plural
    let keyword := if field ∈ L.keywords then [⟨c.ref, .registryKeyword field c.name⟩] else []
    let property := match fields.reverse.lookup field with
      | some ref => [⟨c.ref, .registryProperty field c.name ref⟩]
      | none => []
    match seen.lookup field with
    | some (other, ref) =>
      let rest ← registryErrors L fields seen cs
      return keyword ++ property ++ ⟨c.ref, .registryRegistry field c.name other ref⟩ :: rest
    | none =>
      let rest ← registryErrors L fields ((field, c.name, c.ref) :: seen) cs
      return keyword ++ property ++ rest

/-- `_validate_graph_attributes` (`/repo/mapry/py/validation.py:117-181`), `_validate_graph_fields`
(`/repo/mapry/cpp/validation.py:137-193`, `/repo/mapry/go/validation.py:128-180`) -/
def validateGraph (L : Lang) (g : Graph) : Except Exc (List SErr) := do
  let fields ← toFields L g.properties
  let registries ← registryErrors L fields [] g.classes
  return validateFields L fields ++ registries

/-- `name_to_composite`: the identifier, the name and the reference. -/
abbrev Seen := List (Str × Str × Str)

/-- A composite in the loops of `validate_schema`: its kind, name, reference and properties. -/
structure Comp where
  kind : Kind
  name : Str
  ref : Str
  properties : List Property

/-- The loops over the classes and embeds of `validate_schema`,
`/repo/mapry/py/validation.py:209-266`, `/repo/mapry/cpp/validation.py:220-275`,
`/repo/mapry/go/validation.py:336-391`. Both loops have the same body except for the messages and
for the check of the fields. -/
def compositeErrors (L : Lang) : Seen → List Comp → Except Exc (List SErr)
  | _, [] => .ok []
  | seen, c :: cs => do
    let id ← L.composite c.name
    let keyword := if id ∈ L.keywords then [⟨c.ref, .compositeKeyword c.kind id c.name⟩] else []
    let own := fun () =>
      if c.kind = .cls then validateClass L c.properties else validateEmbed L c.properties
    match seen.lookup id with
    | some (other, ref) => do
      let fields ← own ()
      let rest ← compositeErrors L seen cs
      return keyword ++ ⟨c.ref, .compositeDuplicate c.kind c.name other ref id⟩ :: (fields ++ rest)
    | none => do
      let fields ← own ()
      let rest ← compositeErrors L ((id, c.name, c.ref) :: seen) cs
      return keyword ++ (fields ++ rest)

/-- The classes and embeds in the order of the loops. -/
def composites (g : Graph) : List Comp :=
  g.classes.map (fun c => ⟨.cls, c.name, c.ref, c.properties⟩) ++
  g.embeds.map (fun e => ⟨.embed, e.name, e.ref, e.properties⟩)

/-- `validate_schema`, `/repo/mapry/py/validation.py:184-272`, `/repo/mapry/cpp/validation.py:196-280`,
`/repo/mapry/go/validation.py:312-399` (without the last two checks of Go). The graph enters
`name_to_composite` only if its identifier is a keyword: the assignment is inside of the `if`
(`/repo/mapry/py/validation.py:207`, `/repo/mapry/cpp/validation.py:218`,
`/repo/mapry/go/validation.py:334`). -/
def validateSchema (L : Lang) (g : Graph) : Except Exc (List SErr) := do
  let id ← L.composite g.name
  if id ∈ L.keywords then do
    let cs ← compositeErrors L [(id, g.name, g.ref)] (composites g)
    let gs ← validateGraph L g
    return ⟨g.ref, .compositeKeyword .graph id g.name⟩ :: (cs ++ gs)
  else do
    let cs ← compositeErrors L [] (composites g)
    let gs ← validateGraph L g
    return cs ++ gs

/-! ## The last checks of Go -/

/-- The format of a date, time or datetime (`/repo/mapry/go/validation.py:269-275`). -/
def Ty.format? : Ty → Option Str
  | .date f => some f
  | .datetime f => some f
  | .time f => some f
  | _ => none

/-- `_validate_date_time_formats` (`/repo/mapry/go/validation.py:259-309`) -/
def formatErrors : List (Ty × Str) → Except Exc (List SErr)
  | [] => .ok []
  | (t, ref) :: rest =>
    match Ty.format? t with
    | none => formatErrors rest
    | some f => do
      let tss ← Strftime.tokenize f
      let rest ← formatErrors rest
      return (Strftime.goFormatConflicts tss.flatten).map (fun d => ⟨ref, .formatConflict d f⟩)
        ++ rest

/-- All the names of types reserved by the generated Go code
(`/repo/mapry/go/validation.py:182-198`). -/
def goReservedTypes (g : Graph) : Except Exc (List Str) := do
  let ids ← (g.name :: (g.classes.map (·.name) ++ g.embeds.map (·.name))).mapM ucamelCase
  return c!"Errors" :: ids.flatMap fun id => [id ++ c!"FromJSONable", id ++ c!"ToJSONable"]

/-- `validate_schema` of Go, `/repo/mapry/go/validation.py:312-399`. The errors about the reserved
type names (`/repo/mapry/go/validation.py:200-229`) are constructed and thrown away. -/
def goValidateSchema (g : Graph) : Except Exc (List SErr) := do
  let errs ← validateSchema go g
  let _reserved ← goReservedTypes g
  let formats ← formatErrors (iterateOverTypes g)
  return errs ++ formats

end Mapry.LangValidate
