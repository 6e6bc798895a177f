import Verif.Schema
import Verif.Validate

/-!
# Model of `mapry/parse.py`: from the mapping to the schema

A class or an embeddable structure used as a type is represented by its name (`Verif/Schema.lean`). The pointers to
the pre-allocated definitions are resolved by `Graph.cls?` and `Graph.embed?`.
-/

namespace Mapry.ParseSchema

open Mapry.PyRuntime (Json sub)
open Mapry.Validation

/-- `/repo/mapry/__init__.py:295-304` `Cpp` -/
structure Cpp where
  ns : Str
  pathAs : Str
  optionalAs : Str
  datetimeLibrary : Str
  indention : Str
  deriving DecidableEq, Repr

/-- `/repo/mapry/__init__.py:307-312` `Go` -/
structure Go where
  package : Str
  deriving DecidableEq, Repr

/-- `/repo/mapry/__init__.py:315-323` `Py` -/
structure Py where
  moduleName : Str
  pathAs : Str
  timezoneAs : Str
  indention : Str
  deriving DecidableEq, Repr

/-- `/repo/mapry/__init__.py:326-343` `Schema` -/
structure Schema where
  graph : Graph
  cpp : Option Cpp := none
  go : Option Go := none
  py : Option Py := none
  deriving DecidableEq, Repr

/-- `mapping[key] if key in mapping else default`, used as a string -/
def strItemOr (key default : Str) (kvs : Fields) : Except Exc Str :=
  match kvs.lookup key with
  | none => .ok default
  | some v => asStr v

/-- `/repo/mapry/parse.py:15-30` `_cpp_from_mapping` -/
def cppFromMapping (v : Json) : Except Exc Cpp := do
  let kvs ← asFields v
  let ns ← strItem c!"namespace" kvs
  let pathAs ← strItem c!"path_as" kvs
  let optionalAs ← strItem c!"optional_as" kvs
  let datetimeLibrary ← strItem c!"datetime_library" kvs
  let indention ← strItemOr c!"indention" c!"  " kvs
  return ⟨ns, pathAs, optionalAs, datetimeLibrary, indention⟩

/-- `/repo/mapry/parse.py:33-43` `_go_from_mapping` -/
def goFromMapping (v : Json) : Except Exc Go := do
  let kvs ← asFields v
  let package ← strItem c!"package" kvs
  return ⟨package⟩

/-- `/repo/mapry/parse.py:46-60` `_py_from_mapping` -/
def pyFromMapping (v : Json) : Except Exc Py := do
  let kvs ← asFields v
  let moduleName ← strItem c!"module_name" kvs
  let pathAs ← strItem c!"path_as" kvs
  let timezoneAs ← strItem c!"timezone_as" kvs
  let indention ← strItemOr c!"indention" c!"    " kvs
  return ⟨moduleName, pathAs, timezoneAs, indention⟩

/-- `re.compile(mapping[key]) if key in mapping else None`; the compiled pattern is its text. -/
def patternItem (L : Lib) (key : Str) (kvs : Fields) : Except Exc (Option Str) :=
  match kvs.lookup key with
  | none => .ok none
  | some v => do
    let p ← asStr v
    match L.compileError p with
    | none => return some p
    | some msg => .error (.valueError msg)

/-- `/repo/mapry/parse.py:63-88` `_class_from_mapping` -/
def classFromMapping (L : Lib) (kvs : Fields) (ref : Str) : Except Exc Class := do
  let name ← strItem c!"name" kvs
  let plural ← pluralOf kvs
  let description ← strItem c!"description" kvs
  let idPattern ← patternItem L c!"id_pattern" kvs
  return { name := name, plural := plural, description := description, ref := ref, idPattern := idPattern }

/-- `/repo/mapry/parse.py:91-103` `_embed_from_mapping` -/
def embedFromMapping (kvs : Fields) (ref : Str) : Except Exc Embed := do
  let name ← strItem c!"name" kvs
  let description ← strItem c!"description" kvs
  return { name := name, description := description, ref := ref }

/-- `int(value)`. Strings do not pass the validation, so that the conversion of a string is not modelled: it is
represented by the exception. -/
def toInt : Json → Except Exc Int
  | .int i => .ok i
  | .bool b => .ok (if b then 1 else 0)
  | .float (.fin q) => .ok (F64.truncRat q)
  | .float (.inf _) => .error .overflowError
  | .float .nan => .error (.valueError c!"cannot convert float NaN to integer")
  | .str _ => .error (.valueError c!"invalid literal for int()")
  | _ => .error .typeError

/-- `int(mapping[key]) if key in mapping else None` -/
def intItem (key : Str) (kvs : Fields) : Except Exc (Option Int) :=
  match kvs.lookup key with
  | none => .ok none
  | some v => do
    let i ← toInt v
    return some i

/-- The bounds of integers and floats, `/repo/mapry/parse.py:125-141` -/
def boundsFromMapping (kvs : Fields) : Except Exc Bounds := do
  let min ← intItem c!"minimum" kvs
  let max ← intItem c!"maximum" kvs
  return ⟨min, flag c!"exclusive_minimum" kvs, max, flag c!"exclusive_maximum" kvs⟩

/-- `mapping.get('format', None)` replaced by the default in the constructor of the type,
`/repo/mapry/__init__.py:95-137` -/
def formatItem (default : Str) (kvs : Fields) : Except Exc Str :=
  match kvs.lookup c!"format" with
  | none => .ok default
  | some .null => .ok default
  | some v => asStr v

/-- The body of `/repo/mapry/parse.py:106-188` `_recurse_type_from_mapping`; `values` is the outcome for
`mapping['values']`. -/
def typeBody (L : Lib) (classes embeds : List Str) (kvs : Fields) (values : Except Exc Ty) : Except Exc Ty := do
  let type ← strItem c!"type" kvs
  if type = c!"boolean" then return .boolean
  else if type = c!"integer" then return .integer (← boundsFromMapping kvs)
  else if type = c!"float" then return .float (← boundsFromMapping kvs)
  else if type = c!"string" then return .string (← patternItem L c!"pattern" kvs)
  else if type = c!"path" then return .path (← patternItem L c!"pattern" kvs)
  else if type = c!"date" then return .date (← formatItem c!"%Y-%m-%d" kvs)
  else if type = c!"time" then return .time (← formatItem c!"%H:%M:%S" kvs)
  else if type = c!"datetime" then return .datetime (← formatItem c!"%Y-%m-%dT%H:%M:%SZ" kvs)
  else if type = c!"time_zone" then return .timeZone
  else if type = c!"duration" then return .duration
  else if type = c!"array" then do
    let values ← values
    let lo ← intItem c!"minimum_size" kvs
    let hi ← intItem c!"maximum_size" kvs
    return .array values lo hi
  else if type = c!"map" then return .map (← values)
  else if type ∈ classes then return .cls type
  else if type ∈ embeds then return .embed type
  else .error (.notImplemented (c!"Unhandled type identifier: " ++ type))

mutual

/-- `/repo/mapry/parse.py:106-188` `_recurse_type_from_mapping` -/
def typeFromMapping (L : Lib) (classes embeds : List Str) : Json → Except Exc Ty
  | .obj _ kvs => typeBody L classes embeds kvs (valuesFromMapping L classes embeds kvs)
  | _ => .error .typeError

/-- The recursion into `mapping['values']` -/
def valuesFromMapping (L : Lib) (classes embeds : List Str) : Fields → Except Exc Ty
  | [] => .error .keyError
  | (k, v) :: rest =>
    if k = c!"values" then typeFromMapping L classes embeds v else valuesFromMapping L classes embeds rest

end

/-- `mapping.get('optional', False)`; only Booleans pass the validation. -/
def optionalItem (kvs : Fields) : Except Exc Bool :=
  match kvs.lookup c!"optional" with
  | none => .ok false
  | some (.bool b) => .ok b
  | some _ => .error .typeError

/-- The body of the loop of `/repo/mapry/parse.py:254-264` -/
def propertyFromMapping (L : Lib) (classes embeds : List Str) (ref : Str) (kv : Str × Json) :
    Except Exc Property := do
  let kvs ← asFields kv.2
  let description ← strItem c!"description" kvs
  let json ← strItemOr c!"json" kv.1 kvs
  let ty ← typeFromMapping L classes embeds kv.2
  let optional ← optionalItem kvs
  return { ref := sub ref kv.1, name := kv.1, ty := ty, description := description, json := json,
           optional := optional }

/-- Apply a function to every element; an exception stops the loop. -/
def mapE {α β : Type} (f : α → Except Exc β) : List α → Except Exc (List β)
  | [] => .ok []
  | x :: xs => do
    let y ← f x
    let ys ← mapE f xs
    return y :: ys

/-- `/repo/mapry/parse.py:231-266` `_properties_from_mapping`; the names are distinct, so that no property is
overwritten. -/
def propertiesFromMapping (L : Lib) (classes embeds : List Str) (ref : Str) : Json → Except Exc (List Property)
  | .obj ordered kvs => mapE (propertyFromMapping L classes embeds ref) (orderedItems ordered kvs)
  | _ => .error .attributeError

/-- `if 'properties' in mapping: ...` -/
def propertiesOf (L : Lib) (classes embeds : List Str) (ref : Str) (kvs : Fields) : Except Exc (List Property) :=
  match kvs.lookup c!"properties" with
  | none => .ok []
  | some v => propertiesFromMapping L classes embeds ref v

/-- `graph.classes[cls.name] = cls` -/
def setClass (c : Class) : List Class → List Class
  | [] => [c]
  | d :: ds => if d.name = c.name then c :: ds else d :: setClass c ds

/-- `graph.embeds[embed.name] = embed` -/
def setEmbed (e : Embed) : List Embed → List Embed
  | [] => [e]
  | d :: ds => if d.name = e.name then e :: ds else d :: setEmbed e ds

/-- The loop of `/repo/mapry/parse.py:296-300` -/
def allocateClasses (L : Lib) (ref : Str) : Nat → List Json → List Class → Except Exc (List Class)
  | _, [], acc => .ok acc
  | i, x :: xs, acc => do
    let kvs ← asFields x
    let c ← classFromMapping L kvs (refAt ref c!"classes" i)
    allocateClasses L ref (i + 1) xs (setClass c acc)

/-- The loop of `/repo/mapry/parse.py:302-306` -/
def allocateEmbeds (ref : Str) : Nat → List Json → List Embed → Except Exc (List Embed)
  | _, [], acc => .ok acc
  | i, x :: xs, acc => do
    let kvs ← asFields x
    let e ← embedFromMapping kvs (refAt ref c!"embeds" i)
    allocateEmbeds ref (i + 1) xs (setEmbed e acc)

/-- `cls.properties = properties` for the class with the name -/
def setClassProperties (name : Str) (ps : List Property) (cs : List Class) : List Class :=
  cs.map fun c => if c.name = name then { c with properties := ps } else c

/-- `embed.properties = properties` for the embeddable structure with the name -/
def setEmbedProperties (name : Str) (ps : List Property) (es : List Embed) : List Embed :=
  es.map fun e => if e.name = name then { e with properties := ps } else e

/-- The loop of `/repo/mapry/parse.py:322-337`; properties which are not given leave the empty dictionary. -/
def fillClasses (L : Lib) (classes embeds : List Str) (ref : Str) :
    Nat → List Json → List Class → Except Exc (List Class)
  | _, [], acc => .ok acc
  | i, x :: xs, acc => do
    let kvs ← asFields x
    let name ← strItem c!"name" kvs
    let ps ← propertiesOf L classes embeds (refAt ref c!"classes" i) kvs
    fillClasses L classes embeds ref (i + 1) xs
      (if (kvs.lookup c!"properties").isSome then setClassProperties name ps acc else acc)

/-- The loop of `/repo/mapry/parse.py:340-355` -/
def fillEmbeds (L : Lib) (classes embeds : List Str) (ref : Str) :
    Nat → List Json → List Embed → Except Exc (List Embed)
  | _, [], acc => .ok acc
  | i, x :: xs, acc => do
    let kvs ← asFields x
    let name ← strItem c!"name" kvs
    let ps ← propertiesOf L classes embeds (refAt ref c!"embeds" i) kvs
    fillEmbeds L classes embeds ref (i + 1) xs
      (if (kvs.lookup c!"properties").isSome then setEmbedProperties name ps acc else acc)

/-- `f(mapping[key]) if key in mapping else None` -/
def settingsItem {α : Type} (key : Str) (f : Json → Except Exc α) (kvs : Fields) : Except Exc (Option α) :=
  match kvs.lookup key with
  | none => .ok none
  | some v => do
    let s ← f v
    return some s

/-- `/repo/mapry/parse.py:288-364`: `schema_from_mapping` after the validation -/
def schemaAfterValidation (L : Lib) (kvs : Fields) (ref : Str) : Except Exc Schema := do
  let name ← strItem c!"name" kvs
  let description ← strItem c!"description" kvs
  let classMappings ← elements c!"classes" kvs
  let embedMappings ← elements c!"embeds" kvs
  let classes ← allocateClasses L ref 0 classMappings []
  let embeds ← allocateEmbeds ref 0 embedMappings []
  let classNames := classes.map (·.name)
  let embedNames := embeds.map (·.name)
  let properties ← propertiesOf L classNames embedNames ref kvs
  let classes ← fillClasses L classNames embedNames ref 0 classMappings classes
  let embeds ← fillEmbeds L classNames embedNames ref 0 embedMappings embeds
  let cpp ← settingsItem c!"cpp" cppFromMapping kvs
  let go ← settingsItem c!"go" goFromMapping kvs
  let py ← settingsItem c!"py" pyFromMapping kvs
  return {
    graph := { ref := ref, name := name, description := description, classes := classes, embeds := embeds,
               properties := properties }
    cpp := cpp, go := go, py := py }

/-- `str(err)` of a `SchemaError` -/
def errText (L : Lib) (e : Validation.Err) : Str := e.ref ++ c!": " ++ L.render e.kind

/-- `/repo/mapry/parse.py:269-364` `schema_from_mapping` -/
def schemaFromMapping (L : Lib) (mapping : Json) (ref : Str) : Except Exc Schema := do
  match ← validate L mapping ref with
  | [] => do
    let kvs ← asFields mapping
    schemaAfterValidation L kvs ref
  | [err] => .error (.schemaError err.ref (L.render err.kind))
  | errs => .error (.schemaError ref (joinWith c!"\n" (errs.map (errText L))))

end Mapry.ParseSchema
