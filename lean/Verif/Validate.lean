import Verif.Naming
import Verif.PyRuntime
import Verif.Strftime
import Verif.Text

/-!
# Model of `mapry/schemas.py` and `mapry/validation.py`

A schema mapping is a JSON value as read by `json.load`, an association list with distinct keys stands for
an object. Simplifications:

* A check of `jsonschema.validate` is a Boolean function. Which of several violations `jsonschema` picks, and
  how it words it, is a parameter (`Lib.explainGraph`, `Lib.explainType`).
* The patterns of the JSON schemas are written as Boolean functions with the meaning of `re.search`.
* The text of a `SchemaError` is represented by its kind.
* The call stack is unbounded.
-/

namespace Mapry.Validation

open Mapry.PyRuntime (Json sub)
open Mapry.Strftime (tokenize validateDateTokens validateTimeTokens)
open Mapry.Text (natStr)

/-- The fields of an object -/
abbrev Fields := List (Str × Json)

/-- The kind of a `SchemaError` -/
inductive Kind where
  | jsonSchema (msg : Str)
  | nameFirst
  | descriptionSecond
  | duplicate (name : Str)
  | idPattern (msg : Str)
  | reservedId
  | typeFirst
  | typeDescription
  | invalidType
  | typeSchema (msg : Str)
  | unexpected (key : Str)
  | minOverMax
  | emptyRange
  | pattern (msg : Str)
  | format
  | sizes
  | propertyName (name : Str)
  | plural (property cls : Str)
  deriving DecidableEq, Repr

/-- `SchemaError`, `/repo/mapry/validation.py:18-29` -/
structure Err where
  ref : Str
  kind : Kind
  deriving DecidableEq, Repr

/-- The parts of the libraries the validation relies on -/
structure Lib where
  /-- the message of the error raised by `re.compile(pattern)` -/
  compileError : Str → Option Str
  /-- the path and the message of the error raised by `jsonschema.validate` -/
  explainGraph : Json → List Str × Str
  explainType : Json → List Str × Str
  /-- the text of an error -/
  render : Kind → Str

/-! ## Patterns of `mapry/schemas.py` -/

/-- `re.search('^x$', text)` where `x` is matched by the function: `$` also matches before a line feed at the
end of the text. -/
def dollar (body : Str → Bool) (s : Str) : Bool :=
  body s || (s.getLast? == some '\n' && body s.dropLast)

/-- `[a-zA-Z0-9_]` -/
def isWord (c : Char) : Bool := c.isAlphanum || c == '_'

/-- `first([a-zA-Z0-9_]*[a-zA-Z0-9])?` -/
def identBody (first : Char → Bool) : Str → Bool
  | [] => false
  | c :: cs => first c && cs.all isWord && (match cs.getLast? with | none => true | some l => l.isAlphanum)

/-- `^[A-Z]([a-zA-Z0-9_]*[a-zA-Z0-9])?$`, `/repo/mapry/schemas.py:165` and `178` -/
def classNameRe : Str → Bool := dollar (identBody Char.isUpper)

/-- `_PROPERTY_RE` = `^[a-zA-Z]([a-zA-Z0-9_]*[a-zA-Z0-9])?$`, `/repo/mapry/validation.py:104`; the method `match`
coincides with `search` due to `^`. -/
def propertyRe : Str → Bool := dollar (identBody Char.isAlpha)

/-- `^[A-Z][A-Za-z0-9]*` (`/repo/mapry/schemas.py:13`) and `^[A-Z]([A-Za-z0-9_]*[a-zA-Z0-9])?` (`:206`):
both are satisfied by the first letter, as there is no `$`. -/
def upperFirstRe : Str → Bool
  | [] => false
  | c :: _ => c.isUpper

/-- `^[a-zA-Z][a-zA-Z0-9_]*`, `/repo/mapry/schemas.py:115` -/
def alphaFirstRe : Str → Bool
  | [] => false
  | c :: _ => c.isAlpha

/-- `[a-z]+.*\.` -/
def descriptionBody : Str → Bool
  | [] => false
  | c :: cs => c.isLower && cs.getLast? == some '.' && cs.all (· != '\n')

/-- `^[a-z]+.*\.$`, `/repo/mapry/schemas.py:19`, `171` and `212` -/
def descriptionRe : Str → Bool := dollar descriptionBody

/-- `[A-Za-z][A-Za-z_0-9]*` found anywhere, `/repo/mapry/schemas.py:237` -/
def typeRe (s : Str) : Bool := s.any Char.isAlpha

/-- `^[ \t]*$`, `/repo/mapry/schemas.py:100` and `151` -/
def blankRe : Str → Bool := dollar (fun s => s.all fun c => c == ' ' || c == '\t')

/-- `[a-zA-Z][a-zA-Z0-9_]*` -/
def wordBody : Str → Bool
  | [] => false
  | c :: cs => c.isAlpha && cs.all isWord

/-- Split at every `::` from the left. -/
def splitColons : Str → List Str
  | [] => [[]]
  | ':' :: ':' :: cs => [] :: splitColons cs
  | c :: cs =>
    match splitColons cs with
    | [] => [[c]]
    | p :: ps => (c :: p) :: ps

/-- `^[a-zA-Z][a-zA-Z0-9_]*(::[a-zA-Z][a-zA-Z0-9_]*)*$`, `/repo/mapry/schemas.py:65-66` -/
def namespaceRe : Str → Bool := dollar (fun s => (splitColons s).all wordBody)

/-- `^[a-zA-Z][a-zA-Z0-9_]*(\.[a-zA-Z][a-zA-Z0-9_]*)*$`, `/repo/mapry/schemas.py:131-132` -/
def moduleRe : Str → Bool := dollar (fun s => (splitChar '.' s).all wordBody)

/-! ## JSON schemas, draft 4 -/

/-- A check of a value -/
abbrev Check := Json → Bool

/-- `{"type": "string", "pattern": ...}` -/
def isStr (pattern : Str → Bool) : Check
  | .str s => pattern s
  | _ => false

/-- `{"type": "string"}` -/
def anyStr : Check := isStr fun _ => true

/-- `{"type": "string", "enum": ...}` -/
def isOneOf (values : List Str) : Check := isStr fun s => decide (s ∈ values)

/-- `{"type": "boolean"}` -/
def isBool : Check
  | .bool _ => true
  | _ => false

/-- `{"type": "integer"}`: in draft 4, a float is no integer; `bool` is excluded by `jsonschema`. -/
def isInteger : Check
  | .int _ => true
  | _ => false

/-- `{"type": "integer", "minimum": 0}` -/
def isSize : Check
  | .int i => decide (0 ≤ i)
  | _ => false

/-- `{"type": "number"}` -/
def isNumber : Check
  | .int _ => true
  | .float _ => true
  | _ => false

/-- `{"type": "object"}` -/
def isObject : Check
  | .obj _ _ => true
  | _ => false

/-- `{"type": "array", "items": ...}` -/
def isArray (items : Check) : Check
  | .arr xs => xs.all items
  | _ => false

/-- `{"type": "object", "properties": ..., "required": ..., "additionalProperties": ...}` -/
def objectOf (properties : List (Str × Check)) (required : List Str) (additional : Check) : Check
  | .obj _ kvs =>
    required.all (fun k => (kvs.lookup k).isSome) &&
    kvs.all fun kv => ((properties.lookup kv.1).getD additional) kv.2
  | _ => false

/-- `"additionalProperties": False` -/
def forbidden : Check := fun _ => false

/-- `"additionalProperties": True`, also the default -/
def allowed : Check := fun _ => true

/-- `/repo/mapry/schemas.py:57-106` `Cpp` -/
def cppCheck : Check := objectOf
  [ (c!"namespace", isStr namespaceRe),
    (c!"path_as", isOneOf [c!"std::filesystem::path", c!"boost::filesystem::path"]),
    (c!"optional_as", isOneOf [c!"boost::optional", c!"std::optional", c!"std::experimental::optional"]),
    (c!"datetime_library", isOneOf [c!"ctime", c!"date.h"]),
    (c!"indention", isStr blankRe) ]
  [c!"namespace", c!"path_as", c!"optional_as", c!"datetime_library"] forbidden

/-- `/repo/mapry/schemas.py:107-120` `Go` -/
def goCheck : Check := objectOf [(c!"package", isStr alphaFirstRe)] [c!"package"] forbidden

/-- `/repo/mapry/schemas.py:121-156` `Py` -/
def pyCheck : Check := objectOf
  [ (c!"module_name", isStr moduleRe),
    (c!"path_as", isOneOf [c!"str", c!"pathlib.Path"]),
    (c!"timezone_as", isOneOf [c!"str", c!"pytz.timezone"]),
    (c!"indention", isStr blankRe) ]
  [c!"module_name", c!"path_as", c!"timezone_as"] forbidden

/-- The `properties` of `/repo/mapry/schemas.py:226-255` `Property` -/
def propertyFields : List (Str × Check) :=
  [ (c!"description", anyStr), (c!"type", isStr typeRe), (c!"json", anyStr), (c!"optional", isBool) ]

/-- `/repo/mapry/schemas.py:226-255` `Property` -/
def propertyCheck : Check := objectOf propertyFields [c!"description", c!"type"] allowed

/-- `{"type": "object", "additionalProperties": {"$ref": "#/definitions/Property"}}` -/
def propertiesCheck : Check := objectOf [] [] propertyCheck

/-- `/repo/mapry/schemas.py:157-197` `Class` -/
def classCheck : Check := objectOf
  [ (c!"name", isStr classNameRe), (c!"description", isStr descriptionRe), (c!"plural", isStr classNameRe),
    (c!"id_pattern", anyStr), (c!"properties", propertiesCheck) ]
  [c!"name", c!"description"] forbidden

/-- `/repo/mapry/schemas.py:198-225` `Embed` -/
def embedCheck : Check := objectOf
  [ (c!"name", isStr upperFirstRe), (c!"description", isStr descriptionRe), (c!"properties", propertiesCheck) ]
  [c!"name", c!"description"] forbidden

/-- `/repo/mapry/schemas.py:3-56` `GRAPH` -/
def graphCheck : Check := objectOf
  [ (c!"name", isStr upperFirstRe), (c!"description", isStr descriptionRe), (c!"cpp", cppCheck),
    (c!"go", goCheck), (c!"py", pyCheck), (c!"classes", isArray classCheck), (c!"embeds", isArray embedCheck),
    (c!"properties", propertiesCheck) ]
  [c!"name", c!"description"] forbidden

/-- The properties and the required properties of a type definition: `type` and `description` belong to all. -/
structure TypeSchema where
  properties : List (Str × Check)
  required : List Str := []

def TypeSchema.of (properties : List (Str × Check)) (required : List Str := []) : TypeSchema :=
  ⟨(c!"type", anyStr) :: (c!"description", anyStr) :: properties, required⟩

/-- The bounds of `INTEGER` and `FLOAT` -/
def boundsOf (number : Check) : TypeSchema := .of
  [ (c!"minimum", number), (c!"exclusive_minimum", isBool), (c!"maximum", number), (c!"exclusive_maximum", isBool) ]

/-- `/repo/mapry/schemas.py:519-532` `TYPE_TO_SCHEMA` with the schemas of lines 261-517 -/
def typeToSchema : List (Str × TypeSchema) :=
  [ (c!"boolean", .of []),
    (c!"integer", boundsOf isInteger),
    (c!"float", boundsOf isNumber),
    (c!"string", .of [(c!"pattern", anyStr)]),
    (c!"path", .of [(c!"pattern", anyStr)]),
    (c!"date", .of [(c!"format", anyStr)]),
    (c!"time", .of [(c!"format", anyStr)]),
    (c!"datetime", .of [(c!"format", anyStr)]),
    (c!"time_zone", .of []),
    (c!"duration", .of []),
    (c!"array", .of [(c!"values", isObject), (c!"minimum_size", isSize), (c!"maximum_size", isSize)] [c!"values"]),
    (c!"map", .of [(c!"values", isObject)] [c!"values"]) ]

/-- `jsonschema.validate(instance=mapping, schema=type_schema)` -/
def TypeSchema.check (s : TypeSchema) (kvs : Fields) : Bool :=
  objectOf s.properties s.required allowed (.obj false kvs)

/-! ## Access to the mapping -/

/-- `mapping[key]` of a dictionary -/
def item (key : Str) (kvs : Fields) : Except Exc Json :=
  match kvs.lookup key with
  | none => .error .keyError
  | some v => .ok v

/-- A value used as a string -/
def asStr : Json → Except Exc Str
  | .str s => .ok s
  | _ => .error .typeError

/-- A value used as a dictionary -/
def asFields : Json → Except Exc Fields
  | .obj _ kvs => .ok kvs
  | _ => .error .typeError

/-- `mapping[key]` used as a string -/
def strItem (key : Str) (kvs : Fields) : Except Exc Str := do
  let v ← item key kvs
  asStr v

/-- The elements iterated over by `if key in mapping: for ... in enumerate(mapping[key])` -/
def elements (key : Str) (kvs : Fields) : Except Exc (List Json) :=
  match kvs.lookup key with
  | none => .ok []
  | some (.arr xs) => .ok xs
  | some _ => .error .typeError

/-- The truth value of a JSON value -/
def truthy : Json → Bool
  | .null => false
  | .bool b => b
  | .int i => i ≠ 0
  | .float f => f ≠ .fin 0
  | .str s => s ≠ []
  | .arr xs => !xs.isEmpty
  | .obj _ kvs => !kvs.isEmpty

/-- `False if key not in mapping else bool(mapping[key])` -/
def flag (key : Str) (kvs : Fields) : Bool :=
  match kvs.lookup key with
  | none => false
  | some v => truthy v

/-! ## Comparison of numbers -/

/-- `a > b` of Python between floats (exact) -/
def f64Gt : F64 → F64 → Bool
  | .fin a, .fin b => decide (b < a)
  | .fin _, .inf neg => neg
  | .inf neg, .fin _ => !neg
  | .inf a, .inf b => !a && b
  | _, _ => false

/-- `a == b` of Python between floats -/
def f64Eq : F64 → F64 → Bool
  | .fin a, .fin b => decide (a = b)
  | .inf a, .inf b => a == b
  | _, _ => false

/-- A number as an extended rational: Python compares integers with floats exactly. -/
def number? : Json → Option F64
  | .int i => some (.fin i)
  | .bool b => some (.fin (if b then 1 else 0))
  | .float f => some f
  | _ => none

/-- `mapping[key]` used as a number -/
def numItem (key : Str) (kvs : Fields) : Except Exc F64 :=
  match kvs.lookup key with
  | none => .error .keyError
  | some v => match number? v with
    | none => .error .typeError
    | some n => .ok n

/-! ## Validation of types -/

/-- `/repo/mapry/validation.py:134-186` `_validate_integer` -/
def validateInteger (kvs : Fields) (ref : Str) : Except Exc (Option Err) :=
  if (kvs.lookup c!"minimum").isSome ∧ (kvs.lookup c!"maximum").isSome then do
    let minimum ← numItem c!"minimum" kvs
    let maximum ← numItem c!"maximum" kvs
    if f64Gt minimum maximum then return some ⟨ref, .minOverMax⟩
    else
      let exclMin := flag c!"exclusive_minimum" kvs
      let exclMax := flag c!"exclusive_maximum" kvs
      if exclMin && exclMax then
        return if f64Eq minimum maximum then some ⟨ref, .emptyRange⟩ else none
      else if !exclMin && exclMax then
        return if f64Eq minimum maximum then some ⟨ref, .emptyRange⟩ else none
      else if exclMin && !exclMax then
        return if f64Eq minimum maximum then some ⟨ref, .emptyRange⟩ else none
      else return none
  else .ok none

/-- `/repo/mapry/validation.py:189-237` `_validate_float` -/
def validateFloat (kvs : Fields) (ref : Str) : Except Exc (Option Err) :=
  if (kvs.lookup c!"minimum").isSome ∧ (kvs.lookup c!"maximum").isSome then do
    let minimum ← numItem c!"minimum" kvs
    let maximum ← numItem c!"maximum" kvs
    if f64Gt minimum maximum then return some ⟨ref, .minOverMax⟩
    else
      let exclMin := flag c!"exclusive_minimum" kvs
      let exclMax := flag c!"exclusive_maximum" kvs
      if exclMin && exclMax then
        return if f64Eq minimum maximum then some ⟨ref, .emptyRange⟩ else none
      else if !exclMin && exclMax then
        return if f64Eq minimum maximum then some ⟨ref, .emptyRange⟩ else none
      else if exclMin && !exclMax then
        return if f64Eq minimum maximum then some ⟨ref, .emptyRange⟩ else none
      else return none
  else .ok none

/-- `/repo/mapry/validation.py:240-255` `_validate_string` and `258-273` `_validate_path`; an exception of any
kind is caught, also of a pattern which is no string. -/
def validatePattern (L : Lib) (kvs : Fields) (ref : Str) : Option Err :=
  match kvs.lookup c!"pattern" with
  | none => none
  | some (.str p) => (L.compileError p).map fun msg => ⟨sub ref c!"pattern", .pattern msg⟩
  | some _ => some ⟨sub ref c!"pattern", .pattern []⟩

/-- `/repo/mapry/validation.py:276-296` `_validate_date`, `299-319` `_validate_time` and `322-337`
`_validate_datetime`: `tokensOk` is the check of the tokens. -/
def validateFormat (tokensOk : List (List Strftime.Tok) → Bool) (kvs : Fields) (ref : Str) :
    Except Exc (Option Err) :=
  match kvs.lookup c!"format" with
  | none => .ok none
  | some v => do
    let format ← asStr v
    match tokenize format with
    | .error _ => return some ⟨sub ref c!"format", .format⟩
    | .ok tss => return if tokensOk tss then none else some ⟨sub ref c!"format", .format⟩

def validateDate := validateFormat fun tss => (validateDateTokens tss).isNone
def validateTime := validateFormat fun tss => (validateTimeTokens tss).isNone
def validateDatetime := validateFormat fun _ => true

/-- The first part of `/repo/mapry/validation.py:340-366` `_validate_array`: the sizes, numbers by the JSON schema -/
def validateSizes (kvs : Fields) (ref : Str) : Except Exc (Option Err) :=
  match kvs.lookup c!"minimum_size", kvs.lookup c!"maximum_size" with
  | some lo, some hi =>
    match number? lo, number? hi with
    | some lo, some hi => return if f64Gt lo hi then some ⟨sub ref c!"minimum_size", .sizes⟩ else none
    | _, _ => .error .typeError
  | _, _ => .ok none

/-- The order of the keys at the top of a definition, `/repo/mapry/validation.py:403-421` -/
def keyOrder (kvs : Fields) (ref : Str) : Except Exc (Option Err) :=
  match kvs with
  | [] => .error .indexError
  | (k, _) :: rest =>
    if k ≠ c!"type" then .ok (some ⟨sub ref c!"type", .typeFirst⟩)
    else if (kvs.lookup c!"description").isSome then
      match rest with
      | [] => .error .indexError
      | (k', _) :: _ =>
        .ok (if k' ≠ c!"description" then some ⟨sub ref c!"description", .typeDescription⟩ else none)
    else .ok none

/-- The set of expected keys, `/repo/mapry/validation.py:435-449` -/
def expectedKeys (top : Bool) (type : Str) : List Str :=
  [c!"type", c!"description"] ++
  (if top then propertyFields.map Prod.fst else []) ++
  (match typeToSchema.lookup type with
   | none => []
   | some s => s.properties.map Prod.fst)

/-- The part "Validate logic" of `/repo/mapry/validation.py:459-501`; `values` is the outcome of the validation
of `mapping['values']`. -/
def validateLogic (L : Lib) (type : Str) (kvs : Fields) (ref : Str) (values : Except Exc (Option Err)) :
    Except Exc (Option Err) :=
  if type = c!"boolean" then .ok none
  else if type = c!"integer" then validateInteger kvs ref
  else if type = c!"float" then validateFloat kvs ref
  else if type = c!"string" then .ok (validatePattern L kvs ref)
  else if type = c!"path" then .ok (validatePattern L kvs ref)
  else if type = c!"date" then validateDate kvs ref
  else if type = c!"time" then validateTime kvs ref
  else if type = c!"datetime" then validateDatetime kvs ref
  else if type = c!"duration" then .ok none
  else if type = c!"time_zone" then .ok none
  else if type = c!"array" then do
    match ← validateSizes kvs ref with
    | some err => return some err
    | none => values
  else if type = c!"map" then values
  else .ok none

/-- `/repo/mapry/validation.py:111-131` `_validate_type_against_schema` and its call, `428-433` -/
def schemaOk (type : Str) (kvs : Fields) : Bool :=
  match typeToSchema.lookup type with
  | none => true
  | some s => s.check kvs

/-- `/repo/mapry/validation.py:423-501`, the rest of `_validate_type_recursively` once the order of the keys
has been checked. The test `mapping['type'] not in types` hashes the value. -/
def validateDefinition (L : Lib) (types : List Str) (top : Bool) (kvs : Fields) (ref : Str)
    (values : Except Exc (Option Err)) : Except Exc (Option Err) := do
  match ← item c!"type" kvs with
  | .arr _ => .error .typeError
  | .obj _ _ => .error .typeError
  | .str type =>
    if type ∉ types then return some ⟨sub ref c!"type", .invalidType⟩
    else
      if !schemaOk type kvs then
        let (path, msg) := L.explainType (.obj false kvs)
        return some ⟨sub ref (joinWith c!"/" path), .typeSchema msg⟩
      else
        match kvs.find? (fun kv => decide (kv.1 ∉ expectedKeys top type)) with
        | some (key, _) => return some ⟨ref, .unexpected key⟩
        | none => validateLogic L type kvs ref values
  | _ => return some ⟨sub ref c!"type", .invalidType⟩

/-- `/repo/mapry/validation.py:388-501` `_validate_type_recursively`; `top` stands for `depth == 0`. -/
def validateTypeBody (L : Lib) (types : List Str) (top ordered : Bool) (kvs : Fields) (ref : Str)
    (values : Except Exc (Option Err)) : Except Exc (Option Err) := do
  let order ← (if top && ordered then keyOrder kvs ref else .ok none)
  match order with
  | some err => return some err
  | none => validateDefinition L types top kvs ref values

mutual

/-- `/repo/mapry/validation.py:388-501` `_validate_type_recursively` with the recursion through
`340-366` `_validate_array` and `369-385` `_validate_map` -/
def validateType (L : Lib) (types : List Str) (top : Bool) : Json → Str → Except Exc (Option Err)
  | .obj ordered kvs, ref =>
    validateTypeBody L types top ordered kvs ref (validateValues L types kvs (sub ref c!"values"))
  | _, _ => .error .typeError

/-- The validation of `mapping['values']` -/
def validateValues (L : Lib) (types : List Str) : Fields → Str → Except Exc (Option Err)
  | [], _ => .error .keyError
  | (k, v) :: rest, ref => if k = c!"values" then validateType L types false v ref else validateValues L types rest ref

end

/-! ## Validation of composites -/

/-- Concatenate the errors found by a function in every element of an enumeration. -/
def collect {α : Type} (f : Nat → α → Except Exc (List Err)) : Nat → List α → Except Exc (List Err)
  | _, [] => .ok []
  | i, x :: xs => do
    let errs ← f i x
    let rest ← collect f (i + 1) xs
    return errs ++ rest

/-- `"{}/{}/{}".format(ref, key, i)` -/
def refAt (ref key : Str) (i : Nat) : Str := ref ++ c!"/" ++ key ++ c!"/" ++ natStr i

/-- The loops of `/repo/mapry/validation.py:45-65`; `names` is the set of the names seen so far. -/
def duplicateNames (key ref : Str) : Nat → List Json → List Str → Except Exc (List Str × List Err)
  | _, [], names => .ok (names, [])
  | i, x :: xs, names => do
    let kvs ← asFields x
    let name ← strItem c!"name" kvs
    let (names', errs) ← duplicateNames key ref (i + 1) xs (name :: names)
    if name ∈ names then return (names', ⟨sub (refAt ref key i) c!"name", .duplicate name⟩ :: errs)
    else return (names', errs)

/-- `/repo/mapry/validation.py:32-67` `_validate_names` -/
def validateNames (kvs : Fields) (ref : Str) : Except Exc (List Str × List Err) := do
  let name ← strItem c!"name" kvs
  let classes ← elements c!"classes" kvs
  let (names, errs) ← duplicateNames c!"classes" ref 0 classes [name]
  let embeds ← elements c!"embeds" kvs
  let (names, errs') ← duplicateNames c!"embeds" ref 0 embeds names
  return (names, errs ++ errs')

/-- `/repo/mapry/validation.py:70-101` `_validate_class` -/
def validateClass (L : Lib) (x : Json) (ref : Str) : Except Exc (List Err) := do
  let kvs ← asFields x
  let errs := match kvs.lookup c!"id_pattern" with
    | none => []
    | some (.str p) => ((L.compileError p).map fun msg => (⟨sub ref c!"id_pattern", .idPattern msg⟩ : Err)).toList
    | some _ => [⟨sub ref c!"id_pattern", .idPattern []⟩]
  match kvs.lookup c!"properties" with
  | none => return errs
  | some v => do
    let props ← asFields v
    return errs ++ (if (props.lookup c!"id").isSome then [⟨sub ref c!"properties", .reservedId⟩] else [])

/-- `/repo/mapry/validation.py:105-108` `_NONCOMPOSITE_TYPE_SET` -/
def noncompositeTypes : List Str :=
  [c!"boolean", c!"integer", c!"float", c!"string", c!"path", c!"date", c!"time", c!"datetime",
   c!"duration", c!"time_zone", c!"array", c!"map"]

/-- The body of the loop of `/repo/mapry/validation.py:533-546` -/
def validateProperty (L : Lib) (types : List Str) (ref : Str) (kv : Str × Json) : Except Exc (List Err) := do
  let err ← validateType L types true kv.2 (sub (sub ref c!"properties") kv.1)
  return (if propertyRe kv.1 then [] else [⟨sub ref c!"properties", .propertyName kv.1⟩]) ++ err.toList

/-- `/repo/mapry/validation.py:518-548` `_validate_properties` -/
def validateProperties (L : Lib) (types : List Str) (kvs : Fields) (ref : Str) : Except Exc (List Err) :=
  match kvs.lookup c!"properties" with
  | none => .ok []
  | some v => do
    let props ← asFields v
    collect (fun _ kv => validateProperty L types ref kv) 0 props

/-- `dict[key] = value` -/
def setKey (k v : Str) : List (Str × Str) → List (Str × Str)
  | [] => [(k, v)]
  | (k', v') :: rest => if k' = k then (k, v) :: rest else (k', v') :: setKey k v rest

/-- `/repo/mapry/validation.py:571-581` and `/repo/mapry/parse.py:80-81`: the plural of a class. A class without
a name does not pass the JSON schema. -/
def pluralOf (kvs : Fields) : Except Exc Str :=
  match kvs.lookup c!"plural" with
  | some v => asStr v
  | none => do
    let name ← strItem c!"name" kvs
    return Naming.plural name

/-- The loop of `/repo/mapry/validation.py:570-584`: the properties of the registries -/
def registryNames : List Json → List (Str × Str) → Except Exc (List (Str × Str))
  | [], acc => .ok acc
  | x :: xs, acc => do
    let kvs ← asFields x
    let plural ← pluralOf kvs
    let property ← Naming.jsonPlural plural
    let name ← strItem c!"name" kvs
    registryNames xs (setKey property name acc)

/-- `a < b` of Python's strings -/
def strLt : Str → Str → Bool
  | _, [] => false
  | [], _ :: _ => true
  | a :: as, b :: bs => if a = b then strLt as bs else decide (a.toNat < b.toNat)

/-- Insertion into a list sorted by the key -/
def insertItem {α : Type} (x : Str × α) : List (Str × α) → List (Str × α)
  | [] => [x]
  | y :: ys => if strLt y.1 x.1 then y :: insertItem x ys else x :: y :: ys

/-- `sorted(mapping.items())`: the keys are distinct, so that the values are never compared. -/
def sortItems {α : Type} : List (Str × α) → List (Str × α)
  | [] => []
  | x :: xs => insertItem x (sortItems xs)

/-- The items of a dictionary in the order used by the code:
`/repo/mapry/validation.py:588-591` and `/repo/mapry/parse.py:247-252` -/
def orderedItems {α : Type} (ordered : Bool) (kvs : List (Str × α)) : List (Str × α) :=
  if ordered then kvs else sortItems kvs

/-- `/repo/mapry/validation.py:551-604` `_validate_plurals` -/
def validatePlurals (kvs : Fields) (ref : Str) : Except Exc (List Err) :=
  match kvs.lookup c!"classes", kvs.lookup c!"properties" with
  | some _, some v => do
    let classes ← elements c!"classes" kvs
    let registries ← registryNames classes []
    match v with
    | .obj ordered props =>
      return (orderedItems ordered props).filterMap fun kv =>
        (registries.lookup kv.1).map fun cls => ⟨sub ref kv.1, .plural kv.1 cls⟩
    | _ => .error .attributeError
  | _, _ => .ok []

/-- The order of the keys of an ordered schema, `/repo/mapry/validation.py:634-654` -/
def schemaOrder (kvs : Fields) (ref : Str) : Except Exc (List Err) :=
  match kvs with
  | (k, _) :: (k', _) :: _ =>
    .ok ((if k ≠ c!"name" then [⟨sub ref c!"name", .nameFirst⟩] else []) ++
      (if k' ≠ c!"description" then [⟨sub ref c!"description", .descriptionSecond⟩] else []))
  | _ => .error .indexError

/-- `/repo/mapry/validation.py:656-695`: the rest of `validate` after the order of the keys -/
def validateGraph (L : Lib) (kvs : Fields) (ref : Str) : Except Exc (List Err) := do
  let (names, nameErrs) ← validateNames kvs ref
  let classes ← elements c!"classes" kvs
  let embeds ← elements c!"embeds" kvs
  let classErrs ← collect (fun i x => validateClass L x (refAt ref c!"classes" i)) 0 classes
  let types := noncompositeTypes ++ names
  let graphProps ← validateProperties L types kvs ref
  let classProps ← collect (fun i x => do
    let fs ← asFields x
    validateProperties L types fs (refAt ref c!"classes" i)) 0 classes
  let embedProps ← collect (fun i x => do
    let fs ← asFields x
    validateProperties L types fs (refAt ref c!"embeds" i)) 0 embeds
  let plurals ← validatePlurals kvs ref
  return nameErrs ++ classErrs ++ graphProps ++ classProps ++ embedProps ++ plurals

/-- `/repo/mapry/validation.py:607-695` `validate` -/
def validate (L : Lib) (mapping : Json) (ref : Str) : Except Exc (List Err) :=
  if !graphCheck mapping then
    let (path, msg) := L.explainGraph mapping
    .ok [⟨joinWith c!"/" (ref :: path), .jsonSchema msg⟩]
  else
    match mapping with
    | .obj ordered kvs => do
      let orderErrs ← (if ordered then schemaOrder kvs ref else .ok [])
      let errs ← validateGraph L kvs ref
      return orderErrs ++ errs
    | _ => .error .typeError

end Mapry.Validation
