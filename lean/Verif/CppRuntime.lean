import Verif.Errors
import Verif.Schema
import Verif.Duration
import Verif.Naming
import Verif.GoMap

/-!
# Model of the generated C++ parser and serializer

`mapry/cpp/generate/jsoncpp_impl.py` generates two functions for every class, embeddable structure and
graph. The model is an interpreter: for a schema and an input it performs the steps which the text
generated for the schema performs. The cited lines are lines of the templates.

General simplifications:

* A `Json::Value` is a tree. The members of an object are the list of its entries with ascending keys,
  as jsoncpp stores and visits them; so are the entries of a `std::map` (`Verif/GoMap.lean`; the order of
  the bytes in UTF-8 is the order of the characters). Keys and formats do not contain NUL.
* A pointer to an instance of a class is the class and the `id` of the instance.
* The registries are looked up by the class. The generated code passes them as arguments named by the
  plural; the arguments are available by C09.
* The wrapper of an optional property is not represented: the field is empty (`nil`) or the value in it.
* A C++ exception which leaves the generated code is an `Exc`: `overflowError` for `std::out_of_range`,
  `valueError` for `std::invalid_argument`, `runtimeError` for `std::overflow_error` and for a buffer
  which can not be enlarged any more. A null pointer which is dereferenced (undefined behaviour) is
  `panic`. Running out of the stack is `recursionError` when `fuel` calls are nested.
* The bounds are constants of 64 bits; other ones do not compile everywhere.
-/

namespace Mapry.CppRuntime

open Mapry.Text Mapry.Duration

/-- A `Json::Value`. -/
inductive JVal where
  | null
  | bool (b : Bool)
  /-- `intValue`, 64 bits -/
  | int (i : Int)
  /-- `uintValue`, 64 bits -/
  | uint (n : Nat)
  /-- `realValue` -/
  | real (f : F64)
  | str (s : Str)
  | arr (xs : List JVal)
  | obj (kvs : List (Str × JVal))

/-- A `struct tm`, a `date::local_days`, `date::local_seconds` or `date::time_of_day`. -/
structure Time where
  year : Int := 1970
  month : Nat := 1
  day : Nat := 1
  hour : Nat := 0
  minute : Nat := 0
  second : Nat := 0
  deriving DecidableEq, Repr

/-- The setting `datetime_library` (`/repo/mapry/__init__.py:303`) -/
inductive DateLib where
  | ctime
  | dateH
  deriving DecidableEq, Repr

/-- The types with a format, which `date.h` reads in different ways -/
inductive TimeKind where
  | date
  | time
  | datetime
  deriving DecidableEq, Repr

/-- The parts of the libraries which the generated code relies on. -/
structure Lib where
  /-- `std::regex_match(s, std::regex(pattern))` -/
  regexMatch : Str → Str → Bool
  /-- `strptime(text, format, &tm)`: the time and the rest of the text; `none` for `nullptr` -/
  strptime : Str → Str → Option (Time × Str)
  /-- the text of `strftime` given a large buffer: format and time -/
  strftime : Str → Time → Str
  /-- `iss >> date::parse(format, x)`: the time and the rest of the stream; `none` if it fails -/
  dateParse : TimeKind → Str → Str → Option (Time × Str)
  /-- `date::format(format, x)` -/
  dateFormat : TimeKind → Str → Time → Str
  /-- `date::locate_zone(name)->name()`; `none` if it throws -/
  locateZone : Str → Option Str
  /-- `std::to_string` of a double -/
  doubleStr : F64 → Str
  /-- the value which the variable `overflows` happens to have when a duration is read (see
  `Duration.cppValue`) -/
  garbage : Str → Bool

/-- A C++ value stored in a field. -/
inductive Val where
  /-- an empty optional or a null pointer -/
  | nil
  /-- the value after the initialisation -/
  | zero
  | bool (b : Bool)
  | int (i : Int)
  | float (f : F64)
  | str (s : Str)
  | time (t : Time)
  /-- a time zone by its name -/
  | zone (s : Str)
  /-- nanoseconds -/
  | duration (d : Int)
  | list (xs : List Val)
  | map (kvs : List (Str × Val))
  /-- a pointer to the instance of the class with the identifier -/
  | ref (cls id : Str)
  /-- a structure with its fields -/
  | obj (embed : Str) (fields : List (Str × Val))

/-- The fields of a structure. -/
abbrev Fields := List (Str × Val)

/-- `as_field` (`/repo/mapry/cpp/naming.py:10-26`); the identifiers are not empty. -/
def asField (s : Str) : Str := lower s

/-- `target->field = value` -/
def setField (f : Str) (x : Val) : Fields → Fields
  | [] => [(f, x)]
  | (f', x') :: rest => if f' = f then (f, x) :: rest else (f', x') :: setField f x rest

/-- The fields of a new structure, `/repo/mapry/cpp/generate/types_header.py:225-266`: they are declared
with the name of the property. (A `std::chrono::nanoseconds`, and with `date.h` a date, has no
initialiser: its value is not specified.) -/
def zeroFields (ps : List Property) : Fields :=
  ps.map fun p => (p.name, if p.optional then .nil else .zero)

/-- `ref + "/" + part` -/
def sub (ref part : Str) : Str := ref ++ c!"/" ++ part

/-! ## Parsing values -/

/-- The parser of one value: the value, the reference, the target before, and the container. The result
is the target afterwards. -/
abbrev ParseFn := JVal → Str → Val → CppErrors → Except Exc (Val × CppErrors)

/-- `value_type_to_string`, `/repo/mapry/cpp/generate/jsoncpp_impl.py:445-473` -/
def typeName : JVal → Str
  | .null => c!"null"
  | .bool _ => c!"bool"
  | .int _ => c!"int"
  | .uint _ => c!"uint"
  | .real _ => c!"real"
  | .str _ => c!"string"
  | .arr _ => c!"array"
  | .obj _ => c!"object"

/-- A value of the wrong kind, e.g. `/repo/mapry/cpp/generate/jsoncpp_impl.py:510-520`. -/
def expected (what : Str) (v : JVal) (ref : Str) (t : Val) (e : CppErrors) : Except Exc (Val × CppErrors) :=
  .ok (t, e.add ⟨ref, c!"Expected " ++ what ++ c!", but got: " ++ typeName v⟩)

/-- `_PARSE_BOOLEAN_TPL`, `/repo/mapry/cpp/generate/jsoncpp_impl.py:499-523` -/
def parseBoolean : ParseFn := fun v ref t e =>
  match v with
  | .bool b => .ok (.bool b, e)
  | _ => expected c!"a bool" v ref t e

/-- `Json::Value::isInt64` and `asInt64` (jsoncpp) -/
def asInt64 : JVal → Option Int
  | .int i => some i
  | .uint n => if (n : Int) ≤ maxInt64 then some n else none
  | .real (.fin q) =>
    if -9223372036854775808 ≤ q ∧ q < 9223372036854775808 ∧ q = (F64.truncRat q : Rat) then
      some (F64.truncRat q)
    else none
  | _ => none

/-- `Json::Value::isDouble` and `asDouble` (jsoncpp) -/
def asDouble : JVal → Option F64
  | .int i => some (F64.round i)
  | .uint n => some (F64.round (n : Int))
  | .real f => some f
  | _ => none

/-- `>` or `>=` -/
def minOp (b : Bounds) : Str := if b.exMin then c!">" else c!">="
/-- `<` or `<=` -/
def maxOp (b : Bounds) : Str := if b.exMax then c!"<" else c!"<="

/-- `cast op minimum` between an `int64_t` and a constant, `true` without a minimum. -/
def intMinOk (b : Bounds) (i : Int) : Bool :=
  match b.min with
  | none => true
  | some m => if b.exMin then decide (m < i) else decide (m ≤ i)

def intMaxOk (b : Bounds) (i : Int) : Bool :=
  match b.max with
  | none => true
  | some m => if b.exMax then decide (i < m) else decide (i ≤ m)

/-- The check against one bound: the container afterwards. -/
def check (ok : Bool) (ref message : Str) (e : CppErrors) : CppErrors :=
  if ok then e else e.add ⟨ref, message⟩

/-- `_PARSE_INTEGER_TPL`, `/repo/mapry/cpp/generate/jsoncpp_impl.py:550-620`: both of the bounds are
checked. -/
def parseInteger (b : Bounds) : ParseFn := fun v ref t e =>
  match asInt64 v with
  | some i =>
    let e := check (intMinOk b i) ref
      (c!"Expected " ++ minOp b ++ c!" " ++ intStr (b.min.getD 0) ++ c!", but got: " ++ intStr i) e
    let e := check (intMaxOk b i) ref
      (c!"Expected " ++ maxOp b ++ c!" " ++ intStr (b.max.getD 0) ++ c!", but got: " ++ intStr i) e
    .ok (if intMinOk b i && intMaxOk b i then .int i else t, e)
  | none => expected c!"an int64" v ref t e

/-- `cast > constant` or `cast >= constant`: the integral constant is converted to a double. -/
def floatAbove (strict : Bool) (m : Int) : F64 → Bool
  | .nan => false
  | .inf neg => !neg
  | .fin q =>
    match F64.round m with
    | .fin c => if strict then decide (c < q) else decide (c ≤ q)
    | _ => false

/-- `cast < constant` or `cast <= constant` -/
def floatBelow (strict : Bool) (m : Int) : F64 → Bool
  | .nan => false
  | .inf neg => neg
  | .fin q =>
    match F64.round m with
    | .fin c => if strict then decide (q < c) else decide (q ≤ c)
    | _ => false

def floatMinOk (b : Bounds) (f : F64) : Bool :=
  match b.min with
  | none => true
  | some m => floatAbove b.exMin m f

def floatMaxOk (b : Bounds) (f : F64) : Bool :=
  match b.max with
  | none => true
  | some m => floatBelow b.exMax m f

/-- `_PARSE_FLOAT_TPL`, `/repo/mapry/cpp/generate/jsoncpp_impl.py:649-719`. The bounds in the messages
are formatted with `%f`; they are integers (below 2^53, the digits are exact). -/
def parseFloat (L : Lib) (b : Bounds) : ParseFn := fun v ref t e =>
  match asDouble v with
  | some f =>
    let e := check (floatMinOk b f) ref
      (c!"Expected " ++ minOp b ++ c!" " ++ intStr (b.min.getD 0) ++ c!".000000, but got: " ++ L.doubleStr f) e
    let e := check (floatMaxOk b f) ref
      (c!"Expected " ++ maxOp b ++ c!" " ++ intStr (b.max.getD 0) ++ c!".000000, but got: " ++ L.doubleStr f) e
    .ok (if floatMinOk b f && floatMaxOk b f then .float f else t, e)
  | none => expected c!"a double" v ref t e

/-- `_PARSE_STRING_TPL` and `_PARSE_PATH_TPL`, `/repo/mapry/cpp/generate/jsoncpp_impl.py:747-797` and
`826-889`. A path is its text: on POSIX, `path(s).string()` is `s`. -/
def parseString (L : Lib) (pattern : Option Str) : ParseFn := fun v ref t e =>
  match v with
  | .str s =>
    match pattern with
    | none => .ok (.str s, e)
    | some p =>
      if L.regexMatch p s then .ok (.str s, e)
      else .ok (t, e.add ⟨ref, c!"Expected to match " ++ p ++ c!", but got: " ++ s⟩)
  | _ => expected c!"a string" v ref t e

/-- `cast.c_str()` as the C functions see it: up to the first NUL -/
def cStr (s : Str) : Str := s.takeWhile fun c => c.toNat ≠ 0

/-- The time which a text means to the generated code. With `ctime`
(`_PARSE_CTIME_TPL`, `/repo/mapry/cpp/generate/jsoncpp_impl.py:943-964`) the rest has to be empty; with
`date.h` (`_PARSE_DATE_TPL` and `_PARSE_TIME_OF_DAY_TPL`,
`/repo/mapry/cpp/generate/jsoncpp_impl.py:990-1010` and `1114-1137`) only the failure of the stream is
checked. -/
def timeOf (D : DateLib) (L : Lib) (k : TimeKind) (format s : Str) : Option Time :=
  match D with
  | .ctime =>
    match L.strptime format (cStr s) with
    | some (t, []) => some t
    | _ => none
  | .dateH =>
    match L.dateParse k format s with
    | some (t, _) => some t
    | none => none

/-- The function named in the message -/
def timeFn : DateLib → Str
  | .ctime => c!"strptime"
  | .dateH => c!"date::parse"

/-- `_parse_date`, `_parse_date_time` and `_parse_time`,
`/repo/mapry/cpp/generate/jsoncpp_impl.py:920-1178`. (With `date.h` an optional date or datetime does not
compile: `date::parse` does not take an optional.) -/
def parseTime (D : DateLib) (L : Lib) (k : TimeKind) (format : Str) : ParseFn := fun v ref t e =>
  match v with
  | .str s =>
    match timeOf D L k format s with
    | some x => .ok (.time x, e)
    | none => .ok (t, e.add ⟨ref, c!"Expected to " ++ timeFn D ++ c!" " ++ format ++ c!", but got: " ++ s⟩)
  | _ => expected c!"a string" v ref t e

/-- The time zone which a text means: with `ctime` every text is kept as it is. -/
def zoneOf (D : DateLib) (L : Lib) (s : Str) : Option Str :=
  match D with
  | .ctime => some s
  | .dateH => L.locateZone s

/-- `_parse_time_zone`, `/repo/mapry/cpp/generate/jsoncpp_impl.py:1181-1284` -/
def parseTimeZone (D : DateLib) (L : Lib) : ParseFn := fun v ref t e =>
  match v with
  | .str s =>
    match zoneOf D L s with
    | some z => .ok (.zone z, e)
    | none => .ok (t, e.add ⟨ref, c!"Expected a valid IANA time zone, but got: " ++ s⟩)
  | _ => expected c!"a string" v ref t e

/-- `_PARSE_DURATION_TPL`, `/repo/mapry/cpp/generate/jsoncpp_impl.py:1287-1328`; `std::stod` and
`std::stol` may throw `std::out_of_range`, which nobody catches. -/
def parseDuration (L : Lib) : ParseFn := fun v ref t e =>
  match v with
  | .str s =>
    match cppFromString (L.garbage s) s with
    | .value d => .ok (.duration d, e)
    | .error m => .ok (t, e.add ⟨ref, c!"Invalid duration: " ++ m ++ s⟩)
    | .throws => .error .overflowError
  | _ => expected c!"a string" v ref t e

/-- `_PARSE_CLASS_REF_TPL`, `/repo/mapry/cpp/generate/jsoncpp_impl.py:1544-1583`; `ids` are the keys of
the registry. -/
def parseReference (cls : Str) (ids : List Str) : ParseFn := fun v ref t e =>
  match v with
  | .str s =>
    if s ∈ ids then .ok (.ref cls s, e)
    else .ok (t, e.add ⟨ref, c!"Reference to an instance of class " ++ cls ++ c!" not found: " ++ s⟩)
  | _ => expected c!"a string" v ref t e

/-- The loop over the items, `/repo/mapry/cpp/generate/jsoncpp_impl.py:1370-1379`, with the items of the
resized vector. -/
def parseItems (f : ParseFn) (ref : Str) (i : Nat) :
    List JVal → List Val → CppErrors → Except Exc (List Val × CppErrors)
  | x :: xs, t :: ts, e => do
    let (t, e) ← f x (sub ref (natStr i)) t e
    if e.full then return (t :: ts, e)
    else do
      let (ts, e) ← parseItems f ref (i + 1) xs ts e
      return (t :: ts, e)
  | _, ts, e => .ok (ts, e)

/-- The items of a vector -/
def itemsOf : Val → List Val
  | .list xs => xs
  | _ => []

/-- `target.resize(n)`: the items which fit are kept. -/
def resize (n : Nat) (xs : List Val) : List Val := xs.take n ++ List.replicate (n - xs.length) .zero

/-- `_PARSE_ARRAY_TPL`, `/repo/mapry/cpp/generate/jsoncpp_impl.py:1357-1422`. (The sizes are not negative,
`/repo/mapry/schemas.py:485-494`.) -/
def parseArray (f : ParseFn) (lo hi : Option Int) : ParseFn := fun v ref t e =>
  match v with
  | .arr xs =>
    let n : Int := xs.length
    if lo.any (fun m => n < m) then
      .ok (t, e.add ⟨ref, c!"Expected an array of minimum size " ++ intStr (lo.getD 0) ++ c!", but got: " ++
        intStr n⟩)
    else if hi.any (fun m => m < n) then
      .ok (t, e.add ⟨ref, c!"Expected an array of maximum size " ++ intStr (hi.getD 0) ++ c!", but got: " ++
        intStr n⟩)
    else do
      let (vs, e) ← parseItems f ref 0 xs (resize xs.length (itemsOf t)) e
      return (.list vs, e)
  | _ => expected c!"an array" v ref t e

/-- The entries of a `std::map` -/
def entriesOf : Val → GoMap Val
  | .map kvs => kvs
  | _ => []

/-- `target[key]` gives the entry, which is inserted if it is missing. -/
def entryOf (k : Str) (m : GoMap Val) : Val := (m.lookup k).getD .zero

/-- The loop over the members, `/repo/mapry/cpp/generate/jsoncpp_impl.py:1491-1500`. (If the value is
not parsed, nobody evaluates `target[key]`, except for the arrays, maps and structures; the difference
can be seen only if there is an error.) -/
def parseEntries (f : ParseFn) (ref : Str) :
    List (Str × JVal) → GoMap Val → CppErrors → Except Exc (GoMap Val × CppErrors)
  | [], m, e => .ok (m, e)
  | (k, x) :: kvs, m, e => do
    let (t, e) ← f x (sub ref k) (entryOf k m) e
    let m := GoMap.put k t m
    if e.full then return (m, e) else parseEntries f ref kvs m e

/-- `_PARSE_MAP_TPL`, `/repo/mapry/cpp/generate/jsoncpp_impl.py:1468-1500`: the entries are added to the
map. -/
def parseMap (f : ParseFn) : ParseFn := fun v ref t e =>
  match v with
  | .obj kvs => do
    let (m, e) ← parseEntries f ref kvs (entriesOf t) e
    return (.map m, e)
  | _ => expected c!"an object" v ref t e

/-- What the parser of a value needs to know. -/
structure Env where
  dateLib : DateLib
  lib : Lib
  graph : Graph
  /-- the identifiers in the registry of the class -/
  ids : Str → List Str

/-- `_parse_value`, `/repo/mapry/cpp/generate/jsoncpp_impl.py:1672-1823`; `embed` calls the function
generated for the embeddable structure with the address of the target (`_PARSE_EMBED_TPL`,
`/repo/mapry/cpp/generate/jsoncpp_impl.py:1615-1632`). -/
def parseTy (E : Env) (embed : Str → ParseFn) : Ty → ParseFn
  | .boolean => parseBoolean
  | .integer b => parseInteger b
  | .float b => parseFloat E.lib b
  | .string p => parseString E.lib p
  | .path p => parseString E.lib p
  | .date f => parseTime E.dateLib E.lib .date f
  | .time f => parseTime E.dateLib E.lib .time f
  | .datetime f => parseTime E.dateLib E.lib .datetime f
  | .timeZone => parseTimeZone E.dateLib E.lib
  | .duration => parseDuration E.lib
  | .array t lo hi => parseArray (parseTy E embed t) lo hi
  | .map t => parseMap (parseTy E embed t)
  | .cls c => parseReference c (E.ids c)
  | .embed name => embed name

/-! ## Parsing composites -/

/-- The types of which an optional property is emplaced before it is parsed,
`/repo/mapry/cpp/generate/jsoncpp_impl.py:1880-1881` -/
def needsEmplace : Ty → Bool
  | .array _ _ _ | .map _ | .embed _ => true
  | _ => false

/-- `_PARSE_PROPERTY_TPL`, `/repo/mapry/cpp/generate/jsoncpp_impl.py:1826-1909`; `kvs` are the members. -/
def parseProperty (parse : Ty → ParseFn) (kvs : List (Str × JVal)) (ref : Str) (p : Property)
    (fields : Fields) (e : CppErrors) : Except Exc (Fields × CppErrors) :=
  match kvs.lookup p.json with
  | none =>
    if p.optional then .ok (fields, e)
    else .ok (fields, e.add ⟨ref, c!"Property is missing: " ++ p.json⟩)
  | some v => do
    let t := if p.optional && needsEmplace p.ty then .zero else (fields.lookup (asField p.name)).getD .zero
    let (t, e) ← parse p.ty v (sub ref p.json) t e
    return (setField (asField p.name) t fields, e)

/-- The properties one after another with the check of the container after each one,
`/repo/mapry/cpp/generate/jsoncpp_impl.py:1937-1943` and `2138-2144`. -/
def parseProps (parse : Ty → ParseFn) (kvs : List (Str × JVal)) (ref : Str) :
    List Property → Fields → CppErrors → Except Exc (Fields × CppErrors)
  | [], fields, e => .ok (fields, e)
  | p :: ps, fields, e => do
    let (fields, e) ← parseProperty parse kvs ref p fields e
    if e.full then return (fields, e) else parseProps parse kvs ref ps fields e

/-- The function generated for a class or an embeddable structure,
`/repo/mapry/cpp/generate/jsoncpp_impl.py:1912-1946`: the fields of the target afterwards. -/
def parseComposite (parse : Ty → ParseFn) (ps : List Property) (v : JVal) (ref : Str)
    (target : Fields) (e : CppErrors) : Except Exc (Fields × CppErrors) :=
  match v with
  | .obj kvs => parseProps parse kvs ref ps target e
  | _ => .ok (target, e.add ⟨ref, c!"Expected an object, but got: " ++ typeName v⟩)

/-- The fields of the target of an embeddable structure before it is parsed. -/
def targetFields (ps : List Property) : Val → Fields
  | .obj _ fields => fields
  | _ => zeroFields ps

/-- The parser of the embeddable structures: every call takes one frame of the stack, of which `fuel`
are left. (`embed?` fails only for an unknown name, for which no code can be generated.) -/
def parseEmbed (E : Env) : Nat → Str → ParseFn
  | 0, _, _, _, _, _ => .error .recursionError
  | fuel + 1, name, v, ref, target, e =>
    match E.graph.embed? name with
    | none => .error .keyError
    | some emb => do
      let (fields, e) ← parseComposite (parseTy E (parseEmbed E fuel)) emb.properties v ref
        (targetFields emb.properties target) e
      return (.obj name fields, e)

/-- An instance of a class. -/
structure Instance where
  id : Str
  fields : Fields

/-- The graph: the fields of its properties and the registries by class. -/
structure GraphVal where
  fields : Fields
  registries : List (Str × GoMap Instance)

/-- A new graph: all the registries are empty. -/
def newGraph (g : Graph) : GraphVal where
  fields := zeroFields g.properties
  registries := g.classes.map fun c => (c.name, [])

/-- The registry of a class -/
def registryIn (regs : List (Str × GoMap Instance)) (c : Str) : GoMap Instance := (regs.lookup c).getD []

/-- The registry is changed in place. -/
def setRegistry (c : Str) (m : GoMap Instance) : List (Str × GoMap Instance) → List (Str × GoMap Instance)
  | [] => [(c, m)]
  | (c', m') :: rest => if c' = c then (c, m) :: rest else (c', m') :: setRegistry c m rest

/-- The key of the registry in the JSON object (`/repo/mapry/naming.py:94-108` `json_plural`). -/
def registryKey (c : Class) : Str := lower c.plural

/-- The pattern of the identifiers -/
def idOk (L : Lib) (c : Class) (id : Str) : Bool :=
  match c.idPattern with
  | none => true
  | some p => L.regexMatch p id

/-- The loop over the identifiers, `/repo/mapry/cpp/generate/jsoncpp_impl.py:2045-2076`: the instances
are added to the registry; the loop ends if the container is full. -/
def preallocIds (L : Lib) (c : Class) (ref : Str) :
    List Str → GoMap Instance → CppErrors → GoMap Instance × CppErrors
  | [], reg, e => (reg, e)
  | id :: ids, reg, e =>
    if idOk L c id then preallocIds L c ref ids (GoMap.put id ⟨id, zeroFields c.properties⟩ reg) e
    else
      let e := e.add ⟨ref, c!"Expected ID to match " ++ c.idPattern.getD [] ++ c!", but got: " ++ id⟩
      if e.full then (reg, e) else preallocIds L c ref ids reg e

/-- The pre-allocation of a registry, `/repo/mapry/cpp/generate/jsoncpp_impl.py:2017-2078`. -/
def prealloc (L : Lib) (kvs : List (Str × JVal)) (ref : Str) (c : Class)
    (regs : List (Str × GoMap Instance)) (e : CppErrors) : List (Str × GoMap Instance) × CppErrors :=
  match kvs.lookup (registryKey c) with
  | none => (regs, e)
  | some (.obj entries) =>
    let r := preallocIds L c (sub ref (registryKey c)) (entries.map (·.1)) (registryIn regs c.name) e
    (setRegistry c.name r.1 regs, r.2)
  | some v => (regs, e.add ⟨sub ref (registryKey c), c!"Expected an object, but got: " ++ typeName v⟩)

/-- All the registries, `/repo/mapry/cpp/generate/jsoncpp_impl.py:2017-2080`. -/
def preallocAll (L : Lib) (kvs : List (Str × JVal)) (ref : Str) :
    List Class → List (Str × GoMap Instance) → CppErrors → List (Str × GoMap Instance) × CppErrors
  | [], regs, e => (regs, e)
  | c :: cs, regs, e =>
    let r := prealloc L kvs ref c regs e
    preallocAll L kvs ref cs r.1 r.2

/-- What the iterators of jsoncpp visit: the members, or the items with an empty name. -/
def membersOf : JVal → List (Str × JVal)
  | .obj kvs => kvs
  | .arr xs => xs.map fun x => ([], x)
  | _ => []

/-- The loop over the instances of a registry, `/repo/mapry/cpp/generate/jsoncpp_impl.py:2110-2133`;
`at` throws if there is no instance. -/
def parseInstances (parse : Ty → ParseFn) (c : Class) (ref : Str) :
    List (Str × JVal) → GoMap Instance → CppErrors → Except Exc (GoMap Instance × CppErrors)
  | [], reg, e => .ok (reg, e)
  | (id, v) :: rest, reg, e =>
    match reg.lookup id with
    | none => .error .overflowError
    | some inst => do
      let (fields, e) ← parseComposite parse c.properties v (sub ref id) inst.fields e
      let reg := GoMap.put id ⟨inst.id, fields⟩ reg
      if e.full then return (reg, e) else parseInstances parse c ref rest reg e

/-- All the registries, `/repo/mapry/cpp/generate/jsoncpp_impl.py:2094-2137`: only the ones given in the
JSON object are visited. The flag tells if the function returns since the container is full. -/
def parseRegistries (parse : Ty → ParseFn) (kvs : List (Str × JVal)) (ref : Str) :
    List Class → List (Str × GoMap Instance) → CppErrors →
      Except Exc ((List (Str × GoMap Instance) × Bool) × CppErrors)
  | [], regs, e => .ok ((regs, false), e)
  | c :: cs, regs, e =>
    match kvs.lookup (registryKey c) with
    | some v => do
      let (reg, e) ← parseInstances parse c (sub ref (registryKey c)) (membersOf v)
        (registryIn regs c.name) e
      let regs := setRegistry c.name reg regs
      if e.full then return ((regs, true), e)
      else parseRegistries parse kvs ref cs regs e
    | none =>
      if e.full then .ok ((regs, true), e)
      else parseRegistries parse kvs ref cs regs e

/-- The environment after the pre-allocation. -/
def envOf (D : DateLib) (L : Lib) (g : Graph) (regs : List (Str × GoMap Instance)) : Env :=
  ⟨D, L, g, fun c => (registryIn regs c).map (·.1)⟩

/-- The function generated for the graph, `/repo/mapry/cpp/generate/jsoncpp_impl.py:1989-2145`, with
`errors` not null; `target` is the graph pointed to before the call. -/
def parseGraph (D : DateLib) (L : Lib) (g : Graph) (fuel : Nat) (v : JVal) (ref : Str) (target : GraphVal)
    (e : CppErrors) : Except Exc (GraphVal × CppErrors) :=
  if !e.empty then .error (.valueError c!"Unexpected non-empty errors")
  else match v with
    | .obj kvs =>
      let pre := preallocAll L kvs ref g.classes target.registries e
      if !g.classes.isEmpty && !pre.2.empty then .ok (⟨target.fields, pre.1⟩, pre.2)
      else do
        let E := envOf D L g pre.1
        let parse := parseTy E (parseEmbed E fuel)
        let (r, e) ← parseRegistries parse kvs ref g.classes pre.1 pre.2
        if r.2 then return (⟨target.fields, r.1⟩, e)
        else do
          let (fields, e) ← parseProps parse kvs ref g.properties target.fields e
          return (⟨fields, r.1⟩, e)
    | _ => .ok (target, e.add ⟨ref, c!"Expected an object, but got: " ++ typeName v⟩)

/-! ## Serializing

The C++ compiler ensures that the fields hold values of their types; another value raises `TypeError` in
the model. -/

/-- The items in order, `/repo/mapry/cpp/generate/jsoncpp_impl.py:2438-2447`. -/
def serItems (f : Val → Except Exc JVal) : List Val → Except Exc (List JVal)
  | [] => .ok []
  | v :: vs => do
    let x ← f v
    let xs ← serItems f vs
    return x :: xs

/-- The entries in ascending order, `/repo/mapry/cpp/generate/jsoncpp_impl.py:2483-2491`. -/
def serEntries (f : Val → Except Exc JVal) : List (Str × Val) → GoMap JVal → Except Exc (GoMap JVal)
  | [], target => .ok target
  | (k, v) :: vs, target => do
    let x ← f v
    serEntries f vs (GoMap.put k x target)

/-- `strlen`: the bytes of the text in UTF-8 -/
def byteLength (s : Str) : Nat := (s.map Char.utf8Size).sum

/-- `tm_to_string`, `/repo/mapry/cpp/generate/jsoncpp_impl.py:2192-2224`. `strftime` returns 0 if the text
and the final NUL do not fit into four times the length of the format, or if the text is empty. The loop
declares another variable `len`, so that it does not end: the buffer is doubled until that fails. -/
def tmToString (L : Lib) (t : Time) (format : Str) : Except Exc Str :=
  if format = [] then .ok []
  else
    let text := L.strftime format t
    if text ≠ [] ∧ byteLength text < byteLength format * 4 then .ok text
    else .error (.runtimeError c!"std::length_error")

/-- `_serialize_date_time` and `_serialize_time`,
`/repo/mapry/cpp/generate/jsoncpp_impl.py:2321-2412` -/
def serTime (D : DateLib) (L : Lib) (k : TimeKind) (format : Str) : Val → Except Exc JVal
  | .time t =>
    match D with
    | .ctime => (tmToString L t format).map .str
    | .dateH => .ok (.str (if format = [] then [] else L.dateFormat k format t))
  | _ => .error .typeError

/-- `_serialize_value`, `/repo/mapry/cpp/generate/jsoncpp_impl.py:2526-2597`; `embed` calls the function
generated for the embeddable structure. -/
def serTy (D : DateLib) (L : Lib) (embed : Str → Val → Except Exc JVal) : Ty → Val → Except Exc JVal
  | .boolean, v =>
    match v with
    | .bool b => .ok (.bool b)
    | _ => .error .typeError
  | .integer _, v =>
    match v with
    | .int i => .ok (.int i)
    | _ => .error .typeError
  | .float _, v =>
    match v with
    | .float f => .ok (.real f)
    | _ => .error .typeError
  | .string _, v | .path _, v =>
    match v with
    | .str s => .ok (.str s)
    | _ => .error .typeError
  | .date f, v => serTime D L .date f v
  | .time f, v => serTime D L .time f v
  | .datetime f, v => serTime D L .datetime f v
  | .timeZone, v =>
    match v with
    | .zone s => .ok (.str s)
    | .nil => .error (.panic c!"null pointer")
    | _ => .error .typeError
  | .duration, v =>
    match v with
    | .duration d =>
      match cppToString d with
      | some s => .ok (.str s)
      | none => .error (.runtimeError c!"std::overflow_error")
    | _ => .error .typeError
  | .array t _ _, v =>
    match v with
    | .list vs => (serItems (serTy D L embed t) vs).map .arr
    | _ => .error .typeError
  | .map t, v =>
    match v with
    | .map kvs => (serEntries (serTy D L embed t) kvs []).map .obj
    | _ => .error .typeError
  | .cls _, v =>
    match v with
    | .ref _ id => .ok (.str id)
    | .nil => .error (.panic c!"null pointer")
    | _ => .error .typeError
  | .embed name, v => embed name v

/-- `object[key] = x` on a `Json::Value`, which becomes an object if it was null. -/
def putMember (k : Str) (x : JVal) : JVal → JVal
  | .obj kvs => .obj (GoMap.put k x kvs)
  | _ => .obj [(k, x)]

/-- The properties one after another, `/repo/mapry/cpp/generate/jsoncpp_impl.py:2600-2647`; the field
read is the name of the property (`/repo/mapry/cpp/generate/jsoncpp_impl.py:2690` and `2776`). -/
def serProps (ser : Ty → Val → Except Exc JVal) (fields : Fields) :
    List Property → JVal → Except Exc JVal
  | [], target => .ok target
  | p :: ps, target =>
    match fields.lookup p.name with
    | none => .error .attributeError
    | some v =>
      match p.optional, v with
      | true, .nil => serProps ser fields ps target
      | _, v => do
        let x ← ser p.ty v
        serProps ser fields ps (putMember p.json x target)

/-- The function generated for a class or an embeddable structure,
`/repo/mapry/cpp/generate/jsoncpp_impl.py:2650-2700`: the object starts as null unless there are no
properties. -/
def serComposite (ser : Ty → Val → Except Exc JVal) (ps : List Property) (fields : Fields) :
    Except Exc JVal :=
  if ps = [] then .ok (.obj []) else serProps ser fields ps .null

/-- The serializer of the embeddable structures; `fuel` is the number of stack frames left. -/
def serEmbed (D : DateLib) (L : Lib) (g : Graph) : Nat → Str → Val → Except Exc JVal
  | 0, _, _ => .error .recursionError
  | fuel + 1, name, v =>
    match g.embed? name with
    | none => .error .keyError
    | some e =>
      match v with
      | .obj _ fields => serComposite (serTy D L (serEmbed D L g fuel)) e.properties fields
      | _ => .error .typeError

/-- `as_composite` (`/repo/mapry/cpp/naming.py:50-68`); if it raises, there is no generated code. -/
def compositeName (s : Str) : Str :=
  match Naming.ucamelCase s with
  | .ok n => n
  | .error _ => s

/-- The error of the graph serializer, `/repo/mapry/cpp/generate/jsoncpp_impl.py:2723-2741` (the literals
of the template are joined without a blank). -/
def idMessage (c : Class) (key id : Str) : Str :=
  c!"Expected the class instance of " ++ compositeName c.name ++ c!"to have the ID " ++ key ++ c!", but got: " ++ id

/-- The loop over the instances, `/repo/mapry/cpp/generate/jsoncpp_impl.py:2717-2747`. -/
def serInstances (ser : Ty → Val → Except Exc JVal) (c : Class) :
    List (Str × Instance) → JVal → Except Exc JVal
  | [], target => .ok target
  | (id, inst) :: rest, target =>
    if id ≠ inst.id then .error (.valueError (idMessage c id inst.id))
    else do
      let x ← serComposite ser c.properties inst.fields
      serInstances ser c rest (putMember inst.id x target)

/-- The registries one after another, `/repo/mapry/cpp/generate/jsoncpp_impl.py:2714-2750`. -/
def serRegistries (ser : Ty → Val → Except Exc JVal) (gv : GraphVal) : List Class → JVal → Except Exc JVal
  | [], target => .ok target
  | c :: cs, target =>
    if (registryIn gv.registries c.name).isEmpty then serRegistries ser gv cs target
    else do
      let x ← serInstances ser c (registryIn gv.registries c.name) .null
      serRegistries ser gv cs (putMember (registryKey c) x target)

/-- The function generated for the graph, `/repo/mapry/cpp/generate/jsoncpp_impl.py:2703-2785`. -/
def serGraph (D : DateLib) (L : Lib) (g : Graph) (fuel : Nat) (gv : GraphVal) : Except Exc JVal :=
  if g.properties = [] ∧ g.classes = [] then .ok (.obj [])
  else do
    let ser := serTy D L (serEmbed D L g fuel)
    let v ← serProps ser gv.fields g.properties .null
    serRegistries ser gv g.classes v

end Mapry.CppRuntime
