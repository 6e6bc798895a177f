import Verif.Errors
import Verif.Schema
import Verif.Duration
import Verif.Naming

/-!
# Model of the generated Python parser and serializer

`mapry/py/generate/fromjsonable.py` and `tojsonable.py` generate one function for every class, embed
and graph. The model is an interpreter: for a schema and an input it performs the steps which the
text generated for the schema performs. The cited lines are lines of the templates.

General simplifications:

* A JSONable dictionary is an association list with distinct keys which are strings (the output of
  `json.load`); `ordered` tells if it is a `collections.OrderedDict`.
* A reference to an instance of a class is the class and the `id` of the instance. The generated
  parser stores a pointer to the object in the registry; the object is never replaced afterwards.
* The registries are looked up by the class. The generated code passes them as arguments named by the
  plural; the arguments are available by C09 and distinct by C23.
* The attribute of a property is its lowered name; `as_attribute` (C23) does nothing else.
-/

namespace Mapry.PyRuntime

open Mapry.Text Mapry.Duration

/-- A JSONable value. -/
inductive Json where
  | null
  | bool (b : Bool)
  | int (i : Int)
  | float (f : F64)
  | str (s : Str)
  | arr (xs : List Json)
  | obj (ordered : Bool) (kvs : List (Str × Json))

/-- A `datetime.datetime`; `zone` is the textual representation of its `tzinfo`. -/
structure DateTime where
  year : Nat
  month : Nat
  day : Nat
  hour : Nat := 0
  minute : Nat := 0
  second : Nat := 0
  micro : Nat := 0
  zone : Option Str := none
  deriving DecidableEq, Repr

/-- A `datetime.date` -/
structure Date where
  year : Nat
  month : Nat
  day : Nat
  deriving DecidableEq, Repr

/-- A naive `datetime.time` -/
structure Time where
  hour : Nat
  minute : Nat
  second : Nat
  micro : Nat
  deriving DecidableEq, Repr

/-- `datetime.datetime.date` -/
def DateTime.date (d : DateTime) : Date := ⟨d.year, d.month, d.day⟩
/-- `datetime.datetime.time`: drops the time zone -/
def DateTime.time (d : DateTime) : Time := ⟨d.hour, d.minute, d.second, d.micro⟩
/-- The values used by `datetime.date.strftime`. -/
def Date.full (d : Date) : DateTime := ⟨d.year, d.month, d.day, 0, 0, 0, 0, none⟩
/-- The values used by `datetime.time.strftime`. -/
def Time.full (t : Time) : DateTime := ⟨1900, 1, 1, t.hour, t.minute, t.second, t.micro, none⟩

/-- The parts of the Python libraries the generated code relies on. -/
structure Lib where
  /-- `re.match(pattern, text)` finds a match -/
  reMatch : Str → Str → Bool
  /-- `datetime.datetime.strptime(text, format)` -/
  strptime : Str → Str → Except Exc DateTime
  /-- `strftime(format)` -/
  strftime : DateTime → Str → Str
  /-- `str(pathlib.Path(text))` -/
  normPath : Str → Str
  /-- `str(pytz.timezone(name))`, `none` if it raises `UnknownTimeZoneError` -/
  timezone : Str → Option Str
  /-- `repr` of a string -/
  repr : Str → Str
  /-- `repr` of a float -/
  floatRepr : F64 → Str

/-- The settings `py.path_as` and `py.timezone_as` (`/repo/mapry/__init__.py`, class `Py`). -/
structure Settings where
  /-- `path_as == 'pathlib.Path'` -/
  pathlib : Bool := false
  /-- `timezone_as == 'pytz.timezone'` -/
  pytz : Bool := false

/-- A value stored in an attribute. -/
inductive Val where
  | none
  | bool (b : Bool)
  | int (i : Int)
  | float (f : F64)
  | str (s : Str)
  /-- a `pathlib.Path` by its text -/
  | path (s : Str)
  | date (d : Date)
  | time (t : Time)
  | datetime (d : DateTime)
  /-- a `pytz` time zone by its text -/
  | zone (s : Str)
  | duration (d : Timedelta)
  | list (xs : List Val)
  | map (ordered : Bool) (kvs : List (Str × Val))
  /-- an instance of the class with the identifier -/
  | ref (cls id : Str)
  /-- an instance of the embeddable structure with its attributes -/
  | obj (embed : Str) (attrs : List (Str × Val))

/-- The attributes of an object. -/
abbrev Attrs := List (Str × Val)

/-- The attribute of a property (`/repo/mapry/py/naming.py:9-25` `as_attribute`). -/
def attr (p : Property) : Str := lower p.name

/-- `target.attribute = value` -/
def setAttr (a : Str) (v : Val) : Attrs → Attrs
  | [] => [(a, v)]
  | (b, w) :: rest => if b = a then (a, v) :: rest else (b, w) :: setAttr a v rest

/-- `str(type(value))` -/
def typeName : Json → Str
  | .null => c!"<class 'NoneType'>"
  | .bool _ => c!"<class 'bool'>"
  | .int _ => c!"<class 'int'>"
  | .float _ => c!"<class 'float'>"
  | .str _ => c!"<class 'str'>"
  | .arr _ => c!"<class 'list'>"
  | .obj false _ => c!"<class 'dict'>"
  | .obj true _ => c!"<class 'collections.OrderedDict'>"

/-- `'/'.join(parts)` one part at a time -/
def sub (ref part : Str) : Str := ref ++ c!"/" ++ part

/-- `"Expected ..., but got: {}".format(type(value))` -/
def expected (what : Str) (v : Json) : Str := c!"Expected " ++ what ++ c!", but got: " ++ typeName v

/-- The literal part of a template of `str.format`; `none` if it contains a replacement field or an
unmatched brace. -/
def literalPart : Str → Option Str
  | [] => some []
  | '{' :: '{' :: rest => (literalPart rest).map ('{' :: ·)
  | '}' :: '}' :: rest => (literalPart rest).map ('}' :: ·)
  | '{' :: _ => none
  | '}' :: _ => none
  | c :: rest => (literalPart rest).map (c :: ·)

/-- `"<template>, but got: {}".format(got)` where the template stems from the schema. A replacement
field in the template raises: an automatically numbered one leaves no argument for the last field, an
explicitly numbered one must not be mixed with it, a named one is missing. The kind of the exception
(`IndexError`, `ValueError` or `KeyError`) is not represented. -/
def gotMessage (template got : Str) : Except Exc Str :=
  match literalPart template with
  | some t => .ok (t ++ c!", but got: " ++ got)
  | none => .error .indexError

/-! ## Numbers -/

/-- A Python number: `bool` is a subclass of `int`. -/
inductive Num where
  | int (i : Int)
  | float (f : F64)
  deriving DecidableEq

/-- `isinstance(value, int)` -/
def Json.int? : Json → Option Num
  | .bool b => some (.int (if b then 1 else 0))
  | .int i => some (.int i)
  | _ => none

/-- `isinstance(value, (int, float))` -/
def Json.num? : Json → Option Num
  | .float f => some (.float f)
  | v => v.int?

/-- The value itself as stored by the parser of integers. -/
def Json.intVal : Json → Val
  | .bool b => .bool b
  | .int i => .int i
  | _ => .none

/-- `n >= m` of Python between a number and an integer: exact. -/
def Num.ge : Num → Int → Bool
  | .int i, m => decide (m ≤ i)
  | .float (.fin q), m => decide ((m : Rat) ≤ q)
  | .float (.inf neg), _ => !neg
  | .float .nan, _ => false

def Num.gt : Num → Int → Bool
  | .int i, m => decide (m < i)
  | .float (.fin q), m => decide ((m : Rat) < q)
  | .float (.inf neg), _ => !neg
  | .float .nan, _ => false

def Num.le : Num → Int → Bool
  | .int i, m => decide (i ≤ m)
  | .float (.fin q), m => decide (q ≤ (m : Rat))
  | .float (.inf neg), _ => neg
  | .float .nan, _ => false

def Num.lt : Num → Int → Bool
  | .int i, m => decide (i < m)
  | .float (.fin q), m => decide (q < (m : Rat))
  | .float (.inf neg), _ => neg
  | .float .nan, _ => false

/-- `value > minimum` or `value >= minimum`, `true` without a minimum. -/
def minOk (b : Bounds) (n : Num) : Bool :=
  match b.min with
  | none => true
  | some m => if b.exMin then n.gt m else n.ge m

/-- `value < maximum` or `value <= maximum`, `true` without a maximum. -/
def maxOk (b : Bounds) (n : Num) : Bool :=
  match b.max with
  | none => true
  | some m => if b.exMax then n.lt m else n.le m

/-- `float(value)`: rounds to the nearest, raises `OverflowError` if it is too large. -/
def Num.toFloat : Num → Except Exc F64
  | .float f => .ok f
  | .int i => match F64.round i with
    | .fin q => .ok (.fin q)
    | _ => .error .overflowError

/-- `"{}".format(value)` of a number -/
def showNum (L : Lib) : Json → Str
  | .bool true => c!"True"
  | .bool false => c!"False"
  | .int i => intStr i
  | .float f => L.floatRepr f
  | _ => []

/-- The message about the minimum, `/repo/mapry/py/generate/fromjsonable.py:316-325`. -/
def minMessage (L : Lib) (b : Bounds) (v : Json) : Str :=
  c!"Expected " ++ (if b.exMin then c!">" else c!">=") ++ c!" " ++ intStr (b.min.getD 0) ++
    c!", but got: " ++ showNum L v

/-- The message about the maximum, `/repo/mapry/py/generate/fromjsonable.py:326-338`. -/
def maxMessage (L : Lib) (b : Bounds) (v : Json) : Str :=
  c!"Expected " ++ (if b.exMax then c!"<" else c!"<=") ++ c!" " ++ intStr (b.max.getD 0) ++
    c!", but got: " ++ showNum L v

/-- The checks of the bounds, `/repo/mapry/py/generate/fromjsonable.py:310-341` and `388-418`.
The template tests the undefined `get_cond_before` instead of `got_cond_before`, so that the second
check starts with `if` and not with `elif`. The result tells if the target is assigned. -/
def checkBounds (L : Lib) (b : Bounds) (n : Num) (v : Json) (ref : Str) (es : Errors) :
    Bool × Errors :=
  let es := if minOk b n then es else es.add ⟨ref, minMessage L b v⟩
  match b.max with
  | some _ => if maxOk b n then (true, es) else (false, es.add ⟨ref, maxMessage L b v⟩)
  | none => (minOk b n, es)

/-! ## Parsing values -/

/-- `_PARSE_INTEGER_TPL`, `/repo/mapry/py/generate/fromjsonable.py:293-342` -/
def parseInteger (L : Lib) (b : Bounds) (v : Json) (ref : Str) (es : Errors) : Except Exc (Option Val × Errors) :=
  match v.int? with
  | none => .ok (none, es.add ⟨ref, expected c!"an integer" v⟩)
  | some n =>
    let r := checkBounds L b n v ref es
    .ok (if r.1 then some v.intVal else none, r.2)

/-- `_PARSE_FLOAT_TPL`, `/repo/mapry/py/generate/fromjsonable.py:371-418` -/
def parseFloat (L : Lib) (b : Bounds) (v : Json) (ref : Str) (es : Errors) : Except Exc (Option Val × Errors) :=
  match v.num? with
  | none => .ok (none, es.add ⟨ref, expected c!"a number" v⟩)
  | some n =>
    let r := checkBounds L b n v ref es
    if r.1 then do
      let f ← n.toFloat
      return (some (.float f), r.2)
    else .ok (none, r.2)

/-- `_PARSE_STRING_TPL` and `_PARSE_PATH_TPL`,
`/repo/mapry/py/generate/fromjsonable.py:447-482` and `515-561`; `set` is the value assigned. -/
def parseMatched (L : Lib) (set : Str → Val) (pattern : Option Str) (v : Json) (ref : Str)
    (es : Errors) : Except Exc (Option Val × Errors) :=
  match v with
  | .str s =>
    match pattern with
    | none => .ok (some (set s), es)
    | some p =>
      if L.reMatch p s then .ok (some (set s), es)
      else do
        let msg ← gotMessage (c!"Expected to match " ++ p) s
        return (none, es.add ⟨ref, msg⟩)
  | _ => .ok (none, es.add ⟨ref, expected c!"a string" v⟩)

/-- `_PARSE_DATE_TPL`, `_PARSE_DATE_TIME_TPL` and `_PARSE_TIME_TPL`,
`/repo/mapry/py/generate/fromjsonable.py:586-615`, `645-673` and `703-732`. -/
def parseDateTime (L : Lib) (set : DateTime → Val) (format : Str) (v : Json) (ref : Str)
    (es : Errors) : Except Exc (Option Val × Errors) :=
  match v with
  | .str s =>
    match L.strptime s format with
    | .ok d => .ok (some (set d), es)
    | .error (.valueError _) => do
      let msg ← gotMessage (c!"Expected to strptime " ++ format) s
      return (none, es.add ⟨ref, msg⟩)
    | .error x => .error x
  | _ => .ok (none, es.add ⟨ref, expected c!"a string" v⟩)

/-- `_PARSE_TIME_ZONE_AS_STR_TPL` and `_PARSE_TIME_ZONE_PYTZ_TPL`,
`/repo/mapry/py/generate/fromjsonable.py:762-809` -/
def parseTimeZone (L : Lib) (S : Settings) (v : Json) (ref : Str) (es : Errors) :
    Except Exc (Option Val × Errors) :=
  match v with
  | .str s =>
    if S.pytz then
      match L.timezone s with
      | some z => .ok (some (.zone z), es)
      | none => .ok (none, es.add ⟨ref, c!"Expected a valid IANA time zone, but got: " ++ s⟩)
    else .ok (some (.str s), es)
  | _ => .ok (none, es.add ⟨ref, expected c!"a string" v⟩)

/-- `_PARSE_DURATION_TPL`, `/repo/mapry/py/generate/fromjsonable.py:852-880` -/
def parseDuration (L : Lib) (v : Json) (ref : Str) (es : Errors) : Except Exc (Option Val × Errors) :=
  match v with
  | .str s =>
    match pyFromString s with
    | .ok d => .ok (some (.duration d), es)
    | .error (.valueError msg) => .ok (none, es.add ⟨ref, msg⟩)
    | .error .overflowError =>
      .ok (none, es.add ⟨ref, c!"Creating a timedelta overflowed from: " ++ L.repr s⟩)
    | .error x => .error x
  | _ => .ok (none, es.add ⟨ref, expected c!"a string" v⟩)

/-- `_PARSE_BOOLEAN_TPL`, `/repo/mapry/py/generate/fromjsonable.py:248-266` -/
def parseBoolean (v : Json) (ref : Str) (es : Errors) : Except Exc (Option Val × Errors) :=
  match v with
  | .bool b => .ok (some (.bool b), es)
  | _ => .ok (none, es.add ⟨ref, expected c!"a bool" v⟩)

/-- `_PARSE_CLASS_REF_TPL`, `/repo/mapry/py/generate/fromjsonable.py:1331-1358`; `ids` are the keys of
the registry. -/
def parseReference (cls : Str) (ids : List Str) (v : Json) (ref : Str) (es : Errors) :
    Except Exc (Option Val × Errors) :=
  match v with
  | .str s =>
    if s ∈ ids then .ok (some (.ref cls s), es)
    else .ok (none, es.add
      ⟨ref, c!"Reference to an instance of class " ++ cls ++ c!" not found: " ++ s⟩)
  | _ => .ok (none, es.add ⟨ref, expected c!"a str" v⟩)

/-- The parser of one value. -/
abbrev ParseFn := Json → Str → Errors → Except Exc (Option Val × Errors)

/-- The loop over the items, `/repo/mapry/py/generate/fromjsonable.py:919-935`. -/
def parseItems (f : ParseFn) (ref : Str) (i : Nat) (acc : List Val) :
    List Json → Errors → Except Exc (List Val × Errors)
  | [], es => .ok (acc, es)
  | x :: xs, es => do
    let (v, es) ← f x (sub ref (natStr i)) es
    let acc := match v with
      | some v => acc ++ [v]
      | none => acc
    if es.full then return (acc, es) else parseItems f ref (i + 1) acc xs es

/-- `_PARSE_ARRAY_TPL`, `/repo/mapry/py/generate/fromjsonable.py:907-960` -/
def parseArray (f : ParseFn) (lo hi : Option Int) (v : Json) (ref : Str) (es : Errors) :
    Except Exc (Option Val × Errors) :=
  match v with
  | .arr xs =>
    let n : Int := xs.length
    if lo.any (fun m => n < m) then
      .ok (none, es.add ⟨ref, c!"Expected a list of minimum size " ++ intStr (lo.getD 0) ++
        c!", but got size: " ++ intStr n⟩)
    else if hi.any (fun m => m < n) then
      .ok (none, es.add ⟨ref, c!"Expected a list of maximum size " ++ intStr (hi.getD 0) ++
        c!", but got size: " ++ intStr n⟩)
    else do
      let (vs, es) ← parseItems f ref 0 [] xs es
      return (some (.list vs), es)
  | _ => .ok (none, es.add ⟨ref, expected c!"a list" v⟩)

/-- The loop over the values of a map, `/repo/mapry/py/generate/fromjsonable.py:1036-1058`. The keys
of a JSONable are strings, so that the check of the key never fails. -/
def parseEntries (L : Lib) (f : ParseFn) (ref : Str) (acc : List (Str × Val)) :
    List (Str × Json) → Errors → Except Exc (List (Str × Val) × Errors)
  | [], es => .ok (acc, es)
  | (k, x) :: kvs, es => do
    let (v, es) ← f x (sub ref (L.repr k)) es
    let acc := match v with
      | some v => acc ++ [(k, v)]
      | none => acc
    if es.full then return (acc, es) else parseEntries L f ref acc kvs es

/-- `_PARSE_MAP_TPL`, `/repo/mapry/py/generate/fromjsonable.py:1009-1061` -/
def parseMap (L : Lib) (f : ParseFn) (v : Json) (ref : Str) (es : Errors) : Except Exc (Option Val × Errors) :=
  match v with
  | .obj ordered kvs => do
    let (vs, es) ← parseEntries L f ref [] kvs es
    return (some (.map ordered vs), es)
  | _ => .ok (none, es.add ⟨ref, expected c!"a dict" v⟩)

/-- What the parser of a value needs to know. -/
structure Env where
  lib : Lib
  settings : Settings
  graph : Graph
  /-- the identifiers in the registry of the class -/
  ids : Str → List Str

/-- `_parse_value`, `/repo/mapry/py/generate/fromjsonable.py:1104-1249`; `embed` calls the function
generated for the embeddable structure (`_PARSE_EMBED_TPL`,
`/repo/mapry/py/generate/fromjsonable.py:1393-1414`). -/
def parseTy (E : Env) (embed : Str → Json → Str → Errors → Except Exc (Val × Errors)) : Ty → ParseFn
  | .boolean => parseBoolean
  | .integer b => parseInteger E.lib b
  | .float b => parseFloat E.lib b
  | .string p => parseMatched E.lib .str p
  | .path p =>
    parseMatched E.lib (fun s => if E.settings.pathlib then .path (E.lib.normPath s) else .str s) p
  | .date f => parseDateTime E.lib (fun d => .date d.date) f
  | .time f => parseDateTime E.lib (fun d => .time d.time) f
  | .datetime f => parseDateTime E.lib .datetime f
  | .timeZone => parseTimeZone E.lib E.settings
  | .duration => parseDuration E.lib
  | .array t lo hi => parseArray (parseTy E embed t) lo hi
  | .map t => parseMap E.lib (parseTy E embed t)
  | .cls c => parseReference c (E.ids c)
  | .embed name => fun v ref es => do
    let (x, es) ← embed name v ref es
    return (some x, es)

/-! ## Parsing composites -/

/-- `_PARSE_PROPERTY_TPL`, `/repo/mapry/py/generate/fromjsonable.py:1252-1281`; `kvs` is the
dictionary. -/
def parseProperty (parse : Ty → ParseFn) (kvs : List (Str × Json)) (ref : Str) (p : Property)
    (attrs : Attrs) (es : Errors) : Except Exc (Attrs × Errors) :=
  match kvs.lookup p.json with
  | none | some .null =>
    if p.optional then .ok (attrs, es)
    else .ok (attrs, es.add ⟨ref, c!"Property is missing: " ++ p.json⟩)
  | some v => do
    let (x, es) ← parse p.ty v (sub ref p.json) es
    return (match x with
      | some x => setAttr (attr p) x attrs
      | none => attrs, es)

/-- The properties one after another with the check of the container after each one,
`/repo/mapry/py/generate/fromjsonable.py:1487-1493` and `1693-1699`. -/
def parseProps (parse : Ty → ParseFn) (kvs : List (Str × Json)) (ref : Str) :
    List Property → Attrs → Errors → Except Exc (Attrs × Errors)
  | [], attrs, es => .ok (attrs, es)
  | p :: ps, attrs, es => do
    let (attrs, es) ← parseProperty parse kvs ref p attrs es
    if es.full then return (attrs, es) else parseProps parse kvs ref ps attrs es

/-- The attributes of a placeholder, all `None`
(`/repo/mapry/py/generate/parse.py:84-216`, `/repo/mapry/py/generate/types.py:103-250`). -/
def placeholder (ps : List Property) : Attrs := ps.map fun p => (attr p, .none)

/-- The function generated for a class or an embeddable structure,
`/repo/mapry/py/generate/fromjsonable.py:1456-1495`: the attributes of the target afterwards. -/
def parseComposite (parse : Ty → ParseFn) (ps : List Property) (v : Json) (ref : Str) (es : Errors) :
    Except Exc (Attrs × Errors) :=
  match v with
  | .obj _ kvs => parseProps parse kvs ref ps (placeholder ps) es
  | _ => .ok (placeholder ps, es.add ⟨ref, expected c!"a dictionary" v⟩)

/-- The parser of the embeddable structures: every call takes one frame of the stack, of which `fuel`
are left. (`embed?` fails only for an unknown name, for which no code can be generated.) -/
def parseEmbed (E : Env) : Nat → Str → Json → Str → Errors → Except Exc (Val × Errors)
  | 0, _, _, _, _ => .error .recursionError
  | fuel + 1, name, v, ref, es =>
    match E.graph.embed? name with
    | none => .error .keyError
    | some e => do
      let (attrs, es) ← parseComposite (parseTy E (parseEmbed E fuel)) e.properties v ref es
      return (.obj name attrs, es)

/-- An instance of a class. -/
structure Instance where
  id : Str
  attrs : Attrs

/-- A registry with its instances under their identifiers. -/
structure Registry where
  ordered : Bool
  instances : List (Str × Instance)

/-- The graph: the attributes of its properties and the registries by class. -/
structure GraphVal where
  attrs : Attrs
  registries : List (Str × Registry)

/-- The key of the registry in the JSON object (`/repo/mapry/naming.py:94-108` `json_plural`). -/
def registryKey (c : Class) : Str := lower c.plural

/-- The loop over the identifiers, `/repo/mapry/py/generate/fromjsonable.py:1640-1667`: the
identifiers with a placeholder. -/
def preallocIds (L : Lib) (c : Class) (ref : Str) : List Str → List Str → Errors → List Str × Errors
  | acc, [], es => (acc, es)
  | acc, id :: ids, es =>
    match c.idPattern with
    | none => preallocIds L c ref (acc ++ [id]) ids es
    | some p =>
      if L.reMatch p id then preallocIds L c ref (acc ++ [id]) ids es
      else
        let es := es.add ⟨sub ref (registryKey c), c!"Expected ID to match " ++ p ++ c!", but got: " ++ id⟩
        if es.full then (acc, es) else preallocIds L c ref (acc ++ [id]) ids es

/-- The pre-allocation of a registry, `/repo/mapry/py/generate/fromjsonable.py:1620-1668`: if the
registry is ordered and its identifiers. Without a value, the constructor of the graph makes an
empty ordered dictionary. -/
def prealloc (L : Lib) (kvs : List (Str × Json)) (ref : Str) (c : Class) (es : Errors) :
    (Bool × List Str) × Errors :=
  match kvs.lookup (registryKey c) with
  | none | some .null => ((true, []), es)
  | some (.obj ordered ids) =>
    let r := preallocIds L c ref [] (ids.map (·.1)) es
    ((ordered, r.1), r.2)
  | some v => ((true, []), es.add ⟨sub ref (registryKey c), expected c!"a dictionary" v⟩)

/-- The pre-allocation of all the registries, `/repo/mapry/py/generate/fromjsonable.py:1613-1672`;
`none` if the function returns since the container is full. -/
def preallocAll (L : Lib) (kvs : List (Str × Json)) (ref : Str) :
    List Class → List (Str × Bool × List Str) → Errors → Option (List (Str × Bool × List Str)) × Errors
  | [], acc, es => (some acc, es)
  | c :: cs, acc, es =>
    let r := prealloc L kvs ref c es
    if r.2.full then (none, r.2) else preallocAll L kvs ref cs (acc ++ [(c.name, r.1)]) r.2

/-- The loop over the instances of a registry, `/repo/mapry/py/generate/fromjsonable.py:1683-1701`;
`none` if the function returns since the container is full. `ids` are the identifiers with a
placeholder. -/
def parseInstances (L : Lib) (parse : Ty → ParseFn) (c : Class) (ref : Str) (ids : List Str) :
    List (Str × Json) → List (Str × Instance) → Errors → Except Exc (Option (List (Str × Instance)) × Errors)
  | [], acc, es => .ok (some acc, es)
  | (id, v) :: rest, acc, es =>
    if id ∈ ids then do
      let (attrs, es) ←
        parseComposite parse c.properties v (sub (sub ref (registryKey c)) (L.repr id)) es
      if es.full then return (none, es)
      else parseInstances L parse c ref ids rest (acc ++ [(id, ⟨id, attrs⟩)]) es
    else .error .keyError

/-- The instances of one class, `/repo/mapry/py/generate/fromjsonable.py:1677-1701`: `.items()` of a
value which is not a dictionary raises `AttributeError`. -/
def parseRegistry (L : Lib) (parse : Ty → ParseFn) (kvs : List (Str × Json)) (ref : Str) (c : Class)
    (pre : Bool × List Str) (es : Errors) : Except Exc (Option Registry × Errors) :=
  match kvs.lookup (registryKey c) with
  | none => .ok (some ⟨pre.1, []⟩, es)
  | some (.obj _ entries) => do
    let (r, es) ← parseInstances L parse c ref pre.2 entries [] es
    return (r.map fun instances => ⟨pre.1, instances⟩, es)
  | some _ => .error .attributeError

/-- All the registries, `/repo/mapry/py/generate/fromjsonable.py:1676-1702`. -/
def parseRegistries (L : Lib) (parse : Ty → ParseFn) (kvs : List (Str × Json)) (ref : Str)
    (pre : List (Str × Bool × List Str)) :
    List Class → List (Str × Registry) → Errors → Except Exc (Option (List (Str × Registry)) × Errors)
  | [], acc, es => .ok (some acc, es)
  | c :: cs, acc, es => do
    let (r, es) ← parseRegistry L parse kvs ref c ((pre.lookup c.name).getD (true, [])) es
    match r with
    | none => return (none, es)
    | some r => parseRegistries L parse kvs ref pre cs (acc ++ [(c.name, r)]) es

/-- The environment after the pre-allocation. -/
def envOf (L : Lib) (S : Settings) (g : Graph) (pre : List (Str × Bool × List Str)) : Env :=
  ⟨L, S, g, fun c => ((pre.lookup c).map (·.2)).getD []⟩

/-- The function generated for the graph, `/repo/mapry/py/generate/fromjsonable.py:1596-1715`, called
with `fuel` frames of the stack left. -/
def parseGraph (L : Lib) (S : Settings) (g : Graph) (fuel : Nat) (v : Json) (ref : Str)
    (es : Errors) : Except Exc (Option GraphVal × Errors) :=
  if es.full then .ok (none, es)
  else
    match v with
    | .obj _ kvs =>
      match preallocAll L kvs ref g.classes [] es with
      | (none, es) => .ok (none, es)
      | (some pre, es) =>
        if !g.classes.isEmpty && !es.empty then .ok (none, es)
        else do
          let E := envOf L S g pre
          let parse := parseTy E (parseEmbed E fuel)
          let (regs, es) ← parseRegistries L parse kvs ref pre g.classes [] es
          match regs with
          | none => return (none, es)
          | some regs =>
            let (attrs, es) ← parseProps parse kvs ref g.properties (placeholder g.properties) es
            if es.full then return (none, es)
            else if !es.empty then return (none, es)
            else return (some ⟨attrs, regs⟩, es)
    | _ => .ok (none, es.add ⟨ref, expected c!"a dictionary" v⟩)

/-! ## Serializing

A value which is not of the kind stated in the annotations raises `TypeError` in the model; the
generated code has no such checks and the outcome depends on the value. -/

/-- A value which is assigned as it is. `None` is assigned, too. -/
def serDirect : Val → Except Exc Json
  | .none => .ok .null
  | .bool b => .ok (.bool b)
  | .int i => .ok (.int i)
  | .float f => .ok (.float f)
  | .str s => .ok (.str s)
  | _ => .error .typeError

/-- The items in order, `/repo/mapry/py/generate/tojsonable.py:204-226`. -/
def serItems (f : Val → Except Exc Json) : List Val → Except Exc (List Json)
  | [] => .ok []
  | v :: vs => do
    let x ← f v
    let xs ← serItems f vs
    return x :: xs

/-- The entries in order, `/repo/mapry/py/generate/tojsonable.py:294-314`. -/
def serEntries (f : Val → Except Exc Json) : List (Str × Val) → Except Exc (List (Str × Json))
  | [] => .ok []
  | (k, v) :: vs => do
    let x ← f v
    let xs ← serEntries f vs
    return (k, x) :: xs

/-- `_serialize_value`, `/repo/mapry/py/generate/tojsonable.py:363-471`; `embed` calls the function
generated for the embeddable structure without the argument `ordered`. -/
def serTy (L : Lib) (S : Settings) (embed : Str → Val → Except Exc Json) : Ty → Val → Except Exc Json
  | .boolean, v | .integer _, v | .float _, v | .string _, v => serDirect v
  | .path _, v =>
    if S.pathlib then
      match v with
      | .path s => .ok (.str s)
      | _ => .error .typeError
    else serDirect v
  | .date f, v =>
    match v with
    | .date d => .ok (.str (L.strftime d.full f))
    | _ => .error .typeError
  | .time f, v =>
    match v with
    | .time t => .ok (.str (L.strftime t.full f))
    | _ => .error .typeError
  | .datetime f, v =>
    match v with
    | .datetime d => .ok (.str (L.strftime d f))
    | _ => .error .typeError
  | .timeZone, v =>
    if S.pytz then
      match v with
      | .zone s => .ok (.str s)
      | _ => .error .typeError
    else serDirect v
  | .duration, v =>
    match v with
    | .duration d => .ok (.str (pyToString d))
    | _ => .error .typeError
  | .array t _ _, v =>
    match v with
    | .list vs => do
      let xs ← serItems (serTy L S embed t) vs
      return .arr xs
    | _ => .error .typeError
  | .map t, v =>
    match v with
    | .map ordered kvs => do
      let xs ← serEntries (serTy L S embed t) kvs
      return .obj ordered xs
    | _ => .error .typeError
  | .cls _, v =>
    match v with
    | .ref _ id => .ok (.str id)
    | _ => .error .typeError
  | .embed name, v => embed name v

/-- `target[key] = value` of a dictionary -/
def putKey (k : Str) (x : Json) : List (Str × Json) → List (Str × Json)
  | [] => [(k, x)]
  | (k', x') :: rest => if k' = k then (k, x) :: rest else (k', x') :: putKey k x rest

/-- The properties one after another, `/repo/mapry/py/generate/tojsonable.py:475-516`; `field` is the
attribute read for the property. -/
def serProps (ser : Ty → Val → Except Exc Json) (field : Property → Str) (attrs : Attrs) :
    List Property → List (Str × Json) → Except Exc (List (Str × Json))
  | [], target => .ok target
  | p :: ps, target =>
    match attrs.lookup (field p) with
    | none => .error .attributeError
    | some .none =>
      if p.optional then serProps ser field attrs ps target
      else do
        let x ← ser p.ty .none
        serProps ser field attrs ps (putKey p.json x target)
    | some v => do
      let x ← ser p.ty v
      serProps ser field attrs ps (putKey p.json x target)

/-- The function generated for a class or an embeddable structure,
`/repo/mapry/py/generate/tojsonable.py:519-580`. The attribute read is the name of the property *as
written in the schema* (line 569), and not `as_attribute` of it. -/
def serComposite (ser : Ty → Val → Except Exc Json) (ordered : Bool) (ps : List Property)
    (attrs : Attrs) : Except Exc Json := do
  let kvs ← serProps ser (fun p => p.name) attrs ps []
  return .obj ordered kvs

/-- The serializer of the embeddable structures; `fuel` is the number of stack frames left. -/
def serEmbed (L : Lib) (S : Settings) (g : Graph) : Nat → Str → Val → Except Exc Json
  | 0, _, _ => .error .recursionError
  | fuel + 1, name, v =>
    match g.embed? name with
    | none => .error .keyError
    | some e =>
      match v with
      | .obj _ attrs => serComposite (serTy L S (serEmbed L S g fuel)) false e.properties attrs
      | _ => .error .typeError

/-- The message of the exception, `/repo/mapry/py/generate/tojsonable.py:637-640`. (If `as_composite`
raises, there is no generated code.) -/
def idMessage (L : Lib) (c : Class) (key id : Str) : Str :=
  let name := match Naming.asComposite c.name with
    | .ok n => n
    | .error _ => c.name
  c!"Expected ID " ++ L.repr key ++ c!" of the instance of " ++ name ++ c!", but got: " ++ L.repr id

/-- The loop over the instances, `/repo/mapry/py/generate/tojsonable.py:634-646`. -/
def serInstances (L : Lib) (ser : Ty → Val → Except Exc Json) (ordered : Bool) (c : Class) :
    List (Str × Instance) → Except Exc (List (Str × Json))
  | [] => .ok []
  | (id, inst) :: rest =>
    if id ≠ inst.id then .error (.valueError (idMessage L c id inst.id))
    else do
      let x ← serComposite ser ordered c.properties inst.attrs
      let xs ← serInstances L ser ordered c rest
      return (id, x) :: xs

/-- The registries one after another, `/repo/mapry/py/generate/tojsonable.py:615-649`. -/
def serRegistries (L : Lib) (ser : Ty → Val → Except Exc Json) (ordered : Bool) (gv : GraphVal) :
    List Class → List (Str × Json) → Except Exc (List (Str × Json))
  | [], target => .ok target
  | c :: cs, target =>
    match gv.registries.lookup c.name with
    | none => .error .attributeError
    | some r =>
      if r.instances.isEmpty then serRegistries L ser ordered gv cs target
      else do
        let xs ← serInstances L ser ordered c r.instances
        serRegistries L ser ordered gv cs (putKey (registryKey c) (.obj ordered xs) target)

/-- The function generated for the graph, `/repo/mapry/py/generate/tojsonable.py:583-682`. -/
def serGraph (L : Lib) (S : Settings) (g : Graph) (fuel : Nat) (ordered : Bool) (gv : GraphVal) :
    Except Exc Json := do
  let ser := serTy L S (serEmbed L S g fuel)
  let kvs ← serProps ser attr gv.attrs g.properties []
  let kvs ← serRegistries L ser ordered gv g.classes kvs
  return .obj ordered kvs

end Mapry.PyRuntime
