import Verif.Errors
import Verif.Schema
import Verif.Duration
import Verif.Naming
import Verif.Strftime
import Verif.GoMap

/-!
# Model of the generated Go parser and serializer

`mapry/go/generate/fromjsonable.py` and `tojsonable.py` generate one function for every class, embed
and graph. The model is an interpreter: for a schema and an input it performs the steps which the
text generated for the schema performs. The cited lines are lines of the templates.

General simplifications:

* A JSONable value is an `interface{}` which holds what `json.Unmarshal` or the generated serializer
  puts into it. A Go map is the list of its entries with ascending keys (`Verif/GoMap.lean`).
* The order in which `range` visits a map is arbitrary: it is drawn from the oracle `Order`, a new
  order at every `range` statement.
* A pointer to an instance of a class is the class and the `ID` of the instance.
* The registries are looked up by the class. The generated code passes them as arguments named by the
  plural; the arguments are available by C09.
* The pointer of an optional property is not represented: the field is `nil` or the value pointed to.
  A `nil` slice or map in a required place is the empty one.
* A panic is the exception `panic`. Running out of the stack is a fatal error in Go; it is the exception
  `recursionError` when `fuel` calls are nested.
-/

namespace Mapry.GoRuntime

open Mapry.Text Mapry.Duration

/-- What an `interface{}` holds. -/
inductive JVal where
  | null
  | bool (b : Bool)
  | float (f : F64)
  | int64 (i : Int)
  | str (s : Str)
  | arr (xs : List JVal)
  | obj (kvs : List (Str × JVal))

/-- A `time.Time`: the civil time, the nanoseconds, the offset and the name of the location. -/
structure Time where
  year : Int
  month : Nat
  day : Nat
  hour : Nat := 0
  minute : Nat := 0
  second : Nat := 0
  nano : Nat := 0
  offset : Int := 0
  location : Str := c!"UTC"
  deriving DecidableEq, Repr

/-- The parts of the Go libraries the generated code relies on. -/
structure Lib where
  /-- `regexp.MustCompile(pattern).MatchString(s)` -/
  matchString : Str → Str → Bool
  /-- `time.Parse(layout, value)`; `none` if it returns an error -/
  parseTime : Str → Str → Option Time
  /-- `t.Format(layout)` -/
  formatTime : Time → Str → Str
  /-- `time.LoadLocation(name)`: `none` if it returns an error, otherwise the `String()` of the
  location -/
  loadLocation : Str → Option Str
  /-- `fmt.Sprintf(format, args...)` -/
  sprintf : Str → List JVal → Str
  /-- the `Error()` of the error which `time.LoadLocation(name)` returns -/
  locationError : Str → Str := fun _ => []

/-- A Go value stored in a field. -/
inductive Val where
  /-- a `nil` pointer, slice or map -/
  | nil
  /-- the zero value of the type, when nothing has been assigned -/
  | zero
  | bool (b : Bool)
  | int (i : Int)
  | float (f : F64)
  | str (s : Str)
  | time (t : Time)
  /-- a `*time.Location` by its `String()` -/
  | zone (s : Str)
  /-- a `time.Duration` in nanoseconds -/
  | duration (d : Int)
  | list (xs : List Val)
  | map (kvs : List (Str × Val))
  /-- a pointer to the instance of the class with the identifier -/
  | ref (cls id : Str)
  /-- a structure with its fields -/
  | obj (embed : Str) (fields : List (Str × Val))

/-- The fields of a structure. -/
abbrev Fields := List (Str × Val)

/-- The name in Go (`/repo/mapry/naming.py:148-181` `ucamel_case`); if it raises, there is no generated
code. -/
def goName (s : Str) : Str :=
  match Naming.ucamelCase s with
  | .ok n => n
  | .error _ => s

/-- The field of a property (`/repo/mapry/go/generate/types.py:68`). -/
def field (p : Property) : Str := goName p.name

/-- `target.Field = value` -/
def setField (f : Str) (x : Val) : Fields → Fields
  | [] => [(f, x)]
  | (f', x') :: rest => if f' = f then (f, x) :: rest else (f', x') :: setField f x rest

/-- The fields of a new structure. -/
def zeroFields (ps : List Property) : Fields :=
  ps.map fun p => (field p, if p.optional then .nil else .zero)

/-- The fields of the target of an embeddable structure before it is parsed. -/
def targetFields (ps : List Property) : Val → Fields
  | .obj _ fields => fields
  | _ => zeroFields ps

/-- The error container and the number of `range` statements executed. -/
structure St where
  errors : GoErrors
  ranges : Nat
  deriving DecidableEq

/-- `errors.Add(ref, message)` -/
def St.add (st : St) (ref message : Str) : St := { st with errors := st.errors.add ⟨ref, message⟩ }

/-- A further `range` statement -/
def St.range (st : St) : St := { st with ranges := st.ranges + 1 }

/-- `strings.Join([]string{ref, part}, "/")` -/
def sub (ref part : Str) : Str := ref ++ c!"/" ++ part

/-! ## Parsing values -/

/-- The parser of one value: the value, the reference, the target before, and the state. The result is
what is assigned to the target, if it is assigned at all. -/
abbrev ParseFn := JVal → Str → Val → St → Except Exc (Option Val × St)

/-- A value of the wrong kind, e.g. `/repo/mapry/go/generate/fromjsonable.py:431-439`. -/
def expected (L : Lib) (what : Str) (v : JVal) (ref : Str) (st : St) : Except Exc (Option Val × St) :=
  .ok (none, st.add ref (L.sprintf (c!"expected " ++ what ++ c!", but got: %T") [v]))

/-- `_PARSE_BOOLEAN_TPL`, `/repo/mapry/go/generate/fromjsonable.py:423-443` -/
def parseBoolean (L : Lib) : ParseFn := fun v ref _ st =>
  match v with
  | .bool b => .ok (some (.bool b), st)
  | _ => expected L c!"a bool" v ref st

/-- `>` or `>=` -/
def minOp (b : Bounds) : Str := if b.exMin then c!">" else c!">="
/-- `<` or `<=` -/
def maxOp (b : Bounds) : Str := if b.exMax then c!"<" else c!"<="

/-- `cast op minimum` between an `int64` and a constant, `true` without a minimum. (A constant beyond
64 bits does not compile.) -/
def intMinOk (b : Bounds) (i : Int) : Bool :=
  match b.min with
  | none => true
  | some m => if b.exMin then decide (m < i) else decide (m ≤ i)

def intMaxOk (b : Bounds) (i : Int) : Bool :=
  match b.max with
  | none => true
  | some m => if b.exMax then decide (i < m) else decide (i ≤ m)

/-- The checks of the bounds, `/repo/mapry/go/generate/fromjsonable.py:512-549`. -/
def parseInt64 (L : Lib) (b : Bounds) (i : Int) (ref : Str) (st : St) : Except Exc (Option Val × St) :=
  if intMinOk b i = false then
    .ok (none, st.add ref (L.sprintf
      (c!"expected " ++ minOp b ++ c!" " ++ intStr (b.min.getD 0) ++ c!", but got: %d") [.int64 i]))
  else if intMaxOk b i = false then
    .ok (none, st.add ref (L.sprintf
      (c!"expected " ++ maxOp b ++ c!" " ++ intStr (b.max.getD 0) ++ c!", but got: %d") [.int64 i]))
  else .ok (some (.int i), st)

/-- The value does not fit into an `int64`, `/repo/mapry/go/generate/fromjsonable.py:497-510`. -/
def overflow (L : Lib) (v : JVal) (ref : Str) (st : St) : Except Exc (Option Val × St) :=
  .ok (none, st.add ref (L.sprintf
    c!"expected the value to fit into int64, but got an overflow: %f" [v]))

/-- The value is not a whole number, `/repo/mapry/go/generate/fromjsonable.py:488-496`. -/
def notWhole (L : Lib) (v : JVal) (ref : Str) (st : St) : Except Exc (Option Val × St) :=
  .ok (none, st.add ref (L.sprintf c!"expected a whole number, but got: %f" [v]))

/-- `_PARSE_INTEGER_TPL`, `/repo/mapry/go/generate/fromjsonable.py:470-551`. NaN is unequal to its
truncation, an infinity is equal to it. -/
def parseInteger (L : Lib) (b : Bounds) : ParseFn := fun v ref _ st =>
  match v with
  | .float .nan => notWhole L v ref st
  | .float (.inf _) => overflow L v ref st
  | .float (.fin q) =>
    if q ≠ (F64.truncRat q : Rat) then notWhole L v ref st
    else if 9223372036854775808 ≤ q ∨ q < -9223372036854775808 then overflow L v ref st
    else parseInt64 L b (F64.truncRat q) ref st
  | _ => expected L c!"a float64" v ref st

/-- `f > constant` or `f >= constant` of `float64`s: the constant is rounded to the type. -/
def floatAbove (strict : Bool) (m : Int) : F64 → Bool
  | .nan => false
  | .inf neg => !neg
  | .fin q =>
    match F64.round m with
    | .fin c => if strict then decide (c < q) else decide (c ≤ q)
    | _ => false

/-- `f < constant` or `f <= constant` -/
def floatBelow (strict : Bool) (m : Int) : F64 → Bool
  | .nan => false
  | .inf neg => neg
  | .fin q =>
    match F64.round m with
    | .fin c => if strict then decide (q < c) else decide (q ≤ c)
    | _ => false

/-- `true` without a minimum. (A constant beyond `float64` does not compile.) -/
def floatMinOk (b : Bounds) (f : F64) : Bool :=
  match b.min with
  | none => true
  | some m => floatAbove b.exMin m f

def floatMaxOk (b : Bounds) (f : F64) : Bool :=
  match b.max with
  | none => true
  | some m => floatBelow b.exMax m f

/-- `_PARSE_FLOAT_TPL`, `/repo/mapry/go/generate/fromjsonable.py:580-637`. The bounds in the messages
are formatted with `%f`; they are integers (below 2^53, the digits are exact). -/
def parseFloat (L : Lib) (b : Bounds) : ParseFn := fun v ref _ st =>
  match v with
  | .float f =>
    if floatMinOk b f = false then
      .ok (none, st.add ref (L.sprintf (c!"expected " ++ minOp b ++ c!" " ++ intStr (b.min.getD 0) ++
        c!".000000, but got: %f") [v]))
    else if floatMaxOk b f = false then
      .ok (none, st.add ref (L.sprintf (c!"expected " ++ maxOp b ++ c!" " ++ intStr (b.max.getD 0) ++
        c!".000000, but got: %f") [v]))
    else .ok (some (.float f), st)
  | _ => expected L c!"a float64" v ref st

/-- `_PARSE_STRING_TPL`, `/repo/mapry/go/generate/fromjsonable.py:666-702`, for strings and paths. The
patterns compiled at the top of the file (`/repo/mapry/go/generate/fromjsonable.py:325-420`) are the
ones of the schema. -/
def parseString (L : Lib) (pattern : Option Str) : ParseFn := fun v ref _ st =>
  match v with
  | .str s =>
    match pattern with
    | none => .ok (some (.str s), st)
    | some p =>
      if L.matchString p s then .ok (some (.str s), st)
      else .ok (none, st.add ref (L.sprintf (c!"expected to match " ++ p ++ c!", but got: %s") [v]))
  | _ => expected L c!"a string" v ref st

/-- The converted format (`/repo/mapry/go/timeformat.py`); if the conversion raises, there is no
generated code. -/
def layout (format : Str) : Str :=
  match Strftime.convert format with
  | .ok l => l
  | .error _ => []

/-- `_PARSE_DATE_TIME_TPL`, `/repo/mapry/go/generate/fromjsonable.py:735-770` -/
def parseDateTime (L : Lib) (format : Str) : ParseFn := fun v ref _ st =>
  match v with
  | .str s =>
    match L.parseTime (layout format) s with
    | some t => .ok (some (.time t), st)
    | none => .ok (none, st.add ref (L.sprintf (c!"expected layout " ++ layout format ++ c!", got: %s") [v]))
  | _ => expected L c!"a string" v ref st

/-- `_PARSE_TIME_ZONE_TPL`, `/repo/mapry/go/generate/fromjsonable.py:802-835`; the text of the error is
left to the library. -/
def parseTimeZone (L : Lib) : ParseFn := fun v ref _ st =>
  match v with
  | .str s =>
    match L.loadLocation s with
    | some z => .ok (some (.zone z), st)
    | none => .ok (none, st.add ref (L.sprintf c!"failed to load location from %#v: %s" [v, .str (L.locationError s)]))
  | _ => expected L c!"a string" v ref st

/-- `_PARSE_DURATION_TPL`, `/repo/mapry/go/generate/fromjsonable.py:863-896` -/
def parseDuration (L : Lib) : ParseFn := fun v ref _ st =>
  match v with
  | .str s =>
    match goFromString s with
    | .ok d => .ok (some (.duration d), st)
    | .error (.valueError msg) =>
      .ok (none, st.add ref (L.sprintf c!"failed to parse duration from %#v: %s" [v, .str msg]))
    | .error x => .error x
  | _ => expected L c!"a string" v ref st

/-- `_PARSE_CLASS_REF_TPL`, `/repo/mapry/go/generate/fromjsonable.py:1384-1417`; `ids` are the keys of
the registry. -/
def parseReference (L : Lib) (cls : Str) (ids : List Str) : ParseFn := fun v ref _ st =>
  match v with
  | .str s =>
    if s ∈ ids then .ok (some (.ref cls s), st)
    else .ok (none, st.add ref (L.sprintf
      (c!"reference to an instance of class " ++ goName cls ++ c!" not found: %s") [v]))
  | _ => expected L c!"a string" v ref st

/-- The loop over the items, `/repo/mapry/go/generate/fromjsonable.py:927-936`; the items left out stay
zero. -/
def parseItems (f : ParseFn) (ref : Str) (i : Nat) : List JVal → St → Except Exc (List Val × St)
  | [], st => .ok ([], st)
  | x :: xs, st => do
    let (v, st) ← f x (sub ref (natStr i)) .zero st
    if st.errors.full then return (v.getD .zero :: xs.map (fun _ => Val.zero), st)
    else do
      let (vs, st) ← parseItems f ref (i + 1) xs st
      return (v.getD .zero :: vs, st)

/-- `_PARSE_ARRAY_TPL`, `/repo/mapry/go/generate/fromjsonable.py:923-981` -/
def parseArray (L : Lib) (f : ParseFn) (lo hi : Option Int) : ParseFn := fun v ref _ st =>
  match v with
  | .arr xs =>
    let n : Int := xs.length
    if lo.any (fun m => n < m) then
      .ok (none, st.add ref (L.sprintf
        (c!"expected an array of minimum size " ++ intStr (lo.getD 0) ++ c!", but got: %d") [.int64 n]))
    else if hi.any (fun m => m < n) then
      .ok (none, st.add ref (L.sprintf
        (c!"expected an array of maximum size " ++ intStr (hi.getD 0) ++ c!", but got: %d") [.int64 n]))
    else do
      let (vs, st) ← parseItems f ref 0 xs st
      return (some (.list vs), st)
  | _ => expected L c!"a []interface{}" v ref st

/-- The loop over the entries, `/repo/mapry/go/generate/fromjsonable.py:1047-1054`; `acc` is the map so
far. An embeddable structure goes through a variable (`/repo/mapry/go/generate/fromjsonable.py:1060-1065`)
and is always assigned. -/
def parseEntries (f : ParseFn) (ref : Str) (acc : GoMap Val) :
    List (Str × JVal) → St → Except Exc (GoMap Val × St)
  | [], st => .ok (acc, st)
  | (k, x) :: kvs, st => do
    let (v, st) ← f x (sub ref k) .zero st
    let acc := match v with
      | some v => GoMap.put k v acc
      | none => acc
    if st.errors.full then return (acc, st) else parseEntries f ref acc kvs st

/-- `_PARSE_MAP_TPL`, `/repo/mapry/go/generate/fromjsonable.py:1029-1058` -/
def parseMap (O : Order) (L : Lib) (f : ParseFn) : ParseFn := fun v ref _ st =>
  match v with
  | .obj kvs => do
    let (vs, st) ← parseEntries f ref [] (O.visit st.ranges kvs) st.range
    return (some (.map vs), st)
  | _ => expected L c!"a map[string]interface{}" v ref st

/-- What the parser of a value needs to know. -/
structure Env where
  order : Order
  lib : Lib
  graph : Graph
  /-- the identifiers in the registry of the class -/
  ids : Str → List Str

/-- `_parse_value`, `/repo/mapry/go/generate/fromjsonable.py:1132-1253`; `embed` calls the function
generated for the embeddable structure with the address of the target (`_PARSE_EMBED_TPL`,
`/repo/mapry/go/generate/fromjsonable.py:1449-1463`). -/
def parseTy (E : Env) (embed : Str → JVal → Str → Val → St → Except Exc (Val × St)) : Ty → ParseFn
  | .boolean => parseBoolean E.lib
  | .integer b => parseInteger E.lib b
  | .float b => parseFloat E.lib b
  | .string p => parseString E.lib p
  | .path p => parseString E.lib p
  | .date f => parseDateTime E.lib f
  | .time f => parseDateTime E.lib f
  | .datetime f => parseDateTime E.lib f
  | .timeZone => parseTimeZone E.lib
  | .duration => parseDuration E.lib
  | .array t lo hi => parseArray E.lib (parseTy E embed t) lo hi
  | .map t => parseMap E.order E.lib (parseTy E embed t)
  | .cls c => parseReference E.lib c (E.ids c)
  | .embed name => fun v ref target st => do
    let (x, st) ← embed name v ref target st
    return (some x, st)

/-! ## Parsing composites -/

/-- `is_pointer_type`, `/repo/mapry/go/generate/__init__.py:215-237` -/
def isPointer : Ty → Bool
  | .timeZone | .array _ _ _ | .map _ | .cls _ => true
  | _ => false

/-- `_PARSE_PROPERTY_TPL`, `/repo/mapry/go/generate/fromjsonable.py:1256-1381`; `kvs` is the map. -/
def parseProperty (parse : Ty → ParseFn) (kvs : List (Str × JVal)) (ref : Str) (p : Property)
    (fields : Fields) (st : St) : Except Exc (Fields × St) :=
  match kvs.lookup p.json with
  | none =>
    if p.optional then .ok (fields, st)
    else .ok (fields, st.add ref (c!"property is missing: " ++ p.json))
  | some v =>
    if p.optional && !isPointer p.ty then do
      let (x, st) ← parse p.ty v (sub ref p.json) .zero st
      return (setField (field p) (x.getD .zero) fields, st)
    else do
      let (x, st) ← parse p.ty v (sub ref p.json) ((fields.lookup (field p)).getD .zero) st
      return (match x with
        | some x => setField (field p) x fields
        | none => fields, st)

/-- The properties one after another with the check of the container after each one,
`/repo/mapry/go/generate/fromjsonable.py:1555-1562` and `1741-1748`. -/
def parseProps (parse : Ty → ParseFn) (kvs : List (Str × JVal)) (ref : Str) :
    List Property → Fields → St → Except Exc (Fields × St)
  | [], fields, st => .ok (fields, st)
  | p :: ps, fields, st => do
    let (fields, st) ← parseProperty parse kvs ref p fields st
    if st.errors.full then return (fields, st) else parseProps parse kvs ref ps fields st

/-- The function generated for a class or an embeddable structure,
`/repo/mapry/go/generate/fromjsonable.py:1502-1566`: the fields of the target afterwards and if the
value was a map. Called with a container which is not empty, the function panics. -/
def parseComposite (L : Lib) (parse : Ty → ParseFn) (ps : List Property) (v : JVal) (ref : Str)
    (target : Fields) (st : St) : Except Exc ((Fields × Bool) × St) :=
  if !st.errors.empty then .error (.panic c!"unexpected non-empty errors")
  else match v with
    | .obj kvs => do
      let (fields, st) ← parseProps parse kvs ref ps target st
      return ((fields, true), st)
    | _ => .ok ((target, false),
      st.add ref (L.sprintf c!"expected a map[string]interface{}, but got: %T" [v]))

/-- The parser of the embeddable structures: every call takes one frame of the stack, of which `fuel`
are left. (`embed?` fails only for an unknown name, for which no code can be generated.) -/
def parseEmbed (E : Env) : Nat → Str → JVal → Str → Val → St → Except Exc (Val × St)
  | 0, _, _, _, _, _ => .error .recursionError
  | fuel + 1, name, v, ref, target, st =>
    match E.graph.embed? name with
    | none => .error .keyError
    | some e => do
      let (r, st) ← parseComposite E.lib (parseTy E (parseEmbed E fuel)) e.properties v ref
        (targetFields e.properties target) st
      return (.obj name r.1, st)

/-- An instance of a class. -/
structure Instance where
  id : Str
  fields : Fields

/-- The graph: the fields of its properties and the registries by class. -/
structure GraphVal where
  fields : Fields
  registries : List (Str × GoMap Instance)

/-- A new graph: all the registries are `nil`. -/
def newGraph (g : Graph) : GraphVal where
  fields := zeroFields g.properties
  registries := g.classes.map fun c => (c.name, [])

/-- The registry of a class -/
def GraphVal.registry (gv : GraphVal) (c : Str) : GoMap Instance := (gv.registries.lookup c).getD []

/-- `target.Registry = m` -/
def setRegistry (c : Str) (m : GoMap Instance) : List (Str × GoMap Instance) → List (Str × GoMap Instance)
  | [] => [(c, m)]
  | (c', m') :: rest => if c' = c then (c, m) :: rest else (c', m') :: setRegistry c m rest

/-- The key of the registry in the JSON object (`/repo/mapry/naming.py:94-108` `json_plural`). -/
def registryKey (c : Class) : Str := lower c.plural

/-- The pattern of the identifiers -/
def idOk (L : Lib) (c : Class) (id : Str) : Bool :=
  match c.idPattern with
  | none => true
  | some p => L.matchString p id

/-- The loop over the identifiers, `/repo/mapry/go/generate/fromjsonable.py:1680-1700`. -/
def preallocIds (L : Lib) (c : Class) (ref : Str) : List Str → GoMap Instance → St → GoMap Instance × St
  | [], acc, st => (acc, st)
  | id :: ids, acc, st =>
    if idOk L c id then preallocIds L c ref ids (GoMap.put id ⟨[], zeroFields c.properties⟩ acc) st
    else preallocIds L c ref ids acc (st.add ref (L.sprintf
      (c!"expected ID to match " ++ c.idPattern.getD [] ++ c!", but got: %s") [.str id]))

/-- The pre-allocation of a registry, `/repo/mapry/go/generate/fromjsonable.py:1653-1702`. -/
def prealloc (O : Order) (L : Lib) (kvs : List (Str × JVal)) (ref : Str) (c : Class)
    (regs : List (Str × GoMap Instance)) (st : St) : List (Str × GoMap Instance) × St :=
  match kvs.lookup (registryKey c) with
  | none => (regs, st)
  | some (.obj entries) =>
    let r := preallocIds L c (sub ref (registryKey c)) ((O.visit st.ranges entries).map (·.1)) [] st.range
    (setRegistry c.name r.1 regs, r.2)
  | some v => (regs, st.add (sub ref (registryKey c))
      (L.sprintf c!"expected a map[string]interface{}, but got: %T" [v]))

/-- The pre-allocation of all the registries, `/repo/mapry/go/generate/fromjsonable.py:1653-1703`. -/
def preallocAll (O : Order) (L : Lib) (kvs : List (Str × JVal)) (ref : Str) :
    List Class → List (Str × GoMap Instance) → St → List (Str × GoMap Instance) × St
  | [], regs, st => (regs, st)
  | c :: cs, regs, st =>
    let r := prealloc O L kvs ref c regs st
    preallocAll O L kvs ref cs r.1 r.2

/-- The loop over the instances of a registry, `/repo/mapry/go/generate/fromjsonable.py:1719-1734`. An
identifier without an instance gives a `nil` target. -/
def parseInstances (L : Lib) (parse : Ty → ParseFn) (c : Class) (ref : Str) :
    List (Str × JVal) → GoMap Instance → St → Except Exc (GoMap Instance × St)
  | [], reg, st => .ok (reg, st)
  | (id, v) :: rest, reg, st =>
    match reg.lookup id with
    | none => .error (.panic c!"unexpected nil target")
    | some inst => do
      let (r, st) ← parseComposite L parse c.properties v (sub ref id) inst.fields st
      let reg := GoMap.put id ⟨if r.2 then id else inst.id, r.1⟩ reg
      if st.errors.full then return (reg, st) else parseInstances L parse c ref rest reg st

/-- All the registries, `/repo/mapry/go/generate/fromjsonable.py:1712-1740`: only the ones given in the
JSON object are visited. The flag tells if the function returns since the container is full. -/
def parseRegistries (O : Order) (L : Lib) (parse : Ty → ParseFn) (kvs : List (Str × JVal)) (ref : Str) :
    List Class → List (Str × GoMap Instance) → St →
      Except Exc ((List (Str × GoMap Instance) × Bool) × St)
  | [], regs, st => .ok ((regs, false), st)
  | c :: cs, regs, st =>
    match kvs.lookup (registryKey c) with
    | some (.obj entries) => do
      let (reg, st) ← parseInstances L parse c (sub ref (registryKey c)) (O.visit st.ranges entries)
        ((regs.lookup c.name).getD []) st.range
      let regs := setRegistry c.name reg regs
      if st.errors.full then return ((regs, true), st)
      else parseRegistries O L parse kvs ref cs regs st
    | _ =>
      if st.errors.full then .ok ((regs, true), st)
      else parseRegistries O L parse kvs ref cs regs st

/-- The environment after the pre-allocation. -/
def envOf (O : Order) (L : Lib) (g : Graph) (regs : List (Str × GoMap Instance)) : Env :=
  ⟨O, L, g, fun c => ((regs.lookup c).getD []).map (·.1)⟩

/-- The function generated for the graph, `/repo/mapry/go/generate/fromjsonable.py:1615-1752`, with
non-nil arguments; `target` is the graph pointed to before the call. -/
def parseGraph (O : Order) (L : Lib) (g : Graph) (fuel : Nat) (v : JVal) (ref : Str) (target : GraphVal)
    (st : St) : Except Exc (GraphVal × St) :=
  if !st.errors.empty then .error (.panic c!"unexpected non-empty errors")
  else match v with
    | .obj kvs =>
      let pre := preallocAll O L kvs ref g.classes target.registries st
      if !g.classes.isEmpty && !pre.2.errors.empty then .ok (⟨target.fields, pre.1⟩, pre.2)
      else do
        let E := envOf O L g pre.1
        let parse := parseTy E (parseEmbed E fuel)
        let (r, st) ← parseRegistries O L parse kvs ref g.classes pre.1 pre.2
        if r.2 then return (⟨target.fields, r.1⟩, st)
        else do
          let (fields, st) ← parseProps parse kvs ref g.properties target.fields st
          return (⟨fields, r.1⟩, st)
    | _ => .ok (target, st.add ref
      (L.sprintf c!"expected a map[string]interface{}, but got: %T" [v]))

/-! ## Serializing

The Go compiler ensures that the fields hold values of their types; another value raises `TypeError` in
the model. -/

/-- The items in order, `/repo/mapry/go/generate/tojsonable.py:164-173`; the state counts the `range`
statements. -/
def serItems (f : Val → Nat → Except Exc (JVal × Nat)) : List Val → Nat → Except Exc (List JVal × Nat)
  | [], r => .ok ([], r)
  | v :: vs, r => do
    let (x, r) ← f v r
    let (xs, r) ← serItems f vs r
    return (x :: xs, r)

/-- The entries in the order of the iteration, `/repo/mapry/go/generate/tojsonable.py:208-216`. -/
def serEntries (f : Val → Nat → Except Exc (JVal × Nat)) (acc : GoMap JVal) :
    List (Str × Val) → Nat → Except Exc (GoMap JVal × Nat)
  | [], r => .ok (acc, r)
  | (k, v) :: vs, r => do
    let (x, r) ← f v r
    serEntries f (GoMap.put k x acc) vs r

/-- `_SERIALIZE_DATE_TIME_TPL`, `/repo/mapry/go/generate/tojsonable.py:132-140` -/
def serTime (L : Lib) (format : Str) : Val → Except Exc JVal
  | .time t => .ok (.str (if layout format = [] then [] else L.formatTime t (layout format)))
  | _ => .error .typeError

/-- `_serialize_value`, `/repo/mapry/go/generate/tojsonable.py:252-317`; `embed` calls the function
generated for the embeddable structure. The `String()` of a `nil` location is `UTC`; the `ID` of a
`nil` pointer panics. -/
def serTy (O : Order) (L : Lib) (embed : Str → Val → Nat → Except Exc (JVal × Nat)) :
    Ty → Val → Nat → Except Exc (JVal × Nat)
  | .boolean, v, r =>
    match v with
    | .bool b => .ok (.bool b, r)
    | _ => .error .typeError
  | .integer _, v, r =>
    match v with
    | .int i => .ok (.int64 i, r)
    | _ => .error .typeError
  | .float _, v, r =>
    match v with
    | .float f => .ok (.float f, r)
    | _ => .error .typeError
  | .string _, v, r | .path _, v, r =>
    match v with
    | .str s => .ok (.str s, r)
    | _ => .error .typeError
  | .date f, v, r | .time f, v, r | .datetime f, v, r => do
    let x ← serTime L f v
    return (x, r)
  | .timeZone, v, r =>
    match v with
    | .zone s => .ok (.str s, r)
    | .nil => .ok (.str c!"UTC", r)
    | _ => .error .typeError
  | .duration, v, r =>
    match v with
    | .duration d => .ok (.str (goToString d), r)
    | _ => .error .typeError
  | .array t _ _, v, r =>
    match v with
    | .list vs => do
      let (xs, r) ← serItems (serTy O L embed t) vs r
      return (.arr xs, r)
    | .nil => .ok (.arr [], r)
    | _ => .error .typeError
  | .map t, v, r =>
    match v with
    | .map kvs => do
      let (xs, r) ← serEntries (serTy O L embed t) [] (O.visit r kvs) (r + 1)
      return (.obj xs, r)
    | .nil => .ok (.obj [], r + 1)
    | _ => .error .typeError
  | .cls _, v, r =>
    match v with
    | .ref _ id => .ok (.str id, r)
    | .nil => .error (.panic c!"nil pointer dereference")
    | _ => .error .typeError
  | .embed name, v, r => embed name v r

/-- The properties one after another, `/repo/mapry/go/generate/tojsonable.py:320-375`. -/
def serProps (ser : Ty → Val → Nat → Except Exc (JVal × Nat)) (fields : Fields) :
    List Property → GoMap JVal → Nat → Except Exc (GoMap JVal × Nat)
  | [], target, r => .ok (target, r)
  | p :: ps, target, r =>
    match fields.lookup (field p) with
    | none => .error .attributeError
    | some v =>
      match p.optional, v with
      | true, .nil => serProps ser fields ps target r
      | _, v => do
        let (x, r) ← ser p.ty v r
        serProps ser fields ps (GoMap.put p.json x target) r

/-- The function generated for a class or an embeddable structure,
`/repo/mapry/go/generate/tojsonable.py:378-435`. -/
def serComposite (ser : Ty → Val → Nat → Except Exc (JVal × Nat)) (ps : List Property) (fields : Fields)
    (r : Nat) : Except Exc (JVal × Nat) := do
  let (kvs, r) ← serProps ser fields ps [] r
  return (.obj kvs, r)

/-- The serializer of the embeddable structures; `fuel` is the number of stack frames left. -/
def serEmbed (O : Order) (L : Lib) (g : Graph) : Nat → Str → Val → Nat → Except Exc (JVal × Nat)
  | 0, _, _, _ => .error .recursionError
  | fuel + 1, name, v, r =>
    match g.embed? name with
    | none => .error .keyError
    | some e =>
      match v with
      | .obj _ fields => serComposite (serTy O L (serEmbed O L g fuel)) e.properties fields r
      | _ => .error .typeError

/-- The error of the graph serializer, `/repo/mapry/go/generate/tojsonable.py:486-493`. -/
def idMessage (L : Lib) (c : Class) (key id : Str) : Str :=
  L.sprintf (c!"expected the instance of " ++ goName c.name ++
    c!" to have the ID %s according to the registry, but got: %s") [.str key, .str id]

/-- The loop over the instances, `/repo/mapry/go/generate/tojsonable.py:481-500`; an error returned to
the caller is `valueError`. -/
def serInstances (L : Lib) (ser : Ty → Val → Nat → Except Exc (JVal × Nat)) (c : Class) (acc : GoMap JVal) :
    List (Str × Instance) → Nat → Except Exc (GoMap JVal × Nat)
  | [], r => .ok (acc, r)
  | (id, inst) :: rest, r =>
    if id ≠ inst.id then .error (.valueError (idMessage L c id inst.id))
    else do
      let (x, r) ← serComposite ser c.properties inst.fields r
      serInstances L ser c (GoMap.put id x acc) rest r

/-- The registries one after another, `/repo/mapry/go/generate/tojsonable.py:473-505`. -/
def serRegistries (O : Order) (L : Lib) (ser : Ty → Val → Nat → Except Exc (JVal × Nat)) (gv : GraphVal) :
    List Class → GoMap JVal → Nat → Except Exc (GoMap JVal × Nat)
  | [], target, r => .ok (target, r)
  | c :: cs, target, r =>
    if (gv.registry c.name).isEmpty then serRegistries O L ser gv cs target r
    else do
      let (xs, r) ← serInstances L ser c [] (O.visit r (gv.registry c.name)) (r + 1)
      serRegistries O L ser gv cs (GoMap.put (registryKey c) (.obj xs) target) r

/-- The function generated for the graph, `/repo/mapry/go/generate/tojsonable.py:438-509`. -/
def serGraph (O : Order) (L : Lib) (g : Graph) (fuel : Nat) (gv : GraphVal) (r : Nat) :
    Except Exc (JVal × Nat) := do
  let ser := serTy O L (serEmbed O L g fuel)
  let (kvs, r) ← serProps ser gv.fields g.properties [] r
  let (kvs, r) ← serRegistries O L ser gv g.classes kvs r
  return (.obj kvs, r)

/-! ## JSON text

`json.Marshal` followed by `json.Unmarshal` into an `interface{}` (external specification). -/

mutual

/-- A number is written with enough digits to be read back and becomes the nearest `float64`; NaN and
the infinities can not be written. -/
def wire : JVal → Option JVal
  | .null => some .null
  | .bool b => some (.bool b)
  | .float (.fin q) => some (.float (.fin q))
  | .float _ => none
  | .int64 i => some (.float (F64.round i))
  | .str s => some (.str s)
  | .arr xs => (wireItems xs).map .arr
  | .obj kvs => (wireEntries kvs).map .obj

def wireItems : List JVal → Option (List JVal)
  | [] => some []
  | x :: xs =>
    match wire x, wireItems xs with
    | some y, some ys => some (y :: ys)
    | _, _ => none

def wireEntries : List (Str × JVal) → Option (List (Str × JVal))
  | [] => some []
  | (k, x) :: kvs =>
    match wire x, wireEntries kvs with
    | some y, some ys => some ((k, y) :: ys)
    | _, _ => none

end

end Mapry.GoRuntime
