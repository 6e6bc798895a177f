import Verif.GoLang
import Verif.GoCode

/-!
# The generated Go code

The code which `mapry/go/generate/tojsonable.py` and `mapry/go/generate/fromjsonable.py` generate, statement by statement, in the
language of `Verif/GoLang.lean`. `Verif/GoCode.lean` describes the same code by its names and `Verif/GoTyped.lean` by its types.
Comments, imports, `durationToString` (`Duration.goToString`) and `durationFromString` (`Duration.goFromString`) are left out.
-/

namespace Mapry.GoGen

open Mapry.GoLang Mapry.TypeGraph Mapry.Naming
open Mapry.GoCode (Name v vi own isPointer)

/-- The statements one after another -/
def block : List Stmt → Stmt
  | [] => .skip
  | s :: ss => .seq s (block ss)

/-- `if c { s }` -/
def when (c : Expr) (s : Stmt) : Stmt := .ite c s .skip

/-! ## Serializing -/

/-- `/repo/mapry/go/generate/tojsonable.py:132-161` `_serialize_date_time` -/
def serializeDateTime (f : Str) (target : Place) (value : Expr) : Except Exc Stmt := do
  let format ← Strftime.convert f
  pure (.assign target (.val (if format.isEmpty then .str [] else .format value format)))

/-- `/repo/mapry/go/generate/tojsonable.py:251-317` `_serialize_value` and the functions it calls: the code to write the
value to the target. The number is the next identifier of `AutoID`. -/
def serializeValue : Ty → (target : Place) → (value : Expr) → Nat → Except Exc (Stmt × Nat)
  | .boolean, target, value, n => .ok (.assign target (.val value), n)
  | .integer _, target, value, n => .ok (.assign target (.val value), n)
  | .float _, target, value, n => .ok (.assign target (.val value), n)
  | .string _, target, value, n => .ok (.assign target (.val value), n)
  | .path _, target, value, n => .ok (.assign target (.val value), n)
  | .date f, target, value, n => do
    let s ← serializeDateTime f target value
    pure (s, n)
  | .time f, target, value, n => do
    let s ← serializeDateTime f target value
    pure (s, n)
  | .datetime f, target, value, n => do
    let s ← serializeDateTime f target value
    pure (s, n)
  | .timeZone, target, value, n => .ok (.assign target (.val (.zoneName value)), n)
  | .duration, target, value, n => .ok (.assign target (.val (.durationText value)), n)
  -- lines 164-205 `_serialize_array`
  | .array t _ _, target, value, n => do
    let (item, m) ← serializeValue t (.index (.var (vi c!"target" n)) (.var (vi c!"i" n)))
      (.index (.var (vi c!"slice" n)) (.var (vi c!"i" n))) (n + 1)
    pure (block [
      .declare (vi c!"count" n) (.val (.len value)),
      .declare (vi c!"slice" n) (.val value),
      .declare (vi c!"target" n) (.makeSlice (.var (vi c!"count" n))),
      .forCount (vi c!"i" n) (vi c!"count" n) item,
      .assign target (.val (.var (vi c!"target" n)))], m)
  -- lines 208-248 `_serialize_map`
  | .map t, target, value, n => do
    let (item, m) ← serializeValue t (.index (.var (vi c!"target" n)) (.var (vi c!"k" n))) (.var (vi c!"v" n)) (n + 1)
    pure (block [
      .declare (vi c!"target" n) .makeMap,
      .declare (vi c!"map" n) (.val value),
      .forEntries (vi c!"k" n) (some (vi c!"v" n)) (.var (vi c!"map" n)) item,
      .assign target (.val (.var (vi c!"target" n)))], m)
  | .cls _, target, value, n => .ok (.assign target (.val (.field value c!"ID")), n)
  | .embed name, target, value, n => do
    let f ← ucamelCase name
    pure (.assign target (.call (f ++ c!"ToJSONable") [.addr value]), n)

/-- `/repo/mapry/go/generate/tojsonable.py:320-375` `_serialize_property` with `value_expr="instance.{}"` and
`target_expr="target[{}]"` -/
def serializeProperty (p : Property) (n : Nat) : Except Exc (Stmt × Nat) := do
  let field ← ucamelCase p.name
  let value : Expr := .field (.var (v c!"instance")) field
  let (c, m) ← serializeValue p.ty (.index (.var (v c!"target")) (.str p.json))
    (if p.optional && !isPointer p.ty then .deref value else value) n
  pure (if p.optional then when (.notNil value) c else c, m)

/-- The properties one after another -/
def serializeProps : List Property → Nat → Except Exc Stmt
  | [], _ => .ok .skip
  | p :: ps, n => do
    let (c, m) ← serializeProperty p n
    let rest ← serializeProps ps m
    pure (.seq c rest)

/-- `if instance == nil { panic("unexpected nil instance") }` and `target = make(map[string]interface{})` -/
def start : Stmt :=
  .seq (when (.isNil (.var (v c!"instance"))) (.panic c!"unexpected nil instance"))
    (.assign (.var (v c!"target")) .makeMap)

/-- `/repo/mapry/go/generate/tojsonable.py:378-435` `_serialize_class_or_embed` -/
def serializeComposite (name : Str) (ps : List Property) : Except Exc Func := do
  let props ← serializeProps ps 0
  let f ← ucamelCase name
  pure ⟨f ++ c!"ToJSONable", [v c!"instance"], [v c!"target"], block [start, props, .ret], .skip⟩

/-- The code to write a registry (`/repo/mapry/go/generate/tojsonable.py:473-505`). -/
def serializeRegistry (c : Class) : Except Exc Stmt := do
  let p ← ucamelCase c.plural
  let i ← camelCase c.name
  let name ← ucamelCase c.name
  let key ← jsonPlural c.plural
  let target := own c!"target" p []
  let inst := own [] i c!"Instance"
  let registry : Expr := .field (.var (v c!"instance")) p
  pure (when (.cmp .gt (.len registry) 0) (block [
    .declare target .makeMap,
    .forEntries (v c!"id") none registry (block [
      .declare inst (.val (.index registry (.var (v c!"id")))),
      when (.ne (.var (v c!"id")) (.field (.var inst) c!"ID")) (.seq
        (.assign (.var (v c!"err")) (.val (.errorf (c!"expected the instance of " ++ name ++
          c!" to have the ID %s according to the registry, but got: %s") [.var (v c!"id"), .field (.var inst) c!"ID"])))
        .ret),
      .assign (.index (.var target) (.var (v c!"id"))) (.call (name ++ c!"ToJSONable") [.val (.var inst)])]),
    .assign (.index (.var (v c!"target")) (.str key)) (.val (.var target))]))

/-- `/repo/mapry/go/generate/tojsonable.py:438-540` `_serialize_graph` -/
def serializeGraph (g : Graph) : Except Exc Func := do
  let props ← serializeProps g.properties 0
  let regs ← g.classes.mapM serializeRegistry
  let f ← ucamelCase g.name
  pure ⟨f ++ c!"ToJSONable", [v c!"instance"], [v c!"target", v c!"err"],
    block [start, props, block regs, .ret],
    when (.notNil (.var (v c!"err"))) (.assign (.var (v c!"target")) (.val .nil))⟩

/-- `/repo/mapry/go/generate/tojsonable.py:544-577` `generate` -/
def writer (g : Graph) : Except Exc Program := do
  let classes ← g.classes.mapM fun c => serializeComposite c.name c.properties
  let embeds ← g.embeds.mapM fun e => serializeComposite e.name e.properties
  let graph ← serializeGraph g
  pure ⟨classes ++ embeds ++ [graph], fun _ => []⟩

/-! ## Parsing -/

/-- The expression of what is assigned to -/
def expr : Place → Expr
  | .var x => .var x
  | .field e f => .field e f
  | .index e k => .index e k

/-- `errors.Add(strings.Join([]string{ref_parts}, "/"), fmt.Sprintf(format, args...))` -/
def reportAt (ref : List Expr) (format : Str) (args : List Expr) : Stmt := .report (.join ref) (.sprintf format args)

/-- `cast{uid}, ok{uid} := value.(T)`, the report unless `ok{uid}`, and the code after `else`. -/
def castTo (cast : Name) (n : Nat) (k : Kind) (what : Str) (value : Expr) (ref : List Expr) (rest : Stmt) : Stmt :=
  .seq (.declare2 (some cast) (vi c!"ok" n) (.assert k value))
    (.ite (.not (.var (vi c!"ok" n))) (reportAt ref (c!"expected " ++ what ++ c!", but got: %T") [value]) rest)

/-- `target_expr = x` -/
def storeVar (target : Place) (x : Name) : Stmt := .assign target (.val (.var x))

/-- The operator and its text for a minimum -/
def minCmp (b : Bounds) : Cmp := if b.exMin then .gt else .ge
def maxCmp (b : Bounds) : Cmp := if b.exMax then .lt else .le

/-- The bounds of a number (`/repo/mapry/go/generate/fromjsonable.py:517-550` and `:600-636`): `zeros` and `verb` are what
follows the bound in the message. -/
def checkBounds (ref : List Expr) (b : Bounds) (zeros verb : Str) (cast : Name) (target : Place) : Stmt :=
  let upper := match b.max with
    | none => storeVar target cast
    | some m => .ite (.not (.cmp (maxCmp b) (.var cast) m)) (reportAt ref (c!"expected " ++ GoRuntime.maxOp b ++ c!" " ++
        Duration.intStr m ++ zeros ++ c!", but got: " ++ verb) [.var cast]) (storeVar target cast)
  match b.min with
  | none => upper
  | some m => .ite (.not (.cmp (minCmp b) (.var cast) m)) (reportAt ref (c!"expected " ++ GoRuntime.minOp b ++ c!" " ++
      Duration.intStr m ++ zeros ++ c!", but got: " ++ verb) [.var cast]) upper

/-- The settings of the generator within a function -/
structure Ctx where
  graph : Graph
  uids : List (Str × Nat)
  /-- `registry_exprs` -/
  registry : Str → Except Exc Expr

/-- `pattern_uids[pattern]`; the pattern of a type of the schema is always there (`GoCode.patternName_declared`). -/
def uidOf (uids : List (Str × Nat)) (p : Str) : Except Exc Nat :=
  match uids.lookup p with
  | some n => .ok n
  | none => .error .keyError

/-- `/repo/mapry/go/generate/fromjsonable.py:666-732` `_parse_string` -/
def parseText (ctx : Ctx) (p : Option Str) (value : Expr) (target : Place) (ref : List Expr) (n : Nat) :
    Except Exc (Stmt × Nat) := do
  let cast := vi c!"cast" n
  let rest ← match p with
    | none => pure (storeVar target cast)
    | some p => do
      let uid ← uidOf ctx.uids p
      pure (.ite (.not (.matches uid (.var cast)))
        (reportAt ref (c!"expected to match " ++ p ++ c!", but got: %s") [.var cast]) (storeVar target cast))
  pure (castTo cast n .string c!"a string" value ref rest, n + 1)

/-- `target{uid}, err{uid} := two`, the report if there is an error, otherwise the assignment -/
def convertWith (two : Expr → Two) (format : Str) (args : List Expr) (value : Expr) (target : Place) (ref : List Expr)
    (n : Nat) : Stmt :=
  castTo (vi c!"cast" n) n .string c!"a string" value ref (.seq
    (.declare2 (some (vi c!"target" n)) (vi c!"err" n) (two (.var (vi c!"cast" n))))
    (.ite (.notNil (.var (vi c!"err" n))) (reportAt ref format (.var (vi c!"cast" n) :: args))
      (storeVar target (vi c!"target" n))))

/-- `/repo/mapry/go/generate/fromjsonable.py:735-799` `_parse_date_time` -/
def parseDateTime (f : Str) (value : Expr) (target : Place) (ref : List Expr) (n : Nat) : Except Exc (Stmt × Nat) := do
  let layout ← Strftime.convert f
  pure (convertWith (.parseTime layout) (c!"expected layout " ++ layout ++ c!", got: %s") [] value target ref n, n + 1)

/-- The checks of the size of an array -/
def checkSize (ref : List Expr) (lo hi : Option Int) (cast : Name) (rest : Stmt) : Stmt :=
  let upper := match hi with
    | none => rest
    | some m => .ite (.cmp .gt (.len (.var cast)) m) (reportAt ref (c!"expected an array of maximum size " ++
        Duration.intStr m ++ c!", but got: %d") [.len (.var cast)]) rest
  match lo with
  | none => upper
  | some m => .ite (.cmp .lt (.len (.var cast)) m) (reportAt ref (c!"expected an array of minimum size " ++
      Duration.intStr m ++ c!", but got: %d") [.len (.var cast)]) upper

/-- `isinstance(a_type.values, mapry.Embed)` -/
def isEmbed : Ty → Bool
  | .embed _ => true
  | _ => false

/-- The code of an item and `if errors.Full() { break }` -/
def untilFull (item : Stmt) : Stmt := .seq item (when .errorsFull .brk)

/-- `/repo/mapry/go/generate/fromjsonable.py:1131-1253` `_parse_value` and the functions it calls: the code to parse the
JSONable `value` into the target, where `ref` are the parts of the reference path. The number is the next identifier of
`AutoID`. -/
def parseValue (ctx : Ctx) : Ty → (value : Expr) → (target : Place) → (ref : List Expr) → Nat → Except Exc (Stmt × Nat)
  -- lines 423-467 `_parse_boolean`
  | .boolean, value, target, ref, n => .ok
    (castTo (vi c!"cast" n) n .bool c!"a bool" value ref (storeVar target (vi c!"cast" n)), n + 1)
  -- lines 470-577 `_parse_integer`
  | .integer b, value, target, ref, n => .ok
    (castTo (vi c!"fcast" n) n .float64 c!"a float64" value ref
      (.ite (.fractional (.var (vi c!"fcast" n)))
        (reportAt ref c!"expected a whole number, but got: %f" [.var (vi c!"fcast" n)])
        (.ite (.beyondInt64 (.var (vi c!"fcast" n)))
          (reportAt ref c!"expected the value to fit into int64, but got an overflow: %f" [.var (vi c!"fcast" n)])
          (if b.min.isNone && b.max.isNone then .assign target (.val (.toInt64 (.var (vi c!"fcast" n))))
            else .seq (.declare (vi c!"cast" n) (.val (.toInt64 (.var (vi c!"fcast" n)))))
              (checkBounds ref b [] c!"%d" (vi c!"cast" n) target)))), n + 1)
  -- lines 580-663 `_parse_float`
  | .float b, value, target, ref, n => do
    let _ ← GoCode.formatFloat b.min
    let _ ← GoCode.formatFloat b.max
    pure (castTo (vi c!"cast" n) n .float64 c!"a float64" value ref
      (checkBounds ref b c!".000000" c!"%f" (vi c!"cast" n) target), n + 1)
  | .string p, value, target, ref, n => parseText ctx p value target ref n
  | .path p, value, target, ref, n => parseText ctx p value target ref n
  | .date f, value, target, ref, n => parseDateTime f value target ref n
  | .time f, value, target, ref, n => parseDateTime f value target ref n
  | .datetime f, value, target, ref, n => parseDateTime f value target ref n
  -- lines 802-860 `_parse_time_zone`
  | .timeZone, value, target, ref, n => .ok
    (convertWith .loadLocation c!"failed to load location from %#v: %s" [.errorText (.var (vi c!"err" n))]
      value target ref n, n + 1)
  -- lines 863-920 `_parse_duration`
  | .duration, value, target, ref, n => .ok
    (convertWith .durationFrom c!"failed to parse duration from %#v: %s" [.errorText (.var (vi c!"err" n))]
      value target ref n, n + 1)
  -- lines 923-1026 `_parse_array`
  | .array t lo hi, value, target, ref, n => do
    let (item, m) ← parseValue ctx t (.index (.var (vi c!"cast" n)) (.var (vi c!"i" n)))
      (.index (.var (vi c!"target" n)) (.var (vi c!"i" n))) (ref ++ [.itoa (.var (vi c!"i" n))]) (n + 1)
    pure (castTo (vi c!"cast" n) n .slice c!"a []interface{}" value ref
      (checkSize ref lo hi (vi c!"cast" n) (block [
        .declare (vi c!"target" n) (.makeSlice (.len (.var (vi c!"cast" n)))),
        .forItems (vi c!"i" n) (.var (vi c!"cast" n)) (untilFull item),
        storeVar target (vi c!"target" n)])), m)
  -- lines 1029-1128 `_parse_map`
  | .map t, value, target, ref, n => do
    let value' : Expr := .index (.var (vi c!"cast" n)) (.var (vi c!"k" n))
    let target' : Place := .index (.var (vi c!"target" n)) (.var (vi c!"k" n))
    let (item, m) ← parseValue ctx t value' (if isEmbed t then .var (vi c!"item" n) else target')
      (ref ++ [.var (vi c!"k" n)]) (n + 1)
    let item := if isEmbed t then
        block [.declare (vi c!"item" n) (.val .zero), item, storeVar target' (vi c!"item" n)]
      else item
    pure (castTo (vi c!"cast" n) n .map c!"a map[string]interface{}" value ref (block [
      .declare (vi c!"target" n) .makeMap,
      .forEntries (vi c!"k" n) none (.var (vi c!"cast" n)) (untilFull item),
      storeVar target (vi c!"target" n)]), m)
  -- lines 1384-1446 `_parse_instance_reference`
  | .cls c, value, target, ref, n => do
    let registry ← ctx.registry c
    let name ← ucamelCase c
    pure (castTo (vi c!"cast" n) n .string c!"a string" value ref (.seq
      (.declare2 (some (vi c!"target" n)) (vi c!"ok" n) (.lookup registry (.var (vi c!"cast" n))))
      (.ite (.not (.var (vi c!"ok" n)))
        (reportAt ref (c!"reference to an instance of class " ++ name ++ c!" not found: %s") [value])
        (storeVar target (vi c!"target" n)))), n + 1)
  -- lines 1449-1499 `_parse_embed`
  | .embed name, value, target, ref, n => do
    let refs ← GoCode.referencesOf ctx.graph (.embed name)
    let registries ← refs.mapM ctx.registry
    let f ← ucamelCase name
    pure (.call (f ++ c!"FromJSONable") (.val value :: registries.map .val ++
      [.val (.join ref), .addr (expr target), .val (.var GoCode.errors)]), n + 1)

/-- `/repo/mapry/go/generate/fromjsonable.py:1256-1381` `_parse_property` with `target_obj_expr="target"`,
`value_map_expr="cast"` and `ref_obj_parts=["ref"]` -/
def parseProperty (ctx : Ctx) (p : Property) (n : Nat) : Except Exc (Stmt × Nat) := do
  let f ← ucamelCase p.name
  let field : Place := .field (.var (v c!"target")) f
  let direct := !p.optional || isPointer p.ty
  let (parsing, m) ← parseValue ctx p.ty (.var (vi c!"value" n)) (if direct then field else .var (vi c!"target" n))
    [.var (v c!"ref"), .str p.json] (n + 1)
  let ok : Expr := .var (vi c!"ok" n)
  let branch := if !p.optional then
      .ite (.not ok) (.report (.var (v c!"ref")) (.str (c!"property is missing: " ++ p.json))) parsing
    else if direct then when ok parsing
    else when ok (block [.declare (vi c!"target" n) (.val .zero), parsing, .assign field (.addr (.var (vi c!"target" n)))])
  pure (.seq (.declare2 (some (vi c!"value" n)) (vi c!"ok" n) (.lookup (.var (v c!"cast")) (.str p.json))) branch, m)

/-- The parsing of the properties, each followed by `if errors.Full() { return }` -/
def parseProps (ctx : Ctx) : List Property → Nat → Except Exc Stmt
  | [], _ => .ok .skip
  | p :: ps, n => do
    let (c, m) ← parseProperty ctx p n
    let rest ← parseProps ctx ps m
    pure (.seq c (.seq (when .errorsFull .ret) rest))

/-- The checks at the start of every parsing function -/
def preamble : Stmt := block [
  when (.isNil (.var (v c!"target"))) (.panic c!"unexpected nil target"),
  when (.isNil (.var GoCode.errors)) (.panic c!"unexpected nil errors"),
  when (.not .errorsEmpty) (.panic c!"unexpected non-empty errors")]

/-- `cast, ok := value.(map[string]interface{})` and the report of another value -/
def castMap (cast : Option Name) : Stmt := .seq
  (.declare2 cast (v c!"ok") (.assert .map (.var (v c!"value"))))
  (when (.not (.var (v c!"ok"))) (.seq (.report (.var (v c!"ref"))
    (.sprintf c!"expected a map[string]interface{}, but got: %T" [.var (v c!"value")])) .ret))

/-- `/repo/mapry/go/generate/fromjsonable.py:1502-1612` `_parse_composite` -/
def parseComposite (g : Graph) (uids : List (Str × Nat)) (o : Owner) (name : Str) (ps : List Property) (isClass : Bool) :
    Except Exc Func := do
  let refs ← GoCode.referencesOf g o
  let params ← refs.mapM (GoCode.registryParam g)
  let ctx : Ctx := ⟨g, uids, fun c => if c ∈ refs then do pure (.var (← GoCode.registryParam g c)) else .error .keyError⟩
  let props ← parseProps ctx ps 0
  let f ← ucamelCase name
  pure ⟨f ++ c!"FromJSONable",
    [v c!"value"] ++ (if isClass then [v c!"id"] else []) ++ params ++ [v c!"ref", v c!"target", GoCode.errors], [],
    block [preamble, castMap (if ps.isEmpty then none else some (v c!"cast")),
      if isClass then .assign (.field (.var (v c!"target")) c!"ID") (.val (.var (v c!"id"))) else .skip, props, .ret], .skip⟩

/-- The code to allocate the instances of a class (`/repo/mapry/go/generate/fromjsonable.py:1653-1703`) -/
def preallocate (uids : List (Str × Nat)) (c : Class) : Except Exc Stmt := do
  let p ← camelCase c.plural
  let field ← ucamelCase c.plural
  let key ← jsonPlural c.plural
  let ref := own [] p c!"Ref"
  let ok := own [] p c!"Ok"
  let value := own [] p c!"Value"
  let map := own [] p c!"Map"
  let registry : Place := .field (.var (v c!"target")) field
  let alloc : Stmt := .assign (.index (expr registry) (.var (v c!"id"))) .new
  let body ← match c.idPattern with
    | none => pure alloc
    | some pat => do
      let uid ← uidOf uids pat
      pure (.ite (.not (.matches uid (.var (v c!"id"))))
        (.report (.var ref) (.sprintf (c!"expected ID to match " ++ pat ++ c!", but got: %s") [.var (v c!"id")])) alloc)
  pure (block [
    .declare ref (.val (.plus (.var (v c!"ref")) (c!"/" ++ key))),
    .declare ok (.val .zero),
    .declare value (.val .zero),
    .declare map (.val .zero),
    .assign2 value ok (.lookup (.var (v c!"cast")) (.str key)),
    when (.var ok) (.seq (.assign2 map (v c!"ok") (.assert .map (.var value)))
      (.ite (.not (.var (v c!"ok")))
        (.report (.var ref) (.sprintf c!"expected a map[string]interface{}, but got: %T" [.var value]))
        (.seq (.assign registry .makeMap) (.forEntries (v c!"id") none (.var map) body))))])

/-- The code to parse the instances of a class (`/repo/mapry/go/generate/fromjsonable.py:1712-1740`) -/
def parseInstances (g : Graph) (c : Class) : Except Exc Stmt := do
  let p ← camelCase c.plural
  let field ← ucamelCase c.plural
  let name ← ucamelCase c.name
  let refs ← GoCode.referencesOf g (.cls c.name)
  let registries ← refs.mapM (GoCode.pluralField g)
  let target : Expr := .var (v c!"target")
  pure (.seq (when (.var (own [] p c!"Ok")) (.forEntries (v c!"id") (some (v c!"value")) (.var (own [] p c!"Map")) (untilFull
      (.call (name ++ c!"FromJSONable") (.val (.var (v c!"value")) :: .val (.var (v c!"id")) ::
        registries.map (fun r => .val (.field target r)) ++
        [.val (.join [.var (own [] p c!"Ref"), .var (v c!"id")]), .val (.index (.field target field) (.var (v c!"id"))),
         .val (.var GoCode.errors)])))))
    (when .errorsFull .ret))

/-- `/repo/mapry/go/generate/fromjsonable.py:1615-1805` `_parse_graph` -/
def parseGraph (g : Graph) (uids : List (Str × Nat)) : Except Exc Func := do
  let ctx : Ctx := ⟨g, uids, fun c => do pure (.field (.var (v c!"target")) (← GoCode.pluralField g c))⟩
  let alloc ← g.classes.mapM (preallocate uids)
  let insts ← g.classes.mapM (parseInstances g)
  let props ← parseProps ctx g.properties 0
  let f ← ucamelCase g.name
  pure ⟨f ++ c!"FromJSONable", [v c!"value", v c!"ref", v c!"target", GoCode.errors], [],
    block [preamble, castMap (some (v c!"cast")), block alloc,
      if g.classes.isEmpty then .skip else when (.not .errorsEmpty) .ret, block insts, props, .ret], .skip⟩

/-- `uids_to_patterns` (`/repo/mapry/go/generate/fromjsonable.py:402-420` `_compile_regexes`) -/
def compiled (uids : List (Str × Nat)) (n : Nat) : Str :=
  match uids.find? (fun e => e.2 == n) with
  | some e => e.1
  | none => []

/-- `/repo/mapry/go/generate/fromjsonable.py:1808-1864` `generate` -/
def reader (g : Graph) : Except Exc Program := do
  let uids := GoCode.enumeratePatterns g
  let classes ← g.classes.mapM fun c => parseComposite g uids (.cls c.name) c.name c.properties true
  let embeds ← g.embeds.mapM fun e => parseComposite g uids (.embed e.name) e.name e.properties false
  let graph ← parseGraph g uids
  pure ⟨classes ++ embeds ++ [graph], compiled uids⟩

end Mapry.GoGen
