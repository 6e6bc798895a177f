import Verif.GoCheck

/-!
# Model of the Go code as it is generated: expressions and types

The generators of the functions in `mapry/go/generate` with the expressions and the types of the generated code, where
`Verif/GoCode.lean` has only the names. Not recorded are the comments, the texts of the literals and the functions whose
text does not depend on the schema.
-/

namespace Mapry.GoTyped

open Mapry.TypeGraph Mapry.Naming
open Mapry.GoTypes (GTy typeRepr)
open Mapry.GoCheck
open Mapry.GoCode (Name isPointer patternName referencesOf pluralField registryParam)

def x (base : Str) : Expr := .var (GoCode.v base)
def xi (base : Str) (uid : Nat) : Expr := .var (GoCode.vi base uid)
def errors : Expr := x c!"errors"

/-! ## Calls -/

/-- `f(args)` -/
def callWith (f : Expr) (args : List Expr) : Expr := .call (args.foldl .arg f)

/-- `[]string{parts}` -/
def slice (parts : List Expr) : Expr := parts.foldl .item .strs

/-- `strings.Join([]string{parts}, "/")` -/
def join (parts : List Expr) : Expr := callWith (.lib c!"strings" c!"Join") [slice parts, .text]

/-- `fmt.Sprintf("...", args)` -/
def sprintf (args : List Expr) : Expr := callWith (.lib c!"fmt" c!"Sprintf") (.text :: args)

/-- `errors.Add(ref, message)` -/
def add (ref message : Expr) : Expr := callWith (.method errors c!"Add") [ref, message]

/-- `errors.Full()` -/
def full : Expr := callWith (.method errors c!"Full") []

/-- `errors.Empty()` -/
def noErrors : Expr := callWith (.method errors c!"Empty") []

/-! ## Parsing -/

/-- `errors.Add(strings.Join([]string{ref}, "/"), fmt.Sprintf("...", args))` in a block of its own -/
def report (ref args : List Expr) (rest : Code) : Code := .block (.eval (add (join ref) (sprintf args)) .done) rest

/-- `cast, ok{uid} := value.(t)`, followed by the report unless `ok{uid}` -/
def castTo (cast : Name) (t : GTy) (n : Nat) (value : Expr) (ref : List Expr) (rest : Code) : Code :=
  .define₂ (some cast) (GoCode.vi c!"ok" n) (.assert value t)
    (.test (.not (xi c!"ok" n)) (report ref [value] rest))

/-- `else { body }`, the last branch -/
def otherwise (body : Code) : Code := .block body .done

/-- `target = e` -/
def store (tgt e : Expr) : Code := .assign tgt e .done

/-- The settings of the generator within a function -/
structure Ctx where
  graph : Graph
  uids : List (Str × Nat)
  /-- `registry_exprs` -/
  registry : Str → Except Exc Expr

/-- `registry_exprs[reference] for reference in mapry.references(a_type)` -/
def embedRegistries (ctx : Ctx) (name : Str) : Except Exc (List Expr) :=
  match references? ctx.graph (.embed name) with
  | some refs => refs.mapM ctx.registry
  | none => .error .recursionError

/-- `if !(cast op bound) { ... }` -/
def checkBound (ref : List Expr) (bound : Option Int) (cast : Expr) (rest : Code) : Code :=
  match bound with
  | some b => .test (.not (.less cast (.num b))) (report ref [cast] rest)
  | none => rest

/-- The text after the cast of a number which has the bounds `b` (`/repo/mapry/go/generate/fromjsonable.py:517-550`,
`600-636`) -/
def checkBounds (ref : List Expr) (b : Bounds) (cast tgt : Expr) : Code :=
  checkBound ref b.min cast (checkBound ref b.max cast (otherwise (store tgt cast)))

/-- `/repo/mapry/go/generate/fromjsonable.py:666-732` `_parse_string` -/
def parseText (ctx : Ctx) (p : Option Str) (value tgt : Expr) (ref : List Expr) (n : Nat) : Code :=
  castTo (GoCode.vi c!"cast" n) .string n value ref (otherwise (match p with
    | none => store tgt (xi c!"cast" n)
    | some p => .test (.not (callWith (.method (.var (patternName ctx.uids p)) c!"MatchString") [xi c!"cast" n]))
        (report ref [xi c!"cast" n] (otherwise (store tgt (xi c!"cast" n))))))

/-- `target{uid}, err{uid} := e`, the report with the arguments `args` and the assignment -/
def convertWith (e : Expr) (args : List Expr) (value tgt : Expr) (ref : List Expr) (n : Nat) : Code :=
  castTo (GoCode.vi c!"cast" n) .string n value ref (otherwise
    (.define₂ (some (GoCode.vi c!"target" n)) (GoCode.vi c!"err" n) e
    (.test (.eq (xi c!"err" n) .nil) (report ref (xi c!"cast" n :: args)
      (otherwise (store tgt (xi c!"target" n)))))))

/-- `err{uid}.Error()` -/
def errorText (n : Nat) : Expr := callWith (.method (xi c!"err" n) c!"Error") []

/-- `/repo/mapry/go/generate/fromjsonable.py:735-799` `_parse_date_time` -/
def parseDateTime (f : Str) (value tgt : Expr) (ref : List Expr) (n : Nat) : Except Exc (Code × Nat) := do
  let _ ← Strftime.convert f
  pure (convertWith (callWith (.lib c!"time" c!"Parse") [.text, xi c!"cast" n]) [] value tgt ref n, n + 1)

/-- The size of an array (`/repo/mapry/go/generate/fromjsonable.py:957-980`) -/
def checkSize (ref : List Expr) (bound : Option Int) (cast : Expr) (rest : Code) : Code :=
  match bound with
  | some b => .test (.less (.len cast) (.num b)) (report ref [.len cast] rest)
  | none => rest

/-- `target{uid} := make(...)`, the loop over the items in `e` with the variable `i`, and the assignment -/
def parseItems (make e : Expr) (i : Name) (item : Code) (tgt : Expr) (n : Nat) : Code :=
  .define (GoCode.vi c!"target" n) make
    (.range i none e (item ++ .test full (.block .done .done)) (store tgt (xi c!"target" n)))

/-- `/repo/mapry/go/generate/fromjsonable.py:1131-1253` `_parse_value` and the functions it calls: the code to parse
`value_expr` into `target_expr`. The number is the next identifier of `AutoID`. -/
def parseValue (ctx : Ctx) : Ty → (value target : Expr) → (ref : List Expr) → Nat → Except Exc (Code × Nat)
  -- lines 423-467 `_parse_boolean`
  | .boolean, value, tgt, ref, n => .ok
    (castTo (GoCode.vi c!"cast" n) .bool n value ref (otherwise (store tgt (xi c!"cast" n))), n + 1)
  -- lines 470-577 `_parse_integer`; the constants of the range are 2^63 as floats
  | .integer b, value, tgt, ref, n => .ok
    (castTo (GoCode.vi c!"fcast" n) .float64 n value ref
      (.test (.eq (xi c!"fcast" n) (callWith (.lib c!"math" c!"Trunc") [xi c!"fcast" n])) (report ref [xi c!"fcast" n]
      (.test (.or (.less (xi c!"fcast" n) (.num (2 ^ 63))) (.less (xi c!"fcast" n) (.num (-2 ^ 63))))
        (report ref [xi c!"fcast" n]
      (otherwise (if b.min.isNone && b.max.isNone then store tgt (.int64 (xi c!"fcast" n))
        else .define (GoCode.vi c!"cast" n) (.int64 (xi c!"fcast" n))
          (checkBounds ref b (xi c!"cast" n) tgt))))))), n + 1)
  -- lines 580-663 `_parse_float`
  | .float b, value, tgt, ref, n => do
    let _ ← GoCode.formatFloat b.min
    let _ ← GoCode.formatFloat b.max
    pure (castTo (GoCode.vi c!"cast" n) .float64 n value ref
      (otherwise (if b.min.isNone && b.max.isNone then store tgt (xi c!"cast" n)
        else checkBounds ref b (xi c!"cast" n) tgt)), n + 1)
  | .string p, value, tgt, ref, n => .ok (parseText ctx p value tgt ref n, n + 1)
  | .path p, value, tgt, ref, n => .ok (parseText ctx p value tgt ref n, n + 1)
  | .date f, value, tgt, ref, n => parseDateTime f value tgt ref n
  | .time f, value, tgt, ref, n => parseDateTime f value tgt ref n
  | .datetime f, value, tgt, ref, n => parseDateTime f value tgt ref n
  -- lines 802-860 `_parse_time_zone`
  | .timeZone, value, tgt, ref, n => .ok
    (convertWith (callWith (.lib c!"time" c!"LoadLocation") [xi c!"cast" n]) [errorText n] value tgt ref n, n + 1)
  -- lines 863-920 `_parse_duration`
  | .duration, value, tgt, ref, n => .ok
    (convertWith (callWith (.fn c!"durationFromString") [xi c!"cast" n]) [errorText n] value tgt ref n, n + 1)
  -- lines 923-1026 `_parse_array`
  | .array t lo hi, value, tgt, ref, n => do
    let (item, m) ← parseValue ctx t (.index (xi c!"cast" n) (xi c!"i" n)) (.index (xi c!"target" n) (xi c!"i" n))
      (ref ++ [callWith (.lib c!"strconv" c!"Itoa") [xi c!"i" n]]) (n + 1)
    let ty ← typeRepr (.array t lo hi)
    pure (castTo (GoCode.vi c!"cast" n) (.slice .any) n value ref
      (checkSize ref lo (xi c!"cast" n) (checkSize ref hi (xi c!"cast" n)
      (otherwise (parseItems (.makeN ty (.len (xi c!"cast" n))) (xi c!"cast" n) (GoCode.vi c!"i" n) item tgt n)))), m)
  -- lines 1029-1128 `_parse_map`
  | .map (.embed e), value, tgt, ref, n => do
    let (item, m) ← parseValue ctx (.embed e) (.index (xi c!"cast" n) (xi c!"k" n)) (xi c!"item" n)
      (ref ++ [xi c!"k" n]) (n + 1)
    let it ← typeRepr (.embed e)
    let item := .var (GoCode.vi c!"item" n) it
      (item ++ .assign (.index (xi c!"target" n) (xi c!"k" n)) (xi c!"item" n) .done)
    let ty ← typeRepr (.map (.embed e))
    pure (castTo (GoCode.vi c!"cast" n) (.map .any) n value ref
      (otherwise (parseItems (.make ty) (xi c!"cast" n) (GoCode.vi c!"k" n) item tgt n)), m)
  | .map t, value, tgt, ref, n => do
    let (item, m) ← parseValue ctx t (.index (xi c!"cast" n) (xi c!"k" n)) (.index (xi c!"target" n) (xi c!"k" n))
      (ref ++ [xi c!"k" n]) (n + 1)
    let ty ← typeRepr (.map t)
    pure (castTo (GoCode.vi c!"cast" n) (.map .any) n value ref
      (otherwise (parseItems (.make ty) (xi c!"cast" n) (GoCode.vi c!"k" n) item tgt n)), m)
  -- lines 1384-1446 `_parse_instance_reference`
  | .cls c, value, tgt, ref, n => do
    let registry ← ctx.registry c
    let _ ← ucamelCase c
    pure (castTo (GoCode.vi c!"cast" n) .string n value ref (otherwise
      (.define₂ (some (GoCode.vi c!"target" n)) (GoCode.vi c!"ok" n) (.index registry (xi c!"cast" n))
      (.test (.not (xi c!"ok" n)) (report ref [value] (otherwise (store tgt (xi c!"target" n))))))), n + 1)
  -- lines 1449-1499 `_parse_embed`
  | .embed name, value, tgt, ref, n => do
    let registries ← embedRegistries ctx name
    let f ← ucamelCase name
    pure (.eval (callWith (.fn (f ++ c!"FromJSONable")) (value :: registries ++ [join ref, .addr tgt, errors])) .done,
      n + 1)

/-- `/repo/mapry/go/generate/fromjsonable.py:1256-1381` `_parse_property` with `target_obj_expr="target"`,
`value_map_expr="cast"` and `ref_obj_parts=["ref"]` -/
def parseProperty (ctx : Ctx) (p : Property) (n : Nat) : Except Exc (Code × Nat) := do
  let f ← ucamelCase p.name
  let field : Expr := .field (x c!"target") f
  let direct := !p.optional || isPointer p.ty
  let (parsing, m) ← parseValue ctx p.ty (xi c!"value" n) (if direct then field else xi c!"target" n)
    [x c!"ref", .text] (n + 1)
  let ty ← typeRepr p.ty
  let head (cond : Expr) (rest : Code) : Code :=
    .define₂ (some (GoCode.vi c!"value" n)) (GoCode.vi c!"ok" n) (.index (x c!"cast") .text) (.test cond rest)
  if !p.optional then
    pure (head (.not (xi c!"ok" n)) (.block (.eval (add (x c!"ref") .text) .done) (.block parsing .done)), m)
  else if direct then
    pure (head (xi c!"ok" n) (.block parsing .done), m)
  else
    pure (head (xi c!"ok" n) (.block (.var (GoCode.vi c!"target" n) ty
      (parsing ++ .assign field (.addr (xi c!"target" n)) .done)) .done), m)

/-- The parsing of the properties, each followed by `if errors.Full() { return }` -/
def parseProps (ctx : Ctx) : List Property → Nat → Except Exc Code
  | [], _ => .ok .done
  | p :: ps, n => do
    let (c, m) ← parseProperty ctx p n
    let rest ← parseProps ctx ps m
    pure (c ++ .test full (.block .done rest))

/-- The checks at the start of every parsing function -/
def preamble (rest : Code) : Code :=
  .test (.eq (x c!"target") .nil) (.block .done (.test (.eq errors .nil) (.block .done
    (.test (.not noErrors) (.block .done rest)))))

/-- The types of the registries in the parameters, `map[string]*...` -/
def registryType (c : Str) : Except Exc GTy := do pure (.map (.ptr (.named (← ucamelCase c))))

/-- The registries of the parameters -/
def registries (g : Graph) (refs : List Str) : Except Exc (List (Name × GTy)) := do
  let params ← refs.mapM (registryParam g)
  let types ← refs.mapM registryType
  pure (params.zip types)

/-- The parameters after the value and the registries -/
def restParams (f : Str) : List (Name × GTy) :=
  [(GoCode.v c!"ref", .string), (GoCode.v c!"target", .ptr (.named f)), (GoCode.v c!"errors", .ptr (.named c!"Errors"))]

/-- `errors.Add(ref, fmt.Sprintf("...", value))` -/
def reportAt (ref value : Expr) : Code := .eval (add ref (sprintf [value])) .done

/-- `/repo/mapry/go/generate/fromjsonable.py:1502-1612` `_parse_composite` -/
def parseComposite (g : Graph) (uids : List (Str × Nat)) (o : Owner) (name : Str) (isClass : Bool) :
    Except Exc Func := do
  let refs ← referencesOf g o
  let params ← registries g refs
  let ctx : Ctx := ⟨g, uids, fun c => if c ∈ refs then do pure (.var (← registryParam g c)) else .error .keyError⟩
  let props ← parseProps ctx (ownerProps g o) 0
  let f ← ucamelCase name
  pure
    { name := f ++ c!"FromJSONable"
      params := [(GoCode.v c!"value", .any)] ++ (if isClass then [(GoCode.v c!"id", .string)] else []) ++ params ++
        restParams f
      results := []
      body := preamble (.define₂ (if (ownerProps g o).isEmpty then none else some (GoCode.v c!"cast")) (GoCode.v c!"ok")
        (.assert (x c!"value") (.map .any))
        (.test (.not (x c!"ok")) (.block (reportAt (x c!"ref") (x c!"value"))
        (if isClass then .assign (.field (x c!"target") c!"ID") (x c!"id") props else props)))) }

/-- The code to allocate the instances of a class (`/repo/mapry/go/generate/fromjsonable.py:1653-1703`) -/
def preallocate (uids : List (Str × Nat)) (c : Class) : Except Exc Code := do
  let p ← camelCase c.plural
  let field ← ucamelCase c.plural
  let name ← ucamelCase c.name
  let _ ← jsonPlural c.plural
  let ref := GoCode.own [] p c!"Ref"
  let ok := GoCode.own [] p c!"Ok"
  let value := GoCode.own [] p c!"Value"
  let map := GoCode.own [] p c!"Map"
  let registry : Expr := .field (x c!"target") field
  let alloc : Code := .assign (.index registry (x c!"id")) (.new name) .done
  pure (.define ref (.plus (x c!"ref") .text) (.var ok .bool (.var value .any (.var map (.map .any)
    (.assign₂ (.var value) (.var ok) (.index (x c!"cast") .text) (.test (.var ok)
    (.block (.assign₂ (.var map) (x c!"ok") (.assert (.var value) (.map .any)) (.test (.not (x c!"ok"))
      (.block (reportAt (.var ref) (.var value))
      (.block (.assign registry (.make (.map (.ptr (.named name))))
        (.range (GoCode.v c!"id") none (.var map) (match c.idPattern with
          | some pat => .test (.not (callWith (.method (.var (patternName uids pat)) c!"MatchString") [x c!"id"]))
              (.block (reportAt (.var ref) (x c!"id")) (.block alloc .done))
          | none => alloc) .done)) .done)))) .done)))))))

/-- The code to parse the instances of a class (`/repo/mapry/go/generate/fromjsonable.py:1712-1740`) -/
def parseInstances (g : Graph) (c : Class) : Except Exc Code := do
  let p ← camelCase c.plural
  let field ← ucamelCase c.plural
  let name ← ucamelCase c.name
  let refs ← referencesOf g (.cls c.name)
  let fields ← refs.mapM (pluralField g)
  pure (.test (.var (GoCode.own [] p c!"Ok")) (.block
    (.range (GoCode.v c!"id") (some (GoCode.v c!"value")) (.var (GoCode.own [] p c!"Map"))
      (.eval (callWith (.fn (name ++ c!"FromJSONable")) (x c!"value" :: x c!"id" ::
        fields.map (fun f => .field (x c!"target") f) ++
        [join [.var (GoCode.own [] p c!"Ref"), x c!"id"], .index (.field (x c!"target") field) (x c!"id"), errors]))
      (.test full (.block .done .done))) .done) (.test full (.block .done .done))))

/-- One piece of code after another -/
def concat (cs : List Code) : Code := cs.foldr (· ++ ·) .done

/-- `/repo/mapry/go/generate/fromjsonable.py:1615-1805` `_parse_graph` -/
def parseGraph (g : Graph) (uids : List (Str × Nat)) : Except Exc Func := do
  let ctx : Ctx := ⟨g, uids, fun c => do pure (.field (x c!"target") (← pluralField g c))⟩
  let alloc ← g.classes.mapM (preallocate uids)
  let insts ← g.classes.mapM (parseInstances g)
  let props ← parseProps ctx g.properties 0
  let f ← ucamelCase g.name
  pure
    { name := f ++ c!"FromJSONable"
      params := (GoCode.v c!"value", .any) :: restParams f
      results := []
      body := preamble (.define₂ (some (GoCode.v c!"cast")) (GoCode.v c!"ok") (.assert (x c!"value") (.map .any))
        (.test (.not (x c!"ok")) (.block (reportAt (x c!"ref") (x c!"value"))
        (concat alloc ++ (if g.classes.isEmpty then .done else .test (.not noErrors) (.block .done .done)) ++
          concat insts ++ props)))) }

/-- `/repo/mapry/go/generate/fromjsonable.py:1808-1844` `generate`: the functions which depend on the schema -/
def parseFuncs (g : Graph) : Except Exc (List Func) := do
  let uids := GoCode.enumeratePatterns g
  let classes ← g.classes.mapM fun c => parseComposite g uids (.cls c.name) c.name true
  let embeds ← g.embeds.mapM fun e => parseComposite g uids (.embed e.name) e.name false
  let graph ← parseGraph g uids
  pure (classes ++ embeds ++ [graph])

/-! ## Serializing -/

/-- `/repo/mapry/go/generate/tojsonable.py:132-161` `_serialize_date_time` -/
def serializeDateTime (f : Str) (tgt value : Expr) (n : Nat) : Except Exc (Code × Nat) := do
  let format ← Strftime.convert f
  pure (.assign tgt (if format.isEmpty then .text else callWith (.method value c!"Format") [.text]) .done, n)

/-- `/repo/mapry/go/generate/tojsonable.py:251-317` `_serialize_value` and the functions it calls -/
def serializeValue : Ty → (target value : Expr) → Nat → Except Exc (Code × Nat)
  | .boolean, tgt, value, n => .ok (.assign tgt value .done, n)
  | .integer _, tgt, value, n => .ok (.assign tgt value .done, n)
  | .float _, tgt, value, n => .ok (.assign tgt value .done, n)
  | .string _, tgt, value, n => .ok (.assign tgt value .done, n)
  | .path _, tgt, value, n => .ok (.assign tgt value .done, n)
  | .date f, tgt, value, n => serializeDateTime f tgt value n
  | .time f, tgt, value, n => serializeDateTime f tgt value n
  | .datetime f, tgt, value, n => serializeDateTime f tgt value n
  | .timeZone, tgt, value, n => .ok (.assign tgt (callWith (.method value c!"String") []) .done, n)
  | .duration, tgt, value, n => .ok (.assign tgt (callWith (.fn c!"durationToString") [value]) .done, n)
  -- lines 164-205 `_serialize_array`
  | .array t _ _, tgt, value, n => do
    let (item, m) ← serializeValue t (.index (xi c!"target" n) (xi c!"i" n)) (.index (xi c!"slice" n) (xi c!"i" n))
      (n + 1)
    pure (.define (GoCode.vi c!"count" n) (.len value) (.define (GoCode.vi c!"slice" n) value
      (.define (GoCode.vi c!"target" n) (.makeN (.slice .any) (xi c!"count" n))
      (.loop (GoCode.vi c!"i" n) (xi c!"count" n) item (.assign tgt (xi c!"target" n) .done)))), m)
  -- lines 208-248 `_serialize_map`
  | .map t, tgt, value, n => do
    let (item, m) ← serializeValue t (.index (xi c!"target" n) (xi c!"k" n)) (xi c!"v" n) (n + 1)
    pure (.define (GoCode.vi c!"target" n) (.make (.map .any)) (.define (GoCode.vi c!"map" n) value
      (.range (GoCode.vi c!"k" n) (some (GoCode.vi c!"v" n)) (xi c!"map" n) item
      (.assign tgt (xi c!"target" n) .done))), m)
  | .cls _, tgt, value, n => .ok (.assign tgt (.field value c!"ID") .done, n)
  | .embed name, tgt, value, n => do
    let f ← ucamelCase name
    pure (.assign tgt (callWith (.fn (f ++ c!"ToJSONable")) [.addr value]) .done, n)

/-- `/repo/mapry/go/generate/tojsonable.py:320-375` `_serialize_property` of `instance` to `target` -/
def serializeProperty (p : Property) (n : Nat) : Except Exc (Code × Nat) := do
  let f ← ucamelCase p.name
  let value : Expr := .field (x c!"instance") f
  let (c, m) ← serializeValue p.ty (.index (x c!"target") .text)
    (if p.optional && !isPointer p.ty then .star value else value) n
  pure (if p.optional then .test (.eq value .nil) (.block c .done) else c, m)

def serializeProps : List Property → Nat → Except Exc Code
  | [], _ => .ok .done
  | p :: ps, n => do
    let (c, m) ← serializeProperty p n
    let rest ← serializeProps ps m
    pure (c ++ rest)

/-- The result of a serializing function -/
def targetResult : Name × GTy := (GoCode.v c!"target", .map .any)

/-- The start of a serializing function -/
def serialized (rest : Code) : Code :=
  .test (.eq (x c!"instance") .nil) (.block .done (.assign (x c!"target") (.make (.map .any)) rest))

/-- `/repo/mapry/go/generate/tojsonable.py:378-435` `_serialize_class_or_embed` -/
def serializeComposite (name : Str) (ps : List Property) : Except Exc Func := do
  let props ← serializeProps ps 0
  let f ← ucamelCase name
  pure ⟨f ++ c!"ToJSONable", [(GoCode.v c!"instance", .ptr (.named f))], [targetResult], serialized props⟩

/-- The code to write a registry (`/repo/mapry/go/generate/tojsonable.py:473-505`) -/
def serializeRegistry (c : Class) : Except Exc Code := do
  let p ← ucamelCase c.plural
  let i ← camelCase c.name
  let name ← ucamelCase c.name
  let _ ← jsonPlural c.plural
  let target := GoCode.own c!"target" p []
  let inst := GoCode.own [] i c!"Instance"
  let registry : Expr := .field (x c!"instance") p
  pure (.test (.less (.len registry) (.num 0)) (.block (.define target (.make (.map .any))
    (.range (GoCode.v c!"id") none registry (.define inst (.index registry (x c!"id"))
      (.test (.eq (x c!"id") (.field (.var inst) c!"ID"))
      (.block (.assign (x c!"err") (callWith (.lib c!"fmt" c!"Errorf") [.text, x c!"id", .field (.var inst) c!"ID"]) .done)
      (.assign (.index (.var target) (x c!"id")) (callWith (.fn (name ++ c!"ToJSONable")) [.var inst]) .done))))
    (.assign (.index (x c!"target") .text) (.var target) .done))) .done))

/-- `/repo/mapry/go/generate/tojsonable.py:438-540` `_serialize_graph` -/
def serializeGraph (g : Graph) : Except Exc Func := do
  let props ← serializeProps g.properties 0
  let regs ← g.classes.mapM serializeRegistry
  let f ← ucamelCase g.name
  pure ⟨f ++ c!"ToJSONable", [(GoCode.v c!"instance", .ptr (.named f))], [targetResult, (GoCode.v c!"err", .error)],
    serialized (.block (.test (.eq (x c!"err") .nil) (.block (.assign (x c!"target") .nil .done) .done))
      (props ++ concat regs))⟩

/-- `/repo/mapry/go/generate/tojsonable.py:543-577` `generate`: the functions which depend on the schema -/
def serializeFuncs (g : Graph) : Except Exc (List Func) := do
  let classes ← g.classes.mapM fun c => serializeComposite c.name c.properties
  let embeds ← g.embeds.mapM fun e => serializeComposite e.name e.properties
  let graph ← serializeGraph g
  pure (classes ++ embeds ++ [graph])

/-! ## The package -/

/-- The functions with a fixed text: `/repo/mapry/go/generate/fromjsonable.py:98-322`, `tojsonable.py:39-129` -/
def durationFuncs : List (Str × Sig) :=
  [(c!"durationFromString", ⟨[.string], false, [.duration, .error]⟩),
   (c!"durationToString", ⟨[.duration], false, [.string]⟩)]

/-- The methods of the error container (`/repo/mapry/go/generate/parse.py:10-82`) -/
def errorMethods : List (GTy × Str × Sig) :=
  [(.ptr (.named c!"Errors"), c!"Add", ⟨[.string, .string], false, []⟩),
   (.ptr (.named c!"Errors"), c!"Full", ⟨[], false, [.bool]⟩),
   (.ptr (.named c!"Errors"), c!"Empty", ⟨[], false, [.bool]⟩)]

/-- What is declared in the package: the structures, the error container (whose fields are not used in the other files),
the functions and the compiled patterns -/
def world (g : Graph) (ds : List GoTypes.TypeDef) (fs : List Func) : World :=
  { structs := ds.map (fun d => (d.name, d.fields)) ++ [(c!"Error", []), (c!"Errors", [])]
    methods := errorMethods
    funcs := fs.map Func.sig ++ (if needs g .duration then durationFuncs else [])
    vars := (GoCode.enumeratePatterns g).map fun e => (.pattern e.2, .ptr .regexp) }

end Mapry.GoTyped
