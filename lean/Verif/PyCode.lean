import Verif.PyScope
import Verif.GoCode
import Verif.ParseSchema

/-!
# Model of the Python code as it is generated: names

The generators in `mapry/py/generate` are modelled up to the names which the generated code binds and looks up, the
order in which it does so, and the calls between the generated functions. The values which are computed are the
subject of `Verif/PyRuntime.lean`. Not recorded are the attributes of objects, the methods, the comments (the
comments on types are only rendered) and the docstrings.
-/

namespace Mapry.PyCode

open Mapry.TypeGraph Mapry.Naming Mapry.ParseSchema
open Mapry.GoCode (referencesOf hasPattern)

/-! ## Names -/

def v (x : Str) : Name := .var (.fixed x)
def t (base : Str) (uid : Nat) : Name := .var (.temp base uid)
def lib (path : Str) : Name := .mod .library path
def typing : Name := lib c!"typing"
def collections : Name := lib c!"collections"
def datetime : Name := lib c!"datetime"
def pathlib : Name := lib c!"pathlib"
def re : Name := lib c!"re"
def errors : Name := v c!"errors"
def b (x : Str) : Name := .builtin x

/-- `if ...: return` -/
def leaveIf (rest : Code) : Code := .branch .leave .done rest

/-- One piece of code after another. -/
def concat (cs : List Code) : Code := cs.foldr (· ++ ·) .done

/-- `/repo/mapry/py/generate/__init__.py:54-63` and the tests of `path_as` in the other generators -/
def pathNames (py : Py) : Except Exc (List Name) :=
  if py.pathAs = c!"str" then .ok [b c!"str"]
  else if py.pathAs = c!"pathlib.Path" then .ok [pathlib]
  else .error (.notImplemented [])

/-- `/repo/mapry/py/generate/__init__.py:74-81` -/
def zoneNames (py : Py) : Except Exc (List Name) :=
  if py.timezoneAs = c!"str" then .ok [b c!"str"]
  else if py.timezoneAs = c!"pytz.timezone" then .ok [datetime]
  else .error (.notImplemented [])

/-- `/repo/mapry/py/generate/__init__.py:32-105` `type_repr`, which is only used in comments by the generators of the
parser: the exceptions. -/
def typeRepr (py : Py) : Ty → Except Exc Unit
  | .path _ => do let _ ← pathNames py; pure ()
  | .timeZone => do let _ ← zoneNames py; pure ()
  | .array x _ _ => typeRepr py x
  | .map x => typeRepr py x
  | .cls n => do let _ ← asComposite n; pure ()
  | .embed n => do let _ ← asComposite n; pure ()
  | _ => .ok ()

/-- `if mapry.needs_type(a_type=graph, query=mapry.Path): ...` in `_imports` -/
def neededPath (g : Graph) (py : Py) : Except Exc (List Name) := if needs g .path then pathNames py else .ok []

/-- `if mapry.needs_type(a_type=graph, query=mapry.TimeZone): ...` in `_imports` -/
def neededZone (g : Graph) (py : Py) : Except Exc (List Name) := if needs g .timeZone then zoneNames py else .ok []

/-! ## The module of the types -/

/-- `/repo/mapry/py/generate/types.py:14-58` `_imports`. The set of the imports is the list of its elements; an
element may be repeated. -/
def typesImports (g : Graph) (py : Py) : Except Exc (List (Origin × Str)) := do
  let path ← neededPath g py
  let zone ← neededZone g py
  pure ([(.library, c!"typing")] ++
    (if path = [pathlib] then [(.library, c!"pathlib")] else []) ++
    (if zone = [datetime] then [(.library, c!"datetime")] else []) ++
    (if needs g .date || needs g .time || needs g .datetime || needs g .duration then [(.library, c!"datetime")] else []) ++
    (if g.classes.length > 0 then [(.library, c!"collections")] else []))

/-- `/repo/mapry/py/generate/types.py:61-103` `_type_repr`: the names looked up in an annotation. A composite which is
not yet defined is a text. -/
def annotation (py : Py) (defined : List Owner) : Ty → Except Exc (List Name)
  | .boolean => .ok [b c!"bool"]
  | .integer _ => .ok [b c!"int"]
  | .float _ => .ok [b c!"float"]
  | .string _ => .ok [b c!"str"]
  | .path _ => pathNames py
  | .date _ => .ok [datetime]
  | .time _ => .ok [datetime]
  | .datetime _ => .ok [datetime]
  | .timeZone => zoneNames py
  | .duration => .ok [datetime]
  | .array x _ _ => do pure (typing :: (← annotation py defined x))
  | .map x => do pure (typing :: b c!"str" :: (← annotation py defined x))
  | .cls n => do
    let name ← asComposite n
    pure (if .cls n ∈ defined then [.glob name] else [])
  | .embed n => do
    let name ← asComposite n
    pure (if .embed n ∈ defined then [.glob name] else [])

/-- An argument of a constructor and its annotation. -/
structure Arg where
  param : Param
  uses : List Name

/-- The argument for a property (`/repo/mapry/py/generate/types.py:117-124`, `167-174`, `346-357`). -/
def propertyArg (py : Py) (defined : List Owner) (p : Property) : Except Exc Arg := do
  let name ← asAttribute p.name
  let uses ← annotation py defined p.ty
  pure ⟨{ var := .own [] name [], optional := p.optional }, if p.optional then typing :: uses else uses⟩

/-- `self.x = x` or `self.x = x if x is not None else None` -/
def keepArg (a : Arg) : Code := .use [v c!"self", .var a.param.var] .done

/-- `__init__` -/
def initializer (args : List Arg) (body : Code) : Func :=
  { name := c!"__init__"
    params := { var := .fixed c!"self" } :: args.map (·.param)
    sig := args.flatMap (·.uses)
    body }

/-- `definition_order[:definition_order.index(composite)]`; the comparison of composites is the one of objects. -/
def definedBefore (order : List Owner) (o : Owner) : List Owner := order.takeWhile (· != o)

/-- `/repo/mapry/py/generate/types.py:106-145`, `196-226` `_define_class` -/
def defineClass (py : Py) (order : List Owner) (c : Class) : Except Exc Item := do
  let name ← asComposite c.name
  let args ← (Text.orderByOptional c.properties).mapM (propertyArg py (definedBefore order (.cls c.name)))
  let id : Arg := ⟨{ var := .fixed c!"id", kind := .id }, [b c!"str"]⟩
  pure (.cls name [initializer (id :: args) (concat ((id :: args).map keepArg))])

/-- `/repo/mapry/py/generate/types.py:147-193`, `229-264` `_define_embed` -/
def defineEmbed (py : Py) (order : List Owner) (e : Embed) : Except Exc Item := do
  let name ← asComposite e.name
  if e.properties.length = 0 then pure (.cls name [])
  else do
    let args ← (Text.orderByOptional e.properties).mapM (propertyArg py (definedBefore order (.embed e.name)))
    pure (.cls name [initializer args (concat (args.map keepArg))])

/-- The argument for the registry of a class (`/repo/mapry/py/generate/types.py:359-366`). -/
def registryArg (py : Py) (defined : List Owner) (c : Class) : Except Exc Arg := do
  let name ← asAttribute c.plural
  let uses ← annotation py defined (.cls c.name)
  pure ⟨{ var := .own [] name [], optional := true }, typing :: typing :: b c!"str" :: uses⟩

/-- `if x is not None: self.x = x else: self.x = collections.OrderedDict()` -/
def keepRegistry (a : Arg) : Code :=
  .use [.var a.param.var] (.branch (.use [v c!"self", .var a.param.var] .done)
    (.use [v c!"self", collections] .done) .done)

/-- `/repo/mapry/py/generate/types.py:267-373` `_define_graph` -/
def defineGraph (py : Py) (order : List Owner) (g : Graph) : Except Exc Item := do
  let name ← asComposite g.name
  if g.properties.length = 0 && g.classes.length = 0 then pure (.cls name [])
  else do
    let defined := definedBefore order .graph
    let args ← (Text.orderByOptional g.properties).mapM (propertyArg py defined)
    let registries ← g.classes.mapM (registryArg py defined)
    pure (.cls name [initializer (args ++ registries) (concat (args.map keepArg ++ registries.map keepRegistry))])

/-- The order of the definitions in the module of the types. -/
def definitionOrder (g : Graph) : List Owner :=
  g.classes.map (fun c => .cls c.name) ++ g.embeds.map (fun e => .embed e.name) ++ [.graph]

/-- `/repo/mapry/py/generate/types.py:376-420` `generate` -/
def typesModule (g : Graph) (py : Py) : Except Exc Module := do
  let imports ← typesImports g py
  let classes ← g.classes.mapM (defineClass py (definitionOrder g))
  let embeds ← g.embeds.mapM (defineEmbed py (definitionOrder g))
  let graph ← defineGraph py (definitionOrder g) g
  pure ⟨py.moduleName, imports, classes ++ embeds ++ [graph]⟩

/-! ## The module `parse` -/

def parsePath (py : Py) : Str := py.moduleName ++ c!".parse"

def self : Param := { var := .fixed c!"self" }

/-- `/repo/mapry/py/generate/parse.py:27-81` `_DEFINE_ERROR_AND_ERRORS` -/
def errorClasses : List Item :=
  let refParam : Param := { var := .fixed c!"ref", kind := .ref }
  let message : Param := { var := .fixed c!"message" }
  [.cls c!"Error" [
    { name := c!"__init__", params := [self, refParam, message], sig := [b c!"str", b c!"str"]
      body := .use [v c!"self", v c!"ref"] (.use [v c!"self", v c!"message"] .done) }],
   .cls c!"Errors" [
    { name := c!"__init__", params := [self, { var := .fixed c!"cap" }], sig := [b c!"int"]
      body := .use [v c!"self", v c!"cap"] (.use [v c!"self"] .done) },
    { name := c!"add", params := [self, refParam, message], sig := [b c!"str", b c!"str"]
      body := .use [b c!"len", v c!"self"] (.branch
        (.use [v c!"self", v c!"ref", v c!"message"]
          (.call (.glob c!"Error") [] [(c!"ref", .ref), (c!"message", .other)] .done)) .done .done) },
    { name := c!"full", params := [self], sig := [b c!"bool"], body := .use [b c!"len", v c!"self"] .leave },
    { name := c!"empty", params := [self], sig := [b c!"bool"], body := .use [b c!"len", v c!"self"] .leave },
    { name := c!"count", params := [self], sig := [b c!"int"], body := .use [b c!"len", v c!"self"] .leave },
    { name := c!"values", params := [self], sig := [typing, .glob c!"Error"]
      body := .use [b c!"iter", v c!"self"] .leave }]]

/-- `required_properties` -/
def required (ps : List Property) : List Property := ps.filter fun p => !p.optional

/-- `{{ prop.name|as_attribute }}=None` -/
def noneArg (p : Property) : Except Exc (Str × Kind) := do pure (← asAttribute p.name, .other)

/-- `/repo/mapry/py/generate/parse.py:84-128` `_class_placeholder_function` -/
def placeholderClass (py : Py) (c : Class) : Except Exc Item := do
  let f ← asVariable c.name
  let name ← asComposite c.name
  let args ← (required c.properties).mapM noneArg
  pure (.func
    { name := c!"placeholder_" ++ f
      params := [{ var := .fixed c!"id", kind := .id }]
      sig := [b c!"str", .member py.moduleName name]
      body := .use [v c!"id"] (.call (.member py.moduleName name) [] ((c!"id", .id) :: args) .leave) })

/-- `/repo/mapry/py/generate/parse.py:131-172` `_embed_placeholder_function` and `_graph_placeholder_function` -/
def placeholder (py : Py) (name : Str) (ps : List Property) : Except Exc Item := do
  let f ← asVariable name
  let composite ← asComposite name
  let args ← (required ps).mapM noneArg
  pure (.func
    { name := c!"placeholder_" ++ f
      params := []
      sig := [.member py.moduleName composite]
      body := .call (.member py.moduleName composite) [] args .leave })

/-- `/repo/mapry/py/generate/parse.py:11-24` `_imports` and `220-243` `generate` -/
def parseModule (g : Graph) (py : Py) : Except Exc Module := do
  let embeds ← g.embeds.mapM fun e => placeholder py e.name e.properties
  let classes ← g.classes.mapM (placeholderClass py)
  let graph ← placeholder py g.name g.properties
  pure ⟨parsePath py, [(.library, c!"typing"), (.package, py.moduleName)], errorClasses ++ embeds ++ classes ++ [graph]⟩

/-! ## The module `fromjsonable` -/

/-- `/repo/mapry/py/generate/fromjsonable.py:14-105` `_imports` -/
def fromImports (g : Graph) (py : Py) : Except Exc (List (Origin × Str)) := do
  let path ← neededPath g py
  let zone ← neededZone g py
  pure ([(.library, c!"typing")] ++
    (if path = [pathlib] then [(.library, c!"pathlib")] else []) ++
    (if zone = [datetime] then [(.library, c!"pytz"), (.library, c!"pytz.exceptions")] else []) ++
    (if needs g .date || needs g .time || needs g .datetime || needs g .duration then [(.library, c!"datetime")] else []) ++
    (if needs g .map then [(.library, c!"collections")] else []) ++
    (if g.classes.length > 0 then [(.library, c!"collections")] else []) ++
    (if (iterateOverTypes g).any (fun x => hasPattern x.1 || tyTag x.1 == .duration) ||
        g.classes.any (fun c => c.idPattern.isSome) then [(.library, c!"re")] else []) ++
    [(.package, py.moduleName), (.package, parsePath py)])

/-- `x_grp = match.group('x')` and `x = f(x_grp) if x_grp else ...` -/
def groupOf (f x : Str) (rest : Code) : Code :=
  .use [v c!"match"] (.bind [.fixed (x ++ c!"_grp")] (.use [v (x ++ c!"_grp"), b f] (.bind [.fixed x] rest)))

/-- `/repo/mapry/py/generate/fromjsonable.py:109-245` `_duration_from_string` -/
def durationFromString : List Item :=
  [.value c!"_DURATION_RE" [re],
   .func
    { name := c!"_duration_from_string"
      params := [{ var := .fixed c!"text" }]
      sig := [b c!"str", datetime]
      body := .use [.glob c!"_DURATION_RE", v c!"text"] (.bind [.fixed c!"match"] (.use [v c!"match"]
        (.branch (.use [b c!"ValueError", v c!"text"] .leave) .done
        (.use [v c!"match"] (.bind [.fixed c!"sign_grp"] (.use [v c!"sign_grp"]
        (.branch (.bind [.fixed c!"sign"] .done) (.bind [.fixed c!"sign"] .done)
        (groupOf c!"float" c!"years" (groupOf c!"float" c!"months" (groupOf c!"float" c!"weeks"
        (groupOf c!"float" c!"days" (groupOf c!"float" c!"hours" (groupOf c!"float" c!"minutes"
        (groupOf c!"int" c!"seconds"
        (.use [v c!"match"] (.bind [.fixed c!"fraction_grp"] (.use [v c!"fraction_grp"]
        (.branch (.bind [.fixed c!"microseconds"] .done)
          (.use [b c!"len", v c!"fraction_grp"]
          (.branch (.use [b c!"ValueError", v c!"text"] .leave)
            (.use [v c!"fraction_grp"] (.bind [.fixed c!"stripped"] (.use [v c!"stripped"]
            (.branch (.use [b c!"int", v c!"stripped"] (.bind [.fixed c!"count"]
                (.use [b c!"len", v c!"fraction_grp"] (.bind [.fixed c!"order"]
                (.use [v c!"count", v c!"order"] (.bind [.fixed c!"microseconds"] .done))))))
              (.bind [.fixed c!"microseconds"] .done) .done)))) .done))
        (.attempt
          (.use [v c!"sign", datetime, v c!"years", v c!"months", v c!"weeks", v c!"days", v c!"seconds", v c!"minutes",
            v c!"hours", v c!"microseconds"] .leave)
          (.use [b c!"OverflowError"] (.bind [.fixed c!"err"] (.use [b c!"OverflowError", v c!"text", v c!"err"] .leave)))
          .done))))))))))))))))))) }]

/-- Where the code stores a value: the names looked up and the variables bound by `target_expr = ...`. -/
structure Target where
  uses : List Name
  sets : List Var

/-- `target_expr = x` with the names in `x` -/
def store (tgt : Target) (xs : List Name) : Code := .use (xs ++ tgt.uses) (.bind tgt.sets .done)

/-- `errors.add('/'.join((ref_parts)), "...".format(args))` -/
def report (ref args : List Name) : Code := .use (errors :: ref ++ args) .done

/-- `if not isinstance(value, T): errors.add(..., type(value)) else: body` -/
def expect (value : Name) (types ref : List Name) (body : Code) : Code :=
  .use (b c!"isinstance" :: value :: types) (.branch (report ref [b c!"type", value]) body .done)

/-- The settings of the generator within a function. -/
structure Ctx where
  graph : Graph
  py : Py
  /-- `registry_exprs`: the names in the expression of the registry of a class -/
  registry : Str → Except Exc (List Name)

/-- The bounds of a number (`/repo/mapry/py/generate/fromjsonable.py:310-341`, `388-418`). The template tests the
undefined variable `get_cond_before`, so that the check of the maximum is a statement of its own and `else` belongs
to the last one. -/
def checkBounds (ref : List Name) (bd : Bounds) (value : Name) (body : Code) : Code :=
  match bd.min, bd.max with
  | none, none => body
  | some _, none => .use [value] (.branch (report ref [value]) body .done)
  | none, some _ => .use [value] (.branch (report ref [value]) body .done)
  | some _, some _ => .use [value] (.branch (report ref [value]) .done
      (.use [value] (.branch (report ref [value]) body .done)))

/-- The pattern of a text (`/repo/mapry/py/generate/fromjsonable.py:465-479`, `539-553`). -/
def checkPattern (ref : List Name) (pattern : Option Str) (value : Name) (body : Code) : Code :=
  match pattern with
  | none => body
  | some _ => .use [re, value] (.branch (report ref [value]) body .done)

/-- `/repo/mapry/py/generate/fromjsonable.py:586-759` `_parse_date`, `_parse_date_time` and `_parse_time` -/
def parseDateTime (value : Var) (tgt : Target) (ref : List Name) : Code :=
  expect (.var value) [b c!"str"] ref
    (.attempt (store tgt [datetime, .var value])
      (.use [b c!"ValueError"] (report ref [.var value])) .done)

/-- `len(value) < minimum_size` or `len(value) > maximum_size` -/
def checkSize (ref : List Name) (size : Option Int) (value : Name) (body : Code) : Code :=
  match size with
  | none => body
  | some _ => .use [b c!"len", value] (.branch (report ref [b c!"len", value]) body .done)

/-- `{}_registry` with `cls.plural|as_variable` -/
def registryParam (g : Graph) (name : Str) : Except Exc Var :=
  match g.cls? name with
  | some c => do pure (.own [] (← asVariable c.plural) c!"_registry")
  | none => .error .keyError

/-- `/repo/mapry/py/generate/fromjsonable.py:1104-1249` `_parse_value` and the functions it calls: the code to parse the
JSONable `value` into the target, where `ref` are the names in the parts of the reference path. The number is the next
identifier of `AutoID`. The expression `value_expr` is a variable in every call, so that no further variable is bound
to it (`is_variable`). -/
def parseValue (ctx : Ctx) : Ty → (value : Var) → Target → (ref : List Name) → Nat → Except Exc (Code × Nat)
  -- lines 248-290 `_parse_boolean`
  | .boolean, value, tgt, ref, n => .ok (expect (.var value) [b c!"bool"] ref (store tgt [.var value]), n + 1)
  -- lines 293-368 `_parse_integer`
  | .integer bd, value, tgt, ref, n => .ok (expect (.var value) [b c!"int"] ref
      (checkBounds ref bd (.var value) (store tgt [.var value])), n + 1)
  -- lines 371-444 `_parse_float`
  | .float bd, value, tgt, ref, n => .ok (expect (.var value) [b c!"int", b c!"float"] ref
      (checkBounds ref bd (.var value) (store tgt [b c!"float", .var value])), n + 1)
  -- lines 447-506 `_parse_string`
  | .string p, value, tgt, ref, n => .ok (expect (.var value) [b c!"str"] ref
      (checkPattern ref p (.var value) (store tgt [.var value])), n + 1)
  -- lines 509-583 `_parse_path`
  | .path p, value, tgt, ref, n => do
    let names ← pathNames ctx.py
    pure (expect (.var value) [b c!"str"] ref
      (checkPattern ref p (.var value) (store tgt (if names = [pathlib] then [pathlib, .var value] else [.var value]))),
      n + 1)
  | .date _, value, tgt, ref, n => .ok (parseDateTime value tgt ref, n + 1)
  | .time _, value, tgt, ref, n => .ok (parseDateTime value tgt ref, n + 1)
  | .datetime _, value, tgt, ref, n => .ok (parseDateTime value tgt ref, n + 1)
  -- lines 762-849 `_parse_time_zone`
  | .timeZone, value, tgt, ref, n => do
    let names ← zoneNames ctx.py
    pure (expect (.var value) [b c!"str"] ref
      (if names = [datetime] then .attempt (store tgt [lib c!"pytz", .var value])
        (.use [lib c!"pytz.exceptions"] (report ref [.var value])) .done
      else store tgt [.var value]), n + 1)
  -- lines 852-904 `_parse_duration`
  | .duration, value, tgt, ref, n => .ok
    (expect (.var value) [b c!"str"] ref (.attempt
      (.use [.var value] (.call (.glob c!"_duration_from_string") [.other] [] (store tgt [])))
      (.use [b c!"ValueError", b c!"OverflowError"] (.bind [.fixed c!"err"]
        (.use (errors :: ref ++ [b c!"str", v c!"err"]) (.forget [.fixed c!"err"] .done)))) .done), n + 1)
  -- lines 907-1006 `_parse_array`
  | .array x lo hi, value, tgt, ref, n => do
    let (item, m) ← parseValue ctx x (.temp c!"item" n) ⟨[], [.temp c!"target_item" n]⟩
      (ref ++ [b c!"str", t c!"i" n]) (n + 1)
    typeRepr ctx.py x
    pure (expect (.var value) [b c!"list"] ref (checkSize ref lo (.var value) (checkSize ref hi (.var value)
      (.bind [.temp c!"target" n] (.use [b c!"enumerate", .var value]
        (.loop [.temp c!"i" n, .temp c!"item" n]
          (.bind [.temp c!"target_item" n] (item ++
            .use [t c!"target_item" n] (.branch (.use [t c!"target" n, t c!"target_item" n] .done) .done
            (.use [errors] (.branch .stop .done .done)))))
        (store tgt [t c!"target" n])))))), m)
  -- lines 1011-1092 `_parse_map`
  | .map x, value, tgt, ref, n => do
    let (item, m) ← parseValue ctx x (.temp c!"value" n) ⟨[], [.temp c!"target_item" n]⟩
      (ref ++ [b c!"repr", t c!"key" n]) (n + 1)
    typeRepr ctx.py x
    pure (expect (.var value) [b c!"dict"] ref (.use [b c!"isinstance", .var value, collections]
      (.branch (.use [collections] (.bind [.temp c!"target" n] .done)) (.use [b c!"dict"] (.bind [.temp c!"target" n] .done))
      (.use [.var value] (.loop [.temp c!"key" n, .temp c!"value" n]
        (.use [b c!"isinstance", t c!"key" n, b c!"str"]
          (.branch (report ref [b c!"type", t c!"key" n] ++ .use [errors] (.branch .stop .stop .done)) .done
          (.bind [.temp c!"target_item" n] (item ++
            .use [t c!"target_item" n]
              (.branch (.use [t c!"target" n, t c!"key" n, t c!"target_item" n] .done) .done
              (.use [errors] (.branch .stop .done .done)))))))
      (.use [t c!"target" n] (.branch (store tgt [t c!"target" n]) .done .done)))))), m)
  -- lines 1331-1390 `_parse_instance_reference`
  | .cls c, value, tgt, ref, n => do
    let registry ← ctx.registry c
    pure (expect (.var value) [b c!"str"] ref (.use (registry ++ [.var value]) (.bind [.temp c!"target" n]
      (.use [t c!"target" n] (.branch (report ref [.var value]) (store tgt [t c!"target" n]) .done)))), n + 1)
  -- lines 1393-1453 `_parse_embed`
  | .embed name, value, tgt, ref, n => do
    let refs ← referencesOf ctx.graph (.embed name)
    let registries ← refs.mapM ctx.registry
    let f ← asVariable name
    pure (.call (.member (parsePath ctx.py) (c!"placeholder_" ++ f)) [] [] (.bind [.temp c!"target" n]
      (.use (.var value :: registries.flatten ++ ref ++ [t c!"target" n, errors])
        (.call (.glob (c!"_" ++ f ++ c!"_from"))
          (.value :: refs.map .registry ++ [.ref, .target name, .errors]) [] (store tgt [t c!"target" n])))), n + 1)

/-- `/repo/mapry/py/generate/fromjsonable.py:1252-1328` `_parse_property` with `value_obj_expr="value"` and
`ref_obj_parts=["ref"]`; `obj` is the variable `target_obj_expr`. -/
def parseProperty (ctx : Ctx) (obj : Str) (p : Property) (n : Nat) : Except Exc (Code × Nat) := do
  let _ ← asAttribute p.name
  let (parsing, m) ← parseValue ctx p.ty (.temp c!"value" n) ⟨[v obj], []⟩ [v c!"ref"] (n + 1)
  pure (.use [v c!"value"] (.bind [.temp c!"value" n] (.use [t c!"value" n]
    (if !p.optional then .branch (.use [errors, v c!"ref"] .done) parsing .done
      else .branch parsing .done .done))), m)

/-- The parsing of the properties, each followed by `if errors.full(): return`. -/
def parseProps (ctx : Ctx) (obj : Str) : List Property → Nat → Except Exc Code
  | [], _ => .ok .done
  | p :: ps, n => do
    let (c, m) ← parseProperty ctx obj p n
    let rest ← parseProps ctx obj ps m
    pure (c ++ .use [errors] (leaveIf rest))

/-- `typing.Mapping[str, module.Composite]` -/
def mappingOf (py : Py) (name : Str) : Except Exc (List Name) := do
  pure [typing, b c!"str", .member py.moduleName (← asComposite name)]

def valueParam : Param := { var := .fixed c!"value", kind := .value }
def refParam : Param := { var := .fixed c!"ref", kind := .ref }
def errorsParam : Param := { var := .fixed c!"errors", kind := .errors }
def idParam : Param := { var := .fixed c!"id", kind := .id }

/-- The parameter for the registry of a referenced class. -/
def registryParamOf (g : Graph) (name : Str) : Except Exc Param := do
  pure { var := ← registryParam g name, kind := .registry name }

/-- `/repo/mapry/py/generate/fromjsonable.py:1456-1593` `_parse_composite`: the functions `_x_from` and `x_from`. -/
def parseComposite (g : Graph) (py : Py) (o : Owner) (name : Str) (isClass : Bool) : Except Exc (List Item) := do
  let refs ← referencesOf g o
  let params ← refs.mapM (registryParamOf g)
  let ctx : Ctx := ⟨g, py, fun c => if c ∈ refs then do pure [.var (← registryParam g c)] else .error .keyError⟩
  let props ← parseProps ctx c!"target" (ownerProps g o) 0
  let f ← asVariable name
  let composite ← asComposite name
  let types ← refs.mapM (mappingOf py)
  pure [
    .func
      { name := c!"_" ++ f ++ c!"_from"
        params := valueParam :: params ++ [refParam, { var := .fixed c!"target", kind := .target name }, errorsParam]
        sig := typing :: types.flatten ++ [b c!"str", .member py.moduleName composite, .member (parsePath py) c!"Errors"]
        body := .use [b c!"isinstance", v c!"value", b c!"dict"]
          (.branch (.use [errors, v c!"ref", b c!"type", v c!"value"] .leave) .done props) },
    .func
      { name := f ++ c!"_from"
        params := valueParam :: (if isClass then [idParam] else []) ++ params ++ [refParam, errorsParam]
        sig := typing :: types.flatten ++ [b c!"str", .member (parsePath py) c!"Errors", typing,
          .member py.moduleName composite]
        body := .use (if isClass then [v c!"id"] else [])
          (.call (.member (parsePath py) (c!"placeholder_" ++ f)) [] (if isClass then [(c!"id", .id)] else [])
          (.bind [.fixed c!"target"]
          (.use (v c!"value" :: params.map (fun p => .var p.var) ++ [v c!"ref", v c!"target", errors])
          (.call (.glob (c!"_" ++ f ++ c!"_from")) []
            ((c!"value", .value) :: params.map (fun p => (p.var.text, p.kind)) ++
              [(c!"ref", .ref), (c!"target", .target name), (c!"errors", .errors)])
          (.use [errors] (leaveIf (.use [v c!"target"] .leave))))))) }]

/-- The code to allocate the instances of a class (`/repo/mapry/py/generate/fromjsonable.py:1622-1670`). -/
def preallocate (py : Py) (c : Class) : Except Exc Code := do
  let _ ← jsonPlural c.plural
  let p ← asAttribute c.plural
  let f ← asVariable c.name
  let registry : Var := .own [] p c!"_registry"
  let alloc : Code := .use [v c!"id"] (.call (.member (parsePath py) (c!"placeholder_" ++ f)) [] [(c!"id", .id)]
    (.use [.var registry, v c!"id"] .done))
  pure (.use [v c!"value"] (.bind [.fixed c!"registry_value"] (.use [v c!"registry_value"]
    (.branch
      (.use [b c!"isinstance", v c!"registry_value", b c!"dict"]
        (.branch (report [v c!"ref"] [b c!"type", v c!"registry_value"])
          (.use [b c!"isinstance", v c!"registry_value", collections]
            (.branch (.use [collections, v c!"graph"] .done) (.use [b c!"dict", v c!"graph"] .done)
            (.use [v c!"graph"] (.bind [registry] (.use [v c!"registry_value"]
              (.loop [.fixed c!"id"] (match c.idPattern with
                | some _ => .use [re, v c!"id"] (.branch
                    (.use [errors, v c!"ref", v c!"id"] (.use [errors] (.branch .stop .done .done))) .done alloc)
                | none => alloc) .done))))))
          .done))
      .done (.use [errors] (leaveIf .done))))))

/-- The attribute of the graph which is the registry of the class. -/
def pluralAttribute (g : Graph) (name : Str) : Except Exc Str :=
  match g.cls? name with
  | some c => asAttribute c.plural
  | none => .error .keyError

/-- The code to parse the instances of a class (`/repo/mapry/py/generate/fromjsonable.py:1677-1702`). -/
def parseInstances (g : Graph) (c : Class) : Except Exc Code := do
  let _ ← asAttribute c.plural
  let f ← asVariable c.name
  let refs ← referencesOf g (.cls c.name)
  let _ ← refs.mapM (pluralAttribute g)
  let target : Var := .own c!"target_" f []
  pure (.use [v c!"value"] (.branch
    (.use [v c!"value"] (.bind [.fixed c!"registry_value"] (.use [v c!"registry_value"]
      (.loop [.fixed c!"id", .fixed c!"instance_value"]
        (.use [v c!"graph", v c!"id"] (.bind [target] (.use [v c!"id", .var target]
          (.use (v c!"instance_value" :: refs.map (fun _ => v c!"graph") ++
            [v c!"ref", b c!"repr", v c!"id", .var target, errors])
          (.call (.glob (c!"_" ++ f ++ c!"_from"))
            (.value :: refs.map .registry ++ [.ref, .target c.name, .errors]) []
          (.use [errors] (leaveIf .done))))))) .done)))) .done .done))

/-- `/repo/mapry/py/generate/fromjsonable.py:1600-1759` `_parse_graph` -/
def parseGraph (g : Graph) (py : Py) : Except Exc Item := do
  let ctx : Ctx := ⟨g, py, fun c => do
    let _ ← pluralAttribute g c
    pure [v c!"graph"]⟩
  let props ← parseProps ctx c!"graph" g.properties 0
  let f ← asVariable g.name
  let composite ← asComposite g.name
  let alloc ← g.classes.mapM (preallocate py)
  let insts ← g.classes.mapM (parseInstances g)
  pure (.func
    { name := f ++ c!"_from"
      params := [valueParam, refParam, errorsParam]
      sig := [typing, b c!"str", .member (parsePath py) c!"Errors", typing, .member py.moduleName composite]
      body := .use [errors] (leaveIf (.use [b c!"isinstance", v c!"value", b c!"dict"]
        (.branch (.use [errors, v c!"ref", b c!"type", v c!"value"] .leave) .done
        (.call (.member (parsePath py) (c!"placeholder_" ++ f)) [] [] (.bind [.fixed c!"graph"]
        (concat alloc ++ ((if g.classes.isEmpty then .done else .use [errors] (leaveIf .done)) ++ (concat insts ++ (props ++
          .use [errors] (leaveIf (.use [v c!"graph"] .leave)))))))))))})

/-- `/repo/mapry/py/generate/fromjsonable.py:1763-1790` `generate` -/
def fromModule (g : Graph) (py : Py) : Except Exc Module := do
  let imports ← fromImports g py
  let classes ← g.classes.mapM fun c => parseComposite g py (.cls c.name) c.name true
  let embeds ← g.embeds.mapM fun e => parseComposite g py (.embed e.name) e.name false
  let graph ← parseGraph g py
  pure ⟨py.moduleName ++ c!".fromjsonable", imports,
    (if needs g .duration then durationFromString else []) ++ classes.flatten ++ embeds.flatten ++ [graph]⟩

/-! ## The module `tojsonable` -/

/-- `/repo/mapry/py/generate/tojsonable.py:14-40` `_imports` -/
def toImports (g : Graph) (py : Py) : List (Origin × Str) :=
  [(.library, c!"collections"), (.library, c!"typing")] ++
  (if needs g .duration then [(.library, c!"datetime")] else []) ++
  (if needs g .cls || needs g .embed then [(.library, c!"collections")] else []) ++
  [(.package, py.moduleName)]

/-- `parts.append('...'.format(x))` -/
def appendPart (xs : List Name) (rest : Code) : Code := .use (v c!"parts" :: xs) rest

/-- `/repo/mapry/py/generate/tojsonable.py:46-129` `_duration_to_string` -/
def durationToString : List Item :=
  [.value c!"_ZERO_TIMEDELTA" [datetime],
   .func
    { name := c!"_duration_to_string"
      params := [{ var := .fixed c!"duration" }]
      sig := [datetime, b c!"str"]
      body := .bind [.fixed c!"parts"] (.use [v c!"duration"] (.bind [.fixed c!"absduration"]
        (.use [v c!"duration", .glob c!"_ZERO_TIMEDELTA"]
        (.branch (appendPart [] (.use [v c!"duration"] (.bind [.fixed c!"absduration"] .done))) .done
        (appendPart [] (.use [v c!"absduration"] (.branch (appendPart [v c!"absduration"] .done) .done
        (.use [v c!"absduration"] (.branch
          (appendPart [] (.use [v c!"absduration"] (.bind [.fixed c!"rest"] (.use [v c!"rest"] (.bind [.fixed c!"hours"]
            (.use [v c!"rest"] (.bind [.fixed c!"rest"] (.use [v c!"rest"] (.bind [.fixed c!"minutes"]
            (.use [v c!"rest"] (.bind [.fixed c!"seconds"]
            (.use [v c!"hours"] (.branch (appendPart [v c!"hours"] .done) .done
            (.use [v c!"minutes"] (.branch (appendPart [v c!"minutes"] .done) .done
            (.use [v c!"absduration"] (.branch
              (.use [v c!"absduration"] (.bind [.fixed c!"microseconds_str"]
                (appendPart [v c!"seconds", v c!"microseconds_str"] .done)))
              (.use [v c!"seconds"] (.branch (appendPart [v c!"seconds"] .done) .done .done)) .done)))))))))))))))))
          .done (.use [v c!"parts"] .leave)))))))))) }]

/-- `/repo/mapry/py/generate/tojsonable.py:363-425` `_serialization_expr`: the code which evaluates the expression of
the value with the names `value`, if there is one. -/
def serializationExpr (py : Py) (value : List Name) : Ty → Except Exc (Option Code)
  | .boolean => .ok (some (.use value .done))
  | .integer _ => .ok (some (.use value .done))
  | .float _ => .ok (some (.use value .done))
  | .string _ => .ok (some (.use value .done))
  | .path _ => do
    let names ← pathNames py
    pure (some (.use (if names = [pathlib] then b c!"str" :: value else value) .done))
  | .date _ => .ok (some (.use value .done))
  | .time _ => .ok (some (.use value .done))
  | .datetime _ => .ok (some (.use value .done))
  | .timeZone => do
    let names ← zoneNames py
    pure (some (.use (if names = [datetime] then b c!"str" :: value else value) .done))
  | .duration => .ok (some (.use value (.call (.glob c!"_duration_to_string") [.other] [] .done)))
  | .array .. => .ok none
  | .map _ => .ok none
  | .cls _ => .ok (some (.use value .done))
  | .embed name => do
    let f ← asVariable name
    pure (some (.use value (.call (.glob (c!"serialize_" ++ f)) [.target name] [] .done)))

/-- The types which are copied in an array (`/repo/mapry/py/generate/tojsonable.py:243-262`). -/
def directCopy (py : Py) : Ty → Bool
  | .boolean => true
  | .integer _ => true
  | .float _ => true
  | .string _ => true
  | .path _ => py.pathAs = c!"str"
  | .timeZone => py.timezoneAs = c!"str"
  | _ => false

/-- `/repo/mapry/py/generate/tojsonable.py:428-472` `_serialize_value` and the functions it calls: the code to write the
value (the names in its expression) to the target. The variable of a comprehension is taken as a variable of the
function. -/
def serializeValue (py : Py) : Ty → Target → (value : List Name) → Nat → Except Exc (Code × Nat)
  -- lines 204-291 `_serialize_array`
  | .array x _ _, tgt, value, n =>
    if directCopy py x then .ok (store tgt value, n + 1)
    else do
      match ← serializationExpr py [t c!"item" n] x with
      | some item =>
        pure (.use value (.loop [.temp c!"item" n] item (.bind [.temp c!"target" n] (store tgt [t c!"target" n]))), n + 1)
      | none =>
        let (item, m) ← serializeValue py x ⟨[], [.temp c!"target_item" n]⟩ [t c!"item" n] (n + 1)
        pure (.bind [.temp c!"target" n] (.use value (.loop [.temp c!"item" n]
          (item ++ .use [t c!"target" n, t c!"target_item" n] .done) (store tgt [t c!"target" n]))), m)
  -- lines 294-360 `_serialize_map`
  | .map x, tgt, value, n => do
    let (item, m) ← (do
      match ← serializationExpr py [t c!"value" n] x with
      | some item => pure (item ++ .use [t c!"target" n, t c!"key" n] .done, n + 1)
      | none =>
        let (item, m) ← serializeValue py x ⟨[], [.temp c!"target_value" n]⟩ [t c!"value" n] (n + 1)
        pure (item ++ .use [t c!"target" n, t c!"key" n, t c!"target_value" n] .done, m))
    pure (.use (b c!"isinstance" :: value ++ [collections])
      (.branch (.use [collections] (.bind [.temp c!"target" n] .done)) (.use [b c!"dict"] (.bind [.temp c!"target" n] .done))
      (.use value (.loop [.temp c!"key" n, .temp c!"value" n] item (store tgt [t c!"target" n])))), m)
  | x, tgt, value, n => do
    match ← serializationExpr py value x with
    | some e => pure (e ++ store tgt [], n)
    | none => .error (.notImplemented [])

/-- `/repo/mapry/py/generate/tojsonable.py:475-516` `_serialize_property` -/
def serializeProperty (py : Py) (p : Property) (n : Nat) : Except Exc (Code × Nat) := do
  let (c, m) ← serializeValue py p.ty ⟨[v c!"target"], []⟩ [v c!"instance"] n
  let _ ← asAttribute p.name
  pure (if p.optional then .use [v c!"instance"] (.branch c .done .done) else c, m)

def serializeProps (py : Py) : List Property → Nat → Except Exc Code
  | [], _ => .ok .done
  | p :: ps, n => do
    let (c, m) ← serializeProperty py p n
    let rest ← serializeProps py ps m
    pure (c ++ rest)

/-- `if ordered: x = collections.OrderedDict() else: x = dict()` -/
def newMapping (x : Var) (rest : Code) : Code :=
  .use [v c!"ordered"] (.branch (.use [collections] (.bind [x] .done)) (.use [b c!"dict"] (.bind [x] .done)) rest)

/-- The function `serialize_x` with the code between the creation of `target` and `return target`. -/
def serializer (py : Py) (f composite name : Str) (body : Code) : Item :=
  .func
    { name := c!"serialize_" ++ f
      params := [{ var := .fixed c!"instance", kind := .target name }, { var := .fixed c!"ordered", optional := true }]
      sig := [.member py.moduleName composite, b c!"bool", typing, b c!"str", typing]
      body := newMapping (.fixed c!"target") (body ++ .use [v c!"target"] .leave) }

/-- `/repo/mapry/py/generate/tojsonable.py:519-580` `_serialize_class_or_embed` -/
def serializeComposite (py : Py) (name : Str) (ps : List Property) : Except Exc Item := do
  let props ← serializeProps py ps 0
  let f ← asVariable name
  let composite ← asComposite name
  pure (serializer py f composite name props)

/-- The registry of a class (`/repo/mapry/py/generate/tojsonable.py:615-649`). -/
def serializeRegistry (c : Class) : Except Exc Code := do
  let _ ← asComposite c.name
  let p ← asVariable c.plural
  let f ← asVariable c.name
  let _ ← jsonPlural c.plural
  let target : Var := .own c!"target_" p []
  let inst : Var := .own [] f c!"_instance"
  pure (.use [b c!"len", v c!"instance"] (.branch
    (newMapping target (.use [v c!"instance"] (.loop [.fixed c!"id", inst]
      (.use [v c!"id", .var inst] (.branch (.use [b c!"ValueError", v c!"id", .var inst] .leave) .done
        (.use [.var inst, v c!"ordered"]
        (.call (.glob (c!"serialize_" ++ f)) [] [(c!"instance", .target c.name), (c!"ordered", .other)]
        (.use [.var target, v c!"id"] .done)))))
      (.use [v c!"target", .var target] .done)))) .done .done))

/-- `/repo/mapry/py/generate/tojsonable.py:583-682` `_serialize_graph` -/
def serializeGraph (g : Graph) (py : Py) : Except Exc Item := do
  let props ← serializeProps py g.properties 0
  let f ← asVariable g.name
  let composite ← asComposite g.name
  let registries ← g.classes.mapM serializeRegistry
  pure (serializer py f composite g.name (props ++ concat registries))

/-- `/repo/mapry/py/generate/tojsonable.py:685-715` `generate` -/
def toModule (g : Graph) (py : Py) : Except Exc Module := do
  let classes ← g.classes.mapM fun c => serializeComposite py c.name c.properties
  let embeds ← g.embeds.mapM fun e => serializeComposite py e.name e.properties
  let graph ← serializeGraph g py
  pure ⟨py.moduleName ++ c!".tojsonable", toImports g py,
    (if needs g .duration then durationToString else []) ++ classes ++ embeds ++ [graph]⟩

/-! ## The package -/

/-- `/repo/mapry/main.py:169-180`: the modules of the generated package. -/
def package (g : Graph) (py : Py) : Except Exc (List Module) := do
  let types ← typesModule g py
  let parse ← parseModule g py
  let from_ ← fromModule g py
  let to ← toModule g py
  pure [types, parse, from_, to]

end Mapry.PyCode
