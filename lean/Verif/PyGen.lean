import Verif.PyLang
import Verif.PyCode

/-!
# Model of the Python code as it is generated: statements

The generators in `mapry/py/generate` as functions from the schema to the statements of `Verif/PyLang.lean`. The
comments, the docstrings, the annotations and the imports are not part of a statement, nor is the layout of the text. A
literal is represented by the value it denotes (its text is the subject of `Verif/PyRepr.lean`). The names are the
texts of the generated code.
-/

namespace Mapry.PyGen

open Mapry.PyLang Mapry.TypeGraph Mapry.Naming Mapry.ParseSchema
open Mapry.GoCode (referencesOf)

abbrev v (x : Str) : Expr := .name x
/-- `{base}_{uid}` -/
def tmp (base : Str) (uid : Nat) : Str := (PyCode.Var.temp base uid).text
abbrev t (base : Str) (uid : Nat) : Expr := .name (tmp base uid)
abbrev errors : Expr := v c!"errors"

/-- Positional arguments -/
def args : List Expr → Args
  | [] => .nil
  | e :: es => .pos e (args es)

/-- Keyword arguments -/
def kwargs : List (Str × Expr) → Args
  | [] => .nil
  | (k, e) :: es => .kw k e (kwargs es)

/-- One statement after another. -/
def block : List Stmt → Stmt
  | [] => .pass
  | s :: ss => .seq s (block ss)

/-- `if c: s` -/
def when (c : Expr) (s : Stmt) : Stmt := .ite c s .pass

/-- `'/'.join((parts))` -/
def path (parts : List Expr) : Expr := .join (args parts)

/-- `errors.add(ref, message)` -/
def report (ref message : Expr) : Stmt := .expr (.addError errors ref message)

/-- `"...{}".format(e)` -/
def format (template : Str) (e : Expr) : Expr := .format template (args [e])

/-- `if not isinstance(value, C): errors.add(..., "Expected ..., but got: {}".format(type(value))) else: body` -/
def expect (value : Str) (c : Cls) (what : Str) (parts : List Expr) (body : Stmt) : Stmt :=
  .ite (.not (.isinstance (v value) c))
    (report (path parts) (format (c!"Expected " ++ what ++ c!", but got: {}") (.typeOf (v value)))) body

/-! ## The settings -/

/-- `py.path_as` (`/repo/mapry/py/generate/fromjsonable.py:528-535`, `/repo/mapry/py/generate/tojsonable.py:383-390`) -/
def pathlib (py : Py) : Except Exc Bool :=
  if py.pathAs = c!"str" then .ok false
  else if py.pathAs = c!"pathlib.Path" then .ok true
  else .error (.notImplemented [])

/-- `py.timezone_as` (`/repo/mapry/py/generate/fromjsonable.py:832-849`, `/repo/mapry/py/generate/tojsonable.py:396-403`) -/
def pytz (py : Py) : Except Exc Bool :=
  if py.timezoneAs = c!"str" then .ok false
  else if py.timezoneAs = c!"pytz.timezone" then .ok true
  else .error (.notImplemented [])

/-! ## The module of the types -/

/-- `self.x = x` or `self.x = x if x is not None else None` (`/repo/mapry/py/generate/types.py:136-144`) -/
def keep (p : Property) : Except Exc Stmt := do
  let x ← asAttribute p.name
  pure (.assign (.attr (v c!"self") x) (if p.optional then .cond (.isNotNone (v x)) (v x) .none else v x))

/-- The parameter for a property (`/repo/mapry/py/generate/types.py:117-124`) -/
def param (p : Property) : Except Exc Param := do
  let x ← asAttribute p.name
  pure ⟨x, if p.optional then some .none else none⟩

/-- `/repo/mapry/py/generate/types.py:106-145`, `196-226` `_define_class` -/
def defineClass (c : Class) : Except Exc ClassDef := do
  let name ← asComposite c.name
  let ps := Text.orderByOptional c.properties
  let params ← ps.mapM param
  let body ← ps.mapM keep
  pure ⟨name, some ⟨c!"__init__", ⟨c!"id", none⟩ :: params,
    block (.assign (.attr (v c!"self") c!"id") (v c!"id") :: body)⟩⟩

/-- `/repo/mapry/py/generate/types.py:147-193`, `229-264` `_define_embed` -/
def defineEmbed (e : Embed) : Except Exc ClassDef := do
  let name ← asComposite e.name
  if e.properties.length = 0 then pure ⟨name, none⟩
  else do
    let ps := Text.orderByOptional e.properties
    let params ← ps.mapM param
    let body ← ps.mapM keep
    pure ⟨name, some ⟨c!"__init__", params, block body⟩⟩

/-- `if x is not None: self.x = x else: self.x = collections.OrderedDict()` -/
def keepRegistry (c : Class) : Except Exc Stmt := do
  let x ← asAttribute c.plural
  pure (.ite (.isNotNone (v x)) (.assign (.attr (v c!"self") x) (v x))
    (.assign (.attr (v c!"self") x) (.newDict true)))

/-- `/repo/mapry/py/generate/types.py:359-366` -/
def registryArg (c : Class) : Except Exc Param := do
  let x ← asAttribute c.plural
  pure ⟨x, some .none⟩

/-- `/repo/mapry/py/generate/types.py:267-373` `_define_graph` -/
def defineGraph (g : Graph) : Except Exc ClassDef := do
  let name ← asComposite g.name
  if g.properties.length = 0 && g.classes.length = 0 then pure ⟨name, none⟩
  else do
    let ps := Text.orderByOptional g.properties
    let params ← ps.mapM param
    let registries ← g.classes.mapM registryArg
    let body ← ps.mapM keep
    let rest ← g.classes.mapM keepRegistry
    pure ⟨name, some ⟨c!"__init__", params ++ registries, block (body ++ rest)⟩⟩

/-- `/repo/mapry/py/generate/types.py:376-420` `generate` -/
def types (g : Graph) : Except Exc (List ClassDef) := do
  let classes ← g.classes.mapM defineClass
  let embeds ← g.embeds.mapM defineEmbed
  let graph ← defineGraph g
  pure (classes ++ embeds ++ [graph])

/-! ## The module `parse` -/

/-- `{{ prop.name|as_attribute }}=None` -/
def noneArg (p : Property) : Except Exc (Str × Expr) := do
  let x ← asAttribute p.name
  pure (x, .none)

/-- `/repo/mapry/py/generate/parse.py:84-128` `_class_placeholder_function` -/
def placeholderClass (c : Class) : Except Exc Func := do
  let f ← asVariable c.name
  let name ← asComposite c.name
  let nones ← (PyCode.required c.properties).mapM noneArg
  pure ⟨c!"placeholder_" ++ f, [⟨c!"id", none⟩], .ret (.call (.cls name) (kwargs ((c!"id", v c!"id") :: nones)))⟩

/-- `/repo/mapry/py/generate/parse.py:131-172` `_embed_placeholder_function` and `_graph_placeholder_function` -/
def placeholder (name : Str) (ps : List Property) : Except Exc Func := do
  let f ← asVariable name
  let composite ← asComposite name
  let nones ← (PyCode.required ps).mapM noneArg
  pure ⟨c!"placeholder_" ++ f, [], .ret (.call (.cls composite) (kwargs nones))⟩

/-- `/repo/mapry/py/generate/parse.py:220-243` `generate`. The classes `Error` and `Errors` are the ones of
`Verif/Errors.lean`. -/
def parse (g : Graph) : Except Exc (List Func) := do
  let embeds ← g.embeds.mapM fun e => placeholder e.name e.properties
  let classes ← g.classes.mapM placeholderClass
  let graph ← placeholder g.name g.properties
  pure (embeds ++ classes ++ [graph])

/-! ## The module `fromjsonable` -/

/-- The settings of the generator within a function. -/
structure Ctx where
  graph : Graph
  py : Py
  /-- `registry_exprs` -/
  registry : Str → Except Exc Expr

/-- `"Expected {op} {bound}, but got: {}".format(value)` if the condition does not hold -/
def bound (parts : List Expr) (value : Str) (op : Cmp) (sign : Str) (m : Int) (body : Stmt) : Stmt :=
  .ite (.not (.cmp op (v value) m))
    (report (path parts) (format (c!"Expected " ++ sign ++ c!" " ++ Duration.intStr m ++ c!", but got: {}") (v value))) body

/-- The check of the minimum -/
def minimum (parts : List Expr) (value : Str) (bd : Bounds) (m : Int) : Stmt → Stmt :=
  if bd.exMin then bound parts value .gt c!">" m else bound parts value .ge c!">=" m

/-- The check of the maximum -/
def maximum (parts : List Expr) (value : Str) (bd : Bounds) (m : Int) : Stmt → Stmt :=
  if bd.exMax then bound parts value .lt c!"<" m else bound parts value .le c!"<=" m

/-- The bounds of a number (`/repo/mapry/py/generate/fromjsonable.py:310-341`, `388-418`). The template tests the
undefined variable `get_cond_before`, so that the check of the maximum is a statement of its own and `else` belongs
to the last one. -/
def checkBounds (parts : List Expr) (value : Str) (bd : Bounds) (body : Stmt) : Stmt :=
  match bd.min, bd.max with
  | none, none => body
  | some m, none => minimum parts value bd m body
  | none, some m => maximum parts value bd m body
  | some m, some n => .seq (minimum parts value bd m .pass) (maximum parts value bd n body)

/-- The pattern of a text (`/repo/mapry/py/generate/fromjsonable.py:465-479`, `539-553`). -/
def checkPattern (parts : List Expr) (value : Str) (pattern : Option Str) (body : Stmt) : Stmt :=
  match pattern with
  | none => body
  | some p => .ite (.not (.reMatch p (v value)))
      (report (path parts) (format (c!"Expected to match " ++ p ++ c!", but got: {}") (v value))) body

/-- `/repo/mapry/py/generate/fromjsonable.py:586-759` `_parse_date`, `_parse_date_time` and `_parse_time` -/
def parseDateTime (value : Str) (tgt : Target) (parts : List Expr) (fmt : Str) (get : Expr → Expr) : Stmt :=
  expect value .str c!"a string" parts
    (.attempt (.assign tgt (get (.strptime (v value) fmt))) [.valueError] none
      (report (path parts) (format (c!"Expected to strptime " ++ fmt ++ c!", but got: {}") (v value))))

/-- `elif len(value) < minimum_size: ...` (`/repo/mapry/py/generate/fromjsonable.py:944-952`) -/
def minSize (parts : List Expr) (value : Str) (size : Option Int) (body : Stmt) : Stmt :=
  match size with
  | none => body
  | some m => .ite (.cmp .lt (.len (v value)) m)
      (report (path parts) (format (c!"Expected a list of minimum size " ++ Duration.intStr m ++ c!", but got size: {}")
        (.len (v value)))) body

/-- `elif len(value) > maximum_size: ...` (`/repo/mapry/py/generate/fromjsonable.py:953-961`) -/
def maxSize (parts : List Expr) (value : Str) (size : Option Int) (body : Stmt) : Stmt :=
  match size with
  | none => body
  | some m => .ite (.cmp .gt (.len (v value)) m)
      (report (path parts) (format (c!"Expected a list of maximum size " ++ Duration.intStr m ++ c!", but got size: {}")
        (.len (v value)))) body

/-- `if errors.full(): s` -/
def ifFull (s : Stmt) : Stmt := when (.isFull errors) s

/-- The body of the loop over the items (`/repo/mapry/py/generate/fromjsonable.py:919-935`) -/
def itemLoop (n : Nat) (item : Stmt) : Stmt :=
  block [
    .assign (.var (tmp c!"target_item" n)) .none,
    item,
    when (.isNotNone (t c!"target_item" n)) (.expr (.append (t c!"target" n) (t c!"target_item" n))),
    ifFull .brk]

/-- The body of the loop over the entries (`/repo/mapry/py/generate/fromjsonable.py:1036-1058`) -/
def entryLoop (parts : List Expr) (n : Nat) (item : Stmt) : Stmt :=
  block [
    when (.not (.isinstance (t c!"key" n) .str))
      (.seq (report (path parts) (format c!"Expected the key to be a str, but got: {}" (.typeOf (t c!"key" n))))
        (.ite (.isFull errors) .brk .cont)),
    .assign (.var (tmp c!"target_item" n)) .none,
    item,
    when (.isNotNone (t c!"target_item" n))
      (.assign (.item (t c!"target" n) (t c!"key" n)) (t c!"target_item" n)),
    ifFull .brk]

/-- `/repo/mapry/py/generate/fromjsonable.py:1104-1249` `_parse_value` and the functions it calls: the code to parse the
JSONable variable `value` into the target, where `parts` are the parts of the reference path. The number is the next
identifier of `AutoID`. The expression `value_expr` is a variable in every call, so that no further variable is bound
to it (`is_variable`). -/
def parseValue (ctx : Ctx) : Ty → (value : Str) → Target → (parts : List Expr) → Nat → Except Exc (Stmt × Nat)
  -- lines 248-290 `_parse_boolean`
  | .boolean, value, tgt, parts, n => .ok (expect value .bool c!"a bool" parts (.assign tgt (v value)), n + 1)
  -- lines 293-368 `_parse_integer`
  | .integer bd, value, tgt, parts, n =>
    .ok (expect value .int c!"an integer" parts (checkBounds parts value bd (.assign tgt (v value))), n + 1)
  -- lines 371-444 `_parse_float`
  | .float bd, value, tgt, parts, n =>
    .ok (expect value .number c!"a number" parts (checkBounds parts value bd (.assign tgt (.floatOf (v value)))), n + 1)
  -- lines 447-506 `_parse_string`
  | .string p, value, tgt, parts, n =>
    .ok (expect value .str c!"a string" parts (checkPattern parts value p (.assign tgt (v value))), n + 1)
  -- lines 509-583 `_parse_path`
  | .path p, value, tgt, parts, n => do
    let asPath ← pathlib ctx.py
    pure (expect value .str c!"a string" parts (checkPattern parts value p
      (.assign tgt (if asPath then .pathOf (v value) else v value))), n + 1)
  | .date f, value, tgt, parts, n => .ok (parseDateTime value tgt parts f .dateOf, n + 1)
  | .time f, value, tgt, parts, n => .ok (parseDateTime value tgt parts f .timeOf, n + 1)
  | .datetime f, value, tgt, parts, n => .ok (parseDateTime value tgt parts f id, n + 1)
  -- lines 762-849 `_parse_time_zone`
  | .timeZone, value, tgt, parts, n => do
    let asZone ← pytz ctx.py
    pure (expect value .str c!"a string" parts
      (if asZone then
        .attempt (.assign tgt (.timezone (v value))) [.unknownTimeZone] none
          (report (path parts) (format c!"Expected a valid IANA time zone, but got: {}" (v value)))
      else .assign tgt (v value)), n + 1)
  -- lines 852-904 `_parse_duration`
  | .duration, value, tgt, parts, n =>
    .ok (expect value .str c!"a string" parts
      (.attempt (.assign tgt (.durationFrom (v value))) [.valueError, .overflowError] (some c!"err")
        (report (path parts) (.strOf (v c!"err")))), n + 1)
  -- lines 907-1006 `_parse_array`
  | .array x lo hi, value, tgt, parts, n => do
    let (item, m) ← parseValue ctx x (tmp c!"item" n) (.var (tmp c!"target_item" n))
      (parts ++ [.strOf (t c!"i" n)]) (n + 1)
    PyCode.typeRepr ctx.py x
    pure (expect value .list c!"a list" parts (minSize parts value lo (maxSize parts value hi (block [
      .assign (.var (tmp c!"target" n)) .newList,
      .forEnum (tmp c!"i" n) (tmp c!"item" n) (v value) (itemLoop n item),
      .assign tgt (t c!"target" n)]))), m)
  -- lines 1011-1092 `_parse_map`
  | .map x, value, tgt, parts, n => do
    let (item, m) ← parseValue ctx x (tmp c!"value" n) (.var (tmp c!"target_item" n))
      (parts ++ [.reprOf (t c!"key" n)]) (n + 1)
    PyCode.typeRepr ctx.py x
    pure (expect value .dict c!"a dict" parts (block [
      .ite (.isinstance (v value) .orderedDict) (.assign (.var (tmp c!"target" n)) (.newDict true))
        (.assign (.var (tmp c!"target" n)) (.newDict false)),
      .forItems (tmp c!"key" n) (tmp c!"value" n) (v value) (entryLoop parts n item),
      when (.isNotNone (t c!"target" n)) (.assign tgt (t c!"target" n))]), m)
  -- lines 1331-1390 `_parse_instance_reference`
  | .cls c, value, tgt, parts, n => do
    let registry ← ctx.registry c
    pure (expect value .str c!"a str" parts (block [
      .assign (.var (tmp c!"target" n)) (.get registry (v value)),
      .ite (.isNone (t c!"target" n))
        (report (path parts) (format (c!"Reference to an instance of class " ++ c ++ c!" not found: {}") (v value)))
        (.assign tgt (t c!"target" n))]), n + 1)
  -- lines 1393-1453 `_parse_embed`
  | .embed name, value, tgt, parts, n => do
    let refs ← referencesOf ctx.graph (.embed name)
    let registries ← refs.mapM ctx.registry
    let f ← asVariable name
    pure (block [
      .assign (.var (tmp c!"target" n)) (.call (.parse (c!"placeholder_" ++ f)) .nil),
      .expr (.call (.own (c!"_" ++ f ++ c!"_from"))
        (args (v value :: registries ++ [path parts, t c!"target" n, errors]))),
      .assign tgt (t c!"target" n)], n + 1)

/-- `/repo/mapry/py/generate/fromjsonable.py:1252-1328` `_parse_property` with `value_obj_expr="value"` and
`ref_obj_parts=["ref"]`; `obj` is the variable `target_obj_expr`. -/
def parseProperty (ctx : Ctx) (obj : Str) (p : Property) (n : Nat) : Except Exc (Stmt × Nat) := do
  let a ← asAttribute p.name
  let (parsing, m) ← parseValue ctx p.ty (tmp c!"value" n) (.attr (v obj) a) [v c!"ref", .str p.json] (n + 1)
  pure (.seq (.assign (.var (tmp c!"value" n)) (.get (v c!"value") (.str p.json)))
    (if !p.optional then .ite (.isNone (t c!"value" n))
        (report (v c!"ref") (.str (c!"Property is missing: " ++ p.json))) parsing
      else when (.isNotNone (t c!"value" n)) parsing), m)

/-- The parsing of the properties, each followed by `if errors.full(): return`. -/
def parseProps (ctx : Ctx) (obj : Str) : List Property → Nat → Except Exc Stmt
  | [], _ => .ok .pass
  | p :: ps, n => do
    let (c, m) ← parseProperty ctx obj p n
    let rest ← parseProps ctx obj ps m
    pure (.seq c (.seq (ifFull (.ret .none)) rest))

/-- `{}_registry` with `cls.plural|as_variable` -/
def registryParam (g : Graph) (name : Str) : Except Exc Str :=
  match g.cls? name with
  | some c => do
    let x ← asVariable c.plural
    pure (x ++ c!"_registry")
  | none => .error .keyError

/-- `if not isinstance(value, dict): errors.add(ref, ...); return` -/
def unlessDict : Stmt :=
  when (.not (.isinstance (v c!"value") .dict))
    (.seq (report (v c!"ref") (format c!"Expected a dictionary, but got: {}" (.typeOf (v c!"value")))) (.ret .none))

/-- `/repo/mapry/py/generate/fromjsonable.py:1456-1593` `_parse_composite`: the functions `_x_from` and `x_from`. -/
def parseComposite (g : Graph) (py : Py) (o : Owner) (name : Str) (isClass : Bool) : Except Exc (List Func) := do
  let refs ← referencesOf g o
  let params ← refs.mapM (registryParam g)
  let ctx : Ctx := ⟨g, py, fun c => if c ∈ refs then do
    let x ← registryParam g c
    pure (v x) else .error .keyError⟩
  let props ← parseProps ctx c!"target" (ownerProps g o) 0
  let f ← asVariable name
  pure [
    ⟨c!"_" ++ f ++ c!"_from",
      ([c!"value"] ++ params ++ [c!"ref", c!"target", c!"errors"]).map (⟨·, none⟩),
      .seq unlessDict props⟩,
    ⟨f ++ c!"_from",
      ([c!"value"] ++ (if isClass then [c!"id"] else []) ++ params ++ [c!"ref", c!"errors"]).map (⟨·, none⟩),
      block [
        .assign (.var c!"target") (.call (.parse (c!"placeholder_" ++ f))
          (kwargs (if isClass then [(c!"id", v c!"id")] else []))),
        .expr (.call (.own (c!"_" ++ f ++ c!"_from"))
          (kwargs (([c!"value"] ++ params ++ [c!"ref", c!"target", c!"errors"]).map fun x => (x, v x)))),
        when (.not (.isEmpty errors)) (.ret .none),
        .ret (v c!"target")]⟩]

/-- `graph.{}` with `cls.plural|as_attribute` -/
def registryAttr (g : Graph) (name : Str) : Except Exc Expr :=
  match g.cls? name with
  | some c => do
    let x ← asAttribute c.plural
    pure (.attr (v c!"graph") x)
  | none => .error .keyError

/-- The loop which allocates the instances (`/repo/mapry/py/generate/fromjsonable.py:1645-1666`) -/
def allocLoop (c : Class) (key registry f : Str) : Stmt :=
  let alloc : Stmt := .assign (.item (v registry) (v c!"id"))
    (.call (.parse (c!"placeholder_" ++ f)) (kwargs [(c!"id", v c!"id")]))
  .forIn c!"id" (v c!"registry_value") (match c.idPattern with
    | some p => .seq
        (when (.not (.reMatch p (v c!"id"))) (.seq
          (report (path [v c!"ref", .str key])
            (.plus (.str (c!"Expected ID to match " ++ p ++ c!", but got: ")) (v c!"id")))
          (ifFull .brk))) alloc
    | none => alloc)

/-- The code to allocate the instances of a class (`/repo/mapry/py/generate/fromjsonable.py:1622-1670`). -/
def preallocate (c : Class) : Except Exc Stmt := do
  let key ← jsonPlural c.plural
  let p ← asAttribute c.plural
  let f ← asVariable c.name
  let registry := p ++ c!"_registry"
  pure (block [
    .assign (.var c!"registry_value") (.get (v c!"value") (.str key)),
    when (.isNotNone (v c!"registry_value"))
      (.ite (.not (.isinstance (v c!"registry_value") .dict))
        (report (path [v c!"ref", .str key])
          (format c!"Expected a dictionary, but got: {}" (.typeOf (v c!"registry_value"))))
        (block [
          .ite (.isinstance (v c!"registry_value") .orderedDict)
            (.assign (.attr (v c!"graph") p) (.newDict true))
            (.assign (.attr (v c!"graph") p) (.newDict false)),
          .assign (.var registry) (.attr (v c!"graph") p),
          allocLoop c key registry f])),
    ifFull (.ret .none)])

/-- The code to parse the instances of a class (`/repo/mapry/py/generate/fromjsonable.py:1677-1702`). -/
def parseInstances (g : Graph) (c : Class) : Except Exc Stmt := do
  let key ← jsonPlural c.plural
  let p ← asAttribute c.plural
  let f ← asVariable c.name
  let refs ← referencesOf g (.cls c.name)
  let registries ← refs.mapM (registryAttr g)
  let target := c!"target_" ++ f
  pure (when (.isIn (.str key) (v c!"value")) (.seq
    (.assign (.var c!"registry_value") (.index (v c!"value") (.str key)))
    (.forItems c!"id" c!"instance_value" (v c!"registry_value") (block [
      .assign (.var target) (.index (.attr (v c!"graph") p) (v c!"id")),
      .assign (.attr (v target) c!"id") (v c!"id"),
      .expr (.call (.own (c!"_" ++ f ++ c!"_from"))
        (args (v c!"instance_value" :: registries ++
          [path [v c!"ref", .str key, .reprOf (v c!"id")], v target, errors]))),
      ifFull (.ret .none)]))))

/-- `/repo/mapry/py/generate/fromjsonable.py:1600-1759` `_parse_graph` -/
def parseGraph (g : Graph) (py : Py) : Except Exc Func := do
  let props ← parseProps ⟨g, py, registryAttr g⟩ c!"graph" g.properties 0
  let f ← asVariable g.name
  let allocs ← g.classes.mapM preallocate
  let insts ← g.classes.mapM (parseInstances g)
  pure ⟨f ++ c!"_from", [c!"value", c!"ref", c!"errors"].map (⟨·, none⟩),
    block [
      ifFull (.ret .none),
      unlessDict,
      .assign (.var c!"graph") (.call (.parse (c!"placeholder_" ++ f)) .nil),
      block allocs,
      if g.classes.isEmpty then .pass else when (.not (.isEmpty errors)) (.ret .none),
      block insts,
      props,
      when (.not (.isEmpty errors)) (.ret .none),
      .ret (v c!"graph")]⟩

/-- `/repo/mapry/py/generate/fromjsonable.py:1763-1790` `generate`. The function `_duration_from_string` is the expression
`durationFrom`. -/
def fromJsonable (g : Graph) (py : Py) : Except Exc (List Func) := do
  let classes ← g.classes.mapM fun c => parseComposite g py (.cls c.name) c.name true
  let embeds ← g.embeds.mapM fun e => parseComposite g py (.embed e.name) e.name false
  let graph ← parseGraph g py
  pure (classes.flatten ++ embeds.flatten ++ [graph])

/-! ## The module `tojsonable` -/

/-- `/repo/mapry/py/generate/tojsonable.py:363-425` `_serialization_expr` -/
def serializationExpr (py : Py) (value : Expr) : Ty → Except Exc (Option Expr)
  | .boolean => .ok (some value)
  | .integer _ => .ok (some value)
  | .float _ => .ok (some value)
  | .string _ => .ok (some value)
  | .path _ => do
    let asPath ← pathlib py
    pure (some (if asPath then .strOf value else value))
  | .date f => .ok (some (.strftime value f))
  | .time f => .ok (some (.strftime value f))
  | .datetime f => .ok (some (.strftime value f))
  | .timeZone => do
    let asZone ← pytz py
    pure (some (if asZone then .strOf value else value))
  | .duration => .ok (some (.durationTo value))
  | .array .. => .ok none
  | .map _ => .ok none
  | .cls _ => .ok (some (.attr value c!"id"))
  | .embed name => do
    let f ← asVariable name
    pure (some (.call (.own (c!"serialize_" ++ f)) (args [value])))

/-- `/repo/mapry/py/generate/tojsonable.py:428-472` `_serialize_value` and the functions it calls: the code to write the
value of the expression to the target. -/
def serializeValue (py : Py) : Ty → Target → (value : Expr) → Nat → Except Exc (Stmt × Nat)
  -- lines 204-291 `_serialize_array`
  | .array x _ _, tgt, value, n =>
    if PyCode.directCopy py x then .ok (.assign tgt (.copy value), n + 1)
    else do
      match ← serializationExpr py (t c!"item" n) x with
      | some item =>
        pure (.seq (.assign (.var (tmp c!"target" n)) (.comp item (tmp c!"item" n) value))
          (.assign tgt (t c!"target" n)), n + 1)
      | none =>
        let (item, m) ← serializeValue py x (.var (tmp c!"target_item" n)) (t c!"item" n) (n + 1)
        pure (block [
          .assign (.var (tmp c!"target" n)) .newList,
          .forIn (tmp c!"item" n) value
            (.seq item (.expr (.append (t c!"target" n) (t c!"target_item" n)))),
          .assign tgt (t c!"target" n)], m)
  -- lines 294-360 `_serialize_map`
  | .map x, tgt, value, n => do
    let (item, m) ← (do
      match ← serializationExpr py (t c!"value" n) x with
      | some item => pure (.assign (.item (t c!"target" n) (t c!"key" n)) item, n + 1)
      | none =>
        let (item, m) ← serializeValue py x (.var (tmp c!"target_value" n)) (t c!"value" n) (n + 1)
        pure (.seq item (.assign (.item (t c!"target" n) (t c!"key" n)) (t c!"target_value" n)), m))
    pure (block [
      .ite (.isinstance value .orderedDict) (.assign (.var (tmp c!"target" n)) (.newDict true))
        (.assign (.var (tmp c!"target" n)) (.newDict false)),
      .forItems (tmp c!"key" n) (tmp c!"value" n) value item,
      .assign tgt (t c!"target" n)], m)
  | x, tgt, value, n => do
    match ← serializationExpr py value x with
    | some e => pure (.assign tgt e, n)
    | none => .error (.notImplemented [])

/-- `/repo/mapry/py/generate/tojsonable.py:475-516` `_serialize_property`; `field` is the attribute which is read. -/
def serializeProperty (py : Py) (field : Str) (p : Property) (n : Nat) : Except Exc (Stmt × Nat) := do
  let value : Expr := .attr (v c!"instance") field
  let (c, m) ← serializeValue py p.ty (.item (v c!"target") (.str p.json)) value n
  let _ ← asAttribute p.name
  pure (if p.optional then when (.isNotNone value) c else c, m)

/-- The properties one after another; `field` is the attribute which is read for the property. -/
def serializeProps (py : Py) (field : Property → Except Exc Str) : List Property → Nat → Except Exc Stmt
  | [], _ => .ok .pass
  | p :: ps, n => do
    let x ← field p
    let (c, m) ← serializeProperty py x p n
    let rest ← serializeProps py field ps m
    pure (.seq c rest)

/-- `if ordered: x = collections.OrderedDict() else: x = dict()` -/
def newMapping (x : Str) : Stmt :=
  .ite (v c!"ordered") (.assign (.var x) (.newDict true)) (.assign (.var x) (.newDict false))

/-- The function `serialize_x` with the code between the creation of `target` and `return target`. -/
def serializer (f : Str) (body : Stmt) : Func :=
  ⟨c!"serialize_" ++ f, [⟨c!"instance", none⟩, ⟨c!"ordered", some (.bool false)⟩],
    block [newMapping c!"target", body, .ret (v c!"target")]⟩

/-- `/repo/mapry/py/generate/tojsonable.py:519-580` `_serialize_class_or_embed`. The attribute which is read is the name
of the property *as written in the schema* (line 569). -/
def serializeComposite (py : Py) (name : Str) (ps : List Property) : Except Exc Func := do
  let props ← serializeProps py (fun p => .ok p.name) ps 0
  let f ← asVariable name
  pure (serializer f props)

/-- The registry of a class (`/repo/mapry/py/generate/tojsonable.py:615-649`). -/
def serializeRegistry (c : Class) : Except Exc Stmt := do
  let composite ← asComposite c.name
  let p ← asVariable c.plural
  let a ← asAttribute c.plural
  let f ← asVariable c.name
  let key ← jsonPlural c.plural
  let target := c!"target_" ++ p
  let inst := f ++ c!"_instance"
  pure (when (.cmp .gt (.len (.attr (v c!"instance") p)) 0) (block [
    newMapping target,
    .forItems c!"id" inst (.attr (v c!"instance") a) (.seq
      (when (.ne (v c!"id") (.attr (v inst) c!"id"))
        (.raiseValue (.format (c!"Expected ID {!r} of the instance of " ++ composite ++ c!", but got: {!r}")
          (args [v c!"id", .attr (v inst) c!"id"]))))
      (.assign (.item (v target) (v c!"id")) (.call (.own (c!"serialize_" ++ f))
        (kwargs [(c!"instance", v inst), (c!"ordered", v c!"ordered")])))),
    .assign (.item (v c!"target") (.str key)) (v target)]))

/-- `/repo/mapry/py/generate/tojsonable.py:583-682` `_serialize_graph` -/
def serializeGraph (g : Graph) (py : Py) : Except Exc Func := do
  let props ← serializeProps py (fun p => asAttribute p.name) g.properties 0
  let f ← asVariable g.name
  let registries ← g.classes.mapM serializeRegistry
  pure (serializer f (.seq props (block registries)))

/-- `/repo/mapry/py/generate/tojsonable.py:685-715` `generate`. The function `_duration_to_string` is the expression
`durationTo`. -/
def toJsonable (g : Graph) (py : Py) : Except Exc (List Func) := do
  let classes ← g.classes.mapM fun c => serializeComposite py c.name c.properties
  let embeds ← g.embeds.mapM fun e => serializeComposite py e.name e.properties
  let graph ← serializeGraph g py
  pure (classes ++ embeds ++ [graph])

/-- The package when the module `fromjsonable` runs. -/
def parser (g : Graph) (py : Py) : Except Exc Program := do
  let types ← types g
  let parse ← parse g
  let own ← fromJsonable g py
  pure ⟨types, parse, own⟩

/-- The package when the module `tojsonable` runs. -/
def writer (g : Graph) (py : Py) : Except Exc Program := do
  let types ← types g
  let own ← toJsonable g py
  pure ⟨types, [], own⟩

end Mapry.PyGen
