import Verif.GoScope
import Verif.TypeGraph
import Verif.Naming
import Verif.Strftime

/-!
# Model of the Go code as it is generated: names and blocks

The generators in `mapry/go/generate` are modelled up to the names which the generated code declares and uses and
the blocks in which it does so. This is what decides whether the Go compiler accepts the names: every name has to be
declared, a variable or an import has to be used, and a variable may be declared once in a block. The values which
are computed are the subject of `Verif/GoRuntime.lean`. Not recorded are the names which Go itself declares (`len`,
`make`, `string`, ...), the fields of structures and the methods.
-/

namespace Mapry.GoCode

open Mapry.TypeGraph Mapry.Naming

/-! ## Names -/

def v (base : Str) : Name := .var base none
def vi (base : Str) (uid : Nat) : Name := .var base (some uid)
def own (before name after : Str) : Name := .own before name after
def fmt : Name := .pkg c!"fmt"
def strings : Name := .pkg c!"strings"
def strconv : Name := .pkg c!"strconv"
def math : Name := .pkg c!"math"
def regexp : Name := .pkg c!"regexp"
def time : Name := .pkg c!"time"
def errors : Name := v c!"errors"

/-- `/repo/mapry/go/generate/__init__.py:32-86` `type_repr`: the names in the representation of a type. -/
def typeNames : Ty → Except Exc (List Name)
  | .boolean => .ok []
  | .integer _ => .ok []
  | .float _ => .ok []
  | .string _ => .ok []
  | .path _ => .ok []
  | .date _ => .ok [time]
  | .time _ => .ok [time]
  | .datetime _ => .ok [time]
  | .timeZone => .ok [time]
  | .duration => .ok [time]
  | .array t _ _ => typeNames t
  | .map t => typeNames t
  | .cls n => do pure [.glob (← ucamelCase n)]
  | .embed n => do pure [.glob (← ucamelCase n)]

/-- `/repo/mapry/go/generate/__init__.py:215-237` `is_pointer_type` -/
def isPointer : Ty → Bool
  | .timeZone | .array .. | .map _ | .cls _ => true
  | _ => false

/-! ## The patterns -/

/-- `d[key] = value` -/
def putUid (m : List (Str × Nat)) (key : Str) (value : Nat) : List (Str × Nat) :=
  if m.any (fun e => e.1 == key) then m.map (fun e => if e.1 == key then (key, value) else e) else m ++ [(key, value)]

/-- `/repo/mapry/go/generate/fromjsonable.py:325-353` `_enumerate_type_patterns_recursively`. A compiled pattern is
its text (two compilations of a text are equal as keys of a dictionary); it is always true as a condition. -/
def enumerateTy : Ty → List (Str × Nat) × Nat → List (Str × Nat) × Nat
  | .string (some p), (m, n) => (putUid m p n, n + 1)
  | .path (some p), (m, n) => (putUid m p n, n + 1)
  | .array t _ _, s => enumerateTy t s
  | .map t, s => enumerateTy t s
  | _, s => s

/-- The loop over the properties of a composite. -/
def enumerateProps (ps : List Property) (s : List (Str × Nat) × Nat) : List (Str × Nat) × Nat :=
  ps.foldl (fun s p => enumerateTy p.ty s) s

/-- The first loop of `/repo/mapry/go/generate/fromjsonable.py:356-389`. -/
def enumerateIds (cs : List Class) (s : List (Str × Nat) × Nat) : List (Str × Nat) × Nat :=
  cs.foldl (fun s c => match c.idPattern with
    | some p => (putUid s.1 p s.2, s.2 + 1)
    | none => s) s

/-- `/repo/mapry/go/generate/fromjsonable.py:356-389` `_enumerate_patterns` -/
def enumeratePatterns (g : Graph) : List (Str × Nat) :=
  (enumerateProps g.properties
    (g.embeds.foldl (fun s e => enumerateProps e.properties s)
      (g.classes.foldl (fun s c => enumerateProps c.properties s) (enumerateIds g.classes ([], 0))))).1

/-- `pattern{{ pattern_uids[pattern] }}`; a key which is missing renders as the empty text. -/
def patternName (uids : List (Str × Nat)) (p : Str) : Name :=
  match uids.lookup p with
  | some n => .pattern n
  | none => .glob c!"pattern"

/-! ## Parsing -/

/-- Where the code stores a value: the names used and the variables assigned by `target_expr = ...`, and the names
used in `&(target_expr)`. -/
structure Target where
  uses : List Name
  sets : List Name
  addr : List Name

/-- `target_expr = x` -/
def store (tgt : Target) (x : Name) : Code := .use (tgt.uses ++ [x]) (.assign tgt.sets .done)

/-- `errors.Add(strings.Join([]string{ref_parts}, "/"), fmt.Sprintf(..., args))` in a block of its own. -/
def report (ref args : List Name) (rest : Code) : Code :=
  .block (.use (errors :: strings :: ref ++ fmt :: args) .done) rest

/-- `cast{uid}, ok{uid} := value.(T)`, followed by the report unless `ok{uid}`. -/
def castTo (cast : Name) (n : Nat) (value ref : List Name) (rest : Code) : Code :=
  .use value (.decl [cast, vi c!"ok" n] (.use [vi c!"ok" n] (report ref value rest)))

/-- `else { body }`, the last branch. -/
def otherwise (body : Code) : Code := .block body .done

/-- The settings of the generator within a function. -/
structure Ctx where
  graph : Graph
  uids : List (Str × Nat)
  /-- `registry_exprs`: the names in the expression of the registry of a class -/
  registry : Str → Except Exc (List Name)

/-- `registry_exprs[reference] for reference in mapry.references(a_type)` -/
def embedRegistries (ctx : Ctx) (name : Str) : Except Exc (List Name) :=
  match references? ctx.graph (.embed name) with
  | some refs => do pure (← refs.mapM ctx.registry).flatten
  | none => .error .recursionError

/-- `if !(cast op bound) { ... }` -/
def checkBound (ref : List Name) (bound : Option Int) (cast : Name) (rest : Code) : Code :=
  match bound with
  | some _ => .use [cast] (report ref [cast] rest)
  | none => rest

/-- The text after the cast of a number which has the bounds `b` (lines 517-550 and 600-636). -/
def checkBounds (ref : List Name) (b : Bounds) (cast : Name) (tgt : Target) : Code :=
  checkBound ref b.min cast (checkBound ref b.max cast (otherwise (store tgt cast)))

/-- `"... %f ..."|format(..., bound)` (`/repo/mapry/go/generate/fromjsonable.py:611`, `:627`): an integer which rounds to a
float beyond the largest one raises an `OverflowError`. -/
def formatFloat : Option Int → Except Exc Unit
  | none => .ok ()
  | some b => if b.natAbs < 2 ^ 1024 - 2 ^ 970 then .ok () else .error .overflowError

/-- `/repo/mapry/go/generate/fromjsonable.py:666-732` `_parse_string` -/
def parseText (ctx : Ctx) (p : Option Str) (value : List Name) (tgt : Target) (ref : List Name) (n : Nat) : Code :=
  castTo (vi c!"cast" n) n value ref (otherwise (match p with
    | none => store tgt (vi c!"cast" n)
    | some p => .use [patternName ctx.uids p, vi c!"cast" n] (report ref [vi c!"cast" n]
        (otherwise (store tgt (vi c!"cast" n))))))

/-- `target{uid}, err{uid} := f(cast{uid})`, the report with the names `args` and the assignment. -/
def convertWith (f : Name) (args : List Name) (value : List Name) (tgt : Target) (ref : List Name) (n : Nat) : Code :=
  castTo (vi c!"cast" n) n value ref (otherwise (.use [f, vi c!"cast" n]
    (.decl [vi c!"target" n, vi c!"err" n] (.use [vi c!"err" n] (report ref (vi c!"cast" n :: args)
      (otherwise (store tgt (vi c!"target" n))))))))

/-- `/repo/mapry/go/generate/fromjsonable.py:735-799` `_parse_date_time` -/
def parseDateTime (f : Str) (value : List Name) (tgt : Target) (ref : List Name) (n : Nat) :
    Except Exc (Code × Nat) := do
  let _ ← Strftime.convert f
  pure (convertWith time [] value tgt ref n, n + 1)

/-- The loop over the items in `x`, with the variable `i`, and the assignment. -/
def parseItems (names : List Name) (x i : Name) (item : Code) (tgt : Target) (n : Nat) : Code :=
  .use names (.decl [vi c!"target" n] (.use [x]
    (.block (.decl [i] (.block (item ++ .use [errors] (.block .done .done)) .done))
    (store tgt (vi c!"target" n)))))

/-- `/repo/mapry/go/generate/fromjsonable.py:1131-1253` `_parse_value` and the functions it calls: the code to parse
the JSONable `value` (the names in its expression) into the target, where `ref` are the names in the parts of the
reference path. The number is the next identifier of `AutoID`. -/
def parseValue (ctx : Ctx) : Ty → (value : List Name) → Target → (ref : List Name) → Nat → Except Exc (Code × Nat)
  -- lines 423-467 `_parse_boolean`
  | .boolean, value, tgt, ref, n => .ok
    (castTo (vi c!"cast" n) n value ref (otherwise (store tgt (vi c!"cast" n))), n + 1)
  -- lines 470-577 `_parse_integer`
  | .integer b, value, tgt, ref, n => .ok
    (castTo (vi c!"fcast" n) n value ref (.use [vi c!"fcast" n, math, vi c!"fcast" n] (report ref [vi c!"fcast" n]
      (.use [vi c!"fcast" n, vi c!"fcast" n] (report ref [vi c!"fcast" n]
      (otherwise (if b.min.isNone && b.max.isNone then store tgt (vi c!"fcast" n)
        else .use [vi c!"fcast" n] (.decl [vi c!"cast" n] (checkBounds ref b (vi c!"cast" n) tgt)))))))), n + 1)
  -- lines 580-663 `_parse_float`
  | .float b, value, tgt, ref, n => do
    let _ ← formatFloat b.min
    let _ ← formatFloat b.max
    pure (castTo (vi c!"cast" n) n value ref
      (otherwise (if b.min.isNone && b.max.isNone then store tgt (vi c!"cast" n)
        else checkBounds ref b (vi c!"cast" n) tgt)), n + 1)
  | .string p, value, tgt, ref, n => .ok (parseText ctx p value tgt ref n, n + 1)
  | .path p, value, tgt, ref, n => .ok (parseText ctx p value tgt ref n, n + 1)
  | .date f, value, tgt, ref, n => parseDateTime f value tgt ref n
  | .time f, value, tgt, ref, n => parseDateTime f value tgt ref n
  | .datetime f, value, tgt, ref, n => parseDateTime f value tgt ref n
  -- lines 802-860 `_parse_time_zone`
  | .timeZone, value, tgt, ref, n => .ok (convertWith time [vi c!"err" n] value tgt ref n, n + 1)
  -- lines 863-920 `_parse_duration`
  | .duration, value, tgt, ref, n => .ok
    (convertWith (.glob c!"durationFromString") [vi c!"err" n] value tgt ref n, n + 1)
  -- lines 923-1026 `_parse_array`
  | .array t lo hi, value, tgt, ref, n => do
    let (item, m) ← parseValue ctx t [vi c!"cast" n, vi c!"i" n]
      ⟨[vi c!"target" n, vi c!"i" n], [], [vi c!"target" n, vi c!"i" n]⟩ (ref ++ [strconv, vi c!"i" n]) (n + 1)
    let names ← typeNames t
    pure (castTo (vi c!"cast" n) n value ref
      (checkBound ref lo (vi c!"cast" n) (checkBound ref hi (vi c!"cast" n)
      (otherwise (parseItems (names ++ [vi c!"cast" n]) (vi c!"cast" n) (vi c!"i" n) item tgt n)))), m)
  -- lines 1029-1128 `_parse_map`
  | .map (.embed e), value, tgt, ref, n => do
    let (item, m) ← parseValue ctx (.embed e) [vi c!"cast" n, vi c!"k" n] ⟨[], [vi c!"item" n], [vi c!"item" n]⟩
      (ref ++ [vi c!"k" n]) (n + 1)
    let names ← typeNames (.embed e)
    let item := .use names (.decl [vi c!"item" n] (item ++ .use [vi c!"target" n, vi c!"k" n, vi c!"item" n] .done))
    pure (castTo (vi c!"cast" n) n value ref
      (otherwise (parseItems names (vi c!"cast" n) (vi c!"k" n) item tgt n)), m)
  | .map t, value, tgt, ref, n => do
    let (item, m) ← parseValue ctx t [vi c!"cast" n, vi c!"k" n]
      ⟨[vi c!"target" n, vi c!"k" n], [], [vi c!"target" n, vi c!"k" n]⟩ (ref ++ [vi c!"k" n]) (n + 1)
    let names ← typeNames t
    pure (castTo (vi c!"cast" n) n value ref
      (otherwise (parseItems names (vi c!"cast" n) (vi c!"k" n) item tgt n)), m)
  -- lines 1384-1446 `_parse_instance_reference`; the inner `ok` shadows the outer one
  | .cls c, value, tgt, ref, n => do
    let registry ← ctx.registry c
    let _ ← ucamelCase c
    pure (castTo (vi c!"cast" n) n value ref (otherwise (.use (registry ++ [vi c!"cast" n])
      (.decl [vi c!"target" n, vi c!"ok" n] (.use [vi c!"ok" n] (report ref value
        (otherwise (store tgt (vi c!"target" n)))))))), n + 1)
  -- lines 1449-1499 `_parse_embed`
  | .embed name, value, tgt, ref, n => do
    let registries ← embedRegistries ctx name
    let f ← ucamelCase name
    pure (.use (.glob (f ++ c!"FromJSONable") :: value ++ registries ++ strings :: ref ++ tgt.addr ++ [errors]) .done,
      n + 1)

/-- `/repo/mapry/go/generate/fromjsonable.py:1256-1381` `_parse_property` with `target_obj_expr="target"`,
`value_map_expr="cast"` and `ref_obj_parts=["ref"]`. -/
def parseProperty (ctx : Ctx) (p : Property) (n : Nat) : Except Exc (Code × Nat) := do
  let _ ← ucamelCase p.name
  let field : Target := ⟨[v c!"target"], [], [v c!"target"]⟩
  let direct := !p.optional || isPointer p.ty
  let (parsing, m) ← parseValue ctx p.ty [vi c!"value" n]
    (if direct then field else ⟨[], [vi c!"target" n], [vi c!"target" n]⟩) [v c!"ref"] (n + 1)
  let names ← typeNames p.ty
  let head (rest : Code) := Code.use [v c!"cast"] (.decl [vi c!"value" n, vi c!"ok" n] (.use [vi c!"ok" n] rest))
  if !p.optional then
    pure (head (.block (.use [errors, v c!"ref"] .done) (.block parsing .done)), m)
  else if direct then
    pure (head (.block parsing .done), m)
  else
    pure (head (.block (.use names (.decl [vi c!"target" n]
      (parsing ++ .use [v c!"target", vi c!"target" n] .done))) .done), m)

/-- The parsing of the properties, each followed by `if errors.Full() { return }`. -/
def parseProps (ctx : Ctx) : List Property → Nat → Except Exc Code
  | [], _ => .ok .done
  | p :: ps, n => do
    let (c, m) ← parseProperty ctx p n
    let rest ← parseProps ctx ps m
    pure (c ++ .use [errors] (.block .done rest))

/-- `mapry.references(a_type)`; the fuel of the traversal always suffices (`references_total`). -/
def referencesOf (g : Graph) (o : Owner) : Except Exc (List Str) :=
  match references? g o with
  | some refs => .ok refs
  | none => .error .recursionError

/-- The field of the graph which is the registry of the class, `ref_cls.plural|ucamel_case`. -/
def pluralField (g : Graph) (name : Str) : Except Exc Str :=
  match g.cls? name with
  | some c => ucamelCase c.plural
  | none => .error .keyError

/-- `'{}Registry'.format(mapry.naming.camel_case(ref_cls.plural))` -/
def registryParam (g : Graph) (name : Str) : Except Exc Name :=
  match g.cls? name with
  | some c => do pure (own [] (← camelCase c.plural) c!"Registry")
  | none => .error .keyError

/-- The checks at the start of every parsing function. -/
def preamble (rest : Code) : Code :=
  .use [v c!"target"] (.block .done (.use [errors] (.block .done (.use [errors] (.block .done rest)))))

/-- `/repo/mapry/go/generate/fromjsonable.py:1502-1612` `_parse_composite` -/
def parseComposite (g : Graph) (uids : List (Str × Nat)) (o : Owner) (name : Str) (isClass : Bool) :
    Except Exc Func := do
  let refs ← referencesOf g o
  let params ← refs.mapM (registryParam g)
  let ctx : Ctx := ⟨g, uids, fun c => if c ∈ refs then do pure [← registryParam g c] else .error .keyError⟩
  let types ← (refs.mapM fun c => do pure (Name.glob (← ucamelCase c)))
  let props ← parseProps ctx (ownerProps g o) 0
  let f ← ucamelCase name
  pure
    { name := f ++ c!"FromJSONable"
      params := [v c!"value"] ++ (if isClass then [v c!"id"] else []) ++ params ++ [v c!"ref", v c!"target", errors]
      sig := types ++ [.glob f, .glob c!"Errors"]
      body := preamble (.use [v c!"value"]
        (.decl (if (ownerProps g o).isEmpty then [v c!"ok"] else [v c!"cast", v c!"ok"])
        (.use [v c!"ok"] (.block (.use [errors, v c!"ref", fmt, v c!"value"] .done)
        (if isClass then .use [v c!"target", v c!"id"] props else props))))) }

/-- The code to allocate the instances of a class (`/repo/mapry/go/generate/fromjsonable.py:1653-1703`). -/
def preallocate (uids : List (Str × Nat)) (c : Class) : Except Exc Code := do
  let p ← camelCase c.plural
  let _ ← ucamelCase c.plural
  let name ← ucamelCase c.name
  let _ ← jsonPlural c.plural
  let ref := own [] p c!"Ref"
  let ok := own [] p c!"Ok"
  let value := own [] p c!"Value"
  let map := own [] p c!"Map"
  let alloc := [v c!"target", v c!"id", .glob name]
  pure (.use [v c!"ref"] (.decl [ref] (.decl [ok] (.decl [value] (.decl [map] (.use [v c!"cast"]
    (.assign [value, ok] (.use [ok]
    (.block (.use [value] (.assign [map, v c!"ok"] (.use [v c!"ok"] (.block (.use [errors, ref, fmt, value] .done)
      (.block (.use [v c!"target", .glob name] (.use [map]
        (.block (.decl [v c!"id"] (.block (match c.idPattern with
          | some pat => .use [patternName uids pat, v c!"id"]
              (.block (.use [errors, ref, fmt, v c!"id"] .done) (.block (.use alloc .done) .done))
          | none => .use alloc .done) .done)) .done))) .done))))) .done)))))))))

/-- The code to parse the instances of a class (`/repo/mapry/go/generate/fromjsonable.py:1712-1740`). -/
def parseInstances (g : Graph) (c : Class) : Except Exc Code := do
  let p ← camelCase c.plural
  let _ ← ucamelCase c.plural
  let name ← ucamelCase c.name
  let refs ← referencesOf g (.cls c.name)
  let _ ← refs.mapM (pluralField g)
  pure (.use [own [] p c!"Ok"] (.block (.use [own [] p c!"Map"]
    (.block (.decl [v c!"id", v c!"value"] (.block
      (.use (.glob (name ++ c!"FromJSONable") :: v c!"value" :: v c!"id" :: refs.map (fun _ => v c!"target") ++
        [strings, own [] p c!"Ref", v c!"id", v c!"target", v c!"id", errors])
      (.use [errors] (.block .done .done))) .done)) .done)) (.use [errors] (.block .done .done))))

/-- One piece of code after another. -/
def concat (cs : List Code) : Code := cs.foldr (· ++ ·) .done

/-- `/repo/mapry/go/generate/fromjsonable.py:1615-1805` `_parse_graph` -/
def parseGraph (g : Graph) (uids : List (Str × Nat)) : Except Exc Func := do
  let ctx : Ctx := ⟨g, uids, fun c => do
    let _ ← pluralField g c
    pure [v c!"target"]⟩
  let alloc ← g.classes.mapM (preallocate uids)
  let insts ← g.classes.mapM (parseInstances g)
  let props ← parseProps ctx g.properties 0
  let f ← ucamelCase g.name
  pure
    { name := f ++ c!"FromJSONable"
      params := [v c!"value", v c!"ref", v c!"target", errors]
      sig := [.glob f, .glob c!"Errors"]
      body := preamble (.use [v c!"value"] (.decl [v c!"cast", v c!"ok"] (.use [v c!"ok"]
        (.block (.use [errors, v c!"ref", fmt, v c!"value"] .done)
        (concat alloc ++ (if g.classes.isEmpty then .done else .use [errors] (.block .done .done)) ++
          concat insts ++ props))))) }

/-- `/repo/mapry/go/generate/fromjsonable.py:98-322` `_duration_from_string`: the names of the package and of the
imports; the local variables of this constant text are not recorded. -/
def durationFromString : List Func :=
  [⟨c!"addDuration", [], [time], .use [time, math] .done⟩,
   ⟨c!"durationFromString", [], [time],
    .use [.glob c!"durationRe", fmt, strconv, strings, time, math, .glob c!"addDuration"] .done⟩]

/-- A string or a path with a pattern. -/
def hasPattern : Ty → Bool
  | .string p => p.isSome
  | .path p => p.isSome
  | _ => false

def isArray : Ty → Bool
  | .array .. => true
  | _ => false

/-- `/repo/mapry/go/generate/fromjsonable.py:40-95` `_imports`. The set of the imports is the list of its elements;
an element may be repeated. -/
def parseImports (g : Graph) : List Str :=
  [c!"strings", c!"fmt"] ++
  (if needs g .integer then [c!"math"] else []) ++
  (if needs g .date || needs g .time || needs g .datetime || needs g .timeZone then [c!"time"] else []) ++
  (if needs g .duration then [c!"math", c!"time", c!"regexp", c!"strconv"] else []) ++
  (if (iterateOverTypes g).any (fun t => hasPattern t.1) || g.classes.any (fun c => c.idPattern.isSome)
    then [c!"regexp"] else []) ++
  (if (iterateOverTypes g).any (fun t => isArray t.1) then [c!"strconv"] else [])

/-- `/repo/mapry/go/generate/fromjsonable.py:1808-1844` `generate` -/
def parseFile (g : Graph) : Except Exc File := do
  let uids := enumeratePatterns g
  let classes ← g.classes.mapM fun c => parseComposite g uids (.cls c.name) c.name true
  let embeds ← g.embeds.mapM fun e => parseComposite g uids (.embed e.name) e.name false
  let graph ← parseGraph g uids
  let duration := if needs g .duration then durationFromString else []
  let funcs := duration ++ classes ++ embeds ++ [graph]
  pure
    { imports := parseImports g
      declares := funcs.map (fun f => .glob f.name) ++ (if needs g .duration then [.glob c!"durationRe"] else []) ++
        uids.map (fun e => .pattern e.2)
      top := (if needs g .duration then [regexp] else []) ++ uids.map (fun _ => regexp)
      funcs }

/-! ## Serializing -/

/-- `/repo/mapry/go/generate/tojsonable.py:132-161` `_serialize_date_time` -/
def serializeDateTime (f : Str) (target value : List Name) (n : Nat) : Except Exc (Code × Nat) := do
  let format ← Strftime.convert f
  pure (if format.isEmpty then .use target .done else .use (target ++ value) .done, n)

/-- `/repo/mapry/go/generate/tojsonable.py:251-317` `_serialize_value` and the functions it calls: the code to write
the value (the names in its expression) to the target (the names used in `target_expr = ...`, always an item of a map or a slice). -/
def serializeValue : Ty → (target value : List Name) → Nat → Except Exc (Code × Nat)
  | .boolean, target, value, n => .ok (.use (target ++ value) .done, n)
  | .integer _, target, value, n => .ok (.use (target ++ value) .done, n)
  | .float _, target, value, n => .ok (.use (target ++ value) .done, n)
  | .string _, target, value, n => .ok (.use (target ++ value) .done, n)
  | .path _, target, value, n => .ok (.use (target ++ value) .done, n)
  | .date f, target, value, n => serializeDateTime f target value n
  | .time f, target, value, n => serializeDateTime f target value n
  | .datetime f, target, value, n => serializeDateTime f target value n
  | .timeZone, target, value, n => .ok (.use (target ++ value) .done, n)
  | .duration, target, value, n => .ok (.use (target ++ .glob c!"durationToString" :: value) .done, n)
  -- lines 164-205 `_serialize_array`
  | .array t _ _, target, value, n => do
    let (item, m) ← serializeValue t [vi c!"target" n, vi c!"i" n] [vi c!"slice" n, vi c!"i" n] (n + 1)
    pure (.use value (.decl [vi c!"count" n] (.use value (.decl [vi c!"slice" n] (.use [vi c!"count" n]
      (.decl [vi c!"target" n] (.block (.decl [vi c!"i" n] (.use [vi c!"i" n, vi c!"count" n] (.block item .done)))
      (.use (target ++ [vi c!"target" n]) .done))))))), m)
  -- lines 208-248 `_serialize_map`
  | .map t, target, value, n => do
    let (item, m) ← serializeValue t [vi c!"target" n, vi c!"k" n] [vi c!"v" n] (n + 1)
    pure (.decl [vi c!"target" n] (.use value (.decl [vi c!"map" n] (.use [vi c!"map" n]
      (.block (.decl [vi c!"k" n, vi c!"v" n] (.block item .done))
      (.use (target ++ [vi c!"target" n]) .done))))), m)
  | .cls _, target, value, n => .ok (.use (target ++ value) .done, n)
  | .embed name, target, value, n => do
    let f ← ucamelCase name
    pure (.use (target ++ .glob (f ++ c!"ToJSONable") :: value) .done, n)

/-- `/repo/mapry/go/generate/tojsonable.py:320-375` `_serialize_property` of `instance` to `target` -/
def serializeProperty (p : Property) (n : Nat) : Except Exc (Code × Nat) := do
  let _ ← ucamelCase p.name
  let (c, m) ← serializeValue p.ty [v c!"target"] [v c!"instance"] n
  pure (if p.optional then .use [v c!"instance"] (.block c .done) else c, m)

def serializeProps : List Property → Nat → Except Exc Code
  | [], _ => .ok .done
  | p :: ps, n => do
    let (c, m) ← serializeProperty p n
    let rest ← serializeProps ps m
    pure (c ++ rest)

/-- `/repo/mapry/go/generate/tojsonable.py:378-435` `_serialize_class_or_embed` -/
def serializeComposite (name : Str) (ps : List Property) : Except Exc Func := do
  let props ← serializeProps ps 0
  let f ← ucamelCase name
  pure ⟨f ++ c!"ToJSONable", [v c!"instance", v c!"target"], [.glob f],
    .use [v c!"instance"] (.block .done (.assign [v c!"target"] props))⟩

/-- The code to write a registry (`/repo/mapry/go/generate/tojsonable.py:473-505`). -/
def serializeRegistry (c : Class) : Except Exc Code := do
  let p ← ucamelCase c.plural
  let i ← camelCase c.name
  let name ← ucamelCase c.name
  let _ ← jsonPlural c.plural
  let target := own c!"target" p []
  let inst := own [] i c!"Instance"
  pure (.use [v c!"instance"] (.block (.decl [target] (.use [v c!"instance"]
    (.block (.decl [v c!"id"] (.block (.use [v c!"instance", v c!"id"] (.decl [inst] (.use [v c!"id", inst]
      (.block (.use [fmt, v c!"id", inst] (.assign [v c!"err"] .done))
      (.use [target, v c!"id", .glob (name ++ c!"ToJSONable"), inst] .done))))) .done))
    (.use [v c!"target", target] .done)))) .done))

/-- `/repo/mapry/go/generate/tojsonable.py:438-540` `_serialize_graph` -/
def serializeGraph (g : Graph) : Except Exc Func := do
  let props ← serializeProps g.properties 0
  let regs ← g.classes.mapM serializeRegistry
  let f ← ucamelCase g.name
  pure ⟨f ++ c!"ToJSONable", [v c!"instance", v c!"target", v c!"err"], [.glob f],
    .use [v c!"instance"] (.block .done (.assign [v c!"target"]
      (.block (.use [v c!"err"] (.block (.assign [v c!"target"] .done) .done)) (props ++ concat regs))))⟩

/-- `/repo/mapry/go/generate/tojsonable.py:39-129` `_duration_to_string`, as `durationFromString`. -/
def durationToString : List Func :=
  [⟨c!"durationToString", [], [time], .use [time, fmt, strings] .done⟩]

/-- `/repo/mapry/go/generate/tojsonable.py:18-36` `_imports` -/
def serializeImports (g : Graph) : List Str :=
  (if g.classes.isEmpty then [] else [c!"fmt"]) ++
  (if needs g .duration then [c!"fmt", c!"strings", c!"time"] else [])

/-- `/repo/mapry/go/generate/tojsonable.py:543-577` `generate` -/
def serializeFile (g : Graph) : Except Exc File := do
  let classes ← g.classes.mapM fun c => serializeComposite c.name c.properties
  let embeds ← g.embeds.mapM fun e => serializeComposite e.name e.properties
  let graph ← serializeGraph g
  let funcs := (if needs g .duration then durationToString else []) ++ classes ++ embeds ++ [graph]
  pure ⟨serializeImports g, funcs.map (fun f => .glob f.name), [], funcs⟩

/-! ## Types, errors and tests -/

/-- `/repo/mapry/go/generate/types.py:13-30` `_imports` -/
def typesImports (g : Graph) : List Str :=
  if needs g .date || needs g .time || needs g .datetime || needs g .duration || needs g .timeZone then [c!"time"]
  else []

/-- The types of the fields (`/repo/mapry/go/generate/types.py:33-49`); the pointers do not matter here. -/
def fieldNames (ps : List Property) : Except Exc (List Name) := do
  pure (← ps.mapM fun p => typeNames p.ty).flatten

/-- `/repo/mapry/go/generate/types.py:178-204` `generate` -/
def typesFile (g : Graph) : Except Exc File := do
  let embeds ← g.embeds.mapM fun e => do pure (← ucamelCase e.name, ← fieldNames e.properties)
  let classes ← g.classes.mapM fun c => do pure (← ucamelCase c.name, ← fieldNames c.properties)
  let props ← fieldNames g.properties
  let f ← ucamelCase g.name
  pure
    { imports := typesImports g
      declares := embeds.map (fun e => .glob e.1) ++ classes.map (fun c => .glob c.1) ++ [.glob f]
      top := embeds.flatMap (·.2) ++ classes.flatMap (·.2) ++ classes.map (fun c => .glob c.1) ++ props
      funcs := [] }

/-- `/repo/mapry/go/generate/parse.py:10-82`: the error container, without any imports. -/
def errorsFile : File :=
  ⟨[], [.glob c!"Error", .glob c!"Errors", .glob c!"NewErrors"], [.glob c!"Error"],
   [⟨c!"NewErrors", [], [.glob c!"Errors"], .use [.glob c!"Errors", .glob c!"Error"] .done⟩]⟩

/-- An example function; its local variables are not recorded. -/
def exampleFunc (name : Str) (uses : List Name) : Func := ⟨name, [], [], .use uses .done⟩

/-- `/repo/mapry/go/generate/fromjsonable_test.py:30-133` `_example_duration_from_string` -/
def examplesFromString : List Func :=
  [c!"invalid", c!"oneYear", c!"oneMonth", c!"oneWeek", c!"oneDay", c!"hoursMinutesSeconds", c!"preciseNanoseconds",
    c!"secondsWithTrailingZeros", c!"allSpecified", c!"negative", c!"overflow"].map fun s =>
    exampleFunc (c!"ExampleDurationFromString_" ++ s) [.glob c!"durationFromString", fmt]

/-- `/repo/mapry/go/generate/tojsonable_test.py:31-87` `_example_duration_to_string` -/
def examplesToString : List Func :=
  [c!"oneYear", c!"negativeYear", c!"hoursMinutesSeconds", c!"daysHoursMinutesSeconds", c!"secondsNanoseconds",
    c!"secondsManyNanoseconds", c!"nanoseconds"].map fun s =>
    exampleFunc (c!"ExampleDurationToString_" ++ s) [time, .glob c!"durationToString", fmt]

/-- `/repo/mapry/go/generate/fromjsonable_test.py:14-28, 137-166` `_imports`, `generate` -/
def parseTestFile (g : Graph) : File :=
  let funcs := if needs g .duration then examplesFromString else []
  ⟨if needs g .duration then [c!"fmt"] else [], funcs.map (fun f => .glob f.name), [], funcs⟩

/-- `/repo/mapry/go/generate/tojsonable_test.py:14-29, 91-120` `_imports`, `generate` -/
def serializeTestFile (g : Graph) : File :=
  let funcs := if needs g .duration then examplesToString else []
  ⟨if needs g .duration then [c!"fmt", c!"time"] else [], funcs.map (fun f => .glob f.name), [], funcs⟩

/-- All the files of the package (`/repo/mapry/main.py:116-128`). -/
def package (g : Graph) : Except Exc (List File) := do
  pure [← typesFile g, errorsFile, ← parseFile g, parseTestFile g, ← serializeFile g, serializeTestFile g]

end Mapry.GoCode
