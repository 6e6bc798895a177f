import Verif.CppScope
import Verif.GoCode
import Verif.ParseSchema

/-!
# Model of the C++ code as it is generated: names and types

The generators in `mapry/cpp/generate` are modelled up to the names and the types in the generated code. The values
which are computed are the subject of `Verif/CppRuntime.lean`. Not recorded are the comments, the texts of the
literals, the statements without names (`return;`, `break;`, `++i`) and the bodies of the functions whose text does
not depend on the schema (`message`, `add_rep_double`, `duration_from_string`, `value_type_to_string`, `tm_to_string`,
`duration_to_string`, the class `parse::Errors`).
-/

namespace Mapry.CppCode

open Mapry.TypeGraph Mapry.Naming Mapry.ParseSchema
open Mapry.GoCode (referencesOf)

/-! ## Types -/

/-- The tests of `cpp.path_as` (`/repo/mapry/cpp/generate/__init__.py:51-61`, `types_header.py:33-40`,
`jsoncpp_impl.py:850-858`): whether the path is the one of Boost. -/
def pathBoost (cpp : Cpp) : Except Exc Bool :=
  if cpp.pathAs = c!"std::filesystem::path" then .ok false
  else if cpp.pathAs = c!"boost::filesystem::path" then .ok true
  else .error (.notImplemented [])

/-- The tests of `cpp.datetime_library`: whether it is date.h. -/
def dateH (cpp : Cpp) : Except Exc Bool :=
  if cpp.datetimeLibrary = c!"ctime" then .ok false
  else if cpp.datetimeLibrary = c!"date.h" then .ok true
  else .error (.notImplemented [])

/-- `/repo/mapry/cpp/generate/__init__.py:28-117` `type_repr` -/
def typeRepr (cpp : Cpp) : Ty → Except Exc CTy
  | .boolean => .ok .bool
  | .integer _ => .ok .int64
  | .float _ => .ok .double
  | .string _ => .ok .string
  | .path _ => do pure (.path (← pathBoost cpp))
  | .date _ => do pure (if ← dateH cpp then .localDays else .tm)
  | .time _ => do pure (if ← dateH cpp then .timeOfDay else .tm)
  | .datetime _ => do pure (if ← dateH cpp then .localSeconds else .tm)
  | .timeZone => do pure (if ← dateH cpp then .zone else .string)
  | .duration => .ok .nanoseconds
  | .array x _ _ => do pure (.vector (← typeRepr cpp x))
  | .map x => do pure (.map (← typeRepr cpp x))
  | .cls n => do pure (.ptr (.struct (← asComposite n)))
  | .embed n => do pure (.struct (← asComposite n))

/-! ## The header with the types -/

/-- `/repo/mapry/cpp/generate/types_header.py:142-222` `_default_value` -/
def defaultValue (cpp : Cpp) : Ty → Except Exc (Option Expr)
  | .boolean => .ok (some .bool)
  | .integer _ => .ok (some (.num 0))
  | .float _ => .ok (some (.num 0))
  | .date _ => do pure (if ← dateH cpp then none else some .zeroTm)
  | .time _ => do pure (if ← dateH cpp then none else some .zeroTm)
  | .datetime _ => do pure (if ← dateH cpp then none else some .zeroTm)
  | .timeZone => do pure (if ← dateH cpp then some .null else none)
  | .cls _ => .ok (some .null)
  | _ => .ok none

/-- The tests of `cpp.optional_as` (`types_header.py:89-98`, `243-254`, `jsoncpp_header.py:78-89`). The optional types
are not distinguished. -/
def optionalOk (cpp : Cpp) : Except Exc Unit :=
  if cpp.optionalAs = c!"boost::optional" then .ok ()
  else if cpp.optionalAs = c!"std::optional" then .ok ()
  else if cpp.optionalAs = c!"std::experimental::optional" then .ok ()
  else .error (.notImplemented [])

/-- `/repo/mapry/cpp/generate/types_header.py:226-266` `_property_fields`: the member for a property. It has the name
of the property as it is. -/
def propertyField (cpp : Cpp) (p : Property) : Except Exc Field := do
  let t ← typeRepr cpp p.ty
  if p.optional then do
    optionalOk cpp
    pure ⟨p.name, .optional t, none⟩
  else do
    pure ⟨p.name, t, ← defaultValue cpp p.ty⟩

/-- `/repo/mapry/cpp/generate/types_header.py:269-293` `_embed_definition` -/
def embedStruct (cpp : Cpp) (e : Embed) : Except Exc Struct := do
  pure ⟨← asComposite e.name, ← e.properties.mapM (propertyField cpp)⟩

/-- `/repo/mapry/cpp/generate/types_header.py:296-324` `_class_definition` -/
def classStruct (cpp : Cpp) (c : Class) : Except Exc Struct := do
  pure ⟨← asComposite c.name, ⟨c!"id", .string, none⟩ :: (← c.properties.mapM (propertyField cpp))⟩

/-- The registry of a class (`/repo/mapry/cpp/generate/types_header.py:340-347`) -/
def registryField (c : Class) : Except Exc Field := do
  let t ← asComposite c.name
  pure ⟨← asAttribute c.plural, .map (.owner t), none⟩

/-- `/repo/mapry/cpp/generate/types_header.py:327-364` `_graph_definition` -/
def graphStruct (cpp : Cpp) (g : Graph) : Except Exc Struct := do
  pure ⟨← asComposite g.name, (← g.properties.mapM (propertyField cpp)) ++ (← g.classes.mapM registryField)⟩

/-- `/repo/mapry/cpp/generate/types_header.py:111-138` `_forward_declarations` -/
def forward (g : Graph) : Except Exc (List Str) := do
  let graph ← asComposite g.name
  let classes ← g.classes.mapM fun c => asComposite c.name
  let embeds ← g.embeds.mapM fun e => asComposite e.name
  pure (graph :: classes ++ embeds)

/-- `any(prop.optional for ...)` (`types_header.py:79-87`, `jsoncpp_header.py:57-77`) -/
def hasOptional (g : Graph) : Bool :=
  g.properties.any (·.optional) || g.classes.any (fun c => c.properties.any (·.optional)) ||
    g.embeds.any (fun e => e.properties.any (·.optional))

/-- The header of the path (`types_header.py:33-40`, `jsoncpp_header.py:43-51`) -/
def pathHeader (g : Graph) (cpp : Cpp) : Except Exc (List Str) :=
  if needs g .path then do
    pure (if ← pathBoost cpp then [c!"boost/filesystem/path.hpp"] else [c!"filesystem"])
  else .ok []

/-- The header of the optional type (`types_header.py:89-98`, `jsoncpp_header.py:78-89`) -/
def optionalHeader (g : Graph) (cpp : Cpp) : Except Exc (List Str) :=
  if hasOptional g then
    if cpp.optionalAs = c!"boost::optional" then .ok [c!"boost/optional.hpp"]
    else if cpp.optionalAs = c!"std::optional" then .ok [c!"optional"]
    else if cpp.optionalAs = c!"std::experimental::optional" then .ok [c!"optional.hpp"]
    else .error (.notImplemented [])
  else .ok []

/-- `/repo/mapry/cpp/generate/types_header.py:13-108` `_includes`. The set of the included headers is the list of its
elements; an element may be repeated. -/
def typesIncludes (g : Graph) (cpp : Cpp) : Except Exc (List Str) := do
  let path ← pathHeader g cpp
  let date ← dateH cpp
  let optional ← optionalHeader g cpp
  let anyDate := needs g .date || needs g .time || needs g .datetime
  pure ((if needs g .integer then [c!"cstdint"] else []) ++
    (if needs g .string then [c!"string"] else []) ++ path ++
    (if date then
      (if anyDate then [c!"date/date.h"] else []) ++ (if needs g .time then [c!"chrono"] else []) ++
        (if needs g .timeZone then [c!"date/tz.h"] else [])
    else
      (if anyDate then [c!"ctime"] else []) ++ (if needs g .timeZone then [c!"string"] else [])) ++
    (if needs g .duration then [c!"chrono"] else []) ++
    (if needs g .array then [c!"vector"] else []) ++
    (if needs g .map then [c!"map"] else []) ++
    (if g.classes.length > 0 then [c!"map", c!"string", c!"memory"] else []) ++ optional)

/-- The header with the types: the included headers, the declared names and the structures. -/
structure TypesHeader where
  includes : List Str
  forward : List Str
  structs : List Struct

/-- `/repo/mapry/cpp/generate/types_header.py:368-411` `generate` -/
def typesHeader (g : Graph) (cpp : Cpp) : Except Exc TypesHeader := do
  let includes ← typesIncludes g cpp
  let fwd ← forward g
  let embeds ← g.embeds.mapM (embedStruct cpp)
  let classes ← g.classes.mapM (classStruct cpp)
  let graph ← graphStruct cpp g
  pure ⟨includes, fwd, embeds ++ classes ++ [graph]⟩

/-- The structures as they are known in the other files. -/
def structsOf (h : TypesHeader) : List (Str × List (Str × CTy)) :=
  h.structs.map fun s => (s.name, s.fields.map fun f => (f.name, f.ty))

/-! ## Expressions -/

def v (x : Str) : Expr := .var (.fixed x)
def t (base : Str) (uid : Nat) : Expr := .var (.temp base uid [])
def errors : Expr := v c!"errors"
def value : Expr := v c!"value"
def target : Expr := v c!"target"

/-- `e.m()` -/
def call₀ (e : Expr) (m : Str) : Expr := .call (.method e m)
/-- `e.m(a)` -/
def call₁ (e : Expr) (m : Str) (a : Expr) : Expr := .call (.arg (.method e m) a)
/-- `f(args)` -/
def fnCall (f : Str) (args : List Expr) : Expr := .call (args.foldl .arg (.fn f))
/-- `ns::f(args)` -/
def libCall (f : Str) (args : List Expr) : Expr := .call (args.foldl .arg (.lib f))
/-- `errors->full()` -/
def full : Expr := .call (.via errors c!"full")
/-- `errors->empty()` -/
def noErrors : Expr := .call (.via errors c!"empty")

/-- `std::string(e).append(...)....`, the loop of `append_strings` -/
def appended (e : Expr) : List Expr → Expr
  | [] => e
  | p :: ps => appended (call₁ e c!"append" p) ps

/-- `/repo/mapry/cpp/expr.py:25-52` `append_strings`; the parts are never empty. -/
def joinStrings : List Expr → Expr
  | [] => .text
  | [e] => e
  | e :: ps => appended (libCall c!"std::string" [e]) ps

/-- `/repo/mapry/cpp/expr.py:10-22` `is_variable` -/
def isVariable : Expr → Bool
  | .var _ => true
  | _ => false

/-! ## Parsing -/

/-- `constexpr auto x("..."); errors->add(ref, message(x, strlen(x), detail));` -/
def reportAs (x : Str) (ref : List Expr) (detail : Expr) : Code :=
  .auto (.fixed x) .text (.eval (.call (.arg (.arg (.via errors c!"add") (joinStrings ref))
    (fnCall c!"message" [v x, fnCall c!"strlen" [v x], detail]))) .done)

def report (ref : List Expr) (detail : Expr) : Code := reportAs c!"expected_but_got" ref detail

/-- `if (c) { a } else { b }` -/
def ifElse (c : Expr) (a b : Code) : Code := .test c (.block a (.block b .done))

/-- `if (c) { a }` -/
def ifThen (c : Expr) (a : Code) : Code := .test c (.block a .done)

/-- The first lines of the templates, `const Json::Value& value_{uid} = value_expr;`, if the expression is not a
variable -/
def bindValue (e : Expr) (n : Nat) (body : Expr → Code) : Code :=
  if isVariable e then body e else .decl (.temp c!"value" n []) .json (some e) (body (t c!"value" n))

/-- `if (!value.is...()) { report } else { body }` -/
def expect (is : Str) (ref : List Expr) (x : Expr) (body : Code) : Code :=
  ifElse (.neg (call₀ x is)) (report ref (fnCall c!"value_type_to_string" [call₀ x c!"type"])) body

/-- A bound of a number (`/repo/mapry/cpp/generate/jsoncpp_impl.py:578-614`, `677-712`) -/
def checkBound (n : Nat) (ref : List Expr) : Option Int → Code
  | none => .done
  | some b => ifThen (.neg (.cmp (t c!"cast" n) (.num b)))
      (report ref (libCall c!"std::to_string" [t c!"cast" n]) ++ .assign (t c!"ok" n) .bool .done)

/-- The else-branch of `_PARSE_INTEGER_TPL` and `_PARSE_FLOAT_TPL` -/
def numberBody (as : Str) (n : Nat) (ref : List Expr) (bd : Bounds) (tgt x : Expr) : Code :=
  if bd.min.isNone && bd.max.isNone then .assign tgt (call₀ x as) .done
  else .auto (.temp c!"cast" n []) (call₀ x as) (.decl (.temp c!"ok" n []) .bool (some .bool)
    (checkBound n ref bd.min ++ checkBound n ref bd.max ++
      ifThen (t c!"ok" n) (.assign tgt (t c!"cast" n) .done)))

/-- The check of a pattern (`/repo/mapry/cpp/generate/jsoncpp_impl.py:770-796`, `862-888`): the variable with the
regular expression, and `set` stores the value. -/
def patternBody (re : Var) (n : Nat) (ref : List Expr) (x : Expr) (set : Code) : Code :=
  .decl re .regex (some (libCall c!"std::regex" [.text])) (.decl (.temp c!"cast" n []) .string (some (call₀ x c!"asString"))
    (.decl (.temp c!"ok" n []) .bool (some .bool)
      (ifThen (.neg (libCall c!"std::regex_match" [t c!"cast" n, .var re]))
        (report ref (t c!"cast" n) ++ .assign (t c!"ok" n) .bool .done) ++
      ifThen (t c!"ok" n) set)))

/-- A text with or without a pattern; the value is stored by `plain` or, after the check, by `set`. -/
def textBody (re : Var) (n : Nat) (ref : List Expr) (x : Expr) (plain set : Code) : Option Str → Code
  | none => plain
  | some _ => patternBody re n ref x set

/-- `/repo/mapry/cpp/generate/jsoncpp_impl.py:920-965` `_PARSE_CTIME_TPL` -/
def ctimeBody (n : Nat) (ref : List Expr) (tgt x : Expr) : Code :=
  .decl (.temp c!"cast" n []) .string (some (call₀ x c!"asString"))
    (.decl (.temp c!"tm" n []) .tm (some .zeroTm)
    (.decl (.temp c!"ret" n []) .chars
      (some (fnCall c!"strptime" [call₀ (t c!"cast" n) c!"c_str", .text, .addr (t c!"tm" n)]))
    (ifElse (.or (.cmp (t c!"ret" n) .null) (.cmp (.star (t c!"ret" n)) (.num 0)))
      (report ref (t c!"cast" n)) (.assign tgt (t c!"tm" n) .done))))

/-- `/repo/mapry/cpp/generate/jsoncpp_impl.py:967-1010` `_PARSE_DATE_TPL` -/
def dateBody (n : Nat) (ref : List Expr) (tgt x : Expr) : Code :=
  .decl (.temp c!"iss" n []) .stream (some (libCall c!"std::istringstream" [call₀ x c!"asString"]))
    (.extract (t c!"iss" n) tgt
    (ifThen (call₀ (t c!"iss" n) c!"fail") (report ref (call₀ x c!"asString"))))

/-- `/repo/mapry/cpp/generate/jsoncpp_impl.py:1091-1138` `_PARSE_TIME_OF_DAY_TPL` -/
def timeOfDayBody (n : Nat) (ref : List Expr) (tgt x : Expr) : Code :=
  .decl (.temp c!"seconds_of_day" n []) .seconds none
    (.decl (.temp c!"iss" n []) .stream (some (libCall c!"std::istringstream" [call₀ x c!"asString"]))
    (.extract (t c!"iss" n) (t c!"seconds_of_day" n)
    (ifElse (call₀ (t c!"iss" n) c!"fail") (report ref (call₀ x c!"asString"))
      (.assign tgt (libCall c!"date::make_time" [t c!"seconds_of_day" n]) .done))))

/-- `/repo/mapry/cpp/generate/jsoncpp_impl.py:1207-1245` `_PARSE_TIME_ZONE_TPL` -/
def zoneBody (n : Nat) (ref : List Expr) (tgt x : Expr) : Code :=
  .decl (.temp c!"cast" n []) .string (some (call₀ x c!"asString"))
    (.block (.assign tgt (libCall c!"date::locate_zone" [t c!"cast" n]) .done)
    (.block (.decl (.fixed c!"e") .exception none (report ref (t c!"cast" n))) .done))

/-- `/repo/mapry/cpp/generate/jsoncpp_impl.py:1287-1328` `_PARSE_DURATION_TPL` -/
def durationBody (n : Nat) (ref : List Expr) (tgt x : Expr) : Code :=
  let str : Var := .temp c!"cast" n c!"_str"
  .decl str .string (some (call₀ x c!"asString"))
    (.decl (.temp c!"error" n []) .string none
    (.decl (.temp c!"cast" n []) .nanoseconds
      (some (fnCall c!"duration_from_string" [.var str, .addr (t c!"error" n)]))
    (ifElse (.neg (call₀ (t c!"error" n) c!"empty")) (reportAs c!"invalid_duration" ref (t c!"error" n))
      (.assign tgt (t c!"cast" n) .done))))

/-- The check of the size of an array (`/repo/mapry/cpp/generate/jsoncpp_impl.py:1392-1419`) -/
def checkSize (ref : List Expr) (x : Expr) (size : Option Int) (body : Code) : Code :=
  match size with
  | none => body
  | some b => ifElse (.cmp (call₀ x c!"size") (.num b)) (report ref (libCall c!"std::to_string" [call₀ x c!"size"])) body

/-- `/repo/mapry/cpp/generate/jsoncpp_impl.py:1357-1422` `_PARSE_ARRAY_TPL` -/
def arrayBody (n : Nat) (ref : List Expr) (ty : CTy) (lo hi : Option Int) (tgt x : Expr) (item : Code) : Code :=
  expect c!"isArray" ref x (checkSize ref x lo (checkSize ref x hi
    (.ref (.temp c!"target" n []) ty tgt
    (.eval (call₁ (t c!"target" n) c!"resize" (call₀ x c!"size"))
    (.decl (.temp c!"i" n []) .size (some (.num 0))
    (.each (.temp c!"item" n []) (some .json) x (item ++ .eval (t c!"i" n) (.test full .done)) .done))))))

/-- `/repo/mapry/cpp/generate/jsoncpp_impl.py:1468-1501` `_PARSE_MAP_TPL`; the iterator belongs to the block of the
loop. -/
def mapBody (n : Nat) (ref : List Expr) (ty : CTy) (tgt x : Expr) (item : Code) : Code :=
  expect c!"isObject" ref x
    (.ref (.temp c!"target" n []) ty tgt
    (.block (.decl (.temp c!"it" n []) .iter (some (call₀ x c!"begin"))
      (.test (.cmp (t c!"it" n) (call₀ x c!"end")) (item ++ .test full .done))) .done))

/-- `/repo/mapry/cpp/generate/jsoncpp_impl.py:1544-1583` `_PARSE_CLASS_REF_TPL` -/
def classBody (n : Nat) (ref : List Expr) (registry tgt x : Expr) : Code :=
  expect c!"isString" ref x
    (.decl (.temp c!"cast" n []) .string (some (call₀ x c!"asString"))
    (ifElse (.cmp (call₁ registry c!"count" (t c!"cast" n)) (.num 0))
      (reportAs c!"reference_not_found" ref (t c!"cast" n))
      (.assign tgt (call₀ (call₁ registry c!"at" (t c!"cast" n)) c!"get") .done)))

/-- The settings of the generator within a function. -/
structure Ctx where
  graph : Graph
  cpp : Cpp
  /-- `registry_exprs` -/
  registry : Str → Except Exc Expr

/-- `/repo/mapry/cpp/generate/jsoncpp_impl.py:1673-1823` `_parse_value` and the functions it calls: the code to parse
`value_expr` into `target_expr`. The number is the next identifier of `_AutoID`. -/
def parseValue (ctx : Ctx) : Ty → (value target : Expr) → (ref : List Expr) → Nat → Except Exc (Code × Nat)
  -- lines 499-547
  | .boolean, e, tgt, ref, n => .ok (bindValue e n fun x =>
      expect c!"isBool" ref x (.assign tgt (call₀ x c!"asBool") .done), n + 1)
  -- lines 550-646
  | .integer bd, e, tgt, ref, n => .ok (bindValue e n fun x =>
      expect c!"isInt64" ref x (numberBody c!"asInt64" n ref bd tgt x), n + 1)
  -- lines 649-744
  | .float bd, e, tgt, ref, n => .ok (bindValue e n fun x =>
      expect c!"isDouble" ref x (numberBody c!"asDouble" n ref bd tgt x), n + 1)
  -- lines 747-823
  | .string p, e, tgt, ref, n => .ok (bindValue e n fun x =>
      expect c!"isString" ref x (textBody (.temp c!"regex" n []) n ref x
        (.assign tgt (call₀ x c!"asString") .done) (.assign tgt (t c!"cast" n) .done) p), n + 1)
  -- lines 826-917; the path is made of the value also after the check of the pattern
  | .path p, e, tgt, ref, n => do
    let boost ← pathBoost ctx.cpp
    let make := if boost then c!"boost::filesystem::path" else c!"std::filesystem::path"
    pure (bindValue e n fun x => expect c!"isString" ref x
      (textBody (.fixed c!"regex") n ref x (.assign tgt (libCall make [call₀ x c!"asString"]) .done)
        (.assign tgt (libCall make [call₀ x c!"asString"]) .done) p), n + 1)
  -- lines 1014-1049
  | .date _, e, tgt, ref, n => do
    let h ← dateH ctx.cpp
    pure (bindValue e n fun x => expect c!"isString" ref x
      (if h then dateBody n ref tgt x else ctimeBody n ref tgt x), n + 1)
  -- lines 1142-1177
  | .time _, e, tgt, ref, n => do
    let h ← dateH ctx.cpp
    pure (bindValue e n fun x => expect c!"isString" ref x
      (if h then timeOfDayBody n ref tgt x else ctimeBody n ref tgt x), n + 1)
  -- lines 1053-1088
  | .datetime _, e, tgt, ref, n => do
    let h ← dateH ctx.cpp
    pure (bindValue e n fun x => expect c!"isString" ref x
      (if h then dateBody n ref tgt x else ctimeBody n ref tgt x), n + 1)
  -- lines 1181-1284
  | .timeZone, e, tgt, ref, n => do
    let h ← dateH ctx.cpp
    pure (bindValue e n fun x => expect c!"isString" ref x
      (if h then zoneBody n ref tgt x else .assign tgt (call₀ x c!"asString") .done), n + 1)
  -- lines 1332-1354
  | .duration, e, tgt, ref, n => .ok (bindValue e n fun x =>
      expect c!"isString" ref x (durationBody n ref tgt x), n + 1)
  -- lines 1426-1465
  | .array y lo hi, e, tgt, ref, n => do
    let (item, m) ← parseValue ctx y (t c!"item" n) (call₁ (t c!"target" n) c!"at" (t c!"i" n))
      (ref ++ [.text, libCall c!"std::to_string" [t c!"i" n]]) (n + 1)
    let ty ← typeRepr ctx.cpp (.array y lo hi)
    pure (bindValue e n fun x => arrayBody n ref ty lo hi tgt x item, m)
  -- lines 1505-1541
  | .map y, e, tgt, ref, n => do
    let (item, m) ← parseValue ctx y (.star (t c!"it" n)) (.index (t c!"target" n) (call₀ (t c!"it" n) c!"name"))
      (ref ++ [.text, call₀ (t c!"it" n) c!"name"]) (n + 1)
    let ty ← typeRepr ctx.cpp (.map y)
    pure (bindValue e n fun x => mapBody n ref ty tgt x item, m)
  -- lines 1587-1612
  | .cls c, e, tgt, ref, n => do
    let registry ← ctx.registry c
    pure (bindValue e n fun x => classBody n ref registry tgt x, n + 1)
  -- lines 1615-1669
  | .embed name, e, tgt, ref, n => do
    let refs ← referencesOf ctx.graph (.embed name)
    let registries ← refs.mapM ctx.registry
    let f ← asVariable name
    pure (bindValue e n fun x =>
      .eval (fnCall (f ++ c!"_from") (x :: registries ++ [joinStrings ref, .addr tgt, errors])) .done, n + 1)

/-- `isinstance(a_property.type, (mapry.Array, mapry.Map, mapry.Embed))` -/
def needsEmplace : Ty → Bool
  | .array .. | .map _ | .embed _ => true
  | _ => false

/-- `/repo/mapry/cpp/generate/jsoncpp_impl.py:1826-1909` `_parse_property` -/
def parseProperty (ctx : Ctx) (p : Property) (n : Nat) : Except Exc (Code × Nat) := do
  let field ← asAttribute p.name
  let property : Expr := .arrow target field
  let (code, m) ← parseValue ctx p.ty (.index value .text)
    (if p.optional && needsEmplace p.ty then .star property else property) [v c!"ref", .text] n
  let present := call₁ value c!"isMember" .text
  if p.optional then
    pure (ifThen present (if needsEmplace p.ty then .eval (call₀ property c!"emplace") code else code), m)
  else
    pure (ifElse (.neg present)
      (.eval (.call (.arg (.arg (.via errors c!"add") (joinStrings [v c!"ref"])) .text)) .done) code, m)

/-- The loop over the properties; after each of them, the function returns if there are too many errors. -/
def parseProps (ctx : Ctx) : List Property → Nat → Except Exc Code
  | [], _ => .ok .done
  | p :: ps, n => do
    let (code, m) ← parseProperty ctx p n
    let rest ← parseProps ctx ps m
    pure (code ++ .test full rest)

/-- `if (!value.isObject()) { ...; return; }` -/
def expectObject (x : Expr) (ref : List Expr) : Code :=
  ifThen (.neg (call₀ x c!"isObject")) (report ref (fnCall c!"value_type_to_string" [call₀ x c!"type"]))

/-- The parameters of a function which parses a composite (`/repo/mapry/cpp/generate/jsoncpp_impl.py:1914-1923`) -/
def parseParams (registries : List (Var × CTy)) (composite : Str) : List (Var × CTy) :=
  (.fixed c!"value", .json) :: registries ++
    [(.fixed c!"ref", .string), (.fixed c!"target", .ptr (.struct composite)), (.fixed c!"errors", .ptr .errors)]

/-- `graph.classes[name]` of a referenced class -/
def classOf (g : Graph) (name : Str) : Except Exc Class :=
  match g.cls? name with
  | some c => .ok c
  | none => .error .keyError

/-- `const std::map<std::string, std::unique_ptr<X>>& xs_registry` -/
def registryParam (g : Graph) (name : Str) : Except Exc (Var × CTy) := do
  let c ← classOf g name
  pure (.own .registry (← asVariable c.plural) c!"_registry", .map (.owner (← asComposite c.name)))

/-- `registry_exprs` of a class or an embed -/
def registryVar (g : Graph) (refs : List Str) (name : Str) : Except Exc Expr :=
  if name ∈ refs then do
    let c ← classOf g name
    pure (.var (.own .registry (← asVariable c.plural) c!"_registry"))
  else .error .keyError

/-- `/repo/mapry/cpp/generate/jsoncpp_impl.py:1912-1986` `_parse_composite` -/
def parseComposite (g : Graph) (cpp : Cpp) (o : Owner) (name : Str) : Except Exc Func := do
  let refs ← referencesOf g o
  let registries ← refs.mapM (registryParam g)
  let props ← parseProps ⟨g, cpp, registryVar g refs⟩ (ownerProps g o) 0
  let f ← asVariable name
  let composite ← asComposite name
  pure
    { name := f ++ c!"_from"
      params := parseParams registries composite
      result := .void
      body := expectObject value [v c!"ref"] ++ props }

/-- `registry_exprs` of the graph (`/repo/mapry/cpp/generate/jsoncpp_impl.py:2163-2166`) -/
def registryOf (g : Graph) (name : Str) : Except Exc Expr := do
  let c ← classOf g name
  pure (.arrow target (← asAttribute c.plural))

/-- `{plural}_ref` -/
def pluralRef (plural : Str) : Var := .own .registry plural c!"_ref"

/-- `x += e;` -/
def addTo (x : Expr) (e : Expr) (rest : Code) : Code := .eval (call₁ x c!"operator+=" e) rest

/-- `for (Json::ValueConstIterator it = obj.begin(); it != obj.end(); ++it) { body }` -/
def overObject (body : Code) : Code :=
  .block (.decl (.fixed c!"it") .iter (some (call₀ (v c!"obj") c!"begin"))
    (.test (.cmp (v c!"it") (call₀ (v c!"obj") c!"end")) body)) .done

/-- `it.name()` -/
def itName : Expr := call₀ (v c!"it") c!"name"

/-- `auto instance = std::make_unique<X>(); ...` (`/repo/mapry/cpp/generate/jsoncpp_impl.py:2047-2052`) -/
def setInstance (field composite : Str) : Code :=
  .auto (.fixed c!"instance") (.make composite)
    (.assign (.arrow (v c!"instance") c!"id") itName
    (.assign (.index (.arrow target field) itName) (.move (v c!"instance")) .done))

/-- The check of the identifier (`/repo/mapry/cpp/generate/jsoncpp_impl.py:2053-2077`) -/
def checkId (r : Expr) (f : Str) (pattern : Option Str) (set : Code) : Code :=
  match pattern with
  | some _ => ifElse (.neg (libCall c!"std::regex_match" [itName, .pattern (f ++ c!"_re")]))
      (report [r] itName ++ .test full .done) set
  | none => set

/-- The code of `preallocate`; the length of the text added to the reference is written as 0. -/
def preallocateCode (plural field f composite : Str) (pattern : Option Str) : Code :=
  let r : Expr := .var (pluralRef plural)
  .decl (pluralRef plural) .string none
    (.eval (call₁ r c!"reserve" (.plus (call₀ (v c!"ref") c!"size") (.num 0)))
    (addTo r (v c!"ref") (addTo r .text
    (ifThen (call₁ value c!"isMember" .text)
      (.decl (.fixed c!"obj") .json (some (.index value .text))
      (ifElse (.neg (call₀ (v c!"obj") c!"isObject"))
        (report [r] (fnCall c!"value_type_to_string" [call₀ (v c!"obj") c!"type"]))
        (overObject (checkId r f pattern (setInstance field composite)))))))))

/-- The pre-allocation of the instances of a class (`/repo/mapry/cpp/generate/jsoncpp_impl.py:2017-2081`) -/
def preallocate (c : Class) : Except Exc Code := do
  let plural ← asVariable c.plural
  let _ ← jsonPlural c.plural
  let field ← asAttribute c.plural
  let composite ← asComposite c.name
  let f ← asVariable c.name
  pure (preallocateCode plural field f composite c.idPattern)

/-- The code of `parseInstances` -/
def instancesCode (plural field f composite : Str) (registries : List Expr) : Code :=
  let r : Expr := .var (pluralRef plural)
  let ir : Expr := v c!"instance_ref"
  let size := call₀ r c!"size"
  let one : Code := .eval (call₁ ir c!"reserve" (.plus (.plus size (.num 1)) (call₀ itName c!"size")))
    (.eval (call₁ ir c!"resize" (.plus size (.num 1)))
    (.eval (call₁ ir c!"append" itName)
    (.decl (.fixed c!"instance") (.ptr (.struct composite))
      (some (call₀ (call₁ (.arrow target field) c!"at" itName) c!"get"))
    (.eval (fnCall (f ++ c!"_from") (.star (v c!"it") :: registries ++ [ir, v c!"instance", errors]))
    (.test full .done)))))
  .eval (call₀ ir c!"clear") (addTo ir r (addTo ir .text
    (ifThen (call₁ value c!"isMember" .text)
      (.decl (.fixed c!"obj") .json (some (.index value .text)) (overObject one)) ++ .test full .done)))

/-- The parsing of the instances of a class (`/repo/mapry/cpp/generate/jsoncpp_impl.py:2095-2138`) -/
def parseInstances (g : Graph) (c : Class) : Except Exc Code := do
  let plural ← asVariable c.plural
  let _ ← jsonPlural c.plural
  let field ← asAttribute c.plural
  let composite ← asComposite c.name
  let f ← asVariable c.name
  let refs ← referencesOf g (.cls c.name)
  let registries ← refs.mapM (registryOf g)
  pure (instancesCode plural field f composite registries)

/-- One piece of code after another. -/
def concat (cs : List Code) : Code := cs.foldr (· ++ ·) .done

/-- `throw std::invalid_argument("...");` -/
def throwText : Code := .eval (libCall c!"std::invalid_argument" [.text]) .done

/-- `/repo/mapry/cpp/generate/jsoncpp_impl.py:1989-2188` `_parse_graph` -/
def parseGraph (g : Graph) (cpp : Cpp) : Except Exc Func := do
  let props ← parseProps ⟨g, cpp, registryOf g⟩ g.properties 0
  let f ← asVariable g.name
  let composite ← asComposite g.name
  let allocated ← g.classes.mapM preallocate
  let parsed ← g.classes.mapM (parseInstances g)
  pure
    { name := f ++ c!"_from"
      params := parseParams [] composite
      result := .void
      body := ifThen (.cmp errors .null) throwText ++ ifThen (.neg noErrors) throwText ++
        expectObject value [v c!"ref"] ++ concat allocated ++
        (if g.classes.length > 0 then .test (.neg noErrors) (.decl (.fixed c!"instance_ref") .string none (concat parsed))
        else .done) ++ props }

/-! ## Serializing -/

/-- `/repo/mapry/cpp/generate/jsoncpp_impl.py:2321-2330`, `2332-2341`, `2373-2382`: an empty format gives an empty
text. -/
def formatted (format : Str) (tgt x : Expr) : Code :=
  if format = [] then .assign tgt .text .done else .assign tgt x .done

/-- `/repo/mapry/cpp/generate/jsoncpp_impl.py:2527-2597` `_serialize_value` and the functions it calls: the code to
serialize `value_expr` into `target_expr` -/
def serializeValue (cpp : Cpp) : Ty → (target value : Expr) → Nat → Except Exc (Code × Nat)
  | .boolean, tgt, x, n => .ok (.assign tgt x .done, n)
  | .integer _, tgt, x, n => .ok (.assign tgt x .done, n)
  | .float _, tgt, x, n => .ok (.assign tgt x .done, n)
  | .string _, tgt, x, n => .ok (.assign tgt x .done, n)
  | .path _, tgt, x, n => .ok (.assign tgt (call₀ x c!"string") .done, n)
  -- lines 2345-2370
  | .date f, tgt, x, n => do
    let h ← dateH cpp
    pure (formatted f tgt (if h then libCall c!"date::format" [.text, x] else fnCall c!"tm_to_string" [x, .text]), n)
  -- lines 2386-2412
  | .time f, tgt, x, n => do
    let h ← dateH cpp
    pure (formatted f tgt (if h then libCall c!"date::format" [.text, call₀ x c!"to_duration"]
      else fnCall c!"tm_to_string" [x, .text]), n)
  | .datetime f, tgt, x, n => do
    let h ← dateH cpp
    pure (formatted f tgt (if h then libCall c!"date::format" [.text, x] else fnCall c!"tm_to_string" [x, .text]), n)
  -- lines 2416-2435
  | .timeZone, tgt, x, n => do
    let h ← dateH cpp
    pure (.assign tgt (if h then .call (.via x c!"name") else x) .done, n)
  | .duration, tgt, x, n => .ok (.assign tgt (fnCall c!"duration_to_string" [x]) .done, n)
  -- lines 2438-2480; the counter belongs to the block of the loop
  | .array y _ _, tgt, x, n => do
    let (item, m) ← serializeValue cpp y (.index (t c!"target" n) (t c!"i" n)) (.index (t c!"vector" n) (t c!"i" n)) (n + 1)
    pure (.decl (.temp c!"target" n []) .json (some .kind) (.auto (.temp c!"vector" n []) x
      (.block (.decl (.temp c!"i" n []) .int (some (.num 0))
        (.test (.cmp (t c!"i" n) (call₀ (t c!"vector" n) c!"size")) item))
      (.assign tgt (.move (t c!"target" n)) .done))), m)
  -- lines 2483-2523
  | .map y, tgt, x, n => do
    let (item, m) ← serializeValue cpp y (.index (t c!"target" n) (.dot (t c!"kv" n) c!"first"))
      (.dot (t c!"kv" n) c!"second") (n + 1)
    pure (.decl (.temp c!"target" n []) .json (some .kind) (.auto (.temp c!"map" n []) x
      (.each (.temp c!"kv" n []) none (t c!"map" n) item
      (.assign tgt (.move (t c!"target" n)) .done))), m)
  | .cls _, tgt, x, n => .ok (.assign tgt (.arrow x c!"id") .done, n)
  | .embed name, tgt, x, n => do
    let f ← asVariable name
    pure (.assign tgt (fnCall (c!"serialize_" ++ f) [x]) .done, n)

/-- The parameter of a function which serializes a composite and the variable with the result -/
def objVar (f : Str) : Var := .own .composite f []
def asValue (f : Str) : Var := .own .composite f c!"_as_value"

/-- `/repo/mapry/cpp/generate/jsoncpp_impl.py:2600-2647` `_serialize_property` of the composite with the variable name
`f`. The member has the name of the property as it is. -/
def serializeProperty (cpp : Cpp) (f : Str) (p : Property) (n : Nat) : Except Exc (Code × Nat) := do
  let x : Expr := .dot (.var (objVar f)) p.name
  let tgt : Expr := .index (.var (asValue f)) .text
  if p.optional then do
    let (code, m) ← serializeValue cpp p.ty tgt (.star x) n
    pure (ifThen x code, m)
  else serializeValue cpp p.ty tgt x n

def serializeProps (cpp : Cpp) (f : Str) : List Property → Nat → Except Exc Code
  | [], _ => .ok .done
  | p :: ps, n => do
    let (code, m) ← serializeProperty cpp f p n
    let rest ← serializeProps cpp f ps m
    pure (code ++ rest)

/-- `/repo/mapry/cpp/generate/jsoncpp_impl.py:2650-2700` `_serialize_class_or_embed` -/
def serializeComposite (cpp : Cpp) (name : Str) (ps : List Property) : Except Exc Func := do
  let f ← asVariable name
  let composite ← asComposite name
  let props ← serializeProps cpp f ps 0
  pure
    { name := c!"serialize_" ++ f
      params := [(objVar f, .struct composite)]
      result := .json
      body := if ps.length = 0 then .give .kind .done
        else .decl (asValue f) .json none (props ++ .give (.var (asValue f)) .done) }

/-- `instance->id` -/
def instanceId : Expr := .arrow (v c!"instance") c!"id"

/-- The exception for an instance under another identifier than its own
(`/repo/mapry/cpp/generate/jsoncpp_impl.py:2723-2740`) -/
def differsCode : Code :=
  let id : Expr := v c!"id"
  let msg : Expr := v c!"msg"
  .auto (.fixed c!"expected") .text (.auto (.fixed c!"but_got") .text
    (.decl (.fixed c!"msg") .string none
    (.eval (call₁ msg c!"reserve" (.plus (.plus (.plus (fnCall c!"strlen" [v c!"expected"]) (call₀ id c!"size"))
      (fnCall c!"strlen" [v c!"but_got"])) (call₀ instanceId c!"size")))
    (addTo msg (v c!"expected") (addTo msg id (addTo msg (v c!"but_got") (addTo msg instanceId
    (.eval (libCall c!"std::invalid_argument" [msg]) .done))))))))

/-- The body of the loop over the instances -/
def instanceCode (pv : Var) (cf composite : Str) : Code :=
  .decl (.fixed c!"id") .string (some (.dot (v c!"kv") c!"first"))
    (.decl (.fixed c!"instance") (.ptr (.struct composite)) (some (call₀ (.dot (v c!"kv") c!"second") c!"get"))
    (ifThen (.cmp (v c!"id") instanceId) differsCode ++
      .assign (.index (.var pv) instanceId) (fnCall (c!"serialize_" ++ cf) [.star (v c!"instance")]) .done))

/-- `{plural}_as_value` -/
def pluralValue (plural : Str) : Var := .own .registry plural c!"_as_value"

/-- The code of `serializeInstances` -/
def serializeInstancesCode (f plural cf composite : Str) : Code :=
  let registry : Expr := .dot (.var (objVar f)) plural
  let pv : Var := pluralValue plural
  ifThen (.neg (call₀ registry c!"empty"))
    (.decl pv .json none (.each (.fixed c!"kv") none registry (instanceCode pv cf composite)
    (.assign (.index (.var (asValue f)) .text) (.var pv) .done)))

/-- The serialization of the instances of a class (`/repo/mapry/cpp/generate/jsoncpp_impl.py:2714-2748`) -/
def serializeInstances (f : Str) (c : Class) : Except Exc Code := do
  let plural ← asVariable c.plural
  let _ ← jsonPlural c.plural
  let composite ← asComposite c.name
  let cf ← asVariable c.name
  pure (serializeInstancesCode f plural cf composite)

/-- `/repo/mapry/cpp/generate/jsoncpp_impl.py:2703-2785` `_serialize_graph` -/
def serializeGraph (g : Graph) (cpp : Cpp) : Except Exc Func := do
  let f ← asVariable g.name
  let composite ← asComposite g.name
  let props ← serializeProps cpp f g.properties 0
  let instances ← g.classes.mapM (serializeInstances f)
  pure
    { name := c!"serialize_" ++ f
      params := [(objVar f, .struct composite)]
      result := .json
      body := if g.properties.length = 0 && g.classes.length = 0 then .give .kind .done
        else .decl (asValue f) .json none (props ++ concat instances ++ .give (.var (asValue f)) .done) }

/-! ## The header and the implementation -/

/-- The declaration of a function which parses a class or an embed
(`/repo/mapry/cpp/generate/jsoncpp_header.py:132-142`) -/
def parseDecl (g : Graph) (o : Owner) (name : Str) : Except Exc Sig := do
  let refs ← referencesOf g o
  let f ← asVariable name
  let registries ← refs.mapM (registryParam g)
  let composite ← asComposite name
  pure ⟨f ++ c!"_from", (parseParams registries composite).map (·.2), .void⟩

/-- The declaration of a function which serializes a composite
(`/repo/mapry/cpp/generate/jsoncpp_header.py:169-182`) -/
def serializeDecl (name : Str) : Except Exc Sig := do
  let f ← asVariable name
  let composite ← asComposite name
  pure ⟨c!"serialize_" ++ f, [.struct composite], .json⟩

/-- `/repo/mapry/cpp/generate/jsoncpp_header.py:15-97` `_includes` -/
def jsonIncludes (g : Graph) (cpp : Cpp) : Except Exc (List Str) := do
  let path ← pathHeader g cpp
  let optional ← optionalHeader g cpp
  pure ([c!"json/json.h"] ++ (if needs g .string then [c!"string"] else []) ++ path ++
    (if g.classes.length > 0 then [c!"map", c!"string"] else []) ++ optional)

/-- `/repo/mapry/cpp/generate/jsoncpp_header.py:197-251` `generate`: the declared functions -/
def jsonHeader (g : Graph) (cpp : Cpp) : Except Exc (List Sig) := do
  let _ ← jsonIncludes g cpp
  let gf ← asVariable g.name
  let gc ← asComposite g.name
  let embeds ← g.embeds.mapM fun e => parseDecl g (.embed e.name) e.name
  let classes ← g.classes.mapM fun c => parseDecl g (.cls c.name) c.name
  let serializers ← (g.name :: g.classes.map (·.name) ++ g.embeds.map (·.name)).mapM serializeDecl
  pure (⟨gf ++ c!"_from", (parseParams [] gc).map (·.2), .void⟩ :: embeds ++ classes ++ serializers)

/-- The functions with a fixed text -/
def messageSig : Sig := ⟨c!"message", [.text, .size, .string], .string⟩
def durationFromSig : Sig := ⟨c!"duration_from_string", [.string, .ptr .string], .nanoseconds⟩
def valueTypeSig : Sig := ⟨c!"value_type_to_string", [.valueType], .string⟩
def tmSig : Sig := ⟨c!"tm_to_string", [.tm, .text], .string⟩
def durationToSig : Sig := ⟨c!"duration_to_string", [.nanoseconds], .string⟩

/-- `/repo/mapry/cpp/generate/jsoncpp_impl.py:167-211` `_regex_constants`: the namespaces for the classes -/
def patternItem (c : Class) : Except Exc (List Item) :=
  match c.idPattern with
  | some _ => do pure [.pattern ((← asVariable c.name) ++ c!"_re")]
  | none => .ok []

/-- `/repo/mapry/cpp/generate/jsoncpp_impl.py:44-138` `_includes` -/
def implIncludes (g : Graph) (cpp : Cpp) : Except Exc (List Str) := do
  let date ← dateH cpp
  let anyDate := needs g .date || needs g .time || needs g .datetime
  pure ([c!"cstring", c!"string", c!"sstream", c!"stdexcept", c!"memory", c!"utility"] ++
    (if (iterateOverTypes g).any (fun x => GoCode.hasPattern x.1 || tyTag x.1 == .duration) ||
      g.classes.any (fun c => c.idPattern.isSome) then [c!"regex"] else []) ++
    (if date then (if anyDate then [c!"sstream", c!"date/date.h"] else []) ++
        (if needs g .timeZone then [c!"date/tz.h"] else [])
    else if anyDate then [c!"cstring"] else []) ++
    (if needs g .duration then [c!"iomanip", c!"limits", c!"cmath"] else []))

/-- `/repo/mapry/cpp/generate/jsoncpp_impl.py:2789-2894` `generate`: the definitions -/
def jsonImpl (g : Graph) (cpp : Cpp) : Except Exc (List Item) := do
  let _ ← implIncludes g cpp
  let patterns ← g.classes.mapM patternItem
  let graph ← parseGraph g cpp
  let date ← dateH cpp
  let classes ← g.classes.mapM fun c => parseComposite g cpp (.cls c.name) c.name
  let embeds ← g.embeds.mapM fun e => parseComposite g cpp (.embed e.name) e.name
  let classesTo ← g.classes.mapM fun c => serializeComposite cpp c.name c.properties
  let embedsTo ← g.embeds.mapM fun e => serializeComposite cpp e.name e.properties
  let graphTo ← serializeGraph g cpp
  pure (.helper messageSig :: patterns.flatten ++
    (if needs g .duration then [.helper durationFromSig] else []) ++ [.helper valueTypeSig, .func graph] ++
    (if !date && (needs g .date || needs g .time || needs g .datetime) then [.helper tmSig] else []) ++
    (if needs g .duration then [.helper durationToSig] else []) ++
    (classes ++ embeds ++ classesTo ++ embedsTo ++ [graphTo]).map .func)

/-- What is declared before the definitions of the implementation. -/
def world (h : TypesHeader) (declared : List Sig) : World := ⟨structsOf h, globals ++ declared, []⟩

end Mapry.CppCode
