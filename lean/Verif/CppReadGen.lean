import Verif.CppReadLang
import Verif.GoCode

/-!
# Model of the generator of the C++ code which parses composites

The functions of `mapry/cpp/generate/jsoncpp_impl.py` which write the parser of the values, of the properties and of the classes and
embeddable structures. The result is a program in the language of `Verif/CppReadLang.lean`. The function which parses the graph
itself (`_parse_graph`) is in `Verif/CppReadGraph.lean`.
-/

namespace Mapry.CppRead

open Mapry.CppRuntime (DateLib TimeKind)
open Mapry.CppCode (Var)
open Mapry.Naming Mapry.TypeGraph
open Mapry.GoCode (referencesOf)
open Mapry.Duration (intStr)

/-- The variable `{base}_{uid}` -/
def tmp (base : Str) (n : Nat) : Var := .temp base n []

/-- `errors->add(ref, message(text, strlen(text), detail));` -/
def report (ref : Expr) (text : Str) (detail : Expr) : Stmt := .add ref (.cat (.text text) detail)

/-- `/repo/mapry/cpp/expr.py:10-22` `is_variable` -/
def isVariable : Expr → Bool
  | .var _ => true
  | _ => false

/-- The first lines of the templates, `const Json::Value& value_{uid} = value_expr;`, if the expression is not a variable -/
def bindValue (e : Expr) (n : Nat) (body : Expr → Stmt) : Stmt :=
  if isVariable e then body e else .decl (tmp c!"value" n) e (body (.var (tmp c!"value" n)))

/-- `if (!value.is...()) { report } else { body }`, e.g. `/repo/mapry/cpp/generate/jsoncpp_impl.py:510-523` -/
def expect (k : Kind) (what : Str) (ref x : Expr) (body : Stmt) : Stmt :=
  .ite (.not (.is k x)) (report ref (c!"Expected " ++ what ++ c!", but got: ") (.typeText x)) body

/-- A bound of a number (`/repo/mapry/cpp/generate/jsoncpp_impl.py:578-614`, `677-712`); `after` is what `%f` prints behind the
integer. -/
def checkBound (n : Nat) (ref : Expr) (op : Cmp) (opText after : Str) : Option Int → Stmt
  | none => .skip
  | some b => .ite (.not (.cmp op (.var (tmp c!"cast" n)) b))
      (.seq (report ref (c!"Expected " ++ opText ++ c!" " ++ intStr b ++ after ++ c!", but got: ") (.toText (.var (tmp c!"cast" n))))
        (.set (tmp c!"ok" n) (.bool false))) .skip

/-- The else-branch of `_PARSE_INTEGER_TPL` and `_PARSE_FLOAT_TPL`
(`/repo/mapry/cpp/generate/jsoncpp_impl.py:572-620`, `671-719`) -/
def numberBody (n : Nat) (ref : Expr) (bd : Bounds) (after : Str) (tgt : Place) (as : Expr) : Stmt :=
  if bd.min.isNone && bd.max.isNone then .store tgt as
  else .decl (tmp c!"cast" n) as (.decl (tmp c!"ok" n) (.bool true)
    (.seq (checkBound n ref (if bd.exMin then .gt else .ge) (CppRuntime.minOp bd) after bd.min)
    (.seq (checkBound n ref (if bd.exMax then .lt else .le) (CppRuntime.maxOp bd) after bd.max)
      (.ite (.var (tmp c!"ok" n)) (.store tgt (.var (tmp c!"cast" n))) .skip))))

/-- A text with or without a pattern (`/repo/mapry/cpp/generate/jsoncpp_impl.py:767-797`, `848-889`); `make` is what is stored
after the check. A path is its text. -/
def textBody (n : Nat) (ref : Expr) (tgt : Place) (x make : Expr) : Option Str → Stmt
  | none => .store tgt (.asString x)
  | some p => .decl (tmp c!"cast" n) (.asString x) (.decl (tmp c!"ok" n) (.bool true)
      (.seq (.ite (.not (.matches p (.var (tmp c!"cast" n))))
          (.seq (report ref (c!"Expected to match " ++ p ++ c!", but got: ") (.var (tmp c!"cast" n))) (.set (tmp c!"ok" n) (.bool false)))
          .skip)
        (.ite (.var (tmp c!"ok" n)) (.store tgt make) .skip)))

/-- `/repo/mapry/cpp/generate/jsoncpp_impl.py:942-964` `_PARSE_CTIME_TPL` -/
def ctimeBody (n : Nat) (ref : Expr) (format : Str) (tgt : Place) (x : Expr) : Stmt :=
  .decl (tmp c!"cast" n) (.asString x)
    (.strptime (tmp c!"ret" n) (tmp c!"tm" n) (tmp c!"cast" n) format
      (.ite (.notAll (tmp c!"ret" n))
        (report ref (c!"Expected to strptime " ++ format ++ c!", but got: ") (.var (tmp c!"cast" n)))
        (.store tgt (.var (tmp c!"tm" n)))))

/-- `/repo/mapry/cpp/generate/jsoncpp_impl.py:990-1010` `_PARSE_DATE_TPL` -/
def dateBody (n : Nat) (ref : Expr) (k : TimeKind) (format : Str) (tgt : Place) (x : Expr) : Stmt :=
  .decl (tmp c!"iss" n) (.stream (.asString x))
    (.seq (.extract (tmp c!"iss" n) k format tgt)
      (.ite (.fail (tmp c!"iss" n)) (report ref (c!"Expected to date::parse " ++ format ++ c!", but got: ") (.asString x)) .skip))

/-- `/repo/mapry/cpp/generate/jsoncpp_impl.py:1114-1137` `_PARSE_TIME_OF_DAY_TPL` -/
def timeOfDayBody (n : Nat) (ref : Expr) (format : Str) (tgt : Place) (x : Expr) : Stmt :=
  .seconds (tmp c!"seconds_of_day" n) (.decl (tmp c!"iss" n) (.stream (.asString x))
    (.seq (.extractTo (tmp c!"iss" n) .time format (tmp c!"seconds_of_day" n))
      (.ite (.fail (tmp c!"iss" n)) (report ref (c!"Expected to date::parse " ++ format ++ c!", but got: ") (.asString x))
        (.store tgt (.makeTime (.var (tmp c!"seconds_of_day" n)))))))

/-- `/repo/mapry/cpp/generate/jsoncpp_impl.py:1207-1245` `_PARSE_TIME_ZONE_TPL` -/
def zoneBody (n : Nat) (ref : Expr) (tgt : Place) (x : Expr) : Stmt :=
  .decl (tmp c!"cast" n) (.asString x)
    (.locateZone tgt (tmp c!"cast" n) (report ref c!"Expected a valid IANA time zone, but got: " (.var (tmp c!"cast" n))))

/-- `/repo/mapry/cpp/generate/jsoncpp_impl.py:1287-1328` `_PARSE_DURATION_TPL` -/
def durationBody (n : Nat) (ref : Expr) (tgt : Place) (x : Expr) : Stmt :=
  .decl (.temp c!"cast" n c!"_str") (.asString x)
    (.duration (tmp c!"error" n) (tmp c!"cast" n) (.temp c!"cast" n c!"_str")
      (.ite (.not (.empty (.var (tmp c!"error" n)))) (report ref c!"Invalid duration: " (.var (tmp c!"error" n)))
        (.store tgt (.var (tmp c!"cast" n)))))

/-- The check of the size of an array (`/repo/mapry/cpp/generate/jsoncpp_impl.py:1392-1419`) -/
def checkSize (ref x : Expr) (op : Cmp) (which : Str) (size : Option Int) (body : Stmt) : Stmt :=
  match size with
  | none => body
  | some b => .ite (.cmp op (.size x) b)
      (report ref (c!"Expected an array of " ++ which ++ c!" size " ++ intStr b ++ c!", but got: ") (.toText (.size x))) body

/-- `/repo/mapry/cpp/generate/jsoncpp_impl.py:1357-1422` `_PARSE_ARRAY_TPL` -/
def arrayBody (n : Nat) (ref : Expr) (lo hi : Option Int) (tgt : Place) (x : Expr) (item : Stmt) : Stmt :=
  expect .array c!"an array" ref x (checkSize ref x .lt c!"minimum" lo (checkSize ref x .gt c!"maximum" hi
    (.ref (tmp c!"target" n) .vector tgt
      (.seq (.resize (tmp c!"target" n) (.size x))
        (.counter (tmp c!"i" n)
          (.forItems (tmp c!"item" n) x (.seq item (.seq (.incr (tmp c!"i" n)) (.ifFull .brk)))))))))

/-- `/repo/mapry/cpp/generate/jsoncpp_impl.py:1468-1501` `_PARSE_MAP_TPL` -/
def mapBody (n : Nat) (ref : Expr) (tgt : Place) (x : Expr) (item : Stmt) : Stmt :=
  expect .object c!"an object" ref x
    (.ref (tmp c!"target" n) .map tgt (.forMembers (tmp c!"it" n) x (.seq item (.ifFull .brk))))

/-- `/repo/mapry/cpp/generate/jsoncpp_impl.py:1544-1583` `_PARSE_CLASS_REF_TPL` -/
def classBody (n : Nat) (ref : Expr) (cls : Str) (registry : Var) (tgt : Place) (x : Expr) : Stmt :=
  expect .string c!"a string" ref x
    (.decl (tmp c!"cast" n) (.asString x)
      (.ite (.missing registry (.var (tmp c!"cast" n)))
        (report ref (c!"Reference to an instance of class " ++ cls ++ c!" not found: ") (.var (tmp c!"cast" n)))
        (.store tgt (.atGet registry (.var (tmp c!"cast" n))))))

/-- The settings of the generator within a function -/
structure Ctx where
  graph : Graph
  dateLib : DateLib
  /-- `registry_exprs` -/
  registry : Str → Except Exc Var

/-- A date, a time or a datetime: `_parse_date`, `_parse_time` and `_parse_date_time`
(`/repo/mapry/cpp/generate/jsoncpp_impl.py:1014-1177`) -/
def timeBody (D : DateLib) (k : TimeKind) (n : Nat) (ref : Expr) (format : Str) (tgt : Place) (x : Expr) : Stmt :=
  match D, k with
  | .ctime, _ => ctimeBody n ref format tgt x
  | .dateH, .time => timeOfDayBody n ref format tgt x
  | .dateH, k => dateBody n ref k format tgt x

/-- `/repo/mapry/cpp/generate/jsoncpp_impl.py:1673-1823` `_parse_value` and the functions it calls: the code to parse `e` into `tgt`.
The number is the next identifier of `_AutoID`. -/
def parseValue (ctx : Ctx) : Ty → (e : Expr) → (tgt : Place) → (ref : Expr) → Nat → Except Exc (Stmt × Nat)
  | .boolean, e, tgt, ref, n => .ok (bindValue e n fun x => expect .bool c!"a bool" ref x (.store tgt (.asBool x)), n + 1)
  | .integer bd, e, tgt, ref, n => .ok (bindValue e n fun x =>
      expect .int64 c!"an int64" ref x (numberBody n ref bd [] tgt (.asInt64 x)), n + 1)
  | .float bd, e, tgt, ref, n => .ok (bindValue e n fun x =>
      expect .double c!"a double" ref x (numberBody n ref bd c!".000000" tgt (.asDouble x)), n + 1)
  | .string p, e, tgt, ref, n => .ok (bindValue e n fun x =>
      expect .string c!"a string" ref x (textBody n ref tgt x (.var (tmp c!"cast" n)) p), n + 1)
  | .path p, e, tgt, ref, n => .ok (bindValue e n fun x =>
      expect .string c!"a string" ref x (textBody n ref tgt x (.asString x) p), n + 1)
  | .date f, e, tgt, ref, n => .ok (bindValue e n fun x =>
      expect .string c!"a string" ref x (timeBody ctx.dateLib .date n ref f tgt x), n + 1)
  | .time f, e, tgt, ref, n => .ok (bindValue e n fun x =>
      expect .string c!"a string" ref x (timeBody ctx.dateLib .time n ref f tgt x), n + 1)
  | .datetime f, e, tgt, ref, n => .ok (bindValue e n fun x =>
      expect .string c!"a string" ref x (timeBody ctx.dateLib .datetime n ref f tgt x), n + 1)
  | .timeZone, e, tgt, ref, n => .ok (bindValue e n fun x =>
      expect .string c!"a string" ref x
        (match ctx.dateLib with
        | .ctime => .store tgt (.asZone x)
        | .dateH => zoneBody n ref tgt x), n + 1)
  | .duration, e, tgt, ref, n => .ok (bindValue e n fun x =>
      expect .string c!"a string" ref x (durationBody n ref tgt x), n + 1)
  | .array y lo hi, e, tgt, ref, n => do
    let (item, m) ← parseValue ctx y (.var (tmp c!"item" n)) (.at (tmp c!"target" n) (tmp c!"i" n))
      (.cat (.cat ref (.text c!"/")) (.toText (.var (tmp c!"i" n)))) (n + 1)
    pure (bindValue e n fun x => arrayBody n ref lo hi tgt x item, m)
  | .map y, e, tgt, ref, n => do
    let (item, m) ← parseValue ctx y (.deref (tmp c!"it" n)) (.key (tmp c!"target" n) (tmp c!"it" n))
      (.cat (.cat ref (.text c!"/")) (.name (tmp c!"it" n))) (n + 1)
    pure (bindValue e n fun x => mapBody n ref tgt x item, m)
  | .cls c, e, tgt, ref, n => do
    let registry ← ctx.registry c
    pure (bindValue e n fun x => classBody n ref c registry tgt x, n + 1)
  | .embed name, e, tgt, ref, n => do
    let refs ← referencesOf ctx.graph (.embed name)
    let registries ← refs.mapM ctx.registry
    let f ← asVariable name
    pure (bindValue e n fun x => .call (f ++ c!"_from") name x registries ref tgt, n + 1)

/-- `/repo/mapry/cpp/generate/jsoncpp_impl.py:1826-1909` `_parse_property` -/
def parseProperty (ctx : Ctx) (p : Property) (n : Nat) : Except Exc (Stmt × Nat) := do
  let f ← asAttribute p.name
  let wrapped := p.optional && CppRuntime.needsEmplace p.ty
  let (code, m) ← parseValue ctx p.ty (.member (.var value) p.json) (if wrapped then .star (.arrow f) else .arrow f)
    (.cat (.var refVar) (.text (c!"/" ++ p.json))) n
  if p.optional then
    pure (.ite (.isMember (.var value) p.json) (if wrapped then .seq (.emplace (.arrow f)) code else code) .skip, m)
  else
    pure (.ite (.not (.isMember (.var value) p.json)) (.add (.var refVar) (.text (c!"Property is missing: " ++ p.json))) code, m)

/-- The properties one after another (`/repo/mapry/cpp/generate/jsoncpp_impl.py:1937-1943`) -/
def parseProps (ctx : Ctx) : List Property → Nat → Except Exc Stmt
  | [], _ => .ok .skip
  | p :: ps, n => do
    let (code, m) ← parseProperty ctx p n
    let rest ← parseProps ctx ps m
    pure (.seq code (.seq (.ifFull .ret) rest))

/-- `{plural}_registry` of a class, as a parameter (`/repo/mapry/cpp/generate/jsoncpp_impl.py:1916-1920`) -/
def registryParam (g : Graph) (name : Str) : Except Exc Var :=
  match g.cls? name with
  | some c => do pure (.own .registry (← asVariable c.plural) c!"_registry")
  | none => .error .keyError

/-- `registry_exprs` of a class or an embed (`/repo/mapry/cpp/generate/jsoncpp_impl.py:1958-1964`) -/
def registryVar (g : Graph) (refs : List Str) (name : Str) : Except Exc Var :=
  if name ∈ refs then registryParam g name else .error .keyError

/-- `/repo/mapry/cpp/generate/jsoncpp_impl.py:1912-1986` `_parse_composite` -/
def parseComposite (g : Graph) (D : DateLib) (o : Owner) (name : Str) (ps : List Property) : Except Exc Func := do
  let refs ← referencesOf g o
  let registries ← refs.mapM (registryParam g)
  let props ← parseProps ⟨g, D, registryVar g refs⟩ ps 0
  let f ← asVariable name
  pure
    { name := f ++ c!"_from"
      registries := registries
      ty := name
      members := CppRuntime.zeroFields ps
      body := .seq (.ite (.not (.is .object (.var value)))
          (.seq (report (.var refVar) c!"Expected an object, but got: " (.typeText (.var value))) .ret) .skip) props }

/-- The functions for the classes and the embeddable structures (`/repo/mapry/cpp/generate/jsoncpp_impl.py:2862-2867` in `generate`) -/
def reader (g : Graph) (D : DateLib) : Except Exc Program := do
  let classes ← g.classes.mapM fun c => parseComposite g D (.cls c.name) c.name c.properties
  let embeds ← g.embeds.mapM fun e => parseComposite g D (.embed e.name) e.name e.properties
  pure (classes ++ embeds)

end Mapry.CppRead
