import Verif.CppLang
import Verif.CppCode

/-!
# The generated C++ code of the serializer

The code which `mapry/cpp/generate/jsoncpp_impl.py` generates in order to serialize, statement by statement, in the language of
`Verif/CppLang.lean`. `Verif/CppCode.lean` describes the same code by its names and types. Comments, `tm_to_string`
(`CppRuntime.tmToString`) and `duration_to_string` (`Duration.cppToString`) are left out.
-/

namespace Mapry.CppGen

open Mapry.CppLang Mapry.TypeGraph Mapry.Naming Mapry.ParseSchema
open Mapry.CppCode (Var objVar asValue pluralValue)
open Mapry.CppRuntime (DateLib)

/-- The setting `datetime_library` (`/repo/mapry/cpp/generate/jsoncpp_impl.py:2358-2370`, `2400-2412`, `2427-2435`) -/
def dateLib (cpp : Cpp) : Except Exc DateLib := do
  pure (if ← CppCode.dateH cpp then .dateH else .ctime)

/-- `{base}_{uid}` -/
def temp (base : Str) (n : Nat) : Var := .temp base n []

/-- `_SERIALIZE_CTIME_TPL`, `_SERIALIZE_DATE_TIME_TPL` and `_SERIALIZE_TIME_TPL`
(`/repo/mapry/cpp/generate/jsoncpp_impl.py:2321-2341`, `2373-2382`): an empty format gives an empty text. -/
def serializeTime (x : Var) (key : Expr) (format : Str) (e : Expr) : Stmt :=
  .assign x key (.val (if format = [] then .text [] else e))

/-- `/repo/mapry/cpp/generate/jsoncpp_impl.py:2527-2597` `_serialize_value` and the functions it calls: the code to serialize the
value into `x[key]`. The number is the next identifier of `_AutoID`. -/
def serializeValue (cpp : Cpp) : Ty → (x : Var) → (key value : Expr) → Nat → Except Exc (Stmt × Nat)
  | .boolean, x, key, e, n => .ok (.assign x key (.val e), n)
  | .integer _, x, key, e, n => .ok (.assign x key (.val e), n)
  | .float _, x, key, e, n => .ok (.assign x key (.val e), n)
  | .string _, x, key, e, n => .ok (.assign x key (.val e), n)
  | .path _, x, key, e, n => .ok (.assign x key (.val (.string e)), n)
  -- lines 2345-2370
  | .date f, x, key, e, n => do
    let D ← dateLib cpp
    pure (serializeTime x key f (match D with | .ctime => .tmText e f | .dateH => .dateFormat f e), n)
  -- lines 2386-2412
  | .time f, x, key, e, n => do
    let D ← dateLib cpp
    pure (serializeTime x key f (match D with | .ctime => .tmText e f | .dateH => .dateFormat f (.toDuration e)), n)
  | .datetime f, x, key, e, n => do
    let D ← dateLib cpp
    pure (serializeTime x key f (match D with | .ctime => .tmText e f | .dateH => .dateFormat f e), n)
  -- lines 2416-2435
  | .timeZone, x, key, e, n => do
    let D ← dateLib cpp
    pure (.assign x key (.val (match D with | .ctime => e | .dateH => .name e)), n)
  | .duration, x, key, e, n => .ok (.assign x key (.val (.durationText e)), n)
  -- lines 2438-2480
  | .array t _ _, x, key, e, n => do
    let (body, m) ← serializeValue cpp t (temp c!"target" n) (.var (temp c!"i" n))
      (.index (.var (temp c!"vector" n)) (.var (temp c!"i" n))) (n + 1)
    pure (.seq (.json (temp c!"target" n) (some .array))
      (.seq (.auto (temp c!"vector" n) e)
      (.seq (.forCount (temp c!"i" n) (temp c!"vector" n) body)
      (.assign x key (.move (temp c!"target" n))))), m)
  -- lines 2483-2523
  | .map t, x, key, e, n => do
    let (body, m) ← serializeValue cpp t (temp c!"target" n) (.dot (.var (temp c!"kv" n)) c!"first")
      (.dot (.var (temp c!"kv" n)) c!"second") (n + 1)
    pure (.seq (.json (temp c!"target" n) (some .object))
      (.seq (.auto (temp c!"map" n) e)
      (.seq (.forEach (temp c!"kv" n) (.var (temp c!"map" n)) body)
      (.assign x key (.move (temp c!"target" n))))), m)
  | .cls _, x, key, e, n => .ok (.assign x key (.val (.arrow e c!"id")), n)
  | .embed name, x, key, e, n => do
    let f ← asVariable name
    pure (.assign x key (.call (c!"serialize_" ++ f) e), n)

/-- `/repo/mapry/cpp/generate/jsoncpp_impl.py:2600-2647` `_serialize_property`, called in lines 2684-2694 and 2770-2781 for the
composite with the variable name `f`: the member has the name of the property as it is. -/
def serializeProperty (cpp : Cpp) (f : Str) (p : Property) (n : Nat) : Except Exc (Stmt × Nat) := do
  let value : Expr := .dot (.var (objVar f)) p.name
  if p.optional then do
    let (code, m) ← serializeValue cpp p.ty (asValue f) (.text p.json) (.star value) n
    pure (.when value code, m)
  else serializeValue cpp p.ty (asValue f) (.text p.json) value n

/-- The properties one after another -/
def serializeProps (cpp : Cpp) (f : Str) : List Property → Nat → Except Exc Stmt
  | [], _ => .ok .skip
  | p :: ps, n => do
    let (code, m) ← serializeProperty cpp f p n
    let rest ← serializeProps cpp f ps m
    pure (.seq code rest)

/-- `/repo/mapry/cpp/generate/jsoncpp_impl.py:2650-2700` `_serialize_class_or_embed` -/
def serializeComposite (cpp : Cpp) (name : Str) (ps : List Property) : Except Exc Func := do
  let f ← asVariable name
  let composite ← asComposite name
  let props ← serializeProps cpp f ps 0
  pure ⟨c!"serialize_" ++ f, objVar f, composite,
    if ps.length = 0 then .ret (.kind .object)
    else .seq (.json (asValue f) none) (.seq props (.ret (.var (asValue f))))⟩

def v (x : Str) : Expr := .var (.fixed x)

/-- `instance->id` -/
def instanceId : Expr := .arrow (v c!"instance") c!"id"

/-- `/repo/mapry/cpp/generate/jsoncpp_impl.py:2723-2741`: the exception for an instance under another identifier than its own. The
literals are joined by the compiler. -/
def throwDiffers (composite : Str) : Stmt :=
  .seq (.auto (.fixed c!"expected") (.text (c!"Expected the class instance of " ++ composite ++ c!"to have the ID ")))
    (.seq (.auto (.fixed c!"but_got") (.text c!", but got: "))
    (.seq (.message (.fixed c!"msg"))
    (.seq (.reserve (.fixed c!"msg") (.plus (.plus (.plus (.strlen (v c!"expected")) (.size (v c!"id"))) (.strlen (v c!"but_got")))
      (.size instanceId)))
    (.seq (.append (.fixed c!"msg") (v c!"expected"))
    (.seq (.append (.fixed c!"msg") (v c!"id"))
    (.seq (.append (.fixed c!"msg") (v c!"but_got"))
    (.seq (.append (.fixed c!"msg") instanceId)
    (.throw (.fixed c!"msg")))))))))

/-- The body of the loop over the instances (`/repo/mapry/cpp/generate/jsoncpp_impl.py:2719-2745`) -/
def instanceBody (pv : Var) (cf composite : Str) : Stmt :=
  .seq (.string (.fixed c!"id") (.dot (v c!"kv") c!"first"))
    (.seq (.pointer (.fixed c!"instance") composite (.get (.dot (v c!"kv") c!"second")))
    (.seq (.when (.ne (v c!"id") instanceId) (throwDiffers composite))
    (.assign pv instanceId (.call (c!"serialize_" ++ cf) (.star (v c!"instance"))))))

/-- The serialization of the instances of a class (`/repo/mapry/cpp/generate/jsoncpp_impl.py:2714-2750`) in the graph with the
variable name `f` -/
def serializeInstances (f : Str) (c : Class) : Except Exc Stmt := do
  let plural ← asVariable c.plural
  let key ← jsonPlural c.plural
  let composite ← asComposite c.name
  let cf ← asVariable c.name
  let registry : Expr := .dot (.var (objVar f)) plural
  let pv : Var := pluralValue plural
  pure (.when (.not (.empty registry))
    (.seq (.json pv none)
    (.seq (.forEach (.fixed c!"kv") registry (instanceBody pv cf composite))
    (.assign (asValue f) (.text key) (.val (.var pv))))))

/-- The classes one after another -/
def sequence : List Stmt → Stmt
  | [] => .skip
  | s :: ss => .seq s (sequence ss)

/-- `/repo/mapry/cpp/generate/jsoncpp_impl.py:2703-2785` `_serialize_graph` -/
def serializeGraph (g : Graph) (cpp : Cpp) : Except Exc Func := do
  let f ← asVariable g.name
  let composite ← asComposite g.name
  let props ← serializeProps cpp f g.properties 0
  let instances ← g.classes.mapM (serializeInstances f)
  pure ⟨c!"serialize_" ++ f, objVar f, composite,
    if g.properties.length = 0 && g.classes.length = 0 then .ret (.kind .object)
    else .seq (.json (asValue f) none) (.seq props (.seq (sequence instances) (.ret (.var (asValue f)))))⟩

/-- The functions which serialize (`/repo/mapry/cpp/generate/jsoncpp_impl.py:2868-2885`) -/
def writer (g : Graph) (cpp : Cpp) : Except Exc Program := do
  let classes ← g.classes.mapM fun c => serializeComposite cpp c.name c.properties
  let embeds ← g.embeds.mapM fun e => serializeComposite cpp e.name e.properties
  let graph ← serializeGraph g cpp
  pure (classes ++ embeds ++ [graph])

end Mapry.CppGen
