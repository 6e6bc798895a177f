import Verif.CppRuntime
import Verif.CppScope

/-!
# The part of C++ in which the generated parser of the composites is written

Syntax and meaning of the statements which the templates for parsing values, properties and composites in
`mapry/cpp/generate/jsoncpp_impl.py` write (`Verif/CppReadGen.lean`). The meaning is an external specification: it follows the
C++ standard and the documentation of Jsoncpp, date.h and the C library.

* A function changes the structure which `target` points to, and the container of the errors. A reference or a pointer into the
  structure is the path which leads there from `*target`. Nothing else refers to the structure while the function runs, so that
  a called function works on the part which it gets and the part is put back.
* The values of the structure are those of `Verif/CppRuntime.lean`: the wrapper of an optional property is not represented and
  `zero` is the value after the initialisation.
* The registries are passed as `const` references. They are given by their class and their keys.
* A variable is the one which is meant; whether another one with the same text hides it is the subject of C77. The literals
  `expected_but_got` of the messages are not stored in a variable.
* The program is well typed (C77). What a well-typed program can not do raises `typeError`.
-/

namespace Mapry.CppRead

open Mapry.CppRuntime (JVal Val Time Lib TimeKind Fields setField itemsOf entriesOf entryOf)
open Mapry.CppCode (Var)

/-! ## Places -/

/-- A step from an object to a part of it -/
inductive Step where
  /-- a member of a structure -/
  | field (f : Str)
  /-- an item of a vector -/
  | item (i : Nat)
  /-- an entry of a map -/
  | key (k : Str)
  deriving DecidableEq, Repr

abbrev Path := List Step

/-- The part of an object -/
def Step.get : Step → Val → Val
  | .field f, .obj _ fields => (fields.lookup f).getD .zero
  | .field _, _ => .zero
  | .item i, v => (itemsOf v)[i]?.getD .zero
  | .key k, v => entryOf k (entriesOf v)

/-- The part is replaced. -/
def Step.put : Step → Val → Val → Val
  | .field f, x, .obj n fields => .obj n (setField f x fields)
  | .field _, _, v => v
  | .item i, x, v => .list ((itemsOf v).set i x)
  | .key k, x, v => .map (GoMap.put k x (entriesOf v))

/-- What is at the place -/
def get : Path → Val → Val
  | [], v => v
  | s :: p, v => get p (s.get v)

/-- Something is stored at the place. -/
def put : Path → Val → Val → Val
  | [], x, _ => x
  | s :: p, x, v => s.put (put p x (s.get v)) v

/-! ## Syntax -/

/-- The kinds which are tested: `isBool`, `isInt64`, `isDouble`, `isString`, `isArray`, `isObject` -/
inductive Kind where
  | bool | int64 | double | string | array | object
  deriving DecidableEq, Repr

inductive Cmp where
  | lt | le | gt | ge
  deriving DecidableEq, Repr

/-- An expression -/
inductive Expr where
  | var (x : Var)
  | text (s : Str)
  | bool (b : Bool)
  /-- the texts one after another: `std::string(a).append(b)` or `message(a, strlen(a), b)` -/
  | cat (a b : Expr)
  /-- `e[key]` of a `Json::Value` -/
  | member (e : Expr) (key : Str)
  /-- `*it` -/
  | deref (it : Var)
  /-- `it.name()` -/
  | name (it : Var)
  | asBool (e : Expr)
  | asInt64 (e : Expr)
  | asDouble (e : Expr)
  | asString (e : Expr)
  /-- `e.asString()`, which is stored as a time zone with `ctime` -/
  | asZone (e : Expr)
  /-- `value_type_to_string(e.type())` -/
  | typeText (e : Expr)
  /-- `std::to_string(e)` -/
  | toText (e : Expr)
  /-- `e.size()` of a `Json::Value` -/
  | size (e : Expr)
  | is (k : Kind) (e : Expr)
  | isMember (e : Expr) (key : Str)
  /-- `e < bound` and so on -/
  | cmp (op : Cmp) (e : Expr) (bound : Int)
  /-- `std::regex_match(e, std::regex(pattern))` -/
  | matches (pattern : Str) (e : Expr)
  | not (e : Expr)
  /-- `ret == nullptr or *ret != '\0'` -/
  | notAll (ret : Var)
  /-- `iss.fail()` -/
  | fail (iss : Var)
  /-- `e.empty()` of a text -/
  | empty (e : Expr)
  /-- `registry.count(e) == 0` -/
  | missing (registry : Var) (e : Expr)
  /-- `registry.at(e).get()` -/
  | atGet (registry : Var) (e : Expr)
  /-- `std::istringstream(e)` -/
  | stream (e : Expr)
  /-- `date::make_time(e)` -/
  | makeTime (e : Expr)
  deriving DecidableEq, Repr

/-- An expression which denotes a place -/
inductive Place where
  /-- `target->f` -/
  | arrow (f : Str)
  /-- a reference -/
  | var (x : Var)
  /-- `x.at(i)` -/
  | at (x i : Var)
  /-- `x[it.name()]` -/
  | key (x it : Var)
  /-- `*e` of an optional value -/
  | star (e : Place)
  deriving DecidableEq, Repr

/-- The type of a reference -/
inductive Shape where
  | vector
  | map
  deriving DecidableEq, Repr

/-- What a reference of the type refers to: a member to which nothing has been assigned is an empty vector or an empty map. -/
def Shape.of : Shape → Val → Val
  | .vector, v => .list (itemsOf v)
  | .map, v => .map (entriesOf v)

/-- A statement. The scope of a declaration is the statement in it. -/
inductive Stmt where
  | skip
  | seq (a b : Stmt)
  /-- `T x = e;` -/
  | decl (x : Var) (e : Expr) (body : Stmt)
  /-- `T& x = place;` where the type is a vector or a map -/
  | ref (x : Var) (shape : Shape) (pl : Place) (body : Stmt)
  /-- `size_t x = 0;` -/
  | counter (x : Var) (body : Stmt)
  /-- `tm tm = tm{0}; char* ret = strptime(cast.c_str(), format, &tm);` -/
  | strptime (ret tm cast : Var) (format : Str) (body : Stmt)
  /-- `std::string error; auto cast = duration_from_string(text, &error);` -/
  | duration (error cast text : Var) (body : Stmt)
  /-- `std::chrono::seconds x;` -/
  | seconds (x : Var) (body : Stmt)
  /-- `x = e;` of a variable -/
  | set (x : Var) (e : Expr)
  /-- `++x;` -/
  | incr (x : Var)
  /-- `place = e;` -/
  | store (pl : Place) (e : Expr)
  /-- `x.resize(e.size());` -/
  | resize (x : Var) (e : Expr)
  /-- `place.emplace();` -/
  | emplace (pl : Place)
  /-- `iss >> date::parse(format, place);` -/
  | extract (iss : Var) (k : TimeKind) (format : Str) (pl : Place)
  /-- `iss >> date::parse(format, x);` of a variable -/
  | extractTo (iss : Var) (k : TimeKind) (format : Str) (x : Var)
  /-- `try { place = date::locate_zone(cast); } catch (const std::runtime_error& e) { handler }` -/
  | locateZone (pl : Place) (cast : Var) (handler : Stmt)
  /-- `errors->add(ref, message);` -/
  | add (ref message : Expr)
  | ite (c : Expr) (a b : Stmt)
  /-- `if (errors->full()) { a }` -/
  | ifFull (a : Stmt)
  /-- `for (const Json::Value& x : e) { body }` -/
  | forItems (x : Var) (e : Expr) (body : Stmt)
  /-- `for (Json::ValueConstIterator x = e.begin(); x != e.end(); ++x) { body }` -/
  | forMembers (x : Var) (e : Expr) (body : Stmt)
  | brk
  | ret
  /-- `f(e, registries, ref, &place, errors);` where the place is a `ty` -/
  | call (f ty : Str) (e : Expr) (registries : List Var) (ref : Expr) (pl : Place)
  deriving DecidableEq, Repr

/-- A function which parses a composite. The parameters are `value`, the registries, `ref`, `target` and `errors`. -/
structure Func where
  name : Str
  registries : List Var
  /-- the type of `*target` -/
  ty : Str
  /-- the members of a new structure -/
  members : Fields
  body : Stmt

abbrev Program := List Func

/-! ## Meaning -/

/-- The value of a variable or of an expression -/
inductive RV where
  /-- a variable which is not initialized -/
  | void
  | json (j : JVal)
  | text (s : Str)
  | int (i : Int)
  | float (f : F64)
  | bool (b : Bool)
  | time (t : Time)
  | duration (d : Int)
  | zone (s : Str)
  /-- a `char*`: null or the rest of the text -/
  | chars (s : Option Str)
  /-- a stream: what is left to read, and whether it has failed -/
  | stream (s : Str) (failed : Bool)
  /-- a reference or a pointer into the structure -/
  | place (p : Path)
  /-- a registry: the class and the keys -/
  | registry (cls : Str) (ids : List Str)
  /-- an iterator: the name of the member and the member -/
  | iter (k : Str) (j : JVal)
  /-- a pointer to an instance -/
  | instance (cls id : Str)

/-- The variables, the last one declared first -/
abbrev Env := List (Var × RV)

def getVar (ρ : Env) (x : Var) : Except Exc RV :=
  match ρ.lookup x with
  | some v => .ok v
  | none => .error .typeError

/-- The variable is changed. -/
def setVar (x : Var) (v : RV) : Env → Env
  | [] => []
  | (y, w) :: rest => if y = x then (y, v) :: rest else (y, w) :: setVar x v rest

def RV.toJson : RV → Except Exc JVal
  | .json j => .ok j
  | _ => .error .typeError

def RV.toStr : RV → Except Exc Str
  | .text s => .ok s
  | _ => .error .typeError

def RV.toBool : RV → Except Exc Bool
  | .bool b => .ok b
  | _ => .error .typeError

def RV.toInt : RV → Except Exc Int
  | .int i => .ok i
  | _ => .error .typeError

def RV.toPath : RV → Except Exc Path
  | .place p => .ok p
  | _ => .error .typeError

/-- The value as it is stored in the structure -/
def RV.toVal : RV → Except Exc Val
  | .bool b => .ok (.bool b)
  | .int i => .ok (.int i)
  | .float f => .ok (.float f)
  | .text s => .ok (.str s)
  | .time t => .ok (.time t)
  | .duration d => .ok (.duration d)
  | .zone z => .ok (.zone z)
  | .instance c id => .ok (.ref c id)
  | _ => .error .typeError

/-- `Json::Value::is...` -/
def isKind : Kind → JVal → Bool
  | .bool, .bool _ => true
  | .int64, j => (CppRuntime.asInt64 j).isSome
  | .double, j => (CppRuntime.asDouble j).isSome
  | .string, .str _ => true
  | .array, .arr _ => true
  | .object, .obj _ => true
  | _, _ => false

/-- `Json::LogicError` -/
def logicError : Exc := .runtimeError c!"Json::LogicError"

def asBool : JVal → Except Exc Bool
  | .bool b => .ok b
  | _ => .error logicError

def asInt64 (j : JVal) : Except Exc Int :=
  match CppRuntime.asInt64 j with
  | some i => .ok i
  | none => .error logicError

def asDouble (j : JVal) : Except Exc F64 :=
  match CppRuntime.asDouble j with
  | some f => .ok f
  | none => .error logicError

def asString : JVal → Except Exc Str
  | .str s => .ok s
  | _ => .error logicError

/-- `e.size()` -/
def sizeOf : JVal → Int
  | .arr xs => xs.length
  | .obj kvs => kvs.length
  | _ => 0

/-- `e[key]`: null if there is no such member -/
def memberOf (key : Str) : JVal → Except Exc JVal
  | .obj kvs => .ok ((kvs.lookup key).getD .null)
  | .null => .ok .null
  | _ => .error logicError

def hasMember (key : Str) : JVal → Except Exc Bool
  | .obj kvs => .ok (kvs.lookup key).isSome
  | .null => .ok false
  | _ => .error logicError

/-- `std::to_string` -/
def toText (L : Lib) : RV → Except Exc Str
  | .int i => .ok (Duration.intStr i)
  | .float f => .ok (L.doubleStr f)
  | _ => .error .typeError

def cmpInt : Cmp → Int → Int → Bool
  | .lt, a, b => decide (a < b)
  | .le, a, b => decide (a ≤ b)
  | .gt, a, b => decide (b < a)
  | .ge, a, b => decide (b ≤ a)

/-- The integral constant is converted to a double. -/
def cmpFloat : Cmp → F64 → Int → Bool
  | .lt, f, b => CppRuntime.floatBelow true b f
  | .le, f, b => CppRuntime.floatBelow false b f
  | .gt, f, b => CppRuntime.floatAbove true b f
  | .ge, f, b => CppRuntime.floatAbove false b f

def compare (op : Cmp) (b : Int) : RV → Except Exc Bool
  | .int i => .ok (cmpInt op i b)
  | .float f => .ok (cmpFloat op f b)
  | _ => .error .typeError

section

variable (L : Lib)

/-- The value of an expression -/
def eval (ρ : Env) : Expr → Except Exc RV
  | .var x => getVar ρ x
  | .text s => .ok (.text s)
  | .bool b => .ok (.bool b)
  | .cat a b => do
    let s ← (← eval ρ a).toStr
    let t ← (← eval ρ b).toStr
    pure (.text (s ++ t))
  | .member e key => do pure (.json (← memberOf key (← (← eval ρ e).toJson)))
  | .deref it => do
    match ← getVar ρ it with
    | .iter _ j => pure (.json j)
    | _ => .error .typeError
  | .name it => do
    match ← getVar ρ it with
    | .iter k _ => pure (.text k)
    | _ => .error .typeError
  | .asBool e => do pure (.bool (← asBool (← (← eval ρ e).toJson)))
  | .asInt64 e => do pure (.int (← asInt64 (← (← eval ρ e).toJson)))
  | .asDouble e => do pure (.float (← asDouble (← (← eval ρ e).toJson)))
  | .asString e => do pure (.text (← asString (← (← eval ρ e).toJson)))
  | .asZone e => do pure (.zone (← asString (← (← eval ρ e).toJson)))
  | .typeText e => do pure (.text (CppRuntime.typeName (← (← eval ρ e).toJson)))
  | .toText e => do pure (.text (← toText L (← eval ρ e)))
  | .size e => do pure (.int (sizeOf (← (← eval ρ e).toJson)))
  | .is k e => do pure (.bool (isKind k (← (← eval ρ e).toJson)))
  | .isMember e key => do pure (.bool (← hasMember key (← (← eval ρ e).toJson)))
  | .cmp op e b => do pure (.bool (← compare op b (← eval ρ e)))
  | .matches p e => do pure (.bool (L.regexMatch p (← (← eval ρ e).toStr)))
  | .not e => do pure (.bool !(← (← eval ρ e).toBool))
  | .notAll x => do
    match ← getVar ρ x with
    | .chars (some []) => pure (.bool false)
    | .chars _ => pure (.bool true)
    | _ => .error .typeError
  | .fail x => do
    match ← getVar ρ x with
    | .stream _ b => pure (.bool b)
    | _ => .error .typeError
  | .empty e => do pure (.bool (← (← eval ρ e).toStr).isEmpty)
  | .missing x e => do
    let s ← (← eval ρ e).toStr
    match ← getVar ρ x with
    | .registry _ ids => pure (.bool (decide (s ∉ ids)))
    | _ => .error .typeError
  | .atGet x e => do
    let s ← (← eval ρ e).toStr
    match ← getVar ρ x with
    | .registry c ids => if s ∈ ids then pure (.instance c s) else .error .overflowError
    | _ => .error .typeError
  | .stream e => do pure (.stream (← (← eval ρ e).toStr) false)
  | .makeTime e => do
    match ← eval ρ e with
    | .time t => pure (.time t)
    | _ => .error .typeError

/-- The path of a place, and the structure afterwards: `x[key]` inserts a missing entry. -/
def locate (ρ : Env) (root : Val) : Place → Except Exc (Path × Val)
  | .arrow f => .ok ([.field f], root)
  | .var x => do pure (← (← getVar ρ x).toPath, root)
  | .at x i => do
    let p ← (← getVar ρ x).toPath
    let i ← (← getVar ρ i).toInt
    if 0 ≤ i ∧ i.toNat < (itemsOf (get p root)).length then pure (p ++ [.item i.toNat], root) else .error .overflowError
  | .key x it => do
    let p ← (← getVar ρ x).toPath
    match ← getVar ρ it with
    | .iter k _ =>
      let q := p ++ [.key k]
      pure (q, put q (get q root) root)
    | _ => .error .typeError
  | .star e => locate ρ root e

/-- The state: the variables, the structure and the container of the errors -/
structure St where
  env : Env
  root : Val
  errors : CppErrors

/-- How a statement ends -/
inductive Flow where
  | next
  | brk
  | ret
  deriving DecidableEq, Repr

abbrev Result := Except Exc (Flow × St)

/-- The innermost variable is left. -/
def St.leave (s : St) : St := { s with env := s.env.tail }

def leave : Result → Result
  | .ok (f, s) => .ok (f, s.leave)
  | .error e => .error e

/-- A loop: the variable has one value after another. -/
def loop (x : Var) (body : St → Result) : List RV → St → Result
  | [], s => .ok (.next, s)
  | v :: vs, s =>
    match leave (body { s with env := (x, v) :: s.env }) with
    | .ok (.next, s) => loop x body vs s
    | .ok (.brk, s) => .ok (.next, s)
    | .ok (.ret, s) => .ok (.ret, s)
    | .error e => .error e

/-- A call: the function, the type of the target, the value, the registries, the reference, the target and the errors. The result
is the target afterwards. -/
abbrev Call := Str → Str → JVal → List RV → Str → Val → CppErrors → Except Exc (Val × CppErrors)

/-- `duration_from_string(text, &error)` (`Verif/Duration.lean`): the message is in `error`. -/
def durationOf (s : Str) : Except Exc (Str × RV) :=
  match Duration.cppFromString (L.garbage s) s with
  | .value d => .ok ([], .duration d)
  | .error m => .ok (m ++ s, .void)
  | .throws => .error .overflowError

/-- A statement runs. -/
def exec (call : Call) : Stmt → St → Result
  | .skip, s => .ok (.next, s)
  | .seq a b, s =>
    match exec call a s with
    | .ok (.next, s) => exec call b s
    | r => r
  | .decl x e body, s => do
    let v ← eval L s.env e
    leave (exec call body { s with env := (x, v) :: s.env })
  | .ref x shape pl body, s => do
    let (p, root) ← locate s.env s.root pl
    leave (exec call body { s with env := (x, .place p) :: s.env, root := put p (shape.of (get p root)) root })
  | .counter x body, s => leave (exec call body { s with env := (x, .int 0) :: s.env })
  | .strptime ret tm cast format body, s => do
    let t ← (← getVar s.env cast).toStr
    let (time, rest) := match L.strptime format (CppRuntime.cStr t) with
      | some (time, rest) => (RV.time time, some rest)
      | none => (.void, none)
    leave (leave (exec call body { s with env := (ret, .chars rest) :: (tm, time) :: s.env }))
  | .duration error cast text body, s => do
    let t ← (← getVar s.env text).toStr
    let (m, v) ← durationOf L t
    leave (leave (exec call body { s with env := (cast, v) :: (error, .text m) :: s.env }))
  | .seconds x body, s => leave (exec call body { s with env := (x, .void) :: s.env })
  | .set x e, s => do
    let v ← eval L s.env e
    pure (.next, { s with env := setVar x v s.env })
  | .incr x, s => do
    let i ← (← getVar s.env x).toInt
    pure (.next, { s with env := setVar x (.int (i + 1)) s.env })
  | .store pl e, s => do
    let x ← (← eval L s.env e).toVal
    let (p, root) ← locate s.env s.root pl
    pure (.next, { s with root := put p x root })
  | .resize x e, s => do
    let p ← (← getVar s.env x).toPath
    let n ← (← eval L s.env e).toInt
    pure (.next, { s with root := put p (.list (CppRuntime.resize n.toNat (itemsOf (get p s.root)))) s.root })
  | .emplace pl, s => do
    let (p, root) ← locate s.env s.root pl
    pure (.next, { s with root := put p .zero root })
  | .extract iss k format pl, s => do
    let (p, root) ← locate s.env s.root pl
    match ← getVar s.env iss with
    | .stream t _ =>
      match L.dateParse k format t with
      | some (time, rest) =>
        pure (.next, { s with env := setVar iss (.stream rest false) s.env, root := put p (.time time) root })
      | none => pure (.next, { s with env := setVar iss (.stream t true) s.env, root := root })
    | _ => .error .typeError
  | .extractTo iss k format x, s => do
    match ← getVar s.env iss with
    | .stream t _ =>
      match L.dateParse k format t with
      | some (time, rest) => pure (.next, { s with env := setVar x (.time time) (setVar iss (.stream rest false) s.env) })
      | none => pure (.next, { s with env := setVar iss (.stream t true) s.env })
    | _ => .error .typeError
  | .locateZone pl cast handler, s => do
    let t ← (← getVar s.env cast).toStr
    match L.locateZone t with
    | some z => do
      let (p, root) ← locate s.env s.root pl
      pure (.next, { s with root := put p (.zone z) root })
    | none => exec call handler s
  | .add r m, s => do
    let r ← (← eval L s.env r).toStr
    let m ← (← eval L s.env m).toStr
    pure (.next, { s with errors := s.errors.add ⟨r, m⟩ })
  | .ite c a b, s => do
    let c ← (← eval L s.env c).toBool
    if c then exec call a s else exec call b s
  | .ifFull a, s => if s.errors.full then exec call a s else .ok (.next, s)
  | .forItems x e body, s => do
    match ← (← eval L s.env e).toJson with
    | .arr xs => loop x (exec call body) (xs.map .json) s
    | _ => .error .typeError
  | .forMembers x e body, s => do
    match ← (← eval L s.env e).toJson with
    | .obj kvs => loop x (exec call body) (kvs.map fun kv => .iter kv.1 kv.2) s
    | _ => .error .typeError
  | .brk, s => .ok (.brk, s)
  | .ret, s => .ok (.ret, s)
  | .call f ty e registries r pl, s => do
    let j ← (← eval L s.env e).toJson
    let args ← registries.mapM (getVar s.env)
    let r ← (← eval L s.env r).toStr
    let (p, root) ← locate s.env s.root pl
    let (x, errors) ← call f ty j args r (get p root) s.errors
    pure (.next, { s with root := put p x root, errors := errors })

def value : Var := .fixed c!"value"
def refVar : Var := .fixed c!"ref"

/-- The structure which is passed: a new one if nothing has been stored. -/
def pointee (F : Func) : Val → Val
  | .obj _ fields => .obj F.ty fields
  | _ => .obj F.ty F.members

/-- The function runs; `n` is the number of stack frames left. The type of the target selects among functions of the same name. -/
def run (P : Program) : Nat → Call
  | 0, _, _, _, _, _, _, _ => .error .recursionError
  | n + 1, f, ty, j, args, r, x, e =>
    match P.find? fun F => F.name == f && F.ty == ty with
    | none => .error .typeError
    | some F =>
      if F.registries.length = args.length then do
        let (_, s) ← exec L (run P n) F.body
          ⟨(value, .json j) :: (refVar, .text r) :: F.registries.zip args, pointee F x, e⟩
        pure (s.root, s.errors)
      else .error .typeError

end

end Mapry.CppRead
