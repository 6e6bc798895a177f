import Verif.CppRuntime
import Verif.CppScope

/-!
# The part of C++ in which the generated serializer is written

Syntax and meaning of the statements which the templates for serializing in `mapry/cpp/generate/jsoncpp_impl.py` write
(`Verif/CppGen.lean`). The meaning is an external specification: it follows the C++ standard and the documentation of Jsoncpp and
of date.h.

* The graph is passed as a `const` reference, and nothing refers to a variable which is changed. Hence the variables hold values:
  a reference or a pointer to a part of the graph is the part itself. Only the instances of the classes have an identity: a
  pointer is a location in the memory, which the serializer does not change.
* Variables are looked up from the innermost block outwards. The comparison of the names is a parameter (`same`): either the
  variable which is meant or the one with the same text (`Verif/CppScope.lean`).
* The program is well typed (C73). What a well-typed program can not do raises `typeError`. A structure carries the name of its
  type, by which an overloaded function is selected.
* Exceptions as in `Verif/CppRuntime.lean`. Dereferencing a null pointer, reading beyond the end of a vector and exceeding the
  range of `int` are undefined behaviour (`panic`). `Json::LogicError`, which Jsoncpp throws if a value has the wrong kind, is
  `runtimeError`.
* An `Json::Value` in an array at an index beyond its end: the array is filled with null.
-/

namespace Mapry.CppLang

open Mapry.CppRuntime (JVal Time Lib TimeKind tmToString byteLength)
open Mapry.CppCode (Var)

/-- A value -/
inductive Val where
  /-- a variable which is not initialized -/
  | void
  | bool (b : Bool)
  | int (i : Int)
  | float (f : F64)
  | str (s : Str)
  | path (s : Str)
  /-- `struct tm` -/
  | tm (t : Time)
  /-- `date::local_days` -/
  | day (t : Time)
  /-- `date::time_of_day<std::chrono::seconds>` -/
  | tod (t : Time)
  /-- `std::chrono::seconds` since midnight -/
  | secs (t : Time)
  /-- `date::local_seconds` -/
  | stamp (t : Time)
  /-- `const date::time_zone*`: the name, or null -/
  | zone (s : Option Str)
  /-- `std::chrono::nanoseconds` -/
  | nanos (d : Int)
  | vector (xs : List Val)
  /-- `std::map<std::string, T>` with ascending keys -/
  | map (kvs : List (Str × Val))
  /-- a pointer or a `std::unique_ptr` to an instance: its location, or null -/
  | ptr (l : Option Nat)
  | optional (x : Option Val)
  /-- a structure: its type and its members -/
  | struct (ty : Str) (fields : List (Str × Val))
  | json (j : JVal)

/-- `Json::arrayValue` and `Json::objectValue` -/
inductive Kind where
  | array
  | object
  deriving DecidableEq, Repr

def Kind.empty : Kind → JVal
  | .array => .arr []
  | .object => .obj []

/-- An expression -/
inductive Expr where
  | var (x : Var)
  /-- a literal -/
  | text (s : Str)
  | kind (k : Kind)
  /-- `e.f` -/
  | dot (e : Expr) (f : Str)
  /-- `e->f` of a pointer to an instance -/
  | arrow (e : Expr) (f : Str)
  /-- `*e` of a pointer to an instance or of an optional value -/
  | star (e : Expr)
  /-- `e[i]` of a vector -/
  | index (e i : Expr)
  /-- `e.string()` of a path -/
  | string (e : Expr)
  /-- `e.to_duration()` -/
  | toDuration (e : Expr)
  /-- `e->name()` of a time zone -/
  | name (e : Expr)
  /-- `e.empty()` of a map -/
  | empty (e : Expr)
  /-- `e.size()` of a text -/
  | size (e : Expr)
  /-- `e.get()` of a `std::unique_ptr` -/
  | get (e : Expr)
  /-- `date::format(format, e)` -/
  | dateFormat (format : Str) (e : Expr)
  /-- `tm_to_string(e, format)` -/
  | tmText (e : Expr) (format : Str)
  /-- `duration_to_string(e)` -/
  | durationText (e : Expr)
  /-- `strlen(e)` -/
  | strlen (e : Expr)
  | plus (a b : Expr)
  /-- `a != b` of texts -/
  | ne (a b : Expr)
  /-- `!e` -/
  | not (e : Expr)
  deriving DecidableEq, Repr

/-- The right-hand side of an assignment -/
inductive Rhs where
  | val (e : Expr)
  /-- `std::move(x)` -/
  | move (x : Var)
  /-- the call of a generated function -/
  | call (f : Str) (e : Expr)
  deriving DecidableEq, Repr

/-- A statement -/
inductive Stmt where
  | skip
  | seq (a b : Stmt)
  /-- `Json::Value x;` or `Json::Value x(kind);` -/
  | json (x : Var) (k : Option Kind)
  /-- `const auto& x = e;` or `constexpr auto x(e);` -/
  | auto (x : Var) (e : Expr)
  /-- `const std::string& x = e;` -/
  | string (x : Var) (e : Expr)
  /-- `const T* x = e;` -/
  | pointer (x : Var) (ty : Str) (e : Expr)
  /-- `std::string x;` -/
  | message (x : Var)
  /-- `x.reserve(e);` -/
  | reserve (x : Var) (e : Expr)
  /-- `x += e;` of texts -/
  | append (x : Var) (e : Expr)
  /-- `throw std::invalid_argument(x);` -/
  | throw (x : Var)
  /-- `x[key] = rhs;` of a `Json::Value` -/
  | assign (x : Var) (key : Expr) (r : Rhs)
  /-- `if (c) { body }` -/
  | when (c : Expr) (body : Stmt)
  /-- `for (int i = 0; i < v.size(); ++i) { body }`; the body changes neither of the variables -/
  | forCount (i v : Var) (body : Stmt)
  /-- `for (const auto& x : e) { body }` of a map -/
  | forEach (x : Var) (e : Expr) (body : Stmt)
  /-- `return e;` -/
  | ret (e : Expr)
  deriving DecidableEq, Repr

/-- A function with one parameter, of the structure `ty`, which returns a `Json::Value` -/
structure Func where
  name : Str
  param : Var
  ty : Str
  body : Stmt
  deriving DecidableEq, Repr

abbrev Program := List Func

/-! ## Variables -/

/-- The variables with their values, the last one declared first -/
abbrev Env := List (Var × Val)

section

variable (same : Var → Var → Bool)

/-- The value of a variable -/
def Env.get (x : Var) : Env → Option Val
  | [] => none
  | (y, v) :: rest => if same y x then some v else Env.get x rest

/-- The variable is changed. -/
def Env.set (x : Var) (v : Val) : Env → Env
  | [] => []
  | (y, w) :: rest => if same y x then (y, v) :: rest else (y, w) :: Env.set x v rest

end

/-- The variables of a block are left, where `n` variables were declared before it. -/
def leave (n : Nat) (ρ : Env) : Env := ρ.drop (ρ.length - n)

/-! ## Expressions -/

/-- The value of a member -/
def member (f : Str) : Val → Except Exc Val
  | .struct _ fields =>
    match fields.lookup f with
    | some v => .ok v
    | none => .error .typeError
  | _ => .error .typeError

def nullPointer : Exc := .panic c!"null pointer"

/-- What a pointer points to -/
def pointee (heap : List Val) : Val → Except Exc Val
  | .ptr (some l) =>
    match heap[l]? with
    | some v => .ok v
    | none => .error (.panic c!"dangling pointer")
  | .ptr none => .error nullPointer
  | .optional (some v) => .ok v
  | .optional none => .error (.panic c!"empty optional")
  | _ => .error .typeError

/-- `e[i]` of a vector -/
def item : Val → Val → Except Exc Val
  | .vector xs, .int i =>
    match xs[i.toNat]? with
    | some v => if 0 ≤ i then .ok v else .error (.panic c!"index")
    | none => .error (.panic c!"index")
  | _, _ => .error .typeError

/-- `e.string()` -/
def pathText : Val → Except Exc Val
  | .path s => .ok (.str s)
  | _ => .error .typeError

/-- `e.to_duration()` -/
def toDuration : Val → Except Exc Val
  | .tod t => .ok (.secs t)
  | _ => .error .typeError

/-- `e->name()` -/
def zoneName : Val → Except Exc Val
  | .zone (some s) => .ok (.str s)
  | .zone none => .error nullPointer
  | _ => .error .typeError

/-- `e.empty()` -/
def isEmpty : Val → Except Exc Val
  | .map kvs => .ok (.bool kvs.isEmpty)
  | _ => .error .typeError

/-- `e.size()`, `strlen(e)` -/
def textSize : Val → Except Exc Val
  | .str s => .ok (.int (byteLength s))
  | _ => .error .typeError

/-- `e.get()` -/
def pointer : Val → Except Exc Val
  | .ptr l => .ok (.ptr l)
  | _ => .error .typeError

/-- `date::format` -/
def formatted (L : Lib) (format : Str) : Val → Except Exc Val
  | .day t => .ok (.str (L.dateFormat .date format t))
  | .secs t => .ok (.str (L.dateFormat .time format t))
  | .stamp t => .ok (.str (L.dateFormat .datetime format t))
  | _ => .error .typeError

/-- `tm_to_string`, whose text does not depend on the schema -/
def tmText (L : Lib) (format : Str) : Val → Except Exc Val
  | .tm t => (tmToString L t format).map .str
  | _ => .error .typeError

/-- `duration_to_string`, whose text does not depend on the schema -/
def durationText : Val → Except Exc Val
  | .nanos d =>
    match Duration.cppToString d with
    | some s => .ok (.str s)
    | none => .error (.runtimeError c!"std::overflow_error")
  | _ => .error .typeError

def sum : Val → Val → Except Exc Val
  | .int a, .int b => .ok (.int (a + b))
  | _, _ => .error .typeError

def differ : Val → Val → Except Exc Val
  | .str a, .str b => .ok (.bool (decide (a ≠ b)))
  | _, _ => .error .typeError

/-- The value of a condition -/
def truth : Val → Except Exc Bool
  | .bool b => .ok b
  | .optional x => .ok x.isSome
  | _ => .error .typeError

section

variable (same : Var → Var → Bool) (L : Lib) (heap : List Val)

/-- The value of an expression -/
def eval (ρ : Env) : Expr → Except Exc Val
  | .var x =>
    match Env.get same x ρ with
    | some v => .ok v
    | none => .error .typeError
  | .text s => .ok (.str s)
  | .kind k => .ok (.json k.empty)
  | .dot e f => do member f (← eval ρ e)
  | .arrow e f => do member f (← pointee heap (← eval ρ e))
  | .star e => do pointee heap (← eval ρ e)
  | .index e i => do
    let v ← eval ρ e
    item v (← eval ρ i)
  | .string e => do pathText (← eval ρ e)
  | .toDuration e => do toDuration (← eval ρ e)
  | .name e => do zoneName (← eval ρ e)
  | .empty e => do isEmpty (← eval ρ e)
  | .size e => do textSize (← eval ρ e)
  | .get e => do pointer (← eval ρ e)
  | .dateFormat f e => do formatted L f (← eval ρ e)
  | .tmText e f => do tmText L f (← eval ρ e)
  | .durationText e => do durationText (← eval ρ e)
  | .strlen e => do textSize (← eval ρ e)
  | .plus a b => do
    let v ← eval ρ a
    sum v (← eval ρ b)
  | .ne a b => do
    let v ← eval ρ a
    differ v (← eval ρ b)
  | .not e => do
    let b ← truth (← eval ρ e)
    pure (.bool !b)

/-! ## Statements -/

/-- The conversion to a `Json::Value` -/
def toJson : Val → Except Exc JVal
  | .bool b => .ok (.bool b)
  | .int i => .ok (.int i)
  | .float f => .ok (.real f)
  | .str s => .ok (.str s)
  | .json j => .ok j
  | _ => .error .typeError

/-- An item of an array is set. -/
def putItem : Nat → JVal → List JVal → List JVal
  | 0, j, [] => [j]
  | 0, j, _ :: xs => j :: xs
  | n + 1, j, [] => .null :: putItem n j []
  | n + 1, j, x :: xs => x :: putItem n j xs

/-- `value[key] = j` on a `Json::Value`: null becomes an array or an object. -/
def putAt (key : Val) (j : JVal) (value : JVal) : Except Exc JVal :=
  match key, value with
  | .str k, .null => .ok (.obj [(k, j)])
  | .str k, .obj kvs => .ok (.obj (GoMap.put k j kvs))
  | .int i, .null => if 0 ≤ i then .ok (.arr (putItem i.toNat j [])) else .error (.runtimeError c!"Json::LogicError")
  | .int i, .arr xs => if 0 ≤ i then .ok (.arr (putItem i.toNat j xs)) else .error (.runtimeError c!"Json::LogicError")
  | .str _, _ => .error (.runtimeError c!"Json::LogicError")
  | .int _, _ => .error (.runtimeError c!"Json::LogicError")
  | _, _ => .error .typeError

/-- A `Json::Value` in a variable -/
def jsonOf (x : Var) (ρ : Env) : Except Exc JVal :=
  match Env.get same x ρ with
  | some (.json j) => .ok j
  | _ => .error .typeError

/-- A text in a variable -/
def textOf (x : Var) (ρ : Env) : Except Exc Str :=
  match Env.get same x ρ with
  | some (.str s) => .ok s
  | _ => .error .typeError

/-- The items of a vector in a variable -/
def vectorOf (x : Var) (ρ : Env) : Except Exc (List Val) :=
  match Env.get same x ρ with
  | some (.vector xs) => .ok xs
  | _ => .error .typeError

/-- The entries of a map -/
def entriesOf : Val → Except Exc (List (Str × Val))
  | .map kvs => .ok kvs
  | _ => .error .typeError

/-- `std::pair<const std::string, T>` -/
def pairOf (kv : Str × Val) : Val := .struct c!"std::pair" [(c!"first", .str kv.1), (c!"second", kv.2)]

/-- What a statement leads to: the variables after it, and the result if the function returns. -/
abbrev Flow := Env × Option JVal

/-- One iteration after another, unless the function returns -/
def loop {α : Type} (step : α → Env → Except Exc Flow) : List α → Env → Except Exc Flow
  | [], ρ => .ok (ρ, none)
  | a :: as, ρ => do
    let (ρ', r) ← step a ρ
    match r with
    | some j => pure (ρ', some j)
    | none => loop step as ρ'

/-- The variables of a block are left. -/
def block (n : Nat) : Flow → Flow
  | (ρ, r) => (leave n ρ, r)

/-- The largest `int` -/
def maxInt : Nat := 2147483647

/-- `call` runs a generated function. A variable is declared before the expression which initializes it. -/
def exec (call : Str → Val → Except Exc JVal) : Stmt → Env → Except Exc Flow
  | .skip, ρ => .ok (ρ, none)
  | .seq a b, ρ => do
    let (ρ', r) ← exec call a ρ
    match r with
    | some j => pure (ρ', some j)
    | none => exec call b ρ'
  | .json x none, ρ => .ok ((x, .json .null) :: ρ, none)
  | .json x (some k), ρ => .ok ((x, .json k.empty) :: ρ, none)
  | .auto x e, ρ => do
    let v ← eval same L heap ((x, .void) :: ρ) e
    pure ((x, v) :: ρ, none)
  | .string x e, ρ => do
    let v ← eval same L heap ((x, .void) :: ρ) e
    pure ((x, v) :: ρ, none)
  | .pointer x _ e, ρ => do
    let v ← eval same L heap ((x, .void) :: ρ) e
    pure ((x, v) :: ρ, none)
  | .message x, ρ => .ok ((x, .str []) :: ρ, none)
  | .reserve x e, ρ => do
    let _ ← textOf same x ρ
    let _ ← eval same L heap ρ e
    pure (ρ, none)
  | .append x e, ρ => do
    let s ← textOf same x ρ
    match ← eval same L heap ρ e with
    | .str t => pure (Env.set same x (.str (s ++ t)) ρ, none)
    | _ => .error .typeError
  | .throw x, ρ => do
    let s ← textOf same x ρ
    .error (.valueError s)
  | .assign x key (.val e), ρ => do
    let v ← eval same L heap ρ e
    let j ← toJson v
    let k ← eval same L heap ρ key
    let old ← jsonOf same x ρ
    pure (Env.set same x (.json (← putAt k j old)) ρ, none)
  | .assign x key (.move y), ρ => do
    let j ← jsonOf same y ρ
    let k ← eval same L heap ρ key
    let old ← jsonOf same x ρ
    pure (Env.set same x (.json (← putAt k j old)) ρ, none)
  | .assign x key (.call f e), ρ => do
    let v ← eval same L heap ρ e
    let j ← call f v
    let k ← eval same L heap ρ key
    let old ← jsonOf same x ρ
    pure (Env.set same x (.json (← putAt k j old)) ρ, none)
  | .when c body, ρ => do
    let b ← truth (← eval same L heap ρ c)
    if b then do
      let r ← exec call body ρ
      pure (block ρ.length r)
    else pure (ρ, none)
  | .forCount i v body, ρ => do
    let xs ← vectorOf same v ((i, .int 0) :: ρ)
    -- the counter is increased beyond its range
    if maxInt < xs.length then .error (.panic c!"int")
    else loop (fun (n : Nat) ρ => do
      let r ← exec call body ((i, .int n) :: ρ)
      pure (block ρ.length r)) (List.range xs.length) ρ
  | .forEach x e body, ρ => do
    let v ← eval same L heap ρ e
    let kvs ← entriesOf v
    loop (fun kv ρ => do
      let r ← exec call body ((x, pairOf kv) :: ρ)
      pure (block ρ.length r)) kvs ρ
  | .ret e, ρ => do
    let v ← eval same L heap ρ e
    let j ← toJson v
    pure (ρ, some j)

/-- The function which is called: the types of the parameter and of the argument are the same. -/
def select (P : Program) (f : Str) : Val → Option Func
  | .struct ty _ => P.find? fun g => g.name == f && g.ty == ty
  | _ => none

/-- The function runs with the argument; `n` is the number of stack frames left. -/
def run (P : Program) : Nat → Str → Val → Except Exc JVal
  | 0, _, _ => .error .recursionError
  | n + 1, f, v =>
    match select P f v with
    | none => .error .typeError
    | some g => do
      let (_, r) ← exec same L heap (run P n) g.body [(g.param, v)]
      match r with
      | some j => pure j
      | none => .error .typeError

end

end Mapry.CppLang
