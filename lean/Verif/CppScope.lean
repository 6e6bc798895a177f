import Verif.Text

/-!
# The rules of C++ on names and types

The rules by which a C++ compiler accepts the definitions of structures and functions, as far as the generated code
depends on the schema: every name has to be declared before it is used, a name may be declared once in a block, a
variable hides the functions and the types of the same name, the type of a value has to fit the place where it is
stored or passed, and a structure has to be complete where it is stored by value. Nothing here mentions the
generators.

Simplifications: the libraries (STL, Jsoncpp, date.h, Boost) are given by the signatures which the code uses;
`const`, references and value categories are not distinguished; macros are not considered.
-/

namespace Mapry.CppCode

/-- The keywords and the alternative tokens of C++17. -/
def keywords : List Str :=
  [c!"alignas", c!"alignof", c!"and", c!"and_eq", c!"asm", c!"auto", c!"bitand", c!"bitor", c!"bool", c!"break",
   c!"case", c!"catch", c!"char", c!"char16_t", c!"char32_t", c!"class", c!"compl", c!"const", c!"constexpr",
   c!"const_cast", c!"continue", c!"decltype", c!"default", c!"delete", c!"do", c!"double", c!"dynamic_cast",
   c!"else", c!"enum", c!"explicit", c!"export", c!"extern", c!"false", c!"float", c!"for", c!"friend", c!"goto",
   c!"if", c!"inline", c!"int", c!"long", c!"mutable", c!"namespace", c!"new", c!"noexcept", c!"not", c!"not_eq",
   c!"nullptr", c!"operator", c!"or", c!"or_eq", c!"private", c!"protected", c!"public", c!"register",
   c!"reinterpret_cast", c!"return", c!"short", c!"signed", c!"sizeof", c!"static", c!"static_assert",
   c!"static_cast", c!"struct", c!"switch", c!"template", c!"this", c!"thread_local", c!"throw", c!"true", c!"try",
   c!"typedef", c!"typeid", c!"typename", c!"union", c!"unsigned", c!"using", c!"virtual", c!"void", c!"volatile",
   c!"wchar_t", c!"while", c!"xor", c!"xor_eq"]

/-- What a variable which is named after the schema stands for. -/
inductive Role where
  /-- a class, an embed or the graph -/
  | composite
  /-- the instances of a class -/
  | registry
  deriving DecidableEq, Repr

/-- A parameter or a variable. Two variables with the same text are told apart in order to state that the lookup
finds the variable which is meant. -/
inductive Var where
  /-- a fixed text -/
  | fixed (x : Str)
  /-- `{base}_{uid}{after}` with an identifier of `_AutoID` -/
  | temp (base : Str) (uid : Nat) (after : Str)
  /-- a converted name of the schema followed by a fixed text -/
  | own (role : Role) (name after : Str)
  deriving DecidableEq, Repr

def Var.text : Var → Str
  | .fixed x => x
  | .temp b n a => b ++ '_' :: Text.natStr n ++ a
  | .own _ n a => n ++ a

/-- A type. -/
inductive CTy where
  | void | bool | char | int | size | int64 | double
  /-- `const char*` and literals -/
  | text
  /-- `char*` -/
  | chars
  | string
  /-- `std::filesystem::path` or `boost::filesystem::path` -/
  | path (boost : Bool)
  | tm
  /-- `date::local_days` -/
  | localDays
  /-- `date::time_of_day<std::chrono::seconds>` -/
  | timeOfDay
  /-- `date::local_seconds` -/
  | localSeconds
  /-- `const date::time_zone*` -/
  | zone
  | nanoseconds | seconds
  | vector (t : CTy)
  /-- `std::map<std::string, t>` -/
  | map (t : CTy)
  /-- `std::pair<const std::string, t>` -/
  | pair (t : CTy)
  /-- the optional type of the settings -/
  | optional (t : CTy)
  /-- a generated structure -/
  | struct (name : Str)
  /-- `std::unique_ptr<name>` of a generated structure -/
  | owner (name : Str)
  | ptr (t : CTy)
  /-- `Json::Value` -/
  | json
  /-- `Json::ValueConstIterator` -/
  | iter
  /-- `Json::ValueType` -/
  | valueType
  /-- `parse::Errors` -/
  | errors
  /-- the type of `nullptr` -/
  | null
  | regex
  /-- `std::istringstream` -/
  | stream
  /-- `std::runtime_error`, `std::invalid_argument` -/
  | exception
  deriving DecidableEq, Repr

/-- The generated structures named in a type. -/
def CTy.names : CTy → List Str
  | .vector t | .map t | .pair t | .optional t | .ptr t => t.names
  | .struct n | .owner n => [n]
  | _ => []

/-- The generated structures which have to be complete for a member of the type. A vector may be a member while its
values are incomplete (C++17), and a pointer may point to an incomplete structure; the standard makes no such
exception for the values of a map. -/
def CTy.stored : CTy → List Str
  | .map t | .pair t | .optional t => t.stored
  | .struct n => [n]
  | _ => []

/-- The unqualified names by which a type is written. -/
def CTy.unqualified : CTy → List Str
  | .int64 => [c!"int64_t"]
  | .vector t | .map t | .pair t | .optional t | .ptr t => t.unqualified
  | .struct n | .owner n => [n]
  | _ => []

/-- The signature of a function or a method. -/
structure Sig where
  name : Str
  params : List CTy
  result : CTy
  deriving DecidableEq, Repr

/-- An expression. -/
inductive Expr where
  | var (x : Var)
  /-- a string or a character literal -/
  | text
  | bool
  | num (i : Int)
  | null
  /-- `tm{0}` -/
  | zeroTm
  /-- `Json::objectValue` and `Json::arrayValue` -/
  | kind
  | dot (e : Expr) (field : Str)
  | arrow (e : Expr) (field : Str)
  | star (e : Expr)
  | addr (e : Expr)
  | index (e i : Expr)
  /-- the method of an object, `e.m` -/
  | method (e : Expr) (m : Str)
  /-- the method of what is pointed to, `e->m` -/
  | via (e : Expr) (m : Str)
  /-- a function with an unqualified name -/
  | fn (f : Str)
  /-- a function or a constructor with a qualified name -/
  | lib (f : Str)
  /-- a callee with one more argument -/
  | arg (f x : Expr)
  | call (f : Expr)
  /-- `std::move(e)` -/
  | move (e : Expr)
  /-- `std::make_unique<name>()` -/
  | make (name : Str)
  /-- `{ns}::kID` -/
  | pattern (ns : Str)
  /-- a comparison -/
  | cmp (a b : Expr)
  | neg (e : Expr)
  | or (a b : Expr)
  | plus (a b : Expr)
  deriving DecidableEq, Repr

/-- A sequence of statements. -/
inductive Code where
  | done
  | eval (e : Expr) (rest : Code)
  /-- a condition -/
  | test (e : Expr) (rest : Code)
  /-- `l = r;` -/
  | assign (l r : Expr) (rest : Code)
  /-- `s >> date::parse("...", l);` -/
  | extract (s l : Expr) (rest : Code)
  /-- `t x;`, `t x = e;`, `t x(e);`, `const t& x = e;` -/
  | decl (x : Var) (t : CTy) (init : Option Expr) (rest : Code)
  /-- `t& x = e;` -/
  | ref (x : Var) (t : CTy) (e : Expr) (rest : Code)
  /-- `auto x = e;` -/
  | auto (x : Var) (e : Expr) (rest : Code)
  /-- `for (t x : e) { body }`, without the type for `auto` -/
  | each (x : Var) (t : Option CTy) (e : Expr) (body rest : Code)
  /-- a nested block -/
  | block (body rest : Code)
  /-- `return e;` -/
  | give (e : Expr) (rest : Code)
  deriving DecidableEq, Repr

def Code.append : Code → Code → Code
  | .done, d => d
  | .eval e c, d => .eval e (c.append d)
  | .test e c, d => .test e (c.append d)
  | .assign l r c, d => .assign l r (c.append d)
  | .extract s l c, d => .extract s l (c.append d)
  | .decl x t i c, d => .decl x t i (c.append d)
  | .ref x t e c, d => .ref x t e (c.append d)
  | .auto x e c, d => .auto x e (c.append d)
  | .each x t e b c, d => .each x t e b (c.append d)
  | .block b c, d => .block b (c.append d)
  | .give e c, d => .give e (c.append d)

instance : Append Code := ⟨Code.append⟩

/-! ## Conversions -/

/-- Numbers, which are converted into each other. -/
def CTy.number : CTy → Bool
  | .char | .int | .size | .int64 | .double => true
  | _ => false

/-- A value of the type `s` can be stored where the type `t` is expected. -/
def converts : (t s : CTy) → Bool
  | .optional t, s => s == .optional t || converts t s
  | .json, s => s.number || s == .json || s == .bool || s == .string || s == .text
  | .string, s => s == .string || s == .text
  | .ptr t, s => s == .ptr t || s == .null
  | .zone, s => s == .zone || s == .null
  | t, s => s == t || (t.number && s.number)

def fits : (params args : List CTy) → Bool
  | [], [] => true
  | t :: ts, s :: ss => converts t s && fits ts ss
  | _, _ => false

/-- The result of an overloaded function: the candidates are those whose parameters are exactly of the types of the
arguments and otherwise those to which the arguments are converted; a call with several candidates is ambiguous. -/
def pick (sigs : List Sig) (f : Str) (args : List CTy) : Option CTy :=
  match sigs.filter (fun s => s.name == f && s.params == args) with
  | s :: rest => if rest.all (· == s) then some s.result else none
  | [] => match sigs.filter (fun s => s.name == f && fits s.params args) with
    | s :: rest => if rest.all (· == s) then some s.result else none
    | [] => none

/-- Values which can be compared. -/
def comparable : CTy → CTy → Bool
  | .string, .string => true
  | .iter, .iter => true
  | .chars, .null => true
  | .ptr _, .null => true
  | a, b => a.number && b.number

/-- Values which can be tested. -/
def testable : CTy → Bool
  | .bool => true
  | .optional _ => true
  | _ => false

/-! ## The libraries -/

/-- The methods of the types. -/
def methods : CTy → List Sig
  | .json => [⟨c!"isBool", [], .bool⟩, ⟨c!"isInt64", [], .bool⟩, ⟨c!"isDouble", [], .bool⟩, ⟨c!"isString", [], .bool⟩,
      ⟨c!"isArray", [], .bool⟩, ⟨c!"isObject", [], .bool⟩, ⟨c!"isMember", [.text], .bool⟩, ⟨c!"asBool", [], .bool⟩,
      ⟨c!"asInt64", [], .int64⟩, ⟨c!"asDouble", [], .double⟩, ⟨c!"asString", [], .string⟩, ⟨c!"size", [], .size⟩,
      ⟨c!"type", [], .valueType⟩, ⟨c!"begin", [], .iter⟩, ⟨c!"end", [], .iter⟩]
  | .iter => [⟨c!"name", [], .string⟩]
  | .string => [⟨c!"empty", [], .bool⟩, ⟨c!"size", [], .size⟩, ⟨c!"c_str", [], .text⟩,
      ⟨c!"append", [.string], .string⟩, ⟨c!"operator+=", [.string], .string⟩, ⟨c!"clear", [], .void⟩,
      ⟨c!"reserve", [.size], .void⟩, ⟨c!"resize", [.size], .void⟩]
  | .vector t => [⟨c!"resize", [.size], .void⟩, ⟨c!"size", [], .size⟩, ⟨c!"at", [.size], t⟩]
  | .map t => [⟨c!"count", [.string], .size⟩, ⟨c!"at", [.string], t⟩, ⟨c!"empty", [], .bool⟩]
  | .optional _ => [⟨c!"emplace", [], .void⟩]
  | .owner n => [⟨c!"get", [], .ptr (.struct n)⟩]
  | .stream => [⟨c!"fail", [], .bool⟩]
  | .path _ => [⟨c!"string", [], .string⟩]
  | .timeOfDay => [⟨c!"to_duration", [], .seconds⟩]
  | _ => []

/-- The methods of what is pointed to. -/
def methodsVia : CTy → List Sig
  | .ptr .errors => [⟨c!"add", [.string, .string], .void⟩, ⟨c!"full", [], .bool⟩, ⟨c!"empty", [], .bool⟩]
  | .zone => [⟨c!"name", [], .string⟩]
  | _ => []

/-- The functions and the constructors with qualified names. -/
def library : List Sig :=
  [⟨c!"std::to_string", [.int64], .string⟩, ⟨c!"std::to_string", [.double], .string⟩,
   ⟨c!"std::to_string", [.size], .string⟩, ⟨c!"std::string", [.string], .string⟩,
   ⟨c!"std::regex", [.text], .regex⟩, ⟨c!"std::regex_match", [.string, .regex], .bool⟩,
   ⟨c!"std::filesystem::path", [.string], .path false⟩, ⟨c!"boost::filesystem::path", [.string], .path true⟩,
   ⟨c!"std::istringstream", [.string], .stream⟩, ⟨c!"std::invalid_argument", [.string], .exception⟩,
   ⟨c!"date::make_time", [.seconds], .timeOfDay⟩, ⟨c!"date::locate_zone", [.string], .zone⟩,
   ⟨c!"date::format", [.text, .localDays], .string⟩, ⟨c!"date::format", [.text, .localSeconds], .string⟩,
   ⟨c!"date::format", [.text, .seconds], .string⟩]

/-- The functions of the global namespace which are declared in the headers of the C library. -/
def globals : List Sig :=
  [⟨c!"strlen", [.text], .size⟩, ⟨c!"strptime", [.text, .text, .ptr .tm], .chars⟩]

/-- What `e[i]` is. -/
def element : (e i : CTy) → Option CTy
  | .json, .text => some .json
  | .json, .string => some .json
  | .json, .int => some .json
  | .vector t, .int => some t
  | .vector t, .size => some t
  | .map t, .string => some t
  | _, _ => none

/-- What `*e` is. -/
def pointee : CTy → Option CTy
  | .ptr t => some t
  | .optional t => some t
  | .iter => some .json
  | .chars => some .char
  | _ => none

/-- What is found in a loop over the values. -/
def item : CTy → Option CTy
  | .json => some .json
  | .vector t => some t
  | .map t => some (.pair t)
  | _ => none

/-- Values from which `date::parse` reads. -/
def extractable : CTy → Bool
  | .localDays | .localSeconds | .seconds => true
  | _ => false

/-! ## Names and types of expressions -/

/-- What is declared outside of the functions. -/
structure World where
  /-- the structures with their members -/
  structs : List (Str × List (Str × CTy))
  funcs : List Sig
  /-- the namespaces with a constant `kID` -/
  patterns : List Str
  deriving DecidableEq, Repr

/-- The variables of the innermost block and of the enclosing ones, the last one declared first. -/
structure Env where
  block : List (Var × CTy)
  outer : List (Var × CTy)
  deriving DecidableEq, Repr

def Env.all (Γ : Env) : List (Var × CTy) := Γ.block ++ Γ.outer

/-- The type of the variable, provided that the lookup finds the variable which is meant. -/
def Env.lookup (Γ : Env) (x : Var) : Option CTy :=
  match Γ.all.find? (fun e => e.1.text == x.text) with
  | some (y, t) => if y = x then some t else none
  | none => none

/-- Some variable has the text as its name. -/
def Env.hides (Γ : Env) (f : Str) : Bool := Γ.all.any fun e => e.1.text == f

/-- A callee and the meaning of an expression. -/
inductive Callee where
  | fn (f : Str)
  | lib (f : Str)
  | method (t : CTy) (m : Str)
  | via (t : CTy) (m : Str)
  deriving DecidableEq, Repr

inductive Res where
  | val (t : CTy)
  /-- a callee with the types of the arguments so far -/
  | callee (f : Callee) (args : List CTy)
  deriving DecidableEq, Repr

def Res.type? : Option Res → Option CTy
  | some (.val t) => some t
  | _ => none

/-- The members of a type. -/
def fields (W : World) : CTy → List (Str × CTy)
  | .struct n => ((W.structs.find? fun s => s.1 == n).map (·.2)).getD []
  | .pair t => [(c!"first", .string), (c!"second", t)]
  | _ => []

def member (W : World) (t : CTy) (f : Str) : Option CTy := ((fields W t).find? fun e => e.1 == f).map (·.2)

/-- What `e->...` looks into. -/
def behind : CTy → CTy
  | .ptr t => t
  | .owner n => .struct n
  | _ => .void

def resolve (W : World) : Callee → List CTy → Option CTy
  | .fn f, args => pick W.funcs f args
  | .lib f, args => pick library f args
  | .method t m, args => pick (methods t) m args
  | .via t m, args => pick (methodsVia t) m args

/-- A type may be written: the structures are declared and no variable hides them. -/
def typeOk (W : World) (Γ : Env) (t : CTy) : Bool :=
  t.names.all fun n => W.structs.any (fun s => s.1 == n) && !Γ.hides n

/-- The meaning of an expression; `none` if the compiler rejects it or finds another variable than the one meant. -/
def infer (W : World) (Γ : Env) : Expr → Option Res
  | .var x => (Γ.lookup x).map .val
  | .text => some (.val .text)
  | .bool => some (.val .bool)
  -- the literal fits into 64 bits
  | .num i => if i.natAbs < 2 ^ 63 then some (.val .int) else none
  | .null => some (.val .null)
  | .zeroTm => if Γ.hides c!"tm" then none else some (.val .tm)
  | .kind => some (.val .json)
  | .dot e f => (Res.type? (infer W Γ e)).bind fun t => (member W t f).map .val
  | .arrow e f => (Res.type? (infer W Γ e)).bind fun t => (member W (behind t) f).map .val
  | .star e => (Res.type? (infer W Γ e)).bind fun t => (pointee t).map .val
  | .addr e => (Res.type? (infer W Γ e)).map fun t => .val (.ptr t)
  | .index e i => (Res.type? (infer W Γ e)).bind fun t => (Res.type? (infer W Γ i)).bind fun s =>
      (element t s).map .val
  | .method e m => (Res.type? (infer W Γ e)).map fun t => .callee (.method t m) []
  | .via e m => (Res.type? (infer W Γ e)).map fun t => .callee (.via t m) []
  | .fn f => if Γ.hides f then none else some (.callee (.fn f) [])
  | .lib f => some (.callee (.lib f) [])
  | .arg f x => match infer W Γ f with
    | some (.callee c args) => (Res.type? (infer W Γ x)).map fun t => .callee c (args ++ [t])
    | _ => none
  | .call f => match infer W Γ f with
    | some (.callee c args) => (resolve W c args).map .val
    | _ => none
  | .move e => (Res.type? (infer W Γ e)).map .val
  | .make n => if typeOk W Γ (.struct n) then some (.val (.owner n)) else none
  | .pattern ns => if ns ∈ W.patterns then some (.val .regex) else none
  | .cmp a b => (Res.type? (infer W Γ a)).bind fun t => (Res.type? (infer W Γ b)).bind fun s =>
      if comparable t s then some (.val .bool) else none
  | .neg e => (Res.type? (infer W Γ e)).bind fun t => if testable t then some (.val .bool) else none
  | .or a b => (Res.type? (infer W Γ a)).bind fun t => (Res.type? (infer W Γ b)).bind fun s =>
      if testable t && testable s then some (.val .bool) else none
  | .plus a b => (Res.type? (infer W Γ a)).bind fun t => (Res.type? (infer W Γ b)).bind fun s =>
      if t.number && s.number then some (.val t) else none

/-- The type of an expression which is a value. -/
def typeOf (W : World) (Γ : Env) (e : Expr) : Option CTy := Res.type? (infer W Γ e)

/-! ## Statements -/

/-- A variable is declared: its name is no keyword and not declared in the same block, and its type is known. -/
def Env.declare (W : World) (Γ : Env) (x : Var) (t : CTy) : Option Env :=
  if x.text ∈ keywords || Γ.block.any (fun e => e.1.text == x.text) || !typeOk W Γ t then none
  else some ⟨(x, t) :: Γ.block, Γ.outer⟩

/-- A nested block is entered. -/
def Env.enter (Γ : Env) : Env := ⟨[], Γ.all⟩

/-- The declared type of a loop variable fits what is found in the loop. -/
def loopOk : Option CTy → CTy → Bool
  | some t, s => converts t s
  | none, _ => true

/-- The variables after the statements; `none` if the compiler rejects one of them or another variable than the one
meant is found. A variable is declared before the expression which initializes it. -/
def run (W : World) (R : CTy) : Env → Code → Option Env
  | Γ, .done => some Γ
  | Γ, .eval e rest => (typeOf W Γ e).bind fun _ => run W R Γ rest
  | Γ, .test e rest => (typeOf W Γ e).bind fun t => if testable t then run W R Γ rest else none
  | Γ, .assign l r rest => (typeOf W Γ l).bind fun t => (typeOf W Γ r).bind fun s =>
      if converts t s then run W R Γ rest else none
  | Γ, .extract s l rest => (typeOf W Γ s).bind fun t => (typeOf W Γ l).bind fun u =>
      if t = .stream ∧ extractable u then run W R Γ rest else none
  | Γ, .decl x t none rest => (Γ.declare W x t).bind fun Δ => run W R Δ rest
  | Γ, .decl x t (some e) rest => (Γ.declare W x t).bind fun Δ => (typeOf W Δ e).bind fun s =>
      if converts t s then run W R Δ rest else none
  | Γ, .ref x t e rest => (Γ.declare W x t).bind fun Δ => (typeOf W Δ e).bind fun s =>
      if s = t then run W R Δ rest else none
  -- the type of the variable is not known in the expression
  | Γ, .auto x e rest => (Γ.declare W x .void).bind fun Δ => (typeOf W Δ e).bind fun s =>
      if s = .void then none else run W R ⟨(x, s) :: Γ.block, Γ.outer⟩ rest
  | Γ, .each x t e body rest => (typeOf W Γ e).bind fun r => (item r).bind fun s =>
      if loopOk t s then
        (Γ.enter.declare W x (t.getD s)).bind fun Δ => (run W R Δ body).bind fun _ => run W R Γ rest
      else none
  | Γ, .block body rest => (run W R Γ.enter body).bind fun _ => run W R Γ rest
  | Γ, .give e rest => (typeOf W Γ e).bind fun s => if converts R s then run W R Γ rest else none

/-- A function. -/
structure Func where
  name : Str
  params : List (Var × CTy)
  result : CTy
  body : Code
  deriving DecidableEq, Repr

def Func.sig (f : Func) : Sig := ⟨f.name, f.params.map (·.2), f.result⟩

/-- The parameters are declared one after the other. -/
def declareAll (W : World) : Env → List (Var × CTy) → Option Env
  | Γ, [] => some Γ
  | Γ, (x, t) :: rest => (Γ.declare W x t).bind fun Δ => declareAll W Δ rest

/-- The compiler accepts the function. The parameters belong to the outermost block of the body. -/
def Func.ok (W : World) (f : Func) : Bool :=
  ((declareAll W ⟨[], []⟩ f.params).bind fun Γ => run W f.result Γ f.body).isSome

/-! ## Structures -/

/-- A member of a structure with its default value. -/
structure Field where
  name : Str
  ty : CTy
  init : Option Expr
  deriving DecidableEq, Repr

structure Struct where
  name : Str
  fields : List Field
  deriving DecidableEq, Repr

/-- The compiler accepts the members of a structure: their names are no keywords and different from each other, the
structures in their types are declared and complete where it is necessary, no member has the name of a type which is
used in the structure, and the default values fit. -/
def Struct.ok (declared complete : List Str) (s : Struct) : Prop :=
  (s.fields.map (·.name)).Nodup ∧
  ∀ f ∈ s.fields,
    f.name ∉ keywords ∧ (∀ n ∈ f.ty.names, n ∈ declared) ∧ (∀ n ∈ f.ty.stored, n ∈ complete) ∧
    (∀ g ∈ s.fields, g.name ∉ f.ty.unqualified) ∧
    ∀ e ∈ f.init, ∃ t, typeOf ⟨[], [], []⟩ ⟨s.fields.map fun g => (.fixed g.name, g.ty), []⟩ e = some t ∧ converts f.ty t

/-- The compiler accepts the definitions one after the other. -/
def structsOk (declared : List Str) : (complete : List Str) → List Struct → Prop
  | _, [] => True
  | complete, s :: rest => s.name ∉ complete ∧ s.name ∉ keywords ∧ s.ok declared complete ∧
      structsOk declared (s.name :: complete) rest

/-! ## Files -/

/-- A definition of the file with the implementation. -/
inductive Item where
  | func (f : Func)
  /-- a function whose text does not depend on the schema; its body is not modelled -/
  | helper (s : Sig)
  /-- a namespace with the constant `kID` -/
  | pattern (ns : Str)
  deriving DecidableEq, Repr

def Item.sig? : Item → Option Sig
  | .func f => some f.sig
  | .helper s => some s
  | .pattern _ => none

def Item.ns? : Item → Option Str
  | .pattern n => some n
  | _ => none

def World.declare (W : World) (s : Sig) : World := { W with funcs := s :: W.funcs }

/-- The compiler accepts the bodies of the functions. A function is declared in its own body. -/
def bodiesOk : World → List Item → Prop
  | _, [] => True
  | W, .func f :: rest => f.ok (W.declare f.sig) = true ∧ bodiesOk (W.declare f.sig) rest
  | W, .helper s :: rest => bodiesOk (W.declare s) rest
  | W, .pattern n :: rest => bodiesOk { W with patterns := n :: W.patterns } rest

/-- No function is defined twice, a constant `kID` is defined once in a namespace, no function has the name of a
namespace or a keyword, and functions with the same parameters have the same result as declared. -/
def definitionsOk (declared : List Sig) (items : List Item) : Prop :=
  ((items.filterMap Item.sig?).map fun s => (s.name, s.params)).Nodup ∧
  (items.filterMap Item.ns?).Nodup ∧
  (∀ n ∈ items.filterMap Item.ns?, n ∉ keywords ∧ ∀ s ∈ declared ++ items.filterMap Item.sig?, s.name ≠ n) ∧
  (∀ s ∈ declared ++ items.filterMap Item.sig?, s.name ∉ keywords) ∧
  ∀ s ∈ declared, ∀ r ∈ declared ++ items.filterMap Item.sig?, s.name = r.name → s.params = r.params → s.result = r.result

end Mapry.CppCode
