import Verif.GoTypes

/-!
# The rules of Go on types

The rules by which a Go compiler accepts the types in the bodies of functions, as far as the generated code depends on
the schema: every value has to be assignable where it is stored or passed, a constant has to be representable, an
address may only be taken of a variable, a field or an item of a slice, and every field, method and function has to exist.
The rules on the names are in `Verif/GoScope.lean`; nothing here mentions the generators of the functions.

Simplifications: the packages of the library are given by the signatures of the functions which are used; the statements
`return`, `break` and `panic(...)` are not recorded.
-/

namespace Mapry.GoCheck

open Mapry.GoTypes (GTy)
open Mapry.GoCode (Name)

/-- The names in a type -/
def mentions : GTy → List Name
  | .time | .duration | .location => [.pkg c!"time"]
  | .regexp => [.pkg c!"regexp"]
  | .ptr t | .slice t | .map t => mentions t
  | .named n => [.glob n]
  | _ => []

/-- An expression -/
inductive Expr where
  | var (x : Name)
  /-- a string literal -/
  | text
  | num (i : Int)
  | nil
  | field (e : Expr) (f : Str)
  | index (e i : Expr)
  | star (e : Expr)
  | addr (e : Expr)
  /-- `e.(t)` -/
  | assert (e : Expr) (t : GTy)
  | len (e : Expr)
  /-- `make(t)` -/
  | make (t : GTy)
  /-- `make(t, n)` -/
  | makeN (t : GTy) (n : Expr)
  /-- `&n{}` -/
  | new (n : Str)
  /-- `int64(e)` -/
  | int64 (e : Expr)
  /-- `[]string{}` and one more item of such a slice -/
  | strs
  | item (l e : Expr)
  /-- a function of the package -/
  | fn (f : Str)
  /-- a function of an imported package -/
  | lib (p f : Str)
  | method (e : Expr) (m : Str)
  /-- a callee with one more argument -/
  | arg (f x : Expr)
  | call (f : Expr)
  /-- `a == b`, `a != b` -/
  | eq (a b : Expr)
  /-- `a < b`, `a <= b`, `a > b`, `a >= b` -/
  | less (a b : Expr)
  | not (e : Expr)
  | or (a b : Expr)
  /-- `a + b` of strings -/
  | plus (a b : Expr)
  deriving DecidableEq, Repr

/-- The names in an expression in their order -/
def Expr.names : Expr → List Name
  | .var x => [x]
  | .text | .num _ | .nil | .strs => []
  | .field e _ | .star e | .addr e | .len e | .int64 e | .method e _ | .call e | .not e => e.names
  | .assert e t => e.names ++ mentions t
  | .make t => mentions t
  | .makeN t n => mentions t ++ n.names
  | .new n => [.glob n]
  | .fn f => [.glob f]
  | .lib p _ => [.pkg p]
  | .index a b | .item a b | .arg a b | .eq a b | .less a b | .or a b | .plus a b => a.names ++ b.names

/-- A sequence of statements -/
inductive Code where
  | done
  /-- a call -/
  | eval (e : Expr) (rest : Code)
  /-- a condition -/
  | test (e : Expr) (rest : Code)
  /-- `l = r` -/
  | assign (l r : Expr) (rest : Code)
  /-- `l, k = r` -/
  | assign₂ (l k r : Expr) (rest : Code)
  /-- `x := e` -/
  | define (x : Name) (e : Expr) (rest : Code)
  /-- `x, y := e`, and `_, y := e` without the first name -/
  | define₂ (x : Option Name) (y : Name) (e : Expr) (rest : Code)
  /-- `var x t` -/
  | var (x : Name) (t : GTy) (rest : Code)
  /-- `for k := range e { body }` and `for k, v := range e { body }` -/
  | range (k : Name) (v : Option Name) (e : Expr) (body rest : Code)
  /-- `for i := 0; i < n; i++ { body }` -/
  | loop (i : Name) (n : Expr) (body rest : Code)
  | block (body rest : Code)
  deriving DecidableEq, Repr

def Code.append : Code → Code → Code
  | .done, d => d
  | .eval e c, d => .eval e (c.append d)
  | .test e c, d => .test e (c.append d)
  | .assign l r c, d => .assign l r (c.append d)
  | .assign₂ l k r c, d => .assign₂ l k r (c.append d)
  | .define x e c, d => .define x e (c.append d)
  | .define₂ x y e c, d => .define₂ x y e (c.append d)
  | .var x t c, d => .var x t (c.append d)
  | .range k v e b c, d => .range k v e b (c.append d)
  | .loop i n b c, d => .loop i n b (c.append d)
  | .block b c, d => .block b (c.append d)

instance : Append Code := ⟨Code.append⟩

/-! ## The library -/

/-- A signature; further arguments of any type may follow if `more` holds. -/
structure Sig where
  params : List GTy
  more : Bool
  results : List GTy
  deriving DecidableEq, Repr

def library (p f : Str) : Option Sig :=
  if p = c!"strings" ∧ f = c!"Join" then some ⟨[.slice .string, .string], false, [.string]⟩
  else if p = c!"fmt" ∧ f = c!"Sprintf" then some ⟨[.string], true, [.string]⟩
  else if p = c!"fmt" ∧ f = c!"Errorf" then some ⟨[.string], true, [.error]⟩
  else if p = c!"math" ∧ f = c!"Trunc" then some ⟨[.float64], false, [.float64]⟩
  else if p = c!"strconv" ∧ f = c!"Itoa" then some ⟨[.int], false, [.string]⟩
  else if p = c!"time" ∧ f = c!"Parse" then some ⟨[.string, .string], false, [.time, .error]⟩
  else if p = c!"time" ∧ f = c!"LoadLocation" then some ⟨[.string], false, [.ptr .location, .error]⟩
  else none

/-- The methods of the library -/
def methodOf (t : GTy) (m : Str) : Option Sig :=
  if t = .ptr .regexp ∧ m = c!"MatchString" then some ⟨[.string], false, [.bool]⟩
  else if t = .time ∧ m = c!"Format" then some ⟨[.string], false, [.string]⟩
  else if t = .ptr .location ∧ m = c!"String" then some ⟨[], false, [.string]⟩
  else if t = .error ∧ m = c!"Error" then some ⟨[], false, [.string]⟩
  else none

/-! ## Expressions -/

/-- What is declared in the package -/
structure World where
  /-- the structures with their fields -/
  structs : List (Str × List (Str × GTy))
  /-- the methods of the types of the package -/
  methods : List (GTy × Str × Sig)
  funcs : List (Str × Sig)
  vars : List (Name × GTy)

/-- What an expression stands for -/
inductive Res where
  | val (t : GTy)
  /-- a constant without a type -/
  | num (i : Int)
  | text
  | nil
  /-- a function with the parameters for which there are no arguments yet -/
  | callee (s : Sig)
  /-- the results of a call if there is not exactly one -/
  | many (ts : List GTy)
  deriving DecidableEq, Repr

/-- The types which have the value `nil` -/
def nillable : GTy → Bool
  | .ptr _ | .slice _ | .map _ | .any | .error => true
  | _ => false

/-- A constant is representable. The precision of constants is limited to 512 bits as in the compiler gc. -/
def represents (t : GTy) (i : Int) : Bool :=
  match t with
  | .int64 | .int | .any => decide (-2 ^ 63 ≤ i ∧ i < 2 ^ 63)
  | .float64 => decide (i.natAbs < 2 ^ 512)
  | _ => false

/-- The value is assignable to the type. -/
def fits (t : GTy) : Res → Bool
  | .val s => s == t || t == .any
  | .num i => represents t i
  | .text => t == .string || t == .any
  | .nil => nillable t
  | _ => false

/-- The type of a variable which is declared with the value -/
def default : Res → Option GTy
  | .val t => some t
  | .num i => if represents .int i then some .int else none
  | .text => some .string
  | _ => none

def Res.type? : Option Res → Option GTy
  | some (.val t) => some t
  | _ => none

def number : GTy → Bool
  | .int | .int64 | .float64 => true
  | _ => false

/-- The types whose values are compared with each other -/
def comparable : GTy → Bool
  | .string | .int | .int64 | .float64 | .bool => true
  | _ => false

def equalOk : Res → Res → Bool
  | .val t, .nil => nillable t
  | .val t, r => comparable t && fits t r
  | _, _ => false

def lessOk : Res → Res → Bool
  | .val t, r => number t && fits t r
  | _, _ => false

/-- The field of a structure or of a structure which is pointed to -/
def member (W : World) (t : GTy) (f : Str) : Option GTy :=
  match t with
  | .named n => (W.structs.lookup n).bind fun fs => fs.lookup f
  | .ptr (.named n) => (W.structs.lookup n).bind fun fs => fs.lookup f
  | _ => none

def findMethod (W : World) (t : GTy) (m : Str) : Option Sig :=
  ((W.methods.find? fun e => e.1 == t && e.2.1 == m).map (·.2.2)).orElse fun _ => methodOf t m

/-- The type may be written: no variable hides a name in it, and the types of the package are declared. -/
def typeOk (W : World) (ρ : Name → Option GTy) (t : GTy) : Bool :=
  (mentions t).all (fun x => (ρ x).isNone) && t.names.all fun n => (W.structs.lookup n).isSome

/-- `e[i]` -/
def element (t : GTy) (i : Res) : Option GTy :=
  match t with
  | .slice t => if fits .int i then some t else none
  | .map t => if fits .string i then some t else none
  | _ => none

/-- A call with one more argument -/
def passed (f x : Option Res) : Option Res :=
  match f, x with
  | some (.callee ⟨t :: ts, m, r⟩), some x => if fits t x then some (.callee ⟨ts, m, r⟩) else none
  | some (.callee ⟨[], true, r⟩), some x => if fits .any x then some (.callee ⟨[], true, r⟩) else none
  | _, _ => none

def called : Option Res → Option Res
  | some (.callee ⟨[], _, [t]⟩) => some (.val t)
  | some (.callee ⟨[], _, ts⟩) => some (.many ts)
  | _ => none

/-- What is pointed to -/
def pointee : GTy → Option GTy
  | .ptr t => some t
  | _ => none

def isPtr : Option Res → Bool
  | some (.val (.ptr _)) => true
  | _ => false

def isSlice : Option Res → Bool
  | some (.val (.slice _)) => true
  | _ => false

def isMap : Option Res → Bool
  | some (.val (.map _)) => true
  | _ => false

/-- The meaning of an expression, where `ρ` are the types of the variables; `none` if the compiler rejects it -/
def infer (W : World) (ρ : Name → Option GTy) : Expr → Option Res
  | .var x => match ρ x with
    | some t => some (.val t)
    | none => (W.vars.lookup x).map .val
  | .text => some .text
  | .num i => some (.num i)
  | .nil => some .nil
  | .field e f => (Res.type? (infer W ρ e)).bind fun t => (member W t f).map .val
  | .index e i => (Res.type? (infer W ρ e)).bind fun t => (infer W ρ i).bind fun r => (element t r).map .val
  | .star e => (Res.type? (infer W ρ e)).bind fun t => (pointee t).map .val
  | .addr e => if addressable W ρ e then (Res.type? (infer W ρ e)).map fun t => .val (.ptr t) else none
  | .assert e t => if infer W ρ e = some (.val .any) ∧ typeOk W ρ t then some (.val t) else none
  | .len e => if isSlice (infer W ρ e) || isMap (infer W ρ e) then some (.val .int) else none
  | .make t => if typeOk W ρ t && isMap (some (.val t)) then some (.val t) else none
  | .makeN t n => (infer W ρ n).bind fun r =>
      if typeOk W ρ t && isSlice (some (.val t)) && fits .int r then some (.val t) else none
  | .new n => if typeOk W ρ (.named n) then some (.val (.ptr (.named n))) else none
  | .int64 e => if infer W ρ e = some (.val .float64) then some (.val .int64) else none
  | .strs => some (.val (.slice .string))
  | .item l e => (infer W ρ l).bind fun r => (infer W ρ e).bind fun s =>
      if r = .val (.slice .string) ∧ fits .string s then some (.val (.slice .string)) else none
  | .fn f => if (ρ (.glob f)).isNone then (W.funcs.lookup f).map .callee else none
  | .lib p f => if (ρ (.pkg p)).isNone then (library p f).map .callee else none
  | .method e m => (Res.type? (infer W ρ e)).bind fun t => (findMethod W t m).map .callee
  | .arg f x => passed (infer W ρ f) (infer W ρ x)
  | .call f => called (infer W ρ f)
  | .eq a b => (infer W ρ a).bind fun r => (infer W ρ b).bind fun s => if equalOk r s then some (.val .bool) else none
  | .less a b => (infer W ρ a).bind fun r => (infer W ρ b).bind fun s => if lessOk r s then some (.val .bool) else none
  | .not e => if infer W ρ e = some (.val .bool) then some (.val .bool) else none
  | .or a b => if infer W ρ a = some (.val .bool) ∧ infer W ρ b = some (.val .bool) then some (.val .bool) else none
  | .plus a b => (infer W ρ a).bind fun r => (infer W ρ b).bind fun s =>
      if r = .val .string ∧ fits .string s then some (.val .string) else none
where
  /-- The address may be taken. -/
  addressable (W : World) (ρ : Name → Option GTy) : Expr → Bool
    | .var _ | .star _ => true
    | .field e _ => isPtr (infer W ρ e) || addressable W ρ e
    | .index e _ => isSlice (infer W ρ e)
    | _ => false

/-- A value may be assigned to the expression. -/
def assignable (W : World) (ρ : Name → Option GTy) : Expr → Bool
  | .index e i => isMap (infer W ρ e) || infer.addressable W ρ (.index e i)
  | e => infer.addressable W ρ e

/-- An expression with two results -/
def infer₂ (W : World) (ρ : Name → Option GTy) : Expr → Option (GTy × GTy)
  | .assert e t => (Res.type? (infer W ρ (.assert e t))).map fun t => (t, .bool)
  | .index e i => if isMap (infer W ρ e) then (Res.type? (infer W ρ (.index e i))).map fun t => (t, .bool) else none
  | .call f => match infer W ρ (.call f) with
    | some (.many [t, u]) => some (t, u)
    | _ => none
  | _ => none

/-! ## Statements -/

/-- The variables with their types, the last one declared first -/
abbrev Env := List (Name × GTy)

/-- The type of a variable; `same` tells whether two names are the same to the compiler. -/
def Env.find (same : Name → Name → Bool) (Γ : Env) (x : Name) : Option GTy :=
  (List.find? (fun e => same e.1 x) Γ).map (·.2)

def isCall : Expr → Bool
  | .call _ => true
  | _ => false

/-- A value of the type may be assigned to the expression. -/
def stores (W : World) (ρ : Name → Option GTy) (l : Expr) (r : Res) : Bool :=
  assignable W ρ l && match Res.type? (infer W ρ l) with
    | some t => fits t r
    | none => false

/-- The types of the variables of a loop -/
def ranges : Option Res → Option (GTy × GTy)
  | some (.val (.slice t)) => some (.int, t)
  | some (.val (.map t)) => some (.string, t)
  | _ => none

def bindOpt (x : Option Name) (t : GTy) (Γ : Env) : Env :=
  match x with
  | some x => (x, t) :: Γ
  | none => Γ

/-- The variables after the statements; `none` if the compiler rejects one of them -/
def run (W : World) (same : Name → Name → Bool) : Env → Code → Option Env
  | Γ, .done => some Γ
  | Γ, .eval e rest => if isCall e && (infer W (Γ.find same) e).isSome then run W same Γ rest else none
  | Γ, .test e rest => if infer W (Γ.find same) e = some (.val .bool) then run W same Γ rest else none
  | Γ, .assign l r rest => (infer W (Γ.find same) r).bind fun s =>
      if stores W (Γ.find same) l s then run W same Γ rest else none
  | Γ, .assign₂ l k r rest => (infer₂ W (Γ.find same) r).bind fun (t, u) =>
      if stores W (Γ.find same) l (.val t) && stores W (Γ.find same) k (.val u) then run W same Γ rest else none
  | Γ, .define x e rest => ((infer W (Γ.find same) e).bind default).bind fun t => run W same ((x, t) :: Γ) rest
  | Γ, .define₂ x y e rest => (infer₂ W (Γ.find same) e).bind fun (t, u) => run W same ((y, u) :: bindOpt x t Γ) rest
  | Γ, .var x t rest => if typeOk W (Γ.find same) t then run W same ((x, t) :: Γ) rest else none
  | Γ, .range k v e body rest => (ranges (infer W (Γ.find same) e)).bind fun (t, u) =>
      (run W same (bindOpt v u ((k, t) :: Γ)) body).bind fun _ => run W same Γ rest
  | Γ, .loop i n body rest => if infer W (Env.find same ((i, .int) :: Γ)) n = some (.val .int) then
      (run W same ((i, .int) :: Γ) body).bind fun _ => run W same Γ rest else none
  | Γ, .block body rest => (run W same Γ body).bind fun _ => run W same Γ rest

/-- A function with its parameters and its named results -/
structure Func where
  name : Str
  params : List (Name × GTy)
  results : List (Name × GTy)
  body : Code
  deriving DecidableEq, Repr

def Func.sig (f : Func) : Str × Sig := (f.name, ⟨f.params.map (·.2), false, f.results.map (·.2)⟩)

/-- The compiler accepts the types in the function. -/
def Func.ok (W : World) (same : Name → Name → Bool) (f : Func) : Bool :=
  (f.params ++ f.results).all (fun e => typeOk W (fun _ => none) e.2) &&
  (run W same (f.params ++ f.results).reverse f.body).isSome

/-- Two names are the same to the compiler if they have the same text. -/
def sameText (a b : Name) : Bool := a.text == b.text

end Mapry.GoCheck
