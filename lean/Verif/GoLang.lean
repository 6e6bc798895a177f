import Verif.GoRuntime
import Verif.GoScope

/-!
# The part of Go in which the generated code is written

Syntax and meaning of the statements which the templates of `mapry/go/generate/fromjsonable.py` and
`mapry/go/generate/tojsonable.py` write (`Verif/GoGen.lean`). The meaning is an external specification: it follows the Go
Programming Language Specification.

* Every variable is a cell of the memory, so that its address can be taken. Slices and maps are references: the elements of
  a slice are in one cell, the entries of a map are in one cell (`Verif/GoMap.lean`). The generated code never slices or
  appends, so that a slice is its whole array.
* A variable is given by a structured name (`Verif/GoScope.lean`). That different names have different texts is C62.
* The program is well typed (C78, C79). Hence the values carry no types: the zero value is `zero` in every type, and reading
  a field of the zero value gives `zero`. What a well-typed program can not do raises `typeError`.
* An `interface{}` which comes from `json.Unmarshal` is the value `json`; the generated code does not change it. What the
  serializer puts into an `interface{}` is the value itself.
* There is one container of errors; the pointer to it is `errors`.
* A `range` over a map visits the entries which are there when the loop starts, in the order of the oracle `Order`. The loop
  variables are declared once for all the iterations, as in Go before 1.22.
* `defer` runs the deferred code when the function has returned. When it panics, the deferred code of the templates does not
  recover, so that it is left out.
-/

namespace Mapry.GoLang

open Mapry.GoRuntime (JVal Time Lib)
open Mapry.GoCode (Name)

/-- A step into a structure or an array -/
inductive Step where
  | field (f : Str)
  | item (i : Nat)
  deriving DecidableEq, Repr

/-- What a pointer points to: a cell, or a part of it. -/
structure Addr where
  loc : Nat
  path : List Step
  deriving DecidableEq, Repr

/-- A value -/
inductive Val where
  | zero
  | nil
  | bool (b : Bool)
  | int (i : Int)
  | float (f : F64)
  | str (s : Str)
  | time (t : Time)
  | zone (s : Str)
  | duration (d : Int)
  /-- an `error` with its text -/
  | error (msg : Str)
  /-- the pointer to the container of errors -/
  | errors
  | json (j : JVal)
  /-- a slice: the elements are at the location -/
  | slice (loc : Nat)
  /-- a map: the entries are at the location -/
  | map (loc : Nat)
  | ptr (a : Addr)
  | struct (fields : List (Str × Val))
  /-- the elements of a slice (only as the contents of a cell) -/
  | array (xs : List Val)
  /-- the entries of a map (only as the contents of a cell) -/
  | table (kvs : List (Str × Val))

/-- The dynamic type of an `interface{}` -/
inductive Kind where
  | bool | float64 | string | slice | map
  deriving DecidableEq, Repr

/-- A comparison of numbers -/
inductive Cmp where
  | gt | ge | lt | le
  deriving DecidableEq, Repr

/-- An expression -/
inductive Expr where
  | var (x : Name)
  | str (s : Str)
  | int (i : Int)
  /-- `nil` -/
  | nil
  /-- the zero value of a type -/
  | zero
  /-- `e.f` where `e` is a pointer to a structure -/
  | field (e : Expr) (f : Str)
  /-- `*e` -/
  | deref (e : Expr)
  /-- `e[k]` -/
  | index (e k : Expr)
  /-- `len(e)` -/
  | len (e : Expr)
  /-- `e == nil` -/
  | isNil (e : Expr)
  /-- `e != nil` -/
  | notNil (e : Expr)
  /-- `!e` -/
  | not (e : Expr)
  /-- `a != b` of texts -/
  | ne (a b : Expr)
  /-- `a != math.Trunc(a)` -/
  | fractional (a : Expr)
  /-- `a >= 9223372036854775808.0 || a < -9223372036854775808.0` -/
  | beyondInt64 (a : Expr)
  /-- `int64(a)` -/
  | toInt64 (a : Expr)
  /-- `a op m` with a constant `m` -/
  | cmp (op : Cmp) (a : Expr) (m : Int)
  /-- `t.Format(layout)` -/
  | format (t : Expr) (layout : Str)
  /-- `z.String()` -/
  | zoneName (z : Expr)
  /-- `durationToString(d)` -/
  | durationText (d : Expr)
  /-- `err.Error()` -/
  | errorText (e : Expr)
  /-- `strconv.Itoa(i)` -/
  | itoa (i : Expr)
  /-- `pattern{uid}.MatchString(e)` with the pattern which is compiled for the number -/
  | matches (uid : Nat) (e : Expr)
  /-- `a + "text"` -/
  | plus (a : Expr) (s : Str)
  /-- `strings.Join([]string{...}, "/")` -/
  | join (parts : List Expr)
  /-- `fmt.Sprintf(format, args...)` -/
  | sprintf (format : Str) (args : List Expr)
  /-- `fmt.Errorf(format, args...)` -/
  | errorf (format : Str) (args : List Expr)
  /-- `errors.Empty()` -/
  | errorsEmpty
  /-- `errors.Full()` -/
  | errorsFull

/-- An argument of a call -/
inductive Arg where
  | val (e : Expr)
  /-- `&e` -/
  | addr (e : Expr)

/-- The right-hand side of a declaration or an assignment -/
inductive Rhs where
  | val (e : Expr)
  /-- `make(map[string]T)` -/
  | makeMap
  /-- `make([]T, n)` -/
  | makeSlice (n : Expr)
  /-- `&T{}` -/
  | new
  /-- `&e` -/
  | addr (e : Expr)
  /-- the call of a function with one result -/
  | call (f : Str) (args : List Arg)

/-- An expression with two values -/
inductive Two where
  /-- `e.(T)` -/
  | assert (k : Kind) (e : Expr)
  /-- `e[k]` of a map -/
  | lookup (e k : Expr)
  /-- `time.Parse(layout, e)` -/
  | parseTime (layout : Str) (e : Expr)
  /-- `time.LoadLocation(e)` -/
  | loadLocation (e : Expr)
  /-- `durationFromString(e)` -/
  | durationFrom (e : Expr)

/-- What is assigned to -/
inductive Place where
  | var (x : Name)
  /-- `e.f` where `e` is a pointer to a structure -/
  | field (e : Expr) (f : Str)
  /-- `e[k]` -/
  | index (e k : Expr)

/-- A statement -/
inductive Stmt where
  | skip
  | seq (a b : Stmt)
  /-- `x := rhs`, or `var x T` with `zero` -/
  | declare (x : Name) (r : Rhs)
  /-- `x, y := two`, or `_, y := two` -/
  | declare2 (x : Option Name) (y : Name) (two : Two)
  /-- `p = rhs` -/
  | assign (p : Place) (r : Rhs)
  /-- `x, y = two` -/
  | assign2 (x y : Name) (two : Two)
  /-- `if c { a } else { b }` -/
  | ite (c : Expr) (a b : Stmt)
  /-- `for i := 0; i < n; i++ { body }` with the variable `n`; the body assigns neither of them -/
  | forCount (i n : Name) (body : Stmt)
  /-- `for i := range e { body }` of a slice -/
  | forItems (i : Name) (e : Expr) (body : Stmt)
  /-- `for k := range e { body }` or `for k, v := range e { body }` of a map -/
  | forEntries (k : Name) (v : Option Name) (e : Expr) (body : Stmt)
  /-- the call of a function without results -/
  | call (f : Str) (args : List Arg)
  /-- `errors.Add(ref, message)` -/
  | report (ref message : Expr)
  | panic (msg : Str)
  | brk
  | ret

/-- A function with named results -/
structure Func where
  name : Str
  params : List Name
  results : List Name
  body : Stmt
  /-- the code of `defer func() {...}()` -/
  deferred : Stmt

/-- The functions of the package and the compiled patterns by their numbers -/
structure Program where
  funcs : List Func
  patterns : Nat → Str

/-! ## Memory -/

/-- The memory, the container of errors and the number of `range` statements executed -/
structure St where
  heap : List Val
  errors : GoErrors
  ranges : Nat

/-- The cells of the variables; the last declaration comes first. -/
abbrev Env := List (Name × Nat)

/-- A new cell -/
def St.alloc (σ : St) (v : Val) : Nat × St := (σ.heap.length, { σ with heap := σ.heap ++ [v] })

/-- The cell is replaced. -/
def St.put (σ : St) (l : Nat) (v : Val) : St := { σ with heap := σ.heap.set l v }

/-- A field of a structure -/
def fieldOf (f : Str) : Val → Option Val
  | .struct fs => some ((fs.lookup f).getD .zero)
  | .zero => some .zero
  | _ => none

/-- One step into a value -/
def step : Step → Val → Option Val
  | .field f, v => fieldOf f v
  | .item i, .array xs => xs[i]?
  | .item _, _ => none

/-- The part of a value -/
def part : List Step → Val → Option Val
  | [], v => some v
  | s :: ss, v => (step s v).bind (part ss)

/-- What is at an address -/
def St.read (σ : St) (a : Addr) : Option Val := (σ.heap[a.loc]?).bind (part a.path)

/-- `x.f = v` in the fields -/
def setField (f : Str) (v : Val) : List (Str × Val) → List (Str × Val)
  | [] => [(f, v)]
  | (f', v') :: rest => if f' = f then (f, v) :: rest else (f', v') :: setField f v rest

/-- The value with a part replaced -/
def update : List Step → Val → Val → Option Val
  | [], w, _ => some w
  | .field f :: ss, w, .struct fs => (update ss w ((fs.lookup f).getD .zero)).map fun x => .struct (setField f x fs)
  | .field f :: ss, w, .zero => (update ss w .zero).map fun x => .struct [(f, x)]
  | .field _ :: _, _, _ => none
  | .item i :: ss, w, .array xs => (xs[i]?).bind fun x => (update ss w x).map fun x => .array (xs.set i x)
  | .item _ :: _, _, _ => none

/-- An assignment through an address -/
def St.write (σ : St) (a : Addr) (w : Val) : Option St :=
  (σ.heap[a.loc]?).bind fun v => (update a.path w v).map fun v => σ.put a.loc v

/-- `nil` or the zero value of a type whose zero value is `nil` -/
def Val.isNil : Val → Bool
  | .nil => true
  | .zero => true
  | _ => false

/-- A result which must be there -/
def need {α : Type} : Option α → Except Exc α
  | some a => .ok a
  | none => .error .typeError

/-- The panic of `nil.f` and `*nil` -/
def nilPointer : Exc := .panic c!"nil pointer dereference"

/-! ## Expressions -/

section
variable (L : Lib) (pats : Nat → Str)

/-- What is passed to `fmt.Sprintf` -/
def argOf : Val → Except Exc JVal
  | .json j => .ok j
  | .bool b => .ok (.bool b)
  | .int i => .ok (.int64 i)
  | .float f => .ok (.float f)
  | .str s => .ok (.str s)
  | _ => .error .typeError

/-- A text -/
def textOf : Val → Except Exc Str
  | .str s => .ok s
  | _ => .error .typeError

/-- A truth value -/
def boolOf : Val → Except Exc Bool
  | .bool b => .ok b
  | .zero => .ok false
  | _ => .error .typeError

/-- The pointer of `e.f` or `*e` -/
def pointer : Val → Except Exc Addr
  | .ptr a => .ok a
  | .nil => .error nilPointer
  | .zero => .error nilPointer
  | _ => .error .typeError

/-- `e[k]`; a missing key of a map gives the zero value. -/
def indexOf (σ : St) : Val → Val → Except Exc Val
  | .slice l, .int i => need ((σ.heap[l]?).bind fun a => if 0 ≤ i then step (.item i.toNat) a else none)
  | .map l, .str k =>
    match σ.heap[l]? with
    | some (.table kvs) => .ok ((kvs.lookup k).getD .zero)
    | _ => .error .typeError
  | .nil, .str _ => .ok .zero
  | .zero, .str _ => .ok .zero
  | .json (.arr xs), .int i => need (if 0 ≤ i then (xs[i.toNat]?).map .json else none)
  | .json (.obj kvs), .str k => .ok (match kvs.lookup k with
    | some j => .json j
    | none => .json .null)
  | _, _ => .error .typeError

/-- `len(v)` -/
def lenOf (σ : St) : Val → Except Exc Int
  | .slice l =>
    match σ.heap[l]? with
    | some (.array xs) => .ok xs.length
    | _ => .error .typeError
  | .map l =>
    match σ.heap[l]? with
    | some (.table kvs) => .ok kvs.length
    | _ => .error .typeError
  | .nil => .ok 0
  | .zero => .ok 0
  | .json (.arr xs) => .ok xs.length
  | .json (.obj kvs) => .ok kvs.length
  | _ => .error .typeError

/-- A comparison with a constant; a constant which is compared with a `float64` is rounded to it. -/
def compare : Cmp → Val → Int → Except Exc Bool
  | .gt, .int i, m => .ok (decide (m < i))
  | .ge, .int i, m => .ok (decide (m ≤ i))
  | .lt, .int i, m => .ok (decide (i < m))
  | .le, .int i, m => .ok (decide (i ≤ m))
  | .gt, .float f, m => .ok (GoRuntime.floatAbove true m f)
  | .ge, .float f, m => .ok (GoRuntime.floatAbove false m f)
  | .lt, .float f, m => .ok (GoRuntime.floatBelow true m f)
  | .le, .float f, m => .ok (GoRuntime.floatBelow false m f)
  | _, _, _ => .error .typeError

/-- `a != math.Trunc(a)` -/
def isFractional : F64 → Bool
  | .nan => true
  | .inf _ => false
  | .fin q => decide (q ≠ (F64.truncRat q : Rat))

/-- `a >= 2^63 || a < -2^63` -/
def isBeyond : F64 → Bool
  | .nan => false
  | .inf _ => true
  | .fin q => decide (9223372036854775808 ≤ q ∨ q < -9223372036854775808)

mutual

/-- The value of an expression -/
def eval (ρ : Env) (σ : St) : Expr → Except Exc Val
  | .var x => need ((ρ.lookup x).bind fun l => σ.heap[l]?)
  | .str s => .ok (.str s)
  | .int i => .ok (.int i)
  | .nil => .ok .nil
  | .zero => .ok .zero
  | .field e f => do
    let a ← pointer (← eval ρ σ e)
    need (σ.read ⟨a.loc, a.path ++ [.field f]⟩)
  | .deref e => do
    let a ← pointer (← eval ρ σ e)
    need (σ.read a)
  | .index e k => do
    let v ← eval ρ σ e
    let w ← eval ρ σ k
    indexOf σ v w
  | .len e => do
    let v ← eval ρ σ e
    return .int (← lenOf σ v)
  | .isNil e => do
    let v ← eval ρ σ e
    return .bool v.isNil
  | .notNil e => do
    let v ← eval ρ σ e
    return .bool (!v.isNil)
  | .not e => do
    let b ← boolOf (← eval ρ σ e)
    return .bool (!b)
  | .ne a b => do
    let s ← textOf (← eval ρ σ a)
    let t ← textOf (← eval ρ σ b)
    return .bool (decide (s ≠ t))
  | .fractional e => do
    match ← eval ρ σ e with
    | .float f => return .bool (isFractional f)
    | _ => .error .typeError
  | .beyondInt64 e => do
    match ← eval ρ σ e with
    | .float f => return .bool (isBeyond f)
    | _ => .error .typeError
  | .toInt64 e => do
    match ← eval ρ σ e with
    | .float (.fin q) => return .int (F64.truncRat q)
    | _ => .error .typeError
  | .cmp op e m => do
    let v ← eval ρ σ e
    return .bool (← compare op v m)
  | .format e layout => do
    match ← eval ρ σ e with
    | .time t => return .str (L.formatTime t layout)
    | _ => .error .typeError
  | .zoneName e => do
    match ← eval ρ σ e with
    | .zone s => return .str s
    | .nil => return .str c!"UTC"
    | .zero => return .str c!"UTC"
    | _ => .error .typeError
  | .durationText e => do
    match ← eval ρ σ e with
    | .duration d => return .str (Duration.goToString d)
    | _ => .error .typeError
  | .errorText e => do
    match ← eval ρ σ e with
    | .error msg => return .str msg
    | _ => .error .typeError
  | .itoa e => do
    match ← eval ρ σ e with
    | .int i => return .str (Duration.intStr i)
    | _ => .error .typeError
  | .matches uid e => do
    let s ← textOf (← eval ρ σ e)
    return .bool (L.matchString (pats uid) s)
  | .plus e t => do
    let s ← textOf (← eval ρ σ e)
    return .str (s ++ t)
  | .join parts => do
    let vs ← evalAll ρ σ parts
    let ts ← vs.mapM textOf
    return .str (joinWith c!"/" ts)
  | .sprintf format args => do
    let vs ← evalAll ρ σ args
    let js ← vs.mapM argOf
    return .str (L.sprintf format js)
  | .errorf format args => do
    let vs ← evalAll ρ σ args
    let js ← vs.mapM argOf
    return .error (L.sprintf format js)
  | .errorsEmpty => .ok (.bool σ.errors.empty)
  | .errorsFull => .ok (.bool σ.errors.full)

/-- The values of expressions -/
def evalAll (ρ : Env) (σ : St) : List Expr → Except Exc (List Val)
  | [] => .ok []
  | e :: es => do
    let v ← eval ρ σ e
    let vs ← evalAll ρ σ es
    return v :: vs

end

/-- The address `&e` of an expression which can be assigned to -/
def addrOf (ρ : Env) (σ : St) : Expr → Except Exc Addr
  | .var x => do
    let l ← need (ρ.lookup x)
    return ⟨l, []⟩
  | .field e f => do
    let a ← pointer (← eval L pats ρ σ e)
    return ⟨a.loc, a.path ++ [.field f]⟩
  | .deref e => do pointer (← eval L pats ρ σ e)
  | .index e k => do
    match ← eval L pats ρ σ e, ← eval L pats ρ σ k with
    | .slice l, .int i => if 0 ≤ i then return ⟨l, [.item i.toNat]⟩ else .error .typeError
    | _, _ => .error .typeError
  | _ => .error .typeError

/-- An argument -/
def argument (ρ : Env) (σ : St) : Arg → Except Exc Val
  | .val e => eval L pats ρ σ e
  | .addr e => do
    let a ← addrOf L pats ρ σ e
    return .ptr a

/-- The pair of values of `x, y := two` -/
def evalTwo (ρ : Env) (σ : St) : Two → Except Exc (Val × Val)
  | .assert k e => do
    match ← eval L pats ρ σ e, k with
    | .json (.bool b), .bool => return (.bool b, .bool true)
    | .json (.float f), .float64 => return (.float f, .bool true)
    | .json (.str s), .string => return (.str s, .bool true)
    | .json (.arr xs), .slice => return (.json (.arr xs), .bool true)
    | .json (.obj kvs), .map => return (.json (.obj kvs), .bool true)
    | .json _, _ => return (.zero, .bool false)
    | _, _ => .error .typeError
  | .lookup e k => do
    match ← eval L pats ρ σ e, ← eval L pats ρ σ k with
    | .map l, .str s =>
      match σ.heap[l]? with
      | some (.table kvs) => match kvs.lookup s with
        | some v => return (v, .bool true)
        | none => return (.zero, .bool false)
      | _ => .error .typeError
    | .nil, .str _ => return (.zero, .bool false)
    | .zero, .str _ => return (.zero, .bool false)
    | .json (.obj kvs), .str s => match kvs.lookup s with
      | some j => return (.json j, .bool true)
      | none => return (.json .null, .bool false)
    | _, _ => .error .typeError
  | .parseTime layout e => do
    let s ← textOf (← eval L pats ρ σ e)
    match L.parseTime layout s with
    | some t => return (.time t, .nil)
    | none => return (.zero, .error [])
  | .loadLocation e => do
    let s ← textOf (← eval L pats ρ σ e)
    match L.loadLocation s with
    | some z => return (.zone z, .nil)
    | none => return (.nil, .error (L.locationError s))
  | .durationFrom e => do
    let s ← textOf (← eval L pats ρ σ e)
    match Duration.goFromString s with
    | .ok d => return (.duration d, .nil)
    | .error (.valueError msg) => return (.zero, .error msg)
    | .error x => .error x

/-! ## Statements -/

/-- `m[k] = w` or `s[i] = w` in the contents of the cell -/
def store : Val → Val → Val → Option Val
  | .table kvs, .str k, w => some (.table (GoMap.put k w kvs))
  | .array xs, .int i, w => if 0 ≤ i ∧ i.toNat < xs.length then some (.array (xs.set i.toNat w)) else none
  | _, _, _ => none

/-- An assignment -/
def assignTo (ρ : Env) (σ : St) (w : Val) : Place → Except Exc St
  | .var x => do
    let l ← need (ρ.lookup x)
    return σ.put l w
  | .field e f => do
    let a ← pointer (← eval L pats ρ σ e)
    need (σ.write ⟨a.loc, a.path ++ [.field f]⟩ w)
  | .index e k => do
    let v ← eval L pats ρ σ e
    let k ← eval L pats ρ σ k
    match v with
    | .map l => need ((σ.heap[l]?).bind fun c => (store c k w).map fun c => σ.put l c)
    | .slice l => need ((σ.heap[l]?).bind fun c => (store c k w).map fun c => σ.put l c)
    | .nil => .error (.panic c!"assignment to entry in nil map")
    | .zero => .error (.panic c!"assignment to entry in nil map")
    | _ => .error .typeError

/-- How a statement ends -/
inductive Flow where
  | next | brk | ret
  deriving DecidableEq, Repr

/-- The result of a statement -/
abbrev Result := Except Exc (Flow × Env × St)

/-- A call: the function, the arguments and the state; the results and the state afterwards. -/
abbrev Call := Str → List Val → St → Except Exc (List Val × St)

/-- A right-hand side -/
def evalRhs (call : Call) (ρ : Env) (σ : St) : Rhs → Except Exc (Val × St)
  | .val e => do
    let v ← eval L pats ρ σ e
    return (v, σ)
  | .makeMap => .ok (.map σ.heap.length, (σ.alloc (.table [])).2)
  | .makeSlice e => do
    match ← eval L pats ρ σ e with
    | .int i => return (.slice σ.heap.length, (σ.alloc (.array (List.replicate i.toNat .zero))).2)
    | _ => .error .typeError
  | .new => .ok (.ptr ⟨σ.heap.length, []⟩, (σ.alloc .zero).2)
  | .addr e => do
    let a ← addrOf L pats ρ σ e
    return (.ptr a, σ)
  | .call f args => do
    let vs ← args.mapM (argument L pats ρ σ)
    let (rs, σ) ← call f vs σ
    match rs with
    | [r] => return (r, σ)
    | _ => .error .typeError

/-- The iterations of a loop: before each the variables are set, the body is a block, `break` ends the loop. -/
def loop {α : Type} (set : α → St → Except Exc St) (body : St → Except Exc (Flow × St)) : List α → St → Except Exc (Flow × St)
  | [], σ => .ok (.next, σ)
  | a :: as, σ => do
    let σ ← set a σ
    let (f, σ) ← body σ
    match f with
    | .next => loop set body as σ
    | .brk => return (.next, σ)
    | .ret => return (.ret, σ)

/-- The entries of a map -/
def entriesOf (σ : St) : Val → Except Exc (List (Str × Val))
  | .map l =>
    match σ.heap[l]? with
    | some (.table kvs) => .ok kvs
    | _ => .error .typeError
  | .nil => .ok []
  | .zero => .ok []
  | .json (.obj kvs) => .ok (kvs.map fun kv => (kv.1, .json kv.2))
  | _ => .error .typeError

/-- The result of a block: the variables declared in it are gone. -/
def close (ρ : Env) : Result → Result
  | .ok (f, _, σ) => .ok (f, ρ, σ)
  | .error e => .error e

/-- The body of a loop without its variables -/
def bodyOf : Result → Except Exc (Flow × St)
  | .ok (f, _, σ) => .ok (f, σ)
  | .error e => .error e

/-- The execution of a statement -/
def exec (O : Order) (call : Call) : Stmt → Env → St → Result
  | .skip, ρ, σ => .ok (.next, ρ, σ)
  | .seq a b, ρ, σ => do
    let (f, ρ, σ) ← exec O call a ρ σ
    match f with
    | .next => exec O call b ρ σ
    | _ => return (f, ρ, σ)
  | .declare x r, ρ, σ => do
    let (v, σ) ← evalRhs L pats call ρ σ r
    return (.next, (x, σ.heap.length) :: ρ, (σ.alloc v).2)
  | .declare2 x y two, ρ, σ => do
    let (v, w) ← evalTwo L pats ρ σ two
    match x with
    | some x =>
      return (.next, (y, σ.heap.length + 1) :: (x, σ.heap.length) :: ρ, ((σ.alloc v).2.alloc w).2)
    | none => return (.next, (y, σ.heap.length) :: ρ, (σ.alloc w).2)
  | .assign p r, ρ, σ => do
    let (v, σ) ← evalRhs L pats call ρ σ r
    let σ ← assignTo L pats ρ σ v p
    return (.next, ρ, σ)
  | .assign2 x y two, ρ, σ => do
    let (v, w) ← evalTwo L pats ρ σ two
    let σ ← assignTo L pats ρ σ v (.var x)
    let σ ← assignTo L pats ρ σ w (.var y)
    return (.next, ρ, σ)
  | .ite c a b, ρ, σ => do
    let t ← boolOf (← eval L pats ρ σ c)
    if t then close ρ (exec O call a ρ σ) else close ρ (exec O call b ρ σ)
  | .forCount i n body, ρ, σ => do
    match ← eval L pats ρ σ (.var n) with
    | .int m =>
      let ρ' := (i, σ.heap.length) :: ρ
      let (f, σ) ← loop (fun k τ => .ok (τ.put σ.heap.length (.int k))) (fun τ => bodyOf (exec O call body ρ' τ))
        ((List.range m.toNat).map fun (k : Nat) => (k : Int)) (σ.alloc (.int 0)).2
      return (f, ρ, σ)
    | _ => .error .typeError
  | .forItems i e body, ρ, σ => do
    let m ← lenOf σ (← eval L pats ρ σ e)
    let ρ' := (i, σ.heap.length) :: ρ
    let (f, σ) ← loop (fun k τ => .ok (τ.put σ.heap.length (.int k))) (fun τ => bodyOf (exec O call body ρ' τ))
      ((List.range m.toNat).map fun (k : Nat) => (k : Int)) (σ.alloc (.int 0)).2
    return (f, ρ, σ)
  | .forEntries k none e body, ρ, σ => do
    let kvs ← entriesOf σ (← eval L pats ρ σ e)
    let ρ' := (k, σ.heap.length) :: ρ
    let (f, σ) ← loop (fun (kv : Str × Val) τ => .ok (τ.put σ.heap.length (.str kv.1)))
      (fun τ => bodyOf (exec O call body ρ' τ)) (O.visit σ.ranges kvs)
      { (σ.alloc .zero).2 with ranges := σ.ranges + 1 }
    return (f, ρ, σ)
  | .forEntries k (some x) e body, ρ, σ => do
    let kvs ← entriesOf σ (← eval L pats ρ σ e)
    let ρ' := (x, σ.heap.length + 1) :: (k, σ.heap.length) :: ρ
    let (f, σ) ← loop (fun (kv : Str × Val) τ => .ok ((τ.put σ.heap.length (.str kv.1)).put (σ.heap.length + 1) kv.2))
      (fun τ => bodyOf (exec O call body ρ' τ)) (O.visit σ.ranges kvs)
      { ((σ.alloc .zero).2.alloc .zero).2 with ranges := σ.ranges + 1 }
    return (f, ρ, σ)
  | .call f args, ρ, σ => do
    let vs ← args.mapM (argument L pats ρ σ)
    let (_, σ) ← call f vs σ
    return (.next, ρ, σ)
  | .report r m, ρ, σ => do
    let s ← textOf (← eval L pats ρ σ r)
    let t ← textOf (← eval L pats ρ σ m)
    return (.next, ρ, { σ with errors := σ.errors.add ⟨s, t⟩ })
  | .panic msg, _, _ => .error (.panic msg)
  | .brk, ρ, σ => .ok (.brk, ρ, σ)
  | .ret, ρ, σ => .ok (.ret, ρ, σ)

end

/-- The variables of a function: one new cell for each parameter, with the argument -/
def bind : List Name → List Val → Env → St → Except Exc (Env × St)
  | [], [], ρ, σ => .ok (ρ, σ)
  | x :: xs, v :: vs, ρ, σ => bind xs vs ((x, σ.heap.length) :: ρ) (σ.alloc v).2
  | _, _, _, _ => .error .typeError

/-- The call of a function of the package; `fuel` is the number of stack frames left. -/
def run (O : Order) (L : Lib) (P : Program) : Nat → Call
  | 0, _, _, _ => .error .recursionError
  | fuel + 1, f, args, σ =>
    match P.funcs.find? (fun F => F.name == f) with
    | none => .error .typeError
    | some F => do
      let (ρ, σ) ← bind F.params args [] σ
      let (ρ, σ) ← bind F.results (F.results.map fun _ => .zero) ρ σ
      let (_, _, σ) ← exec L P.patterns O (run O L P fuel) F.body ρ σ
      let (_, _, σ) ← exec L P.patterns O (run O L P fuel) F.deferred ρ σ
      let rs ← F.results.mapM fun x => eval L P.patterns ρ σ (.var x)
      return (rs, σ)

end Mapry.GoLang
