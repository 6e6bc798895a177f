import Verif.PyRuntime

/-!
# A fragment of Python: syntax and meaning

The statements and expressions which occur in the generated Python code, and what they do. Nothing here mentions the
generators or the schema. Objects live in a heap, a variable or an attribute holds an address of it, and an assignment
shares the object.

General simplifications:

* The JSONable input is a value and not an object of the heap: the generated code never changes it, and never stores one
  of its containers.
* A loop runs over the items which the container holds when the loop starts: the generated code never changes a
  container while it iterates over it.
* The methods of `Errors` are the ones of `Verif/Errors.lean`; the functions of the libraries are the ones of `Lib`.
* A call of a library function or of a method of `Errors` takes no frame of the stack.
* The modules of the package and of the libraries, and the functions `_duration_from_string` and `_duration_to_string`, are
  found under their names: that no local variable hides one of these is proved of the text of the code
  (`Verif/PyToModule.lean`, `Verif/PyFromModule.lean`), and is not part of the meaning here.
-/

namespace Mapry.PyLang

open Mapry.PyRuntime (Json Lib DateTime Date Time)
open Mapry.Duration Mapry.Text

abbrev Addr := Nat

/-- A value of Python. -/
inductive PV where
  | none
  | bool (b : Bool)
  | int (i : Int)
  | float (f : F64)
  | str (s : Str)
  /-- a `pathlib.Path` by its text -/
  | path (s : Str)
  | date (d : Date)
  | time (t : Time)
  | datetime (d : DateTime)
  /-- a `pytz` time zone by its text -/
  | zone (s : Str)
  | duration (d : Timedelta)
  /-- a type by its text -/
  | type (s : Str)
  /-- a list of the input -/
  | arr (xs : List Json)
  /-- a dictionary of the input -/
  | obj (ordered : Bool) (kvs : List (Str × Json))
  /-- an object of the heap -/
  | addr (a : Addr)

/-- An object of the heap. -/
inductive Obj where
  | list (xs : List PV)
  | dict (ordered : Bool) (kvs : List (Str × PV))
  | inst (cls : Str) (attrs : List (Str × PV))
  | errors (es : Errors)

/-- A value of the input. -/
def ofJson : Json → PV
  | .null => .none
  | .bool b => .bool b
  | .int i => .int i
  | .float f => .float f
  | .str s => .str s
  | .arr xs => .arr xs
  | .obj o kvs => .obj o kvs

/-! ## Syntax -/

/-- The classes in `isinstance`. -/
inductive Cls where
  | bool
  | int
  /-- `(int, float)` -/
  | number
  | str
  | list
  | dict
  | orderedDict
  deriving DecidableEq, Repr

inductive Cmp where
  | gt
  | ge
  | lt
  | le
  deriving DecidableEq, Repr

/-- A function which is called by its name. -/
inductive Fn where
  /-- a class of the module of the types -/
  | cls (name : Str)
  /-- a function of the module `parse` -/
  | parse (name : Str)
  /-- a function of the same module -/
  | own (name : Str)
  deriving DecidableEq, Repr

mutual

inductive Expr where
  | none
  | str (s : Str)
  | name (x : Str)
  /-- `[]` -/
  | newList
  /-- `dict()` or `collections.OrderedDict()` -/
  | newDict (ordered : Bool)
  /-- `e.a` -/
  | attr (e : Expr) (a : Str)
  /-- `e[k]` -/
  | index (e k : Expr)
  /-- `e.get(k, None)` -/
  | get (e k : Expr)
  /-- `e[:]` -/
  | copy (e : Expr)
  /-- `k in e` -/
  | isIn (k e : Expr)
  | isinstance (e : Expr) (c : Cls)
  | not (e : Expr)
  /-- `e is None` -/
  | isNone (e : Expr)
  /-- `e is not None` -/
  | isNotNone (e : Expr)
  /-- the comparison of a number with an integer -/
  | cmp (op : Cmp) (e : Expr) (i : Int)
  /-- `a != b` -/
  | ne (a b : Expr)
  /-- `a if c else b` -/
  | cond (c a b : Expr)
  | len (e : Expr)
  /-- `type(e)` -/
  | typeOf (e : Expr)
  /-- `str(e)` -/
  | strOf (e : Expr)
  /-- `repr(e)` -/
  | reprOf (e : Expr)
  /-- `float(e)` -/
  | floatOf (e : Expr)
  /-- `'/'.join((parts))` -/
  | join (parts : Args)
  /-- `'template'.format(args)` -/
  | format (template : Str) (args : Args)
  /-- `a + b` of texts -/
  | plus (a b : Expr)
  /-- `re.match(pattern, e)` -/
  | reMatch (pattern : Str) (e : Expr)
  /-- `datetime.datetime.strptime(e, format)` -/
  | strptime (e : Expr) (format : Str)
  /-- `e.date()` -/
  | dateOf (e : Expr)
  /-- `e.time()` -/
  | timeOf (e : Expr)
  /-- `e.strftime(format)` -/
  | strftime (e : Expr) (format : Str)
  /-- `pathlib.Path(e)` -/
  | pathOf (e : Expr)
  /-- `pytz.timezone(e)` -/
  | timezone (e : Expr)
  /-- `_duration_from_string(e)` -/
  | durationFrom (e : Expr)
  /-- `_duration_to_string(e)` -/
  | durationTo (e : Expr)
  /-- `e.add(ref, message)` of `Errors` -/
  | addError (e ref message : Expr)
  /-- `e.full()` of `Errors` -/
  | isFull (e : Expr)
  /-- `e.empty()` of `Errors` -/
  | isEmpty (e : Expr)
  /-- `e.append(x)` -/
  | append (e x : Expr)
  | call (f : Fn) (args : Args)
  /-- `[e for x in source]` -/
  | comp (e : Expr) (x : Str) (source : Expr)

/-- The arguments of a call. -/
inductive Args where
  | nil
  | pos (e : Expr) (rest : Args)
  | kw (k : Str) (e : Expr) (rest : Args)

end

/-- What is assigned to. -/
inductive Target where
  | var (x : Str)
  /-- `e.a = ...` -/
  | attr (e : Expr) (a : Str)
  /-- `e[k] = ...` -/
  | item (e k : Expr)

/-- The exceptions of an `except` clause. -/
inductive Catch where
  | valueError
  | overflowError
  | unknownTimeZone
  deriving DecidableEq, Repr

inductive Stmt where
  | pass
  | seq (a b : Stmt)
  | assign (t : Target) (e : Expr)
  | expr (e : Expr)
  | ite (c : Expr) (yes no : Stmt)
  /-- `for x in e: body` -/
  | forIn (x : Str) (e : Expr) (body : Stmt)
  /-- `for i, x in enumerate(e): body` -/
  | forEnum (i x : Str) (e : Expr) (body : Stmt)
  /-- `for k, x in e.items(): body` -/
  | forItems (k x : Str) (e : Expr) (body : Stmt)
  /-- `try: body except (catch) as name: handler` -/
  | attempt (body : Stmt) (catch_ : List Catch) (as_ : Option Str) (handler : Stmt)
  | ret (e : Expr)
  | brk
  | cont
  /-- `raise ValueError(message)` -/
  | raiseValue (message : Expr)

/-- A parameter with the value if the argument is missing. -/
structure Param where
  name : Str
  default : Option PV := none

/-- A function. -/
structure Func where
  name : Str
  params : List Param
  body : Stmt

/-- A class with the constructor, if there is one; `self` is not among its parameters. -/
structure ClassDef where
  name : Str
  init : Option Func

/-! ## Meaning -/

/-- An exception with its text. The texts which no generated code asks for are empty. -/
inductive Raised where
  | exc (x : Exc) (text : Str)
  /-- `pytz.exceptions.UnknownTimeZoneError` -/
  | unknownTimeZone

/-- The heap and the variables of the running function. -/
structure St where
  heap : List Obj
  vars : Str → Option PV

/-- A computation: the state is kept if it raises. -/
def M (α : Type) : Type := St → Except Raised α × St

def M.bind {α β : Type} (m : M α) (f : α → M β) : M β := fun s =>
  match m s with
  | (.ok a, s) => f a s
  | (.error x, s) => (.error x, s)

instance : Monad M where
  pure a := fun s => (.ok a, s)
  bind := M.bind

def fail {α : Type} (x : Raised) : M α := fun s => (.error x, s)

def raise {α : Type} (x : Exc) : M α := fail (.exc x [])

def getHeap : M (List Obj) := fun s => (.ok s.heap, s)

/-- The object at the address; there is always one. -/
def load (a : Addr) : M Obj := fun s =>
  match s.heap[a]? with
  | some o => (.ok o, s)
  | none => (.error (.exc .typeError []), s)

def save (a : Addr) (o : Obj) : M Unit := fun s => (.ok (), { s with heap := s.heap.set a o })

def alloc (o : Obj) : M PV := fun s => (.ok (.addr s.heap.length), { s with heap := s.heap ++ [o] })

/-- Binds the variable. -/
def setVar (x : Str) (v : PV) : M Unit := fun s => (.ok (), { s with vars := fun y => if y = x then some v else s.vars y })

/-- Deletes the variable. -/
def delVar (x : Str) : M Unit := fun s => (.ok (), { s with vars := fun y => if y = x then none else s.vars y })

/-- A variable which is not bound raises (`UnboundLocalError`, `NameError`). -/
def getVar (x : Str) : M PV := fun s =>
  match s.vars x with
  | some v => (.ok v, s)
  | none => (.error (.exc (.runtimeError c!"name") []), s)

/-- `kvs[k] = v` -/
def put {α : Type} (k : Str) (v : α) : List (Str × α) → List (Str × α)
  | [] => [(k, v)]
  | (k', v') :: rest => if k' = k then (k, v) :: rest else (k', v') :: put k v rest

/-- `v is None` -/
def PV.isNone : PV → Bool
  | .none => true
  | _ => false

/-- The truth of a value. (The objects of the heap whose truth the generated code asks for are none.) -/
def truth : PV → Bool
  | .none => false
  | .bool b => b
  | .int i => i ≠ 0
  | .str s => s ≠ []
  | .arr xs => !xs.isEmpty
  | .obj _ kvs => !kvs.isEmpty
  | _ => true

/-- `isinstance` -/
def isInstance (h : List Obj) (v : PV) : Cls → Bool
  | .bool => match v with
    | .bool _ => true
    | _ => false
  | .int => match v with
    | .bool _ | .int _ => true
    | _ => false
  | .number => match v with
    | .bool _ | .int _ | .float _ => true
    | _ => false
  | .str => match v with
    | .str _ => true
    | _ => false
  | .list => match v with
    | .arr _ => true
    | .addr a => match h[a]? with
      | some (.list _) => true
      | _ => false
    | _ => false
  | .dict => match v with
    | .obj _ _ => true
    | .addr a => match h[a]? with
      | some (.dict _ _) => true
      | _ => false
    | _ => false
  | .orderedDict => match v with
    | .obj o _ => o
    | .addr a => match h[a]? with
      | some (.dict o _) => o
      | _ => false
    | _ => false

/-- A number -/
def num? : PV → Option PyRuntime.Num
  | .bool b => some (.int (if b then 1 else 0))
  | .int i => some (.int i)
  | .float f => some (.float f)
  | _ => none

def compare : Cmp → PyRuntime.Num → Int → Bool
  | .gt => PyRuntime.Num.gt
  | .ge => PyRuntime.Num.ge
  | .lt => PyRuntime.Num.lt
  | .le => PyRuntime.Num.le

/-- `str(type(v))` -/
def typeText (h : List Obj) : PV → Str
  | .none => c!"<class 'NoneType'>"
  | .bool _ => c!"<class 'bool'>"
  | .int _ => c!"<class 'int'>"
  | .float _ => c!"<class 'float'>"
  | .str _ => c!"<class 'str'>"
  | .arr _ => c!"<class 'list'>"
  | .obj false _ => c!"<class 'dict'>"
  | .obj true _ => c!"<class 'collections.OrderedDict'>"
  | .addr a => match h[a]? with
    | some (.list _) => c!"<class 'list'>"
    | some (.dict false _) => c!"<class 'dict'>"
    | some (.dict true _) => c!"<class 'collections.OrderedDict'>"
    | _ => []
  | _ => []

/-- `str(v)` and the text of `v` in `str.format`; the texts which no generated code asks for are empty. -/
def text (L : Lib) : PV → Str
  | .none => c!"None"
  | .bool true => c!"True"
  | .bool false => c!"False"
  | .int i => intStr i
  | .float f => L.floatRepr f
  | .str s => s
  | .path s => s
  | .zone s => s
  | .type s => s
  | _ => []

/-- `repr(v)`, asked for of texts only -/
def reprText (L : Lib) : PV → Str
  | .str s => L.repr s
  | v => text L v

/-- `str.format`: `{}` stands for the next argument, `{!r}` for the `repr` of the next argument, `{{` and `}}` for the
braces. Any other replacement field raises, as does a missing argument; the kind of the exception (`IndexError`,
`ValueError` or `KeyError`) is not represented. -/
def formatText (L : Lib) : Str → List PV → Except Exc Str
  | [], _ => .ok []
  | '{' :: '{' :: rest, vs => do
    let t ← formatText L rest vs
    pure ('{' :: t)
  | '}' :: '}' :: rest, vs => do
    let t ← formatText L rest vs
    pure ('}' :: t)
  | '{' :: '}' :: rest, v :: vs => do
    let t ← formatText L rest vs
    pure (text L v ++ t)
  | '{' :: '!' :: 'r' :: '}' :: rest, v :: vs => do
    let t ← formatText L rest vs
    pure (reprText L v ++ t)
  | '{' :: _, _ => .error .indexError
  | '}' :: _, _ => .error .indexError
  | c :: rest, vs => do
    let t ← formatText L rest vs
    pure (c :: t)

/-- `'/'.join(parts)`: all parts must be texts -/
def joinTexts : List PV → Except Exc Str
  | [] => .ok []
  | [.str s] => .ok s
  | .str s :: rest => do
    let t ← joinTexts rest
    pure (s ++ '/' :: t)
  | _ => .error .typeError

def liftExc {α : Type} : Except Exc α → M α
  | .ok a => pure a
  | .error x => raise x

/-- `e.a` -/
def getAttr (v : PV) (a : Str) : M PV :=
  match v with
  | .addr p => do
    match ← load p with
    | .inst _ attrs => match attrs.lookup a with
      | some w => pure w
      | none => raise .attributeError
    | _ => raise .attributeError
  | _ => raise .attributeError

/-- The entries of a dictionary; of another value, they raise the exception. -/
def entries (otherwise : Exc) (v : PV) : M (List (Str × PV)) :=
  match v with
  | .obj _ kvs => pure (kvs.map fun kv => (kv.1, ofJson kv.2))
  | .addr p => do
    match ← load p with
    | .dict _ kvs => pure kvs
    | _ => raise otherwise
  | _ => raise otherwise

/-- The items which a loop runs over: the items of a list, the keys of a dictionary. -/
def elements (v : PV) : M (List PV) :=
  match v with
  | .arr xs => pure (xs.map ofJson)
  | .obj _ kvs => pure (kvs.map fun kv => .str kv.1)
  | .addr p => do
    match ← load p with
    | .list xs => pure xs
    | .dict _ kvs => pure (kvs.map fun kv => .str kv.1)
    | _ => raise .typeError
  | _ => raise .typeError

/-- The key of a dictionary: the keys are texts. -/
def keyOf : PV → M Str
  | .str s => pure s
  | _ => raise .keyError

/-- `e.a = w` -/
def setAttr (v : PV) (a : Str) (w : PV) : M Unit :=
  match v with
  | .addr p => do
    match ← load p with
    | .inst c attrs => save p (.inst c (put a w attrs))
    | _ => raise .attributeError
  | _ => raise .attributeError

/-- `e[k] = w` -/
def setItem (v k w : PV) : M Unit :=
  match v with
  | .addr p => do
    match ← load p with
    | .dict o kvs => do
      let k ← keyOf k
      save p (.dict o (put k w kvs))
    | _ => raise .typeError
  | _ => raise .typeError

/-- The container of errors -/
def errorsOf (v : PV) : M (Addr × Errors) :=
  match v with
  | .addr p => do
    match ← load p with
    | .errors es => pure (p, es)
    | _ => raise .attributeError
  | _ => raise .attributeError

def textOf : PV → M Str
  | .str s => pure s
  | _ => raise .typeError

/-- `_duration_from_string(s)` with the texts of the exceptions (`/repo/mapry/py/generate/fromjsonable.py:108-247`,
modelled by `pyFromString`). -/
def durationFrom (L : Lib) (s : Str) : M PV :=
  match pyFromString s with
  | .ok d => pure (.duration d)
  | .error (.valueError msg) => fail (.exc (.valueError msg) msg)
  | .error .overflowError => fail (.exc .overflowError (c!"Creating a timedelta overflowed from: " ++ L.repr s))
  | .error x => raise x

/-- The arguments of a call: the keyword, if there is one, and the value -/
abbrev Actual := List (Option Str × PV)

section

variable (L : Lib) (call : Fn → Actual → M PV)

/-- Runs the computation for every item. -/
def mapItems (f : PV → M PV) : List PV → M (List PV)
  | [] => pure []
  | x :: xs => do
    let y ← f x
    let ys ← mapItems f xs
    pure (y :: ys)

/-- The computation in the scope of a comprehension, in which the variable is bound. -/
def within (x : Str) (v : PV) (m : M PV) : M PV := fun s =>
  match m { s with vars := fun y => if y = x then some v else s.vars y } with
  | (r, s') => (r, { s' with vars := s.vars })

mutual

/-- The value of an expression; `call` calls a function. -/
def eval : Expr → M PV
  | .none => pure .none
  | .str s => pure (.str s)
  | .name x => getVar x
  | .newList => alloc (.list [])
  | .newDict o => alloc (.dict o [])
  | .attr e a => do
    let v ← eval e
    getAttr v a
  | .index e k => do
    let v ← eval e
    let k ← eval k
    let kvs ← entries .typeError v
    let k ← keyOf k
    match kvs.lookup k with
    | some w => pure w
    | none => raise .keyError
  | .get e k => do
    let v ← eval e
    let k ← eval k
    let kvs ← entries .attributeError v
    match k with
    | .str k => pure ((kvs.lookup k).getD .none)
    | _ => pure .none
  | .copy e => do
    let v ← eval e
    match v with
    | .addr p => do
      match ← load p with
      | .list xs => alloc (.list xs)
      | _ => raise .typeError
    | _ => raise .typeError
  | .isIn k e => do
    let k ← eval k
    let v ← eval e
    let kvs ← entries .typeError v
    match k with
    | .str k => pure (.bool (kvs.lookup k).isSome)
    | _ => pure (.bool false)
  | .isinstance e c => do
    let v ← eval e
    let h ← getHeap
    pure (.bool (isInstance h v c))
  | .not e => do
    let v ← eval e
    pure (.bool (!truth v))
  | .isNone e => do
    let v ← eval e
    pure (.bool v.isNone)
  | .isNotNone e => do
    let v ← eval e
    pure (.bool (!v.isNone))
  | .cmp op e i => do
    let v ← eval e
    match num? v with
    | some n => pure (.bool (compare op n i))
    | none => raise .typeError
  | .ne a b => do
    let v ← eval a
    let w ← eval b
    match v, w with
    | .str s, .str t => pure (.bool (s ≠ t))
    | _, _ => pure (.bool true)
  | .cond c a b => do
    let v ← eval c
    if truth v then eval a else eval b
  | .len e => do
    let v ← eval e
    match v with
    | .str s => pure (.int s.length)
    | .arr xs => pure (.int xs.length)
    | .obj _ kvs => pure (.int kvs.length)
    | .addr p => do
      match ← load p with
      | .list xs => pure (.int xs.length)
      | .dict _ kvs => pure (.int kvs.length)
      | _ => raise .typeError
    | _ => raise .typeError
  | .typeOf e => do
    let v ← eval e
    let h ← getHeap
    pure (.type (typeText h v))
  | .strOf e => do
    let v ← eval e
    pure (.str (text L v))
  | .reprOf e => do
    let v ← eval e
    pure (.str (reprText L v))
  | .floatOf e => do
    let v ← eval e
    match num? v with
    | some n => do
      let f ← liftExc n.toFloat
      pure (.float f)
    | none => raise .typeError
  | .join parts => do
    let vs ← evalArgs parts
    let t ← liftExc (joinTexts (vs.map (·.2)))
    pure (.str t)
  | .format template args => do
    let vs ← evalArgs args
    let t ← liftExc (formatText L template (vs.map (·.2)))
    pure (.str t)
  | .plus a b => do
    let v ← eval a
    let w ← eval b
    let s ← textOf v
    let t ← textOf w
    pure (.str (s ++ t))
  | .reMatch p e => do
    let v ← eval e
    let s ← textOf v
    pure (.bool (L.reMatch p s))
  | .strptime e f => do
    let v ← eval e
    let s ← textOf v
    let d ← liftExc (L.strptime s f)
    pure (.datetime d)
  | .dateOf e => do
    let v ← eval e
    match v with
    | .datetime d => pure (.date d.date)
    | _ => raise .attributeError
  | .timeOf e => do
    let v ← eval e
    match v with
    | .datetime d => pure (.time d.time)
    | _ => raise .attributeError
  | .strftime e f => do
    let v ← eval e
    match v with
    | .date d => pure (.str (L.strftime d.full f))
    | .time t => pure (.str (L.strftime t.full f))
    | .datetime d => pure (.str (L.strftime d f))
    | _ => raise .attributeError
  | .pathOf e => do
    let v ← eval e
    let s ← textOf v
    pure (.path (L.normPath s))
  | .timezone e => do
    let v ← eval e
    let s ← textOf v
    match L.timezone s with
    | some z => pure (.zone z)
    | none => fail .unknownTimeZone
  | .durationFrom e => do
    let v ← eval e
    let s ← textOf v
    durationFrom L s
  | .durationTo e => do
    let v ← eval e
    match v with
    | .duration d => pure (.str (pyToString d))
    | _ => raise .typeError
  | .addError e r m => do
    let v ← eval e
    let r ← eval r
    let m ← eval m
    let (p, es) ← errorsOf v
    let r ← textOf r
    let m ← textOf m
    save p (.errors (es.add ⟨r, m⟩))
    pure .none
  | .isFull e => do
    let v ← eval e
    let (_, es) ← errorsOf v
    pure (.bool es.full)
  | .isEmpty e => do
    let v ← eval e
    let (_, es) ← errorsOf v
    pure (.bool es.empty)
  | .append e x => do
    let v ← eval e
    let w ← eval x
    match v with
    | .addr p => do
      match ← load p with
      | .list xs => do
        save p (.list (xs ++ [w]))
        pure .none
      | _ => raise .attributeError
    | _ => raise .attributeError
  | .call f args => do
    let vs ← evalArgs args
    call f vs
  | .comp e x source => do
    let v ← eval source
    let xs ← elements v
    let ys ← mapItems (fun v => within x v (eval e)) xs
    alloc (.list ys)

/-- The values of the arguments. -/
def evalArgs : Args → M Actual
  | .nil => pure []
  | .pos e rest => do
    let v ← eval e
    let vs ← evalArgs rest
    pure ((none, v) :: vs)
  | .kw k e rest => do
    let v ← eval e
    let vs ← evalArgs rest
    pure ((some k, v) :: vs)

end

/-- How a statement ends. -/
inductive Flow where
  | normal
  | brk
  | cont
  | ret (v : PV)

/-- Assigns the value. -/
def assignTo (t : Target) (w : PV) : M Unit :=
  match t with
  | .var x => setVar x w
  | .attr e a => do
    let v ← eval L call e
    setAttr v a w
  | .item e k => do
    let v ← eval L call e
    let k ← eval L call k
    setItem v k w

/-- The loop over the items; `bind` binds the variables of the loop. -/
def loop {α : Type} (bind : α → M Unit) (body : M Flow) : List α → M Flow
  | [] => pure .normal
  | x :: xs => do
    bind x
    match ← body with
    | .normal | .cont => loop bind body xs
    | .brk => pure .normal
    | .ret v => pure (.ret v)

/-- The items with their indices. -/
def indexed {α : Type} (i : Nat) : List α → List (Nat × α)
  | [] => []
  | x :: xs => (i, x) :: indexed (i + 1) xs

def Catch.catches : Catch → Raised → Bool
  | .valueError, .exc (.valueError _) _ => true
  | .overflowError, .exc .overflowError _ => true
  | .unknownTimeZone, .unknownTimeZone => true
  | _, _ => false

/-- The text of an exception, bound by `as`. The generated code asks for `str(err)` only. -/
def Raised.text : Raised → Str
  | .exc _ t => t
  | .unknownTimeZone => []

/-- `try: body except (cs) as x: handler` -/
def tryExcept (body : M Flow) (cs : List Catch) (x : Option Str) (handler : M Flow) : M Flow := fun s =>
  match body s with
  | (.error e, s') =>
    if cs.any (·.catches e) then
      match x with
      | none => handler s'
      | some x => (do
          setVar x (.str e.text)
          let r ← handler
          delVar x
          pure r : M Flow) s'
    else (.error e, s')
  | r => r

/-- Executes a statement. -/
def exec : Stmt → M Flow
  | .pass => pure .normal
  | .seq a b => do
    match ← exec a with
    | .normal => exec b
    | f => pure f
  | .assign t e => do
    let v ← eval L call e
    assignTo L call t v
    pure .normal
  | .expr e => do
    let _ ← eval L call e
    pure .normal
  | .ite c a b => do
    let v ← eval L call c
    if truth v then exec a else exec b
  | .forIn x e body => do
    let v ← eval L call e
    let xs ← elements v
    loop (setVar x) (exec body) xs
  | .forEnum i x e body => do
    let v ← eval L call e
    let xs ← elements v
    loop (fun p : Nat × PV => do setVar i (.int p.1); setVar x p.2) (exec body) (indexed 0 xs)
  | .forItems k x e body => do
    let v ← eval L call e
    let kvs ← entries .attributeError v
    loop (fun p : Str × PV => do setVar k (.str p.1); setVar x p.2) (exec body) kvs
  | .attempt body cs x handler => tryExcept (exec body) cs x (exec handler)
  | .ret e => do
    let v ← eval L call e
    pure (.ret v)
  | .brk => pure .brk
  | .cont => pure .cont
  | .raiseValue m => do
    let v ← eval L call m
    let t ← textOf v
    fail (.exc (.valueError t) t)

/-- The values of the parameters: the positional arguments in order, then the keyword arguments and the defaults; `none`
is a `TypeError`. -/
def bindParams : List Param → List PV → List (Str × PV) → Option (List (Str × PV))
  | [], [], _ => some []
  | [], _ :: _, _ => none
  | p :: ps, v :: vs, kws =>
    if (kws.lookup p.name).isSome then none else (bindParams ps vs kws).map ((p.name, v) :: ·)
  | p :: ps, [], kws =>
    match (kws.lookup p.name).or p.default with
    | none => none
    | some v => (bindParams ps [] kws).map ((p.name, v) :: ·)

def positional (args : Actual) : List PV := args.filterMap fun a => if a.1.isNone then some a.2 else none

def keywords (args : Actual) : List (Str × PV) := args.filterMap fun a => a.1.map fun k => (k, a.2)

/-- The variables at the start of the function. -/
def bindArgs (params : List Param) (args : Actual) : Option (List (Str × PV)) :=
  if (keywords args).all (fun kw => params.any fun p => p.name = kw.1) then
    bindParams params (positional args) (keywords args)
  else none

/-- Runs the body with the variables in a frame of its own. -/
def run (body : Stmt) (vars : List (Str × PV)) : M PV := fun s =>
  match exec L call body ⟨s.heap, fun x => vars.lookup x⟩ with
  | (.ok (.ret v), s') => (.ok v, ⟨s'.heap, s.vars⟩)
  | (.ok _, s') => (.ok .none, ⟨s'.heap, s.vars⟩)
  | (.error x, s') => (.error x, ⟨s'.heap, s.vars⟩)

/-- Calls the function. -/
def apply (f : Func) (args : Actual) : M PV :=
  match bindArgs f.params args with
  | none => raise .typeError
  | some vars => run L call f.body vars

/-- Calls the class: allocates the instance and runs its constructor. -/
def construct (c : ClassDef) (args : Actual) : M PV := do
  let self ← alloc (.inst c.name [])
  match c.init with
  | none => if args.isEmpty then pure self else raise .typeError
  | some f =>
    match bindArgs f.params args with
    | none => raise .typeError
    | some vars => do
      let _ ← run L call f.body ((c!"self", self) :: vars)
      pure self

end

/-- The generated package: the definitions in the module of the types, in `parse`, and in the module which is running
(`fromjsonable` or `tojsonable`). -/
structure Program where
  types : List ClassDef
  parse : List Func
  own : List Func

/-- The last definition of the name is the one which is found. -/
def findLast {α : Type} (name : α → Str) (l : List α) (x : Str) : Option α := l.reverse.find? fun a => name a = x

/-- A call within a constructor: the generated constructors call nothing. -/
def callNothing : Fn → Actual → M PV := fun _ _ => raise (.runtimeError c!"name")

/-- A call of a class. -/
def callClass (L : Lib) (P : Program) (name : Str) (args : Actual) : M PV :=
  match findLast (·.name) P.types name with
  | none => raise .attributeError
  | some c => construct L callNothing c args

/-- A call within the module `parse`. -/
def callTypes (L : Lib) (P : Program) : Fn → Actual → M PV
  | .cls name, args => callClass L P name args
  | _, _ => raise (.runtimeError c!"name")

/-- A call of a function of `parse`. -/
def callParse (L : Lib) (P : Program) (name : Str) (args : Actual) : M PV :=
  match findLast (·.name) P.parse name with
  | none => raise .attributeError
  | some f => apply L (callTypes L P) f args

/-- The variable which is assigned to -/
def Target.binds : Target → List Str
  | .var x => [x]
  | _ => []

/-- The variables which are bound by the statement. -/
def Stmt.binds : Stmt → List Str
  | .seq a b => a.binds ++ b.binds
  | .assign t _ => t.binds
  | .ite _ a b => a.binds ++ b.binds
  | .forIn x _ body => x :: body.binds
  | .forEnum i x _ body => i :: x :: body.binds
  | .forItems k x _ body => k :: x :: body.binds
  | .attempt body _ x handler => body.binds ++ x.toList ++ handler.binds
  | _ => []

/-- The local variables: the parameters and all the variables which are bound anywhere in the function. -/
def Func.locals (f : Func) : List Str := f.params.map (·.name) ++ f.body.binds

/-- A call within the function. A local variable hides the function of the module with its name, also before the variable
is bound: then the name is an `UnboundLocalError`, and afterwards the value is not callable. (A variable of a comprehension
hides nothing here.) -/
def inScope (f : Func) (call : Fn → Actual → M PV) : Fn → Actual → M PV
  | .own name, args => if name ∈ f.locals then do
      let _ ← getVar name
      raise .typeError
    else call (.own name) args
  | fn, args => call fn args

/-- A call within the module which is running, with the number of frames left for the functions of this module. (The
calls of `parse` and of the constructors are nested at most two deep; their frames are not counted.) -/
def callModule (L : Lib) (P : Program) : Nat → Fn → Actual → M PV
  | _, .cls name, args => callClass L P name args
  | _, .parse name, args => callParse L P name args
  | 0, .own _, _ => raise .recursionError
  | n + 1, .own name, args =>
    match findLast (·.name) P.own name with
    | none => raise (.runtimeError c!"name")
    | some f => apply L (inScope f (callModule L P n)) f args

/-- The same as if no local variable hid a function. -/
def callOwn (L : Lib) (P : Program) : Nat → Fn → Actual → M PV
  | _, .cls name, args => callClass L P name args
  | _, .parse name, args => callParse L P name args
  | 0, .own _, _ => raise .recursionError
  | n + 1, .own name, args =>
    match findLast (·.name) P.own name with
    | none => raise (.runtimeError c!"name")
    | some f => apply L (callOwn L P n) f args

end Mapry.PyLang
