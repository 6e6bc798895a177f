import Verif.Text

/-!
# The rules of Python on names

The rules by which Python looks up the names in a module, stated on the names which a piece of code uses and binds.
A name which is bound anywhere in a function is a variable of this function; any other name is looked up among the
definitions and the imports of the module and then among the builtins. The lookup of a variable which is not bound
at this moment raises an `UnboundLocalError`, the lookup of an unknown name a `NameError`. Nothing here mentions the
generators.

Every name carries what is meant by it, so that one can tell whether the lookup finds it. Not recorded are the
attributes of objects and the methods, and the comments (among them the comments on types, which are not executed).
-/

namespace Mapry.PyCode

/-- A parameter or a variable of a function. Two variables with the same text are the same place for Python; they are
told apart here in order to state that a value is read by those who are meant to read it. -/
inductive Var where
  /-- a fixed text -/
  | fixed (x : Str)
  /-- `{base}_{uid}` with an identifier of `AutoID` -/
  | temp (base : Str) (uid : Nat)
  /-- a converted name of the schema with the fixed texts before and after it -/
  | own (before name after : Str)
  deriving DecidableEq, Repr

def Var.text : Var → Str
  | .fixed x => x
  | .temp b n => b ++ '_' :: Text.natStr n
  | .own a n b => a ++ n ++ b

/-- Where an imported module comes from: a library or the generated package itself. -/
inductive Origin where
  | library
  | package
  deriving DecidableEq, Repr

/-- A name with what is meant by it. -/
inductive Name where
  | var (x : Var)
  /-- the imported module with the dotted path -/
  | mod (origin : Origin) (path : Str)
  /-- a definition of another module of the generated package, `path.name` -/
  | member (path name : Str)
  /-- a function, a class or a constant of the same module -/
  | glob (name : Str)
  | builtin (name : Str)
  deriving DecidableEq, Repr

/-- The first part of a dotted path, which is the name bound by `import path`. -/
def root (path : Str) : Str := path.takeWhile (· != '.')

/-- The identifier which is looked up. -/
def Name.text : Name → Str
  | .var x => x.text
  | .mod _ p => root p
  | .member p _ => root p
  | .glob x => x
  | .builtin x => x

/-- What is passed as an argument, or what a parameter is for. -/
inductive Kind where
  | value
  | id
  /-- the registry of the class -/
  | registry (cls : Str)
  | ref
  /-- an instance of the composite -/
  | target (composite : Str)
  | errors
  | other
  deriving DecidableEq, Repr

/-- A sequence of statements. -/
inductive Code where
  | done
  /-- the names looked up in an expression or a statement -/
  | use (names : List Name) (rest : Code)
  /-- a call of something which is defined in the generated package, with the positional and the keyword arguments;
  the names in the arguments are in a `use` before -/
  | call (callee : Name) (positional : List Kind) (keywords : List (Str × Kind)) (rest : Code)
  /-- `a = ...` or `a, b = ...` -/
  | bind (vars : List Var) (rest : Code)
  /-- `del a`, or the end of `except ... as a` -/
  | forget (vars : List Var) (rest : Code)
  /-- `if ...: yes else: no` -/
  | branch (yes no rest : Code)
  /-- `for a, b in ...: body` -/
  | loop (vars : List Var) (body rest : Code)
  /-- `try: body except ...: handler` -/
  | attempt (body handler rest : Code)
  /-- `return` or `raise` -/
  | leave
  /-- `break` or `continue` -/
  | stop
  deriving DecidableEq, Repr

/-- One sequence after the other. -/
def Code.append : Code → Code → Code
  | .done, d => d
  | .use xs c, d => .use xs (c.append d)
  | .call f a k c, d => .call f a k (c.append d)
  | .bind xs c, d => .bind xs (c.append d)
  | .forget xs c, d => .forget xs (c.append d)
  | .branch y n c, d => .branch y n (c.append d)
  | .loop xs b c, d => .loop xs b (c.append d)
  | .attempt b h c, d => .attempt b h (c.append d)
  | .leave, _ => .leave
  | .stop, _ => .stop

instance : Append Code := ⟨Code.append⟩

/-- The variables bound (or deleted) anywhere in the code. -/
def Code.binds : Code → List Var
  | .done => []
  | .use _ c => c.binds
  | .call _ _ _ c => c.binds
  | .bind xs c => xs ++ c.binds
  | .forget xs c => xs ++ c.binds
  | .branch y n c => y.binds ++ n.binds ++ c.binds
  | .loop xs b c => xs ++ b.binds ++ c.binds
  | .attempt b h c => b.binds ++ h.binds ++ c.binds
  | .leave => []
  | .stop => []

/-- The names looked up anywhere in the code. -/
def Code.names : Code → List Name
  | .done => []
  | .use xs c => xs ++ c.names
  | .call f _ _ c => f :: c.names
  | .bind _ c => c.names
  | .forget _ c => c.names
  | .branch y n c => y.names ++ n.names ++ c.names
  | .loop _ b c => b.names ++ c.names
  | .attempt b h c => b.names ++ h.names ++ c.names
  | .leave => []
  | .stop => []

/-- A call with its positional and its keyword arguments. -/
structure Call where
  callee : Name
  positional : List Kind
  keywords : List (Str × Kind)
  deriving DecidableEq, Repr

/-- The calls anywhere in the code. -/
def Code.calls : Code → List Call
  | .done => []
  | .use _ c => c.calls
  | .call f a k c => ⟨f, a, k⟩ :: c.calls
  | .bind _ c => c.calls
  | .forget _ c => c.calls
  | .branch y n c => y.calls ++ n.calls ++ c.calls
  | .loop _ b c => b.calls ++ c.calls
  | .attempt b h c => b.calls ++ h.calls ++ c.calls
  | .leave => []
  | .stop => []

/-- A parameter; `optional` if it has a default. -/
structure Param where
  var : Var
  kind : Kind := .other
  optional : Bool := false
  deriving DecidableEq, Repr

/-- A function with its parameters, the names looked up in its annotations and its body. The annotations are looked up
when the `def` is executed. -/
structure Func where
  name : Str
  params : List Param
  sig : List Name
  body : Code
  deriving DecidableEq, Repr

/-- A definition at the top level of a module. -/
inductive Item where
  /-- `name = ...` with the names looked up -/
  | value (name : Str) (uses : List Name)
  | func (f : Func)
  /-- a class with its methods -/
  | cls (name : Str) (methods : List Func)
  deriving DecidableEq, Repr

def Item.name : Item → Str
  | .value x _ => x
  | .func f => f.name
  | .cls x _ => x

/-- The functions and the methods of a definition. -/
def Item.funcs : Item → List Func
  | .value _ _ => []
  | .func f => [f]
  | .cls _ ms => ms

/-- The names looked up when the definition is executed. -/
def Item.uses : Item → List Name
  | .value _ xs => xs
  | .func f => f.sig
  | .cls _ ms => ms.flatMap (·.sig)

/-- A module: its dotted path, its imports and its definitions in the order of the file. -/
structure Module where
  path : Str
  imports : List (Origin × Str)
  items : List Item
  deriving DecidableEq, Repr

def Module.funcs (M : Module) : List Func := M.items.flatMap Item.funcs

/-! ## The lookup of names -/

inductive Meaning where
  /-- a variable of the function -/
  | local
  /-- a definition of the module -/
  | own
  | imported (origin : Origin)
  | builtin
  deriving DecidableEq, Repr

/-- The builtins which occur in the generated code. -/
def builtins : List Str :=
  [c!"bool", c!"dict", c!"enumerate", c!"float", c!"int", c!"isinstance", c!"iter", c!"len", c!"list", c!"repr", c!"str",
   c!"type", c!"OverflowError", c!"ValueError"]

/-- What Python finds for a text, where `locals` are the variables of the function and `defined` the definitions of the
module which have been executed. If two imports of different origins bind the same text, it depends on the search path
what is found, and no answer is given. -/
def find (imports : List (Origin × Str)) (locals defined : List Str) (x : Str) : Option Meaning :=
  if x ∈ locals then some .local
  else if x ∈ defined then some .own
  else if (.library, x) ∈ imports.map (fun i => (i.1, root i.2)) then
    if (.package, x) ∈ imports.map (fun i => (i.1, root i.2)) then none else some (.imported .library)
  else if (.package, x) ∈ imports.map (fun i => (i.1, root i.2)) then some (.imported .package)
  else if x ∈ builtins then some .builtin
  else none

/-- What is meant by a name. -/
def Name.meant : Name → Meaning
  | .var _ => .local
  | .mod o _ => .imported o
  | .member _ _ => .imported .package
  | .glob _ => .own
  | .builtin _ => .builtin

/-- `import q` makes the module `p` available: it is `q` or a package around it. -/
def Provides (q p : Str) : Prop := q = p ∨ (p ++ c!".") <+: q

instance (q p : Str) : Decidable (Provides q p) := inferInstanceAs (Decidable (_ ∨ _))

/-- The modules by which a name has to be imported. -/
def Name.needs : Name → List (Origin × Str)
  | .mod o p => [(o, p)]
  | .member p _ => [(.package, p)]
  | _ => []

/-- The imports which a name needs are there. -/
def Name.Imported (imports : List (Origin × Str)) (n : Name) : Prop :=
  ∀ r ∈ n.needs, ∃ i ∈ imports, i.1 = r.1 ∧ Provides i.2 r.2

/-- What a name of another module refers to is defined there. -/
def Name.Exists (pkg : List Module) (n : Name) : Prop :=
  ∀ p x, n = .member p x → ∃ M ∈ pkg, M.path = p ∧ ∃ i ∈ M.items, i.name = x

/-- The name is found and it is the one which is meant. -/
structure Found (pkg : List Module) (imports : List (Origin × Str)) (locals defined : List Str) (n : Name) : Prop where
  meaning : find imports locals defined n.text = some n.meant
  imported : n.Imported imports
  there : n.Exists pkg

/-! ## Executions -/

/-- The variables which are bound, each with the meaning of its last assignment. -/
abbrev Env := List Var

/-- An assignment replaces the value of the variable with the same text; several variables are assigned from left to
right. -/
def assign : List Var → Env → Env
  | [], e => e
  | x :: xs, e => assign xs (x :: e.filter fun y => y.text != x.text)

/-- The variables are not bound any more. -/
def unassign (xs : List Var) (e : Env) : Env := e.filter fun y => xs.all fun x => x.text != y.text

/-- How the execution of a piece of code ends. -/
inductive Outcome where
  /-- at its end -/
  | next (e : Env)
  /-- with `break` or `continue` -/
  | stopped (e : Env)
  /-- with `return` or `raise` -/
  | left
  /-- with an exception raised by an expression -/
  | raised (e : Env)
  /-- with the lookup of a name which is not bound, or which is not the one which is meant -/
  | wrong
  deriving DecidableEq, Repr

/-- A name is found at this moment; `ok` tells it for the names which are no variables. -/
def Good (ok : Name → Prop) (e : Env) : Name → Prop
  | .var x => x ∈ e
  | n => ok n

/-- The executions of a piece of code. Every expression may raise an exception, every condition may be true or false
and every loop may have any number of iterations. -/
inductive Run (ok : Name → Prop) : Code → Env → Outcome → Prop where
  | done {e} : Run ok .done e (.next e)
  | use_wrong {xs c e x} : x ∈ xs → ¬ Good ok e x → Run ok (.use xs c) e .wrong
  | use_raised {xs c e} : (∀ x ∈ xs, Good ok e x) → Run ok (.use xs c) e (.raised e)
  | use {xs c e o} : (∀ x ∈ xs, Good ok e x) → Run ok c e o → Run ok (.use xs c) e o
  | call_wrong {f a k c e} : ¬ Good ok e f → Run ok (.call f a k c) e .wrong
  | call_raised {f a k c e} : Good ok e f → Run ok (.call f a k c) e (.raised e)
  | call {f a k c e o} : Good ok e f → Run ok c e o → Run ok (.call f a k c) e o
  | bind {xs c e o} : Run ok c (assign xs e) o → Run ok (.bind xs c) e o
  | forget {xs c e o} : Run ok c (unassign xs e) o → Run ok (.forget xs c) e o
  | leave {e} : Run ok .leave e .left
  | stop {e} : Run ok .stop e (.stopped e)
  | yes {y n c e e' o} : Run ok y e (.next e') → Run ok c e' o → Run ok (.branch y n c) e o
  | no {y n c e e' o} : Run ok n e (.next e') → Run ok c e' o → Run ok (.branch y n c) e o
  | yes_out {y n c e o} : Run ok y e o → (∀ e', o ≠ .next e') → Run ok (.branch y n c) e o
  | no_out {y n c e o} : Run ok n e o → (∀ e', o ≠ .next e') → Run ok (.branch y n c) e o
  | over {xs b c e o} : Run ok c e o → Run ok (.loop xs b c) e o
  | again {xs b c e e' o} : Run ok b (assign xs e) (.next e') → Run ok (.loop xs b c) e' o → Run ok (.loop xs b c) e o
  | stopped {xs b c e e' o} : Run ok b (assign xs e) (.stopped e') → Run ok (.loop xs b c) e' o →
      Run ok (.loop xs b c) e o
  | body_out {xs b c e o} : Run ok b (assign xs e) o → (∀ e', o ≠ .next e' ∧ o ≠ .stopped e') →
      Run ok (.loop xs b c) e o
  | tried {b h c e e' o} : Run ok b e (.next e') → Run ok c e' o → Run ok (.attempt b h c) e o
  | tried_out {b h c e o} : Run ok b e o → (∀ e', o ≠ .next e') → Run ok (.attempt b h c) e o
  | caught {b h c e e' e'' o} : Run ok b e (.raised e') → Run ok h e' (.next e'') → Run ok c e'' o →
      Run ok (.attempt b h c) e o
  | caught_out {b h c e e' o} : Run ok b e (.raised e') → Run ok h e' o → (∀ e'', o ≠ .next e'') →
      Run ok (.attempt b h c) e o

/-- The texts of the variables of a function. -/
def Func.locals (f : Func) : List Str := f.params.map (fun p => p.var.text) ++ f.body.binds.map Var.text

/-- No execution of the function looks up a name which is not bound or which is not the one which is meant. -/
def Func.Clean (f : Func) (pkg : List Module) (M : Module) : Prop :=
  ∀ o, Run (Found pkg M.imports f.locals (M.items.map Item.name)) f.body (f.params.map (·.var)) o → o ≠ .wrong

/-! ## The rules for a module -/

/-- The definitions can be executed one after the other: every name is found among the definitions before. -/
def Loads (pkg : List Module) (imports : List (Origin × Str)) : (before : List Str) → List Item → Prop
  | _, [] => True
  | before, i :: is => (∀ n ∈ i.uses, Found pkg imports [] before n) ∧ Loads pkg imports (before ++ [i.name]) is

/-- Python can import the module, and no definition replaces another one. -/
structure Module.Importable (M : Module) (pkg : List Module) : Prop where
  loads : Loads pkg M.imports [] M.items
  nodup : (M.items.map Item.name).Nodup
  params : ∀ f ∈ M.funcs, (f.params.map fun p => p.var.text).Nodup

/-- The names which are looked up anywhere in the module. -/
def Module.names (M : Module) : List Name :=
  M.items.flatMap Item.uses ++ M.funcs.flatMap fun f => f.body.names

/-- All the imports which are needed are there, and an import which is there is needed. -/
structure Module.ImportsExact (M : Module) : Prop where
  suffice : ∀ n ∈ M.names, n.Imported M.imports
  used : ∀ i ∈ M.imports, ∃ n ∈ M.names, i ∈ n.needs

/-! ## Calls -/

/-- The parameters which a call of the definition has to fill: those of the function, or those of the constructor of
the class after `self`. -/
def Item.callParams : Item → Option (List Param)
  | .value _ _ => none
  | .func f => some f.params
  | .cls _ ms => some (match ms.find? (fun m => m.name == c!"__init__") with
    | some m => m.params.drop 1
    | none => [])

/-- The definition which a text refers to: the last one. -/
def Module.definition? (M : Module) (x : Str) : Option Item := M.items.reverse.find? (fun i => i.name == x)

/-- The definition to which a callee refers. -/
def callee? (pkg : List Module) (M : Module) : Name → Option Item
  | .glob x => M.definition? x
  | .member p x => (pkg.find? (fun N => N.path == p)).bind fun N => N.definition? x
  | _ => none

/-- The arguments fill the parameters: the positional ones the first parameters, every keyword another parameter, each
argument is of the kind of its parameter, and a parameter which is left over has a default. -/
structure Call.Fits (c : Call) (ps : List Param) : Prop where
  positional : (ps.take c.positional.length).map (·.kind) = c.positional
  nodup : (c.keywords.map (·.1)).Nodup
  keywords : ∀ k ∈ c.keywords, ∃ p ∈ ps.drop c.positional.length, p.var.text = k.1 ∧ p.kind = k.2
  left : ∀ p ∈ ps.drop c.positional.length, p.optional = true ∨ p.var.text ∈ c.keywords.map (·.1)

/-- Every call in the module fits the definition which it calls. -/
def Module.CallsFit (M : Module) (pkg : List Module) : Prop :=
  ∀ f ∈ M.funcs, ∀ c ∈ f.body.calls, ∃ i ps, callee? pkg M c.callee = some i ∧ i.callParams = some ps ∧ c.Fits ps

end Mapry.PyCode
