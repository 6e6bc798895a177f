import Verif.Text

/-!
# The rules of Go on names

The rules of the Go compiler on the names in a file, stated on the names which a piece of code declares, assigns and
uses and on its blocks: every name has to be declared, a variable and an import have to be used (an assignment is not
a use), and a name may be declared once in a block. The rule on the redeclaration is stricter than the one of Go,
which lets `a, b := ...` declare `b` again as long as `a` is new. Nothing here mentions the generators.
-/

namespace Mapry.GoCode

/-- A name in the generated code. -/
inductive Name where
  /-- a variable or a parameter: a base name, followed by the identifier of `AutoID` if there is one -/
  | var (base : Str) (uid : Option Nat)
  /-- a variable or a parameter named after a class: the converted name or plural of the class with the fixed texts
  before and after it -/
  | own (before name after : Str)
  /-- an imported package -/
  | pkg (path : Str)
  /-- a type, a function or a variable of the package -/
  | glob (name : Str)
  /-- a compiled pattern, `pattern{uid}` -/
  | pattern (uid : Nat)
  deriving DecidableEq, Repr

/-- The text of a name. -/
def Name.text : Name → Str
  | .var b none => b
  | .var b (some n) => b ++ Text.natStr n
  | .own a n b => a ++ n ++ b
  | .pkg p => p
  | .glob n => n
  | .pattern n => c!"pattern" ++ Text.natStr n

/-- A sequence of statements. -/
inductive Code where
  | done
  /-- the names used in an expression or a statement -/
  | use (names : List Name) (rest : Code)
  /-- `a, b = ...`; the name `a` in `a[i] = ...` and `a.F = ...` is used -/
  | assign (names : List Name) (rest : Code)
  /-- `a, b := ...` or `var a T` -/
  | decl (names : List Name) (rest : Code)
  /-- a nested block: `if ... { body }`, `else { body }`, `for ... { body }` -/
  | block (body rest : Code)
  deriving DecidableEq, Repr

/-- One sequence after the other. -/
def Code.append : Code → Code → Code
  | .done, d => d
  | .use xs c, d => .use xs (c.append d)
  | .assign xs c, d => .assign xs (c.append d)
  | .decl xs c, d => .decl xs (c.append d)
  | .block b c, d => .block b (c.append d)

instance : Append Code := ⟨Code.append⟩

/-- A function with its parameters and named results, the names used in its signature and its body. -/
structure Func where
  name : Str
  params : List Name
  sig : List Name
  body : Code
  deriving DecidableEq, Repr

/-- A file: the imports, the types, functions and variables declared, the names used outside of the functions and
the functions. -/
structure File where
  imports : List Str
  declares : List Name
  top : List Name
  funcs : List Func
  deriving DecidableEq, Repr

/-- The names used or assigned which the code does not declare itself. -/
def Code.free : Code → List Name
  | .done => []
  | .use xs c => xs ++ c.free
  | .assign xs c => xs ++ c.free
  | .decl xs c => c.free.filter (· ∉ xs)
  | .block b c => b.free ++ c.free

/-- The names used which the code does not declare itself. -/
def Code.used : Code → List Name
  | .done => []
  | .use xs c => xs ++ c.used
  | .assign _ c => c.used
  | .decl xs c => c.used.filter (· ∉ xs)
  | .block b c => b.used ++ c.used

/-- The names declared in the block of the code, without the ones in nested blocks. -/
def Code.decls : Code → List Name
  | .done => []
  | .use _ c => c.decls
  | .assign _ c => c.decls
  | .decl xs c => xs ++ c.decls
  | .block _ c => c.decls

/-- Every variable is used, and no nested block declares a name twice. -/
def Code.Clean : Code → Prop
  | .done => True
  | .use _ c => c.Clean
  | .assign _ c => c.Clean
  | .decl xs c => (∀ x ∈ xs, x ∈ c.used) ∧ c.Clean
  | .block b c => b.decls.Nodup ∧ b.Clean ∧ c.Clean

instance Code.instDecidableClean : (c : Code) → Decidable c.Clean
  | .done => .isTrue trivial
  | .use _ c => instDecidableClean c
  | .assign _ c => instDecidableClean c
  | .decl xs c => by
    have := instDecidableClean c
    unfold Code.Clean
    infer_instance
  | .block b c => by
    have := instDecidableClean b
    have := instDecidableClean c
    unfold Code.Clean
    infer_instance

/-- The compiler accepts the names of a function if `outside` are the names declared outside of it. The parameters
are in the block of the body. -/
structure Func.Scoped (f : Func) (outside : List Name) : Prop where
  nodup : (f.params ++ f.body.decls).Nodup
  clean : f.body.Clean
  free : ∀ x ∈ f.body.free, x ∈ f.params ∨ x ∈ outside
  sig : ∀ x ∈ f.sig, x ∈ outside

/-- The names which a file uses and which it does not declare in a function. -/
def File.used (f : File) : List Name :=
  f.top ++ f.funcs.flatMap fun g => g.sig ++ g.body.used.filter (· ∉ g.params)

/-- The imports are exactly the packages which are used. -/
def File.ImportsExact (f : File) : Prop := ∀ p, p ∈ f.imports ↔ Name.pkg p ∈ f.used

/-- The compiler accepts the names of all the functions and everything outside of them. -/
structure File.Scoped (f : File) (package : List Name) : Prop where
  top : ∀ x ∈ f.top, x ∈ package ∨ x ∈ f.imports.map Name.pkg
  funcs : ∀ g ∈ f.funcs, g.Scoped (package ++ f.imports.map Name.pkg)

/-- What the files of a package declare. -/
def declared (fs : List File) : List Name := fs.flatMap (·.declares)

/-! ## The texts of the names

The compiler sees only the texts. The following rules make sure that every text refers to the name which is meant. -/

/-- No block declares a text twice, and no declaration hides another name with the same text which is meant below
it. -/
def Code.Faithful : Code → Prop
  | .done => True
  | .use _ c => c.Faithful
  | .assign _ c => c.Faithful
  | .decl xs c => (∀ x ∈ xs, ∀ y ∈ c.free, y.text = x.text → y = x) ∧ c.Faithful
  | .block b c => (b.decls.map Name.text).Nodup ∧ b.Faithful ∧ c.Faithful

/-- The same for a function with its parameters. -/
structure Func.Faithful (f : Func) : Prop where
  nodup : ((f.params ++ f.body.decls).map Name.text).Nodup
  params : ∀ x ∈ f.params, ∀ y ∈ f.body.free, y.text = x.text → y = x
  body : f.body.Faithful

/-- Every text in the file refers to the name which is meant, and no import takes the text of a declaration. -/
structure File.Faithful (f : File) (package : List Name) : Prop where
  funcs : ∀ g ∈ f.funcs, g.Faithful
  imports : ∀ p ∈ f.imports, ∀ x ∈ package, x.text ≠ p

end Mapry.GoCode
