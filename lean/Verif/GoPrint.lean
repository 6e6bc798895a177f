import Verif.GoGen
import Verif.PyPrint

/-!
# The generated Go code as text

A printer of the code of `GoGen`. It is used by `/verif/fidelity` to compare the model of the generators with the code which
mapry generated for its own test cases (`/repo/test_cases/**/go/test_generate`). No theorem depends on it. Types are printed only
in type assertions, the code of `defer` is printed at the end of the function.
-/

namespace Mapry.GoPrint

open Mapry.GoLang Mapry.ParseSchema Mapry.Validation
open Mapry.PyRuntime (Json)
open Mapry.PyPrint (S hex4)

def q (s : Str) : String :=
  "\"" ++ String.join (s.map fun c => if c.isAlphanum || c = ' ' then toString c else "\\u" ++ hex4 c.toNat) ++ "\""
def nm (x : GoCode.Name) : String := S x.text
def op : Cmp → String | .gt => ">" | .ge => ">=" | .lt => "<" | .le => "<="
def commas (l : List String) : String := String.intercalate ", " l

mutual
def ex : Expr → String
  | .var x => nm x
  | .str s => q s
  | .int i => toString i
  | .nil => "nil"
  | .zero => "ZERO"
  | .field e f => ex e ++ "." ++ S f
  | .deref e => "(*" ++ ex e ++ ")"
  | .index e k => ex e ++ "[" ++ ex k ++ "]"
  | .len e => "len(" ++ ex e ++ ")"
  | .isNil e => ex e ++ " == nil"
  | .notNil e => ex e ++ " != nil"
  | .not (.cmp o e m) => "!(" ++ ex e ++ " " ++ op o ++ " " ++ toString m ++ ")"
  | .not e => "!" ++ ex e
  | .ne a b => ex a ++ " != " ++ ex b
  | .fractional a => ex a ++ " != math.Trunc(" ++ ex a ++ ")"
  | .beyondInt64 a => ex a ++ " >= 9223372036854775808.0 || " ++ ex a ++ " < -9223372036854775808.0"
  | .toInt64 a => "int64(" ++ ex a ++ ")"
  | .cmp o e m => ex e ++ " " ++ op o ++ " " ++ toString m
  | .format e l => ex e ++ ".Format(" ++ q l ++ ")"
  | .zoneName e => ex e ++ ".String()"
  | .durationText e => "durationToString(" ++ ex e ++ ")"
  | .errorText e => ex e ++ ".Error()"
  | .itoa e => "strconv.Itoa(" ++ ex e ++ ")"
  | .matches u e => "pattern" ++ toString u ++ ".MatchString(" ++ ex e ++ ")"
  | .plus e t => ex e ++ "+" ++ q t
  | .join ps => "strings.Join([]string{" ++ exs ps ++ "}, \"/\")"
  | .sprintf f as => "fmt.Sprintf(" ++ q f ++ exs' as ++ ")"
  | .errorf f as => "fmt.Errorf(" ++ q f ++ exs' as ++ ")"
  | .errorsEmpty => "errors.Empty()"
  | .errorsFull => "errors.Full()"
def exs : List Expr → String
  | [] => ""
  | [e] => ex e
  | e :: es => ex e ++ ", " ++ exs es
def exs' : List Expr → String
  | [] => ""
  | e :: es => ", " ++ ex e ++ exs' es
end

def arg : Arg → String
  | .val e => ex e
  | .addr e => "&" ++ ex e

def rhs : Rhs → String
  | .val e => ex e
  | .makeMap => "makeMap()"
  | .makeSlice e => "makeSlice(" ++ ex e ++ ")"
  | .new => "&{}"
  | .addr e => "&" ++ ex e
  | .call f as => S f ++ "(" ++ commas (as.map arg) ++ ")"

def kind : GoLang.Kind → String
  | .bool => "bool" | .float64 => "float64" | .string => "string" | .slice => "[]interface{}"
  | .map => "map[string]interface{}"

def two : Two → String
  | .assert k (.var x) => nm x ++ ".(" ++ kind k ++ ")"
  | .assert k e => "(" ++ ex e ++ ").(" ++ kind k ++ ")"
  | .lookup e k => ex e ++ "[" ++ ex k ++ "]"
  | .parseTime l e => "time.Parse(" ++ q l ++ ", " ++ ex e ++ ")"
  | .loadLocation e => "time.LoadLocation(" ++ ex e ++ ")"
  | .durationFrom e => "durationFromString(" ++ ex e ++ ")"

/-- A branch without statements -/
def empty : Stmt → Bool
  | .skip => true
  | .seq a b => empty a && empty b
  | _ => false

def st : Stmt → String
  | .skip => ""
  | .seq a b => st a ++ st b
  | .declare x (.val .zero) => "var " ++ nm x ++ "\n"
  | .declare x r => nm x ++ " := " ++ rhs r ++ "\n"
  | .declare2 x y t => (match x with | some x => nm x | none => "_") ++ ", " ++ nm y ++ " := " ++ two t ++ "\n"
  | .assign p r => ex (GoGen.expr p) ++ " = " ++ rhs r ++ "\n"
  | .assign2 x y t => nm x ++ ", " ++ nm y ++ " = " ++ two t ++ "\n"
  | .ite c a b => "if " ++ ex c ++ " {\n" ++ st a ++ "}" ++ (if empty b then "" else " else {\n" ++ st b ++ "}") ++ "\n"
  | .forCount i n b => "for " ++ nm i ++ " := 0; " ++ nm i ++ " < " ++ nm n ++ "; " ++ nm i ++ "++ {\n" ++ st b ++ "}\n"
  | .forItems i e b => "for " ++ nm i ++ " := range " ++ ex e ++ " {\n" ++ st b ++ "}\n"
  | .forEntries k none e b => "for " ++ nm k ++ " := range " ++ ex e ++ " {\n" ++ st b ++ "}\n"
  | .forEntries k (some x) e b => "for " ++ nm k ++ ", " ++ nm x ++ " := range " ++ ex e ++ " {\n" ++ st b ++ "}\n"
  | .call f as => S f ++ "(" ++ commas (as.map arg) ++ ")\n"
  | .report r m => "errors.Add(" ++ ex r ++ ", " ++ ex m ++ ")\n"
  | .panic m => "panic(" ++ q m ++ ")\n"
  | .brk => "break\n"
  | .ret => "return\n"

def fn (f : Func) : String :=
  "func " ++ S f.name ++ "(" ++ commas (f.params.map nm) ++ ") (" ++ commas (f.results.map nm) ++ ") {\n" ++ st f.body ++
    (if empty f.deferred then "" else "defer {\n" ++ st f.deferred ++ "}\n") ++ "}\n"

/-- The functions which are generated for the schema, and the patterns by their numbers -/
def show' (name : String) (j : Json) : IO Unit := do
  IO.println s!"#### {name}"
  match j with
  | .obj _ kvs =>
    match schemaAfterValidation PyPrint.lib kvs c!"#" with
    | .error _ => IO.println "ERROR schema"
    | .ok s =>
      match GoGen.reader s.graph, GoGen.writer s.graph with
      | .ok r, .ok w => do
        IO.println "## from_jsonable"
        for e in GoCode.enumeratePatterns s.graph do IO.println s!"var pattern{e.2} = {q (r.patterns e.2)}"
        for f in r.funcs do IO.println (fn f)
        IO.println "## to_jsonable"
        for f in w.funcs do IO.println (fn f)
      | _, _ => IO.println "ERROR gen"
  | _ => pure ()

end Mapry.GoPrint
