import Verif.CppGen
import Verif.GoPrint

/-!
# The generated C++ code of the serializer as text

A printer of the code of `CppGen`. It is used by `/verif/fidelity` to compare the model of the generator with the code which
mapry generated for its own test cases (`/repo/test_cases/**/cpp/test_generate`). No theorem depends on it.
-/

namespace Mapry.CppPrint

open Mapry.CppLang Mapry.ParseSchema Mapry.Validation
open Mapry.PyRuntime (Json)
open Mapry.PyPrint (S)
open Mapry.GoPrint (q)

def nm (x : CppCode.Var) : String := S x.text
def kind : CppLang.Kind → String | .array => "Json::arrayValue" | .object => "Json::objectValue"

def ex : Expr → String
  | .var x => nm x
  | .text s => q s
  | .kind k => kind k
  | .dot e f => ex e ++ "." ++ S f
  | .arrow e f => ex e ++ "->" ++ S f
  | .star (.var x) => "*" ++ nm x
  | .star e => "(*" ++ ex e ++ ")"
  | .index e i => ex e ++ "[" ++ ex i ++ "]"
  | .string e => ex e ++ ".string()"
  | .toDuration e => ex e ++ ".to_duration()"
  | .name e => ex e ++ "->name()"
  | .empty e => ex e ++ ".empty()"
  | .size e => ex e ++ ".size()"
  | .get e => ex e ++ ".get()"
  | .dateFormat f e => "date::format(" ++ q f ++ ", " ++ ex e ++ ")"
  | .tmText e f => "tm_to_string(" ++ ex e ++ ", " ++ q f ++ ")"
  | .durationText e => "duration_to_string(" ++ ex e ++ ")"
  | .strlen e => "strlen(" ++ ex e ++ ")"
  | .plus a b => ex a ++ " + " ++ ex b
  | .ne a b => ex a ++ " != " ++ ex b
  | .not e => "!" ++ ex e

def rhs : Rhs → String
  | .val e => ex e
  | .move x => "std::move(" ++ nm x ++ ")"
  | .call f e => S f ++ "(" ++ ex e ++ ")"

def st : Stmt → String
  | .skip => ""
  | .seq a b => st a ++ st b
  | .json x none => "Json::Value " ++ nm x ++ ";\n"
  | .json x (some k) => "Json::Value " ++ nm x ++ "(" ++ kind k ++ ");\n"
  | .auto x (.text s) => "constexpr auto " ++ nm x ++ "(" ++ q s ++ ");\n"
  | .auto x e => "const auto& " ++ nm x ++ " = " ++ ex e ++ ";\n"
  | .string x e => "const std::string& " ++ nm x ++ " = " ++ ex e ++ ";\n"
  | .pointer x t e => "const " ++ S t ++ "* " ++ nm x ++ " = " ++ ex e ++ ";\n"
  | .message x => "std::string " ++ nm x ++ ";\n"
  | .reserve x e => nm x ++ ".reserve(" ++ ex e ++ ");\n"
  | .append x e => nm x ++ " += " ++ ex e ++ ";\n"
  | .throw x => "throw std::invalid_argument(" ++ nm x ++ ");\n"
  | .assign x k r => nm x ++ "[" ++ ex k ++ "] = " ++ rhs r ++ ";\n"
  | .when c b => "if (" ++ ex c ++ ") {\n" ++ st b ++ "}\n"
  | .forCount i v b => "for (int " ++ nm i ++ " = 0; " ++ nm i ++ " < " ++ nm v ++ ".size(); ++" ++ nm i ++ ") {\n" ++ st b ++ "}\n"
  | .forEach x e b => "for (const auto& " ++ nm x ++ " : " ++ ex e ++ ") {\n" ++ st b ++ "}\n"
  | .ret e => "return " ++ ex e ++ ";\n"

def fn (f : Func) : String :=
  "Json::Value " ++ S f.name ++ "(const " ++ S f.ty ++ "& " ++ nm f.param ++ ") {\n" ++ st f.body ++ "}\n"

/-- The serializing functions which are generated for the schema -/
def show' (name : String) (j : Json) : IO Unit := do
  IO.println s!"#### {name}"
  match j with
  | .obj _ kvs =>
    match schemaAfterValidation PyPrint.lib kvs c!"#" with
    | .error _ => IO.println "ERROR schema"
    | .ok s =>
      match s.cpp with
      | none => IO.println "ERROR settings"
      | some cpp =>
        match CppGen.writer s.graph cpp with
        | .ok P => for f in P do IO.println (fn f)
        | .error _ => IO.println "ERROR gen"
  | _ => pure ()

end Mapry.CppPrint
