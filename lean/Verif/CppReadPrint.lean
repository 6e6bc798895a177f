import Verif.CppReadGraph
import Verif.CppPrint

/-!
# The generated C++ code of the parser as text

A printer of the code of `CppReadGen` and `CppReadGraph`. It is used by `/verif/fidelity` to compare the model of the generator with
the code which mapry generated for its own test cases (`/repo/test_cases/**/cpp/test_generate`). No theorem depends on it.
-/

namespace Mapry.CppReadPrint

open Mapry.CppRead Mapry.ParseSchema Mapry.Validation Mapry.Naming Mapry.TypeGraph
open Mapry.PyRuntime (Json)
open Mapry.PyPrint (S)
open Mapry.GoPrint (q)

def get : Except Exc Str → String | .ok s => S s | .error _ => "?"

section

variable (g : Graph)

/-- A variable; the registries of the graph are members of the target. -/
def nm : CppCode.Var → String
  | .own .registry c [] =>
    match g.cls? c with
    | some c => "target->" ++ get (asAttribute c.plural)
    | none => "?"
  | x => S x.text

def kind : CppRead.Kind → String
  | .bool => "isBool" | .int64 => "isInt64" | .double => "isDouble" | .string => "isString" | .array => "isArray" | .object => "isObject"
def op : Cmp → String | .gt => ">" | .ge => ">=" | .lt => "<" | .le => "<="

def ex : Expr → String
  | .var x => nm g x
  | .text s => q s
  | .bool b => if b then "true" else "false"
  | .cat (.cat a b) c => ex (.cat a b) ++ ".append(" ++ ex c ++ ")"
  | .cat a b => "std::string(" ++ ex a ++ ").append(" ++ ex b ++ ")"
  | .member e k => ex e ++ "[" ++ q k ++ "]"
  | .deref it => "*" ++ nm g it
  | .name it => nm g it ++ ".name()"
  | .asBool e => ex e ++ ".asBool()"
  | .asInt64 e => ex e ++ ".asInt64()"
  | .asDouble e => ex e ++ ".asDouble()"
  | .asString e => ex e ++ ".asString()"
  | .asZone e => ex e ++ ".asString()"
  | .typeText e => "value_type_to_string(" ++ ex e ++ ".type())"
  | .toText e => "std::to_string(" ++ ex e ++ ")"
  | .size e => ex e ++ ".size()"
  | .is k e => ex e ++ "." ++ kind k ++ "()"
  | .isMember e k => ex e ++ ".isMember(" ++ q k ++ ")"
  | .cmp o e b => ex e ++ " " ++ op o ++ " " ++ toString b
  | .matches p e => "std::regex_match(" ++ ex e ++ ", " ++ q p ++ ")"
  | .not (.cmp o e b) => "!(" ++ ex (.cmp o e b) ++ ")"
  | .not e => "!" ++ ex e
  | .notAll r => nm g r ++ " == nullptr or *" ++ nm g r ++ " != '\\0'"
  | .fail i => nm g i ++ ".fail()"
  | .empty e => ex e ++ ".empty()"
  | .missing r e => nm g r ++ ".count(" ++ ex e ++ ") == 0"
  | .atGet r e => nm g r ++ ".at(" ++ ex e ++ ").get()"
  | .stream e => "std::istringstream(" ++ ex e ++ ")"
  | .makeTime e => "date::make_time(" ++ ex e ++ ")"

def message : Expr → String
  | .cat (.text t) e => "message(" ++ q t ++ ", " ++ ex g e ++ ")"
  | e => ex g e

def decl (x : CppCode.Var) : Expr → String
  | .stream e => "std::istringstream " ++ nm g x ++ "(" ++ ex g e ++ ");\n"
  | .asString e => "const std::string " ++ nm g x ++ " = " ++ ex g (.asString e) ++ ";\n"
  | .bool b => "bool " ++ nm g x ++ " = " ++ ex g (.bool b) ++ ";\n"
  | .member e k => "const Json::Value& " ++ nm g x ++ " = " ++ ex g (.member e k) ++ ";\n"
  | .deref i => "const Json::Value& " ++ nm g x ++ " = " ++ ex g (.deref i) ++ ";\n"
  | .cat e (.text t) => "std::string " ++ nm g x ++ ";\n" ++ nm g x ++ ".reserve(" ++ ex g e ++ ".size() + " ++ toString t.length ++ ");\n"
      ++ nm g x ++ " += " ++ ex g e ++ ";\n" ++ nm g x ++ " += " ++ q t ++ ";\n"
  | e => "const auto " ++ nm g x ++ " = " ++ ex g e ++ ";\n"

def pl : Place → String
  | .arrow f => "target->" ++ S f
  | .var x => nm g x
  | .at x i => nm g x ++ ".at(" ++ nm g i ++ ")"
  | .key x it => nm g x ++ "[" ++ nm g it ++ ".name()]"
  | .star e => "*" ++ pl e

def address : Place → String
  | .star e => "&(*" ++ pl g e ++ ")"
  | e => "&" ++ pl g e

def isIte : Stmt → Bool | .ite .. => true | _ => false

def st : Stmt → String
  | .skip => ""
  | .seq a b => st a ++ st b
  | .decl x e b => decl g x e ++ st b
  | .ref x .vector p b => "vector& " ++ nm g x ++ " = " ++ pl g p ++ ";\n" ++ st b
  | .ref x .map p b => "map& " ++ nm g x ++ " = " ++ pl g p ++ ";\n" ++ st b
  | .counter x b => "size_t " ++ nm g x ++ " = 0;\n" ++ st b
  | .strptime ret tm cast f b => "struct tm " ++ nm g tm ++ " = tm{0};\nchar* " ++ nm g ret ++ " = strptime(" ++ nm g cast ++ ".c_str(), " ++
      q f ++ ", &" ++ nm g tm ++ ");\n" ++ st b
  | .duration err cast text b => "std::string " ++ nm g err ++ ";\nstd::chrono::nanoseconds " ++ nm g cast ++ " = duration_from_string(" ++
      nm g text ++ ", &" ++ nm g err ++ ");\n" ++ st b
  | .seconds x b => "std::chrono::seconds " ++ nm g x ++ ";\n" ++ st b
  | .set x e => nm g x ++ " = " ++ ex g e ++ ";\n"
  | .incr x => "++" ++ nm g x ++ ";\n"
  | .store p e => pl g p ++ " = " ++ ex g e ++ ";\n"
  | .resize x e => nm g x ++ ".resize(" ++ ex g e ++ ");\n"
  | .emplace p => pl g p ++ ".emplace();\n"
  | .extract i _ f p => nm g i ++ " >> date::parse(" ++ q f ++ ", " ++ pl g p ++ ");\n"
  | .extractTo i _ f x => nm g i ++ " >> date::parse(" ++ q f ++ ", " ++ nm g x ++ ");\n"
  | .locateZone p cast h => "try {\n" ++ pl g p ++ " = date::locate_zone(" ++ nm g cast ++ ");\n} catch(const std::runtime_error& e) {\n" ++
      st h ++ "}\n"
  | .add r m => "errors->add(" ++ ex g r ++ ", " ++ message g m ++ ");\n"
  | .ite c a .skip => "if (" ++ ex g c ++ ") {\n" ++ st a ++ "}\n"
  | .ite c a b => "if (" ++ ex g c ++ ") {\n" ++ st a ++ "} else " ++ (if isIte b then st b else "{\n" ++ st b ++ "}\n")
  | .ifFull a => "if (errors->full()) {\n" ++ st a ++ "}\n"
  | .forItems x e b => "for (const Json::Value& " ++ nm g x ++ " : " ++ ex g e ++ ") {\n" ++ st b ++ "}\n"
  | .forMembers x e b => "for (Json::ValueConstIterator " ++ nm g x ++ " = " ++ ex g e ++ ".begin(); " ++ nm g x ++ " != " ++ ex g e ++
      ".end(); ++" ++ nm g x ++ ") {\n" ++ st b ++ "}\n"
  | .brk => "break;\n"
  | .ret => "return;\n"
  | .call f _ e rs r p => S f ++ "(" ++ ex g e ++ ", " ++ String.join (rs.map fun x => nm g x ++ ", ") ++ ex g r ++ ", " ++ address g p ++
      ", errors);\n"

def gst : GStmt → String
  | .skip => ""
  | .seq a b => gst a ++ gst b
  | .decl x e b => decl g x e ++ gst b
  | .add r m => "errors->add(" ++ ex g r ++ ", " ++ message g m ++ ");\n"
  | .ite c a .skip => "if (" ++ ex g c ++ ") {\n" ++ gst a ++ "}\n"
  | .ite c a b => "if (" ++ ex g c ++ ") {\n" ++ gst a ++ "} else {\n" ++ gst b ++ "}\n"
  | .ifErrors a => "if (!errors->empty()) {\n" ++ gst a ++ "}\n"
  | .ifFull a => "if (errors->full()) {\n" ++ gst a ++ "}\n"
  | .throw m => "throw std::invalid_argument(" ++ q m ++ ");\n"
  | .brk => "break;\n"
  | .ret => "return;\n"
  | .forMembers x e b => "for (Json::ValueConstIterator " ++ nm g x ++ " = " ++ ex g e ++ ".begin(); " ++ nm g x ++ " != " ++ ex g e ++
      ".end(); ++" ++ nm g x ++ ") {\n" ++ gst b ++ "}\n"
  | .alloc c _ it => "auto instance = std::make_unique<" ++ get (asComposite c) ++ ">();\ninstance->id = " ++ nm g it ++ ".name();\n" ++
      nm g (memberVar c) ++ "[" ++ nm g it ++ ".name()] = std::move(instance);\n"
  | .parseAt c f it rs r => get (asComposite c) ++ "* instance(" ++ nm g (memberVar c) ++ ".at(" ++ nm g it ++ ".name()).get());\n" ++
      S f ++ "(*" ++ nm g it ++ ", " ++ String.join (rs.map fun c => nm g (memberVar c) ++ ", ") ++ ex g r ++ ", instance, errors);\n"
  | .code _ s => st g s

def fn (name : String) (rs : List CppCode.Var) (ty : Str) (body : String) : String :=
  "void " ++ name ++ "(const Json::Value& value, " ++ String.join (rs.map fun x => "const map& " ++ nm g x ++ ", ") ++
    "std::string ref, " ++ get (asComposite ty) ++ "* target, parse::Errors* errors) {\n" ++ body ++ "}\n"

end

/-- The parsing functions which are generated for the schema -/
def show' (name : String) (j : Json) : IO Unit := do
  IO.println s!"#### {name}"
  match j with
  | .obj _ kvs =>
    match schemaAfterValidation PyPrint.lib kvs c!"#" with
    | .error _ => IO.println "ERROR schema"
    | .ok s =>
      match s.cpp with
      | none => IO.println "ERROR settings"
      | some cpp =>
        match CppGen.dateLib cpp with
        | .error _ => IO.println "ERROR library"
        | .ok D =>
          match parseGraphCode s.graph D, reader s.graph D with
          | .ok b, .ok P => do
            IO.println (fn s.graph (get (asVariable s.graph.name) ++ "_from") [] s.graph.name (gst s.graph b))
            for f in P do IO.println (fn s.graph (S f.name) f.registries f.ty (st s.graph f.body))
          | _, _ => IO.println "ERROR gen"
  | _ => pure ()

end Mapry.CppReadPrint
