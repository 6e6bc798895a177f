import Verif.PyGen

/-!
# The generated Python code as text

A printer of the code of `PyGen`. It is used by `/verif/fidelity` to compare the model of the generators with the code which
mapry generated for its own test cases (`/repo/test_cases/**/py/test_generate`). No theorem depends on it.
-/

open Mapry Mapry.PyLang Mapry.PyGen Mapry.ParseSchema Mapry.Validation
open Mapry.PyRuntime (Json)
namespace Mapry.PyPrint
def S (s : Str) : String := String.ofList s
def hex4 (n : Nat) : String := let d := Nat.toDigits 16 n; String.ofList (List.replicate (4 - d.length) '0' ++ d)
def q (s : Str) : String := "'" ++ String.join (s.map fun c => if c.isAlphanum || c = ' ' || c = ',' || c=':' then toString c else "\\u" ++ hex4 c.toNat) ++ "'"
def clsT : Cls → String | .bool => "bool" | .int => "int" | .number => "(int, float)" | .str => "str" | .list => "list" | .dict => "dict" | .orderedDict => "collections.OrderedDict"
def opT : Cmp → String | .gt => ">" | .ge => ">=" | .lt => "<" | .le => "<="
variable (m : String)
def fnT : Fn → String | .cls n => m ++ "." ++ S n | .parse n => m ++ ".parse." ++ S n | .own n => S n
mutual
def ex : Expr → String
  | .none => "None"
  | .str s => q s
  | .name x => S x
  | .newList => "[]"
  | .newDict true => "collections.OrderedDict()"
  | .newDict false => "dict()"
  | .attr e a => ex e ++ "." ++ S a
  | .index e k => ex e ++ "[" ++ ex k ++ "]"
  | .get e k => ex e ++ ".get(" ++ ex k ++ ", None)"
  | .copy e => ex e ++ "[:]"
  | .isIn k e => "(" ++ ex k ++ " in " ++ ex e ++ ")"
  | .isinstance e c => "isinstance(" ++ ex e ++ ", " ++ clsT c ++ ")"
  | .not (.reMatch p e) => "(not " ++ ex (.reMatch p e) ++ ")"
  | .not e => "(not " ++ ex e ++ ")"
  | .isNone e => "(" ++ ex e ++ " is None)"
  | .isNotNone e => "(" ++ ex e ++ " is not None)"
  | .cmp op e i => "(" ++ ex e ++ " " ++ opT op ++ " " ++ toString i ++ ")"
  | .ne a b => "(" ++ ex a ++ " != " ++ ex b ++ ")"
  | .cond c a b => "(" ++ ex a ++ " if " ++ ex c ++ " else " ++ ex b ++ ")"
  | .len e => "len(" ++ ex e ++ ")"
  | .typeOf e => "type(" ++ ex e ++ ")"
  | .strOf e => "str(" ++ ex e ++ ")"
  | .reprOf e => "repr(" ++ ex e ++ ")"
  | .floatOf e => "float(" ++ ex e ++ ")"
  | .join ps => "'/'.join((" ++ ag ps ++ "))"
  | .format t as => q t ++ ".format(" ++ ag as ++ ")"
  | .plus a b => "(" ++ ex a ++ " + " ++ ex b ++ ")"
  | .reMatch p e => "re.match(" ++ q p ++ ", " ++ ex e ++ ")"
  | .strptime e f => "datetime.datetime.strptime(" ++ ex e ++ ", " ++ q f ++ ")"
  | .dateOf e => ex e ++ ".date()"
  | .timeOf e => ex e ++ ".time()"
  | .strftime e f => ex e ++ ".strftime(" ++ q f ++ ")"
  | .pathOf e => "pathlib.Path(" ++ ex e ++ ")"
  | .timezone e => "pytz.timezone(" ++ ex e ++ ")"
  | .durationFrom e => "_duration_from_string(" ++ ex e ++ ")"
  | .durationTo e => "_duration_to_string(" ++ ex e ++ ")"
  | .addError e r t => ex e ++ ".add(" ++ ex r ++ ", " ++ ex t ++ ")"
  | .isFull e => ex e ++ ".full()"
  | .isEmpty e => ex e ++ ".empty()"
  | .append e x => ex e ++ ".append(" ++ ex x ++ ")"
  | .call f as => fnT m f ++ "(" ++ ag as ++ ")"
  | .comp e x s => "[" ++ ex e ++ " for " ++ S x ++ " in " ++ ex s ++ "]"
def ag : Args → String
  | .nil => ""
  | .pos e r => ex e ++ ", " ++ ag r
  | .kw k e r => S k ++ "=" ++ ex e ++ ", " ++ ag r
end
def tg : PyLang.Target → String
  | .var x => S x
  | .attr e a => ex m e ++ "." ++ S a
  | .item e k => ex m e ++ "[" ++ ex m k ++ "]"
def catchT : Catch → String | .valueError => "ValueError" | .overflowError => "OverflowError" | .unknownTimeZone => "pytz.exceptions.UnknownTimeZoneError"
def catches : List Catch → String
  | [c] => catchT c
  | cs => "(" ++ String.intercalate ", " (cs.map catchT) ++ ")"
def st (ind : String) : Stmt → String
  | .pass => ""
  | .seq a b => st ind a ++ st ind b
  | .assign t e => ind ++ tg m t ++ " = " ++ ex m e ++ "\n"
  | .expr e => ind ++ ex m e ++ "\n"
  | .ite c a b => ind ++ "if " ++ ex m c ++ ":\n" ++ st (ind ++ "  ") a ++ ind ++ "  pass\n" ++
      (match st (ind ++ "  ") b with | "" => "" | x => ind ++ "else:\n" ++ x)
  | .forIn x e b => ind ++ "for " ++ S x ++ " in " ++ ex m e ++ ":\n" ++ st (ind ++ "  ") b
  | .forEnum i x e b => ind ++ "for " ++ S i ++ ", " ++ S x ++ " in enumerate(" ++ ex m e ++ "):\n" ++ st (ind ++ "  ") b
  | .forItems i x e b => ind ++ "for " ++ S i ++ ", " ++ S x ++ " in " ++ ex m e ++ ".items():\n" ++ st (ind ++ "  ") b
  | .attempt b cs x h => ind ++ "try:\n" ++ st (ind ++ "  ") b ++ ind ++ "except " ++ catches cs ++ (match x with | some x => " as " ++ S x | none => "") ++ ":\n" ++ st (ind ++ "  ") h
  | .ret e => ind ++ "return " ++ ex m e ++ "\n"
  | .brk => ind ++ "break\n"
  | .cont => ind ++ "continue\n"
  | .raiseValue e => ind ++ "raise ValueError(" ++ ex m e ++ ")\n"
def pr (p : Param) : String := S p.name ++ (match p.default with | none => "" | some (.bool false) => "=False" | some .none => "=None" | _ => "=??")
def fn (ind : String) (self : Bool) (f : Func) : String := ind ++ "def " ++ S f.name ++ "(" ++ String.intercalate ", " ((if self then ["self"] else []) ++ f.params.map pr) ++ "):\n" ++ ind ++ "  pass\n" ++ st m (ind ++ "  ") f.body
def cl (c : ClassDef) : String := "class " ++ S c.name ++ ":\n  pass\n" ++ (match c.init with | none => "" | some f => fn m "  " true f)
def lib : Validation.Lib where
  compileError _ := none
  explainGraph _ := ([], [])
  explainType _ := ([], [])
  render _ := []
/-- The modules which are generated for the schema -/
def show' (name : String) (j : Json) : IO Unit := do
  IO.println s!"#### {name}"
  match j with
  | .obj _ kvs =>
    match schemaAfterValidation lib kvs c!"#" with
    | .error _ => IO.println "ERROR schema"
    | .ok s => match s.py with
      | none => IO.println "ERROR nopy"
      | some py =>
        match PyGen.types s.graph, PyGen.parse s.graph, fromJsonable s.graph py, toJsonable s.graph py with
        | .ok t, .ok p, .ok f, .ok w => do
          let m := S py.moduleName
          IO.println "## __init__"; for c in t do IO.println (cl m c)
          IO.println "## parse"; for c in p do IO.println (fn m "" false c)
          IO.println "## fromjsonable"; for c in f do IO.println (fn m "" false c)
          IO.println "## tojsonable"; for c in w do IO.println (fn m "" false c)
        | _, _, _, _ => IO.println "ERROR gen"
  | _ => pure ()
end Mapry.PyPrint
