import Verif.CppReadGen

/-!
# The generated C++ function which parses the graph

The statements of the template of `_parse_graph` in `mapry/cpp/generate/jsoncpp_impl.py`, their meaning and the function which writes
them. The statements of the properties are those of `Verif/CppReadLang.lean`.

* The function changes the graph which `target` points to, and the container of the errors. No variable is assigned to after its
  declaration: the buffer `instance_ref` is represented by the text which it holds when it is passed.
* The registries of the graph are given by the names of their classes; that no two members of the graph have the same name is a
  condition of the compiler.
* The test whether `errors` is null is not represented.
-/

namespace Mapry.CppRead

open Mapry.CppRuntime (JVal Val Lib DateLib Fields GraphVal Instance registryIn setRegistry membersOf)
open Mapry.CppCode (Var)
open Mapry.Naming Mapry.TypeGraph
open Mapry.GoCode (referencesOf)

/-! ## Syntax -/

/-- A statement of the function. The scope of a declaration is the statement in it. -/
inductive GStmt where
  | skip
  | seq (a b : GStmt)
  /-- `T x = e;` -/
  | decl (x : Var) (e : Expr) (body : GStmt)
  /-- `errors->add(ref, message);` -/
  | add (ref message : Expr)
  | ite (c : Expr) (a b : GStmt)
  /-- `if (!errors->empty()) { a }` -/
  | ifErrors (a : GStmt)
  /-- `if (errors->full()) { a }` -/
  | ifFull (a : GStmt)
  /-- `throw std::invalid_argument(message);` -/
  | throw (message : Str)
  | brk
  | ret
  /-- `for (Json::ValueConstIterator x = e.begin(); x != e.end(); ++x) { body }` -/
  | forMembers (x : Var) (e : Expr) (body : GStmt)
  /-- `auto instance = std::make_unique<cls>(); instance->id = it.name(); target->plural[it.name()] = std::move(instance);` -/
  | alloc (cls : Str) (members : Fields) (it : Var)
  /-- `cls* instance(target->plural.at(it.name()).get()); f(*it, target->..., ref, instance, errors);` -/
  | parseAt (cls f : Str) (it : Var) (registries : List Str) (ref : Expr)
  /-- The statements of a property; the registries are used in them. -/
  | code (registries : List Str) (s : Stmt)

/-! ## Meaning -/

/-- The state: the graph and the container of the errors -/
structure GSt where
  graph : GraphVal
  errors : CppErrors

abbrev GResult := Except Exc (Flow × GSt)

/-- A loop -/
def gloop (body : RV → GSt → GResult) : List RV → GSt → GResult
  | [], s => .ok (.next, s)
  | v :: vs, s =>
    match body v s with
    | .ok (.next, s) => gloop body vs s
    | .ok (.brk, s) => .ok (.next, s)
    | .ok (.ret, s) => .ok (.ret, s)
    | .error e => .error e

/-- `target->plural` as an argument: the class and the keys -/
def memberReg (t : GraphVal) (c : Str) : RV := .registry c ((registryIn t.registries c).map (·.1))

/-- `target->plural` in the statements of a property -/
def memberVar (c : Str) : Var := .own .registry c []

def fieldsIn (old : Fields) : Val → Fields
  | .obj _ fields => fields
  | _ => old

section

variable (L : Lib) (P : Program) (n : Nat)

/-- A statement runs; there are `n` stack frames left for the functions which the function of an instance calls. `at` throws if there
is no instance. -/
def gexec (ρ : Env) : GStmt → GSt → GResult
  | .skip, s => .ok (.next, s)
  | .seq a b, s =>
    match gexec ρ a s with
    | .ok (.next, s) => gexec ρ b s
    | r => r
  | .decl x e body, s => do
    let v ← eval L ρ e
    gexec ((x, v) :: ρ) body s
  | .add r m, s => do
    let r ← (← eval L ρ r).toStr
    let m ← (← eval L ρ m).toStr
    pure (.next, { s with errors := s.errors.add ⟨r, m⟩ })
  | .ite c a b, s => do
    let c ← (← eval L ρ c).toBool
    if c then gexec ρ a s else gexec ρ b s
  | .ifErrors a, s => if s.errors.empty then .ok (.next, s) else gexec ρ a s
  | .ifFull a, s => if s.errors.full then gexec ρ a s else .ok (.next, s)
  | .throw m, _ => .error (.valueError m)
  | .brk, s => .ok (.brk, s)
  | .ret, s => .ok (.ret, s)
  | .forMembers x e body, s => do
    let j ← (← eval L ρ e).toJson
    gloop (fun v => gexec ((x, v) :: ρ) body) ((membersOf j).map fun kv => .iter kv.1 kv.2) s
  | .alloc cls members it, s => do
    let id ← (← eval L ρ (.name it)).toStr
    let reg := GoMap.put id ⟨id, members⟩ (registryIn s.graph.registries cls)
    pure (.next, { s with graph := { s.graph with registries := setRegistry cls reg s.graph.registries } })
  | .parseAt cls f it registries ref, s => do
    let id ← (← eval L ρ (.name it)).toStr
    let j ← (← eval L ρ (.deref it)).toJson
    let r ← (← eval L ρ ref).toStr
    match (registryIn s.graph.registries cls).lookup id with
    | none => .error .overflowError
    | some inst => do
      let (x, errors) ← run L P (n + 1) f cls j (registries.map (memberReg s.graph)) r (.obj cls inst.fields) s.errors
      let reg := GoMap.put id ⟨inst.id, fieldsIn inst.fields x⟩ (registryIn s.graph.registries cls)
      pure (.next, ⟨{ s.graph with registries := setRegistry cls reg s.graph.registries }, errors⟩)
  | .code registries body, s => do
    let (flow, t) ← exec L (run L P n) body
      ⟨registries.map (fun c => (memberVar c, memberReg s.graph c)) ++ ρ, .obj [] s.graph.fields, s.errors⟩
    pure (flow, ⟨{ s.graph with fields := fieldsIn s.graph.fields t.root }, t.errors⟩)

/-- The function is called. -/
def runGraph (body : GStmt) (j : JVal) (r : Str) (target : GraphVal) (e : CppErrors) : Except Exc (GraphVal × CppErrors) := do
  let (_, s) ← gexec L P n [(value, .json j), (refVar, .text r)] body ⟨target, e⟩
  pure (s.graph, s.errors)

end

/-! ## The generator -/

/-- The reference and the iterator -/
def itVar : Var := .fixed c!"it"
def objVar : Var := .fixed c!"obj"

/-- `{plural}_ref` -/
def pluralRef (v : Str) : Var := .own .registry v c!"_ref"

/-- `set_instance` with the check of the identifier, `/repo/mapry/cpp/generate/jsoncpp_impl.py:2047-2075` -/
def allocCode (c : Class) (v : Str) : GStmt :=
  match c.idPattern with
  | none => .alloc c.name (CppRuntime.zeroFields c.properties) itVar
  | some p =>
    .ite (.not (.matches p (.name itVar)))
      (.seq (.add (.var (pluralRef v)) (.cat (.text (c!"Expected ID to match " ++ p ++ c!", but got: ")) (.name itVar)))
        (.ifFull .brk))
      (.alloc c.name (CppRuntime.zeroFields c.properties) itVar)

/-- The pre-allocation of the instances of a class, `/repo/mapry/cpp/generate/jsoncpp_impl.py:2029-2078` -/
def preallocCode (c : Class) (v : Str) : GStmt :=
  .ite (.isMember (.var value) (lower c.plural))
    (.decl objVar (.member (.var value) (lower c.plural))
      (.ite (.not (.is .object (.var objVar)))
        (.add (.var (pluralRef v)) (.cat (.text c!"Expected an object, but got: ") (.typeText (.var objVar))))
        (.forMembers itVar (.var objVar) (allocCode c v))))
    .skip

/-- The pre-allocation of all the classes, `/repo/mapry/cpp/generate/jsoncpp_impl.py:2017-2079`; the variables are declared in the
statements which follow -/
def preallocsCode : List Class → GStmt → Except Exc GStmt
  | [], rest => .ok rest
  | c :: cs, rest => do
    let v ← asVariable c.plural
    let more ← preallocsCode cs rest
    pure (.decl (pluralRef v) (.cat (.var refVar) (.text (c!"/" ++ lower c.plural))) (.seq (preallocCode c v) more))

/-- The parsing of the instances of a class, `/repo/mapry/cpp/generate/jsoncpp_impl.py:2094-2137` -/
def instancesCode (g : Graph) (c : Class) : Except Exc GStmt := do
  let v ← asVariable c.plural
  let f ← asVariable c.name
  let refs ← referencesOf g (.cls c.name)
  pure (.seq
    (.ite (.isMember (.var value) (lower c.plural))
      (.decl objVar (.member (.var value) (lower c.plural))
        (.forMembers itVar (.var objVar)
          (.seq (.parseAt c.name (f ++ c!"_from") itVar refs (.cat (.cat (.var (pluralRef v)) (.text c!"/")) (.name itVar)))
            (.ifFull .brk))))
      .skip)
    (.ifFull .ret))

/-- All the classes -/
def allInstances (g : Graph) : List Class → Except Exc GStmt
  | [] => .ok .skip
  | c :: cs => do
    let a ← instancesCode g c
    let b ← allInstances g cs
    pure (.seq a b)

/-- `registry_exprs` of the graph, `/repo/mapry/cpp/generate/jsoncpp_impl.py:2162-2166` -/
def memberOfGraph (g : Graph) (name : Str) : Except Exc Var :=
  if name ∈ g.classes.map (·.name) then .ok (memberVar name) else .error .keyError

/-- `/repo/mapry/cpp/generate/jsoncpp_impl.py:1989-2188` `_parse_graph` -/
def parseGraphCode (g : Graph) (D : DateLib) : Except Exc GStmt := do
  let props ← parseProps ⟨g, D, memberOfGraph g⟩ g.properties 0
  let instances ← allInstances g g.classes
  let body ← preallocsCode g.classes
    (.seq (if g.classes.isEmpty then .skip else .ifErrors .ret) (.seq instances (.code (g.classes.map (·.name)) props)))
  pure (.seq (.ifErrors (.throw c!"Unexpected non-empty errors"))
    (.seq (.ite (.not (.is .object (.var value)))
      (.seq (.add (.var refVar) (.cat (.text c!"Expected an object, but got: ") (.typeText (.var value)))) .ret) .skip) body))

end Mapry.CppRead
