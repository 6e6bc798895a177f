import Verif.CppBodies
import Verif.CppGen

/-!
# The names and the types in the generated C++ code of the serializer

`Verif/CppCode.lean` describes the generated code by its names and types (C73 - C77), `Verif/CppGen.lean` by its statements. The
former is obtained from the latter by leaving out the texts. Hence what the compiler accepts is the code which is run.
-/

namespace Mapry.CppErase

open Mapry.Naming Mapry.ParseSchema
open Mapry.CppCode (Var objVar asValue pluralValue Code call₀ call₁ fnCall libCall ifThen addTo concat)
open Mapry.CppLang (Kind Stmt Rhs)

/-- The expression without its texts -/
def expr : CppLang.Expr → CppCode.Expr
  | .var x => .var x
  | .text _ => .text
  | .kind _ => .kind
  | .dot e f => .dot (expr e) f
  | .arrow e f => .arrow (expr e) f
  | .star e => .star (expr e)
  | .index e i => .index (expr e) (expr i)
  | .string e => call₀ (expr e) c!"string"
  | .toDuration e => call₀ (expr e) c!"to_duration"
  | .name e => .call (.via (expr e) c!"name")
  | .empty e => call₀ (expr e) c!"empty"
  | .size e => call₀ (expr e) c!"size"
  | .get e => call₀ (expr e) c!"get"
  | .dateFormat _ e => libCall c!"date::format" [.text, expr e]
  | .tmText e _ => fnCall c!"tm_to_string" [expr e, .text]
  | .durationText e => fnCall c!"duration_to_string" [expr e]
  | .strlen e => fnCall c!"strlen" [expr e]
  | .plus a b => .plus (expr a) (expr b)
  | .ne a b => .cmp (expr a) (expr b)
  | .not e => .neg (expr e)

def rhs : Rhs → CppCode.Expr
  | .val e => expr e
  | .move x => .move (.var x)
  | .call f e => fnCall f [expr e]

/-- The statements without their texts -/
def code : Stmt → Code
  | .skip => .done
  | .seq a b => code a ++ code b
  | .json x none => .decl x .json none .done
  | .json x (some _) => .decl x .json (some .kind) .done
  | .auto x e => .auto x (expr e) .done
  | .string x e => .decl x .string (some (expr e)) .done
  | .pointer x ty e => .decl x (.ptr (.struct ty)) (some (expr e)) .done
  | .message x => .decl x .string none .done
  | .reserve x e => .eval (call₁ (.var x) c!"reserve" (expr e)) .done
  | .append x e => addTo (.var x) (expr e) .done
  | .throw x => .eval (libCall c!"std::invalid_argument" [.var x]) .done
  | .assign x key r => .assign (.index (.var x) (expr key)) (rhs r) .done
  | .when c body => ifThen (expr c) (code body)
  | .forCount i v body =>
    .block (.decl i .int (some (.num 0)) (.test (.cmp (.var i) (call₀ (.var v) c!"size")) (code body))) .done
  | .forEach x e body => .each x none (expr e) (code body) .done
  | .ret e => .give (expr e) .done

def func (f : CppLang.Func) : CppCode.Func := ⟨f.name, [(f.param, .struct f.ty)], .json, code f.body⟩

/-! ## The generators -/

theorem append_assoc (a b c : Code) : a ++ b ++ c = a ++ (b ++ c) := by
  induction a with
  | done => rfl
  | eval e r ih => exact congrArg (Code.eval e) ih
  | test e r ih => exact congrArg (Code.test e) ih
  | assign l x r ih => exact congrArg (Code.assign l x) ih
  | extract l x r ih => exact congrArg (Code.extract l x) ih
  | decl x t i r ih => exact congrArg (Code.decl x t i) ih
  | ref x t e r ih => exact congrArg (Code.ref x t e) ih
  | auto x e r ih => exact congrArg (Code.auto x e) ih
  | each x t e b r _ ih => exact congrArg (Code.each x t e b) ih
  | block b r _ ih => exact congrArg (Code.block b) ih
  | give e r ih => exact congrArg (Code.give e) ih

/-- The result with the texts left out -/
def both (r : Stmt × Nat) : Code × Nat := (code r.1, r.2)

theorem value (cpp : Cpp) : ∀ (ty : Ty) (x : Var) (key e : CppLang.Expr) (n : Nat),
    CppCode.serializeValue cpp ty (.index (.var x) (expr key)) (expr e) n =
      (CppGen.serializeValue cpp ty x key e n).map both := by
  intro ty
  induction ty with
  | array t lo hi ih =>
    intro x key e n
    have h := ih (CppGen.temp c!"target" n) (.var (CppGen.temp c!"i" n))
      (.index (.var (CppGen.temp c!"vector" n)) (.var (CppGen.temp c!"i" n))) (n + 1)
    simp only [CppGen.temp, expr] at h
    simp only [CppCode.serializeValue, CppGen.serializeValue, CppCode.t, CppGen.temp, h]
    cases CppGen.serializeValue cpp t (.temp c!"target" n []) (.var (.temp c!"i" n []))
      (.index (.var (.temp c!"vector" n [])) (.var (.temp c!"i" n []))) (n + 1) <;> rfl
  | map t ih =>
    intro x key e n
    have h := ih (CppGen.temp c!"target" n) (.dot (.var (CppGen.temp c!"kv" n)) c!"first")
      (.dot (.var (CppGen.temp c!"kv" n)) c!"second") (n + 1)
    simp only [CppGen.temp, expr] at h
    simp only [CppCode.serializeValue, CppGen.serializeValue, CppCode.t, CppGen.temp, h]
    cases CppGen.serializeValue cpp t (.temp c!"target" n []) (.dot (.var (.temp c!"kv" n [])) c!"first")
      (.dot (.var (.temp c!"kv" n [])) c!"second") (n + 1) <;> rfl
  | embed name =>
    intro x key e n
    simp only [CppCode.serializeValue, CppGen.serializeValue]
    cases asVariable name <;> rfl
  | date f =>
    intro x key e n
    simp only [CppCode.serializeValue, CppGen.serializeValue, CppGen.dateLib, CppCode.formatted, CppGen.serializeTime]
    cases CppCode.dateH cpp with
    | error e => rfl
    | ok b => cases b <;> by_cases hf : f = [] <;> simp [hf, Bind.bind, Except.bind, pure, Except.pure, Except.map, both, code, rhs, expr]
  | time f =>
    intro x key e n
    simp only [CppCode.serializeValue, CppGen.serializeValue, CppGen.dateLib, CppCode.formatted, CppGen.serializeTime]
    cases CppCode.dateH cpp with
    | error e => rfl
    | ok b => cases b <;> by_cases hf : f = [] <;> simp [hf, Bind.bind, Except.bind, pure, Except.pure, Except.map, both, code, rhs, expr]
  | datetime f =>
    intro x key e n
    simp only [CppCode.serializeValue, CppGen.serializeValue, CppGen.dateLib, CppCode.formatted, CppGen.serializeTime]
    cases CppCode.dateH cpp with
    | error e => rfl
    | ok b => cases b <;> by_cases hf : f = [] <;> simp [hf, Bind.bind, Except.bind, pure, Except.pure, Except.map, both, code, rhs, expr]
  | timeZone =>
    intro x key e n
    simp only [CppCode.serializeValue, CppGen.serializeValue, CppGen.dateLib]
    cases CppCode.dateH cpp with
    | error e => rfl
    | ok b => cases b <;> rfl
  | _ => intro x key e n; rfl

theorem property (cpp : Cpp) (f : Str) (p : Property) (n : Nat) :
    CppCode.serializeProperty cpp f p n = (CppGen.serializeProperty cpp f p n).map both := by
  simp only [CppCode.serializeProperty, CppGen.serializeProperty]
  have h := value cpp p.ty (asValue f) (.text p.json)
  simp only [expr] at h
  split
  · have h := h (.star (.dot (.var (objVar f)) p.name)) n
    simp only [expr] at h
    rw [h]
    cases CppGen.serializeValue cpp p.ty (asValue f) (.text p.json) (.star (.dot (.var (objVar f)) p.name)) n <;> rfl
  · exact h (.dot (.var (objVar f)) p.name) n

theorem props (cpp : Cpp) (f : Str) : ∀ (ps : List Property) (n : Nat),
    CppCode.serializeProps cpp f ps n = (CppGen.serializeProps cpp f ps n).map code := by
  intro ps
  induction ps with
  | nil => intro n; rfl
  | cons p ps ih =>
    intro n
    simp only [CppCode.serializeProps, CppGen.serializeProps, property]
    cases CppGen.serializeProperty cpp f p n with
    | error e => rfl
    | ok r =>
      simp only [Except.map, Bind.bind, Except.bind, both, ih]
      cases CppGen.serializeProps cpp f ps r.2 <;> rfl

theorem composite (cpp : Cpp) (name : Str) (ps : List Property) :
    CppCode.serializeComposite cpp name ps = (CppGen.serializeComposite cpp name ps).map func := by
  simp only [CppCode.serializeComposite, CppGen.serializeComposite, props]
  cases asVariable name with
  | error e => rfl
  | ok f =>
  cases asComposite name with
  | error e => rfl
  | ok ty =>
  simp only [Bind.bind, Except.bind]
  cases CppGen.serializeProps cpp f ps 0 with
  | error e => rfl
  | ok s =>
    simp only [Except.map, pure, Except.pure, func]
    by_cases hp : ps.length = 0
    · simp only [hp, if_true]; rfl
    · simp only [if_neg hp]; rfl

theorem instances (f : Str) (c : Class) : CppCode.serializeInstances f c = (CppGen.serializeInstances f c).map code := by
  simp only [CppCode.serializeInstances, CppGen.serializeInstances]
  cases asVariable c.plural with
  | error e => rfl
  | ok plural =>
  cases jsonPlural c.plural with
  | error e => rfl
  | ok key =>
  cases asComposite c.name with
  | error e => rfl
  | ok ty =>
  cases asVariable c.name with
  | error e => rfl
  | ok cf => rfl

theorem sequence (ss : List Stmt) : concat (ss.map code) = code (CppGen.sequence ss) := by
  induction ss with
  | nil => rfl
  | cons s ss ih => exact congrArg (code s ++ ·) ih

theorem mapM_map {α β γ : Type} {F : α → Except Exc β} {G : α → Except Exc γ} {k : β → γ} (h : ∀ a, G a = (F a).map k) :
    ∀ l : List α, l.mapM G = (l.mapM F).map (·.map k) := by
  intro l
  induction l with
  | nil => rfl
  | cons a l ih =>
    rw [List.mapM_cons, List.mapM_cons, h, ih]
    cases F a with
    | error e => rfl
    | ok b => cases l.mapM F <;> rfl

theorem graph (g : Graph) (cpp : Cpp) : CppCode.serializeGraph g cpp = (CppGen.serializeGraph g cpp).map func := by
  simp only [CppCode.serializeGraph, CppGen.serializeGraph, props, mapM_map (instances _)]
  cases asVariable g.name with
  | error e => rfl
  | ok f =>
  cases asComposite g.name with
  | error e => rfl
  | ok ty =>
  simp only [Bind.bind, Except.bind]
  cases CppGen.serializeProps cpp f g.properties 0 with
  | error e => rfl
  | ok s =>
  cases g.classes.mapM (CppGen.serializeInstances f) with
  | error e => rfl
  | ok ss =>
    simp only [Except.map, pure, Except.pure, func, sequence, append_assoc]
    split <;> rfl

/-- The functions which serialize in the generated file, as they are declared -/
def writer (g : Graph) (cpp : Cpp) : Except Exc (List CppCode.Func) := do
  let classes ← g.classes.mapM fun c => CppCode.serializeComposite cpp c.name c.properties
  let embeds ← g.embeds.mapM fun e => CppCode.serializeComposite cpp e.name e.properties
  let graph ← CppCode.serializeGraph g cpp
  pure (classes ++ embeds ++ [graph])

theorem writer_eq (g : Graph) (cpp : Cpp) : writer g cpp = (CppGen.writer g cpp).map (·.map func) := by
  simp only [writer, CppGen.writer, graph, mapM_map fun c : Class => composite cpp c.name c.properties,
    mapM_map fun e : Embed => composite cpp e.name e.properties]
  cases g.classes.mapM fun c => CppGen.serializeComposite cpp c.name c.properties with
  | error e => rfl
  | ok cs =>
  cases g.embeds.mapM fun e => CppGen.serializeComposite cpp e.name e.properties with
  | error e => rfl
  | ok es =>
  cases CppGen.serializeGraph g cpp with
  | error e => rfl
  | ok fn => simp [Except.map, Bind.bind, Except.bind, pure, Except.pure]

end Mapry.CppErase
