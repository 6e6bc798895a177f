import Verif.PyLang

/-!
# Local variables which hide functions

A function which calls no function of the module under the name of one of its local variables does the same as if a local
variable hid nothing.
-/

namespace Mapry.PyLang

open Mapry.PyRuntime (Lib)
open Mapry.Text

mutual

/-- The names of the functions of the module which are called in the expression -/
def Expr.calls : Expr → List Str
  | .attr e _ | .copy e | .isinstance e _ | .not e | .isNone e | .isNotNone e | .cmp _ e _ | .len e | .typeOf e | .strOf e
  | .reprOf e | .floatOf e | .reMatch _ e | .strptime e _ | .dateOf e | .timeOf e | .strftime e _ | .pathOf e | .timezone e
  | .durationFrom e | .durationTo e | .isFull e | .isEmpty e => e.calls
  | .index a b | .get a b | .isIn a b | .ne a b | .plus a b | .append a b => a.calls ++ b.calls
  | .cond a b c | .addError a b c => a.calls ++ (b.calls ++ c.calls)
  | .join as | .format _ as => as.calls
  | .call (.own f) as => f :: as.calls
  | .call _ as => as.calls
  | .comp e _ source => e.calls ++ source.calls
  | .none | .str _ | .name _ | .newList | .newDict _ => []

def Args.calls : Args → List Str
  | .nil => []
  | .pos e rest => e.calls ++ rest.calls
  | .kw _ e rest => e.calls ++ rest.calls

end

def Target.calls : Target → List Str
  | .var _ => []
  | .attr e _ => e.calls
  | .item e k => e.calls ++ k.calls

def Stmt.calls : Stmt → List Str
  | .seq a b => a.calls ++ b.calls
  | .assign t e => t.calls ++ e.calls
  | .expr e | .ret e | .raiseValue e => e.calls
  | .ite c a b => c.calls ++ (a.calls ++ b.calls)
  | .forIn _ e body | .forEnum _ _ e body | .forItems _ _ e body => e.calls ++ body.calls
  | .attempt body _ _ handler => body.calls ++ handler.calls
  | .pass | .brk | .cont => []

/-- The two calls are the same on these functions of the module. -/
structure Agree (l : List Str) (c d : Fn → Actual → M PV) : Prop where
  cls : ∀ n, c (.cls n) = d (.cls n)
  parse : ∀ n, c (.parse n) = d (.parse n)
  own : ∀ n ∈ l, c (.own n) = d (.own n)

section

variable {L : Lib} {c d : Fn → Actual → M PV}

theorem Agree.left {l m : List Str} (h : Agree (l ++ m) c d) : Agree l c d :=
  ⟨h.cls, h.parse, fun n hn => h.own n (List.mem_append_left _ hn)⟩

theorem Agree.right {l m : List Str} (h : Agree (l ++ m) c d) : Agree m c d :=
  ⟨h.cls, h.parse, fun n hn => h.own n (List.mem_append_right _ hn)⟩

mutual

theorem eval_agree : ∀ (e : Expr), Agree e.calls c d → eval L c e = eval L d e
  | .none, _ | .str _, _ | .name _, _ | .newList, _ | .newDict _, _ => by simp only [eval]
  | .attr e _, h | .copy e, h | .isinstance e _, h | .not e, h | .isNone e, h | .isNotNone e, h | .cmp _ e _, h | .len e, h
  | .typeOf e, h | .strOf e, h | .reprOf e, h | .floatOf e, h | .reMatch _ e, h | .strptime e _, h | .dateOf e, h
  | .timeOf e, h | .strftime e _, h | .pathOf e, h | .timezone e, h | .durationFrom e, h | .durationTo e, h | .isFull e, h
  | .isEmpty e, h => by
    rw [Expr.calls] at h
    simp only [eval, eval_agree e h]
  | .index a b, h | .get a b, h | .isIn a b, h | .ne a b, h | .plus a b, h | .append a b, h => by
    rw [Expr.calls] at h
    simp only [eval, eval_agree a h.left, eval_agree b h.right]
  | .cond a b e, h | .addError a b e, h => by
    rw [Expr.calls] at h
    simp only [eval, eval_agree a h.left, eval_agree b h.right.left, eval_agree e h.right.right]
  | .join as, h | .format _ as, h => by
    rw [Expr.calls] at h
    simp only [eval, evalArgs_agree as h]
  | .call (.own f) as, h => by
    rw [Expr.calls] at h
    have hr : Agree as.calls c d := ⟨h.cls, h.parse, fun n hn => h.own n (List.mem_cons_of_mem _ hn)⟩
    simp only [eval, evalArgs_agree as hr, h.own f (List.mem_cons_self ..)]
  | .call (.cls f) as, h => by
    have h : Agree as.calls c d := by simpa only [Expr.calls] using h
    simp only [eval, evalArgs_agree as h, h.cls f]
  | .call (.parse f) as, h => by
    have h : Agree as.calls c d := by simpa only [Expr.calls] using h
    simp only [eval, evalArgs_agree as h, h.parse f]
  | .comp e _ source, h => by
    rw [Expr.calls] at h
    simp only [eval, eval_agree e h.left, eval_agree source h.right]

theorem evalArgs_agree : ∀ (as : Args), Agree as.calls c d → evalArgs L c as = evalArgs L d as
  | .nil, _ => by simp only [evalArgs]
  | .pos e rest, h | .kw _ e rest, h => by
    rw [Args.calls] at h
    simp only [evalArgs, eval_agree e h.left, evalArgs_agree rest h.right]

end

theorem assignTo_agree (t : Target) (h : Agree t.calls c d) : assignTo L c t = assignTo L d t := by
  funext w
  cases t with
  | var => rfl
  | attr e a => simp only [assignTo, eval_agree e h]
  | item e k => rw [Target.calls] at h; simp only [assignTo, eval_agree e h.left, eval_agree k h.right]

theorem exec_agree (s : Stmt) (h : Agree s.calls c d) : exec L c s = exec L d s := by
  induction s with
  | pass => simp only [exec]
  | brk => simp only [exec]
  | cont => simp only [exec]
  | seq a b iha ihb => rw [Stmt.calls] at h; simp only [exec, iha h.left, ihb h.right]
  | assign t e => rw [Stmt.calls] at h; simp only [exec, assignTo_agree t h.left, eval_agree e h.right]
  | expr e => simp only [exec, eval_agree e h]
  | ret e => simp only [exec, eval_agree e h]
  | raiseValue e => simp only [exec, eval_agree e h]
  | ite x a b iha ihb => rw [Stmt.calls] at h; simp only [exec, eval_agree x h.left, iha h.right.left, ihb h.right.right]
  | forIn x e body ih => rw [Stmt.calls] at h; simp only [exec, eval_agree e h.left, ih h.right]
  | forEnum i x e body ih => rw [Stmt.calls] at h; simp only [exec, eval_agree e h.left, ih h.right]
  | forItems k x e body ih => rw [Stmt.calls] at h; simp only [exec, eval_agree e h.left, ih h.right]
  | attempt body cs x handler ih1 ih2 => rw [Stmt.calls] at h; simp only [exec, ih1 h.left, ih2 h.right]

theorem apply_agree (f : Func) (h : Agree f.body.calls c d) : apply L c f = apply L d f := by
  funext args
  simp only [apply]
  cases bindArgs f.params args with
  | none => rfl
  | some vars =>
    funext s
    simp only [run, exec_agree f.body h]

/-- No function calls one under the name of a local variable. -/
def Unhidden (P : Program) : Prop := ∀ f ∈ P.own, ∀ n ∈ f.body.calls, n ∉ f.locals

theorem findLast_mem {α : Type} {name : α → Str} {l : List α} {x : Str} {a : α} (h : findLast name l x = some a) : a ∈ l :=
  List.mem_reverse.1 (List.mem_of_find?_eq_some h)

theorem callModule_eq {P : Program} (h : Unhidden P) : ∀ (n : Nat) (f : Fn) (args : Actual),
    callModule L P n f args = callOwn L P n f args
  | _, .cls _, _ => by rw [callModule, callOwn]
  | _, .parse _, _ => by rw [callModule, callOwn]
  | 0, .own _, _ => by rw [callModule, callOwn]
  | n + 1, .own name, args => by
    rw [callModule, callOwn]
    cases hf : findLast (·.name) P.own name with
    | none => rfl
    | some f =>
      simp only
      rw [apply_agree f]
      refine ⟨fun m => ?_, fun m => ?_, fun m hm => ?_⟩
      · funext as
        exact callModule_eq h n _ _
      · funext as
        exact callModule_eq h n _ _
      · funext as
        rw [inScope, if_neg (h f (findLast_mem hf) m hm)]
        exact callModule_eq h n _ _

end

end Mapry.PyLang
