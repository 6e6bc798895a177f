import Verif.GoLang

/-!
# Programs with other names for the variables

A program in which the variables are renamed runs as before, if the new names of the variables which are around at the same time
are different.
-/

namespace Mapry.GoLang

open Mapry.GoRuntime (Lib)
open Mapry.GoCode (Name)

section

variable (r : Name → Name)

mutual

/-- The expression with other names -/
def Expr.rename : Expr → Expr
  | .var x => .var (r x)
  | .str s => .str s
  | .int i => .int i
  | .nil => .nil
  | .zero => .zero
  | .field e f => .field e.rename f
  | .deref e => .deref e.rename
  | .index e k => .index e.rename k.rename
  | .len e => .len e.rename
  | .isNil e => .isNil e.rename
  | .notNil e => .notNil e.rename
  | .not e => .not e.rename
  | .ne a b => .ne a.rename b.rename
  | .fractional a => .fractional a.rename
  | .beyondInt64 a => .beyondInt64 a.rename
  | .toInt64 a => .toInt64 a.rename
  | .cmp op a m => .cmp op a.rename m
  | .format t layout => .format t.rename layout
  | .zoneName z => .zoneName z.rename
  | .durationText d => .durationText d.rename
  | .errorText e => .errorText e.rename
  | .itoa i => .itoa i.rename
  | .matches uid e => .matches uid e.rename
  | .plus a s => .plus a.rename s
  | .join ps => .join (renames ps)
  | .sprintf f as => .sprintf f (renames as)
  | .errorf f as => .errorf f (renames as)
  | .errorsEmpty => .errorsEmpty
  | .errorsFull => .errorsFull

/-- The expressions with other names -/
def renames : List Expr → List Expr
  | [] => []
  | e :: es => e.rename :: renames es

end

def Arg.rename : Arg → Arg
  | .val e => .val (e.rename r)
  | .addr e => .addr (e.rename r)

def Rhs.rename : Rhs → Rhs
  | .val e => .val (e.rename r)
  | .makeMap => .makeMap
  | .makeSlice n => .makeSlice (n.rename r)
  | .new => .new
  | .addr e => .addr (e.rename r)
  | .call f args => .call f (args.map (Arg.rename r))

def Two.rename : Two → Two
  | .assert k e => .assert k (e.rename r)
  | .lookup e k => .lookup (e.rename r) (k.rename r)
  | .parseTime layout e => .parseTime layout (e.rename r)
  | .loadLocation e => .loadLocation (e.rename r)
  | .durationFrom e => .durationFrom (e.rename r)

def Place.rename : Place → Place
  | .var x => .var (r x)
  | .field e f => .field (e.rename r) f
  | .index e k => .index (e.rename r) (k.rename r)

/-- The statement with other names -/
def Stmt.rename : Stmt → Stmt
  | .skip => .skip
  | .seq a b => .seq a.rename b.rename
  | .declare x e => .declare (r x) (e.rename r)
  | .declare2 x y two => .declare2 (x.map r) (r y) (two.rename r)
  | .assign p e => .assign (p.rename r) (e.rename r)
  | .assign2 x y two => .assign2 (r x) (r y) (two.rename r)
  | .ite c a b => .ite (c.rename r) a.rename b.rename
  | .forCount i n body => .forCount (r i) (r n) body.rename
  | .forItems i e body => .forItems (r i) (e.rename r) body.rename
  | .forEntries k v e body => .forEntries (r k) (v.map r) (e.rename r) body.rename
  | .call f args => .call f (args.map (Arg.rename r))
  | .report a m => .report (a.rename r) (m.rename r)
  | .panic msg => .panic msg
  | .brk => .brk
  | .ret => .ret

def Func.rename (f : Func) : Func := ⟨f.name, f.params.map r, f.results.map r, f.body.rename r, f.deferred.rename r⟩

/-- The program with other names for its variables -/
def Program.rename (P : Program) : Program := ⟨P.funcs.map (Func.rename r), P.patterns⟩

/-- The cells of the variables under the other names -/
def Env.rename (ρ : Env) : Env := ρ.map fun e => (r e.1, e.2)

end

/-! ## The names in a program -/

section

variable (P : Name → Prop)

mutual

/-- All the names in the expression satisfy the predicate. -/
def Expr.All : Expr → Prop
  | .var x => P x
  | .str _ => True
  | .int _ => True
  | .nil => True
  | .zero => True
  | .field e _ => e.All
  | .deref e => e.All
  | .index e k => e.All ∧ k.All
  | .len e => e.All
  | .isNil e => e.All
  | .notNil e => e.All
  | .not e => e.All
  | .ne a b => a.All ∧ b.All
  | .fractional a => a.All
  | .beyondInt64 a => a.All
  | .toInt64 a => a.All
  | .cmp _ a _ => a.All
  | .format t _ => t.All
  | .zoneName z => z.All
  | .durationText d => d.All
  | .errorText e => e.All
  | .itoa i => i.All
  | .matches _ e => e.All
  | .plus a _ => a.All
  | .join ps => alls ps
  | .sprintf _ as => alls as
  | .errorf _ as => alls as
  | .errorsEmpty => True
  | .errorsFull => True

/-- So do all the names in the expressions. -/
def alls : List Expr → Prop
  | [] => True
  | e :: es => e.All ∧ alls es

end

def Arg.All : Arg → Prop
  | .val e => e.All P
  | .addr e => e.All P

def Rhs.All : Rhs → Prop
  | .val e => e.All P
  | .makeMap => True
  | .makeSlice n => n.All P
  | .new => True
  | .addr e => e.All P
  | .call _ args => ∀ a ∈ args, a.All P

def Two.All : Two → Prop
  | .assert _ e => e.All P
  | .lookup e k => e.All P ∧ k.All P
  | .parseTime _ e => e.All P
  | .loadLocation e => e.All P
  | .durationFrom e => e.All P

def Place.All : Place → Prop
  | .var x => P x
  | .field e _ => e.All P
  | .index e k => e.All P ∧ k.All P

/-- All the names in the statement satisfy the predicate. -/
def Stmt.All : Stmt → Prop
  | .skip => True
  | .seq a b => a.All ∧ b.All
  | .declare x e => P x ∧ e.All P
  | .declare2 x y two => (∀ z, x = some z → P z) ∧ P y ∧ two.All P
  | .assign p e => p.All P ∧ e.All P
  | .assign2 x y two => P x ∧ P y ∧ two.All P
  | .ite c a b => c.All P ∧ a.All ∧ b.All
  | .forCount i n body => P i ∧ P n ∧ body.All
  | .forItems i e body => P i ∧ e.All P ∧ body.All
  | .forEntries k v e body => P k ∧ (∀ z, v = some z → P z) ∧ e.All P ∧ body.All
  | .call _ args => ∀ a ∈ args, a.All P
  | .report a m => a.All P ∧ m.All P
  | .panic _ => True
  | .brk => True
  | .ret => True

end

/-- Different names which satisfy the predicate are renamed differently. -/
def Inj (r : Name → Name) (P : Name → Prop) : Prop := ∀ x y, P x → P y → r x = r y → x = y

/-- The names which are around satisfy the predicate; within a nested block there may be more of them, as long as they are renamed
differently. -/
def Stmt.Safe (r : Name → Name) : Stmt → (Name → Prop) → Prop
  | .seq a b, P => a.Safe r P ∧ b.Safe r P
  | .ite c a b, P => c.All P ∧ (∃ Q, (∀ x, P x → Q x) ∧ Inj r Q ∧ a.Safe r Q) ∧ ∃ Q, (∀ x, P x → Q x) ∧ Inj r Q ∧ b.Safe r Q
  | .forCount i n body, P => P i ∧ P n ∧ body.Safe r P
  | .forItems i e body, P => P i ∧ e.All P ∧ body.Safe r P
  | .forEntries k v e body, P => P k ∧ (∀ z, v = some z → P z) ∧ e.All P ∧ body.Safe r P
  | .skip, P => Stmt.All P .skip
  | .declare x e, P => Stmt.All P (.declare x e)
  | .declare2 x y two, P => Stmt.All P (.declare2 x y two)
  | .assign p e, P => Stmt.All P (.assign p e)
  | .assign2 x y two, P => Stmt.All P (.assign2 x y two)
  | .call f args, P => Stmt.All P (.call f args)
  | .report a m, P => Stmt.All P (.report a m)
  | .panic s, P => Stmt.All P (.panic s)
  | .brk, P => Stmt.All P .brk
  | .ret, P => Stmt.All P .ret

theorem safe_of_all {r : Name → Name} {P : Name → Prop} (hP : Inj r P) : ∀ (s : Stmt), s.All P → s.Safe r P := by
  intro s
  induction s with
  | seq a b iha ihb => exact fun h => ⟨iha h.1, ihb h.2⟩
  | ite c a b iha ihb => exact fun h => ⟨h.1, ⟨P, fun _ h => h, hP, iha h.2.1⟩, P, fun _ h => h, hP, ihb h.2.2⟩
  | forCount i n body ih => exact fun h => ⟨h.1, h.2.1, ih h.2.2⟩
  | forItems i e body ih => exact fun h => ⟨h.1, h.2.1, ih h.2.2⟩
  | forEntries k v e body ih => exact fun h => ⟨h.1, h.2.1, h.2.2.1, ih h.2.2.2⟩
  | _ => exact fun h => h

/-! ## The program runs as before -/

section

variable {r : Name → Name} {P : Name → Prop}

/-- The names of all the variables satisfy the predicate. -/
def Env.In (P : Name → Prop) (ρ : Env) : Prop := ∀ e ∈ ρ, P e.1

theorem lookup_rename (hP : Inj r P) {ρ : Env} (hρ : ρ.In P) {x : Name} (hx : P x) :
    (ρ.rename r).lookup (r x) = ρ.lookup x := by
  induction ρ with
  | nil => rfl
  | cons e ρ ih =>
    have ih := ih fun e he => hρ e (List.mem_cons_of_mem _ he)
    obtain ⟨y, l⟩ := e
    have hy : P y := hρ (y, l) List.mem_cons_self
    show ((r y, l) :: Env.rename r ρ).lookup (r x) = _
    by_cases h : x = y
    · subst h
      simp [List.lookup]
    · have h' : r x ≠ r y := fun e => h (hP x y hx hy e)
      rw [List.lookup, List.lookup, beq_false_of_ne h, beq_false_of_ne h']
      exact ih

variable {L : Lib} {pats : Nat → Str} {σ : St} {ρ : Env} (hP : Inj r P) (hρ : ρ.In P)

include hP hρ

set_option linter.unusedSectionVars false in
mutual

theorem eval_rename : ∀ (e : Expr), e.All P → eval L pats (ρ.rename r) σ (e.rename r) = eval L pats ρ σ e
  | .var x, h => by simp only [Expr.rename, eval, lookup_rename hP hρ (show P x from h)]
  | .str s, _ => rfl
  | .int i, _ => rfl
  | .nil, _ => rfl
  | .zero, _ => rfl
  | .field e f, h => by simp only [Expr.rename, eval, eval_rename e h]
  | .deref e, h => by simp only [Expr.rename, eval, eval_rename e h]
  | .index e k, h => by simp only [Expr.rename, eval, eval_rename e h.1, eval_rename k h.2]
  | .len e, h => by simp only [Expr.rename, eval, eval_rename e h]
  | .isNil e, h => by simp only [Expr.rename, eval, eval_rename e h]
  | .notNil e, h => by simp only [Expr.rename, eval, eval_rename e h]
  | .not e, h => by simp only [Expr.rename, eval, eval_rename e h]
  | .ne a b, h => by simp only [Expr.rename, eval, eval_rename a h.1, eval_rename b h.2]
  | .fractional e, h => by simp only [Expr.rename, eval, eval_rename e h]
  | .beyondInt64 e, h => by simp only [Expr.rename, eval, eval_rename e h]
  | .toInt64 e, h => by simp only [Expr.rename, eval, eval_rename e h]
  | .cmp op e m, h => by simp only [Expr.rename, eval, eval_rename e h]
  | .format e layout, h => by simp only [Expr.rename, eval, eval_rename e h]
  | .zoneName e, h => by simp only [Expr.rename, eval, eval_rename e h]
  | .durationText e, h => by simp only [Expr.rename, eval, eval_rename e h]
  | .errorText e, h => by simp only [Expr.rename, eval, eval_rename e h]
  | .itoa e, h => by simp only [Expr.rename, eval, eval_rename e h]
  | .matches uid e, h => by simp only [Expr.rename, eval, eval_rename e h]
  | .plus e t, h => by simp only [Expr.rename, eval, eval_rename e h]
  | .join ps, h => by simp only [Expr.rename, eval, evalAll_rename ps h]
  | .sprintf f as, h => by simp only [Expr.rename, eval, evalAll_rename as h]
  | .errorf f as, h => by simp only [Expr.rename, eval, evalAll_rename as h]
  | .errorsEmpty, _ => rfl
  | .errorsFull, _ => rfl

theorem evalAll_rename : ∀ (es : List Expr), alls P es → evalAll L pats (ρ.rename r) σ (renames r es) = evalAll L pats ρ σ es
  | [], _ => rfl
  | e :: es, h => by simp only [renames, evalAll, eval_rename e h.1, evalAll_rename es h.2]

end

theorem addrOf_rename (e : Expr) (h : e.All P) : addrOf L pats (ρ.rename r) σ (e.rename r) = addrOf L pats ρ σ e := by
  cases e with
  | var x => simp only [Expr.rename, addrOf, lookup_rename hP hρ (show P x from h)]
  | field e f => simp only [Expr.rename, addrOf, eval_rename hP hρ e h]
  | deref e => simp only [Expr.rename, addrOf, eval_rename hP hρ e h]
  | index e k => simp only [Expr.rename, addrOf, eval_rename hP hρ e h.1, eval_rename hP hρ k h.2]
  | _ => rfl

theorem argument_rename (a : Arg) (h : a.All P) : argument L pats (ρ.rename r) σ (a.rename r) = argument L pats ρ σ a := by
  cases a with
  | val e => exact eval_rename hP hρ e h
  | addr e => simp only [Arg.rename, argument, addrOf_rename hP hρ e h]

theorem arguments_rename : ∀ (as : List Arg), (∀ a ∈ as, a.All P) →
    (as.map (Arg.rename r)).mapM (argument L pats (ρ.rename r) σ) = as.mapM (argument L pats ρ σ)
  | [], _ => rfl
  | a :: as, h => by
    simp only [List.map_cons, List.mapM_cons, argument_rename hP hρ a (h a List.mem_cons_self),
      arguments_rename as fun b hb => h b (List.mem_cons_of_mem _ hb)]

theorem evalTwo_rename (t : Two) (h : t.All P) : evalTwo L pats (ρ.rename r) σ (t.rename r) = evalTwo L pats ρ σ t := by
  cases t with
  | assert k e => simp only [Two.rename, evalTwo, eval_rename hP hρ e h]
  | lookup e k => simp only [Two.rename, evalTwo, eval_rename hP hρ e h.1, eval_rename hP hρ k h.2]
  | parseTime l e => simp only [Two.rename, evalTwo, eval_rename hP hρ e h]
  | loadLocation e => simp only [Two.rename, evalTwo, eval_rename hP hρ e h]
  | durationFrom e => simp only [Two.rename, evalTwo, eval_rename hP hρ e h]

theorem assignTo_rename (w : Val) (p : Place) (h : p.All P) :
    assignTo L pats (ρ.rename r) σ w (p.rename r) = assignTo L pats ρ σ w p := by
  cases p with
  | var x => simp only [Place.rename, assignTo, lookup_rename hP hρ (show P x from h)]
  | field e f => simp only [Place.rename, assignTo, eval_rename hP hρ e h]
  | index e k => simp only [Place.rename, assignTo, eval_rename hP hρ e h.1, eval_rename hP hρ k h.2]

theorem evalRhs_rename (call : Call) (e : Rhs) (h : e.All P) :
    evalRhs L pats call (ρ.rename r) σ (e.rename r) = evalRhs L pats call ρ σ e := by
  cases e with
  | val e => simp only [Rhs.rename, evalRhs, eval_rename hP hρ e h]
  | makeSlice e => simp only [Rhs.rename, evalRhs, eval_rename hP hρ e h]
  | addr e => simp only [Rhs.rename, evalRhs, addrOf_rename hP hρ e h]
  | call f as => simp only [Rhs.rename, evalRhs, arguments_rename hP hρ as h]
  | _ => rfl

end

/-- The result with other names -/
def renameResult (r : Name → Name) : Result → Result
  | .ok (f, ρ, σ) => .ok (f, ρ.rename r, σ)
  | .error e => .error e

/-- The variables afterwards satisfy the predicate. -/
def ResultIn (P : Name → Prop) : Result → Prop
  | .ok (_, ρ, _) => ρ.In P
  | .error _ => True

theorem bodyOf_rename (r : Name → Name) (R : Result) : bodyOf (renameResult r R) = bodyOf R := by
  cases R <;> rfl

theorem close_rename (r : Name → Name) (ρ : Env) (R : Result) : close (ρ.rename r) (renameResult r R) = renameResult r (close ρ R) := by
  cases R <;> rfl

theorem close_in {P : Name → Prop} {ρ : Env} (h : ρ.In P) (R : Result) : ResultIn P (close ρ R) := by
  cases R with
  | ok q => exact h
  | error e => trivial

theorem in_cons {P : Name → Prop} {ρ : Env} (h : ρ.In P) {x : Name} (hx : P x) (l : Nat) : Env.In P ((x, l) :: ρ) := by
  intro e he
  rcases List.mem_cons.1 he with rfl | he
  · exact hx
  · exact h e he

theorem exec_rename {r : Name → Name} {L : Lib} {pats : Nat → Str} {O : Order} {call : Call} : ∀ (s : Stmt) (P : Name → Prop),
    Inj r P → s.Safe r P → ∀ (ρ : Env) (σ : St), ρ.In P →
    exec L pats O call (s.rename r) (ρ.rename r) σ = renameResult r (exec L pats O call s ρ σ) ∧
      ResultIn P (exec L pats O call s ρ σ) := by
  intro s
  induction s with
  | skip => exact fun P hP h ρ σ hρ => ⟨rfl, hρ⟩
  | brk => exact fun P hP h ρ σ hρ => ⟨rfl, hρ⟩
  | ret => exact fun P hP h ρ σ hρ => ⟨rfl, hρ⟩
  | panic msg => exact fun P hP h ρ σ hρ => ⟨rfl, trivial⟩
  | seq a b iha ihb =>
    intro P hP h ρ σ hρ
    obtain ⟨h1, h2⟩ := iha P hP h.1 ρ σ hρ
    simp only [Stmt.rename, exec, h1]
    generalize exec L pats O call a ρ σ = R at h2 ⊢
    cases R with
    | error e => exact ⟨rfl, trivial⟩
    | ok q =>
      obtain ⟨f, ρ', σ'⟩ := q
      cases f with
      | next => exact ihb P hP h.2 ρ' σ' h2
      | brk => exact ⟨rfl, h2⟩
      | ret => exact ⟨rfl, h2⟩
  | declare x e =>
    intro P hP h ρ σ hρ
    simp only [Stmt.rename, exec, evalRhs_rename hP hρ call e h.2]
    generalize evalRhs L pats call ρ σ e = R
    cases R with
    | error e => exact ⟨rfl, trivial⟩
    | ok q => exact ⟨rfl, in_cons hρ h.1 _⟩
  | declare2 x y two =>
    intro P hP h ρ σ hρ
    simp only [Stmt.rename, exec, evalTwo_rename hP hρ two h.2.2]
    generalize evalTwo L pats ρ σ two = R
    cases R with
    | error e => exact ⟨rfl, trivial⟩
    | ok q =>
      cases x with
      | none => exact ⟨rfl, in_cons hρ h.2.1 _⟩
      | some x => exact ⟨rfl, in_cons (in_cons hρ (h.1 x rfl) _) h.2.1 _⟩
  | assign p e =>
    intro P hP h ρ σ hρ
    simp only [Stmt.rename, exec, evalRhs_rename hP hρ call e h.2]
    generalize evalRhs L pats call ρ σ e = R
    cases R with
    | error e => exact ⟨rfl, trivial⟩
    | ok q =>
      obtain ⟨v, σ'⟩ := q
      show (do let σ ← assignTo L pats (ρ.rename r) σ' v (p.rename r); return (Flow.next, ρ.rename r, σ) : Result) = _ ∧ _
      rw [assignTo_rename hP hρ v p h.1]
      show _ = renameResult r (do let σ ← assignTo L pats ρ σ' v p; return (Flow.next, ρ, σ)) ∧
        ResultIn P (do let σ ← assignTo L pats ρ σ' v p; return (Flow.next, ρ, σ))
      generalize assignTo L pats ρ σ' v p = R
      cases R with
      | error e => exact ⟨rfl, trivial⟩
      | ok q => exact ⟨rfl, hρ⟩
  | assign2 x y two =>
    intro P hP h ρ σ hρ
    simp only [Stmt.rename, exec, evalTwo_rename hP hρ two h.2.2]
    generalize evalTwo L pats ρ σ two = R
    cases R with
    | error e => exact ⟨rfl, trivial⟩
    | ok q =>
      obtain ⟨v, w⟩ := q
      have e1 : assignTo L pats (ρ.rename r) σ v (.var (r x)) = assignTo L pats ρ σ v (.var x) := assignTo_rename hP hρ v (.var x) h.1
      simp only [Bind.bind, Except.bind, e1]
      generalize assignTo L pats ρ σ v (.var x) = R
      cases R with
      | error e => exact ⟨rfl, trivial⟩
      | ok σ' =>
        have e2 : assignTo L pats (ρ.rename r) σ' w (.var (r y)) = assignTo L pats ρ σ' w (.var y) :=
          assignTo_rename hP hρ w (.var y) h.2.1
        simp only [e2]
        generalize assignTo L pats ρ σ' w (.var y) = R
        cases R with
        | error e => exact ⟨rfl, trivial⟩
        | ok q => exact ⟨rfl, hρ⟩
  | ite c a b iha ihb =>
    intro P hP h ρ σ hρ
    obtain ⟨hc, ⟨Q, q1, q2, q3⟩, Q', q1', q2', q3'⟩ := h
    have ha := (iha Q q2 q3 ρ σ fun e he => q1 _ (hρ e he)).1
    have hb := (ihb Q' q2' q3' ρ σ fun e he => q1' _ (hρ e he)).1
    simp only [Stmt.rename, exec, eval_rename hP hρ c hc, ha, hb, close_rename]
    generalize eval L pats ρ σ c = R
    cases R with
    | error e => exact ⟨rfl, trivial⟩
    | ok w =>
      simp only [Bind.bind, Except.bind]
      generalize boolOf w = R
      cases R with
      | error e => exact ⟨rfl, trivial⟩
      | ok t =>
        cases t with
        | true => exact ⟨rfl, close_in hρ _⟩
        | false => exact ⟨rfl, close_in hρ _⟩
  | forCount i n body ih =>
    intro P hP h ρ σ hρ
    have hb : ∀ τ, bodyOf (exec L pats O call (body.rename r) ((r i, σ.heap.length) :: ρ.rename r) τ) =
        bodyOf (exec L pats O call body ((i, σ.heap.length) :: ρ) τ) := by
      intro τ
      exact (congrArg bodyOf (ih P hP h.2.2 ((i, σ.heap.length) :: ρ) τ (in_cons hρ h.1 _)).1).trans (bodyOf_rename r _)
    have hn : eval L pats (ρ.rename r) σ (.var (r n)) = eval L pats ρ σ (.var n) := eval_rename hP hρ (.var n) h.2.1
    simp only [Stmt.rename, exec, hn, hb]
    generalize eval L pats ρ σ (.var n) = R
    cases R with
    | error e => exact ⟨rfl, trivial⟩
    | ok w =>
      cases w with
      | int m =>
        simp only [Bind.bind, Except.bind]
        generalize loop _ _ _ _ = R
        cases R with
        | error e => exact ⟨rfl, trivial⟩
        | ok q => exact ⟨rfl, hρ⟩
      | _ => exact ⟨rfl, trivial⟩
  | forItems i e body ih =>
    intro P hP h ρ σ hρ
    have hb : ∀ τ, bodyOf (exec L pats O call (body.rename r) ((r i, σ.heap.length) :: ρ.rename r) τ) =
        bodyOf (exec L pats O call body ((i, σ.heap.length) :: ρ) τ) := by
      intro τ
      exact (congrArg bodyOf (ih P hP h.2.2 ((i, σ.heap.length) :: ρ) τ (in_cons hρ h.1 _)).1).trans (bodyOf_rename r _)
    simp only [Stmt.rename, exec, eval_rename hP hρ e h.2.1, hb]
    generalize eval L pats ρ σ e = R
    cases R with
    | error e => exact ⟨rfl, trivial⟩
    | ok w =>
      simp only [Bind.bind, Except.bind]
      generalize lenOf σ w = R
      cases R with
      | error e => exact ⟨rfl, trivial⟩
      | ok m =>
        simp only
        generalize loop _ _ _ _ = R
        cases R with
        | error e => exact ⟨rfl, trivial⟩
        | ok q => exact ⟨rfl, hρ⟩
  | forEntries k v e body ih =>
    intro P hP h ρ σ hρ
    cases v with
    | none =>
      have hb : ∀ τ, bodyOf (exec L pats O call (body.rename r) ((r k, σ.heap.length) :: ρ.rename r) τ) =
          bodyOf (exec L pats O call body ((k, σ.heap.length) :: ρ) τ) := by
        intro τ
        exact (congrArg bodyOf (ih P hP h.2.2.2 ((k, σ.heap.length) :: ρ) τ (in_cons hρ h.1 _)).1).trans (bodyOf_rename r _)
      simp only [Stmt.rename, Option.map_none, exec, eval_rename hP hρ e h.2.2.1, hb]
      generalize eval L pats ρ σ e = R
      cases R with
      | error e => exact ⟨rfl, trivial⟩
      | ok w =>
        simp only [Bind.bind, Except.bind]
        generalize entriesOf σ w = R
        cases R with
        | error e => exact ⟨rfl, trivial⟩
        | ok m =>
          simp only
          generalize loop _ _ _ _ = R
          cases R with
          | error e => exact ⟨rfl, trivial⟩
          | ok q => exact ⟨rfl, hρ⟩
    | some x =>
      have hb : ∀ τ, bodyOf (exec L pats O call (body.rename r) ((r x, σ.heap.length + 1) :: (r k, σ.heap.length) :: ρ.rename r) τ) =
          bodyOf (exec L pats O call body ((x, σ.heap.length + 1) :: (k, σ.heap.length) :: ρ) τ) := by
        intro τ
        exact (congrArg bodyOf (ih P hP h.2.2.2 ((x, σ.heap.length + 1) :: (k, σ.heap.length) :: ρ) τ
          (in_cons (in_cons hρ h.1 _) (h.2.1 x rfl) _)).1).trans (bodyOf_rename r _)
      simp only [Stmt.rename, Option.map_some, exec, eval_rename hP hρ e h.2.2.1, hb]
      generalize eval L pats ρ σ e = R
      cases R with
      | error e => exact ⟨rfl, trivial⟩
      | ok w =>
        simp only [Bind.bind, Except.bind]
        generalize entriesOf σ w = R
        cases R with
        | error e => exact ⟨rfl, trivial⟩
        | ok m =>
          simp only
          generalize loop _ _ _ _ = R
          cases R with
          | error e => exact ⟨rfl, trivial⟩
          | ok q => exact ⟨rfl, hρ⟩
  | call f args =>
    intro P hP h ρ σ hρ
    simp only [Stmt.rename, exec, arguments_rename hP hρ args h]
    generalize args.mapM (argument L pats ρ σ) = R
    cases R with
    | error e => exact ⟨rfl, trivial⟩
    | ok vs =>
      simp only [Bind.bind, Except.bind]
      generalize call f vs σ = R
      cases R with
      | error e => exact ⟨rfl, trivial⟩
      | ok q => exact ⟨rfl, hρ⟩
  | report a m =>
    intro P hP h ρ σ hρ
    simp only [Stmt.rename, exec, eval_rename hP hρ a h.1, eval_rename hP hρ m h.2]
    generalize eval L pats ρ σ a = R
    cases R with
    | error e => exact ⟨rfl, trivial⟩
    | ok w =>
      simp only [Bind.bind, Except.bind]
      generalize textOf w = R
      cases R with
      | error e => exact ⟨rfl, trivial⟩
      | ok s =>
        simp only
        generalize eval L pats ρ σ m = R
        cases R with
        | error e => exact ⟨rfl, trivial⟩
        | ok w =>
          simp only
          generalize textOf w = R
          cases R with
          | error e => exact ⟨rfl, trivial⟩
          | ok q => exact ⟨rfl, hρ⟩

/-- The variables of a call -/
theorem bind_rename (r : Name → Name) : ∀ (xs : List Name) (vs : List Val) (ρ : Env) (σ : St),
    GoLang.bind (xs.map r) vs (ρ.rename r) σ = (GoLang.bind xs vs ρ σ).map fun q => (q.1.rename r, q.2)
  | [], [], _, _ => rfl
  | [], _ :: _, _, _ => rfl
  | _ :: _, [], _, _ => rfl
  | x :: xs, v :: vs, ρ, σ => bind_rename r xs vs ((x, σ.heap.length) :: ρ) (σ.alloc v).2

theorem bind_in {P : Name → Prop} : ∀ {xs : List Name} {vs : List Val} {ρ ρ' : Env} {σ σ' : St}, (∀ x ∈ xs, P x) → ρ.In P →
    GoLang.bind xs vs ρ σ = .ok (ρ', σ') → ρ'.In P
  | [], [], _, _, _, _, _, hρ, h => by cases h; exact hρ
  | [], _ :: _, _, _, _, _, _, _, h => by cases h
  | _ :: _, [], _, _, _, _, _, _, h => by cases h
  | x :: xs, v :: vs, ρ, ρ', σ, σ', hx, hρ, h =>
    bind_in (fun y hy => hx y (List.mem_cons_of_mem _ hy)) (in_cons hρ (hx x List.mem_cons_self) _) h

/-- The names in the function are told apart after the renaming. -/
def Func.Safe (r : Name → Name) (F : Func) : Prop :=
  ∃ P, Inj r P ∧ (∀ x ∈ F.params ++ F.results, P x) ∧ F.body.Safe r P ∧ F.deferred.Safe r P

/-- A program whose functions tell the variables apart after the renaming runs as before. -/
theorem run_rename {r : Name → Name} {P : Program} (h : ∀ F ∈ P.funcs, F.Safe r) (O : Order) (L : Lib) :
    ∀ n, run O L (P.rename r) n = run O L P n := by
  intro n
  induction n with
  | zero => rfl
  | succ n ih =>
    funext f args σ
    have hfind : (P.rename r).funcs.find? (fun F => F.name == f) = (P.funcs.find? (fun F => F.name == f)).map (Func.rename r) := by
      simp only [Program.rename, List.find?_map]
      rfl
    rw [run, run, hfind]
    cases hF : P.funcs.find? (fun F => F.name == f) with
    | none => rfl
    | some F =>
      obtain ⟨Q, hQ, hps, hb, hd⟩ := h F (List.mem_of_find?_eq_some hF)
      have h1 := bind_rename r F.params args [] σ
      simp only [Option.map_some]
      show (do
        let (ρ, σ) ← GoLang.bind (F.params.map r) args (Env.rename r []) σ
        let (ρ, σ) ← GoLang.bind (F.results.map r) ((F.results.map r).map fun _ => Val.zero) ρ σ
        let (_, _, σ) ← exec L P.patterns O (run O L (P.rename r) n) (F.body.rename r) ρ σ
        let (_, _, σ) ← exec L P.patterns O (run O L (P.rename r) n) (F.deferred.rename r) ρ σ
        let rs ← (F.results.map r).mapM fun x => eval L P.patterns ρ σ (.var x)
        return (rs, σ) : Except Exc (List Val × St)) = _
      rw [h1, ih]
      cases e1 : GoLang.bind F.params args [] σ with
      | error e => rfl
      | ok q =>
        obtain ⟨ρ1, σ1⟩ := q
        have in1 : ρ1.In Q := bind_in (fun x hx => hps x (List.mem_append_left _ hx)) (fun e he => by cases he) e1
        have h2 := bind_rename r F.results (F.results.map fun _ => Val.zero) ρ1 σ1
        have ez : ((F.results.map r).map fun _ => Val.zero) = F.results.map fun _ => Val.zero := by simp
        simp only [Except.map, Bind.bind, Except.bind, ez, h2]
        cases e2 : GoLang.bind F.results (F.results.map fun _ => Val.zero) ρ1 σ1 with
        | error e => rfl
        | ok q =>
          obtain ⟨ρ2, σ2⟩ := q
          have in2 : ρ2.In Q := bind_in (fun x hx => hps x (List.mem_append_right _ hx)) in1 e2
          have h3 := (exec_rename (L := L) (pats := P.patterns) (O := O) (call := run O L P n) F.body Q hQ hb ρ2 σ2 in2).1
          simp only [h3]
          cases exec L P.patterns O (run O L P n) F.body ρ2 σ2 with
          | error e => rfl
          | ok q =>
            obtain ⟨f3, ρ3, σ3⟩ := q
            have h4 := (exec_rename (L := L) (pats := P.patterns) (O := O) (call := run O L P n) F.deferred Q hQ hd ρ2 σ3 in2).1
            simp only [renameResult, h4]
            cases exec L P.patterns O (run O L P n) F.deferred ρ2 σ3 with
            | error e => rfl
            | ok q =>
              obtain ⟨f4, ρ4, σ4⟩ := q
              have h5 : ∀ xs : List Name, (∀ x ∈ xs, Q x) →
                  (xs.map r).mapM (fun x => eval L P.patterns (ρ2.rename r) σ4 (.var x)) =
                    xs.mapM fun x => eval L P.patterns ρ2 σ4 (.var x) := by
                intro xs
                induction xs with
                | nil => exact fun _ => rfl
                | cons x xs ih =>
                  intro hx
                  have e : eval L P.patterns (ρ2.rename r) σ4 (.var (r x)) = eval L P.patterns ρ2 σ4 (.var x) :=
                    eval_rename hQ in2 (.var x) (hx x List.mem_cons_self)
                  simp only [List.map_cons, List.mapM_cons, e, ih fun y hy => hx y (List.mem_cons_of_mem _ hy)]
              simp only [h5 F.results fun x hx => hps x (List.mem_append_right _ hx)]

end Mapry.GoLang
