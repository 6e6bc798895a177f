import Verif.PyHide
import Verif.PyExecGraph
import Verif.PyWriteCall

/-!
# No local variable of the generated Python code hides a function which is called
-/

namespace Mapry.PyExec

open Mapry.PyLang Mapry.PyGen Mapry.Text
open Mapry.TypeGraph hiding Obj Occurs
open Mapry.PyRuntime (Json Lib Val)
open PyCode (ok_bind)

/-! ## Code which calls these functions and binds these variables -/

/-- The code calls only functions of the one kind and binds only variables of the other. -/
structure Fine (C B : Str → Prop) (s : Stmt) : Prop where
  calls : ∀ n ∈ s.calls, C n
  binds : ∀ x ∈ s.binds, B x

/-- The expression calls only functions of this kind. -/
def Quiet (C : Str → Prop) (e : Expr) : Prop := ∀ n ∈ e.calls, C n

section

variable {C B : Str → Prop}

theorem quiet_name (x : Str) : Quiet C (v x) := fun _ h => by simp [Expr.calls] at h
theorem quiet_str (x : Str) : Quiet C (.str x) := fun _ h => by simp [Expr.calls] at h

theorem calls_args : ∀ es : List Expr, (args es).calls = es.flatMap Expr.calls
  | [] => by rw [args, Args.calls]; rfl
  | e :: es => by rw [args, Args.calls, calls_args es]; rfl

theorem calls_kwargs : ∀ es : List (Str × Expr), (kwargs es).calls = es.flatMap fun e => e.2.calls
  | [] => by rw [kwargs, Args.calls]; rfl
  | (_, e) :: es => by rw [kwargs, Args.calls, calls_kwargs es]; rfl

theorem quiet_path {parts : List Expr} (h : ∀ e ∈ parts, Quiet C e) : Quiet C (path parts) := by
  intro n hn
  rw [path, Expr.calls, calls_args] at hn
  obtain ⟨e, he, hn⟩ := List.mem_flatMap.1 hn
  exact h e he n hn

theorem quiet_format {x : Str} {e : Expr} (h : Quiet C e) : Quiet C (PyGen.format x e) := by
  intro n hn
  rw [PyGen.format, Expr.calls, calls_args] at hn
  simp only [List.flatMap_cons, List.flatMap_nil, List.append_nil] at hn
  exact h n hn

theorem fine_pass : Fine C B .pass := ⟨by simp [Stmt.calls], by simp [Stmt.binds]⟩
theorem fine_brk : Fine C B .brk := ⟨by simp [Stmt.calls], by simp [Stmt.binds]⟩
theorem fine_cont : Fine C B .cont := ⟨by simp [Stmt.calls], by simp [Stmt.binds]⟩

theorem fine_seq {a b : Stmt} (h1 : Fine C B a) (h2 : Fine C B b) : Fine C B (.seq a b) := by
  constructor
  · intro n hn
    rw [Stmt.calls] at hn
    exact (List.mem_append.1 hn).elim (h1.calls n) (h2.calls n)
  · intro n hn
    rw [Stmt.binds] at hn
    exact (List.mem_append.1 hn).elim (h1.binds n) (h2.binds n)

theorem fine_ite {c : Expr} {a b : Stmt} (h : Quiet C c) (h1 : Fine C B a) (h2 : Fine C B b) : Fine C B (.ite c a b) := by
  constructor
  · intro n hn
    rw [Stmt.calls] at hn
    rcases List.mem_append.1 hn with hn | hn
    · exact h n hn
    · exact (List.mem_append.1 hn).elim (h1.calls n) (h2.calls n)
  · intro n hn
    rw [Stmt.binds] at hn
    exact (List.mem_append.1 hn).elim (h1.binds n) (h2.binds n)

theorem fine_when {c : Expr} {a : Stmt} (h : Quiet C c) (h1 : Fine C B a) : Fine C B (when c a) := fine_ite h h1 fine_pass

theorem fine_block {ss : List Stmt} (h : ∀ s ∈ ss, Fine C B s) : Fine C B (block ss) := by
  induction ss with
  | nil => exact fine_pass
  | cons s ss ih => exact fine_seq (h s (by simp)) (ih fun t ht => h t (by simp [ht]))

theorem fine_ret {e : Expr} (h : Quiet C e) : Fine C B (.ret e) := ⟨h, by simp [Stmt.binds]⟩
theorem fine_expr {e : Expr} (h : Quiet C e) : Fine C B (.expr e) := ⟨h, by simp [Stmt.binds]⟩
theorem fine_raise {e : Expr} (h : Quiet C e) : Fine C B (.raiseValue e) := ⟨h, by simp [Stmt.binds]⟩

/-- What is assigned to -/
structure FineTarget (C B : Str → Prop) (t : Target) : Prop where
  calls : ∀ n ∈ t.calls, C n
  binds : ∀ x ∈ t.binds, B x

theorem fine_var {x : Str} (h : B x) : FineTarget C B (.var x) := ⟨by simp [Target.calls], by simpa [Target.binds] using h⟩
theorem fine_attr {e : Expr} {a : Str} (h : Quiet C e) : FineTarget C B (.attr e a) := ⟨h, by simp [Target.binds]⟩

theorem fine_item {e k : Expr} (h : Quiet C e) (h' : Quiet C k) : FineTarget C B (.item e k) :=
  ⟨fun n hn => by rw [Target.calls] at hn; exact (List.mem_append.1 hn).elim (h n) (h' n), by simp [Target.binds]⟩

theorem fine_assign {t : Target} {e : Expr} (h : FineTarget C B t) (h' : Quiet C e) : Fine C B (.assign t e) := by
  constructor
  · intro n hn
    rw [Stmt.calls] at hn
    exact (List.mem_append.1 hn).elim (h.calls n) (h' n)
  · intro n hn
    rw [Stmt.binds] at hn
    exact h.binds n hn

theorem fine_forIn {x : Str} {e : Expr} {b : Stmt} (hx : B x) (he : Quiet C e) (h : Fine C B b) : Fine C B (.forIn x e b) := by
  constructor
  · intro n hn
    rw [Stmt.calls] at hn
    exact (List.mem_append.1 hn).elim (he n) (h.calls n)
  · intro n hn
    simp only [Stmt.binds, List.mem_cons] at hn
    rcases hn with rfl | hn
    · exact hx
    · exact h.binds n hn

theorem fine_forEnum {i x : Str} {e : Expr} {b : Stmt} (hi : B i) (hx : B x) (he : Quiet C e) (h : Fine C B b) :
    Fine C B (.forEnum i x e b) := by
  constructor
  · intro n hn
    rw [Stmt.calls] at hn
    exact (List.mem_append.1 hn).elim (he n) (h.calls n)
  · intro n hn
    simp only [Stmt.binds, List.mem_cons] at hn
    rcases hn with rfl | rfl | hn
    · exact hi
    · exact hx
    · exact h.binds n hn

theorem fine_forItems {k x : Str} {e : Expr} {b : Stmt} (hk : B k) (hx : B x) (he : Quiet C e) (h : Fine C B b) :
    Fine C B (.forItems k x e b) := by
  constructor
  · intro n hn
    rw [Stmt.calls] at hn
    exact (List.mem_append.1 hn).elim (he n) (h.calls n)
  · intro n hn
    simp only [Stmt.binds, List.mem_cons] at hn
    rcases hn with rfl | rfl | hn
    · exact hk
    · exact hx
    · exact h.binds n hn

theorem fine_attempt {b h : Stmt} {cs : List Catch} {x : Option Str} (hx : ∀ y ∈ x, B y) (hb : Fine C B b) (hh : Fine C B h) :
    Fine C B (.attempt b cs x h) := by
  constructor
  · intro n hn
    rw [Stmt.calls] at hn
    exact (List.mem_append.1 hn).elim (hb.calls n) (hh.calls n)
  · intro n hn
    simp only [Stmt.binds, List.mem_append, Option.mem_toList] at hn
    rcases hn with (hn | hn) | hn
    · exact hb.binds n hn
    · exact hx n hn
    · exact hh.binds n hn

theorem fine_report {r m : Expr} (h : Quiet C r) (h' : Quiet C m) : Fine C B (report r m) :=
  fine_expr fun n hn => by
    simp only [Expr.calls, List.nil_append, List.mem_append] at hn
    exact hn.elim (h n) (h' n)

theorem fine_expect {value : Str} {c : Cls} {what : Str} {parts : List Expr} {body : Stmt} (hp : ∀ e ∈ parts, Quiet C e)
    (h : Fine C B body) : Fine C B (expect value c what parts body) :=
  fine_ite (by simp [Quiet, Expr.calls])
    (fine_report (quiet_path hp) (quiet_format (by simp [Quiet, Expr.calls]))) h

/-! ## The parser -/

theorem fine_bound {parts : List Expr} {value : Str} {op : Cmp} {sign : Str} {m : Int} {body : Stmt}
    (hp : ∀ e ∈ parts, Quiet C e) (h : Fine C B body) : Fine C B (bound parts value op sign m body) :=
  fine_ite (by simp [Quiet, Expr.calls])
    (fine_report (quiet_path hp) (quiet_format (quiet_name _))) h

theorem fine_minimum {parts : List Expr} {value : Str} {bd : Bounds} {m : Int} {body : Stmt}
    (hp : ∀ e ∈ parts, Quiet C e) (h : Fine C B body) : Fine C B (minimum parts value bd m body) := by
  rw [minimum]
  split <;> exact fine_bound hp h

theorem fine_maximum {parts : List Expr} {value : Str} {bd : Bounds} {m : Int} {body : Stmt}
    (hp : ∀ e ∈ parts, Quiet C e) (h : Fine C B body) : Fine C B (maximum parts value bd m body) := by
  rw [maximum]
  split <;> exact fine_bound hp h

theorem fine_bounds {parts : List Expr} {value : Str} {bd : Bounds} {body : Stmt}
    (hp : ∀ e ∈ parts, Quiet C e) (h : Fine C B body) : Fine C B (checkBounds parts value bd body) := by
  rw [checkBounds]
  split
  · exact h
  · exact fine_minimum hp h
  · exact fine_maximum hp h
  · exact fine_seq (fine_minimum hp fine_pass) (fine_maximum hp h)

theorem fine_pattern {parts : List Expr} {value : Str} {pt : Option Str} {body : Stmt}
    (hp : ∀ e ∈ parts, Quiet C e) (h : Fine C B body) : Fine C B (checkPattern parts value pt body) := by
  cases pt with
  | none => exact h
  | some _ =>
    exact fine_ite (by simp [Quiet, Expr.calls])
      (fine_report (quiet_path hp) (quiet_format (quiet_name _))) h

theorem fine_datetime {value : Str} {tgt : Target} {parts : List Expr} {f : Str} {get : Expr → Expr}
    (hg : ∀ e, (get e).calls = e.calls) (hp : ∀ e ∈ parts, Quiet C e) (h : FineTarget C B tgt) :
    Fine C B (parseDateTime value tgt parts f get) :=
  fine_expect hp (fine_attempt (fun _ h => by cases h) (fine_assign h (by simp [Quiet, hg, Expr.calls]))
    (fine_report (quiet_path hp) (quiet_format (quiet_name _))))

theorem fine_minSize {parts : List Expr} {value : Str} {n : Option Int} {body : Stmt}
    (hp : ∀ e ∈ parts, Quiet C e) (h : Fine C B body) : Fine C B (minSize parts value n body) := by
  cases n with
  | none => exact h
  | some _ => exact fine_ite (by simp [Quiet, Expr.calls]) (fine_report (quiet_path hp) (quiet_format (by simp [Quiet, Expr.calls]))) h

theorem fine_maxSize {parts : List Expr} {value : Str} {n : Option Int} {body : Stmt}
    (hp : ∀ e ∈ parts, Quiet C e) (h : Fine C B body) : Fine C B (maxSize parts value n body) := by
  cases n with
  | none => exact h
  | some _ => exact fine_ite (by simp [Quiet, Expr.calls]) (fine_report (quiet_path hp) (quiet_format (by simp [Quiet, Expr.calls]))) h

theorem fine_ifFull {s : Stmt} (h : Fine C B s) : Fine C B (ifFull s) := fine_when (by simp [Quiet, Expr.calls]) h

theorem quiet_append {parts : List Expr} {e : Expr} (hp : ∀ e ∈ parts, Quiet C e) (he : Quiet C e) :
    ∀ x ∈ parts ++ [e], Quiet C x := by
  intro x hx
  rcases List.mem_append.1 hx with hx | hx
  · exact hp x hx
  · simp only [List.mem_singleton] at hx
    exact hx ▸ he

theorem value_fine {ctx : Ctx} (ht : ∀ b n, B (tmp b n)) (he : B c!"err") (hr : ∀ c e, ctx.registry c = .ok e → Quiet C e)
    (hc : ∀ f, C (c!"_" ++ f ++ c!"_from")) : ∀ (ty : Ty) (value : Str) (tgt : Target) (parts : List Expr) (n m : Nat) (code : Stmt),
    PyGen.parseValue ctx ty value tgt parts n = .ok (code, m) → FineTarget C B tgt → (∀ e ∈ parts, Quiet C e) → Fine C B code
  | .boolean, value, tgt, parts, n, m, code, h, hT, hp => by
    cases h
    exact fine_expect hp (fine_assign hT (quiet_name _))
  | .integer bd, value, tgt, parts, n, m, code, h, hT, hp => by
    cases h
    exact fine_expect hp (fine_bounds hp (fine_assign hT (quiet_name _)))
  | .float bd, value, tgt, parts, n, m, code, h, hT, hp => by
    cases h
    exact fine_expect hp (fine_bounds hp (fine_assign hT (by simp [Quiet, Expr.calls])))
  | .string pt, value, tgt, parts, n, m, code, h, hT, hp => by
    cases h
    exact fine_expect hp (fine_pattern hp (fine_assign hT (quiet_name _)))
  | .path pt, value, tgt, parts, n, m, code, h, hT, hp => by
    obtain ⟨b, _, h⟩ := ok_bind h
    cases h
    exact fine_expect hp (fine_pattern hp (fine_assign hT (by cases b <;> simp [Quiet, Expr.calls])))
  | .date f, value, tgt, parts, n, m, code, h, hT, hp => by
    cases h
    exact fine_datetime (fun _ => by rw [Expr.calls]) hp hT
  | .time f, value, tgt, parts, n, m, code, h, hT, hp => by
    cases h
    exact fine_datetime (fun _ => by rw [Expr.calls]) hp hT
  | .datetime f, value, tgt, parts, n, m, code, h, hT, hp => by
    cases h
    exact fine_datetime (fun _ => rfl) hp hT
  | .timeZone, value, tgt, parts, n, m, code, h, hT, hp => by
    obtain ⟨b, _, h⟩ := ok_bind h
    cases h
    refine fine_expect hp ?_
    cases b
    · exact fine_assign hT (quiet_name _)
    · exact fine_attempt (fun _ h => by cases h) (fine_assign hT (by simp [Quiet, Expr.calls]))
        (fine_report (quiet_path hp) (quiet_format (quiet_name _)))
  | .duration, value, tgt, parts, n, m, code, h, hT, hp => by
    cases h
    exact fine_expect hp (fine_attempt (fun y h => by cases h; exact he) (fine_assign hT (by simp [Quiet, Expr.calls]))
      (fine_report (quiet_path hp) (by simp [Quiet, Expr.calls])))
  | .array x lo hi, value, tgt, parts, n, m, code, h, hT, hp => by
    obtain ⟨⟨item, m'⟩, h1, h⟩ := ok_bind h
    obtain ⟨_, _, h⟩ := ok_bind h
    cases h
    have hi := value_fine ht he hr hc x _ _ _ _ _ _ h1 (fine_var (ht _ _)) (quiet_append hp (by simp [Quiet, Expr.calls]))
    refine fine_expect hp (fine_minSize hp (fine_maxSize hp (fine_block ?_)))
    simp only [List.mem_cons, List.not_mem_nil, or_false, forall_eq_or_imp, forall_eq]
    refine ⟨fine_assign (fine_var (ht _ _)) (by simp [Quiet, Expr.calls]), fine_forEnum (ht _ _) (ht _ _) (quiet_name _)
      (fine_block ?_), fine_assign hT (quiet_name _)⟩
    simp only [List.mem_cons, List.not_mem_nil, or_false, forall_eq_or_imp, forall_eq]
    exact ⟨fine_assign (fine_var (ht _ _)) (by simp [Quiet, Expr.calls]), hi,
      fine_when (by simp [Quiet, Expr.calls]) (fine_expr (by simp [Quiet, Expr.calls])), fine_ifFull fine_brk⟩
  | .map x, value, tgt, parts, n, m, code, h, hT, hp => by
    obtain ⟨⟨item, m'⟩, h1, h⟩ := ok_bind h
    obtain ⟨_, _, h⟩ := ok_bind h
    cases h
    have hi := value_fine ht he hr hc x _ _ _ _ _ _ h1 (fine_var (ht _ _)) (quiet_append hp (by simp [Quiet, Expr.calls]))
    refine fine_expect hp (fine_block ?_)
    simp only [List.mem_cons, List.not_mem_nil, or_false, forall_eq_or_imp, forall_eq]
    refine ⟨fine_ite (by simp [Quiet, Expr.calls]) (fine_assign (fine_var (ht _ _)) (by simp [Quiet, Expr.calls]))
      (fine_assign (fine_var (ht _ _)) (by simp [Quiet, Expr.calls])), fine_forItems (ht _ _) (ht _ _) (quiet_name _)
      (fine_block ?_), fine_when (by simp [Quiet, Expr.calls]) (fine_assign hT (quiet_name _))⟩
    simp only [List.mem_cons, List.not_mem_nil, or_false, forall_eq_or_imp, forall_eq]
    exact ⟨fine_when (by simp [Quiet, Expr.calls]) (fine_seq (fine_report (quiet_path hp) (quiet_format (by simp [Quiet, Expr.calls])))
        (fine_ite (by simp [Quiet, Expr.calls]) fine_brk fine_cont)),
      fine_assign (fine_var (ht _ _)) (by simp [Quiet, Expr.calls]), hi,
      fine_when (by simp [Quiet, Expr.calls]) (fine_assign (fine_item (quiet_name _) (quiet_name _)) (quiet_name _)),
      fine_ifFull fine_brk⟩
  | .cls c, value, tgt, parts, n, m, code, h, hT, hp => by
    obtain ⟨r, h1, h⟩ := ok_bind h
    cases h
    refine fine_expect hp (fine_block ?_)
    simp only [List.mem_cons, List.not_mem_nil, or_false, forall_eq_or_imp, forall_eq]
    exact ⟨fine_assign (fine_var (ht _ _)) (by simpa [Quiet, Expr.calls] using hr c r h1),
      fine_ite (by simp [Quiet, Expr.calls]) (fine_report (quiet_path hp) (quiet_format (quiet_name _)))
        (fine_assign hT (quiet_name _))⟩
  | .embed name, value, tgt, parts, n, m, code, h, hT, hp => by
    obtain ⟨refs, _, h⟩ := ok_bind h
    obtain ⟨regs, h2, h⟩ := ok_bind h
    obtain ⟨f, _, h⟩ := ok_bind h
    cases h
    refine fine_block ?_
    simp only [List.mem_cons, List.not_mem_nil, or_false, forall_eq_or_imp, forall_eq]
    refine ⟨fine_assign (fine_var (ht _ _)) (by simp [Quiet, Expr.calls, Args.calls]), fine_expr fun x hx => ?_,
      fine_assign hT (quiet_name _)⟩
    rw [Expr.calls, calls_args] at hx
    rcases List.mem_cons.1 hx with rfl | hx
    · exact hc f
    · obtain ⟨e, hm, hx⟩ := List.mem_flatMap.1 hx
      simp only [List.cons_append, List.mem_cons, List.mem_append, List.not_mem_nil, or_false] at hm
      rcases hm with rfl | hm | rfl | rfl | rfl
      · exact quiet_name _ x hx
      · obtain ⟨c, _, hce⟩ := GoCode.mapM_mem h2 hm
        exact hr c e hce x hx
      · exact quiet_path hp x hx
      · exact quiet_name _ x hx
      · exact quiet_name _ x hx

theorem props_fine {ctx : Ctx} (ht : ∀ b n, B (tmp b n)) (he : B c!"err") (hr : ∀ c e, ctx.registry c = .ok e → Quiet C e)
    (hc : ∀ f, C (c!"_" ++ f ++ c!"_from")) (obj : Str) : ∀ (ps : List Property) (n : Nat) (code : Stmt),
    PyGen.parseProps ctx obj ps n = .ok code → Fine C B code
  | [], _, _, h => by
    cases h
    exact fine_pass
  | p :: ps, n, code, h => by
    rw [PyGen.parseProps] at h
    obtain ⟨⟨c, m⟩, h1, h⟩ := ok_bind h
    obtain ⟨rest, h2, h⟩ := ok_bind h
    cases h
    refine fine_seq ?_ (fine_seq (fine_ifFull (fine_ret (by simp [Quiet, Expr.calls]))) (props_fine ht he hr hc obj ps m rest h2))
    obtain ⟨a, _, h1⟩ := ok_bind h1
    obtain ⟨⟨code, m'⟩, h3, h1⟩ := ok_bind h1
    cases h1
    have hv := value_fine ht he hr hc p.ty _ _ _ _ _ _ h3 (fine_attr (quiet_name _)) (by simp [Quiet, Expr.calls])
    refine fine_seq (fine_assign (fine_var (ht _ _)) (by simp [Quiet, Expr.calls])) ?_
    split
    · exact fine_ite (by simp [Quiet, Expr.calls]) (fine_report (quiet_name _) (quiet_str _)) hv
    · exact fine_when (by simp [Quiet, Expr.calls]) hv

theorem unlessDict_fine : Fine C B unlessDict :=
  fine_when (by simp [Quiet, Expr.calls]) (fine_seq (fine_report (quiet_name _) (quiet_format (by simp [Quiet, Expr.calls])))
    (fine_ret (by simp [Quiet, Expr.calls])))

end

/-- The functions which the parser calls -/
def FromCall (n : Str) : Prop := n.head? = some '_' ∧ n.getLast? = some 'm'

/-- The variables which the parser binds -/
def FromVar (x : Str) : Prop := x.head? ≠ some '_' ∨ x.getLast? ≠ some 'm'

theorem FromVar.not {x : Str} (h : FromVar x) : ¬ FromCall x := fun hc => h.elim (· hc.1) (· hc.2)

theorem fromCall (f : Str) : FromCall (c!"_" ++ f ++ c!"_from") :=
  ⟨by simp, by rw [List.getLast?_append]; simp⟩

theorem tmp_last (b : Str) (n : Nat) : FromVar (tmp b n) := by
  refine .inr fun h => tmp_digit b n fun c hc => ?_
  rw [h] at hc
  cases hc
  decide

theorem suffix_var (x : Str) : FromVar (x ++ c!"_registry") := .inr (by simp)

theorem prefix_var (x : Str) : FromVar (c!"target_" ++ x) := .inl (by simp)

section

variable {g : Graph} {py : ParseSchema.Py}

theorem attr_quiet {c : Str} {e : Expr} (h : registryAttr g c = .ok e) : Quiet FromCall e := by
  rw [registryAttr] at h
  split at h
  · obtain ⟨x, _, h⟩ := ok_bind h
    cases h
    simp [Quiet, Expr.calls]
  · cases h

theorem param_var {c x : Str} (h : PyGen.registryParam g c = .ok x) : FromVar x := by
  obtain ⟨d, _, _, _, rfl⟩ := registryParam_eq h
  exact suffix_var _

theorem unhidden_of {f : Func} (hf : Fine FromCall FromVar f.body) (hp : ∀ q ∈ f.params, FromVar q.name) :
    ∀ n ∈ f.body.calls, n ∉ f.locals := by
  intro n hn hm
  refine FromVar.not ?_ (hf.calls n hn)
  rcases List.mem_append.1 hm with hm | hm
  · obtain ⟨q, hq, rfl⟩ := List.mem_map.1 hm
    exact hp q hq
  · exact hf.binds n hm

theorem composite_unhidden {o : Owner} {name : Str} {b : Bool} {fs : List Func}
    (h : PyGen.parseComposite g py o name b = .ok fs) : ∀ f ∈ fs, ∀ n ∈ f.body.calls, n ∉ f.locals := by
  obtain ⟨refs, h1, h⟩ := ok_bind h
  obtain ⟨params, h2, h⟩ := ok_bind h
  obtain ⟨code, h3, h⟩ := ok_bind h
  obtain ⟨f, h4, h⟩ := ok_bind h
  cases h
  have hp : ∀ x ∈ params, FromVar x := fun x hx => by
    obtain ⟨c, _, hc⟩ := GoCode.mapM_mem h2 hx
    exact param_var hc
  intro f hf
  simp only [List.mem_cons, List.not_mem_nil, or_false] at hf
  rcases hf with rfl | rfl
  · refine unhidden_of (fine_seq unlessDict_fine (props_fine tmp_last (.inl (by decide)) (fun c e hce => ?_) fromCall _ _ _ _ h3)) ?_
    · obtain ⟨_, x, _, rfl⟩ := compositeCtx_registry hce
      exact quiet_name _
    · intro q hq
      simp only [List.mem_map, List.mem_append, List.mem_cons, List.not_mem_nil, or_false] at hq
      obtain ⟨x, hx, rfl⟩ := hq
      rcases hx with (rfl | hx) | rfl | rfl | rfl
      · exact .inl (by decide)
      · exact hp x hx
      · exact .inl (by decide)
      · exact .inl (by decide)
      · exact .inl (by decide)
  · refine unhidden_of (fine_block ?_) ?_
    · simp only [List.mem_cons, List.not_mem_nil, or_false, forall_eq_or_imp, forall_eq]
      refine ⟨fine_assign (fine_var (.inl (by decide))) ?_, fine_expr fun n hn => ?_, fine_when (by simp [Quiet, Expr.calls])
        (fine_ret (by simp [Quiet, Expr.calls])), fine_ret (quiet_name _)⟩
      · intro n hn
        rw [Expr.calls, calls_kwargs] at hn
        · cases b <;> simp [Expr.calls] at hn
        · simp
      · rw [Expr.calls, calls_kwargs] at hn
        rcases List.mem_cons.1 hn with rfl | hn
        · exact fromCall _
        · obtain ⟨e, he, hn⟩ := List.mem_flatMap.1 hn
          obtain ⟨x, _, rfl⟩ := List.mem_map.1 he
          simp [Expr.calls] at hn
    · intro q hq
      simp only [List.mem_map, List.mem_append, List.mem_cons, List.not_mem_nil, or_false] at hq
      obtain ⟨x, hx, rfl⟩ := hq
      rcases hx with ((rfl | hx) | hx) | rfl | rfl
      · exact .inl (by decide)
      · cases b <;> simp at hx
        subst hx
        exact .inl (by decide)
      · exact hp x hx
      · exact .inl (by decide)
      · exact .inl (by decide)

theorem alloc_fine {c : Class} {code : Stmt} (h : PyGen.preallocate c = .ok code) : Fine FromCall FromVar code := by
  obtain ⟨key, _, h⟩ := ok_bind h
  obtain ⟨p, _, h⟩ := ok_bind h
  obtain ⟨f, _, h⟩ := ok_bind h
  cases h
  have hput : Fine FromCall FromVar (.assign (.item (v (p ++ c!"_registry")) (v c!"id"))
      (.call (.parse (c!"placeholder_" ++ f)) (kwargs [(c!"id", v c!"id")]))) :=
    fine_assign (fine_item (quiet_name _) (quiet_name _)) (by simp [Quiet, Expr.calls, calls_kwargs])
  have hloop : Fine FromCall FromVar (allocLoop c key (p ++ c!"_registry") f) := by
    refine fine_forIn (.inl (by decide)) (quiet_name _) ?_
    cases c.idPattern with
    | none => exact hput
    | some q =>
      exact fine_seq (fine_when (by simp [Quiet, Expr.calls]) (fine_seq (fine_report
        (quiet_path (by simp [Quiet, Expr.calls])) (by simp [Quiet, Expr.calls])) (fine_ifFull fine_brk))) hput
  refine fine_block ?_
  simp only [List.mem_cons, List.not_mem_nil, or_false, forall_eq_or_imp, forall_eq]
  refine ⟨fine_assign (fine_var (.inl (by decide))) (by simp [Quiet, Expr.calls]), fine_when (by simp [Quiet, Expr.calls])
    (fine_ite (by simp [Quiet, Expr.calls]) (fine_report (quiet_path (by simp [Quiet, Expr.calls]))
      (quiet_format (by simp [Quiet, Expr.calls]))) (fine_block ?_)), fine_ifFull (fine_ret (by simp [Quiet, Expr.calls]))⟩
  simp only [List.mem_cons, List.not_mem_nil, or_false, forall_eq_or_imp, forall_eq]
  exact ⟨fine_ite (by simp [Quiet, Expr.calls]) (fine_assign (fine_attr (quiet_name _)) (by simp [Quiet, Expr.calls]))
    (fine_assign (fine_attr (quiet_name _)) (by simp [Quiet, Expr.calls])),
    fine_assign (fine_var (suffix_var _)) (by simp [Quiet, Expr.calls]), hloop⟩

theorem instances_fine {c : Class} {code : Stmt} (h : PyGen.parseInstances g c = .ok code) : Fine FromCall FromVar code := by
  obtain ⟨key, _, h⟩ := ok_bind h
  obtain ⟨p, _, h⟩ := ok_bind h
  obtain ⟨f, _, h⟩ := ok_bind h
  obtain ⟨refs, _, h⟩ := ok_bind h
  obtain ⟨regs, hr, h⟩ := ok_bind h
  cases h
  refine fine_when (by simp [Quiet, Expr.calls]) (fine_seq (fine_assign (fine_var (.inl (by decide))) (by simp [Quiet, Expr.calls]))
    (fine_forItems (.inl (by decide)) (.inl (by decide)) (quiet_name _) (fine_block ?_)))
  simp only [List.mem_cons, List.not_mem_nil, or_false, forall_eq_or_imp, forall_eq]
  refine ⟨fine_assign (fine_var (prefix_var _)) (by simp [Quiet, Expr.calls]), fine_assign (fine_attr (quiet_name _)) (quiet_name _),
    fine_expr fun x hx => ?_, fine_ifFull (fine_ret (by simp [Quiet, Expr.calls]))⟩
  rw [Expr.calls, calls_args] at hx
  rcases List.mem_cons.1 hx with rfl | hx
  · exact fromCall _
  · obtain ⟨e, hm, hx⟩ := List.mem_flatMap.1 hx
    simp only [List.cons_append, List.mem_cons, List.mem_append, List.not_mem_nil, or_false] at hm
    rcases hm with rfl | hm | rfl | rfl | rfl
    · exact quiet_name _ x hx
    · obtain ⟨c, _, hce⟩ := GoCode.mapM_mem hr hm
      exact attr_quiet hce x hx
    · exact quiet_path (C := FromCall) (by simp [Quiet, Expr.calls]) x hx
    · exact quiet_name _ x hx
    · exact quiet_name _ x hx

theorem graph_unhidden {f : Func} (h : PyGen.parseGraph g py = .ok f) : ∀ n ∈ f.body.calls, n ∉ f.locals := by
  obtain ⟨props, h1, h⟩ := ok_bind h
  obtain ⟨x, _, h⟩ := ok_bind h
  obtain ⟨allocs, h2, h⟩ := ok_bind h
  obtain ⟨insts, h3, h⟩ := ok_bind h
  cases h
  refine unhidden_of (fine_block ?_) ?_
  · simp only [List.mem_cons, List.not_mem_nil, or_false, forall_eq_or_imp, forall_eq]
    refine ⟨fine_ifFull (fine_ret (by simp [Quiet, Expr.calls])), unlessDict_fine,
      fine_assign (fine_var (.inl (by decide))) (by simp [Quiet, Expr.calls, Args.calls]), fine_block fun s hs => ?_, ?_,
      fine_block fun s hs => ?_, props_fine tmp_last (.inl (by decide)) (fun c e hce => attr_quiet hce) fromCall _ _ _ _ h1,
      fine_when (by simp [Quiet, Expr.calls]) (fine_ret (by simp [Quiet, Expr.calls])), fine_ret (quiet_name _)⟩
    · obtain ⟨c, _, hc⟩ := GoCode.mapM_mem h2 hs
      exact alloc_fine hc
    · split
      · exact fine_pass
      · exact fine_when (by simp [Quiet, Expr.calls]) (fine_ret (by simp [Quiet, Expr.calls]))
    · obtain ⟨c, _, hc⟩ := GoCode.mapM_mem h3 hs
      exact instances_fine hc
  · intro q hq
    simp only [List.mem_map, List.mem_cons, List.not_mem_nil, or_false] at hq
    obtain ⟨y, hy, rfl⟩ := hq
    rcases hy with rfl | rfl | rfl <;> exact .inl (by decide)

theorem parser_unhidden {P : Program} (h : PyGen.parser g py = .ok P) : Unhidden P := by
  obtain ⟨_, _, h⟩ := ok_bind h
  obtain ⟨_, _, h⟩ := ok_bind h
  obtain ⟨own, h0, h⟩ := ok_bind h
  cases h
  obtain ⟨cs, h1, h⟩ := ok_bind h0
  obtain ⟨es, h2, h⟩ := ok_bind h
  obtain ⟨fg, h3, h⟩ := ok_bind h
  cases h
  intro f hf
  simp only [List.mem_append, List.mem_flatten, List.mem_singleton] at hf
  rcases hf with (⟨fs, hfs, hf⟩ | ⟨fs, hfs, hf⟩) | rfl
  · obtain ⟨c, _, hc⟩ := GoCode.mapM_mem h1 hfs
    exact composite_unhidden hc f hf
  · obtain ⟨c, _, hc⟩ := GoCode.mapM_mem h2 hfs
    exact composite_unhidden hc f hf
  · exact graph_unhidden h3

end

/-! ## The serializer -/

/-- The kinds of variables which the code of a value binds -/
def bases : List Str := [c!"target", c!"item", c!"target_item", c!"key", c!"value", c!"target_value"]

section

variable {C B E : Str → Prop} {py : ParseSchema.Py}

theorem expr_quiet (hc : ∀ n, E n → C (c!"serialize_" ++ lower n)) {value e : Expr} (hv : Quiet C value) {ty : Ty}
    (hE : ∀ n, ty = .embed n → E n) (h : serializationExpr py value ty = .ok (some e)) : Quiet C e := by
  cases ty with
  | boolean => cases h; exact hv
  | integer => cases h; exact hv
  | float => cases h; exact hv
  | string => cases h; exact hv
  | path =>
    obtain ⟨b, _, h⟩ := ok_bind h
    cases h
    cases b
    · exact hv
    · simpa [Quiet, Expr.calls] using hv
  | timeZone =>
    obtain ⟨b, _, h⟩ := ok_bind h
    cases h
    cases b
    · exact hv
    · simpa [Quiet, Expr.calls] using hv
  | date => cases h; simpa [Quiet, Expr.calls] using hv
  | time => cases h; simpa [Quiet, Expr.calls] using hv
  | datetime => cases h; simpa [Quiet, Expr.calls] using hv
  | duration => cases h; simpa [Quiet, Expr.calls] using hv
  | array => cases h
  | map => cases h
  | cls => cases h; simpa [Quiet, Expr.calls] using hv
  | embed name =>
    obtain ⟨f, h1, h⟩ := ok_bind h
    obtain ⟨rfl, _⟩ := PyCode.asVariable_eq h1
    cases h
    intro n hn
    rw [Expr.calls, calls_args] at hn
    rcases List.mem_cons.1 hn with rfl | hn
    · exact hc name (hE name rfl)
    · simp only [List.flatMap_cons, List.flatMap_nil, List.append_nil] at hn
      exact hv n hn

theorem writes_fine (hb : ∀ b ∈ bases, ∀ n, B (tmp b n)) (hc : ∀ n, E n → C (c!"serialize_" ++ lower n)) :
    ∀ (ty : Ty) (tgt : Target) (value : Expr) (n m : Nat) (code : Stmt), (∀ n, .embed n ∈ parts ty → E n) →
    serializeValue py ty tgt value n = .ok (code, m) → FineTarget C B tgt → Quiet C value → Fine C B code := by
  have hv : ∀ b ∈ bases, ∀ n, FineTarget C B (.var (tmp b n)) := fun b h n => fine_var (hb b h n)
  have plain : ∀ (ty : Ty) (tgt : Target) (value : Expr) (n m : Nat) (code : Stmt), (∀ n, .embed n ∈ parts ty → E n) →
      (do match ← serializationExpr py value ty with
          | some e => pure (.assign tgt e, n)
          | none => .error (.notImplemented []) : Except Exc (Stmt × Nat)) = .ok (code, m) → FineTarget C B tgt →
      Quiet C value → Fine C B code := by
    intro ty tgt value n m code hE h hT hv
    obtain ⟨e, h1, h⟩ := ok_bind h
    cases e with
    | none => cases h
    | some e =>
      cases h
      exact fine_assign hT (expr_quiet hc hv (fun k hk => hE k (hk ▸ self_mem_parts _)) h1)
  intro ty
  induction ty with
  | array x lo hi ih =>
    intro tgt value n m code hE h hT hq
    rw [serializeValue] at h
    split at h
    · cases h
      exact fine_assign hT (by simpa [Quiet, Expr.calls] using hq)
    · obtain ⟨e, h1, h⟩ := ok_bind h
      cases e with
      | some e =>
        cases h
        refine fine_seq (fine_assign (hv _ (by decide) _) fun k hk => ?_) (fine_assign hT (quiet_name _))
        rw [Expr.calls] at hk
        rcases List.mem_append.1 hk with hk | hk
        · exact expr_quiet hc (quiet_name _) (fun j hj => hE j (by subst hj; simp [parts])) h1 k hk
        · exact hq k hk
      | none =>
        obtain ⟨⟨item, k⟩, h2, h⟩ := ok_bind h
        cases h
        have := ih _ _ _ _ _ (fun j hj => hE j (by simp [parts, hj])) h2 (hv _ (by decide) _) (quiet_name _)
        refine fine_block ?_
        simp only [List.mem_cons, List.not_mem_nil, or_false, forall_eq_or_imp, forall_eq]
        exact ⟨fine_assign (hv _ (by decide) _) (by simp [Quiet, Expr.calls]), fine_forIn (hb _ (by decide) _) hq
          (fine_seq this (fine_expr (by simp [Quiet, Expr.calls]))), fine_assign hT (quiet_name _)⟩
  | map x ih =>
    intro tgt value n m code hE h hT hq
    rw [serializeValue] at h
    obtain ⟨⟨item, k⟩, h2, h⟩ := ok_bind h
    cases h
    have hi : Fine C B item := by
      obtain ⟨e, h1, h2⟩ := ok_bind h2
      cases e with
      | some e =>
        cases h2
        exact fine_assign (fine_item (quiet_name _) (quiet_name _)) (expr_quiet hc (quiet_name _)
          (fun j hj => hE j (by subst hj; simp [parts])) h1)
      | none =>
        obtain ⟨⟨it, k⟩, h3, h2⟩ := ok_bind h2
        cases h2
        exact fine_seq (ih _ _ _ _ _ (fun j hj => hE j (by simp [parts, hj])) h3 (hv _ (by decide) _) (quiet_name _))
          (fine_assign (fine_item (quiet_name _) (quiet_name _)) (quiet_name _))
    refine fine_block ?_
    simp only [List.mem_cons, List.not_mem_nil, or_false, forall_eq_or_imp, forall_eq]
    exact ⟨fine_ite (by simpa [Quiet, Expr.calls] using hq) (fine_assign (hv _ (by decide) _) (by simp [Quiet, Expr.calls]))
      (fine_assign (hv _ (by decide) _) (by simp [Quiet, Expr.calls])), fine_forItems (hb _ (by decide) _) (hb _ (by decide) _) hq hi,
      fine_assign hT (quiet_name _)⟩
  | boolean => intro tgt value n m code hE h; exact plain _ _ _ _ _ _ hE h
  | integer => intro tgt value n m code hE h; exact plain _ _ _ _ _ _ hE h
  | float => intro tgt value n m code hE h; exact plain _ _ _ _ _ _ hE h
  | string => intro tgt value n m code hE h; exact plain _ _ _ _ _ _ hE h
  | path => intro tgt value n m code hE h; exact plain _ _ _ _ _ _ hE h
  | date => intro tgt value n m code hE h; exact plain _ _ _ _ _ _ hE h
  | time => intro tgt value n m code hE h; exact plain _ _ _ _ _ _ hE h
  | datetime => intro tgt value n m code hE h; exact plain _ _ _ _ _ _ hE h
  | timeZone => intro tgt value n m code hE h; exact plain _ _ _ _ _ _ hE h
  | duration => intro tgt value n m code hE h; exact plain _ _ _ _ _ _ hE h
  | cls => intro tgt value n m code hE h; exact plain _ _ _ _ _ _ hE h
  | embed => intro tgt value n m code hE h; exact plain _ _ _ _ _ _ hE h

theorem serializeProps_fine (hb : ∀ b ∈ bases, ∀ n, B (tmp b n)) (hc : ∀ n, E n → C (c!"serialize_" ++ lower n))
    (field : Property → Except Exc Str) : ∀ (ps : List Property) (n : Nat) (code : Stmt),
    (∀ p ∈ ps, ∀ n, .embed n ∈ parts p.ty → E n) → serializeProps py field ps n = .ok code → Fine C B code
  | [], _, _, _, h => by
    cases h
    exact fine_pass
  | p :: ps, n, code, hE, h => by
    rw [serializeProps] at h
    obtain ⟨x, h1, h⟩ := ok_bind h
    obtain ⟨⟨c, m⟩, h2, h⟩ := ok_bind h
    obtain ⟨rest, h3, h⟩ := ok_bind h
    cases h
    obtain ⟨⟨c, m'⟩, h4, h2⟩ := ok_bind h2
    obtain ⟨_, _, h2⟩ := ok_bind h2
    cases h2
    have hv := writes_fine hb hc p.ty _ _ _ _ _ (hE p (by simp)) h4 (fine_item (quiet_name _) (quiet_str _))
      (by simp [Quiet, Expr.calls])
    refine fine_seq ?_ (serializeProps_fine hb hc field ps m rest (fun p hp => hE p (by simp [hp])) h3)
    split
    · exact fine_when (by simp [Quiet, Expr.calls]) hv
    · exact hv

theorem mapping_fine {x : Str} (hx : B x) : Fine C B (newMapping x) :=
  fine_ite (quiet_name _) (fine_assign (fine_var hx) (by simp [Quiet, Expr.calls]))
    (fine_assign (fine_var hx) (by simp [Quiet, Expr.calls]))

theorem serializer_fine {body : Stmt} (hx : B c!"target") (hb : Fine C B body) :
    Fine C B (block [newMapping c!"target", body, .ret (v c!"target")]) := by
  refine fine_block ?_
  simp only [List.mem_cons, List.not_mem_nil, or_false, forall_eq_or_imp, forall_eq]
  exact ⟨mapping_fine hx, hb, fine_ret (quiet_name _)⟩

/-- The code calls no function under the name of a variable. -/
theorem serializer_unhidden {f : Str} {body : Stmt} (hB : B c!"target" ∧ B c!"instance" ∧ B c!"ordered") (hb : Fine C B body)
    (h : ∀ n, C n → ¬ B n) : ∀ n ∈ (serializer f body).body.calls, n ∉ (serializer f body).locals := by
  have hF := serializer_fine hB.1 hb
  intro n hn hm
  refine h n (hF.calls n hn) ?_
  rcases List.mem_append.1 hm with hm | hm
  · simp only [serializer, List.map_cons, List.map_nil, List.mem_cons, List.not_mem_nil, or_false] at hm
    rcases hm with rfl | rfl
    · exact hB.2.1
    · exact hB.2.2
  · exact hF.binds n hm

end

/-- The variables which the serializer of a composite binds -/
def ToVar (x : Str) : Prop := x.head? ≠ some 's'

theorem bases_var : ∀ b ∈ bases, ∀ n, ToVar (tmp b n) := by
  intro b hb n
  simp only [bases, List.mem_cons, List.not_mem_nil, or_false] at hb
  rcases hb with rfl | rfl | rfl | rfl | rfl | rfl <;> simp [ToVar, tmp, PyCode.Var.text]

section

variable {g : Graph} {py : ParseSchema.Py}

theorem serializeComposite_unhidden {name : Str} {ps : List Property} {f : Func}
    (h : PyGen.serializeComposite py name ps = .ok f) : ∀ n ∈ f.body.calls, n ∉ f.locals := by
  obtain ⟨props, h1, rfl⟩ := serializeComposite_eq h
  refine serializer_unhidden (C := fun n => n.head? = some 's') (B := ToVar) ⟨by simp [ToVar], by simp [ToVar], by simp [ToVar]⟩
    (serializeProps_fine (E := fun _ => True) bases_var (fun _ _ => by simp) _ _ _ _ (fun _ _ _ _ => trivial) h1) ?_
  exact fun n hn hv => hv hn

theorem registry_fine {C B : Str → Prop} {c : Class} {code : Stmt} (h : serializeRegistry c = .ok code)
    (hc : C (c!"serialize_" ++ lower c.name)) (h1 : B (c!"target_" ++ lower c.plural)) (h2 : B (lower c.name ++ c!"_instance"))
    (h3 : B c!"id") : Fine C B code := by
  obtain ⟨comp, _, h⟩ := ok_bind h
  obtain ⟨p, e1, h⟩ := ok_bind h
  obtain ⟨a, e2, h⟩ := ok_bind h
  obtain ⟨f, e3, h⟩ := ok_bind h
  obtain ⟨key, _, h⟩ := ok_bind h
  obtain ⟨rfl, _⟩ := PyCode.asVariable_eq e1
  obtain ⟨rfl, _⟩ := PyCode.asVariable_eq e3
  cases h
  refine fine_when (by simp [Quiet, Expr.calls]) (fine_block ?_)
  simp only [List.mem_cons, List.not_mem_nil, or_false, forall_eq_or_imp, forall_eq]
  refine ⟨mapping_fine h1, fine_forItems h3 h2 (by simp [Quiet, Expr.calls]) (fine_seq (fine_when (by simp [Quiet, Expr.calls])
    (fine_raise (by simp [Quiet, Expr.calls, calls_args]))) (fine_assign (fine_item (quiet_name _) (quiet_name _)) ?_)),
    fine_assign (fine_item (quiet_name _) (quiet_str _)) (quiet_name _)⟩
  intro n hn
  rw [Expr.calls, calls_kwargs] at hn
  rcases List.mem_cons.1 hn with rfl | hn
  · exact hc
  · simp [Expr.calls] at hn

theorem serializeGraph_unhidden (ha : PyCode.CallsApart g) {f : Func} (h : PyGen.serializeGraph g py = .ok f) :
    ∀ n ∈ f.body.calls, n ∉ f.locals := by
  obtain ⟨props, rs, h1, h2, rfl⟩ := serializeGraph_eq h
  refine serializer_unhidden (C := fun n => ∃ x, PyCode.Called g x ∧ n = c!"serialize_" ++ lower x)
    (B := fun x => ToVar x ∨ ∃ c ∈ g.classes, x = lower c.name ++ c!"_instance")
    ⟨.inl (by simp [ToVar]), .inl (by simp [ToVar]), .inl (by simp [ToVar])⟩
    (fine_seq (serializeProps_fine (E := PyCode.Called g) (fun b hb n => .inl (bases_var b hb n)) (fun n hn => ⟨n, hn, rfl⟩) _ _ _ _
      (fun p hp n hn => .inr ⟨p, hp, hn⟩) h1) (fine_block fun s hs => ?_)) ?_
  · obtain ⟨c, hc, hs⟩ := GoCode.mapM_mem h2 hs
    exact registry_fine hs ⟨c.name, .inl ⟨c, hc, rfl⟩, rfl⟩ (.inl (by simp [ToVar])) (.inr ⟨c, hc, rfl⟩) (.inl (by simp [ToVar]))
  · rintro n ⟨x, hx, rfl⟩ (hv | ⟨c, hc, e⟩)
    · exact hv (by simp)
    · exact ha c hc x hx e.symm

theorem writer_unhidden {P : Program} (ha : PyCode.CallsApart g) (h : PyGen.writer g py = .ok P) : Unhidden P := by
  obtain ⟨_, _, h⟩ := ok_bind h
  obtain ⟨own, h0, h⟩ := ok_bind h
  cases h
  obtain ⟨cs, h1, h⟩ := ok_bind h0
  obtain ⟨es, h2, h⟩ := ok_bind h
  obtain ⟨fg, h3, h⟩ := ok_bind h
  cases h
  intro f hf
  simp only [List.mem_append, List.mem_singleton] at hf
  rcases hf with (hf | hf) | rfl
  · obtain ⟨c, _, hc⟩ := GoCode.mapM_mem h1 hf
    exact serializeComposite_unhidden hc
  · obtain ⟨c, _, hc⟩ := GoCode.mapM_mem h2 hf
    exact serializeComposite_unhidden hc
  · exact serializeGraph_unhidden ha h3

end

end Mapry.PyExec
