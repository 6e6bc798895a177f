import Verif.GoWriteValue

/-!
# The generated Go code which writes a value: all the types
-/

namespace Mapry.GoExec

open Mapry.GoLang Mapry.GoGen Mapry.Naming
open Mapry.GoRuntime (JVal Lib serTy serItems serEntries serTime)
open Mapry.GoCode (Name v vi own)

theorem lookup_self (x : Name) (l : Nat) (ρ : Env) : List.lookup x ((x, l) :: ρ) = some l := by
  rw [List.lookup_cons]
  simp

theorem lookup_ne {x y : Name} (h : x ≠ y) (l : Nat) (ρ : Env) : List.lookup x ((y, l) :: ρ) = List.lookup x ρ := by
  rw [List.lookup_cons, beq_eq_false_iff_ne.2 h]

theorem vi_ne {b b' : Str} (h : b ≠ b') (n : Nat) : vi b n ≠ vi b' n := by
  intro e
  cases e
  exact h rfl

theorem alloc_get (σ : St) (w : Val) : (σ.alloc w).2.heap[σ.heap.length]? = some w := by
  show (σ.heap ++ [w])[σ.heap.length]? = _
  simp

theorem alloc_len (σ : St) (w : Val) : (σ.alloc w).2.heap.length = σ.heap.length + 1 := by
  show (σ.heap ++ [w]).length = _
  simp

theorem alloc_old (σ : St) (w : Val) {a : Nat} {x : Val} (h : σ.heap[a]? = some x) : (σ.alloc w).2.heap[a]? = some x :=
  (grown_append _ _).get (fun h => h) h

/-- Items of a slice -/
theorem eval_item {L : Lib} {pats : Nat → Str} {ρ : Env} {σ : St} {s i : Name} {S C l k : Nat} {xs : List Val} {x : Val}
    (h1 : ρ.lookup s = some S) (h2 : σ.heap[S]? = some (.slice l)) (h3 : ρ.lookup i = some C)
    (h4 : σ.heap[C]? = some (.int (k : Int))) (h5 : σ.heap[l]? = some (.array xs)) (h6 : xs[k]? = some x) :
    eval L pats ρ σ (.index (.var s) (.var i)) = .ok x ∧
    ∃ a, addrOf L pats ρ σ (.index (.var s) (.var i)) = .ok a ∧ σ.read a = some x := by
  have e1 := eval_var L pats h1 h2
  have e2 := eval_var L pats h3 h4
  constructor
  · rw [eval, e1, e2]
    show need ((σ.heap[l]?).bind fun a => if 0 ≤ (k : Int) then step (.item (k : Int).toNat) a else none) = _
    rw [h5, Option.bind_some, if_pos (Int.natCast_nonneg _), Int.toNat_natCast]
    show need xs[k]? = _
    rw [h6]
    rfl
  · refine ⟨⟨l, [.item k]⟩, ?_, ?_⟩
    · rw [addrOf, e1, e2]
      show (if 0 ≤ (k : Int) then (.ok ⟨l, [.item (k : Int).toNat]⟩ : Except Exc Addr) else .error .typeError) = _
      rw [if_pos (Int.natCast_nonneg _), Int.toNat_natCast]
    · show (σ.heap[l]?).bind (part [.item k]) = _
      rw [h5]
      show (xs[k]?).bind (part []) = _
      rw [h6]
      rfl

/-- The place of an entry -/
theorem target_index {L : Lib} {pats : Nat → Str} {n : Nat} {ρ : Env} {σ : St} {t : Name} {ke : Expr} {S A : Nat} {key : Val}
    (h1 : ρ.lookup t = some S) (ho : Old n t)
    (h2 : σ.heap[S]? = some (.map A) ∨ σ.heap[S]? = some (.slice A))
    (hk : ∀ ρ' σ', Later n (fun _ => False) ρ σ ρ' σ' → eval L pats ρ' σ' ke = .ok key) :
    Target L pats n ρ σ (.index (.var t) ke) A key := by
  intro ρ' σ' hl w
  have e0 := hk ρ' σ' hl
  have hl1 : ρ'.lookup t = some S := (hl.vars t ho).trans h1
  rcases h2 with h2 | h2
  · have e1 := eval_var L pats hl1 (hl.frame.get (fun h => h) h2)
    rw [assignTo, e1, e0]
    rfl
  · have e1 := eval_var L pats hl1 (hl.frame.get (fun h => h) h2)
    rw [assignTo, e1, e0]
    rfl

/-- The call of the function which writes the embeddable structure -/
def Embeds (g : Graph) (σ₀ : St) (embed : Str → GV → Nat → Except Exc (JVal × Nat)) (call : Call) : Prop :=
  ∀ name f σ a x y, ucamelCase name = .ok f → Grown σ₀.heap σ.heap → σ.read a = some x →
    Holds g σ₀ (.embed name) x y →
    Called σ (embed name y σ.ranges) (call (f ++ c!"ToJSONable") [.ptr a] σ)

section
variable {O : Order} {L : Lib} {pats : Nat → Str} {call : Call} {g : Graph} {σ₀ : St}
  {embed : Str → GV → Nat → Except Exc (JVal × Nat)}

/-- A value which is written as it is -/
theorem simple_ok {n tl : Nat} {ρ : Env} {σ : St} {p : Place} {key c0 w : Val} {e : Expr} {j : JVal}
    (ht : Target L pats n ρ σ p tl key) (hc : σ.heap[tl]? = some c0) (hs : Storable c0 key)
    (he : eval L pats ρ σ e = .ok w) (hj : Jsonable σ.heap σ.heap.length j w) :
    Stored n tl c0 key ρ σ (.ok (j, σ.ranges)) (exec L pats O call (.assign p (.val e)) ρ σ) :=
  assign_ok ht hc hs (.refl _ _ _ _) (evalRhs_val L pats call he) (.refl _ _) hj rfl rfl

theorem dateTime_ok {n tl : Nat} {ρ : Env} {σ : St} {p : Place} {key c0 : Val} {e : Expr} {f : Str} {s : Stmt}
    {t : GoRuntime.Time} (hs' : serializeDateTime f p e = .ok s)
    (ht : Target L pats n ρ σ p tl key) (hc : σ.heap[tl]? = some c0) (hs : Storable c0 key)
    (he : eval L pats ρ σ e = .ok (.time t)) :
    Stored n tl c0 key ρ σ (do let x ← serTime L f (.time t); return (x, σ.ranges)) (exec L pats O call s ρ σ) := by
  unfold serializeDateTime at hs'
  show Stored n tl c0 key ρ σ (.ok (.str (if GoRuntime.layout f = [] then [] else L.formatTime t (GoRuntime.layout f)),
    σ.ranges)) _
  unfold GoRuntime.layout
  cases hcv : Strftime.convert f with
  | error _ => rw [hcv] at hs'; cases hs'
  | ok l =>
    rw [hcv] at hs'
    cases hs'
    cases l with
    | nil => exact simple_ok ht hc hs rfl (.str _)
    | cons c l =>
      refine simple_ok ht hc hs ?_ (.str _)
      simp only [List.isEmpty_cons, Bool.false_eq_true, if_false, eval, he]
      rfl

theorem value_ok (hcall : Embeds g σ₀ embed call) : ∀ (t : Ty) (p : Place) (e : Expr) (n : Nat) (code : Stmt) (m : Nat),
    serializeValue t p e n = .ok (code, m) → n ≤ m ∧
    ∀ (ρ : Env) (σ : St) (tl : Nat) (key c0 x : Val) (y : GV), Grown σ₀.heap σ.heap → Source L pats n ρ σ e x →
      Target L pats n ρ σ p tl key → σ.heap[tl]? = some c0 → Storable c0 key → Holds g σ₀ t x y →
      Stored n tl c0 key ρ σ (serTy O L embed t y σ.ranges) (exec L pats O call code ρ σ) := by
  intro t
  induction t with
  | boolean =>
    intro p e n code m h
    cases h
    refine ⟨Nat.le_refl _, fun ρ σ tl key c0 x y hx hsrc ht hc hs hh => ?_⟩
    cases hh
    exact simple_ok ht hc hs (hsrc _ _ (.refl _ _ _ _)).1 (.bool _)
  | integer _ =>
    intro p e n code m h
    cases h
    refine ⟨Nat.le_refl _, fun ρ σ tl key c0 x y hx hsrc ht hc hs hh => ?_⟩
    cases hh
    exact simple_ok ht hc hs (hsrc _ _ (.refl _ _ _ _)).1 (.int _)
  | float _ =>
    intro p e n code m h
    cases h
    refine ⟨Nat.le_refl _, fun ρ σ tl key c0 x y hx hsrc ht hc hs hh => ?_⟩
    cases hh
    exact simple_ok ht hc hs (hsrc _ _ (.refl _ _ _ _)).1 (.float _)
  | string _ =>
    intro p e n code m h
    cases h
    refine ⟨Nat.le_refl _, fun ρ σ tl key c0 x y hx hsrc ht hc hs hh => ?_⟩
    cases hh
    exact simple_ok ht hc hs (hsrc _ _ (.refl _ _ _ _)).1 (.str _)
  | path _ =>
    intro p e n code m h
    cases h
    refine ⟨Nat.le_refl _, fun ρ σ tl key c0 x y hx hsrc ht hc hs hh => ?_⟩
    cases hh
    exact simple_ok ht hc hs (hsrc _ _ (.refl _ _ _ _)).1 (.str _)
  | date f =>
    intro p e n code m h
    rw [serializeValue] at h
    cases hd : serializeDateTime f p e with
    | error _ => rw [hd] at h; cases h
    | ok s =>
      rw [hd] at h
      cases h
      refine ⟨Nat.le_refl _, fun ρ σ tl key c0 x y hx hsrc ht hc hs hh => ?_⟩
      cases hh
      exact dateTime_ok hd ht hc hs (hsrc _ _ (.refl _ _ _ _)).1
  | time f =>
    intro p e n code m h
    rw [serializeValue] at h
    cases hd : serializeDateTime f p e with
    | error _ => rw [hd] at h; cases h
    | ok s =>
      rw [hd] at h
      cases h
      refine ⟨Nat.le_refl _, fun ρ σ tl key c0 x y hx hsrc ht hc hs hh => ?_⟩
      cases hh
      exact dateTime_ok hd ht hc hs (hsrc _ _ (.refl _ _ _ _)).1
  | datetime f =>
    intro p e n code m h
    rw [serializeValue] at h
    cases hd : serializeDateTime f p e with
    | error _ => rw [hd] at h; cases h
    | ok s =>
      rw [hd] at h
      cases h
      refine ⟨Nat.le_refl _, fun ρ σ tl key c0 x y hx hsrc ht hc hs hh => ?_⟩
      cases hh
      exact dateTime_ok hd ht hc hs (hsrc _ _ (.refl _ _ _ _)).1
  | timeZone =>
    intro p e n code m h
    cases h
    refine ⟨Nat.le_refl _, fun ρ σ tl key c0 x y hx hsrc ht hc hs hh => ?_⟩
    have he := (hsrc _ _ (.refl _ _ _ _)).1
    cases hh with
    | zone s =>
      refine simple_ok ht hc hs ?_ (.str _)
      rw [eval, he]
      rfl
    | zoneNil hn =>
      refine simple_ok (w := .str c!"UTC") ht hc hs ?_ (.str _)
      rw [eval, he]
      cases x <;> first | rfl | cases hn
  | duration =>
    intro p e n code m h
    cases h
    refine ⟨Nat.le_refl _, fun ρ σ tl key c0 x y hx hsrc ht hc hs hh => ?_⟩
    have he := (hsrc _ _ (.refl _ _ _ _)).1
    cases hh
    refine simple_ok ht hc hs ?_ (.str _)
    rw [eval, he]
    rfl
  | cls c =>
    intro p e n code m h
    cases h
    refine ⟨Nat.le_refl _, fun ρ σ tl key c0 x y hx hsrc ht hc hs hh => ?_⟩
    have he := (hsrc _ _ (.refl _ _ _ _)).1
    cases hh with
    | @cls _ c' a id hid =>
      refine simple_ok ht hc hs ?_ (.str id)
      rw [eval, he]
      show need (σ.read ⟨a.loc, a.path ++ [.field c!"ID"]⟩) = _
      rw [read_frame hx (fun h => h) hid]
      rfl
    | clsNil hn =>
      rw [serTy, stored_error]
      refine .inr ⟨⟨_, rfl⟩, assign_error ?_⟩
      rw [evalRhs, eval, he]
      cases x <;> first | rfl | cases hn
  | embed name =>
    intro p e n code m h
    rw [serializeValue] at h
    cases hf : ucamelCase name with
    | error _ => rw [hf] at h; cases h
    | ok f =>
      rw [hf] at h
      cases h
      refine ⟨Nat.le_refl _, fun ρ σ tl key c0 x y hx hsrc ht hc hs hh => ?_⟩
      obtain ⟨_, a, ha, hr⟩ := hsrc _ _ (.refl _ _ _ _)
      have hcl := hcall name f σ a x y hf hx hr hh
      have hrhs : evalRhs L pats call ρ σ (.call (f ++ c!"ToJSONable") [.addr e]) = (do
          let (rs, σ) ← call (f ++ c!"ToJSONable") [.ptr a] σ
          match rs with
          | [r] => return (r, σ)
          | _ => .error .typeError) := by
        rw [evalRhs]
        simp only [List.mapM_cons, List.mapM_nil, argument, ha]
        rfl
      rw [serTy]
      generalize embed name y σ.ranges = q at hcl ⊢
      cases q with
      | error ex =>
        rw [called_error] at hcl
        rw [stored_error]
        rcases hcl with h | ⟨hp, h⟩
        · exact .inl h
        · refine .inr ⟨hp, assign_error ?_⟩
          rw [hrhs, h]
          rfl
      | ok q =>
        obtain ⟨j, r⟩ := q
        obtain ⟨w, σ', h1, h2, h3, h4, h5⟩ := hcl
        rw [h1] at hrhs
        exact assign_ok ht hc hs (.refl _ _ _ _) hrhs h2 h3 h4 h5
  | array t lo hi ih =>
    intro p e n code m h
    rw [serializeValue] at h
    cases hi' : serializeValue t (.index (.var (vi c!"target" n)) (.var (vi c!"i" n)))
      (.index (.var (vi c!"slice" n)) (.var (vi c!"i" n))) (n + 1) with
    | error _ => rw [hi'] at h; cases h
    | ok q =>
      obtain ⟨item, m'⟩ := q
      rw [hi'] at h
      cases h
      obtain ⟨hnm, ihv⟩ := ih _ _ _ _ _ hi'
      refine ⟨Nat.le_of_succ_le hnm, fun ρ σ tl key c0 x y hx hsrc ht hc hs hh => ?_⟩
      have he := (hsrc _ _ (.refl _ _ _ _)).1
      -- the items
      obtain ⟨ys, hy, hlen, hitem⟩ : ∃ ys : List GV, (y = .list ys ∨ (y = .nil ∧ ys = [])) ∧
          lenOf σ x = .ok ys.length ∧ ∀ (k : Nat) (y' : GV), ys[k]? = some y' → ∃ l xs x', x = .slice l ∧
            σ₀.heap[l]? = some (.array xs) ∧ xs[k]? = some x' ∧ Holds g σ₀ t x' y' := by
        cases hh with
        | @array _ _ _ l xs ys h1 h2 h3 =>
          refine ⟨ys, .inl rfl, ?_, fun k y' hk => ?_⟩
          · rw [lenOf, hx.get (fun h => h) h1, ← h2]
          · have hlt : k < xs.length := h2 ▸ lt_of_get hk
            exact ⟨l, xs, xs[k], rfl, h1, List.getElem?_eq_getElem hlt, h3 k _ _ (List.getElem?_eq_getElem hlt) hk⟩
        | arrayNil hn =>
          refine ⟨[], .inr ⟨rfl, rfl⟩, ?_, fun k y' hk => by simp at hk⟩
          cases x <;> first | rfl | cases hn
      have hser : serTy O L embed (.array t lo hi) y σ.ranges = (do
          let (xs, r) ← serItems (serTy O L embed t) ys σ.ranges
          return (.arr xs, r)) := by
        rcases hy with rfl | ⟨rfl, rfl⟩
        · rw [serTy]
        · rw [serTy]; rfl
      rw [hser]
      -- the declarations
      have e1 : evalRhs L pats call ρ σ (.val (.len e)) = .ok (.int ys.length, σ) := by
        refine evalRhs_val L pats call ?_
        rw [eval, he]
        show (do return Val.int (← lenOf σ x)) = _
        rw [hlen]
        rfl
      rw [block, exec_seq O L pats call (exec_declare O L pats call e1)]
      generalize hσ1 : (σ.alloc (.int ys.length)).2 = σ1
      generalize hρ1 : (vi c!"count" n, σ.heap.length) :: ρ = ρ1
      have l1 : Later n (fun _ => False) ρ σ ρ1 σ1 := by
        rw [← hρ1, ← hσ1]
        exact later_declare (Nat.le_refl _) _ _ _ _ _
      have e2 := evalRhs_val L pats call (hsrc _ _ l1).1
      rw [block, exec_seq O L pats call (exec_declare O L pats call e2)]
      generalize hσ2 : (σ1.alloc x).2 = σ2
      generalize hρ2 : (vi c!"slice" n, σ1.heap.length) :: ρ1 = ρ2
      have l2 : Later n (fun _ => False) ρ1 σ1 ρ2 σ2 := by
        rw [← hρ2, ← hσ2]
        exact later_declare (Nat.le_refl _) _ _ _ _ _
      have c1 : ρ1.lookup (vi c!"count" n) = some σ.heap.length := by rw [← hρ1]; exact lookup_self _ _ _
      have c2 : ρ2.lookup (vi c!"count" n) = some σ.heap.length := by
        rw [← hρ2, lookup_ne (vi_ne (by decide) n)]; exact c1
      have v1 : σ1.heap[σ.heap.length]? = some (.int ys.length) := by rw [← hσ1]; exact alloc_get _ _
      have v2 : σ2.heap[σ.heap.length]? = some (.int ys.length) := l2.frame.get (fun h => h) v1
      have s2 : ρ2.lookup (vi c!"slice" n) = some σ1.heap.length := by rw [← hρ2]; exact lookup_self _ _ _
      have w2 : σ2.heap[σ1.heap.length]? = some x := by rw [← hσ2]; exact alloc_get _ _
      have e3 : evalRhs L pats call ρ2 σ2 (.makeSlice (.var (vi c!"count" n))) =
          .ok (.slice σ2.heap.length, (σ2.alloc (.array (List.replicate ys.length .zero))).2) := by
        rw [evalRhs, eval_var L pats c2 v2]
        rfl
      rw [block, exec_seq O L pats call (exec_declare O L pats call e3)]
      generalize hτ : (σ2.alloc (.array (List.replicate ys.length .zero))).2 = τ
      generalize hσ3 : (τ.alloc (.slice σ2.heap.length)).2 = σ3
      generalize hρ3 : (vi c!"target" n, τ.heap.length) :: ρ2 = ρ3
      have lτ : Grown σ2.heap τ.heap := by rw [← hτ]; exact grown_append _ _
      have lσ3 : Grown τ.heap σ3.heap := by rw [← hσ3]; exact grown_append _ _
      have a3 : σ3.heap[σ2.heap.length]? = some (.array (List.replicate ys.length .zero)) := by
        refine lσ3.get (fun h => h) ?_
        rw [← hτ]
        exact alloc_get _ _
      have t3 : ρ3.lookup (vi c!"target" n) = some τ.heap.length := by rw [← hρ3]; exact lookup_self _ _ _
      have u3 : σ3.heap[τ.heap.length]? = some (.slice σ2.heap.length) := by rw [← hσ3]; exact alloc_get _ _
      have s3 : ρ3.lookup (vi c!"slice" n) = some σ1.heap.length := by
        rw [← hρ3, lookup_ne (vi_ne (by decide) n)]; exact s2
      have w3 : σ3.heap[σ1.heap.length]? = some x := (lτ.trans lσ3).get (fun h => h) w2
      have c3 : ρ3.lookup (vi c!"count" n) = some σ.heap.length := by
        rw [← hρ3, lookup_ne (vi_ne (by decide) n)]; exact c2
      have v3 : σ3.heap[σ.heap.length]? = some (.int ys.length) := (lτ.trans lσ3).get (fun h => h) v2
      have l3 : Later n (fun _ => False) ρ2 σ2 ρ3 σ3 := by
        have : Later n (fun _ => False) ρ2 τ ρ3 σ3 := by
          rw [← hρ3, ← hσ3]
          exact later_declare (Nat.le_refl _) _ _ _ _ _
        exact ⟨this.vars, lτ.trans lσ3⟩
      have l03 : Later n (fun _ => False) ρ σ ρ3 σ3 := (l1.trans l2).trans l3
      have len1 : σ1.heap.length = σ.heap.length + 1 := by rw [← hσ1]; exact alloc_len _ _
      have len2 : σ2.heap.length = σ1.heap.length + 1 := by rw [← hσ2]; exact alloc_len _ _
      have len3 : τ.heap.length = σ2.heap.length + 1 := by rw [← hτ]; exact alloc_len _ _
      have len4 : σ3.heap.length = τ.heap.length + 1 := by rw [← hσ3]; exact alloc_len _ _
      have rg3 : σ3.ranges = σ.ranges := by rw [← hσ3, ← hτ, ← hσ2, ← hσ1]; rfl
      have er3 : σ3.errors = σ.errors := by rw [← hσ3, ← hτ, ← hσ2, ← hσ1]; rfl
      -- the loop
      generalize hρ4 : (vi c!"i" n, σ3.heap.length) :: ρ3 = ρ4
      generalize hσ4 : (σ3.alloc (.int 0)).2 = σ4
      have lσ4 : Grown σ3.heap σ4.heap := by rw [← hσ4]; exact grown_append _ _
      have len5 : σ4.heap.length = σ3.heap.length + 1 := by rw [← hσ4]; exact alloc_len _ _
      have hfor : exec L pats O call (.forCount (vi c!"i" n) (vi c!"count" n) item) ρ3 σ3 = (do
          let (f, σ) ← loop (fun k τ => .ok (τ.put σ3.heap.length (.int k))) (fun τ => bodyOf (exec L pats O call item ρ4 τ))
            ((List.range' 0 ys.length).map fun (k : Nat) => (k : Int)) σ4
          return (f, ρ3, σ)) := by
        rw [exec, eval_var L pats c3 v3, ← hρ4, ← hσ4, ← List.range_eq_range']
        rfl
      have hloop := loop_items
        (T := fun a => a = σ2.heap.length ∨ a = σ3.heap.length) (A := σ2.heap.length) (C := σ3.heap.length)
        (lo := σ4.heap.length) (τ0 := σ4) (f := serTy O L embed t) (body := fun τ => bodyOf (exec L pats O call item ρ4 τ))
        (.inl rfl) (.inr rfl) (by omega) (by intro a h; omega) rfl ys σ4 [] [] (.refl _ _) rfl
        (by simpa using lσ4.get (fun h => h) a3) .nil (by
          intro τ' k y' hf' he' hk hC c hA hst
          simp only [List.length_nil, Nat.zero_add] at hC hst ⊢
          obtain ⟨l, xs, x', hxl, hl0, hxk, hhk⟩ := hitem k y' hk
          subst hxl
          have hext : Grown σ₀.heap τ'.heap := by
            refine ⟨Nat.le_trans hx.more (Nat.le_trans l03.frame.more (Nat.le_trans lσ4.more hf'.more)), fun a ha _ => ?_⟩
            have ha1 : a < σ.heap.length := Nat.lt_of_lt_of_le ha hx.more
            have ha3 : a < σ3.heap.length := Nat.lt_of_lt_of_le ha1 l03.frame.more
            rw [hf'.same a (Nat.lt_of_lt_of_le ha3 lσ4.more) (by omega), lσ4.same a ha3 (fun h => h),
              l03.frame.same a ha1 (fun h => h), hx.same a ha (fun h => h)]
          have hs4 : ρ4.lookup (vi c!"slice" n) = some σ1.heap.length := by
            rw [← hρ4, lookup_ne (vi_ne (by decide) n)]; exact s3
          have ht4 : ρ4.lookup (vi c!"target" n) = some τ.heap.length := by
            rw [← hρ4, lookup_ne (vi_ne (by decide) n)]; exact t3
          have hi4 : ρ4.lookup (vi c!"i" n) = some σ3.heap.length := by rw [← hρ4]; exact lookup_self _ _ _
          have hw4 : τ'.heap[σ1.heap.length]? = some (.slice l) := by
            refine hf'.get ?_ (lσ4.get (fun h => h) w3)
            omega
          have hu4 : τ'.heap[τ.heap.length]? = some (.slice σ2.heap.length) := by
            refine hf'.get ?_ (lσ4.get (fun h => h) u3)
            omega
          refine Stored.body (n := n + 1) (ρ := ρ4) (ihv ρ4 τ' σ2.heap.length (.int (k : Int)) c x' y' hext ?_ ?_ hA hst hhk)
          · intro ρ' σ' hl
            refine eval_item (k := k) ((hl.vars _ (old_vi (Nat.lt_succ_self n))).trans hs4) (hl.frame.get (fun h => h) hw4)
              ((hl.vars _ (old_vi (Nat.lt_succ_self n))).trans hi4) (hl.frame.get (fun h => h) hC) ?_ hxk
            exact hl.frame.get (fun h => h) (hext.get (fun h => h) hl0)
          · refine target_index ht4 (old_vi (Nat.lt_succ_self n)) (.inr hu4) fun ρ' σ' hl => ?_
            exact eval_var L pats ((hl.vars _ (old_vi (Nat.lt_succ_self n))).trans hi4) (hl.frame.get (fun h => h) hC))
      have rg4 : σ4.ranges = σ.ranges := by rw [← hσ4, ← rg3]; rfl
      have er4 : σ4.errors = σ.errors := by rw [← hσ4, ← er3]; rfl
      rw [rg4] at hloop
      rw [List.length_nil] at hloop
      rw [block]
      generalize hq : serItems (serTy O L embed t) ys σ.ranges = q at hloop ⊢
      cases q with
      | error ex =>
        show Stored n tl c0 key ρ σ (.error ex) _
        rw [stored_error]
        rcases hloop with h | ⟨hp, h⟩
        · exact .inl h
        · refine .inr ⟨hp, exec_seq_error O L pats call ?_⟩
          rw [hfor, h]
          rfl
      | ok q =>
        obtain ⟨js, r⟩ := q
        obtain ⟨τ5, ws, h1, h2, h3, h4, h5, h6⟩ := hloop
        rw [h1] at hfor
        rw [exec_seq O L pats call hfor, block, block, exec_seq_skip]
        have l5 : Later n (fun _ => False) ρ σ ρ3 τ5 := by
          refine ⟨l03.vars, Nat.le_trans l03.frame.more (Nat.le_trans lσ4.more h2.more), fun a ha _ => ?_⟩
          have ha3 : a < σ3.heap.length := Nat.lt_of_lt_of_le ha l03.frame.more
          rw [h2.same a (Nat.lt_of_lt_of_le ha3 lσ4.more) (by omega), lσ4.same a ha3 (fun h => h),
              l03.frame.same a ha (fun h => h)]
        have e5 : eval L pats ρ3 τ5 (.var (vi c!"target" n)) = .ok (.slice σ2.heap.length) := by
          refine eval_var L pats t3 (h2.get ?_ (lσ4.get (fun h => h) u3))
          omega
        refine assign_ok ht hc hs l5 (evalRhs_val L pats call e5) (.refl _ _) ?_ h5 (h6.trans er4)
        refine .ofArray (by omega) h3 (forall₂_imp (fun a b h => h.mono ?_) h4)
        omega
  | map t ih =>
    intro p e n code m h
    rw [serializeValue] at h
    cases hi' : serializeValue t (.index (.var (vi c!"target" n)) (.var (vi c!"k" n))) (.var (vi c!"v" n)) (n + 1) with
    | error _ => rw [hi'] at h; cases h
    | ok q =>
      obtain ⟨item, m'⟩ := q
      rw [hi'] at h
      cases h
      obtain ⟨hnm, ihv⟩ := ih _ _ _ _ _ hi'
      refine ⟨Nat.le_of_succ_le hnm, fun ρ σ tl key c0 x y hx hsrc ht hc hs hh => ?_⟩
      -- the entries
      obtain ⟨es, ys, hy, hlen, hes⟩ : ∃ (es : List (Str × Val)) (ys : List (Str × GV)),
          (y = .map ys ∨ (y = .nil ∧ ys = [])) ∧ (∀ τ : St, Grown σ₀.heap τ.heap → entriesOf τ x = .ok es) ∧
          Forall₂ (Entry fun x y => Holds g σ₀ t x y) es ys := by
        cases hh with
        | @map _ l xs ys h1 h2 h3 =>
          refine ⟨xs, ys, .inl rfl, fun τ hτ => ?_, entries_of h2 h3⟩
          rw [entriesOf, hτ.get (fun h => h) h1]
        | mapNil hn =>
          refine ⟨[], [], .inr ⟨rfl, rfl⟩, fun τ _ => ?_, .nil⟩
          cases x <;> first | rfl | cases hn
      have hser : serTy O L embed (.map t) y σ.ranges = (do
          let (xs, r) ← serEntries (serTy O L embed t) [] (O.visit σ.ranges ys) (σ.ranges + 1)
          return (.obj xs, r)) := by
        rcases hy with rfl | ⟨rfl, rfl⟩
        · rw [serTy]
        · have hv : O.visit σ.ranges ([] : List (Str × GV)) = [] := by simp [Order.visit]
          rw [serTy, hv]; rfl
      rw [hser]
      -- the declarations
      have e1 : evalRhs L pats call ρ σ .makeMap = .ok (.map σ.heap.length, (σ.alloc (.table [])).2) := rfl
      rw [block, exec_seq O L pats call (exec_declare O L pats call e1)]
      generalize hτ : (σ.alloc (.table [])).2 = τ
      generalize hσ1 : (τ.alloc (.map σ.heap.length)).2 = σ1
      generalize hρ1 : (vi c!"target" n, τ.heap.length) :: ρ = ρ1
      have lτ : Grown σ.heap τ.heap := by rw [← hτ]; exact grown_append _ _
      have lσ1 : Grown τ.heap σ1.heap := by rw [← hσ1]; exact grown_append _ _
      have l1 : Later n (fun _ => False) ρ σ ρ1 σ1 := by
        have : Later n (fun _ => False) ρ τ ρ1 σ1 := by
          rw [← hρ1, ← hσ1]
          exact later_declare (Nat.le_refl _) _ _ _ _ _
        exact ⟨this.vars, lτ.trans lσ1⟩
      have a1 : σ1.heap[σ.heap.length]? = some (.table []) := by
        refine lσ1.get (fun h => h) ?_
        rw [← hτ]
        exact alloc_get _ _
      have t1 : ρ1.lookup (vi c!"target" n) = some τ.heap.length := by rw [← hρ1]; exact lookup_self _ _ _
      have u1 : σ1.heap[τ.heap.length]? = some (.map σ.heap.length) := by rw [← hσ1]; exact alloc_get _ _
      have e2 := evalRhs_val L pats call (hsrc _ _ l1).1
      rw [block, exec_seq O L pats call (exec_declare O L pats call e2)]
      generalize hσ2 : (σ1.alloc x).2 = σ2
      generalize hρ2 : (vi c!"map" n, σ1.heap.length) :: ρ1 = ρ2
      have l2 : Later n (fun _ => False) ρ1 σ1 ρ2 σ2 := by
        rw [← hρ2, ← hσ2]
        exact later_declare (Nat.le_refl _) _ _ _ _ _
      have l02 := l1.trans l2
      have s2 : ρ2.lookup (vi c!"map" n) = some σ1.heap.length := by rw [← hρ2]; exact lookup_self _ _ _
      have w2 : σ2.heap[σ1.heap.length]? = some x := by rw [← hσ2]; exact alloc_get _ _
      have a2 : σ2.heap[σ.heap.length]? = some (.table []) := l2.frame.get (fun h => h) a1
      have t2 : ρ2.lookup (vi c!"target" n) = some τ.heap.length := by
        rw [← hρ2, lookup_ne (vi_ne (by decide) n)]; exact t1
      have u2 : σ2.heap[τ.heap.length]? = some (.map σ.heap.length) := l2.frame.get (fun h => h) u1
      have len1 : τ.heap.length = σ.heap.length + 1 := by rw [← hτ]; exact alloc_len _ _
      have len2 : σ1.heap.length = τ.heap.length + 1 := by rw [← hσ1]; exact alloc_len _ _
      have len3 : σ2.heap.length = σ1.heap.length + 1 := by rw [← hσ2]; exact alloc_len _ _
      have rg2 : σ2.ranges = σ.ranges := by rw [← hσ2, ← hσ1, ← hτ]; rfl
      have er2 : σ2.errors = σ.errors := by rw [← hσ2, ← hσ1, ← hτ]; rfl
      have hx2 : Grown σ₀.heap σ2.heap := hx.trans l02.frame
      -- the loop
      generalize hρ4 : (vi c!"v" n, σ2.heap.length + 1) :: (vi c!"k" n, σ2.heap.length) :: ρ2 = ρ4
      generalize hσ4 : ({ ((σ2.alloc .zero).2.alloc .zero).2 with ranges := σ2.ranges + 1 } : St) = σ4
      have lσ4 : Grown σ2.heap σ4.heap := by rw [← hσ4]; exact (grown_append _ _).trans (grown_append _ _)
      have len4 : σ4.heap.length = σ2.heap.length + 2 := by
        rw [← hσ4]
        show (σ2.heap ++ [_] ++ [_]).length = _
        simp
      have hfor : exec L pats O call (.forEntries (vi c!"k" n) (some (vi c!"v" n)) (.var (vi c!"map" n)) item) ρ2 σ2 = (do
          let (f, σ) ← loop (fun (kv : Str × Val) τ =>
              .ok ((τ.put σ2.heap.length (.str kv.1)).put (σ2.heap.length + 1) kv.2))
            (fun τ => bodyOf (exec L pats O call item ρ4 τ)) (O.visit σ.ranges es) σ4
          return (f, ρ2, σ)) := by
        rw [exec, eval_var L pats s2 w2]
        show (do
          let kvs ← entriesOf σ2 x
          let (f, σ) ← loop (fun (kv : Str × Val) τ =>
              .ok ((τ.put σ2.heap.length (.str kv.1)).put (σ2.heap.length + 1) kv.2))
            (fun τ => bodyOf (exec L pats O call item ((vi c!"v" n, σ2.heap.length + 1) :: (vi c!"k" n, σ2.heap.length) :: ρ2) τ))
            (O.visit σ2.ranges kvs) { ((σ2.alloc .zero).2.alloc .zero).2 with ranges := σ2.ranges + 1 }
          return (f, ρ2, σ)) = _
        rw [hlen σ2 hx2, hρ4, hσ4, rg2]
        rfl
      have hloop := loop_entries
        (T := fun a => a = σ.heap.length ∨ a = σ2.heap.length ∨ a = σ2.heap.length + 1) (A := σ.heap.length)
        (K := σ2.heap.length) (V := σ2.heap.length + 1) (R := fun x y => Holds g σ₀ t x y)
        (lo := σ4.heap.length) (τ0 := σ4) (f := serTy O L embed t) (body := fun τ => bodyOf (exec L pats O call item ρ4 τ))
        (.inl rfl) (.inr (.inl rfl)) (.inr (.inr rfl)) (by omega) (by omega) (by omega) (by intro a h; omega) rfl (by
          intro τ' k x' y' hf' he' hhk hK hV c hA hst
          have hext : Grown σ₀.heap τ'.heap := by
            refine ⟨Nat.le_trans hx2.more (Nat.le_trans lσ4.more hf'.more), fun a ha _ => ?_⟩
            have ha1 : a < σ.heap.length := Nat.lt_of_lt_of_le ha hx.more
            have ha2 : a < σ2.heap.length := Nat.lt_of_lt_of_le ha hx2.more
            rw [hf'.same a (Nat.lt_of_lt_of_le ha2 lσ4.more) (by omega), lσ4.same a ha2 (fun h => h),
              hx2.same a ha (fun h => h)]
          have ht4 : ρ4.lookup (vi c!"target" n) = some τ.heap.length := by
            rw [← hρ4, lookup_ne (vi_ne (by decide) n), lookup_ne (vi_ne (by decide) n)]; exact t2
          have hv4 : ρ4.lookup (vi c!"v" n) = some (σ2.heap.length + 1) := by rw [← hρ4]; exact lookup_self _ _ _
          have hk4 : ρ4.lookup (vi c!"k" n) = some σ2.heap.length := by
            rw [← hρ4, lookup_ne (vi_ne (by decide) n)]; exact lookup_self _ _ _
          have hu4 : τ'.heap[τ.heap.length]? = some (.map σ.heap.length) := by
            refine hf'.get ?_ (lσ4.get (fun h => h) u2)
            omega
          refine Stored.body (n := n + 1) (ρ := ρ4) (ihv ρ4 τ' σ.heap.length (.str k) c x' y' hext ?_ ?_ hA hst hhk)
          · intro ρ' σ' hl
            have hv' := (hl.vars _ (old_vi (b := c!"v") (Nat.lt_succ_self n))).trans hv4
            have hV' := hl.frame.get (fun h => h) hV
            refine ⟨eval_var L pats hv' hV', ⟨σ2.heap.length + 1, []⟩, ?_, ?_⟩
            · rw [addrOf, hv']
              rfl
            · show (σ'.heap[σ2.heap.length + 1]?).bind (part []) = _
              rw [hV']
              rfl
          · refine target_index ht4 (old_vi (Nat.lt_succ_self n)) (.inl hu4) fun ρ' σ' hl => ?_
            exact eval_var L pats ((hl.vars _ (old_vi (Nat.lt_succ_self n))).trans hk4) (hl.frame.get (fun h => h) hK))
        (O.visit σ.ranges es) (O.visit σ.ranges ys) (visit_forall₂ O _ hes) σ4 [] [] (.refl _ _) rfl
        (lσ4.get (fun h => h) a2) .nil
      have rg4 : σ4.ranges = σ.ranges + 1 := by rw [← hσ4, ← rg2]
      have er4 : σ4.errors = σ.errors := by rw [← hσ4, ← er2]; rfl
      rw [rg4] at hloop
      rw [block]
      generalize hq : serEntries (serTy O L embed t) [] (O.visit σ.ranges ys) (σ.ranges + 1) = q at hloop ⊢
      cases q with
      | error ex =>
        show Stored n tl c0 key ρ σ (.error ex) _
        rw [stored_error]
        rcases hloop with h | ⟨hp, h⟩
        · exact .inl h
        · refine .inr ⟨hp, exec_seq_error O L pats call ?_⟩
          rw [hfor, h]
          rfl
      | ok q =>
        obtain ⟨js, r⟩ := q
        obtain ⟨τ5, ws, h1, h2, h3, h4, h5, h6⟩ := hloop
        rw [h1] at hfor
        rw [exec_seq O L pats call hfor, block, block, exec_seq_skip]
        have l5 : Later n (fun _ => False) ρ σ ρ2 τ5 := by
          refine ⟨l02.vars, Nat.le_trans l02.frame.more (Nat.le_trans lσ4.more h2.more), fun a ha _ => ?_⟩
          have ha2 : a < σ2.heap.length := Nat.lt_of_lt_of_le ha l02.frame.more
          rw [h2.same a (Nat.lt_of_lt_of_le ha2 lσ4.more) (by omega), lσ4.same a ha2 (fun h => h),
              l02.frame.same a ha (fun h => h)]
        have e5 : eval L pats ρ2 τ5 (.var (vi c!"target" n)) = .ok (.map σ.heap.length) := by
          refine eval_var L pats t2 (h2.get ?_ (lσ4.get (fun h => h) u2))
          omega
        refine assign_ok ht hc hs l5 (evalRhs_val L pats call e5) (.refl _ _) ?_ h5 (h6.trans er4)
        refine .ofTable (Nat.le_refl _) h3 (forall₂_imp (fun a b h => ⟨h.1, h.2.mono ?_⟩) h4)
        omega

end

end Mapry.GoExec
