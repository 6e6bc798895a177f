import Verif.GoMemory

/-!
# The generated Go code which writes a value does what the serializer does
-/

namespace Mapry.GoExec

open Mapry.GoLang Mapry.GoGen
open Mapry.GoRuntime (JVal Lib serTy serItems serEntries serTime)
open Mapry.GoCode (Name v vi own)

/-! ## The statements -/

/-- What has gone wrong in the model is a panic, which is there in the code, too, unless the stack is exhausted. -/
def Fails {α : Type} (e : Exc) (R : Except Exc α) : Prop := e = .recursionError ∨ ((∃ msg, e = .panic msg) ∧ R = .error e)

/-- The value has been stored in the cell at the location `tl` under the key; `c0` was in the cell. -/
def Stored (n tl : Nat) (c0 key : Val) (ρ : Env) (σ : St) : Except Exc (JVal × Nat) → Result → Prop
  | .ok (j, r), R => ∃ ρ' σ' w c, R = .ok (.next, ρ', σ') ∧ Later n (· = tl) ρ σ ρ' σ' ∧ store c0 key w = some c ∧
      σ'.heap[tl]? = some c ∧ Jsonable σ'.heap σ.heap.length j w ∧ σ'.ranges = r ∧ σ'.errors = σ.errors
  | .error e, R => Fails e R

/-- The same without the variables -/
def BodyStored (tl : Nat) (c0 key : Val) (σ : St) : Except Exc (JVal × Nat) → Except Exc (Flow × St) → Prop
  | .ok (j, r), R => ∃ σ' w c, R = .ok (.next, σ') ∧ Frame (· = tl) σ.heap σ'.heap ∧ store c0 key w = some c ∧
      σ'.heap[tl]? = some c ∧ Jsonable σ'.heap σ.heap.length j w ∧ σ'.ranges = r ∧ σ'.errors = σ.errors
  | .error e, R => Fails e R

/-- The function has returned the JSONable. -/
def Called (σ : St) : Except Exc (JVal × Nat) → Except Exc (List Val × St) → Prop
  | .ok (j, r), R => ∃ w σ', R = .ok ([w], σ') ∧ Grown σ.heap σ'.heap ∧ Jsonable σ'.heap σ.heap.length j w ∧
      σ'.ranges = r ∧ σ'.errors = σ.errors
  | .error e, R => Fails e R

theorem stored_error {n tl : Nat} {c0 key : Val} {ρ : Env} {σ : St} {e : Exc} {R : Result} :
    Stored n tl c0 key ρ σ (.error e) R ↔ Fails e R := .rfl

theorem bodyStored_error {tl : Nat} {c0 key : Val} {σ : St} {e : Exc} {R : Except Exc (Flow × St)} :
    BodyStored tl c0 key σ (.error e) R ↔ Fails e R := .rfl

theorem called_error {σ : St} {e : Exc} {R : Except Exc (List Val × St)} : Called σ (.error e) R ↔ Fails e R := .rfl

theorem Stored.body {n tl : Nat} {c0 key : Val} {ρ : Env} {σ : St} {r : Except Exc (JVal × Nat)} {R : Result}
    (h : Stored n tl c0 key ρ σ r R) : BodyStored tl c0 key σ r (bodyOf R) := by
  cases r with
  | error e =>
    rw [stored_error] at h
    rw [bodyStored_error]
    rcases h with h | ⟨hp, h⟩
    · exact .inl h
    · exact .inr ⟨hp, by rw [h]; rfl⟩
  | ok p =>
    obtain ⟨ρ', σ', w, c, hR, hl, hs, hc, hj, hr, he⟩ := h
    exact ⟨σ', w, c, by rw [hR]; rfl, hl.frame, hs, hc, hj, hr, he⟩

section
variable (O : Order) (L : Lib) (pats : Nat → Str) (call : Call)

theorem exec_seq {a b : Stmt} {ρ ρ' : Env} {σ σ' : St} (h : exec L pats O call a ρ σ = .ok (.next, ρ', σ')) :
    exec L pats O call (.seq a b) ρ σ = exec L pats O call b ρ' σ' := by
  simp only [exec, h]
  rfl

theorem exec_seq_error {a b : Stmt} {ρ : Env} {σ : St} {e : Exc} (h : exec L pats O call a ρ σ = .error e) :
    exec L pats O call (.seq a b) ρ σ = .error e := by
  simp only [exec, h]
  rfl

theorem exec_seq_ret {a b : Stmt} {ρ ρ' : Env} {σ σ' : St} (h : exec L pats O call a ρ σ = .ok (.ret, ρ', σ')) :
    exec L pats O call (.seq a b) ρ σ = .ok (.ret, ρ', σ') := by
  simp only [exec, h]
  rfl

theorem exec_seq_skip (a : Stmt) (ρ : Env) (σ : St) : exec L pats O call (.seq a .skip) ρ σ = exec L pats O call a ρ σ := by
  simp only [exec]
  cases exec L pats O call a ρ σ with
  | error e => rfl
  | ok r =>
    obtain ⟨f, ρ', σ'⟩ := r
    cases f <;> rfl

theorem exec_declare {x : Name} {r : Rhs} {ρ : Env} {σ σ' : St} {w : Val} (h : evalRhs L pats call ρ σ r = .ok (w, σ')) :
    exec L pats O call (.declare x r) ρ σ = .ok (.next, (x, σ'.heap.length) :: ρ, (σ'.alloc w).2) := by
  simp only [exec, h]
  rfl

theorem evalRhs_val {e : Expr} {ρ : Env} {σ : St} {w : Val} (h : eval L pats ρ σ e = .ok w) :
    evalRhs L pats call ρ σ (.val e) = .ok (w, σ) := by
  simp only [evalRhs, h]
  rfl

theorem eval_var {x : Name} {ρ : Env} {σ : St} {l : Nat} {w : Val} (hx : ρ.lookup x = some l) (hl : σ.heap[l]? = some w) :
    eval L pats ρ σ (.var x) = .ok w := by
  rw [eval, hx, Option.bind_some, hl]
  rfl

/-- The expression has the value, also in later states, and is at an address. -/
def Source (n : Nat) (ρ : Env) (σ : St) (e : Expr) (x : Val) : Prop :=
  ∀ ρ' σ', Later n (fun _ => False) ρ σ ρ' σ' →
    eval L pats ρ' σ' e = .ok x ∧ ∃ a, addrOf L pats ρ' σ' e = .ok a ∧ σ'.read a = some x

/-- The place is the entry of the key in the cell, also in later states. -/
def Target (n : Nat) (ρ : Env) (σ : St) (p : Place) (tl : Nat) (key : Val) : Prop :=
  ∀ ρ' σ', Later n (fun _ => False) ρ σ ρ' σ' → ∀ w,
    assignTo L pats ρ' σ' w p = need ((σ'.heap[tl]?).bind fun c => (store c key w).map fun c => σ'.put tl c)

/-- Any value can be stored in the contents. -/
def Storable (c key : Val) : Prop := ∀ w, ∃ c', store c key w = some c'

variable {L pats O call}

theorem Source.later {n m : Nat} {ρ ρ' : Env} {σ σ' : St} {e : Expr} {x : Val} (h : Source L pats n ρ σ e x) (hm : n ≤ m)
    (hl : Later n (fun _ => False) ρ σ ρ' σ') : Source L pats m ρ' σ' e x :=
  fun ρ'' σ'' hl' => h ρ'' σ'' (hl.trans (hl'.mono hm fun _ _ h => h))

/-- The final assignment -/
theorem assign_ok {n tl : Nat} {ρ ρ1 : Env} {σ σ1 σ2 : St} {p : Place} {key c0 w : Val} {rhs : Rhs} {j : JVal} {r : Nat}
    (ht : Target L pats n ρ σ p tl key) (hc : σ.heap[tl]? = some c0) (hs : Storable c0 key)
    (hl : Later n (fun _ => False) ρ σ ρ1 σ1) (hr : evalRhs L pats call ρ1 σ1 rhs = .ok (w, σ2))
    (hg : Grown σ1.heap σ2.heap) (hj : Jsonable σ2.heap σ.heap.length j w) (hrg : σ2.ranges = r)
    (he : σ2.errors = σ.errors) : Stored n tl c0 key ρ σ (.ok (j, r)) (exec L pats O call (.assign p rhs) ρ1 σ1) := by
  obtain ⟨c, hsc⟩ := hs w
  have hl2 : Later n (fun _ => False) ρ σ ρ1 σ2 := ⟨hl.vars, hl.frame.trans hg⟩
  have hc2 : σ2.heap[tl]? = some c0 := hl2.frame.get (fun h => h) hc
  have ha := ht ρ1 σ2 hl2 w
  rw [hc2, Option.bind_some, hsc, Option.map_some, need] at ha
  have hlt : tl < σ.heap.length := lt_of_get hc
  have hlt2 : tl < σ2.heap.length := lt_of_get hc2
  refine ⟨ρ1, σ2.put tl c, w, c, ?_, ⟨hl.vars, ?_⟩, hsc, ?_, ?_, hrg, he⟩
  · simp only [exec, hr]
    show (do let σ ← assignTo L pats ρ1 σ2 w p; return (Flow.next, ρ1, σ)) = _
    rw [ha]
    rfl
  · exact (hl2.frame.mono fun _ _ h => h.elim).trans (frame_set _ _ _)
  · show (σ2.heap.set tl c)[tl]? = some c
    rw [List.getElem?_set_self hlt2]
  · exact hj.frame (frame_set _ _ _) fun a h => h ▸ hlt

theorem assign_error {ρ1 : Env} {σ1 : St} {p : Place} {rhs : Rhs} {e : Exc}
    (hr : evalRhs L pats call ρ1 σ1 rhs = .error e) : exec L pats O call (.assign p rhs) ρ1 σ1 = .error e := by
  simp only [exec, hr]
  rfl

/-! ## The loop over a slice -/

/-- The loop has stored the items. -/
def ItemsDone (T : Nat → Prop) (A lo : Nat) (τ0 : St) (zs : List JVal) :
    Except Exc (List JVal × Nat) → Except Exc (Flow × St) → Prop
  | .ok (xs, r), R => ∃ τ ws, R = .ok (.next, τ) ∧ Frame T τ0.heap τ.heap ∧ τ.heap[A]? = some (.array ws) ∧
      Forall₂ (Jsonable τ.heap lo) (zs ++ xs) ws ∧ τ.ranges = r ∧ τ.errors = τ0.errors
  | .error e, R => Fails e R

theorem set_next (ws : List Val) (x w : Val) (rest : List Val) :
    (ws ++ x :: rest).set ws.length w = (ws ++ [w]) ++ rest := by
  rw [List.set_append_right _ _ (Nat.le_refl _)]
  simp

theorem loop_items {T : Nat → Prop} {A C lo : Nat} {τ0 : St} {f : GV → Nat → Except Exc (JVal × Nat)}
    {body : St → Except Exc (Flow × St)} (hA : T A) (hC : T C) (hne : A ≠ C) (hT : ∀ a, T a → a < lo)
    (hlo : lo = τ0.heap.length) :
    ∀ (ys : List GV) (τ : St) (ws : List Val) (zs : List JVal), Frame T τ0.heap τ.heap → τ.errors = τ0.errors →
      τ.heap[A]? = some (.array (ws ++ List.replicate ys.length .zero)) → Forall₂ (Jsonable τ.heap lo) zs ws →
      (∀ τ j y, Frame T τ0.heap τ.heap → τ.errors = τ0.errors → ys[j]? = some y →
        τ.heap[C]? = some (.int ((ws.length + j : Nat) : Int)) → ∀ c, τ.heap[A]? = some c →
        Storable c (.int ((ws.length + j : Nat) : Int)) →
        BodyStored A c (.int ((ws.length + j : Nat) : Int)) τ (f y τ.ranges) (body τ)) →
      ItemsDone T A lo τ0 zs (serItems f ys τ.ranges)
        (loop (fun k τ => .ok (τ.put C (.int k))) body ((List.range' ws.length ys.length).map fun (k : Nat) => (k : Int)) τ)
  | [], τ, ws, zs, hf, he, hc, hz, _ => by
    refine ⟨τ, ws, rfl, hf, ?_, by simpa using hz, rfl, he⟩
    simpa using hc
  | y :: ys, τ, ws, zs, hf, he, hc, hz, hb => by
    have hf1 : Frame T τ.heap (τ.put C (.int ws.length)).heap := (frame_set _ _ _).mono fun a _ h => h ▸ hC
    have hf01 : Frame T τ0.heap (τ.put C (.int ws.length)).heap := hf.trans hf1
    have hCl : C < τ.heap.length := Nat.lt_of_lt_of_le (hT C hC) (hlo ▸ hf.more)
    have hC1 : (τ.put C (.int ws.length)).heap[C]? = some (.int ws.length) := List.getElem?_set_self hCl
    have hA1 : (τ.put C (.int ws.length)).heap[A]? = some (.array (ws ++ List.replicate (ys.length + 1) .zero)) :=
      ((frame_set _ _ _).same A (lt_of_get hc) hne).trans hc
    have hst : ∀ w, store (.array (ws ++ List.replicate (ys.length + 1) .zero)) (.int (ws.length : Int)) w =
        some (.array ((ws ++ [w]) ++ List.replicate ys.length .zero)) := by
      intro w
      rw [store, if_pos ⟨Int.natCast_nonneg _, by simp⟩, Int.toNat_natCast, List.replicate_succ, set_next]
    have hb1 := hb (τ.put C (.int ws.length)) 0 y hf01 he rfl (by simpa using hC1) _ hA1
      (fun w => ⟨_, by simpa using hst w⟩)
    rw [serItems]
    rw [List.length_cons, List.range'_succ, List.map_cons, loop]
    simp only [Nat.add_zero] at hb1
    show ItemsDone T A lo τ0 zs (do
      let (x, r) ← f y τ.ranges
      let (xs, r) ← serItems f ys r
      return (x :: xs, r)) (do
        let (f, σ) ← body (τ.put C (.int ws.length))
        match f with
        | .next =>
          loop (fun k τ => .ok (τ.put C (.int k))) body
            ((List.range' (ws.length + 1) ys.length).map fun (k : Nat) => (k : Int)) σ
        | .brk => return (.next, σ)
        | .ret => return (.ret, σ))
    replace hb1 : BodyStored A (.array (ws ++ List.replicate (ys.length + 1) .zero)) (.int (ws.length : Int))
      (τ.put C (.int ws.length)) (f y τ.ranges) (body (τ.put C (.int ws.length))) := hb1
    generalize f y τ.ranges = fy at hb1 ⊢
    cases fy with
    | error e =>
      rw [bodyStored_error] at hb1
      rcases hb1 with h | ⟨hp, h⟩
      · exact .inl h
      · exact .inr ⟨hp, by rw [h]; rfl⟩
    | ok p =>
      obtain ⟨j, r⟩ := p
      obtain ⟨τ2, w, c, hR, hf2, hs2, hc2, hj2, hr2, he2⟩ := hb1
      rw [hst] at hs2
      cases hs2
      rw [hR]
      have hf12 : Frame T (τ.put C (.int ws.length)).heap τ2.heap := hf2.mono fun a _ h => h ▸ hA
      have hz2 : Forall₂ (Jsonable τ2.heap lo) (zs ++ [j]) (ws ++ [w]) := by
        refine forall₂_append (forall₂_imp (fun a b h => h.frame (hf1.trans hf12) hT) hz) (.cons (hj2.mono ?_) .nil)
        rw [hlo]
        exact hf01.more
      have ih := loop_items (body := body) (f := f) hA hC hne hT hlo ys τ2 (ws ++ [w]) (zs ++ [j]) (hf01.trans hf12)
        (he2.trans he) hc2 hz2 (by
          intro τ' i y' hf' he' hy hci c' hc' hs'
          have e : (ws ++ [w]).length + i = ws.length + (i + 1) := by simp; omega
          rw [e] at hci hs' ⊢
          exact hb τ' (i + 1) y' hf' he' (by simpa using hy) hci c' hc' hs')
      rw [hr2, List.length_append, List.length_singleton] at ih
      show ItemsDone T A lo τ0 zs (do
        let (xs, r) ← serItems f ys r
        return (j :: xs, r)) (loop (fun k τ => .ok (τ.put C (.int k))) body
            ((List.range' (ws.length + 1) ys.length).map fun (k : Nat) => (k : Int)) τ2)
      generalize serItems f ys r = q at ih ⊢
      cases q with
      | error e => exact ih
      | ok q =>
        obtain ⟨xs, r'⟩ := q
        obtain ⟨τ3, ws3, h1, h2, h3, h4, h5, h6⟩ := ih
        exact ⟨τ3, ws3, h1, h2, h3, by simpa using h4, h5, h6⟩

/-! ## The loop over a map -/

/-- The loop has stored the entries. -/
def EntriesDone (T : Nat → Prop) (A lo : Nat) (τ0 : St) :
    Except Exc (GoMap JVal × Nat) → Except Exc (Flow × St) → Prop
  | .ok (xs, r), R => ∃ τ ws, R = .ok (.next, τ) ∧ Frame T τ0.heap τ.heap ∧ τ.heap[A]? = some (.table ws) ∧
      Forall₂ (Entry (Jsonable τ.heap lo)) xs ws ∧ τ.ranges = r ∧ τ.errors = τ0.errors
  | .error e, R => Fails e R

theorem loop_entries {T : Nat → Prop} {A K V lo : Nat} {τ0 : St} {f : GV → Nat → Except Exc (JVal × Nat)}
    {R : Val → GV → Prop} {body : St → Except Exc (Flow × St)} (hA : T A) (hK : T K) (hV : T V) (hneK : A ≠ K) (hneV : A ≠ V)
    (hKV : K ≠ V) (hT : ∀ a, T a → a < lo) (hlo : lo = τ0.heap.length)
    (hb : ∀ τ k x y, Frame T τ0.heap τ.heap → τ.errors = τ0.errors → R x y → τ.heap[K]? = some (.str k) →
        τ.heap[V]? = some x → ∀ c, τ.heap[A]? = some c → Storable c (.str k) →
        BodyStored A c (.str k) τ (f y τ.ranges) (body τ)) :
    ∀ (es : List (Str × Val)) (ys : List (Str × GV)), Forall₂ (Entry R) es ys →
      ∀ (τ : St) (ws : List (Str × Val)) (acc : GoMap JVal), Frame T τ0.heap τ.heap → τ.errors = τ0.errors →
      τ.heap[A]? = some (.table ws) → Forall₂ (Entry (Jsonable τ.heap lo)) acc ws →
      EntriesDone T A lo τ0 (serEntries f acc ys τ.ranges)
        (loop (fun (kv : Str × Val) τ => .ok ((τ.put K (.str kv.1)).put V kv.2)) body es τ) := by
  intro es ys hes
  induction hes with
  | nil =>
    intro τ ws acc hf he hc hz
    exact ⟨τ, ws, rfl, hf, hc, hz, rfl, he⟩
  | @cons x y es ys hxy _ ih =>
    obtain ⟨k, x⟩ := x
    obtain ⟨k', y⟩ := y
    have hk : k = k' := hxy.1
    subst hk
    intro τ ws acc hf he hc hz
    have hf1 : Frame T τ.heap ((τ.put K (.str k)).put V x).heap :=
      ((frame_set _ _ _).mono fun a _ h => h ▸ hK).trans ((frame_set _ _ _).mono fun a _ h => h ▸ hV)
    have hf01 := hf.trans hf1
    have hVl : V < (τ.heap.set K (.str k)).length := by
      rw [List.length_set]
      exact Nat.lt_of_lt_of_le (hT V hV) (hlo ▸ hf.more)
    have hKl : K < τ.heap.length := Nat.lt_of_lt_of_le (hT K hK) (hlo ▸ hf.more)
    have hV1 : ((τ.put K (.str k)).put V x).heap[V]? = some x := List.getElem?_set_self hVl
    have hK1 : ((τ.put K (.str k)).put V x).heap[K]? = some (.str k) := by
      show ((τ.heap.set K (.str k)).set V x)[K]? = _
      rw [List.getElem?_set_ne (Ne.symm hKV), List.getElem?_set_self hKl]
    have hA1 : ((τ.put K (.str k)).put V x).heap[A]? = some (.table ws) := by
      show ((τ.heap.set K (.str k)).set V x)[A]? = _
      rw [List.getElem?_set_ne (Ne.symm hneV), List.getElem?_set_ne (Ne.symm hneK), hc]
    have hb1 := hb ((τ.put K (.str k)).put V x) k x y hf01 he hxy.2 hK1 hV1 _ hA1 (fun w => ⟨_, rfl⟩)
    rw [serEntries, loop]
    show EntriesDone T A lo τ0 (do
      let (x, r) ← f y τ.ranges
      serEntries f (GoMap.put k x acc) ys r) (do
        let (f, σ) ← body ((τ.put K (.str k)).put V x)
        match f with
        | .next => loop (fun (kv : Str × Val) τ => .ok ((τ.put K (.str kv.1)).put V kv.2)) body es σ
        | .brk => return (.next, σ)
        | .ret => return (.ret, σ))
    replace hb1 : BodyStored A (.table ws) (.str k) ((τ.put K (.str k)).put V x) (f y τ.ranges)
      (body ((τ.put K (.str k)).put V x)) := hb1
    generalize f y τ.ranges = fy at hb1 ⊢
    cases fy with
    | error e =>
      rw [bodyStored_error] at hb1
      rcases hb1 with h | ⟨hp, h⟩
      · exact .inl h
      · exact .inr ⟨hp, by rw [h]; rfl⟩
    | ok p =>
      obtain ⟨j, r⟩ := p
      obtain ⟨τ2, w, c, hR, hf2, hs2, hc2, hj2, hr2, he2⟩ := hb1
      cases hs2
      rw [hR]
      have hf12 : Frame T ((τ.put K (.str k)).put V x).heap τ2.heap := hf2.mono fun a _ h => h ▸ hA
      have hz2 : Forall₂ (Entry (Jsonable τ2.heap lo)) (GoMap.put k j acc) (GoMap.put k w ws) := by
        refine entry_put k (hj2.mono ?_) (forall₂_imp (fun a b h => ⟨h.1, h.2.frame (hf1.trans hf12) hT⟩) hz)
        rw [hlo]
        exact hf01.more
      have := ih τ2 _ _ (hf01.trans hf12) (he2.trans he) hc2 hz2
      rw [hr2] at this
      exact this

end

end Mapry.GoExec
