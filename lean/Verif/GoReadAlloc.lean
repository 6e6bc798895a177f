import Verif.GoReadComposite

/-!
# The generated Go code which allocates the instances
-/

namespace Mapry.GoExec

open Mapry.GoLang Mapry.GoGen Mapry.Naming
open Mapry.GoRuntime (JVal Lib field goName registryKey sub Instance GraphVal preallocIds prealloc preallocAll idOk setRegistry
  zeroFields)
open Mapry.GoRuntime.Spec (Canon)
open Mapry.GoCode (Name v vi own)
open Mapry.GoMap (Ascending)

/-! ## The code -/

theorem alloc_code {uids : List (Str × Nat)} {c : Class} {code : Stmt} (h : preallocate uids c = .ok code) :
    ∃ p body, camelCase c.plural = .ok p ∧ ucamelCase c.plural = .ok (goName c.plural) ∧
      ((c.idPattern = none ∧ body = .assign (.index (.field (.var (v c!"target")) (goName c.plural)) (.var (v c!"id"))) .new) ∨
        ∃ pat uid, c.idPattern = some pat ∧ uidOf uids pat = .ok uid ∧ body = .ite (.not (.matches uid (.var (v c!"id"))))
          (.report (.var (own [] p c!"Ref")) (.sprintf (c!"expected ID to match " ++ pat ++ c!", but got: %s") [.var (v c!"id")]))
          (.assign (.index (.field (.var (v c!"target")) (goName c.plural)) (.var (v c!"id"))) .new)) ∧
      code = block [
        .declare (own [] p c!"Ref") (.val (.plus (.var (v c!"ref")) (c!"/" ++ registryKey c))),
        .declare (own [] p c!"Ok") (.val .zero),
        .declare (own [] p c!"Value") (.val .zero),
        .declare (own [] p c!"Map") (.val .zero),
        .assign2 (own [] p c!"Value") (own [] p c!"Ok") (.lookup (.var (v c!"cast")) (.str (registryKey c))),
        when (.var (own [] p c!"Ok")) (.seq (.assign2 (own [] p c!"Map") (v c!"ok") (.assert .map (.var (own [] p c!"Value"))))
          (.ite (.not (.var (v c!"ok")))
            (.report (.var (own [] p c!"Ref")) (.sprintf c!"expected a map[string]interface{}, but got: %T"
              [.var (own [] p c!"Value")]))
            (.seq (.assign (.field (.var (v c!"target")) (goName c.plural)) .makeMap)
              (.forEntries (v c!"id") none (.var (own [] p c!"Map")) body))))] := by
  unfold preallocate at h
  cases h1 : camelCase c.plural with
  | error _ => rw [h1] at h; cases h
  | ok p =>
  cases h2 : ucamelCase c.plural with
  | error _ => rw [h1, h2] at h; cases h
  | ok f =>
  cases h3 : jsonPlural c.plural with
  | error _ => rw [h1, h2, h3] at h; cases h
  | ok key =>
  rw [h1, h2, h3] at h
  have hf : goName c.plural = f := goName_of h2
  have hk : registryKey c = key := by
    unfold jsonPlural at h3
    unfold registryKey
    split at h3
    · cases h3
    · split at h3
      · cases h3; rfl
      · cases h3
  subst hf hk
  simp only [okBind] at h
  cases h4 : c.idPattern with
  | none =>
    rw [h4] at h
    cases h
    exact ⟨p, _, rfl, rfl, .inl ⟨rfl, rfl⟩, rfl⟩
  | some pat =>
    rw [h4] at h
    cases h5 : uidOf uids pat with
    | error _ => simp only [h5] at h; cases h
    | ok uid =>
      simp only [h5] at h
      cases h
      exact ⟨p, _, rfl, rfl, .inr ⟨pat, uid, rfl, h5, rfl⟩, rfl⟩

/-! ## The loop over the identifiers -/

/-- The addresses of the instances: new cells which are zero, one for each instance; `K` is none of them. -/
structure Cells (reg : Str → Str → Option Addr) (lo : Nat) (K : Nat → Prop) (h : List Val) : Prop where
  zero : ∀ c s a, reg c s = some a → ∃ k, a = ⟨k, []⟩ ∧ lo ≤ k ∧ ¬ K k ∧ h[k]? = some .zero
  inj : ∀ c s c' s' a, reg c s = some a → reg c' s' = some a → c = c' ∧ s = s'

theorem Cells.frame {reg : Str → Str → Option Addr} {lo : Nat} {K T : Nat → Prop} {h h' : List Val} (H : Cells reg lo K h)
    (hf : Frame T h h') (ht : ∀ k, T k → K k ∨ k < lo ∨ h[k]? ≠ some .zero) : Cells reg lo K h' where
  zero c s a hr := by
    obtain ⟨k, h1, h2, h3, h4⟩ := H.zero c s a hr
    refine ⟨k, h1, h2, h3, hf.get (fun h => ?_) h4⟩
    rcases ht k h with h | h | h
    · exact h3 h
    · omega
    · exact h h4
  inj := H.inj

/-- The addresses with a further one -/
def extend (reg : Str → Str → Option Addr) (c s : Str) (l : Nat) : Str → Str → Option Addr :=
  fun c' s' => if c' = c ∧ s' = s then some ⟨l, []⟩ else reg c' s'

theorem extend_lookup (reg : Str → Str → Option Addr) (c s : Str) (l : Nat) (s' : Str) :
    extend reg c s l c s' = if s' = s then some ⟨l, []⟩ else reg c s' := by
  unfold extend
  simp

theorem Cells.extend {reg : Str → Str → Option Addr} {lo : Nat} {K T : Nat → Prop} {h h' : List Val} (H : Cells reg lo K h)
    (hf : Frame T h h') (ht : ∀ k, T k → K k ∨ k < lo ∨ h[k]? ≠ some .zero) (c s : Str) (hlo : lo ≤ h.length)
    (hK : ¬ K h.length) (hz : h'[h.length]? = some .zero) : Cells (extend reg c s h.length) lo K h' where
  zero c' s' a hr := by
    unfold GoExec.extend at hr
    split at hr
    · cases hr
      exact ⟨h.length, rfl, hlo, hK, hz⟩
    · exact (H.frame hf ht).zero c' s' a hr
  inj c1 s1 c2 s2 a h1 h2 := by
    unfold GoExec.extend at h1 h2
    have hne : ∀ c s, reg c s ≠ some ⟨h.length, []⟩ := by
      intro c s h
      obtain ⟨k, h3, _, _, h4⟩ := H.zero c s _ h
      cases h3
      exact absurd (lt_of_get h4) (Nat.lt_irrefl _)
    split at h1 <;> split at h2
    · rename_i e1 e2
      exact ⟨e1.1.trans e2.1.symm, e1.2.trans e2.2.symm⟩
    · cases h1
      exact absurd h2 (hne _ _)
    · cases h2
      exact absurd h1 (hne _ _)
    · exact H.inj c1 s1 c2 s2 a h1 h2

/-- A new instance in the model -/
def zeroInst (c : Class) : Instance := ⟨[], zeroFields c.properties⟩

section
variable {O : Order} {L : Lib} {pats : Nat → Str} {call : Call}

theorem step_alloc {ρ : Env} {τ : St} {K m : Nat} {s f : Str} {tbl : List (Str × Val)} (hid : ρ.lookup (v c!"id") = some K)
    (hK : τ.heap[K]? = some (.str s)) (hreg : ∀ σ', Grown τ.heap σ'.heap → eval L pats ρ σ' (.field (.var (v c!"target")) f) =
      .ok (.map m)) (hm : τ.heap[m]? = some (.table tbl)) :
    exec L pats O call (.assign (.index (.field (.var (v c!"target")) f) (.var (v c!"id"))) .new) ρ τ =
      .ok (.next, ρ, (τ.alloc .zero).2.put m (.table (GoMap.put s (.ptr ⟨τ.heap.length, []⟩) tbl))) := by
  have hg : Grown τ.heap (τ.alloc .zero).2.heap := grown_append _ _
  rw [exec, evalRhs]
  simp only [okBind]
  rw [assignTo, hreg _ hg, eval_var L pats hid (hg.get (fun h => h) hK)]
  simp only [okBind]
  rw [hg.get (fun h => h) hm]
  rfl

theorem loop_next {α : Type} {set : α → St → Except Exc St} {body : St → Except Exc (Flow × St)} {a : α} {as : List α} {σ σ1 σ2 : St}
    (hs : set a σ = .ok σ1) (hb : body σ1 = .ok (.next, σ2)) : loop set body (a :: as) σ = loop set body as σ2 := by
  rw [loop, hs]
  simp only [okBind]
  rw [hb]
  rfl

/-- What the loop has done -/
structure Allocated (c : Class) (lo : Nat) (m K : Nat) (ids : List Str) (reg : Str → Str → Option Addr) (τ τ' : St)
    (res : GoMap Instance × GoRuntime.St) (tbl' : List (Str × Val)) (reg' : Str → Str → Option Addr) : Prop where
  frame : Frame (fun a => a = m ∨ a = K) τ.heap τ'.heap
  st : stOf τ' = res.2
  cell : τ'.heap[m]? = some (.table tbl')
  asc : Ascending tbl'
  table : ∀ s, tbl'.lookup s = (reg' c.name s).map .ptr
  asc' : Ascending res.1
  model : ∀ s, res.1.lookup s = (reg' c.name s).map fun _ => zeroInst c
  others : ∀ c', c' ≠ c.name → ∀ s, reg' c' s = reg c' s
  cells : Cells reg' lo (· = K) τ'.heap
  keys : ∀ s, (reg' c.name s).isSome = true → (reg c.name s).isSome = true ∨ s ∈ ids

theorem loop_alloc {uids : List (Str × Nat)} (hu : ∀ q uid, uidOf uids q = .ok uid → pats uid = q) {c : Class} {p : Str} {body : Stmt}
    (hbody : (c.idPattern = none ∧ body = .assign (.index (.field (.var (v c!"target")) (goName c.plural)) (.var (v c!"id"))) .new) ∨
        ∃ pat uid, c.idPattern = some pat ∧ uidOf uids pat = .ok uid ∧ body = .ite (.not (.matches uid (.var (v c!"id"))))
          (.report (.var (own [] p c!"Ref")) (.sprintf (c!"expected ID to match " ++ pat ++ c!", but got: %s") [.var (v c!"id")]))
          (.assign (.index (.field (.var (v c!"target")) (goName c.plural)) (.var (v c!"id"))) .new))
    {ρ : Env} {K m lo : Nat} {r : Str} {τ0 : St} (hid : ρ.lookup (v c!"id") = some K) (hne : m ≠ K) (hKl : K < τ0.heap.length)
    (hlo : lo ≤ τ0.heap.length)
    (hev : ∀ σ', Frame (fun a => a = m ∨ a = K) τ0.heap σ'.heap →
      eval L pats ρ σ' (.field (.var (v c!"target")) (goName c.plural)) = .ok (.map m) ∧
      eval L pats ρ σ' (.var (own [] p c!"Ref")) = .ok (.str r)) : ∀ (xs : List (Str × JVal)) (τ : St) (tbl : List (Str × Val))
    (R : GoMap Instance) (reg : Str → Str → Option Addr), Frame (fun a => a = m ∨ a = K) τ0.heap τ.heap →
      τ.heap[m]? = some (.table tbl) → Ascending tbl → (∀ s, tbl.lookup s = (reg c.name s).map .ptr) → Ascending R →
      (∀ s, R.lookup s = (reg c.name s).map fun _ => zeroInst c) → Cells reg lo (· = K) τ.heap →
      ∃ τ' tbl' reg', loop (fun (kv : Str × Val) τ => .ok (τ.put K (.str kv.1)))
          (fun τ => bodyOf (exec L pats O call body ρ τ)) (xs.map fun kv => (kv.1, .json kv.2)) τ = .ok (.next, τ') ∧
        Allocated c lo m K (xs.map (·.1)) reg τ τ' (preallocIds L c r (xs.map (·.1)) R (stOf τ)) tbl' reg' := by
  intro xs
  induction xs with
  | nil =>
    intro τ tbl R reg _ hm ha ht ha' hR hc
    exact ⟨τ, tbl, reg, rfl, .refl _ _, rfl, hm, ha, ht, ha', hR, fun _ _ _ => rfl, hc, fun s hs => .inl hs⟩
  | cons e xs ih =>
    obtain ⟨s, j⟩ := e
    intro τ tbl R reg hf hm ha ht ha' hR hc
    have hKτ : K < τ.heap.length := Nat.lt_of_lt_of_le hKl hf.more
    have hf1 : Frame (fun a => a = m ∨ a = K) τ.heap (τ.put K (.str s)).heap := (frame_set _ _ _).mono fun a _ h => .inr h
    have hK1 : (τ.put K (.str s)).heap[K]? = some (.str s) := List.getElem?_set_self hKτ
    have hm1 : (τ.put K (.str s)).heap[m]? = some (.table tbl) := ((frame_set _ _ _).same m (lt_of_get hm) hne).trans hm
    have hc1 : Cells reg lo (· = K) (τ.put K (.str s)).heap := by
      refine hc.frame hf1 fun k hk => ?_
      rcases hk with rfl | rfl
      · exact .inr (.inr (by rw [hm]; simp))
      · exact .inl rfl
    have hlen : (τ.put K (.str s)).heap.length = τ.heap.length := by simp [St.put]
    generalize hτ1 : τ.put K (.str s) = τ1 at *
    have hst1 : stOf τ1 = stOf τ := by rw [← hτ1]; rfl
    have hf01 := hf.trans hf1
    have hgrow : ∀ σ' : St, Grown τ1.heap σ'.heap → Frame (fun a => a = m ∨ a = K) τ0.heap σ'.heap := fun σ' h =>
      hf01.trans (Frame.grown h)
    rw [List.map_cons, List.map_cons, preallocIds]
    have halloc := step_alloc (O := O) (call := call) hid hK1 (fun σ' h => (hev σ' (hgrow σ' h)).1) hm1
    have hmat : eval L pats ρ τ1 (.var (v c!"id")) = .ok (.str s) := eval_var L pats hid hK1
    have hgood : idOk L c s = true → exec L pats O call body ρ τ1 =
        .ok (.next, ρ, (τ1.alloc .zero).2.put m (.table (GoMap.put s (.ptr ⟨τ1.heap.length, []⟩) tbl))) := by
      intro hok
      rcases hbody with ⟨_, rfl⟩ | ⟨pat, uid, hp, hq, rfl⟩
      · exact halloc
      · have e1 : eval L pats ρ τ1 (.not (.matches uid (.var (v c!"id")))) = .ok (.bool false) := by
          have : eval L pats ρ τ1 (.matches uid (.var (v c!"id"))) = .ok (.bool true) := by
            rw [eval, hmat]
            show Except.ok (Val.bool (L.matchString (pats uid) s)) = _
            rw [hu _ _ hq]
            simp only [idOk, hp] at hok
            rw [hok]
          exact eval_not this
        rw [exec_ite e1, halloc]
        rfl
    cases hok : idOk L c s with
    | true =>
      have hbod := congrArg bodyOf (hgood hok)
      rw [loop_next (σ1 := τ1) (congrArg Except.ok hτ1) hbod, if_pos rfl]
      generalize hτ2 : (τ1.alloc .zero).2.put m (.table (GoMap.put s (.ptr ⟨τ1.heap.length, []⟩) tbl)) = τ2
      have hf2 : Frame (fun a => a = m ∨ a = K) τ1.heap τ2.heap := by
        rw [← hτ2]
        exact (Frame.grown (grown_append _ _)).trans ((frame_set _ _ _).mono fun a _ h => .inl h)
      have hm1l := lt_of_get hm1
      have hm2 : τ2.heap[m]? = some (.table (GoMap.put s (.ptr ⟨τ1.heap.length, []⟩) tbl)) := by
        rw [← hτ2]
        exact List.getElem?_set_self (by rw [alloc_len]; omega)
      have hz2 : τ2.heap[τ1.heap.length]? = some .zero := by
        rw [← hτ2]
        exact ((frame_set _ m _).same _ (by rw [alloc_len]; omega) (by show τ1.heap.length ≠ m; omega)).trans (alloc_get _ _)
      have hst2 : stOf τ2 = stOf τ := by rw [← hτ2, ← hst1]; rfl
      have hKl1 : K < τ1.heap.length := by omega
      have hc2 := hc1.extend hf2 (by
        intro k hk
        rcases hk with rfl | rfl
        · exact .inr (.inr (by rw [hm1]; simp))
        · exact .inl rfl) c.name s (by have := hf01.more; omega) (by show τ1.heap.length ≠ K; omega) hz2
      obtain ⟨τ', tbl', reg', h1, H⟩ := ih τ2 _ (GoMap.put s (zeroInst c) R) (extend reg c.name s τ1.heap.length) (hf01.trans hf2)
        hm2 (ha.put _ _) (by
          intro s'
          rw [GoMap.lookup_put, extend_lookup, ht]
          split <;> rfl) (ha'.put _ _) (by
          intro s'
          rw [GoMap.lookup_put, extend_lookup, hR]
          split <;> rfl) hc2
      rw [hst2] at H
      refine ⟨τ', tbl', reg', h1, (hf1.trans hf2).trans H.frame, H.st, H.cell, H.asc, H.table, H.asc', H.model,
        fun c' hc' s' => ?_, H.cells, fun s' hs' => ?_⟩
      · rw [H.others c' hc', extend, if_neg fun h => hc' h.1]
      · rcases H.keys s' hs' with h | h
        · rw [extend_lookup] at h
          split at h
          · rename_i e
            exact .inr (e ▸ List.mem_cons_self ..)
          · exact .inl h
        · exact .inr (List.mem_cons_of_mem _ h)
    | false =>
      simp only [Bool.false_eq_true, if_false]
      rcases hbody with ⟨hp, rfl⟩ | ⟨pat, uid, hp, hq, rfl⟩
      · simp only [idOk, hp] at hok
        cases hok
      · have e1 : eval L pats ρ τ1 (.not (.matches uid (.var (v c!"id")))) = .ok (.bool true) := by
          have : eval L pats ρ τ1 (.matches uid (.var (v c!"id"))) = .ok (.bool false) := by
            rw [eval, hmat]
            show Except.ok (Val.bool (L.matchString (pats uid) s)) = _
            rw [hu _ _ hq]
            simp only [idOk, hp] at hok
            rw [hok]
          exact eval_not this
        have e2 : exec L pats O call (.report (.var (own [] p c!"Ref"))
            (.sprintf (c!"expected ID to match " ++ pat ++ c!", but got: %s") [.var (v c!"id")])) ρ τ1 = .ok (.next, ρ,
            { τ1 with errors := τ1.errors.add ⟨r, L.sprintf (c!"expected ID to match " ++ pat ++ c!", but got: %s") [.str s]⟩ }) := by
          rw [exec, (hev τ1 hf01).2, eval_sprintf (evalAll_one hmat) rfl]
          rfl
        have hbod : bodyOf (exec L pats O call (.ite (.not (.matches uid (.var (v c!"id"))))
            (.report (.var (own [] p c!"Ref")) (.sprintf (c!"expected ID to match " ++ pat ++ c!", but got: %s") [.var (v c!"id")]))
            (.assign (.index (.field (.var (v c!"target")) (goName c.plural)) (.var (v c!"id"))) .new)) ρ τ1) = .ok (.next,
            { τ1 with errors := τ1.errors.add ⟨r, L.sprintf (c!"expected ID to match " ++ pat ++ c!", but got: %s") [.str s]⟩ }) := by
          rw [exec_ite e1, e2]
          rfl
        rw [loop_next (σ1 := τ1) (congrArg Except.ok hτ1) hbod]
        generalize hmsg : L.sprintf (c!"expected ID to match " ++ pat ++ c!", but got: %s") [.str s] = msg
        generalize hτ2 : ({ τ1 with errors := τ1.errors.add ⟨r, msg⟩ } : St) = τ2
        have hh2 : τ2.heap = τ1.heap := by rw [← hτ2]
        have hst2 : stOf τ2 = (stOf τ).add r (L.sprintf (c!"expected ID to match " ++ c.idPattern.getD [] ++ c!", but got: %s")
            [.str s]) := by
          rw [← hτ2, ← hst1, ← hmsg, hp]
          rfl
        obtain ⟨τ', tbl', reg', h1, H⟩ := ih τ2 tbl R reg (hh2 ▸ hf01) (hh2 ▸ hm1) ha ht ha' hR (hh2 ▸ hc1)
        rw [hst2] at H
        refine ⟨τ', tbl', reg', h1, hf1.trans (hh2 ▸ H.frame), H.st, H.cell, H.asc, H.table, H.asc', H.model,
          H.others, H.cells, fun s' hs' => (H.keys s' hs').imp_right (List.mem_cons_of_mem _)⟩

/-! ## A class -/

/-- The variables of the function which parses the graph -/
structure GraphVars (l okc : Nat) (r : Str) (kvs : List (Str × JVal)) (ρ : Env) (h : List Val) : Prop where
  target : ∃ S, ρ.lookup (v c!"target") = some S ∧ h[S]? = some (.ptr ⟨l, []⟩) ∧ S ≠ l ∧ S ≠ okc
  ref : ∃ S, ρ.lookup (v c!"ref") = some S ∧ h[S]? = some (.str r) ∧ S ≠ l ∧ S ≠ okc
  cast : ∃ S, ρ.lookup (v c!"cast") = some S ∧ h[S]? = some (.json (.obj kvs)) ∧ S ≠ l ∧ S ≠ okc
  errors : ∃ S, ρ.lookup GoCode.errors = some S ∧ h[S]? = some .errors ∧ S ≠ l ∧ S ≠ okc
  ok : ρ.lookup (v c!"ok") = some okc
  different : l ≠ okc
  okc : okc < h.length

theorem GraphVars.frame {l okc : Nat} {r : Str} {kvs : List (Str × JVal)} {ρ ρ' : Env} {h h' : List Val}
    (H : GraphVars l okc r kvs ρ h) (hf : Frame (fun a => a = l ∨ a = okc) h h') (hv : ∀ b, ρ'.lookup (v b) = ρ.lookup (v b)) :
    GraphVars l okc r kvs ρ' h' where
  target := by
    obtain ⟨S, h1, h2, h3, h4⟩ := H.target
    exact ⟨S, (hv _).trans h1, hf.get (fun h => h.elim h3 h4) h2, h3, h4⟩
  ref := by
    obtain ⟨S, h1, h2, h3, h4⟩ := H.ref
    exact ⟨S, (hv _).trans h1, hf.get (fun h => h.elim h3 h4) h2, h3, h4⟩
  cast := by
    obtain ⟨S, h1, h2, h3, h4⟩ := H.cast
    exact ⟨S, (hv _).trans h1, hf.get (fun h => h.elim h3 h4) h2, h3, h4⟩
  errors := by
    obtain ⟨S, h1, h2, h3, h4⟩ := H.errors
    exact ⟨S, (hv _).trans h1, hf.get (fun h => h.elim h3 h4) h2, h3, h4⟩
  ok := (hv _).trans H.ok
  different := H.different
  okc := Nat.lt_of_lt_of_le H.okc hf.more

/-- The variables of a class -/
structure ClassVars (r : Str) (kvs : List (Str × JVal)) (lo : Nat) (ρ : Env) (h : List Val) (c : Class) (p : Str) : Prop where
  ref : ∃ S, ρ.lookup (own [] p c!"Ref") = some S ∧ lo ≤ S ∧ h[S]? = some (.str (sub r (registryKey c)))
  ok : ∃ S, ρ.lookup (own [] p c!"Ok") = some S ∧ lo ≤ S ∧ h[S]? = some (.bool (kvs.lookup (registryKey c)).isSome)
  map : ∀ entries, kvs.lookup (registryKey c) = some (.obj entries) →
    ∃ S, ρ.lookup (own [] p c!"Map") = some S ∧ lo ≤ S ∧ h[S]? = some (.json (.obj entries))

theorem ClassVars.frame {r : Str} {kvs : List (Str × JVal)} {lo : Nat} {ρ ρ' : Env} {h h' : List Val} {c : Class} {p : Str}
    {T : Nat → Prop} (H : ClassVars r kvs lo ρ h c p) (hf : Frame T h h') (ht : ∀ a, T a → a < lo ∨ h[a]? = some .zero)
    (hv : ∀ t, ρ'.lookup (own [] p t) = ρ.lookup (own [] p t)) : ClassVars r kvs lo ρ' h' c p where
  ref := by
    obtain ⟨S, h1, h2, h3⟩ := H.ref
    refine ⟨S, (hv _).trans h1, h2, hf.get (fun h => ?_) h3⟩
    rcases ht _ h with h | h
    · omega
    · rw [h3] at h; cases h
  ok := by
    obtain ⟨S, h1, h2, h3⟩ := H.ok
    refine ⟨S, (hv _).trans h1, h2, hf.get (fun h => ?_) h3⟩
    rcases ht _ h with h | h
    · omega
    · rw [h3] at h; cases h
  map e he := by
    obtain ⟨S, h1, h2, h3⟩ := H.map e he
    refine ⟨S, (hv _).trans h1, h2, hf.get (fun h => ?_) h3⟩
    rcases ht _ h with h | h
    · omega
    · rw [h3] at h; cases h

/-- The registry is not allocated, or a table with the addresses of the instances. -/
def TableOk (reg : Str → Str → Option Addr) (lo : Nat) (h : List Val) (c : Str) (w : Val) : Prop :=
  (w = .zero ∧ ∀ s, reg c s = none) ∨
  ∃ m tbl, w = .map m ∧ lo ≤ m ∧ h[m]? = some (.table tbl) ∧ Ascending tbl ∧ ∀ s, tbl.lookup s = (reg c s).map .ptr

/-- What the code has allocated for a class -/
structure ClassPre (kvs : List (Str × JVal)) (reg : Str → Str → Option Addr) (lo : Nat) (h : List Val) (x : Val) (R : GoMap Instance)
    (c : Class) : Prop where
  table : ∃ w, fieldOf (goName c.plural) x = some w ∧ TableOk reg lo h c.name w
  asc : Ascending R
  model : ∀ s, R.lookup s = (reg c.name s).map fun _ => zeroInst c
  keys : ∀ s, (reg c.name s).isSome = true → ∃ entries, kvs.lookup (registryKey c) = some (.obj entries) ∧ s ∈ entries.map (·.1)

theorem set_new (h xs : List Val) (i : Nat) (w : Val) : (h ++ xs).set (h.length + i) w = h ++ xs.set i w := by
  rw [List.set_append_right _ _ (by omega)]
  congr 2
  omega

theorem get_new (h xs : List Val) (i : Nat) : (h ++ xs)[h.length + i]? = xs[i]? := by
  rw [List.getElem?_append_right (by omega)]
  congr 1
  omega

theorem setRegistry_lookup (c : Str) (m : GoMap Instance) : ∀ (regs : List (Str × GoMap Instance)) (c' : Str),
    (setRegistry c m regs).lookup c' = if c' = c then some m else regs.lookup c'
  | [], c' => by
    rw [setRegistry, List.lookup_cons]
    by_cases h : c' = c
    · subst h; simp
    · rw [beq_eq_false_iff_ne.2 h, if_neg h]
  | (k, x) :: fs, c' => by
    rw [setRegistry]
    split
    · rename_i hk
      subst hk
      rw [List.lookup_cons, List.lookup_cons]
      by_cases h : c' = k
      · subst h; simp
      · rw [beq_eq_false_iff_ne.2 h, if_neg h]
    · rename_i hk
      rw [List.lookup_cons, List.lookup_cons, setRegistry_lookup c m fs c']
      by_cases h : c' = k
      · subst h
        simp [hk]
      · rw [beq_eq_false_iff_ne.2 h]

/-- The variables declared for a class -/
def classEnv (p : Str) (n : Nat) (ρ : Env) : Env :=
  (own [] p c!"Map", n + 3) :: (own [] p c!"Value", n + 2) :: (own [] p c!"Ok", n + 1) :: (own [] p c!"Ref", n) :: ρ

theorem own_inj {p t t' : Str} (h : t ≠ t') : own [] p t ≠ own [] p t' := by
  intro e
  cases e
  exact h rfl

theorem classEnv_other {p : Str} {n : Nat} {ρ : Env} {y : Name} (h : ∀ t, y ≠ own [] p t) :
    (classEnv p n ρ).lookup y = ρ.lookup y := by
  unfold classEnv
  rw [lookup_ne (h _), lookup_ne (h _), lookup_ne (h _), lookup_ne (h _)]

theorem classEnv_ref (p : Str) (n : Nat) (ρ : Env) : (classEnv p n ρ).lookup (own [] p c!"Ref") = some n := by
  unfold classEnv
  rw [lookup_ne (own_inj (by decide)), lookup_ne (own_inj (by decide)), lookup_ne (own_inj (by decide)), lookup_self]

theorem classEnv_ok (p : Str) (n : Nat) (ρ : Env) : (classEnv p n ρ).lookup (own [] p c!"Ok") = some (n + 1) := by
  unfold classEnv
  rw [lookup_ne (own_inj (by decide)), lookup_ne (own_inj (by decide)), lookup_self]

theorem classEnv_value (p : Str) (n : Nat) (ρ : Env) : (classEnv p n ρ).lookup (own [] p c!"Value") = some (n + 2) := by
  unfold classEnv
  rw [lookup_ne (own_inj (by decide)), lookup_self]

theorem classEnv_map (p : Str) (n : Nat) (ρ : Env) : (classEnv p n ρ).lookup (own [] p c!"Map") = some (n + 3) :=
  lookup_self _ _ _

/-- The state after the variables of a class have been set -/
def classSt (σ : St) (r : Str) (b : Bool) (j : JVal) (w : Val) : St :=
  { σ with heap := σ.heap ++ [.str r, .bool b, .json j, w] }

theorem class_prefix {p r key : Str} {kvs : List (Str × JVal)} {ρ : Env} {σ : St} {l okc : Nat} (H : GraphVars l okc r kvs ρ σ.heap)
    (rest : List Stmt) : exec L pats O call (block (
        .declare (own [] p c!"Ref") (.val (.plus (.var (v c!"ref")) (c!"/" ++ key))) ::
        .declare (own [] p c!"Ok") (.val .zero) ::
        .declare (own [] p c!"Value") (.val .zero) ::
        .declare (own [] p c!"Map") (.val .zero) ::
        .assign2 (own [] p c!"Value") (own [] p c!"Ok") (.lookup (.var (v c!"cast")) (.str key)) :: rest)) ρ σ =
      exec L pats O call (block rest) (classEnv p σ.heap.length ρ)
        (classSt σ (sub r key) (kvs.lookup key).isSome ((kvs.lookup key).getD .null) .zero) := by
  obtain ⟨S, h1, h2, _, _⟩ := H.ref
  obtain ⟨C, k1, k2, _, _⟩ := H.cast
  have e1 : eval L pats ρ σ (.plus (.var (v c!"ref")) (c!"/" ++ key)) = .ok (.str (sub r key)) := by
    rw [eval, eval_var L pats h1 h2]
    show Except.ok (Val.str (r ++ (c!"/" ++ key))) = _
    unfold sub
    simp
  have z : ∀ (ρ : Env) (σ : St), eval L pats ρ σ .zero = .ok .zero := fun _ _ => rfl
  rw [exec_next (exec_declare O L pats call (evalRhs_val L pats call e1)),
    exec_next (exec_declare O L pats call (evalRhs_val L pats call (z _ _))),
    exec_next (exec_declare O L pats call (evalRhs_val L pats call (z _ _))),
    exec_next (exec_declare O L pats call (evalRhs_val L pats call (z _ _)))]
  generalize hσ4 : ((((σ.alloc (.str (sub r key))).2.alloc .zero).2.alloc .zero).2.alloc .zero).2 = σ4
  have hh : σ4.heap = σ.heap ++ [.str (sub r key), .zero, .zero, .zero] := by
    rw [← hσ4]
    simp [St.alloc]
  have henv : (own [] p c!"Map", (((σ.alloc (.str (sub r key))).2.alloc .zero).2.alloc .zero).2.heap.length) ::
      (own [] p c!"Value", ((σ.alloc (.str (sub r key))).2.alloc .zero).2.heap.length) ::
      (own [] p c!"Ok", (σ.alloc (.str (sub r key))).2.heap.length) :: (own [] p c!"Ref", σ.heap.length) :: ρ =
      classEnv p σ.heap.length ρ := by
    simp [St.alloc, classEnv]
  rw [henv]
  have e2 := evalTwo_cast (L := L) (pats := pats) (ρ := classEnv p σ.heap.length ρ) (k := key) (eval_var L pats ((classEnv_other fun t => v_ne_own _ _ _ _).trans k1)
    (show σ4.heap[C]? = _ by rw [hh, List.getElem?_append_left (lt_of_get k2), k2]))
  refine exec_next ?_
  rw [exec, e2]
  have hfin : ∀ (b : Bool) (j : JVal), (do
      let τ ← assignTo L pats (classEnv p σ.heap.length ρ) σ4 (.json j) (.var (own [] p c!"Value"))
      let τ ← assignTo L pats (classEnv p σ.heap.length ρ) τ (.bool b) (.var (own [] p c!"Ok"))
      return (Flow.next, classEnv p σ.heap.length ρ, τ)) = (.ok (Flow.next, classEnv p σ.heap.length ρ,
        classSt σ (sub r key) b j .zero) : Result) := by
    intro b j
    rw [assignTo, classEnv_value]
    show (do
      let τ ← assignTo L pats (classEnv p σ.heap.length ρ) (σ4.put (σ.heap.length + 2) (.json j)) (.bool b) (.var (own [] p c!"Ok"))
      return (Flow.next, classEnv p σ.heap.length ρ, τ)) = _
    rw [assignTo, classEnv_ok]
    show Except.ok (Flow.next, classEnv p σ.heap.length ρ, (σ4.put (σ.heap.length + 2) (.json j)).put (σ.heap.length + 1) (.bool b)) = _
    have : (σ4.put (σ.heap.length + 2) (.json j)).put (σ.heap.length + 1) (.bool b) = classSt σ (sub r key) b j .zero := by
      unfold St.put classSt
      simp only [hh]
      rw [set_new, set_new]
      rw [← hσ4]
      rfl
    rw [this]
  cases kvs.lookup key with
  | none => exact hfin false .null
  | some j => exact hfin true j

theorem class_frame {σ : St} {r : Str} {b : Bool} {j : JVal} {w : Val} : Grown σ.heap (classSt σ r b j w).heap :=
  ⟨by simp [classSt], fun a ha _ => List.getElem?_append_left ha⟩

/-- What the code of a class has done -/
structure ClassAllocated (kvs : List (Str × JVal)) (r : Str) (lo l okc : Nat) (c : Class) (p : Str) (ρ ρ' : Env) (σ σ' : St)
    (x x' : Val) (reg reg' : Str → Str → Option Addr) (regs : List (Str × GoMap Instance))
    (res : List (Str × GoMap Instance) × GoRuntime.St) : Prop where
  vars : ∀ y, (∀ t, y ≠ own [] p t) → ρ'.lookup y = ρ.lookup y
  frame : Frame (fun a => a = l ∨ a = okc) σ.heap σ'.heap
  st : stOf σ' = res.2
  cell : σ'.heap[l]? = some x'
  fields : ∀ f, f ≠ goName c.plural → fieldOf f x' = fieldOf f x
  pre : ClassPre kvs reg' lo σ'.heap x' ((res.1.lookup c.name).getD []) c
  others : ∀ c', c' ≠ c.name → res.1.lookup c' = regs.lookup c' ∧ ∀ s, reg' c' s = reg c' s
  cells : Cells reg' lo (fun _ => False) σ'.heap
  own : ClassVars r kvs lo ρ' σ'.heap c p

theorem class_alloc {uids : List (Str × Nat)} (hu : ∀ q uid, uidOf uids q = .ok uid → pats uid = q) {c : Class} {code : Stmt} {p : Str}
    (hcode : preallocate uids c = .ok code) (hp : camelCase c.plural = .ok p) {kvs : List (Str × JVal)} {r : Str} {lo l okc : Nat}
    {ρ : Env} {σ : St} {x : Val} {reg : Str → Str → Option Addr} {regs : List (Str × GoMap Instance)}
    (H : GraphVars l okc r kvs ρ σ.heap) (hx : σ.heap[l]? = some x) (hz : fieldOf (goName c.plural) x = some .zero)
    (hl : l < lo) (ho : okc < lo) (hlo : lo ≤ σ.heap.length) (hc : Cells reg lo (fun _ => False) σ.heap)
    (hnone : ∀ s, reg c.name s = none) (hregs : (regs.lookup c.name).getD [] = []) :
    ∃ ρ' σ' x' reg', exec L pats O call code ρ σ = .ok (.next, ρ', σ') ∧ ClassAllocated kvs r lo l okc c p ρ ρ' σ σ' x x' reg reg'
      regs (prealloc O L kvs r c regs (stOf σ)) := by
  obtain ⟨p', body, hp', _, hbody, rfl⟩ := alloc_code hcode
  rw [hp] at hp'
  cases hp'
  rw [class_prefix H]
  generalize hρ1 : classEnv p σ.heap.length ρ = ρ1
  have hvars : ∀ y, (∀ t, y ≠ own [] p t) → ρ1.lookup y = ρ.lookup y := fun y hy => by rw [← hρ1, classEnv_other hy]
  have hvv : ∀ b, ρ1.lookup (v b) = ρ.lookup (v b) := fun b => hvars _ fun t => v_ne_own _ _ _ _
  have kref : ρ1.lookup (own [] p c!"Ref") = some σ.heap.length := by rw [← hρ1, classEnv_ref]
  have kok : ρ1.lookup (own [] p c!"Ok") = some (σ.heap.length + 1) := by rw [← hρ1, classEnv_ok]
  have kvalue : ρ1.lookup (own [] p c!"Value") = some (σ.heap.length + 2) := by rw [← hρ1, classEnv_value]
  have kmap : ρ1.lookup (own [] p c!"Map") = some (σ.heap.length + 3) := by rw [← hρ1, classEnv_map]
  have hcell : ∀ (b : Bool) (j : JVal) (w : Val), let h := (classSt σ (sub r (registryKey c)) b j w).heap
      h[σ.heap.length]? = some (.str (sub r (registryKey c))) ∧ h[σ.heap.length + 1]? = some (.bool b) ∧
      h[σ.heap.length + 2]? = some (.json j) ∧ h[σ.heap.length + 3]? = some w := fun b j w =>
    ⟨get_new σ.heap _ 0, get_new σ.heap _ 1, get_new σ.heap _ 2, get_new σ.heap _ 3⟩
  unfold prealloc
  cases hk : kvs.lookup (registryKey c) with
  | none =>
    obtain ⟨h0, h1, h2, h3⟩ := hcell false .null .zero
    refine ⟨ρ1, classSt σ (sub r (registryKey c)) false .null .zero, x, reg, ?_, hvars, Frame.grown class_frame, rfl, class_frame.get (fun h => h) hx, fun _ _ => rfl, ?_,
      fun _ _ => ⟨rfl, fun _ => rfl⟩, hc.frame class_frame (fun _ h => h.elim), ?_⟩
    · exact exec_next (exec_when_false (eval_var L pats kok h1))
    · refine ⟨⟨.zero, hz, .inl ⟨rfl, hnone⟩⟩, ?_, fun s => ?_, fun s hs => ?_⟩
      · rw [hregs]; exact List.Pairwise.nil
      · rw [hregs, hnone]; rfl
      · rw [hnone] at hs; cases hs
    · exact ⟨⟨_, kref, hlo, h0⟩, ⟨_, kok, by omega, by rw [hk]; exact h1⟩, fun e he => by rw [hk] at he; cases he⟩
  | some j =>
    simp only [Option.isSome_some, Option.getD_some]
    generalize hσ1 : classSt σ (sub r (registryKey c)) true j .zero = σ1
    obtain ⟨h0, h1, h2, h3⟩ := hcell true j .zero
    rw [hσ1] at h0 h1 h2 h3
    have hone : ∀ {s : Stmt} {ρ σ}, exec L pats O call (block [s]) ρ σ = exec L pats O call s ρ σ := by
      intro s ρ σ
      exact exec_seq_skip O L pats call s ρ σ
    rw [hone, exec_when_true (eval_var L pats kok h1)]
    have htwo := evalTwo_assert (L := L) (pats := pats) (k := .map) (eval_var L pats kvalue h2)
    have hokl : ρ1.lookup (v c!"ok") = some okc := (hvv _).trans H.ok
    -- the assignment of the map
    have hassign : ∀ (w : Val) (b : Bool), evalTwo L pats ρ1 σ1 (.assert .map (.var (own [] p c!"Value"))) = .ok (w, .bool b) →
        exec L pats O call (.assign2 (own [] p c!"Map") (v c!"ok") (.assert .map (.var (own [] p c!"Value")))) ρ1 σ1 =
          .ok (.next, ρ1, (classSt σ (sub r (registryKey c)) true j w).put okc (.bool b)) := by
      intro w b hw
      rw [exec, hw]
      simp only [okBind]
      rw [assignTo, kmap]
      show (do
        let τ ← assignTo L pats ρ1 (σ1.put (σ.heap.length + 3) w) (.bool b) (.var (v c!"ok"))
        return (Flow.next, ρ1, τ)) = _
      rw [assignTo, hokl]
      show Except.ok (Flow.next, ρ1, (σ1.put (σ.heap.length + 3) w).put okc (.bool b)) = _
      have : σ1.put (σ.heap.length + 3) w = classSt σ (sub r (registryKey c)) true j w := by
        rw [← hσ1]
        unfold St.put classSt
        simp only [set_new]
        rfl
      rw [this]
    have hokc := H.okc
    have hbad : kindVal .map j = none → ∃ ρ' σ' x' reg', close ρ1 (exec L pats O call (.seq
          (.assign2 (own [] p c!"Map") (v c!"ok") (.assert .map (.var (own [] p c!"Value"))))
          (.ite (.not (.var (v c!"ok")))
            (.report (.var (own [] p c!"Ref")) (.sprintf c!"expected a map[string]interface{}, but got: %T"
              [.var (own [] p c!"Value")]))
            (.seq (.assign (.field (.var (v c!"target")) (goName c.plural)) .makeMap)
              (.forEntries (v c!"id") none (.var (own [] p c!"Map")) body)))) ρ1 σ1) = .ok (.next, ρ', σ') ∧
        ClassAllocated kvs r lo l okc c p ρ ρ' σ σ' x x' reg reg' regs (regs, (stOf σ).add (sub r (registryKey c))
          (L.sprintf c!"expected a map[string]interface{}, but got: %T" [j])) := by
      intro hj
      rw [hj] at htwo
      have ha := hassign _ _ htwo
      obtain ⟨g0, g1, g2, g3⟩ := hcell true j .zero
      generalize hσ2 : (classSt σ (sub r (registryKey c)) true j .zero).put okc (.bool false) = σ2 at ha
      have hf2 : Frame (fun a => a = l ∨ a = okc) σ.heap σ2.heap := by
        rw [← hσ2]
        exact (Frame.grown class_frame).trans ((frame_set _ _ _).mono fun a _ h => .inr h)
      have hst2 : stOf σ2 = stOf σ := by rw [← hσ2]; rfl
      have hget : ∀ {a : Nat} {w : Val}, a ≠ okc → (classSt σ (sub r (registryKey c)) true j .zero).heap[a]? = some w →
          σ2.heap[a]? = some w := by
        intro a w hne h
        rw [← hσ2]
        exact (frame_set _ _ _).get hne h
      have hok2 : σ2.heap[okc]? = some (.bool false) := by
        rw [← hσ2]
        exact List.getElem?_set_self (Nat.lt_of_lt_of_le hokc class_frame.more)
      have e1 : eval L pats ρ1 σ2 (.not (.var (v c!"ok"))) = .ok (.bool true) := eval_not (eval_var L pats hokl hok2)
      have e2 := eval_var L pats kref (hget (by omega) g0)
      have e3 := eval_var L pats kvalue (hget (by omega) g2)
      generalize hmsg : L.sprintf c!"expected a map[string]interface{}, but got: %T" [j] = msg
      have e4 : exec L pats O call (.report (.var (own [] p c!"Ref")) (.sprintf c!"expected a map[string]interface{}, but got: %T"
          [.var (own [] p c!"Value")])) ρ1 σ2 = .ok (.next, ρ1,
            { σ2 with errors := σ2.errors.add ⟨sub r (registryKey c), msg⟩ }) := by
        rw [exec, e2, eval_sprintf (evalAll_one e3) rfl, ← hmsg]
        rfl
      rw [exec_seq O L pats call ha, exec_ite e1, e4]
      refine ⟨ρ1, { σ2 with errors := σ2.errors.add ⟨sub r (registryKey c), msg⟩ }, x, reg, rfl, hvars, hf2, ?_, ?_, fun _ _ => rfl, ?_, fun _ _ => ⟨rfl, fun _ => rfl⟩, ?_, ?_⟩
      · rw [← hst2]; rfl
      · exact hget H.different (class_frame.get (fun h => h) hx)
      · refine ⟨⟨.zero, hz, .inl ⟨rfl, hnone⟩⟩, ?_, fun s => ?_, fun s hs => ?_⟩
        · rw [hregs]; exact List.Pairwise.nil
        · rw [hregs, hnone]; rfl
        · rw [hnone] at hs; cases hs
      · exact hc.frame hf2 fun k hk => .inr (.inl (by omega))
      · refine ⟨⟨_, kref, hlo, hget (by omega) g0⟩, ⟨_, kok, by omega, by rw [hk]; exact hget (by omega) g1⟩, fun e he => ?_⟩
        rw [hk] at he
        cases he
        cases hj
    cases j with
    | obj entries =>
      have ha := hassign (.json (.obj entries)) true htwo
      obtain ⟨g0, g1, g2, g3⟩ := hcell true (.obj entries) (.json (.obj entries))
      generalize hσ2 : (classSt σ (sub r (registryKey c)) true (.obj entries) (.json (.obj entries))).put okc (.bool true) = σ2 at ha
      have hf2 : Frame (fun a => a = l ∨ a = okc) σ.heap σ2.heap := by
        rw [← hσ2]
        exact (Frame.grown class_frame).trans ((frame_set _ _ _).mono fun a _ h => .inr h)
      have hst2 : stOf σ2 = stOf σ := by rw [← hσ2]; rfl
      have hlen2 : σ2.heap.length = σ.heap.length + 4 := by rw [← hσ2]; simp [St.put, classSt]
      have hget : ∀ {a : Nat} {w : Val}, a ≠ okc → (classSt σ (sub r (registryKey c)) true (.obj entries)
          (.json (.obj entries))).heap[a]? = some w → σ2.heap[a]? = some w := by
        intro a w hne h
        rw [← hσ2]
        exact (frame_set _ _ _).get hne h
      have hok2 : σ2.heap[okc]? = some (.bool true) := by
        rw [← hσ2]
        exact List.getElem?_set_self (Nat.lt_of_lt_of_le hokc class_frame.more)
      have e1 : eval L pats ρ1 σ2 (.not (.var (v c!"ok"))) = .ok (.bool false) := eval_not (eval_var L pats hokl hok2)
      rw [exec_seq O L pats call ha, exec_ite e1]
      simp only [Bool.false_eq_true, if_false]
      -- the new registry
      have hG2 : GraphVars l okc r kvs ρ1 σ2.heap := H.frame hf2 hvv
      obtain ⟨S, hSt, hSt2, hSl, hSo⟩ := hG2.target
      have hx2 : σ2.heap[l]? = some x := hget H.different (class_frame.get (fun h => h) hx)
      have er : evalRhs L pats call ρ1 σ2 .makeMap = .ok (.map σ2.heap.length, (σ2.alloc (.table [])).2) := rfl
      obtain ⟨x', y', a1, a2, a3, a4⟩ := assign_field (O := O) (f := goName c.plural) (a := ⟨l, []⟩) er hSt
        (alloc_old _ _ hSt2) (alloc_old _ _ hx2) rfl hz
      have hxy : y' = x' := by
        rcases a2 with h | ⟨h1, h2⟩
        · cases h; rfl
        · exact h2.trans h1.symm
      subst hxy
      replace a1 : exec L pats O call (.assign (.field (.var (v c!"target")) (goName c.plural)) .makeMap) ρ1 σ2 =
        .ok (.next, ρ1, (σ2.alloc (.table [])).2.put l y') := a1
      generalize hσ3 : (σ2.alloc (.table [])).2.put l y' = σ3 at a1
      have hlen3 : σ3.heap.length = σ2.heap.length + 1 := by rw [← hσ3]; simp [St.put, alloc_len]
      have hl2 := lt_of_get hx2
      have hx3 : σ3.heap[l]? = some y' := by
        rw [← hσ3]
        exact List.getElem?_set_self (by rw [alloc_len]; omega)
      have hm3 : σ3.heap[σ2.heap.length]? = some (.table []) := by
        rw [← hσ3]
        exact (frame_set _ _ _).get (by show σ2.heap.length ≠ l; omega) (alloc_get _ _)
      have hf3 : Frame (fun a => a = l) σ2.heap σ3.heap := by
        rw [← hσ3]
        exact (Frame.grown (grown_append _ _)).trans (frame_set _ _ _)
      have hst3 : stOf σ3 = stOf σ := by rw [← hst2, ← hσ3]; rfl
      -- the loop
      generalize hτ0 : ({ (σ3.alloc .zero).2 with ranges := σ3.ranges + 1 } : St) = τ0
      have hg0 : Grown σ3.heap τ0.heap := by rw [← hτ0]; exact grown_append _ _
      have hlen0 : τ0.heap.length = σ3.heap.length + 1 := by
        rw [← hτ0]
        show (σ3.heap ++ [_]).length = _
        simp
      have hst0 : stOf τ0 = (stOf σ).range := by rw [← hst3, ← hτ0]; rfl
      have hmap3 : σ3.heap[σ.heap.length + 3]? = some (.json (.obj entries)) :=
        hf3.get (by show σ.heap.length + 3 ≠ l; omega) (hget (by omega) g3)
      have hrg : σ3.ranges = (stOf σ).ranges := congrArg GoRuntime.St.ranges hst3
      have hfor : exec L pats O call (.forEntries (v c!"id") none (.var (own [] p c!"Map")) body) ρ1 σ3 = (do
          let (f, σ) ← loop (fun (kv : Str × Val) τ => .ok (τ.put σ3.heap.length (.str kv.1)))
            (fun τ => bodyOf (exec L pats O call body ((v c!"id", σ3.heap.length) :: ρ1) τ))
            ((O.visit (stOf σ).ranges entries).map fun kv => (kv.1, .json kv.2)) τ0
          return (f, ρ1, σ)) := by
        rw [exec, eval_var L pats kmap hmap3, ← visit_map, ← hτ0, ← hrg]
        rfl
      have hT : ∀ {T : Nat → Prop} {σ' : St}, Frame (fun a => a = σ2.heap.length ∨ a = σ3.heap.length) τ0.heap σ'.heap →
          ∀ {a : Nat} {w : Val}, a ≠ σ2.heap.length → σ3.heap[a]? = some w → σ'.heap[a]? = some w := by
        intro _ σ' hf a w hne h
        refine hf.get (fun h' => ?_) (hg0.get (fun h => h) h)
        have := lt_of_get h
        rcases h' with h' | h' <;> omega
      have hcells0 : Cells reg lo (· = σ3.heap.length) τ0.heap := by
        have hcσ3 : Cells reg lo (fun _ => False) σ3.heap := (hc.frame hf2 fun k hk => .inr (.inl (by omega))).frame hf3
          fun k hk => .inr (.inl (by omega))
        refine ⟨fun c s a ha => ?_, hc.inj⟩
        obtain ⟨k, k1, k2, _, k3⟩ := hcσ3.zero c s a ha
        exact ⟨k, k1, k2, by have := lt_of_get k3; show k ≠ _; omega, hg0.get (fun h => h) k3⟩
      obtain ⟨τ', tbl', reg', b1, B⟩ := loop_alloc (O := O) (L := L) (call := call) hu hbody (ρ := (v c!"id", σ3.heap.length) :: ρ1)
        (K := σ3.heap.length) (m := σ2.heap.length) (lo := lo) (r := sub r (registryKey c)) (τ0 := τ0) (lookup_self _ _ _) (by omega)
        (by omega) (by omega) (by
          intro σ' hf
          have hS3 : σ'.heap[S]? = some (.ptr ⟨l, []⟩) := by
            have := lt_of_get hSt2
            exact hT (T := fun _ => True) hf (by omega) (hf3.get hSl hSt2)
          have hx' : σ'.heap[l]? = some y' := hT (T := fun _ => True) hf (by omega) hx3
          constructor
          · refine (eval_field ((lookup_ne (by decide) _ _).trans hSt) hS3 (x := y') ?_ a3).1
            rw [St.read, hx']
            rfl
          · refine eval_var L pats ((lookup_ne (own_ne_v _ _ _ _) _ _).trans kref) ?_
            exact hT (T := fun _ => True) hf (by omega) (hf3.get (by show σ.heap.length ≠ l; omega) (hget (by omega) g0)))
        (O.visit (stOf σ).ranges entries) τ0 [] [] reg (.refl _ _) (hg0.get (fun h => h) hm3) List.Pairwise.nil
        (fun s => by rw [hnone]; rfl) List.Pairwise.nil (fun s => by rw [hnone]; rfl) hcells0
      rw [hst0] at B
      rw [exec_seq O L pats call a1, hfor, b1]
      have hfall : Frame (fun a => a = l ∨ a = okc) σ.heap τ'.heap := by
        refine ⟨by have := B.frame.more; omega, fun a ha hn => ?_⟩
        refine (B.frame.same a (by omega) (by omega)).trans ((hg0.same a (by omega) (fun h => h)).trans ?_)
        exact (hf3.same a (by omega) (fun h => hn (.inl h))).trans (hf2.same a ha hn)
      refine ⟨ρ1, τ', y', reg', rfl, hvars, hfall, B.st, hT (T := fun _ => True) B.frame (by omega) hx3, a4, ?_, fun c' hc' => ?_, ?_, ?_⟩
      · refine ⟨⟨_, a3, .inr ⟨_, tbl', rfl, by omega, B.cell, B.asc, B.table⟩⟩, ?_, ?_, fun s hs => ⟨entries, hk, ?_⟩⟩
        · rw [setRegistry_lookup, if_pos rfl]
          exact B.asc'
        · rw [setRegistry_lookup, if_pos rfl]
          exact B.model
        · rcases B.keys s hs with h | h
          · rw [hnone] at h; cases h
          · obtain ⟨e, he, rfl⟩ := List.mem_map.1 h
            exact List.mem_map_of_mem (visit_mem he)
      · exact ⟨by rw [setRegistry_lookup, if_neg hc'], B.others c' hc'⟩
      · refine ⟨fun c s a ha => ?_, B.cells.inj⟩
        obtain ⟨k, k1, k2, _, k3⟩ := B.cells.zero c s a ha
        exact ⟨k, k1, k2, fun h => h, k3⟩
      · refine ⟨⟨_, kref, hlo, hT (T := fun _ => True) B.frame (by omega) (hf3.get (by show σ.heap.length ≠ l; omega)
          (hget (by omega) g0))⟩, ⟨_, kok, by omega, ?_⟩, fun e he => ?_⟩
        · rw [hk]
          exact hT (T := fun _ => True) B.frame (by omega) (hf3.get (by show σ.heap.length + 1 ≠ l; omega) (hget (by omega) g1))
        · rw [hk] at he
          cases he
          exact ⟨_, kmap, by omega, hT (T := fun _ => True) B.frame (by omega) hmap3⟩
    | _ => exact hbad rfl

/-! ## All the classes -/

theorem TableOk.frame {reg reg' : Str → Str → Option Addr} {lo : Nat} {h h' : List Val} {c : Str} {w : Val} {T : Nat → Prop}
    (H : TableOk reg lo h c w) (hf : Frame T h h') (ht : ∀ a, T a → a < lo ∨ h[a]? = some .zero) (hr : ∀ s, reg' c s = reg c s) :
    TableOk reg' lo h' c w := by
  rcases H with ⟨h1, h2⟩ | ⟨m, tbl, h1, h2, h3, h4, h5⟩
  · exact .inl ⟨h1, fun s => (hr s).trans (h2 s)⟩
  · refine .inr ⟨m, tbl, h1, h2, hf.get (fun h => ?_) h3, h4, fun s => by rw [hr]; exact h5 s⟩
    rcases ht m h with h | h
    · omega
    · rw [h3] at h; cases h

theorem ClassPre.frame {kvs : List (Str × JVal)} {reg reg' : Str → Str → Option Addr} {lo : Nat} {h h' : List Val} {x x' : Val}
    {R R' : GoMap Instance} {c : Class} {T : Nat → Prop} (H : ClassPre kvs reg lo h x R c) (hf : Frame T h h')
    (ht : ∀ a, T a → a < lo ∨ h[a]? = some .zero) (hr : ∀ s, reg' c.name s = reg c.name s)
    (hx : fieldOf (goName c.plural) x' = fieldOf (goName c.plural) x) (hR : R' = R) : ClassPre kvs reg' lo h' x' R' c where
  table := by
    obtain ⟨w, h1, h2⟩ := H.table
    exact ⟨w, hx.trans h1, h2.frame hf ht hr⟩
  asc := hR ▸ H.asc
  model s := by rw [hR, hr]; exact H.model s
  keys s hs := H.keys s (by rw [← hr]; exact hs)

/-- What the code of all the classes has done -/
structure Preallocated (kvs : List (Str × JVal)) (r : Str) (lo l okc : Nat) (cs : List Class) (ρ ρ' : Env) (σ σ' : St)
    (x x' : Val) (reg reg' : Str → Str → Option Addr) (regs : List (Str × GoMap Instance))
    (res : List (Str × GoMap Instance) × GoRuntime.St) : Prop where
  vars : ∀ b, ρ'.lookup (v b) = ρ.lookup (v b)
  owned : ∀ p, (∀ c ∈ cs, camelCase c.plural ≠ .ok p) → ∀ t, ρ'.lookup (own [] p t) = ρ.lookup (own [] p t)
  frame : Frame (fun a => a = l ∨ a = okc) σ.heap σ'.heap
  st : stOf σ' = res.2
  cell : σ'.heap[l]? = some x'
  fields : ∀ f, f ∉ cs.map (fun c => goName c.plural) → fieldOf f x' = fieldOf f x
  pre : ∀ c ∈ cs, ClassPre kvs reg' lo σ'.heap x' ((res.1.lookup c.name).getD []) c
  others : ∀ c', c' ∉ cs.map (·.name) → res.1.lookup c' = regs.lookup c' ∧ ∀ s, reg' c' s = reg c' s
  cells : Cells reg' lo (fun _ => False) σ'.heap
  own : ∀ c ∈ cs, ∀ p, camelCase c.plural = .ok p → ClassVars r kvs lo ρ' σ'.heap c p

theorem classes_alloc {uids : List (Str × Nat)} (hu : ∀ q uid, uidOf uids q = .ok uid → pats uid = q) {kvs : List (Str × JVal)} {r : Str}
    {lo l okc : Nat} (hl : l < lo) (ho : okc < lo) : ∀ (cs : List Class) (codes : List Stmt), cs.mapM (preallocate uids) = .ok codes →
    (cs.map (·.name)).Nodup → (cs.map fun c => goName c.plural).Nodup →
    (∀ c ∈ cs, ∀ d ∈ cs, camelCase c.plural = camelCase d.plural → c.name = d.name) →
    ∀ (ρ : Env) (σ : St) (x : Val) (reg : Str → Str → Option Addr) (regs : List (Str × GoMap Instance)),
      GraphVars l okc r kvs ρ σ.heap → σ.heap[l]? = some x → (∀ c ∈ cs, fieldOf (goName c.plural) x = some .zero) →
      lo ≤ σ.heap.length → Cells reg lo (fun _ => False) σ.heap → (∀ c ∈ cs, ∀ s, reg c.name s = none) →
      (∀ c ∈ cs, (regs.lookup c.name).getD [] = []) →
      ∃ ρ' σ' x' reg', exec L pats O call (block codes) ρ σ = .ok (.next, ρ', σ') ∧
        Preallocated kvs r lo l okc cs ρ ρ' σ σ' x x' reg reg' regs (preallocAll O L kvs r cs regs (stOf σ)) := by
  intro cs
  induction cs with
  | nil =>
    intro codes h _ _ _ ρ σ x reg regs _ hx _ _ hc _ _
    cases h
    exact ⟨ρ, σ, x, reg, rfl, fun _ => rfl, fun _ _ _ => rfl, .refl _ _, rfl, hx, fun _ _ => rfl, nofun, fun _ _ => ⟨rfl, fun _ => rfl⟩,
      hc, nofun⟩
  | cons c cs ih =>
    intro codes h hnn hnf hpl ρ σ x reg regs H hx hz hlo hc hnone hregs
    obtain ⟨code, codes', h1, h2, rfl⟩ := GoCode.mapM_cons h
    obtain ⟨p, body, hp, -, -, -⟩ := alloc_code h1
    rw [List.map_cons, List.nodup_cons] at hnn hnf
    obtain ⟨ρ1, σ1, x1, reg1, a1, A⟩ := class_alloc (O := O) (L := L) (call := call) hu h1 hp H hx (hz c (List.mem_cons_self ..)) hl ho
      hlo hc (hnone c (List.mem_cons_self ..)) (hregs c (List.mem_cons_self ..))
    have hne : ∀ d ∈ cs, d.name ≠ c.name := fun d hd e => hnn.1 (e ▸ List.mem_map_of_mem hd)
    have hnef : ∀ d ∈ cs, goName d.plural ≠ goName c.plural := fun d hd e =>
      hnf.1 (e ▸ List.mem_map_of_mem (f := fun c => goName c.plural) hd)
    obtain ⟨ρ2, σ2, x2, reg2, b1, B⟩ := ih codes' h2 hnn.2 hnf.2
      (fun a ha b hb => hpl a (List.mem_cons_of_mem _ ha) b (List.mem_cons_of_mem _ hb)) ρ1 σ1 x1 reg1
      (prealloc O L kvs r c regs (stOf σ)).1 (H.frame A.frame fun b => A.vars _ fun t => v_ne_own _ _ _ _) A.cell
      (fun d hd => (A.fields _ (hnef d hd)).trans (hz d (List.mem_cons_of_mem _ hd))) (Nat.le_trans hlo A.frame.more) A.cells
      (fun d hd s => ((A.others _ (hne d hd)).2 s).trans (hnone d (List.mem_cons_of_mem _ hd) s))
      (fun d hd => by rw [(A.others _ (hne d hd)).1]; exact hregs d (List.mem_cons_of_mem _ hd))
    rw [A.st] at B
    have ht : ∀ a, (a = l ∨ a = okc) → a < lo ∨ σ1.heap[a]? = some .zero := fun a h => .inl (by omega)
    refine ⟨ρ2, σ2, x2, reg2, (exec_next a1).trans b1, fun b => (B.vars b).trans (A.vars _ fun t => v_ne_own _ _ _ _),
      fun p' hp' t => ?_, A.frame.trans B.frame, B.st, B.cell, fun f hf => ?_, fun d hd => ?_, fun c' hc' => ?_, B.cells,
      fun d hd p' hp' => ?_⟩
    · refine (B.owned p' (fun d hd => hp' d (List.mem_cons_of_mem _ hd)) t).trans (A.vars _ fun t' e => ?_)
      cases e
      exact hp' c (List.mem_cons_self ..) hp
    · rw [List.map_cons, List.mem_cons, not_or] at hf
      exact (B.fields f hf.2).trans (A.fields f hf.1)
    · rcases List.mem_cons.1 hd with rfl | hd
      · refine A.pre.frame B.frame ht (B.others _ hnn.1).2 (B.fields _ hnf.1) ?_
        show ((preallocAll O L kvs r cs _ _).1.lookup _).getD [] = _
        rw [(B.others _ hnn.1).1]
      · exact B.pre d hd
    · rw [List.map_cons, List.mem_cons, not_or] at hc'
      obtain ⟨e1, e2⟩ := B.others c' hc'.2
      obtain ⟨e3, e4⟩ := A.others c' hc'.1
      exact ⟨e1.trans e3, fun s => (e2 s).trans (e4 s)⟩
    · rcases List.mem_cons.1 hd with rfl | hd
      · rw [hp] at hp'
        cases hp'
        refine A.own.frame B.frame ht fun t => B.owned p (fun d' hd' e => ?_) t
        exact hne d' hd' (hpl d' (List.mem_cons_of_mem _ hd') d (List.mem_cons_self ..) (e.trans hp.symm))
      · exact B.own d hd p' hp'

end

end Mapry.GoExec
