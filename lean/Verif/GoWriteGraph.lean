import Verif.GoWriteProps

/-!
# The generated Go code which writes the graph
-/

namespace Mapry.GoExec

open Mapry.GoLang Mapry.GoGen Mapry.Naming
open Mapry.GoRuntime (JVal Lib field goName serTy serProps serComposite serEmbed serInstances serRegistries serGraph idMessage
  registryKey GraphVal Instance)
open Mapry.GoCode (Name v vi own)

/-- The pointer to an instance of the class -/
def HoldsInstance (g : Graph) (σ₀ : St) (c : Class) (x : Val) (inst : Instance) : Prop :=
  ∃ a xi, x = .ptr a ∧ σ₀.read a = some xi ∧ fieldOf c!"ID" xi = some (.str inst.id) ∧
    HoldsFields g σ₀ c.properties xi inst.fields

/-- The registry of the class: a map from identifiers to instances, or `nil` -/
inductive HoldsRegistry (g : Graph) (σ₀ : St) (c : Class) : Val → GoMap Instance → Prop
  | nil {w : Val} : w.isNil = true → HoldsRegistry g σ₀ c w []
  | map {l xs ys} : σ₀.heap[l]? = some (.table xs) → (xs.map (·.1)).Nodup →
      Forall₂ (Entry (HoldsInstance g σ₀ c)) xs ys → HoldsRegistry g σ₀ c (.map l) ys

/-- The structure is the graph of the model. -/
structure HoldsGraph (g : Graph) (σ₀ : St) (x : Val) (gv : GraphVal) : Prop where
  fields : HoldsFields g σ₀ g.properties x gv.fields
  registries : ∀ c ∈ g.classes, ∃ w, fieldOf (goName c.plural) x = some w ∧ HoldsRegistry g σ₀ c w (gv.registry c.name)

/-- What the loop over the instances does; `E` is the error which is returned. -/
def InstancesDone (T : Nat → Prop) (B E lo : Nat) (τ0 : St) :
    Except Exc (GoMap JVal × Nat) → Except Exc (Flow × St) → Prop
  | .ok (xs, r), R => ∃ τ ws, R = .ok (.next, τ) ∧ Frame T τ0.heap τ.heap ∧ τ.heap[B]? = some (.table ws) ∧
      Forall₂ (Entry (Jsonable τ.heap lo)) xs ws ∧ τ.ranges = r ∧ τ.errors = τ0.errors
  | .error (.valueError msg), R => ∃ τ, R = .ok (.ret, τ) ∧ Frame (fun a => T a ∨ a = E) τ0.heap τ.heap ∧
      τ.heap[E]? = some (.error msg) ∧ τ.errors = τ0.errors
  | .error e, R => Fails e R

theorem InstancesDone.fails {T : Nat → Prop} {B E lo : Nat} {τ0 : St} {e : Exc} {R : Except Exc (Flow × St)} (h : Fails e R) :
    InstancesDone T B E lo τ0 (.error e) R := by
  rcases h with rfl | ⟨⟨m, rfl⟩, h⟩
  · exact .inl rfl
  · exact .inr ⟨⟨m, rfl⟩, h⟩

theorem InstancesDone.of_fails {T : Nat → Prop} {B E lo : Nat} {τ0 : St} {e : Exc} {R : Except Exc (Flow × St)}
    (h : InstancesDone T B E lo τ0 (.error e) R) (hv : ¬ ∃ msg, e = .valueError msg) : Fails e R := by
  cases e <;> first | exact h | exact absurd ⟨_, rfl⟩ hv

theorem loop_instances {T : Nat → Prop} {B K E lo : Nat} {τ0 : St} {L : Lib}
    {ser : Ty → GV → Nat → Except Exc (JVal × Nat)} {c : Class} {Q : Str × Val → Str × Instance → Prop}
    {body : St → Except Exc (Flow × St)} (hB : T B) (hK : T K) (hBK : B ≠ K) (hT : ∀ a, T a → a < lo)
    (hlo : lo = τ0.heap.length) (hQ : ∀ e y, Q e y → e.1 = y.1)
    (hb : ∀ τ e y, Frame T τ0.heap τ.heap → τ.errors = τ0.errors → Q e y → τ.heap[K]? = some (.str e.1) →
      ∀ ws, τ.heap[B]? = some (.table ws) →
      (y.1 ≠ y.2.id ∧ ∃ τ', body τ = .ok (.ret, τ') ∧ Frame (· = E) τ.heap τ'.heap ∧
        τ'.heap[E]? = some (.error (idMessage L c y.1 y.2.id)) ∧ τ'.errors = τ.errors) ∨
      (y.1 = y.2.id ∧
        BodyStored B (.table ws) (.str e.1) τ (serComposite ser c.properties y.2.fields τ.ranges) (body τ))) :
    ∀ (es : List (Str × Val)) (ys : List (Str × Instance)), Forall₂ Q es ys →
      ∀ (τ : St) (ws : List (Str × Val)) (acc : GoMap JVal), Frame T τ0.heap τ.heap → τ.errors = τ0.errors →
      τ.heap[B]? = some (.table ws) → Forall₂ (Entry (Jsonable τ.heap lo)) acc ws →
      InstancesDone T B E lo τ0 (serInstances L ser c acc ys τ.ranges)
        (loop (fun (kv : Str × Val) τ => .ok (τ.put K (.str kv.1))) body es τ) := by
  intro es ys hes
  induction hes with
  | nil =>
    intro τ ws acc hf he hc hz
    exact ⟨τ, ws, rfl, hf, hc, hz, rfl, he⟩
  | @cons e y es ys hey _ ih =>
    obtain ⟨k, x⟩ := e
    obtain ⟨k', inst⟩ := y
    have hk : k = k' := hQ _ _ hey
    subst hk
    intro τ ws acc hf he hc hz
    have hf1 : Frame T τ.heap (τ.put K (.str k)).heap := (frame_set _ _ _).mono fun a _ h => h ▸ hK
    have hf01 := hf.trans hf1
    have hKl : K < τ.heap.length := Nat.lt_of_lt_of_le (hT K hK) (hlo ▸ hf.more)
    have hK1 : (τ.put K (.str k)).heap[K]? = some (.str k) := List.getElem?_set_self hKl
    have hB1 : (τ.put K (.str k)).heap[B]? = some (.table ws) := by
      show (τ.heap.set K (.str k))[B]? = _
      rw [List.getElem?_set_ne (Ne.symm hBK), hc]
    rw [serInstances, loop]
    show InstancesDone T B E lo τ0 (if k ≠ inst.id then .error (.valueError (idMessage L c k inst.id)) else do
      let (x, r) ← serComposite ser c.properties inst.fields τ.ranges
      serInstances L ser c (GoMap.put k x acc) ys r) (do
        let (f, σ) ← body (τ.put K (.str k))
        match f with
        | .next => loop (fun (kv : Str × Val) τ => .ok (τ.put K (.str kv.1))) body es σ
        | .brk => return (.next, σ)
        | .ret => return (.ret, σ))
    rcases hb (τ.put K (.str k)) (k, x) (k, inst) hf01 he hey hK1 ws hB1 with ⟨hne, τ', h1, h2, h3, h4⟩ | ⟨heq, hb1⟩
    · rw [if_pos hne, h1]
      exact ⟨τ', rfl, (hf01.mono fun a _ h => .inl h).trans (h2.mono fun a _ h => .inr h), h3, h4.trans he⟩
    · rw [if_neg (not_not_intro heq)]
      replace hb1 : BodyStored B (.table ws) (.str k) (τ.put K (.str k)) (serComposite ser c.properties inst.fields τ.ranges)
        (body (τ.put K (.str k))) := hb1
      generalize serComposite ser c.properties inst.fields τ.ranges = q at hb1 ⊢
      cases q with
      | error e =>
        refine .fails ?_
        rcases hb1 with h | ⟨hp, h⟩
        · exact .inl h
        · exact .inr ⟨hp, by rw [h]; rfl⟩
      | ok p =>
        obtain ⟨j, r⟩ := p
        obtain ⟨τ2, w, c', hR, hf2, hs2, hc2, hj2, hr2, he2⟩ := hb1
        cases hs2
        rw [hR]
        have hf12 : Frame T (τ.put K (.str k)).heap τ2.heap := hf2.mono fun a _ h => h ▸ hB
        have hz2 : Forall₂ (Entry (Jsonable τ2.heap lo)) (GoMap.put k j acc) (GoMap.put k w ws) := by
          refine entry_put k (hj2.mono ?_) (forall₂_imp (fun a b h => ⟨h.1, h.2.frame (hf1.trans hf12) hT⟩) hz)
          rw [hlo]
          exact hf01.more
        have := ih τ2 _ _ (hf01.trans hf12) (he2.trans he) hc2 hz2
        rw [hr2] at this
        exact this

/-- What the code of the registries does. -/
def RegistriesDone (A E lo : Nat) (ρ : Env) (σ : St) : Except Exc (GoMap JVal × Nat) → Result → Prop
  | .ok (kvs, r), R => ∃ σ' ws, R = .ok (.next, ρ, σ') ∧ Frame (· = A) σ.heap σ'.heap ∧ σ'.heap[A]? = some (.table ws) ∧
      Forall₂ (Entry (Jsonable σ'.heap lo)) kvs ws ∧ σ'.ranges = r ∧ σ'.errors = σ.errors
  | .error (.valueError msg), R => ∃ σ', R = .ok (.ret, ρ, σ') ∧ Frame (fun a => a = A ∨ a = E) σ.heap σ'.heap ∧
      σ'.heap[E]? = some (.error msg) ∧ σ'.errors = σ.errors
  | .error e, R => Fails e R

theorem RegistriesDone.fails {A E lo : Nat} {ρ : Env} {σ : St} {e : Exc} {R : Result} (h : Fails e R) :
    RegistriesDone A E lo ρ σ (.error e) R := by
  rcases h with rfl | ⟨⟨m, rfl⟩, h⟩
  · exact .inl rfl
  · exact .inr ⟨⟨m, rfl⟩, h⟩

theorem RegistriesDone.of_fails {A E lo : Nat} {ρ : Env} {σ : St} {e : Exc} {R : Result}
    (h : RegistriesDone A E lo ρ σ (.error e) R) (hv : ¬ ∃ msg, e = .valueError msg) : Fails e R := by
  cases e <;> first | exact h | exact absurd ⟨_, rfl⟩ hv

theorem visit_mem {α : Type} {O : Order} {r : Nat} {xs : List α} {x : α} (h : x ∈ O.visit r xs) : x ∈ xs := by
  unfold Order.visit at h
  obtain ⟨i, _, hi⟩ := List.mem_filterMap.1 h
  exact List.mem_of_getElem? hi

theorem lookup_nodup {α : Type} : ∀ {xs : List (Str × α)}, (xs.map (·.1)).Nodup → ∀ {k : Str} {x : α}, (k, x) ∈ xs →
    xs.lookup k = some x
  | [], _, _, _, h => by cases h
  | (k', x') :: xs, hn, k, x, h => by
    rw [List.map_cons, List.nodup_cons] at hn
    rw [List.lookup_cons]
    rcases List.mem_cons.1 h with h | h
    · cases h
      simp
    · have : k ≠ k' := by
        rintro rfl
        exact hn.1 (List.mem_map.2 ⟨(k, x), ‹(k, x) ∈ xs›, rfl⟩)
      rw [beq_eq_false_iff_ne.2 this]
      exact lookup_nodup hn.2 h

theorem forall₂_with_mem {α β : Type} {R : α → β → Prop} {xs : List α} {ys : List β} (h : Forall₂ R xs ys) :
    Forall₂ (fun a b => a ∈ xs ∧ R a b) xs ys := by
  induction h with
  | nil => exact .nil
  | cons hh _ ih =>
    exact .cons ⟨List.mem_cons_self .., hh⟩ (forall₂_imp (fun a b h => ⟨List.mem_cons_of_mem _ h.1, h.2⟩) ih)

theorem v_ne_own (b x n y : Str) : v b ≠ own x n y := nofun

theorem own_ne_v (b x n y : Str) : own x n y ≠ v b := nofun

theorem own_ne_own (x n m y : Str) (h : x ≠ []) : own x n y ≠ own [] m c!"Instance" := by
  intro e
  cases e
  exact h rfl

theorem close_ok {ρ ρ' : Env} {f : Flow} {σ : St} : close ρ (.ok (f, ρ', σ)) = .ok (f, ρ, σ) := rfl

section
variable {O : Order} {L : Lib} {P : Program} {g : Graph} {σ₀ : St} {embed : Str → GV → Nat → Except Exc (JVal × Nat)}
  {k : Nat}

/-- The names and keys which are generated for a registry -/
theorem registry_code {c : Class} {code : Stmt} (h : serializeRegistry c = .ok code) :
    ∃ i name, ucamelCase c.plural = .ok (goName c.plural) ∧ camelCase c.name = .ok i ∧ ucamelCase c.name = .ok name ∧
      name = goName c.name ∧
      code = when (.cmp .gt (.len (.field (.var (v c!"instance")) (goName c.plural))) 0) (block [
        .declare (own c!"target" (goName c.plural) []) .makeMap,
        .forEntries (v c!"id") none (.field (.var (v c!"instance")) (goName c.plural)) (block [
          .declare (own [] i c!"Instance") (.val (.index (.field (.var (v c!"instance")) (goName c.plural)) (.var (v c!"id")))),
          when (.ne (.var (v c!"id")) (.field (.var (own [] i c!"Instance")) c!"ID")) (.seq
            (.assign (.var (v c!"err")) (.val (.errorf (c!"expected the instance of " ++ name ++
              c!" to have the ID %s according to the registry, but got: %s")
              [.var (v c!"id"), .field (.var (own [] i c!"Instance")) c!"ID"])))
            .ret),
          .assign (.index (.var (own c!"target" (goName c.plural) [])) (.var (v c!"id")))
            (.call (name ++ c!"ToJSONable") [.val (.var (own [] i c!"Instance"))])]),
        .assign (.index (.var (v c!"target")) (.str (registryKey c))) (.val (.var (own c!"target" (goName c.plural) [])))]) := by
  unfold serializeRegistry at h
  cases h1 : ucamelCase c.plural with
  | error _ => rw [h1] at h; cases h
  | ok p =>
    cases h2 : camelCase c.name with
    | error _ => rw [h1, h2] at h; cases h
    | ok i =>
      cases h3 : ucamelCase c.name with
      | error _ => rw [h1, h2, h3] at h; cases h
      | ok name =>
        cases h4 : jsonPlural c.plural with
        | error _ => rw [h1, h2, h3, h4] at h; cases h
        | ok key =>
          rw [h1, h2, h3, h4] at h
          cases h
          have hp : goName c.plural = p := goName_of h1
          have hk : registryKey c = key := by
            unfold jsonPlural at h4
            unfold registryKey
            split at h4
            · cases h4
            · split at h4
              · cases h4; rfl
              · cases h4
          subst hp hk
          exact ⟨i, name, rfl, rfl, rfl, (goName_of h3).symm, rfl⟩

theorem registry_ok (hw : writer g = .ok P) (hn : (P.funcs.map (·.name)).Nodup) (hcall : Embeds g σ₀ embed (run O L P k))
    {c : Class} (hcm : c ∈ g.classes) {code : Stmt} (hcode : serializeRegistry c = .ok code)
    {ρ : Env} {σ : St} {I T A E lo : Nat} {a : Addr} {x w : Val} {ws : List (Str × Val)} {acc : GoMap JVal}
    {reg : GoMap Instance} (hx : Grown σ₀.heap σ.heap) (hI : ρ.lookup (v c!"instance") = some I)
    (hIv : σ.heap[I]? = some (.ptr a)) (ha : σ.read a = some x) (hT : ρ.lookup (v c!"target") = some T)
    (hTv : σ.heap[T]? = some (.map A)) (hA : σ.heap[A]? = some (.table ws)) (hE : ρ.lookup (v c!"err") = some E)
    (hEl : E < σ.heap.length) (hlo : A < lo) (hlen : lo ≤ σ.heap.length)
    (hz : Forall₂ (Entry (Jsonable σ.heap lo)) acc ws) (hw' : fieldOf (goName c.plural) x = some w)
    (hreg : HoldsRegistry g σ₀ c w reg) :
    RegistriesDone A E lo ρ σ (if reg.isEmpty then .ok (acc, σ.ranges) else do
      let (xs, r) ← serInstances L (serTy O L embed) c [] (O.visit σ.ranges reg) (σ.ranges + 1)
      return (GoMap.put (registryKey c) (.obj xs) acc, r)) (exec L P.patterns O (run O L P (k + 1)) code ρ σ) := by
  obtain ⟨i, name, _, _, hname, hgo, rfl⟩ := registry_code hcode
  have hev : ∀ ρ' σ', Later 0 (fun _ => False) ρ σ ρ' σ' →
      eval L P.patterns ρ' σ' (.field (.var (v c!"instance")) (goName c.plural)) = .ok w := fun ρ' σ' hl =>
    (eval_field ((hl.vars _ (old_v _ _)).trans hI) (hl.frame.get (fun h => h) hIv)
      (read_frame hl.frame (fun h => h) ha) hw').1
  cases hreg with
  | nil hn' =>
    have e1 : eval L P.patterns ρ σ (.cmp .gt (.len (.field (.var (v c!"instance")) (goName c.plural))) 0) =
        .ok (.bool false) := by
      rw [eval, eval, hev _ _ (.refl _ _ _ _)]
      cases w <;> first | rfl | cases hn'
    rw [exec_when_false e1]
    exact ⟨σ, ws, rfl, .refl _ _, hA, hz, rfl, rfl⟩
  | @map l xs ys hl0 hnd hes =>
    have hlen' : xs.length = reg.length := (forall₂_get hes).1
    have e1 : eval L P.patterns ρ σ (.cmp .gt (.len (.field (.var (v c!"instance")) (goName c.plural))) 0) =
        .ok (.bool (decide ((0 : Int) < xs.length))) := by
      rw [eval, eval, hev _ _ (.refl _ _ _ _)]
      show (do
        let v ← (do return Val.int (← lenOf σ (.map l)))
        return Val.bool (← compare .gt v 0)) = _
      rw [lenOf, hx.get (fun h => h) hl0]
      rfl
    cases hys : reg with
    | nil =>
      subst hys
      have : xs.length = 0 := hlen'
      rw [this] at e1
      rw [exec_when_false e1]
      exact ⟨σ, ws, rfl, .refl _ _, hA, hz, rfl, rfl⟩
    | cons y0 ys0 =>
      rw [← hys]
      have hne : reg.isEmpty = false := by rw [hys]; rfl
      have hpos : (0 : Int) < xs.length := by
        rw [hlen', hys, List.length_cons]
        omega
      rw [decide_eq_true hpos] at e1
      rw [exec_when_true e1, hne]
      simp only [Bool.false_eq_true, if_false]
      -- the target of the registry
      have e2 : evalRhs L P.patterns (run O L P (k + 1)) ρ σ .makeMap = .ok (.map σ.heap.length, (σ.alloc (.table [])).2) := rfl
      rw [block, exec_seq O L P.patterns _ (exec_declare O L P.patterns _ e2)]
      generalize hτ : (σ.alloc (.table [])).2 = τ
      generalize hσ1 : (τ.alloc (.map σ.heap.length)).2 = σ1
      generalize hρ1 : (own c!"target" (goName c.plural) [], τ.heap.length) :: ρ = ρ1
      have lτ : Grown σ.heap τ.heap := by rw [← hτ]; exact grown_append _ _
      have lσ1 : Grown τ.heap σ1.heap := by rw [← hσ1]; exact grown_append _ _
      have l1 : Grown σ.heap σ1.heap := lτ.trans lσ1
      have b1 : σ1.heap[σ.heap.length]? = some (.table []) := by
        refine lσ1.get (fun h => h) ?_
        rw [← hτ]
        exact alloc_get _ _
      have t1 : ρ1.lookup (own c!"target" (goName c.plural) []) = some τ.heap.length := by
        rw [← hρ1]; exact lookup_self _ _ _
      have u1 : σ1.heap[τ.heap.length]? = some (.map σ.heap.length) := by rw [← hσ1]; exact alloc_get _ _
      have len1 : τ.heap.length = σ.heap.length + 1 := by rw [← hτ]; exact alloc_len _ _
      have len2 : σ1.heap.length = τ.heap.length + 1 := by rw [← hσ1]; exact alloc_len _ _
      have rg1 : σ1.ranges = σ.ranges := by rw [← hσ1, ← hτ]; rfl
      have er1 : σ1.errors = σ.errors := by rw [← hσ1, ← hτ]; rfl
      have vv : ∀ b, ρ1.lookup (v b) = ρ.lookup (v b) := fun b => by rw [← hρ1, lookup_ne (v_ne_own _ _ _ _)]
      have hev1 : eval L P.patterns ρ1 σ1 (.field (.var (v c!"instance")) (goName c.plural)) = .ok (.map l) :=
        (eval_field ((vv _).trans hI) (l1.get (fun h => h) hIv) (read_frame l1 (fun h => h) ha) hw').1
      have hx1 : Grown σ₀.heap σ1.heap := hx.trans l1
      -- the loop
      generalize hbody : (block [
          .declare (own [] i c!"Instance") (.val (.index (.field (.var (v c!"instance")) (goName c.plural)) (.var (v c!"id")))),
          when (.ne (.var (v c!"id")) (.field (.var (own [] i c!"Instance")) c!"ID")) (.seq
            (.assign (.var (v c!"err")) (.val (.errorf (c!"expected the instance of " ++ name ++
              c!" to have the ID %s according to the registry, but got: %s")
              [.var (v c!"id"), .field (.var (own [] i c!"Instance")) c!"ID"])))
            .ret),
          .assign (.index (.var (own c!"target" (goName c.plural) [])) (.var (v c!"id")))
            (.call (name ++ c!"ToJSONable") [.val (.var (own [] i c!"Instance"))])] : Stmt) = body
      generalize hρ4 : (v c!"id", σ1.heap.length) :: ρ1 = ρ4
      generalize hσ4 : ({ (σ1.alloc .zero).2 with ranges := σ1.ranges + 1 } : St) = σ4
      have lσ4 : Grown σ1.heap σ4.heap := by rw [← hσ4]; exact grown_append _ _
      have len4 : σ4.heap.length = σ1.heap.length + 1 := by
        rw [← hσ4]
        show (σ1.heap ++ [_]).length = _
        simp
      have hfor : exec L P.patterns O (run O L P (k + 1)) (.forEntries (v c!"id") none
          (.field (.var (v c!"instance")) (goName c.plural)) body) ρ1 σ1 = (do
          let (f, σ) ← loop (fun (kv : Str × Val) τ => .ok (τ.put σ1.heap.length (.str kv.1)))
            (fun τ => bodyOf (exec L P.patterns O (run O L P (k + 1)) body ρ4 τ)) (O.visit σ.ranges xs) σ4
          return (f, ρ1, σ)) := by
        rw [exec, hev1]
        show (do
          let kvs ← entriesOf σ1 (.map l)
          let (f, σ) ← loop (fun (kv : Str × Val) τ => .ok (τ.put σ1.heap.length (.str kv.1)))
            (fun τ => bodyOf (exec L P.patterns O (run O L P (k + 1)) body ((v c!"id", σ1.heap.length) :: ρ1) τ))
            (O.visit σ1.ranges kvs) { (σ1.alloc .zero).2 with ranges := σ1.ranges + 1 }
          return (f, ρ1, σ)) = _
        rw [entriesOf, hx1.get (fun h => h) hl0, hρ4, hσ4, rg1]
        rfl
      have hloop := loop_instances (L := L) (c := c)
        (T := fun a => a = σ.heap.length ∨ a = σ1.heap.length) (B := σ.heap.length)
        (K := σ1.heap.length) (E := E) (ser := serTy O L embed)
        (Q := fun e y => e ∈ xs ∧ Entry (HoldsInstance g σ₀ c) e y)
        (lo := σ4.heap.length) (τ0 := σ4)
        (body := fun τ => bodyOf (exec L P.patterns O (run O L P (k + 1)) body ρ4 τ))
        (.inl rfl) (.inr rfl) (by omega) (by intro a h; omega) rfl (fun e y h => h.2.1) (by
          intro τ' e y hf' he' hq hK ws' hB'
          obtain ⟨ke, xe⟩ := e
          obtain ⟨ky, inst⟩ := y
          obtain ⟨hmem, hkey, ai, xi, hxi, hri, hid, hfi⟩ := hq
          replace hkey : ke = ky := hkey
          subst hkey
          replace hxi : xe = .ptr ai := hxi
          subst hxi
          have l4' : Grown σ.heap τ'.heap := by
            refine ⟨Nat.le_trans l1.more (Nat.le_trans lσ4.more hf'.more), fun b hb _ => ?_⟩
            rw [hf'.same b (by omega) (by omega), lσ4.same b (by omega) (fun h => h), l1.same b hb (fun h => h)]
          have hext : Grown σ₀.heap τ'.heap := hx.trans l4'
          have vv4 : ∀ b, b ≠ c!"id" → ρ4.lookup (v b) = ρ.lookup (v b) := fun b hb => by
            rw [← hρ4, lookup_ne (fun h => hb (by cases h; rfl)), vv]
          have hid4 : ρ4.lookup (v c!"id") = some σ1.heap.length := by rw [← hρ4]; exact lookup_self _ _ _
          have ht4 : ρ4.lookup (own c!"target" (goName c.plural) []) = some τ.heap.length := by
            rw [← hρ4, lookup_ne (own_ne_v _ _ _ _)]; exact t1
          have hu4 : τ'.heap[τ.heap.length]? = some (.map σ.heap.length) :=
            hf'.get (by omega) (lσ4.get (fun h => h) u1)
          have hreg4 : eval L P.patterns ρ4 τ' (.field (.var (v c!"instance")) (goName c.plural)) = .ok (.map l) :=
            (eval_field ((vv4 _ (by decide)).trans hI) (l4'.get (fun h => h) hIv) (read_frame l4' (fun h => h) ha) hw').1
          have hdecl : evalRhs L P.patterns (run O L P (k + 1)) ρ4 τ'
              (.val (.index (.field (.var (v c!"instance")) (goName c.plural)) (.var (v c!"id")))) = .ok (.ptr ai, τ') := by
            refine evalRhs_val L P.patterns _ ?_
            rw [eval, hreg4, eval_var L P.patterns hid4 hK]
            show indexOf τ' (.map l) (.str ke) = _
            rw [indexOf, hext.get (fun h => h) hl0]
            show Except.ok ((xs.lookup ke).getD .zero) = _
            rw [lookup_nodup hnd hmem]
            rfl
          rw [← hbody, block, exec_seq O L P.patterns _ (exec_declare O L P.patterns _ hdecl)]
          generalize hτ1 : (τ'.alloc (.ptr ai)).2 = τ1
          generalize hρ5 : (own [] i c!"Instance", τ'.heap.length) :: ρ4 = ρ5
          have l5 : Grown τ'.heap τ1.heap := by rw [← hτ1]; exact grown_append _ _
          have i5 : ρ5.lookup (own [] i c!"Instance") = some τ'.heap.length := by rw [← hρ5]; exact lookup_self _ _ _
          have j5 : τ1.heap[τ'.heap.length]? = some (.ptr ai) := by rw [← hτ1]; exact alloc_get _ _
          have id5 : ρ5.lookup (v c!"id") = some σ1.heap.length := by rw [← hρ5, lookup_ne (v_ne_own _ _ _ _)]; exact hid4
          have er5 : ρ5.lookup (v c!"err") = some E := by
            rw [← hρ5, lookup_ne (v_ne_own _ _ _ _), vv4 _ (by decide)]; exact hE
          have ht5 : ρ5.lookup (own c!"target" (goName c.plural) []) = some τ.heap.length := by
            rw [← hρ5, lookup_ne (own_ne_own _ _ _ _ (by decide))]; exact ht4
          have K5 := l5.get (fun h => h) hK
          have r5 : τ1.read ai = some xi := read_frame (hext.trans l5) (fun h => h) hri
          have f5 := (eval_field (L := L) (pats := P.patterns) i5 j5 r5 hid).1
          have k5 := eval_var L P.patterns id5 K5
          have erh : τ1.errors = τ'.errors := by rw [← hτ1]; rfl
          have rgh : τ1.ranges = τ'.ranges := by rw [← hτ1]; rfl
          have ene : eval L P.patterns ρ5 τ1 (.ne (.var (v c!"id")) (.field (.var (own [] i c!"Instance")) c!"ID")) =
              .ok (.bool (decide (ke ≠ inst.id))) := by
            rw [eval, f5, k5]
            rfl
          by_cases hne' : ke = inst.id
          · refine .inr ⟨hne', ?_⟩
            rw [decide_eq_false (not_not_intro hne')] at ene
            rw [block, exec_seq O L P.patterns _ (exec_when_false ene), block, block, exec_seq_skip]
            obtain ⟨F, hF, hF'⟩ := writer_class hw hcm
            have hcl := composite_ok hcall hn hF' hF hname (hext.trans l5) r5 hfi
            have hrhs : evalRhs L P.patterns (run O L P (k + 1)) ρ5 τ1
                (.call (name ++ c!"ToJSONable") [.val (.var (own [] i c!"Instance"))]) = (do
                let (rs, σ) ← run O L P (k + 1) (name ++ c!"ToJSONable") [.ptr ai] τ1
                match rs with
                | [r] => return (r, σ)
                | _ => .error .typeError) := by
              rw [evalRhs]
              simp only [List.mapM_cons, List.mapM_nil, argument, eval_var L P.patterns i5 j5]
              rfl
            have htg : Target L P.patterns 0 ρ5 τ1 (.index (.var (own c!"target" (goName c.plural) [])) (.var (v c!"id")))
                σ.heap.length (.str ke) := by
              refine target_index ht5 (old_own _ _ _ _) (.inl (l5.get (fun h => h) hu4)) fun ρ' σ' hl => ?_
              exact eval_var L P.patterns ((hl.vars _ (old_v _ _)).trans id5) (hl.frame.get (fun h => h) K5)
            rw [rgh] at hcl
            show BodyStored σ.heap.length (.table ws') (.str ke) τ'
              (serComposite (serTy O L embed) c.properties inst.fields τ'.ranges) _
            generalize serComposite (serTy O L embed) c.properties inst.fields τ'.ranges = q at hcl ⊢
            cases q with
            | error e =>
              rcases hcl with h | ⟨hp, h⟩
              · exact .inl h
              · refine .inr ⟨hp, ?_⟩
                rw [assign_error (by rw [hrhs, h]; rfl)]
                rfl
            | ok q =>
              obtain ⟨j, r⟩ := q
              obtain ⟨w', σ', h1, h2, h3, h4, h5⟩ := hcl
              rw [h1] at hrhs
              have hs := assign_ok (O := O) htg (l5.get (fun h => h) hB') (fun w => ⟨_, rfl⟩) (.refl _ _ _ _) hrhs h2 h3 h4 h5
              obtain ⟨σ'', w'', c'', g1, g2, g3, g4, g5, g6, g7⟩ := hs.body
              exact ⟨σ'', w'', c'', g1, (l5.mono fun _ _ h => h.elim).trans g2, g3, g4, g5.mono l5.more, g6, g7.trans erh⟩
          · refine .inl ⟨hne', τ1.put E (.error (idMessage L c ke inst.id)), ?_, ?_, ?_, erh⟩
            · rw [decide_eq_true hne'] at ene
              have eerr : eval L P.patterns ρ5 τ1 (.errorf (c!"expected the instance of " ++ name ++
                  c!" to have the ID %s according to the registry, but got: %s")
                  [.var (v c!"id"), .field (.var (own [] i c!"Instance")) c!"ID"]) =
                  .ok (.error (idMessage L c ke inst.id)) := by
                rw [eval, evalAll, evalAll, evalAll, k5, f5, idMessage, ← hgo]
                rfl
              have hret : exec L P.patterns O (run O L P (k + 1)) (.seq
                  (.assign (.var (v c!"err")) (.val (.errorf (c!"expected the instance of " ++ name ++
                    c!" to have the ID %s according to the registry, but got: %s")
                    [.var (v c!"id"), .field (.var (own [] i c!"Instance")) c!"ID"])))
                  .ret) ρ5 τ1 = .ok (.ret, ρ5, τ1.put E (.error (idMessage L c ke inst.id))) := by
                have : exec L P.patterns O (run O L P (k + 1)) (.assign (.var (v c!"err")) (.val (.errorf
                    (c!"expected the instance of " ++ name ++
                    c!" to have the ID %s according to the registry, but got: %s")
                    [.var (v c!"id"), .field (.var (own [] i c!"Instance")) c!"ID"]))) ρ5 τ1 =
                    .ok (.next, ρ5, τ1.put E (.error (idMessage L c ke inst.id))) := by
                  rw [exec, evalRhs_val L P.patterns _ eerr]
                  show (do
                    let σ ← assignTo L P.patterns ρ5 τ1 (.error (idMessage L c ke inst.id)) (.var (v c!"err"))
                    return (Flow.next, ρ5, σ)) = _
                  rw [assignTo, er5]
                  rfl
                rw [exec_seq O L P.patterns _ this]
                rfl
              rw [block, exec_seq_ret O L P.patterns _ (by rw [exec_when_true ene, hret]; rfl)]
              rfl
            · exact (l5.mono fun _ _ h => h.elim).trans (frame_set _ _ _)
            · refine List.getElem?_set_self ?_
              have := l4'.more
              have := l5.more
              omega)
        (O.visit σ.ranges xs) (O.visit σ.ranges reg) (visit_forall₂ O _ (forall₂_with_mem hes)) σ4 [] [] (.refl _ _) rfl
        (lσ4.get (fun h => h) b1) .nil
      have rg4 : σ4.ranges = σ.ranges + 1 := by rw [← hσ4, ← rg1]
      have er4 : σ4.errors = σ.errors := by rw [← hσ4, ← er1]; rfl
      rw [rg4] at hloop
      rw [block]
      generalize serInstances L (serTy O L embed) c [] (O.visit σ.ranges reg) (σ.ranges + 1) = q at hloop ⊢
      have l14 : Grown σ.heap σ4.heap := l1.trans lσ4
      cases q with
      | error ex =>
        show RegistriesDone A E lo ρ σ (.error ex) _
        by_cases hv : ∃ msg, ex = .valueError msg
        · obtain ⟨msg, rfl⟩ := hv
          obtain ⟨τ5, h1, h2, h3, h4⟩ := hloop
          rw [h1] at hfor
          rw [exec_seq_ret O L P.patterns _ hfor]
          refine ⟨τ5, rfl, ⟨Nat.le_trans l14.more h2.more, fun b hb hnb => ?_⟩, h3, h4.trans er4⟩
          rw [h2.same b (by omega) (by omega), l14.same b hb (fun h => h)]
        · have hloop := hloop.of_fails hv
          refine .fails ?_
          rcases hloop with h | ⟨hp, h⟩
          · exact .inl h
          · refine .inr ⟨hp, ?_⟩
            rw [exec_seq_error O L P.patterns _ (by rw [hfor, h]; rfl)]
            rfl
      | ok q =>
        obtain ⟨js, r⟩ := q
        obtain ⟨τ5, ws5, h1, h2, h3, h4, h5, h6⟩ := hloop
        rw [h1] at hfor
        rw [exec_seq O L P.patterns _ hfor, block, block, exec_seq_skip]
        have l5 : Grown σ.heap τ5.heap := by
          refine ⟨Nat.le_trans l14.more h2.more, fun b hb _ => ?_⟩
          rw [h2.same b (by omega) (by omega), l14.same b hb (fun h => h)]
        have hA5 := l5.get (fun h => h) hA
        have e5 : eval L P.patterns ρ1 τ5 (.var (own c!"target" (goName c.plural) [])) = .ok (.map σ.heap.length) :=
          eval_var L P.patterns t1 (h2.get (by omega) (lσ4.get (fun h => h) u1))
        have htg : Target L P.patterns 0 ρ1 τ5 (.index (.var (v c!"target")) (.str (registryKey c))) A (.str (registryKey c)) :=
          target_index ((vv _).trans hT) (old_v _ _) (.inl (l5.get (fun h => h) hTv)) fun _ _ _ => rfl
        have htl := lt_of_get (h2.get (a := τ.heap.length) (by omega) (lσ4.get (fun h => h) u1))
        have hexec : exec L P.patterns O (run O L P (k + 1)) (.assign (.index (.var (v c!"target")) (.str (registryKey c)))
            (.val (.var (own c!"target" (goName c.plural) [])))) ρ1 τ5 =
            .ok (.next, ρ1, τ5.put A (.table (GoMap.put (registryKey c) (.map σ.heap.length) ws))) := by
          rw [exec, evalRhs_val L P.patterns _ e5]
          show (do
            let σ ← assignTo L P.patterns ρ1 τ5 (.map σ.heap.length) (.index (.var (v c!"target")) (.str (registryKey c)))
            return (Flow.next, ρ1, σ)) = _
          rw [htg _ _ (.refl _ _ _ _), hA5]
          rfl
        rw [hexec]
        have hAl : A < σ.heap.length := lt_of_get hA
        have hfA : Frame (· = A) τ5.heap (τ5.put A (.table (GoMap.put (registryKey c) (.map σ.heap.length) ws))).heap :=
          frame_set _ _ _
        refine ⟨_, GoMap.put (registryKey c) (.map σ.heap.length) ws, rfl, (l5.mono fun _ _ h => h.elim).trans hfA, ?_, ?_, h5, h6.trans er4⟩
        · exact List.getElem?_set_self (Nat.lt_of_lt_of_le hAl l5.more)
        · refine entry_put _ ?_ (forall₂_imp (fun _ _ h => ⟨h.1, (h.2.frame l5 fun _ h => h.elim).frame hfA
            fun b hb => hb ▸ hlo⟩) hz)
          refine Jsonable.frame hfA (fun b hb => hb ▸ hlo) (.ofTable hlen h3 (forall₂_imp (fun _ _ h => ⟨h.1, h.2.mono ?_⟩) h4))
          omega

theorem registries_ok (hw : writer g = .ok P) (hn : (P.funcs.map (·.name)).Nodup) (hcall : Embeds g σ₀ embed (run O L P k))
    {x : Val} {gv : GraphVal} {I T A E lo : Nat} {a : Addr} {ρ : Env} (hI : ρ.lookup (v c!"instance") = some I)
    (hT : ρ.lookup (v c!"target") = some T) (hE : ρ.lookup (v c!"err") = some E) (hlo : A < lo) (hIA : I ≠ A) (hTA : T ≠ A)
    (haA : a.loc ≠ A) (h0 : σ₀.heap.length ≤ A) : ∀ (cs : List Class) (codes : List Stmt), cs.mapM serializeRegistry = .ok codes →
    (∀ c ∈ cs, c ∈ g.classes) →
    (∀ c ∈ cs, ∃ w, fieldOf (goName c.plural) x = some w ∧ HoldsRegistry g σ₀ c w (gv.registry c.name)) →
    ∀ (σ : St) (ws : List (Str × Val)) (acc : GoMap JVal), Grown σ₀.heap σ.heap → σ.heap[I]? = some (.ptr a) →
      σ.read a = some x → σ.heap[T]? = some (.map A) → σ.heap[A]? = some (.table ws) → E < σ.heap.length →
      lo ≤ σ.heap.length → Forall₂ (Entry (Jsonable σ.heap lo)) acc ws →
      RegistriesDone A E lo ρ σ (serRegistries O L (serTy O L embed) gv cs acc σ.ranges)
        (exec L P.patterns O (run O L P (k + 1)) (block codes) ρ σ) := by
  intro cs
  induction cs with
  | nil =>
    intro codes h _ _ σ ws acc _ _ _ _ hA _ _ hz
    cases h
    exact ⟨σ, ws, rfl, .refl _ _, hA, hz, rfl, rfl⟩
  | cons c cs ih =>
    intro codes h hmem hregs σ ws acc hx hIv ha hTv hA hEl hlen hz
    obtain ⟨code, codes', h1, h2, rfl⟩ := GoCode.mapM_cons h
    obtain ⟨w, hw', hreg⟩ := hregs c (List.mem_cons_self ..)
    have hone := registry_ok (O := O) (L := L) hw hn hcall (hmem c (List.mem_cons_self ..)) h1 hx hI hIv ha hT hTv hA hE hEl hlo hlen hz
      hw' hreg
    have hser : serRegistries O L (serTy O L embed) gv (c :: cs) acc σ.ranges = (do
        let (acc, r) ← (if (gv.registry c.name).isEmpty then .ok (acc, σ.ranges) else do
          let (xs, r) ← serInstances L (serTy O L embed) c [] (O.visit σ.ranges (gv.registry c.name)) (σ.ranges + 1)
          return (GoMap.put (registryKey c) (.obj xs) acc, r))
        serRegistries O L (serTy O L embed) gv cs acc r) := by
      rw [serRegistries]
      split
      · rfl
      · cases serInstances L (serTy O L embed) c [] (O.visit σ.ranges (gv.registry c.name)) (σ.ranges + 1) <;> rfl
    rw [hser]
    generalize (if (gv.registry c.name).isEmpty then .ok (acc, σ.ranges) else do
          let (xs, r) ← serInstances L (serTy O L embed) c [] (O.visit σ.ranges (gv.registry c.name)) (σ.ranges + 1)
          return (GoMap.put (registryKey c) (.obj xs) acc, r) : Except Exc (GoMap JVal × Nat)) = q at hone ⊢
    rw [block]
    cases q with
    | error e =>
      show RegistriesDone A E lo ρ σ (.error e) _
      by_cases hv : ∃ msg, e = .valueError msg
      · obtain ⟨msg, rfl⟩ := hv
        obtain ⟨σ', g1, g2⟩ := hone
        exact ⟨σ', exec_seq_ret O L P.patterns _ g1, g2⟩
      · have hone := hone.of_fails hv
        refine .fails ?_
        rcases hone with h | ⟨hp, h⟩
        · exact .inl h
        · exact .inr ⟨hp, exec_seq_error O L P.patterns _ h⟩
    | ok q =>
      obtain ⟨acc', r⟩ := q
      obtain ⟨σ', ws', g1, g2, g3, g4, g5, g6⟩ := hone
      rw [exec_seq O L P.patterns _ g1]
      have hx' : Grown σ₀.heap σ'.heap := by
        refine ⟨Nat.le_trans hx.more g2.more, fun b hb _ => ?_⟩
        rw [g2.same b (Nat.lt_of_lt_of_le hb hx.more) (by omega), hx.same b hb (fun h => h)]
      have := ih codes' h2 (fun c hc => hmem c (List.mem_cons_of_mem _ hc)) (fun c hc => hregs c (List.mem_cons_of_mem _ hc))
        σ' ws' acc' hx' (g2.get hIA hIv) (read_frame g2 haA ha) (g2.get hTA hTv) g3 (Nat.lt_of_lt_of_le hEl g2.more)
        (Nat.le_trans hlen g2.more) g4
      rw [g5] at this
      show RegistriesDone A E lo ρ σ (serRegistries O L (serTy O L embed) gv cs acc' r) _
      generalize serRegistries O L (serTy O L embed) gv cs acc' r = q at this ⊢
      cases q with
      | error e =>
        by_cases hv : ∃ msg, e = .valueError msg
        · obtain ⟨msg, rfl⟩ := hv
          obtain ⟨σ'', f1, f2, f3, f4⟩ := this
          exact ⟨σ'', f1, (g2.mono fun _ _ h => .inl h).trans f2, f3, f4.trans g6⟩
        · cases e <;> first | exact this | exact absurd ⟨_, rfl⟩ hv
      | ok q =>
        obtain ⟨σ'', ws'', f1, f2, f3, f4, f5, f6⟩ := this
        exact ⟨σ'', ws'', f1, g2.trans f2, f3, f4, f5, f6.trans g6⟩

end

/-- What the function of the graph does: it returns the JSONable and no error, or `nil` and the error, or it panics. The memory
of the caller stays as it is. -/
def Written (σ : St) : Except Exc (JVal × Nat) → Except Exc (List Val × St) → Prop
  | .ok (j, r), R => ∃ w e σ', R = .ok ([w, e], σ') ∧ e.isNil = true ∧ Grown σ.heap σ'.heap ∧
      Jsonable σ'.heap σ.heap.length j w ∧ σ'.ranges = r ∧ σ'.errors = σ.errors
  | .error (.valueError msg), R => ∃ σ', R = .ok ([.nil, .error msg], σ') ∧ Grown σ.heap σ'.heap ∧ σ'.errors = σ.errors
  | .error e, R => Fails e R

theorem Written.fails {σ : St} {e : Exc} {R : Except Exc (List Val × St)} (h : Fails e R) : Written σ (.error e) R := by
  rcases h with rfl | ⟨⟨m, rfl⟩, h⟩
  · exact .inl rfl
  · exact .inr ⟨⟨m, rfl⟩, h⟩

/-- The body of the function of the graph and what comes after it -/
theorem run_graph {O : Order} {L : Lib} {P : Program} {name : Str} {props regs : Stmt} (hn : (P.funcs.map (·.name)).Nodup)
    (hm : (⟨name, [v c!"instance"], [v c!"target", v c!"err"], block [start, props, regs, .ret],
      when (.notNil (.var (v c!"err"))) (.assign (.var (v c!"target")) (.val .nil))⟩ : Func) ∈ P.funcs)
    (k : Nat) (w : Val) (σ : St) {I T E : Nat} (hI : I = σ.heap.length) (hT : T = σ.heap.length + 1)
    (hE : E = σ.heap.length + 2) : run O L P (k + 1) name [w] σ = (do
      let (_, _, τ) ← exec L P.patterns O (run O L P k) (block [start, props, regs, .ret])
        [(v c!"err", E), (v c!"target", T), (v c!"instance", I)] { σ with heap := σ.heap ++ [w, .zero, .zero] }
      let (_, _, τ) ← exec L P.patterns O (run O L P k)
        (when (.notNil (.var (v c!"err"))) (.assign (.var (v c!"target")) (.val .nil)))
        [(v c!"err", E), (v c!"target", T), (v c!"instance", I)] τ
      let t ← eval L P.patterns [(v c!"err", E), (v c!"target", T), (v c!"instance", I)] τ (.var (v c!"target"))
      let e ← eval L P.patterns [(v c!"err", E), (v c!"target", T), (v c!"instance", I)] τ (.var (v c!"err"))
      return ([t, e], τ)) := by
  have h := run_eq (O := O) (L := L) hn hm k [w] σ
  rw [show run O L P (k + 1) name [w] σ = _ from h]
  have hb : (do
      let (ρ, σ) ← GoLang.bind [v c!"instance"] [w] [] σ
      GoLang.bind [v c!"target", v c!"err"] ([v c!"target", v c!"err"].map fun _ => Val.zero) ρ σ) =
      .ok ([(v c!"err", E), (v c!"target", T), (v c!"instance", I)], { σ with heap := σ.heap ++ [w, .zero, .zero] }) := by
    subst hI hT hE
    simp [GoLang.bind, St.alloc, List.map_cons, List.map_nil, Bind.bind, Except.bind]
  have hb2 : ∀ (K : Env × St → Except Exc (List Val × St)), (do
      let (ρ, σ) ← GoLang.bind [v c!"instance"] [w] [] σ
      let r ← GoLang.bind [v c!"target", v c!"err"] ([v c!"target", v c!"err"].map fun _ => Val.zero) ρ σ
      K r) = K ([(v c!"err", E), (v c!"target", T), (v c!"instance", I)], { σ with heap := σ.heap ++ [w, .zero, .zero] }) := by
    intro K
    have : (do
      let (ρ, σ) ← GoLang.bind [v c!"instance"] [w] [] σ
      let r ← GoLang.bind [v c!"target", v c!"err"] ([v c!"target", v c!"err"].map fun _ => Val.zero) ρ σ
      K r) = (do
        let r ← (do
          let (ρ, σ) ← GoLang.bind [v c!"instance"] [w] [] σ
          GoLang.bind [v c!"target", v c!"err"] ([v c!"target", v c!"err"].map fun _ => Val.zero) ρ σ)
        K r) := by
      cases GoLang.bind [v c!"instance"] [w] [] σ <;> rfl
    rw [this, hb]
    rfl
  refine (hb2 fun r => do
      let (_, _, τ) ← exec L P.patterns O (run O L P k) (block [start, props, regs, .ret]) r.1 r.2
      let (_, _, τ) ← exec L P.patterns O (run O L P k)
        (when (.notNil (.var (v c!"err"))) (.assign (.var (v c!"target")) (.val .nil))) r.1 τ
      let rs ← [v c!"target", v c!"err"].mapM fun x => eval L P.patterns r.1 τ (.var x)
      return (rs, τ)).trans ?_
  simp only [List.mapM_cons, List.mapM_nil, bind_assoc, pure_bind]

theorem graph_ok {O : Order} {L : Lib} {P : Program} {g : Graph} {σ₀ : St} (hw : writer g = .ok P)
    (hn : (P.funcs.map (·.name)).Nodup) {name : Str} (hname : ucamelCase g.name = .ok name) {fuel fuel' : Nat}
    (hfuel : fuel ≤ fuel') {a : Addr} {x : Val} {gv : GraphVal} (ha : σ₀.read a = some x) (hh : HoldsGraph g σ₀ x gv) :
    Written σ₀ (serGraph O L g fuel gv σ₀.ranges) (run O L P (fuel' + 2) (name ++ c!"ToJSONable") [.ptr a] σ₀) := by
  obtain ⟨F, hF, hF'⟩ := writer_graph hw
  unfold serializeGraph at hF'
  cases hp : serializeProps g.properties 0 with
  | error _ => rw [hp] at hF'; cases hF'
  | ok props =>
  cases hr : g.classes.mapM serializeRegistry with
  | error _ => rw [hp, hr] at hF'; cases hF'
  | ok codes =>
  rw [hp, hr, hname] at hF'
  cases hF'
  rw [run_graph (O := O) (L := L) hn hF (fuel' + 1) (.ptr a) σ₀ rfl rfl rfl]
  generalize hρ : [(v c!"err", σ₀.heap.length + 2), (v c!"target", σ₀.heap.length + 1), (v c!"instance", σ₀.heap.length)] = ρ
  have hE : List.lookup (v c!"err") ρ = some (σ₀.heap.length + 2) := by rw [← hρ]; exact lookup_self _ _ _
  have hT : List.lookup (v c!"target") ρ = some (σ₀.heap.length + 1) := by
    rw [← hρ, lookup_ne (by decide)]; exact lookup_self _ _ _
  have hI : List.lookup (v c!"instance") ρ = some σ₀.heap.length := by
    rw [← hρ, lookup_ne (by decide), lookup_ne (by decide)]; exact lookup_self _ _ _
  generalize hσ1 : ({ σ₀ with heap := σ₀.heap ++ [.ptr a, .zero, .zero] } : St) = σ1
  have l1 : Grown σ₀.heap σ1.heap := by
    rw [← hσ1]
    exact ⟨by simp, fun b hb _ => List.getElem?_append_left hb⟩
  have len1 : σ1.heap.length = σ₀.heap.length + 3 := by rw [← hσ1]; simp
  have i1 : σ1.heap[σ₀.heap.length]? = some (.ptr a) := by rw [← hσ1]; simp
  have t1 : σ1.heap[σ₀.heap.length + 1]? = some .zero := by rw [← hσ1]; simp
  have e1 : σ1.heap[σ₀.heap.length + 2]? = some .zero := by rw [← hσ1]; simp
  rw [block, exec_seq O L P.patterns _ (start_ok hI i1 hT t1)]
  generalize hσ3 : (σ1.alloc (.table [])).2 = σ3
  have l3 : Grown σ1.heap σ3.heap := by rw [← hσ3]; exact grown_append _ _
  have len3 : σ3.heap.length = σ1.heap.length + 1 := by rw [← hσ3]; exact alloc_len _ _
  have a3 : σ3.heap[σ1.heap.length]? = some (.table []) := by rw [← hσ3]; exact alloc_get _ _
  generalize hσ4 : σ3.put (σ₀.heap.length + 1) (.map σ1.heap.length) = σ4
  have l4 : Frame (· = σ₀.heap.length + 1) σ3.heap σ4.heap := by rw [← hσ4]; exact frame_set _ _ _
  have len4 : σ4.heap.length = σ3.heap.length := by
    rw [← hσ4]
    show (σ3.heap.set _ _).length = _
    simp
  have t4 : σ4.heap[σ₀.heap.length + 1]? = some (.map σ1.heap.length) := by
    rw [← hσ4]
    exact List.getElem?_set_self (by omega)
  have i4 : σ4.heap[σ₀.heap.length]? = some (.ptr a) := l4.get (by omega) (l3.get (fun h => h) i1)
  have e4 : σ4.heap[σ₀.heap.length + 2]? = some .zero := l4.get (by omega) (l3.get (fun h => h) e1)
  have a4 : σ4.heap[σ1.heap.length]? = some (.table []) := l4.get (by omega) a3
  have l04 : Grown σ₀.heap σ4.heap := by
    refine ⟨by omega, fun b hb _ => ?_⟩
    rw [l4.same b (by omega) (by omega), l3.same b (by omega) (fun h => h), l1.same b hb (fun h => h)]
  have rg : σ4.ranges = σ₀.ranges := by rw [← hσ4, ← hσ3, ← hσ1]; rfl
  have er : σ4.errors = σ₀.errors := by rw [← hσ4, ← hσ3, ← hσ1]; rfl
  have hal := read_lt ha
  have hdone := props_ok (O := O) (L := L) (pats := P.patterns) (embeds_ok (O := O) (L := L) hw hn fuel (fuel' + 1) (by omega)) g.properties 0 props hp
    hh.fields ρ σ4 σ₀.heap.length (σ₀.heap.length + 1) σ1.heap.length σ4.heap.length a [] [] l04 hI i4
    (read_frame l04 (fun h => h) ha) hT t4 a4 (by omega) (by omega) (by omega) (by omega) (by omega) (Nat.le_refl _) .nil
  rw [rg] at hdone
  rw [block, serGraph]
  generalize serProps (serTy O L (serEmbed O L g fuel)) gv.fields g.properties [] σ₀.ranges = q at hdone ⊢
  cases q with
  | error e =>
    refine .fails ?_
    rcases hdone with h | ⟨hp, h⟩
    · exact .inl h
    · refine .inr ⟨hp, ?_⟩
      rw [exec_seq_error O L P.patterns _ h]
      rfl
  | ok q =>
    obtain ⟨kvs, r⟩ := q
    obtain ⟨ρ', σ5, ws, h1, h2, h3, h4, h5, h6⟩ := hdone
    rw [exec_seq O L P.patterns _ h1, block]
    have l05 : Grown σ₀.heap σ5.heap := by
      refine ⟨Nat.le_trans l04.more h2.frame.more, fun b hb _ => ?_⟩
      rw [h2.frame.same b (by omega) (by omega), l04.same b hb (fun h => h)]
    have hlen5 := h2.frame.more
    have hregs := registries_ok (O := O) (L := L) hw hn (embeds_ok (O := O) (L := L) (σ₀ := σ₀) hw hn fuel fuel' hfuel)
      (x := x) (gv := gv) (I := σ₀.heap.length) (T := σ₀.heap.length + 1) (A := σ1.heap.length) (E := σ₀.heap.length + 2)
      (lo := σ4.heap.length) (a := a) (ρ := ρ') ((h2.vars _ (old_v _ _)).trans hI) ((h2.vars _ (old_v _ _)).trans hT)
      ((h2.vars _ (old_v _ _)).trans hE) (by omega) (by omega) (by omega) (by omega) (by omega) g.classes codes hr
      (fun _ h => h) hh.registries σ5 ws kvs l05 (h2.frame.get (by omega) i4) (read_frame l05 (fun h => h) ha)
      (h2.frame.get (by omega) t4) h3 (by omega) (by omega) h4
    rw [h5] at hregs
    show Written σ₀ (do
      let (kvs, r) ← serRegistries O L (serTy O L (serEmbed O L g fuel)) gv g.classes kvs r
      return (.obj kvs, r)) _
    generalize serRegistries O L (serTy O L (serEmbed O L g fuel)) gv g.classes kvs r = q at hregs ⊢
    cases q with
    | error e =>
      show Written σ₀ (.error e) _
      by_cases hv : ∃ msg, e = .valueError msg
      · obtain ⟨msg, rfl⟩ := hv
        obtain ⟨σ6, g1, g2, g3, g4⟩ := hregs
        rw [exec_seq_ret O L P.patterns _ g1]
        have hev : eval L P.patterns ρ σ6 (.notNil (.var (v c!"err"))) = .ok (.bool true) := by
          rw [eval, eval_var L P.patterns hE g3]
          rfl
        have hasg : exec L P.patterns O (run O L P (fuel' + 1)) (.assign (.var (v c!"target")) (.val .nil)) ρ σ6 =
            .ok (.next, ρ, σ6.put (σ₀.heap.length + 1) .nil) := by
          rw [exec, evalRhs, eval]
          show (do
            let σ ← assignTo L P.patterns ρ σ6 .nil (.var (v c!"target"))
            return (Flow.next, ρ, σ)) = _
          rw [assignTo, hT]
          rfl
        have hdef : exec L P.patterns O (run O L P (fuel' + 1))
            (when (.notNil (.var (v c!"err"))) (.assign (.var (v c!"target")) (.val .nil))) ρ σ6 =
            .ok (.next, ρ, σ6.put (σ₀.heap.length + 1) .nil) := by
          rw [exec_when_true hev, hasg]
          rfl
        have l56 := g2.more
        have lf : Frame (· = σ₀.heap.length + 1) σ6.heap (σ6.put (σ₀.heap.length + 1) .nil).heap := frame_set _ _ _
        have et : eval L P.patterns ρ (σ6.put (σ₀.heap.length + 1) .nil) (.var (v c!"target")) = .ok .nil :=
          eval_var L P.patterns hT (List.getElem?_set_self (by omega))
        have ee : eval L P.patterns ρ (σ6.put (σ₀.heap.length + 1) .nil) (.var (v c!"err")) = .ok (.error msg) :=
          eval_var L P.patterns hE (lf.get (by omega) g3)
        refine ⟨σ6.put (σ₀.heap.length + 1) .nil, ?_, ?_, (g4.trans h6).trans er⟩
        · show (do
            let (_, _, τ) ← exec L P.patterns O (run O L P (fuel' + 1))
              (when (.notNil (.var (v c!"err"))) (.assign (.var (v c!"target")) (.val .nil))) ρ σ6
            let t ← eval L P.patterns ρ τ (.var (v c!"target"))
            let e ← eval L P.patterns ρ τ (.var (v c!"err"))
            return ([t, e], τ)) = _
          rw [hdef]
          show (do
            let t ← eval L P.patterns ρ (σ6.put (σ₀.heap.length + 1) .nil) (.var (v c!"target"))
            let e ← eval L P.patterns ρ (σ6.put (σ₀.heap.length + 1) .nil) (.var (v c!"err"))
            return ([t, e], σ6.put (σ₀.heap.length + 1) .nil)) = _
          rw [et, ee]
          rfl
        · refine ⟨Nat.le_trans l05.more (Nat.le_trans l56 lf.more), fun b hb _ => ?_⟩
          rw [lf.same b (by omega) (by omega), g2.same b (by omega) (by omega), l05.same b hb (fun h => h)]
      · have hregs := hregs.of_fails hv
        refine .fails ?_
        rcases hregs with h | ⟨hp, h⟩
        · exact .inl h
        · refine .inr ⟨hp, ?_⟩
          rw [exec_seq_error O L P.patterns _ h]
          rfl
    | ok q =>
      obtain ⟨kvs', r'⟩ := q
      obtain ⟨σ6, ws', g1, g2, g3, g4, g5, g6⟩ := hregs
      rw [exec_seq O L P.patterns _ g1]
      have e6 : σ6.heap[σ₀.heap.length + 2]? = some .zero := g2.get (by omega) (h2.frame.get (by omega) e4)
      have t6 : σ6.heap[σ₀.heap.length + 1]? = some (.map σ1.heap.length) := g2.get (by omega) (h2.frame.get (by omega) t4)
      have hev : eval L P.patterns ρ σ6 (.notNil (.var (v c!"err"))) = .ok (.bool false) := by
        rw [eval, eval_var L P.patterns hE e6]
        rfl
      refine ⟨.map σ1.heap.length, .zero, σ6, ?_, rfl, ?_, ?_, g5, (g6.trans h6).trans er⟩
      · show (do
          let (_, _, τ) ← exec L P.patterns O (run O L P (fuel' + 1))
            (when (.notNil (.var (v c!"err"))) (.assign (.var (v c!"target")) (.val .nil))) ρ σ6
          let t ← eval L P.patterns ρ τ (.var (v c!"target"))
          let e ← eval L P.patterns ρ τ (.var (v c!"err"))
          return ([t, e], τ)) = _
        rw [exec_when_false hev]
        show (do
          let t ← eval L P.patterns ρ σ6 (.var (v c!"target"))
          let e ← eval L P.patterns ρ σ6 (.var (v c!"err"))
          return ([t, e], σ6)) = _
        rw [eval_var L P.patterns hT t6, eval_var L P.patterns hE e6]
        rfl
      · refine ⟨Nat.le_trans l05.more g2.more, fun b hb _ => ?_⟩
        rw [g2.same b (by omega) (by omega), l05.same b hb (fun h => h)]
      · refine .ofTable (by omega) g3 (forall₂_imp (fun _ _ h => ⟨h.1, h.2.mono ?_⟩) g4)
        omega

/-- No graph -/
theorem graph_nil {O : Order} {L : Lib} {P : Program} {g : Graph} {σ₀ : St} (hw : writer g = .ok P)
    (hn : (P.funcs.map (·.name)).Nodup) {name : Str} (hname : ucamelCase g.name = .ok name) (fuel : Nat) :
    run O L P (fuel + 1) (name ++ c!"ToJSONable") [.nil] σ₀ = .error (.panic c!"unexpected nil instance") := by
  obtain ⟨F, hF, hF'⟩ := writer_graph hw
  unfold serializeGraph at hF'
  cases hp : serializeProps g.properties 0 with
  | error _ => rw [hp] at hF'; cases hF'
  | ok props =>
  cases hr : g.classes.mapM serializeRegistry with
  | error _ => rw [hp, hr] at hF'; cases hF'
  | ok codes =>
  rw [hp, hr, hname] at hF'
  cases hF'
  rw [run_graph (O := O) (L := L) hn hF fuel .nil σ₀ rfl rfl rfl, block]
  rw [exec_seq_error O L P.patterns _ (start_nil (I := σ₀.heap.length) (t := .nil)
    (by rw [lookup_ne (by decide), lookup_ne (by decide)]; exact lookup_self _ _ _) (by simp) rfl)]
  rfl

end Mapry.GoExec
