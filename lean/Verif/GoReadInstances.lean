import Verif.GoReadAlloc

/-!
# The generated Go code which parses the instances
-/

namespace Mapry.GoExec

open Mapry.GoLang Mapry.GoGen Mapry.Naming
open Mapry.GoRuntime (JVal Lib field goName registryKey sub parseTy Instance GraphVal parseRegistries setRegistry zeroFields)
open Mapry.GoRuntime.Spec (Canon)
open Mapry.GoCode (Name v vi own)
open Mapry.GoMap (Ascending)

/-! ## One instance -/

/-- The call with a `nil` target -/
theorem composite_nil {O : Order} {L : Lib} {g : Graph} {P : Program} {T : Nat → Prop} {h₀ : List Val} {reg : Str → Str → Option Addr}
    (hn : (P.funcs.map (·.name)).Nodup) {uids : List (Str × Nat)}
    (hpl : ∀ c ∈ g.classes, ∀ d ∈ g.classes, camelCase c.plural = camelCase d.plural → c.name = d.name) {fuel : Nat}
    {o : TypeGraph.Owner} {name : Str} {ps : List Property} {isClass : Bool} {F : Func}
    (hgen : GoGen.parseComposite g uids o name ps isClass = .ok F) (hF : F ∈ P.funcs) {refs : List Str}
    (hrefs : GoCode.referencesOf g o = .ok refs) {vs : List Val} (hvs : Forall₂ (RegVal T h₀ reg) refs vs) {j : JVal}
    {id : Option Str} (hid : isClass = id.isSome) {r : Str} {σ : St} :
    run O L P (fuel + 1) F.name (argsOf j id vs r .zero) σ = .error (.panic c!"unexpected nil target") := by
  unfold GoGen.parseComposite at hgen
  rw [hrefs] at hgen
  simp only [okBind] at hgen
  cases hp : refs.mapM (GoCode.registryParam g) with
  | error _ => rw [hp] at hgen; cases hgen
  | ok params =>
  rw [hp] at hgen
  simp only [okBind] at hgen
  generalize (⟨g, uids, fun c => if c ∈ refs then do pure (Expr.var (← GoCode.registryParam g c))
    else .error .keyError⟩ : Ctx) = ctx at hgen
  cases hprops : GoGen.parseProps ctx ps 0 with
  | error _ => rw [hprops] at hgen; cases hgen
  | ok props =>
  rw [hprops] at hgen
  simp only [okBind] at hgen
  cases hname : ucamelCase name with
  | error _ => rw [hname] at hgen; cases hgen
  | ok f =>
  rw [hname] at hgen
  obtain ⟨ρ1, hb, -, hpar⟩ := bind_ok (params_ok hpl hp hvs j isClass id hid r .zero) [] σ
  have hFp : F.params = [v c!"value"] ++ (if isClass then [v c!"id"] else []) ++ params ++
      [v c!"ref", v c!"target", GoCode.errors] := by cases hgen; rfl
  have hFb : F.body = block [preamble, castMap (if ps.isEmpty then none else some (v c!"cast")),
      if isClass then .assign (.field (.var (v c!"target")) c!"ID") (.val (.var (v c!"id"))) else .skip, props, .ret] := by
    cases hgen; rfl
  rw [run_void hn hF (by cases hgen; rfl) (by cases hgen; rfl) fuel (hFp.symm ▸ hb), hFb]
  obtain ⟨lt, wt, hlt1, hlt2, hlt3, hlt4⟩ := hpar (v c!"target") (by simp)
  cases hlt4.2.2.1 rfl
  obtain ⟨le, we, hle1, hle2, hle3, hle4⟩ := hpar GoCode.errors (by simp)
  cases hle4.2.2.2.1 rfl
  generalize hσ1 : ({ σ with heap := σ.heap ++ argsOf j id vs r .zero } : St) = σ1
  have hh1 : σ1.heap = σ.heap ++ argsOf j id vs r .zero := by rw [← hσ1]
  rw [← hh1] at hlt3 hle3
  have hpre := preamble_ok (O := O) (L := L) (pats := P.patterns) (call := run O L P fuel)
    (eval_var L P.patterns hlt1 hlt3) (eval_var L P.patterns hle1 hle3)
  rw [exec_stop hpre]
  rfl

/-- An instance which has been parsed -/
def InstBuilt (g : Graph) (reg : Str → Str → Option Addr) (h : List Val) (lo : Nat) (c : Class) (s : Str) (k : Nat) (inst : Instance) :
    Prop :=
  inst.id = s ∧ ∃ x, h[k]? = some x ∧ fieldOf c!"ID" x = some (.str s) ∧ ∀ p ∈ c.properties, ∃ w y, fieldOf (field p) x = some w ∧
    inst.fields.lookup (field p) = some y ∧ BuiltProp g reg h lo p w y

theorem InstBuilt.frame {g : Graph} {reg : Str → Str → Option Addr} {h h' : List Val} {lo lo' : Nat} {c : Class} {s : Str} {k : Nat}
    {inst : Instance} {T : Nat → Prop} (H : InstBuilt g reg h lo c s k inst) (hf : Frame T h h') (ht : ∀ a, T a → a < lo)
    (hl : lo' ≤ lo) (hk : ¬ T k) : InstBuilt g reg h' lo' c s k inst := by
  obtain ⟨h1, x, h2, h3, h4⟩ := H
  refine ⟨h1, x, hf.get hk h2, h3, fun p hp => ?_⟩
  obtain ⟨w, y, h5, h6, h7⟩ := h4 p hp
  exact ⟨w, y, h5, h6, h7.frame hf ht hl⟩

/-- What the body of the loop has done -/
def InstRead (g : Graph) (reg : Str → Str → Option Addr) (c : Class) (s : Str) (k : Nat) (τ : St) :
    Except Exc ((GoRuntime.Fields × Bool) × GoRuntime.St) → Except Exc (Flow × St) → Prop
  | .ok ((fields, b), st), X => ∃ τ', X = .ok (if τ'.errors.full then .brk else .next, τ') ∧ Frame (· = k) τ.heap τ'.heap ∧
      stOf τ' = st ∧ (τ'.errors.empty = true → τ.errors.empty = true ∧ b = true ∧
        InstBuilt g reg τ'.heap τ.heap.length c s k ⟨s, fields⟩)
  | .error e, X => Stops e X

/-! ## The loop -/

theorem loop_brk {α : Type} {set : α → St → Except Exc St} {body : St → Except Exc (Flow × St)} {a : α} {as : List α} {σ σ1 σ2 : St}
    (hs : set a σ = .ok σ1) (hb : body σ1 = .ok (.brk, σ2)) : loop set body (a :: as) σ = .ok (.next, σ2) := by
  rw [loop, hs]
  simp only [okBind]
  rw [hb]
  rfl

theorem loop_error {α : Type} {set : α → St → Except Exc St} {body : St → Except Exc (Flow × St)} {a : α} {as : List α} {σ σ1 : St}
    {e : Exc} (hs : set a σ = .ok σ1) (hb : body σ1 = .error e) : loop set body (a :: as) σ = .error e := by
  rw [loop, hs]
  simp only [okBind]
  rw [hb]
  rfl

/-- What the loop has done -/
def InstsRead (g : Graph) (reg : Str → Str → Option Addr) (lo : Nat) (c : Class) (T : Nat → Prop) (τ : St) :
    Except Exc (GoMap Instance × GoRuntime.St) → Except Exc (Flow × St) → Prop
  | .ok (R, st), X => ∃ τ', X = .ok (.next, τ') ∧ Frame T τ.heap τ'.heap ∧ stOf τ' = st ∧ Ascending R ∧
      (∀ s, (R.lookup s).isSome = (reg c.name s).isSome) ∧
      (τ'.errors.empty = true → τ.errors.empty = true ∧ ∀ s k, reg c.name s = some ⟨k, []⟩ → ∃ inst, R.lookup s = some inst ∧
        InstBuilt g reg τ'.heap lo c s k inst)
  | .error e, X => Stops e X

theorem loop_inst {g : Graph} {L : Lib} {parse : Ty → GoRuntime.ParseFn} {reg : Str → Str → Option Addr} {c : Class} {r : Str} {K V lo : Nat}
    {body : St → Except Exc (Flow × St)} {T : Nat → Prop} {τ0 : St} {entries : List (Str × JVal)}
    (hT : ∀ a, T a ↔ (∃ s, reg c.name s = some ⟨a, []⟩) ∨ a = K ∨ a = V) (hKV : K ≠ V) (hK : K < lo) (hV : V < lo)
    (hlo : lo ≤ τ0.heap.length)
    (hroot : ∀ s a, reg c.name s = some a → ∃ k, a = ⟨k, []⟩ ∧ k < lo ∧ k ≠ K ∧ k ≠ V)
    (hinj : ∀ s s' a, reg c.name s = some a → reg c.name s' = some a → s = s')
    (hb : ∀ τ s j, Frame T τ0.heap τ.heap → (s, j) ∈ entries → τ.heap[K]? = some (.str s) → τ.heap[V]? = some (.json j) →
      (reg c.name s = none → body τ = .error (.panic c!"unexpected nil target")) ∧
      ∀ k, reg c.name s = some ⟨k, []⟩ → τ.heap[k]? = some .zero → InstRead g reg c s k τ
        (GoRuntime.parseComposite L parse c.properties j (sub r s) (zeroFields c.properties) (stOf τ)) (body τ)) :
    ∀ (xs : List (Str × JVal)), (∀ e ∈ xs, e ∈ entries) → (xs.map (·.1)).Nodup → ∀ (τ : St) (R : GoMap Instance),
      Frame T τ0.heap τ.heap → Ascending R → (∀ s, (R.lookup s).isSome = (reg c.name s).isSome) →
      (∀ e ∈ xs, ∀ k, reg c.name e.1 = some ⟨k, []⟩ → τ.heap[k]? = some .zero ∧ R.lookup e.1 = some (zeroInst c)) →
      (τ.errors.empty = true → ∀ s k, reg c.name s = some ⟨k, []⟩ → s ∉ xs.map (·.1) → ∃ inst, R.lookup s = some inst ∧
        InstBuilt g reg τ.heap lo c s k inst) →
      InstsRead g reg lo c T τ (GoRuntime.parseInstances L parse c r xs R (stOf τ))
        (loop (fun (kv : Str × Val) τ => .ok ((τ.put K (.str kv.1)).put V kv.2)) body (xs.map fun kv => (kv.1, .json kv.2)) τ) := by
  intro xs
  induction xs with
  | nil =>
    intro _ _ τ R hf ha hk _ hd
    exact ⟨τ, rfl, .refl _ _, rfl, ha, hk, fun he => ⟨he, fun s k hs => hd he s k hs (by simp)⟩⟩
  | cons e xs ih =>
    obtain ⟨s, j⟩ := e
    intro hm hnd τ R hf ha hk hz hd
    rw [List.map_cons, List.nodup_cons] at hnd
    have hlen : lo ≤ τ.heap.length := Nat.le_trans hlo hf.more
    generalize hτ1 : (τ.put K (.str s)).put V (.json j) = τ1
    have hf1 : Frame (fun a => a = K ∨ a = V) τ.heap τ1.heap := by
      rw [← hτ1]
      exact ((frame_set _ _ _).mono fun a _ h => .inl h).trans ((frame_set _ _ _).mono fun a _ h => .inr h)
    have hf1' : Frame T τ.heap τ1.heap := hf1.mono fun a _ h => (hT a).2 (.inr h)
    have hst1 : stOf τ1 = stOf τ := by rw [← hτ1]; rfl
    have hV1 : τ1.heap[V]? = some (.json j) := by
      rw [← hτ1]
      exact List.getElem?_set_self (by simp [St.put]; omega)
    have hK1 : τ1.heap[K]? = some (.str s) := by
      rw [← hτ1]
      exact (frame_set _ V _).get hKV (List.getElem?_set_self (by omega))
    obtain ⟨hnone, hsome⟩ := hb τ1 s j (hf.trans hf1') (hm _ (List.mem_cons_self ..)) hK1 hV1
    rw [GoRuntime.parseInstances]
    cases hR : R.lookup s with
    | none =>
      have hrn : reg c.name s = none := by
        have := hk s
        rw [hR] at this
        simpa using this.symm
      refine .inr ?_
      exact loop_error (congrArg Except.ok hτ1) (hnone hrn)
    | some inst =>
    cases hrs : reg c.name s with
    | none =>
      have := hk s
      rw [hR, hrs] at this
      cases this
    | some a =>
    obtain ⟨k, rfl, hklo, hkK, hkV⟩ := hroot s a hrs
    obtain ⟨hz1, hz2⟩ := hz _ (List.mem_cons_self ..) k hrs
    rw [hR] at hz2
    cases hz2
    have hkz : τ1.heap[k]? = some .zero := hf1.get (fun h => h.elim hkK hkV) hz1
    have hbody := hsome k hrs hkz
    rw [hst1] at hbody
    show InstsRead g reg lo c T τ (do
      let (r', st) ← GoRuntime.parseComposite L parse c.properties j (sub r s) (zeroFields c.properties) (stOf τ)
      let reg := GoMap.put s ⟨if r'.2 then s else [], r'.1⟩ R
      if st.errors.full then return (reg, st) else GoRuntime.parseInstances L parse c r xs reg st) _
    generalize GoRuntime.parseComposite L parse c.properties j (sub r s) (zeroFields c.properties) (stOf τ) = q at hbody ⊢
    cases q with
    | error e =>
      rcases hbody with h | h
      · exact .inl h
      · exact .inr (loop_error (congrArg Except.ok hτ1) h)
    | ok q =>
      obtain ⟨⟨fields, b⟩, st⟩ := q
      obtain ⟨τ2, h1, h2, h3, h4⟩ := hbody
      have hf2 : Frame T τ1.heap τ2.heap := h2.mono fun a _ h => (hT a).2 (.inl ⟨s, h ▸ hrs⟩)
      have hR' : ∀ (i : Instance) s', ((GoMap.put s i R).lookup s').isSome = (reg c.name s').isSome := by
        intro i s'
        rw [GoMap.lookup_put]
        split
        · rename_i e
          rw [e, hrs]
          rfl
        · exact hk s'
      have hTlo : ∀ a, T a → a < lo := by
        intro a h
        rcases (hT a).1 h with ⟨s', h⟩ | h | h
        · obtain ⟨k', e, h', _⟩ := hroot _ _ h
          cases e
          exact h'
        · omega
        · omega
      have hdone : τ2.errors.empty = true → ∀ s' k', reg c.name s' = some ⟨k', []⟩ → s' ∉ xs.map (·.1) →
          ∃ inst, (GoMap.put s ⟨if b then s else [], fields⟩ R).lookup s' = some inst ∧ InstBuilt g reg τ2.heap lo c s' k' inst := by
        intro he s' k' hs' hx
        obtain ⟨he1, hbt, hbuilt⟩ := h4 he
        have hlen1 := hf1'.more
        rw [GoMap.lookup_put]
        by_cases hss : s' = s
        · subst hss
          rw [hrs] at hs'
          cases hs'
          rw [if_pos rfl, hbt]
          exact ⟨_, rfl, hbuilt.frame (Frame.refl (fun _ => False) _) (fun _ h => h.elim) (by omega) (fun h => h)⟩
        · rw [if_neg hss]
          have he0 : τ.errors.empty = true := (congrArg (fun st => st.errors.empty) hst1).symm.trans he1
          obtain ⟨inst, k1, k2⟩ := hd he0 s' k' hs' (by
            rw [List.map_cons, List.mem_cons, not_or]
            exact ⟨hss, hx⟩)
          refine ⟨inst, k1, k2.frame (T := fun a => (a = K ∨ a = V) ∨ a = k) ?_ ?_ (Nat.le_refl _) ?_⟩
          · exact (hf1.mono fun a _ h => .inl h).trans (h2.mono fun a _ h => .inr h)
          · intro a h
            rcases h with (h | h) | h <;> omega
          · obtain ⟨_, e, _, h5, h6⟩ := hroot _ _ hs'
            cases e
            intro h
            rcases h with (h | h) | h
            · exact h5 h
            · exact h6 h
            · subst h
              exact hss (hinj _ _ _ hs' hrs)
      subst h3
      have hfull : (stOf τ2).errors.full = τ2.errors.full := rfl
      simp only [okBind]
      rw [hfull]
      cases hfl : τ2.errors.full with
      | true =>
        rw [hfl] at h1
        simp only [if_true]
        refine ⟨τ2, loop_brk (congrArg Except.ok hτ1) h1, hf1'.trans hf2, rfl, ha.put _ _, hR' _, fun he => ?_⟩
        rw [full_empty hfl] at he
        cases he
      | false =>
        rw [hfl] at h1
        simp only [Bool.false_eq_true, if_false]
        rw [List.map_cons, loop_next (congrArg Except.ok hτ1) h1]
        have := ih (fun e he => hm e (List.mem_cons_of_mem _ he)) hnd.2 τ2 (GoMap.put s ⟨if b then s else [], fields⟩ R)
          ((hf.trans hf1').trans hf2) (ha.put _ _) (hR' _) (fun e he k' hk' => ?_) hdone
        · generalize GoRuntime.parseInstances L parse c r xs (GoMap.put s ⟨if b then s else [], fields⟩ R) (stOf τ2) = q at this ⊢
          cases q with
          | error e => exact this
          | ok q =>
            obtain ⟨R', st⟩ := q
            obtain ⟨τ', g1, g2, g3, g4, g5, g6⟩ := this
            exact ⟨τ', g1, (hf1'.trans hf2).trans g2, g3, g4, g5,
              fun he => ⟨(congrArg (fun st => st.errors.empty) hst1).symm.trans (h4 (g6 he).1).1, (g6 he).2⟩⟩
        · have hne : e.1 ≠ s := by
            intro h
            refine hnd.1 ?_
            show s ∈ _
            rw [← h]
            exact List.mem_map_of_mem (f := fun x => x.1) he
          obtain ⟨g1, g2⟩ := hz e (List.mem_cons_of_mem _ he) k' hk'
          obtain ⟨_, e', _, h5, h6⟩ := hroot _ _ hk'
          cases e'
          refine ⟨h2.get (fun h => ?_) (hf1.get (fun h => h.elim h5 h6) g1), ?_⟩
          · subst h
            exact hne (hinj _ _ _ hk' hrs)
          · rw [GoMap.lookup_put, if_neg hne]
            exact g2

/-! ## A class -/

/-- The cells of the instances -/
def InstCell (reg : Str → Str → Option Addr) (k : Nat) : Prop := ∃ c s, reg c s = some ⟨k, []⟩

/-- The memory before the instances are parsed -/
structure Base (g : Graph) (kvs : List (Str × JVal)) (r : Str) (lo l : Nat) (h₀ : List Val) (x : Val) (reg : Str → Str → Option Addr)
    (ρ : Env) : Prop where
  cells : Cells reg lo (fun _ => False) h₀
  target : ∃ S, ρ.lookup (v c!"target") = some S ∧ h₀[S]? = some (.ptr ⟨l, []⟩)
  errors : ∃ S, ρ.lookup GoCode.errors = some S ∧ h₀[S]? = some .errors
  cell : h₀[l]? = some x
  low : l < lo
  table : ∀ c ∈ g.classes, ∃ w, fieldOf (goName c.plural) x = some w ∧ TableOk reg lo h₀ c.name w
  own : ∀ c ∈ g.classes, ∀ p, camelCase c.plural = .ok p → ClassVars r kvs lo ρ h₀ c p

section
variable {g : Graph} {kvs : List (Str × JVal)} {r : Str} {lo l : Nat} {h₀ : List Val} {x : Val} {reg : Str → Str → Option Addr} {ρ : Env}

theorem Cells.other (H : Cells reg lo (fun _ => False) h₀) {k : Nat} {w : Val} (hk : h₀[k]? = some w) (hw : w ≠ .zero) :
    ¬ InstCell reg k := by
  rintro ⟨c, s, h⟩
  obtain ⟨k', e, _, _, h'⟩ := H.zero c s _ h
  cases e
  rw [hk] at h'
  exact hw (Option.some.inj h')

theorem Base.low_other (H : Base g kvs r lo l h₀ x reg ρ) : ¬ InstCell reg l := by
  rintro ⟨c, s, h⟩
  obtain ⟨k', e, h1, _⟩ := H.cells.zero c s _ h
  cases e
  have := H.low
  omega

theorem TableOk.regVal (H : Cells reg lo (fun _ => False) h₀) {c : Str} {w : Val} (h : TableOk reg lo h₀ c w) :
    RegVal (InstCell reg) h₀ reg c w := by
  rcases h with ⟨h1, h2⟩ | ⟨m, tbl, h1, h2, h3, h4, h5⟩
  · exact .inl ⟨by rw [h1]; rfl, h2⟩
  · exact .inr ⟨m, tbl, h1, H.other h3 (by simp), h3, h5⟩

/-- A field of the graph -/
theorem Base.field (H : Base g kvs r lo l h₀ x reg ρ) {L : Lib} {pats : Nat → Str} {ρ' : Env} {σ : St}
    (hρ : ρ'.lookup (v c!"target") = ρ.lookup (v c!"target")) (hf : Frame (InstCell reg) h₀ σ.heap) {f : Str} {w : Val}
    (hw : fieldOf f x = some w) : eval L pats ρ' σ (.field (.var (v c!"target")) f) = .ok w := by
  obtain ⟨S, h1, h2⟩ := H.target
  have h3 : σ.heap[l]? = some x := hf.get H.low_other H.cell
  exact (eval_field (a := ⟨l, []⟩) (hρ.trans h1) (hf.get (H.cells.other h2 (by simp)) h2) (by
    unfold St.read
    rw [h3]
    rfl) hw).1

theorem plural_field {c f : Str} (h : GoCode.pluralField g c = .ok f) : ∃ d ∈ g.classes, d.name = c ∧ f = goName d.plural := by
  unfold GoCode.pluralField at h
  cases hd : g.cls? c with
  | none => rw [hd] at h; cases h
  | some d =>
    rw [hd] at h
    exact ⟨d, (cls_mem hd).1, (cls_mem hd).2, (goName_of h).symm⟩

/-- The registries given to a function -/
theorem Base.registries (H : Base g kvs r lo l h₀ x reg ρ) {L : Lib} {pats : Nat → Str} {ρ' : Env} {σ : St}
    (hρ : ρ'.lookup (v c!"target") = ρ.lookup (v c!"target")) (hf : Frame (InstCell reg) h₀ σ.heap) :
    ∀ (refs fs : List Str), refs.mapM (GoCode.pluralField g) = .ok fs → ∃ vs, Forall₂ (RegVal (InstCell reg) h₀ reg) refs vs ∧
      evalAll L pats ρ' σ (fs.map fun f => .field (.var (v c!"target")) f) = .ok vs := by
  intro refs
  induction refs with
  | nil =>
    intro fs h
    cases h
    exact ⟨[], .nil, rfl⟩
  | cons c refs ih =>
    intro fs h
    obtain ⟨f, fs', h1, h2, rfl⟩ := GoCode.mapM_cons h
    obtain ⟨vs, h3, h4⟩ := ih fs' h2
    obtain ⟨d, hd, rfl, rfl⟩ := plural_field h1
    obtain ⟨w, h5, h6⟩ := H.table d hd
    exact ⟨w :: vs, .cons (h6.regVal H.cells) h3, evalAll_cons (H.field hρ hf h5) h4⟩

/-- The instance in the registry -/
theorem Base.index (H : Base g kvs r lo l h₀ x reg ρ) {L : Lib} {pats : Nat → Str} {ρ' : Env} {σ : St}
    (hρ : ρ'.lookup (v c!"target") = ρ.lookup (v c!"target")) (hf : Frame (InstCell reg) h₀ σ.heap) {c : Class} (hc : c ∈ g.classes)
    {e : Expr} {s : Str} (he : eval L pats ρ' σ e = .ok (.str s)) :
    eval L pats ρ' σ (.index (.field (.var (v c!"target")) (goName c.plural)) e) = .ok (match reg c.name s with
      | some a => .ptr a
      | none => .zero) := by
  obtain ⟨w, h1, h2⟩ := H.table c hc
  rw [eval, H.field hρ hf h1, he]
  rcases h2 with ⟨rfl, h3⟩ | ⟨m, tbl, rfl, h3, h4, h5, h6⟩
  · rw [h3]
    rfl
  · have h7 := hf.get (H.cells.other h4 (by simp)) h4
    simp only [okBind, indexOf, h7, h6]
    cases reg c.name s <;> rfl

end

/-! ## The code of a class -/

/-- The call of the function of the class -/
def instCall (c : Class) (p name : Str) (fs : List Str) : Stmt :=
  .call (name ++ c!"FromJSONable") ((Expr.var (v c!"value") :: .var (v c!"id") ::
    (fs.map (fun f => .field (.var (v c!"target")) f) ++ [.join [.var (own [] p c!"Ref"), .var (v c!"id")],
      .index (.field (.var (v c!"target")) (goName c.plural)) (.var (v c!"id")), .var GoCode.errors])).map Arg.val)

theorem inst_code {g : Graph} {c : Class} {code : Stmt} (h : GoGen.parseInstances g c = .ok code) : ∃ p name refs fs,
    camelCase c.plural = .ok p ∧ ucamelCase c.name = .ok name ∧ GoCode.referencesOf g (.cls c.name) = .ok refs ∧
    refs.mapM (GoCode.pluralField g) = .ok fs ∧ code = .seq (when (.var (own [] p c!"Ok"))
      (.forEntries (v c!"id") (some (v c!"value")) (.var (own [] p c!"Map")) (untilFull (instCall c p name fs))))
      (when .errorsFull .ret) := by
  unfold GoGen.parseInstances at h
  cases h1 : camelCase c.plural with
  | error _ => rw [h1] at h; cases h
  | ok p =>
  cases h2 : ucamelCase c.plural with
  | error _ => rw [h1, h2] at h; cases h
  | ok f =>
  cases h3 : ucamelCase c.name with
  | error _ => rw [h1, h2, h3] at h; cases h
  | ok name =>
  cases h4 : GoCode.referencesOf g (.cls c.name) with
  | error _ => rw [h1, h2, h3, h4] at h; cases h
  | ok refs =>
  rw [h1, h2, h3, h4] at h
  simp only [okBind] at h
  cases h5 : refs.mapM (GoCode.pluralField g) with
  | error _ => rw [h5] at h; cases h
  | ok fs =>
  rw [h5] at h
  cases h
  have hf : goName c.plural = f := goName_of h2
  subst hf
  refine ⟨p, name, refs, fs, rfl, rfl, rfl, h5, ?_⟩
  unfold instCall
  simp [Function.comp_def]

section
variable {E : GoRuntime.Env} {P : Program} {kvs : List (Str × JVal)} {r : Str} {lo l : Nat} {h₀ : List Val} {x : Val}
  {reg : Str → Str → Option Addr} {ρ : Env}

theorem inst_body (hR : Reads E.graph P) (hids : ∀ c s, s ∈ E.ids c ↔ (reg c s).isSome = true) {fuel fuel' : Nat} (hfuel : fuel ≤ fuel')
    (H : Base E.graph kvs r lo l h₀ x reg ρ) {c : Class} (hc : c ∈ E.graph.classes) {p name : Str} {refs fs : List Str}
    (hp : camelCase c.plural = .ok p) (hname : ucamelCase c.name = .ok name) (hrefs : GoCode.referencesOf E.graph (.cls c.name) = .ok refs)
    (hfs : refs.mapM (GoCode.pluralField E.graph) = .ok fs) {ρ' : Env} {K V : Nat} (hK : ρ'.lookup (v c!"id") = some K)
    (hV : ρ'.lookup (v c!"value") = some V) (hother : ∀ y, y ≠ v c!"id" → y ≠ v c!"value" → ρ'.lookup y = ρ.lookup y) {τ : St}
    (hf : Frame (InstCell reg) h₀ τ.heap) {s : Str} {j : JVal} (hK' : τ.heap[K]? = some (.str s)) (hV' : τ.heap[V]? = some (.json j))
    (hj : Canon j) :
    (reg c.name s = none → bodyOf (exec E.lib P.patterns E.order (run E.order E.lib P (fuel' + 1)) (untilFull (instCall c p name fs)) ρ' τ) =
      .error (.panic c!"unexpected nil target")) ∧
    ∀ k, reg c.name s = some ⟨k, []⟩ → τ.heap[k]? = some .zero → InstRead E.graph reg c s k τ
      (GoRuntime.parseComposite E.lib (parseTy E (GoRuntime.parseEmbed E fuel)) c.properties j (sub (sub r (registryKey c)) s)
        (zeroFields c.properties) (stOf τ))
      (bodyOf (exec E.lib P.patterns E.order (run E.order E.lib P (fuel' + 1)) (untilFull (instCall c p name fs)) ρ' τ)) := by
  have htar : ρ'.lookup (v c!"target") = ρ.lookup (v c!"target") := hother _ (by decide) (by decide)
  obtain ⟨vs, hvs, hevs⟩ := H.registries (L := E.lib) (pats := P.patterns) htar hf refs fs hfs
  have hid := eval_var E.lib P.patterns hK hK'
  have hva := eval_var E.lib P.patterns hV hV'
  obtain ⟨Sr, hr1, _, hr3⟩ := (H.own c hc p hp).ref
  have href := eval_var E.lib P.patterns ((hother _ (own_ne_v _ _ _ _) (own_ne_v _ _ _ _)).trans hr1)
    (hf.get (H.cells.other hr3 (by simp)) hr3)
  obtain ⟨Se, he1, he2⟩ := H.errors
  have herr := eval_var E.lib P.patterns ((hother GoCode.errors (by decide) (by decide)).trans he1)
    (hf.get (H.cells.other he2 (by simp)) he2)
  have hjoin : eval E.lib P.patterns ρ' τ (.join [.var (own [] p c!"Ref"), .var (v c!"id")]) =
      .ok (.str (sub (sub r (registryKey c)) s)) :=
    eval_join (ts := [sub r (registryKey c), s]) (evalAll_cons href (evalAll_one hid))
  have hidx := H.index (L := E.lib) (pats := P.patterns) htar hf hc hid
  have hargs := evalAll_args (evalAll_cons hva (evalAll_cons hid (evalAll_append hevs
    (evalAll_cons hjoin (evalAll_cons hidx (evalAll_one herr))))))
  obtain ⟨F, hF, hgen, hnd, hres, hnoid⟩ := hR.classes c hc
  have hFn := parseComposite_name hgen hname
  have hcall : exec E.lib P.patterns E.order (run E.order E.lib P (fuel' + 1)) (instCall c p name fs) ρ' τ = (do
      let (_, σ) ← run E.order E.lib P (fuel' + 1) F.name (argsOf j (some s) vs (sub (sub r (registryKey c)) s)
        (match reg c.name s with
          | some a => .ptr a
          | none => .zero)) τ
      return (.next, ρ', σ)) := by
    unfold instCall
    rw [exec, hargs, hFn]
    rfl
  constructor
  · intro hn
    rw [hn] at hcall
    rw [composite_nil hR.names hR.plurals hgen hF hrefs hvs rfl] at hcall
    rw [untilFull, exec_seq_error E.order E.lib P.patterns _ hcall]
    rfl
  · intro k hk hkz
    rw [hk] at hcall
    have hm := composite_read (a := ⟨k, []⟩) (r := sub (sub r (registryKey c)) s) hR.names hR.pats hids hR.plurals
      (calls_ok hR hids fuel fuel' hfuel) hgen hF hnd hres (fun _ => hnoid) hrefs hvs (id := some s) rfl hf (.inl ⟨c.name, s, hk⟩)
      hkz rfl hj
    generalize GoRuntime.parseComposite E.lib (parseTy E (GoRuntime.parseEmbed E fuel)) c.properties j (sub (sub r (registryKey c)) s)
      (zeroFields c.properties) (stOf τ) = m at hm ⊢
    cases m with
    | error e =>
      rcases hm with h | h
      · exact .inl h
      · refine .inr ?_
        rw [h] at hcall
        rw [untilFull, exec_seq_error E.order E.lib P.patterns _ hcall]
        rfl
    | ok q =>
      obtain ⟨⟨fields, b⟩, st⟩ := q
      obtain ⟨σ', c', x', h1, h2, h3, h4, h5, h6⟩ := hm
      rw [h1] at hcall
      refine ⟨σ', exec_untilFull hcall, h2, h3, fun he => ?_⟩
      obtain ⟨g1, g2, g3, g4⟩ := h6 he
      have hxc : x' = c' := by
        rcases h5 with h | ⟨h, h'⟩
        · cases h; rfl
        · exact h'.trans h.symm
      subst hxc
      exact ⟨g1, g2, rfl, x', h4, g3 s rfl, g4⟩

/-- What the code of a class has done -/
def ClassRead (g : Graph) (reg : Str → Str → Option Addr) (lo : Nat) (c : Class) (ρ : Env) (σ : St) :
    Except Exc (GoMap Instance × GoRuntime.St) → Result → Prop
  | .ok (R, st), X => ∃ σ', X = .ok (if σ'.errors.full then .ret else .next, ρ, σ') ∧
      Frame (fun a => ∃ s, reg c.name s = some ⟨a, []⟩) σ.heap σ'.heap ∧ stOf σ' = st ∧ Ascending R ∧
      (∀ s, (R.lookup s).isSome = (reg c.name s).isSome) ∧
      (σ'.errors.empty = true → σ.errors.empty = true ∧ ∀ s k, reg c.name s = some ⟨k, []⟩ → ∃ inst, R.lookup s = some inst ∧
        InstBuilt g reg σ'.heap lo c s k inst)
  | .error e, X => Stops e X

/-- The parser of the instances of a class -/
def parseClass (O : Order) (L : Lib) (parse : Ty → GoRuntime.ParseFn) (kvs : List (Str × JVal)) (r : Str) (c : Class)
    (R : GoMap Instance) (st : GoRuntime.St) : Except Exc (GoMap Instance × GoRuntime.St) :=
  match kvs.lookup (registryKey c) with
  | some (.obj entries) => GoRuntime.parseInstances L parse c (sub r (registryKey c)) (O.visit st.ranges entries) R st.range
  | _ => .ok (R, st)

theorem exec_full {O : Order} {L : Lib} {pats : Nat → Str} {call : Call} (ρ : Env) (σ : St) :
    exec L pats O call (when .errorsFull .ret) ρ σ = .ok (if σ.errors.full then .ret else .next, ρ, σ) := by
  rw [when, exec]
  show (if σ.errors.full = true then close ρ (exec L pats O call .ret ρ σ) else close ρ (exec L pats O call .skip ρ σ)) = _
  cases σ.errors.full <;> rfl

theorem class_insts (hR : Reads E.graph P) (hids : ∀ c s, s ∈ E.ids c ↔ (reg c s).isSome = true) (hO : E.order.Proper)
    {fuel fuel' : Nat} (hfuel : fuel ≤ fuel') (H : Base E.graph kvs r lo l h₀ x reg ρ) {c : Class} (hc : c ∈ E.graph.classes)
    {code : Stmt} (hcode : GoGen.parseInstances E.graph c = .ok code) (hcan : Canon (.obj kvs))
    (hobj : ∀ j, kvs.lookup (registryKey c) = some j → ∃ es, j = .obj es) {σ : St} (hf : Frame (InstCell reg) h₀ σ.heap)
    {R : GoMap Instance} (ha : Ascending R) (hRm : ∀ s, R.lookup s = (reg c.name s).map fun _ => zeroInst c)
    (hz : ∀ s k, reg c.name s = some ⟨k, []⟩ → σ.heap[k]? = some .zero)
    (hkeys : ∀ s, (reg c.name s).isSome = true → ∃ es, kvs.lookup (registryKey c) = some (.obj es) ∧ s ∈ es.map (·.1)) :
    ClassRead E.graph reg h₀.length c ρ σ
      (parseClass E.order E.lib (parseTy E (GoRuntime.parseEmbed E fuel)) kvs r c R (stOf σ))
      (exec E.lib P.patterns E.order (run E.order E.lib P (fuel' + 1)) code ρ σ) := by
  obtain ⟨p, name, refs, fs, hp, hname, hrefs, hfs, rfl⟩ := inst_code hcode
  have hRs : ∀ s, (R.lookup s).isSome = (reg c.name s).isSome := fun s => by rw [hRm, Option.isSome_map]
  obtain ⟨So, ho1, _, ho3⟩ := (H.own c hc p hp).ok
  have hok := eval_var E.lib P.patterns ho1 (hf.get (H.cells.other ho3 (by simp)) ho3)
  unfold parseClass
  cases hk : kvs.lookup (registryKey c) with
  | none =>
    rw [hk] at hok
    rw [exec_seq E.order E.lib P.patterns _ (exec_when_false hok), exec_full]
    refine ⟨σ, rfl, .refl _ _, rfl, ha, hRs, fun he => ⟨he, fun s k hs => ?_⟩⟩
    obtain ⟨es, h, _⟩ := hkeys s (by rw [hs]; rfl)
    rw [hk] at h
    cases h
  | some j =>
  obtain ⟨es, rfl⟩ := hobj j hk
  rw [hk] at hok
  obtain ⟨Sm, hm1, _, hm3⟩ := (H.own c hc p hp).map es hk
  have hmap := eval_var E.lib P.patterns hm1 (hf.get (H.cells.other hm3 (by simp)) hm3)
  have hces := GoRuntime.canon_entry hcan hk
  generalize hρ' : ((v c!"value", σ.heap.length + 1) :: (v c!"id", σ.heap.length) :: ρ : Env) = ρ'
  generalize hbody : (fun τ => bodyOf (exec E.lib P.patterns E.order (run E.order E.lib P (fuel' + 1))
    (untilFull (instCall c p name fs)) ρ' τ)) = body
  generalize hτ0 : ({ ((σ.alloc .zero).2.alloc .zero).2 with ranges := σ.ranges + 1 } : St) = τ0
  have hfor : exec E.lib P.patterns E.order (run E.order E.lib P (fuel' + 1)) (.forEntries (v c!"id") (some (v c!"value"))
      (.var (own [] p c!"Map")) (untilFull (instCall c p name fs))) ρ σ = (do
        let (f, σ) ← loop (fun (kv : Str × Val) τ => .ok ((τ.put σ.heap.length (.str kv.1)).put (σ.heap.length + 1) kv.2)) body
          ((E.order.visit σ.ranges es).map fun kv => (kv.1, .json kv.2)) τ0
        return (f, ρ, σ)) := by
    rw [exec, hmap, ← visit_map, ← hτ0, ← hbody, ← hρ']
    rfl
  have hh0 : τ0.heap = σ.heap ++ [.zero, .zero] := by
    rw [← hτ0]
    simp [St.alloc]
  have hg0 : Grown σ.heap τ0.heap := by
    rw [hh0]
    exact ⟨by simp, fun a ha _ => List.getElem?_append_left ha⟩
  have hlen0 : τ0.heap.length = σ.heap.length + 2 := by rw [hh0]; simp
  have hst0 : stOf τ0 = (stOf σ).range := by rw [← hτ0]; rfl
  have hroot : ∀ s a, reg c.name s = some a → ∃ k, a = ⟨k, []⟩ ∧ k < h₀.length := by
    intro s a hs
    obtain ⟨k, e, _, _, h⟩ := H.cells.zero _ _ _ hs
    exact ⟨k, e, lt_of_get h⟩
  have hmore := hf.more
  have hloop := loop_inst (g := E.graph) (L := E.lib) (parse := parseTy E (GoRuntime.parseEmbed E fuel)) (reg := reg) (c := c)
    (r := sub r (registryKey c)) (K := σ.heap.length) (V := σ.heap.length + 1) (lo := τ0.heap.length) (body := body)
    (T := fun a => (∃ s, reg c.name s = some ⟨a, []⟩) ∨ a = σ.heap.length ∨ a = σ.heap.length + 1) (τ0 := τ0) (entries := es)
    (fun a => Iff.rfl) (by omega) (by omega) (by omega) (Nat.le_refl _) (fun s a hs => by
      obtain ⟨k, e, h⟩ := hroot s a hs
      exact ⟨k, e, by omega, by omega, by omega⟩) (fun s s' a h h' => (H.cells.inj _ _ _ _ _ h h').2) (by
      intro τ s j hfτ hmem hKτ hVτ
      rw [← hbody]
      refine inst_body hR hids hfuel H hc hp hname hrefs hfs (K := σ.heap.length) (V := σ.heap.length + 1) ?_ ?_ ?_ ?_ hKτ hVτ ?_
      · rw [← hρ']
        rw [lookup_ne (by decide), lookup_self]
      · rw [← hρ', lookup_self]
      · intro y h1 h2
        rw [← hρ', lookup_ne h2, lookup_ne h1]
      · refine ⟨Nat.le_trans hmore (Nat.le_trans hg0.more hfτ.more), fun a ha hn => ?_⟩
        refine (hfτ.same a (by omega) fun h => ?_).trans ((hg0.same a (by omega) fun h => h).trans (hf.same a ha hn))
        rcases h with ⟨s', h⟩ | h | h
        · exact hn ⟨_, _, h⟩
        · omega
        · omega
      · cases hces with
        | obj _ _ h => exact h _ hmem)
    (E.order.visit σ.ranges es) (fun e he => visit_mem he)
    (by
      cases hces with
      | obj _ h _ => exact ((Order.visit_perm hO _ _).map _).nodup_iff.2 h.nodup)
    τ0 R (.refl _ _) ha hRs (fun e _ k hk' => ⟨hg0.get (fun h => h) (hz _ k hk'), by rw [hRm, hk']; rfl⟩)
    (fun _ s k hs hns => by
      exfalso
      obtain ⟨es', h1, h2⟩ := hkeys s (by rw [hs]; rfl)
      rw [hk] at h1
      cases h1
      exact hns (((Order.visit_perm hO _ _).map _).mem_iff.2 h2))
  rw [hst0] at hloop
  show ClassRead _ _ _ _ _ _ (GoRuntime.parseInstances E.lib (parseTy E (GoRuntime.parseEmbed E fuel)) c (sub r (registryKey c))
    (E.order.visit σ.ranges es) R (stOf σ).range) _
  generalize GoRuntime.parseInstances E.lib (parseTy E (GoRuntime.parseEmbed E fuel)) c (sub r (registryKey c))
    (E.order.visit σ.ranges es) R (stOf σ).range = m at hloop ⊢
  cases m with
  | error e =>
    rcases hloop with h | h
    · exact .inl h
    · refine .inr ?_
      rw [h] at hfor
      refine exec_seq_error E.order E.lib P.patterns _ ?_
      rw [exec_when_true hok, hfor]
      rfl
  | ok q =>
    obtain ⟨R', st⟩ := q
    obtain ⟨τ', h1, h2, h3, h4, h5, h6⟩ := hloop
    rw [h1] at hfor
    have hw : exec E.lib P.patterns E.order (run E.order E.lib P (fuel' + 1)) (when (.var (own [] p c!"Ok"))
        (.forEntries (v c!"id") (some (v c!"value")) (.var (own [] p c!"Map")) (untilFull (instCall c p name fs)))) ρ σ =
        .ok (.next, ρ, τ') := by
      rw [exec_when_true hok, hfor]
      rfl
    rw [exec_seq E.order E.lib P.patterns _ hw, exec_full]
    refine ⟨τ', rfl, ?_, h3, h4, h5, fun he => ⟨?_, fun s k hs => ?_⟩⟩
    · refine ⟨Nat.le_trans hg0.more h2.more, fun a ha hn => (h2.same a (by omega) fun h => ?_).trans (hg0.same a ha fun h => h)⟩
      rcases h with h | h | h
      · exact hn h
      · omega
      · omega
    · exact (congrArg (fun st => st.errors.empty) hst0).symm.trans (h6 he).1
    · obtain ⟨inst, g1, g2⟩ := (h6 he).2 s k hs
      exact ⟨inst, g1, g2.frame (Frame.refl (fun _ => False) _) (fun _ h => h.elim) (by omega) (fun h => h)⟩

/-! ## All the classes -/

/-- What the code of the classes has done -/
def RegsRead (g : Graph) (reg : Str → Str → Option Addr) (lo : Nat) (cs : List Class) (ρ : Env) (σ : St)
    (regs : List (Str × GoMap Instance)) : Except Exc ((List (Str × GoMap Instance) × Bool) × GoRuntime.St) → Result → Prop
  | .ok ((regs', b), st), X => ∃ σ', X = .ok (if b then .ret else .next, ρ, σ') ∧
      Frame (fun a => ∃ c ∈ cs, ∃ s, reg c.name s = some ⟨a, []⟩) σ.heap σ'.heap ∧ stOf σ' = st ∧
      (b = true → σ'.errors.full = true) ∧ (∀ c', c' ∉ cs.map (·.name) → regs'.lookup c' = regs.lookup c') ∧
      (σ'.errors.empty = true → σ.errors.empty = true ∧ ∀ c ∈ cs, Ascending ((regs'.lookup c.name).getD []) ∧
        (∀ s, (((regs'.lookup c.name).getD []).lookup s).isSome = (reg c.name s).isSome) ∧
        ∀ s k, reg c.name s = some ⟨k, []⟩ → ∃ inst, ((regs'.lookup c.name).getD []).lookup s = some inst ∧
          InstBuilt g reg σ'.heap lo c s k inst)
  | .error e, X => Stops e X

theorem registries_cons (O : Order) (L : Lib) (parse : Ty → GoRuntime.ParseFn) (kvs : List (Str × JVal)) (r : Str) (c : Class)
    (cs : List Class) (regs : List (Str × GoMap Instance)) (st : GoRuntime.St) : ∃ f : GoMap Instance → List (Str × GoMap Instance),
      parseRegistries O L parse kvs r (c :: cs) regs st = (do
        let (R, st) ← parseClass O L parse kvs r c ((regs.lookup c.name).getD []) st
        if st.errors.full then return ((f R, true), st) else parseRegistries O L parse kvs r cs (f R) st) ∧
      ∀ R st', parseClass O L parse kvs r c ((regs.lookup c.name).getD []) st = .ok (R, st') →
        ((f R).lookup c.name).getD [] = R ∧ ∀ c', c' ≠ c.name → (f R).lookup c' = regs.lookup c' := by
  rw [parseRegistries]
  unfold parseClass
  have hother : ∀ R st', (.ok ((regs.lookup c.name).getD [], st) : Except Exc (GoMap Instance × GoRuntime.St)) = .ok (R, st') →
      (regs.lookup c.name).getD [] = R ∧ ∀ c', c' ≠ c.name → regs.lookup c' = regs.lookup c' := by
    intro R st' h
    cases h
    exact ⟨rfl, fun _ _ => rfl⟩
  cases kvs.lookup (registryKey c) with
  | none => exact ⟨fun _ => regs, rfl, hother⟩
  | some j =>
    cases j with
    | obj es =>
      refine ⟨fun R => setRegistry c.name R regs, rfl, fun R st' _ => ⟨?_, fun c' hc' => ?_⟩⟩
      · rw [setRegistry_lookup, if_pos rfl]
        rfl
      · rw [setRegistry_lookup, if_neg hc']
    | _ => exact ⟨fun _ => regs, rfl, hother⟩

theorem classes_insts (hR : Reads E.graph P) (hids : ∀ c s, s ∈ E.ids c ↔ (reg c s).isSome = true) (hO : E.order.Proper)
    {fuel fuel' : Nat} (hfuel : fuel ≤ fuel') (H : Base E.graph kvs r lo l h₀ x reg ρ) (hcan : Canon (.obj kvs)) :
    ∀ (cs : List Class) (codes : List Stmt), cs.mapM (GoGen.parseInstances E.graph) = .ok codes → (∀ c ∈ cs, c ∈ E.graph.classes) →
      (cs.map (·.name)).Nodup → (∀ c ∈ cs, ∀ j, kvs.lookup (registryKey c) = some j → ∃ es, j = .obj es) →
      ∀ (σ : St) (regs : List (Str × GoMap Instance)), Frame (InstCell reg) h₀ σ.heap →
      (∀ c ∈ cs, Ascending ((regs.lookup c.name).getD []) ∧
        (∀ s, ((regs.lookup c.name).getD []).lookup s = (reg c.name s).map fun _ => zeroInst c) ∧
        (∀ s k, reg c.name s = some ⟨k, []⟩ → σ.heap[k]? = some .zero) ∧
        ∀ s, (reg c.name s).isSome = true → ∃ es, kvs.lookup (registryKey c) = some (.obj es) ∧ s ∈ es.map (·.1)) →
      RegsRead E.graph reg h₀.length cs ρ σ regs
        (parseRegistries E.order E.lib (parseTy E (GoRuntime.parseEmbed E fuel)) kvs r cs regs (stOf σ))
        (exec E.lib P.patterns E.order (run E.order E.lib P (fuel' + 1)) (block codes) ρ σ) := by
  intro cs
  induction cs with
  | nil =>
    intro codes h _ _ _ σ regs _ _
    cases h
    exact ⟨σ, rfl, .refl _ _, rfl, nofun, fun _ _ => rfl, fun he => ⟨he, nofun⟩⟩
  | cons c cs ih =>
    intro codes h hmem hnd hobj σ regs hf hpre
    obtain ⟨code, codes', h1, h2, rfl⟩ := GoCode.mapM_cons h
    rw [List.map_cons, List.nodup_cons] at hnd
    obtain ⟨ha, hRm, hz, hkeys⟩ := hpre c (List.mem_cons_self ..)
    have hcl := class_insts hR hids hO hfuel H (hmem c (List.mem_cons_self ..)) h1 hcan (hobj c (List.mem_cons_self ..)) hf ha hRm hz
      hkeys
    obtain ⟨f, hreg, hfR⟩ := registries_cons E.order E.lib (parseTy E (GoRuntime.parseEmbed E fuel)) kvs r c cs regs (stOf σ)
    rw [hreg]
    generalize parseClass E.order E.lib (parseTy E (GoRuntime.parseEmbed E fuel)) kvs r c ((regs.lookup c.name).getD []) (stOf σ) = m
      at hcl hfR ⊢
    have hne : ∀ d ∈ cs, d.name ≠ c.name := fun d hd e => hnd.1 (e ▸ List.mem_map_of_mem hd)
    cases m with
    | error e =>
      rcases hcl with h | h
      · exact .inl h
      · exact .inr (exec_stop h)
    | ok q =>
      obtain ⟨R, st⟩ := q
      obtain ⟨hfR1, hfR2⟩ := hfR R st rfl
      obtain ⟨σ1, g1, g2, g3, g4, g5, g6⟩ := hcl
      have hf1 : Frame (fun a => ∃ d ∈ c :: cs, ∃ s, reg d.name s = some ⟨a, []⟩) σ.heap σ1.heap :=
        g2.mono fun a _ h => ⟨c, List.mem_cons_self .., h⟩
      subst g3
      have hfull : (stOf σ1).errors.full = σ1.errors.full := rfl
      simp only [okBind]
      rw [hfull]
      cases hfl : σ1.errors.full with
      | true =>
        rw [hfl] at g1
        rw [if_pos rfl]
        refine ⟨σ1, exec_return g1, hf1, rfl, fun _ => hfl, fun c' hc' => ?_, fun he => ?_⟩
        · rw [List.map_cons, List.mem_cons, not_or] at hc'
          exact hfR2 c' hc'.1
        · rw [full_empty hfl] at he
          cases he
      | false =>
        rw [hfl] at g1
        simp only [Bool.false_eq_true, if_false]
        rw [exec_next g1]
        have hf01 : Frame (InstCell reg) h₀ σ1.heap := hf.trans (g2.mono fun a _ ⟨s, h⟩ => ⟨_, s, h⟩)
        have := ih codes' h2 (fun d hd => hmem d (List.mem_cons_of_mem _ hd)) hnd.2 (fun d hd => hobj d (List.mem_cons_of_mem _ hd)) σ1
          (f R) hf01 (fun d hd => by
            obtain ⟨p1, p2, p3, p4⟩ := hpre d (List.mem_cons_of_mem _ hd)
            rw [hfR2 _ (hne d hd)]
            refine ⟨p1, p2, fun s k hs => g2.get (fun ⟨s', h⟩ => ?_) (p3 s k hs), p4⟩
            exact hne d hd (H.cells.inj _ _ _ _ _ hs h).1)
        generalize parseRegistries E.order E.lib (parseTy E (GoRuntime.parseEmbed E fuel)) kvs r cs (f R) (stOf σ1) = m at this ⊢
        cases m with
        | error e => exact this
        | ok q =>
          obtain ⟨⟨regs', b⟩, st⟩ := q
          obtain ⟨σ2, k1, k2, k3, k4, k5, k6⟩ := this
          refine ⟨σ2, k1, hf1.trans (k2.mono fun a _ ⟨d, hd, h⟩ => ⟨d, List.mem_cons_of_mem _ hd, h⟩), k3, k4, fun c' hc' => ?_,
            fun he => ⟨(g6 (k6 he).1).1, fun d hd => ?_⟩⟩
          · rw [List.map_cons, List.mem_cons, not_or] at hc'
            exact (k5 c' hc'.2).trans (hfR2 c' hc'.1)
          · rcases List.mem_cons.1 hd with rfl | hd
            · rw [k5 _ hnd.1, hfR1]
              refine ⟨g4, g5, fun s k hs => ?_⟩
              obtain ⟨inst, i1, i2⟩ := (g6 (k6 he).1).2 s k hs
              refine ⟨inst, i1, i2.frame k2 (fun a ⟨d', _, s', h⟩ => ?_) (Nat.le_refl _) fun ⟨d', hd', s', h⟩ => ?_⟩
              · obtain ⟨_, e, _, _, h⟩ := H.cells.zero _ _ _ h
                cases e
                exact lt_of_get h
              · exact hne d' hd' (H.cells.inj _ _ _ _ _ h hs).1
            · exact (k6 he).2 d hd

end

end Mapry.GoExec
