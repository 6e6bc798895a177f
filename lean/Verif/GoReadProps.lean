import Verif.GoReadAll
import Verif.GoGraph

/-!
# The generated Go code which parses the properties
-/

namespace Mapry.GoExec

open Mapry.GoLang Mapry.GoGen Mapry.Naming
open Mapry.GoRuntime (JVal Lib field isPointer parseTy sub goName)
open Mapry.GoRuntime.Spec (Canon)
open Mapry.GoCode (Name v vi own)

/-! ## Fields -/

theorem fields_lookup (f : Str) (w : GV) : ∀ (fs : GoRuntime.Fields) (f' : Str),
    (GoRuntime.setField f w fs).lookup f' = if f' = f then some w else fs.lookup f'
  | [], f' => by
    rw [GoRuntime.setField, List.lookup_cons]
    by_cases h : f' = f
    · subst h; simp
    · rw [beq_eq_false_iff_ne.2 h, if_neg h]
  | (k, x) :: fs, f' => by
    rw [GoRuntime.setField]
    split
    · rename_i hk
      subst hk
      rw [List.lookup_cons, List.lookup_cons]
      by_cases h : f' = k
      · subst h; simp
      · rw [beq_eq_false_iff_ne.2 h, if_neg h]
    · rename_i hk
      rw [List.lookup_cons, List.lookup_cons, fields_lookup f w fs f']
      by_cases h : f' = k
      · subst h
        simp [hk]
      · rw [beq_eq_false_iff_ne.2 h]

/-- The assignment of a field -/
theorem update_field {f : Str} {x z : Val} (h : fieldOf f x = some z) (w : Val) : ∃ y, update [.field f] w x = some y ∧
    fieldOf f y = some w ∧ ∀ f', f' ≠ f → fieldOf f' y = fieldOf f' x := by
  cases x with
  | zero =>
    refine ⟨.struct [(f, w)], rfl, ?_, fun f' hf => ?_⟩
    · simp [fieldOf]
    · simp only [fieldOf, List.lookup_cons, beq_eq_false_iff_ne.2 hf]
      rfl
  | struct fs =>
    refine ⟨.struct (setField f w fs), rfl, ?_, fun f' hf => ?_⟩
    · simp only [fieldOf, setField_lookup, if_true]
      rfl
    · simp only [fieldOf, setField_lookup, if_neg hf]
  | _ => cases h

/-- The assignment of a field within a part of a cell -/
theorem update_within {path : List Step} {f : Str} {c x w c' z : Val} (hp : part path c = some x) (hf : fieldOf f x = some z)
    (hu : update (path ++ [.field f]) w c = some c') : ∃ y, update path y c = some c' ∧ fieldOf f y = some w ∧
    ∀ f', f' ≠ f → fieldOf f' y = fieldOf f' x := by
  obtain ⟨y, h1, h2, h3⟩ := update_field hf w
  obtain ⟨c'', h4⟩ := update_some hp y
  have h5 := update_append hp h1 h4
  rw [h5] at hu
  cases hu
  exact ⟨y, h4, h2, h3⟩

/-- The part of the cell is `x`, and the cell is otherwise as before, when the part was `x0`. -/
def Within (path : List Step) (c0 x0 c x : Val) : Prop := update path x c0 = some c ∨ (c = c0 ∧ x = x0)

theorem Within.part {path : List Step} {c0 x0 c x : Val} (h : Within path c0 x0 c x) (h0 : part path c0 = some x0) :
    part path c = some x := by
  rcases h with h | ⟨rfl, rfl⟩
  · exact part_update h
  · exact h0

theorem Within.trans {path : List Step} {c0 x0 c1 x1 c2 x2 : Val} (h : Within path c0 x0 c1 x1) (h' : Within path c1 x1 c2 x2) :
    Within path c0 x0 c2 x2 := by
  rcases h with h | ⟨rfl, rfl⟩
  · rcases h' with h' | ⟨rfl, rfl⟩
    · exact .inl ((update_update h x2).symm.trans h')
    · exact .inl h
  · exact h'

/-- The target only matters for embeddable structures. -/
theorem parse_target (E : GoRuntime.Env) (embed : Str → JVal → Str → GV → GoRuntime.St → Except Exc (GV × GoRuntime.St)) {t : Ty}
    (h : isEmbed t = false) (j : JVal) (r : Str) (x y : GV) (st : GoRuntime.St) :
    parseTy E embed t j r x st = parseTy E embed t j r y st := by
  cases t <;> first | rfl | cases h

/-- `target.f` as a place -/
theorem at_field {L : Lib} {pats : Nat → Str} {ρ : Env} {σ : St} {n : Nat} {e : Name} {S : Nat} {a : Addr} {f : Str} (ho : Old n e)
    (h1 : ρ.lookup e = some S) (h2 : σ.heap[S]? = some (.ptr a)) :
    At L pats n ρ σ (.field (.var e) f) (.addr a.loc (a.path ++ [.field f])) := by
  intro ρ' σ' hl
  have e1 := var_later (L := L) (pats := pats) ho h1 h2 hl
  constructor
  · intro w
    rw [assignTo, e1]
    rfl
  · intro l path he
    cases he
    rw [expr, addrOf, e1]
    rfl

/-! ## One property -/

/-- What the code of a property has done with the structure at the address -/
def PropDone (a : Addr) (c0 x0 : Val) (p : Property) (fields0 : GoRuntime.Fields) (R : List Val → Val → GV → Prop) (ρ : Env) (σ : St) :
    Except Exc (GoRuntime.Fields × GoRuntime.St) → Result → Prop
  | .ok (fields, st), X => ∃ ρ' σ' c x, X = .ok (.next, ρ', σ') ∧ Later 0 (· = a.loc) ρ σ ρ' σ' ∧ stOf σ' = st ∧
      σ'.heap[a.loc]? = some c ∧ Within a.path c0 x0 c x ∧ (∀ f, f ≠ field p → fieldOf f x = fieldOf f x0) ∧
      (∀ f, f ≠ field p → fields.lookup f = fields0.lookup f) ∧
      (σ'.errors.empty = true → σ.errors.empty = true ∧ ∃ w y, fieldOf (field p) x = some w ∧
        fields.lookup (field p) = some y ∧ R σ'.heap w y)
  | .error e, X => Stops e X

section
variable {E : GoRuntime.Env} {pats : Nat → Str} {call : Call} {T : Nat → Prop} {h₀ : List Val}
  {reg : Str → Str → Option Addr} {embed : Str → JVal → Str → GV → GoRuntime.St → Except Exc (GV × GoRuntime.St)}

/-- What the code of the properties is given: the variables `target`, `ref` and `cast` -/
structure Frames (ρ : Env) (σ : St) (a : Addr) (r : Str) (kvs : List (Str × JVal)) : Prop where
  target : ∃ S, ρ.lookup (v c!"target") = some S ∧ σ.heap[S]? = some (.ptr a) ∧ S ≠ a.loc
  ref : ∃ S, ρ.lookup (v c!"ref") = some S ∧ σ.heap[S]? = some (.str r) ∧ S ≠ a.loc
  cast : ∃ S, ρ.lookup (v c!"cast") = some S ∧ σ.heap[S]? = some (.json (.obj kvs)) ∧ S ≠ a.loc

theorem Frames.later {ρ ρ' : Env} {σ σ' : St} {a : Addr} {r : Str} {kvs : List (Str × JVal)} (h : Frames ρ σ a r kvs)
    (hl : Later 0 (· = a.loc) ρ σ ρ' σ') : Frames ρ' σ' a r kvs where
  target := by
    obtain ⟨S, h1, h2, h3⟩ := h.target
    exact ⟨S, (hl.vars _ (old_v _ _)).trans h1, hl.frame.get h3 h2, h3⟩
  ref := by
    obtain ⟨S, h1, h2, h3⟩ := h.ref
    exact ⟨S, (hl.vars _ (old_v _ _)).trans h1, hl.frame.get h3 h2, h3⟩
  cast := by
    obtain ⟨S, h1, h2, h3⟩ := h.cast
    exact ⟨S, (hl.vars _ (old_v _ _)).trans h1, hl.frame.get h3 h2, h3⟩

theorem evalTwo_cast {L : Lib} {ρ : Env} {σ : St} {e : Expr} {kvs : List (Str × JVal)} {k : Str}
    (h : eval L pats ρ σ e = .ok (.json (.obj kvs))) : evalTwo L pats ρ σ (.lookup e (.str k)) = .ok (match kvs.lookup k with
      | some j => (.json j, .bool true)
      | none => (.json .null, .bool false)) := by
  rw [evalTwo, h]
  show (match kvs.lookup k with
    | some j => (pure (Val.json j, Val.bool true) : Except Exc (Val × Val))
    | none => pure (Val.json .null, Val.bool false)) = _
  cases kvs.lookup k <;> rfl

/-- The zero value of a field in the model -/
def zeroField (p : Property) : GV := if p.optional then .nil else .zero

theorem property_read {ctx : Ctx} (hg : ctx.graph = E.graph) (hcall : Calls E.graph T h₀ reg embed call)
    (hu : ∀ q uid, uidOf ctx.uids q = .ok uid → pats uid = q) (hids : ∀ c s, s ∈ E.ids c ↔ (reg c s).isSome = true)
    {p : Property} {n m : Nat} {code : Stmt} (h : GoGen.parseProperty ctx p n = .ok (code, m)) : n ≤ m ∧
    ∀ (ρ : Env) (σ : St) (a : Addr) (c0 x0 : Val) (r : Str) (kvs : List (Str × JVal)) (fields0 : GoRuntime.Fields),
      Frames ρ σ a r kvs → σ.heap[a.loc]? = some c0 → part a.path c0 = some x0 → fieldOf (field p) x0 = some .zero →
      fields0.lookup (field p) = some (zeroField p) → (∀ n, Known T h₀ reg E.lib pats n ρ σ ctx) → Frame T h₀ σ.heap →
      Free T h₀ a.loc → Canon (.obj kvs) → Resolved E.graph p.ty →
      PropDone a c0 x0 p fields0 (fun h => BuiltProp E.graph reg h σ.heap.length p) ρ σ
        (GoRuntime.parseProperty (parseTy E embed) kvs r p fields0 (stOf σ)) (exec E.lib pats E.order call code ρ σ) := by
  unfold GoGen.parseProperty at h
  cases hf : ucamelCase p.name with
  | error _ => rw [hf] at h; cases h
  | ok f =>
  have hfp : field p = f := goName_of hf
  rw [hf] at h
  simp only [okBind] at h
  cases hv : parseValue ctx p.ty (.var (vi c!"value" n)) (if (!p.optional || GoCode.isPointer p.ty) = true then
      .field (.var (v c!"target")) f else .var (vi c!"target" n)) [.var (v c!"ref"), .str p.json] (n + 1) with
  | error _ => rw [hv] at h; cases h
  | ok q =>
  obtain ⟨parsing, m'⟩ := q
  rw [hv] at h
  simp only [okBind] at h
  cases h
  obtain ⟨hnm, hval⟩ := read_ok hg hcall hu hids _ _ _ _ _ _ _ hv
  refine ⟨Nat.le_of_succ_le hnm, fun ρ σ a c0 x0 r kvs fields0 HF hc0 hx0 hz hmz hK hfr hfree hcan hres => ?_⟩
  obtain ⟨l, path⟩ := a
  obtain ⟨S1, ht1, ht2, ht3⟩ := HF.target
  obtain ⟨S2, hr1, hr2, hr3⟩ := HF.ref
  obtain ⟨S3, hk1, hk2, hk3⟩ := HF.cast
  have he2 := evalTwo_cast (pats := pats) (k := p.json) (eval_var E.lib pats hk1 hk2)
  rw [hfp] at hz
  -- the state after the lookup
  have key : ∀ (w : Val) (b : Bool), evalTwo E.lib pats ρ σ (.lookup (.var (v c!"cast")) (.str p.json)) = .ok (w, .bool b) →
      ∃ ρ1 σ1, Later n (fun _ => False) ρ σ ρ1 σ1 ∧ stOf σ1 = stOf σ ∧ eval E.lib pats ρ1 σ1 (.var (vi c!"ok" n)) = .ok (.bool b) ∧
        (∃ S, ρ1.lookup (vi c!"value" n) = some S ∧ σ1.heap[S]? = some w) ∧
        exec E.lib pats E.order call (.declare2 (some (vi c!"value" n)) (vi c!"ok" n)
          (.lookup (.var (v c!"cast")) (.str p.json))) ρ σ = .ok (.next, ρ1, σ1) := fun w b h =>
    ⟨_, _, later_declare2 (Nat.le_refl n) _ _ _ _ _ _, rfl, eval_second, ⟨_, (lookup_ne (vi_ne (by decide) n) _ _).trans
      (lookup_self _ _ _), alloc_old _ _ (alloc_get _ _)⟩, exec_declare2 h⟩
  rw [GoRuntime.parseProperty]
  cases hk : kvs.lookup p.json with
  | none =>
    rw [hk] at he2
    obtain ⟨ρ1, σ1, hl, hst, hok, _, hex⟩ := key _ _ he2
    rw [exec_seq E.order E.lib pats call hex]
    have hc1 := hl.frame.get (fun h => h) hc0
    have hl0 : Later 0 (· = l) ρ σ ρ1 σ1 := hl.mono (Nat.zero_le _) fun _ _ h => h.elim
    have e1 : σ1.errors = σ.errors := congrArg GoRuntime.St.errors hst
    cases ho : p.optional with
    | true =>
      have hex2 : exec E.lib pats E.order call (if (!true) = true then .ite (.not (.var (vi c!"ok" n)))
          (.report (.var (v c!"ref")) (.str (c!"property is missing: " ++ p.json))) parsing
          else if (!true || GoCode.isPointer p.ty) = true then when (.var (vi c!"ok" n)) parsing
          else when (.var (vi c!"ok" n)) (block [.declare (vi c!"target" n) (.val .zero), parsing,
            .assign (.field (.var (v c!"target")) f) (.addr (.var (vi c!"target" n)))])) ρ1 σ1 = .ok (.next, ρ1, σ1) := by
        cases GoCode.isPointer p.ty
        · exact exec_when_false hok
        · exact exec_when_false hok
      rw [hex2]
      refine ⟨ρ1, σ1, c0, x0, rfl, hl0, hst, hc1, .inr ⟨rfl, rfl⟩, fun _ _ => rfl, fun _ _ => rfl, fun he => ⟨e1 ▸ he, ?_⟩⟩
      refine ⟨.zero, .nil, by rw [hfp]; exact hz, ?_, .none ho rfl⟩
      rw [hmz, zeroField, if_pos ho]
    | false =>
      simp only [Bool.not_false, if_true, Bool.false_eq_true, if_false]
      rw [exec_ite (eval_not hok)]
      simp only [Bool.not_false, if_true]
      have h1 : eval E.lib pats ρ1 σ1 (.var (v c!"ref")) = .ok (.str r) := var_later (old_v _ _) hr1 hr2 hl
      have h2 : exec E.lib pats E.order call (.report (.var (v c!"ref")) (.str (c!"property is missing: " ++ p.json))) ρ1 σ1 =
          .ok (.next, ρ1, { σ1 with errors := σ1.errors.add ⟨r, c!"property is missing: " ++ p.json⟩ }) := by
        rw [exec, h1]
        rfl
      rw [h2]
      refine ⟨ρ1, _, c0, x0, rfl, ⟨hl0.vars, hl0.frame⟩, ?_, hc1, .inr ⟨rfl, rfl⟩, fun _ _ => rfl, fun _ _ => rfl, fun he => ?_⟩
      · have h3 : σ1.ranges = σ.ranges := congrArg GoRuntime.St.ranges hst
        simp only [stOf, GoRuntime.St.add, e1, h3]
      · rw [add_empty] at he
        cases he
  | some j =>
    rw [hk] at he2
    obtain ⟨ρ1, σ1, hl, hst, hok, ⟨SV, hv1, hv2⟩, hex⟩ := key _ _ he2
    rw [exec_seq E.order E.lib pats call hex]
    have hl0 : Later 0 (· = l) ρ σ ρ1 σ1 := hl.mono (Nat.zero_le _) fun _ _ h => h.elim
    have e1 : σ1.errors = σ.errors := congrArg GoRuntime.St.errors hst
    have hc1 := hl.frame.get (fun h => h) hc0
    have hgrow : σ.heap.length ≤ σ1.heap.length := hl.frame.more
    have hll : l < σ.heap.length := lt_of_get hc0
    have hcj : Canon j := GoRuntime.canon_entry hcan hk
    have hK1 : Known T h₀ reg E.lib pats (n + 1) ρ1 σ1 ctx := (hK n).later (Nat.le_succ n) hl
    have hfr1 : Frame T h₀ σ1.heap := hfr.trans hl.frame.grown
    have hgiv : Given E.lib pats (n + 1) ρ1 σ1 (.var (vi c!"value" n)) j := fun ρ' σ' hl' =>
      var_later (old_vi (Nat.lt_succ_self n)) hv1 hv2 hl'
    have href : Refers E.lib pats (n + 1) ρ1 σ1 [.var (v c!"ref"), .str p.json] [r, p.json] := fun ρ' σ' hl' =>
      evalAll_cons (var_later (old_v _ _) ((hl.vars _ (old_v _ _)).trans hr1) (hl.frame.get (fun h => h) hr2) hl')
        (evalAll_one rfl)
    have ht1' := (hl.vars _ (old_v _ _)).trans ht1
    have ht2' := hl.frame.get (fun h => h) ht2
    have hfresh : part (path ++ [.field f]) c0 = some .zero := by rw [part_append, hx0]; exact hz
    have hsub : joinWith c!"/" [r, p.json] = sub r p.json := by
      have := join_snoc p.json (ts := [r]) (by simp)
      exact this
    rw [hsub.symm]
    cases hd : (!p.optional || GoCode.isPointer p.ty) with
    | true =>
      have hmodel : (p.optional && !isPointer p.ty) = false := by
        rw [isPointer_eq] at hd
        cases ho : p.optional <;> cases hi : isPointer p.ty <;> simp_all
      simp only [hd, if_true] at hval
      simp only [hmodel, Bool.false_eq_true, if_false]
      have hdone := hval ρ1 σ1 j (.addr l (path ++ [Step.field f])) c0 [r, p.json]
        ⟨hgiv, at_field (f := f) (old_v _ _) ht1' ht2', href, hc1, hfresh⟩ (by simp) hK1 hfr1 hfree hcj (fun _ => ⟨l, _, rfl⟩) hres
      have htarget : parseTy E embed p.ty j (joinWith c!"/" [r, p.json]) ((fields0.lookup (field p)).getD .zero) (stOf σ) =
          parseTy E embed p.ty j (joinWith c!"/" [r, p.json]) .zero (stOf σ1) := by
        rw [hst]
        cases he : isEmbed p.ty with
        | false => exact parse_target E embed he _ _ _ _ _
        | true =>
          have : p.optional = false := by
            rw [isPointer_eq] at hd
            cases ht : p.ty <;> rw [ht] at he hd <;> first | (cases he; done) | (simpa [isPointer] using hd)
          rw [hmz, zeroField, this]
          rfl
      rw [htarget]
      have hcode : ∀ r', Done (n + 1) (.addr l (path ++ [.field f])) c0 (fun h => Built E.graph reg h σ1.heap.length p.ty) ρ1 σ1
          r' (exec E.lib pats E.order call parsing ρ1 σ1) → Done (n + 1) (.addr l (path ++ [.field f])) c0
          (fun h => Built E.graph reg h σ1.heap.length p.ty) ρ1 σ1 r' (exec E.lib pats E.order call
          (if (!p.optional) = true then .ite (.not (.var (vi c!"ok" n)))
          (.report (.var (v c!"ref")) (.str (c!"property is missing: " ++ p.json))) parsing
          else if true = true then when (.var (vi c!"ok" n)) parsing
          else when (.var (vi c!"ok" n)) (block [.declare (vi c!"target" n) (.val .zero), parsing,
            .assign (.field (.var (v c!"target")) f) (.addr (.var (vi c!"target" n)))])) ρ1 σ1) := by
        intro r' hr'
        cases p.optional with
        | false =>
          simp only [Bool.not_false, if_true]
          rw [exec_ite (eval_not hok)]
          exact hr'.close fun _ _ => rfl
        | true =>
          simp only [Bool.not_true, Bool.false_eq_true, if_false, if_true]
          rw [exec_when_true hok]
          exact hr'.close fun _ _ => rfl
      replace hdone := hcode _ hdone
      generalize parseTy E embed p.ty j (joinWith c!"/" [r, p.json]) .zero (stOf σ1) = q at hdone ⊢
      cases q with
      | error e => exact hdone
      | ok q =>
        obtain ⟨o, st⟩ := q
        obtain ⟨ρ2, σ2, c2, hX, hl2, hst2, hc2, hpl⟩ := hdone
        simp only [okBind]
        have hl2' : Later 0 (· = l) ρ σ ρ2 σ2 := hl0.trans (hl2.mono (Nat.zero_le _) fun _ _ h => h)
        cases o with
        | none =>
          obtain ⟨rfl, hne⟩ := hpl
          refine ⟨ρ2, σ2, c2, x0, hX, hl2', hst2, hc2, .inr ⟨rfl, rfl⟩, fun _ _ => rfl, fun _ _ => rfl, fun he => ?_⟩
          rw [he] at hne
          cases hne
        | some y =>
          obtain ⟨w, his, hb⟩ := hpl
          have hbuilt : σ2.errors.empty = true → σ.errors.empty = true ∧ BuiltProp E.graph reg σ2.heap σ.heap.length p w y := by
            intro he
            obtain ⟨h1, h2⟩ := hb he
            refine ⟨e1 ▸ h1, .direct ?_ (h2.frame (.refl (fun _ => False) _) (fun _ h => h.elim) hgrow)⟩
            rw [isPointer_eq] at hd
            cases ho : p.optional <;> cases hi : isPointer p.ty <;> simp_all
          rcases his with hu | ⟨rfl, rfl⟩
          · obtain ⟨x', h1, h2, h3⟩ := update_within hx0 hz hu
            refine ⟨ρ2, σ2, c2, x', hX, hl2', hst2, hc2, .inl h1, fun f' hf' => h3 f' (hfp ▸ hf'), fun f' hf' => ?_, fun he => ?_⟩
            · rw [fields_lookup, if_neg hf']
            · exact ⟨(hbuilt he).1, w, y, by rw [hfp]; exact h2, by rw [fields_lookup, if_pos rfl], (hbuilt he).2⟩
          · refine ⟨ρ2, σ2, c2, x0, hX, hl2', hst2, hc2, .inr ⟨rfl, rfl⟩, fun _ _ => rfl, fun f' hf' => ?_, fun he => ?_⟩
            · rw [fields_lookup, if_neg hf']
            · exact ⟨(hbuilt he).1, .zero, y, by rw [hfp]; exact hz, by rw [fields_lookup, if_pos rfl], (hbuilt he).2⟩
    | false =>
      have hmodel : (p.optional && !isPointer p.ty) = true := by
        rw [isPointer_eq] at hd
        cases ho : p.optional <;> cases hi : isPointer p.ty <;> simp_all
      obtain ⟨ho, hi⟩ : p.optional = true ∧ isPointer p.ty = false := by simpa using hmodel
      simp only [hd, Bool.false_eq_true, if_false] at hval
      simp only [ho, hi, Bool.not_true, Bool.not_false, Bool.and_self, Bool.false_eq_true, if_true, if_false]
      rw [exec_when_true hok]
      have hl12 := later_declare (Nat.le_refl n) (fun _ => False) ρ1 σ1 c!"target" Val.zero
      have hdecl : exec E.lib pats E.order call (.declare (vi c!"target" n) (.val .zero)) ρ1 σ1 =
          .ok (.next, (vi c!"target" n, σ1.heap.length) :: ρ1, (σ1.alloc .zero).2) := exec_declare E.order E.lib pats call (evalRhs_val E.lib pats call rfl)
      rw [block, exec_seq E.order E.lib pats call hdecl]
      have hgrow2 : σ1.heap.length ≤ (σ1.alloc .zero).2.heap.length := hl12.frame.more
      have hdone := hval _ _ j (.addr σ1.heap.length []) .zero [r, p.json]
        ⟨fun ρ' σ' hl' => var_later (old_vi (Nat.lt_succ_self n)) ((lookup_ne (vi_ne (by decide) n) _ _).trans hv1)
            (alloc_old _ _ hv2) hl',
          at_var (old_vi (Nat.lt_succ_self n)) (lookup_self _ _ _) (alloc_get σ1 .zero),
          fun ρ' σ' hl' => evalAll_cons (var_later (old_v _ _) ((hl12.vars _ (old_v _ _)).trans
            ((hl.vars _ (old_v _ _)).trans hr1)) (alloc_old _ _ (hl.frame.get (fun h => h) hr2)) hl') (evalAll_one rfl),
          alloc_get σ1 .zero, rfl⟩ (by simp) ((hK n).later (Nat.le_succ n) (hl.trans hl12)) (hfr1.trans hl12.frame.grown)
        (.inr hfr1.more) hcj (fun _ => ⟨_, _, rfl⟩) hres
      have hst2 : stOf (σ1.alloc .zero).2 = stOf σ := hst
      rw [hst2] at hdone
      generalize parseTy E embed p.ty j (joinWith c!"/" [r, p.json]) .zero (stOf σ) = q at hdone ⊢
      cases q with
      | error e =>
        rcases hdone with h | h
        · exact .inl h
        · exact .inr (by rw [block, exec_seq_error E.order E.lib pats call h]; rfl)
      | ok q =>
        obtain ⟨o, st⟩ := q
        obtain ⟨ρ3, σ3, c3, hX, hl3, hst3, hc3, hpl⟩ := hdone
        simp only [okBind]
        have hlt : ∀ {i : Nat} {w : Val}, σ1.heap[i]? = some w → σ3.heap[i]? = some w := fun h =>
          hl3.frame.get (Nat.ne_of_lt (lt_of_get h)) (alloc_old _ _ h)
        obtain ⟨c', hc'⟩ := update_some hfresh (.ptr ⟨σ1.heap.length, []⟩)
        have hassign := ((at_field (L := E.lib) (pats := pats) (f := f) (old_v 0 _) ((hl3.vars _ (old_v _ _)).trans
          ((hl12.vars _ (old_v _ _)).trans ht1')) (hlt ht2')) ρ3 σ3 (.refl _ _ _ _)).1 (.ptr ⟨σ1.heap.length, []⟩)
        simp only [Slot.loc, Slot.put, hlt hc1, Option.bind_some, hc', Option.map_some, need] at hassign
        have haddr : addrOf E.lib pats ρ3 σ3 (.var (vi c!"target" n)) = .ok ⟨σ1.heap.length, []⟩ := by
          rw [addrOf, hl3.vars _ (old_vi (Nat.lt_succ_self n)), lookup_self]
          rfl
        have hex3 : exec E.lib pats E.order call (.assign (.field (.var (v c!"target")) f) (.addr (.var (vi c!"target" n)))) ρ3 σ3 =
            .ok (.next, ρ3, σ3.put l c') := by
          rw [exec, evalRhs, haddr]
          simp only [okBind]
          show (do let σ ← assignTo E.lib pats ρ3 σ3 (.ptr ⟨σ1.heap.length, []⟩) (.field (.var (v c!"target")) f)
                   return (Flow.next, ρ3, σ)) = _
          rw [hassign]
          rfl
        rw [block, exec_seq E.order E.lib pats call hX, block, exec_seq E.order E.lib pats call hex3]
        obtain ⟨x', h1, h2, h3⟩ := update_within hx0 hz hc'
        have hfr3 : Frame (· = l) σ.heap (σ3.put l c').heap := by
          refine Frame.trans (h' := σ3.heap) ⟨?_, fun i hi _ => ?_⟩ (frame_set _ _ _)
          · exact Nat.le_trans hgrow (Nat.le_trans hgrow2 hl3.frame.more)
          · rw [hl3.frame.same i (by omega) (by show i ≠ σ1.heap.length; omega), hl12.frame.same i (by omega) (fun h => h),
              hl.frame.same i hi (fun h => h)]
        refine ⟨ρ1, σ3.put l c', c', x', rfl, ⟨hl0.vars, hfr3⟩, hst3, List.getElem?_set_self (lt_of_get (hlt hc1)),
          .inl h1, fun f' hf' => h3 f' (hfp ▸ hf'), fun f' hf' => by rw [fields_lookup, if_neg hf'], fun he => ?_⟩
        replace he : σ3.errors.empty = true := he
        cases o with
        | none =>
          rw [hpl.2] at he
          cases he
        | some y =>
          obtain ⟨w, his, hb⟩ := hpl
          have hcw : c3 = w := by
            rcases his with h | ⟨rfl, rfl⟩
            · cases h; rfl
            · rfl
          subst hcw
          obtain ⟨he1, hb⟩ := hb he
          refine ⟨e1 ▸ he1, _, y, by rw [hfp]; exact h2, by rw [fields_lookup, if_pos rfl]; rfl, .some ho hi hgrow ?_
            (hb.frame (frame_set _ l c') (fun i hi => by subst hi; omega) (by omega))⟩
          show (σ3.heap.set l c')[σ1.heap.length]? = _
          rw [List.getElem?_set_ne (by omega)]
          exact hc3

/-! ## The properties -/

/-- What the code of the properties has done with the structure at the address -/
def PropsRead (g : Graph) (reg : Str → Str → Option Addr) (lo : Nat) (a : Addr) (c0 x0 : Val) (ps : List Property)
    (fields0 : GoRuntime.Fields) (ρ : Env) (σ : St) : Except Exc (GoRuntime.Fields × GoRuntime.St) → Result → Prop
  | .ok (fields, st), X => ∃ fl ρ' σ' c x, X = .ok (fl, ρ', σ') ∧ Later 0 (· = a.loc) ρ σ ρ' σ' ∧ stOf σ' = st ∧
      σ'.heap[a.loc]? = some c ∧ Within a.path c0 x0 c x ∧ (∀ f, f ∉ ps.map field → fieldOf f x = fieldOf f x0) ∧
      (∀ f, f ∉ ps.map field → fields.lookup f = fields0.lookup f) ∧
      (σ'.errors.empty = true → σ.errors.empty = true ∧ ∀ p ∈ ps, ∃ w y, fieldOf (field p) x = some w ∧
        fields.lookup (field p) = some y ∧ BuiltProp g reg σ'.heap lo p w y)
  | .error e, X => Stops e X

/-- A state in which only the fields `fs` of the structure at the address differ -/
def Inside (a : Addr) (ρ₀ : Env) (σ₀ : St) (x₀ : Val) (fs : List Str) (ρ : Env) (σ : St) : Prop :=
  Later 0 (· = a.loc) ρ₀ σ₀ ρ σ ∧ ∃ c x, σ.heap[a.loc]? = some c ∧ part a.path c = some x ∧
    ∀ f, f ∉ fs → fieldOf f x = fieldOf f x₀

theorem props_read {ctx : Ctx} (hg : ctx.graph = E.graph) (hcall : Calls E.graph T h₀ reg embed call)
    (hu : ∀ q uid, uidOf ctx.uids q = .ok uid → pats uid = q) (hids : ∀ c s, s ∈ E.ids c ↔ (reg c s).isSome = true)
    {a : Addr} {ρ₀ : Env} {σ₀ : St} {x₀ : Val} {fs : List Str} {r : Str} {kvs : List (Str × JVal)} {lo : Nat}
    (HF : Frames ρ₀ σ₀ a r kvs) (hK : ∀ n ρ σ, Inside a ρ₀ σ₀ x₀ fs ρ σ → Known T h₀ reg E.lib pats n ρ σ ctx)
    (hfree : Free T h₀ a.loc) (hcan : Canon (.obj kvs)) (hfr₀ : Frame T h₀ σ₀.heap) (hlo : a.loc < lo) :
    ∀ (ps : List Property) (n : Nat) (code : Stmt), GoGen.parseProps ctx ps n = .ok code →
    ∀ (ρ : Env) (σ : St) (c0 x0 : Val) (fields0 : GoRuntime.Fields), Inside a ρ₀ σ₀ x₀ fs ρ σ →
      σ.heap[a.loc]? = some c0 → part a.path c0 = some x0 → (ps.map field).Nodup → (∀ p ∈ ps, field p ∈ fs) →
      (∀ p ∈ ps, fieldOf (field p) x0 = some .zero) → (∀ p ∈ ps, fields0.lookup (field p) = some (zeroField p)) →
      (∀ p ∈ ps, Resolved E.graph p.ty) → lo ≤ σ.heap.length →
      PropsRead E.graph reg lo a c0 x0 ps fields0 ρ σ
        (GoRuntime.parseProps (parseTy E embed) kvs r ps fields0 (stOf σ)) (exec E.lib pats E.order call code ρ σ) := by
  intro ps
  induction ps with
  | nil =>
    intro n code h ρ σ c0 x0 fields0 _ hc hx _ _ _ _ _ _
    cases h
    exact ⟨.next, ρ, σ, c0, x0, rfl, .refl _ _ _ _, rfl, hc, .inr ⟨rfl, rfl⟩, fun _ _ => rfl, fun _ _ => rfl, fun he => ⟨he, nofun⟩⟩
  | cons p ps ih =>
    intro n code h ρ σ c0 x0 fields0 hin hc hx hnd hfs hz hmz hres hle
    rw [GoGen.parseProps] at h
    cases hp : GoGen.parseProperty ctx p n with
    | error _ => rw [hp] at h; cases h
    | ok q =>
    obtain ⟨code1, m⟩ := q
    rw [hp] at h
    simp only [okBind] at h
    cases hr : GoGen.parseProps ctx ps m with
    | error _ => rw [hr] at h; cases h
    | ok rest =>
    rw [hr] at h
    cases h
    have hp1 := (property_read hg hcall hu hids hp).2 ρ σ a c0 x0 r kvs fields0 (HF.later hin.1) hc hx
      (hz p (List.mem_cons_self ..)) (hmz p (List.mem_cons_self ..)) (fun n => hK n ρ σ hin)
      (hfree.frame hfr₀ hin.1.frame) hfree hcan (hres p (List.mem_cons_self ..))
    rw [GoRuntime.parseProps]
    generalize GoRuntime.parseProperty (parseTy E embed) kvs r p fields0 (stOf σ) = q at hp1 ⊢
    cases q with
    | error e =>
      rcases hp1 with h | h
      · exact .inl h
      · exact .inr (exec_seq_error E.order E.lib pats call h)
    | ok q =>
      obtain ⟨fields1, st1⟩ := q
      obtain ⟨ρ1, σ1, c1, x1, hX, hl, hst, hc1, hw, hf1, hf2, hb⟩ := hp1
      simp only [okBind]
      rw [exec_seq E.order E.lib pats call hX]
      have hx1 := hw.part hx
      rw [List.map_cons, List.nodup_cons] at hnd
      have hne : ∀ p' ∈ ps, field p' ≠ field p := fun p' hp' e => hnd.1 (e ▸ List.mem_map_of_mem hp')
      have hful : eval E.lib pats ρ1 σ1 .errorsFull = .ok (.bool σ1.errors.full) := rfl
      have hin1 : Inside a ρ₀ σ₀ x₀ fs ρ1 σ1 := by
        refine ⟨hin.1.trans hl, c1, x1, hc1, hx1, fun f hf => ?_⟩
        obtain ⟨_, c', x', hc', hx', h3⟩ := hin
        rw [hc] at hc'
        cases hc'
        rw [hx] at hx'
        cases hx'
        rw [hf1 f (fun e => hf (e ▸ hfs p (List.mem_cons_self ..))), h3 f hf]
      cases hfull : st1.errors.full with
      | true =>
        rw [if_pos rfl]
        have h1 : σ1.errors.full = true := by rw [← hfull, ← hst]; rfl
        rw [h1] at hful
        refine ⟨.ret, ρ1, σ1, c1, x1, ?_, hl, hst, hc1, hw, fun f hf => hf1 f fun e => hf (e ▸ List.mem_cons_self ..),
          fun f hf => hf2 f fun e => hf (e ▸ List.mem_cons_self ..), fun he => ?_⟩
        · exact exec_seq_ret E.order E.lib pats call (by rw [exec_when_true hful]; rfl)
        · rw [full_empty h1] at he
          cases he
      | false =>
        simp only [Bool.false_eq_true, if_false]
        have h1 : σ1.errors.full = false := by rw [← hfull, ← hst]; rfl
        rw [h1] at hful
        rw [exec_seq E.order E.lib pats call (exec_when_false hful)]
        have hrest := ih m rest hr ρ1 σ1 c1 x1 fields1 hin1 hc1 hx1 hnd.2 (fun p hp => hfs p (List.mem_cons_of_mem _ hp))
          (fun p' hp' => by rw [hf1 _ (hne p' hp')]; exact hz p' (List.mem_cons_of_mem _ hp'))
          (fun p' hp' => by rw [hf2 _ (hne p' hp')]; exact hmz p' (List.mem_cons_of_mem _ hp'))
          (fun p' hp' => hres p' (List.mem_cons_of_mem _ hp')) (Nat.le_trans hle hl.frame.more)
        rw [hst] at hrest
        generalize GoRuntime.parseProps (parseTy E embed) kvs r ps fields1 st1 = q at hrest ⊢
        cases q with
        | error e => exact hrest
        | ok q =>
          obtain ⟨fields2, st2⟩ := q
          obtain ⟨fl, ρ2, σ2, c2, x2, hX2, hl2, hst2, hc2, hw2, hg1, hg2, hb2⟩ := hrest
          refine ⟨fl, ρ2, σ2, c2, x2, hX2, hl.trans hl2, hst2, hc2, hw.trans hw2, fun f hf => ?_, fun f hf => ?_, fun he => ?_⟩
          · rw [List.map_cons, List.mem_cons, not_or] at hf
            rw [hg1 f hf.2, hf1 f hf.1]
          · rw [List.map_cons, List.mem_cons, not_or] at hf
            rw [hg2 f hf.2, hf2 f hf.1]
          · obtain ⟨he1, hb2⟩ := hb2 he
            obtain ⟨he0, w, y, hb3, hb4, hb5⟩ := hb he1
            refine ⟨he0, fun p' hp' => ?_⟩
            rcases List.mem_cons.1 hp' with rfl | hp'
            · exact ⟨w, y, by rw [hg1 _ hnd.1]; exact hb3, by rw [hg2 _ hnd.1]; exact hb4,
                hb5.frame hl2.frame (fun i hi => by subst hi; omega) hle⟩
            · exact hb2 p' hp'

end

end Mapry.GoExec
