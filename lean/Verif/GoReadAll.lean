import Verif.GoReadTy
import Verif.GoWriteGraph

/-!
# The generated Go code which parses a value: arrays, maps, references and embeddable structures
-/

namespace Mapry.GoExec

open Mapry.GoLang Mapry.GoGen Mapry.Naming
open Mapry.GoRuntime (JVal Lib field isPointer parseTy parseItems parseEntries sub goName)
open Mapry.GoRuntime.Spec (Canon)
open Mapry.GoCode (Name v vi own)

/-! ## The registries -/

/-- The value is the registry of the class: `nil`, or a map which is not one of the cells `T` which may change. -/
def RegVal (T : Nat → Prop) (h₀ : List Val) (reg : Str → Str → Option Addr) (c : Str) (w : Val) : Prop :=
  (w.isNil = true ∧ ∀ s, reg c s = none) ∨
  ∃ l kvs, w = .map l ∧ ¬ T l ∧ h₀[l]? = some (.table kvs) ∧ ∀ s, kvs.lookup s = (reg c s).map .ptr

/-- The registries and the container of errors are known, also in later states. -/
structure Known (T : Nat → Prop) (h₀ : List Val) (reg : Str → Str → Option Addr) (L : Lib) (pats : Nat → Str) (n : Nat)
    (ρ : Env) (σ : St) (ctx : Ctx) : Prop where
  registry : ∀ c e, ctx.registry c = .ok e → ∃ w, RegVal T h₀ reg c w ∧
    ∀ ρ' σ', Later n (fun _ => False) ρ σ ρ' σ' → eval L pats ρ' σ' e = .ok w
  errors : ∀ ρ' σ', Later n (fun _ => False) ρ σ ρ' σ' → eval L pats ρ' σ' (.var GoCode.errors) = .ok .errors

theorem Known.later {T : Nat → Prop} {h₀ : List Val} {reg : Str → Str → Option Addr} {L : Lib} {pats : Nat → Str} {n m : Nat}
    {ρ ρ' : Env} {σ σ' : St} {ctx : Ctx} (h : Known T h₀ reg L pats n ρ σ ctx) (hm : n ≤ m)
    (hl : Later n (fun _ => False) ρ σ ρ' σ') : Known T h₀ reg L pats m ρ' σ' ctx where
  registry c e he := by
    obtain ⟨w, h1, h2⟩ := h.registry c e he
    exact ⟨w, h1, fun ρ'' σ'' hl' => h2 ρ'' σ'' (hl.trans (hl'.mono hm fun _ _ h => h))⟩
  errors ρ'' σ'' hl' := h.errors ρ'' σ'' (hl.trans (hl'.mono hm fun _ _ h => h))

/-- The cell is one of those which may change. -/
def Free (T : Nat → Prop) (h₀ : List Val) (l : Nat) : Prop := T l ∨ h₀.length ≤ l

theorem Free.frame {T : Nat → Prop} {h₀ h h' : List Val} {l : Nat} (hl : Free T h₀ l) (hf : Frame T h₀ h)
    (hf' : Frame (· = l) h h') : Frame T h₀ h' := by
  refine ⟨Nat.le_trans hf.more hf'.more, fun a ha hn => ?_⟩
  refine (hf'.same a (Nat.lt_of_lt_of_le ha hf.more) fun e => ?_).trans (hf.same a ha hn)
  subst e
  rcases hl with h | h
  · exact hn h
  · exact absurd ha (Nat.not_lt.2 h)

theorem grown_frame {T : Nat → Prop} {h h1 h2 : List Val} (hg : Grown h h1) (hf : Frame T h1 h2)
    (hT : ∀ a, T a → h.length ≤ a) : Grown h h2 :=
  ⟨Nat.le_trans hg.more hf.more, fun a ha hn => (hf.same a (Nat.lt_of_lt_of_le ha hg.more)
    fun h => absurd ha (Nat.not_lt.2 (hT a h))).trans (hg.same a ha hn)⟩

section
variable {T : Nat → Prop} {h₀ : List Val} {reg : Str → Str → Option Addr} {L : Lib} {pats : Nat → Str} {ρ : Env} {σ : St}

/-- The instance of a registry -/
theorem evalTwo_registry {c : Str} {e k : Expr} {w : Val} {s : Str} (hr : RegVal T h₀ reg c w) (hf : Frame T h₀ σ.heap)
    (he : eval L pats ρ σ e = .ok w) (hk : eval L pats ρ σ k = .ok (.str s)) :
    evalTwo L pats ρ σ (.lookup e k) = .ok (match reg c s with
      | some a => (.ptr a, .bool true)
      | none => (.zero, .bool false)) := by
  rw [evalTwo, he, hk]
  rcases hr with ⟨h1, h2⟩ | ⟨l, kvs, rfl, h2, h3, h4⟩
  · rw [h2]
    cases w <;> first | rfl | cases h1
  · have h5 := hf.get h2 h3
    simp only [okBind, h5, h4]
    cases reg c s <;> rfl

end

/-! ## The embeddable structures -/

/-- Every embed within the type is defined. -/
def Resolved (g : Graph) : Ty → Prop
  | .array t _ _ => Resolved g t
  | .map t => Resolved g t
  | .embed n => (g.embed? n).isSome = true
  | _ => True

/-- The function has parsed the structure. -/
def CallDone (s : Slot) (c0 : Val) (R : List Val → Val → GV → Prop) (σ : St) :
    Except Exc (GV × GoRuntime.St) → Except Exc (List Val × St) → Prop
  | .ok (x, st), X => ∃ rs σ' c, X = .ok (rs, σ') ∧ Frame (· = s.loc) σ.heap σ'.heap ∧ stOf σ' = st ∧
      σ'.heap[s.loc]? = some c ∧ Placed s c0 c σ.errors σ'.errors (R σ'.heap) (some x)
  | .error e, X => Stops e X

/-- The calls of the functions which parse the embeddable structures -/
def Calls (g : Graph) (T : Nat → Prop) (h₀ : List Val) (reg : Str → Str → Option Addr)
    (embed : Str → JVal → Str → GV → GoRuntime.St → Except Exc (GV × GoRuntime.St)) (call : Call) : Prop :=
  ∀ name f refs vs j r l path c0 σ, ucamelCase name = .ok f → GoCode.referencesOf g (.embed name) = .ok refs →
    Forall₂ (RegVal T h₀ reg) refs vs → Frame T h₀ σ.heap → Free T h₀ l → σ.heap[l]? = some c0 → part path c0 = some .zero →
    Canon j → (g.embed? name).isSome = true →
    CallDone (.addr l path) c0 (fun h => Built g reg h σ.heap.length (.embed name)) σ (embed name j r .zero (stOf σ))
      (call (f ++ c!"FromJSONable") (.json j :: vs ++ [.str r, .ptr ⟨l, path⟩, .errors]) σ)

/-! ## Helpers -/

theorem store_item (c w : Val) (k : Nat) : store c (.int k) w = update [.item k] w c := by
  cases c with
  | array xs =>
    rw [store, update, Int.toNat_natCast]
    rcases Nat.lt_or_ge k xs.length with h | h
    · rw [if_pos ⟨Int.natCast_nonneg _, h⟩, List.getElem?_eq_getElem h]
      rfl
    · rw [if_neg (fun hh => Nat.not_lt.2 h hh.2), List.getElem?_eq_none h]
      rfl
  | _ => rfl

theorem join_snoc (t : Str) : ∀ {ts : List Str}, ts ≠ [] → joinWith c!"/" (ts ++ [t]) = sub (joinWith c!"/" ts) t
  | [], h => absurd rfl h
  | [a], _ => rfl
  | a :: b :: ts, _ => by
    have ih := join_snoc t (ts := b :: ts) (by simp)
    simp only [List.cons_append] at ih ⊢
    rw [joinWith, joinWith, ih]
    simp only [sub, List.append_assoc]

theorem intStr_nat (k : Nat) : Duration.intStr (k : Int) = Text.natStr k := by
  unfold Duration.intStr
  rw [if_neg (by omega)]
  rfl

theorem BodyDone.mono {s : Slot} {c0 : Val} {R R' : List Val → Val → GV → Prop} {σ : St}
    {r : Except Exc (Option GV × GoRuntime.St)} {X : Except Exc (Flow × St)} (h : BodyDone s c0 R σ r X)
    (hR : ∀ h w x, R h w x → R' h w x) : BodyDone s c0 R' σ r X := by
  cases r with
  | error e => exact h
  | ok p =>
    obtain ⟨o, st⟩ := p
    obtain ⟨σ', c, h1, h2, h3, h4, h5⟩ := h
    refine ⟨σ', c, h1, h2, h3, h4, ?_⟩
    cases o with
    | none => exact h5
    | some x =>
      obtain ⟨w, h6, h7⟩ := h5
      exact ⟨w, h6, fun he => ⟨(h7 he).1, hR _ _ _ (h7 he).2⟩⟩

section
variable {L : Lib} {pats : Nat → Str} {ρ : Env} {σ : St} {n : Nat}

/-- The variable has the value, also in later states. -/
theorem var_later {x : Name} {S : Nat} {w : Val} (ho : Old n x) (hx : ρ.lookup x = some S) (hS : σ.heap[S]? = some w)
    {ρ' : Env} {σ' : St} (hl : Later n (fun _ => False) ρ σ ρ' σ') : eval L pats ρ' σ' (.var x) = .ok w :=
  eval_var L pats ((hl.vars x ho).trans hx) (hl.frame.get (fun h => h) hS)

theorem given_item {s i : Name} {S C k : Nat} {xs : List JVal} {x : JVal} (hs : Old n s) (hi : Old n i)
    (h1 : ρ.lookup s = some S) (h2 : σ.heap[S]? = some (.json (.arr xs))) (h3 : ρ.lookup i = some C)
    (h4 : σ.heap[C]? = some (.int (k : Int))) (h5 : xs[k]? = some x) :
    Given L pats n ρ σ (.index (.var s) (.var i)) x := by
  intro ρ' σ' hl
  rw [eval, var_later hs h1 h2 hl, var_later hi h3 h4 hl]
  show need (if 0 ≤ (k : Int) then (xs[(k : Int).toNat]?).map Val.json else none) = _
  rw [if_pos (Int.natCast_nonneg _), Int.toNat_natCast, h5]
  rfl

theorem given_entry {s i : Name} {S C : Nat} {k : Str} {kvs : List (Str × JVal)} {x : JVal} (hs : Old n s) (hi : Old n i)
    (h1 : ρ.lookup s = some S) (h2 : σ.heap[S]? = some (.json (.obj kvs))) (h3 : ρ.lookup i = some C)
    (h4 : σ.heap[C]? = some (.str k)) (h5 : kvs.lookup k = some x) :
    Given L pats n ρ σ (.index (.var s) (.var i)) x := by
  intro ρ' σ' hl
  rw [eval, var_later hs h1 h2 hl, var_later hi h3 h4 hl]
  show Except.ok (match kvs.lookup k with
    | some j => Val.json j
    | none => Val.json .null) = _
  rw [h5]

theorem at_item {s i : Name} {S C A k : Nat} (hs : Old n s) (hi : Old n i) (h1 : ρ.lookup s = some S)
    (h2 : σ.heap[S]? = some (.slice A)) (h3 : ρ.lookup i = some C) (h4 : σ.heap[C]? = some (.int (k : Int))) :
    At L pats n ρ σ (.index (.var s) (.var i)) (.addr A [.item k]) := by
  intro ρ' σ' hl
  have e1 := var_later (L := L) (pats := pats) hs h1 h2 hl
  have e2 := var_later (L := L) (pats := pats) hi h3 h4 hl
  constructor
  · intro w
    rw [assignTo, e1, e2]
    show need ((σ'.heap[A]?).bind fun c => (store c (.int k) w).map fun c => σ'.put A c) = _
    simp only [store_item]
    rfl
  · intro l path he
    cases he
    rw [expr, addrOf, e1, e2]
    show (if 0 ≤ (k : Int) then (.ok ⟨A, [.item (k : Int).toNat]⟩ : Except Exc Addr) else .error .typeError) = _
    rw [if_pos (Int.natCast_nonneg _), Int.toNat_natCast]

theorem at_entry {s i : Name} {S C A : Nat} {k : Str} (hs : Old n s) (hi : Old n i) (h1 : ρ.lookup s = some S)
    (h2 : σ.heap[S]? = some (.map A)) (h3 : ρ.lookup i = some C) (h4 : σ.heap[C]? = some (.str k)) :
    At L pats n ρ σ (.index (.var s) (.var i)) (.entry A k) := by
  intro ρ' σ' hl
  have e1 := var_later (L := L) (pats := pats) hs h1 h2 hl
  have e2 := var_later (L := L) (pats := pats) hi h3 h4 hl
  constructor
  · intro w
    rw [assignTo, e1, e2]
    rfl
  · intro l path he
    cases he

theorem at_var {x : Name} {S : Nat} {w : Val} (ho : Old n x) (hx : ρ.lookup x = some S) (hS : σ.heap[S]? = some w) :
    At L pats n ρ σ (.var x) (.addr S []) := by
  intro ρ' σ' hl
  have h1 := (hl.vars x ho).trans hx
  have h2 := hl.frame.get (fun h => h) hS
  constructor
  · intro w'
    rw [assignTo, h1]
    show _ = need ((σ'.heap[S]?).bind _)
    rw [h2]
    rfl
  · intro l path he
    cases he
    rw [expr, addrOf, h1]
    rfl

/-- The declaration of a numbered variable -/
theorem lookup_old {b : Str} {u l : Nat} {x : Name} (hx : Old n x) (h : n ≤ u) : List.lookup x ((vi b u, l) :: ρ) = ρ.lookup x :=
  lookup_ne (fun e => absurd (hx b u e) (Nat.not_lt.2 h)) l ρ

theorem evalAll_args {vs : List Val} : ∀ {es : List Expr}, evalAll L pats ρ σ es = .ok vs →
    (es.map Arg.val).mapM (argument L pats ρ σ) = .ok vs := by
  intro es h
  induction es generalizing vs with
  | nil => cases h; rfl
  | cons e es ih =>
    rw [evalAll] at h
    cases h1 : eval L pats ρ σ e with
    | error _ => rw [h1] at h; cases h
    | ok x =>
      cases h2 : evalAll L pats ρ σ es with
      | error _ => rw [h1, h2] at h; cases h
      | ok xs =>
        rw [h1, h2] at h
        cases h
        rw [List.map_cons, List.mapM_cons, ih h2, argument, h1]
        rfl

end

section
variable {E : GoRuntime.Env} {pats : Nat → Str} {call : Call} {T : Nat → Prop} {h₀ : List Val}
  {reg : Str → Str → Option Addr} {embed : Str → JVal → Str → GV → GoRuntime.St → Except Exc (GV × GoRuntime.St)}
  {n : Nat} {ρ : Env} {σ : St} {value : Expr} {target : Place} {ref : List Expr} {j : JVal} {s : Slot} {c0 : Val} {ts : List Str}

/-- `_parse_instance_reference` -/
theorem reference_ok {ctx : Ctx} (H : Here E.lib pats n ρ σ value target ref j s c0 ts) {c name : Str} {registry : Expr}
    (hK : Known T h₀ reg E.lib pats n ρ σ ctx) (hf : Frame T h₀ σ.heap) (hr : ctx.registry c = .ok registry)
    (hn : ucamelCase c = .ok name) (hids : ∀ c s, s ∈ E.ids c ↔ (reg c s).isSome = true) {lo : Nat} :
    Done n s c0 (fun h => Built E.graph reg h lo (.cls c)) ρ σ
      (GoRuntime.parseReference E.lib c (E.ids c) j (joinWith c!"/" ts) .zero (stOf σ))
      (exec E.lib pats E.order call (castTo (vi c!"cast" n) n .string c!"a string" value ref (.seq
      (.declare2 (some (vi c!"target" n)) (vi c!"ok" n) (.lookup registry (.var (vi c!"cast" n))))
      (.ite (.not (.var (vi c!"ok" n)))
        (reportAt ref (c!"reference to an instance of class " ++ name ++ c!" not found: %s") [value])
        (storeVar target (vi c!"target" n))))) ρ σ) := by
  obtain ⟨w, hw, hev⟩ := hK.registry c registry hr
  have hg : goName c = name := by unfold goName; rw [hn]
  refine cast_ok H (by decide) (fun h => ?_) fun w' hw' ρ1 σ1 hl hst hc _ => ?_
  · cases j <;> first | rfl | cases h
  · cases j <;> try (cases hw'; done)
    rename_i t
    cases hw'
    have h2 := evalTwo_registry hw (hf.trans hl.frame.grown) (hev ρ1 σ1 hl) hc
    have hid := hids c t
    rw [GoRuntime.parseReference, hg]
    cases hrt : reg c t with
    | some a =>
      rw [hrt] at h2 hid
      rw [exec_seq E.order E.lib pats call (exec_declare2 h2), if_pos (by simpa using hid)]
      have hl' := hl.trans (later_declare2 (Nat.le_refl n) c!"target" c!"ok" ρ1 σ1 (.ptr a) (.bool true))
      refine check_ok (js := [.str t]) H hl' hst (eval_not eval_second) (evalAll_one (H.value _ _ hl')) rfl
        (fun h => by cases h) fun _ => ?_
      exact simple_put H hl' hst (eval_first (vi_ne (by decide) n)) fun h => .cls hrt
    | none =>
      rw [hrt] at h2 hid
      rw [exec_seq E.order E.lib pats call (exec_declare2 h2), if_neg (by simpa using hid)]
      have hl' := hl.trans (later_declare2 (Nat.le_refl n) c!"target" c!"ok" ρ1 σ1 .zero (.bool false))
      exact check_ok (js := [.str t]) H hl' hst (eval_not eval_second) (evalAll_one (H.value _ _ hl')) rfl
        (fun _ => rfl) fun h => by cases h

/-- `_parse_embed` -/
theorem embed_ok {ctx : Ctx} (H : Here E.lib pats n ρ σ value target ref j s c0 ts)
    (hcall : Calls E.graph T h₀ reg embed call) (hK : Known T h₀ reg E.lib pats n ρ σ ctx)
    (hf : Frame T h₀ σ.heap) (hs : Free T h₀ s.loc) (ha : ∃ l path, s = .addr l path) (hj : Canon j) {name f : Str}
    {refs : List Str} {registries : List Expr} (hn : ucamelCase name = .ok f)
    (hrefs : GoCode.referencesOf E.graph (.embed name) = .ok refs) (hreg : refs.mapM ctx.registry = .ok registries)
    (he : (E.graph.embed? name).isSome = true) :
    Done n s c0 (fun h => Built E.graph reg h σ.heap.length (.embed name)) ρ σ
      (parseTy E embed (.embed name) j (joinWith c!"/" ts) .zero (stOf σ))
      (exec E.lib pats E.order call (.call (f ++ c!"FromJSONable") (.val value :: registries.map .val ++
      [.val (.join ref), .addr (expr target), .val (.var GoCode.errors)])) ρ σ) := by
  obtain ⟨l, path, rfl⟩ := ha
  have hvs : ∃ vs, Forall₂ (RegVal T h₀ reg) refs vs ∧ evalAll E.lib pats ρ σ registries = .ok vs := by
    clear hrefs
    induction refs generalizing registries with
    | nil => cases hreg; exact ⟨[], .nil, rfl⟩
    | cons c refs ih =>
      rw [List.mapM_cons] at hreg
      cases h1 : ctx.registry c with
      | error _ => rw [h1] at hreg; cases hreg
      | ok e =>
        cases h2 : refs.mapM ctx.registry with
        | error _ => rw [h1, h2] at hreg; cases hreg
        | ok es =>
          rw [h1, h2] at hreg
          cases hreg
          obtain ⟨vs, h3, h4⟩ := ih h2
          obtain ⟨w, h5, h6⟩ := hK.registry c e h1
          exact ⟨w :: vs, .cons h5 h3, evalAll_cons (h6 ρ σ (.refl _ _ _ _)) h4⟩
  obtain ⟨vs, hvs1, hvs2⟩ := hvs
  have hargs : (Arg.val value :: registries.map Arg.val ++ [Arg.val (.join ref), .addr (expr target),
      .val (.var GoCode.errors)]).mapM (argument E.lib pats ρ σ) =
      .ok (Val.json j :: vs ++ [Val.str (joinWith c!"/" ts), .ptr ⟨l, path⟩, .errors]) := by
    have h1 := evalAll_args (evalAll_cons (H.value ρ σ (.refl _ _ _ _)) hvs2)
    rw [List.map_cons] at h1
    rw [List.mapM_append, h1]
    have h2 := (H.target ρ σ (.refl _ _ _ _)).2 l path rfl
    have h3 := hK.errors ρ σ (.refl _ _ _ _)
    have h4 := eval_join (H.ref ρ σ (.refl _ _ _ _))
    simp only [List.mapM_cons, List.mapM_nil, argument, h2, h3, h4]
    rfl
  have hc := hcall name f refs vs j (joinWith c!"/" ts) l path c0 σ hn hrefs hvs1 hf hs H.cell H.fresh hj he
  rw [parseTy, exec, hargs]
  simp only [okBind]
  generalize embed name j (joinWith c!"/" ts) .zero (stOf σ) = q at hc ⊢
  cases q with
  | error e =>
    rcases hc with h | h
    · exact .inl h
    · exact .inr (by rw [h]; rfl)
  | ok q =>
    obtain ⟨x, st⟩ := q
    obtain ⟨rs, σ', c, h1, h2, h3, h4, h5⟩ := hc
    exact ⟨ρ, σ', c, by rw [h1]; rfl, ⟨fun _ _ => rfl, h2⟩, h3, h4, h5⟩

/-- The code of the items of an array or a map -/
def ItemOk (E : GoRuntime.Env) (pats : Nat → Str) (call : Call) (T : Nat → Prop) (h₀ : List Val)
    (reg : Str → Str → Option Addr) (embed : Str → JVal → Str → GV → GoRuntime.St → Except Exc (GV × GoRuntime.St)) (ctx : Ctx)
    (t : Ty) (value : Expr) (target : Place) (ref : List Expr) (n : Nat) (code : Stmt) : Prop :=
  ∀ (ρ : Env) (σ : St) (j : JVal) (s : Slot) (c0 : Val) (ts : List Str), Here E.lib pats n ρ σ value target ref j s c0 ts →
    ts ≠ [] → Known T h₀ reg E.lib pats n ρ σ ctx → Frame T h₀ σ.heap → Free T h₀ s.loc → Canon j →
    (isEmbed t = true → ∃ l path, s = .addr l path) → Resolved E.graph t →
    Done n s c0 (fun h => Built E.graph reg h σ.heap.length t) ρ σ
      (parseTy E embed t j (joinWith c!"/" ts) .zero (stOf σ)) (exec E.lib pats E.order call code ρ σ)

theorem eval_len {L : Lib} {e : Expr} {xs : List JVal} (h : eval L pats ρ σ e = .ok (.json (.arr xs))) :
    eval L pats ρ σ (.len e) = .ok (.int xs.length) := by
  rw [eval, h]
  rfl

/-- The checks of the size -/
theorem size_ok {R : List Val → Val → GV → Prop} {ρ1 : Env} {σ1 : St} (H : Here E.lib pats n ρ σ value target ref j s c0 ts)
    (hl : Later n (fun _ => False) ρ σ ρ1 σ1) (hst : stOf σ1 = stOf σ) {xs : List JVal} {cast : Name}
    (hc : eval E.lib pats ρ1 σ1 (.var cast) = .ok (.json (.arr xs))) {lo hi : Option Int} {rest : Stmt}
    {q : Except Exc (Option GV × GoRuntime.St)} (hq : Done n s c0 R ρ σ q (exec E.lib pats E.order call rest ρ1 σ1)) :
    Done n s c0 R ρ σ
      (if lo.any (fun m => decide ((xs.length : Int) < m)) then
        .ok (none, (stOf σ).add (joinWith c!"/" ts) (E.lib.sprintf
          (c!"expected an array of minimum size " ++ Duration.intStr (lo.getD 0) ++ c!", but got: %d") [.int64 xs.length]))
      else if hi.any (fun m => decide (m < (xs.length : Int))) then
        .ok (none, (stOf σ).add (joinWith c!"/" ts) (E.lib.sprintf
          (c!"expected an array of maximum size " ++ Duration.intStr (hi.getD 0) ++ c!", but got: %d") [.int64 xs.length]))
      else q)
      (exec E.lib pats E.order call (checkSize ref lo hi cast rest) ρ1 σ1) := by
  have hlen := eval_len hc
  have upper : Done n s c0 R ρ σ
      (if hi.any (fun m => decide (m < (xs.length : Int))) then
        .ok (none, (stOf σ).add (joinWith c!"/" ts) (E.lib.sprintf
          (c!"expected an array of maximum size " ++ Duration.intStr (hi.getD 0) ++ c!", but got: %d") [.int64 xs.length]))
      else q)
      (exec E.lib pats E.order call (match hi with
    | none => rest
    | some m => .ite (.cmp .gt (.len (.var cast)) m) (reportAt ref (c!"expected an array of maximum size " ++
        Duration.intStr m ++ c!", but got: %d") [.len (.var cast)]) rest) ρ1 σ1) := by
    cases hi with
    | none => exact hq
    | some m =>
      refine check_ok (js := [.int64 xs.length]) H hl hst (eval_cmp hlen rfl) (evalAll_one hlen) rfl (fun h => ?_) fun h => ?_
      · exact if_pos h
      · rw [if_neg (by simpa using h)]
        exact hq
  cases lo with
  | none => exact upper
  | some m =>
    refine check_ok (js := [.int64 xs.length]) H hl hst (eval_cmp hlen rfl) (evalAll_one hlen) rfl (fun h => ?_) fun h => ?_
    · exact if_pos h
    · rw [if_neg (by simpa using h)]
      exact upper

/-- `_parse_array` -/
theorem array_ok {ctx : Ctx} {t : Ty} {lo hi : Option Int} {item : Stmt} (H : Here E.lib pats n ρ σ value target ref j s c0 ts)
    (hi' : ItemOk E pats call T h₀ reg embed ctx t (.index (.var (vi c!"cast" n)) (.var (vi c!"i" n)))
      (.index (.var (vi c!"target" n)) (.var (vi c!"i" n))) (ref ++ [.itoa (.var (vi c!"i" n))]) (n + 1) item)
    (hts : ts ≠ []) (hK : Known T h₀ reg E.lib pats n ρ σ ctx) (hf : Frame T h₀ σ.heap) (hj : Canon j)
    (hr : Resolved E.graph t) :
    Done n s c0 (fun h => Built E.graph reg h σ.heap.length (.array t lo hi)) ρ σ
      (GoRuntime.parseArray E.lib (parseTy E embed t) lo hi j (joinWith c!"/" ts) .zero (stOf σ))
      (exec E.lib pats E.order call (castTo (vi c!"cast" n) n .slice c!"a []interface{}" value ref
      (checkSize ref lo hi (vi c!"cast" n) (block [
        .declare (vi c!"target" n) (.makeSlice (.len (.var (vi c!"cast" n)))),
        .forItems (vi c!"i" n) (.var (vi c!"cast" n)) (untilFull item),
        storeVar target (vi c!"target" n)]))) ρ σ) := by
  refine cast_ok H (by decide) (fun h => ?_) fun w' hw' ρ1 σ1 hl hst hc hS => ?_
  · cases j <;> first | rfl | cases h
  · cases j <;> try (cases hw'; done)
    rename_i xs
    cases hw'
    obtain ⟨S, hS1, hS2⟩ := hS
    refine size_ok H hl hst hc ?_
    -- the slice
    have hmk : evalRhs E.lib pats call ρ1 σ1 (.makeSlice (.len (.var (vi c!"cast" n)))) =
        .ok (.slice σ1.heap.length, (σ1.alloc (.array (List.replicate xs.length .zero))).2) := by
      rw [evalRhs, eval_len hc]
      rfl
    rw [block, exec_seq E.order E.lib pats call (exec_declare E.order E.lib pats call hmk)]
    generalize hσ2 : ((σ1.alloc (.array (List.replicate xs.length .zero))).2.alloc (.slice σ1.heap.length)).2 = σ2
    have hA2 : σ2.heap[σ1.heap.length]? = some (.array (List.replicate xs.length .zero)) := by
      rw [← hσ2]; exact alloc_old _ _ (alloc_get _ _)
    have hlen2 : σ2.heap.length = σ1.heap.length + 2 := by rw [← hσ2, alloc_len, alloc_len]
    have hTv2 : σ2.heap[σ1.heap.length + 1]? = some (.slice σ1.heap.length) := by
      rw [← hσ2, ← alloc_len σ1 (.array (List.replicate xs.length .zero))]; exact alloc_get _ _
    have hst2 : stOf σ2 = stOf σ1 := by rw [← hσ2]; rfl
    have hg12 : Grown σ1.heap σ2.heap := by
      rw [← hσ2]; exact (grown_append _ _).trans (grown_append _ _)
    rw [alloc_len]
    generalize hρ2 : (vi c!"target" n, σ1.heap.length + 1) :: ρ1 = ρ2
    have hl2 : Later n (fun _ => False) ρ1 σ1 ρ2 σ2 := by
      rw [← hρ2]
      exact ⟨fun x hx => lookup_old hx (Nat.le_refl n), hg12⟩
    have hcast2 : ρ2.lookup (vi c!"cast" n) = some S := by
      rw [← hρ2]; exact (lookup_ne (vi_ne (by decide) n) _ _).trans hS1
    have hS22 := hg12.get (fun h => h) hS2
    have htarget2 : ρ2.lookup (vi c!"target" n) = some (σ1.heap.length + 1) := by rw [← hρ2]; exact lookup_self _ _ _
    -- the loop
    have hAlt := lt_of_get hA2
    have hloop := loop_read (T := fun a => a = σ1.heap.length ∨ a = σ2.heap.length) (A := σ1.heap.length) (C := σ2.heap.length)
      (τ0 := (σ2.alloc (.int 0)).2) (f := parseTy E embed t) (ref := joinWith c!"/" ts)
      (R := fun h => Built E.graph reg h (σ2.alloc (.int 0)).2.heap.length t)
      (body := fun τ => bodyOf (exec E.lib pats E.order call (untilFull item) ((vi c!"i" n, σ2.heap.length) :: ρ2) τ))
      (.inl rfl) (.inr rfl) (Nat.ne_of_lt hAlt)
      (fun a ha => by rw [alloc_len]; rcases ha with rfl | rfl <;> omega)
      (fun h h' w x hfr hb => hb.frame hfr (fun a ha => by rw [alloc_len]; rcases ha with rfl | rfl <;> omega) (Nat.le_refl _))
      xs (σ2.alloc (.int 0)).2 [] [] (.refl _ _) (by simpa using alloc_old _ _ hA2) (fun h => ⟨h, .nil⟩) (by
        intro τ i x ws' hfr hx hC hlen hA
        simp only [List.length_nil, Nat.zero_add] at hC hlen ⊢
        have hgτ : Grown σ.heap τ.heap := by
          refine grown_frame ((hl.frame.trans hg12).trans (grown_append _ _)) hfr fun a ha => ?_
          rcases ha with rfl | rfl
          · exact hl.frame.more
          · exact (hl.frame.trans hg12).more
        have hkeep : ∀ {a : Nat} {y : Val}, a ≠ σ1.heap.length → σ2.heap[a]? = some y → τ.heap[a]? = some y := by
          intro a y hne hy
          refine hfr.get ?_ (alloc_old _ _ hy)
          rintro (rfl | rfl)
          · exact hne rfl
          · exact absurd (lt_of_get hy) (Nat.lt_irrefl _)
        have hlτ : Later n (fun _ => False) ρ σ ((vi c!"i" n, σ2.heap.length) :: ρ2) τ :=
          ⟨fun y hy => (lookup_old hy (Nat.le_refl n)).trans ((hl.trans hl2).vars y hy), hgτ⟩
        have hci : List.lookup (vi c!"cast" n) ((vi c!"i" n, σ2.heap.length) :: ρ2) = some S :=
          (lookup_ne (vi_ne (by decide) n) _ _).trans hcast2
        have hti : List.lookup (vi c!"target" n) ((vi c!"i" n, σ2.heap.length) :: ρ2) = some (σ1.heap.length + 1) :=
          (lookup_ne (vi_ne (by decide) n) _ _).trans htarget2
        have hi3 := lookup_self (vi c!"i" n) σ2.heap.length ρ2
        have hold : ∀ b, Old (n + 1) (vi b n) := fun b => old_vi (Nat.lt_succ_self n)
        have hSne : S ≠ σ1.heap.length := Nat.ne_of_lt (lt_of_get hS2)
        have H' : Here E.lib pats (n + 1) ((vi c!"i" n, σ2.heap.length) :: ρ2) τ
            (.index (.var (vi c!"cast" n)) (.var (vi c!"i" n))) (.index (.var (vi c!"target" n)) (.var (vi c!"i" n)))
            (ref ++ [.itoa (.var (vi c!"i" n))]) x (.addr σ1.heap.length [.item i])
            (.array (ws' ++ List.replicate (xs.length - i) .zero)) (ts ++ [Text.natStr i]) := {
          value := given_item (hold _) (hold _) hci (hkeep hSne hS22) hi3 hC hx
          target := at_item (hold _) (hold _) hti (hkeep (by omega) hTv2) hi3 hC
          ref := fun ρ' σ' hl' => by
            rw [List.map_append]
            refine evalAll_append (H.ref ρ' σ' (hlτ.trans (hl'.mono (Nat.le_succ n) fun _ _ h => h))) (evalAll_one ?_)
            rw [eval, var_later (hold _) hi3 hC hl']
            show Except.ok (Val.str (Duration.intStr i)) = _
            rw [intStr_nat]
          cell := hA
          fresh := by
            have hlt := lt_of_get hx
            obtain ⟨k, hk⟩ : ∃ k, xs.length - i = k + 1 := ⟨xs.length - i - 1, by omega⟩
            show part [.item i] _ = some .zero
            rw [hk, List.replicate_succ, ← hlen]
            simp [part, step] }
        have := hi' _ τ x _ _ _ H' (by simp) (hK.later (Nat.le_succ n) hlτ) (hf.trans hgτ.grown)
          (.inr (Nat.le_trans hf.more hl.frame.more)) (by
            cases hj with
            | arr _ h => exact h x (List.mem_of_getElem? hx))
          (fun _ => ⟨_, _, rfl⟩) hr
        rw [join_snoc _ hts] at this
        exact this.until.mono fun h w y hb => hb.frame (.refl (fun _ => False) _) (fun _ h => h.elim) hfr.more)
    have hfor : exec E.lib pats E.order call (.forItems (vi c!"i" n) (.var (vi c!"cast" n)) (untilFull item)) ρ2 σ2 = (do
        let (f, σ) ← loop (fun k τ => .ok (τ.put σ2.heap.length (.int k)))
          (fun τ => bodyOf (exec E.lib pats E.order call (untilFull item) ((vi c!"i" n, σ2.heap.length) :: ρ2) τ))
          ((List.range' 0 xs.length).map fun (k : Nat) => (k : Int)) (σ2.alloc (.int 0)).2
        return (f, ρ2, σ)) := by
      rw [exec, eval_var E.lib pats hcast2 hS22, ← List.range_eq_range']
      rfl
    have hst20 : stOf (σ2.alloc (.int 0)).2 = stOf σ := hst2.trans hst
    rw [hst20] at hloop
    simp only [List.length_nil] at hloop
    generalize parseItems (parseTy E embed t) (joinWith c!"/" ts) 0 xs (stOf σ) = q at hloop ⊢
    cases q with
    | error e =>
      rcases hloop with h | h
      · exact .inl h
      · refine .inr ?_
        rw [block, exec_seq_error E.order E.lib pats call]
        rw [hfor, h]
        rfl
    | ok q =>
      obtain ⟨ys, st⟩ := q
      obtain ⟨τ, ws, h1, h2, h3, h4, h5⟩ := hloop
      have hfor' : exec E.lib pats E.order call (.forItems (vi c!"i" n) (.var (vi c!"cast" n)) (untilFull item)) ρ2 σ2 =
          .ok (.next, ρ2, τ) := by rw [hfor, h1]; rfl
      rw [block, exec_seq E.order E.lib pats call hfor', block, block, exec_seq_skip]
      have hgτ : Grown σ.heap τ.heap := by
        refine grown_frame ((hl.frame.trans hg12).trans (grown_append _ _)) h2 fun a ha => ?_
        rcases ha with rfl | rfl
        · exact hl.frame.more
        · exact (hl.frame.trans hg12).more
      have hTτ : τ.heap[σ1.heap.length + 1]? = some (.slice σ1.heap.length) := by
        refine h2.get ?_ (alloc_old _ _ hTv2)
        rintro (h | h) <;> omega
      have := put_ok (O := E.order) (call := call) (R := fun h => Built E.graph reg h σ.heap.length (.array t lo hi)) H
        (ρ1 := ρ2) (σ1 := τ) ⟨(hl.trans hl2).vars, hgτ⟩ (eval_var E.lib pats htarget2 hTτ) (x := .list ys) fun he => by
          obtain ⟨h6, h7⟩ := h5 he
          have e0 : (σ2.alloc (.int 0)).2.errors = σ.errors := congrArg GoRuntime.St.errors hst20
          refine ⟨e0 ▸ h6, fun h hfr => ?_⟩
          have hsl := lt_of_get H.cell
          have hsl1 : s.loc < σ1.heap.length := Nat.lt_of_lt_of_le hsl hl.frame.more
          obtain ⟨h8, h9⟩ := forall₂_get h7
          refine .array hl.frame.more (hfr.get (Ne.symm (Nat.ne_of_lt hsl1)) h3) h8 fun i x y hx hy => ?_
          refine (h9 i x y hx hy).frame hfr (fun a ha => ?_) ?_
          · rw [ha, alloc_len, hlen2]; omega
          · rw [alloc_len, hlen2]
            have := hl.frame.more
            omega
      rw [h4] at this
      exact this

theorem visit_map {α β : Type} (O : Order) (r : Nat) (f : α → β) (xs : List α) : O.visit r (xs.map f) = (O.visit r xs).map f := by
  unfold Order.visit
  rw [List.length_map, List.map_filterMap]
  congr 1
  funext i
  exact List.getElem?_map ..

/-- The code of an entry, which puts an embeddable structure into a variable first -/
theorem entry_ok {ctx : Ctx} {t : Ty} {item : Stmt} {value' : Expr} {target' : Place} {ref' : List Expr} {τ : St} {x : JVal}
    {A : Nat} {k : Str} {ws : List (Str × Val)} {ts' : List Str}
    (hi' : ItemOk E pats call T h₀ reg embed ctx t value' (if isEmbed t then .var (vi c!"item" n) else target') ref' (n + 1) item)
    (hlate : ∀ ρ' σ', (∀ x, Old (n + 1) x → x ≠ vi c!"item" n → ρ'.lookup x = ρ.lookup x) → Grown τ.heap σ'.heap →
      Given E.lib pats (n + 1) ρ' σ' value' x ∧ At E.lib pats (n + 1) ρ' σ' target' (.entry A k) ∧
      Refers E.lib pats (n + 1) ρ' σ' ref' ts' ∧ Known T h₀ reg E.lib pats (n + 1) ρ' σ' ctx)
    (hcell : τ.heap[A]? = some (.table ws)) (hts : ts' ≠ []) (hf : Frame T h₀ τ.heap) (hA : Free T h₀ A) (hj : Canon x)
    (hr : Resolved E.graph t) :
    BodyDone (.entry A k) (.table ws) (fun h => Built E.graph reg h τ.heap.length t) τ
      (parseTy E embed t x (joinWith c!"/" ts') .zero (stOf τ))
      (bodyOf (exec E.lib pats E.order call (untilFull (if isEmbed t then
        block [.declare (vi c!"item" n) (.val .zero), item, storeVar target' (vi c!"item" n)] else item)) ρ τ)) := by
  cases ht : isEmbed t with
  | false =>
    simp only [ht, Bool.false_eq_true, if_false] at hi' ⊢
    obtain ⟨h1, h2, h3, h4⟩ := hlate ρ τ (fun _ _ _ => rfl) (.refl _ _)
    exact (hi' ρ τ x _ _ _ ⟨h1, h2, h3, hcell, _, rfl⟩ hts h4 hf hA hj (fun h => by rw [ht] at h; cases h) hr).until
  | true =>
    simp only [ht, if_true] at hi' ⊢
    cases t <;> try (cases ht; done)
    rename_i name
    have hd : exec E.lib pats E.order call (.declare (vi c!"item" n) (.val .zero)) ρ τ =
        .ok (.next, (vi c!"item" n, τ.heap.length) :: ρ, (τ.alloc .zero).2) :=
      exec_declare E.order E.lib pats call (evalRhs_val E.lib pats call rfl)
    have hself := lookup_self (vi c!"item" n) τ.heap.length ρ
    have hIo : Old (n + 1) (vi c!"item" n) := old_vi (Nat.lt_succ_self n)
    obtain ⟨g1, g2, g3, g4⟩ := hlate ((vi c!"item" n, τ.heap.length) :: ρ) (τ.alloc .zero).2
      (fun y _ hy => lookup_ne hy _ _) (grown_append _ _)
    have H1 : Here E.lib pats (n + 1) ((vi c!"item" n, τ.heap.length) :: ρ) (τ.alloc .zero).2 value' (.var (vi c!"item" n)) ref'
        x (.addr τ.heap.length []) .zero ts' :=
      ⟨g1, at_var hIo hself (alloc_get _ _), g3, alloc_get _ _, rfl⟩
    have hd1 := hi' _ _ x _ _ _ H1 hts g4 (hf.trans (grown_append _ _).grown) (.inr hf.more) hj
      (fun _ => ⟨_, _, rfl⟩) hr
    have hst0 : stOf (τ.alloc .zero).2 = stOf τ := rfl
    rw [hst0] at hd1
    generalize hX : exec E.lib pats E.order call item ((vi c!"item" n, τ.heap.length) :: ρ) (τ.alloc .zero).2 = X at hd1
    simp only [parseTy] at hd1 ⊢
    generalize embed name x (joinWith c!"/" ts') .zero (stOf τ) = q at hd1 ⊢
    cases q with
    | error e =>
      rcases hd1 with h | h
      · exact .inl h
      · refine .inr ?_
        rw [untilFull, exec_seq_error E.order E.lib pats call]
        · rfl
        · rw [block, exec_seq E.order E.lib pats call hd, block, exec_seq_error E.order E.lib pats call (hX.trans h)]
    | ok q =>
      obtain ⟨y, st⟩ := q
      obtain ⟨ρ', σ', c, h1, h2, h3, h4, w, h5, h6⟩ := hd1
      have hcw : c = w := by
        rcases h5 with h | ⟨h, h'⟩
        · exact (Option.some.inj h).symm
        · rw [h, h']
      subst hcw
      have hAlt : A < τ.heap.length := lt_of_get hcell
      have hgr : Grown τ.heap σ'.heap := grown_frame (grown_append _ _) h2.frame fun a ha => by
        rw [ha]; exact Nat.le_refl _
      have hpc : σ'.heap[A]? = some (.table ws) := hgr.get (fun h => h) hcell
      have htab : store (.table ws) (.str k) c = some (.table (GoMap.put k c ws)) := rfl
      have hass : assignTo E.lib pats ρ' σ' c target' = .ok (σ'.put A (.table (GoMap.put k c ws))) := by
        obtain ⟨_, h7, _⟩ := hlate ρ' σ' (fun y ho hy => (h2.vars y ho).trans (lookup_ne hy _ _)) hgr
        rw [(h7 ρ' σ' (.refl _ _ _ _)).1 c]
        show need ((σ'.heap[A]?).bind _) = _
        rw [hpc]
        rfl
      have hev : eval E.lib pats ρ' σ' (.var (vi c!"item" n)) = .ok c :=
        eval_var E.lib pats ((h2.vars _ hIo).trans hself) h4
      have hcode : exec E.lib pats E.order call (block [.declare (vi c!"item" n) (.val .zero), item,
          storeVar target' (vi c!"item" n)]) ρ τ = .ok (.next, ρ', σ'.put A (.table (GoMap.put k c ws))) := by
        rw [block, exec_seq E.order E.lib pats call hd, block, exec_seq E.order E.lib pats call (hX.trans h1), block, block,
          exec_seq_skip, storeVar, exec, evalRhs_val E.lib pats call hev]
        simp only [okBind, hass]
        rfl
      have hne : τ.heap.length ≠ A := Ne.symm (Nat.ne_of_lt hAlt)
      refine ⟨σ'.put A (.table (GoMap.put k c ws)), .table (GoMap.put k c ws), ?_, ?_, h3, ?_, c, htab, fun he => ?_⟩
      · rw [exec_untilFull hcode, ← h3]
        rfl
      · exact hgr.grown.trans (frame_set _ _ _)
      · exact List.getElem?_set_self (lt_of_get hpc)
      · obtain ⟨h7, h8⟩ := h6 he
        refine ⟨h7, h8.frame (frame_set _ _ _) (fun a ha => ?_) ?_⟩
        · rw [ha, alloc_len]; omega
        · rw [alloc_len]; omega

/-- `_parse_map` -/
theorem map_ok {ctx : Ctx} {t : Ty} {item : Stmt} (H : Here E.lib pats n ρ σ value target ref j s c0 ts)
    (hi' : ItemOk E pats call T h₀ reg embed ctx t (.index (.var (vi c!"cast" n)) (.var (vi c!"k" n)))
      (if isEmbed t then .var (vi c!"item" n) else .index (.var (vi c!"target" n)) (.var (vi c!"k" n)))
      (ref ++ [.var (vi c!"k" n)]) (n + 1) item)
    (hts : ts ≠ []) (hK : Known T h₀ reg E.lib pats n ρ σ ctx) (hf : Frame T h₀ σ.heap) (hj : Canon j)
    (hr : Resolved E.graph t) :
    Done n s c0 (fun h => Built E.graph reg h σ.heap.length (.map t)) ρ σ
      (GoRuntime.parseMap E.order E.lib (parseTy E embed t) j (joinWith c!"/" ts) .zero (stOf σ))
      (exec E.lib pats E.order call (castTo (vi c!"cast" n) n .map c!"a map[string]interface{}" value ref (block [
      .declare (vi c!"target" n) .makeMap,
      .forEntries (vi c!"k" n) none (.var (vi c!"cast" n)) (untilFull (if isEmbed t then
        block [.declare (vi c!"item" n) (.val .zero), item,
          storeVar (.index (.var (vi c!"target" n)) (.var (vi c!"k" n))) (vi c!"item" n)]
      else item)),
      storeVar target (vi c!"target" n)])) ρ σ) := by
  refine cast_ok H (by decide) (fun h => ?_) fun w' hw' ρ1 σ1 hl hst hc hS => ?_
  · cases j <;> first | rfl | cases h
  · cases j <;> try (cases hw'; done)
    rename_i kvs
    cases hw'
    have hnd : (kvs.map (·.1)).Nodup := by
      cases hj with
      | obj _ h _ => exact h.nodup
    obtain ⟨S, hS1, hS2⟩ := hS
    -- the map
    have hmk : evalRhs E.lib pats call ρ1 σ1 .makeMap = .ok (.map σ1.heap.length, (σ1.alloc (.table [])).2) := rfl
    rw [block, exec_seq E.order E.lib pats call (exec_declare E.order E.lib pats call hmk)]
    generalize hσ2 : ((σ1.alloc (.table [])).2.alloc (.map σ1.heap.length)).2 = σ2
    have hA2 : σ2.heap[σ1.heap.length]? = some (.table []) := by
      rw [← hσ2]; exact alloc_old _ _ (alloc_get _ _)
    have hlen2 : σ2.heap.length = σ1.heap.length + 2 := by rw [← hσ2, alloc_len, alloc_len]
    have hTv2 : σ2.heap[σ1.heap.length + 1]? = some (.map σ1.heap.length) := by
      rw [← hσ2, ← alloc_len σ1 (.table [])]; exact alloc_get _ _
    have hst2 : stOf σ2 = stOf σ1 := by rw [← hσ2]; rfl
    have hg12 : Grown σ1.heap σ2.heap := by
      rw [← hσ2]; exact (grown_append _ _).trans (grown_append _ _)
    rw [alloc_len]
    generalize hρ2 : (vi c!"target" n, σ1.heap.length + 1) :: ρ1 = ρ2
    have hl2 : Later n (fun _ => False) ρ1 σ1 ρ2 σ2 := by
      rw [← hρ2]
      exact ⟨fun x hx => lookup_old hx (Nat.le_refl n), hg12⟩
    have hcast2 : ρ2.lookup (vi c!"cast" n) = some S := by
      rw [← hρ2]; exact (lookup_ne (vi_ne (by decide) n) _ _).trans hS1
    have hS22 := hg12.get (fun h => h) hS2
    have htarget2 : ρ2.lookup (vi c!"target" n) = some (σ1.heap.length + 1) := by rw [← hρ2]; exact lookup_self _ _ _
    -- the loop
    have hAlt := lt_of_get hA2
    generalize hτ0 : ({ (σ2.alloc .zero).2 with ranges := σ2.ranges + 1 } : St) = τ0
    have hh0 : τ0.heap = (σ2.alloc .zero).2.heap := by rw [← hτ0]
    have hlen0 : τ0.heap.length = σ2.heap.length + 1 := by rw [hh0, alloc_len]
    have hg20 : Grown σ2.heap τ0.heap := by rw [hh0]; exact grown_append _ _
    have hst0 : stOf τ0 = (stOf σ).range := by
      rw [← hst, ← hst2, ← hτ0]; rfl
    have hloop := loop_read_map (T := fun a => a = σ1.heap.length ∨ a = σ2.heap.length) (A := σ1.heap.length)
      (K := σ2.heap.length) (τ0 := τ0) (f := parseTy E embed t) (ref := joinWith c!"/" ts)
      (R := fun h => Built E.graph reg h τ0.heap.length t) (kvs := kvs)
      (body := fun τ => bodyOf (exec E.lib pats E.order call (untilFull (if isEmbed t then
        block [.declare (vi c!"item" n) (.val .zero), item,
          storeVar (.index (.var (vi c!"target" n)) (.var (vi c!"k" n))) (vi c!"item" n)]
        else item)) ((vi c!"k" n, σ2.heap.length) :: ρ2) τ))
      (.inl rfl) (.inr rfl) (Nat.ne_of_lt hAlt)
      (fun a ha => by rw [hlen0]; rcases ha with rfl | rfl <;> omega)
      (fun h h' w x hfr hb => hb.frame hfr (fun a ha => by rw [hlen0]; rcases ha with rfl | rfl <;> omega) (Nat.le_refl _))
      (by
        intro τ k x ws hfr hx hC hA
        have hgτ : Grown σ.heap τ.heap := by
          refine grown_frame ((hl.frame.trans hg12).trans hg20) hfr fun a ha => ?_
          rcases ha with rfl | rfl
          · exact hl.frame.more
          · exact (hl.frame.trans hg12).more
        have hkeep : ∀ {a : Nat} {y : Val}, a ≠ σ1.heap.length → σ2.heap[a]? = some y → τ.heap[a]? = some y := by
          intro a y hne hy
          refine hfr.get ?_ (hg20.get (fun h => h) hy)
          rintro (rfl | rfl)
          · exact hne rfl
          · exact absurd (lt_of_get hy) (Nat.lt_irrefl _)
        have hci : List.lookup (vi c!"cast" n) ((vi c!"k" n, σ2.heap.length) :: ρ2) = some S :=
          (lookup_ne (vi_ne (by decide) n) _ _).trans hcast2
        have hti : List.lookup (vi c!"target" n) ((vi c!"k" n, σ2.heap.length) :: ρ2) = some (σ1.heap.length + 1) :=
          (lookup_ne (vi_ne (by decide) n) _ _).trans htarget2
        have hi3 := lookup_self (vi c!"k" n) σ2.heap.length ρ2
        have hold : ∀ b, Old (n + 1) (vi b n) := fun b => old_vi (Nat.lt_succ_self n)
        have hSne : S ≠ σ1.heap.length := Nat.ne_of_lt (lt_of_get hS2)
        have := entry_ok (ρ := (vi c!"k" n, σ2.heap.length) :: ρ2) (τ := τ) (x := x) (A := σ1.heap.length) (k := k) (ws := ws)
          (ts' := ts ++ [k]) hi' (fun ρ' σ' hv hg => by
            have e1 := (hv _ (hold c!"cast") (vi_ne (by decide) n)).trans hci
            have e2 := (hv _ (hold c!"target") (vi_ne (by decide) n)).trans hti
            have e3 := (hv _ (hold c!"k") (vi_ne (by decide) n)).trans hi3
            have hlτ : Later n (fun _ => False) ρ σ ρ' σ' := by
              refine ⟨fun y hy => ?_, hgτ.trans hg⟩
              have hne : y ≠ vi c!"item" n := fun e => absurd (hy _ _ e) (Nat.lt_irrefl n)
              exact ((hv y (hy.mono (Nat.le_succ n)) hne).trans (lookup_old hy (Nat.le_refl n))).trans ((hl.trans hl2).vars y hy)
            have hk := hg.get (fun h => h) hC
            refine ⟨given_entry (hold _) (hold _) e1 (hg.get (fun h => h) (hkeep hSne hS22)) e3 hk (lookup_nodup hnd hx),
              at_entry (hold _) (hold _) e2 (hg.get (fun h => h) (hkeep (by omega) hTv2)) e3 hk, fun ρ'' σ'' hl' => ?_,
              hK.later (Nat.le_succ n) hlτ⟩
            rw [List.map_append]
            exact evalAll_append (H.ref ρ'' σ'' (hlτ.trans (hl'.mono (Nat.le_succ n) fun _ _ h => h)))
              (evalAll_one (var_later (hold _) e3 hk hl')))
          hA (by simp) (hf.trans hgτ.grown) (.inr (Nat.le_trans hf.more hl.frame.more)) (by
            cases hj with
            | obj _ _ h => exact h _ hx) hr
        rw [join_snoc _ hts] at this
        exact this.mono fun h w y hb => hb.frame (.refl (fun _ => False) _) (fun _ h => h.elim) hfr.more)
      (E.order.visit σ2.ranges kvs) (fun e he => visit_mem he) τ0 [] [] (.refl _ _) (hg20.get (fun h => h) hA2)
      (fun h => ⟨h, .nil⟩)
    have hfor : exec E.lib pats E.order call (.forEntries (vi c!"k" n) none (.var (vi c!"cast" n)) (untilFull (if isEmbed t then
        block [.declare (vi c!"item" n) (.val .zero), item,
          storeVar (.index (.var (vi c!"target" n)) (.var (vi c!"k" n))) (vi c!"item" n)]
        else item))) ρ2 σ2 = (do
        let (f, σ) ← loop (fun (kv : Str × Val) τ => .ok (τ.put σ2.heap.length (.str kv.1)))
          (fun τ => bodyOf (exec E.lib pats E.order call (untilFull (if isEmbed t then
        block [.declare (vi c!"item" n) (.val .zero), item,
          storeVar (.index (.var (vi c!"target" n)) (.var (vi c!"k" n))) (vi c!"item" n)]
        else item)) ((vi c!"k" n, σ2.heap.length) :: ρ2) τ))
          ((E.order.visit σ2.ranges kvs).map fun kv => (kv.1, .json kv.2)) τ0
        return (f, ρ2, σ)) := by
      rw [exec, eval_var E.lib pats hcast2 hS22, ← visit_map, ← hτ0]
      rfl
    have hrg : σ2.ranges = (stOf σ).ranges := congrArg GoRuntime.St.ranges (hst2.trans hst)
    rw [hst0, hrg] at hloop
    rw [hrg] at hfor
    rw [GoRuntime.parseMap]
    generalize parseEntries (parseTy E embed t) (joinWith c!"/" ts) [] (E.order.visit (stOf σ).ranges kvs) (stOf σ).range = q
      at hloop ⊢
    cases q with
    | error e =>
      rcases hloop with h | h
      · exact .inl h
      · refine .inr ?_
        rw [block, exec_seq_error E.order E.lib pats call]
        rw [hfor, h]
        rfl
    | ok q =>
      obtain ⟨ys, st⟩ := q
      obtain ⟨τ, ws, h1, h2, h3, h4, h5⟩ := hloop
      rw [h1] at hfor
      rw [block, exec_seq E.order E.lib pats call hfor, block, block, exec_seq_skip]
      have hgτ : Grown σ.heap τ.heap := by
        refine grown_frame ((hl.frame.trans hg12).trans hg20) h2 fun a ha => ?_
        rcases ha with rfl | rfl
        · exact hl.frame.more
        · exact (hl.frame.trans hg12).more
      have hTτ : τ.heap[σ1.heap.length + 1]? = some (.map σ1.heap.length) := by
        refine h2.get ?_ (hg20.get (fun h => h) hTv2)
        rintro (h | h) <;> omega
      have := put_ok (O := E.order) (call := call) (R := fun h => Built E.graph reg h σ.heap.length (.map t)) H
        (ρ1 := ρ2) (σ1 := τ) ⟨(hl.trans hl2).vars, hgτ⟩ (eval_var E.lib pats htarget2 hTτ) (x := .map ys) fun he => by
          obtain ⟨h6, h7⟩ := h5 he
          have e0 : τ0.errors = σ.errors := congrArg GoRuntime.St.errors hst0
          refine ⟨e0 ▸ h6, fun h hfr => ?_⟩
          have hsl := lt_of_get H.cell
          have hsl1 : s.loc < σ1.heap.length := Nat.lt_of_lt_of_le hsl hl.frame.more
          have h8 := entry_keys h7
          obtain ⟨_, h9⟩ := forall₂_get h7
          refine .map hl.frame.more (hfr.get (Ne.symm (Nat.ne_of_lt hsl1)) h3) h8 fun i x y hx hy => ?_
          refine (h9 i x y hx hy).2.frame hfr (fun a ha => ?_) ?_
          · rw [ha, hlen0, hlen2]; omega
          · rw [hlen0, hlen2]
            have := hl.frame.more
            omega
      rw [h4] at this
      exact this

theorem layout_of {f l : Str} (h : Strftime.convert f = .ok l) : GoRuntime.layout f = l := by
  unfold GoRuntime.layout
  rw [h]

/-- `_parse_date_time` -/
theorem dateTime_read {f l : Str} (H : Here E.lib pats n ρ σ value target ref j s c0 ts) (h : Strftime.convert f = .ok l)
    {R : List Val → Val → GV → Prop} (hR : ∀ h t, R h (.time t) (.time t)) :
    Done n s c0 R ρ σ (GoRuntime.parseDateTime E.lib f j (joinWith c!"/" ts) .zero (stOf σ))
      (exec E.lib pats E.order call
        (convertWith (.parseTime l) (c!"expected layout " ++ l ++ c!", got: %s") [] value target ref n) ρ σ) := by
  refine convert_ok H (fun h => ?_) fun t ht => ?_
  · cases j <;> first | rfl | cases h
  · subst ht
    rw [GoRuntime.parseDateTime, layout_of h]
    cases hp : E.lib.parseTime l t with
    | some x =>
      refine .inl ⟨.time x, .time x, fun ρ1 σ1 e he => ?_, fun h => hR h x, rfl⟩
      rw [evalTwo, he]
      simp only [okBind, textOf, hp]
      rfl
    | none =>
      refine .inr (.inl ⟨.zero, [], [], fun ρ1 σ1 e he => ?_, fun ρ1 σ1 _ => ⟨[], rfl, rfl⟩, rfl⟩)
      rw [evalTwo, he]
      simp only [okBind, textOf, hp]
      rfl

theorem eval_errorText {L : Lib} {e : Expr} {msg : Str} (h : eval L pats ρ σ e = .ok (.error msg)) :
    evalAll L pats ρ σ [.errorText e] = .ok [.str msg] := by
  refine evalAll_one ?_
  rw [eval, h]
  rfl

theorem dateTime_gen {f : Str} {code : Stmt} {m : Nat} (h : parseDateTime f value target ref n = .ok (code, m)) :
    ∃ l, Strftime.convert f = .ok l ∧ m = n + 1 ∧
      code = convertWith (.parseTime l) (c!"expected layout " ++ l ++ c!", got: %s") [] value target ref n := by
  unfold parseDateTime at h
  cases hc : Strftime.convert f with
  | error _ => rw [hc] at h; cases h
  | ok l =>
    rw [hc] at h
    cases h
    exact ⟨l, rfl, rfl, rfl⟩

theorem text_gen {ctx : Ctx} {p : Option Str} {code : Stmt} {m : Nat} (h : parseText ctx p value target ref n = .ok (code, m)) :
    n ≤ m := by
  unfold parseText at h
  cases p with
  | none => cases h; exact Nat.le_succ n
  | some q =>
    cases hu : uidOf ctx.uids q with
    | error _ => simp only [hu] at h; cases h
    | ok u => simp only [hu] at h; cases h; exact Nat.le_succ n

/-- The code parses the value as the model does. -/
theorem read_ok {ctx : Ctx} (hg : ctx.graph = E.graph) (hcall : Calls E.graph T h₀ reg embed call)
    (hu : ∀ q uid, uidOf ctx.uids q = .ok uid → pats uid = q) (hids : ∀ c s, s ∈ E.ids c ↔ (reg c s).isSome = true) :
    ∀ (t : Ty) (value : Expr) (target : Place) (ref : List Expr) (n : Nat) (code : Stmt) (m : Nat),
      parseValue ctx t value target ref n = .ok (code, m) → n ≤ m ∧
      ItemOk E pats call T h₀ reg embed ctx t value target ref n code := by
  intro t
  induction t with
  | boolean =>
    intro value target ref n code m h
    cases h
    exact ⟨Nat.le_succ n, fun ρ σ j s c0 ts H _ _ _ _ _ _ _ => boolean_ok H fun h b => .boolean b⟩
  | integer b =>
    intro value target ref n code m h
    cases h
    exact ⟨Nat.le_succ n, fun ρ σ j s c0 ts H _ _ _ _ _ _ _ => integer_ok H fun h i => .integer b i⟩
  | float b =>
    intro value target ref n code m h
    rw [parseValue] at h
    cases h1 : GoCode.formatFloat b.min with
    | error _ => rw [h1] at h; cases h
    | ok _ =>
      cases h2 : GoCode.formatFloat b.max with
      | error _ => rw [h1, h2] at h; cases h
      | ok _ =>
        rw [h1, h2] at h
        cases h
        exact ⟨Nat.le_succ n, fun ρ σ j s c0 ts H _ _ _ _ _ _ _ => float_ok H fun h f => .float b f⟩
  | string p =>
    intro value target ref n code m h
    exact ⟨text_gen h, fun ρ σ j s c0 ts H _ _ _ _ _ _ _ => (text_ok H h hu fun h t => .string p t).2⟩
  | path p =>
    intro value target ref n code m h
    exact ⟨text_gen h, fun ρ σ j s c0 ts H _ _ _ _ _ _ _ => (text_ok H h hu fun h t => .path p t).2⟩
  | date f =>
    intro value target ref n code m h
    obtain ⟨l, hl, rfl, rfl⟩ := dateTime_gen h
    exact ⟨Nat.le_succ n, fun ρ σ j s c0 ts H _ _ _ _ _ _ _ => dateTime_read H hl fun h t => .date f t⟩
  | time f =>
    intro value target ref n code m h
    obtain ⟨l, hl, rfl, rfl⟩ := dateTime_gen h
    exact ⟨Nat.le_succ n, fun ρ σ j s c0 ts H _ _ _ _ _ _ _ => dateTime_read H hl fun h t => .time f t⟩
  | datetime f =>
    intro value target ref n code m h
    obtain ⟨l, hl, rfl, rfl⟩ := dateTime_gen h
    exact ⟨Nat.le_succ n, fun ρ σ j s c0 ts H _ _ _ _ _ _ _ => dateTime_read H hl fun h t => .datetime f t⟩
  | timeZone =>
    intro value target ref n code m h
    cases h
    refine ⟨Nat.le_succ n, fun ρ σ j s c0 ts H _ _ _ _ _ _ _ => convert_ok H (fun h => ?_) fun t ht => ?_⟩
    · cases j <;> first | rfl | cases h
    · subst ht
      rw [parseTy, GoRuntime.parseTimeZone]
      cases hp : E.lib.loadLocation t with
      | some x =>
        refine .inl ⟨.zone x, .zone x, fun ρ1 σ1 e he => ?_, fun h => .zone x, rfl⟩
        rw [evalTwo, he]
        simp only [okBind, textOf, hp]
        rfl
      | none =>
        refine .inr (.inl ⟨.nil, _, [.str (E.lib.locationError t)], fun ρ1 σ1 e he => ?_,
          fun ρ1 σ1 he => ⟨_, eval_errorText he, rfl⟩, rfl⟩)
        rw [evalTwo, he]
        simp only [okBind, textOf, hp]
        rfl
  | duration =>
    intro value target ref n code m h
    cases h
    refine ⟨Nat.le_succ n, fun ρ σ j s c0 ts H _ _ _ _ _ _ _ => convert_ok H (fun h => ?_) fun t ht => ?_⟩
    · cases j <;> first | rfl | cases h
    · subst ht
      rw [parseTy, GoRuntime.parseDuration]
      cases hp : Duration.goFromString t with
      | ok x =>
        refine .inl ⟨.duration x, .duration x, fun ρ1 σ1 e he => ?_, fun h => .duration x, rfl⟩
        rw [evalTwo, he]
        simp only [okBind, textOf, hp]
        rfl
      | error ex =>
        by_cases hv : ∃ msg, ex = .valueError msg
        · obtain ⟨msg, rfl⟩ := hv
          refine .inr (.inl ⟨.zero, msg, [.str msg], fun ρ1 σ1 e he => ?_, fun ρ1 σ1 he => ⟨_, eval_errorText he, rfl⟩, rfl⟩)
          rw [evalTwo, he]
          simp only [okBind, textOf, hp]
          rfl
        · refine .inr (.inr ⟨ex, fun ρ1 σ1 e he => ?_, ?_⟩)
          · rw [evalTwo, he]
            simp only [okBind, textOf, hp]
            cases ex <;> first | rfl | exact absurd ⟨_, rfl⟩ hv
          · cases ex <;> first | rfl | exact absurd ⟨_, rfl⟩ hv
  | cls c =>
    intro value target ref n code m h
    rw [parseValue] at h
    cases h1 : ctx.registry c with
    | error _ => rw [h1] at h; cases h
    | ok r =>
      cases h2 : ucamelCase c with
      | error _ => rw [h1, h2] at h; cases h
      | ok name =>
        rw [h1, h2] at h
        cases h
        exact ⟨Nat.le_succ n, fun ρ σ j s c0 ts H _ hK hf _ _ _ _ => reference_ok H hK hf h1 h2 hids⟩
  | embed name =>
    intro value target ref n code m h
    rw [parseValue, hg] at h
    cases h1 : GoCode.referencesOf E.graph (.embed name) with
    | error _ => rw [h1] at h; cases h
    | ok refs =>
      cases h2 : refs.mapM ctx.registry with
      | error _ => simp only [h1, okBind, h2] at h; cases h
      | ok rs =>
        cases h3 : ucamelCase name with
        | error _ => simp only [h1, okBind, h2, h3] at h; cases h
        | ok f =>
          simp only [h1, okBind, h2, h3] at h
          cases h
          exact ⟨Nat.le_succ n, fun ρ σ j s c0 ts H _ hK hf hs hj ha hr =>
            embed_ok H hcall hK hf hs (ha rfl) hj h3 h1 h2 hr⟩
  | array t lo hi ih =>
    intro value target ref n code m h
    rw [parseValue] at h
    cases h1 : parseValue ctx t (.index (.var (vi c!"cast" n)) (.var (vi c!"i" n)))
      (.index (.var (vi c!"target" n)) (.var (vi c!"i" n))) (ref ++ [.itoa (.var (vi c!"i" n))]) (n + 1) with
    | error _ => rw [h1] at h; cases h
    | ok p =>
      obtain ⟨item, m'⟩ := p
      rw [h1] at h
      cases h
      obtain ⟨h2, h3⟩ := ih _ _ _ _ _ _ h1
      exact ⟨Nat.le_of_succ_le h2, fun ρ σ j s c0 ts H hts hK hf _ hj _ hr => array_ok H h3 hts hK hf hj hr⟩
  | map t ih =>
    intro value target ref n code m h
    rw [parseValue] at h
    cases h1 : parseValue ctx t (.index (.var (vi c!"cast" n)) (.var (vi c!"k" n)))
      (if isEmbed t then .var (vi c!"item" n) else .index (.var (vi c!"target" n)) (.var (vi c!"k" n)))
      (ref ++ [.var (vi c!"k" n)]) (n + 1) with
    | error _ => simp only [h1] at h; cases h
    | ok p =>
      obtain ⟨item, m'⟩ := p
      simp only [h1] at h
      cases h
      obtain ⟨h2, h3⟩ := ih _ _ _ _ _ _ h1
      exact ⟨Nat.le_of_succ_le h2, fun ρ σ j s c0 ts H hts hK hf _ hj _ hr => map_ok H h3 hts hK hf hj hr⟩

end

end Mapry.GoExec
