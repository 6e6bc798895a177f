import Verif.GoAccept

/-!
# When the types in the generated Go code are accepted: the parsing of a value
-/

namespace Mapry.GoTyped

open Mapry.TypeGraph Mapry.Naming
open Mapry.GoTypes (GTy typeRepr camel pureRepr)
open Mapry.GoCheck
open Mapry.GoCode (Name isPointer patternName referencesOf pluralField registryParam v vi own)

/-- The expression has names older than `n` only and stands for `r`. -/
def Has (W : World) (Γ : Env) (n : Nat) (e : Expr) (r : Res) : Prop :=
  (∀ y ∈ e.names, Older n y) ∧ infer W (look Γ) e = some r

/-- A name which is not the one of a variable of a function -/
def Outer : Name → Prop
  | .pkg _ | .glob _ | .pattern _ => True
  | _ => False

/-- No variable hides a package or a declaration of the package. -/
def Quiet (Γ : Env) : Prop := ∀ e ∈ Γ, ¬ Outer e.1

theorem Fresh.inner {n : Nat} {y : Name} (h : Fresh n y) : ¬ Outer y := by
  cases y <;> first | exact h.elim | exact id

theorem Outer.older {n : Nat} {y : Name} (h : Outer y) : Older n y := by
  cases y <;> first | exact trivial | exact h.elim

theorem Quiet.none {Γ : Env} (h : Quiet Γ) {y : Name} (hy : Outer y) : look Γ y = none := by
  have := look_append_of (Δ := Γ) (Γ := []) (y := y) fun e he => by
    rintro rfl
    exact h e he hy
  rwa [List.append_nil] at this

theorem Quiet.ext {n : Nat} {Γ Γ' : Env} (h : Quiet Γ) (he : Ext n Γ Γ') : Quiet Γ' := by
  obtain ⟨Δ, rfl, hd⟩ := he
  exact fun e he => (List.mem_append.1 he).elim (fun h => (hd e h).inner) (h e)

section
variable {W : World} {Γ Γ' : Env} {n m : Nat}

theorem Has.ext {e : Expr} {r : Res} (h : Has W Γ n e r) (he : Ext n Γ Γ') (hn : n ≤ m) : Has W Γ' m e r :=
  ⟨fun y hy => (h.1 y hy).mono hn, by rw [infer_congr W fun y hy => he.look (h.1 y hy)]; exact h.2⟩

theorem Has.mono {e : Expr} {r : Res} (h : Has W Γ n e r) (hn : n ≤ m) : Has W Γ m e r := h.ext (.refl ..) hn

theorem Has.var {y : Name} {t : GTy} (h : look Γ y = some t) (hy : Older n y) : Has W Γ n (.var y) (.val t) :=
  ⟨by simpa [Expr.names] using hy, by rw [infer, h]⟩

theorem Has.x {b : Str} {t : GTy} (h : look Γ (v b) = some t) : Has W Γ n (x b) (.val t) := .var h trivial

theorem Has.xi {b : Str} {k : Nat} {t : GTy} (h : look Γ (vi b k) = some t) (hk : k < n) : Has W Γ n (xi b k) (.val t) :=
  .var h hk

theorem Has.text : Has W Γ n .text .text := ⟨by simp [Expr.names], rfl⟩

theorem Has.lib (hq : Quiet Γ) {p f : Str} {s : Sig} (h : library p f = some s) : Has W Γ n (.lib p f) (.callee s) :=
  ⟨by simpa [Expr.names] using Outer.older (y := .pkg p) trivial, by
    rw [infer, hq.none (y := .pkg p) trivial, h]; rfl⟩

theorem Has.fn (hq : Quiet Γ) {f : Str} {s : Sig} (h : W.funcs.lookup f = some s) : Has W Γ n (.fn f) (.callee s) :=
  ⟨by simpa [Expr.names] using Outer.older (y := .glob f) trivial, by
    rw [infer, hq.none (y := .glob f) trivial, h]; rfl⟩

theorem names_two {a b : List Name} (ha : ∀ y ∈ a, Older n y) (hb : ∀ y ∈ b, Older n y) : ∀ y ∈ a ++ b, Older n y :=
  fun y hy => (List.mem_append.1 hy).elim (ha y) (hb y)

theorem Has.arg {f e : Expr} {t : GTy} {ts : List GTy} {more : Bool} {rs : List GTy} {s : Res}
    (hf : Has W Γ n f (.callee ⟨t :: ts, more, rs⟩)) (he : Has W Γ n e s) (h : fits t s = true) :
    Has W Γ n (.arg f e) (.callee ⟨ts, more, rs⟩) :=
  ⟨names_two hf.1 he.1, by rw [infer, hf.2, he.2, passed, if_pos h]⟩

theorem Has.more {f e : Expr} {rs : List GTy} {s : Res} (hf : Has W Γ n f (.callee ⟨[], true, rs⟩)) (he : Has W Γ n e s)
    (h : fits .any s = true) : Has W Γ n (.arg f e) (.callee ⟨[], true, rs⟩) :=
  ⟨names_two hf.1 he.1, by rw [infer, hf.2, he.2, passed, if_pos h]⟩

/-- The arguments fit the parameters. -/
def Args (W : World) (Γ : Env) (n : Nat) (es : List Expr) (ts : List GTy) : Prop :=
  Forall₂ (fun e t => ∃ s, Has W Γ n e s ∧ fits t s = true) es ts

theorem Has.args {es : List Expr} {us : List GTy} (h : Args W Γ n es us) : ∀ {f : Expr} {ts : List GTy} {more : Bool}
    {rs : List GTy}, Has W Γ n f (.callee ⟨us ++ ts, more, rs⟩) → Has W Γ n (es.foldl .arg f) (.callee ⟨ts, more, rs⟩) := by
  induction h with
  | nil => exact fun hf => hf
  | cons h1 _ ih =>
    intro f ts more rs hf
    obtain ⟨s, hs, hfit⟩ := h1
    exact ih (hf.arg hs hfit)

/-- The expressions may be passed as the type. -/
def All (W : World) (Γ : Env) (n : Nat) (t : GTy) (es : List Expr) : Prop := ∀ e ∈ es, ∃ s, Has W Γ n e s ∧ fits t s = true

theorem All.ext {t : GTy} {es : List Expr} (h : All W Γ n t es) (he : Ext n Γ Γ') (hn : n ≤ m) : All W Γ' m t es :=
  fun e hm => (h e hm).imp fun _ h => ⟨h.1.ext he hn, h.2⟩

theorem All.append {t : GTy} {es es' : List Expr} (h : All W Γ n t es) (h' : All W Γ n t es') : All W Γ n t (es ++ es') :=
  fun e he => (List.mem_append.1 he).elim (h e) (h' e)

theorem All.nil {t : GTy} : All W Γ n t [] := by simp [All]

theorem All.cons {t : GTy} {e : Expr} {es : List Expr} {s : Res} (h : Has W Γ n e s) (hf : fits t s = true)
    (h' : All W Γ n t es) : All W Γ n t (e :: es) := by
  simpa [All] using ⟨⟨s, h, hf⟩, h'⟩

theorem fits_any (t : GTy) : fits .any (.val t) = true := by simp [fits]
theorem fits_self (t : GTy) : fits t (.val t) = true := by simp [fits]

theorem All.one {t : GTy} {e : Expr} (h : Has W Γ n e (.val t)) : All W Γ n t [e] := .cons h (fits_self t) .nil

theorem All.any {e : Expr} {t : GTy} {es : List Expr} (h : Has W Γ n e (.val t)) (h' : All W Γ n .any es) :
    All W Γ n .any (e :: es) := .cons h (fits_any t) h'

theorem Has.mores {es : List Expr} (h : All W Γ n .any es) : ∀ {f : Expr} {rs : List GTy},
    Has W Γ n f (.callee ⟨[], true, rs⟩) → Has W Γ n (es.foldl .arg f) (.callee ⟨[], true, rs⟩) := by
  induction es with
  | nil => exact fun hf => hf
  | cons e es ih =>
    intro f rs hf
    obtain ⟨s, hs, hfit⟩ := h e (by simp)
    exact ih (fun e he => h e (by simp [he])) (hf.more hs hfit)

theorem Has.call {f : Expr} {more : Bool} {t : GTy} (h : Has W Γ n f (.callee ⟨[], more, [t]⟩)) : Has W Γ n (.call f) (.val t) :=
  ⟨h.1, by rw [infer, h.2]; rfl⟩

theorem Has.call₀ {f : Expr} {more : Bool} (h : Has W Γ n f (.callee ⟨[], more, []⟩)) : Has W Γ n (.call f) (.many []) :=
  ⟨h.1, by rw [infer, h.2]; rfl⟩

theorem Has.call₂ {f : Expr} {more : Bool} {t u : GTy} (h : Has W Γ n f (.callee ⟨[], more, [t, u]⟩)) :
    Has W Γ n (.call f) (.many [t, u]) :=
  ⟨h.1, by rw [infer, h.2]; rfl⟩

theorem Has.method {e : Expr} {t : GTy} {f : Str} {s : Sig} (h : Has W Γ n e (.val t)) (hm : findMethod W t f = some s) :
    Has W Γ n (.method e f) (.callee s) :=
  ⟨h.1, by rw [infer, h.2, Res.type?, Option.bind_some, hm]; rfl⟩

theorem has_slice {es : List Expr} (h : All W Γ n .string es) : Has W Γ n (slice es) (.val (.slice .string)) := by
  have key : ∀ es : List Expr, All W Γ n .string es → ∀ l, Has W Γ n l (.val (.slice .string)) →
      Has W Γ n (es.foldl .item l) (.val (.slice .string)) := by
    intro es
    induction es with
    | nil => exact fun _ _ h => h
    | cons e es ih =>
      intro h l hl
      obtain ⟨s, hs, hfit⟩ := h e (by simp)
      refine ih (fun e he => h e (by simp [he])) _ ⟨names_two hl.1 hs.1, ?_⟩
      rw [infer, hl.2, hs.2]
      simp [hfit]
  exact key es h .strs ⟨by simp [Expr.names], rfl⟩

theorem has_join (hq : Quiet Γ) {es : List Expr} (h : All W Γ n .string es) : Has W Γ n (join es) (.val .string) :=
  .call (.args (us := [.slice .string, .string]) (ts := []) (more := false) (.cons ⟨_, has_slice h, rfl⟩ (.cons ⟨_, .text, rfl⟩ .nil)) (.lib hq (by decide)))

theorem has_sprintf (hq : Quiet Γ) {es : List Expr} (h : All W Γ n .any es) : Has W Γ n (sprintf es) (.val .string) := by
  refine .call (more := true) (.mores h (.arg (t := .string) (.lib hq (by decide)) .text rfl))

end

/-! ## Accepted code -/

/-- Whether the code is accepted; if so, the variables are the ones before and fresh ones. -/
def Acc (W : World) (Γ : Env) (n : Nat) (c : Code) (b : Bool) : Prop :=
  if b = true then ∃ Γ', run W sameName Γ c = some Γ' ∧ Ext n Γ Γ' else run W sameName Γ c = none

section
variable {W : World} {Γ Γ' : Env} {n m : Nat} {b b' : Bool} {c d : Code}

theorem Acc.mono (h : Acc W Γ m c b) (hn : n ≤ m) : Acc W Γ n c b := by
  cases b with
  | false => exact h
  | true =>
    obtain ⟨Γ', h1, h2⟩ := h
    exact ⟨Γ', h1, h2.mono hn⟩

theorem Acc.same (h : Acc W Γ n c b) (he : run W sameName Γ d = run W sameName Γ c) : Acc W Γ n d b := by
  unfold Acc at *
  rw [he]
  exact h

theorem Acc.done : Acc W Γ n .done true := ⟨Γ, rfl, .refl ..⟩

theorem run_append (W : World) (c d : Code) : ∀ Γ, run W sameName Γ (c ++ d) = (run W sameName Γ c).bind fun Γ' => run W sameName Γ' d := by
  change ∀ Γ, run W sameName Γ (c.append d) = _
  induction c with
  | done => intro Γ; rfl
  | eval e c ih => intro Γ; rw [Code.append, run, run, ih]; split <;> rfl
  | test e c ih => intro Γ; rw [Code.append, run, run, ih]; split <;> rfl
  | var y t c ih => intro Γ; rw [Code.append, run, run, ih]; split <;> rfl
  | assign l r c ih =>
    intro Γ
    rw [Code.append, run, run, Option.bind_assoc]
    congr 1
    funext s
    rw [ih]
    split <;> rfl
  | assign₂ l k r c ih =>
    intro Γ
    rw [Code.append, run, run, Option.bind_assoc]
    congr 1
    funext ⟨t, u⟩
    dsimp only
    rw [ih]
    split <;> rfl
  | define y e c ih =>
    intro Γ
    rw [Code.append, run, run]
    cases (infer W (Env.find sameName Γ) e).bind default with
    | none => rfl
    | some t => exact ih _
  | define₂ y z e c ih =>
    intro Γ
    rw [Code.append, run, run, Option.bind_assoc]
    congr 1
    funext ⟨t, u⟩
    exact ih _
  | range k z e b c _ ih =>
    intro Γ
    rw [Code.append, run, run, Option.bind_assoc]
    congr 1
    funext ⟨t, u⟩
    dsimp only
    rw [ih, Option.bind_assoc]
  | loop i e b c _ ih =>
    intro Γ
    rw [Code.append, run, run, ih]
    split
    · rw [Option.bind_assoc]
    · rfl
  | block b c _ ih =>
    intro Γ
    rw [Code.append, run, run, ih, Option.bind_assoc]

theorem Acc.append (h : Acc W Γ n c b) (h' : ∀ Γ', Ext n Γ Γ' → Acc W Γ' n d b') : Acc W Γ n (c ++ d) (b && b') := by
  cases b with
  | false => exact (run_append W c d Γ).trans (by rw [show run W sameName Γ c = none from h]; rfl)
  | true =>
    obtain ⟨Γ', h1, h2⟩ := h
    have h3 := h' Γ' h2
    have e : run W sameName Γ (c ++ d) = run W sameName Γ' d := by rw [run_append, h1]; rfl
    cases b' with
    | false => exact e.trans h3
    | true =>
      obtain ⟨Γ'', h4, h5⟩ := h3
      exact ⟨Γ'', e.trans h4, h2.trans h5⟩

theorem Acc.test {e : Expr} (he : infer W (look Γ) e = some (.val .bool)) (h : Acc W Γ n c b) : Acc W Γ n (.test e c) b :=
  h.same (by rw [run, if_pos he])

theorem Acc.eval {e : Expr} {r : Res} (he : infer W (look Γ) (.call e) = some r) (h : Acc W Γ n c b) :
    Acc W Γ n (.eval (.call e) c) b :=
  h.same (by rw [run, he]; rfl)

theorem Acc.assign {l r : Expr} {s : Res} (hr : infer W (look Γ) r = some s) (hl : stores W (look Γ) l s = true)
    (h : Acc W Γ n c b) : Acc W Γ n (.assign l r c) b :=
  h.same (by rw [run, hr, Option.bind_some, if_pos hl])

theorem Acc.assign₂ {l k r : Expr} {t u : GTy} (hr : infer₂ W (look Γ) r = some (t, u))
    (hl : stores W (look Γ) l (.val t) = true) (hk : stores W (look Γ) k (.val u) = true)
    (h : Acc W Γ n c b) : Acc W Γ n (.assign₂ l k r c) b :=
  h.same (by rw [run, hr, Option.bind_some]; dsimp only; rw [hl, hk]; rfl)

theorem Acc.wider (hx : Ext n Γ Γ') (h : Acc W Γ' n c b) (he : run W sameName Γ d = run W sameName Γ' c) :
    Acc W Γ n d b := by
  cases b with
  | false => exact he.trans h
  | true =>
    obtain ⟨Γ'', h1, h2⟩ := h
    exact ⟨Γ'', he.trans h1, hx.trans h2⟩

theorem Acc.define {y : Name} {e : Expr} {t : GTy} (he : infer W (look Γ) e = some (.val t)) (hy : Fresh n y)
    (h : Acc W ((y, t) :: Γ) n c b) : Acc W Γ n (.define y e c) b :=
  h.wider ((Ext.refl ..).cons hy t) (by rw [run, he]; rfl)

theorem Acc.define₂ {y z : Name} {e : Expr} {t u : GTy} (he : infer₂ W (look Γ) e = some (t, u)) (hy : Fresh n y)
    (hz : Fresh n z) (h : Acc W ((z, u) :: (y, t) :: Γ) n c b) : Acc W Γ n (.define₂ (some y) z e c) b :=
  h.wider (((Ext.refl ..).cons hy t).cons hz u) (by rw [run, he]; rfl)

theorem Acc.var {y : Name} {t : GTy} (ht : typeOk W (look Γ) t = true) (hy : Fresh n y)
    (h : Acc W ((y, t) :: Γ) n c b) : Acc W Γ n (.var y t c) b :=
  h.wider ((Ext.refl ..).cons hy t) (by rw [run, if_pos ht])

theorem Acc.block (h : Acc W Γ m c b) (h' : Acc W Γ n d b') : Acc W Γ n (.block c d) (b && b') := by
  cases b with
  | false => exact (by rw [run, show run W sameName Γ c = none from h]; rfl : run W sameName Γ (.block c d) = none)
  | true =>
    obtain ⟨Γ', h1, _⟩ := h
    exact h'.same (by rw [run, h1]; rfl)

theorem Acc.range {k : Name} {z : Option Name} {e : Expr} {t u : GTy} (he : ranges (infer W (look Γ) e) = some (t, u))
    (h : Acc W (bindOpt z u ((k, t) :: Γ)) m c b) (h' : Acc W Γ n d b') : Acc W Γ n (.range k z e c d) (b && b') := by
  cases b with
  | false =>
    refine (?_ : run W sameName Γ (.range k z e c d) = none)
    rw [run, he, Option.bind_some]
    dsimp only
    rw [show run W sameName _ c = none from h]
    rfl
  | true =>
    obtain ⟨Γ', h1, _⟩ := h
    refine h'.same ?_
    rw [run, he, Option.bind_some]
    dsimp only
    rw [h1]
    rfl

theorem Acc.loop {i : Name} {e : Expr} (he : infer W (look ((i, .int) :: Γ)) e = some (.val .int))
    (h : Acc W ((i, .int) :: Γ) m c b) (h' : Acc W Γ n d b') : Acc W Γ n (.loop i e c d) (b && b') := by
  cases b with
  | false =>
    refine (?_ : run W sameName Γ (.loop i e c d) = none)
    rw [run, if_pos he, show run W sameName _ c = none from h]
    rfl
  | true =>
    obtain ⟨Γ', h1, _⟩ := h
    refine h'.same ?_
    rw [run, if_pos he, h1]
    rfl

theorem Acc.otherwise (h : Acc W Γ m c b) : Acc W Γ n (otherwise c) b := by
  have := Acc.block h (Acc.done (n := n))
  rwa [Bool.and_true] at this

theorem Acc.block' (h : Acc W Γ m c true) (h' : Acc W Γ n d b) : Acc W Γ n (.block c d) b := h.block h'

theorem Acc.of_eq (h : Acc W Γ n c b) (he : b = b') : Acc W Γ n c b' := he ▸ h

end

/-! ## The package -/

/-- The type of the registry of a class -/
abbrev registryTy (c : Str) : GTy := .map (.ptr (.named (camel c)))

abbrev errorsTy : GTy := .ptr (.named c!"Errors")

/-- What the parsing of a value needs from the package -/
structure Known (W : World) (g : Graph) : Prop where
  add : findMethod W errorsTy c!"Add" = some ⟨[.string, .string], false, []⟩
  full : findMethod W errorsTy c!"Full" = some ⟨[], false, [.bool]⟩
  empty : findMethod W errorsTy c!"Empty" = some ⟨[], false, [.bool]⟩
  regexp : findMethod W (.ptr .regexp) c!"MatchString" = some ⟨[.string], false, [.bool]⟩
  error : findMethod W .error c!"Error" = some ⟨[], false, [.string]⟩
  pattern : ∀ p, GoCode.HasPattern g p → ∃ k, patternName (GoCode.enumeratePatterns g) p = .pattern k ∧
    W.vars.lookup (.pattern k) = some (.ptr .regexp)
  duration : Occurs g .duration → W.funcs.lookup c!"durationFromString" = some ⟨[.string], false, [.duration, .error]⟩
  names : ∀ n, Occurs g (.cls n) ∨ Occurs g (.embed n) → ucamelCase n = .ok (camel n)
  structs : ∀ n, Occurs g (.cls n) ∨ Occurs g (.embed n) → (W.structs.lookup (camel n)).isSome = true
  embeds : ∀ n refs, Occurs g (.embed n) → references? g (.embed n) = some refs →
    W.funcs.lookup (camel n ++ c!"FromJSONable") = some ⟨.any :: (refs.map registryTy ++
      [.string, .ptr (.named (camel n)), errorsTy]), false, []⟩

/-- What the parsing of a value needs from the function -/
structure Setting (W : World) (ctx : Ctx) (Γ : Env) (n : Nat) : Prop where
  quiet : Quiet Γ
  errors : look Γ (v c!"errors") = some errorsTy
  registry : ∀ c e, ctx.registry c = .ok e → Has W Γ n e (.val (registryTy c))

/-- Values of the type may be stored in the expression; if `addr` holds then its address may be taken. -/
structure Tgt (W : World) (Γ : Env) (n : Nat) (e : Expr) (t : GTy) (addr : Bool) : Prop where
  has : Has W Γ n e (.val t)
  assign : assignable W (look Γ) e = true
  addr : addr = true → infer.addressable W (look Γ) e = true

def isEmbed : Ty → Bool
  | .embed _ => true
  | _ => false

/-- The constant is representable. -/
def boundOk (t : GTy) : Option Int → Bool
  | some i => represents t i
  | none => true

/-- The constants in the code for the type are representable. -/
def boundsOk : Ty → Bool
  | .integer b => boundOk .int64 b.min && boundOk .int64 b.max
  | .float b => boundOk .float64 b.min && boundOk .float64 b.max
  | .array t lo hi => boundOk .int lo && (boundOk .int hi && boundsOk t)
  | .map t => boundsOk t
  | _ => true

section
variable {W : World} {g : Graph} {ctx : Ctx} {Γ Γ' : Env} {n m : Nat} {b b' : Bool} {c d : Code}

theorem Setting.ext (h : Setting W ctx Γ n) (he : Ext n Γ Γ') (hn : n ≤ m) : Setting W ctx Γ' m :=
  ⟨h.quiet.ext he, by rw [he.look (y := v c!"errors") trivial]; exact h.errors, fun c e hc => (h.registry c e hc).ext he hn⟩

theorem Tgt.ext {e : Expr} {t : GTy} {a : Bool} (h : Tgt W Γ n e t a) (he : Ext n Γ Γ') (hn : n ≤ m) : Tgt W Γ' m e t a :=
  ⟨h.has.ext he hn, by rw [assignable_congr W fun y hy => he.look (h.has.1 y hy)]; exact h.assign, fun ha => by
    rw [addressable_congr W fun y hy => he.look (h.has.1 y hy)]; exact h.addr ha⟩

theorem Tgt.stores {e : Expr} {t : GTy} {a : Bool} (h : Tgt W Γ n e t a) {r : Res} (hr : fits t r = true) :
    stores W (look Γ) e r = true := by
  unfold GoCheck.stores
  rw [h.assign, h.has.2]
  exact hr

theorem acc_store {e l : Expr} {t : GTy} {a : Bool} (h : Tgt W Γ n l t a) (he : infer W (look Γ) e = some (.val t)) :
    Acc W Γ m (store l e) true :=
  .assign he (h.stores (fits_self t)) .done

/-- `var x t` and the like: nothing hides the names in the type. -/
theorem typeOk_of (hq : Quiet Γ) {t : GTy} (h : ∀ k ∈ t.names, (W.structs.lookup k).isSome = true) :
    typeOk W (look Γ) t = true := by
  have key : ∀ t : GTy, ∀ y ∈ mentions t, Outer y := by
    intro t
    induction t with
    | ptr t ih => exact ih
    | slice t ih => exact ih
    | map t ih => exact ih
    | _ => simp [mentions, Outer]
  unfold typeOk
  simp only [Bool.and_eq_true, List.all_eq_true]
  exact ⟨fun y hy => by rw [hq.none (key t y hy)]; rfl, h⟩

theorem Known.typeOk (K : Known W g) (hq : Quiet Γ) {t : Ty} (ht : ∀ u ∈ parts t, Occurs g u) :
    typeOk W (look Γ) (pureRepr t) = true := by
  refine typeOk_of hq fun k hk => ?_
  obtain ⟨n, hn, rfl⟩ := GoTypes.names_repr hk
  exact K.structs n (hn.imp (ht _) (ht _))

theorem Known.repr (K : Known W g) {t : Ty} (ht : ∀ u ∈ parts t, Occurs g u) : typeRepr t = .ok (pureRepr t) :=
  GoTypes.typeRepr_pure fun n hn => K.names n (hn.imp (ht _) (ht _))

section
variable (K : Known W g) (S : Setting W ctx Γ n)
include K S

omit K in
theorem has_errors : Has W Γ n errors (.val errorsTy) := .x S.errors

theorem has_full : Has W Γ n full (.val .bool) := .call ((has_errors S).method K.full)

theorem has_noErrors : Has W Γ n noErrors (.val .bool) := .call ((has_errors S).method K.empty)

theorem has_add {ref message : Expr} {r s : Res} (hr : Has W Γ n ref r) (hf : fits .string r = true)
    (hm : Has W Γ n message s) (hf' : fits .string s = true) : Has W Γ n (add ref message) (.many []) :=
  .call₀ (((has_errors S).method K.add).args (us := [.string, .string]) (.cons ⟨r, hr, hf⟩ (.cons ⟨s, hm, hf'⟩ .nil)))

theorem acc_report {ref args : List Expr} (hr : All W Γ n .string ref) (ha : All W Γ n .any args) (h : Acc W Γ m c b) :
    Acc W Γ m (report ref args c) b :=
  .block' (m := m) (.eval (has_add K S (has_join S.quiet hr) rfl (has_sprintf S.quiet ha) rfl).2 .done) h

theorem acc_castTo {base : Str} {t : GTy} {value : Expr} {ref : List Expr} (hb : base ≠ c!"ok")
    (ht : typeOk W (look Γ) t = true)
    (hv : Has W Γ n value (.val .any)) (hr : All W Γ n .string ref)
    (h : ∀ Γ', Ext n Γ Γ' → look Γ' (vi base n) = some t → Acc W Γ' n c b) :
    Acc W Γ n (castTo (vi base n) t n value ref c) b := by
  have hx : Ext n Γ ((vi c!"ok" n, .bool) :: (vi base n, t) :: Γ) := ((Ext.refl ..).cons (fresh_vi ..) _).cons (fresh_vi ..) _
  refine .define₂ (t := t) (u := .bool) ?_ (fresh_vi ..) (fresh_vi ..) (.test ?_ ?_)
  · rw [infer₂, infer, if_pos ⟨hv.2, ht⟩]
    rfl
  · rw [infer, if_pos (Has.xi (n := n + 1) (by rw [look_cons, if_pos rfl]) (by omega)).2]
  · refine acc_report K (S.ext hx (Nat.le_refl n)) (hr.ext hx (Nat.le_refl n)) (.any (hv.ext hx (Nat.le_refl n)) .nil) (h _ hx ?_)
    rw [look_cons, if_neg (by intro e; cases e; exact hb rfl), look_cons, if_pos rfl]

theorem acc_checkBound {ref : List Expr} {bound : Option Int} {cast : Expr} {t : GTy} (ht : number t = true)
    (hc : Has W Γ n cast (.val t)) (hr : All W Γ n .string ref) (h : Acc W Γ m c b) :
    Acc W Γ m (checkBound ref bound cast c) (boundOk t bound && b) := by
  cases bound with
  | none => exact h
  | some i =>
    have hl : infer W (look Γ) (.not (.less cast (.num i))) = if represents t i = true then some (.val .bool) else none := by
      rw [infer, infer, hc.2, Option.bind_some, infer, Option.bind_some]
      have : lessOk (.val t) (.num i) = represents t i := by rw [lessOk, ht]; rfl
      rw [this]
      split <;> simp
    by_cases hi : represents t i = true
    · rw [if_pos hi] at hl
      have hb : (boundOk t (some i) && b) = b := by rw [boundOk, hi]; rfl
      rw [hb]
      exact .test hl (acc_report K S hr (.any hc .nil) h)
    · rw [if_neg hi] at hl
      have hb : (boundOk t (some i) && b) = false := by rw [boundOk]; simp [hi]
      rw [hb]
      refine (?_ : run W sameName Γ (.test _ _) = none)
      rw [run, if_neg (by rw [show infer W (Env.find sameName Γ) _ = _ from hl]; simp)]

theorem acc_checkBounds {ref : List Expr} {bs : Bounds} {cast l : Expr} {t : GTy} {a : Bool} (ht : number t = true)
    (hc : Has W Γ n cast (.val t)) (hr : All W Γ n .string ref) (hl : Tgt W Γ n l t a) :
    Acc W Γ m (checkBounds ref bs cast l) (boundOk t bs.min && boundOk t bs.max) := by
  refine .of_eq (acc_checkBound K S ht hc hr (acc_checkBound K S ht hc hr (.otherwise (m := m) (acc_store hl hc.2)))) ?_
  simp

theorem acc_checkSize {ref : List Expr} {bound : Option Int} {cast : Expr} {t : GTy}
    (hc : Has W Γ n cast (.val (.slice t))) (hr : All W Γ n .string ref) (h : Acc W Γ m c b) :
    Acc W Γ m (checkSize ref bound cast c) (boundOk .int bound && b) := by
  have hlen : Has W Γ n (.len cast) (.val .int) := ⟨hc.1, by rw [infer, hc.2]; rfl⟩
  cases bound with
  | none => exact h
  | some i =>
    have hl : infer W (look Γ) (.less (.len cast) (.num i)) = if represents .int i = true then some (.val .bool) else none := by
      rw [infer, hlen.2, Option.bind_some, infer, Option.bind_some]
      rfl
    by_cases hi : represents .int i = true
    · rw [if_pos hi] at hl
      have hb : (boundOk .int (some i) && b) = b := by rw [boundOk, hi]; rfl
      rw [hb]
      exact .test hl (acc_report K S hr (.any hlen .nil) h)
    · rw [if_neg hi] at hl
      have hb : (boundOk .int (some i) && b) = false := by rw [boundOk]; simp [hi]
      rw [hb]
      refine (?_ : run W sameName Γ (.test _ _) = none)
      rw [run, if_neg (by rw [show infer W (Env.find sameName Γ) _ = _ from hl]; simp)]

/-- The code for strings and paths -/
theorem acc_parseText (hu : ctx.uids = GoCode.enumeratePatterns g) {p : Option Str} (hp : ∀ q ∈ p, GoCode.HasPattern g q)
    {value l : Expr} {ref : List Expr} {a : Bool} (hv : Has W Γ n value (.val .any)) (hr : All W Γ n .string ref)
    (hl : Tgt W Γ n l .string a) : Acc W Γ n (parseText ctx p value l ref n) true := by
  refine acc_castTo K S (by decide) (typeOk_of S.quiet (by simp [GTy.names])) hv hr fun Γ' hx hc => .otherwise (m := n) ?_
  have hcast : Has W Γ' (n + 1) (xi c!"cast" n) (.val .string) := .xi hc (by omega)
  have hl' := hl.ext hx (Nat.le_succ n)
  have S' := S.ext hx (Nat.le_succ n)
  cases p with
  | none => exact acc_store hl' hcast.2
  | some q =>
    obtain ⟨k, hk, hk'⟩ := K.pattern q (hp q rfl)
    rw [← hu] at hk
    have hpat : Has W Γ' (n + 1) (.var (patternName ctx.uids q)) (.val (.ptr .regexp)) := by
      rw [hk]
      exact ⟨by simp [Expr.names, Older], by rw [infer, S'.quiet.none (y := .pattern k) trivial]; dsimp only; rw [hk']; rfl⟩
    have hm : Has W Γ' (n + 1) (callWith (.method (.var (patternName ctx.uids q)) c!"MatchString") [xi c!"cast" n]) (.val .bool) :=
      .call ((hpat.method K.regexp).args (us := [.string]) (.cons ⟨_, hcast, rfl⟩ .nil))
    refine .test (by rw [infer, if_pos hm.2]) (acc_report K S' (hr.ext hx (Nat.le_succ n)) (.any hcast .nil)
      (.otherwise (m := n) (acc_store hl' hcast.2)))

/-- The code for dates, times, time zones and durations -/
theorem acc_convertWith {e : Expr} {args : List Expr} {value l : Expr} {ref : List Expr} {a : Bool} {t : GTy}
    (hv : Has W Γ n value (.val .any)) (hr : All W Γ n .string ref) (hl : Tgt W Γ n l t a)
    (he : ∀ Γ', Ext n Γ Γ' → Has W Γ' (n + 1) (xi c!"cast" n) (.val .string) → infer₂ W (look Γ') e = some (t, .error))
    (ha : ∀ Γ', Ext n Γ Γ' → Has W Γ' (n + 1) (xi c!"err" n) (.val .error) → All W Γ' (n + 1) .any args) :
    Acc W Γ n (convertWith e args value l ref n) true := by
  refine acc_castTo K S (by decide) (typeOk_of S.quiet (by simp [GTy.names])) hv hr fun Γ' hx hc => .otherwise (m := n) ?_
  refine .define₂ (he Γ' hx (.xi hc (by omega))) (fresh_vi ..) (fresh_vi ..) ?_
  have hx' : Ext n Γ ((vi c!"err" n, .error) :: (vi c!"target" n, t) :: Γ') := (hx.cons (fresh_vi ..) _).cons (fresh_vi ..) _
  have l1 : look ((vi c!"err" n, .error) :: (vi c!"target" n, t) :: Γ') (vi c!"err" n) = some .error := by rw [look_cons, if_pos rfl]
  have l2 : look ((vi c!"err" n, .error) :: (vi c!"target" n, t) :: Γ') (vi c!"target" n) = some t := by
    rw [look_cons, if_neg (by simp [vi]), look_cons, if_pos rfl]
  have l3 : look ((vi c!"err" n, .error) :: (vi c!"target" n, t) :: Γ') (vi c!"cast" n) = some .string := by
    rw [look_cons, if_neg (by simp [vi]), look_cons, if_neg (by simp [vi]), hc]
  have herr : Has W _ (n + 1) (xi c!"err" n) (.val .error) := .xi l1 (by omega)
  refine .test ?_ (acc_report K (S.ext hx' (Nat.le_succ n)) (hr.ext hx' (Nat.le_succ n)) (.any (.xi l3 (by omega)) (ha _ hx' herr))
    (.otherwise (m := n) (acc_store (hl.ext hx' (Nat.le_succ n)) (Has.xi (n := n + 1) l2 (by omega)).2)))
  rw [infer, herr.2, Option.bind_some, infer, Option.bind_some]
  rfl

theorem acc_dateTime {f : Str} {value l : Expr} {ref : List Expr} {a : Bool} {m : Nat}
    (h : parseDateTime f value l ref n = .ok (c, m))
    (hv : Has W Γ n value (.val .any)) (hr : All W Γ n .string ref) (hl : Tgt W Γ n l .time a) : Acc W Γ n c true := by
  obtain ⟨_, _, h⟩ := GoCode.ok_bind h
  cases h
  refine acc_convertWith K S hv hr hl (fun Γ' hx hc => ?_) fun _ _ _ => .nil
  have : Has W Γ' (n + 1) (callWith (.lib c!"time" c!"Parse") [.text, xi c!"cast" n]) (.many [.time, .error]) :=
    .call₂ ((Has.lib (S.quiet.ext hx) (by decide)).args (us := [.string, .string]) (more := false)
      (.cons ⟨_, .text, rfl⟩ (.cons ⟨_, hc, rfl⟩ .nil)))
  have e := this.2
  unfold callWith at e ⊢
  rw [infer₂, e]

/-- The loop over the items of an array or a map -/
theorem acc_parseItems {make l : Expr} {T ti : GTy} {base : Str} {item : Code} {a : Bool} (hb : base = c!"i" ∨ base = c!"k")
    (hx : Ext n Γ Γ') (hm : infer W (look Γ') make = some (.val T)) {ct : GTy} (hc : look Γ' (vi c!"cast" n) = some ct)
    (hr : ∃ u, ranges (some (.val ct)) = some (ti, u)) (hl : Tgt W Γ n l T a)
    (hi : ∀ Γ₃, Ext n Γ Γ₃ → look Γ₃ (vi c!"target" n) = some T → look Γ₃ (vi base n) = some ti → look Γ₃ (vi c!"cast" n) = some ct →
      Acc W Γ₃ n item b) :
    Acc W Γ' n (parseItems make (xi c!"cast" n) (vi base n) item l n) b := by
  obtain ⟨u, hr⟩ := hr
  have hbt : base ≠ c!"target" ∧ base ≠ c!"cast" := by rcases hb with rfl | rfl <;> decide
  have hx2 : Ext n Γ ((vi c!"target" n, T) :: Γ') := hx.cons (fresh_vi ..) _
  have hx3 : Ext n Γ ((vi base n, ti) :: (vi c!"target" n, T) :: Γ') := hx2.cons (fresh_vi ..) _
  have l1 : look ((vi c!"target" n, T) :: Γ') (vi c!"cast" n) = some ct := by
    rw [look_cons, if_neg (by simp [vi]), hc]
  refine .define hm (fresh_vi ..) (.of_eq (.range (m := n) (z := none) (t := ti) (u := u) ?_ ?_ ?_) (Bool.and_true b))
  · rw [(Has.xi (n := n + 1) l1 (by omega)).2]
    exact hr
  · refine .of_eq (.append (hi _ hx3 ?_ ?_ ?_) fun Γ₄ hx4 => ?_) (Bool.and_true b)
    · rw [bindOpt, look_cons, if_neg (by intro e; cases e; exact hbt.1 rfl), look_cons, if_pos rfl]
    · rw [bindOpt, look_cons, if_pos rfl]
    · rw [bindOpt, look_cons, if_neg (by intro e; cases e; exact hbt.2 rfl), l1]
    · exact .test (has_full K (S.ext (hx3.trans hx4) (Nat.le_refl n))).2 (.block' (m := n) .done .done)
  · exact acc_store (hl.ext hx2 (Nat.le_succ n)) (Has.xi (n := n + 1) (by rw [look_cons, if_pos rfl]) (by omega)).2

omit K S in
theorem args_append {es es' : List Expr} {ts ts' : List GTy} (h : Args W Γ n es ts) (h' : Args W Γ n es' ts') :
    Args W Γ n (es ++ es') (ts ++ ts') := by
  induction h with
  | nil => exact h'
  | cons h _ ih => exact .cons h ih

omit K in
theorem args_registries {refs : List Str} {es : List Expr} (h : refs.mapM ctx.registry = .ok es) :
    Args W Γ n es (refs.map registryTy) := by
  induction refs generalizing es with
  | nil => cases h; exact .nil
  | cons r refs ih =>
    obtain ⟨y, ys, hy, hys, rfl⟩ := GoCode.mapM_cons h
    exact .cons ⟨_, S.registry r y hy, fits_self _⟩ (ih hys)

/-- The call of the parsing function of an embed -/
theorem acc_parseEmbed (hg : ctx.graph = g) {name : Str} (ho : Occurs g (.embed name)) {value l : Expr} {ref : List Expr} {m : Nat}
    (h : parseValue ctx (.embed name) value l ref n = .ok (c, m)) (hv : Has W Γ n value (.val .any)) (hr : All W Γ n .string ref)
    (hl : Tgt W Γ n l (.named (camel name)) true) : Acc W Γ n c true := by
  rw [parseValue] at h
  obtain ⟨es, hes, h⟩ := GoCode.ok_bind h
  rw [K.names name (.inr ho)] at h
  obtain ⟨f, hf, h⟩ := GoCode.ok_bind h
  cases hf
  cases h
  unfold embedRegistries at hes
  rw [hg] at hes
  cases hrefs : references? g (.embed name) with
  | none => rw [hrefs] at hes; cases hes
  | some refs =>
    rw [hrefs] at hes
    have haddr : Has W Γ n (.addr l) (.val (.ptr (.named (camel name)))) :=
      ⟨hl.has.1, by rw [infer, if_pos (hl.addr rfl), hl.has.2]; rfl⟩
    have hargs : Args W Γ n (value :: (es ++ [join ref, .addr l, errors]))
        (.any :: (refs.map registryTy ++ [.string, .ptr (.named (camel name)), errorsTy])) :=
      .cons ⟨_, hv, rfl⟩ (args_append (args_registries S hes) (.cons ⟨_, has_join S.quiet hr, rfl⟩
        (.cons ⟨_, haddr, fits_self _⟩ (.cons ⟨_, has_errors S, rfl⟩ .nil))))
    refine .eval (r := .many []) (Has.call₀ (more := false) (Has.args (ts := []) hargs ?_)).2 .done
    rw [List.append_nil]
    exact .fn S.quiet (K.embeds name refs ho hrefs)

end

/-- The code to parse a value is accepted if and only if the constants are representable. -/
theorem acc_parseValue (K : Known W g) (hg : ctx.graph = g) (hu : ctx.uids = GoCode.enumeratePatterns g) (t : Ty) :
    ∀ {Γ : Env} {n m : Nat} {value l : Expr} {ref : List Expr} {c : Code}, (∀ u ∈ parts t, Occurs g u) → Setting W ctx Γ n →
      parseValue ctx t value l ref n = .ok (c, m) → Has W Γ n value (.val .any) → All W Γ n .string ref →
      Tgt W Γ n l (pureRepr t) (isEmbed t) → Acc W Γ n c (boundsOk t) := by
  induction t with
  | boolean =>
    intro Γ n m value l ref c ht S h hv hr hl
    cases h
    exact acc_castTo K S (by decide) (typeOk_of S.quiet (by simp [GTy.names])) hv hr fun Γ' hx hc =>
      .otherwise (m := n) (acc_store (hl.ext hx (Nat.le_refl n)) (Has.xi (n := n + 1) hc (by omega)).2)
  | integer bs =>
    intro Γ n m value l ref c ht S h hv hr hl
    cases h
    refine acc_castTo K S (by decide) (typeOk_of S.quiet (by simp [GTy.names])) hv hr fun Γ' hx hc => ?_
    have hf : Has W Γ' (n + 1) (xi c!"fcast" n) (.val .float64) := .xi hc (by omega)
    have S' := S.ext hx (Nat.le_succ n)
    have hr' := hr.ext hx (Nat.le_succ n)
    have htr : Has W Γ' (n + 1) (callWith (.lib c!"math" c!"Trunc") [xi c!"fcast" n]) (.val .float64) :=
      .call ((Has.lib S'.quiet (by decide)).args (us := [.float64]) (more := false) (.cons ⟨_, hf, rfl⟩ .nil))
    have hi : infer W (look Γ') (.int64 (xi c!"fcast" n)) = some (.val .int64) := by rw [infer, if_pos hf.2]
    have hless : ∀ i : Int, represents .float64 i = true → infer W (look Γ') (.less (xi c!"fcast" n) (.num i)) = some (.val .bool) := by
      intro i hi
      rw [infer, hf.2, Option.bind_some, infer, Option.bind_some, if_pos (by simpa [lessOk, fits, number] using hi)]
    refine .test ?_ (acc_report K S' hr' (.any hf .nil) (.test ?_ (acc_report K S' hr' (.any hf .nil) (.otherwise (m := n) ?_))))
    · rw [infer, hf.2, Option.bind_some, htr.2, Option.bind_some]
      rfl
    · rw [infer, if_pos ⟨hless _ (by decide +kernel), hless _ (by decide +kernel)⟩]
    · split
      · rename_i hb
        simp only [Bool.and_eq_true, Option.isNone_iff_eq_none] at hb
        rw [boundsOk, hb.1, hb.2]
        exact acc_store (hl.ext hx (Nat.le_succ n)) hi
      · have hx' : Ext n Γ ((vi c!"cast" n, .int64) :: Γ') := hx.cons (fresh_vi ..) _
        exact .define hi (fresh_vi ..) (acc_checkBounds K (S.ext hx' (Nat.le_succ n)) rfl
          (.xi (by rw [look_cons, if_pos rfl]) (by omega)) (hr.ext hx' (Nat.le_succ n)) (hl.ext hx' (Nat.le_succ n)))
  | float bs =>
    intro Γ n m value l ref c ht S h hv hr hl
    obtain ⟨_, _, h⟩ := GoCode.ok_bind h
    obtain ⟨_, _, h⟩ := GoCode.ok_bind h
    cases h
    refine acc_castTo K S (by decide) (typeOk_of S.quiet (by simp [GTy.names])) hv hr fun Γ' hx hc => .otherwise (m := n) ?_
    have hf : Has W Γ' (n + 1) (xi c!"cast" n) (.val .float64) := .xi hc (by omega)
    split
    · rename_i hb
      simp only [Bool.and_eq_true, Option.isNone_iff_eq_none] at hb
      rw [boundsOk, hb.1, hb.2]
      exact acc_store (hl.ext hx (Nat.le_succ n)) hf.2
    · exact acc_checkBounds K (S.ext hx (Nat.le_succ n)) rfl hf (hr.ext hx (Nat.le_succ n)) (hl.ext hx (Nat.le_succ n))
  | string p =>
    intro Γ n m value l ref c ht S h hv hr hl
    cases h
    exact acc_parseText K S hu (fun q hq => .inl ⟨_, ht _ (self_mem_parts _), .inl (by rw [Option.mem_def.1 hq])⟩) hv hr hl
  | path p =>
    intro Γ n m value l ref c ht S h hv hr hl
    cases h
    exact acc_parseText K S hu (fun q hq => .inl ⟨_, ht _ (self_mem_parts _), .inr (by rw [Option.mem_def.1 hq])⟩) hv hr hl
  | date f =>
    intro Γ n m value l ref c ht S h hv hr hl
    exact acc_dateTime K S h hv hr hl
  | time f =>
    intro Γ n m value l ref c ht S h hv hr hl
    exact acc_dateTime K S h hv hr hl
  | datetime f =>
    intro Γ n m value l ref c ht S h hv hr hl
    exact acc_dateTime K S h hv hr hl
  | timeZone =>
    intro Γ n m value l ref c ht S h hv hr hl
    cases h
    refine acc_convertWith K S hv hr hl (fun Γ' hx hc => ?_) fun Γ' hx he => .any (.call (he.method K.error)) .nil
    have : Has W Γ' (n + 1) (callWith (.lib c!"time" c!"LoadLocation") [xi c!"cast" n]) (.many [.ptr .location, .error]) :=
      .call₂ ((Has.lib (S.quiet.ext hx) (by decide)).args (us := [.string]) (more := false) (.cons ⟨_, hc, rfl⟩ .nil))
    have e := this.2
    unfold callWith at e ⊢
    rw [infer₂, e]
    rfl
  | duration =>
    intro Γ n m value l ref c ht S h hv hr hl
    cases h
    refine acc_convertWith K S hv hr hl (fun Γ' hx hc => ?_) fun Γ' hx he => .any (.call (he.method K.error)) .nil
    have : Has W Γ' (n + 1) (callWith (.fn c!"durationFromString") [xi c!"cast" n]) (.many [.duration, .error]) :=
      .call₂ ((Has.fn (S.quiet.ext hx) (K.duration (ht _ (self_mem_parts _)))).args (us := [.string]) (.cons ⟨_, hc, rfl⟩ .nil))
    have e := this.2
    unfold callWith at e ⊢
    rw [infer₂, e]
    rfl
  | cls k =>
    intro Γ n m value l ref c ht S h hv hr hl
    rw [parseValue] at h
    obtain ⟨e, he, h⟩ := GoCode.ok_bind h
    obtain ⟨_, _, h⟩ := GoCode.ok_bind h
    cases h
    refine acc_castTo K S (by decide) (typeOk_of S.quiet (by simp [GTy.names])) hv hr fun Γ' hx hc => .otherwise (m := n) ?_
    have hreg := (S.registry k e he).ext hx (Nat.le_succ n)
    have hx' : Ext n Γ ((vi c!"ok" n, .bool) :: (vi c!"target" n, .ptr (.named (camel k))) :: Γ') :=
      (hx.cons (fresh_vi ..) _).cons (fresh_vi ..) _
    refine .define₂ (t := .ptr (.named (camel k))) (u := .bool) ?_ (fresh_vi ..) (fresh_vi ..) (.test ?_ ?_)
    · have hcast : Has W Γ' (n + 1) (xi c!"cast" n) (.val .string) := .xi hc (by omega)
      rw [infer₂, infer, hreg.2, hcast.2]
      rfl
    · rw [infer, if_pos (Has.xi (n := n + 1) (by rw [look_cons, if_pos rfl]) (by omega)).2]
    · refine acc_report K (S.ext hx' (Nat.le_refl n)) (hr.ext hx' (Nat.le_refl n)) (.any (hv.ext hx' (Nat.le_refl n)) .nil)
        (.otherwise (m := n) (acc_store (hl.ext hx' (Nat.le_refl n)) (Has.xi (n := n + 1) ?_ (by omega)).2))
      rw [look_cons, if_neg (by simp [vi]), look_cons, if_pos rfl]
      rfl
  | embed name =>
    intro Γ n m value l ref c ht S h hv hr hl
    exact acc_parseEmbed K S hg (ht _ (self_mem_parts _)) h hv hr hl
  | array t lo hi ih =>
    intro Γ n m value l ref c ht S h hv hr hl
    rw [parseValue] at h
    obtain ⟨⟨item, k⟩, hitem, h⟩ := GoCode.ok_bind h
    rw [K.repr ht] at h
    obtain ⟨_, hT, h⟩ := GoCode.ok_bind h
    cases hT
    cases h
    refine acc_castTo K S (by decide) (typeOk_of S.quiet (by simp [GTy.names])) hv hr fun Γ' hx hc => ?_
    have S' := S.ext hx (Nat.le_succ n)
    have hcast : Has W Γ' (n + 1) (xi c!"cast" n) (.val (.slice .any)) := .xi hc (by omega)
    have hr' := hr.ext hx (Nat.le_succ n)
    refine acc_checkSize K S' hcast hr' (acc_checkSize K S' hcast hr' (.otherwise (m := n) ?_))
    refine acc_parseItems K S (ti := .int) (T := pureRepr (.array t lo hi)) (.inl rfl) hx ?_ hc ⟨_, rfl⟩ hl fun Γ₃ hx3 h1 h2 h3 => ?_
    · have hT := K.typeOk S'.quiet ht
      rw [infer, infer, hcast.2]
      change (if (typeOk W (look Γ') (pureRepr (.array t lo hi)) && true && true) = true then _ else none) = _
      rw [hT]
      rfl
    · have hi' : Has W Γ₃ (n + 1) (xi c!"i" n) (.val .int) := .xi h2 (by omega)
      have hc3 : Has W Γ₃ (n + 1) (xi c!"cast" n) (.val (.slice .any)) := .xi h3 (by omega)
      have ht3 : Has W Γ₃ (n + 1) (xi c!"target" n) (.val (.slice (pureRepr t))) := .xi h1 (by omega)
      have S3 := S.ext hx3 (Nat.le_succ n)
      refine .mono (m := n + 1) ?_ (Nat.le_succ n)
      refine ih (fun u hu => ht u (by simp [parts, hu])) S3 hitem ⟨names_two hc3.1 hi'.1, ?_⟩
        ((hr.ext hx3 (Nat.le_succ n)).append (.one (.call ((Has.lib S3.quiet (by decide)).args (us := [.int]) (more := false)
          (.cons ⟨_, hi', rfl⟩ .nil))))) ⟨⟨names_two ht3.1 hi'.1, ?_⟩, ?_, fun _ => ?_⟩
      · rw [infer, hc3.2, hi'.2]
        rfl
      · rw [infer, ht3.2, hi'.2]
        rfl
      · rw [assignable, infer.addressable, ht3.2]
        rfl
      · rw [infer.addressable, ht3.2]
        rfl
  | map t ih =>
    intro Γ n m value l ref c ht S h hv hr hl
    have hmake : ∀ Γ', Ext n Γ Γ' → infer W (look Γ') (.make (pureRepr (.map t))) = some (.val (pureRepr (.map t))) := by
      intro Γ' hx
      rw [infer, K.typeOk (S.quiet.ext hx) ht]
      rfl
    by_cases he : ∃ e, t = .embed e
    · obtain ⟨e, rfl⟩ := he
      have ho : Occurs g (.embed e) := ht _ (by simp [parts])
      rw [parseValue] at h
      obtain ⟨⟨item, k⟩, hitem, h⟩ := GoCode.ok_bind h
      rw [K.repr ht, K.repr (t := .embed e) fun u hu => ht u (by simp [parts] at hu ⊢; exact .inr hu)] at h
      obtain ⟨_, hT, h⟩ := GoCode.ok_bind h
      cases hT
      obtain ⟨_, hT, h⟩ := GoCode.ok_bind h
      cases hT
      cases h
      refine acc_castTo K S (by decide) (typeOk_of S.quiet (by simp [GTy.names])) hv hr fun Γ' hx hc => .otherwise (m := n) ?_
      refine acc_parseItems K S (ti := .string) (T := pureRepr (.map (.embed e))) (.inr rfl) hx (hmake Γ' hx) hc ⟨_, rfl⟩ hl
        fun Γ₃ hx3 h1 h2 h3 => ?_
      have hx4 : Ext n Γ ((vi c!"item" n, pureRepr (.embed e)) :: Γ₃) := hx3.cons (fresh_vi ..) _
      have l1 : ∀ b t, b ≠ c!"item" → look Γ₃ (vi b n) = some t → look ((vi c!"item" n, pureRepr (.embed e)) :: Γ₃) (vi b n) = some t := by
        intro b t hb h
        rw [look_cons, if_neg (by intro e; cases e; exact hb rfl), h]
      have hk : Has W _ (n + 1) (xi c!"k" n) (.val .string) := .xi (l1 _ _ (by decide) h2) (by omega)
      have hc3 : Has W _ (n + 1) (xi c!"cast" n) (.val (.map .any)) := .xi (l1 _ _ (by decide) h3) (by omega)
      have ht3 : Has W _ (n + 1) (xi c!"target" n) (.val (.map (.named (camel e)))) := .xi (l1 _ _ (by decide) h1) (by omega)
      have hi : Has W ((vi c!"item" n, pureRepr (.embed e)) :: Γ₃) (n + 1) (xi c!"item" n) (.val (.named (camel e))) :=
        .xi (by rw [look_cons, if_pos rfl]; rfl) (by omega)
      have S4 := S.ext hx4 (Nat.le_succ n)
      refine .var (typeOk_of (S.quiet.ext hx3) ?_) (fresh_vi ..) (.mono (m := n + 1) (.append (b := true) (b' := true)
        (acc_parseEmbed K S4 hg ho hitem ⟨names_two hc3.1 hk.1, ?_⟩ ((hr.ext hx4 (Nat.le_succ n)).append (.one hk))
          ⟨hi, rfl, fun _ => rfl⟩) fun Γ₅ hx5 => ?_) (Nat.le_succ n))
      · intro y hy
        cases List.mem_singleton.1 hy
        exact K.structs e (.inr ho)
      · rw [infer, hc3.2, hk.2]
        rfl
      · have ht5 := ht3.ext hx5 (Nat.le_refl _)
        have hk5 := hk.ext hx5 (Nat.le_refl _)
        refine .assign (hi.ext hx5 (Nat.le_refl _)).2 ?_ .done
        unfold stores
        rw [assignable, infer, ht5.2, hk5.2]
        simp [isMap, Res.type?, element, fits]
    · have : parseValue ctx (.map t) value l ref n = (do
        let (item, m) ← parseValue ctx t (.index (xi c!"cast" n) (xi c!"k" n)) (.index (xi c!"target" n) (xi c!"k" n))
          (ref ++ [xi c!"k" n]) (n + 1)
        let ty ← typeRepr (.map t)
        pure (castTo (GoCode.vi c!"cast" n) (.map .any) n value ref
          (otherwise (parseItems (.make ty) (xi c!"cast" n) (GoCode.vi c!"k" n) item l n)), m)) := by
        cases t <;> first | rfl | exact absurd ⟨_, rfl⟩ he
      rw [this] at h
      obtain ⟨⟨item, k⟩, hitem, h⟩ := GoCode.ok_bind h
      rw [K.repr ht] at h
      obtain ⟨_, hT, h⟩ := GoCode.ok_bind h
      cases hT
      cases h
      refine acc_castTo K S (by decide) (typeOk_of S.quiet (by simp [GTy.names])) hv hr fun Γ' hx hc => .otherwise (m := n) ?_
      refine acc_parseItems K S (ti := .string) (T := pureRepr (.map t)) (.inr rfl) hx (hmake Γ' hx) hc ⟨_, rfl⟩ hl
        fun Γ₃ hx3 h1 h2 h3 => ?_
      have hi' : Has W Γ₃ (n + 1) (xi c!"k" n) (.val .string) := .xi h2 (by omega)
      have hc3 : Has W Γ₃ (n + 1) (xi c!"cast" n) (.val (.map .any)) := .xi h3 (by omega)
      have ht3 : Has W Γ₃ (n + 1) (xi c!"target" n) (.val (.map (pureRepr t))) := .xi h1 (by omega)
      have S3 := S.ext hx3 (Nat.le_succ n)
      refine .mono (m := n + 1) ?_ (Nat.le_succ n)
      refine ih (fun u hu => ht u (by simp [parts, hu])) S3 hitem ⟨names_two hc3.1 hi'.1, ?_⟩
        ((hr.ext hx3 (Nat.le_succ n)).append (.one hi')) ⟨⟨names_two ht3.1 hi'.1, ?_⟩, ?_, fun ha => ?_⟩
      · rw [infer, hc3.2, hi'.2]
        rfl
      · rw [infer, ht3.2, hi'.2]
        rfl
      · rw [assignable, ht3.2]
        rfl
      · cases t <;> first | exact absurd ⟨_, rfl⟩ he | cases ha

end

end Mapry.GoTyped
