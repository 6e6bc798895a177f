import Verif.GoTyped

/-!
# The names in the generated Go code

The model with types (`Verif/GoTyped.lean`) and the model with names (`Verif/GoCode.lean`) are about the same code: without
its types the one is the other, up to statements without names.
-/

namespace Mapry.GoTyped

open Mapry.TypeGraph Mapry.Naming
open Mapry.GoTypes (GTy typeRepr)
open Mapry.GoCheck
open Mapry.GoCode (Name isPointer patternName referencesOf pluralField registryParam v vi own fmt strings strconv math time)

/-! ## Code without types -/

/-- The names used by an assignment to the expression -/
def uses : Expr → List Name
  | .var _ => []
  | e => e.names

/-- The variables assigned -/
def sets : Expr → List Name
  | .var x => [x]
  | _ => []

def erase : Code → GoCode.Code
  | .done => .done
  | .eval e rest => .use e.names (erase rest)
  | .test e rest => .use e.names (erase rest)
  | .assign l r rest => .use (uses l ++ r.names) (.assign (sets l) (erase rest))
  | .assign₂ l k r rest => .use (uses l ++ uses k ++ r.names) (.assign (sets l ++ sets k) (erase rest))
  | .define x e rest => .use e.names (.decl [x] (erase rest))
  | .define₂ x y e rest => .use e.names (.decl (x.toList ++ [y]) (erase rest))
  | .var x t rest => .use (mentions t) (.decl [x] (erase rest))
  | .range k v e body rest => .use e.names (.block (.decl (k :: v.toList) (.block (erase body) .done)) (erase rest))
  | .loop i n body rest => .block (.decl [i] (.use (i :: n.names) (.block (erase body) .done))) (erase rest)
  | .block body rest => .block (erase body) (erase rest)

/-- Without the statements which have no names -/
def norm : GoCode.Code → GoCode.Code
  | .done => .done
  | .use [] c => norm c
  | .use (x :: xs) c => .use (x :: xs) (norm c)
  | .assign [] c => norm c
  | .assign (x :: xs) c => .assign (x :: xs) (norm c)
  | .decl xs c => .decl xs (norm c)
  | .block b c => .block (norm b) (norm c)

theorem erase_append (c d : Code) : erase (c ++ d) = erase c ++ erase d := by
  change erase (c.append d) = (erase c).append (erase d)
  induction c with
  | done => rfl
  | range k v e b c _ ih => simp [Code.append, erase, GoCode.Code.append, ih]
  | loop k v b c _ ih => simp [Code.append, erase, GoCode.Code.append, ih]
  | block b c _ ih => simp [Code.append, erase, GoCode.Code.append, ih]
  | _ => simp_all [Code.append, erase, GoCode.Code.append]

theorem norm_append (c d : GoCode.Code) : norm (c ++ d) = norm c ++ norm d := by
  change norm (c.append d) = (norm c).append (norm d)
  induction c with
  | done => rfl
  | use xs c ih => cases xs <;> simp [GoCode.Code.append, norm, ih]
  | assign xs c ih => cases xs <;> simp [GoCode.Code.append, norm, ih]
  | decl xs c ih => simp [GoCode.Code.append, norm, ih]
  | block b c _ ih => simp [GoCode.Code.append, norm, ih]

theorem norm_free (c : GoCode.Code) : (norm c).free = c.free := by
  induction c with
  | done => rfl
  | use xs c ih => cases xs <;> simp [norm, GoCode.Code.free, ih]
  | assign xs c ih => cases xs <;> simp [norm, GoCode.Code.free, ih]
  | decl xs c ih => simp [norm, GoCode.Code.free, ih]
  | block b c ih1 ih2 => simp [norm, GoCode.Code.free, ih1, ih2]

theorem norm_decls (c : GoCode.Code) : (norm c).decls = c.decls := by
  induction c with
  | done => rfl
  | use xs c ih => cases xs <;> simp [norm, GoCode.Code.decls, ih]
  | assign xs c ih => cases xs <;> simp [norm, GoCode.Code.decls, ih]
  | decl xs c ih => simp [norm, GoCode.Code.decls, ih]
  | block b c ih1 ih2 => simp [norm, GoCode.Code.decls, ih2]

theorem norm_faithful (c : GoCode.Code) : (norm c).Faithful ↔ c.Faithful := by
  induction c with
  | done => rfl
  | use xs c ih => cases xs <;> simp [norm, GoCode.Code.Faithful, ih]
  | assign xs c ih => cases xs <;> simp [norm, GoCode.Code.Faithful, ih]
  | decl xs c ih => simp [norm, GoCode.Code.Faithful, ih, norm_free]
  | block b c ih1 ih2 => simp [norm, GoCode.Code.Faithful, ih1, ih2, norm_decls]

/-- The code is the same without its types. -/
def Same (c : Code) (d : GoCode.Code) : Prop := norm (erase c) = norm d

theorem norm_use {xs : List Name} {c d : GoCode.Code} (h : norm c = norm d) : norm (.use xs c) = norm (.use xs d) := by
  cases xs <;> simp [norm, h]

theorem norm_assign {xs : List Name} {c d : GoCode.Code} (h : norm c = norm d) :
    norm (.assign xs c) = norm (.assign xs d) := by
  cases xs <;> simp [norm, h]

theorem norm_decl {xs : List Name} {c d : GoCode.Code} (h : norm c = norm d) : norm (.decl xs c) = norm (.decl xs d) := by
  simp [norm, h]

theorem norm_block {b b' c d : GoCode.Code} (hb : norm b = norm b') (h : norm c = norm d) :
    norm (.block b c) = norm (.block b' d) := by
  simp [norm, hb, h]

theorem Same.done : Same .done .done := rfl

theorem Same.append {c c' : Code} {d d' : GoCode.Code} (h : Same c d) (h' : Same c' d') : Same (c ++ c') (d ++ d') := by
  unfold Same at *
  rw [erase_append, norm_append, norm_append, h, h']

theorem Same.block {c c' : Code} {d d' : GoCode.Code} (h : Same c d) (h' : Same c' d') : Same (.block c c') (.block d d') :=
  norm_block h h'

theorem Same.eval {e : Expr} {xs : List Name} {c : Code} {d : GoCode.Code} (he : e.names = xs) (h : Same c d) :
    Same (.eval e c) (.use xs d) := by subst he; exact norm_use h

theorem Same.test {e : Expr} {xs : List Name} {c : Code} {d : GoCode.Code} (he : e.names = xs) (h : Same c d) :
    Same (.test e c) (.use xs d) := by subst he; exact norm_use h

theorem Same.define {x : Name} {e : Expr} {xs : List Name} {c : Code} {d : GoCode.Code} (he : e.names = xs) (h : Same c d) :
    Same (.define x e c) (.use xs (.decl [x] d)) := by subst he; exact norm_use (norm_decl h)

theorem Same.define₂ {x y : Name} {e : Expr} {xs : List Name} {c : Code} {d : GoCode.Code} (he : e.names = xs)
    (h : Same c d) : Same (.define₂ (some x) y e c) (.use xs (.decl [x, y] d)) := by subst he; exact norm_use (norm_decl h)

theorem Same.var {x : Name} {t : GTy} {xs : List Name} {c : Code} {d : GoCode.Code} (he : mentions t = xs) (h : Same c d) :
    Same (.var x t c) (.use xs (.decl [x] d)) := by subst he; exact norm_use (norm_decl h)

/-- `var x t` of a type without names -/
theorem Same.var' {x : Name} {t : GTy} {c : Code} {d : GoCode.Code} (he : mentions t = []) (h : Same c d) :
    Same (.var x t c) (.decl [x] d) := by
  change norm (.use (mentions t) _) = _
  rw [he]
  exact norm_decl h

theorem Same.range {k : Name} {e : Expr} {xs : List Name} {b c : Code} {b' d : GoCode.Code} (he : e.names = xs)
    (hb : Same b b') (h : Same c d) :
    Same (.range k none e b c) (.use xs (.block (.decl [k] (.block b' .done)) d)) := by
  subst he; exact norm_use (norm_block (norm_decl (norm_block hb rfl)) h)

theorem Same.range₂ {k v : Name} {e : Expr} {xs : List Name} {b c : Code} {b' d : GoCode.Code} (he : e.names = xs)
    (hb : Same b b') (h : Same c d) :
    Same (.range k (some v) e b c) (.use xs (.block (.decl [k, v] (.block b' .done)) d)) := by
  subst he; exact norm_use (norm_block (norm_decl (norm_block hb rfl)) h)

theorem Same.loop {i : Name} {n : Expr} {xs : List Name} {b c : Code} {b' d : GoCode.Code} (he : n.names = xs)
    (hb : Same b b') (h : Same c d) :
    Same (.loop i n b c) (.block (.decl [i] (.use (i :: xs) (.block b' .done))) d) := by
  subst he; exact norm_block (norm_decl (norm_use (norm_block hb rfl))) h

/-- The item of a map or a slice or a field is assigned. -/
theorem Same.assign {l r : Expr} {xs : List Name} {c : Code} {d : GoCode.Code} (hs : sets l = [])
    (he : uses l ++ r.names = xs) (h : Same c d) : Same (.assign l r c) (.use xs d) := by
  subst he
  change norm (.use (uses l ++ r.names) (.assign (sets l) (erase c))) = _
  rw [hs]
  exact norm_use h

/-- A variable is assigned. -/
theorem Same.set {x : Name} {r : Expr} {xs : List Name} {c : Code} {d : GoCode.Code} (he : r.names = xs) (h : Same c d) :
    Same (.assign (.var x) r c) (.use xs (.assign [x] d)) := by subst he; exact norm_use (norm_assign h)

theorem Same.set' {x : Name} {r : Expr} {c : Code} {d : GoCode.Code} (he : r.names = []) (h : Same c d) :
    Same (.assign (.var x) r c) (.assign [x] d) := by
  change norm (.use ([] ++ r.names) _) = _
  rw [he]
  exact norm_assign h

theorem Same.set₂ {x y : Name} {r : Expr} {xs : List Name} {c : Code} {d : GoCode.Code} (he : r.names = xs) (h : Same c d) :
    Same (.assign₂ (.var x) (.var y) r c) (.use xs (.assign [x, y] d)) := by subst he; exact norm_use (norm_assign h)

/-! ## Results with exceptions -/

/-- Both raise the same exception, or the results are related. -/
def Rel {α β : Type} (R : α → β → Prop) : Except Exc α → Except Exc β → Prop
  | .ok a, .ok b => R a b
  | .error e, .error f => e = f
  | _, _ => False

theorem Rel.bind {α β γ δ : Type} {R : α → β → Prop} {S : γ → δ → Prop} {x : Except Exc α} {y : Except Exc β}
    {f : α → Except Exc γ} {g : β → Except Exc δ} (h : Rel R x y) (hf : ∀ a b, x = .ok a → y = .ok b → R a b → Rel S (f a) (g b)) :
    Rel S (x >>= f) (y >>= g) := by
  cases x <;> cases y <;> simp only [Rel] at h
  · subst h; rfl
  · exact hf _ _ rfl rfl h

theorem Rel.pure {α β : Type} {R : α → β → Prop} {a : α} {b : β} (h : R a b) :
    Rel R (Pure.pure a : Except Exc α) (Pure.pure b) := h

theorem Rel.refl {α : Type} (x : Except Exc α) : Rel (· = ·) x x := by cases x <;> rfl

theorem Rel.mapM {α β γ : Type} {R : β → γ → Prop} {f : α → Except Exc β} {k : α → Except Exc γ} {l : List α}
    (h : ∀ a ∈ l, Rel R (f a) (k a)) : Rel (Forall₂ R) (l.mapM f) (l.mapM k) := by
  induction l with
  | nil => exact .pure .nil
  | cons a l ih =>
    rw [List.mapM_cons, List.mapM_cons]
    exact (h a (by simp)).bind fun b c _ _ hbc => (ih fun a ha => h a (by simp [ha])).bind fun bs cs _ _ hs =>
      .pure (.cons hbc hs)

theorem Rel.ok {α β : Type} {R : α → β → Prop} {x : Except Exc α} {y : Except Exc β} (h : Rel R x y) {a : α}
    (hx : x = .ok a) : ∃ b, y = .ok b ∧ R a b := by
  subst hx
  cases y with
  | ok b => exact ⟨b, rfl, h⟩
  | error e => exact h.elim

theorem Rel.ok' {α β : Type} {R : α → β → Prop} {x : Except Exc α} {y : Except Exc β} (h : Rel R x y) {b : β}
    (hy : y = .ok b) : ∃ a, x = .ok a ∧ R a b := by
  subst hy
  cases x with
  | ok a => exact ⟨a, rfl, h⟩
  | error e => exact h.elim

theorem mapM_length {α β : Type} {f : α → Except Exc β} {l : List α} {ys : List β} (h : l.mapM f = .ok ys) :
    ys.length = l.length := by
  induction l generalizing ys with
  | nil => cases h; rfl
  | cons a l ih =>
    rw [List.mapM_cons] at h
    cases ha : f a with
    | error x => rw [ha] at h; cases h
    | ok y =>
      rw [ha] at h
      cases hl : l.mapM f with
      | error x => rw [hl] at h; cases h
      | ok zs => rw [hl] at h; cases h; simp [ih hl]

/-! ## Names of expressions -/

theorem names_foldl_arg (f : Expr) (args : List Expr) : (args.foldl Expr.arg f).names = f.names ++ args.flatMap Expr.names := by
  induction args generalizing f with
  | nil => simp
  | cons a args ih => simp [ih, Expr.names]

theorem names_callWith (f : Expr) (args : List Expr) : (callWith f args).names = f.names ++ args.flatMap Expr.names := by
  rw [callWith, Expr.names, names_foldl_arg]

theorem names_slice (parts : List Expr) : (slice parts).names = parts.flatMap Expr.names := by
  have : ∀ (e : Expr), (parts.foldl Expr.item e).names = e.names ++ parts.flatMap Expr.names := by
    induction parts with
    | nil => simp
    | cons a args ih => intro e; simp [ih, Expr.names]
  rw [slice, this]
  rfl

theorem names_join (parts : List Expr) : (join parts).names = strings :: parts.flatMap Expr.names := by
  simp [join, names_callWith, names_slice, Expr.names, strings]

theorem names_sprintf (args : List Expr) : (sprintf args).names = fmt :: args.flatMap Expr.names := by
  simp [sprintf, names_callWith, Expr.names, fmt]

theorem names_add (ref message : Expr) : (add ref message).names = GoCode.errors :: ref.names ++ message.names := by
  simp [add, names_callWith, Expr.names, errors, x, GoCode.errors]

theorem names_x (b : Str) : (x b).names = [v b] := rfl
theorem names_xi (b : Str) (n : Nat) : (xi b n).names = [vi b n] := rfl

theorem mentions_repr {t : Ty} : Rel (fun a b => mentions a = b) (typeRepr t) (GoCode.typeNames t) := by
  induction t with
  | array t lo hi ih =>
    rw [typeRepr, GoCode.typeNames]
    cases h : GoCode.typeNames t with
    | ok a => rw [h] at ih; obtain ⟨b, hb, e⟩ := ih.ok' rfl; rw [hb]; exact e
    | error e => rw [h] at ih; cases hb : typeRepr t with
      | ok a => rw [hb] at ih; exact ih.elim
      | error f => rw [hb] at ih; exact ih
  | map t ih =>
    rw [typeRepr, GoCode.typeNames]
    cases h : GoCode.typeNames t with
    | ok a => rw [h] at ih; obtain ⟨b, hb, e⟩ := ih.ok' rfl; rw [hb]; exact e
    | error e => rw [h] at ih; cases hb : typeRepr t with
      | ok a => rw [hb] at ih; exact ih.elim
      | error f => rw [hb] at ih; exact ih
  | cls n => exact (Rel.refl _).bind fun a b _ _ e => .pure (by subst e; rfl)
  | embed n => exact (Rel.refl _).bind fun a b _ _ e => .pure (by subst e; rfl)
  | _ => rfl

/-! ## Parsing -/

/-- The names in the parts of a reference path -/
abbrev refNames (ref : List Expr) : List Name := ref.flatMap Expr.names

/-- Where the value is stored -/
def target (e : Expr) : GoCode.Target := ⟨uses e, sets e, e.names⟩

theorem same_store {tgt e : Expr} {x : Name} (h : e.names = [x]) : Same (store tgt e) (GoCode.store (target tgt) x) := by
  unfold Same store GoCode.store erase
  rw [h]
  rfl

theorem same_report {ref args : List Expr} {c : Code} {d : GoCode.Code} {xs ys : List Name} (hr : refNames ref = xs)
    (ha : args.flatMap Expr.names = ys) (h : Same c d) : Same (report ref args c) (GoCode.report xs ys d) := by
  refine .block (.eval ?_ .done) h
  rw [names_add, names_join, names_sprintf, ← hr, ← ha]

theorem same_castTo {cast : Name} {t : GTy} (ht : mentions t = []) {n : Nat} {value : Expr} {ref : List Expr} {c : Code}
    {d : GoCode.Code} (h : Same c d) :
    Same (castTo cast t n value ref c) (GoCode.castTo cast n value.names (refNames ref) d) := by
  refine .define₂ (by simp [Expr.names, ht]) (.test rfl (same_report rfl (by simp) h))

theorem same_otherwise {c : Code} {d : GoCode.Code} (h : Same c d) : Same (otherwise c) (GoCode.otherwise d) :=
  .block h .done

theorem same_checkBound {ref : List Expr} {b : Option Int} {e : Expr} {x : Name} (he : e.names = [x]) {c : Code}
    {d : GoCode.Code} (h : Same c d) : Same (checkBound ref b e c) (GoCode.checkBound (refNames ref) b x d) := by
  cases b with
  | none => exact h
  | some b => exact .test (by simp [Expr.names, he]) (same_report rfl (by simp [he]) h)

theorem same_checkSize {ref : List Expr} {b : Option Int} {e : Expr} {x : Name} (he : e.names = [x]) {c : Code}
    {d : GoCode.Code} (h : Same c d) : Same (checkSize ref b e c) (GoCode.checkBound (refNames ref) b x d) := by
  cases b with
  | none => exact h
  | some b => exact .test (by simp [Expr.names, he]) (same_report rfl (by simp [Expr.names, he]) h)

theorem same_checkBounds {ref : List Expr} {b : Bounds} {e : Expr} {x : Name} (he : e.names = [x]) {tgt : Expr} :
    Same (checkBounds ref b e tgt) (GoCode.checkBounds (refNames ref) b x (target tgt)) :=
  same_checkBound he (same_checkBound he (same_otherwise (same_store he)))

/-- The contexts have the same registries. -/
structure SameCtx (ctx : Ctx) (ctx' : GoCode.Ctx) : Prop where
  graph : ctx.graph = ctx'.graph
  uids : ctx.uids = ctx'.uids
  registry : ∀ c, Rel (fun e xs => e.names = xs) (ctx.registry c) (ctx'.registry c)

theorem same_parseText {ctx : Ctx} {ctx' : GoCode.Ctx} (hc : SameCtx ctx ctx') {p : Option Str} {value tgt : Expr}
    {ref : List Expr} {n : Nat} :
    Same (parseText ctx p value tgt ref n) (GoCode.parseText ctx' p value.names (target tgt) (refNames ref) n) := by
  refine same_castTo rfl (same_otherwise ?_)
  cases p with
  | none => exact same_store rfl
  | some p =>
    refine .test ?_ (same_report rfl (by simp [names_xi]) (same_otherwise (same_store rfl)))
    rw [← hc.uids]
    simp [Expr.names, names_callWith, names_xi]

theorem same_convertWith {e : Expr} {f : Name} {n : Nat} (he : e.names = [f, vi c!"cast" n]) {args : List Expr}
    {xs : List Name} (ha : args.flatMap Expr.names = xs) {value tgt : Expr} {ref : List Expr} :
    Same (convertWith e args value tgt ref n) (GoCode.convertWith f xs value.names (target tgt) (refNames ref) n) := by
  refine same_castTo rfl (same_otherwise (.define₂ he (.test ?_ (same_report rfl ?_ (same_otherwise (same_store rfl))))))
  · simp [Expr.names, names_xi]
  · simp [names_xi, ha]

/-- The code and the next number -/
def SameN (a : Code × Nat) (b : GoCode.Code × Nat) : Prop := Same a.1 b.1 ∧ a.2 = b.2

theorem same_parseDateTime {f : Str} {value tgt : Expr} {ref : List Expr} {n : Nat} :
    Rel SameN (parseDateTime f value tgt ref n) (GoCode.parseDateTime f value.names (target tgt) (refNames ref) n) :=
  (Rel.refl _).bind fun _ _ _ _ _ => .pure ⟨same_convertWith (by simp [names_callWith, Expr.names, names_xi, time]) rfl, rfl⟩

theorem names_full : full.names = [GoCode.errors] := rfl
theorem names_noErrors : noErrors.names = [GoCode.errors] := rfl

theorem same_parseItems {make e : Expr} {xs : List Name} (hm : make.names = xs) {x i : Name} (he : e.names = [x])
    {item : Code} {item' : GoCode.Code} (h : Same item item') {tgt : Expr} {n : Nat} :
    Same (parseItems make e i item tgt n) (GoCode.parseItems xs x i item' (target tgt) n) :=
  .define hm (.range he (.append h (.test names_full (.block .done .done))) (same_store rfl))

theorem same_embed {ctx : Ctx} {ctx' : GoCode.Ctx} (hc : SameCtx ctx ctx') {name : Str} {value tgt : Expr}
    {ref : List Expr} {n : Nat} :
    Rel SameN (parseValue ctx (.embed name) value tgt ref n)
      (GoCode.parseValue ctx' (.embed name) value.names (target tgt) (refNames ref) n) := by
  have h : Rel (fun es xs => es.flatMap Expr.names = xs) (embedRegistries ctx name) (GoCode.embedRegistries ctx' name) := by
    unfold embedRegistries GoCode.embedRegistries
    rw [hc.graph]
    cases references? ctx'.graph (.embed name) with
    | none => rfl
    | some refs =>
      have := Rel.mapM (l := refs) fun c _ => hc.registry c
      change Rel _ (refs.mapM ctx.registry) (refs.mapM ctx'.registry >>= fun xss => pure xss.flatten)
      rw [← bind_pure (refs.mapM ctx.registry)]
      refine this.bind fun es xss h1 h2 h => .pure ?_
      clear this h1 h2
      induction h with
      | nil => rfl
      | cons h _ ih => simp [h, ih]
  rw [parseValue, GoCode.parseValue]
  refine h.bind fun es xs _ _ hes => (Rel.refl _).bind fun f _ _ _ e => .pure ⟨.eval ?_ .done, rfl⟩
  subst e
  simp [names_callWith, Expr.names, hes, names_join, target, errors, GoCode.errors, names_x]

theorem rel_bind₂ {α β γ δ : Type} {R : α → β → Prop} {S : γ → δ → Prop} {x : Except Exc α} {y : Except Exc β}
    {f : α → Except Exc γ} {g : β → Except Exc δ} (h : Rel R x y) (hf : ∀ a b, R a b → Rel S (f a) (g b)) :
    Rel S (x >>= f) (y >>= g) := h.bind fun a b _ _ => hf a b

theorem parseValue_map {ctx : Ctx} {t : Ty} (he : ∀ e, t ≠ .embed e) (value tgt : Expr) (ref : List Expr) (n : Nat) :
    parseValue ctx (.map t) value tgt ref n = (do
      let (item, m) ← parseValue ctx t (.index (xi c!"cast" n) (xi c!"k" n)) (.index (xi c!"target" n) (xi c!"k" n))
        (ref ++ [xi c!"k" n]) (n + 1)
      let ty ← typeRepr (.map t)
      pure (castTo (GoCode.vi c!"cast" n) (.map .any) n value ref
        (otherwise (parseItems (.make ty) (xi c!"cast" n) (GoCode.vi c!"k" n) item tgt n)), m)) := by
  cases t <;> first | rfl | exact absurd rfl (he _)

theorem goParseValue_map {ctx : GoCode.Ctx} {t : Ty} (he : ∀ e, t ≠ .embed e) (value : List Name) (tgt : GoCode.Target)
    (ref : List Name) (n : Nat) :
    GoCode.parseValue ctx (.map t) value tgt ref n = (do
      let (item, m) ← GoCode.parseValue ctx t [vi c!"cast" n, vi c!"k" n]
        ⟨[vi c!"target" n, vi c!"k" n], [], [vi c!"target" n, vi c!"k" n]⟩ (ref ++ [vi c!"k" n]) (n + 1)
      let names ← GoCode.typeNames t
      pure (GoCode.castTo (vi c!"cast" n) n value ref
        (GoCode.otherwise (GoCode.parseItems names (vi c!"cast" n) (vi c!"k" n) item tgt n)), m)) := by
  cases t <;> first | rfl | exact absurd rfl (he _)

theorem same_parseValue {ctx : Ctx} {ctx' : GoCode.Ctx} (hc : SameCtx ctx ctx') (t : Ty) (value tgt : Expr)
    (ref : List Expr) (n : Nat) :
    Rel SameN (parseValue ctx t value tgt ref n)
      (GoCode.parseValue ctx' t value.names (target tgt) (refNames ref) n) := by
  induction t generalizing value tgt ref n with
  | boolean => exact .pure ⟨same_castTo rfl (same_otherwise (same_store rfl)), rfl⟩
  | integer b =>
    refine .pure ⟨same_castTo rfl (.test ?_ (same_report rfl ?_ (.test ?_ (same_report rfl ?_ (same_otherwise ?_))))), rfl⟩
    · simp [Expr.names, names_callWith, names_xi, math]
    · simp [names_xi]
    · simp [Expr.names, names_xi]
    · simp [names_xi]
    split
    · exact same_store rfl
    · exact .define rfl (same_checkBounds rfl)
  | float b =>
    refine (Rel.refl _).bind fun _ _ _ _ _ => (Rel.refl _).bind fun _ _ _ _ _ => .pure ⟨same_castTo rfl (same_otherwise ?_), rfl⟩
    split
    · exact same_store rfl
    · exact same_checkBounds rfl
  | string p => exact .pure ⟨same_parseText hc, rfl⟩
  | path p => exact .pure ⟨same_parseText hc, rfl⟩
  | date f => exact same_parseDateTime
  | time f => exact same_parseDateTime
  | datetime f => exact same_parseDateTime
  | timeZone => exact .pure ⟨same_convertWith rfl rfl, rfl⟩
  | duration => exact .pure ⟨same_convertWith rfl rfl, rfl⟩
  | array t lo hi ih =>
    have := ih (.index (xi c!"cast" n) (xi c!"i" n)) (.index (xi c!"target" n) (xi c!"i" n))
      (ref ++ [callWith (.lib c!"strconv" c!"Itoa") [xi c!"i" n]]) (n + 1)
    simp only [refNames, List.flatMap_append] at this
    refine this.bind ?_
    rintro ⟨item, m⟩ ⟨item', m'⟩ _ _ ⟨h1, h2⟩
    cases h2
    have hm := mentions_repr (t := .array t lo hi)
    refine Rel.bind (y := GoCode.typeNames t) hm fun ty xs _ _ e => .pure ⟨?_, rfl⟩
    exact same_castTo rfl (same_checkSize rfl (same_checkSize rfl (same_otherwise
      (same_parseItems (by simp [Expr.names, e, names_xi]) rfl h1))))
  | map t ih =>
    by_cases he : ∃ e, t = .embed e
    · obtain ⟨e, rfl⟩ := he
      have := same_embed hc (name := e) (value := .index (xi c!"cast" n) (xi c!"k" n)) (tgt := xi c!"item" n)
        (ref := ref ++ [xi c!"k" n]) (n := n + 1)
      simp only [refNames, List.flatMap_append] at this
      rw [parseValue, GoCode.parseValue]
      refine this.bind ?_
      rintro ⟨item, m⟩ ⟨item', m'⟩ _ _ ⟨h1, h2⟩
      cases h2
      rw [typeRepr, typeRepr, GoCode.typeNames]
      cases hf : ucamelCase e with
      | error x => rfl
      | ok f =>
        refine .pure ⟨same_castTo rfl (same_otherwise (same_parseItems rfl rfl ?_)), rfl⟩
        exact .var rfl (.append h1 (.assign rfl rfl .done))
    · rw [parseValue_map (fun e h => he ⟨e, h⟩), goParseValue_map (fun e h => he ⟨e, h⟩)]
      have := ih (.index (xi c!"cast" n) (xi c!"k" n)) (.index (xi c!"target" n) (xi c!"k" n)) (ref ++ [xi c!"k" n]) (n + 1)
      simp only [refNames, List.flatMap_append] at this
      refine this.bind ?_
      rintro ⟨item, m⟩ ⟨item', m'⟩ _ _ ⟨h1, h2⟩
      cases h2
      have hm := mentions_repr (t := .map t)
      refine Rel.bind (y := GoCode.typeNames t) hm fun ty xs _ _ e => .pure ⟨?_, rfl⟩
      exact same_castTo rfl (same_otherwise (same_parseItems (by simp [Expr.names, e]) rfl h1))
  | cls c =>
    refine (hc.registry c).bind fun e xs _ _ h => (Rel.refl _).bind fun _ _ _ _ _ => .pure ⟨?_, rfl⟩
    refine same_castTo rfl (same_otherwise (.define₂ (by simp [Expr.names, h, names_xi]) (.test rfl
      (same_report rfl (by simp) (same_otherwise (same_store rfl))))))
  | embed e => exact same_embed hc

theorem same_parseProperty {ctx : Ctx} {ctx' : GoCode.Ctx} (hc : SameCtx ctx ctx') (p : Property) (n : Nat) :
    Rel SameN (parseProperty ctx p n) (GoCode.parseProperty ctx' p n) := by
  unfold parseProperty GoCode.parseProperty
  refine (Rel.refl _).bind fun f _ _ _ e => ?_
  subst e
  have := same_parseValue hc p.ty (xi c!"value" n)
    (if !p.optional || isPointer p.ty then .field (x c!"target") f else xi c!"target" n) [x c!"ref", .text] (n + 1)
  have ht : target (if !p.optional || isPointer p.ty then .field (x c!"target") f else xi c!"target" n) =
      if !p.optional || isPointer p.ty then ⟨[v c!"target"], [], [v c!"target"]⟩
      else ⟨[], [vi c!"target" n], [vi c!"target" n]⟩ := by split <;> rfl
  rw [ht] at this
  refine this.bind ?_
  rintro ⟨item, m⟩ ⟨item', m'⟩ _ _ ⟨h1, h2⟩
  cases h2
  refine mentions_repr.bind fun ty xs _ _ e => ?_
  simp only
  split
  · exact .pure ⟨.define₂ rfl (.test rfl (.block (.eval rfl .done) (.block h1 .done))), rfl⟩
  · split
    · exact .pure ⟨.define₂ rfl (.test rfl (.block h1 .done)), rfl⟩
    · exact .pure ⟨.define₂ rfl (.test rfl (.block (.var e (.append h1 (.assign rfl rfl .done))) .done)), rfl⟩

theorem same_parseProps {ctx : Ctx} {ctx' : GoCode.Ctx} (hc : SameCtx ctx ctx') (ps : List Property) (n : Nat) :
    Rel Same (parseProps ctx ps n) (GoCode.parseProps ctx' ps n) := by
  induction ps generalizing n with
  | nil => exact .pure .done
  | cons p ps ih =>
    refine (same_parseProperty hc p n).bind ?_
    rintro ⟨c, m⟩ ⟨d, m'⟩ _ _ ⟨h1, h2⟩
    cases h2
    exact (ih m).bind fun c d _ _ h => .pure (.append h1 (.test rfl (.block .done h)))

/-- The function is the same without its types. -/
structure SameFunc (f : Func) (g : GoCode.Func) : Prop where
  name : f.name = g.name
  params : (f.params ++ f.results).map (·.1) = g.params
  body : Same f.body g.body

theorem same_preamble {c : Code} {d : GoCode.Code} (h : Same c d) : Same (preamble c) (GoCode.preamble d) :=
  .test rfl (.block .done (.test rfl (.block .done (.test rfl (.block .done h)))))

theorem same_reportAt {ref value : Expr} {r y : Name} (hr : ref.names = [r]) (hv : value.names = [y]) :
    Same (reportAt ref value) (.use [GoCode.errors, r, fmt, y] .done) :=
  .eval (by simp [names_add, hr, names_sprintf, hv]) .done

theorem same_parseComposite (g : Graph) (uids : List (Str × Nat)) (o : Owner) (name : Str) (b : Bool) :
    Rel SameFunc (parseComposite g uids o name b) (GoCode.parseComposite g uids o name b) := by
  unfold parseComposite GoCode.parseComposite registries
  refine (Rel.refl _).bind fun refs _ _ _ e => ?_
  subst e
  rw [bind_assoc]
  refine (Rel.refl _).bind fun params _ hps _ e => ?_
  subst e
  rw [bind_assoc]
  have ht : ∀ refs : List Str, Rel (fun (ts : List GTy) (_ : List Name) => ts.length = refs.length)
      (refs.mapM registryType) (refs.mapM fun c => do pure (Name.glob (← ucamelCase c))) := by
    intro refs
    induction refs with
    | nil => exact .pure rfl
    | cons r refs ih =>
      rw [List.mapM_cons, List.mapM_cons]
      refine Rel.bind (R := fun _ _ => True) ?_ fun a b _ _ _ => ih.bind fun as bs _ _ h => .pure (by simp [h])
      exact (Rel.refl _).bind fun _ _ _ _ _ => .pure trivial
  refine (ht refs).bind fun types names _ _ hl => ?_
  rw [pure_bind]
  refine (same_parseProps (ctx' := ⟨g, uids, fun c => if c ∈ refs then do pure [← registryParam g c] else .error .keyError⟩)
    ⟨rfl, rfl, ?_⟩ _ _).bind fun props props' _ _ hp => (Rel.refl _).bind fun f _ _ _ e => ?_
  · intro c
    simp only
    split
    · exact (Rel.refl _).bind fun _ _ _ _ e => .pure (by subst e; rfl)
    · rfl
  subst e
  have hlen : params.length = types.length := by rw [mapM_length hps, hl]
  refine .pure ⟨rfl, ?_, ?_⟩
  · simp only [restParams, List.append_nil, List.map_append]
    rw [List.map_fst_zip (Nat.le_of_eq hlen)]
    cases b <;> simp [GoCode.errors]
  · refine same_preamble ?_
    have rest : Same (.test (.not (x c!"ok")) (.block (reportAt (x c!"ref") (x c!"value"))
        (if b then .assign (.field (x c!"target") c!"ID") (x c!"id") props else props)))
        (.use [v c!"ok"] (.block (.use [GoCode.errors, v c!"ref", fmt, v c!"value"] .done)
        (if b then .use [v c!"target", v c!"id"] props' else props'))) := by
      refine .test rfl (.block (same_reportAt rfl rfl) ?_)
      split
      · exact .assign rfl rfl hp
      · exact hp
    by_cases hps : (ownerProps g o).isEmpty
    · simp only [hps, if_true]
      exact norm_use (norm_decl rest)
    · simp only [hps]
      exact norm_use (norm_decl rest)

theorem same_preallocate (uids : List (Str × Nat)) (c : Class) :
    Rel Same (preallocate uids c) (GoCode.preallocate uids c) := by
  unfold preallocate GoCode.preallocate
  refine (Rel.refl _).bind fun p _ _ _ e => ?_
  subst e
  refine (Rel.refl _).bind fun field _ _ _ e => ?_
  subst e
  refine (Rel.refl _).bind fun name _ _ _ e => ?_
  subst e
  refine (Rel.refl _).bind fun _ _ _ _ _ => .pure ?_
  refine .define rfl (.var' rfl (.var' rfl (.var' rfl (.set₂ rfl (.test rfl (.block (.set₂ rfl (.test rfl
    (.block (same_reportAt rfl rfl) (.block (.assign rfl rfl (.range rfl ?_ .done)) .done)))) .done))))))
  cases c.idPattern with
  | none => exact .assign rfl rfl .done
  | some pat =>
    exact .test (by simp [names_callWith, Expr.names, names_x])
      (.block (same_reportAt rfl rfl) (.block (.assign rfl rfl .done) .done))

theorem flatMap_fields (e : Expr) (y : Name) (he : e.names = [y]) (fields : List Str) :
    (fields.map fun f => Expr.field e f).flatMap Expr.names = fields.map fun _ => y := by
  induction fields with
  | nil => rfl
  | cons a l ih =>
    rw [List.map_cons, List.flatMap_cons, ih]
    simp [Expr.names, he]

theorem same_parseInstances (g : Graph) (c : Class) : Rel Same (parseInstances g c) (GoCode.parseInstances g c) := by
  unfold parseInstances GoCode.parseInstances
  refine (Rel.refl _).bind fun p _ _ _ e => ?_
  subst e
  refine (Rel.refl _).bind fun field _ _ _ e => ?_
  refine (Rel.refl _).bind fun name _ _ _ e => ?_
  subst e
  refine (Rel.refl _).bind fun refs _ _ _ e => ?_
  subst e
  refine (Rel.refl _).bind fun fields _ hf _ _ => .pure ?_
  refine .test rfl (.block (.range₂ rfl (.eval ?_ (.test rfl (.block .done .done))) .done) (.test rfl (.block .done .done)))
  have : (fields.map fun _ => v c!"target") = refs.map fun _ => v c!"target" := by
    rw [List.map_const', List.map_const', mapM_length hf]
  simp [names_callWith, Expr.names, names_x, flatMap_fields _ _ (names_x _), this, names_join, GoCode.errors, errors]

theorem same_concat {cs : List Code} {ds : List GoCode.Code} (h : Forall₂ Same cs ds) :
    Same (concat cs) (GoCode.concat ds) := by
  induction h with
  | nil => rfl
  | cons h _ ih => exact .append h ih

theorem same_parseGraph (g : Graph) (uids : List (Str × Nat)) :
    Rel SameFunc (parseGraph g uids) (GoCode.parseGraph g uids) := by
  unfold parseGraph GoCode.parseGraph
  refine (Rel.mapM fun c _ => same_preallocate uids c).bind fun alloc alloc' _ _ h1 => ?_
  refine (Rel.mapM fun c _ => same_parseInstances g c).bind fun insts insts' _ _ h2 => ?_
  refine (same_parseProps ⟨rfl, rfl, ?_⟩ _ _).bind fun props props' _ _ hp => (Rel.refl _).bind fun f _ _ _ e => ?_
  · intro c
    exact (Rel.refl _).bind fun _ _ _ _ e => .pure rfl
  subst e
  refine .pure ⟨rfl, rfl, same_preamble (.define₂ rfl (.test rfl (.block (same_reportAt rfl rfl)
    (.append (.append (.append (same_concat h1) ?_) (same_concat h2)) hp))))⟩
  split
  · exact .done
  · exact .test rfl (.block .done .done)

theorem forall₂_append {α β : Type} {R : α → β → Prop} {as as' : List α} {bs bs' : List β} (h : Forall₂ R as bs)
    (h' : Forall₂ R as' bs') : Forall₂ R (as ++ as') (bs ++ bs') := by
  induction h with
  | nil => exact h'
  | cons h _ ih => exact .cons h ih

/-- The functions in the file for parsing -/
theorem same_parse (g : Graph) :
    Rel (fun fs F => ∃ gs, F.funcs = (if needs g .duration then GoCode.durationFromString else []) ++ gs ∧ Forall₂ SameFunc fs gs)
      (parseFuncs g) (GoCode.parseFile g) := by
  unfold parseFuncs GoCode.parseFile
  refine (Rel.mapM fun c _ => same_parseComposite g _ _ _ _).bind fun classes classes' _ _ h1 => ?_
  refine (Rel.mapM fun c _ => same_parseComposite g _ _ _ _).bind fun embeds embeds' _ _ h2 => ?_
  refine (same_parseGraph g _).bind fun graph graph' _ _ h3 => .pure ⟨classes' ++ embeds' ++ [graph'], ?_, ?_⟩
  · simp
  · exact forall₂_append (forall₂_append h1 h2) (.cons h3 .nil)

/-! ## Serializing -/

theorem same_serializeDateTime {f : Str} {tgt value : Expr} (ht : sets tgt = []) (hu : uses tgt = tgt.names) {n : Nat} :
    Rel SameN (serializeDateTime f tgt value n) (GoCode.serializeDateTime f tgt.names value.names n) := by
  refine (Rel.refl _).bind fun fm _ _ _ e => .pure ?_
  subst e
  split
  · exact ⟨.assign ht (by simp [hu, Expr.names]) .done, rfl⟩
  · exact ⟨.assign ht (by simp [hu, Expr.names, names_callWith]) .done, rfl⟩

theorem same_serializeValue (t : Ty) {tgt value : Expr} (ht : sets tgt = []) (hu : uses tgt = tgt.names) (n : Nat) :
    Rel SameN (serializeValue t tgt value n) (GoCode.serializeValue t tgt.names value.names n) := by
  induction t generalizing tgt value n with
  | boolean => exact .pure ⟨.assign ht (by rw [hu]) .done, rfl⟩
  | integer => exact .pure ⟨.assign ht (by rw [hu]) .done, rfl⟩
  | float => exact .pure ⟨.assign ht (by rw [hu]) .done, rfl⟩
  | string => exact .pure ⟨.assign ht (by rw [hu]) .done, rfl⟩
  | path => exact .pure ⟨.assign ht (by rw [hu]) .done, rfl⟩
  | date => exact same_serializeDateTime ht hu
  | time => exact same_serializeDateTime ht hu
  | datetime => exact same_serializeDateTime ht hu
  | timeZone => exact .pure ⟨.assign ht (by simp [hu, names_callWith, Expr.names]) .done, rfl⟩
  | duration => exact .pure ⟨.assign ht (by simp [hu, names_callWith, Expr.names]) .done, rfl⟩
  | cls => exact .pure ⟨.assign ht (by simp [hu, Expr.names]) .done, rfl⟩
  | embed e =>
    refine (Rel.refl _).bind fun f _ _ _ e => .pure ?_
    subst e
    exact ⟨.assign ht (by simp [hu, names_callWith, Expr.names]) .done, rfl⟩
  | array t lo hi ih =>
    refine (ih (tgt := .index (xi c!"target" n) (xi c!"i" n)) (value := .index (xi c!"slice" n) (xi c!"i" n)) rfl rfl
      (n + 1)).bind ?_
    rintro ⟨item, m⟩ ⟨item', m'⟩ _ _ ⟨h1, h2⟩
    cases h2
    exact .pure ⟨.define rfl (.define rfl (.define rfl (.loop rfl h1 (.assign ht (by simp [hu, names_xi]) .done)))), rfl⟩
  | map t ih =>
    refine (ih (tgt := .index (xi c!"target" n) (xi c!"k" n)) (value := xi c!"v" n) rfl rfl (n + 1)).bind ?_
    rintro ⟨item, m⟩ ⟨item', m'⟩ _ _ ⟨h1, h2⟩
    cases h2
    refine .pure ⟨?_, rfl⟩
    have := Same.define (x := vi c!"target" n) (e := .make (.map .any)) rfl (Same.define (x := vi c!"map" n) (e := value) rfl
      (Same.range₂ (k := vi c!"k" n) (v := vi c!"v" n) (e := xi c!"map" n) rfl h1
      (Same.assign (l := tgt) (r := xi c!"target" n) ht (by rw [hu]) .done)))
    exact this

theorem same_serializeProperty (p : Property) (n : Nat) :
    Rel SameN (serializeProperty p n) (GoCode.serializeProperty p n) := by
  refine (Rel.refl _).bind fun f _ _ _ e => ?_
  have := same_serializeValue p.ty (tgt := .index (x c!"target") .text) (value := if p.optional && !isPointer p.ty then
    .star (.field (x c!"instance") f) else .field (x c!"instance") f) rfl rfl n
  have hn : (if p.optional && !isPointer p.ty then Expr.star (.field (x c!"instance") f)
      else .field (x c!"instance") f).names = [v c!"instance"] := by split <;> rfl
  rw [hn] at this
  refine this.bind ?_
  rintro ⟨c, m⟩ ⟨d, m'⟩ _ _ ⟨h1, h2⟩
  cases h2
  refine .pure ⟨?_, rfl⟩
  simp only
  split
  · exact .test rfl (.block h1 .done)
  · exact h1

theorem same_serializeProps (ps : List Property) (n : Nat) : Rel Same (serializeProps ps n) (GoCode.serializeProps ps n) := by
  induction ps generalizing n with
  | nil => exact .pure .done
  | cons p ps ih =>
    refine (same_serializeProperty p n).bind ?_
    rintro ⟨c, m⟩ ⟨d, m'⟩ _ _ ⟨h1, h2⟩
    cases h2
    exact (ih m).bind fun c d _ _ h => .pure (.append h1 h)

theorem same_serialized {c : Code} {d : GoCode.Code} (h : Same c d) :
    Same (serialized c) (.use [v c!"instance"] (.block .done (.assign [v c!"target"] d))) :=
  .test rfl (.block .done (.set' rfl h))

theorem same_serializeComposite (name : Str) (ps : List Property) :
    Rel SameFunc (serializeComposite name ps) (GoCode.serializeComposite name ps) := by
  refine (same_serializeProps ps 0).bind fun c d _ _ h => (Rel.refl _).bind fun f _ _ _ e => .pure ?_
  subst e
  exact ⟨rfl, rfl, same_serialized h⟩

theorem same_serializeRegistry (c : Class) : Rel Same (serializeRegistry c) (GoCode.serializeRegistry c) := by
  refine (Rel.refl _).bind fun p _ _ _ e => ?_
  subst e
  refine (Rel.refl _).bind fun i _ _ _ e => ?_
  subst e
  refine (Rel.refl _).bind fun name _ _ _ e => ?_
  subst e
  refine (Rel.refl _).bind fun _ _ _ _ _ => .pure ?_
  refine .test rfl (.block ?_ .done)
  have := Same.define (x := own c!"target" p []) (e := .make (.map .any)) rfl
    (Same.range (k := v c!"id") (e := .field (x c!"instance") p) rfl
      (.define (x := own [] i c!"Instance") (e := .index (.field (x c!"instance") p) (x c!"id")) rfl
        (.test (e := .eq (x c!"id") (.field (.var (own [] i c!"Instance")) c!"ID")) rfl
          (.block (.set (x := v c!"err") (r := callWith (.lib c!"fmt" c!"Errorf") [.text, x c!"id",
            .field (.var (own [] i c!"Instance")) c!"ID"]) rfl .done)
          (.assign (l := .index (.var (own c!"target" p [])) (x c!"id"))
            (r := callWith (.fn (name ++ c!"ToJSONable")) [.var (own [] i c!"Instance")]) rfl rfl .done))))
      (.assign (l := .index (x c!"target") .text) (r := .var (own c!"target" p [])) rfl rfl .done))
  exact this

theorem same_serializeGraph (g : Graph) : Rel SameFunc (serializeGraph g) (GoCode.serializeGraph g) := by
  refine (same_serializeProps _ _).bind fun props props' _ _ hp => ?_
  refine (Rel.mapM fun c _ => same_serializeRegistry c).bind fun regs regs' _ _ hr => ?_
  refine (Rel.refl _).bind fun f _ _ _ e => .pure ?_
  subst e
  exact ⟨rfl, rfl, same_serialized (.block (.test rfl (.block (.set' rfl .done) .done)) (.append hp (same_concat hr)))⟩

/-- The functions in the file for serializing -/
theorem same_serialize (g : Graph) :
    Rel (fun fs F => ∃ gs, F.funcs = (if needs g .duration then GoCode.durationToString else []) ++ gs ∧ Forall₂ SameFunc fs gs)
      (serializeFuncs g) (GoCode.serializeFile g) := by
  unfold serializeFuncs GoCode.serializeFile
  refine (Rel.mapM fun c _ => same_serializeComposite _ _).bind fun classes classes' _ _ h1 => ?_
  refine (Rel.mapM fun c _ => same_serializeComposite _ _).bind fun embeds embeds' _ _ h2 => ?_
  refine (same_serializeGraph g).bind fun graph graph' _ _ h3 => .pure ⟨classes' ++ embeds' ++ [graph'], ?_, ?_⟩
  · simp
  · exact forall₂_append (forall₂_append h1 h2) (.cons h3 .nil)

end Mapry.GoTyped
