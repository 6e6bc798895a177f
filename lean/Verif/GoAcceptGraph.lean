import Verif.GoAcceptFuncs

/-!
# When the types in the generated Go code are accepted: the parsing of the graph
-/

namespace Mapry.GoTyped

open Mapry.TypeGraph Mapry.Naming
open Mapry.GoTypes (GTy typeRepr camel pureRepr pureField)
open Mapry.GoCheck
open Mapry.GoCode (Name isPointer patternName referencesOf pluralField registryParam v vi own)

/-- What the parsing of the graph needs from the package in addition -/
structure GraphKnown (W : World) (g : Graph) : Prop where
  known : Known W g
  errors : (W.structs.lookup c!"Errors").isSome = true
  graph : (W.structs.lookup (camel g.name)).isSome = true
  classes : ∀ c ∈ g.classes, (W.structs.lookup (camel c.name)).isSome = true
  fields : ∀ c ∈ g.classes, member W (.ptr (.named (camel g.name))) (camel c.plural) = some (registryTy c.name)
  parses : ∀ c ∈ g.classes, ∀ refs, referencesOf g (.cls c.name) = .ok refs →
    W.funcs.lookup (camel c.name ++ c!"FromJSONable") = some ⟨.any :: .string :: (refs.map registryTy ++
      [.string, .ptr (.named (camel c.name)), errorsTy]), false, []⟩

/-- The variables of the parsing function of the graph -/
structure GBody (g : Graph) (Γ : Env) : Prop where
  quiet : Quiet Γ
  cast : look Γ (v c!"cast") = some (.map .any)
  ok : look Γ (v c!"ok") = some .bool
  ref : look Γ (v c!"ref") = some .string
  target : look Γ (v c!"target") = some (.ptr (.named (camel g.name)))
  errors : look Γ (v c!"errors") = some errorsTy

/-- The variables of a class -/
structure Reg (Γ : Env) (p : Str) : Prop where
  ref : look Γ (own [] p c!"Ref") = some .string
  ok : look Γ (own [] p c!"Ok") = some .bool
  value : look Γ (own [] p c!"Value") = some .any
  map : look Γ (own [] p c!"Map") = some (.map .any)

section
variable {W : World} {g : Graph} {Γ Γ' : Env} {n m : Nat} {b b' : Bool} {c d : Code} {p q : Str}

theorem GBody.ext (B : GBody g Γ) (h : Ext 0 Γ Γ') : GBody g Γ' := by
  have key : ∀ b, look Γ' (v b) = look Γ (v b) := fun b => h.look trivial
  exact ⟨B.quiet.ext h, by rw [key]; exact B.cast, by rw [key]; exact B.ok, by rw [key]; exact B.ref,
    by rw [key]; exact B.target, by rw [key]; exact B.errors⟩

theorem Reg.ext (R : Reg Γ p) (h : Ext 0 Γ Γ') : Reg Γ' p := by
  have key : ∀ s, look Γ' (own [] p s) = look Γ (own [] p s) := fun b => h.look trivial
  exact ⟨by rw [key]; exact R.ref, by rw [key]; exact R.ok, by rw [key]; exact R.value, by rw [key]; exact R.map⟩

theorem GBody.own (B : GBody g Γ) (s : Str) (t : GTy) : GBody g ((own [] p s, t) :: Γ) := by
  have key : ∀ b, look ((GoCode.own [] p s, t) :: Γ) (v b) = look Γ (v b) := fun b => by
    rw [look_cons, if_neg (by simp [GoCode.own, v])]
  refine ⟨?_, by rw [key]; exact B.cast, by rw [key]; exact B.ok, by rw [key]; exact B.ref,
    by rw [key]; exact B.target, by rw [key]; exact B.errors⟩
  intro e he
  rcases List.mem_cons.1 he with rfl | he
  · exact id
  · exact B.quiet e he

theorem GBody.more (B : GBody g Γ) {s : Str} (t : GTy) (hs : s = c!"id" ∨ s = c!"value") : GBody g ((v s, t) :: Γ) := by
  have key : ∀ b, b ≠ s → look ((v s, t) :: Γ) (v b) = look Γ (v b) := fun b hb => by
    rw [look_cons, if_neg (by simpa [v] using Ne.symm hb)]
  have hne : c!"cast" ≠ s ∧ c!"ok" ≠ s ∧ c!"ref" ≠ s ∧ c!"target" ≠ s ∧ c!"errors" ≠ s := by
    rcases hs with rfl | rfl <;> decide
  refine ⟨?_, by rw [key _ hne.1]; exact B.cast, by rw [key _ hne.2.1]; exact B.ok, by rw [key _ hne.2.2.1]; exact B.ref,
    by rw [key _ hne.2.2.2.1]; exact B.target, by rw [key _ hne.2.2.2.2]; exact B.errors⟩
  intro e he
  rcases List.mem_cons.1 he with rfl | he
  · exact id
  · exact B.quiet e he

theorem Reg.more (R : Reg Γ p) (s : Str) (t : GTy) : Reg ((v s, t) :: Γ) p := by
  have key : ∀ b, look ((v s, t) :: Γ) (own [] p b) = look Γ (own [] p b) := fun b => by
    rw [look_cons, if_neg (by simp [GoCode.own, v])]
  exact ⟨by rw [key]; exact R.ref, by rw [key]; exact R.ok, by rw [key]; exact R.value, by rw [key]; exact R.map⟩

theorem pluralField_eq {k f : Str} (h : pluralField g k = .ok f) : ∃ c ∈ g.classes, c.name = k ∧ f = camel c.plural := by
  unfold pluralField at h
  split at h
  · rename_i c hc
    exact ⟨c, (find_mem hc).1, by simpa using (find_mem hc).2, GoTypes.camel_eq h⟩
  · cases h

/-- The context of the graph -/
def graphCtx (g : Graph) : Ctx :=
  ⟨g, GoCode.enumeratePatterns g, fun c => do pure (.field (x c!"target") (← pluralField g c))⟩

theorem Has.field {e : Expr} {t u : GTy} {f : Str} (he : Has W Γ n e (.val t)) (hm : member W t f = some u) :
    Has W Γ n (.field e f) (.val u) := ⟨he.1, by rw [infer, he.2, Res.type?, Option.bind_some, hm]; rfl⟩

theorem Has.index {e i : Expr} {t u : GTy} {r : Res} (he : Has W Γ n e (.val t)) (hi : Has W Γ n i r)
    (h : element t r = some u) : Has W Γ n (.index e i) (.val u) :=
  ⟨names_two he.1 hi.1, by rw [infer, he.2, Res.type?, Option.bind_some, hi.2, Option.bind_some, h]; rfl⟩

theorem GBody.setting (K : GraphKnown W g) (B : GBody g Γ) : Setting W (graphCtx g) Γ 0 := by
  refine ⟨B.quiet, B.errors, fun c e h => ?_⟩
  obtain ⟨f, hf, h⟩ := GoCode.ok_bind h
  cases h
  obtain ⟨d, hd, rfl, rfl⟩ := pluralField_eq hf
  exact .field (.x B.target) (K.fields d hd)

/-- An assignment to an entry of a map -/
theorem tgt_entry {e i : Expr} {t : GTy} {r : Res} {a : Bool} (he : Has W Γ n e (.val (.map t))) (hi : Has W Γ n i r)
    (h : fits .string r = true) (ha : a = false) : Tgt W Γ n (.index e i) t a :=
  ⟨he.index hi (by rw [element, if_pos h]), by rw [assignable, he.2]; rfl, by simp [ha]⟩

theorem tgt_var {y : Name} {t : GTy} {a : Bool} (h : look Γ y = some t) (hy : Older n y) : Tgt W Γ n (.var y) t a :=
  ⟨.var h hy, rfl, fun _ => rfl⟩

theorem has_make (hq : Quiet Γ) {t : GTy} (ht : ∀ k ∈ t.names, (W.structs.lookup k).isSome = true) :
    infer W (look Γ) (.make (.map t)) = some (.val (.map t)) := by
  rw [infer, typeOk_of hq (t := .map t) (by simpa [GTy.names] using ht)]
  rfl

/-- The code to allocate the instances of a class, after the declarations of its variables -/
theorem acc_allocate (K : GraphKnown W g) (B : GBody g Γ) (R : Reg Γ p) {k : Class} (hk : k ∈ g.classes) :
    Acc W Γ 0 (.assign₂ (.var (own [] p c!"Value")) (.var (own [] p c!"Ok")) (.index (x c!"cast") .text)
      (.test (.var (own [] p c!"Ok"))
      (.block (.assign₂ (.var (own [] p c!"Map")) (x c!"ok") (.assert (.var (own [] p c!"Value")) (.map .any))
        (.test (.not (x c!"ok")) (.block (reportAt (.var (own [] p c!"Ref")) (.var (own [] p c!"Value")))
        (.block (.assign (.field (x c!"target") (camel k.plural)) (.make (.map (.ptr (.named (camel k.name)))))
          (.range (v c!"id") none (.var (own [] p c!"Map")) (match k.idPattern with
            | some pat => .test (.not (callWith (.method (.var (patternName (GoCode.enumeratePatterns g) pat)) c!"MatchString") [x c!"id"]))
                (.block (reportAt (.var (own [] p c!"Ref")) (x c!"id"))
                (.block (.assign (.index (.field (x c!"target") (camel k.plural)) (x c!"id")) (.new (camel k.name)) .done) .done))
            | none => .assign (.index (.field (x c!"target") (camel k.plural)) (x c!"id")) (.new (camel k.name)) .done) .done)) .done)))) .done))) true := by
  have hcast := Has.x (W := W) (n := 0) B.cast
  have hval := Has.var (W := W) (n := 0) R.value trivial
  have hS := B.setting K
  refine .assign₂ (t := .any) (u := .bool) ?_ ((tgt_var (n := 0) (a := false) R.value trivial).stores rfl)
    ((tgt_var (n := 0) (a := false) R.ok trivial).stores rfl) (.test (Has.var (n := 0) R.ok trivial).2
    (.otherwise (m := 0) (.assign₂ (t := .map .any) (u := .bool) ?_ ((tgt_var (n := 0) (a := false) R.map trivial).stores (fits_self _))
      ((tgt_var (n := 0) (a := false) (y := v c!"ok") B.ok trivial).stores rfl)
      (.test (by rw [infer, if_pos (Has.x (n := 0) B.ok).2])
        (.block' (m := 0) (acc_reportAt (n := 0) K.known hS (.var R.ref trivial) hval) (.otherwise (m := 0)
          (.assign (has_make B.quiet (t := .ptr (.named (camel k.name))) (by simpa [GTy.names] using K.classes k hk))
            ((tgt_field (n := 0) (a := false) (.x B.target) (K.fields k hk)).stores (fits_self _))
            (.range (m := 0) (b := true) (b' := true) (t := .string) (u := .any) (by rw [(Has.var (W := W) (n := 0) R.map trivial).2]; rfl) ?_ .done))))))))
  · rw [infer₂, hcast.2, infer, hcast.2]
    rfl
  · rw [infer₂, infer, if_pos ⟨hval.2, typeOk_of B.quiet (by simp [GTy.names])⟩]
    rfl
  · have B' := B.more (s := c!"id") .string (.inl rfl)
    have R' := R.more c!"id" .string
    have hid : Has W ((v c!"id", .string) :: Γ) 0 (x c!"id") (.val .string) := .x (by rw [look_cons, if_pos rfl])
    have halloc : Acc W ((v c!"id", .string) :: Γ) 0
        (.assign (.index (.field (x c!"target") (camel k.plural)) (x c!"id")) (.new (camel k.name)) .done) true := by
      refine .assign (s := .val (.ptr (.named (camel k.name)))) ?_
        ((tgt_entry (n := 0) (a := false) (.field (.x B'.target) (K.fields k hk)) hid rfl rfl).stores (fits_self _)) .done
      rw [infer, if_pos (typeOk_of B'.quiet (by simpa [GTy.names] using K.classes k hk))]
    rw [bindOpt]
    cases hp : k.idPattern with
    | none => exact halloc
    | some pat =>
      obtain ⟨i, hi, hi'⟩ := K.known.pattern pat (.inr ⟨k, hk, hp⟩)
      have hpat : Has W ((v c!"id", .string) :: Γ) 0 (.var (patternName (GoCode.enumeratePatterns g) pat)) (.val (.ptr .regexp)) := by
        rw [hi]
        exact ⟨by simp [Expr.names, Older], by rw [infer, B'.quiet.none (y := .pattern i) trivial]; dsimp only; rw [hi']; rfl⟩
      have hm : Has W ((v c!"id", .string) :: Γ) 0
          (callWith (.method (.var (patternName (GoCode.enumeratePatterns g) pat)) c!"MatchString") [x c!"id"]) (.val .bool) :=
        .call ((hpat.method K.known.regexp).args (us := [.string]) (.cons ⟨_, hid, rfl⟩ .nil))
      exact .test (by rw [infer, if_pos hm.2]) (.block' (m := 0) (acc_reportAt (n := 0) K.known (B'.setting K) (.var R'.ref trivial) hid)
        (.otherwise (m := 0) halloc))

/-- The code to allocate the instances of a class declares the variables of the class. -/
theorem run_preallocate (K : GraphKnown W g) (B : GBody g Γ) {k : Class} (hk : k ∈ g.classes)
    (h : preallocate (GoCode.enumeratePatterns g) k = .ok c) : ∃ Γ' p, run W sameName Γ c = some Γ' ∧ GBody g Γ' ∧
      camelCase k.plural = .ok p ∧ Reg Γ' p ∧ ∀ q, Reg Γ q → Reg Γ' q := by
  unfold preallocate at h
  obtain ⟨p, hp, h⟩ := GoCode.ok_bind h
  obtain ⟨f, hf, h⟩ := GoCode.ok_bind h
  obtain ⟨m, hm, h⟩ := GoCode.ok_bind h
  obtain ⟨_, _, h⟩ := GoCode.ok_bind h
  cases h
  cases GoTypes.camel_eq hf
  cases GoTypes.camel_eq hm
  have B1 := B.own (p := p) c!"Ref" .string
  have B2 := B1.own (p := p) c!"Ok" .bool
  have B3 := B2.own (p := p) c!"Value" .any
  have B4 := B3.own (p := p) c!"Map" (.map .any)
  generalize hΔ : ((own [] p c!"Map", GTy.map .any) :: (own [] p c!"Value", .any) :: (own [] p c!"Ok", .bool) ::
    (own [] p c!"Ref", .string) :: Γ) = Δ at B4
  have R : ∀ q, q = p ∨ Reg Γ q → Reg Δ q := by
    intro q hq
    rw [← hΔ]
    by_cases heq : q = p
    · subst heq
      constructor <;> simp [look_cons, GoCode.own]
    · have hR := hq.resolve_left heq
      have hne : ∀ s t, ¬ own [] p s = own [] q t := by simp [GoCode.own, Ne.symm heq]
      constructor <;> simp only [look_cons, hne, if_false]
      · exact hR.ref
      · exact hR.ok
      · exact hR.value
      · exact hR.map
  obtain ⟨Γ', hrun, hx⟩ := acc_allocate K B4 (R p (.inl rfl)) hk
  refine ⟨Γ', p, ?_, B4.ext hx, hp, (R p (.inl rfl)).ext hx, fun q hq => (R q (.inr hq)).ext hx⟩
  have href : infer W (look Γ) (.plus (x c!"ref") .text) = some (.val .string) := by
    rw [infer, (Has.x (n := 0) B.ref).2]
    rfl
  have hty : ∀ {Γ : Env}, GBody g Γ → ∀ t : GTy, t.names = [] → typeOk W (look Γ) t = true :=
    fun B t ht => typeOk_of B.quiet (by simp [ht])
  rw [run, href, Option.bind_some, show default (.val .string) = some .string from rfl, Option.bind_some, run, if_pos (hty B1 _ rfl),
    run, if_pos (hty B2 _ rfl), run, if_pos (hty B3 _ rfl), hΔ]
  exact hrun

theorem run_allocates (K : GraphKnown W g) {ks : List Class} : ∀ {Γ : Env} {cs : List Code}, GBody g Γ → (∀ k ∈ ks, k ∈ g.classes) →
    ks.mapM (preallocate (GoCode.enumeratePatterns g)) = .ok cs → ∃ Γ', run W sameName Γ (concat cs) = some Γ' ∧ GBody g Γ' ∧
      (∀ k ∈ ks, ∃ p, camelCase k.plural = .ok p ∧ Reg Γ' p) ∧ ∀ q, Reg Γ q → Reg Γ' q := by
  induction ks with
  | nil =>
    intro Γ cs B _ h
    cases h
    exact ⟨Γ, rfl, B, by simp, fun _ h => h⟩
  | cons k ks ih =>
    intro Γ cs B hks h
    obtain ⟨c, cs', hc, hcs, rfl⟩ := GoCode.mapM_cons h
    obtain ⟨Γ1, p, h1, B1, hp, R1, K1⟩ := run_preallocate K B (hks k (by simp)) hc
    obtain ⟨Γ2, h2, B2, R2, K2⟩ := ih B1 (fun k hk => hks k (by simp [hk])) hcs
    refine ⟨Γ2, ?_, B2, ?_, fun q hq => K2 q (K1 q hq)⟩
    · rw [concat, List.foldr_cons, run_append, h1]
      exact h2
    · intro k' hk'
      rcases List.mem_cons.1 hk' with rfl | hk'
      · exact ⟨p, hp, K2 p R1⟩
      · exact R2 k' hk'

theorem args_fields (K : GraphKnown W g) (B : GBody g Γ) {refs : List Str} : ∀ {fields : List Str}, refs.mapM (pluralField g) = .ok fields →
    Args W Γ n (fields.map fun f => .field (x c!"target") f) (refs.map registryTy) := by
  induction refs with
  | nil =>
    intro fields h
    cases h
    exact .nil
  | cons r refs ih =>
    intro fields h
    obtain ⟨y, ys, hy, hys, rfl⟩ := GoCode.mapM_cons h
    obtain ⟨d, hd, rfl, rfl⟩ := pluralField_eq hy
    exact .cons ⟨_, .field (.x B.target) (K.fields d hd), fits_self _⟩ (ih hys)

/-- The code to parse the instances of a class -/
theorem acc_instances (K : GraphKnown W g) (B : GBody g Γ) {k : Class} (hk : k ∈ g.classes)
    (R : ∃ p, camelCase k.plural = .ok p ∧ Reg Γ p) (h : parseInstances g k = .ok c) : Acc W Γ 0 c true := by
  unfold parseInstances at h
  obtain ⟨p, hp, h⟩ := GoCode.ok_bind h
  obtain ⟨f, hf, h⟩ := GoCode.ok_bind h
  obtain ⟨m, hm, h⟩ := GoCode.ok_bind h
  obtain ⟨refs, hrefs, h⟩ := GoCode.ok_bind h
  obtain ⟨fields, hfields, h⟩ := GoCode.ok_bind h
  cases h
  cases GoTypes.camel_eq hf
  cases GoTypes.camel_eq hm
  obtain ⟨p', hp', R⟩ := R
  rw [hp'] at hp
  cases hp
  have hS := B.setting K
  have hfull : ∀ {Γ : Env}, GBody g Γ → Acc W Γ 0 (.test full (.block .done .done)) true :=
    fun B => .test (has_full K.known (B.setting K)).2 (.block' (m := 0) .done .done)
  refine .test (Has.var (n := 0) R.ok trivial).2 (.block' (m := 0) (.range (m := 0) (b := true) (b' := true) (t := .string) (u := .any)
    (by rw [(Has.var (W := W) (n := 0) R.map trivial).2]; rfl) ?_ .done) (hfull B))
  rw [bindOpt]
  have B' := (B.more (s := c!"id") .string (.inl rfl)).more (s := c!"value") .any (.inr rfl)
  have R' := (R.more c!"id" .string).more c!"value" .any
  have hid : Has W ((v c!"value", .any) :: (v c!"id", .string) :: Γ) 0 (x c!"id") (.val .string) :=
    .x (by rw [look_cons, if_neg (by simp [v]), look_cons, if_pos rfl])
  have hv : Has W ((v c!"value", .any) :: (v c!"id", .string) :: Γ) 0 (x c!"value") (.val .any) :=
    .x (by rw [look_cons, if_pos rfl])
  have hregs : Args W ((v c!"value", .any) :: (v c!"id", .string) :: Γ) 0 (fields.map (fun f => .field (x c!"target") f)) (refs.map registryTy) :=
    args_fields K B' hfields
  have hargs : Args W ((v c!"value", .any) :: (v c!"id", .string) :: Γ) 0 (x c!"value" :: x c!"id" ::
        (fields.map (fun f => .field (x c!"target") f) ++
        [join [.var (own [] p c!"Ref"), x c!"id"], .index (.field (x c!"target") (camel k.plural)) (x c!"id"), errors]))
      (.any :: .string :: (refs.map registryTy ++ [.string, .ptr (.named (camel k.name)), errorsTy])) :=
    .cons ⟨_, hv, rfl⟩ (.cons ⟨_, hid, rfl⟩ (args_append hregs (.cons ⟨_, has_join B'.quiet (.cons (.var R'.ref trivial) rfl (.cons hid rfl .nil)), rfl⟩
      (.cons ⟨_, .index (u := .ptr (.named (camel k.name))) (.field (.x B'.target) (K.fields k hk)) hid rfl, fits_self _⟩
      (.cons ⟨_, has_errors (B'.setting K), rfl⟩ .nil)))))
  refine .eval (r := .many []) (Has.call₀ (more := false) (Has.args (ts := []) hargs ?_)).2 (hfull B')
  rw [List.append_nil]
  exact .fn B'.quiet (K.parses k hk refs hrefs)

theorem acc_allInstances (K : GraphKnown W g) {ks : List Class} : ∀ {Γ : Env} {cs : List Code}, GBody g Γ → (∀ k ∈ ks, k ∈ g.classes) →
    (∀ k ∈ ks, ∃ p, camelCase k.plural = .ok p ∧ Reg Γ p) → ks.mapM (parseInstances g) = .ok cs → Acc W Γ 0 (concat cs) true := by
  induction ks with
  | nil =>
    intro Γ cs B _ _ h
    cases h
    exact .done
  | cons k ks ih =>
    intro Γ cs B hks R h
    obtain ⟨c, cs', hc, hcs, rfl⟩ := GoCode.mapM_cons h
    exact .append (b := true) (b' := true) (acc_instances K B (hks k (by simp)) (R k (by simp)) hc) fun Γ' hx =>
      ih (B.ext hx) (fun k hk => hks k (by simp [hk])) (fun k hk => (R k (by simp [hk])).imp fun p h => ⟨h.1, h.2.ext hx⟩) hcs

theorem Okay.append (h : ∃ Γ', run W sameName Γ c = some Γ' ∧ Okay W Γ' d b) : Okay W Γ (c ++ d) b := by
  obtain ⟨Γ', h1, h2⟩ := h
  unfold Okay at *
  rw [run_append, h1]
  exact h2

/-- The function of the graph -/
theorem ok_parseGraph (K : GraphKnown W g) {f : Func} (hn : ∀ p ∈ g.properties, ucamelCase p.name = .ok (camel p.name))
    (hm : ∀ p ∈ g.properties, member W (.ptr (.named (camel g.name))) (camel p.name) = some (pureField p).2)
    (ht : ∀ p ∈ g.properties, ∀ u ∈ parts p.ty, Occurs g u)
    (h : parseGraph g (GoCode.enumeratePatterns g) = .ok f) :
    f.ok W sameName = g.properties.all fun p => boundsOk p.ty := by
  unfold parseGraph at h
  obtain ⟨alloc, halloc, h⟩ := GoCode.ok_bind h
  obtain ⟨insts, hinsts, h⟩ := GoCode.ok_bind h
  obtain ⟨props, hprops, h⟩ := GoCode.ok_bind h
  obtain ⟨k, hk, h⟩ := GoCode.ok_bind h
  cases h
  cases GoTypes.camel_eq hk
  unfold Func.ok
  have hall : ((v c!"value", GTy.any) :: restParams (camel g.name) ++ []).all (fun e => typeOk W (fun _ => none) e.2) = true := by
    have key : ∀ t : GTy, (∀ k ∈ t.names, (W.structs.lookup k).isSome = true) → typeOk W (fun _ => none) t = true :=
      fun t ht => typeOk_of (Γ := []) (by simp [Quiet]) ht
    simp only [restParams, List.append_nil, List.all_cons, List.all_nil, Bool.and_true, Bool.and_eq_true]
    exact ⟨key _ (by simp [GTy.names]), key _ (by simp [GTy.names]), key _ fun k hk => by cases List.mem_singleton.1 hk; exact K.graph,
      key _ fun k hk => by cases List.mem_singleton.1 hk; exact K.errors⟩
  rw [hall, Bool.true_and]
  have hΓ : ((v c!"value", GTy.any) :: restParams (camel g.name) ++ []).reverse =
    [(v c!"errors", errorsTy), (v c!"target", .ptr (.named (camel g.name))), (v c!"ref", .string), (v c!"value", .any)] := rfl
  simp only
  rw [hΓ]
  have B : GBody g ((v c!"ok", .bool) :: (v c!"cast", .map .any) ::
      [(v c!"errors", errorsTy), (v c!"target", .ptr (.named (camel g.name))), (v c!"ref", .string), (v c!"value", .any)]) := by
    constructor
    · intro e he
      simp only [List.mem_cons, List.not_mem_nil, or_false] at he
      rcases he with rfl | rfl | rfl | rfl | rfl | rfl <;> exact id
    all_goals simp [look_cons, v]
  have hq : Quiet [(v c!"errors", errorsTy), (v c!"target", .ptr (.named (camel g.name))), (v c!"ref", .string), (v c!"value", .any)] := by
    intro e he
    exact B.quiet e (by simp [he])
  have S : Setting W (graphCtx g) [(v c!"errors", errorsTy), (v c!"target", .ptr (.named (camel g.name))), (v c!"ref", .string), (v c!"value", .any)] 0 := by
    refine ⟨hq, by simp [look_cons], fun c e h => ?_⟩
    obtain ⟨f, hf, h⟩ := GoCode.ok_bind h
    cases h
    obtain ⟨d, hd, rfl, rfl⟩ := pluralField_eq hf
    exact .field (.x (by simp [look_cons, v])) (K.fields d hd)
  refine okay_preamble K.known S (by simp [look_cons, v]; rfl) (.define₂ (t := .map .any) (u := .bool) ?_ ?_)
  · rw [infer₂, infer, if_pos ⟨(Has.x (n := 0) (by simp [look_cons, v])).2, typeOk_of hq (by simp [GTy.names])⟩]
    rfl
  rw [bindOpt]
  refine .test (by rw [infer, if_pos (Has.x (n := 0) B.ok).2]) (.block (n := 0)
    (acc_reportAt (n := 0) K.known (B.setting K) (.x B.ref) (.x (by simp [look_cons, v]; rfl))) ?_)
  obtain ⟨Γ1, h1, B1, R1, _⟩ := run_allocates K B (fun _ h => h) halloc
  have h2 : Acc W Γ1 0 (if g.classes.isEmpty = true then .done else .test (.not noErrors) (.block .done .done)) true := by
    split
    · exact .done
    · exact .test (by rw [infer, if_pos (has_noErrors K.known (B1.setting K)).2]) (.block' (m := 0) .done .done)
  obtain ⟨Γ2, h2, hx2⟩ := h2
  have B2 := B1.ext hx2
  obtain ⟨Γ3, h3, hx3⟩ := acc_allInstances K B2 (fun _ h => h) (fun k hk => (R1 k hk).imp fun p h => ⟨h.1, h.2.ext hx2⟩) hinsts
  have B3 := B2.ext hx3
  refine .append ⟨Γ3, ?_, (acc_parseProps (ctx := graphCtx g) K.known rfl rfl ht hn hm ⟨B3.setting K, B3.cast, B3.ref, B3.target⟩ hprops).okay⟩
  rw [run_append, run_append, h1, Option.bind_some, h2, Option.bind_some, h3]

end

end Mapry.GoTyped
