import Verif.GoAcceptParse

/-!
# When the types in the generated Go code are accepted: the parsing functions
-/

namespace Mapry.GoTyped

open Mapry.TypeGraph Mapry.Naming
open Mapry.GoTypes (GTy typeRepr camel pureRepr pureField)
open Mapry.GoCheck
open Mapry.GoCode (Name isPointer patternName referencesOf pluralField registryParam v vi own)

/-! ## Properties -/

/-- The variables of a parsing function -/
structure Body (W : World) (ctx : Ctx) (Γ : Env) (owner : Str) : Prop where
  setting : Setting W ctx Γ 0
  cast : look Γ (v c!"cast") = some (.map .any)
  ref : look Γ (v c!"ref") = some .string
  target : look Γ (v c!"target") = some (.ptr (.named owner))

section
variable {W : World} {g : Graph} {ctx : Ctx} {Γ Γ' : Env} {n m : Nat} {b b' : Bool} {c d : Code} {owner : Str}

theorem Body.ext (B : Body W ctx Γ owner) (h : Ext 0 Γ Γ') : Body W ctx Γ' owner :=
  ⟨B.setting.ext h (Nat.le_refl 0), by rw [h.look (y := v c!"cast") trivial]; exact B.cast,
    by rw [h.look (y := v c!"ref") trivial]; exact B.ref, by rw [h.look (y := v c!"target") trivial]; exact B.target⟩

theorem Setting.up (h : Setting W ctx Γ 0) : Setting W ctx Γ n := h.ext (.refl ..) (Nat.zero_le n)

/-- A field of a structure which is pointed to -/
theorem tgt_field {e : Expr} {s f : Str} {t : GTy} {a : Bool} (he : Has W Γ n e (.val (.ptr (.named s))))
    (hm : member W (.ptr (.named s)) f = some t) : Tgt W Γ n (.field e f) t a :=
  ⟨⟨he.1, by rw [infer, he.2, Res.type?, Option.bind_some, hm]; rfl⟩, by
    rw [assignable]
    · rw [infer.addressable, he.2]
      rfl
    · simp, fun _ => by
    rw [infer.addressable, he.2]
    rfl⟩

/-- The code to parse a property -/
theorem acc_parseProperty (K : Known W g) (hg : ctx.graph = g) (hu : ctx.uids = GoCode.enumeratePatterns g)
    (B : Body W ctx Γ owner) {p : Property} (ht : ∀ u ∈ parts p.ty, Occurs g u) (hn : ucamelCase p.name = .ok (camel p.name))
    (hm : member W (.ptr (.named owner)) (camel p.name) = some (pureField p).2)
    (h : parseProperty ctx p n = .ok (c, m)) : Acc W Γ n c (boundsOk p.ty) := by
  unfold parseProperty at h
  rw [hn] at h
  obtain ⟨_, hf, h⟩ := GoCode.ok_bind h
  cases hf
  obtain ⟨⟨parsing, k⟩, hp, h⟩ := GoCode.ok_bind h
  rw [K.repr ht] at h
  obtain ⟨_, hT, h⟩ := GoCode.ok_bind h
  cases hT
  have hx : Ext n Γ ((vi c!"ok" n, .bool) :: (vi c!"value" n, .any) :: Γ) := ((Ext.refl ..).cons (fresh_vi ..) _).cons (fresh_vi ..) _
  have B' := B.ext (hx.mono (Nat.zero_le n))
  have hv : Has W ((vi c!"ok" n, .bool) :: (vi c!"value" n, .any) :: Γ) (n + 1) (xi c!"value" n) (.val .any) :=
    .xi (by rw [look_cons, if_neg (by simp [vi]), look_cons, if_pos rfl]) (by omega)
  have hok : Has W ((vi c!"ok" n, .bool) :: (vi c!"value" n, .any) :: Γ) (n + 1) (xi c!"ok" n) (.val .bool) :=
    .xi (by rw [look_cons, if_pos rfl]) (by omega)
  have hnot : infer W (look ((vi c!"ok" n, .bool) :: (vi c!"value" n, .any) :: Γ)) (.not (xi c!"ok" n)) = some (.val .bool) := by
    rw [infer, if_pos hok.2]
  have hi : infer₂ W (look Γ) (.index (x c!"cast") .text) = some (.any, .bool) := by
    have := (Has.x (W := W) (n := 0) B.cast).2
    rw [infer₂, infer, this]
    rfl
  have href : ∀ Γ', Body W ctx Γ' owner → All W Γ' (n + 1) .string [x c!"ref", .text] :=
    fun Γ' B => .cons (.x B.ref) rfl (.cons .text rfl .nil)
  have hfield : ∀ Γ' a, Body W ctx Γ' owner → Tgt W Γ' (n + 1) (.field (x c!"target") (camel p.name)) (pureField p).2 a :=
    fun Γ' a B => tgt_field (.x B.target) hm
  simp only at h hp
  cases ho : p.optional with
  | false =>
    rw [ho] at h hp
    simp only [Bool.not_false, Bool.true_or, if_true] at h hp
    cases h
    have hT : (pureField p).2 = pureRepr p.ty := by unfold GoTypes.pureField; rw [ho]; rfl
    refine .define₂ hi (fresh_vi ..) (fresh_vi ..) (.test hnot (.block' (m := n)
      (.eval (has_add K B'.setting (.x B'.ref) rfl .text rfl).2 .done)
      (.otherwise (m := n + 1) (acc_parseValue K hg hu p.ty ht B'.setting.up hp hv (href _ B') ?_))))
    rw [← hT]
    exact hfield _ _ B'
  | true =>
    rw [ho] at h hp
    simp only [Bool.not_true, Bool.false_or] at h hp
    cases hptr : isPointer p.ty with
    | true =>
      rw [hptr] at h hp
      simp only [if_true] at h hp
      cases h
      have hT : (pureField p).2 = pureRepr p.ty := by unfold GoTypes.pureField; rw [ho, hptr]; rfl
      refine .define₂ hi (fresh_vi ..) (fresh_vi ..) (.test hok.2
        (.otherwise (m := n + 1) (acc_parseValue K hg hu p.ty ht B'.setting.up hp hv (href _ B') ?_)))
      rw [← hT]
      exact hfield _ _ B'
    | false =>
      rw [hptr] at h hp
      simp only [Bool.false_eq_true, if_false] at h hp
      cases h
      have hT : (pureField p).2 = .ptr (pureRepr p.ty) := by unfold GoTypes.pureField; rw [ho, hptr]; rfl
      have hx2 : Ext n Γ ((vi c!"target" n, pureRepr p.ty) :: (vi c!"ok" n, .bool) :: (vi c!"value" n, .any) :: Γ) :=
        hx.cons (fresh_vi ..) _
      have B2 := B.ext (hx2.mono (Nat.zero_le n))
      have ht2 : Has W ((vi c!"target" n, pureRepr p.ty) :: (vi c!"ok" n, .bool) :: (vi c!"value" n, .any) :: Γ) (n + 1)
        (xi c!"target" n) (.val (pureRepr p.ty)) := .xi (by rw [look_cons, if_pos rfl]) (by omega)
      have hv2 : Has W ((vi c!"target" n, pureRepr p.ty) :: (vi c!"ok" n, .bool) :: (vi c!"value" n, .any) :: Γ) (n + 1)
        (xi c!"value" n) (.val .any) := .xi (by
          rw [look_cons, if_neg (by simp [vi]), look_cons, if_neg (by simp [vi]), look_cons, if_pos rfl]) (by omega)
      refine .define₂ hi (fresh_vi ..) (fresh_vi ..) (.test hok.2 (.otherwise (m := n) (.var (K.typeOk B'.setting.quiet ht) (fresh_vi ..)
        (.mono (m := n + 1) (.of_eq (.append (b' := true) (acc_parseValue K hg hu p.ty ht B2.setting.up hp hv2 (href _ B2)
          ⟨ht2, rfl, fun _ => rfl⟩) fun Γ₃ hx3 => ?_) (Bool.and_true _)) (Nat.le_succ n)))))
      have ht3 := ht2.ext hx3 (Nat.le_refl _)
      have hf := hfield Γ₃ false (B2.ext (hx3.mono (Nat.zero_le _)))
      rw [hT] at hf
      have haddr : infer W (look Γ₃) (.addr (xi c!"target" n)) = some (.val (.ptr (pureRepr p.ty))) := by
        rw [infer]
        have ha : infer.addressable W (look Γ₃) (xi c!"target" n) = true := rfl
        rw [ha, if_pos rfl, ht3.2]
        rfl
      exact acc_store hf haddr

/-- The code to parse the properties of a composite -/
theorem acc_parseProps (K : Known W g) (hg : ctx.graph = g) (hu : ctx.uids = GoCode.enumeratePatterns g) {ps : List Property}
    (ht : ∀ p ∈ ps, ∀ u ∈ parts p.ty, Occurs g u) (hn : ∀ p ∈ ps, ucamelCase p.name = .ok (camel p.name))
    (hm : ∀ p ∈ ps, member W (.ptr (.named owner)) (camel p.name) = some (pureField p).2) :
    ∀ {Γ : Env} {n : Nat} {c : Code}, Body W ctx Γ owner → parseProps ctx ps n = .ok c →
      Acc W Γ 0 c (ps.all fun p => boundsOk p.ty) := by
  induction ps with
  | nil =>
    intro Γ n c B h
    cases h
    exact .done
  | cons p ps ih =>
    intro Γ n c B h
    rw [parseProps] at h
    obtain ⟨⟨d, m⟩, hd, h⟩ := GoCode.ok_bind h
    obtain ⟨rest, hrest, h⟩ := GoCode.ok_bind h
    cases h
    rw [List.all_cons]
    refine .append (.mono (acc_parseProperty K hg hu B (ht p (by simp)) (hn p (by simp)) (hm p (by simp)) hd) (Nat.zero_le n))
      fun Γ' hx => ?_
    have B' := B.ext hx
    exact .test (has_full K B'.setting).2 (.block' (m := 0) .done
      (ih (fun p hp => ht p (by simp [hp])) (fun p hp => hn p (by simp [hp])) (fun p hp => hm p (by simp [hp])) B' hrest))

/-! ## Functions -/

/-- Whether the code is accepted -/
def Okay (W : World) (Γ : Env) (c : Code) (b : Bool) : Prop := (run W sameName Γ c).isSome = b

theorem Acc.okay (h : Acc W Γ n c b) : Okay W Γ c b := by
  unfold Okay
  cases b with
  | false => rw [show run W sameName Γ c = none from h]; rfl
  | true =>
    obtain ⟨Γ', h, _⟩ := h
    rw [h]
    rfl

theorem Okay.same (h : Okay W Γ' c b) (he : run W sameName Γ d = run W sameName Γ' c) : Okay W Γ d b := by
  unfold Okay at *
  rw [he]
  exact h

theorem Okay.test {e : Expr} (he : infer W (look Γ) e = some (.val .bool)) (h : Okay W Γ c b) : Okay W Γ (.test e c) b :=
  h.same (by rw [run, if_pos he])

theorem Okay.block (h : Acc W Γ n c true) (h' : Okay W Γ d b) : Okay W Γ (.block c d) b := by
  obtain ⟨Γ', h1, _⟩ := h
  exact h'.same (by rw [run, h1]; rfl)

theorem Okay.assign {l r : Expr} {s : Res} (hr : infer W (look Γ) r = some s) (hl : stores W (look Γ) l s = true)
    (h : Okay W Γ c b) : Okay W Γ (.assign l r c) b :=
  h.same (by rw [run, hr, Option.bind_some, if_pos hl])

theorem Okay.define₂ {y : Option Name} {z : Name} {e : Expr} {t u : GTy} (he : infer₂ W (look Γ) e = some (t, u))
    (h : Okay W ((z, u) :: bindOpt y t Γ) c b) : Okay W Γ (.define₂ y z e c) b :=
  h.same (by rw [run, he]; rfl)

theorem look_of {Γ : Env} {y : Name} {t : GTy} (h : ∃ e ∈ Γ, e.1 = y) (ht : ∀ e ∈ Γ, e.1 = y → e.2 = t) : look Γ y = some t := by
  induction Γ with
  | nil => simp at h
  | cons e Γ ih =>
    rw [show e = (e.1, e.2) from rfl, look_cons]
    by_cases he : e.1 = y
    · rw [if_pos he, ht e (by simp) he]
    · rw [if_neg he]
      refine ih ?_ fun e he => ht e (by simp [he])
      obtain ⟨e', he', h'⟩ := h
      rcases List.mem_cons.1 he' with rfl | he'
      · exact absurd h' he
      · exact ⟨e', he', h'⟩

/-- The checks at the start -/
theorem okay_preamble (K : Known W g) (S : Setting W ctx Γ 0) {t : GTy} (ht : look Γ (v c!"target") = some (.ptr t))
    (h : Okay W Γ c b) : Okay W Γ (preamble c) b := by
  have h1 := (Has.x (W := W) (n := 0) ht).2
  have h2 := (has_errors S).2
  refine .test ?_ (.block (n := 0) .done (.test ?_ (.block (n := 0) .done (.test ?_ (.block (n := 0) .done h)))))
  · rw [infer, h1, Option.bind_some, infer, Option.bind_some]
    rfl
  · rw [infer, h2, Option.bind_some, infer, Option.bind_some]
    rfl
  · rw [infer, if_pos (has_noErrors K S).2]

theorem acc_reportAt (K : Known W g) (S : Setting W ctx Γ n) {ref value : Expr} {t : GTy} (hr : Has W Γ n ref (.val .string))
    (hv : Has W Γ n value (.val t)) : Acc W Γ m (reportAt ref value) true :=
  .eval (has_add K S hr rfl (has_sprintf S.quiet (.any hv .nil)) rfl).2 .done

theorem zip_types {refs : List Str} : ∀ {xs : List Name} {ts : List GTy}, refs.mapM (registryParam g) = .ok xs →
    refs.mapM registryType = .ok ts → Forall₂ (fun r e => registryParam g r = .ok e.1 ∧ e.2 = registryTy r) refs (xs.zip ts) := by
  induction refs with
  | nil =>
    intro xs ts hx ht
    cases hx
    exact .nil
  | cons r refs ih =>
    intro xs ts hx ht
    obtain ⟨y, ys, hy, hys, rfl⟩ := GoCode.mapM_cons hx
    obtain ⟨u, us, hu, hus, rfl⟩ := GoCode.mapM_cons ht
    obtain ⟨k, hk, hu⟩ := GoCode.ok_bind hu
    cases hu
    exact .cons ⟨hy, by rw [GoTypes.camel_eq hk]⟩ (ih hys hus)

theorem registries_types {refs : List Str} {ps : List (Name × GTy)} (h : registries g refs = .ok ps) :
    Forall₂ (fun r e => registryParam g r = .ok e.1 ∧ e.2 = registryTy r) refs ps := by
  unfold registries at h
  obtain ⟨xs, hx, h⟩ := GoCode.ok_bind h
  obtain ⟨ts, ht, h⟩ := GoCode.ok_bind h
  cases h
  exact zip_types hx ht

theorem forall₂_right {α β : Type} {R : α → β → Prop} {as : List α} {bs : List β} (h : Forall₂ R as bs) :
    ∀ y ∈ bs, ∃ a ∈ as, R a y := by
  induction h with
  | nil => simp
  | cons h _ ih =>
    intro y hy
    rcases List.mem_cons.1 hy with rfl | hy
    · exact ⟨_, by simp, h⟩
    · obtain ⟨a, ha, hr⟩ := ih y hy
      exact ⟨a, by simp [ha], hr⟩

theorem forall₂_left {α β : Type} {R : α → β → Prop} {as : List α} {bs : List β} (h : Forall₂ R as bs) :
    ∀ a ∈ as, ∃ y ∈ bs, R a y := by
  induction h with
  | nil => simp
  | cons h _ ih =>
    intro y hy
    rcases List.mem_cons.1 hy with rfl | hy
    · exact ⟨_, by simp, h⟩
    · obtain ⟨a, ha, hr⟩ := ih y hy
      exact ⟨a, by simp [ha], hr⟩

/-- The function of a class or an embed -/
theorem ok_parseComposite (K : Known W g) (hd : GoCode.PluralsDistinct g) {o : Owner} {name : Str} {isClass : Bool} {f : Func}
    (hs : (W.structs.lookup (camel name)).isSome = true) (he : (W.structs.lookup c!"Errors").isSome = true)
    (hc : ∀ c ∈ g.classes, (W.structs.lookup (camel c.name)).isSome = true)
    (hid : isClass = true → member W (.ptr (.named (camel name))) c!"ID" = some .string)
    (hn : ∀ p ∈ ownerProps g o, ucamelCase p.name = .ok (camel p.name))
    (hm : ∀ p ∈ ownerProps g o, member W (.ptr (.named (camel name))) (camel p.name) = some (pureField p).2)
    (ht : ∀ p ∈ ownerProps g o, ∀ u ∈ parts p.ty, Occurs g u)
    (h : parseComposite g (GoCode.enumeratePatterns g) o name isClass = .ok f) :
    f.ok W sameName = (ownerProps g o).all fun p => boundsOk p.ty := by
  unfold parseComposite at h
  obtain ⟨refs, hrefs, h⟩ := GoCode.ok_bind h
  obtain ⟨params, hparams, h⟩ := GoCode.ok_bind h
  obtain ⟨props, hprops, h⟩ := GoCode.ok_bind h
  obtain ⟨k, hk, h⟩ := GoCode.ok_bind h
  cases GoTypes.camel_eq hk
  cases h
  have hF := registries_types hparams
  have hR := forall₂_right hF
  have hL := forall₂_left hF
  have hown : ∀ e ∈ params, ∃ p, e.1 = own [] p c!"Registry" := by
    intro e he
    obtain ⟨r, _, hr, _⟩ := hR e he
    obtain ⟨_, _, _, p, _, hp⟩ := GoCode.registryParam_eq hr
    exact ⟨p, hp⟩
  unfold Func.ok
  generalize hΓ : ([(v c!"value", GTy.any)] ++ (if isClass = true then [(v c!"id", GTy.string)] else []) ++ params ++
    restParams (camel name) ++ []).reverse = Γ
  have hmem : ∀ e, e ∈ Γ ↔ e = (v c!"value", .any) ∨ (isClass = true ∧ e = (v c!"id", .string)) ∨ e ∈ params ∨ e ∈ restParams (camel name) := by
    intro e
    rw [← hΓ]
    cases isClass <;> simp <;> grind
  have lookv : ∀ b t, (v b, t) ∈ Γ → (∀ e, e = (v c!"value", GTy.any) ∨ e = (v c!"id", .string) ∨ e ∈ restParams (camel name) → e.1 = v b → e.2 = t) →
      look Γ (v b) = some t := by
    intro b t hin huniq
    refine look_of ⟨_, hin, rfl⟩ fun e he heq => ?_
    rcases (hmem e).1 he with h | ⟨_, h⟩ | h | h
    · exact huniq e (.inl h) heq
    · exact huniq e (.inr (.inl h)) heq
    · obtain ⟨p, hp⟩ := hown e h
      rw [hp] at heq
      cases heq
    · exact huniq e (.inr (.inr h)) heq
  have hvalue : look Γ (v c!"value") = some .any := lookv _ _ ((hmem _).2 (.inl rfl)) (by simp [restParams, v])
  have href : look Γ (v c!"ref") = some .string := lookv _ _ ((hmem _).2 (by simp [restParams])) (by simp [restParams, v])
  have htarget : look Γ (v c!"target") = some (.ptr (.named (camel name))) :=
    lookv _ _ ((hmem _).2 (by simp [restParams])) (by simp [restParams, v])
  have herrors : look Γ (v c!"errors") = some errorsTy := lookv _ _ ((hmem _).2 (by simp [restParams])) (by simp [restParams, v])
  have hquiet : Quiet Γ := by
    intro e he
    rcases (hmem e).1 he with rfl | ⟨_, rfl⟩ | h | h
    · exact id
    · exact id
    · obtain ⟨p, hp⟩ := hown e h
      rw [hp]
      exact id
    · simp only [restParams, List.mem_cons, List.not_mem_nil, or_false] at h
      rcases h with rfl | rfl | rfl <;> exact id
  have hall : ([(v c!"value", GTy.any)] ++ (if isClass = true then [(v c!"id", GTy.string)] else []) ++ params ++
      restParams (camel name) ++ []).all (fun e => typeOk W (fun _ => none) e.2) = true := by
    rw [List.all_eq_true]
    intro e hin
    have hin : e ∈ Γ := by rw [← hΓ]; exact List.mem_reverse.2 hin
    have key : ∀ t : GTy, (∀ k ∈ t.names, (W.structs.lookup k).isSome = true) → typeOk W (fun _ => none) t = true :=
      fun t ht => typeOk_of (Γ := []) (by simp [Quiet]) ht
    rcases (hmem e).1 hin with rfl | ⟨_, rfl⟩ | h | h
    · exact key _ (by simp [GTy.names])
    · exact key _ (by simp [GTy.names])
    · obtain ⟨r, _, hr, ht⟩ := hR e h
      obtain ⟨c, hcm, rfl, _⟩ := GoCode.registryParam_eq hr
      rw [ht]
      refine key _ fun k hk => ?_
      cases List.mem_singleton.1 hk
      exact hc c hcm
    · simp only [restParams, List.mem_cons, List.not_mem_nil, or_false] at h
      rcases h with rfl | rfl | rfl
      · exact key _ (by simp [GTy.names])
      · exact key _ fun k hk => by cases List.mem_singleton.1 hk; exact hs
      · exact key _ fun k hk => by cases List.mem_singleton.1 hk; exact he
  rw [hall, Bool.true_and]
  -- the registries
  let ctx : Ctx := ⟨g, GoCode.enumeratePatterns g, fun c => if c ∈ refs then do pure (.var (← registryParam g c)) else .error .keyError⟩
  have S : Setting W ctx Γ 0 := by
    refine ⟨hquiet, herrors, fun c e hce => ?_⟩
    change (if c ∈ refs then (do pure (.var (← registryParam g c)) : Except Exc Expr) else .error .keyError) = .ok e at hce
    split at hce
    · rename_i hcr
      obtain ⟨y, hy, hce⟩ := GoCode.ok_bind hce
      cases hce
      obtain ⟨e, hep, hey, _⟩ := hL c hcr
      have hyo : ∃ p, y = own [] p c!"Registry" := by
        obtain ⟨_, _, _, p, _, hp⟩ := GoCode.registryParam_eq hy
        exact ⟨p, hp⟩
      obtain ⟨p, rfl⟩ := hyo
      refine .var (look_of ⟨e, (hmem e).2 (.inr (.inr (.inl hep))), ?_⟩ fun e' he' heq => ?_) trivial
      · rw [hey] at hy
        exact Except.ok.inj hy
      · rcases (hmem e').1 he' with rfl | ⟨_, rfl⟩ | h | h
        · cases heq
        · cases heq
        · obtain ⟨r, _, hr, ht'⟩ := hR e' h
          rw [heq] at hr
          rw [ht', GoCode.registryParam_inj hd hr hy]
        · simp only [restParams, List.mem_cons, List.not_mem_nil, or_false] at h
          rcases h with rfl | rfl | rfl <;> cases heq
    · cases hce
  have hassert : infer₂ W (look Γ) (.assert (x c!"value") (.map .any)) = some (.map .any, .bool) := by
    have := (Has.x (W := W) (n := 0) hvalue).2
    rw [infer₂, infer, if_pos ⟨this, typeOk_of hquiet (by simp [GTy.names])⟩]
    rfl
  -- the body after the assertion
  have key : ∀ Γ' : Env, (∀ y, y ≠ v c!"cast" → y ≠ v c!"ok" → look Γ' y = look Γ y) → Quiet Γ' → look Γ' (v c!"ok") = some .bool →
      (ownerProps g o ≠ [] → look Γ' (v c!"cast") = some (.map .any)) →
      Okay W Γ' (.test (.not (x c!"ok")) (.block (reportAt (x c!"ref") (x c!"value"))
        (if isClass = true then .assign (.field (x c!"target") c!"ID") (x c!"id") props else props)))
        ((ownerProps g o).all fun p => boundsOk p.ty) := by
    intro Γ' hl hq hok hcast
    have hS : Setting W ctx Γ' 0 := by
      refine ⟨hq, by rw [hl _ (by simp [v]) (by simp [v])]; exact herrors, fun c e hce => ?_⟩
      have h1 := S.registry c e hce
      refine ⟨h1.1, ?_⟩
      rw [infer_congr W (ρ' := look Γ), h1.2]
      intro y hy
      change (if c ∈ refs then (do pure (.var (← registryParam g c)) : Except Exc Expr) else .error .keyError) = .ok e at hce
      split at hce
      · obtain ⟨z, hz, hce⟩ := GoCode.ok_bind hce
        cases hce
        obtain ⟨_, _, _, p, _, rfl⟩ := GoCode.registryParam_eq hz
        cases List.mem_singleton.1 hy
        exact hl _ (by simp [own, v]) (by simp [own, v])
      · cases hce
    have htarget' : look Γ' (v c!"target") = some (.ptr (.named (camel name))) := by rw [hl _ (by simp [v]) (by simp [v])]; exact htarget
    have href' : look Γ' (v c!"ref") = some .string := by rw [hl _ (by simp [v]) (by simp [v])]; exact href
    have hvalue' : look Γ' (v c!"value") = some .any := by rw [hl _ (by simp [v]) (by simp [v])]; exact hvalue
    have hprops' : Okay W Γ' props ((ownerProps g o).all fun p => boundsOk p.ty) := by
      by_cases hemp : ownerProps g o = []
      · rw [hemp] at hprops ⊢
        cases hprops
        rfl
      · exact (acc_parseProps K rfl rfl ht hn hm ⟨hS, hcast hemp, href', htarget'⟩ hprops).okay
    refine .test (by rw [infer, if_pos (Has.x (n := 0) hok).2]) (.block (n := 0) (acc_reportAt (n := 0) K hS (.x href') (.x hvalue')) ?_)
    cases hcl : isClass with
    | false => exact hprops'
    | true =>
      have hid' : look Γ' (v c!"id") = some .string := by
        rw [hl _ (by simp [v]) (by simp [v])]
        exact lookv _ _ ((hmem _).2 (by simp [hcl])) (by simp [restParams, v])
      exact .assign (Has.x (n := 0) hid').2 ((tgt_field (n := 0) (a := false) (.x htarget') (hid hcl)).stores rfl) hprops'
  refine okay_preamble K S htarget (.define₂ hassert (key _ ?_ ?_ ?_ ?_))
  · intro y h1 h2
    rw [look_cons, if_neg (Ne.symm h2)]
    split
    · rfl
    · rw [bindOpt, look_cons, if_neg (Ne.symm h1)]
  · intro e he
    rcases List.mem_cons.1 he with rfl | he
    · exact id
    · split at he
      · exact hquiet e he
      · rcases List.mem_cons.1 he with rfl | he
        · exact id
        · exact hquiet e he
  · rw [look_cons, if_pos rfl]
  · intro hne
    rw [look_cons, if_neg (by simp [v])]
    have : (ownerProps g o).isEmpty = false := by cases h : ownerProps g o <;> simp_all
    rw [this]
    simp only [Bool.false_eq_true, if_false]
    rw [bindOpt, look_cons, if_pos rfl]

end

end Mapry.GoTyped
