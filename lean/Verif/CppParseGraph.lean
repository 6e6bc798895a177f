import Verif.CppParseFuncs

/-! # The generated C++ function which parses the graph -/

namespace Mapry.CppCode

open Mapry.TypeGraph Mapry.Naming Mapry.ParseSchema
open Mapry.GoCode (referencesOf ok_bind mapM_cons mapM_mem mapM_mem')
open Mapry.PyCode (Facts allNames defNames idOf idOf_eq attrs)

variable {W : World} {R : CTy} {g : Graph} {cpp : Cpp} {X : Str} {Γ : Env}

/-! ## Variables -/

/-- The variables of the loops over the instances -/
def loopNames : List Str := [c!"obj", c!"it", c!"instance"]

/-- The variables of the inner blocks -/
def Inner (x : Var) : Prop := Fresh 0 x ∨ x.text ∈ loopNames

/-- All the variables of the function -/
def Local (x : Var) : Prop := Inner x ∨ ∃ s : Str, s ≠ [] ∧ x.text = lower s ++ c!"_ref"

theorem inner_loop {w : Str} (h : w ∈ loopNames) : Inner (.fixed w) := .inr h

theorem inner_report : Inner (.fixed c!"expected_but_got") := .inl (fresh_inner (by decide))

theorem inner_harmless : Harmless Inner where
  word x hx w hw := by
    rcases hx with hx | hx
    · exact fresh_word hx hw
    · rintro e
      rw [e] at hx
      exact absurd hx ((by decide : ∀ w ∈ parserWords, w ∉ loopNames) w hw)
  from_ x hx f := by
    rcases hx with hx | hx
    · exact fresh_from hx f
    · rintro e
      have : ∀ w ∈ loopNames, w.getLast? ≠ some 'm' := by decide
      exact this _ hx (by simp [e])
  first x hx := by
    rcases hx with hx | hx
    · exact hx.first
    · have : ∀ w ∈ loopNames, ∃ c cs, w = c :: cs ∧ isUpper c = false := by
        intro w hw
        simp only [loopNames, List.mem_cons, List.not_mem_nil, or_false] at hw
        rcases hw with rfl | rfl | rfl <;> exact ⟨_, _, rfl, by decide⟩
      exact this _ hx
  param x hx w hw := by
    rcases hx with hx | hx
    · exact fresh_param hx hw
    · rintro e
      rw [e] at hx
      exact absurd hx ((by decide : ∀ w ∈ [c!"value", c!"ref", c!"target", c!"errors"], w ∉ loopNames) w hw)

/-- The text ends with `_ref`. -/
theorem ends_ref (s : Str) : (s ++ c!"_ref").drop ((s ++ c!"_ref").length - 4) = c!"_ref" := List.drop_left' (by simp)

theorem ne_ref {w : Str} (h : w.drop (w.length - 4) ≠ c!"_ref") (s : Str) : w ≠ s ++ c!"_ref" := by
  rintro rfl
  exact h (ends_ref s)

theorem param_ne_ref : ∀ w ∈ [c!"value", c!"ref", c!"target", c!"errors"], ∀ s : Str, s ≠ [] → w ≠ s ++ c!"_ref" := by
  intro w hw s hs h
  simp only [List.mem_cons, List.not_mem_nil, or_false] at hw
  rcases hw with rfl | rfl | rfl | rfl
  · exact ne_ref (by decide) s h
  · have := congrArg List.length h
    simp at this
  · exact ne_ref (by decide) s h
  · exact ne_ref (by decide) s h

theorem local_harmless : Harmless Local where
  word x hx w hw := by
    rcases hx with hx | ⟨s, _, e⟩
    · exact inner_harmless.word x hx w hw
    · rw [e]
      exact (ne_ref ((by decide : ∀ w ∈ parserWords, w.drop (w.length - 4) ≠ c!"_ref") w hw) _).symm
  from_ x hx f := by
    rcases hx with hx | ⟨s, _, e⟩
    · exact inner_harmless.from_ x hx f
    · rw [e]
      intro h
      have h := congrArg List.getLast? h
      simp at h
  first x hx := by
    rcases hx with hx | ⟨s, hs, e⟩
    · exact inner_harmless.first x hx
    · rw [e]
      cases s with
      | nil => exact absurd rfl hs
      | cons c cs => exact lower_first rfl _
  param x hx w hw := by
    rcases hx with hx | ⟨s, hs, e⟩
    · exact inner_harmless.param x hx w hw
    · rw [e]
      intro h
      exact param_ne_ref w hw (lower s) (by cases s <;> simp_all [lower]) h.symm

theorem Inner.ne_ref {x : Var} (h : Inner x) (s : Str) : x.text ≠ s ++ c!"_ref" := by
  rcases h with h | h
  · exact h.ne_end (by decide) (by decide) (by decide) (by decide +kernel)
  · exact CppCode.ne_ref ((by decide : ∀ w ∈ loopNames, w.drop (w.length - 4) ≠ c!"_ref") _ h) s

theorem ref_keyword (s : Str) : s ++ c!"_ref" ∉ keywords := by
  intro h
  have : ∀ w ∈ keywords, w.drop (w.length - 4) ≠ c!"_ref" := by decide +kernel
  exact this _ h (ends_ref s)

theorem loop_keyword : ∀ w ∈ loopNames, w ∉ keywords := by decide +kernel

/-! ## The code of a class -/

/-- What the code of a class refers to -/
structure ClassFacts (W : World) (g : Graph) (X : Str) (c : Class) : Prop where
  registry : member W (.struct X) (lower c.plural) = some (.map (.owner (idOf c.name)))
  id : member W (.struct (idOf c.name)) c!"id" = some .string
  struct : ∃ s ∈ W.structs, s.1 = idOf c.name
  pattern : c.idPattern.isSome = true → lower c.name ++ c!"_re" ∈ W.patterns
  knows : ∃ s, parseDecl g (.cls c.name) c.name = .ok s ∧ Knows W s

/-- The context of the graph -/
abbrev graphCtx (g : Graph) (cpp : Cpp) : Ctx := ⟨g, cpp, registryOf g⟩

theorem type_plus {a b : Expr} (ha : typeOf W Γ a = some .size) (hb : typeOf W Γ b = some .size ∨ typeOf W Γ b = some .int) :
    typeOf W Γ (.plus a b) = some .size := by
  rw [typeOf_plus, ha]
  rcases hb with h | h <;> rw [h] <;> rfl

theorem type_num {i : Int} (h : i.natAbs < 2 ^ 63) : typeOf W Γ (.num i) = some .int := by rw [typeOf_num, if_pos h]

theorem type_itName : typeOf W Γ (v c!"it") = some .iter → typeOf W Γ itName = some .string := by
  intro h
  rw [itName, typeOf_call₀, h]
  exact iter_name

/-- What holds in the blocks of a class -/
structure InClass (W : World) (g : Graph) (cpp : Cpp) (X : Str) (r : Expr) (Γ : Env) : Prop where
  body : InBody W (graphCtx g cpp) X Γ
  ref : typeOf W Γ r = some .string

theorem InClass.sees {r : Expr} (h : InClass W g cpp X r Γ) : Sees W (graphCtx g cpp) [r] Γ :=
  { h.body.sees with ref := ⟨r, [], rfl, h.ref, by simp⟩ }

theorem type_member {e : Expr} {n f : Str} (h : typeOf W Γ e = some (.ptr (.struct n))) :
    typeOf W Γ (.arrow e f) = member W (.struct n) f := by
  rw [typeOf_arrow, h]
  rfl

theorem typeOk_struct {n : Str} (h : ∃ s ∈ W.structs, s.1 = n) (hs : ∀ s ∈ W.structs, Γ.hides s.1 = false) (t : CTy)
    (ht : t.names = [n]) : typeOk W Γ t = true := by
  refine typeOk_of ?_ hs
  intro m hm
  rw [ht, List.mem_singleton] at hm
  rw [hm]
  exact h

theorem run_setInstance {r : Expr} {c : Class} (hc : ClassFacts W g X c) (hin : Always Inner Γ (InClass W g cpp X r))
    (hit : Always (fun x => Inner x ∧ x.text ≠ c!"it") Γ fun Δ => typeOf W Δ (v c!"it") = some .iter)
    (hb : ∀ e ∈ Γ.block, e.1.text ≠ c!"instance") :
    (run W R Γ (setInstance (lower c.plural) (idOf c.name))).isSome = true := by
  rw [setInstance]
  have hin1 : ∀ t, Inner (.fixed c!"instance") ∧ (Var.fixed c!"instance").text ≠ c!"it" ∧
      Extends Inner Γ (Γ.push (.fixed c!"instance") t) ∧
      Extends (fun x => Inner x ∧ x.text ≠ c!"it") Γ (Γ.push (.fixed c!"instance") t) := fun t =>
    ⟨inner_loop (by decide), by decide, (Extends.refl Γ).push (inner_loop (by decide)),
      (Extends.refl Γ).push ⟨inner_loop (by decide), by decide⟩⟩
  rw [run_auto (x := .fixed c!"instance") (s := .owner (idOf c.name)) (by decide) hb ?_ (by simp)]
  · have h1 := hin _ (hin1 (.owner (idOf c.name))).2.2.1
    have h2 : typeOf W (Γ.push (.fixed c!"instance") (.owner (idOf c.name))) itName = some .string :=
      type_itName (hit _ (hin1 _).2.2.2)
    have h3 : typeOf W (Γ.push (.fixed c!"instance") (.owner (idOf c.name))) (v c!"instance") = some (.owner (idOf c.name)) := by
      rw [v, typeOf_var, lookup_push_self]
    simp only [run]
    rw [typeOf_arrow, h3, h2]
    simp only [Option.bind_some, behind, hc.id, converts_refl, if_true]
    rw [typeOf_index, type_member h1.body.target, hc.registry, h2, typeOf_move, h3]
    simp only [Option.bind_some, element, converts_refl, if_true, Option.isSome_some]
  · rw [typeOf_make, if_pos]
    exact typeOk_struct hc.struct (hin _ (hin1 .void).2.2.1).body.sees.types _ rfl

theorem lookup_fixed_ne {w : Str} {y : Var} {t : CTy} (h : y.text ≠ w) : typeOf W (Γ.push y t) (v w) = typeOf W Γ (v w) := by
  rw [v, typeOf_var, typeOf_var, lookup_push_ne h]

theorem run_checkId {r : Expr} {c : Class} (hb : Basics W) (hc : ClassFacts W g X c)
    (hin : Always Inner Γ (InClass W g cpp X r))
    (hit : Always (fun x => Inner x ∧ x.text ≠ c!"it") Γ fun Δ => typeOf W Δ (v c!"it") = some .iter)
    (hbl : ∀ e ∈ Γ.block, e.1.text ≠ c!"instance") :
    (run W R Γ (checkId r (lower c.name) c.idPattern (setInstance (lower c.plural) (idOf c.name)))).isSome = true := by
  cases hp : c.idPattern with
  | none => exact run_setInstance hc hin hit hbl
  | some p =>
    rw [checkId]
    have hn : typeOf W Γ itName = some .string := type_itName hit.now
    have hpat : typeOf W Γ (.pattern (lower c.name ++ c!"_re")) = some .regex := by
      rw [typeOf_pattern, if_pos (hc.pattern (by simp [hp]))]
    rw [run_ifElse, typeOf_neg, typeOf_lib]
    simp only [types, hn, hpat, Option.bind_some, Option.map_some, lib_match, testable, if_true]
    have hext : Extends Inner Γ (Γ.enter.push (.fixed c!"expected_but_got") .text) := (Extends.refl Γ).enter.push inner_report
    have hext' : Extends (fun x => Inner x ∧ x.text ≠ c!"it") Γ (Γ.enter.push (.fixed c!"expected_but_got") .text) :=
      (Extends.refl Γ).enter.push ⟨inner_report, by decide⟩
    rw [run_append, report, run_reportAs hb (by decide) (by simp) (hin _ hext).sees (type_itName (hit _ hext'))]
    simp only [Option.bind_some, run, type_full (hin _ hext).sees, testable, if_true]
    have := run_setInstance (R := R) hc (fun Δ hΔ => hin Δ (Extends.of_enter hΔ)) (fun Δ hΔ => hit Δ (Extends.of_enter hΔ)) (by simp)
    rw [then_some, this]
    rfl

theorem run_preallocate {c : Class} {code : Code} (hb : Basics W) (hc : ClassFacts W g X c) (h : preallocate c = .ok code)
    (hin : Always Local Γ (InBody W (graphCtx g cpp) X)) (hbl : ∀ e ∈ Γ.block, e.1.text ≠ lower c.plural ++ c!"_ref") :
    run W R Γ code = some (Γ.push (pluralRef (lower c.plural)) .string) := by
  unfold preallocate at h
  obtain ⟨pl, hpl, h⟩ := ok_bind h
  obtain ⟨_, _, h⟩ := ok_bind h
  obtain ⟨fd, hfd, h⟩ := ok_bind h
  obtain ⟨X', hX', h⟩ := ok_bind h
  obtain ⟨f, hf, h⟩ := ok_bind h
  cases h
  obtain ⟨rfl, ⟨d, ds, hd, _⟩⟩ := PyCode.asVariable_eq hpl
  obtain ⟨rfl, _⟩ := PyCode.asAttribute_eq hfd
  obtain ⟨rfl, _⟩ := PyCode.asVariable_eq hf
  obtain rfl := idOf_eq hX'
  generalize hr : pluralRef (lower c.plural) = r
  have hrt : r.text = lower c.plural ++ c!"_ref" := by rw [← hr]; rfl
  have hrl : Local r := .inr ⟨c.plural, by rw [hd]; simp, hrt⟩
  have hin1 : Always Inner (Γ.push r .string) (InClass W g cpp X (.var r)) := by
    intro Δ hΔ
    refine ⟨hin Δ (((Extends.refl Γ).push hrl).trans (hΔ.mono fun x hx => .inl hx)), ?_⟩
    rw [typeOf_var, hΔ.lookup fun y hy => by rw [hrt]; exact hy.ne_ref _, lookup_push_self]
  simp only [preallocateCode, hr]
  rw [run_decl₀ (by rw [hrt]; exact ref_keyword _) (by rw [hrt]; exact hbl) (typeOk_plain rfl)]
  generalize hΔ : Γ.push r .string = Δ at hin1
  have b := hin1.now.body
  have hsize : typeOf W Δ (.plus (call₀ (v c!"ref") c!"size") (.num 0)) = some .size :=
    type_plus (by rw [typeOf_call₀, b.ref]; exact string_size) (.inr (type_num (by decide)))
  simp only [addTo, run]
  rw [typeOf_call₁, hin1.now.ref, hsize, typeOf_call₁, hin1.now.ref, b.ref, typeOf_call₁, hin1.now.ref, typeOf_text]
  simp only [Option.bind_some, string_reserve, string_add, string_add']
  rw [run_ifThen, typeOf_call₁, b.value, typeOf_text]
  simp only [Option.bind_some, json_isMember, testable, if_true]
  have hext : Extends Inner Δ (Δ.enter.push (.fixed c!"obj") .json) := (Extends.refl Δ).enter.push (inner_loop (by decide))
  have hval : typeOf W (Δ.enter.push (.fixed c!"obj") .json) (.index value .text) = some .json := by
    rw [typeOf_index, (hin1 _ hext).body.value]
    rfl
  rw [run_decl (x := .fixed c!"obj") (by decide) (by simp) (typeOk_plain rfl) hval (by decide)]
  have hin2 : Always Inner (Δ.enter.push (.fixed c!"obj") .json) (InClass W g cpp X (.var r)) := fun Θ hΘ => hin1 Θ (hext.trans hΘ)
  have hobj : Always (fun x => x.text ≠ c!"obj") (Δ.enter.push (.fixed c!"obj") .json)
      fun Θ => typeOf W Θ (v c!"obj") = some .json := by
    intro Θ hΘ
    show typeOf W Θ _ = _
    rw [v, typeOf_var, hΘ.lookup (x := .fixed c!"obj") fun y hy => hy, lookup_push_self]
  generalize Δ.enter.push (.fixed c!"obj") .json = Θ at hin2 hobj
  rw [run_ifElse, typeOf_neg, typeOf_call₀, hobj.now]
  simp only [Option.bind_some, json_isObject, testable, if_true]
  have hext2 : Extends Inner Θ (Θ.enter.push (.fixed c!"expected_but_got") .text) := (Extends.refl Θ).enter.push inner_report
  rw [report, run_reportAs hb (by decide) (by simp) (hin2 _ hext2).sees
    (type_valueType hb (hin2 _ hext2).sees.valueType (hobj _ ((Extends.refl Θ).enter.push (by decide))))]
  simp only [Option.bind_some]
  have hloop : (run W R (Θ.enter.enter.push (.fixed c!"it") .iter) (checkId (.var r) (lower c.name) c.idPattern
      (setInstance (lower c.plural) (idOf c.name)))).isSome = true := by
    refine run_checkId (cpp := cpp) hb hc ?_ ?_ ?_
    · intro Ψ hΨ
      exact hin2 Ψ (((Extends.refl Θ).enter.enter.push (inner_loop (by decide))).trans hΨ)
    · intro Ψ hΨ
      show typeOf W Ψ _ = _
      rw [v, typeOf_var, hΨ.lookup (x := .fixed c!"it") fun y hy => hy.2, lookup_push_self]
    · intro e he
      simp only [push_block, enter_block, List.mem_singleton] at he
      subst he
      decide
  obtain ⟨Ψ, hΨ⟩ := Option.isSome_iff_exists.1 hloop
  have hO : run W R Θ.enter (overObject (checkId (.var r) (lower c.name) c.idPattern
      (setInstance (lower c.plural) (idOf c.name)))) = some Θ.enter := by
    simp only [overObject, run]
    rw [declare_eq (x := .fixed c!"it") (by decide) (by simp) (typeOk_plain rfl)]
    have ho : typeOf W (Θ.enter.enter.push (.fixed c!"it") .iter) (v c!"obj") = some .json :=
      hobj _ ((Extends.refl Θ).enter.enter.push (by decide))
    have hi : typeOf W (Θ.enter.enter.push (.fixed c!"it") .iter) (v c!"it") = some .iter := by
      rw [v, typeOf_var, lookup_push_self]
    simp only [Option.bind_some, typeOf_call₀, ho, json_begin, converts_refl, if_true, typeOf_cmp, json_end, hi, comparable,
      testable, hΨ]
  rw [hO]
  rfl

theorem run_instances {c : Class} {code : Code} (hc : ClassFacts W g X c) (h : parseInstances g c = .ok code)
    (hin : Always Inner Γ (InClass W g cpp X (.var (pluralRef (lower c.plural)))))
    (hir : Always Inner Γ fun Δ => typeOf W Δ (v c!"instance_ref") = some .string) :
    run W R Γ code = some Γ := by
  unfold parseInstances at h
  obtain ⟨pl, hpl, h⟩ := ok_bind h
  obtain ⟨_, _, h⟩ := ok_bind h
  obtain ⟨fd, hfd, h⟩ := ok_bind h
  obtain ⟨X', hX', h⟩ := ok_bind h
  obtain ⟨f, hf, h⟩ := ok_bind h
  obtain ⟨refs, hrefs, h⟩ := ok_bind h
  obtain ⟨regs, hregs, h⟩ := ok_bind h
  cases h
  obtain ⟨rfl, _⟩ := PyCode.asVariable_eq hpl
  obtain ⟨rfl, _⟩ := PyCode.asAttribute_eq hfd
  obtain rfl := idOf_eq hX'
  obtain ⟨s, hsig, hk⟩ := hc.knows
  simp only [parseDecl, hrefs] at hsig
  obtain ⟨_, e1, hsig⟩ := ok_bind hsig
  cases e1
  obtain ⟨_, e1, hsig⟩ := ok_bind hsig
  rw [hf] at e1
  cases e1
  obtain ⟨params, hparams, hsig⟩ := ok_bind hsig
  obtain ⟨_, e1, hsig⟩ := ok_bind hsig
  rw [hX'] at e1
  cases e1
  cases hsig
  generalize hr : pluralRef (lower c.plural) = r at hin
  simp only [instancesCode, hr, addTo, run]
  rw [typeOf_call₀, hir.now, typeOf_call₁, hir.now, hin.now.ref, typeOf_call₁, hir.now, typeOf_text]
  simp only [Option.bind_some, string_clear, string_add, string_add']
  rw [run_append, run_ifThen, typeOf_call₁, hin.now.body.value, typeOf_text]
  simp only [Option.bind_some, json_isMember, testable, if_true]
  have hext : Extends Inner Γ (Γ.enter.push (.fixed c!"obj") .json) := (Extends.refl Γ).enter.push (inner_loop (by decide))
  have hval : typeOf W (Γ.enter.push (.fixed c!"obj") .json) (.index value .text) = some .json := by
    rw [typeOf_index, (hin _ hext).body.value]
    rfl
  rw [run_decl (x := .fixed c!"obj") (by decide) (by simp) (typeOk_plain rfl) hval (by decide)]
  generalize hΘ : Γ.enter.push (.fixed c!"obj") .json = Θ
  have hobj : typeOf W (Θ.enter.push (.fixed c!"it") .iter) (v c!"obj") = some .json := by
    rw [lookup_fixed_ne (by decide), ← hΘ, v, typeOf_var, lookup_enter, lookup_push_self]
  have hextΘ : ∀ {Ψ}, Extends Inner (Θ.enter.push (.fixed c!"it") .iter) Ψ → Extends Inner Γ Ψ := by
    intro Ψ hΨ
    rw [← hΘ] at hΨ
    exact (hext.enter.push (inner_loop (by decide))).trans hΨ
  have hit : ∀ {Ψ}, Extends (fun x => x.text ≠ c!"it") (Θ.enter.push (.fixed c!"it") .iter) Ψ →
      typeOf W Ψ (v c!"it") = some .iter := by
    intro Ψ hΨ
    rw [v, typeOf_var, hΨ.lookup (x := .fixed c!"it") fun y hy => hy, lookup_push_self]
  simp only [overObject, run]
  rw [declare_eq (x := .fixed c!"it") (by decide) (by simp) (typeOk_plain rfl)]
  simp only [Option.bind_some, typeOf_call₀ _ c!"begin", typeOf_call₀ _ c!"end", hobj, json_begin, converts_refl, if_true, typeOf_cmp,
    json_end, hit (.refl _), comparable, testable]
  generalize hΦ : Θ.enter.push (.fixed c!"it") .iter = Φ at hextΘ hit
  have hI := hin _ (hextΘ (.refl _))
  have hirΦ : typeOf W Φ (v c!"instance_ref") = some .string := hir _ (hextΘ (.refl _))
  have hname : typeOf W Φ itName = some .string := type_itName (hit (.refl _))
  have hsize : typeOf W Φ (call₀ (.var r) c!"size") = some .size := by rw [typeOf_call₀, hI.ref]; exact string_size
  have hone : typeOf W Φ (.plus (call₀ (.var r) c!"size") (.num 1)) = some .size :=
    type_plus hsize (.inr (type_num (by decide)))
  have htwo : typeOf W Φ (.plus (.plus (call₀ (.var r) c!"size") (.num 1)) (call₀ itName c!"size")) = some .size :=
    type_plus hone (.inl (by rw [typeOf_call₀, hname]; exact string_size))
  rw [typeOf_call₁, hirΦ, htwo, typeOf_call₁, hirΦ, hone, typeOf_call₁, hirΦ, hname]
  simp only [Option.bind_some, string_reserve, string_resize, string_append]
  have hblock : ∀ e ∈ Φ.block, e.1.text ≠ (Var.fixed c!"instance").text := by
    intro e he
    rw [← hΦ] at he
    simp only [push_block, enter_block, List.mem_singleton] at he
    subst he
    decide
  rw [declare_eq (x := .fixed c!"instance") (by decide) hblock (typeOk_struct hc.struct hI.body.sees.types _ rfl)]
  have hext3 : Extends Inner Φ (Φ.push (.fixed c!"instance") (.ptr (.struct (idOf c.name)))) :=
    (Extends.refl Φ).push (inner_loop (by decide))
  have hJ := hin _ (hextΘ hext3)
  have hirJ : typeOf W (Φ.push (.fixed c!"instance") (.ptr (.struct (idOf c.name)))) (v c!"instance_ref") = some .string :=
    hir _ (hextΘ hext3)
  have hitJ : typeOf W (Φ.push (.fixed c!"instance") (.ptr (.struct (idOf c.name)))) (v c!"it") = some .iter :=
    hit ((Extends.refl Φ).push (by decide))
  have hinst : typeOf W (Φ.push (.fixed c!"instance") (.ptr (.struct (idOf c.name)))) (v c!"instance") =
      some (.ptr (.struct (idOf c.name))) := by rw [v, typeOf_var, lookup_push_self]
  generalize Φ.push (.fixed c!"instance") (.ptr (.struct (idOf c.name))) = Ψ at hJ hirJ hitJ hinst
  have hget : typeOf W Ψ (call₀ (call₁ (.arrow target (lower c.plural)) c!"at" itName) c!"get") =
      some (.ptr (.struct (idOf c.name))) := by
    rw [typeOf_call₀, typeOf_call₁, type_member hJ.body.target, hc.registry, type_itName hitJ]
    simp only [Option.bind_some, map_at, owner_get]
  have hcall : typeOf W Ψ (fnCall (f ++ c!"_from") (.star (v c!"it") :: regs ++ [v c!"instance_ref", v c!"instance", errors])) =
      some .void := by
    rw [typeOf_fn, hJ.sees.from_ f, List.cons_append]
    simp only [types, types_append, typeOf_star, hitJ, pointee, registries_type hJ.sees hregs hparams, hirJ, hinst, hJ.sees.errors,
      Option.bind_some, Bool.false_eq_true, if_false, Option.map_some]
    have hpick := hk.pick
    simp only [parseParams, List.map_cons, List.map_append, List.cons_append, List.map_nil] at hpick
    exact hpick
  simp only [Option.bind_some, hget, converts_refl, if_true, hcall, type_full hJ.sees, type_full hin.now.sees]

/-! ## The function -/

/-- The variables after the pre-allocation -/
def withRefs (Γ : Env) (cs : List Class) : Env := cs.foldl (fun Γ c => Γ.push (pluralRef (lower c.plural)) .string) Γ

theorem run_allocated (hb : Basics W) : ∀ {cs : List Class} {codes : List Code} {Γ : Env}, cs.mapM preallocate = .ok codes →
    (∀ c ∈ cs, ClassFacts W g X c) → Always Local Γ (InBody W (graphCtx g cpp) X) → (cs.map fun c => lower c.plural).Nodup →
    (∀ c ∈ cs, ∀ e ∈ Γ.block, e.1.text ≠ lower c.plural ++ c!"_ref") →
    run W R Γ (concat codes) = some (withRefs Γ cs) ∧ Always Local (withRefs Γ cs) (InBody W (graphCtx g cpp) X)
  | [], _, Γ, h, _, hin, _, _ => by cases h; exact ⟨rfl, hin⟩
  | c :: cs, _, Γ, h, hc, hin, hn, hbl => by
    obtain ⟨a, as, ha, has, rfl⟩ := mapM_cons h
    rw [List.map_cons, List.nodup_cons] at hn
    have hne : c.plural ≠ [] := by
      unfold preallocate at ha
      obtain ⟨pl, hpl, _⟩ := ok_bind ha
      obtain ⟨rfl, ⟨d, ds, hd, _⟩⟩ := PyCode.asVariable_eq hpl
      rw [hd]
      simp
    have hext : Extends Local Γ (Γ.push (pluralRef (lower c.plural)) .string) :=
      (Extends.refl Γ).push (.inr ⟨c.plural, hne, rfl⟩)
    have := run_allocated (Γ := Γ.push (pluralRef (lower c.plural)) .string) hb has (fun d hd => hc d (by simp [hd]))
      (fun Δ hΔ => hin Δ (hext.trans hΔ)) hn.2 ?_
    · refine ⟨?_, this.2⟩
      rw [concat, List.foldr_cons, run_append, run_preallocate hb (hc c (by simp)) ha hin (hbl c (by simp)), Option.bind_some]
      exact this.1
    · intro d hd e he
      rw [push_block, List.mem_cons] at he
      rcases he with rfl | he
      · intro h
        have h : lower c.plural ++ c!"_ref" = lower d.plural ++ c!"_ref" := h
        exact hn.1 (List.mem_map.2 ⟨d, hd, (List.append_cancel_right h).symm⟩)
      · exact hbl d (by simp [hd]) e he

/-- The variables of the block are those of before and those of the classes. -/
theorem withRefs_block : ∀ {cs : List Class} {Γ : Env} {e : Var × CTy}, e ∈ (withRefs Γ cs).block ↔
    e ∈ Γ.block ∨ ∃ c ∈ cs, e = (pluralRef (lower c.plural), .string)
  | [], _, _ => by simp [withRefs]
  | c :: cs, Γ, e => by
    show e ∈ (withRefs (Γ.push (pluralRef (lower c.plural)) .string) cs).block ↔ _
    rw [withRefs_block]
    simp only [push_block, List.mem_cons, exists_eq_or_imp]
    constructor
    · rintro ((h | h) | h)
      · exact .inr (.inl h)
      · exact .inl h
      · exact .inr (.inr h)
    · rintro (h | h | h)
      · exact .inl (.inr h)
      · exact .inl (.inl h)
      · exact .inr h

theorem withRefs_lookup : ∀ {cs : List Class} {Γ : Env} {c : Class}, c ∈ cs → (cs.map fun c => lower c.plural).Nodup →
    (withRefs Γ cs).lookup (pluralRef (lower c.plural)) = some .string := by
  have keep : ∀ {cs : List Class} {Γ : Env} {p : Str}, p ∉ cs.map (fun c => lower c.plural) →
      (withRefs Γ cs).lookup (pluralRef p) = Γ.lookup (pluralRef p) := by
    intro cs
    induction cs with
    | nil => intro Γ p _; rfl
    | cons d cs ih =>
      intro Γ p hp
      rw [List.map_cons, List.mem_cons, not_or] at hp
      show (withRefs (Γ.push (pluralRef (lower d.plural)) .string) cs).lookup _ = _
      rw [ih hp.2, lookup_push_ne]
      intro h
      have h : lower d.plural ++ c!"_ref" = p ++ c!"_ref" := h
      exact hp.1 (List.append_cancel_right h).symm
  intro cs
  induction cs with
  | nil => intro Γ c hc; cases hc
  | cons d cs ih =>
    intro Γ c hc hn
    rw [List.map_cons, List.nodup_cons] at hn
    show (withRefs (Γ.push (pluralRef (lower d.plural)) .string) cs).lookup _ = _
    rcases List.mem_cons.1 hc with rfl | hc
    · rw [keep hn.1, lookup_push_self]
    · exact ih hc hn.2

theorem run_parsed : ∀ {cs : List Class} {codes : List Code}, cs.mapM (parseInstances g) = .ok codes →
    (∀ c ∈ cs, ClassFacts W g X c) → (∀ c ∈ cs, Always Inner Γ (InClass W g cpp X (.var (pluralRef (lower c.plural))))) →
    (Always Inner Γ fun Δ => typeOf W Δ (v c!"instance_ref") = some .string) → run W R Γ (concat codes) = some Γ
  | [], _, h, _, _, _ => by cases h; rfl
  | c :: cs, _, h, hc, hin, hir => by
    obtain ⟨a, as, ha, has, rfl⟩ := mapM_cons h
    rw [concat, List.foldr_cons, run_append, run_instances (hc c (by simp)) ha (hin c (by simp)) hir, Option.bind_some]
    exact run_parsed has (fun d hd => hc d (by simp [hd])) (fun d hd => hin d (by simp [hd])) hir

/-- No class has the plural `Instance`. -/
def noInstance (g : Graph) : Bool := g.classes.all fun c => lower c.plural != c!"instance"

theorem parseGraph_ok {date : Bool} (hf : Facts g) (hW : Scope W g cpp date) {f : Func}
    (hm : Members W g cpp (idOf g.name) g.properties) (hc : ∀ c ∈ g.classes, ClassFacts W g (idOf g.name) c)
    (h : parseGraph g cpp = .ok f) : f.ok W = (noInstance g && g.properties.all (propFits W (idOf g.name) date)) := by
  unfold parseGraph at h
  obtain ⟨props, hprops, h⟩ := ok_bind h
  obtain ⟨f', hf', h⟩ := ok_bind h
  obtain ⟨X, hX, h⟩ := ok_bind h
  obtain ⟨allocated, halloc, h⟩ := ok_bind h
  obtain ⟨parsed, hparsed, h⟩ := ok_bind h
  cases h
  obtain rfl := idOf_eq hX
  have hname : g.name ∈ allNames g := by simp [allNames]
  generalize hps : parseParams [] (idOf g.name) = ps
  have hps' : ps = [(Var.fixed c!"value", CTy.json), (.fixed c!"ref", .string),
      (.fixed c!"target", .ptr (.struct (idOf g.name))), (.fixed c!"errors", .ptr .errors)] := hps.symm
  have htext : ∀ e ∈ ps, e.1.text ∈ [c!"value", c!"ref", c!"target", c!"errors"] := by
    intro e he
    rw [hps'] at he
    simp only [List.mem_cons, List.not_mem_nil, or_false] at he
    rcases he with rfl | rfl | rfl | rfl <;> simp [Var.text]
  have hnodup : (ps.map fun e => e.1.text).Nodup := by rw [hps']; simp only [List.map_cons, List.map_nil, Var.text]; decide
  have hupper : ∀ x ∈ ps, ∃ d ds, x.1.text = d :: ds ∧ isUpper d = false := by
    intro x hx
    have h := htext x hx
    simp only [List.mem_cons, List.not_mem_nil, or_false] at h
    rcases h with h | h | h | h <;> rw [h] <;> exact ⟨_, _, rfl, by decide⟩
  have htypes : ∀ s ∈ W.structs, ∀ x ∈ ps, x.1.text ≠ s.1 := fun s hs x hx =>
    upper_ne (hupper x hx) (hW.declares.upper hf hs)
  have hok : ∀ e ∈ ps, ∀ Δ : Env, (∀ a ∈ Δ.all, a ∈ Env.all ⟨[], []⟩ ∨ a ∈ ps) → typeOk W Δ e.2 = true := by
    intro e he Δ hΔ
    refine typeOk_of ?_ fun s hs => ?_
    · intro m hm'
      rw [hps'] at he
      simp only [List.mem_cons, List.not_mem_nil, or_false] at he
      rcases he with rfl | rfl | rfl | rfl
      · cases hm'
      · cases hm'
      · simp only [CTy.names, List.mem_singleton] at hm'
        exact (hW.declares m).2 ⟨g.name, hname, hm'⟩
      · cases hm'
    · rw [Env.hides, List.any_eq_false]
      intro a ha
      rcases hΔ a ha with h | h
      · cases h
      · simpa using htypes s hs a h
  have hdecl := declareAll_eq (W := W) (ps := ps) (Γ := ⟨[], []⟩)
    (fun e he => (by decide +kernel : ∀ w ∈ [c!"value", c!"ref", c!"target", c!"errors"], w ∉ keywords) _ (htext e he))
    hnodup (by simp) hok
  simp only [List.append_nil] at hdecl
  have hlook : ∀ x t, (x, t) ∈ ps → Env.lookup ⟨ps.reverse, []⟩ x = some t := fun x t h => lookup_param hnodup h
  have hwords : ∀ w : Str, w ∉ [c!"value", c!"ref", c!"target", c!"errors"] → Env.hides ⟨ps.reverse, []⟩ w = false := by
    intro w h2
    rw [hides_params, List.any_eq_false]
    intro x hx hw
    have hw : x.1.text = w := by simpa using hw
    exact h2 (hw ▸ htext x hx)
  have hbody : Always Local ⟨ps.reverse, []⟩ (InBody W (graphCtx g cpp) (idOf g.name)) := by
    intro Δ hΔ
    have hvar : ∀ (w : Str) (t : CTy), w ∈ [c!"value", c!"ref", c!"target", c!"errors"] → (Var.fixed w, t) ∈ ps →
        typeOf W Δ (v w) = some t := by
      intro w t hw h
      rw [v, typeOf_var, hΔ.lookup (x := .fixed w) fun y hy => local_harmless.param y hy w hw]
      exact hlook _ _ h
    refine ⟨?_, hvar _ _ (by decide) (by simp [hps']), hvar _ _ (by decide) (by simp [hps'])⟩
    refine sees_of local_harmless hf hW.declares ?_ ?_ ?_ (hlook _ _ (by simp [hps'])) hΔ ?_ ?_
    · intro w hw
      exact hwords w ((by decide +kernel : ∀ w ∈ parserWords, w ∉ [c!"value", c!"ref", c!"target", c!"errors"]) w hw)
    · intro s
      refine hwords _ ?_
      intro h
      have : ∀ w ∈ [c!"value", c!"ref", c!"target", c!"errors"], w.getLast? ≠ some 'm' := by decide
      exact this _ h (by simp)
    · intro s hs
      rw [hides_params, List.any_eq_false]
      intro x hx
      simpa using htypes s hs x hx
    · refine ⟨v c!"ref", [.text], rfl, hvar _ _ (by decide) (by simp [hps']), ?_⟩
      intro p hp
      simp only [List.mem_singleton] at hp
      subst hp
      exact .inr rfl
    · intro c r hr
      simp only [registryOf] at hr
      obtain ⟨cls, hcls, hr⟩ := ok_bind hr
      obtain ⟨pl, hpl, hr⟩ := ok_bind hr
      cases hr
      obtain ⟨rfl, hmem⟩ := classOf_name hcls
      obtain ⟨rfl, _⟩ := PyCode.asAttribute_eq hpl
      rw [type_member (e := target) (hvar _ (.ptr (.struct (idOf g.name))) (by decide) (by simp [hps'])), (hc cls hmem).registry]
  have hpl : (g.classes.map fun c => lower c.plural).Nodup := (List.nodup_append.1 hf.graph).2.1
  have hfresh : ∀ {Δ : Env}, Always Local Δ (InBody W (graphCtx g cpp) (idOf g.name)) →
      Always (Fresh 0) Δ (InBody W (graphCtx g cpp) (idOf g.name)) := fun h => h.of (fun x hx => .inl (.inl hx)) (.refl _)
  have hblock0 : ∀ e ∈ ps.reverse, ∀ s : Str, s ≠ [] → e.1.text ≠ s ++ c!"_ref" := by
    intro e he s hs h
    exact param_ne_ref _ (htext e (by simpa using he)) s hs h
  have hlower : ∀ c ∈ g.classes, lower c.plural ≠ [] := by
    intro c hcm h
    have := (hf.nonempty.1 c hcm).1
    cases hp : c.plural with
    | nil => exact this hp
    | cons a as => rw [hp] at h; cases h
  have herr : typeOf W ⟨ps.reverse, []⟩ errors = some (.ptr .errors) := hbody.now.sees.errors
  rw [Func.ok]
  simp only
  rw [hdecl, Option.bind_some]
  simp only [run_append]
  rw [run_ifThen, typeOf_cmp, herr, typeOf_null]
  have hthrow : ∀ Δ, run W .void Δ throwText = some Δ := by
    intro Δ
    simp only [throwText, run, typeOf_lib, types, typeOf_text, Option.bind_some, Option.map_some, lib_invalid']
  simp only [Option.bind_some, comparable, testable, if_true, hthrow]
  have hno : ∀ {Δ : Env}, Always Local Δ (InBody W (graphCtx g cpp) (idOf g.name)) → typeOf W Δ (.neg noErrors) = some .bool := by
    intro Δ h
    rw [typeOf_neg, noErrors, typeOf_via₀, h.now.sees.errors]
    simp only [Option.bind_some, errors_empty, testable, if_true]
  rw [run_ifThen, hno hbody]
  simp only [Option.bind_some, testable, if_true, hthrow]
  rw [run_expectObject (n := 0) (ctx := graphCtx g cpp) hW.basics (fun Δ hΔ => (hfresh hbody Δ hΔ).short) (fun Δ hΔ => (hfresh hbody Δ hΔ).value),
    Option.bind_some]
  obtain ⟨ha1, ha2⟩ := run_allocated (R := .void) hW.basics halloc hc hbody hpl
    (fun c hcm e he => hblock0 e he _ (hlower c hcm))
  rw [ha1, Option.bind_some]
  by_cases hlen : g.classes.length > 0
  · rw [if_pos hlen]
    simp only [run]
    rw [hno ha2]
    simp only [Option.bind_some, testable, if_true]
    cases hni : noInstance g with
    | false =>
      have hdup : (withRefs ⟨ps.reverse, []⟩ g.classes).declare W (.fixed c!"instance_ref") .string = none := by
        rw [noInstance, List.all_eq_false] at hni
        obtain ⟨c, hcm, hi⟩ := hni
        have hi : lower c.plural = c!"instance" := by simpa using hi
        rw [Env.declare, if_pos]
        rw [Bool.or_eq_true, Bool.or_eq_true]
        refine .inl (.inr (List.any_eq_true.2 ⟨_, withRefs_block.2 (.inr ⟨c, hcm, rfl⟩), ?_⟩))
        rw [hi]
        decide
      rw [hdup]
      rfl
    | true =>
      rw [noInstance, List.all_eq_true] at hni
      have hnew : ∀ e ∈ (withRefs ⟨ps.reverse, []⟩ g.classes).block, e.1.text ≠ c!"instance_ref" := by
        intro e he
        rcases withRefs_block.1 he with he | ⟨c, hcm, rfl⟩
        · exact hblock0 e he c!"instance" (by simp)
        · intro h
          have h : lower c.plural ++ c!"_ref" = c!"instance" ++ c!"_ref" := h
          have := hni c hcm
          simp [List.append_cancel_right h] at this
      rw [declare_eq (x := .fixed c!"instance_ref") (by decide) hnew (typeOk_plain rfl), Option.bind_some]
      have hloc : Local (.fixed c!"instance_ref") := .inr ⟨c!"instance", by simp, by decide⟩
      have hext : Extends Local (withRefs ⟨ps.reverse, []⟩ g.classes)
          ((withRefs ⟨ps.reverse, []⟩ g.classes).push (.fixed c!"instance_ref") .string) := (Extends.refl _).push hloc
      have hlast : Always Local ((withRefs ⟨ps.reverse, []⟩ g.classes).push (.fixed c!"instance_ref") .string)
          (InBody W (graphCtx g cpp) (idOf g.name)) := ha2.of (fun _ h => h) hext
      rw [run_parsed (g := g) (cpp := cpp) (X := idOf g.name) hparsed hc ?_ ?_, Option.bind_some,
        run_parseProps hW.basics hW.date hprops hm (hfresh hlast)]
      · cases g.properties.all (propFits W (idOf g.name) date) <;> rfl
      · intro c hcm Δ hΔ
        refine ⟨hlast Δ (hΔ.mono fun x hx => .inl hx), ?_⟩
        rw [typeOf_var, hΔ.lookup (fun y hy => hy.ne_ref _), lookup_push_ne, withRefs_lookup hcm hpl]
        intro h
        exact hnew _ (withRefs_block.2 (.inr ⟨c, hcm, rfl⟩)) h.symm
      · intro Δ hΔ
        show typeOf W Δ _ = _
        rw [v, typeOf_var, hΔ.lookup (x := .fixed c!"instance_ref") (fun y hy => hy.ne_ref c!"instance"), lookup_push_self]
  · rw [if_neg hlen]
    have hnil : g.classes = [] := List.eq_nil_of_length_eq_zero (by omega)
    have hni : noInstance g = true := by simp [noInstance, hnil]
    rw [hni, Bool.true_and]
    simp only [run, Option.bind_some]
    rw [run_parseProps hW.basics hW.date hprops hm (hfresh ha2)]
    cases g.properties.all (propFits W (idOf g.name) date) <;> rfl

end Mapry.CppCode
