import Verif.CppSerFuncs

/-! # The generated C++ function which serializes the graph -/

namespace Mapry.CppCode

open Mapry.TypeGraph Mapry.Naming Mapry.ParseSchema
open Mapry.GoCode (referencesOf ok_bind mapM_cons mapM_mem mapM_mem')
open Mapry.PyCode (Facts allNames defNames idOf idOf_eq attrs)

variable {W : World} {R : CTy} {g : Graph} {cpp : Cpp} {Γ : Env} {n : Nat} {date : Bool} {X : Str}

/-! ## The instances of a class -/

/-- What the code for the instances needs from the world. -/
structure SerClass (W : World) (X : Str) (c : Class) : Prop where
  registry : member W (.struct X) (lower c.plural) = some (.map (.owner (idOf c.name)))
  id : member W (.struct (idOf c.name)) c!"id" = some .string
  struct : ∃ s ∈ W.structs, s.1 = idOf c.name
  knows : ∃ s, serializeDecl c.name = .ok s ∧ Knows W s

/-- No variable is hidden by another one and no function is hidden by a variable. -/
def classFits (f : Str) (c : Class) : Bool :=
  lower c.plural ++ c!"_as_value" != f && f != c!"strlen" &&
    unhidden f [c!"serialize_" ++ lower c.name] && lower c.plural ++ c!"_as_value" != c!"serialize_" ++ lower c.name &&
    lower c.plural != f

/-- The variables of the loop over the instances -/
def loopVars : List Str := [c!"kv", c!"id", c!"instance", c!"expected", c!"but_got", c!"msg"]

theorem type_instanceId {Y : Str} (h : typeOf W Γ (v c!"instance") = some (.ptr (.struct Y))) :
    typeOf W Γ instanceId = member W (.struct Y) c!"id" := type_member h

theorem run_differs {Y : Str} (hstr : Knows W ⟨c!"strlen", [.text], .size⟩) (hid : typeOf W Γ (v c!"id") = some .string)
    (hin : typeOf W Γ (v c!"instance") = some (.ptr (.struct Y))) (hm : member W (.struct Y) c!"id" = some .string) :
    (run W R Γ.enter differsCode).isSome = !Γ.hides c!"strlen" := by
  rw [differsCode]
  rw [run_auto (x := .fixed c!"expected") (by decide) (by simp) typeOf_text (by decide)]
  rw [run_auto (x := .fixed c!"but_got") (by decide) (by simp [Var.text]) typeOf_text (by decide)]
  rw [run_decl₀ (x := .fixed c!"msg") (by decide) (by simp [Var.text]) (typeOk_plain rfl)]
  generalize hΔ : ((Γ.enter.push (.fixed c!"expected") .text).push (.fixed c!"but_got") .text).push (.fixed c!"msg") .string = Δ
  have h1 : typeOf W Δ (v c!"expected") = some .text := by rw [← hΔ]; found
  have h2 : typeOf W Δ (v c!"but_got") = some .text := by rw [← hΔ]; found
  have h3 : typeOf W Δ (v c!"msg") = some .string := by rw [← hΔ]; found
  have h4 : typeOf W Δ (v c!"id") = some .string := by rw [← hid, ← hΔ]; found
  have h5 : typeOf W Δ (v c!"instance") = some (.ptr (.struct Y)) := by rw [← hin, ← hΔ]; found
  have h6 : typeOf W Δ instanceId = some .string := by rw [type_instanceId h5, hm]
  have h7 : Δ.hides c!"strlen" = Γ.hides c!"strlen" := by rw [← hΔ]; simp [Var.text]
  rw [← h7]
  cases hs : Δ.hides c!"strlen" with
  | true =>
    simp only [run, addTo, typeOf_call₁ _ c!"reserve", h3, Option.bind_some, typeOf_plus, typeOf_fn, hs, if_true, Option.bind_none,
      Option.isSome_none, Bool.not_true]
  | false =>
    have hp : ∀ e, typeOf W Δ e = some .text → typeOf W Δ (fnCall c!"strlen" [e]) = some .size := by
      intro e he
      rw [typeOf_fn, hs]
      simp only [types, he, Bool.false_eq_true, if_false, Option.bind_some]
      exact hstr.pick
    have hsz : ∀ e, typeOf W Δ e = some .string → typeOf W Δ (call₀ e c!"size") = some .size := by
      intro e he
      rw [typeOf_call₀, he]
      exact string_size
    have hall := type_plus (type_plus (type_plus (hp _ h1) (.inl (hsz _ h4))) (.inl (hp _ h2))) (.inl (hsz _ h6))
    have hlib : typeOf W Δ (libCall c!"std::invalid_argument" [v c!"msg"]) = some .exception := by
      rw [typeOf_lib]
      simp only [types, h3, Option.bind_some]
      exact lib_invalid
    simp only [run, addTo, typeOf_call₁, h3, h1, h2, h4, h6, hall, hlib, Option.bind_some, string_reserve, string_add, string_add',
      Option.isSome_some, Bool.not_false]

/-- The variables of the function before the loop over the instances -/
structure AtClass (W : World) (f X : Str) (Γ : Env) : Prop where
  inside : InSer W f X Γ
  hides : ∀ u : Str, u.head? = some 's' → Γ.hides u = (u == f || u == f ++ c!"_as_value")

theorem pluralValue_text (pl : Str) : (pluralValue pl).text = pl ++ c!"_as_value" := rfl

theorem loopVar_ne {w : Str} (hw : w ∈ loopVars) (s : Str) : w ≠ s ++ c!"_as_value" := by
  intro h
  have : ∀ w ∈ loopVars, w.drop (w.length - 9) ≠ c!"_as_value" := by decide +kernel
  exact this w hw (by rw [h]; exact List.drop_left' (by simp))

theorem lookup_push_other {x y : Var} {ty : CTy} (h : y.text = x.text) (hne : y ≠ x) : (Γ.push y ty).lookup x = none := by
  simp [Env.lookup, h, hne]

theorem strlen_ne (s : Str) : c!"strlen" ≠ s ++ c!"_as_value" := by
  intro h
  have := congrArg List.getLast? h
  simp at this

theorem run_instance {c : Class} {f pl : Str} (hstr : Knows W ⟨c!"strlen", [.text], .size⟩) (hc : SerClass W X c)
    (hΓ : AtClass W f X Γ) (hup : ∀ s ∈ W.structs, ∃ ch cs, s.1 = ch :: cs ∧ isUpper ch = true)
    (hpl : ∃ ch cs, pl = ch :: cs ∧ isUpper ch = false) :
    (run W R (((Γ.enter.push (pluralValue pl) .json).enter).push (.fixed c!"kv") (.pair (.owner (idOf c.name))))
      (instanceCode (pluralValue pl) (lower c.name) (idOf c.name))).isSome =
    (f != c!"strlen" && unhidden f [c!"serialize_" ++ lower c.name] && pl ++ c!"_as_value" != c!"serialize_" ++ lower c.name) := by
  have hpv : ∀ w ∈ loopVars, (Var.fixed w).text ≠ (pluralValue pl).text := fun w hw => loopVar_ne hw pl
  have hplt : ∃ ch cs, (pluralValue pl).text = ch :: cs ∧ isUpper ch = false := by
    obtain ⟨ch, cs, rfl, h⟩ := hpl
    exact ⟨ch, _, rfl, h⟩
  generalize hΔ : ((Γ.enter.push (pluralValue pl) .json).enter).push (.fixed c!"kv") (.pair (.owner (idOf c.name))) = Δ
  have hkv : typeOf W (Δ.push (.fixed c!"id") .string) (v c!"kv") = some (.pair (.owner (idOf c.name))) := by rw [← hΔ]; found
  have hblock : ∀ e ∈ Δ.block, e.1.text ≠ c!"id" ∧ e.1.text ≠ c!"instance" := by
    rw [← hΔ]
    intro e he
    simp only [push_block, enter_block, List.mem_singleton] at he
    subst he
    exact ⟨by simp [Var.text], by simp [Var.text]⟩
  have hfirst : typeOf W (Δ.push (.fixed c!"id") .string) (.dot (v c!"kv") c!"first") = some .string := by
    rw [typeOf_dot, hkv]
    rfl
  rw [instanceCode, run_decl (x := .fixed c!"id") (by decide) (fun e he => (hblock e he).1) (typeOk_plain rfl) hfirst (by decide)]
  have htypes : ∀ s ∈ W.structs, (Δ.push (.fixed c!"id") .string).hides s.1 = false := by
    intro s hs
    have hu := hup s hs
    have h1 : c!"id" ≠ s.1 := upper_ne ⟨_, _, rfl, by decide⟩ hu
    have h2 : c!"kv" ≠ s.1 := upper_ne ⟨_, _, rfl, by decide⟩ hu
    have h3 : (pluralValue pl).text ≠ s.1 := upper_ne hplt hu
    rw [← hΔ]
    simp only [hides_push, hides_enter, hΓ.inside.types s hs, Bool.or_false, Bool.or_eq_false_iff, beq_eq_false_iff_ne, ne_eq]
    exact ⟨h1, h2, h3⟩
  have hsecond : typeOf W ((Δ.push (.fixed c!"id") .string).push (.fixed c!"instance") (.ptr (.struct (idOf c.name))))
      (call₀ (.dot (v c!"kv") c!"second") c!"get") = some (.ptr (.struct (idOf c.name))) := by
    rw [typeOf_call₀, typeOf_dot, lookup_fixed_ne (by simp [Var.text]), hkv]
    exact owner_get _
  rw [run_decl (x := .fixed c!"instance") (by decide) ?_ (typeOk_struct hc.struct htypes _ rfl) hsecond (converts_refl _)]
  · generalize hΘ : (Δ.push (.fixed c!"id") .string).push (.fixed c!"instance") (.ptr (.struct (idOf c.name))) = Θ
    have hid : typeOf W Θ (v c!"id") = some .string := by rw [← hΘ]; found
    have hinst : typeOf W Θ (v c!"instance") = some (.ptr (.struct (idOf c.name))) := by rw [← hΘ]; found
    have hiid : typeOf W Θ instanceId = some .string := by rw [type_instanceId hinst, hc.id]
    have hpvt : typeOf W Θ (.var (pluralValue pl)) = some .json := by
      rw [← hΘ, ← hΔ, typeOf_var, lookup_push_ne (hpv _ (by decide)), lookup_push_ne (hpv _ (by decide)), lookup_push_ne (hpv _ (by decide)),
        lookup_enter, lookup_push_self]
    have hhide : ∀ u : Str, u ∉ loopVars → u.head? = some 's' → Θ.hides u = (pl ++ c!"_as_value" == u || (u == f || u == f ++ c!"_as_value")) := by
      intro u hu hs
      have h : ∀ w ∈ loopVars, (w == u) = false := by
        intro w hw
        simp only [beq_eq_false_iff_ne, ne_eq]
        rintro rfl
        exact hu hw
      rw [← hΘ, ← hΔ]
      simp only [hides_push, hides_enter, hΓ.hides u hs, pluralValue, Var.text, h _ (by decide : c!"id" ∈ loopVars),
        h _ (by decide : c!"kv" ∈ loopVars), h _ (by decide : c!"instance" ∈ loopVars), Bool.false_or]
    have hstrlen : Θ.hides c!"strlen" = (f == c!"strlen") := by
      rw [hhide _ (by decide) rfl, Bool.eq_iff_iff]
      simp only [Bool.or_eq_true, beq_iff_eq]
      constructor
      · rintro (h | h | h)
        · exact absurd h.symm (strlen_ne pl)
        · exact h.symm
        · exact absurd h (strlen_ne f)
      · intro h
        exact .inr (.inl h.symm)
    have hser : Θ.hides (c!"serialize_" ++ lower c.name) =
        !(unhidden f [c!"serialize_" ++ lower c.name] && pl ++ c!"_as_value" != c!"serialize_" ++ lower c.name) := by
      rw [hhide _ (by intro h; revert h; simp [loopVars]) rfl, Bool.eq_iff_iff]
      simp only [unhidden, List.all_cons, List.all_nil, Bool.and_true, Bool.or_eq_true, beq_iff_eq, Bool.not_eq_true', Bool.and_eq_false_iff,
        bne_eq_false_iff_eq]
      constructor
      · rintro (h | h)
        · exact .inr h
        · exact .inl h
      · rintro (h | h)
        · exact .inr h
        · exact .inl h
    rw [run_append, run_ifThen, typeOf_cmp, hid, hiid]
    simp only [Option.bind_some, comparable, if_true, testable, then_some]
    rw [run_differs hstr hid hinst hc.id, hstrlen]
    by_cases hf : f = c!"strlen"
    · simp [hf]
    · have hb : (f == c!"strlen") = false := by simpa using hf
      have hb' : (f != c!"strlen") = true := by simpa using hf
      rw [hb, hb']
      simp only [Bool.not_false, if_true, Option.bind_some, Bool.true_and, run, typeOf_index, hpvt, hiid, element, typeOf_fn, hser]
      cases hu : (unhidden f [c!"serialize_" ++ lower c.name] && pl ++ c!"_as_value" != c!"serialize_" ++ lower c.name) with
      | false => simp
      | true =>
        obtain ⟨s, hsig, hk⟩ := hc.knows
        unfold serializeDecl at hsig
        obtain ⟨f', hf', hsig⟩ := ok_bind hsig
        obtain ⟨Y, hY, hsig⟩ := ok_bind hsig
        cases hsig
        obtain ⟨rfl, _⟩ := PyCode.asVariable_eq hf'
        obtain rfl := idOf_eq hY
        have hp := hk.pick
        simp only at hp
        simp only [types, typeOf_star, hinst, pointee, Option.bind_some, Option.map_some, Bool.not_true, Bool.false_eq_true, if_false, hp, converts_refl,
          if_true, Option.isSome_some]
  · intro e he
    simp only [push_block, List.mem_cons] at he
    rcases he with rfl | he
    · simp [Var.text]
    · exact (hblock e he).2

theorem run_serializeInstances {c : Class} {f : Str} {code : Code} (hstr : Knows W ⟨c!"strlen", [.text], .size⟩) (hc : SerClass W X c)
    (hΓ : AtClass W f X Γ) (hup : ∀ s ∈ W.structs, ∃ ch cs, s.1 = ch :: cs ∧ isUpper ch = true)
    (h : serializeInstances f c = .ok code) : run W R Γ code = if classFits f c then some Γ else none := by
  unfold serializeInstances at h
  obtain ⟨pl, hpl, h⟩ := ok_bind h
  obtain ⟨_, _, h⟩ := ok_bind h
  obtain ⟨Y, hY, h⟩ := ok_bind h
  obtain ⟨cf, hcf, h⟩ := ok_bind h
  cases h
  obtain ⟨rfl, d, ds, hu, _⟩ := PyCode.asVariable_eq hpl
  obtain ⟨rfl, _⟩ := PyCode.asVariable_eq hcf
  obtain rfl := idOf_eq hY
  have hfirst := lower_first hu []
  rw [List.append_nil] at hfirst
  have hreg : ∀ Δ, typeOf W Δ (.var (objVar f)) = some (.struct X) →
      typeOf W Δ (.dot (.var (objVar f)) (lower c.plural)) = some (.map (.owner (idOf c.name))) := by
    intro Δ hΔ
    rw [typeOf_dot, hΔ]
    exact hc.registry
  rw [serializeInstancesCode, run_ifThen, typeOf_neg, typeOf_call₀, hreg _ hΓ.inside.obj]
  simp only [Option.bind_some, map_empty, testable, if_true]
  rw [run_decl₀ (x := pluralValue (lower c.plural)) (asValue_keyword _) (by simp) (typeOk_plain rfl)]
  have hobj : typeOf W (Γ.enter.push (pluralValue (lower c.plural)) .json) (.var (objVar f)) =
      if lower c.plural ++ c!"_as_value" = f then none else some (.struct X) := by
    rw [typeOf_var]
    split
    · rename_i h
      have : (pluralValue (lower c.plural)).text = (objVar f).text := by simpa [objVar, pluralValue, Var.text] using h
      exact lookup_push_other this (by simp [objVar, pluralValue])
    · rename_i h
      rw [lookup_push_ne (by simpa [objVar, pluralValue, Var.text] using h), lookup_enter, ← typeOf_var (W := W)]
      exact hΓ.inside.obj
  by_cases h1 : lower c.plural ++ c!"_as_value" = f
  · rw [if_pos h1] at hobj
    have hcl : classFits f c = false := by simp [classFits, h1]
    rw [hcl]
    simp [run, typeOf_dot, hobj]
  · rw [if_neg h1] at hobj
    have h1' : (lower c.plural ++ c!"_as_value" != f) = true := by simpa using h1
    have hres : typeOf W (Γ.enter.push (pluralValue (lower c.plural)) .json) (.var (asValue f)) =
        if lower c.plural = f then none else some .json := by
      rw [typeOf_var]
      split
      · rename_i h
        have : (pluralValue (lower c.plural)).text = (asValue f).text := by simp [asValue, pluralValue, Var.text, h]
        exact lookup_push_other this (by simp [asValue, pluralValue])
      · rename_i h
        rw [lookup_push_ne (by simpa [asValue, pluralValue, Var.text] using h), lookup_enter, ← typeOf_var (W := W)]
        exact hΓ.inside.result
    have hok : typeOk W (Γ.enter.push (pluralValue (lower c.plural)) .json).enter (.pair (.owner (idOf c.name))) = true := by
      refine typeOk_of ?_ ?_
      · intro m hm
        simp only [CTy.names, List.mem_singleton] at hm
        subst hm
        exact hc.struct
      · intro s hs
        have : (pluralValue (lower c.plural)).text ≠ s.1 := by
          rw [pluralValue_text]
          exact upper_ne (lower_first hu _) (hup s hs)
        simp only [hides_push, hides_enter, hΓ.inside.types s hs, Bool.or_false, beq_eq_false_iff_ne, ne_eq]
        exact this
    have hone := run_instance (R := R) (pl := lower c.plural) hstr hc hΓ hup hfirst
    simp only [run]
    rw [hreg _ hobj]
    simp only [Option.bind_some, item, loopOk, if_true, Option.getD_none]
    rw [declare_eq (x := .fixed c!"kv") (by decide) (by simp) hok, Option.bind_some]
    rw [classFits, h1', Bool.true_and, ← hone, then_some]
    generalize run W R _ (instanceCode _ _ _) = o
    cases o with
    | none => simp
    | some Δ =>
      simp only [Option.isSome_some, if_true, Bool.true_and]
      by_cases h2 : lower c.plural = f
      · rw [if_pos h2] at hres
        rw [typeOf_index, hres]
        simp [h2]
      · rw [if_neg h2] at hres
        have h2' : (lower c.plural != f) = true := by simpa using h2
        simp [typeOf_index, hres, typeOf_text, element, typeOf_var, converts, h2']

theorem run_serializeClasses (hstr : Knows W ⟨c!"strlen", [.text], .size⟩) {f : Str} (hΓ : AtClass W f X Γ)
    (hup : ∀ s ∈ W.structs, ∃ ch cs, s.1 = ch :: cs ∧ isUpper ch = true) : ∀ {cs : List Class} {codes : List Code},
    cs.mapM (serializeInstances f) = .ok codes → (∀ c ∈ cs, SerClass W X c) →
    run W R Γ (concat codes) = if cs.all (classFits f) then some Γ else none
  | [], codes, h, _ => by cases h; rfl
  | c :: cs, codes, h, hc => by
    obtain ⟨code, rest, h1, h2, rfl⟩ := mapM_cons h
    rw [concat, List.foldr_cons, run_append, run_serializeInstances hstr (hc c (by simp)) hΓ hup h1, List.all_cons]
    cases classFits f c with
    | false => rfl
    | true =>
      rw [if_pos rfl, Option.bind_some]
      exact run_serializeClasses hstr hΓ hup h2 fun d hd => hc d (by simp [hd])

/-! ## The function -/

theorem serializeGraph_ok (hf : Facts g) (hW : Declares W g) (hd : dateH cpp = .ok date) (hstr : Knows W ⟨c!"strlen", [.text], .size⟩)
    {f : Func} (hm : SerMembers W date cpp (idOf g.name) g.properties) (hc : ∀ c ∈ g.classes, SerClass W (idOf g.name) c)
    (hfree : TempFree (lower g.name)) (h : serializeGraph g cpp = .ok f) :
    f.ok W = (!decide (lower g.name ∈ keywords) && unhidden (lower g.name) (usesAll date g.properties) &&
      g.classes.all (classFits (lower g.name))) := by
  unfold serializeGraph at h
  obtain ⟨f', hf', h⟩ := ok_bind h
  obtain ⟨Y, hY, h⟩ := ok_bind h
  obtain ⟨props, hprops, h⟩ := ok_bind h
  obtain ⟨instances, hinst, h⟩ := ok_bind h
  cases h
  obtain rfl := idOf_eq hY
  obtain ⟨rfl, d, ds, hu, _⟩ := PyCode.asVariable_eq hf'
  have hname : g.name ∈ allNames g := by simp [allNames, defNames]
  rw [Func.ok]
  simp only
  rw [declare_obj hW hname]
  by_cases hk : lower g.name ∈ keywords
  · simp [hk]
  rw [if_neg hk, Option.bind_some]
  simp only [hk, decide_false, Bool.not_false, Bool.true_and]
  split
  · rename_i h0
    simp only [Bool.and_eq_true, decide_eq_true_eq, List.length_eq_zero_iff] at h0
    simp [run, typeOf_kind, converts, unhidden, usesAll, h0.1, h0.2]
  · rw [run_result, run_append, run_append]
    have hfirst := lower_first hu []
    rw [List.append_nil] at hfirst
    have hin := inSer_serEnv hf hW (X := idOf g.name) hfirst hfree
    obtain ⟨m, _, h2, h3⟩ := run_serializeProps (R := .json) hd hprops hm hin (clear_serEnv hfree)
    rw [hidden_serEnv] at h2 h3
    cases hun : unhidden (lower g.name) (usesAll date g.properties) with
    | false => rw [h2 (by simp [hun])]; rfl
    | true =>
      obtain ⟨Δ, hΔ, eΔ, _⟩ := h3 (by simp [hun])
      rw [hΔ, Option.bind_some]
      have hat : AtClass W (lower g.name) (idOf g.name) Δ := by
        refine ⟨hin Δ eΔ, fun u hs => ?_⟩
        rw [eΔ.hides fun y hy => ?_, hides_serEnv]
        rintro rfl
        exact hy.head hs
      rw [run_serializeClasses hstr hat (fun s hs => hW.upper hf hs) hinst hc]
      cases g.classes.all (classFits (lower g.name)) with
      | false => rfl
      | true =>
        simp only [if_true, Option.bind_some, run, (hin Δ eΔ).result, converts_refl, Option.isSome_some, Bool.true_and]

end Mapry.CppCode
