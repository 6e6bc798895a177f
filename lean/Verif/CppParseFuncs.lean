import Verif.CppParseTypes
import Verif.GoMeaning
import Verif.GoTotal
import Verif.PyFromModule

/-! # The generated C++ functions which parse the classes and the embeds -/

namespace Mapry.CppCode

open Mapry.TypeGraph Mapry.Naming Mapry.ParseSchema
open Mapry.GoCode (referencesOf ok_bind mapM_cons mapM_mem mapM_mem')
open Mapry.PyCode (Facts allNames defNames idOf idOf_eq attrs)

variable {W : World} {R : CTy} {ctx : Ctx} {n : Nat} {Γ : Env}

/-! ## Properties -/

/-- The type of the member for a property -/
def memberType (p : Property) (t : CTy) : CTy := if p.optional then .optional t else t

/-- The member is found under the converted name, the literals fit and `date::parse` does not read into an optional
value. -/
def propFits (W : World) (X : Str) (date : Bool) (p : Property) : Bool :=
  (member W (.struct X) (lower p.name)).isSome && inRange p.ty && !(date && dated p.ty && p.optional)

/-- What the code of a property refers to -/
structure InBody (W : World) (ctx : Ctx) (X : Str) (Γ : Env) : Prop where
  sees : Sees W ctx [v c!"ref", .text] Γ
  value : typeOf W Γ value = some .json
  target : typeOf W Γ target = some (.ptr (.struct X))

theorem InBody.ref {X : Str} (h : InBody W ctx X Γ) : typeOf W Γ (v c!"ref") = some .string := by
  obtain ⟨e, ps, h1, h2, _⟩ := h.sees.ref
  cases h1
  exact h2

theorem InBody.short {X : Str} (h : InBody W ctx X Γ) : Sees W ctx [v c!"ref"] Γ :=
  { h.sees with ref := ⟨_, [], rfl, h.ref, by simp⟩ }

theorem run_parseProperty {date : Bool} (hb : Basics W) (hd : dateH ctx.cpp = .ok date) {X : Str} {p : Property} {code : Code}
    {m : Nat} {t : CTy} (h : parseProperty ctx p n = .ok (code, m)) (ht : typeRepr ctx.cpp p.ty = .ok t)
    (hsup : Supplies W ctx.graph p.ty) (hin : Always (Fresh n) Γ (InBody W ctx X))
    (hm : member W (.struct X) (lower p.name) = none ∨ member W (.struct X) (lower p.name) = some (memberType p t)) :
    n < m ∧ run W R Γ code = if propFits W X date p then some Γ else none := by
  unfold parseProperty at h
  obtain ⟨field, hfield, h⟩ := ok_bind h
  obtain ⟨rfl, _⟩ := PyCode.asAttribute_eq hfield
  obtain ⟨⟨c, k⟩, hc, h⟩ := ok_bind h
  have hin' : Always (Fresh n) Γ.enter (InBody W ctx X) := fun Δ hΔ => hin Δ hΔ.of_enter
  have hprop : ∀ Δ, Extends (Fresh n) Γ.enter Δ →
      typeOf W Δ (.arrow target (lower p.name)) = member W (.struct X) (lower p.name) := by
    intro Δ hΔ
    rw [typeOf_arrow, (hin' Δ hΔ).target]
    rfl
  have hval : Always (Fresh n) Γ.enter fun Δ => typeOf W Δ (.index value .text) = some .json := by
    intro Δ hΔ
    show typeOf W Δ _ = _
    rw [typeOf_index, (hin' Δ hΔ).value]
    rfl
  have hclear : Clear n Γ.enter := by intro a ha; cases ha
  have hmember : typeOf W Γ (call₁ value c!"isMember" .text) = some .bool := by
    rw [typeOf_call₁, hin.now.value, typeOf_text]
    exact json_isMember
  cases hopt : p.optional with
  | false =>
    rw [hopt] at hc
    simp only [Bool.false_and, Bool.false_eq_true, if_false] at hc
    simp only [hopt, Bool.false_eq_true, if_false] at h
    cases h
    have hplace : Place p.ty t (member W (.struct X) (lower p.name)) := by
      rcases hm with e | e
      · exact .inl e
      · rw [memberType, hopt] at e
        exact .inr (.inl e)
    obtain ⟨h1, h2⟩ := run_parseValue (R := R) hb hd p.ty hc ht hsup hplace (fun Δ hΔ => (hin' Δ hΔ).sees) hval
      (fun Δ hΔ => hprop Δ hΔ) hclear
    refine ⟨h1, ?_⟩
    rw [run_ifElse, typeOf_neg, hmember]
    simp only [Option.bind_some, testable, if_true, run]
    rw [typeOf_via₂, hin'.now.sees.errors, hin'.now.short.ref.join, typeOf_text]
    simp only [Option.bind_some, errors_add', h2]
    have : accepts date p.ty (member W (.struct X) (lower p.name)) = propFits W X date p := by
      rcases hm with e | e
      · simp [accepts, propFits, e]
      · rw [memberType, hopt] at e
        simp only [Bool.false_eq_true, if_false] at e
        rw [propFits, hopt, e, accepts_exact ht]
        simp
    rw [this]
    cases propFits W X date p <;> rfl
  | true =>
    simp only [hopt, if_true] at h
    rw [hopt] at hc
    cases h
    rw [memberType, hopt] at hm
    simp only [if_true] at hm
    rw [run_ifThen, hmember]
    simp only [Option.bind_some, testable, if_true]
    by_cases hne : needsEmplace p.ty = true
    · have hdated : dated p.ty = false := by cases hp : p.ty <;> simp_all [needsEmplace, dated]
      simp only [hne, if_true, Bool.true_and] at hc ⊢
      simp only [run, typeOf_call₀]
      rw [hprop _ (.refl _)]
      rcases hm with e | e
      · refine ⟨?_, by simp [propFits, e]⟩
        refine (run_parseValue (R := R) (T := none) hb hd p.ty hc ht hsup (.inl rfl) (fun Δ hΔ => (hin' Δ hΔ).sees) hval ?_ hclear).1
        intro Δ hΔ
        show typeOf W Δ _ = _
        rw [typeOf_star, hprop Δ hΔ, e]
        rfl
      · rw [e]
        simp only [Option.bind_some, optional_emplace]
        obtain ⟨h1, h2⟩ := run_parseValue (R := R) (T := some t) hb hd p.ty hc ht hsup (.inr (.inl rfl)) (fun Δ hΔ => (hin' Δ hΔ).sees) hval
          (fun Δ hΔ => by show typeOf W Δ _ = _; rw [typeOf_star, hprop Δ hΔ, e]; rfl) hclear
        refine ⟨h1, ?_⟩
        rw [h2, accepts_exact ht, propFits, e, hdated]
        cases inRange p.ty <;> simp
    · simp only [hne, Bool.true_and, Bool.false_eq_true, if_false] at hc ⊢
      have hplace : Place p.ty t (member W (.struct X) (lower p.name)) := by
        rcases hm with e | e
        · exact .inl e
        · exact .inr (.inr ⟨e, by simpa using hne⟩)
      obtain ⟨h1, h2⟩ := run_parseValue (R := R) hb hd p.ty hc ht hsup hplace (fun Δ hΔ => (hin' Δ hΔ).sees) hval
        (fun Δ hΔ => hprop Δ hΔ) hclear
      refine ⟨h1, ?_⟩
      rw [h2]
      have : accepts date p.ty (member W (.struct X) (lower p.name)) = propFits W X date p := by
        rcases hm with e | e
        · simp [accepts, propFits, e]
        · rw [propFits, hopt, e]
          simp [accepts]
      rw [this]
      cases propFits W X date p <;> rfl

theorem run_parseProps {date : Bool} (hb : Basics W) (hd : dateH ctx.cpp = .ok date) {X : Str} : ∀ {ps : List Property} {n : Nat}
    {code : Code} {Γ : Env}, parseProps ctx ps n = .ok code →
    (∀ p ∈ ps, Supplies W ctx.graph p.ty ∧ ∃ t, typeRepr ctx.cpp p.ty = .ok t ∧
      (member W (.struct X) (lower p.name) = none ∨ member W (.struct X) (lower p.name) = some (memberType p t))) →
    Always (Fresh n) Γ (InBody W ctx X) → run W R Γ code = if ps.all (propFits W X date) then some Γ else none
  | [], _, _, _, h, _, _ => by cases h; rfl
  | p :: ps, n, code, Γ, h, hp, hin => by
    simp only [parseProps] at h
    obtain ⟨⟨c, m⟩, hc, h⟩ := ok_bind h
    obtain ⟨rest, hrest, h⟩ := ok_bind h
    cases h
    obtain ⟨hsup, t, ht, hm⟩ := hp p (by simp)
    obtain ⟨h1, h2⟩ := run_parseProperty (R := R) hb hd hc ht hsup hin hm
    have h3 := run_parseProps (Γ := Γ) hb hd hrest (fun q hq => hp q (by simp [hq]))
      (hin.of (fun _ hx => hx.mono (Nat.le_of_lt h1)) (.refl Γ))
    rw [run_append, h2, List.all_cons]
    cases propFits W X date p with
    | false => rfl
    | true =>
      simp only [if_true, Option.bind_some, run, type_full hin.now.sees, testable, h3, Bool.true_and]

/-! ## Parameters -/

theorem declareAll_eq : ∀ {ps : List (Var × CTy)} {Γ : Env}, (∀ e ∈ ps, e.1.text ∉ keywords) → (ps.map fun e => e.1.text).Nodup →
    (∀ e ∈ ps, ∀ a ∈ Γ.block, a.1.text ≠ e.1.text) →
    (∀ e ∈ ps, ∀ Δ : Env, (∀ a ∈ Δ.all, a ∈ Γ.all ∨ a ∈ ps) → typeOk W Δ e.2 = true) →
    declareAll W Γ ps = some ⟨ps.reverse ++ Γ.block, Γ.outer⟩
  | [], _, _, _, _, _ => rfl
  | (x, t) :: ps, Γ, hk, hn, hb, ht => by
    rw [List.map_cons, List.nodup_cons] at hn
    rw [declareAll, declare_eq (hk (x, t) (by simp)) (hb (x, t) (by simp)) (ht (x, t) (by simp) Γ fun a ha => .inl ha)]
    simp only [Option.bind_some]
    rw [declareAll_eq (fun e he => hk e (by simp [he])) hn.2]
    · simp [Env.push]
    · intro e he a ha
      rcases List.mem_cons.1 ha with rfl | ha
      · exact fun h => hn.1 (List.mem_map.2 ⟨e, he, h.symm⟩)
      · exact hb e (by simp [he]) a ha
    · intro e he Δ hΔ
      refine ht e (by simp [he]) Δ fun a ha => ?_
      rcases hΔ a ha with h | h
      · rcases List.mem_cons.1 h with rfl | h
        · exact .inr (by simp)
        · exact .inl h
      · exact .inr (by simp [h])

theorem lookup_param {ps : List (Var × CTy)} (hn : (ps.map fun e => e.1.text).Nodup) {x : Var} {t : CTy} (h : (x, t) ∈ ps) :
    Env.lookup ⟨ps.reverse, []⟩ x = some t := by
  have hu := find_unique (fun e : Var × CTy => e.1.text) (l := ps.reverse) (a := (x, t))
    (by rw [List.map_reverse]; exact List.pairwise_reverse.2 (hn.imp fun h => Ne.symm h)) (by simpa using h)
  rw [Env.lookup, Env.all, List.append_nil]
  simp only at hu
  rw [hu]
  simp

theorem hides_params (ps : List (Var × CTy)) (f : Str) : Env.hides ⟨ps.reverse, []⟩ f = ps.any fun e => e.1.text == f := by
  simp [Env.hides, Env.all]

/-! ## The names of the composites -/

theorem idOf_upper {n x : Str} (h : asComposite n = .ok x) : ∃ c cs, x = c :: cs ∧ isUpper c = true := by
  obtain ⟨c, cs, rfl, hc⟩ := PyCode.composite_first h
  rw [asComposite, if_pos hc] at h
  refine GoCode.upper_ucamel ⟨c, cs, rfl, ?_⟩ h
  exact (isUpper_iff c).1 hc

/-- The structures are those of the composites of the graph. -/
def Declares (W : World) (g : Graph) : Prop := ∀ x, (∃ s ∈ W.structs, s.1 = x) ↔ ∃ n ∈ allNames g, x = idOf n

theorem Declares.upper {g : Graph} (hf : Facts g) (h : Declares W g) {s} (hs : s ∈ W.structs) :
    ∃ c cs, s.1 = c :: cs ∧ isUpper c = true := by
  obtain ⟨n, hn, e⟩ := (h s.1).1 ⟨s, hs, rfl⟩
  rw [e]
  exact idOf_upper (hf.composite n hn)

theorem lower_first {n : Str} {c : Char} {cs : Str} (h : n = c :: cs) (rest : Str) :
    ∃ d ds, lower n ++ rest = d :: ds ∧ isUpper d = false := by
  subst h
  exact ⟨c.toLower, lower cs ++ rest, rfl, isUpper_toLower_false c⟩

theorem upper_ne {x y : Str} (hx : ∃ c cs, x = c :: cs ∧ isUpper c = false) (hy : ∃ c cs, y = c :: cs ∧ isUpper c = true) : x ≠ y := by
  rintro rfl
  obtain ⟨c, cs, e, h⟩ := hx
  obtain ⟨d, ds, e', h'⟩ := hy
  rw [e] at e'
  cases e'
  rw [h] at h'
  cases h'

/-! ## Classes and embeds -/

theorem registryParam_var {g : Graph} {name : Str} {x : Var × CTy} (h : registryParam g name = .ok x) :
    ∃ c ∈ g.classes, c.name = name ∧ x.1 = .own .registry (lower c.plural) c!"_registry" ∧
      (∃ d ds, c.plural = d :: ds ∧ isUpper d = true) ∧ asComposite name = .ok (idOf name) := by
  unfold registryParam at h
  obtain ⟨c, hc, h⟩ := ok_bind h
  obtain ⟨p, hp, h⟩ := ok_bind h
  obtain ⟨t, ht, h⟩ := ok_bind h
  cases h
  obtain ⟨rfl, hm⟩ := classOf_name hc
  obtain ⟨rfl, hu⟩ := PyCode.asVariable_eq hp
  exact ⟨c, hm, rfl, rfl, hu, by rw [ht, idOf_eq ht]⟩

theorem keywords_registry : ∀ w ∈ keywords, w.drop (w.length - 9) ≠ c!"_registry" := by decide +kernel

theorem ends_registry (s : Str) : (s ++ c!"_registry").drop ((s ++ c!"_registry").length - 9) = c!"_registry" :=
  List.drop_left' (by simp)

/-- The functions which are called in every parser are not hidden by a parameter. -/
def parserWords : List Str := [c!"message", c!"strlen", c!"strptime", c!"value_type_to_string", c!"duration_from_string", c!"tm"]

theorem fresh_word {n : Nat} {x : Var} (hx : Fresh n x) {w : Str} (hw : w ∈ parserWords) : x.text ≠ w := by
  have : ∀ w ∈ parserWords, uidOf w = [] ∧ w ∉ innerNames := by decide +kernel
  exact hx.ne_fixed (this w hw).1 (this w hw).2

theorem fresh_from {n : Nat} {x : Var} (hx : Fresh n x) (f : Str) : x.text ≠ f ++ c!"_from" :=
  hx.ne_end (by decide) (by decide) (by decide) (by decide +kernel)

/-- A fixed parameter -/
theorem fresh_param {n : Nat} {x : Var} (hx : Fresh n x) {w : Str} (hw : w ∈ [c!"value", c!"ref", c!"target", c!"errors"]) :
    x.text ≠ w := by
  have : ∀ w ∈ [c!"value", c!"ref", c!"target", c!"errors"], uidOf w = [] ∧ w ∉ innerNames := by decide +kernel
  exact hx.ne_fixed (this w hw).1 (this w hw).2

/-- The variables hide neither the parameters nor the functions nor the types. -/
structure Harmless (P : Var → Prop) : Prop where
  word : ∀ x, P x → ∀ w ∈ parserWords, x.text ≠ w
  from_ : ∀ x, P x → ∀ f : Str, x.text ≠ f ++ c!"_from"
  first : ∀ x, P x → ∃ c cs, x.text = c :: cs ∧ isUpper c = false
  param : ∀ x, P x → ∀ w ∈ [c!"value", c!"ref", c!"target", c!"errors"], x.text ≠ w

theorem fresh_harmless (n : Nat) : Harmless (Fresh n) :=
  ⟨fun _ hx _ hw => fresh_word hx hw, fun _ hx f => fresh_from hx f, fun _ hx => hx.first, fun _ hx _ hw => fresh_param hx hw⟩

/-- The functions and the types are not hidden by harmless variables. -/
theorem sees_of {P : Var → Prop} (hP : Harmless P) {g : Graph} (hf : Facts g) (hW : Declares W g) {ref : List Expr}
    (hw : ∀ w ∈ parserWords, Γ.hides w = false)
    (hfrom : ∀ f : Str, Γ.hides (f ++ c!"_from") = false) (htypes : ∀ s ∈ W.structs, Γ.hides s.1 = false)
    (herr : Γ.lookup (.fixed c!"errors") = some (.ptr .errors)) {Δ : Env} (hΔ : Extends P Γ Δ) (href : RefOk W Δ ref)
    (hreg : ∀ c r, ctx.registry c = .ok r → typeOf W Δ r = some (.map (.owner (idOf c)))) : Sees W ctx ref Δ := by
  have word : ∀ w ∈ parserWords, Δ.hides w = false := fun w h => by rw [hΔ.hides fun y hy => hP.word y hy w h]; exact hw w h
  refine ⟨?_, word _ (by decide), word _ (by decide), word _ (by decide), word _ (by decide), word _ (by decide), ?_,
    word _ (by decide), ?_, href, hreg⟩
  · rw [errors, v, typeOf_var, hΔ.lookup fun y hy => hP.param y hy _ (by decide)]
    exact herr
  · intro f
    rw [hΔ.hides fun y hy => hP.from_ y hy f]
    exact hfrom f
  · intro s hs
    rw [hΔ.hides fun y hy => upper_ne (hP.first y hy) (hW.upper hf hs)]
    exact htypes s hs

/-- What a function needs from the world. -/
structure Scope (W : World) (g : Graph) (cpp : Cpp) (date : Bool) : Prop where
  basics : Basics W
  declares : Declares W g
  date : dateH cpp = .ok date

/-- The code of the properties of the composite and the member for them -/
def Members (W : World) (g : Graph) (cpp : Cpp) (X : Str) (ps : List Property) : Prop :=
  ∀ p ∈ ps, Supplies W g p.ty ∧ ∃ t, typeRepr cpp p.ty = .ok t ∧
    (member W (.struct X) (lower p.name) = none ∨ member W (.struct X) (lower p.name) = some (memberType p t))

/-- The test whether the value is an object -/
theorem run_expectObject {ctx : Ctx} {ref : List Expr} {x : Expr} (hb : Basics W)
    (hs : Always (Fresh n) Γ (Sees W ctx ref)) (hx : Always (Fresh n) Γ fun Δ => typeOf W Δ x = some .json) :
    run W R Γ (expectObject x ref) = some Γ := by
  rw [expectObject, run_ifThen, typeOf_neg, typeOf_call₀, hx.now]
  simp only [Option.bind_some, json_isObject, testable, if_true]
  have hext : Extends (Fresh n) Γ (Γ.enter.push (.fixed c!"expected_but_got") .text) :=
    (Extends.refl Γ).enter.push (fresh_inner (by decide))
  rw [report, run_reportAs hb (by decide) (by simp) (hs _ hext) (type_valueType hb (hs _ hext).valueType (hx _ hext))]
  rfl

theorem parseComposite_ok {g : Graph} {cpp : Cpp} {date : Bool} (hf : Facts g) (hW : Scope W g cpp date) {o : Owner} {name : Str}
    {f : Func} (hname : name ∈ allNames g) (hm : Members W g cpp (idOf name) (ownerProps g o))
    (h : parseComposite g cpp o name = .ok f) : f.ok W = (ownerProps g o).all (propFits W (idOf name) date) := by
  unfold parseComposite at h
  obtain ⟨refs, hrefs, h⟩ := ok_bind h
  obtain ⟨regs, hregs, h⟩ := ok_bind h
  obtain ⟨props, hprops, h⟩ := ok_bind h
  obtain ⟨f', hf', h⟩ := ok_bind h
  obtain ⟨X, hX, h⟩ := ok_bind h
  cases h
  obtain rfl := idOf_eq hX
  have hnd : refs.Nodup := by
    obtain ⟨refs', e1, e2⟩ := GoCode.referencesOf_ok g o
    rw [hrefs] at e1
    cases e1
    exact nodup_references e2
  have hreg : ∀ x ∈ regs, ∃ c ∈ g.classes, x.1 = .own .registry (lower c.plural) c!"_registry" ∧
      (∃ d ds, c.plural = d :: ds ∧ isUpper d = true) ∧ c.name ∈ allNames g ∧ x.2 = .map (.owner (idOf c.name)) := by
    intro x hx
    obtain ⟨a, ha, hax⟩ := mapM_mem hregs hx
    obtain ⟨c, hc, rfl, e, hu, _⟩ := registryParam_var hax
    exact ⟨c, hc, e, hu, by simp only [allNames, defNames, List.mem_append, List.mem_map]; exact .inl (.inl ⟨c, hc, rfl⟩),
      registryParam_type hax⟩
  have hregnd : (regs.map fun e => e.1.text).Nodup := by
    refine PyCode.mapM_nodup hregs hnd ?_
    intro a _ b _ y z hy hz e
    obtain ⟨c, hc, rfl, e1, _⟩ := registryParam_var hy
    obtain ⟨c', hc', rfl, e2, _⟩ := registryParam_var hz
    rw [e1, e2] at e
    simp only [Var.text] at e
    rw [PyCode.map_inj hf.plurals hc hc' (List.append_cancel_right e)]
  have htext : ∀ x ∈ regs, x.1.text.drop (x.1.text.length - 9) = c!"_registry" ∧
      ∃ d ds, x.1.text = d :: ds ∧ isUpper d = false := by
    intro x hx
    obtain ⟨c, _, e, ⟨d, ds, hu, _⟩, _⟩ := hreg x hx
    rw [e]
    exact ⟨ends_registry _, lower_first hu _⟩
  generalize hps : parseParams regs (idOf name) = ps
  have hmem : ∀ x ∈ ps, (x ∈ regs) ∨ x ∈ [(Var.fixed c!"value", CTy.json), (.fixed c!"ref", .string),
      (.fixed c!"target", .ptr (.struct (idOf name))), (.fixed c!"errors", .ptr .errors)] := by
    intro x hx
    rw [← hps] at hx
    simp only [parseParams, List.cons_append, List.mem_cons, List.mem_append, List.not_mem_nil, or_false] at hx ⊢
    rcases hx with h | h | h | h | h
    · exact .inr (.inl h)
    · exact .inl h
    · exact .inr (.inr (.inl h))
    · exact .inr (.inr (.inr (.inl h)))
    · exact .inr (.inr (.inr (.inr h)))
  have hshape : ∀ x ∈ ps, x.1.text.drop (x.1.text.length - 9) = c!"_registry" ∧ (∃ d ds, x.1.text = d :: ds ∧ isUpper d = false) ∨
      x.1.text ∈ [c!"value", c!"ref", c!"target", c!"errors"] := by
    intro x hx
    rcases hmem x hx with h | h
    · exact .inl (htext x h)
    · right
      simp only [List.mem_cons, List.not_mem_nil, or_false] at h
      rcases h with rfl | rfl | rfl | rfl <;> simp [Var.text]
  have hkey : ∀ e ∈ ps, e.1.text ∉ keywords := by
    intro e he hk
    rcases hshape e he with ⟨h, _⟩ | h
    · exact keywords_registry _ hk h
    · have : ∀ w ∈ [c!"value", c!"ref", c!"target", c!"errors"], w ∉ keywords := by decide +kernel
      exact this _ h hk
  have hnodup : (ps.map fun e => e.1.text).Nodup := by
    have hne : ∀ w ∈ [c!"value", c!"ref", c!"target", c!"errors"], w ∉ regs.map fun e => e.1.text := by
      intro w hw hm
      obtain ⟨x, hx, rfl⟩ := List.mem_map.1 hm
      have : ∀ w ∈ [c!"value", c!"ref", c!"target", c!"errors"], w.drop (w.length - 9) ≠ c!"_registry" := by decide +kernel
      exact this _ hw (htext x hx).1
    rw [← hps]
    simp only [parseParams, List.cons_append, List.map_cons, List.map_append, List.map_nil, Var.text]
    rw [List.nodup_cons, List.nodup_append]
    refine ⟨?_, hregnd, by decide, ?_⟩
    · simp only [List.mem_append, not_or]
      exact ⟨hne _ (by decide), by decide⟩
    · intro a ha b hb e
      subst e
      exact hne a (by revert hb; simp; rintro (h | h | h) <;> simp [h]) ha
  have hupper : ∀ x ∈ ps, ∃ d ds, x.1.text = d :: ds ∧ isUpper d = false := by
    intro x hx
    rcases hshape x hx with ⟨_, h⟩ | h
    · exact h
    · simp only [List.mem_cons, List.not_mem_nil, or_false] at h
      rcases h with h | h | h | h <;> rw [h] <;> exact ⟨_, _, rfl, by decide⟩
  have htypes : ∀ s ∈ W.structs, ∀ x ∈ ps, x.1.text ≠ s.1 := fun s hs x hx =>
    upper_ne (hupper x hx) (hW.declares.upper hf hs)
  have hok : ∀ e ∈ ps, ∀ Δ : Env, (∀ a ∈ Δ.all, a ∈ Env.all ⟨[], []⟩ ∨ a ∈ ps) → typeOk W Δ e.2 = true := by
    intro e he Δ hΔ
    refine typeOk_of ?_ fun s hs => ?_
    · intro m hm'
      have : ∀ m, (∃ nm ∈ allNames g, m = idOf nm) → ∃ s ∈ W.structs, s.1 = m := fun m h => (hW.declares m).2 h
      rcases hmem e he with h | h
      · obtain ⟨c, _, _, _, hc, e2⟩ := hreg e h
        rw [e2] at hm'
        simp only [CTy.names, List.mem_singleton] at hm'
        exact this m ⟨c.name, hc, hm'⟩
      · simp only [List.mem_cons, List.not_mem_nil, or_false] at h
        rcases h with rfl | rfl | rfl | rfl
        · cases hm'
        · cases hm'
        · simp only [CTy.names, List.mem_singleton] at hm'
          exact this m ⟨name, hname, hm'⟩
        · cases hm'
    · rw [Env.hides, List.any_eq_false]
      intro a ha
      rcases hΔ a ha with h | h
      · cases h
      · simpa using htypes s hs a h
  have hdecl := declareAll_eq (W := W) (ps := ps) (Γ := ⟨[], []⟩) hkey hnodup (by simp) hok
  simp only [List.append_nil] at hdecl
  have hin4 : ∀ x ∈ [(Var.fixed c!"value", CTy.json), (.fixed c!"ref", .string),
      (.fixed c!"target", .ptr (.struct (idOf name))), (.fixed c!"errors", .ptr .errors)], x ∈ ps := by
    intro x hx
    rw [← hps]
    simp only [parseParams, List.cons_append, List.mem_cons, List.mem_append, List.not_mem_nil, or_false] at hx ⊢
    rcases hx with h | h | h | h <;> simp [h]
  have hlook : ∀ x t, (x, t) ∈ ps → Env.lookup ⟨ps.reverse, []⟩ x = some t := fun x t h => lookup_param hnodup h
  have hwords : ∀ w : Str, w.drop (w.length - 9) ≠ c!"_registry" → w ∉ [c!"value", c!"ref", c!"target", c!"errors"] →
      Env.hides ⟨ps.reverse, []⟩ w = false := by
    intro w h1 h2
    rw [hides_params, List.any_eq_false]
    intro x hx hw
    have hw : x.1.text = w := by simpa using hw
    rcases hshape x hx with ⟨h, _⟩ | h
    · exact h1 (hw ▸ h)
    · exact h2 (hw ▸ h)
  have hbody : Always (Fresh 0) ⟨ps.reverse, []⟩ (InBody W ⟨g, cpp, registryVar g refs⟩ (idOf name)) := by
    intro Δ hΔ
    have hvar : ∀ (w : Str) (t : CTy), w ∈ [c!"value", c!"ref", c!"target", c!"errors"] → (Var.fixed w, t) ∈ ps →
        typeOf W Δ (v w) = some t := by
      intro w t hw h
      rw [v, typeOf_var, hΔ.lookup (x := .fixed w) fun y hy => fresh_param hy hw]
      exact hlook _ _ h
    refine ⟨?_, hvar _ _ (by decide) (hin4 _ (by simp)), hvar _ _ (by decide) (hin4 _ (by simp))⟩
    refine sees_of (fresh_harmless 0) hf hW.declares ?_ ?_ ?_ (hlook _ _ (hin4 _ (by simp))) hΔ ?_ ?_
    · intro w hw
      have : ∀ w ∈ parserWords, w.drop (w.length - 9) ≠ c!"_registry" ∧ w ∉ [c!"value", c!"ref", c!"target", c!"errors"] := by
        decide +kernel
      exact hwords w (this w hw).1 (this w hw).2
    · intro s
      refine hwords _ ?_ ?_
      · intro h
        have h := congrArg List.getLast? h
        rw [List.getLast?_drop] at h
        simp at h
      · intro h
        have : ∀ w ∈ [c!"value", c!"ref", c!"target", c!"errors"], w.getLast? ≠ some 'm' := by decide
        exact this _ h (by simp)
    · intro s hs
      rw [hides_params, List.any_eq_false]
      intro x hx
      simpa using htypes s hs x hx
    · refine ⟨v c!"ref", [.text], rfl, hvar _ _ (by decide) (hin4 _ (by simp)), ?_⟩
      intro p hp
      simp only [List.mem_singleton] at hp
      subst hp
      exact .inr rfl
    · intro c r hr
      unfold registryVar at hr
      simp only at hr
      split at hr
      · rename_i hc
        obtain ⟨cls, hcls, hr⟩ := ok_bind hr
        obtain ⟨pl, hpl, hr⟩ := ok_bind hr
        cases hr
        obtain ⟨x, hx, hpx⟩ := mapM_mem' hregs hc
        have hty := registryParam_type hpx
        unfold registryParam at hpx
        rw [hcls] at hpx
        obtain ⟨_, e1, hpx⟩ := ok_bind hpx
        cases e1
        obtain ⟨_, e1, hpx⟩ := ok_bind hpx
        rw [hpl] at e1
        cases e1
        obtain ⟨_, _, hpx⟩ := ok_bind hpx
        cases hpx
        rw [typeOf_var, hΔ.lookup (fun y hy => hy.ne_end (by decide) (by decide) (by decide) (by decide +kernel))]
        rw [← hty]
        refine hlook _ _ ?_
        rw [← hps]
        simp [parseParams, hx]
      · cases hr
  rw [Func.ok]
  simp only
  rw [hdecl, Option.bind_some, run_append,
    run_expectObject (n := 0) (ctx := ⟨g, cpp, registryVar g refs⟩) hW.basics (fun Δ hΔ => (hbody Δ hΔ).short) (fun Δ hΔ => (hbody Δ hΔ).value),
    Option.bind_some, run_parseProps hW.basics hW.date hprops hm hbody]
  cases (ownerProps g o).all (propFits W (idOf name) date) <;> rfl

end Mapry.CppCode
