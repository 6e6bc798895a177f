import Verif.PyPackage

/-!
# Executions which reach a wrong name
-/

namespace Mapry.PyCode

set_option linter.unusedSimpArgs false

open Mapry.TypeGraph Mapry.Naming Mapry.ParseSchema Mapry.LangValidate
open Mapry.GoCode (referencesOf mapM_mem mapM_mem' mapM_cons)

/-- Some execution of the code reaches its end, unless it looks up a wrong name. -/
def Code.Passes : Code → Prop
  | .done => True
  | .use _ c => c.Passes
  | .call _ _ _ c => c.Passes
  | .bind _ c => c.Passes
  | .forget _ c => c.Passes
  | .branch y n c => (y.Passes ∨ n.Passes) ∧ c.Passes
  | .loop _ _ c => c.Passes
  | .attempt b _ c => b.Passes ∧ c.Passes
  | .leave => False
  | .stop => False

/-- Every name in the code is reached by an execution, unless it looks up a wrong name before. -/
def Code.Live : Code → Prop
  | .done => True
  | .use _ c => c.Live
  | .call _ _ _ c => c.Live
  | .bind _ c => c.Live
  | .forget _ c => c.Live
  | .branch y n c => y.Live ∧ n.Live ∧ (y.Passes ∨ n.Passes) ∧ c.Live
  | .loop _ b c => b.Live ∧ c.Live
  | .attempt _ _ _ => False
  | .leave => True
  | .stop => True

instance decPasses : (c : Code) → Decidable c.Passes
  | .done => isTrue trivial
  | .use _ c => decPasses c
  | .call _ _ _ c => decPasses c
  | .bind _ c => decPasses c
  | .forget _ c => decPasses c
  | .branch y n c =>
    have := decPasses y
    have := decPasses n
    have := decPasses c
    inferInstanceAs (Decidable ((y.Passes ∨ n.Passes) ∧ c.Passes))
  | .loop _ _ c => decPasses c
  | .attempt b _ c =>
    have := decPasses b
    have := decPasses c
    inferInstanceAs (Decidable (b.Passes ∧ c.Passes))
  | .leave => isFalse id
  | .stop => isFalse id

instance decLive : (c : Code) → Decidable c.Live
  | .done => isTrue trivial
  | .use _ c => decLive c
  | .call _ _ _ c => decLive c
  | .bind _ c => decLive c
  | .forget _ c => decLive c
  | .branch y n c =>
    have := decLive y
    have := decLive n
    have := decLive c
    inferInstanceAs (Decidable (y.Live ∧ n.Live ∧ (y.Passes ∨ n.Passes) ∧ c.Live))
  | .loop _ b c =>
    have := decLive b
    have := decLive c
    inferInstanceAs (Decidable (b.Live ∧ c.Live))
  | .attempt _ _ _ => isFalse id
  | .leave => isTrue trivial
  | .stop => isTrue trivial

section
variable {ok : Name → Prop}

theorem wrong_use {xs c e} (h : Run ok c e .wrong) : Run ok (.use xs c) e .wrong := by
  by_cases hx : ∀ x ∈ xs, Good ok e x
  · exact .use hx h
  · simp only [Classical.not_forall] at hx
    obtain ⟨x, h1, h2⟩ := hx
    exact .use_wrong h1 h2

theorem wrong_call {f a k c e} (h : Run ok c e .wrong) : Run ok (.call f a k c) e .wrong := by
  by_cases hx : Good ok e f
  · exact .call hx h
  · exact .call_wrong hx

theorem wrong_yes {y n c e} (h : Run ok y e .wrong) : Run ok (.branch y n c) e .wrong := .yes_out h (by simp)

theorem wrong_no {y n c e} (h : Run ok n e .wrong) : Run ok (.branch y n c) e .wrong := .no_out h (by simp)

theorem wrong_loop {xs b c e} (h : Run ok b (assign xs e) .wrong) : Run ok (.loop xs b c) e .wrong := .body_out h (by simp)

theorem passes_run {c : Code} (h : c.Passes) (e : Env) : Run ok c e .wrong ∨ ∃ e', Run ok c e (.next e') := by
  induction c generalizing e with
  | done => exact .inr ⟨e, .done⟩
  | use xs c ih =>
    by_cases hx : ∀ x ∈ xs, Good ok e x
    · exact (ih h e).imp (.use hx) fun ⟨e', hr⟩ => ⟨e', .use hx hr⟩
    · simp only [Classical.not_forall] at hx
      obtain ⟨x, h1, h2⟩ := hx
      exact .inl (.use_wrong h1 h2)
  | call f a k c ih =>
    by_cases hx : Good ok e f
    · exact (ih h e).imp (.call hx) fun ⟨e', hr⟩ => ⟨e', .call hx hr⟩
    · exact .inl (.call_wrong hx)
  | bind xs c ih => exact (ih h _).imp .bind fun ⟨e', hr⟩ => ⟨e', .bind hr⟩
  | forget xs c ih => exact (ih h _).imp .forget fun ⟨e', hr⟩ => ⟨e', .forget hr⟩
  | branch y n c ihy ihn ih =>
    rcases h.1 with hy | hn
    · rcases ihy hy e with hw | ⟨e', hr⟩
      · exact .inl (wrong_yes hw)
      · exact (ih h.2 e').imp (.yes hr) fun ⟨e'', hr'⟩ => ⟨e'', .yes hr hr'⟩
    · rcases ihn hn e with hw | ⟨e', hr⟩
      · exact .inl (wrong_no hw)
      · exact (ih h.2 e').imp (.no hr) fun ⟨e'', hr'⟩ => ⟨e'', .no hr hr'⟩
  | loop xs b c _ ih => exact (ih h e).imp .over fun ⟨e', hr⟩ => ⟨e', .over hr⟩
  | attempt b hd c ihb _ ih =>
    rcases ihb h.1 e with hw | ⟨e', hr⟩
    · exact .inl (.tried_out hw (by simp))
    · exact (ih h.2 e').imp (.tried hr) fun ⟨e'', hr'⟩ => ⟨e'', .tried hr hr'⟩
  | leave => cases h
  | stop => cases h

theorem wrong_after {y n c : Code} {e} (h : y.Passes ∨ n.Passes) (hc : ∀ e', Run ok c e' .wrong) :
    Run ok (.branch y n c) e .wrong := by
  rcases h with h | h
  · rcases passes_run (ok := ok) h e with hw | ⟨e', hr⟩
    · exact wrong_yes hw
    · exact .yes hr (hc e')
  · rcases passes_run (ok := ok) h e with hw | ⟨e', hr⟩
    · exact wrong_no hw
    · exact .no hr (hc e')

/-- A name which is never found is looked up. -/
theorem live_wrong {c : Code} (h : c.Live) {n : Name} (hn : n ∈ c.names) (hg : ∀ e, ¬ Good ok e n) (e : Env) : Run ok c e .wrong := by
  induction c generalizing e with
  | done => cases hn
  | use xs c ih =>
    rcases List.mem_append.1 hn with hn | hn
    · exact .use_wrong hn (hg e)
    · exact wrong_use (ih h hn e)
  | call f a k c ih =>
    rcases List.mem_cons.1 hn with rfl | hn
    · exact .call_wrong (hg e)
    · exact wrong_call (ih h hn e)
  | bind xs c ih => exact .bind (ih h hn _)
  | forget xs c ih => exact .forget (ih h hn _)
  | branch y n c ihy ihn ih =>
    simp only [Code.names, List.mem_append] at hn
    rcases hn with (hn | hn) | hn
    · exact wrong_yes (ihy h.1 hn e)
    · exact wrong_no (ihn h.2.1 hn e)
    · exact wrong_after h.2.2.1 (ih h.2.2.2 hn)
  | loop xs b c ihb ih =>
    rcases List.mem_append.1 hn with hn | hn
    · exact wrong_loop (ihb h.1 hn _)
    · exact .over (ih h.2 hn e)
  | attempt b hd c => cases h
  | leave => cases hn
  | stop => cases hn

/-- One piece of code after the other. -/
theorem run_then {c d : Code} {e : Env} {o : Outcome} (h : Run ok c e o) : (∀ e', o = .next e' → ∀ o', Run ok d e' o' → Run ok (c ++ d) e o') ∧
    ((∀ e', o ≠ .next e') → Run ok (c ++ d) e o) := by
  induction h with
  | done => exact ⟨(by rintro e' e o' h; cases e; exact h), fun h => absurd rfl (h _)⟩
  | use_wrong h1 h2 => exact ⟨(by intro e' e; cases e), fun _ => .use_wrong h1 h2⟩
  | use_raised h1 => exact ⟨(by intro e' e; cases e), fun _ => .use_raised h1⟩
  | use h1 _ ih => exact ⟨fun e' e o' h => .use h1 (ih.1 e' e o' h), fun h => .use h1 (ih.2 h)⟩
  | call_wrong h1 => exact ⟨(by intro e' e; cases e), fun _ => .call_wrong h1⟩
  | call_raised h1 => exact ⟨(by intro e' e; cases e), fun _ => .call_raised h1⟩
  | call h1 _ ih => exact ⟨fun e' e o' h => .call h1 (ih.1 e' e o' h), fun h => .call h1 (ih.2 h)⟩
  | bind _ ih => exact ⟨fun e' e o' h => .bind (ih.1 e' e o' h), fun h => .bind (ih.2 h)⟩
  | forget _ ih => exact ⟨fun e' e o' h => .forget (ih.1 e' e o' h), fun h => .forget (ih.2 h)⟩
  | leave => exact ⟨(by intro e' e; cases e), fun _ => .leave⟩
  | stop => exact ⟨(by intro e' e; cases e), fun _ => .stop⟩
  | yes h1 _ _ ih => exact ⟨fun e' e o' h => .yes h1 (ih.1 e' e o' h), fun h => .yes h1 (ih.2 h)⟩
  | no h1 _ _ ih => exact ⟨fun e' e o' h => .no h1 (ih.1 e' e o' h), fun h => .no h1 (ih.2 h)⟩
  | yes_out h1 h2 => exact ⟨fun e' e => absurd e (h2 e'), fun _ => .yes_out h1 h2⟩
  | no_out h1 h2 => exact ⟨fun e' e => absurd e (h2 e'), fun _ => .no_out h1 h2⟩
  | over _ ih => exact ⟨fun e' e o' h => .over (ih.1 e' e o' h), fun h => .over (ih.2 h)⟩
  | again h1 _ _ ih => exact ⟨fun e' e o' h => .again h1 (ih.1 e' e o' h), fun h => .again h1 (ih.2 h)⟩
  | stopped h1 _ _ ih => exact ⟨fun e' e o' h => .stopped h1 (ih.1 e' e o' h), fun h => .stopped h1 (ih.2 h)⟩
  | body_out h1 h2 => exact ⟨fun e' e => absurd e (h2 e').1, fun _ => .body_out h1 h2⟩
  | tried h1 _ _ ih => exact ⟨fun e' e o' h => .tried h1 (ih.1 e' e o' h), fun h => .tried h1 (ih.2 h)⟩
  | tried_out h1 h2 => exact ⟨fun e' e => absurd e (h2 e'), fun _ => .tried_out h1 h2⟩
  | caught h1 h2 _ _ _ ih => exact ⟨fun e' e o' h => .caught h1 h2 (ih.1 e' e o' h), fun h => .caught h1 h2 (ih.2 h)⟩
  | caught_out h1 h2 h3 => exact ⟨fun e' e => absurd e (h3 e'), fun _ => .caught_out h1 h2 h3⟩

theorem wrong_left {c d : Code} {e} (h : Run ok c e .wrong) : Run ok (c ++ d) e .wrong := (run_then h).2 (by simp)

theorem wrong_right {c d : Code} {e} (hc : c.Passes) (hd : ∀ e', Run ok d e' .wrong) : Run ok (c ++ d) e .wrong := by
  rcases passes_run (ok := ok) hc e with hw | ⟨e', hr⟩
  · exact wrong_left hw
  · exact (run_then hr).1 e' rfl _ (hd e')

end

theorem passes_append {c d : Code} (hc : c.Passes) (hd : d.Passes) : (c ++ d).Passes := by
  induction c with
  | done => exact hd
  | use xs c ih => exact ih hc
  | call f a k c ih => exact ih hc
  | bind xs c ih => exact ih hc
  | forget xs c ih => exact ih hc
  | branch y n c _ _ ih => exact ⟨hc.1, ih hc.2⟩
  | loop xs b c _ ih => exact ih hc
  | attempt b h c _ _ ih => exact ⟨hc.1, ih hc.2⟩
  | leave => cases hc
  | stop => cases hc

theorem live_append {c d : Code} (hc : c.Live) (hd : d.Live) : (c ++ d).Live := by
  induction c with
  | done => exact hd
  | use xs c ih => exact ih hc
  | call f a k c ih => exact ih hc
  | bind xs c ih => exact ih hc
  | forget xs c ih => exact ih hc
  | branch y n c _ _ ih => exact ⟨hc.1, hc.2.1, hc.2.2.1, ih hc.2.2.2⟩
  | loop xs b c _ ih => exact ⟨hc.1, ih hc.2⟩
  | attempt b h c => cases hc
  | leave => trivial
  | stop => trivial

theorem passes_concat {cs : List Code} (h : ∀ c ∈ cs, c.Passes) : (concat cs).Passes := by
  induction cs with
  | nil => trivial
  | cons c cs ih => exact passes_append (h c (by simp)) (ih fun d hd => h d (by simp [hd]))

theorem live_concat {cs : List Code} (h : ∀ c ∈ cs, c.Live) : (concat cs).Live := by
  induction cs with
  | nil => trivial
  | cons c cs ih => exact live_append (h c (by simp)) (ih fun d hd => h d (by simp [hd]))

/-! ## The code of the serializers -/

theorem expr_live {py value ty e} (h : serializationExpr py value ty = .ok (some e)) : e.Live ∧ e.Passes := by
  cases ty with
  | path p =>
    obtain ⟨_, _, h⟩ := ok_bind h
    cases h
    exact ⟨trivial, trivial⟩
  | timeZone =>
    obtain ⟨_, _, h⟩ := ok_bind h
    cases h
    exact ⟨trivial, trivial⟩
  | embed n =>
    obtain ⟨_, _, h⟩ := ok_bind h
    cases h
    exact ⟨trivial, trivial⟩
  | _ => cases h <;> exact ⟨trivial, trivial⟩

theorem serializes_live {py ty tgt value n c} (h : Serializes py ty tgt value n c) : c.Live ∧ c.Passes := by
  induction h with
  | copy => exact ⟨trivial, trivial⟩
  | each x lo hi tgt value n item he => exact ⟨⟨(expr_live he).1, trivial⟩, trivial⟩
  | array x lo hi tgt value n item hp ih => exact ⟨⟨live_append ih.1 trivial, trivial⟩, trivial⟩
  | mapEach x tgt value n item he =>
    exact ⟨⟨trivial, trivial, .inl trivial, live_append (expr_live he).1 trivial, trivial⟩, .inl trivial, trivial⟩
  | map x tgt value n item hp ih =>
    exact ⟨⟨trivial, trivial, .inl trivial, live_append ih.1 trivial, trivial⟩, .inl trivial, trivial⟩
  | leaf x tgt value n e he => exact ⟨live_append (expr_live he).1 trivial, passes_append (expr_live he).2 trivial⟩

theorem serializeProps_live {py ps n c} (h : serializeProps py ps n = .ok c) : c.Live ∧ c.Passes := by
  induction ps generalizing n c with
  | nil => cases h; exact ⟨trivial, trivial⟩
  | cons p ps ih =>
    unfold serializeProps at h
    obtain ⟨⟨c1, m⟩, h1, h⟩ := ok_bind h
    obtain ⟨rest, h2, h⟩ := ok_bind h
    cases h
    obtain ⟨d, hd, rfl⟩ := serializeProperty_inv h1
    have hl := serializes_live hd
    have : (if p.optional = true then Code.use [v c!"instance"] (.branch d .done .done) else d).Live ∧
        (if p.optional = true then Code.use [v c!"instance"] (.branch d .done .done) else d).Passes := by
      split
      · exact ⟨⟨hl.1, trivial, .inr trivial, trivial⟩, .inr trivial, trivial⟩
      · exact hl
    exact ⟨live_append this.1 (ih h2).1, passes_append this.2 (ih h2).2⟩

theorem registryCode_live (c : Class) : (registryCode c).Live ∧ (registryCode c).Passes := by
  simp [registryCode, newMapping, Code.Live, Code.Passes]

theorem registryCode_wrong {ok : Name → Prop} (c : Class) (h : c!"target_" ++ lower c.plural = lower c.name ++ c!"_instance")
    (e : Env) : Run ok (registryCode c) e .wrong := by
  unfold registryCode
  refine wrong_use (wrong_yes (wrong_use (wrong_after (.inl trivial) fun e' => wrong_use (wrong_loop (wrong_use
    (.no .done (wrong_use (wrong_call (.use_wrong (List.mem_cons_self ..) ?_)))))))))
  simp [Good, assign, Var.text, h]

/-! ## The modules -/

theorem binds_left {c d : Code} {x} (h : x ∈ c.binds) : x ∈ (c ++ d).binds := by
  induction c <;> simp_all [Code.binds] <;> grind

theorem binds_right {c d : Code} {x} (hc : c.Open) (h : x ∈ d.binds) : x ∈ (c ++ d).binds := by
  induction c <;> simp_all [Code.binds, Code.Open]

theorem concat_bound {cs : List Code} (ho : ∀ c ∈ cs, c.Open) {c : Code} (hc : c ∈ cs) {x} (h : x ∈ c.binds) :
    x ∈ (concat cs).binds := by
  induction cs with
  | nil => cases hc
  | cons d cs ih =>
    rcases List.mem_cons.1 hc with rfl | hc
    · exact binds_left h
    · exact binds_right (ho d (by simp)) (ih (fun c hc => ho c (by simp [hc])) hc)

theorem concat_wrong {ok : Name → Prop} {cs : List Code} (hp : ∀ c ∈ cs, c.Passes) {c : Code} (hc : c ∈ cs)
    (h : ∀ e, Run ok c e .wrong) (e : Env) : Run ok (concat cs) e .wrong := by
  induction cs generalizing e with
  | nil => cases hc
  | cons d cs ih =>
    rcases List.mem_cons.1 hc with rfl | hc
    · exact wrong_left (h e)
    · exact wrong_right (hp d (by simp)) fun e' => ih (fun c hc => hp c (by simp [hc])) hc e'

section
variable {g : Graph} {py : Py}

theorem ToOf.wrong {M : Module} {items : List Item} (h : ToOf g py M items) {pkg : List Module}
    (hc : ∀ f ∈ M.funcs, f.Clean pkg M) : CallsApart g ∧ TargetsApart g := by
  obtain ⟨props, hp, hm⟩ := h.func (o := .graph) (by simp [definitionOrder])
  have hcl := hc (toFunc g py .graph props) (List.mem_flatMap.2 ⟨_, hm, List.mem_singleton.2 rfl⟩)
  have hpl := serializeProps_live hp
  have hfine := toProps_fine (ok := fun _ => True) hp
  have enter : ∀ {ok : Name → Prop} {e : Env}, (∀ e', Run ok (toBody g props .graph) e' .wrong) →
      Run ok (toFunc g py .graph props).body e .wrong := by
    intro ok e hw
    exact wrong_use (wrong_after (.inl trivial) fun e' => wrong_left (hw e'))
  have hregs : (concat (g.classes.map registryCode)).Live ∧ (concat (g.classes.map registryCode)).Passes := by
    constructor
    · apply live_concat
      intro c hc
      obtain ⟨d, _, rfl⟩ := List.mem_map.1 hc
      exact (registryCode_live d).1
    · apply passes_concat
      intro c hc
      obtain ⟨d, _, rfl⟩ := List.mem_map.1 hc
      exact (registryCode_live d).2
  constructor
  · intro c hcm n hn e
    have hloc : c!"serialize_" ++ lower n ∈ (toFunc g py .graph props).locals := by
      rw [← e]
      refine List.mem_append_right _ (List.mem_map.2 ⟨.own [] (lower c.name) c!"_instance", ?_, by simp [Var.text]⟩)
      refine List.mem_append_right _ (binds_left (binds_right hfine.isOpen (concat_bound ?_ (List.mem_map.2 ⟨c, hcm, rfl⟩) ?_)))
      · simp only [List.forall_mem_map]
        exact fun c _ => registryCode_open c
      · simp [registryCode, newMapping, Code.binds]
    refine hcl _ (enter fun e' => live_wrong (n := .glob (c!"serialize_" ++ lower n)) (live_append hpl.1 hregs.1) ?_ ?_ e') rfl
    · rcases hn with ⟨d, hd, rfl⟩ | ⟨p, hp', hu⟩
      · exact names_right hfine.isOpen (registries_names.2 ⟨d, hd, registryCode_uses d⟩)
      · exact names_left (hfine.uses p hp' _ hu _ (by simp [toNames]))
    · intro e'' hg
      have := hg.meaning
      simp only [Name.text, Name.meant, find, hloc, if_true] at this
      cases this
  · intro c hcm e
    refine hcl _ (enter fun e' => wrong_right hpl.2 fun e'' => ?_) rfl
    refine concat_wrong ?_ (List.mem_map.2 ⟨c, hcm, rfl⟩) (registryCode_wrong c e) e''
    simp only [List.forall_mem_map]
    exact fun c _ => (registryCode_live c).2

theorem TypesOf.wrong {T : Module} {imports : List (Origin × Str)} {items : List Item} (h : TypesOf g py T imports items)
    {pkg : List Module} (hc : ∀ f ∈ T.funcs, f.Clean pkg T) : NoCollections g := by
  intro hne hm
  obtain ⟨i, hi, args, regs, hd⟩ := h.defined (o := .graph) (by simp [definitionOrder])
  have e1 := hd.args_texts
  have e2 := hd.regs_texts
  have hr : regs ≠ [] := by
    rintro rfl
    have := congrArg List.length e2
    simp [regTexts] at this
    exact hne (List.length_eq_zero_iff.1 this.symm)
  have hin : initOf (preOf .graph) args regs ∈ T.funcs := by
    refine List.mem_flatMap.2 ⟨i, hi, ?_⟩
    rw [hd.item, typeItem]
    simp [Item.funcs, hr]
  have hloc : c!"collections" ∈ (initOf (preOf .graph) args regs).locals := by
    refine List.mem_append_left _ ?_
    rw [hd.init_params]
    refine List.mem_cons_of_mem _ ?_
    rcases List.mem_append.1 hm with hm | hm
    · exact List.mem_append_left _ (List.mem_append_right _ (((order_perm _).map _).mem_iff.2 hm))
    · exact List.mem_append_right _ hm
  obtain ⟨a, ha⟩ := List.exists_mem_of_ne_nil _ hr
  refine hc _ hin _ (live_wrong (n := collections) (live_concat ?_) (concat_uses ?_ (List.mem_append_right _ (List.mem_map.2
    ⟨a, ha, rfl⟩)) ?_) ?_ _) rfl
  · simp only [List.forall_mem_append, List.forall_mem_map]
    exact ⟨⟨fun a _ => by simp [keepArg, Code.Live], fun a _ => by simp [keepArg, Code.Live]⟩, fun a _ => by simp [keepRegistry, Code.Live, Code.Passes]⟩
  · simp only [List.forall_mem_append, List.forall_mem_map]
    exact ⟨⟨fun a _ => by simp [keepArg, Code.Open], fun a _ => by simp [keepArg, Code.Open]⟩, fun a _ => by simp [keepRegistry, Code.Open]⟩
  · simp [keepRegistry, Code.names]
  · intro e hg
    have := hg.meaning
    have ht : collections.text = c!"collections" := by decide
    simp only [ht, find, hloc, if_true] at this
    cases this

/-- When no execution looks up a wrong name, for a path of the package which does not get in the way. -/
theorem Modules.clean_iff {pkg : List Module} (h : Modules g py pkg) (hr : RootFree g (root py.moduleName)) :
    (∀ M ∈ pkg, ∀ f ∈ M.funcs, f.Clean pkg M) ↔ NoCollections g ∧ CallsApart g ∧ TargetsApart g := by
  refine ⟨fun hc => ?_, fun ⟨h1, h2, h3⟩ => h.clean hr h1 h2 h3⟩
  cases h with
  | mk hf hT hP hF hO =>
    exact ⟨hT.wrong (hc _ (by simp)), hO.wrong (hc _ (by simp))⟩

end

end Mapry.PyCode
