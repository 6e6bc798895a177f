import Verif.PyParseNames

/-!
# The functions of the module `fromjsonable` bind their variables before they use them
-/

namespace Mapry.PyCode

set_option linter.unusedSimpArgs false

open Mapry.TypeGraph Mapry.Naming Mapry.ParseSchema
open Mapry.GoCode (referencesOf hasPattern mapM_mem mapM_mem' mapM_cons)

variable {ok : Name → Prop}

theorem ok_bind {α β : Type} {x : Except Exc α} {f : α → Except Exc β} {y : β} (h : (x >>= f) = .ok y) :
    ∃ a, x = .ok a ∧ f a = .ok y := by
  cases x with
  | error e => cases h
  | ok a => exact ⟨a, rfl, h⟩

/-! ## Properties -/

/-- What is there when the properties are parsed. -/
structure Base (ok : Name → Prop) (ctx : Ctx) (obj : Str) (A : List Var) : Prop where
  old : ∀ y ∈ A, Old 0 y
  value : .fixed c!"value" ∈ A
  ref : .fixed c!"ref" ∈ A
  obj : .fixed obj ∈ A
  errors : .fixed c!"errors" ∈ A
  registry : ∀ c l, ctx.registry c = .ok l → ∀ x ∈ l, Good ok A x

/-- The code of a property, without the exceptions. -/
theorem property_inv {ctx obj p n c m} (h : parseProperty ctx obj p n = .ok (c, m)) : ∃ parsing,
    Parses ctx p.ty (.temp c!"value" n) ⟨[v obj], []⟩ [v c!"ref"] (n + 1) parsing ∧
    c = .use [v c!"value"] (.bind [.temp c!"value" n] (.use [t c!"value" n]
      (if !p.optional then .branch (.use [errors, v c!"ref"] .done) parsing .done else .branch parsing .done .done))) := by
  unfold parseProperty at h
  obtain ⟨_, _, h⟩ := ok_bind h
  obtain ⟨⟨parsing, m'⟩, hp, h⟩ := ok_bind h
  simp only [pure, Except.pure, Except.ok.injEq, Prod.mk.injEq] at h
  exact ⟨parsing, parses_of_ok _ _ _ _ _ _ _ _ hp, h.1.symm⟩

theorem property_safe {ctx obj p n c m A} (h : parseProperty ctx obj p n = .ok (c, m)) (hA : Base ok ctx obj A)
    (hn : ∀ x ∈ c.names, Static ok x) : Safe ok c A A := by
  obtain ⟨parsing, hp, rfl⟩ := property_inv h
  have hr : Ready ok ctx (.temp c!"value" n) ⟨[v obj], []⟩ [v c!"ref"] (n + 1) (.temp c!"value" n :: A) := by
    refine ⟨?_, by simp, ?_, by simp, ?_, ?_, ?_⟩
    · intro y hy
      rcases List.mem_cons.1 hy with rfl | hy
      · exact .temp _ _ (by omega)
      · exact (hA.old y hy).mono (by omega)
    · simp [hA.obj]
    · simp [hA.ref]
    · simp [hA.errors]
    · exact fun c l hc x hx => (hA.registry c l hc x hx).mono (by simp +contextual)
  have hs : Safe ok parsing (.temp c!"value" n :: A) A := by
    refine (safe_parses hp _ hr fun x hx => hn x ?_).weaken (fun _ h => h) (by simp +contextual)
    cases p.optional <;> simp [Code.names, hx]
  refine .use (by simpa using hA.value) (.bind (distinct_one _) ?_ (.use (by simp) ?_))
  · intro y hy x hx e
    obtain rfl := List.mem_singleton.1 hx
    exact absurd e ((hA.old y hy).ne_temp _ (by omega))
  · have hd : ∀ {c}, Safe ok c (.temp c!"value" n :: A) A → Safe ok c ([.temp c!"value" n] ++ A) A := id
    split
    · exact .branch (.use (by simp [hA.errors, hA.ref]) (Safe.done.weaken (by simp +contextual) fun _ h => h)) hs .done
    · exact .branch hs (Safe.done.weaken (by simp +contextual) fun _ h => h) .done

theorem property_within {ctx obj p n c m} (h : parseProperty ctx obj p n = .ok (c, m)) : Within [] 0 c := by
  obtain ⟨parsing, hp, rfl⟩ := property_inv h
  have hw := (parses_within hp).mono (n' := 0) (s' := []) (by omega) (by simp)
  refine ⟨fun x hx => ?_, fun x hx => ?_⟩
  · simp only [Code.sets, List.mem_append, List.mem_singleton] at hx
    rcases hx with rfl | hx
    · exact .inr (.inr ⟨_, _, rfl, by omega⟩)
    · refine hw.sets x ?_
      cases h : p.optional <;> simpa [h, Code.sets] using hx
  · refine hw.drops x ?_
    cases h : p.optional <;> simpa [h, Code.drops] using hx

/-- The names of properties. -/
def PropUses (py : Py) (ps : List Property) (x : Name) : Prop := Plain x ∨ ∃ p ∈ ps, ∃ u ∈ parts p.ty, x ∈ fromNames py u

theorem property_names {ctx obj p n c m} (h : parseProperty ctx obj p n = .ok (c, m))
    (h3 : ∀ c l, ctx.registry c = .ok l → ∀ x ∈ l, Plain x) : All (Uses ctx.py p.ty) c := by
  obtain ⟨parsing, hp, rfl⟩ := property_inv h
  have := parses_names hp (by simp) (by simp) h3
  cases p.optional <;> simp [this]

theorem property_uses {ctx obj p n c m} (h : parseProperty ctx obj p n = .ok (c, m)) {u x} (hu : u ∈ parts p.ty)
    (hx : x ∈ fromNames ctx.py u) : x ∈ c.names := by
  obtain ⟨parsing, hp, rfl⟩ := property_inv h
  have := parses_uses hp hu hx
  cases p.optional <;> simp [Code.names, this]

theorem property_calls {ctx obj p n c m} (h : parseProperty ctx obj p n = .ok (c, m)) {a} (ha : a ∈ c.calls) :
    ∃ u ∈ parts p.ty, FromCall ctx.graph ctx.py u a := by
  obtain ⟨parsing, hp, rfl⟩ := property_inv h
  refine parses_calls hp ?_
  cases h : p.optional <;> simpa [h, Code.calls] using ha

theorem all_mono {P Q : Name → Prop} {c} (h : All P c) (hPQ : ∀ x, P x → Q x) : All Q c := fun x hx => hPQ x (h x hx)

/-- What the code of the properties does. -/
structure PropsFine (ok : Name → Prop) (ctx : Ctx) (obj : Str) (ps : List Property) (c : Code) : Prop where
  safe : ∀ A, Base ok ctx obj A → (∀ x ∈ c.names, Static ok x) → Safe ok c A A
  within : Within [] 0 c
  names : (∀ c l, ctx.registry c = .ok l → ∀ x ∈ l, Plain x) → All (PropUses ctx.py ps) c
  uses : ∀ p ∈ ps, ∀ u ∈ parts p.ty, ∀ x ∈ fromNames ctx.py u, x ∈ c.names
  calls : ∀ a ∈ c.calls, ∃ p ∈ ps, ∃ u ∈ parts p.ty, FromCall ctx.graph ctx.py u a
  isOpen : c.Open

theorem property_open {ctx obj p n c m} (h : parseProperty ctx obj p n = .ok (c, m)) : c.Open := by
  obtain ⟨parsing, hp, rfl⟩ := property_inv h
  cases h : p.optional <;> simp [Code.Open]

/-- Code which is followed by `if errors.full(): return` and other code. -/
theorem then_names {c rest : Code} (hc : c.Open) {x} : x ∈ (c ++ .use [errors] (leaveIf rest)).names ↔
    x ∈ c.names ∨ x = errors ∨ x ∈ rest.names := by
  constructor
  · intro h
    rcases names_append h with h | h
    · exact .inl h
    · exact .inr (by simpa [leaveIf, Code.names] using h)
  · rintro (h | h)
    · exact names_left h
    · exact names_right hc (by simpa [leaveIf, Code.names] using h)

theorem props_fine {ctx obj ps n c} (h : parseProps ctx obj ps n = .ok c) : PropsFine ok ctx obj ps c := by
  induction ps generalizing n c with
  | nil =>
    cases h
    exact ⟨fun A _ _ => .done, ⟨by simp [Code.sets], by simp [Code.drops]⟩, fun _ => by simp, by simp, by simp [Code.calls],
      trivial⟩
  | cons p ps ih =>
    unfold parseProps at h
    obtain ⟨⟨c1, m⟩, h1, h⟩ := ok_bind h
    obtain ⟨rest, h2, h⟩ := ok_bind h
    cases h
    have hr := ih h2
    have ho := property_open h1
    refine ⟨fun A hA hn => ?_, ?_, fun h3 x hx => ?_, ?_, ?_, ?_⟩
    · exact (property_safe h1 hA fun x hx => hn x ((then_names ho).2 (.inl hx))).append
        (.use (by simp [hA.errors]) (.branch .leave .done (hr.safe A hA fun x hx => hn x ((then_names ho).2 (.inr (.inr hx))))))
    · refine append_within (property_within h1) ⟨fun x hx => hr.within.sets x ?_, fun x hx => hr.within.drops x ?_⟩
      · simpa [leaveIf, Code.sets] using hx
      · simpa [leaveIf, Code.drops] using hx
    · rcases (then_names ho).1 hx with hx | rfl | hx
      · exact (property_names h1 h3 x hx).imp id fun ⟨u, hu, hx⟩ => ⟨p, by simp, u, hu, hx⟩
      · exact .inl (.var _)
      · exact (hr.names h3 x hx).imp id fun ⟨q, hq, u, hu, hx⟩ => ⟨q, by simp [hq], u, hu, hx⟩
    · intro q hq u hu x hx
      rcases List.mem_cons.1 hq with rfl | hq
      · exact names_left (property_uses h1 hu hx)
      · exact (then_names ho).2 (.inr (.inr (hr.uses q hq u hu x hx)))
    · intro a ha
      rcases calls_append ha with ha | ha
      · obtain ⟨u, hu, h⟩ := property_calls h1 ha
        exact ⟨p, by simp, u, hu, h⟩
      · obtain ⟨q, hq, u, hu, h⟩ := hr.calls a (by simpa [leaveIf, Code.calls] using ha)
        exact ⟨q, by simp [hq], u, hu, h⟩
    · exact open_append ho hr.isOpen

/-! ## Variables with fixed texts and with names of the schema -/

theorem append_ne_last {x y z : Str} {a b : Char} (hy : y.getLast? = some a) (hz : z.getLast? = some b) (h : a ≠ b) :
    x ++ y ≠ z := by
  intro e
  have : (x ++ y).getLast? = z.getLast? := by rw [e]
  rw [List.getLast?_append, hy, hz] at this
  simp at this
  exact h this

theorem registry_ne {x z : Str} {b : Char} (hz : z.getLast? = some b) (h : b ≠ 'y') : x ++ c!"_registry" ≠ z :=
  append_ne_last (by rfl) hz fun e => h e.symm

theorem registry_old {x : Str} (n) : Old n (.own [] x c!"_registry") := by
  refine .plain _ (noDigit_append (by simp) (by decide)) ?_
  exact registry_ne (b := 'r') (by rfl) (by decide)

theorem fixed_old {x : Str} (n) (h1 : NoDigit x) (h2 : x ≠ c!"err") : Old n (.fixed x) := .plain _ h1 h2

/-! ## The functions of a composite -/

theorem registryParam_inv {g name x} (h : registryParam g name = .ok x) : ∃ c, g.cls? name = some c ∧
    asVariable c.plural = .ok (lower c.plural) ∧ x = .own [] (lower c.plural) c!"_registry" := by
  unfold registryParam at h
  split at h
  · obtain ⟨y, hy, h⟩ := ok_bind h
    cases h
    obtain ⟨rfl, _⟩ := asVariable_eq hy
    exact ⟨_, by assumption, hy, rfl⟩
  · cases h

/-- What the functions of a composite are, without the exceptions. -/
structure CompositeFuncs (g : Graph) (py : Py) (o : Owner) (name : Str) (isClass : Bool) (refs : List Str)
    (params : List Param) (types : List (List Name)) (composite : Str) (props : Code) (f₁ f₂ : Func) : Prop where
  hrefs : referencesOf g o = .ok refs
  hparams : refs.mapM (registryParamOf g) = .ok params
  htypes : refs.mapM (mappingOf py) = .ok types
  hcomposite : asComposite name = .ok composite
  hvariable : asVariable name = .ok (lower name)
  hprops : parseProps ⟨g, py, fun c => if c ∈ refs then do pure [.var (← registryParam g c)] else .error .keyError⟩
    c!"target" (ownerProps g o) 0 = .ok props
  first : f₁ =
    { name := c!"_" ++ lower name ++ c!"_from"
      params := valueParam :: params ++ [refParam, { var := .fixed c!"target", kind := .target name }, errorsParam]
      sig := typing :: types.flatten ++ [b c!"str", .member py.moduleName composite, .member (parsePath py) c!"Errors"]
      body := .use [b c!"isinstance", v c!"value", b c!"dict"]
        (.branch (.use [errors, v c!"ref", b c!"type", v c!"value"] .leave) .done props) }
  second : f₂ =
    { name := lower name ++ c!"_from"
      params := valueParam :: (if isClass then [idParam] else []) ++ params ++ [refParam, errorsParam]
      sig := typing :: types.flatten ++ [b c!"str", .member (parsePath py) c!"Errors", typing,
        .member py.moduleName composite]
      body := .use (if isClass then [v c!"id"] else [])
        (.call (.member (parsePath py) (c!"placeholder_" ++ lower name)) [] (if isClass then [(c!"id", .id)] else [])
        (.bind [.fixed c!"target"]
        (.use (v c!"value" :: params.map (fun p => .var p.var) ++ [v c!"ref", v c!"target", errors])
        (.call (.glob (c!"_" ++ lower name ++ c!"_from")) []
          ((c!"value", .value) :: params.map (fun p => (p.var.text, p.kind)) ++
            [(c!"ref", .ref), (c!"target", .target name), (c!"errors", .errors)])
        (.use [errors] (leaveIf (.use [v c!"target"] .leave))))))) }

theorem composite_inv {g py o name isClass items} (h : parseComposite g py o name isClass = .ok items) :
    ∃ refs params types composite props f₁ f₂, items = [.func f₁, .func f₂] ∧
      CompositeFuncs g py o name isClass refs params types composite props f₁ f₂ := by
  unfold parseComposite at h
  obtain ⟨refs, h1, h⟩ := ok_bind h
  obtain ⟨params, h2, h⟩ := ok_bind h
  obtain ⟨props, h3, h⟩ := ok_bind h
  obtain ⟨f, h4, h⟩ := ok_bind h
  obtain ⟨composite, h5, h⟩ := ok_bind h
  obtain ⟨types, h6, h⟩ := ok_bind h
  simp only [pure, Except.pure, Except.ok.injEq] at h
  obtain ⟨rfl, _⟩ := asVariable_eq h4
  exact ⟨refs, params, types, composite, props, _, _, h.symm, h1, h2, h6, h5, h4, h3, rfl, rfl⟩

/-- No execution of the function is wrong if the names which are no variables are found. -/
def Func.Safe (ok : Name → Prop) (f : Func) : Prop :=
  All (Static ok) f.body → PyCode.Safe ok f.body (f.params.map (·.var)) []

section
variable {g : Graph} {py : Py} {o : Owner} {name : Str} {isClass : Bool} {refs : List Str} {params : List Param}
  {types : List (List Name)} {composite : Str} {props : Code} {f₁ f₂ : Func}
  (h : CompositeFuncs g py o name isClass refs params types composite props f₁ f₂)
include h

theorem CompositeFuncs.param {p} (hp : p ∈ params) : ∃ r ∈ refs, registryParam g r = .ok p.var ∧ p.kind = .registry r := by
  obtain ⟨r, hr, hp⟩ := mapM_mem h.hparams hp
  unfold registryParamOf at hp
  obtain ⟨x, hx, hp⟩ := ok_bind hp
  cases hp
  exact ⟨r, hr, hx, rfl⟩

theorem CompositeFuncs.param' {r x} (hr : r ∈ refs) (hx : registryParam g r = .ok x) : x ∈ params.map (·.var) := by
  obtain ⟨p, hp, hp'⟩ := mapM_mem' h.hparams hr
  unfold registryParamOf at hp'
  obtain ⟨y, hy, hp'⟩ := ok_bind hp'
  cases hp'
  rw [hy] at hx
  cases hx
  exact List.mem_map.2 ⟨_, hp, rfl⟩

theorem CompositeFuncs.own {x} (hx : x ∈ params.map (·.var)) : ∃ y, x = .own [] y c!"_registry" := by
  obtain ⟨p, hp, rfl⟩ := List.mem_map.1 hx
  obtain ⟨r, _, hr, _⟩ := h.param hp
  obtain ⟨c, _, _, e⟩ := registryParam_inv hr
  exact ⟨_, e⟩

theorem CompositeFuncs.safe₁ : f₁.Safe ok := by
  intro hn
  have hf := props_fine (ok := ok) h.hprops
  rw [h.first] at hn ⊢
  simp only [all_use, all_branch, all_done, all_leave, List.forall_mem_cons] at hn
  obtain ⟨⟨n1, _, n2, _⟩, ⟨⟨_, _, n3, _⟩, _⟩, _, n4⟩ := hn
  have hB : Base ok ⟨g, py, fun c => if c ∈ refs then do pure [.var (← registryParam g c)] else .error .keyError⟩
      c!"target" (.fixed c!"value" :: params.map (·.var) ++ [.fixed c!"ref", .fixed c!"target", .fixed c!"errors"]) := by
    refine ⟨?_, by simp, by simp, by simp, by simp, ?_⟩
    · intro y hy
      simp only [List.cons_append, List.mem_cons, List.mem_append, List.not_mem_nil, or_false] at hy
      rcases hy with rfl | hy | rfl | rfl | rfl
      · exact fixed_old 0 (by decide) (by decide)
      · obtain ⟨z, rfl⟩ := h.own hy
        exact registry_old 0
      · exact fixed_old 0 (by decide) (by decide)
      · exact fixed_old 0 (by decide) (by decide)
      · exact fixed_old 0 (by decide) (by decide)
    · intro c l hc x hx
      dsimp only at hc
      split at hc
      · obtain ⟨y, hy, hc⟩ := ok_bind hc
        cases hc
        obtain rfl := List.mem_singleton.1 hx
        have := h.param' (by assumption) hy
        simp [this]
      · cases hc
  have hs := hf.safe _ hB n4
  refine (Safe.use (A := .fixed c!"value" :: params.map (·.var) ++ [.fixed c!"ref", .fixed c!"target", .fixed c!"errors"])
    ?_ (.branch (.use ?_ .leave) .done hs)).weaken ?_ (by simp)
  · simpa using ⟨n1, n2⟩
  · simpa using n3
  · simp [valueParam, refParam, errorsParam]

theorem CompositeFuncs.safe₂ : f₂.Safe ok := by
  intro hn
  rw [h.second] at hn ⊢
  simp only [all_use, all_call, all_bind, static_member, static_glob] at hn
  obtain ⟨_, n1, _, n2, _⟩ := hn
  let A : List Var := .fixed c!"value" :: (if isClass then [.fixed c!"id"] else []) ++ params.map (·.var) ++
    [.fixed c!"ref", .fixed c!"errors"]
  refine (Safe.use (A := A) (B := []) ?_ (.call (by simpa using n1) (.bind (distinct_one _) ?_ (.use ?_ (.call (by simpa using n2) (.use ?_
    (.branch .leave .done (.use ?_ .leave)))))))).weaken ?_ (by simp)
  · cases isClass <;> simp [A]
  · intro y hy x hx e
    obtain rfl := List.mem_singleton.1 hx
    simp only [A, List.cons_append, List.mem_cons, List.mem_append, List.not_mem_nil, or_false] at hy
    rcases hy with rfl | (hy | hy) | rfl | rfl
    · exact absurd e (by decide)
    · cases isClass
      · simp at hy
      · obtain rfl := List.mem_singleton.1 hy
        exact absurd e (by decide)
    · obtain ⟨z, rfl⟩ := h.own hy
      exact absurd e.symm (registry_ne (b := 't') (by rfl) (by decide))
    · exact absurd e (by decide)
    · exact absurd e (by decide)
  · intro x hx
    simp only [List.cons_append, List.mem_cons, List.mem_append, List.not_mem_nil, or_false, List.mem_map] at hx
    rcases hx with rfl | ⟨p, hp, rfl⟩ | rfl | rfl | rfl
    · simp [A]
    · have : p.var ∈ params.map (·.var) := List.mem_map.2 ⟨p, hp, rfl⟩
      simp only [good_var, A, List.cons_append, List.mem_cons, List.mem_append, this, or_true, true_or]
    · simp [A]
    · simp
    · simp [A]
  · simp [A]
  · simp
  · intro y hy
    cases isClass <;> simpa [A, valueParam, refParam, errorsParam, idParam] using hy

end

end Mapry.PyCode
