import Verif.PyLookup

/-!
# The module `parse`
-/

namespace Mapry.PyCode

set_option linter.unusedSimpArgs false

open Mapry.TypeGraph Mapry.Naming Mapry.ParseSchema
open Mapry.GoCode (referencesOf hasPattern mapM_mem mapM_mem' mapM_cons)

/-- The order of the functions in the module `parse`. -/
def parseOrder (g : Graph) : List Owner :=
  g.embeds.map (fun e => .embed e.name) ++ g.classes.map (fun c => .cls c.name) ++ [.graph]

theorem parseOrder_perm (g : Graph) : (parseOrder g).Perm (definitionOrder g) :=
  List.perm_append_comm.append_right _

theorem mem_parseOrder {g : Graph} {o : Owner} : o ∈ parseOrder g ↔ o ∈ definitionOrder g := (parseOrder_perm g).mem_iff

/-- The arguments of the call of the constructor. -/
def constructorArgs (g : Graph) (o : Owner) : List (Str × Kind) :=
  (match o with
  | .cls _ => [(c!"id", Kind.id)]
  | _ => []) ++ (required (ownerProps g o)).map fun p => (lower p.name, .other)

/-- The function `placeholder_x`. -/
def pholder (g : Graph) (py : Py) (o : Owner) : Func :=
  let call : Code := .call (.member py.moduleName (ownerId g o)) [] (constructorArgs g o) .leave
  match o with
  | .cls _ =>
    { name := c!"placeholder_" ++ lower (ownerName g o)
      params := [{ var := .fixed c!"id", kind := .id }]
      sig := [b c!"str", .member py.moduleName (ownerId g o)]
      body := .use [v c!"id"] call }
  | _ =>
    { name := c!"placeholder_" ++ lower (ownerName g o)
      params := []
      sig := [.member py.moduleName (ownerId g o)]
      body := call }

theorem noneArgs_eq {ps : List Property} {args} (h : ps.mapM noneArg = .ok args) :
    args = ps.map fun p => (lower p.name, .other) :=
  mapM_eq_map h fun p _ y hy => by
    obtain ⟨x, hx, hy⟩ := ok_bind hy
    obtain ⟨rfl, _⟩ := asAttribute_eq hx
    cases hy
    rfl

theorem parseModule_inv {g : Graph} {py P} (hf : Facts g) (h : parseModule g py = .ok P) :
    P = ⟨parsePath py, [(.library, c!"typing"), (.package, py.moduleName)],
      errorClasses ++ (parseOrder g).map fun o => .func (pholder g py o)⟩ ∧ ∀ n ∈ allNames g, asVariable n = .ok (lower n) := by
  unfold parseModule at h
  obtain ⟨embeds, h1, h⟩ := ok_bind h
  obtain ⟨classes, h2, h⟩ := ok_bind h
  obtain ⟨graph, h3, h⟩ := ok_bind h
  cases h
  have hp : ∀ {name ps i}, placeholder py name ps = .ok i → asVariable name = .ok (lower name) ∧ i = .func
    { name := c!"placeholder_" ++ lower name
      params := []
      sig := [.member py.moduleName (idOf name)]
      body := .call (.member py.moduleName (idOf name)) [] ((required ps).map fun p => (lower p.name, .other)) .leave } := by
    intro name ps i h
    unfold placeholder at h
    obtain ⟨f, e1, h⟩ := ok_bind h
    obtain ⟨composite, e2, h⟩ := ok_bind h
    obtain ⟨args, e3, h⟩ := ok_bind h
    cases h
    obtain ⟨rfl, _⟩ := asVariable_eq e1
    rw [idOf_eq e2, noneArgs_eq e3]
    exact ⟨e1, rfl⟩
  have hc : ∀ {c i}, placeholderClass py c = .ok i → asVariable c.name = .ok (lower c.name) ∧ i = .func
    { name := c!"placeholder_" ++ lower c.name
      params := [{ var := .fixed c!"id", kind := .id }]
      sig := [b c!"str", .member py.moduleName (idOf c.name)]
      body := .use [v c!"id"] (.call (.member py.moduleName (idOf c.name)) []
        ((c!"id", .id) :: (required c.properties).map fun p => (lower p.name, .other)) .leave) } := by
    intro c i h
    unfold placeholderClass at h
    obtain ⟨f, e1, h⟩ := ok_bind h
    obtain ⟨composite, e2, h⟩ := ok_bind h
    obtain ⟨args, e3, h⟩ := ok_bind h
    cases h
    obtain ⟨rfl, _⟩ := asVariable_eq e1
    rw [idOf_eq e2, noneArgs_eq e3]
    exact ⟨e1, rfl⟩
  constructor
  · have e1 : embeds = g.embeds.map fun e => .func (pholder g py (.embed e.name)) := mapM_eq_map h1 fun e he y hy => by
      rw [(hp hy).2]
      simp [pholder, ownerName, ownerId, constructorArgs, ownerProps, hf.named.embed? he]
    have e2 : classes = g.classes.map fun c => .func (pholder g py (.cls c.name)) := mapM_eq_map h2 fun c hm y hy => by
      rw [(hc hy).2]
      simp [pholder, ownerName, ownerId, constructorArgs, ownerProps, hf.named.cls? hm]
    have e3 : graph = .func (pholder g py .graph) := by
      rw [(hp h3).2]
      simp [pholder, ownerName, ownerId, constructorArgs, ownerProps]
    rw [e1, e2, e3]
    simp [parseOrder, Function.comp_def]
  · intro n hn
    simp only [allNames, defNames, List.mem_append, List.mem_map, List.mem_singleton] at hn
    rcases hn with (⟨c, hm, rfl⟩ | ⟨e, he, rfl⟩) | rfl
    · obtain ⟨i, _, hi⟩ := mapM_mem' h2 hm
      exact (hc hi).1
    · obtain ⟨i, _, hi⟩ := mapM_mem' h1 he
      exact (hp hi).1
    · exact (hp h3).1

theorem pholder_name (g : Graph) (py : Py) (o : Owner) : (pholder g py o).name = c!"placeholder_" ++ lower (ownerName g o) := by
  cases o <;> rfl

theorem errorClasses_names : errorClasses.map Item.name = [c!"Error", c!"Errors"] := rfl

/-- The definitions of the module. -/
def parseDefs (g : Graph) : List Str :=
  [c!"Error", c!"Errors"] ++ (parseOrder g).map fun o => c!"placeholder_" ++ lower (ownerName g o)

theorem parse_names (g : Graph) (py : Py) :
    (errorClasses ++ (parseOrder g).map fun o => Item.func (pholder g py o)).map Item.name = parseDefs g := by
  rw [List.map_append, errorClasses_names, parseDefs, List.map_map]
  congr 1
  apply List.map_congr_left
  intro o _
  exact pholder_name g py o

theorem parse_free {g : Graph} {r : Str} (hr : RootFree g r) : Free r (parseDefs g) := by
  apply free_of
  intro x hx
  rcases List.mem_append.1 hx with hx | hx
  · refine free_fixed hr ?_
    simp only [List.mem_cons, List.not_mem_nil, or_false] at hx
    rcases hx with rfl | rfl <;> decide
  · obtain ⟨o, ho, rfl⟩ := List.mem_map.1 hx
    exact free_composite hr (owner_name_mem (mem_parseOrder.1 ho)) (by simp [compositeTexts])

theorem owner_names_nodup {g : Graph} {order : List Owner} (hp : order.Perm (definitionOrder g))
    (h : ((allNames g).map lower).Nodup) : (order.map fun o => lower (ownerName g o)).Nodup := by
  have := (hp.map fun o => lower (ownerName g o)).nodup_iff.2 (by
    rw [← order_names, List.map_map] at h
    exact h)
  exact this

theorem parse_nodup {g : Graph} (h : ((allNames g).map lower).Nodup) : (parseDefs g).Nodup := by
  unfold parseDefs
  rw [List.nodup_append]
  refine ⟨by decide, ?_, ?_⟩
  · have h2 := owner_names_nodup (parseOrder_perm g) h
    have e : ((parseOrder g).map fun o => c!"placeholder_" ++ lower (ownerName g o)) =
        ((parseOrder g).map fun o => lower (ownerName g o)).map (c!"placeholder_" ++ ·) := by
      rw [List.map_map]; rfl
    rw [e]
    refine List.Pairwise.map _ ?_ h2
    intro a b hab e
    exact hab (List.append_cancel_left e)
  · intro a ha b hb e
    obtain ⟨o, _, rfl⟩ := List.mem_map.1 hb
    subst e
    simp at ha

/-- The imports of the module. -/
def parseImports (py : Py) : List (Origin × Str) := [(.library, c!"typing"), (.package, py.moduleName)]

theorem parse_imports (py : Py) : ImportsOf (root py.moduleName) (parseImports py) := by
  constructor
  · intro p hp
    simp [parseImports] at hp
    subst hp
    decide
  · intro p hp
    simp [parseImports] at hp
    rw [hp]

/-- The module as it is generated. -/
structure ParseOf (g : Graph) (py : Py) (P : Module) : Prop where
  facts : Facts g
  module : P = ⟨parsePath py, parseImports py, errorClasses ++ (parseOrder g).map fun o => .func (pholder g py o)⟩
  names : ∀ n ∈ allNames g, asVariable n = .ok (lower n)

theorem parseOf {g : Graph} {py P} (hf : Facts g) (h : parseModule g py = .ok P) : ParseOf g py P :=
  ⟨hf, (parseModule_inv hf h).1, (parseModule_inv hf h).2⟩

/-- The definitions of the types which the modules refer to. -/
def HasTypes (g : Graph) (py : Py) (pkg : List Module) : Prop :=
  ∀ n ∈ allNames g, ∃ M ∈ pkg, M.path = py.moduleName ∧ ∃ i ∈ M.items, i.name = idOf n

theorem TypesOf.hasTypes {g : Graph} {py : Py} {T : Module} {imports : List (Origin × Str)} {items : List Item}
    (h : TypesOf g py T imports items) {pkg : List Module} (hm : T ∈ pkg) : HasTypes g py pkg := by
  intro n hn
  refine ⟨T, hm, by rw [h.module], ?_⟩
  have : idOf n ∈ T.items.map Item.name := by rw [h.names]; exact List.mem_map.2 ⟨n, hn, rfl⟩
  obtain ⟨i, hi, e⟩ := List.mem_map.1 this
  exact ⟨i, hi, e⟩

section
variable {g : Graph} {py : Py} {P : Module} (h : ParseOf g py P) {pkg : List Module} (ht : HasTypes g py pkg)
include h

theorem ParseOf.defs : P.items.map Item.name = parseDefs g := by rw [h.module]; exact parse_names g py

theorem ParseOf.funcs {f : Func} (hm : f ∈ P.funcs) :
    f ∈ errorClasses.flatMap Item.funcs ∨ ∃ o ∈ definitionOrder g, f = pholder g py o := by
  rw [h.module] at hm
  simp only [Module.funcs, List.flatMap_append, List.mem_append] at hm
  rcases hm with hm | hm
  · exact .inl hm
  · obtain ⟨i, hi, hm⟩ := List.mem_flatMap.1 hm
    obtain ⟨o, ho, rfl⟩ := List.mem_map.1 hi
    exact .inr ⟨o, mem_parseOrder.1 ho, List.mem_singleton.1 hm⟩

omit h in
theorem member_known (imports : List (Origin × Str)) (hi : (.package, py.moduleName) ∈ imports) (ht : HasTypes g py pkg)
    {o : Owner} (ho : o ∈ definitionOrder g) (defs : List Str) :
    Known pkg imports defs (.member py.moduleName (ownerId g o)) :=
  .member _ _ hi (ht _ (owner_name_mem ho))

include ht

theorem ParseOf.body_known {f : Func} (hm : f ∈ P.funcs) {n : Name} (hn : n ∈ f.body.names) :
    Known pkg P.imports (parseDefs g) n ∧ ((∃ o, f = pholder g py o) → ∀ x, n ≠ .glob x) := by
  rcases h.funcs hm with hf | ⟨o, ho, rfl⟩
  · have : ∀ f ∈ errorClasses.flatMap Item.funcs, ∀ n ∈ f.body.names, Plain n ∨ n = .glob c!"Error" := by
      simp [errorClasses, Item.funcs, self, Code.names, builtins]
    refine ⟨?_, ?_⟩
    · rcases this f hf n hn with h | rfl
      · exact .plain h
      · exact .glob _ (by simp [parseDefs])
    · rintro ⟨o, rfl⟩
      exfalso
      have hne : ∀ f ∈ errorClasses.flatMap Item.funcs, f.name ≠ (pholder g py o).name := by
        rw [pholder_name]
        simp [errorClasses, Item.funcs]
      exact hne _ hf rfl
  · have hk := member_known (g := g) (pkg := pkg) P.imports (by rw [h.module]; simp [parseImports]) ht ho (parseDefs g)
    have hn' : n = v c!"id" ∨ n = .member py.moduleName (ownerId g o) := by
      cases o <;> simp [pholder, Code.names] at hn <;> simp [hn]
    rcases hn' with rfl | rfl
    · exact ⟨.var _, fun _ x e => by cases e⟩
    · exact ⟨hk, fun _ x e => by cases e⟩

theorem ParseOf.known {n : Name} (hn : n ∈ P.names) : Known pkg P.imports (parseDefs g) n := by
  rcases List.mem_append.1 hn with hn | hn
  · obtain ⟨i, hi, hn⟩ := List.mem_flatMap.1 hn
    rw [h.module] at hi
    rcases List.mem_append.1 hi with hi | hi
    · have : ∀ i ∈ errorClasses, ∀ n ∈ i.uses, Plain n ∨ n = .glob c!"Error" ∨ n = typing := by
        simp [errorClasses, Item.uses, builtins]
      rcases this i hi n hn with h' | rfl | rfl
      · exact .plain h'
      · exact .glob _ (by simp [parseDefs])
      · exact .lib _ (by decide) (by rw [h.module]; simp [parseImports])
    · obtain ⟨o, ho, rfl⟩ := List.mem_map.1 hi
      have hk := member_known (g := g) (pkg := pkg) P.imports (by rw [h.module]; simp [parseImports]) ht
        (mem_parseOrder.1 ho) (parseDefs g)
      have hn' : n = b c!"str" ∨ n = .member py.moduleName (ownerId g o) := by
        cases o <;> simp [pholder, Item.uses] at hn <;> simp [hn]
      rcases hn' with rfl | rfl
      · exact .builtin _ (by decide)
      · exact hk
  · obtain ⟨f, hf, hn⟩ := List.mem_flatMap.1 hn
    exact (h.body_known ht hf hn).1

/-- Python imports the module. -/
theorem ParseOf.importable (hr : RootFree g (root py.moduleName)) (hn : ((allNames g).map lower).Nodup) :
    P.Importable pkg := by
  refine ⟨?_, by rw [h.defs]; exact parse_nodup hn, ?_⟩
  · have hfree := parse_free hr
    rw [← parse_names g py] at hfree
    rw [h.module]
    refine loads_known (parse_imports py) hr.builtin hr.library (by simpa using hfree) ?_
    intro l₁ i l₂ e n hm
    have hi : i ∈ errorClasses ++ (parseOrder g).map fun o => Item.func (pholder g py o) := by
      have e' : errorClasses ++ (parseOrder g).map (fun o => Item.func (pholder g py o)) = l₁ ++ i :: l₂ := e
      rw [e']; simp
    have hty : Known pkg (parseImports py) ([] ++ l₁.map Item.name) typing := .lib _ (by decide) (by simp [parseImports])
    have hplain : ∀ {n}, Plain n → Known pkg (parseImports py) ([] ++ l₁.map Item.name) n := .plain
    cases l₁ with
    | nil =>
      simp only [List.nil_append, errorClasses, List.cons_append, List.cons.injEq] at e
      rw [← e.1] at hm
      simp [Item.uses] at hm
      subst hm
      exact ⟨trivial, .builtin _ (by decide)⟩
    | cons a l₁ =>
      have ea : a.name = c!"Error" := by
        simp only [errorClasses, List.cons_append, List.cons.injEq] at e
        rw [← e.1]
        rfl
      rcases List.mem_append.1 hi with hi | hi
      · have : ∀ i ∈ errorClasses, ∀ n ∈ i.uses, (n.Constant ∧ Plain n) ∨ n = .glob c!"Error" ∨ n = typing := by
          have hb : ∀ x ∈ builtins, ((b x).Constant ∧ Plain (b x)) ∨ b x = .glob c!"Error" ∨ b x = typing :=
            fun x hx => .inl ⟨trivial, .builtin x hx⟩
          simp only [errorClasses, Item.uses, List.forall_mem_cons, List.flatMap_cons, List.flatMap_nil, List.append_nil,
            List.forall_mem_append, List.not_mem_nil, false_implies, implies_true, and_true]
          refine ⟨⟨hb _ (by decide), hb _ (by decide)⟩, hb _ (by decide), ⟨hb _ (by decide), hb _ (by decide)⟩,
            hb _ (by decide), hb _ (by decide), hb _ (by decide), by simp, by simp⟩
        rcases this i hi n hm with ⟨h1, h2⟩ | rfl | rfl
        · exact ⟨h1, .plain h2⟩
        · exact ⟨trivial, .glob _ (by simp [ea])⟩
        · exact ⟨trivial, hty⟩
      · obtain ⟨o, ho, rfl⟩ := List.mem_map.1 hi
        have hn' : n = b c!"str" ∨ n = .member py.moduleName (ownerId g o) := by
          cases o <;> simp [pholder, Item.uses] at hm <;> simp [hm]
        rcases hn' with rfl | rfl
        · exact ⟨trivial, .builtin _ (by decide)⟩
        · exact ⟨trivial, member_known _ (by simp [parseImports]) ht (mem_parseOrder.1 ho) _⟩
  · intro f hf
    rcases h.funcs hf with hf | ⟨o, ho, rfl⟩
    · have : ∀ f ∈ errorClasses.flatMap Item.funcs, (f.params.map fun p => p.var.text).Nodup := by decide +kernel
      exact this f hf
    · cases o <;> simp [pholder]

/-- No execution of a function looks up a wrong name. -/
theorem ParseOf.clean (hr : RootFree g (root py.moduleName)) : ∀ f ∈ P.funcs, f.Clean pkg P := by
  intro f hf
  have himp : ImportsOf (root py.moduleName) P.imports := by rw [h.module]; exact parse_imports py
  refine clean_of ?_ ?_
  · rcases h.funcs hf with hf | ⟨o, ho, rfl⟩
    · obtain ⟨i, hi, hf⟩ := List.mem_flatMap.1 hf
      exact errors_safe i hi f hf
    · intro hn
      cases o with
      | cls n =>
        have := hn (.member py.moduleName (ownerId g (.cls n))) (by simp [pholder, Code.names])
        exact .use (by simp [pholder]) (.call this .leave)
      | embed n =>
        have := hn (.member py.moduleName (ownerId g (.embed n))) (by simp [pholder, Code.names])
        exact .call this .leave
      | graph =>
        have := hn (.member py.moduleName (ownerId g .graph)) (by simp [pholder, Code.names])
        exact .call this .leave
  · intro n hn
    have hk := (h.body_known ht hf hn).1
    rw [h.defs]
    have hloc : ∀ x ∈ f.locals, x ∈ fixedTexts ∧ x ≠ c!"Error" := by
      rcases h.funcs hf with hf | ⟨o, ho, rfl⟩
      · have : ∀ f ∈ errorClasses.flatMap Item.funcs, ∀ x ∈ f.locals, x ∈ fixedTexts ∧ x ≠ c!"Error" := by decide +kernel
        exact this f hf
      · cases o <;> simp [pholder, Func.locals, Code.binds, Var.text, fixedTexts]
    refine hk.found himp hr.builtin hr.library (free_of fun x hx => free_fixed hr (hloc x hx).1) (parse_free hr) ?_
    intro x e hx
    subst e
    have : x ∈ parseDefs g := by cases hk; assumption
    rcases h.funcs hf with hf' | ⟨o, ho, rfl⟩
    · have hgl : ∀ f ∈ errorClasses.flatMap Item.funcs, ∀ n ∈ f.body.names, Plain n ∨ n = .glob c!"Error" := by
        simp [errorClasses, Item.funcs, self, Code.names, builtins]
      rcases hgl f hf' _ hn with hp | e
      · cases hp
      · cases e
        exact (hloc _ hx).2 rfl
    · exact (h.body_known ht hf hn).2 ⟨o, rfl⟩ x rfl

end

/-! ## Calls -/

/-- The definition of a type is there, once. -/
def FindsTypes (g : Graph) (py : Py) (pkg : List Module) (M : Module) : Prop :=
  ∀ o ∈ definitionOrder g, ∃ args regs i, Defined g py o args regs i ∧
    callee? pkg M (.member py.moduleName (ownerId g o)) = some i

theorem TypesOf.finds {g : Graph} {py : Py} {T : Module} {imports : List (Origin × Str)} {items : List Item}
    (h : TypesOf g py T imports items) (hn : ((allNames g).map idOf).Nodup) (rest : List Module) (M : Module) :
    FindsTypes g py (T :: rest) M := by
  intro o ho
  obtain ⟨i, hi, hio⟩ := mapM_mem' h.hitems ho
  obtain ⟨args, regs, hd⟩ := defineOwner_inv hio
  refine ⟨args, regs, i, hd, ?_⟩
  have : (T :: rest).find? (fun N => N.path == py.moduleName) = some T := by
    rw [List.find?_cons_of_pos]
    simp [h.module]
  simp only [callee?, this, Option.bind_some]
  rw [← hd.name]
  refine definition_of (by rw [h.names]; exact hn) ?_
  rw [h.module]
  exact hi

theorem Defined.callParams {g : Graph} {py : Py} {o : Owner} {args regs : List Arg} {i : Item} (h : Defined g py o args regs i) :
    i.callParams = some ((preOf o ++ args ++ regs).map (·.param)) := by
  rw [h.item]
  unfold typeItem
  split
  · rename_i e
    rw [List.isEmpty_iff] at e
    simp [e, Item.callParams]
  · simp [initOf, initializer, Item.callParams]

theorem constructor_fits {g : Graph} {py : Py} {o : Owner} {args regs : List Arg} {i : Item} (h : Defined g py o args regs i)
    (hf : Facts g) (ho : o ∈ definitionOrder g) (callee : Name) :
    (Call.mk callee [] (constructorArgs g o)).Fits ((preOf o ++ args ++ regs).map (·.param)) := by
  have hnd := owner_props hf ho
  have hargs : ∀ p ∈ ownerProps g o, ∃ a ∈ args, a.param = { var := .own [] (lower p.name) [], optional := p.optional } := by
    intro p hp
    obtain ⟨a, ha, hpa⟩ := mapM_mem' h.hargs ((order_perm _).mem_iff.2 hp)
    obtain ⟨l, _, _, rfl⟩ := propertyArg_inv hpa
    exact ⟨_, ha, rfl⟩
  have hargs' : ∀ a ∈ args, ∃ p ∈ ownerProps g o, a.param = { var := .own [] (lower p.name) [], optional := p.optional } := by
    intro a ha
    obtain ⟨p, hp, hpa⟩ := mapM_mem h.hargs ha
    obtain ⟨l, _, _, rfl⟩ := propertyArg_inv hpa
    exact ⟨p, (order_perm _).mem_iff.1 hp, rfl⟩
  have hregs' : ∀ a ∈ regs, a.param.optional = true := by
    intro a ha
    have hr := h.hregs
    cases o with
    | cls n => cases hr; cases ha
    | embed n => cases hr; cases ha
    | graph =>
      obtain ⟨c, hc, hca⟩ := mapM_mem hr ha
      obtain ⟨l, _, _, rfl⟩ := registryArg_inv hca
      rfl
  have hkeys : (constructorArgs g o).map (·.1) = preTexts o ++ attrs (required (ownerProps g o)) := by
    cases o <;> simp [constructorArgs, preTexts, attrs, Function.comp_def]
  refine ⟨rfl, ?_, ?_, ?_⟩
  · show ((constructorArgs g o).map (·.1)).Nodup
    rw [hkeys]
    have hs : (preTexts o ++ attrs (required (ownerProps g o))).Sublist (preTexts o ++ attrs (ownerProps g o) ++ regTexts g o) :=
      (((List.filter_sublist).map _).append_left _).trans (List.sublist_append_left _ _)
    exact hs.nodup hnd
  · intro k hk
    have hk' : (k = (c!"id", .id) ∧ ∃ n, o = .cls n) ∨ ∃ p ∈ required (ownerProps g o), k = (lower p.name, .other) := by
      cases o <;> simp [constructorArgs] at hk <;> grind
    simp only [List.length_nil, List.drop_zero]
    rcases hk' with ⟨rfl, n, rfl⟩ | ⟨p, hp, rfl⟩
    · exact ⟨idArg.param, by simp [preOf], rfl, rfl⟩
    · obtain ⟨a, ha, e⟩ := hargs p (List.mem_filter.1 hp).1
      refine ⟨a.param, List.mem_map.2 ⟨a, by simp [ha], rfl⟩, ?_, ?_⟩
      · rw [e]; simp [Var.text]
      · rw [e]
  · intro q hq
    simp only [List.length_nil, List.drop_zero] at hq
    obtain ⟨a, ha, rfl⟩ := List.mem_map.1 hq
    show _ ∨ _ ∈ (constructorArgs g o).map (·.1)
    rw [hkeys]
    rcases List.mem_append.1 ha with ha | ha
    · rcases List.mem_append.1 ha with ha | ha
      · cases o with
        | cls n =>
          obtain rfl := List.mem_singleton.1 ha
          exact .inr (by simp [preTexts, idArg, Var.text])
        | embed n => cases ha
        | graph => cases ha
      · obtain ⟨p, hp, e⟩ := hargs' a ha
        cases hopt : p.optional with
        | true => exact .inl (by rw [e]; exact hopt)
        | false =>
          refine .inr (List.mem_append_right _ (List.mem_map.2 ⟨p, ?_, ?_⟩))
          · simp [required, hp, hopt]
          · rw [e]; simp [Var.text]
    · exact .inl (hregs' a ha)

theorem ParseOf.calls {g : Graph} {py : Py} {P : Module} (h : ParseOf g py P) {pkg : List Module}
    (ht : FindsTypes g py pkg P) (hn : ((allNames g).map lower).Nodup) : P.CallsFit pkg := by
  intro f hm c hc
  rcases h.funcs hm with hf | ⟨o, ho, rfl⟩
  · have hcalls : ∀ f ∈ errorClasses.flatMap Item.funcs, ∀ c ∈ f.body.calls,
        c = ⟨.glob c!"Error", [], [(c!"ref", .ref), (c!"message", .other)]⟩ := by
      simp [errorClasses, Item.funcs, Code.calls]
    obtain rfl := hcalls f hf c hc
    have hi : ∃ i ∈ errorClasses, i.name = c!"Error" ∧ i.callParams =
        some [{ var := .fixed c!"ref", kind := .ref }, { var := .fixed c!"message" }] :=
      ⟨_, .head _, rfl, rfl⟩
    obtain ⟨i, hi, e, hp⟩ := hi
    refine ⟨i, _, ?_, hp, by simp, by decide, ?_, ?_⟩
    · have hd := definition_of (M := P) (i := i) (by rw [h.defs]; exact parse_nodup hn) (by rw [h.module]; simp [hi])
      rw [e] at hd
      exact hd
    · simp [Var.text]
    · simp [Var.text]
  · obtain ⟨args, regs, i, hd, hi⟩ := ht o ho
    have : c = ⟨.member py.moduleName (ownerId g o), [], constructorArgs g o⟩ := by
      cases o <;> simpa [pholder, Code.calls] using hc
    subst this
    exact ⟨i, _, hi, hd.callParams, constructor_fits hd h.facts ho _⟩

end Mapry.PyCode
