import Verif.PyToModule

/-!
# The imports of the generated modules

All the modules which the code uses are imported, and the imports are used.
-/

namespace Mapry.PyCode

set_option linter.unusedSimpArgs false

open Mapry.TypeGraph Mapry.Naming Mapry.ParseSchema Mapry.LangValidate
open Mapry.GoCode (referencesOf hasPattern mapM_mem mapM_mem' mapM_cons needs_ty any_iterate Resolves mapM_append_ok)

/-- A type which occurs in the graph occurs in a property of a composite. -/
theorem occurs_inv {g : Graph} (hn : Named g) {u : Ty} (h : Occurs g u) :
    ∃ o ∈ definitionOrder g, ∃ p ∈ ownerProps g o, u ∈ parts p.ty := by
  cases h with
  | graph p h1 h2 => exact ⟨.graph, mem_order.2 (.inr (.inr rfl)), p, h1, h2⟩
  | cls c p h0 h1 h2 =>
    refine ⟨.cls c.name, mem_order.2 (.inl ⟨c, h0, rfl⟩), p, ?_, h2⟩
    simpa [ownerProps, hn.cls? h0] using h1
  | embed e p h0 h1 h2 =>
    refine ⟨.embed e.name, mem_order.2 (.inr (.inl ⟨e, h0, rfl⟩)), p, ?_, h2⟩
    simpa [ownerProps, hn.embed? h0] using h1

/-- A name which is looked up when a definition is executed. -/
theorem names_uses {M : Module} {i : Item} (hi : i ∈ M.items) {n : Name} (hn : n ∈ i.uses) : n ∈ M.names :=
  List.mem_append_left _ (List.mem_flatMap.2 ⟨i, hi, hn⟩)

/-- A name which is looked up in a function. -/
theorem names_body {M : Module} {f : Func} (hf : f ∈ M.funcs) {n : Name} (hn : n ∈ f.body.names) : n ∈ M.names :=
  List.mem_append_right _ (List.mem_flatMap.2 ⟨f, hf, hn⟩)

theorem names_func {M : Module} {f : Func} (hf : .func f ∈ M.items) {n : Name} (hn : n ∈ f.body.names) : n ∈ M.names :=
  names_body (List.mem_flatMap.2 ⟨_, hf, List.mem_singleton.2 rfl⟩) hn

/-! ## The types -/

/-- The module of the types uses the typing. -/
def UsesTyping (g : Graph) : Prop :=
  g.classes ≠ [] ∨ (∃ o ∈ definitionOrder g, ∃ p ∈ ownerProps g o, p.optional = true) ∨ needs g .array = true ∨ needs g .map = true

section
variable {g : Graph} {py : Py} {T : Module} {imports : List (Origin × Str)} {items : List Item}
  (h : TypesOf g py T imports items) (hf : Facts g)
include h

theorem TypesOf.defined {o : Owner} (ho : o ∈ definitionOrder g) : ∃ i ∈ T.items, ∃ args regs, Defined g py o args regs i := by
  obtain ⟨i, hi, hio⟩ := mapM_mem' h.hitems ho
  exact ⟨i, by rw [h.module]; exact hi, defineOwner_inv hio⟩

theorem TypesOf.definedBy {i : Item} (hi : i ∈ T.items) : ∃ o ∈ definitionOrder g, ∃ args regs, Defined g py o args regs i := by
  rw [h.module] at hi
  obtain ⟨o, ho, hio⟩ := mapM_mem h.hitems hi
  exact ⟨o, ho, defineOwner_inv hio⟩

include hf

theorem TypesOf.suffice : ∀ n ∈ T.names, n.Imported T.imports := by
  have ei : T.imports = imports := by rw [h.module]
  intro n hn r hr
  rw [ei]
  suffices hm : r ∈ imports from ⟨r, hm, rfl, .inl rfl⟩
  rcases List.mem_append.1 hn with hn | hn
  · obtain ⟨i, hi, hn⟩ := List.mem_flatMap.1 hn
    obtain ⟨o, ho, args, regs, hd⟩ := h.definedBy hi
    rcases hd.uses hn with rfl | rfl | ⟨u, hu, hx⟩ | ⟨rfl, c, hc, hx⟩
    · obtain rfl := List.mem_singleton.1 hr
      exact types_typing h.himports
    · cases hr
    · exact types_needs hf.named h.himports hu hx r hr
    · simp only [typeNames] at hx
      split at hx
      · obtain rfl := List.mem_singleton.1 hx
        cases hr
      · cases hx
  · obtain ⟨f, hm, hn⟩ := List.mem_flatMap.1 hn
    obtain ⟨o, ho, args, regs, i, hd, _, rfl⟩ := h.funcs hm
    rcases init_names hn with ⟨y, rfl⟩ | ⟨rfl, hregs⟩
    · cases hr
    · obtain rfl := List.mem_singleton.1 hr
      refine types_collections h.himports fun e => hregs ?_
      have hr' := hd.hregs
      cases o with
      | graph => simp only [regsOf, e] at hr'; cases hr'; rfl
      | cls n => cases hr'; rfl
      | embed n => cases hr'; rfl

/-- A name of a type which occurs is looked up. -/
theorem TypesOf.type_used {u : Ty} (hu : Occurs g u) {x : Name} (hx : ∀ d, x ∈ typeNames py d u) : x ∈ T.names := by
  obtain ⟨o, ho, p, hp, hup⟩ := occurs_inv hf.named hu
  obtain ⟨i, hi, args, regs, hd⟩ := h.defined ho
  exact names_uses hi (hd.uses' hp hup (hx _))

omit hf in
theorem TypesOf.typing_optional {o : Owner} (ho : o ∈ definitionOrder g) {p : Property} (hp : p ∈ ownerProps g o)
    (hopt : p.optional = true) : typing ∈ T.names := by
  obtain ⟨i, hi, args, regs, hd⟩ := h.defined ho
  obtain ⟨a, ha, hpa⟩ := mapM_mem' hd.hargs ((order_perm _).mem_iff.2 hp)
  obtain ⟨l, hl, _, rfl⟩ := propertyArg_inv hpa
  refine names_uses hi ?_
  rw [hd.item, typeItem, if_neg (by simp [List.ne_nil_of_mem ha])]
  simp only [Item.uses, List.flatMap_cons, List.flatMap_nil, List.append_nil, initOf, initializer, List.flatMap_append,
    List.mem_append]
  exact .inl (.inr (List.mem_flatMap.2 ⟨_, ha, by simp [hopt]⟩))

omit hf in
/-- The registries are looked up in the constructor of the graph. -/
theorem TypesOf.graph_used {c : Class} (hc : c ∈ g.classes) : typing ∈ T.names ∧ collections ∈ T.names := by
  obtain ⟨i, hi, args, regs, hd⟩ := h.defined (o := .graph) (mem_order.2 (.inr (.inr rfl)))
  obtain ⟨a, ha, hca⟩ := mapM_mem' hd.hregs hc
  obtain ⟨l, hl, _, rfl⟩ := registryArg_inv hca
  have hitem := hd.item
  rw [typeItem, if_neg (by simp [List.ne_nil_of_mem ha])] at hitem
  constructor
  · refine names_uses hi ?_
    rw [hitem]
    simp only [Item.uses, List.flatMap_cons, List.flatMap_nil, List.append_nil, initOf, initializer, List.flatMap_append,
      List.mem_append]
    exact .inr (List.mem_flatMap.2 ⟨_, ha, by simp⟩)
  · refine names_body (f := initOf (preOf .graph) args regs) (List.mem_flatMap.2 ⟨i, hi, ?_⟩) (init_uses (List.ne_nil_of_mem ha))
    rw [hitem]
    simp [Item.funcs]

/-- An import is used, except perhaps the one of the typing. -/
theorem TypesOf.used {i : Origin × Str} (hi : i ∈ T.imports) : (∃ n ∈ T.names, i ∈ n.needs) ∨ i = (.library, c!"typing") := by
  have key : ∀ q, q ≠ .graph → q ≠ .cls → q ≠ .embed → needs g q = true → ∃ u, Occurs g u ∧ tyTag u = q :=
    fun q a b c => (needs_ty hf.named a b c).1
  have hmod : T.imports = imports := by rw [h.module]
  rw [hmod] at hi
  have hi' := h.himports
  unfold typesImports at hi'
  obtain ⟨path, h1, hi'⟩ := ok_bind hi'
  obtain ⟨zone, h2, hi'⟩ := ok_bind hi'
  cases hi'
  simp only [List.mem_append, List.mem_singleton, List.mem_ite_nil_right] at hi
  rcases hi with (((rfl | ⟨hp, rfl⟩) | ⟨hz, rfl⟩) | ⟨hd, rfl⟩) | ⟨hc, rfl⟩
  · exact .inr rfl
  · refine .inl ⟨pathlib, ?_, by simp [pathlib, lib, Name.needs]⟩
    subst hp
    unfold neededPath at h1
    split at h1
    · rename_i hneed
      obtain ⟨u, hu, e⟩ := key .path (by simp) (by simp) (by simp) hneed
      refine h.type_used hf hu fun d => ?_
      cases u <;> cases e
      obtain ⟨e, _⟩ := pathNames_eq h1
      simp only [typeNames]
      rw [← e]
      simp
    · cases h1
  · refine .inl ⟨datetime, ?_, by simp [datetime, lib, Name.needs]⟩
    subst hz
    unfold neededZone at h2
    split at h2
    · rename_i hneed
      obtain ⟨u, hu, e⟩ := key .timeZone (by simp) (by simp) (by simp) hneed
      refine h.type_used hf hu fun d => ?_
      cases u <;> cases e
      obtain ⟨e, _⟩ := zoneNames_eq h2
      simp only [typeNames]
      rw [← e]
      simp
    · cases h2
  · refine .inl ⟨datetime, ?_, by simp [datetime, lib, Name.needs]⟩
    have : ∃ u, Occurs g u ∧ ∀ d, datetime ∈ typeNames py d u := by
      simp only [Bool.or_eq_true] at hd
      rcases hd with ((hd | hd) | hd) | hd
      all_goals
        obtain ⟨u, hu, e⟩ := key _ (by simp) (by simp) (by simp) hd
        refine ⟨u, hu, fun d => ?_⟩
        cases u <;> cases e
        simp [typeNames]
    obtain ⟨u, hu, hx⟩ := this
    exact h.type_used hf hu hx
  · obtain ⟨c, hc⟩ := List.exists_mem_of_length_pos hc
    exact .inl ⟨collections, (h.graph_used hc).2, by simp [collections, lib, Name.needs]⟩

/-- When the import of the typing is used. -/
theorem TypesOf.typing_iff : (∃ n ∈ T.names, ((.library, c!"typing") : Origin × Str) ∈ n.needs) ↔ UsesTyping g := by
  have hty : ∀ {q}, q = .array ∨ q = .map → needs g q = true → typing ∈ T.names := by
    intro q hq hneed
    obtain ⟨u, hu, e⟩ := (needs_ty hf.named (by rcases hq with rfl | rfl <;> simp) (by rcases hq with rfl | rfl <;> simp)
      (by rcases hq with rfl | rfl <;> simp)).1 hneed
    refine h.type_used hf hu fun d => ?_
    rcases hq with rfl | rfl <;> cases u <;> cases e <;> simp [typeNames]
  constructor
  · rintro ⟨n, hn, hr⟩
    have hn' : n = typing := by
      cases n <;> simp [Name.needs] at hr
      obtain ⟨rfl, rfl⟩ := hr
      rfl
    subst hn'
    rcases List.mem_append.1 hn with hn | hn
    · obtain ⟨i, hi, hn⟩ := List.mem_flatMap.1 hn
      obtain ⟨o, ho, args, regs, hd⟩ := h.definedBy hi
      rw [hd.item, typeItem] at hn
      split at hn
      · cases hn
      · simp only [Item.uses, List.flatMap_cons, List.flatMap_nil, List.append_nil, initOf, initializer, List.flatMap_append,
          List.mem_append] at hn
        rcases hn with (hn | hn) | hn
        · cases o with
          | cls n =>
            simp only [preOf, idArg, List.flatMap_cons, List.flatMap_nil, List.append_nil, List.mem_singleton] at hn
            simp [typing, lib, b] at hn
          | embed n => cases hn
          | graph => cases hn
        · obtain ⟨a, ha, hx⟩ := List.mem_flatMap.1 hn
          obtain ⟨p, hp, hpa⟩ := mapM_mem hd.hargs ha
          obtain ⟨l, hl, _, rfl⟩ := propertyArg_inv hpa
          have hp' := (order_perm _).mem_iff.1 hp
          by_cases hopt : p.optional = true
          · exact .inr (.inl ⟨o, ho, p, hp', hopt⟩)
          · simp only [hopt, Bool.false_eq_true, if_false] at hx
            obtain ⟨u, hu, hx⟩ := (annotation_iff hl _).1 hx
            have hocc := occurs_prop hp' hu
            have : tyTag u = .array ∨ tyTag u = .map := by
              cases u with
              | array t lo hi => exact .inl rfl
              | map t => exact .inr rfl
              | path q => simp only [typeNames] at hx; split at hx <;> simp [typing, lib, b, pathlib] at hx
              | timeZone => simp only [typeNames] at hx; split at hx <;> simp [typing, lib, b, datetime] at hx
              | cls n => simp only [typeNames] at hx; split at hx <;> simp [typing, lib] at hx
              | embed n => simp only [typeNames] at hx; split at hx <;> simp [typing, lib] at hx
              | _ => simp [typeNames, typing, lib, b, datetime] at hx
            rcases this with e | e
            · exact .inr (.inr (.inl ((needs_ty hf.named (by simp) (by simp) (by simp)).2 ⟨u, hocc, e⟩)))
            · exact .inr (.inr (.inr ((needs_ty hf.named (by simp) (by simp) (by simp)).2 ⟨u, hocc, e⟩)))
        · obtain ⟨a, ha, hx⟩ := List.mem_flatMap.1 hn
          have hr := hd.hregs
          cases o with
          | cls n => cases hr; cases ha
          | embed n => cases hr; cases ha
          | graph =>
            obtain ⟨c, hc, _⟩ := mapM_mem hr ha
            exact .inl (List.ne_nil_of_mem hc)
    · obtain ⟨f, hm, hn⟩ := List.mem_flatMap.1 hn
      obtain ⟨o, ho, args, regs, i, hd, _, rfl⟩ := h.funcs hm
      rcases init_names hn with ⟨y, e⟩ | ⟨e, _⟩
      · cases e
      · simp [typing, collections, lib] at e
  · intro hu
    refine ⟨typing, ?_, by simp [typing, lib, Name.needs]⟩
    rcases hu with hc | ⟨o, ho, p, hp, hopt⟩ | hn | hn
    · obtain ⟨c, hc⟩ := List.exists_mem_of_ne_nil _ hc
      exact (h.graph_used hc).1
    · exact h.typing_optional ho hp hopt
    · exact hty (.inl rfl) hn
    · exact hty (.inr rfl) hn

end

/-! ## The placeholders -/

section
variable {g : Graph} {py : Py} {P : Module} (h : ParseOf g py P)
include h

theorem ParseOf.exact {pkg : List Module} (ht : HasTypes g py pkg) : P.ImportsExact := by
  refine ⟨fun n hn => (h.known ht hn).imported, ?_⟩
  intro i hi
  rw [h.module] at hi
  simp only [parseImports, List.mem_cons, List.not_mem_nil, or_false] at hi
  rcases hi with rfl | rfl
  · refine ⟨typing, names_uses (i := .cls c!"Errors" _) (by rw [h.module]; exact List.mem_append_left _ (.tail _ (.head _))) ?_,
      by simp [typing, lib, Name.needs]⟩
    simp [Item.uses]
  · refine ⟨.member py.moduleName (ownerId g .graph), names_uses (i := .func (pholder g py .graph)) ?_ ?_, by simp [Name.needs]⟩
    · rw [h.module]
      exact List.mem_append_right _ (List.mem_map.2 ⟨.graph, mem_parseOrder.2 (mem_order.2 (.inr (.inr rfl))), rfl⟩)
    · simp [Item.uses, pholder]

end

/-! ## The parsing -/

section
variable {g : Graph} {py : Py} {F : Module} {imports : List (Origin × Str)} {lists : List (List Item)} {graph : Item}
  (h : FromOf g py F imports lists graph)
include h

theorem FromOf.graph_item : ∃ props, parseProps (graphCtx g py) c!"graph" g.properties 0 = .ok props ∧
    .func (graphFunc g py (ownerId g .graph) props) ∈ F.items := by
  obtain ⟨props, composite, h1, _, h2, _, e⟩ := parseGraph_inv h.hgraph
  have := idOf_eq h2
  subst this
  refine ⟨props, h1, ?_⟩
  rw [h.module]
  exact List.mem_append_right _ (List.mem_singleton.2 e.symm)

omit h in
theorem graph_names {props : Code}
    (hi : .func (graphFunc g py (ownerId g .graph) props) ∈ F.items) {x : Name}
    (hx : x ∈ (graphBody g py props).names) : x ∈ F.names :=
  names_func hi (by
    simp only [graphFunc, leaveIf, Code.names, List.mem_append, List.mem_cons]
    simp [hx])

/-- A name of a type which occurs is looked up. -/
theorem FromOf.type_used {u : Ty} (hu : Occurs g u) {x : Name} (hx : x ∈ fromNames py u) : x ∈ F.names := by
  obtain ⟨o, ho, p, hp, hup⟩ := occurs_inv h.facts.named hu
  have hcomp : ∀ o ∈ compOrder g, p ∈ ownerProps g o → x ∈ F.names := by
    intro o ho hp
    obtain ⟨l, hl, hol⟩ := mapM_mem' h.hlists ho
    obtain ⟨f₁, f₂, rfl, ⟨hc⟩⟩ := parseOwner_inv hol
    have hx' := (props_fine (ok := fun _ => True) hc.funcs.hprops).uses p hp u hup x hx
    refine names_func (f := f₁) ?_ ?_
    · rw [h.module]
      exact List.mem_append_left _ (List.mem_append_right _ (List.mem_flatten.2 ⟨_, hl, by simp⟩))
    · rw [hc.funcs.first]
      simp only [Code.names, List.mem_append]
      simp [hx']
  rcases mem_order.1 ho with ⟨c, hc, rfl⟩ | ⟨e, he, rfl⟩ | rfl
  · exact hcomp _ (class_comp hc) hp
  · exact hcomp _ (embed_comp ⟨e, he, rfl⟩) hp
  · obtain ⟨props, h1, hi⟩ := h.graph_item
    have hf := props_fine (ok := fun _ => True) h1
    exact graph_names hi ((graphBody_names hf.isOpen).2 (.inr (.inr (.inl (hf.uses p hp u hup x hx)))))

theorem FromOf.class_used {c : Class} (hc : c ∈ g.classes) {x : Name} (hx : x ∈ allocNames py c) : x ∈ F.names := by
  obtain ⟨props, h1, hi⟩ := h.graph_item
  have hf := props_fine (ok := fun _ => True) h1
  exact graph_names hi ((graphBody_names hf.isOpen).2 (.inl ⟨c, hc, .inl (alloc_uses py c x hx)⟩))

theorem FromOf.duration_used (hd : needs g .duration = true) : re ∈ F.names ∧ datetime ∈ F.names := by
  have hm : ∀ i ∈ durationFromString, i ∈ F.items := by
    intro i hi
    rw [h.module]
    simp [hd, hi]
  constructor
  · refine names_uses (i := .value c!"_DURATION_RE" [re]) (hm _ (.head _)) (by simp [Item.uses])
  · exact names_uses (hm _ (.tail _ (.head _))) (by simp [Item.uses])

theorem FromOf.exact {pkg : List Module} (ht : HasTypes g py pkg) (hp : HasParse g py pkg) : F.ImportsExact := by
  have hmod : F.imports = imports := by rw [h.module]
  refine ⟨fun n hn => by rw [hmod]; exact (h.known ht hp hn).imported, ?_⟩
  have key : ∀ q, q ≠ .graph → q ≠ .cls → q ≠ .embed → needs g q = true → ∃ u, Occurs g u ∧ tyTag u = q :=
    fun q a b c => (needs_ty h.facts.named a b c).1
  have used : ∀ {p : Str}, lib p ∈ F.names → ∃ n ∈ F.names, ((.library, p) : Origin × Str) ∈ n.needs :=
    fun h => ⟨_, h, by simp [lib, Name.needs]⟩
  obtain ⟨props, _, hgi⟩ := h.graph_item
  intro i hi
  rw [hmod] at hi
  have hi' := h.himports
  unfold fromImports at hi'
  obtain ⟨path, h1, hi'⟩ := ok_bind hi'
  obtain ⟨zone, h2, hi'⟩ := ok_bind hi'
  cases hi'
  simp only [List.mem_append, List.mem_cons, List.not_mem_nil, or_false, List.mem_ite_nil_right] at hi
  rcases hi with ((((((rfl | ⟨hpath, rfl⟩) | ⟨hz, hi⟩) | ⟨hd, rfl⟩) | ⟨hm, rfl⟩) | ⟨hc, rfl⟩) | ⟨hre, rfl⟩) | rfl | rfl
  · exact used (names_uses hgi (by simp [Item.uses, graphFunc, typing]))
  · subst hpath
    unfold neededPath at h1
    split at h1
    · rename_i hneed
      obtain ⟨u, hu, e⟩ := key .path (by simp) (by simp) (by simp) hneed
      refine used (h.type_used hu ?_)
      cases u <;> cases e
      obtain ⟨e, h3⟩ := pathNames_eq h1
      by_cases hs : py.pathAs = c!"str"
      · rw [if_pos hs] at e
        simp [pathlib, lib, b] at e
      · have h4 : py.pathAs = c!"pathlib.Path" := h3.resolve_left hs
        simp [fromNames, h4, pathlib]
    · cases h1
  · subst hz
    unfold neededZone at h2
    split at h2
    · rename_i hneed
      obtain ⟨u, hu, e⟩ := key .timeZone (by simp) (by simp) (by simp) hneed
      obtain ⟨e', h3⟩ := zoneNames_eq h2
      by_cases hs : py.timezoneAs = c!"str"
      · rw [if_pos hs] at e'
        simp [datetime, lib, b] at e'
      · have h4 : py.timezoneAs = c!"pytz.timezone" := h3.resolve_left hs
        rcases hi with rfl | rfl
        · refine used (h.type_used hu ?_)
          cases u <;> cases e
          simp [fromNames, h4]
        · refine used (h.type_used hu ?_)
          cases u <;> cases e
          simp [fromNames, h4]
    · cases h2
  · by_cases hdur : needs g .duration = true
    · exact used (h.duration_used hdur).2
    · have : ∃ u, Occurs g u ∧ datetime ∈ fromNames py u := by
        simp only [Bool.or_eq_true, or_iff_left hdur] at hd
        rcases hd with (hd | hd) | hd
        all_goals
          obtain ⟨u, hu, e⟩ := key _ (by simp) (by simp) (by simp) hd
          refine ⟨u, hu, ?_⟩
          cases u <;> cases e
          simp [fromNames]
      obtain ⟨u, hu, hx⟩ := this
      exact used (h.type_used hu hx)
  · obtain ⟨u, hu, e⟩ := key .map (by simp) (by simp) (by simp) hm
    refine used (h.type_used hu ?_)
    cases u <;> cases e
    simp [fromNames, collections]
  · obtain ⟨c, hc⟩ := List.exists_mem_of_length_pos hc
    exact used (h.class_used hc (by simp [allocNames, collections]))
  · rw [Bool.or_eq_true] at hre
    rcases hre with hre | hre
    · obtain ⟨u, hu, e⟩ := any_iterate (f := fun t => hasPattern t || tyTag t == .duration) |>.1 hre
      rw [Bool.or_eq_true] at e
      rcases e with e | e
      · refine used (h.type_used hu ?_)
        cases u <;> simp [hasPattern] at e <;> simp [fromNames, e, re]
      · exact used (h.duration_used ((needs_ty h.facts.named (by simp) (by simp) (by simp)).2 ⟨u, hu, by simpa using e⟩)).1
    · obtain ⟨c, hc, e⟩ := List.any_eq_true.1 hre
      exact used (h.class_used hc (by simp [allocNames, e, re]))
  · exact ⟨_, names_uses (n := .member py.moduleName (ownerId g .graph)) hgi (by simp [Item.uses, graphFunc]), by simp [Name.needs]⟩
  · exact ⟨_, names_uses (n := .member (parsePath py) c!"Errors") hgi (by simp [Item.uses, graphFunc]), by simp [Name.needs]⟩

end

/-! ## The serializing -/

section
variable {g : Graph} {py : Py} {M : Module} {items : List Item} (h : ToOf g py M items)
include h

theorem ToOf.exact {pkg : List Module} (ht : HasTypes g py pkg) : M.ImportsExact := by
  have hmod : M.imports = toImports g py := by rw [h.module]
  refine ⟨fun n hn => by rw [hmod]; exact (h.known ht hn).imported, ?_⟩
  obtain ⟨props, _, hgi⟩ := h.func (o := .graph) (mem_order.2 (.inr (.inr rfl)))
  have used : ∀ {p : Str}, lib p ∈ M.names → ∃ n ∈ M.names, ((.library, p) : Origin × Str) ∈ n.needs :=
    fun h => ⟨_, h, by simp [lib, Name.needs]⟩
  have hcol : lib c!"collections" ∈ M.names := names_func hgi (by
    simp [toFunc, serFunc, newMapping, Code.names, collections])
  intro i hi
  rw [hmod] at hi
  simp only [toImports, List.mem_append, List.mem_cons, List.not_mem_nil, or_false, List.mem_ite_nil_right] at hi
  rcases hi with (((rfl | rfl) | ⟨hd, rfl⟩) | ⟨_, rfl⟩) | rfl
  · exact used hcol
  · exact used (names_uses hgi (by simp [Item.uses, toFunc, serFunc, typing]))
  · refine used (names_uses (i := .value c!"_ZERO_TIMEDELTA" [datetime]) ?_ (by simp [Item.uses, datetime]))
    rw [h.module]
    simp [hd, durationToString]
  · exact used hcol
  · exact ⟨_, names_uses (n := .member py.moduleName (ownerId g .graph)) hgi (by simp [Item.uses, toFunc, serFunc]), by simp [Name.needs]⟩

end

end Mapry.PyCode
