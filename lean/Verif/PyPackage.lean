import Verif.PyTotal

/-!
# The generated Python package as a whole
-/

namespace Mapry.PyCode

set_option linter.unusedSimpArgs false

open Mapry.TypeGraph Mapry.Naming Mapry.ParseSchema Mapry.LangValidate
open Mapry.GoCode (referencesOf mapM_mem mapM_mem' mapM_cons)

/-- No argument of a constructor is called like the instance. -/
def NoSelf (g : Graph) : Prop := ∀ o ∈ definitionOrder g, c!"self" ∉ attrs (ownerProps g o) ++ regTexts g o

/-- No argument of the constructor of the graph is called like the module of the ordered dictionaries. -/
def NoCollections (g : Graph) : Prop :=
  g.classes ≠ [] → c!"collections" ∉ attrs g.properties ++ g.classes.map fun c => lower c.plural

/-- The generated modules. -/
inductive Modules (g : Graph) (py : Py) : List Module → Prop where
  | mk {T P F O : Module} {ti titems fi lists graph oitems} : Facts g → TypesOf g py T ti titems → ParseOf g py P →
      FromOf g py F fi lists graph → ToOf g py O oitems → Modules g py [T, P, F, O]

theorem modules {g : Graph} {py : Py} {pkg : List Module} (hf : Facts g) (h : package g py = .ok pkg) : Modules g py pkg := by
  obtain ⟨T, P, F, O, hp, rfl⟩ := package_inv h
  obtain ⟨imports, items, h1, h2, h3⟩ := typesModule_inv hf.named hp.types
  obtain ⟨fi, lists, graph, hF⟩ := fromOf hf hp.from_
  obtain ⟨oi, hO⟩ := toOf hf hp.to
  exact .mk hf ⟨h1, h2, h3⟩ (parseOf hf hp.parse) hF hO

section
variable {g : Graph} {py : Py} {pkg : List Module} (h : Modules g py pkg)
include h

/-- The imports suffice, and only the typing may be there in vain. -/
theorem Modules.imports : (∀ M ∈ pkg, ∀ n ∈ M.names, n.Imported M.imports) ∧
    ((∀ M ∈ pkg, M.ImportsExact) ↔ UsesTyping g) := by
  cases h with
  | mk hf hT hP hF hO =>
    rename_i T P F O _ _ _ _ _ _
    have ht : HasTypes g py [T, P, F, O] := hT.hasTypes (by simp)
    have hp : HasParse g py [T, P, F, O] := hP.hasParse (by simp)
    constructor
    · simp only [List.forall_mem_cons, List.not_mem_nil, false_implies, implies_true, and_true]
      exact ⟨hT.suffice hf, (hP.exact ht).suffice, (hF.exact ht hp).suffice, (hO.exact ht).suffice⟩
    · constructor
      · intro h
        refine (hT.typing_iff hf).1 ((h T (by simp)).used _ ?_)
        rw [hT.module]
        have hi := hT.himports
        unfold typesImports at hi
        obtain ⟨path, _, hi⟩ := ok_bind hi
        obtain ⟨zone, _, hi⟩ := ok_bind hi
        cases hi
        simp
      · intro hu
        simp only [List.forall_mem_cons, List.not_mem_nil, false_implies, implies_true, and_true]
        refine ⟨⟨hT.suffice hf, fun i hi => ?_⟩, hP.exact ht, hF.exact ht hp, hO.exact ht⟩
        rcases hT.used hf hi with h | rfl
        · exact h
        · exact (hT.typing_iff hf).2 hu

/-- When the modules can be imported, for a path of the package which does not get in the way. -/
theorem Modules.importable (hr : RootFree g (root py.moduleName)) : (∀ M ∈ pkg, M.Importable pkg) ↔
    ((allNames g).map idOf).Nodup ∧ ((allNames g).map lower).Nodup ∧ NoSelf g := by
  cases h with
  | mk hf hT hP hF hO =>
    rename_i T P F O _ _ _ _ _ _
    have ht : HasTypes g py [T, P, F, O] := hT.hasTypes (by simp)
    have hp : HasParse g py [T, P, F, O] := hP.hasParse (by simp)
    constructor
    · intro h
      have h1 := h T (by simp)
      have h2 := h P (by simp)
      refine ⟨hT.names ▸ h1.nodup, ?_, ?_⟩
      · have := h2.nodup
        rw [hP.defs, parseDefs] at this
        have := (List.nodup_append.1 this).2.1
        rw [← order_names, List.map_map]
        refine (((parseOrder_perm g).map _).nodup_iff).1 ?_
        refine List.Pairwise.of_map (S := (· ≠ ·)) (c!"placeholder_" ++ ·) (fun a b hab e => hab (by rw [e])) ?_
        rw [List.map_map]
        exact this
      · intro o ho hm
        obtain ⟨i, hi, args, regs, hd⟩ := hT.defined ho
        have hne : (preOf o ++ args ++ regs).isEmpty = false := by
          have e1 := hd.args_texts
          have e2 := hd.regs_texts
          cases he : (preOf o ++ args ++ regs).isEmpty with
          | false => rfl
          | true =>
            have e := List.isEmpty_iff.1 he
            simp only [List.append_eq_nil_iff] at e
            rw [e.1.2] at e1
            rw [e.2] at e2
            have e3 : ownerProps g o = [] := by
              have := congrArg List.length e1
              simp only [List.map_nil, List.length_nil, attrs, List.length_map, (order_perm (ownerProps g o)).length_eq] at this
              exact List.length_eq_zero_iff.1 this.symm
            rw [e3, ← e2] at hm
            simp [attrs] at hm
        have hin : initOf (preOf o) args regs ∈ T.funcs := by
          refine List.mem_flatMap.2 ⟨i, hi, ?_⟩
          rw [hd.item, typeItem, hne]
          simp [Item.funcs]
        have := h1.params _ hin
        rw [hd.init_params, List.nodup_cons] at this
        refine this.1 ?_
        rcases List.mem_append.1 hm with hm | hm
        · exact List.mem_append_left _ (List.mem_append_right _ (((order_perm _).map _).mem_iff.2 hm))
        · exact List.mem_append_right _ hm
    · rintro ⟨h1, h2, h3⟩
      simp only [List.forall_mem_cons, List.not_mem_nil, false_implies, implies_true, and_true]
      exact ⟨hT.importable hf _ h1 h3, hP.importable ht hr h2, hF.importable ht hp hr h2, hO.importable ht hr h2⟩

/-- No execution looks up a wrong name. -/
theorem Modules.clean (hr : RootFree g (root py.moduleName)) (hc : NoCollections g) (hi : CallsApart g)
    (ht : TargetsApart g) : ∀ M ∈ pkg, ∀ f ∈ M.funcs, f.Clean pkg M := by
  cases h with
  | mk hf hT hP hF hO =>
    simp only [List.forall_mem_cons, List.not_mem_nil, false_implies, implies_true, and_true]
    exact ⟨hT.clean hf _ hc, hP.clean (hT.hasTypes (by simp)) hr, hF.clean (hP.hasParse (by simp)) hr, hO.clean hr hi ht⟩

/-- The calls fit. -/
theorem Modules.calls (h1 : ((allNames g).map idOf).Nodup) (h2 : ((allNames g).map lower).Nodup) :
    ∀ M ∈ pkg, M.CallsFit pkg := by
  cases h with
  | mk hf hT hP hF hO =>
    simp only [List.forall_mem_cons, List.not_mem_nil, false_implies, implies_true, and_true]
    exact ⟨hT.calls _, hP.calls (hT.finds h1 _ _) h2,
      hF.calls (hP.finds h2 _ (by rw [hT.module]) _ _) h2, hO.calls h2⟩

end

end Mapry.PyCode
