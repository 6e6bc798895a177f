import Verif.PyStatic
import Verif.GoValidated

/-!
# The module of the types
-/

namespace Mapry.PyCode

set_option linter.unusedSimpArgs false

open Mapry.TypeGraph Mapry.Naming Mapry.ParseSchema
open Mapry.GoCode (referencesOf hasPattern mapM_mem mapM_mem' mapM_cons needs_ty any_iterate Resolves mapM_append_ok)

/-! ## Lists -/

theorem insertSorted_perm {α : Type} (le : α → α → Bool) (a : α) (l : List α) :
    (Traverse.insertSorted le a l).Perm (a :: l) := by
  induction l with
  | nil => exact .refl _
  | cons b l ih =>
    unfold Traverse.insertSorted
    split
    · exact .refl _
    · exact (ih.cons b).trans (.swap a b l)

theorem sortBy_perm {α : Type} (le : α → α → Bool) (l : List α) : (Traverse.sortBy le l).Perm l := by
  unfold Traverse.sortBy
  induction l with
  | nil => exact .refl _
  | cons a l ih => exact (insertSorted_perm le a _).trans (ih.cons a)

theorem order_perm (ps : List Property) : (Text.orderByOptional ps).Perm ps := sortBy_perm _ _

theorem mapM_transfer {α β γ : Type} {f : α → Except Exc γ} {k : α → β} {h : β → Except Exc γ} {l : List α} {r : List γ}
    (hl : l.mapM f = .ok r) (hf : ∀ a ∈ l, ∀ y, f a = .ok y → h (k a) = .ok y) : (l.map k).mapM h = .ok r := by
  induction l generalizing r with
  | nil => exact hl
  | cons a l ih =>
    obtain ⟨y, ys, h1, h2, rfl⟩ := mapM_cons hl
    rw [List.map_cons, List.mapM_cons, hf a (by simp) y h1, ih h2 fun a' ha' => hf a' (by simp [ha'])]
    rfl

theorem mapM_split {α β : Type} {f : α → Except Exc β} {l : List α} {r₁ : List β} {y : β} {r₂ : List β}
    (h : l.mapM f = .ok (r₁ ++ y :: r₂)) : ∃ l₁ a l₂, l = l₁ ++ a :: l₂ ∧ l₁.mapM f = .ok r₁ ∧ f a = .ok y := by
  induction r₁ generalizing l with
  | nil =>
    cases l with
    | nil => cases h
    | cons a l =>
      obtain ⟨z, zs, h1, h2, e⟩ := mapM_cons h
      cases e
      exact ⟨[], a, l, rfl, rfl, h1⟩
  | cons z r₁ ih =>
    cases l with
    | nil => cases h
    | cons a l =>
      obtain ⟨z', zs, h1, h2, e⟩ := mapM_cons h
      cases e
      obtain ⟨l₁, a', l₂, rfl, h3, h4⟩ := ih h2
      refine ⟨a :: l₁, a', l₂, rfl, ?_, h4⟩
      rw [List.mapM_cons, h1, h3]
      rfl

theorem mapM_map_eq {α β γ : Type} {f : α → Except Exc β} {k : β → γ} {m : α → γ} {l : List α} {r : List β}
    (h : l.mapM f = .ok r) (hf : ∀ a ∈ l, ∀ y, f a = .ok y → k y = m a) : r.map k = l.map m := by
  induction l generalizing r with
  | nil => cases h; rfl
  | cons a l ih =>
    obtain ⟨y, ys, h1, h2, rfl⟩ := mapM_cons h
    rw [List.map_cons, List.map_cons, hf a (by simp) y h1, ih h2 fun a' ha' => hf a' (by simp [ha'])]

theorem loads_of {pkg : List Module} {imports : List (Origin × Str)} {before : List Str} {items : List Item}
    (h : ∀ l₁ i l₂, items = l₁ ++ i :: l₂ → ∀ n ∈ i.uses, Found pkg imports [] (before ++ l₁.map Item.name) n) :
    Loads pkg imports before items := by
  induction items generalizing before with
  | nil => trivial
  | cons i is ih =>
    refine ⟨fun n hn => by simpa using h [] i is rfl n hn, ih ?_⟩
    intro l₁ j l₂ e n hn
    have := h (i :: l₁) j l₂ (by simp [e]) n hn
    simpa using this

/-! ## Names -/

/-- The identifier of a composite. -/
def idOf (n : Str) : Str := match asComposite n with
  | .ok x => x
  | .error _ => []

theorem idOf_eq {n x} (h : asComposite n = .ok x) : idOf n = x := by rw [idOf, h]

theorem asComposite_upper {n x : Str} (h : asComposite n = .ok x) : ∃ c cs, x = c :: cs ∧ c = c.toUpper := by
  unfold asComposite at h
  split at h
  · cases h
  · split at h
    · unfold ucamelCase at h
      rw [if_neg (by simp)] at h
      obtain ⟨r, _, h⟩ := ok_bind h
      split at h
      · cases h
      · split at h
        · cases h; exact ⟨_, _, rfl, by assumption⟩
        · cases h
    · cases h

/-- The name of the composite. -/
def ownerName (g : Graph) : Owner → Str
  | .graph => g.name
  | .cls n => n
  | .embed n => n

def ownerId (g : Graph) (o : Owner) : Str := idOf (ownerName g o)

theorem pathNames_eq {py l} (h : pathNames py = .ok l) : l = (if py.pathAs = c!"str" then [b c!"str"] else [pathlib]) ∧
    (py.pathAs = c!"str" ∨ py.pathAs = c!"pathlib.Path") := by
  unfold pathNames at h
  split at h
  · rename_i e; cases h; rw [if_pos e]; exact ⟨rfl, .inl e⟩
  · rename_i e
    split at h
    · rename_i e'; cases h; rw [if_neg e]; exact ⟨rfl, .inr e'⟩
    · cases h

theorem zoneNames_eq {py l} (h : zoneNames py = .ok l) : l = (if py.timezoneAs = c!"str" then [b c!"str"] else [datetime]) ∧
    (py.timezoneAs = c!"str" ∨ py.timezoneAs = c!"pytz.timezone") := by
  unfold zoneNames at h
  split at h
  · rename_i e; cases h; rw [if_pos e]; exact ⟨rfl, .inl e⟩
  · rename_i e
    split at h
    · rename_i e'; cases h; rw [if_neg e]; exact ⟨rfl, .inr e'⟩
    · cases h

/-- The names of a type in an annotation. -/
def typeNames (py : Py) (defined : List Owner) : Ty → List Name
  | .boolean => [b c!"bool"]
  | .integer _ => [b c!"int"]
  | .float _ => [b c!"float"]
  | .string _ => [b c!"str"]
  | .path _ => if py.pathAs = c!"str" then [b c!"str"] else [pathlib]
  | .date _ => [datetime]
  | .time _ => [datetime]
  | .datetime _ => [datetime]
  | .timeZone => if py.timezoneAs = c!"str" then [b c!"str"] else [datetime]
  | .duration => [datetime]
  | .array .. => [typing]
  | .map _ => [typing, b c!"str"]
  | .cls n => if .cls n ∈ defined then [.glob (idOf n)] else []
  | .embed n => if .embed n ∈ defined then [.glob (idOf n)] else []

theorem annotation_iff {py d ty l} (h : annotation py d ty = .ok l) (x : Name) :
    x ∈ l ↔ ∃ u ∈ parts ty, x ∈ typeNames py d u := by
  induction ty generalizing l with
  | array ty lo hi ih =>
    obtain ⟨l', h', h⟩ := ok_bind h
    cases h
    simp only [parts, List.mem_cons, exists_eq_or_imp, ih h', typeNames, List.not_mem_nil, or_false]
  | map ty ih =>
    obtain ⟨l', h', h⟩ := ok_bind h
    cases h
    simp only [parts, List.mem_cons, exists_eq_or_imp, ih h', typeNames, List.not_mem_nil, or_false, or_assoc]
  | path p => simp only [parts, List.mem_singleton, exists_eq_left, typeNames, (pathNames_eq h).1]
  | timeZone => simp only [parts, List.mem_singleton, exists_eq_left, typeNames, (zoneNames_eq h).1]
  | cls n =>
    obtain ⟨i, h', h⟩ := ok_bind h
    cases h
    simp only [parts, List.mem_singleton, exists_eq_left, typeNames, idOf_eq h']
  | embed n =>
    obtain ⟨i, h', h⟩ := ok_bind h
    cases h
    simp only [parts, List.mem_singleton, exists_eq_left, typeNames, idOf_eq h']
  | _ =>
    cases h
    simp only [parts, List.mem_singleton, exists_eq_left, typeNames]

/-! ## Constructors -/

def idArg : Arg := ⟨{ var := .fixed c!"id", kind := .id }, [b c!"str"]⟩

/-- The argument `id` of a class. -/
def preOf : Owner → List Arg
  | .cls _ => [idArg]
  | _ => []

/-- The arguments for the registries. -/
def regsOf (g : Graph) (py : Py) : Owner → Except Exc (List Arg)
  | .graph => g.classes.mapM (registryArg py (definedBefore (definitionOrder g) .graph))
  | _ => .ok []

def initOf (pre args regs : List Arg) : Func :=
  initializer (pre ++ args ++ regs) (concat ((pre ++ args).map keepArg ++ regs.map keepRegistry))

def typeItem (name : Str) (pre args regs : List Arg) : Item :=
  .cls name (if (pre ++ args ++ regs).isEmpty then [] else [initOf pre args regs])

/-- The definition of a composite. -/
def defineOwner (g : Graph) (py : Py) (o : Owner) : Except Exc Item := do
  let name ← asComposite (ownerName g o)
  let args ← (Text.orderByOptional (ownerProps g o)).mapM (propertyArg py (definedBefore (definitionOrder g) o))
  let regs ← regsOf g py o
  pure (typeItem name (preOf o) args regs)

theorem mapM_length {α β : Type} {f : α → Except Exc β} {l : List α} {r : List β} (h : l.mapM f = .ok r) :
    r.length = l.length := by
  have := mapM_map_eq (k := fun _ => ()) (m := fun _ => ()) h fun _ _ _ _ => rfl
  simpa using congrArg List.length this

theorem define_class {g : Graph} {py : Py} (hn : Named g) {c : Class} (hc : c ∈ g.classes) {i}
    (h : defineClass py (definitionOrder g) c = .ok i) : defineOwner g py (.cls c.name) = .ok i := by
  obtain ⟨name, h1, h⟩ := ok_bind h
  obtain ⟨args, h2, h⟩ := ok_bind h
  cases h
  unfold defineOwner
  simp only [ownerName, ownerProps, hn.cls? hc, Option.map_some, Option.getD_some, h1, h2, regsOf]
  simp [bind, Except.bind, pure, Except.pure, typeItem, preOf, initOf, idArg]

theorem define_embed {g : Graph} {py : Py} (hn : Named g) {e : Embed} (he : e ∈ g.embeds) {i}
    (h : defineEmbed py (definitionOrder g) e = .ok i) : defineOwner g py (.embed e.name) = .ok i := by
  obtain ⟨name, h1, h⟩ := ok_bind h
  unfold defineOwner
  simp only [ownerName, ownerProps, hn.embed? he, Option.map_some, Option.getD_some, h1, regsOf]
  split at h
  · rename_i h0
    cases h
    rw [List.length_eq_zero_iff.1 h0]
    rfl
  · rename_i h0
    obtain ⟨args, h2, h⟩ := ok_bind h
    cases h
    have : args ≠ [] := by
      intro e0
      have := mapM_length h2
      rw [(order_perm _).length_eq] at this
      rw [e0] at this
      exact h0 this.symm
    simp [h2, bind, Except.bind, pure, Except.pure, typeItem, preOf, initOf, this]

theorem define_graph {g : Graph} {py : Py} {i} (h : defineGraph py (definitionOrder g) g = .ok i) :
    defineOwner g py .graph = .ok i := by
  obtain ⟨name, h1, h⟩ := ok_bind h
  unfold defineOwner
  simp only [ownerName, ownerProps, h1, regsOf]
  split at h
  · rename_i h0
    cases h
    simp only [Bool.and_eq_true, decide_eq_true_eq, List.length_eq_zero_iff] at h0
    rw [h0.1, h0.2]
    rfl
  · rename_i h0
    obtain ⟨args, h2, h⟩ := ok_bind h
    obtain ⟨regs, h3, h⟩ := ok_bind h
    cases h
    have : ¬ (args = [] ∧ regs = []) := by
      rintro ⟨rfl, rfl⟩
      have e1 := mapM_length h2
      have e2 := mapM_length h3
      rw [(order_perm _).length_eq] at e1
      apply h0
      simp only [List.length_nil] at e1 e2
      simp [← e1, ← e2]
    have h3' : ((g.classes).mapM (registryArg py (definedBefore (definitionOrder g) .graph))) = .ok regs := h3
    have h2' : ((Text.orderByOptional g.properties).mapM (propertyArg py (definedBefore (definitionOrder g) .graph))) =
      .ok args := h2
    have e : (preOf .graph ++ args ++ regs).isEmpty = false := by simpa [preOf] using this
    simp only [h2', h3', bind, Except.bind, pure, Except.pure, typeItem, e]
    rfl

theorem typesModule_inv {g : Graph} {py T} (hn : Named g) (h : typesModule g py = .ok T) :
    ∃ imports items, typesImports g py = .ok imports ∧ (definitionOrder g).mapM (defineOwner g py) = .ok items ∧
      T = ⟨py.moduleName, imports, items⟩ := by
  unfold typesModule at h
  obtain ⟨imports, h1, h⟩ := ok_bind h
  obtain ⟨classes, h2, h⟩ := ok_bind h
  obtain ⟨embeds, h3, h⟩ := ok_bind h
  obtain ⟨graph, h4, h⟩ := ok_bind h
  cases h
  refine ⟨imports, _, h1, ?_, rfl⟩
  refine mapM_append_ok (mapM_append_ok (mapM_transfer h2 fun c hc i hi => define_class hn hc hi)
    (mapM_transfer h3 fun e he i hi => define_embed hn he hi)) ?_
  rw [List.mapM_cons, define_graph h4]
  rfl

/-- What is known of the definition of a composite. -/
structure Defined (g : Graph) (py : Py) (o : Owner) (args regs : List Arg) (i : Item) : Prop where
  hname : asComposite (ownerName g o) = .ok (ownerId g o)
  hargs : (Text.orderByOptional (ownerProps g o)).mapM (propertyArg py (definedBefore (definitionOrder g) o)) = .ok args
  hregs : regsOf g py o = .ok regs
  item : i = typeItem (ownerId g o) (preOf o) args regs

theorem defineOwner_inv {g : Graph} {py o i} (h : defineOwner g py o = .ok i) : ∃ args regs, Defined g py o args regs i := by
  unfold defineOwner at h
  obtain ⟨name, h1, h⟩ := ok_bind h
  obtain ⟨args, h2, h⟩ := ok_bind h
  obtain ⟨regs, h3, h⟩ := ok_bind h
  cases h
  have e : ownerId g o = name := idOf_eq h1
  exact ⟨args, regs, e ▸ h1, h2, h3, e ▸ rfl⟩

theorem propertyArg_inv {py d p a} (h : propertyArg py d p = .ok a) : ∃ l, annotation py d p.ty = .ok l ∧
    asAttribute p.name = .ok (lower p.name) ∧
    a = ⟨{ var := .own [] (lower p.name) [], optional := p.optional }, if p.optional then typing :: l else l⟩ := by
  unfold propertyArg at h
  obtain ⟨n, h1, h⟩ := ok_bind h
  obtain ⟨l, h2, h⟩ := ok_bind h
  cases h
  obtain ⟨rfl, _⟩ := asAttribute_eq h1
  exact ⟨l, h2, h1, rfl⟩

theorem registryArg_inv {py d c a} (h : registryArg py d c = .ok a) : ∃ l, annotation py d (.cls c.name) = .ok l ∧
    asAttribute c.plural = .ok (lower c.plural) ∧
    a = ⟨{ var := .own [] (lower c.plural) [], optional := true }, typing :: typing :: b c!"str" :: l⟩ := by
  unfold registryArg at h
  obtain ⟨n, h1, h⟩ := ok_bind h
  obtain ⟨l, h2, h⟩ := ok_bind h
  cases h
  obtain ⟨rfl, _⟩ := asAttribute_eq h1
  exact ⟨l, h2, h1, rfl⟩

/-- The texts of the arguments for the registries. -/
def regTexts (g : Graph) : Owner → List Str
  | .graph => g.classes.map fun c => lower c.plural
  | _ => []

/-- The texts of the arguments before those for the properties. -/
def preTexts : Owner → List Str
  | .cls _ => [c!"id"]
  | _ => []

def attrs (ps : List Property) : List Str := ps.map fun p => lower p.name

section
variable {g : Graph} {py : Py} {o : Owner} {args regs : List Arg} {i : Item} (h : Defined g py o args regs i)
include h

theorem Defined.args_texts : args.map (fun a => a.param.var.text) = attrs (Text.orderByOptional (ownerProps g o)) :=
  mapM_map_eq h.hargs fun p _ a ha => by
    obtain ⟨l, _, _, rfl⟩ := propertyArg_inv ha
    simp [Var.text]

theorem Defined.regs_texts : regs.map (fun a => a.param.var.text) = regTexts g o := by
  have h3 := h.hregs
  cases o with
  | graph =>
    exact mapM_map_eq h3 fun c _ a ha => by
      obtain ⟨l, _, _, rfl⟩ := registryArg_inv ha
      simp [Var.text]
  | cls n => cases h3; rfl
  | embed n => cases h3; rfl

omit h in
theorem pre_texts : (preOf o).map (fun a => a.param.var.text) = preTexts o := by
  cases o <;> simp [preOf, preTexts, idArg, Var.text]

theorem Defined.name : i.name = ownerId g o := by rw [h.item]; rfl

/-- The parameters of the constructor. -/
theorem Defined.init_params : (initOf (preOf o) args regs).params.map (fun p => p.var.text) =
    c!"self" :: (preTexts o ++ attrs (Text.orderByOptional (ownerProps g o)) ++ regTexts g o) := by
  simp only [initOf, initializer, List.map_cons, List.map_map, List.map_append]
  have h1 := h.args_texts
  have h2 := h.regs_texts
  have h3 := pre_texts (o := o)
  simp only [Function.comp_def]
  rw [h1, h2, h3]
  simp [Var.text]

end

/-! ## The body of a constructor -/

theorem keep_binds (a : Arg) : (keepArg a).binds = [] ∧ (keepRegistry a).binds = [] := ⟨rfl, rfl⟩

theorem concat_binds {cs : List Code} (h : ∀ c ∈ cs, c.binds = []) : (concat cs).binds = [] := by
  apply List.eq_nil_iff_forall_not_mem.2
  intro x hx
  rcases (binds_iff _ _).1 hx with hx | hx
  · obtain ⟨c, hc, hx⟩ := concat_sets hx
    have := (binds_iff _ _).2 (.inl hx)
    rw [h c hc] at this
    cases this
  · obtain ⟨c, hc, hx⟩ := concat_drops hx
    have := (binds_iff _ _).2 (.inr hx)
    rw [h c hc] at this
    cases this

theorem init_binds (pre args regs : List Arg) : (initOf pre args regs).body.binds = [] := by
  apply concat_binds
  intro c hc
  rcases List.mem_append.1 hc with hc | hc
  · obtain ⟨a, _, rfl⟩ := List.mem_map.1 hc; rfl
  · obtain ⟨a, _, rfl⟩ := List.mem_map.1 hc; rfl

theorem init_names {pre args regs : List Arg} {x : Name} (h : x ∈ (initOf pre args regs).body.names) :
    (∃ y, x = .var y) ∨ (x = collections ∧ regs ≠ []) := by
  obtain ⟨c, hc, hx⟩ := concat_names h
  rcases List.mem_append.1 hc with hc | hc
  · obtain ⟨a, _, rfl⟩ := List.mem_map.1 hc
    simp [keepArg, Code.names, v] at hx
    rcases hx with rfl | rfl
    · exact .inl ⟨_, rfl⟩
    · exact .inl ⟨_, rfl⟩
  · obtain ⟨a, ha, rfl⟩ := List.mem_map.1 hc
    simp only [keepRegistry, Code.names, v, List.mem_append, List.mem_cons, List.not_mem_nil, or_false] at hx
    have : regs ≠ [] := List.ne_nil_of_mem ha
    rcases hx with rfl | (rfl | rfl) | rfl | rfl
    · exact .inl ⟨_, rfl⟩
    · exact .inl ⟨_, rfl⟩
    · exact .inl ⟨_, rfl⟩
    · exact .inl ⟨_, rfl⟩
    · exact .inr ⟨rfl, this⟩

theorem init_uses {pre args regs : List Arg} (h : regs ≠ []) : collections ∈ (initOf pre args regs).body.names := by
  cases regs with
  | nil => exact absurd rfl h
  | cons a regs =>
    refine concat_uses (c := keepRegistry a) ?_ (by simp) (by simp [keepRegistry, Code.names])
    intro c hc
    rcases List.mem_append.1 hc with hc | hc
    · obtain ⟨a, _, rfl⟩ := List.mem_map.1 hc; simp [keepArg, Code.Open]
    · obtain ⟨a, _, rfl⟩ := List.mem_map.1 hc; simp [keepRegistry, Code.Open]

theorem init_calls (pre args regs : List Arg) : (initOf pre args regs).body.calls = [] := by
  apply List.eq_nil_iff_forall_not_mem.2
  intro x hx
  obtain ⟨c, hc, hx⟩ := concat_calls hx
  rcases List.mem_append.1 hc with hc | hc
  · obtain ⟨a, _, rfl⟩ := List.mem_map.1 hc; cases hx
  · obtain ⟨a, _, rfl⟩ := List.mem_map.1 hc; cases hx

theorem init_safe {ok : Name → Prop} (pre args regs : List Arg) : (initOf pre args regs).Safe ok := by
  intro hn
  have hs : ∀ a ∈ pre ++ args ++ regs, a.param.var ∈ (initOf pre args regs).params.map (·.var) := by
    intro a ha
    simp only [initOf, initializer, List.map_cons, List.map_map]
    exact List.mem_cons_of_mem _ (List.mem_map.2 ⟨a, ha, rfl⟩)
  have h0 : Var.fixed c!"self" ∈ (initOf pre args regs).params.map (·.var) := by simp [initOf, initializer]
  have hcol : regs ≠ [] → ok collections := fun h => hn _ (init_uses h)
  refine Safe.weaken (B := (initOf pre args regs).params.map (·.var)) ?_ (fun _ h => h) (by simp)
  apply concat_safe
  intro c hc
  rcases List.mem_append.1 hc with hc | hc
  · obtain ⟨a, ha, rfl⟩ := List.mem_map.1 hc
    have ha' := hs a (List.mem_append_left _ ha)
    refine .use ?_ .done
    simp only [List.forall_mem_cons, List.not_mem_nil, false_implies, implies_true, and_true]
    exact ⟨h0, ha'⟩
  · obtain ⟨a, ha, rfl⟩ := List.mem_map.1 hc
    have ha' := hs a (List.mem_append_right _ ha)
    have hc' := hcol (List.ne_nil_of_mem ha)
    refine .use ?_ (.branch (.use ?_ .done) (.use ?_ .done) .done)
    · simp only [List.forall_mem_cons, List.not_mem_nil, false_implies, implies_true, and_true]
      exact ha'
    · simp only [List.forall_mem_cons, List.not_mem_nil, false_implies, implies_true, and_true]
      exact ⟨h0, ha'⟩
    · simp only [List.forall_mem_cons, List.not_mem_nil, false_implies, implies_true, and_true]
      exact ⟨h0, hc'⟩

end Mapry.PyCode
