import Verif.PyFromModule

/-!
# The module `tojsonable`
-/

namespace Mapry.PyCode

set_option linter.unusedSimpArgs false

open Mapry.TypeGraph Mapry.Naming Mapry.ParseSchema
open Mapry.GoCode (referencesOf hasPattern mapM_mem mapM_mem' mapM_cons needs_ty any_iterate Resolves mapM_append_ok
  refers_known referencesOf_ok)

/-! ## The functions of the module -/

/-- The function of a composite. -/
def serializeOwner (g : Graph) (py : Py) : Owner → Except Exc Item
  | .graph => serializeGraph g py
  | o => serializeComposite py (ownerName g o) (ownerProps g o)

/-- The code of a composite with the code of its properties. -/
def toBody (g : Graph) (props : Code) : Owner → Code
  | .graph => props ++ concat (g.classes.map registryCode)
  | _ => props

def toFunc (g : Graph) (py : Py) (o : Owner) (props : Code) : Func :=
  serFunc py (lower (ownerName g o)) (ownerId g o) (ownerName g o) (toBody g props o)

theorem serializeOwner_inv {g : Graph} {py o item} (h : serializeOwner g py o = .ok item) : ∃ props,
    serializeProps py (ownerProps g o) 0 = .ok props ∧ item = .func (toFunc g py o props) := by
  cases o with
  | graph =>
    obtain ⟨props, composite, h1, h2, _, _, e⟩ := serializeGraph_inv h
    rw [← idOf_eq h2] at e
    exact ⟨props, h1, e⟩
  | cls n =>
    obtain ⟨props, composite, h1, h2, _, e⟩ := serializeComposite_inv h
    rw [← idOf_eq h2] at e
    exact ⟨props, h1, e⟩
  | embed n =>
    obtain ⟨props, composite, h1, h2, _, e⟩ := serializeComposite_inv h
    rw [← idOf_eq h2] at e
    exact ⟨props, h1, e⟩

/-- The module as it is generated. -/
structure ToOf (g : Graph) (py : Py) (M : Module) (items : List Item) : Prop where
  facts : Facts g
  hitems : (definitionOrder g).mapM (serializeOwner g py) = .ok items
  module : M = ⟨py.moduleName ++ c!".tojsonable", toImports g py,
    (if needs g .duration then durationToString else []) ++ items⟩

theorem toOf {g : Graph} {py M} (hf : Facts g) (h : toModule g py = .ok M) : ∃ items, ToOf g py M items := by
  unfold toModule at h
  obtain ⟨classes, h1, h⟩ := ok_bind h
  obtain ⟨embeds, h2, h⟩ := ok_bind h
  obtain ⟨graph, h3, h⟩ := ok_bind h
  cases h
  refine ⟨classes ++ embeds ++ [graph], hf, ?_, by simp⟩
  refine mapM_append_ok (mapM_append_ok (mapM_transfer h1 fun c hc i hi => ?_) (mapM_transfer h2 fun e he i hi => ?_)) ?_
  · simpa [serializeOwner, ownerName, ownerProps, hf.named.cls? hc] using hi
  · simpa [serializeOwner, ownerName, ownerProps, hf.named.embed? he] using hi
  · have h3' : serializeOwner g py .graph = .ok graph := h3
    rw [List.mapM_cons, h3']
    rfl

/-- The definitions of the module. -/
def toDefs (g : Graph) : List Str :=
  (if needs g .duration then [c!"_ZERO_TIMEDELTA", c!"_duration_to_string"] else []) ++
    (definitionOrder g).map fun o => c!"serialize_" ++ lower (ownerName g o)

theorem serialize_mem {g : Graph} {o : Owner} (ho : o ∈ definitionOrder g) : c!"serialize_" ++ lower (ownerName g o) ∈ toDefs g :=
  List.mem_append_right _ (List.mem_map.2 ⟨o, ho, rfl⟩)

theorem to_free {g : Graph} {r : Str} (hr : RootFree g r) : Free r (toDefs g) := by
  apply free_of
  intro x hx
  rcases List.mem_append.1 hx with hx | hx
  · refine free_fixed hr ?_
    split at hx
    · simp only [List.mem_cons, List.not_mem_nil, or_false] at hx
      rcases hx with rfl | rfl <;> decide
    · cases hx
  · obtain ⟨o, ho, rfl⟩ := List.mem_map.1 hx
    exact free_composite hr (owner_name_mem ho) (by simp [compositeTexts])

theorem to_nodup {g : Graph} (h : ((allNames g).map lower).Nodup) : (toDefs g).Nodup := by
  unfold toDefs
  rw [List.nodup_append]
  refine ⟨by split <;> decide, ?_, ?_⟩
  · have h2 := owner_names_nodup (.refl (definitionOrder g)) h
    have e : ((definitionOrder g).map fun o => c!"serialize_" ++ lower (ownerName g o)) =
        ((definitionOrder g).map fun o => lower (ownerName g o)).map (c!"serialize_" ++ ·) := by
      rw [List.map_map]; rfl
    rw [e]
    refine List.Pairwise.map _ ?_ h2
    intro a b hab e
    exact hab (List.append_cancel_left e)
  · intro a ha b hb e
    obtain ⟨o, _, rfl⟩ := List.mem_map.1 hb
    subst e
    split at ha <;> simp at ha

/-- The imports of the module. -/
theorem to_imports (g : Graph) (py : Py) : ImportsOf (root py.moduleName) (toImports g py) := by
  constructor
  · intro p hp
    simp only [toImports, List.mem_append, List.mem_singleton, List.mem_cons, List.not_mem_nil, or_false, List.mem_ite_nil_right,
      Prod.mk.injEq, true_and, reduceCtorEq, false_and, and_false] at hp
    rcases hp with ((rfl | rfl) | ⟨_, rfl⟩) | ⟨_, rfl⟩ <;> decide
  · intro p hp
    simp only [toImports, List.mem_append, List.mem_singleton, List.mem_cons, List.not_mem_nil, or_false, List.mem_ite_nil_right,
      Prod.mk.injEq, true_and, reduceCtorEq, false_and, and_false, false_or] at hp
    rw [hp]

theorem to_package (g : Graph) (py : Py) : (.package, py.moduleName) ∈ toImports g py ∧ (.library, c!"typing") ∈ toImports g py ∧
    (.library, c!"collections") ∈ toImports g py ∧ (needs g .duration = true → (.library, c!"datetime") ∈ toImports g py) := by
  refine ⟨by simp [toImports], by simp [toImports], by simp [toImports], fun h => by simp [toImports, h]⟩

theorem toNames_cases {u : Ty} {x : Name} (h : x ∈ toNames u) : (u = .duration ∧ x = .glob c!"_duration_to_string") ∨
    x = collections ∨ ∃ n, u = .embed n ∧ x = .glob (c!"serialize_" ++ lower n) := by
  cases u with
  | duration => exact .inl ⟨rfl, List.mem_singleton.1 h⟩
  | map t => exact .inr (.inl (List.mem_singleton.1 h))
  | embed n => exact .inr (.inr ⟨n, rfl, List.mem_singleton.1 h⟩)
  | _ => cases h

/-- The names in a function. -/
theorem toFunc_names {g : Graph} {py : Py} {o : Owner} {props : Code} (h : serializeProps py (ownerProps g o) 0 = .ok props) {x : Name}
    (hx : x ∈ (toFunc g py o props).body.names) : Plain x ∨ x = collections ∨
    (∃ c ∈ g.classes, o = .graph ∧ x = .glob (c!"serialize_" ++ lower c.name)) ∨
    ∃ p ∈ ownerProps g o, ∃ u ∈ parts p.ty, x ∈ toNames u := by
  have hb : x ∈ (toBody g props o ++ .use [v c!"target"] .leave).names ∨ Plain x ∨ x = collections := by
    simp only [toFunc, serFunc, newMapping, Code.names, List.append_nil, List.nil_append, List.mem_append, List.mem_singleton,
      List.mem_cons, List.not_mem_nil, or_false] at hx
    rcases hx with rfl | (rfl | rfl) | hx
    · exact .inr (.inl (.var _))
    · exact .inr (.inr rfl)
    · exact .inr (.inl (.builtin _ (by decide)))
    · exact .inl hx
  have hp : x ∈ props.names → Plain x ∨ ∃ p ∈ ownerProps g o, ∃ u ∈ parts p.ty, x ∈ toNames u := fun hx =>
    (toProps_fine (ok := fun _ => True) h).names x hx
  rcases hb with hx | hx | hx
  · rcases names_append hx with hx | hx
    · cases o with
      | graph =>
        rcases names_append hx with hx | hx
        · exact (hp hx).imp id fun h => .inr (.inr h)
        · obtain ⟨c, hc, hx⟩ := registries_names.1 hx
          rcases registryCode_names c x hx with hx | hx | hx
          · exact .inl hx
          · exact .inr (.inl hx)
          · exact .inr (.inr (.inl ⟨c, hc, rfl, hx⟩))
      | cls n => exact (hp hx).imp id fun h => .inr (.inr h)
      | embed n => exact (hp hx).imp id fun h => .inr (.inr h)
    · simp [Code.names] at hx
      subst hx
      exact .inl (.var _)
  · exact .inl hx
  · exact .inr (.inl hx)

/-- The variables of a function. -/
inductive ToLocal (g : Graph) (o : Owner) : Str → Prop where
  | fixed (x) : x ∈ [c!"instance", c!"ordered", c!"target", c!"id"] → ToLocal g o x
  | temp (base n) : base ∈ toBases → ToLocal g o (Var.temp base n).text
  | target (c) : c ∈ g.classes → ToLocal g o (c!"target_" ++ lower c.plural)
  | inst (c) : c ∈ g.classes → o = .graph → ToLocal g o (lower c.name ++ c!"_instance")

theorem ToLocal.free {g : Graph} {o : Owner} {r : Str} (hr : RootFree g r) {x : Str} (h : ToLocal g o x) :
    x ≠ r ∧ x ∉ builtins ∧ x ∉ libRoots := by
  cases h with
  | fixed _ h =>
    have : ∀ x ∈ [c!"instance", c!"ordered", c!"target", c!"id"], x ∈ fixedTexts := by decide
    exact free_fixed hr (this x h)
  | temp base n h =>
    have : ∀ base ∈ toBases, base ∈ tempBases := by decide
    exact free_temp hr (this base h) n
  | target c hc => exact free_class hr hc (by simp [classTexts])
  | inst c hc _ => exact free_class hr hc (by simp [classTexts])

theorem toFunc_locals {g : Graph} {py : Py} {o : Owner} {props : Code} (h : serializeProps py (ownerProps g o) 0 = .ok props) :
    ∀ x ∈ (toFunc g py o props).locals, ToLocal g o x := by
  have ht := (toProps_fine (ok := fun _ => True) h).temps
  have hprops : ∀ x ∈ props.binds, ToLocal g o x.text := by
    intro x hx
    rcases (binds_iff _ _).1 hx with hx | hx
    · obtain ⟨base, hb, k, rfl⟩ := ht.sets x hx
      exact .temp base k hb
    · rw [ht.drops] at hx
      cases hx
  have hbody : ∀ x ∈ (toBody g props o ++ .use [v c!"target"] .leave).binds, ToLocal g o x.text := by
    have happ : ∀ {c d : Code} {x : Var}, x ∈ (c ++ d).binds → x ∈ c.binds ∨ x ∈ d.binds := by
      intro c d x hx
      rcases (binds_iff _ _).1 hx with hx | hx
      · exact (sets_append hx).imp (fun h => (binds_iff _ _).2 (.inl h)) (fun h => (binds_iff _ _).2 (.inl h))
      · exact (drops_append hx).imp (fun h => (binds_iff _ _).2 (.inr h)) (fun h => (binds_iff _ _).2 (.inr h))
    intro x hx
    rcases happ hx with hx | hx
    · cases o with
      | graph =>
        rcases happ hx with hx | hx
        · exact hprops x hx
        · rcases (binds_iff _ _).1 hx with hx | hx
          · obtain ⟨d, hd, hx⟩ := concat_sets hx
            obtain ⟨c, hc, rfl⟩ := List.mem_map.1 hd
            cases (registryCode_sets c).1 x hx with
            | target => simpa [Var.text] using ToLocal.target (o := .graph) c hc
            | inst => simpa [Var.text] using ToLocal.inst (o := .graph) c hc rfl
            | id => exact .fixed _ (by decide)
          · obtain ⟨d, hd, hx⟩ := concat_drops hx
            obtain ⟨c, hc, rfl⟩ := List.mem_map.1 hd
            rw [(registryCode_sets c).2] at hx
            cases hx
      | cls n => exact hprops x hx
      | embed n => exact hprops x hx
    · cases hx
  intro x hx
  simp only [Func.locals, toFunc, serFunc, newMapping, Code.binds, List.map_append, List.map_cons, List.map_nil, List.mem_append,
    List.mem_cons, List.not_mem_nil, or_false] at hx
  rcases hx with (rfl | rfl) | (rfl | rfl) | hx
  · exact .fixed _ (by decide)
  · exact .fixed _ (by decide)
  · exact .fixed _ (by decide)
  · exact .fixed _ (by decide)
  · obtain ⟨y, hy, rfl⟩ := List.mem_map.1 hx
    exact hbody y hy

/-- The composites whose functions are called by the function of the graph. -/
def Called (g : Graph) (n : Str) : Prop :=
  (∃ c ∈ g.classes, c.name = n) ∨ ∃ p ∈ g.properties, .embed n ∈ parts p.ty

/-- No variable for an instance hides a function which is called. -/
def CallsApart (g : Graph) : Prop :=
  ∀ c ∈ g.classes, ∀ n, Called g n → lower c.name ++ c!"_instance" ≠ c!"serialize_" ++ lower n

/-- The two variables of a class are different. -/
def TargetsApart (g : Graph) : Prop := ∀ c ∈ g.classes, c!"target_" ++ lower c.plural ≠ lower c.name ++ c!"_instance"

theorem ToLocal.ne {g : Graph} {o : Owner} (hi : CallsApart g) {n : Str} (hn : o = .graph → Called g n)
    (h : ToLocal g o (c!"serialize_" ++ lower n)) : False := by
  generalize e : c!"serialize_" ++ lower n = x at h
  cases h with
  | fixed _ h =>
    simp only [List.mem_cons, List.not_mem_nil, or_false] at h
    rcases h with rfl | rfl | rfl | rfl <;> simp at e
  | temp base k h =>
    have : ∀ base ∈ toBases, ∀ y, (base ++ y).head? ≠ some 's' := by simp [toBases]
    have h2 := this base h ('_' :: Text.natStr k)
    rw [← Var.text.eq_2, ← e] at h2
    simp at h2
  | target c hc => simp at e
  | inst c hc ho => exact hi c hc n (hn ho) e.symm

theorem ToLocal.ne_under {g : Graph} {o : Owner} {x : Str} (hx : x.head? = some '_') (hl : x.getLast? ≠ some 'e')
    (h : ToLocal g o x) : False := by
  cases h with
  | fixed _ h =>
    simp only [List.mem_cons, List.not_mem_nil, or_false] at h
    rcases h with rfl | rfl | rfl | rfl <;> simp at hx
  | temp base k h =>
    have : ∀ base ∈ toBases, ∀ y, (base ++ y).head? ≠ some '_' := by simp [toBases]
    exact this base h ('_' :: Text.natStr k) hx
  | target c hc => simp at hx
  | inst c hc _ => exact hl (by rw [List.getLast?_append]; rfl)

section
variable {g : Graph} {py : Py} {M : Module} {items : List Item} (h : ToOf g py M items)
include h

theorem ToOf.defs : M.items.map Item.name = toDefs g := by
  rw [h.module, toDefs, List.map_append]
  congr 1
  · split <;> rfl
  · exact mapM_map_eq h.hitems fun o _ i hi => by
      obtain ⟨props, _, rfl⟩ := serializeOwner_inv hi
      rfl

theorem ToOf.items' {i : Item} (hi : i ∈ M.items) : (needs g .duration = true ∧ i ∈ durationToString) ∨
    ∃ o ∈ definitionOrder g, ∃ props, serializeProps py (ownerProps g o) 0 = .ok props ∧ i = .func (toFunc g py o props) := by
  rw [h.module] at hi
  rcases List.mem_append.1 hi with hi | hi
  · split at hi
    · exact .inl ⟨by assumption, hi⟩
    · cases hi
  · obtain ⟨o, ho, hoi⟩ := mapM_mem h.hitems hi
    exact .inr ⟨o, ho, serializeOwner_inv hoi⟩

theorem ToOf.func {o : Owner} (ho : o ∈ definitionOrder g) : ∃ props, serializeProps py (ownerProps g o) 0 = .ok props ∧
    .func (toFunc g py o props) ∈ M.items := by
  obtain ⟨i, hi, hoi⟩ := mapM_mem' h.hitems ho
  obtain ⟨props, hp, rfl⟩ := serializeOwner_inv hoi
  refine ⟨props, hp, ?_⟩
  rw [h.module]
  exact List.mem_append_right _ hi

theorem ToOf.funcs {f : Func} (hm : f ∈ M.funcs) :
    (needs g .duration = true ∧ f ∈ durationToString.flatMap Item.funcs) ∨
    ∃ o ∈ definitionOrder g, ∃ props, serializeProps py (ownerProps g o) 0 = .ok props ∧ f = toFunc g py o props := by
  obtain ⟨i, hi, hm⟩ := List.mem_flatMap.1 hm
  rcases h.items' hi with ⟨h1, h2⟩ | ⟨o, ho, props, hp, rfl⟩
  · exact .inl ⟨h1, List.mem_flatMap.2 ⟨i, h2, hm⟩⟩
  · exact .inr ⟨o, ho, props, hp, List.mem_singleton.1 hm⟩

theorem ToOf.known_body {pkg : List Module} {f : Func} (hf : f ∈ M.funcs) :
    All (Known pkg (toImports g py) (toDefs g)) f.body := by
  obtain ⟨_, _, i1, i2⟩ := to_package g py
  intro x hx
  rcases h.funcs hf with ⟨hd, hf⟩ | ⟨o, ho, props, hp, rfl⟩
  · have key : ∀ f ∈ durationToString.flatMap Item.funcs, ∀ n ∈ f.body.names,
        n.among [datetime, .glob c!"_ZERO_TIMEDELTA"] = true := by decide +kernel
    rcases among_plain (key f hf x hx) with hn | hn
    · exact .plain hn
    · simp only [List.mem_cons, List.not_mem_nil, or_false] at hn
      rcases hn with rfl | rfl
      · exact .lib _ (by decide) (i2 hd)
      · exact .glob _ (by simp [toDefs, hd])
  · rcases toFunc_names hp hx with hx | rfl | ⟨c, hc, _, rfl⟩ | ⟨p, hp', u, hu, hx⟩
    · exact .plain hx
    · exact .lib _ (by decide) i1
    · exact .glob _ (serialize_mem (comp_order (class_comp hc)))
    · have hocc := occurs_prop hp' hu
      rcases toNames_cases hx with ⟨rfl, rfl⟩ | rfl | ⟨n, rfl, rfl⟩
      · have hd : needs g .duration = true := (needs_ty h.facts.named (by simp) (by simp) (by simp)).2 ⟨_, hocc, rfl⟩
        exact .glob _ (by simp [toDefs, hd])
      · exact .lib _ (by decide) i1
      · exact .glob _ (serialize_mem (comp_order (embed_comp (h.facts.resolves.2 n hocc))))

theorem ToOf.known_uses {pkg : List Module} (ht : HasTypes g py pkg) {i : Item} (hi : i ∈ M.items) (defs : List Str) :
    ∀ n ∈ i.uses, n.Constant ∧ Known pkg (toImports g py) defs n := by
  obtain ⟨i0, i3, i1, i2⟩ := to_package g py
  have hty : typing.Constant ∧ Known pkg (toImports g py) defs typing := ⟨trivial, .lib _ (by decide) i3⟩
  have hb : ∀ x ∈ builtins, (b x).Constant ∧ Known pkg (toImports g py) defs (b x) := fun x hx => ⟨trivial, .builtin x hx⟩
  rcases h.items' hi with ⟨hd, hi⟩ | ⟨o, ho, props, hp, rfl⟩
  · have hdt : datetime.Constant ∧ Known pkg (toImports g py) defs datetime := ⟨trivial, .lib _ (by decide) (i2 hd)⟩
    simp only [durationToString, List.mem_cons, List.not_mem_nil, or_false] at hi
    rcases hi with rfl | rfl
    · simp only [Item.uses, List.forall_mem_cons, List.not_mem_nil, false_implies, implies_true, and_true]
      exact hdt
    · simp only [Item.uses, List.forall_mem_cons, List.not_mem_nil, false_implies, implies_true, and_true]
      exact ⟨hdt, hb _ (by decide)⟩
  · simp only [Item.uses, toFunc, serFunc, List.forall_mem_cons, List.not_mem_nil, false_implies, implies_true, and_true]
    exact ⟨⟨trivial, member_known _ i0 ht ho _⟩, hb _ (by decide), hty, hb _ (by decide), hty⟩

theorem ToOf.known {pkg : List Module} (ht : HasTypes g py pkg) {n : Name} (hn : n ∈ M.names) :
    Known pkg (toImports g py) (toDefs g) n := by
  rcases List.mem_append.1 hn with hn | hn
  · obtain ⟨i, hi, hn⟩ := List.mem_flatMap.1 hn
    exact (h.known_uses ht hi _ n hn).2
  · obtain ⟨f, hf, hn⟩ := List.mem_flatMap.1 hn
    exact h.known_body hf n hn

/-- Python imports the module. -/
theorem ToOf.importable {pkg : List Module} (ht : HasTypes g py pkg) (hr : RootFree g (root py.moduleName))
    (hn : ((allNames g).map lower).Nodup) : M.Importable pkg := by
  refine ⟨?_, by rw [h.defs]; exact to_nodup hn, ?_⟩
  · have e : M.imports = toImports g py := by rw [h.module]
    rw [e]
    refine loads_known (to_imports g py) hr.builtin hr.library (by rw [List.nil_append, h.defs]; exact to_free hr) ?_
    intro l₁ i l₂ e n hm
    exact h.known_uses ht (by rw [e]; simp) _ n hm
  · intro f hf
    rcases h.funcs hf with ⟨hd, hf⟩ | ⟨o, ho, props, hp, rfl⟩
    · have : ∀ f ∈ durationToString.flatMap Item.funcs, (f.params.map fun p => p.var.text).Nodup := by decide +kernel
      exact this f hf
    · simp [toFunc, serFunc, Var.text]

/-- No execution of a function looks up a wrong name. -/
theorem ToOf.clean {pkg : List Module} (hr : RootFree g (root py.moduleName)) (hi : CallsApart g) (hta : TargetsApart g) :
    ∀ f ∈ M.funcs, f.Clean pkg M := by
  intro f hf
  refine clean_of ?_ ?_
  · rcases h.funcs hf with ⟨hd, hf⟩ | ⟨o, ho, props, hp, rfl⟩
    · obtain ⟨i, hi, hf⟩ := List.mem_flatMap.1 hf
      exact durationTo_safe i hi f hf
    · cases o with
      | graph => exact serializeGraph_safe hp hta
      | cls n => exact serializeComposite_safe hp
      | embed n => exact serializeComposite_safe hp
  · intro n hn
    have e : M.imports = toImports g py := by rw [h.module]
    have hk := h.known_body (pkg := pkg) hf n hn
    rw [h.defs, e]
    rcases h.funcs hf with ⟨hd, hf⟩ | ⟨o, ho, props, hp, rfl⟩
    · have hloc : ∀ f ∈ durationToString.flatMap Item.funcs, ∀ x ∈ f.locals, x ∈ fixedTexts ∧ x.head? ≠ some '_' := by
        decide +kernel
      have key : ∀ f ∈ durationToString.flatMap Item.funcs, ∀ n ∈ f.body.names,
        n.among [datetime, .glob c!"_ZERO_TIMEDELTA"] = true := by decide +kernel
      refine hk.found (to_imports g py) hr.builtin hr.library (free_of fun x hx => free_fixed hr (hloc f hf x hx).1) (to_free hr) ?_
      rintro x rfl hx
      rcases among_plain (key f hf _ hn) with hn | hn
      · cases hn
      · simp only [List.mem_cons, List.not_mem_nil, or_false] at hn
        rcases hn with e | e
        · cases e
        · cases e
          exact (hloc f hf _ hx).2 rfl
    · refine hk.found (to_imports g py) hr.builtin hr.library (free_of fun x hx => (toFunc_locals hp x hx).free hr) (to_free hr) ?_
      rintro x rfl hx
      have hl := toFunc_locals hp x hx
      rcases toFunc_names hp hn with hx | hx | ⟨c, hc, _, hx⟩ | ⟨p, hp', u, hu, hx⟩
      · cases hx
      · cases hx
      · cases hx
        exact hl.ne hi fun _ => .inl ⟨c, hc, rfl⟩
      · have hocc := occurs_prop hp' hu
        rcases toNames_cases hx with ⟨rfl, e⟩ | e | ⟨n, rfl, e⟩
        · cases e
          exact hl.ne_under rfl (by decide)
        · cases e
        · cases e
          refine hl.ne hi fun ho => .inr ⟨p, ?_, hu⟩
          subst ho
          exact hp'

/-! ## Calls -/

theorem ToOf.calls {pkg : List Module} (hn : ((allNames g).map lower).Nodup) : M.CallsFit pkg := by
  have hnd : (M.items.map Item.name).Nodup := by rw [h.defs]; exact to_nodup hn
  have hfind : ∀ {o}, o ∈ definitionOrder g → ∃ i, callee? pkg M (.glob (c!"serialize_" ++ lower (ownerName g o))) = some i ∧
      i.callParams = some [{ var := .fixed c!"instance", kind := .target (ownerName g o) },
        { var := .fixed c!"ordered", optional := true }] := by
    intro o ho
    obtain ⟨props, hp, hm⟩ := h.func ho
    exact ⟨_, definition_of hnd hm, rfl⟩
  have hone : ∀ {o}, o ∈ definitionOrder g → ∃ i ps, callee? pkg M (.glob (c!"serialize_" ++ lower (ownerName g o))) = some i ∧
      i.callParams = some ps ∧ (Call.mk (.glob (c!"serialize_" ++ lower (ownerName g o))) [.target (ownerName g o)] []).Fits ps := by
    intro o ho
    obtain ⟨i, h1, h2⟩ := hfind ho
    exact ⟨i, _, h1, h2, ⟨rfl, by simp, by simp, by simp⟩⟩
  intro f hf a ha
  rcases h.funcs hf with ⟨hd, hf⟩ | ⟨o, ho, props, hp, rfl⟩
  · have key : ∀ f ∈ durationToString.flatMap Item.funcs, f.body.calls = [] := by decide +kernel
    rw [key f hf] at ha
    cases ha
  · have hprops : a ∈ props.calls → ∃ i ps, callee? pkg M a.callee = some i ∧ i.callParams = some ps ∧ a.Fits ps := by
      intro ha
      obtain ⟨p, hp', u, hu, hc⟩ := (toProps_fine (ok := fun _ => True) hp).calls a ha
      have hocc := occurs_prop hp' hu
      cases hc with
      | duration =>
        have hd : needs g .duration = true := (needs_ty h.facts.named (by simp) (by simp) (by simp)).2 ⟨_, hocc, rfl⟩
        have hi : ∃ i ∈ durationToString, i.name = c!"_duration_to_string" ∧
            i.callParams = some [{ var := .fixed c!"duration" }] := ⟨_, .tail _ (.head _), rfl, rfl⟩
        obtain ⟨i, hi, e1, e2⟩ := hi
        refine ⟨i, _, ?_, e2, fits_positional rfl⟩
        have := definition_of (i := i) hnd (by rw [h.module]; simp [hd, hi])
        rw [e1] at this
        exact this
      | embed name => exact hone (o := .embed name) (comp_order (embed_comp (h.facts.resolves.2 name hocc)))
    have ha : a ∈ (toBody g props o ++ .use [v c!"target"] .leave).calls := by
      simpa [toFunc, serFunc, newMapping, Code.calls] using ha
    rcases calls_append ha with ha | ha
    · cases o with
      | graph =>
        rcases calls_append ha with ha | ha
        · exact hprops ha
        · obtain ⟨d, hd, ha⟩ := concat_calls ha
          obtain ⟨c, hc, rfl⟩ := List.mem_map.1 hd
          rw [registryCode_calls] at ha
          obtain rfl := List.mem_singleton.1 ha
          obtain ⟨i, h1, h2⟩ := hfind (comp_order (class_comp hc))
          refine ⟨i, _, h1, h2, rfl, by simp, ?_, ?_⟩
          · simp [Var.text, ownerName]
          · simp [Var.text]
      | cls n => exact hprops ha
      | embed n => exact hprops ha
    · cases ha

end

end Mapry.PyCode
