import Verif.PyCheck

/-!
# The function which parses the graph
-/

namespace Mapry.PyCode

set_option linter.unusedSimpArgs false

open Mapry.TypeGraph Mapry.Naming Mapry.ParseSchema
open Mapry.GoCode (referencesOf hasPattern mapM_mem mapM_mem' mapM_cons)

variable {ok : Name → Prop}

/-- The variables of the function which parses the graph, after `graph` is bound. -/
def graphVars : List Var := [.fixed c!"graph", .fixed c!"value", .fixed c!"ref", .fixed c!"errors"]

/-- The variables which are bound before the properties are parsed. -/
inductive GraphVar : Var → Prop where
  | registryValue : GraphVar (.fixed c!"registry_value")
  | instanceValue : GraphVar (.fixed c!"instance_value")
  | id : GraphVar (.fixed c!"id")
  | registry (x) : GraphVar (.own [] x c!"_registry")
  | target (x) : GraphVar (.own c!"target_" x [])

theorem GraphVar.ne {x y} (h : GraphVar x) (hy : y ∈ graphVars) : x.text ≠ y.text := by
  simp only [graphVars, List.mem_cons, List.not_mem_nil, or_false] at hy
  cases h with
  | registryValue => rcases hy with rfl | rfl | rfl | rfl <;> decide
  | instanceValue => rcases hy with rfl | rfl | rfl | rfl <;> decide
  | id => rcases hy with rfl | rfl | rfl | rfl <;> decide
  | registry x =>
    rcases hy with rfl | rfl | rfl | rfl
    · exact registry_ne (b := 'h') (by rfl) (by decide)
    · exact registry_ne (b := 'e') (by rfl) (by decide)
    · exact registry_ne (b := 'f') (by rfl) (by decide)
    · exact registry_ne (b := 's') (by rfl) (by decide)
  | target x => rcases hy with rfl | rfl | rfl | rfl <;> simp [Var.text]

/-- Code which binds only such variables. -/
structure Before (c : Code) : Prop where
  sets : ∀ x ∈ c.sets, GraphVar x
  drops : c.drops = []

theorem Before.kept {c} (h : Before c) {y} (hy : y ∈ graphVars) : Kept c y :=
  ⟨fun x hx e => absurd e ((h.sets x hx).ne hy), by simp [h.drops]⟩

theorem graphVar_stays {xs : List Var} (hx : ∀ x ∈ xs, GraphVar x) {y} (hy : y ∈ graphVars) : Stays xs y :=
  fun x hm e => absurd e ((hx x hm).ne hy)

/-- The names of the class in the code which allocates its instances. -/
def allocNames (py : Py) (c : Class) : List Name :=
  collections :: .member (parsePath py) (c!"placeholder_" ++ lower c.name) :: if c.idPattern.isSome then [re] else []

theorem registry_stays_rv (x : Str) : Stays [.own [] x c!"_registry"] (.fixed c!"registry_value") := by
  intro y hy e
  obtain rfl := List.mem_singleton.1 hy
  exact absurd e (registry_ne (b := 'e') (by rfl) (by decide))

theorem preallocate_inv {py c code} (h : preallocate py c = .ok code) : (∃ j, jsonPlural c.plural = .ok j) ∧
    asVariable c.name = .ok (lower c.name) := by
  unfold preallocate at h
  obtain ⟨j, h1, h⟩ := ok_bind h
  obtain ⟨p, h2, h⟩ := ok_bind h
  obtain ⟨f, h3, h⟩ := ok_bind h
  obtain ⟨rfl, _⟩ := asVariable_eq h3
  exact ⟨⟨j, h1⟩, h3⟩

/-- The code which allocates the instances of a class. -/
def allocCode (py : Py) (c : Class) : Code :=
  let registry : Var := .own [] (lower c.plural) c!"_registry"
  let alloc : Code := .use [v c!"id"] (.call (.member (parsePath py) (c!"placeholder_" ++ lower c.name)) [] [(c!"id", .id)]
    (.use [.var registry, v c!"id"] .done))
  let body : Code := match c.idPattern with
                | some _ => .use [re, v c!"id"] (.branch
                    (.use [errors, v c!"ref", v c!"id"] (.use [errors] (.branch .stop .done .done))) .done alloc)
                | none => alloc
  .use [v c!"value"] (.bind [.fixed c!"registry_value"] (.use [v c!"registry_value"]
    (.branch
      (.use [b c!"isinstance", v c!"registry_value", b c!"dict"]
        (.branch (report [v c!"ref"] [b c!"type", v c!"registry_value"])
          (.use [b c!"isinstance", v c!"registry_value", collections]
            (.branch (.use [collections, v c!"graph"] .done) (.use [b c!"dict", v c!"graph"] .done)
            (.use [v c!"graph"] (.bind [registry] (.use [v c!"registry_value"]
              (.loop [.fixed c!"id"] body .done))))))
          .done))
      .done (.use [errors] (leaveIf .done)))))

theorem preallocate_eq {py c code} (h : preallocate py c = .ok code) : code = allocCode py c := by
  unfold preallocate at h
  obtain ⟨j, h1, h⟩ := ok_bind h
  obtain ⟨p, h2, h⟩ := ok_bind h
  obtain ⟨f, h3, h⟩ := ok_bind h
  obtain ⟨rfl, _⟩ := asVariable_eq h3
  obtain ⟨rfl, _⟩ := asAttribute_eq h2
  cases h
  rfl

theorem alloc_before (py : Py) (c : Class) : Before (allocCode py c) := by
  cases h : c.idPattern <;> constructor <;> simp [allocCode, h, Code.sets, Code.drops, report, leaveIf] <;>
    refine ⟨.registryValue, .registry _, .id⟩

theorem alloc_names (py : Py) (c : Class) : All (fun x => Plain x ∨ x ∈ allocNames py c) (allocCode py c) := by
  cases h : c.idPattern <;> simp [allocCode, h, leaveIf, allocNames, builtins]

theorem alloc_uses (py : Py) (c : Class) : ∀ x ∈ allocNames py c, x ∈ (allocCode py c).names := by
  cases h : c.idPattern <;> simp [allocCode, h, leaveIf, allocNames, Code.names]

theorem alloc_safe {py c} (hn : All (Static ok) (allocCode py c)) : Safe ok (allocCode py c) graphVars graphVars := by
  have key : Safe ok (allocCode py c) graphVars [] := by
    let registry : Var := .own [] (lower c.plural) c!"_registry"
    let D : List Var := registry :: .fixed c!"registry_value" :: graphVars
    let alloc : Code := .use [v c!"id"] (.call (.member (parsePath py) (c!"placeholder_" ++ lower c.name)) []
      [(c!"id", .id)] (.use [.var registry, v c!"id"] .done))
    have hn' : ok (b c!"isinstance") ∧ ok (b c!"dict") ∧ ok (b c!"type") ∧ ok collections ∧
        ok (.member (parsePath py) (c!"placeholder_" ++ lower c.name)) := by
      cases h : c.idPattern <;> simp [allocCode, h] at hn <;> simp [hn]
    obtain ⟨n1, n2, n3, n4, n5⟩ := hn'
    have ha : Safe ok alloc (.fixed c!"id" :: D) [] :=
      .use (by simp) (.call n5 (.use (by simp [D]) (Safe.done.weaken (A := []) (by simp) fun _ h => h)))
    refine .use (by simp [graphVars]) (.bind (distinct_one _)
      (fun y hy => graphVar_stays (by simp [GraphVar.registryValue]) hy) (.use (by simp) (.branch (C := graphVars)
      (.use (by simp [n1, n2]) (.branch (C := graphVars) ((safe_report (A := .fixed c!"registry_value" :: graphVars)
        (by simp [graphVars]) (by simp [graphVars]) (by simp [n3])).weaken (by simp) (by simp +contextual))
        (.use (by simp [n1, n4]) (.branch (C := .fixed c!"registry_value" :: graphVars)
          (.use (by simp [n4, graphVars]) .done) (.use (by simp [n2, graphVars]) .done) (.use (by simp [graphVars])
          (.bind (distinct_one _) ?_ (.use (by simp) (.loop (A := D) (C := []) (distinct_one _) (fun y hy => ⟨?_, ?_⟩) ?_
            (Safe.done.weaken (by simp +contextual [D]) fun _ h => h)))))))
        .done))
      (Safe.done.weaken (by simp +contextual) fun _ h => h)
      (.use (by simp [graphVars]) (.branch .leave .done (Safe.done.weaken (A := []) (by simp) fun _ h => h))))))
    · intro y hy
      rcases List.mem_cons.1 hy with rfl | hy
      · exact registry_stays_rv _
      · exact graphVar_stays (by simp [GraphVar.registry]) hy
    · simp only [D, List.mem_cons] at hy
      rcases hy with rfl | rfl | hy
      · intro x hx e
        obtain rfl := List.mem_singleton.1 hx
        exact absurd e.symm (registry_ne (b := 'd') (by rfl) (by decide))
      · decide
      · exact graphVar_stays (by simp [GraphVar.id]) hy
    · cases h : c.idPattern <;> constructor <;> simp [Code.sets, Code.drops, Stays]
    · cases h : c.idPattern with
      | none => exact ha
      | some p =>
        have nre : ok re := by simp [allocCode, h] at hn; simp [hn]
        exact .use (by simp [nre]) (.branch (C := .fixed c!"id" :: D) (.use (by simp [D, graphVars]) (.use
          (by simp [D, graphVars]) (.branch .stop .done .done))) .done ha)
  have := key.keep (C := graphVars) fun y hy => ⟨hy, (alloc_before py c).kept hy⟩
  simpa using this

/-! ## The instances -/

/-- The code which parses the instances of a class. -/
def instanceCode (c : Class) (refs : List Str) : Code :=
  let target : Var := .own c!"target_" (lower c.name) []
  .use [v c!"value"] (.branch
    (.use [v c!"value"] (.bind [.fixed c!"registry_value"] (.use [v c!"registry_value"]
      (.loop [.fixed c!"id", .fixed c!"instance_value"]
        (.use [v c!"graph", v c!"id"] (.bind [target] (.use [v c!"id", .var target]
          (.use (v c!"instance_value" :: refs.map (fun _ => v c!"graph") ++
            [v c!"ref", b c!"repr", v c!"id", .var target, errors])
          (.call (.glob (c!"_" ++ lower c.name ++ c!"_from"))
            (.value :: refs.map .registry ++ [.ref, .target c.name, .errors]) []
          (.use [errors] (leaveIf .done))))))) .done)))) .done .done)

theorem parseInstances_eq {g c code} (h : parseInstances g c = .ok code) : ∃ refs,
    referencesOf g (.cls c.name) = .ok refs ∧ code = instanceCode c refs := by
  unfold parseInstances at h
  obtain ⟨p, _, h⟩ := ok_bind h
  obtain ⟨f, h3, h⟩ := ok_bind h
  obtain ⟨refs, hr, h⟩ := ok_bind h
  obtain ⟨_, _, h⟩ := ok_bind h
  obtain ⟨rfl, _⟩ := asVariable_eq h3
  cases h
  exact ⟨refs, hr, rfl⟩

theorem instance_before (c : Class) (refs : List Str) : Before (instanceCode c refs) := by
  constructor <;> simp [instanceCode, Code.sets, Code.drops, leaveIf]
  exact ⟨.registryValue, .id, .instanceValue, .target _⟩

theorem instance_names (c : Class) (refs : List Str) :
    All (fun x => Plain x ∨ x = .glob (c!"_" ++ lower c.name ++ c!"_from")) (instanceCode c refs) := by
  simp only [instanceCode, leaveIf, all_use, all_bind, all_branch, all_loop, all_call, all_done, all_leave,
    List.forall_mem_cons, List.forall_mem_append, List.cons_append, List.not_mem_nil, false_implies, implies_true,
    true_and, and_true, plain_v, plain_var, plain_errors, true_or, or_true]
  refine ⟨fun x hx => ?_, .inl (by simp [builtins])⟩
  obtain ⟨_, _, rfl⟩ := List.mem_map.1 hx
  exact .inl (.var _)

theorem instance_uses (c : Class) (refs : List Str) :
    .glob (c!"_" ++ lower c.name ++ c!"_from") ∈ (instanceCode c refs).names := by
  simp [instanceCode, Code.names]

theorem instance_safe {c refs} (hn : All (Static ok) (instanceCode c refs)) :
    Safe ok (instanceCode c refs) graphVars graphVars := by
  have key : Safe ok (instanceCode c refs) graphVars [] := by
    let target : Var := .own c!"target_" (lower c.name) []
    have n1 : ok (b c!"repr") := hn (b c!"repr") (by simp [instanceCode, Code.names])
    have n2 : ok (.glob (c!"_" ++ lower c.name ++ c!"_from")) := hn _ (instance_uses c refs)
    have hs : ∀ y ∈ graphVars, Stays [.fixed c!"registry_value"] y :=
      fun y hy => graphVar_stays (by simp [GraphVar.registryValue]) hy
    have hs' : ∀ y ∈ graphVars, Stays [.fixed c!"id", .fixed c!"instance_value"] y :=
      fun y hy => graphVar_stays (by simp [GraphVar.id, GraphVar.instanceValue]) hy
    have ht : ∀ y ∈ graphVars, Stays [target] y :=
      fun y hy => graphVar_stays (by simp [target, GraphVar.target]) hy
    refine .use (by simp [graphVars]) (.branch (C := []) (.use (by simp [graphVars]) (.bind (distinct_one _) hs (.use (by simp)
      (Safe.weaken (A := graphVars) (B := []) (.loop (C := graphVars) (by decide) (fun y hy => ⟨hs' y hy, ?_⟩) ?_
        (Safe.done.weaken (A := []) (by simp) fun _ h => h)) (by simp +contextual) (by simp)))))
      (Safe.done.weaken (A := []) (by simp) fun _ h => h) (Safe.done.weaken (A := []) (by simp) fun _ h => h))
    · refine ⟨?_, ?_⟩
      · simpa [Code.sets, leaveIf] using ht y hy
      · simp [Code.drops, leaveIf]
    · refine .use (by simp [graphVars]) (.bind (distinct_one _) ?_ (.use (by simp) (.use ?_ (.call n2 (.use (by simp [graphVars])
        (.branch .leave .done (Safe.done.weaken (by simp +contextual) fun _ h => h)))))))
      · intro y hy
        simp only [List.cons_append, List.nil_append, List.mem_cons] at hy
        rcases hy with rfl | rfl | hy
        · simp [Stays, Var.text]
        · simp [Stays, Var.text]
        · exact ht y hy
      · simp only [List.forall_mem_cons, List.forall_mem_append, List.cons_append]
        refine ⟨by simp, ?_, by simp [graphVars], by simpa using n1, by simp, by simp, by simp [graphVars], by simp⟩
        intro x hx
        obtain ⟨_, _, rfl⟩ := List.mem_map.1 hx
        simp [graphVars]
  have := key.keep (C := graphVars) fun y hy => ⟨hy, (instance_before c refs).kept hy⟩
  simpa using this

/-! ## One piece of code after another -/

@[simp] theorem concat_nil : concat [] = .done := rfl
@[simp] theorem concat_cons (c cs) : concat (c :: cs) = c ++ concat cs := rfl

theorem concat_safe {cs : List Code} {A} (h : ∀ c ∈ cs, Safe ok c A A) : Safe ok (concat cs) A A := by
  induction cs with
  | nil => exact .done
  | cons c cs ih => exact (h c (by simp)).append (ih fun d hd => h d (by simp [hd]))

theorem concat_names {cs : List Code} {x} (h : x ∈ (concat cs).names) : ∃ c ∈ cs, x ∈ c.names := by
  induction cs with
  | nil => simp [Code.names] at h
  | cons c cs ih =>
    rcases names_append h with h | h
    · exact ⟨c, by simp, h⟩
    · obtain ⟨d, hd, h⟩ := ih h
      exact ⟨d, by simp [hd], h⟩

theorem concat_calls {cs : List Code} {x} (h : x ∈ (concat cs).calls) : ∃ c ∈ cs, x ∈ c.calls := by
  induction cs with
  | nil => simp [Code.calls] at h
  | cons c cs ih =>
    rcases calls_append h with h | h
    · exact ⟨c, by simp, h⟩
    · obtain ⟨d, hd, h⟩ := ih h
      exact ⟨d, by simp [hd], h⟩

theorem concat_sets {cs : List Code} {x} (h : x ∈ (concat cs).sets) : ∃ c ∈ cs, x ∈ c.sets := by
  induction cs with
  | nil => simp [Code.sets] at h
  | cons c cs ih =>
    rcases sets_append h with h | h
    · exact ⟨c, by simp, h⟩
    · obtain ⟨d, hd, h⟩ := ih h
      exact ⟨d, by simp [hd], h⟩

theorem concat_drops {cs : List Code} {x} (h : x ∈ (concat cs).drops) : ∃ c ∈ cs, x ∈ c.drops := by
  induction cs with
  | nil => simp [Code.drops] at h
  | cons c cs ih =>
    rcases drops_append h with h | h
    · exact ⟨c, by simp, h⟩
    · obtain ⟨d, hd, h⟩ := ih h
      exact ⟨d, by simp [hd], h⟩

theorem concat_open {cs : List Code} (h : ∀ c ∈ cs, c.Open) : (concat cs).Open := by
  induction cs with
  | nil => trivial
  | cons c cs ih => exact open_append (h c (by simp)) (ih fun d hd => h d (by simp [hd]))

theorem concat_uses {cs : List Code} (ho : ∀ c ∈ cs, c.Open) {c x} (hc : c ∈ cs) (hx : x ∈ c.names) :
    x ∈ (concat cs).names := by
  induction cs with
  | nil => simp at hc
  | cons d cs ih =>
    rcases List.mem_cons.1 hc with rfl | hc
    · exact names_left hx
    · exact names_right (ho d (by simp)) (ih (fun e he => ho e (by simp [he])) hc)

theorem mapM_eq_map {α β : Type} {f : α → Except Exc β} {k : α → β} {l : List α} {r : List β} (h : l.mapM f = .ok r)
    (hf : ∀ a ∈ l, ∀ y, f a = .ok y → y = k a) : r = l.map k := by
  induction l generalizing r with
  | nil => cases h; rfl
  | cons a l ih =>
    obtain ⟨y, ys, h1, h2, rfl⟩ := mapM_cons h
    rw [hf a (by simp) y h1, ih h2 fun a' ha' => hf a' (by simp [ha'])]
    rfl

theorem alloc_open (py : Py) (c : Class) : (allocCode py c).Open := by simp [allocCode, Code.Open, leaveIf]

theorem instance_open (c : Class) (refs : List Str) : (instanceCode c refs).Open := by simp [instanceCode, Code.Open]

/-! ## The function -/

/-- The references of the composite. -/
def refsOf (g : Graph) (o : Owner) : List Str := match referencesOf g o with | .ok l => l | .error _ => []

/-- `if errors.full(): return` after the allocation -/
def pause (g : Graph) : Code := if g.classes.isEmpty then .done else .use [errors] (leaveIf .done)

def graphCtx (g : Graph) (py : Py) : Ctx := ⟨g, py, fun c => do
    let _ ← pluralAttribute g c
    pure [v c!"graph"]⟩

def parseTail (props : Code) : Code := props ++ .use [errors] (leaveIf (.use [v c!"graph"] .leave))

def graphBody (g : Graph) (py : Py) (props : Code) : Code :=
  concat (g.classes.map (allocCode py)) ++ (pause g ++
    (concat (g.classes.map fun c => instanceCode c (refsOf g (.cls c.name))) ++ parseTail props))

def graphFunc (g : Graph) (py : Py) (composite : Str) (props : Code) : Func :=
  { name := lower g.name ++ c!"_from"
    params := [valueParam, refParam, errorsParam]
    sig := [typing, b c!"str", .member (parsePath py) c!"Errors", typing, .member py.moduleName composite]
    body := .use [errors] (leaveIf (.use [b c!"isinstance", v c!"value", b c!"dict"]
      (.branch (.use [errors, v c!"ref", b c!"type", v c!"value"] .leave) .done
      (.call (.member (parsePath py) (c!"placeholder_" ++ lower g.name)) [] [] (.bind [.fixed c!"graph"]
      (graphBody g py props)))))) }

theorem parseGraph_inv {g py item} (h : parseGraph g py = .ok item) : ∃ props composite,
    parseProps (graphCtx g py) c!"graph" g.properties 0 = .ok props ∧ asVariable g.name = .ok (lower g.name) ∧
    asComposite g.name = .ok composite ∧
    (∀ c ∈ g.classes, (∃ x, preallocate py c = .ok x) ∧ ∃ y, parseInstances g c = .ok y) ∧
    item = .func (graphFunc g py composite props) := by
  unfold parseGraph at h
  obtain ⟨props, h1, h⟩ := ok_bind h
  obtain ⟨f, h2, h⟩ := ok_bind h
  obtain ⟨composite, h3, h⟩ := ok_bind h
  obtain ⟨alloc, h4, h⟩ := ok_bind h
  obtain ⟨insts, h5, h⟩ := ok_bind h
  cases h
  obtain ⟨rfl, _⟩ := asVariable_eq h2
  refine ⟨props, composite, h1, h2, h3, fun c hc => ?_, ?_⟩
  · obtain ⟨x, _, hx⟩ := mapM_mem' h4 hc
    obtain ⟨y, _, hy⟩ := mapM_mem' h5 hc
    exact ⟨⟨x, hx⟩, y, hy⟩
  · rw [mapM_eq_map h4 fun a _ y hy => preallocate_eq hy,
      mapM_eq_map (k := fun c => instanceCode c (refsOf g (.cls c.name))) h5 fun a _ y hy => by
        obtain ⟨refs, hr, e⟩ := parseInstances_eq hy
        simp only [refsOf, hr, e]]
    rfl

section
variable {g : Graph} {py : Py} {props : Code}

theorem pause_open : (pause g).Open := by unfold pause; split <;> simp [Code.Open, leaveIf]

theorem alloc_block : (concat (g.classes.map (allocCode py))).Open :=
  concat_open (by simp only [List.forall_mem_map]; exact fun c _ => alloc_open py c)

theorem instance_block : (concat (g.classes.map fun c => instanceCode c (refsOf g (.cls c.name)))).Open :=
  concat_open (by simp only [List.forall_mem_map]; exact fun c _ => instance_open c _)

/-- The names in the body. -/
theorem graphBody_names (hf : props.Open) {x} : x ∈ (graphBody g py props).names ↔
    (∃ c ∈ g.classes, x ∈ (allocCode py c).names ∨ x ∈ (instanceCode c (refsOf g (.cls c.name))).names) ∨
    (x ∈ (pause g).names) ∨ x ∈ props.names ∨ x ∈ [errors, v c!"graph"] := by
  unfold graphBody parseTail
  constructor
  · intro h
    rcases names_append h with h | h
    · obtain ⟨d, hd, h⟩ := concat_names h
      obtain ⟨c, hc, rfl⟩ := List.mem_map.1 hd
      exact .inl ⟨c, hc, .inl h⟩
    rcases names_append h with h | h
    · exact .inr (.inl h)
    rcases names_append h with h | h
    · obtain ⟨d, hd, h⟩ := concat_names h
      obtain ⟨c, hc, rfl⟩ := List.mem_map.1 hd
      exact .inl ⟨c, hc, .inr h⟩
    rcases (then_names hf).1 h with h | h | h
    · exact .inr (.inr (.inl h))
    · simp [h]
    · simp [Code.names] at h
      simp [h]
  · rintro (⟨c, hc, h | h⟩ | h | h)
    · exact names_left (concat_uses (by simp only [List.forall_mem_map]; exact fun c _ => alloc_open py c)
        (List.mem_map.2 ⟨c, hc, rfl⟩) h)
    · exact names_right alloc_block (names_right pause_open (names_left (concat_uses
        (by simp only [List.forall_mem_map]; exact fun c _ => instance_open c _) (List.mem_map.2 ⟨c, hc, rfl⟩) h)))
    · exact names_right alloc_block (names_left h)
    · refine names_right alloc_block (names_right pause_open (names_right instance_block ((then_names hf).2 ?_)))
      rcases h with h | h
      · exact .inl h
      · simp at h
        rcases h with h | h
        · exact .inr (.inl h)
        · simp [h, Code.names]

theorem graphBody_safe (h : parseProps (graphCtx g py) c!"graph" g.properties 0 = .ok props)
    (hn : All (Static ok) (graphBody g py props)) : Safe ok (graphBody g py props) graphVars [] := by
  have hf := props_fine (ok := ok) h
  have hn' : ∀ {x}, _ → Static ok x := fun hx => hn _ ((graphBody_names hf.isOpen).2 hx)
  refine .append (B := graphVars) (concat_safe ?_) (.append (B := graphVars) ?_ (.append (B := graphVars) (concat_safe ?_)
    (.append (B := graphVars) (hf.safe _ ?_ ?_) ?_)))
  · simp only [List.forall_mem_map]
    exact fun c hc => alloc_safe fun x hx => hn' (.inl ⟨c, hc, .inl hx⟩)
  · unfold pause
    split
    · exact .done
    · exact .use (by simp [graphVars]) (.branch .leave .done .done)
  · simp only [List.forall_mem_map]
    exact fun c hc => instance_safe fun x hx => hn' (.inl ⟨c, hc, .inr hx⟩)
  · refine ⟨?_, by simp [graphVars], by simp [graphVars], by simp [graphVars], by simp [graphVars], ?_⟩
    · intro y hy
      simp only [graphVars, List.mem_cons, List.not_mem_nil, or_false] at hy
      rcases hy with rfl | rfl | rfl | rfl <;> exact fixed_old 0 (by decide) (by decide)
    · intro c l hc x hx
      obtain ⟨_, _, hc⟩ := ok_bind hc
      cases hc
      obtain rfl := List.mem_singleton.1 hx
      simp [graphVars]
  · exact fun x hx => hn' (.inr (.inr (.inl hx)))
  · exact .use (by simp [graphVars]) (.branch .leave .done (.use (by simp [graphVars]) .leave))

theorem graphFunc_safe {composite} (h : parseProps (graphCtx g py) c!"graph" g.properties 0 = .ok props) :
    (graphFunc g py composite props).Safe ok := by
  intro hn
  simp only [graphFunc, leaveIf, all_use, all_bind, all_branch, all_call, all_done, all_leave, List.forall_mem_cons] at hn
  obtain ⟨_, _, _, ⟨n1, _, n2, _⟩, ⟨⟨_, _, n3, _⟩, _⟩, _, n4, n5⟩ := hn
  refine .use (by simp [graphFunc, valueParam, refParam, errorsParam]) (.branch .leave .done (.use ?_ (.branch (.use ?_ .leave)
    .done (.call (by simpa using n4) (.bind (distinct_one _) ?_ ((graphBody_safe h n5).weaken ?_ fun _ h => h))))))
  · simpa [graphFunc, valueParam, refParam, errorsParam] using ⟨n1, n2⟩
  · simpa [graphFunc, valueParam, refParam, errorsParam] using n3
  · simp [graphFunc, valueParam, refParam, errorsParam, Stays, Var.text]
  · simp [graphVars, graphFunc, valueParam, refParam, errorsParam]

end

end Mapry.PyCode
