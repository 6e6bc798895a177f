import Verif.PyToValue

/-!
# The functions of the module `tojsonable` bind their variables before they use them
-/

namespace Mapry.PyCode

set_option linter.unusedSimpArgs false

open Mapry.TypeGraph Mapry.Naming Mapry.ParseSchema
open Mapry.GoCode (referencesOf hasPattern mapM_mem mapM_mem' mapM_cons)

variable {ok : Name → Prop}

/-! ## Properties -/

theorem serializeProperty_inv {py p n c m} (h : serializeProperty py p n = .ok (c, m)) : ∃ d,
    Serializes py p.ty ⟨[v c!"target"], []⟩ [v c!"instance"] n d ∧
    c = if p.optional then .use [v c!"instance"] (.branch d .done .done) else d := by
  unfold serializeProperty at h
  obtain ⟨⟨d, m'⟩, hd, h⟩ := ok_bind h
  obtain ⟨_, _, h⟩ := ok_bind h
  cases h
  exact ⟨d, serializes_of_ok _ _ _ _ _ _ _ hd, rfl⟩

/-- The names of properties. -/
def ToPropUses (ps : List Property) (x : Name) : Prop := Plain x ∨ ∃ p ∈ ps, ∃ u ∈ parts p.ty, x ∈ toNames u

/-- What the code of the properties does. -/
structure ToPropsFine (ok : Name → Prop) (ps : List Property) (c : Code) : Prop where
  safe : ∀ A, (∀ y ∈ A, Tame y) → .fixed c!"target" ∈ A → .fixed c!"instance" ∈ A → All (Static ok) c → Safe ok c A A
  temps : Temps c
  names : All (ToPropUses ps) c
  uses : ∀ p ∈ ps, ∀ u ∈ parts p.ty, ∀ x ∈ toNames u, x ∈ c.names
  calls : ∀ a ∈ c.calls, ∃ p ∈ ps, ∃ u ∈ parts p.ty, ToCall u a
  isOpen : c.Open

theorem toProperty_fine {py p n c m} (h : serializeProperty py p n = .ok (c, m)) : ToPropsFine ok [p] c := by
  obtain ⟨d, hd, rfl⟩ := serializeProperty_inv h
  have ht := serializes_temps hd (by simp)
  have hs : ∀ A, (∀ y ∈ A, Tame y) → .fixed c!"target" ∈ A → .fixed c!"instance" ∈ A → All (Static ok) d →
      Safe ok d A A := by
    intro A hA h1 h2 hn
    simpa using serializes_safe hd A hA (by simp) (by simpa using h2) (by simpa using h1) hn
  have hnames : All (ToPropUses [p]) d := fun x hx =>
    (serializes_names hd (by simp) (by simp) x hx).imp id fun ⟨u, hu, hx⟩ => ⟨p, by simp, u, hu, hx⟩
  have ho : d.Open := serializes_open hd
  have hv : ToPropUses [p] (v c!"instance") := .inl (.var _)
  cases hp : p.optional with
  | false =>
    simp only [Bool.false_eq_true, ↓reduceIte]
    refine ⟨hs, ht, hnames, ?_, ?_, ho⟩
    · simp only [List.mem_singleton, forall_eq]
      exact fun u hu x hx => serializes_uses hd hu hx
    · intro a ha
      obtain ⟨u, hu, h⟩ := serializes_calls hd ha
      exact ⟨p, by simp, u, hu, h⟩
  | true =>
    simp only [↓reduceIte]
    refine ⟨?_, ?_, ?_, ?_, ?_, ?_⟩
    · intro A hA h1 h2 hn
      simp only [all_use, all_branch] at hn
      exact .use (by simpa using h2) (.branch (hs A hA h1 h2 hn.2.1) .done .done)
    · exact ⟨by simpa [Code.sets] using ht.sets, by simpa [Code.drops] using ht.drops⟩
    · simp [hnames, hv]
    · simp only [List.mem_singleton, forall_eq]
      intro u hu x hx
      simp [Code.names, serializes_uses hd hu hx]
    · intro a ha
      simp only [Code.calls, List.append_nil] at ha
      obtain ⟨u, hu, h⟩ := serializes_calls hd ha
      exact ⟨p, by simp, u, hu, h⟩
    · simp [Code.Open]

theorem toProps_fine {py ps n c} (h : serializeProps py ps n = .ok c) : ToPropsFine ok ps c := by
  induction ps generalizing n c with
  | nil =>
    cases h
    exact ⟨fun A _ _ _ _ => .done, ⟨by simp [Code.sets], by simp [Code.drops]⟩, by simp, by simp, by simp [Code.calls],
      trivial⟩
  | cons p ps ih =>
    unfold serializeProps at h
    obtain ⟨⟨c1, m⟩, h1, h⟩ := ok_bind h
    obtain ⟨rest, h2, h⟩ := ok_bind h
    cases h
    have hp := toProperty_fine (ok := ok) h1
    have hr := ih h2
    refine ⟨fun A hA e1 e2 hn => ?_, hp.temps.append hr.temps, ?_, ?_, ?_, open_append hp.isOpen hr.isOpen⟩
    · exact (hp.safe A hA e1 e2 fun x hx => hn x (names_left hx)).append
        (hr.safe A hA e1 e2 fun x hx => hn x (names_right hp.isOpen hx))
    · refine all_append (fun x hx => ?_) (fun x hx => ?_)
      · exact (hp.names x hx).imp id fun ⟨q, hq, u, hu, hx⟩ => ⟨q, by simp_all, u, hu, hx⟩
      · exact (hr.names x hx).imp id fun ⟨q, hq, u, hu, hx⟩ => ⟨q, by simp_all, u, hu, hx⟩
    · intro q hq u hu x hx
      rcases List.mem_cons.1 hq with rfl | hq
      · exact names_left (hp.uses q (by simp) u hu x hx)
      · exact names_right hp.isOpen (hr.uses q hq u hu x hx)
    · intro a ha
      rcases calls_append ha with ha | ha
      · obtain ⟨q, hq, u, hu, h⟩ := hp.calls a ha
        exact ⟨q, by simp_all, u, hu, h⟩
      · obtain ⟨q, hq, u, hu, h⟩ := hr.calls a ha
        exact ⟨q, by simp_all, u, hu, h⟩

/-! ## The functions -/

/-- The variables of a serializer after `target` is bound. -/
def serVars : List Var := [.fixed c!"target", .fixed c!"instance", .fixed c!"ordered"]

theorem serVars_tame : ∀ y ∈ serVars, Tame y := by
  simp only [serVars, List.forall_mem_cons]
  exact ⟨tame_fixed (by decide), tame_fixed (by decide), tame_fixed (by decide), by simp⟩

/-- The function `serialize_x`. -/
def serFunc (py : Py) (f composite name : Str) (body : Code) : Func :=
  { name := c!"serialize_" ++ f
    params := [{ var := .fixed c!"instance", kind := .target name }, { var := .fixed c!"ordered", optional := true }]
    sig := [.member py.moduleName composite, b c!"bool", typing, b c!"str", typing]
    body := newMapping (.fixed c!"target") (body ++ .use [v c!"target"] .leave) }

theorem serializer_eq (py f composite name body) : serializer py f composite name body = .func (serFunc py f composite name body) :=
  rfl

theorem serFunc_safe {py f composite name body} (hs : All (Static ok) body → Safe ok body serVars serVars) :
    (serFunc py f composite name body).Safe ok := by
  intro hn
  have n1 : ok collections := hn collections (by simp [serFunc, newMapping, Code.names])
  have n2 : ok (b c!"dict") := hn (b c!"dict") (by simp [serFunc, newMapping, Code.names])
  have hb : All (Static ok) body := fun x hx => hn x (by
    simp only [serFunc, newMapping, Code.names, List.mem_append]
    exact .inr (.inr (names_left hx)))
  refine .use (by simp [serFunc]) (.branch (C := serVars) (.use (by simpa using n1) (.bind (distinct_one _) ?_
    (Safe.done.weaken ?_ fun _ h => h))) (.use (by simpa using n2) (.bind (distinct_one _) ?_
    (Safe.done.weaken ?_ fun _ h => h))) (.append (hs hb) (.use (by simp [serVars]) .leave)))
  · simp [serFunc, Stays, Var.text]
  · simp [serFunc, serVars]
  · simp [serFunc, Stays, Var.text]
  · simp [serFunc, serVars]

theorem serializeComposite_inv {py name ps item} (h : serializeComposite py name ps = .ok item) : ∃ props composite,
    serializeProps py ps 0 = .ok props ∧ asComposite name = .ok composite ∧ asVariable name = .ok (lower name) ∧
    item = .func (serFunc py (lower name) composite name props) := by
  unfold serializeComposite at h
  obtain ⟨props, h1, h⟩ := ok_bind h
  obtain ⟨f, h2, h⟩ := ok_bind h
  obtain ⟨composite, h3, h⟩ := ok_bind h
  cases h
  obtain ⟨rfl, _⟩ := asVariable_eq h2
  exact ⟨props, composite, h1, h3, h2, rfl⟩

theorem serializeComposite_safe {py name ps props composite} (h : serializeProps py ps 0 = .ok props) :
    (serFunc py (lower name) composite name props).Safe ok :=
  serFunc_safe ((toProps_fine h).safe serVars serVars_tame (by simp [serVars]) (by simp [serVars]))

/-! ## Registries -/

/-- The code which serializes the registry of a class. -/
def registryCode (c : Class) : Code :=
  let target : Var := .own c!"target_" (lower c.plural) []
  let inst : Var := .own [] (lower c.name) c!"_instance"
  .use [b c!"len", v c!"instance"] (.branch
    (newMapping target (.use [v c!"instance"] (.loop [.fixed c!"id", inst]
      (.use [v c!"id", .var inst] (.branch (.use [b c!"ValueError", v c!"id", .var inst] .leave) .done
        (.use [.var inst, v c!"ordered"]
        (.call (.glob (c!"serialize_" ++ lower c.name)) [] [(c!"instance", .target c.name), (c!"ordered", .other)]
        (.use [.var target, v c!"id"] .done)))))
      (.use [v c!"target", .var target] .done)))) .done .done)

theorem serializeRegistry_inv {c code} (h : serializeRegistry c = .ok code) : code = registryCode c ∧
    (∃ j, jsonPlural c.plural = .ok j) ∧ asVariable c.plural = .ok (lower c.plural) := by
  unfold serializeRegistry at h
  obtain ⟨_, _, h⟩ := ok_bind h
  obtain ⟨p, h1, h⟩ := ok_bind h
  obtain ⟨f, h2, h⟩ := ok_bind h
  obtain ⟨j, h3, h⟩ := ok_bind h
  cases h
  obtain ⟨rfl, _⟩ := asVariable_eq h1
  obtain ⟨rfl, _⟩ := asVariable_eq h2
  exact ⟨rfl, ⟨j, h3⟩, h1⟩

/-- The variables of the registries. -/
inductive RegistryVar (c : Class) : Var → Prop where
  | target : RegistryVar c (.own c!"target_" (lower c.plural) [])
  | inst : RegistryVar c (.own [] (lower c.name) c!"_instance")
  | id : RegistryVar c (.fixed c!"id")

theorem registryCode_sets (c : Class) : (∀ x ∈ (registryCode c).sets, RegistryVar c x) ∧ (registryCode c).drops = [] := by
  constructor <;> simp [registryCode, newMapping, Code.sets, Code.drops, RegistryVar.target, RegistryVar.inst, RegistryVar.id]

theorem instance_ne {x z : Str} (hz : '_' ∉ z) : x ++ c!"_instance" ≠ z := by
  rintro rfl
  simp at hz

theorem RegistryVar.ne {c x y} (h : RegistryVar c x) (hy : y ∈ serVars) : x.text ≠ y.text := by
  simp only [serVars, List.mem_cons, List.not_mem_nil, or_false] at hy
  cases h with
  | target => rcases hy with rfl | rfl | rfl <;> simp [Var.text]
  | inst => rcases hy with rfl | rfl | rfl <;> exact instance_ne (by decide)
  | id => rcases hy with rfl | rfl | rfl <;> decide

theorem registryCode_names (c : Class) : All (fun x => Plain x ∨ x = collections ∨ x = .glob (c!"serialize_" ++ lower c.name))
    (registryCode c) := by
  simp [registryCode, newMapping, builtins]

theorem registryCode_uses (c : Class) : .glob (c!"serialize_" ++ lower c.name) ∈ (registryCode c).names := by
  simp [registryCode, newMapping, Code.names]

theorem registryCode_calls (c : Class) : (registryCode c).calls =
    [⟨.glob (c!"serialize_" ++ lower c.name), [], [(c!"instance", .target c.name), (c!"ordered", .other)]⟩] := by
  simp [registryCode, newMapping, Code.calls]

theorem registryCode_open (c : Class) : (registryCode c).Open := by simp [registryCode, Code.Open]

/-- Safe unless the two variables of the class have the same text. -/
theorem registryCode_safe {c} (hc : c!"target_" ++ lower c.plural ≠ lower c.name ++ c!"_instance")
    (hn : All (Static ok) (registryCode c)) : Safe ok (registryCode c) serVars serVars := by
  have key : Safe ok (registryCode c) serVars [] := by
    let target : Var := .own c!"target_" (lower c.plural) []
    let inst : Var := .own [] (lower c.name) c!"_instance"
    have n1 : ok (b c!"len") := hn (b c!"len") (by simp [registryCode, Code.names])
    have n2 : ok (b c!"dict") := hn (b c!"dict") (by simp [registryCode, newMapping, Code.names])
    have n3 : ok collections := hn collections (by simp [registryCode, newMapping, Code.names])
    have n4 : ok (b c!"ValueError") := hn (b c!"ValueError") (by simp [registryCode, newMapping, Code.names])
    have n5 : ok (.glob (c!"serialize_" ++ lower c.name)) := hn _ (registryCode_uses c)
    have st : ∀ y ∈ serVars, Stays [target] y := fun y hy x hx e => by
      obtain rfl := List.mem_singleton.1 hx
      exact absurd e (RegistryVar.target.ne hy)
    have si : ∀ y ∈ serVars, Stays [.fixed c!"id", inst] y := fun y hy x hx e => by
      simp only [List.mem_cons, List.not_mem_nil, or_false] at hx
      rcases hx with rfl | rfl
      · exact absurd e ((RegistryVar.id (c := c)).ne hy)
      · exact absurd e (RegistryVar.inst.ne hy)
    have hd : Distinct [.fixed c!"id", inst] := by
      have h1 : inst.text ≠ c!"id" := instance_ne (by decide)
      intro x hx y hy e
      simp only [List.mem_cons, List.not_mem_nil, or_false] at hx hy
      rcases hx with rfl | rfl <;> rcases hy with rfl | rfl
      · rfl
      · exact absurd e h1
      · exact absurd e.symm h1
      · rfl
    have sti : Stays [.fixed c!"id", inst] target := by
      intro x hx e
      simp only [List.mem_cons, List.not_mem_nil, or_false] at hx
      rcases hx with rfl | rfl
      · simp [target, Var.text] at e
      · exact absurd (by simpa [target, inst, Var.text] using e.symm) hc
    have mk : Safe ok (.bind [target] .done) serVars (target :: serVars) := .bind (distinct_one _) st .done
    refine .use (by simp [n1, serVars]) (.branch (C := []) (.use (by simp [serVars]) (.branch (C := target :: serVars)
      (.use (by simpa using n3) mk) (.use (by simpa using n2) mk) (.use (by simp [serVars]) (.loop (C := []) hd ?_ ?_
        (.use (by simp [serVars, target]) (Safe.done.weaken (A := []) (by simp) fun _ h => h))))))
      (Safe.done.weaken (A := []) (by simp) fun _ h => h) (Safe.done.weaken (A := []) (by simp) fun _ h => h))
    · intro y hy
      refine ⟨?_, by simp [Code.sets, Stays], by simp [Code.drops]⟩
      rcases List.mem_cons.1 hy with rfl | hy
      · exact sti
      · exact si y hy
    · refine .use (by simp [inst]) (.branch (C := [.fixed c!"id", inst] ++ target :: serVars) (.use (by simp [n4, inst]) .leave)
        .done (.use (by simp [inst, serVars]) (.call n5 (.use (by simp [target])
          (Safe.done.weaken (A := []) (by simp) fun _ h => h)))))
  have := key.keep (C := serVars) fun y hy =>
    ⟨hy, fun x hx e => absurd e (((registryCode_sets c).1 x hx).ne hy), by simp [(registryCode_sets c).2]⟩
  simpa using this

/-! ## The function of the graph -/

theorem serializeGraph_inv {g py item} (h : serializeGraph g py = .ok item) : ∃ props composite,
    serializeProps py g.properties 0 = .ok props ∧ asComposite g.name = .ok composite ∧
    asVariable g.name = .ok (lower g.name) ∧ (∀ c ∈ g.classes, ∃ x, serializeRegistry c = .ok x) ∧
    item = .func (serFunc py (lower g.name) composite g.name (props ++ concat (g.classes.map registryCode))) := by
  unfold serializeGraph at h
  obtain ⟨props, h1, h⟩ := ok_bind h
  obtain ⟨f, h2, h⟩ := ok_bind h
  obtain ⟨composite, h3, h⟩ := ok_bind h
  obtain ⟨registries, h4, h⟩ := ok_bind h
  cases h
  obtain ⟨rfl, _⟩ := asVariable_eq h2
  refine ⟨props, composite, h1, h3, h2, fun c hc => ?_, ?_⟩
  · obtain ⟨x, _, hx⟩ := mapM_mem' h4 hc
    exact ⟨x, hx⟩
  · rw [mapM_eq_map h4 fun a _ y hy => (serializeRegistry_inv hy).1, serializer_eq]

theorem registries_names {cs : List Class} {x} : x ∈ (concat (cs.map registryCode)).names ↔
    ∃ c ∈ cs, x ∈ (registryCode c).names := by
  constructor
  · intro h
    obtain ⟨d, hd, h⟩ := concat_names h
    obtain ⟨c, hc, rfl⟩ := List.mem_map.1 hd
    exact ⟨c, hc, h⟩
  · rintro ⟨c, hc, h⟩
    exact concat_uses (by simp only [List.forall_mem_map]; exact fun c _ => registryCode_open c)
      (List.mem_map.2 ⟨c, hc, rfl⟩) h

theorem serializeGraph_safe {g : Graph} {py composite props} (h : serializeProps py g.properties 0 = .ok props)
    (hc : ∀ c ∈ g.classes, c!"target_" ++ lower c.plural ≠ lower c.name ++ c!"_instance") :
    (serFunc py (lower g.name) composite g.name (props ++ concat (g.classes.map registryCode))).Safe ok := by
  have hf := toProps_fine (ok := ok) h
  refine serFunc_safe fun hn => (hf.safe serVars serVars_tame (by simp [serVars]) (by simp [serVars])
    fun x hx => hn x (names_left hx)).append (concat_safe ?_)
  simp only [List.forall_mem_map]
  exact fun c hm => registryCode_safe (hc c hm) fun x hx => hn x (names_right hf.isOpen (registries_names.2 ⟨c, hm, hx⟩))

end Mapry.PyCode
