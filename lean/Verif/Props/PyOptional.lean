import Verif.Props.PySer

/-! # C43: optional properties in the generated Python code -/

namespace Mapry.Props

open Mapry.PyRuntime Mapry.PyRuntime.Spec Mapry.LangValidate

/-- The function of a class or an embeddable structure records no error iff the JSON value is an object
which describes the attributes. -/
theorem composite_accepts (E : Env)
    (hd : ∀ e ∈ E.graph.embeds, (e.properties.map fun p => Mapry.lower p.name).Nodup) (n : Nat)
    (ps : List Property) (hps : (ps.map fun p => Mapry.lower p.name).Nodup) (v : Json) (ref : Str)
    (cap : Int) (hcap : 0 < cap) (A : Attrs) :
    parseComposite (parseTy E (parseEmbed E n)) ps v ref (Errors.new cap) = .ok (A, Errors.new cap) ↔
      ∃ o kvs, v = .obj o kvs ∧
        ReadsProps (Reads true E.lib E.settings E.graph (fun c id => id ∈ E.ids c) n) kvs ps A := by
  rw [← composite_ok (reads_ok E _ (fun _ _ => Iff.rfl) hd n) ps v ref A hps]
  have hu : Usable (Errors.new cap) := ⟨hcap, Int.le_of_lt hcap⟩
  have hf : (Errors.new cap).full = false := decide_eq_false (Int.ne_of_lt hcap)
  have sim := sim_composite (sim_ty E (sim_embed E n)) ps v ref (Errors.new cap) hu hf
  constructor
  · intro h
    cases ht : tComposite (tTy E (tEmbed E n)) ps v ref with
    | error x =>
      obtain ⟨x, log⟩ := x
      obtain ⟨h1, h2⟩ := sim.2 x log ht
      cases hfull : (addAll (Errors.new cap) log).full with
      | false => rw [h1 hfull] at h; simp at h
      | true =>
        obtain ⟨b, hb, _⟩ := h2 hfull
        rw [h] at hb
        simp only [Except.ok.injEq, Prod.mk.injEq] at hb
        rw [← hb.2, hf] at hfull
        simp at hfull
    | ok r =>
      obtain ⟨a, log⟩ := r
      obtain ⟨b, hb, _, hn⟩ := sim.1 a log ht
      rw [h] at hb
      simp only [Except.ok.injEq, Prod.mk.injEq] at hb
      rw [← hb.2] at hn
      have hA : A = a := by rw [hb.1]; exact hn hf
      have hempty := addAll_empty_iff hu rfl log
      rw [← hb.2] at hempty
      have hl : log = [] := hempty.1 rfl
      rw [hA, hl]
  · intro ht
    obtain ⟨b, hb, _, hn⟩ := sim.1 _ _ ht
    rw [addAll_nil] at hb hn
    rw [hb, hn hf]
    rfl

/-- The attribute of a property is among the attributes. -/
theorem readsProps_attr {reads : Ty → Json → Val → Prop} {kvs : List (Str × Json)} {ps : List Property}
    {attrs : Attrs} (hps : (ps.map fun p => Mapry.lower p.name).Nodup) (h : ReadsProps reads kvs ps attrs)
    {p : Property} (hp : p ∈ ps) :
    ∃ x, attrs.lookup (Mapry.lower p.name) = some x ∧ ReadsProperty reads kvs p x := by
  induction h with
  | nil => simp at hp
  | @cons q a ps attrs h1 h2 ih =>
    obtain ⟨k, x⟩ := a
    obtain ⟨hk, hx⟩ := h1
    simp only at hk hx
    subst hk
    rw [List.map_cons, List.nodup_cons] at hps
    rcases List.mem_cons.1 hp with rfl | hp
    · exact ⟨x, by simp [List.lookup], hx⟩
    · obtain ⟨y, hy, hr⟩ := ih hps.2 hp
      refine ⟨y, ?_, hr⟩
      have : (Mapry.lower p.name == Mapry.lower q.name) = false :=
        beq_false_of_ne fun e => hps.1 (List.mem_map.2 ⟨p, hp, e⟩)
      rw [List.lookup, this]
      exact hy

/-- The JSON object without a key -/
def leaveOut (key : Str) (kvs : List (Str × Json)) : List (Str × Json) := kvs.filter fun kv => kv.1 ≠ key

theorem lookup_leaveOut (key k : Str) (kvs : List (Str × Json)) :
    (leaveOut key kvs).lookup k = if k = key then none else kvs.lookup k := by
  induction kvs with
  | nil => simp [leaveOut]
  | cons kv kvs ih =>
    obtain ⟨a, x⟩ := kv
    unfold leaveOut at ih ⊢
    rw [List.filter_cons]
    by_cases ha : a = key
    · subst ha
      simp only [ne_eq, not_true_eq_false, decide_false, Bool.false_eq_true, if_false]
      rw [ih]
      by_cases hk : k = a
      · simp [hk]
      · rw [if_neg hk, if_neg hk, List.lookup, beq_false_of_ne hk]
    · simp only [ne_eq, ha, not_false_eq_true, decide_true, if_true]
      by_cases hk : k = a
      · subst hk; simp [List.lookup, ha]
      · rw [List.lookup, beq_false_of_ne hk]
        simp only []
        rw [ih, List.lookup, beq_false_of_ne hk]

/-- The same attributes, but the one of the property is unset. -/
def unset (p : Property) (attrs : Attrs) : Attrs :=
  attrs.map fun a => if a.1 = Mapry.lower p.name then (a.1, .none) else a

theorem present_leaveOut (key k : Str) (kvs : List (Str × Json)) :
    present (leaveOut key kvs) k = if k = key then none else present kvs k := by
  unfold present
  rw [lookup_leaveOut]
  by_cases h : k = key <;> simp [h]

theorem readsProps_leaveOut {reads reads' : Ty → Json → Val → Prop} {kvs : List (Str × Json)}
    {ps : List Property} {attrs : Attrs} {p : Property} (hopt : p.optional = true)
    (himp : ∀ t v x, reads t v x → reads' t v x)
    (hps : ∀ q ∈ ps, q.json = p.json → q = p)
    (hattr : ∀ q ∈ ps, Mapry.lower q.name = Mapry.lower p.name → q = p)
    (h : ReadsProps reads kvs ps attrs) :
    ReadsProps reads' (leaveOut p.json kvs) ps (unset p attrs) := by
  induction h with
  | nil => exact .nil
  | @cons q a ps attrs h1 h2 ih =>
    refine .cons ?_ (ih (fun q hq => hps q (List.mem_cons_of_mem _ hq))
      (fun q hq => hattr q (List.mem_cons_of_mem _ hq)))
    obtain ⟨k, x⟩ := a
    obtain ⟨hk, hx⟩ := h1
    simp only at hk hx
    subst hk
    unfold ReadsProperty at hx ⊢
    rw [present_leaveOut]
    by_cases hq : q.json = p.json
    · have := hps q (List.mem_cons_self ..) hq
      subst this
      simp [hopt]
    · rw [if_neg hq]
      have hne : Mapry.lower q.name ≠ Mapry.lower p.name := fun e =>
        hq (by rw [hattr q (List.mem_cons_self ..) e])
      simp only [hne, if_false]
      refine ⟨trivial, ?_⟩
      cases hpr : present kvs q.json with
      | none => rw [hpr] at hx; exact hx
      | some v => rw [hpr] at hx; exact himp _ _ _ hx

theorem inj_of_nodup {α β : Type} {f : α → β} {l : List α} (h : (l.map f).Nodup) {a b : α} (ha : a ∈ l)
    (hb : b ∈ l) (he : f a = f b) : a = b := by
  induction l with
  | nil => simp at ha
  | cons x l ih =>
    rw [List.map_cons, List.nodup_cons] at h
    obtain ⟨hx, hl⟩ := h
    rcases List.mem_cons.1 ha with rfl | ha' <;> rcases List.mem_cons.1 hb with rfl | hb'
    · rfl
    · exact absurd (List.mem_map.2 ⟨b, hb', he.symm⟩) hx
    · exact absurd (List.mem_map.2 ⟨a, ha', he⟩) hx
    · exact ih hl ha' hb'

section

variable (L : Lib) (S : Settings) (g : Graph) (n : Nat) (ref : Str) (cap : Int)

/-! ## Composites -/

/-- **C43 (partial, composites).** The JSON keys are supposed to be distinct (C39). A class instance or an embeddable structure which parses without errors still
does if an optional property is left out; its attribute is unset and the others are the same. -/
theorem C43_leave_out_composite_partial (ids : Str → List Str) (hd : Distinct g) (hcap : 0 < cap)
    (ps : List Property) (hc : (∃ c ∈ g.classes, ps = c.properties) ∨ ∃ e ∈ g.embeds, ps = e.properties)
    (hj : (ps.map (·.json)).Nodup) (p : Property) (hp : p ∈ ps) (hopt : p.optional = true)
    (o : Bool) (kvs : List (Str × Json)) (attrs : Attrs)
    (h : parseComposite (parseTy ⟨L, S, g, ids⟩ (parseEmbed ⟨L, S, g, ids⟩ n)) ps (.obj o kvs) ref
      (Errors.new cap) = .ok (attrs, Errors.new cap)) :
    parseComposite (parseTy ⟨L, S, g, ids⟩ (parseEmbed ⟨L, S, g, ids⟩ n)) ps
      (.obj o (leaveOut p.json kvs)) ref (Errors.new cap) = .ok (unset p attrs, Errors.new cap) ∧
    (unset p attrs).lookup (Mapry.lower p.name) = some .none := by
  have hps : (ps.map fun p => Mapry.lower p.name).Nodup := by
    rcases hc with ⟨c, hc, rfl⟩ | ⟨e, he, rfl⟩
    · exact hd.cls c hc
    · exact hd.embed e he
  rw [composite_accepts _ hd.embed n ps hps _ _ _ hcap] at h
  obtain ⟨_, _, he, hr⟩ := h
  cases he
  have hr' := readsProps_leaveOut hopt (fun _ _ _ h => h)
    (fun q hq e => inj_of_nodup hj hq hp e) (fun q hq e => inj_of_nodup hps hq hp e) hr
  refine ⟨(composite_accepts _ hd.embed n ps hps _ _ _ hcap _).2 ⟨_, _, rfl, hr'⟩, ?_⟩
  obtain ⟨x, hx, hrx⟩ := readsProps_attr hps hr' hp
  rw [hx]
  unfold ReadsProperty at hrx
  rw [present_leaveOut, if_pos rfl] at hrx
  rw [hrx.2]

/-- A property of a composite which is present and not null is validated: the attribute is what the
value describes. If it is missing, it must be optional and the attribute is unset. -/
theorem C43_validated_composite (ids : Str → List Str) (hd : Distinct g) (hcap : 0 < cap)
    (ps : List Property) (hc : (∃ c ∈ g.classes, ps = c.properties) ∨ ∃ e ∈ g.embeds, ps = e.properties)
    (p : Property) (hp : p ∈ ps) (o : Bool) (kvs : List (Str × Json)) (attrs : Attrs)
    (h : parseComposite (parseTy ⟨L, S, g, ids⟩ (parseEmbed ⟨L, S, g, ids⟩ n)) ps (.obj o kvs) ref
      (Errors.new cap) = .ok (attrs, Errors.new cap)) :
    ∃ x, attrs.lookup (Mapry.lower p.name) = some x ∧
      ((kvs.lookup p.json = none ∨ kvs.lookup p.json = some .null) → p.optional = true ∧ x = .none) ∧
      (∀ v, kvs.lookup p.json = some v → v ≠ .null →
        Reads true L S g (fun c id => id ∈ ids c) n p.ty v x) := by
  have hps : (ps.map fun p => Mapry.lower p.name).Nodup := by
    rcases hc with ⟨c, hc, rfl⟩ | ⟨e, he, rfl⟩
    · exact hd.cls c hc
    · exact hd.embed e he
  rw [composite_accepts _ hd.embed n ps hps _ _ _ hcap] at h
  obtain ⟨_, _, he, hr⟩ := h
  cases he
  obtain ⟨x, hx, hrx⟩ := readsProps_attr hps hr hp
  refine ⟨x, hx, ?_, ?_⟩
  · intro hn
    have : present kvs p.json = none := by
      unfold present
      rcases hn with hn | hn <;> rw [hn]
    unfold ReadsProperty at hrx
    rw [this] at hrx
    exact hrx
  · intro v hv hne
    have : present kvs p.json = some v := by
      unfold present
      rw [hv]
      cases v <;> first | rfl | exact absurd rfl hne
    unfold ReadsProperty at hrx
    rw [this] at hrx
    exact hrx

/-- The serializer of a composite writes exactly the keys of the properties which are required or
set. -/
theorem C43_serialized_composite (ordered : Bool) (ps : List Property) (attrs : Attrs) (j : Json)
    (h : serComposite (serTy L S (serEmbed L S g n)) ordered ps attrs = .ok j) :
    ∃ kvs, j = .obj ordered kvs ∧ ∀ k, k ∈ kvs.map (·.1) ↔
      ∃ p ∈ ps, ¬ (p.optional = true ∧ attrs.lookup p.name = some .none) ∧ p.json = k := by
  simp only [serComposite, bind, Except.bind] at h
  split at h
  · simp at h
  · next kvs hk =>
    simp only [pure, Except.pure, Except.ok.injEq] at h
    subst h
    refine ⟨kvs, rfl, fun k => ?_⟩
    rw [serProps_keys ps [] kvs hk k]
    simp only [List.map_nil, List.not_mem_nil, false_or]
    exact Iff.rfl

/-! ## The graph -/

/-- **C43 (partial, graph).** The JSON keys are supposed to be distinct (C39). A graph which parses still does if an optional property of the graph is left
out; its attribute is unset and everything else is the same. -/
theorem C43_leave_out_graph_partial (hg : validateSchema py g = .ok []) (hk : JsonKeys g) (hcap : 0 < cap)
    (p : Property) (hp : p ∈ g.properties) (hopt : p.optional = true) (o : Bool)
    (kvs : List (Str × Json)) (gv : GraphVal) (es : Errors)
    (h : parseGraph L S g n (.obj o kvs) ref (Errors.new cap) = .ok (some gv, es)) :
    parseGraph L S g n (.obj o (leaveOut p.json kvs)) ref (Errors.new cap) =
      .ok (some { gv with attrs := unset p gv.attrs }, Errors.new cap) ∧
    (unset p gv.attrs).lookup (Mapry.lower p.name) = some .none := by
  have hd := distinct_of_valid hg
  obtain ⟨_, _, he, hregs, hr⟩ := (C29_accepts_partial L S g n _ ref cap hg hcap gv).1 ⟨es, h⟩
  cases he
  have hkg := hk.graph
  rw [List.nodup_append] at hkg
  obtain ⟨hj, _, hne⟩ := hkg
  -- the registries are found under the same keys
  have hreg : ∀ c ∈ g.classes, registryOf (leaveOut p.json kvs) c = registryOf kvs c := by
    intro c hc
    unfold registryOf
    rw [lookup_leaveOut, if_neg]
    intro e
    exact hne _ (List.mem_map.2 ⟨p, hp, rfl⟩) _ (List.mem_map.2 ⟨c, hc, rfl⟩) e.symm
  have hdesc : ∀ c id, Described g kvs c id → Described g (leaveOut p.json kvs) c id := by
    rintro c id ⟨d, hdm, hn, o, entries, he, hi⟩
    exact ⟨d, hdm, hn, o, entries, by rw [hreg d hdm, he], hi⟩
  have hr' := readsProps_leaveOut (reads' := Reads true L S g (Described g (leaveOut p.json kvs)) n) hopt
    (fun t v x => reads_ids hdesc n t v x)
    (fun q hq e => inj_of_nodup hj hq hp e) (fun q hq e => inj_of_nodup hd.graph hq hp e) hr
  have hall : ReadsGraph true L S g n (.obj o (leaveOut p.json kvs))
      { gv with attrs := unset p gv.attrs } := by
    refine ⟨o, _, rfl, ?_, hr'⟩
    refine Forall₂.imp_mem (fun c r hc _ ⟨h1, h2⟩ => ⟨h1, ?_⟩) hregs
    unfold ReadsRegistry at h2 ⊢
    rw [hreg c hc]
    rcases h2 with h2 | ⟨o', entries, he, ho, hf⟩
    · exact .inl h2
    · refine .inr ⟨o', entries, he, ho, Forall₂.imp (fun e i ⟨a, b, c', o2, kvs2, e2, hp2⟩ =>
        ⟨a, b, c', o2, kvs2, e2, readsProps_imp (fun t v x => reads_ids hdesc n t v x) hp2⟩) hf⟩
  obtain ⟨es', he'⟩ := (C29_accepts_partial L S g n _ ref cap hg hcap _).2 hall
  refine ⟨by rw [he', (C28_complete L S g n _ ref cap hg hcap _ es' he').1], ?_⟩
  obtain ⟨x, hx, hrx⟩ := readsProps_attr hd.graph hr' hp
  rw [hx]
  unfold ReadsProperty at hrx
  rw [present_leaveOut, if_pos rfl] at hrx
  rw [hrx.2]

/-- The properties of the graph: a present value which is not null is validated, a missing one is unset
and must be optional. -/
theorem C43_validated_graph (hg : validateSchema py g = .ok []) (hcap : 0 < cap)
    (p : Property) (hp : p ∈ g.properties) (o : Bool) (kvs : List (Str × Json)) (gv : GraphVal)
    (es : Errors) (h : parseGraph L S g n (.obj o kvs) ref (Errors.new cap) = .ok (some gv, es)) :
    ∃ x, gv.attrs.lookup (Mapry.lower p.name) = some x ∧
      ((kvs.lookup p.json = none ∨ kvs.lookup p.json = some .null) → p.optional = true ∧ x = .none) ∧
      (∀ v, kvs.lookup p.json = some v → v ≠ .null → Reads true L S g (Described g kvs) n p.ty v x) := by
  obtain ⟨_, _, he, _, hr⟩ := (C29_accepts_partial L S g n _ ref cap hg hcap gv).1 ⟨es, h⟩
  cases he
  obtain ⟨x, hx, hrx⟩ := readsProps_attr (distinct_of_valid hg).graph hr hp
  unfold ReadsProperty present at hrx
  refine ⟨x, hx, ?_, ?_⟩
  · rintro (hn | hn) <;> rw [hn] at hrx <;> exact hrx
  · intro v hv hne
    rw [hv] at hrx
    cases v <;> first | exact hrx | exact absurd rfl hne

end

/-- The full property for the graph: no condition on the JSON keys. -/
def C43Full : Prop := ∀ (L : Lib) (S : Settings) (g : Graph) (n : Nat) (ref : Str) (cap : Int) (p : Property)
  (o : Bool) (kvs : List (Str × Json)) (gv : GraphVal) (es : Errors), validateSchema py g = .ok [] →
  0 < cap → p ∈ g.properties → p.optional = true →
  parseGraph L S g n (.obj o kvs) ref (Errors.new cap) = .ok (some gv, es) →
  ∃ gv' es', parseGraph L S g n (.obj o (leaveOut p.json kvs)) ref (Errors.new cap) = .ok (some gv', es')

/-- A required and an optional property under the same key -/
def sharedKey : Graph :=
  { name := c!"Shop"
    properties := [{ name := c!"a", ty := .boolean, json := c!"x" },
                   { name := c!"b", ty := .boolean, json := c!"x", optional := true }] }

/-- It is violated if the optional property shares its key with a required one. -/
theorem C43_violated : ¬ C43Full := by
  intro h
  obtain ⟨gv', es', h'⟩ := h Demo.lib {} sharedKey 1 [] 1
    { name := c!"b", ty := .boolean, json := c!"x", optional := true } false [(c!"x", .bool true)]
    ⟨[(c!"a", .bool true), (c!"b", .bool true)], []⟩ (Errors.new 1) (by decide) (by decide) (by decide) rfl rfl
  have : parseGraph Demo.lib {} sharedKey 1 (.obj false []) [] (Errors.new 1) =
      .ok (none, ⟨1, [⟨[], c!"Property is missing: x"⟩]⟩) := rfl
  have h2 := this.symm.trans h'
  simp at h2

/-- The optional property of the demonstration which is set -/
def weights : Property where
  name := c!"weights"
  ty := .map (.float { min := some 0 })
  json := c!"weights"
  optional := true

/-- The demonstration without its optional weights -/
example : weights ∈ Demo.schema.properties ∧ ∃ o kvs, Demo.input = .obj o kvs ∧
    parseGraph Demo.lib {} Demo.schema 5 (.obj o kvs) [] (Errors.new 1) =
      .ok (some Demo.value, Errors.new 1) ∧
    parseGraph Demo.lib {} Demo.schema 5 (.obj o (leaveOut weights.json kvs)) [] (Errors.new 1) =
      .ok (some { Demo.value with attrs := unset weights Demo.value.attrs }, Errors.new 1) :=
  ⟨by decide, false, _, rfl, rfl, rfl⟩

end Mapry.Props
