import Verif.PySer
import Verif.Props.PyParse

/-! # C31, C33, C40, C43: the generated Python serializer -/

namespace Mapry.Props

open Mapry.PyRuntime Mapry.PyRuntime.Spec Mapry.LangValidate

/-! ## C31 -/

/-- The full property: every graph which satisfies the schema survives serializing and parsing. The
library is supposed to read back the dates, paths and time zones it writes. -/
def C31Full : Prop := ∀ (L : Lib) (S : Settings) (g : Graph) (n : Nat) (ordered : Bool) (gv : GraphVal)
  (ref : Str) (cap : Int), validateSchema py g = .ok [] → 0 < cap →
  ValidGraph false L S g false n gv → FaithfulGraph L g n gv →
  ∃ j, serGraph L S g n ordered gv = .ok j ∧
    parseGraph L S g n j ref (Errors.new cap) = .ok (some (withOrdered ordered gv), Errors.new cap)

/-- **C31 (partial).** It holds if the names of the properties of classes and embeds are in lower case
and the JSON keys do not clash. A boolean may be stored as an integer. -/
theorem C31_round_trip_partial (lax : Bool) (L : Lib) (S : Settings) (g : Graph) (n : Nat) (ordered : Bool)
    (gv : GraphVal) (ref : Str) (cap : Int) (hg : validateSchema py g = .ok []) (hcap : 0 < cap)
    (hlow : LowerNames g) (hk : JsonKeys g) (hv : ValidGraph lax L S g false n gv)
    (hf : FaithfulGraph L g n gv) :
    ∃ j, serGraph L S g n ordered gv = .ok j ∧
      parseGraph L S g n j ref (Errors.new cap) = .ok (some (withOrdered ordered gv), Errors.new cap) := by
  obtain ⟨j, hj, hr⟩ := serGraph_reads (distinct_of_valid hg) hk hlow n ordered gv hv hf
  refine ⟨j, hj, ?_⟩
  have hr := readsGraph_mono (lax' := true) n j _ (fun _ => .inl rfl) hr
  obtain ⟨es, he⟩ := (C29_accepts_partial L S g n j ref cap hg hcap _).2 hr
  rw [he, (C28_complete L S g n j ref cap hg hcap _ es he).1]

/-- A schema with a capital in the name of a property of a class -/
def capitalGraph : Graph :=
  { name := c!"Shop"
    classes := [{ name := c!"Link", plural := c!"Links"
                  properties := [{ name := c!"some_URL", ty := .string none, json := c!"url" }] }] }

/-- A graph with one instance -/
def capitalValue : GraphVal :=
  ⟨[], [(c!"Link", ⟨true, [(c!"l1", ⟨c!"l1", [(c!"some_url", .str c!"http")]⟩)]⟩)]⟩

theorem capital_valid : ValidGraph false Demo.lib {} capitalGraph false 1 capitalValue where
  registries := by
    refine .cons ⟨rfl, ?_⟩ .nil
    intro i hi
    simp only [List.mem_singleton] at hi
    subst hi
    refine ⟨rfl, by simp [Matches], .cons ⟨by decide, .inr ⟨_, rfl, by simp [Matches]⟩⟩ .nil⟩
  attrs := .nil

theorem capital_faithful : FaithfulGraph Demo.lib capitalGraph 1 capitalValue where
  registries := by
    intro c hc r hr i hi p hp x hx hn
    simp only [capitalGraph, List.mem_singleton] at hc
    subst hc
    simp only [List.mem_singleton] at hp
    subst hp
    trivial
  attrs := by intro p hp; simp [capitalGraph] at hp

/-- It is violated: `some_URL` is stored as `some_url` and serialized as `some_URL`. -/
theorem C31_violated : ¬ C31Full := by
  intro h
  obtain ⟨j, hj, _⟩ := h Demo.lib {} capitalGraph 1 false capitalValue [] 1 (by decide) (by decide)
    capital_valid capital_faithful
  have : serGraph Demo.lib {} capitalGraph 1 false capitalValue = .error .attributeError := rfl
  rw [this] at hj
  simp at hj

/-- A schema with two properties under one JSON key -/
def clashGraph : Graph :=
  { name := c!"Shop"
    properties := [{ name := c!"a", ty := .boolean, json := c!"x" },
                   { name := c!"b", ty := .boolean, json := c!"x" }] }

/-- It is also violated by clashing JSON keys: one of the two values is lost. -/
theorem C31_violated_by_clash : ¬ ∀ (L : Lib) (S : Settings) (g : Graph) (n : Nat) (ordered : Bool)
    (gv : GraphVal) (ref : Str) (cap : Int), validateSchema py g = .ok [] → 0 < cap → LowerNames g →
    ValidGraph false L S g false n gv → FaithfulGraph L g n gv →
    ∃ j, serGraph L S g n ordered gv = .ok j ∧
      parseGraph L S g n j ref (Errors.new cap) = .ok (some (withOrdered ordered gv), Errors.new cap) := by
  intro h
  obtain ⟨j, hj, hp⟩ := h Demo.lib {} clashGraph 1 false
    ⟨[(c!"a", .bool true), (c!"b", .bool false)], []⟩ [] 1 (by decide) (by decide)
    ⟨by simp [clashGraph], by simp [clashGraph]⟩
    ⟨.nil, .cons ⟨by decide, .inr ⟨_, rfl⟩⟩ (.cons ⟨by decide, .inr ⟨_, rfl⟩⟩ .nil)⟩
    ⟨by simp [clashGraph], by
      intro p hp x _ _
      simp only [clashGraph, List.mem_cons, List.not_mem_nil, or_false] at hp
      rcases hp with rfl | rfl <;> trivial⟩
  cases hj
  have : parseGraph Demo.lib {} clashGraph 1 (.obj false [(c!"x", .bool false)]) [] (Errors.new 1) =
      .ok (some ⟨[(c!"a", .bool false), (c!"b", .bool false)], []⟩, Errors.new 1) := rfl
  have hp' := this.symm.trans hp
  simp [withOrdered] at hp'

/-- The graph of the examples meets the hypotheses. -/
example : LowerNames Demo.schema := by
  constructor
  · intro c hc
    simp only [Demo.schema, List.mem_singleton] at hc
    subst hc
    simp only [List.mem_cons, List.not_mem_nil, or_false]
    rintro p (rfl | rfl | rfl | rfl) <;> decide
  · intro c hc
    simp only [Demo.schema, List.mem_singleton] at hc
    subst hc
    simp only [List.mem_cons, List.not_mem_nil, or_false]
    rintro p (rfl | rfl) <;> decide
example : JsonKeys Demo.schema := by
  constructor
  · decide
  · intro c hc
    simp only [Demo.schema, List.mem_singleton] at hc
    subst hc
    decide
  · intro c hc
    simp only [Demo.schema, List.mem_singleton] at hc
    subst hc
    decide
example : (serGraph Demo.lib {} Demo.schema 5 true Demo.value).map
    (fun j => parseGraph Demo.lib {} Demo.schema 5 j [] (Errors.new 1)) =
    .ok (.ok (some (withOrdered true Demo.value), Errors.new 1)) := rfl

/-! ## C33 -/

section

variable (L : Lib) (S : Settings) (g : Graph) (n : Nat) (ordered : Bool) (gv : GraphVal)

/-- The property of the graph is written: an optional one only if it is set. -/
def IsSet (gv : GraphVal) (p : Property) : Prop :=
  ¬ (p.optional = true ∧ gv.attrs.lookup (Mapry.lower p.name) = some .none)

/-- The class has instances. -/
def HasInstances (gv : GraphVal) (c : Class) : Prop :=
  ∃ r, gv.registries.lookup c.name = some r ∧ r.instances ≠ []

/-- **C33.** What is returned is a JSON object with exactly the keys of the set properties and of the
registries which are not empty, and every instance is registered under its own identifier. -/
theorem C33_written (j : Json) (h : serGraph L S g n ordered gv = .ok j) :
    ¬ Misregistered g gv ∧ ∃ kvs, j = .obj ordered kvs ∧ ∀ k, k ∈ kvs.map (·.1) ↔
      (∃ p ∈ g.properties, IsSet gv p ∧ p.json = k) ∨
      (∃ c ∈ g.classes, HasInstances gv c ∧ Mapry.lower c.plural = k) := by
  simp only [serGraph, bind, Except.bind] at h
  split at h
  · simp at h
  · next kvs1 h1 =>
    split at h
    · simp at h
    · next kvs2 h2 =>
      simp only [pure, Except.pure, Except.ok.injEq] at h
      subst h
      obtain ⟨h3, h4⟩ := (serRegistries_spec L (ser_noValueError L S g n) ordered gv g.classes kvs1).1 _ h2
      refine ⟨?_, kvs2, rfl, fun k => ?_⟩
      · rintro ⟨c, hc, r, hr, i, hi, hne⟩
        exact hne (h3 c hc r hr i hi)
      · rw [h4 k, serProps_keys g.properties [] kvs1 h1 k]
        simp only [List.map_nil, List.not_mem_nil, false_or]
        exact Iff.rfl

/-- A `ValueError` is raised only for an instance registered under another identifier. -/
theorem C33_value_error (m : Str) (h : serGraph L S g n ordered gv = .error (.valueError m)) :
    Misregistered g gv := by
  simp only [serGraph, bind, Except.bind] at h
  split at h
  · next hx =>
    rw [Except.error.inj h] at hx
    exact absurd hx (serProps_noValueError (ser_noValueError L S g n) _ _ _ _ m)
  · next kvs1 h1 =>
    split at h
    · next hx =>
      rw [Except.error.inj h] at hx
      exact (serRegistries_spec L (ser_noValueError L S g n) ordered gv g.classes kvs1).2 m hx
    · simp [pure, Except.pure] at h

/-- The serializer returns or raises `ValueError` if the objects have their attributes and the names
of the properties of classes and embeds are in lower case. -/
theorem C33_outcomes_partial (hlow : LowerNames g) (ht : TypedGraph S g n gv) :
    (∃ j, serGraph L S g n ordered gv = .ok j) ∨ ∃ m, serGraph L S g n ordered gv = .error (.valueError m) := by
  have hser := serTy_total L S (serEmbed_total L S g hlow n)
  obtain ⟨kvs, hk⟩ := serProps_total hser attr gv.attrs g.properties (fun p _ => rfl) [] ht.attrs
  rcases serRegistries_total L hser ordered gv g.classes hlow.cls ht.registries kvs with ⟨xs, hx⟩ | ⟨m, hm⟩
  · exact .inl ⟨.obj ordered xs, by simp [serGraph, hk, hx, bind, Except.bind, pure, Except.pure]⟩
  · exact .inr ⟨m, by simp [serGraph, hk, hm, bind, Except.bind]⟩

/-- Under the same conditions, it raises `ValueError` iff an instance is registered under another
identifier. -/
theorem C33_iff_partial (hlow : LowerNames g) (ht : TypedGraph S g n gv) :
    (∃ m, serGraph L S g n ordered gv = .error (.valueError m)) ↔ Misregistered g gv := by
  constructor
  · rintro ⟨m, h⟩
    exact C33_value_error L S g n ordered gv m h
  · intro h
    rcases C33_outcomes_partial L S g n ordered gv hlow ht with ⟨j, hj⟩ | hm
    · exact absurd h (C33_written L S g n ordered gv j hj).1
    · exact hm

end

/-- The full property: no condition on the names. -/
def C33Full : Prop := ∀ (L : Lib) (S : Settings) (g : Graph) (n : Nat) (ordered : Bool) (gv : GraphVal),
  validateSchema py g = .ok [] → TypedGraph S g n gv →
  (∃ m, serGraph L S g n ordered gv = .error (.valueError m)) ∨ ∃ j, serGraph L S g n ordered gv = .ok j

theorem capital_typed : TypedGraph {} capitalGraph 1 capitalValue where
  registries := by
    intro c hc
    simp only [capitalGraph, List.mem_singleton] at hc
    subst hc
    refine ⟨_, rfl, ?_⟩
    intro i hi
    simp only [List.mem_singleton] at hi
    subst hi
    intro p hp
    simp only [List.mem_singleton] at hp
    subst hp
    exact ⟨_, rfl, .inr ⟨_, rfl⟩⟩
  attrs := by intro p hp; simp [capitalGraph] at hp

/-- It is violated: `AttributeError` is raised. -/
theorem C33_violated : ¬ C33Full := by
  intro h
  have : serGraph Demo.lib {} capitalGraph 1 false capitalValue = .error .attributeError := rfl
  rcases h Demo.lib {} capitalGraph 1 false capitalValue (by decide) capital_typed with ⟨m, hm⟩ | ⟨j, hj⟩
  · rw [this] at hm; simp at hm
  · rw [this] at hj; simp at hj

/-- A graph with an instance under a wrong identifier. -/
example : serGraph Demo.lib {} { capitalGraph with classes := [{ name := c!"Link", plural := c!"Links" }] } 1
    true ⟨[], [(c!"Link", ⟨true, [(c!"l1", ⟨c!"l2", []⟩)]⟩)]⟩ =
    .error (.valueError c!"Expected ID 'l1' of the instance of Link, but got: 'l2'") := by rfl

/-! ## C40 -/

theorem lower_lower (s : Str) : Mapry.lower (Mapry.lower s) = Mapry.lower s := by
  simp [Mapry.lower, toLower_toLower]

/-- The serializer finds the attributes of all the written objects. -/
theorem serProps_found {ser : Ty → Val → Except Exc Json} {field : Property → Str} {attrs : Attrs}
    (ps : List Property) (target kvs : List (Str × Json))
    (h : serProps ser field attrs ps target = .ok kvs) : ∀ p ∈ ps, attrs.lookup (field p) ≠ none := by
  induction ps generalizing target with
  | nil => simp
  | cons p ps ih =>
    intro q hq
    rw [serProps.eq_def] at h
    simp only at h
    rcases List.mem_cons.1 hq with rfl | hq
    · intro hn
      rw [hn] at h
      simp at h
    · split at h
      · simp at h
      · split at h
        · exact ih _ h q hq
        · simp only [bind, Except.bind] at h
          split at h
          · simp at h
          · exact ih _ h q hq
      · simp only [bind, Except.bind] at h
        split at h
        · simp at h
        · exact ih _ h q hq

theorem serInstances_found (L : Lib) {ser : Ty → Val → Except Exc Json} (ordered : Bool) (c : Class)
    (is : List (Str × Instance)) (xs : List (Str × Json)) (h : serInstances L ser ordered c is = .ok xs) :
    ∀ i ∈ is, ∀ p ∈ c.properties, i.2.attrs.lookup p.name ≠ none := by
  induction is generalizing xs with
  | nil => simp
  | cons i is ih =>
    obtain ⟨id, inst⟩ := i
    simp only [serInstances] at h
    split at h
    · simp at h
    · simp only [bind, Except.bind] at h
      split at h
      · simp at h
      · next j hj =>
        split at h
        · simp at h
        · next ys hys =>
          intro i hi
          rcases List.mem_cons.1 hi with rfl | hi
          · simp only [serComposite, bind, Except.bind] at hj
            split at hj
            · simp at hj
            · next kvs hk => exact serProps_found c.properties [] kvs hk
          · exact ih ys hys i hi

theorem serRegistries_found (L : Lib) {ser : Ty → Val → Except Exc Json} (ordered : Bool) (gv : GraphVal)
    (cs : List Class) (target kvs : List (Str × Json))
    (h : serRegistries L ser ordered gv cs target = .ok kvs) :
    ∀ c ∈ cs, ∀ r, gv.registries.lookup c.name = some r → ∀ i ∈ r.instances,
      ∀ p ∈ c.properties, i.2.attrs.lookup p.name ≠ none := by
  induction cs generalizing target with
  | nil => simp
  | cons c cs ih =>
    intro d hd r hr
    simp only [serRegistries] at h
    split at h
    · simp at h
    · next r' hr' =>
      split at h
      · next he =>
        rcases List.mem_cons.1 hd with rfl | hd
        · rw [hr] at hr'; cases hr'
          rw [List.isEmpty_iff.1 he]; simp
        · exact ih _ h d hd r hr
      · simp only [bind, Except.bind] at h
        split at h
        · simp at h
        · next xs hxs =>
          rcases List.mem_cons.1 hd with rfl | hd
          · rw [hr] at hr'; cases hr'
            exact serInstances_found L ordered d r.instances xs hxs
          · exact ih _ h d hd r hr

theorem lookup_mem_keys {α : Type} {l : List (Str × α)} {k : Str} (h : l.lookup k ≠ none) :
    k ∈ l.map (·.1) := by
  induction l with
  | nil => simp at h
  | cons a l ih =>
    obtain ⟨a, x⟩ := a
    by_cases hk : k = a
    · simp [hk]
    · have : (k == a) = false := beq_false_of_ne hk
      simp only [List.lookup, this] at h
      exact List.mem_cons_of_mem _ (ih h)

theorem fitsProps_keys {fits : Ty → Val → Prop} {ps : List Property} {attrs : Attrs}
    (h : FitsProps fits ps attrs) : attrs.map (·.1) = ps.map fun p => Mapry.lower p.name := by
  induction h with
  | nil => rfl
  | cons h1 _ ih => simp [h1.1, ih]

/-- The full property: the attributes of a graph returned by the parser are found by the serializer. -/
def C40Full : Prop := ∀ (L : Lib) (S : Settings) (g : Graph) (n : Nat) (ordered : Bool) (v : Json) (ref : Str)
  (gv : GraphVal) (es : Errors), validateSchema py g = .ok [] →
  parseGraph L S g n v ref (Errors.new 10) = .ok (some gv, es) →
  serGraph L S g n ordered gv ≠ .error .attributeError

/-- It is violated. -/
theorem C40_violated : ¬ C40Full := by
  intro h
  exact h Demo.lib {} capitalGraph 1 false
    (.obj false [(c!"links", .obj true [(c!"l1", .obj false [(c!"url", .str c!"http")])])])
    [] capitalValue (Errors.new 10) (by decide) rfl rfl

/-- **C40 (partial).** The serializer finds all the attributes if the names of the properties of classes
and embeds are in lower case. -/
theorem C40_lower_case_partial (L : Lib) (S : Settings) (g : Graph) (n : Nat) (ordered : Bool) (gv : GraphVal)
    (hlow : LowerNames g) (ht : TypedGraph S g n gv) :
    serGraph L S g n ordered gv ≠ .error .attributeError := by
  rcases C33_outcomes_partial L S g n ordered gv hlow ht with ⟨j, hj⟩ | ⟨m, hm⟩
  · rw [hj]; simp
  · rw [hm]; simp

/-- Conversely, the serializer never succeeds with an instance of a class which has a property with a
capital in its name. -/
theorem C40_capitals_fail (lax rounded : Bool) (L : Lib) (S : Settings) (g : Graph) (n : Nat) (ordered : Bool)
    (gv : GraphVal) (hd : (g.classes.map (·.name)).Nodup) (hv : ValidGraph lax L S g rounded n gv)
    (c : Class) (hc : c ∈ g.classes) (hi : HasInstances gv c) (p : Property) (hp : p ∈ c.properties)
    (hname : Mapry.lower p.name ≠ p.name) (j : Json) : serGraph L S g n ordered gv ≠ .ok j := by
  intro h
  simp only [serGraph, bind, Except.bind] at h
  split at h
  · simp at h
  · split at h
    · simp at h
    · next kvs2 h2 =>
      obtain ⟨r, hr, hne⟩ := hi
      obtain ⟨i, hi⟩ := List.exists_mem_of_ne_nil _ hne
      have hm := lookup_mem_keys (serRegistries_found L ordered gv g.classes _ _ h2 c hc r hr i hi p hp)
      obtain ⟨s, hs, hl, hsn, hfit⟩ := forall₂_left (lookup_registries hd hv.registries) c hc
      rw [hr] at hl
      cases hl
      rw [fitsProps_keys (hfit i hi).2.2] at hm
      obtain ⟨q, _, hq⟩ := List.mem_map.1 hm
      exact hname (by rw [← hq, lower_lower])

end Mapry.Props
