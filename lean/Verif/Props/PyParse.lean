import Verif.PyDemo
import Verif.PyValid
import Verif.PySim
import Verif.Props.LangValidate

/-! # C28, C29, C30, C45: what the generated Python parser accepts and returns -/

namespace Mapry.Props

open Mapry.Duration Mapry.PyRuntime Mapry.PyRuntime.Spec Mapry.LangValidate

/-! ## Schemas which pass the validation for Python -/

theorem nodup_of_forall₂ {α : Type} {key : α → Str → Prop} {f : α → Str} {l : List α} {ns : List Str}
    (hf : ∀ x n, key x n → n = f x) (h : Forall₂ key l ns) : ns = l.map f := by
  induction h with
  | nil => rfl
  | cons h1 _ ih => rw [hf _ _ h1, ih]; rfl

theorem nodup_names {α : Type} {key : α → Str → Prop} {name : α → Str} {l : List α} {ns : List Str}
    (hf : ∀ x y n m, key x n → key y m → name x = name y → n = m) (h : Forall₂ key l ns)
    (hn : ns.Nodup) : (l.map name).Nodup := by
  induction h with
  | nil => simp
  | @cons x n l ns h1 h2 ih =>
    rw [List.nodup_cons] at hn
    rw [List.map_cons, List.nodup_cons]
    refine ⟨?_, ih hn.2⟩
    intro hm
    obtain ⟨y, hy, he⟩ := List.mem_map.1 hm
    obtain ⟨m, hm, hk⟩ := forall₂_mem_left h2 hy
    rw [hf x y n m h1 hk he.symm] at hn
    exact hn.1 hm

theorem attribute_eq {s n : Str} (h : Naming.asAttribute s = .ok n) : n = Mapry.lower s := by
  unfold Naming.asAttribute at h
  split at h
  · simp at h
  · exact (Except.ok.inj h).symm

/-- The validation for Python guarantees distinct attributes and class names. -/
theorem distinct_of_valid {g : Graph} (h : validateSchema py g = .ok []) : Distinct g := by
  obtain ⟨_, ⟨ids, hids, hnd, _⟩, hfields, ⟨ns, rs, hns, _, hgn, _⟩⟩ := (C23_valid_iff_partial g).1 h
  have key : ∀ ps ns, Forall₂ (FieldName ⟨python36, Naming.asAttribute, Naming.asComposite, c!"id"⟩) ps ns →
      ns.Nodup → (ps.map fun p : Property => Mapry.lower p.name).Nodup := by
    intro ps ns h hn
    rwa [← nodup_of_forall₂ (fun p n hp => attribute_eq hp) h]
  refine ⟨key _ _ hns (List.nodup_append.1 hgn).1, ?_, ?_, ?_⟩
  · intro c hc
    obtain ⟨ns, h1, h2, _⟩ := hfields ⟨.cls, c.name, c.ref, c.properties⟩ (by
      unfold definitions
      exact List.mem_append_left _ (List.mem_map.2 ⟨c, hc, rfl⟩))
    exact key _ _ h1 h2
  · intro e he
    obtain ⟨ns, h1, h2, _⟩ := hfields ⟨.embed, e.name, e.ref, e.properties⟩ (by
      unfold definitions
      exact List.mem_append_right _ (List.mem_map.2 ⟨e, he, rfl⟩))
    exact key _ _ h1 h2
  · have := nodup_names (name := fun c : Comp => c.name) (fun x y n m hx hy hxy => by
      unfold CompId at hx hy
      rw [hxy, hy] at hx
      exact (Except.ok.inj hx).symm) hids hnd
    unfold definitions at this
    rw [List.map_append, List.map_map] at this
    exact (List.nodup_append.1 this).1

/-! ## C28 -/

section

variable (L : Lib) (S : Settings) (g : Graph) (n : Nat) (v : Json) (ref : Str) (cap : Int)

/-- What a run records is the first part of the trace. -/
theorem run_spec (hcap : 0 < cap) (o : Option GraphVal) (es : Errors)
    (h : parseGraph L S g n v ref (Errors.new cap) = .ok (o, es)) :
    (∃ log, tGraph L S g n v ref = .ok (o, log) ∧ es = addAll (Errors.new cap) log) ∨
    (o = none ∧ ∃ x log, tGraph L S g n v ref = .error (x, log) ∧ es = addAll (Errors.new cap) log ∧
      es.full = true) := by
  obtain ⟨h1, h2⟩ := sim_graph L S g n v ref cap hcap
  cases ht : tGraph L S g n v ref with
  | ok r =>
    obtain ⟨o', log⟩ := r
    rw [h1 o' log ht] at h
    simp only [Except.ok.injEq, Prod.mk.injEq] at h
    obtain ⟨rfl, rfl⟩ := h
    exact .inl ⟨log, rfl, rfl⟩
  | error r =>
    obtain ⟨x, log⟩ := r
    obtain ⟨he, hok⟩ := h2 x log ht
    cases hf : (addAll (Errors.new cap) log).full with
    | false => rw [he hf] at h; simp at h
    | true =>
      rw [hok hf] at h
      simp only [Except.ok.injEq, Prod.mk.injEq] at h
      obtain ⟨rfl, rfl⟩ := h
      exact .inr ⟨rfl, x, log, rfl, rfl, hf⟩

theorem new_usable {cap : Int} (h : 0 < cap) : Usable (Errors.new cap) := ⟨h, Int.le_of_lt h⟩

theorem new_values {cap : Int} (h : 0 < cap) (log : Log) :
    (addAll (Errors.new cap) log).values = log.take cap.toNat := by
  rw [addAll_values (new_usable h)]
  rfl

/-- The trace returns a graph iff it holds no error. -/
theorem trace_some (o : Option GraphVal) (log : Log) (h : tGraph L S g n v ref = .ok (o, log)) :
    o.isSome = true ↔ log = [] := by
  unfold tGraph at h
  split at h
  · dsimp only at h
    split at h
    · next hl =>
      simp only [Except.ok.injEq, Prod.mk.injEq] at h
      obtain ⟨rfl, rfl⟩ := h
      simpa using hl
    · split at h
      · simp at h
      · simp only [Except.ok.injEq, Prod.mk.injEq] at h
        obtain ⟨rfl, rfl⟩ := h
        split <;> simp [*]
  · simp only [Except.ok.injEq, Prod.mk.injEq] at h
    obtain ⟨rfl, rfl⟩ := h
    simp

/-- **C28.** With an empty container of positive cap, a graph is returned iff no error was recorded;
at most `cap` errors are recorded. -/
theorem C28_graph_iff_no_error (hcap : 0 < cap) (o : Option GraphVal) (es : Errors)
    (h : parseGraph L S g n v ref (Errors.new cap) = .ok (o, es)) :
    (o.isSome = true ↔ es.values = []) ∧ (es.values.length : Int) ≤ cap := by
  rcases run_spec L S g n v ref cap hcap o es h with ⟨log, ht, rfl⟩ | ⟨rfl, x, log, _, rfl, hf⟩
  · constructor
    · rw [trace_some L S g n v ref o log ht, new_values hcap, List.take_eq_nil_iff]
      constructor
      · exact .inr
      · rintro (h | h)
        · omega
        · exact h
    · rw [new_values hcap, List.length_take]; omega
  · simp only [Errors.full, decide_eq_true_eq, addAll_cap] at hf
    have hc : (Errors.new cap).cap = cap := rfl
    rw [hc] at hf
    constructor
    · simp only [Option.isSome_none, Bool.false_eq_true, false_iff]
      intro h0
      rw [h0] at hf
      simp at hf
      omega
    · omega

/-- A returned graph is complete: it is the whole graph which the input describes. -/
theorem C28_complete (hg : validateSchema py g = .ok []) (hcap : 0 < cap) (gv : GraphVal) (es : Errors)
    (h : parseGraph L S g n v ref (Errors.new cap) = .ok (some gv, es)) :
    es = Errors.new cap ∧ ReadsGraph true L S g n v gv := by
  rcases run_spec L S g n v ref cap hcap _ es h with ⟨log, ht, rfl⟩ | ⟨h0, _⟩
  · have := (trace_some L S g n v ref _ log ht).1 rfl
    subst this
    obtain ⟨gv', hgv, hr⟩ := (graph_ok L S g (distinct_of_valid hg) n v ref _).1 ht
    cases hgv
    exact ⟨rfl, hr⟩
  · simp at h0

/-! ## C29 -/

/-- **C29 (partial).** A graph is returned iff the input conforms to the schema, where a JSON boolean
passes for a number. The graph returned is the one described. -/
theorem C29_accepts_partial (hg : validateSchema py g = .ok []) (hcap : 0 < cap) (gv : GraphVal) :
    (∃ es, parseGraph L S g n v ref (Errors.new cap) = .ok (some gv, es)) ↔
      ReadsGraph true L S g n v gv := by
  constructor
  · rintro ⟨es, h⟩
    exact (C28_complete L S g n v ref cap hg hcap gv es h).2
  · intro h
    have := (graph_ok L S g (distinct_of_valid hg) n v ref (some gv)).2 ⟨gv, rfl, h⟩
    exact ⟨_, (sim_graph L S g n v ref cap hcap).1 _ _ this⟩

end

/-! ### The role of booleans -/

section

variable {lax lax' : Bool} {L : Lib} {S : Settings} {g : Graph} {ids : Str → Str → Prop}

/-- Booleans may pass for numbers, or there is none. -/
def BoolsFine (lax lax' : Bool) (v : Json) : Prop :=
  lax = true → lax' = true ∨ ∀ c, ¬ Occurs (.bool c) v

theorem BoolsFine.inside {v w : Json} (h : BoolsFine lax lax' v) (ho : Occurs w v) : BoolsFine lax lax' w :=
  fun hl => (h hl).imp id fun h c hc => h c (occurs_trans hc ho)

theorem intValue_mono {v : Json} {x : Val} {i : Int} (hb : BoolsFine lax lax' v) (h : IntValue lax v x i) :
    IntValue lax' v x i := by
  cases h with
  | int i => exact .int i
  | bool c hl =>
    rcases hb hl with h | h
    · exact .bool c h
    · exact absurd (.here _) (h c)

theorem readsTy_mono {R R' : Str → Json → Val → Prop}
    (h : ∀ name v x, BoolsFine lax lax' v → R name v x → R' name v x) (ty : Ty) (v : Json)
    (x : Val) (hb : BoolsFine lax lax' v) (hr : ReadsTy lax L S ids R ty v x) :
    ReadsTy lax' L S ids R' ty v x := by
  induction ty generalizing v x with
  | integer b => obtain ⟨i, hi, hw⟩ := hr; exact ⟨i, intValue_mono hb hi, hw⟩
  | float b =>
    rcases hr with hr | ⟨w, i, q, hi, h⟩
    · exact .inl hr
    · exact .inr ⟨w, i, q, intValue_mono hb hi, h⟩
  | array t lo hi ih =>
    obtain ⟨xs, vs, rfl, rfl, hsz, hf⟩ := hr
    exact ⟨xs, vs, rfl, rfl, hsz,
      Forall₂.imp_mem (fun a b ha _ hab => ih a b (hb.inside (.item ha (.here _))) hab) hf⟩
  | map t ih =>
    obtain ⟨o, kvs, ws, rfl, rfl, hf⟩ := hr
    exact ⟨o, kvs, ws, rfl, rfl, Forall₂.imp_mem (fun a b ha _ hab =>
      ⟨hab.1, ih a.2 b.2 (hb.inside (.entry (k := a.1) ha (.here _))) hab.2⟩) hf⟩
  | embed name => exact h name v x hb hr
  | _ => exact hr

theorem readsProps_mono {R R' : Ty → Json → Val → Prop} {o : Bool} {kvs : List (Str × Json)}
    (h : ∀ ty v x, BoolsFine lax lax' v → R ty v x → R' ty v x) (hb : BoolsFine lax lax' (.obj o kvs))
    {ps : List Property} {attrs : Attrs} (hr : ReadsProps R kvs ps attrs) :
    ReadsProps R' kvs ps attrs := by
  refine Forall₂.imp ?_ hr
  rintro p a ⟨ha, hp⟩
  refine ⟨ha, ?_⟩
  unfold ReadsProperty at hp ⊢
  split at hp
  · exact hp
  · next v hv =>
    exact h _ v _ (hb.inside (.entry (mem_of_lookup (present_some.1 hv).1) (.here _))) hp

theorem readsEmbed_mono (n : Nat) (name : Str) (v : Json) (x : Val) (hb : BoolsFine lax lax' v)
    (hr : ReadsEmbed lax L S g ids n name v x) : ReadsEmbed lax' L S g ids n name v x := by
  induction n generalizing name v x with
  | zero => exact hr
  | succ n ih =>
    obtain ⟨e, o, kvs, attrs, he, rfl, rfl, hp⟩ := hr
    exact ⟨e, o, kvs, attrs, he, rfl, rfl, readsProps_mono (fun ty v x => readsTy_mono ih ty v x) hb hp⟩

theorem reads_mono (n : Nat) (ty : Ty) (v : Json) (x : Val) (hb : BoolsFine lax lax' v)
    (hr : Reads lax L S g ids n ty v x) : Reads lax' L S g ids n ty v x :=
  readsTy_mono (readsEmbed_mono n) ty v x hb hr

theorem readsGraph_mono (n : Nat) (v : Json) (gv : GraphVal) (hb : BoolsFine lax lax' v)
    (hr : ReadsGraph lax L S g n v gv) : ReadsGraph lax' L S g n v gv := by
  obtain ⟨o, kvs, rfl, hregs, hattrs⟩ := hr
  refine ⟨o, kvs, rfl, Forall₂.imp ?_ hregs, readsProps_mono (fun ty v x => reads_mono n ty v x) hb hattrs⟩
  rintro c r ⟨hk, hreg⟩
  refine ⟨hk, ?_⟩
  rcases hreg with h | ⟨o', es, hlk, hord, hf⟩
  · exact .inl h
  · refine .inr ⟨o', es, hlk, hord, Forall₂.imp_mem ?_ hf⟩
    rintro ⟨id, ev⟩ i he _ ⟨h1, h2, h3, o'', kvs', h4, h5⟩
    simp only at h4
    subst h4
    exact ⟨h1, h2, h3, o'', kvs', rfl, readsProps_mono (fun ty v x => reads_mono n ty v x)
      (hb.inside (.entry (mem_of_lookup hlk) (.entry he (.here _)))) h5⟩

end

/-- The full property: acceptance of exactly the conforming inputs, whatever the library. -/
def C29Full : Prop := ∀ (L : Lib) (S : Settings) (g : Graph) (n : Nat) (v : Json) (ref : Str) (cap : Int)
  (gv : GraphVal), validateSchema py g = .ok [] → 0 < cap →
  ((∃ es, parseGraph L S g n v ref (Errors.new cap) = .ok (some gv, es)) ↔ ReadsGraph false L S g n v gv)

/-- Every conforming input is accepted. -/
theorem C29_conforming_accepted (L : Lib) (S : Settings) (g : Graph) (n : Nat) (v : Json) (ref : Str)
    (cap : Int) (gv : GraphVal) (hg : validateSchema py g = .ok []) (hcap : 0 < cap)
    (h : ReadsGraph false L S g n v gv) :
    parseGraph L S g n v ref (Errors.new cap) = .ok (some gv, Errors.new cap) := by
  have hr := readsGraph_mono (lax' := true) n v gv (fun _ => .inl rfl) h
  obtain ⟨es, he⟩ := (C29_accepts_partial L S g n v ref cap hg hcap gv).2 hr
  rw [he, (C28_complete L S g n v ref cap hg hcap gv es he).1]

/-- The full property holds for all inputs without booleans. -/
theorem C29_without_booleans (L : Lib) (S : Settings) (g : Graph) (n : Nat) (v : Json) (ref : Str)
    (cap : Int) (gv : GraphVal) (hg : validateSchema py g = .ok []) (hcap : 0 < cap)
    (hv : ∀ c, ¬ Occurs (.bool c) v) :
    (∃ es, parseGraph L S g n v ref (Errors.new cap) = .ok (some gv, es)) ↔
      ReadsGraph false L S g n v gv := by
  rw [C29_accepts_partial L S g n v ref cap hg hcap gv]
  exact ⟨readsGraph_mono n v gv fun _ => .inr hv, readsGraph_mono n v gv fun _ => .inl rfl⟩

/-- A graph with one integer -/
def countGraph : Graph :=
  { name := c!"Shop", properties := [{ name := c!"count", ty := .integer {}, json := c!"count" }] }

/-- It is violated: `true` is accepted for an integer. -/
theorem C29_violated : ¬ C29Full := by
  intro h
  have hr := (h Demo.lib {} countGraph 1 (.obj false [(c!"count", .bool true)]) [] 1
    ⟨[(c!"count", .bool true)], []⟩ (by decide) (by decide)).1 ⟨Errors.new 1, rfl⟩
  obtain ⟨o, kvs, hv, _, hp⟩ := hr
  cases hv
  cases hp with
  | cons h1 _ =>
    obtain ⟨i, hi, _⟩ := h1.2
    cases hi
    contradiction

/-- The input of the examples is accepted, hence it conforms. -/
example : validateSchema py Demo.schema = .ok [] := by decide
example : ReadsGraph true Demo.lib {} Demo.schema 5 Demo.input Demo.value :=
  (C29_accepts_partial Demo.lib {} Demo.schema 5 Demo.input c!"#" 10 (by decide) (by decide) Demo.value).1
    ⟨Errors.new 10, rfl⟩

/-- The wrong input has four errors. -/
example : (parseGraph Demo.lib {} Demo.schema 5 Demo.wrong c!"#" (Errors.new 10)).map
    (fun r => (r.1.isSome, r.2.values.map (·.ref))) = .ok (false, [c!"#/persons/'p1'/name",
      c!"#/persons/'p1'/age", c!"#/persons/'p1'/friend", c!"#/homes"]) := by decide
/-- With two, the parser stops after the second one. -/
example : (parseGraph Demo.lib {} Demo.schema 5 Demo.wrong c!"#" (Errors.new 2)).map
    (fun r => (r.1.isSome, r.2.values.map (·.ref))) = .ok (false, [c!"#/persons/'p1'/name",
      c!"#/persons/'p1'/age"]) := by decide

/-! ## C30 -/

/-- The full property: a graph returned satisfies the schema. -/
def C30Full : Prop := ∀ (L : Lib) (S : Settings) (g : Graph) (n : Nat) (v : Json) (ref : Str) (cap : Int)
  (gv : GraphVal) (es : Errors), validateSchema py g = .ok [] → 0 < cap →
  parseGraph L S g n v ref (Errors.new cap) = .ok (some gv, es) → ValidGraph false L S g false n gv

section

variable (L : Lib) (S : Settings) (g : Graph) (n : Nat) (v : Json) (ref : Str) (cap : Int)
  (gv : GraphVal) (es : Errors)

/-- **C30 (partial).** A graph returned satisfies the schema except that a boolean may be stored as an
integer and that a float may be the rounding of an integer within the bounds. -/
theorem C30_valid_partial (hg : validateSchema py g = .ok []) (hcap : 0 < cap)
    (h : parseGraph L S g n v ref (Errors.new cap) = .ok (some gv, es)) :
    ValidGraph true L S g true n gv :=
  valid_graph n v gv (fun h => by simp at h) (C28_complete L S g n v ref cap hg hcap gv es h).2

/-- There is no exception if the input holds no boolean and no integer beyond 2^53. -/
theorem C30_valid_without_corner_cases (hg : validateSchema py g = .ok []) (hcap : 0 < cap)
    (hb : ∀ c, ¬ Occurs (.bool c) v) (hi : SmallInts v)
    (h : parseGraph L S g n v ref (Errors.new cap) = .ok (some gv, es)) :
    ValidGraph false L S g false n gv :=
  valid_graph n v gv (fun _ => hi)
    ((C29_without_booleans L S g n v ref cap gv hg hcap hb).1 ⟨es, h⟩)

end

/-- It is violated by the boolean ... -/
theorem C30_violated : ¬ C30Full := by
  intro h
  have hr := h Demo.lib {} countGraph 1 (.obj false [(c!"count", .bool true)]) [] 1
    ⟨[(c!"count", .bool true)], []⟩ (Errors.new 1) (by decide) (by decide) rfl
  cases hr.attrs with
  | cons h1 _ =>
    rcases h1.2 with h2 | ⟨i, h2, _⟩ | ⟨h2, _⟩
    · exact absurd h2.1 (by decide)
    · simp at h2
    · simp at h2

/-- A graph with one float which is at least 2^53 + 1 -/
def massGraph : Graph :=
  { name := c!"Shop"
    properties := [{ name := c!"mass", ty := .float { min := some (2 ^ 53 + 1) }, json := c!"mass" }] }

/-- ... and by the rounding: the integer 2^53 + 1 is stored as 2^53. -/
theorem C30_violated_by_rounding : ¬ ∀ (L : Lib) (S : Settings) (g : Graph) (n : Nat) (v : Json)
    (ref : Str) (cap : Int) (gv : GraphVal) (es : Errors), validateSchema py g = .ok [] → 0 < cap →
    (∀ c, ¬ Occurs (.bool c) v) →
    parseGraph L S g n v ref (Errors.new cap) = .ok (some gv, es) → ValidGraph true L S g false n gv := by
  intro h
  have hr := h Demo.lib {} massGraph 1 (.obj false [(c!"mass", .int (2 ^ 53 + 1))]) [] 1
    ⟨[(c!"mass", .float (.fin (2 ^ 53)))], []⟩ (Errors.new 1) (by decide) (by decide)
    (by
      intro c hc
      cases hc with
      | entry hm ho =>
        simp only [List.mem_singleton, Prod.mk.injEq] at hm
        obtain ⟨rfl, rfl⟩ := hm
        cases ho)
    (C29_conforming_accepted _ _ _ _ _ _ _ _ (by decide) (by decide)
      ⟨false, _, rfl, .nil, .cons ⟨rfl, .inr ⟨_, _, _, .int _,
        rfl, ⟨fun m hm => by cases hm; exact Rat.le_refl, fun m _ h => by simp at h, fun m hm => by simp at hm,
          fun m hm => by simp at hm⟩, by decide +kernel⟩⟩ .nil⟩)
  cases hr.attrs with
  | cons h1 _ =>
    rcases h1.2 with ⟨h2, _⟩ | ⟨f, h2, h3⟩
    · simp at h2
    · cases h2
      rcases h3 with h3 | ⟨h3, _⟩
      · exact absurd (h3.lower _ rfl) (by decide +kernel)
      · simp at h3

/-- The input of the examples holds no boolean and no large integer. -/
example : ∀ c, ¬ Occurs (.bool c) Demo.input := by
  simp [Demo.input, occurs_obj, occurs_arr, occurs_str, occurs_int, occurs_float, occurs_null]
example : SmallInts Demo.input := by
  intro i hi
  simp [Demo.input, occurs_obj, occurs_arr, occurs_str, occurs_int, occurs_float, occurs_null] at hi
  omega
example : ValidGraph true Demo.lib {} Demo.schema true 5 Demo.value :=
  C30_valid_partial Demo.lib {} Demo.schema 5 Demo.input c!"#" 10 Demo.value (Errors.new 10)
    (by decide) (by decide) rfl

/-! ## C45 -/

section

variable (L : Lib) (S : Settings) (g : Graph) (n : Nat) (v : Json) (ref : Str)

/-- **C45.** The errors recorded with a smaller cap are the first ones recorded with a larger cap. -/
theorem C45_prefix (k m : Int) (hk : 0 < k) (hm : k ≤ m) (o o' : Option GraphVal) (es es' : Errors)
    (h : parseGraph L S g n v ref (Errors.new k) = .ok (o, es))
    (h' : parseGraph L S g n v ref (Errors.new m) = .ok (o', es')) :
    es.values = es'.values.take k.toNat := by
  have key : ∀ (c : Int) (o : Option GraphVal) (es : Errors), 0 < c →
      parseGraph L S g n v ref (Errors.new c) = .ok (o, es) →
      ∃ r log, (tGraph L S g n v ref = .ok (r, log) ∨ ∃ x, tGraph L S g n v ref = .error (x, log)) ∧
        es.values = log.take c.toNat := by
    intro c o es hc h
    rcases run_spec L S g n v ref c hc o es h with ⟨log, ht, rfl⟩ | ⟨rfl, x, log, ht, rfl, _⟩
    · exact ⟨_, log, .inl ht, new_values hc log⟩
    · exact ⟨none, log, .inr ⟨x, ht⟩, new_values hc log⟩
  obtain ⟨r1, l1, ht1, h1⟩ := key k o es hk h
  obtain ⟨r2, l2, ht2, h2⟩ := key m o' es' (by omega) h'
  have hl : l1 = l2 := by
    rcases ht1 with ht1 | ⟨x, ht1⟩ <;> rcases ht2 with ht2 | ⟨y, ht2⟩ <;> rw [ht1] at ht2 <;>
      simp_all
  rw [h1, h2, hl, List.take_take, Nat.min_eq_left (by omega)]

/-- A smaller cap returns whenever a larger one does. -/
theorem C45_returns (k m : Int) (hk : 0 < k) (hm : k ≤ m) (o' : Option GraphVal) (es' : Errors)
    (h' : parseGraph L S g n v ref (Errors.new m) = .ok (o', es')) :
    ∃ o es, parseGraph L S g n v ref (Errors.new k) = .ok (o, es) := by
  rcases run_spec L S g n v ref m (by omega) o' es' h' with ⟨log, ht, rfl⟩ | ⟨rfl, x, log, ht, rfl, hf⟩
  · exact ⟨_, _, (sim_graph L S g n v ref k hk).1 _ _ ht⟩
  · have hlen : k.toNat ≤ log.length := by
      simp only [Errors.full, decide_eq_true_eq, addAll_cap, new_values (Int.lt_of_lt_of_le hk hm),
        List.length_take] at hf
      have hc : (Errors.new m).cap = m := rfl
      rw [hc] at hf
      omega
    have hfk : (addAll (Errors.new k) log).full = true := by
      simp only [Errors.full, decide_eq_true_eq, addAll_cap, new_values hk, List.length_take]
      have hc : (Errors.new k).cap = k := rfl
      rw [hc]
      omega
    exact ⟨_, _, ((sim_graph L S g n v ref k hk).2 x log ht).2 hfk⟩

/-- With a cap beyond the number of errors, the list is complete: no larger cap records more. -/
theorem C45_complete (k m : Int) (hk : 0 < k) (hm : k ≤ m) (o o' : Option GraphVal) (es es' : Errors)
    (h : parseGraph L S g n v ref (Errors.new k) = .ok (o, es)) (hroom : (es.values.length : Int) < k)
    (h' : parseGraph L S g n v ref (Errors.new m) = .ok (o', es')) : es.values = es'.values := by
  have hp := C45_prefix L S g n v ref k m hk hm o o' es es' h h'
  rw [hp, List.length_take] at hroom
  rw [hp, List.take_of_length_le (by omega)]

end

end Mapry.Props
