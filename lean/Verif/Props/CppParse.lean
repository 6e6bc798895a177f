import Verif.CppDemo
import Verif.CppValid
import Verif.Props.GoParse

/-! # C52, C53: what the generated C++ parser accepts and when it throws -/

namespace Mapry.Props.Cpp

open Mapry.Duration Mapry.CppRuntime Mapry.CppRuntime.Spec Mapry.LangValidate

/-! ## Schemas which pass the validation for C++ -/

/-- No name of a property has a capital letter. -/
structure LowerNames (g : Graph) : Prop where
  graph : ∀ p ∈ g.properties, Mapry.lower p.name = p.name
  cls : ∀ c ∈ g.classes, ∀ p ∈ c.properties, Mapry.lower p.name = p.name
  embed : ∀ e ∈ g.embeds, ∀ p ∈ e.properties, Mapry.lower p.name = p.name

/-- The validation for C++ guarantees distinct fields and class names. -/
theorem compiles_of_valid {g : Graph} (h : validateSchema cpp g = .ok []) (hl : LowerNames g) : Compiles g := by
  have hs := (C24_valid_iff g).1 h
  have key : ∀ ps ns, Forall₂ (FieldName ⟨cpp17 ++ cppExtra, Naming.asAttribute, Naming.asComposite, c!"id"⟩) ps ns →
      ns.Nodup → (ps.map fun p : Property => p.name).Nodup := by
    intro ps ns h hn
    rw [nodup_of_forall₂ (fun p n hp => attribute_eq hp) h] at hn
    exact (List.pairwise_map.2 ((List.pairwise_map.1 hn).imp fun h h' => h (by rw [h'])))
  obtain ⟨ids, hids, hnd, _⟩ := hs.ids
  obtain ⟨ns, rs, hns, _, hgn, _⟩ := hs.graphFields
  refine ⟨⟨hl.graph, key _ _ hns (List.nodup_append.1 hgn).1⟩, fun c hc => ⟨hl.cls c hc, ?_⟩,
    fun e he => ⟨hl.embed e he, ?_⟩, ?_⟩
  · obtain ⟨ns, h1, h2, _⟩ := hs.fields ⟨.cls, c.name, c.ref, c.properties⟩ (by
      unfold definitions
      exact List.mem_append_left _ (List.mem_map.2 ⟨c, hc, rfl⟩))
    exact key _ _ h1 h2
  · obtain ⟨ns, h1, h2, _⟩ := hs.fields ⟨.embed, e.name, e.ref, e.properties⟩ (by
      unfold definitions
      exact List.mem_append_right _ (List.mem_map.2 ⟨e, he, rfl⟩))
    exact key _ _ h1 h2
  · have := nodup_names (name := fun c : Comp => c.name) (fun x y n m hx hy hxy => by
      unfold CompId at hx hy
      rw [hxy, hy] at hx
      exact (Except.ok.inj hx).symm) hids hnd
    unfold definitions at this
    rw [List.map_append, List.map_map] at this
    exact (List.nodup_append.1 this).1

/-! ## C52 -/

/-- The parser returns the graph and the container is empty. -/
def Accepts (D : DateLib) (L : Lib) (g : Graph) (n : Nat) (v : JVal) (ref : Str) (target : GraphVal) (cap : Nat)
    (gv : GraphVal) : Prop :=
  ∃ e, parseGraph D L g n v ref target (.new cap) = .ok (gv, e) ∧ e.values = []

/-- The full property: no error is recorded iff the input conforms to the schema, and then the target is the
graph described. -/
def C52Full : Prop := ∀ (D : DateLib) (L : Lib) (g : Graph) (n : Nat) (v : JVal) (ref : Str) (cap : Nat)
  (gv : GraphVal), validateSchema cpp g = .ok [] → DefinedGraph g → Canon v →
  (Accepts D L g n v ref (newGraph g) cap gv ↔ ReadsGraph D L (Whole D L) g n v gv)

/-- What an outcome says about an empty container -/
theorem accepts_of_outcome {R : GraphVal → Prop} {B : Exc → Prop} {cap : Nat}
    {r : Except Exc (GraphVal × CppErrors)} (h : Outcome R B (.new cap) r) (gv : GraphVal) :
    (∃ e, r = .ok (gv, e) ∧ e.values = []) ↔ R gv := by
  cases r with
  | error x =>
    constructor
    · rintro ⟨e, he, _⟩; cases he
    · intro hr; exact absurd hr (h.2 gv)
  | ok p =>
    obtain ⟨x, e'⟩ := p
    rcases h with ⟨rfl, h1, h2⟩ | ⟨h1, _, h3⟩
    · constructor
      · rintro ⟨e, he, _⟩; cases he; exact h1
      · intro hr
        rw [h2 gv hr]
        exact ⟨_, rfl, rfl⟩
    · constructor
      · rintro ⟨e, he, hv⟩
        cases he
        have := h1.lt
        rw [hv] at this
        exact absurd this (Nat.not_lt_zero _)
      · intro hr; exact absurd hr (h3 gv)

section

variable (D : DateLib) (L : Lib) (g : Graph) (n : Nat) (ref : Str) (cap : Nat) (v : JVal)

/-- **C52 (partial).** For a container which can hold an error, a schema without capital letters in the names and
with exact bounds of floats, if the uninitialised variable happens to be false: no error is recorded iff the input
conforms to the schema, where the texts of times are read as the libraries read them (`Loose`). -/
theorem C52_accepts_partial (hg : validateSchema cpp g = .ok []) (hl : LowerNames g) (hs : SoundGraph g)
    (hG : NoGarbage L) (hcap : 0 < cap) (hv : Canon v) (gv : GraphVal) :
    Accepts D L g n v ref (newGraph g) cap gv ↔ ReadsGraph D L (Loose D L) g n v gv :=
  accepts_of_outcome (outcome_graph D L g n hG hs (compiles_of_valid hg hl) v hv ref _ (clean_newGraph g n) cap hcap) gv

/-- A text which is a time as a whole is read as this time. -/
theorem loose_of_whole {k : TimeKind} {f s : Str} {t : Time} (h : Whole D L k f s t) : Loose D L k f s t := by
  cases D with
  | ctime => exact ⟨s, [], by simp, h.1, .inl rfl, h.2⟩
  | dateH => exact ⟨[], h⟩

/-- Every conforming input is accepted, with the graph it describes. -/
theorem C52_conforming_accepted (hg : validateSchema cpp g = .ok []) (hl : LowerNames g) (hs : SoundGraph g)
    (hG : NoGarbage L) (hcap : 0 < cap) (hv : Canon v) (gv : GraphVal) (h : ReadsGraph D L (Whole D L) g n v gv) :
    Accepts D L g n v ref (newGraph g) cap gv :=
  (C52_accepts_partial D L g n ref cap v hg hl hs hG hcap hv gv).2
    (CppRuntime.readsGraph_mono (Q := fun _ => True) (fun _ _ _ _ _ h => loose_of_whole D L h) (fun _ _ => trivial) h)

/-- With `ctime` and without NULs in the texts, acceptance is as in the full property. -/
theorem C52_ctime_partial (hg : validateSchema cpp g = .ok []) (hl : LowerNames g) (hs : SoundGraph g)
    (hG : NoGarbage L) (hcap : 0 < cap) (hv : Canon v) (hnul : ∀ s, InsideJ (.str s) v → Char.ofNat 0 ∉ s)
    (gv : GraphVal) :
    Accepts .ctime L g n v ref (newGraph g) cap gv ↔ ReadsGraph .ctime L (Whole .ctime L) g n v gv := by
  constructor
  · intro h
    refine CppRuntime.readsGraph_mono (Q := fun s => Char.ofNat 0 ∉ s) ?_ hnul
      ((C52_accepts_partial .ctime L g n ref cap v hg hl hs hG hcap hv gv).1 h)
    rintro k f s t hs ⟨s', rest, rfl, h1, h2, h3⟩
    rcases h2 with rfl | h2
    · rw [List.append_nil] at hs ⊢
      exact ⟨hs, h3⟩
    · cases rest with
      | nil => cases h2
      | cons c rest =>
        simp only [List.head?_cons, Option.some.injEq] at h2
        subst h2
        exact absurd (List.mem_append_right _ List.mem_cons_self) hs
  · exact C52_conforming_accepted .ctime L g n ref cap v hg hl hs hG hcap hv gv

/-- With `date.h`, it is if the library never leaves a rest. -/
theorem C52_date_partial (hg : validateSchema cpp g = .ok []) (hl : LowerNames g) (hs : SoundGraph g)
    (hG : NoGarbage L) (hcap : 0 < cap) (hv : Canon v)
    (hrest : ∀ s, InsideJ (.str s) v → ∀ k f t rest, L.dateParse k f s = some (t, rest) → rest = []) (gv : GraphVal) :
    Accepts .dateH L g n v ref (newGraph g) cap gv ↔ ReadsGraph .dateH L (Whole .dateH L) g n v gv := by
  constructor
  · intro h
    refine CppRuntime.readsGraph_mono (Q := fun s => ∀ k f t rest, L.dateParse k f s = some (t, rest) → rest = []) ?_ hrest
      ((C52_accepts_partial .dateH L g n ref cap v hg hl hs hG hcap hv gv).1 h)
    rintro k f s t hs ⟨rest, h1⟩
    have := hs k f t rest h1
    subst this
    exact h1
  · exact C52_conforming_accepted .dateH L g n ref cap v hg hl hs hG hcap hv gv

/-- A graph which is accepted satisfies the schema. -/
theorem C52_valid_partial (hg : validateSchema cpp g = .ok []) (hl : LowerNames g) (hs : SoundGraph g)
    (hG : NoGarbage L) (hcap : 0 < cap) (hv : Canon v) (gv : GraphVal)
    (h : Accepts D L g n v ref (newGraph g) cap gv) : ValidGraph g D L n gv :=
  valid_of_reads hv ((C52_accepts_partial D L g n ref cap v hg hl hs hG hcap hv gv).1 h)

/-- At most one graph is accepted whatever the capacity: the container has no influence on the accepted inputs. -/
theorem C52_cap_independent (cap' : Nat) (hg : validateSchema cpp g = .ok []) (hl : LowerNames g) (hs : SoundGraph g)
    (hG : NoGarbage L) (hcap : 0 < cap) (hcap' : 0 < cap') (hv : Canon v) (gv : GraphVal) :
    Accepts D L g n v ref (newGraph g) cap gv ↔ Accepts D L g n v ref (newGraph g) cap' gv :=
  (C52_accepts_partial D L g n ref cap v hg hl hs hG hcap hv gv).trans
    (C52_accepts_partial D L g n ref cap' v hg hl hs hG hcap' hv gv).symm

end

/-! ### The examples -/

theorem canon_obj (kvs : List (Str × JVal)) :
    Canon (.obj kvs) ↔ GoMap.Ascending kvs ∧ ∀ kv ∈ kvs, Canon kv.2 :=
  ⟨fun h => by cases h with | obj _ h1 h2 => exact ⟨h1, h2⟩, fun h => .obj _ h.1 h.2⟩

theorem canon_arr (xs : List JVal) : Canon (.arr xs) ↔ ∀ x ∈ xs, Canon x :=
  ⟨fun h => by cases h with | arr _ h1 => exact h1, fun h => .arr _ h⟩

theorem canon_str (s : Str) : Canon (.str s) ↔ True := ⟨fun _ => trivial, fun _ => .str s⟩
theorem canon_real (f : F64) : Canon (.real f) ↔ True := ⟨fun _ => trivial, fun _ => .real f⟩
theorem canon_bool (b : Bool) : Canon (.bool b) ↔ True := ⟨fun _ => trivial, fun _ => .bool b⟩
theorem canon_uint (n : Nat) : Canon (.uint n) ↔ True := ⟨fun _ => trivial, fun _ => .uint n⟩
theorem canon_int (i : Int) : Canon (.int i) ↔ IsInt64 i :=
  ⟨fun h => by cases h with | int _ h => exact h, fun h => .int i h⟩

theorem depth_obj (n : Nat) (kvs : List (Str × JVal)) :
    DepthLe (n + 1) (.obj kvs) ↔ ∀ kv ∈ kvs, DepthLe n kv.2 :=
  ⟨fun h => by cases h with | obj _ _ h1 => exact h1, fun h => .obj _ _ h⟩

theorem depth_arr (n : Nat) (xs : List JVal) : DepthLe n (.arr xs) ↔ ∀ x ∈ xs, DepthLe n x :=
  ⟨fun h => by cases h with | arr _ _ h1 => exact h1, fun h => .arr _ _ h⟩

theorem depth_str (n : Nat) (s : Str) : DepthLe n (.str s) ↔ True := ⟨fun _ => trivial, fun _ => .str n s⟩
theorem depth_real (n : Nat) (f : F64) : DepthLe n (.real f) ↔ True := ⟨fun _ => trivial, fun _ => .real n f⟩
theorem depth_int (n : Nat) (i : Int) : DepthLe n (.int i) ↔ True := ⟨fun _ => trivial, fun _ => .int n i⟩
theorem depth_uint (n : Nat) (i : Nat) : DepthLe n (.uint i) ↔ True := ⟨fun _ => trivial, fun _ => .uint n i⟩

theorem texts_str (Q : Str → Prop) (s : Str) : Texts Q (.str s) ↔ Q s :=
  ⟨fun h => h s .here, fun h s' hs => by cases hs; exact h⟩
theorem texts_int (Q : Str → Prop) (i : Int) : Texts Q (.int i) ↔ True :=
  ⟨fun _ => trivial, fun _ s' hs => by cases hs⟩
theorem texts_arr (Q : Str → Prop) (xs : List JVal) : Texts Q (.arr xs) ↔ ∀ x ∈ xs, Texts Q x :=
  ⟨fun h _ hx => h.item hx, fun h s hs => by cases hs with | item h1 h2 => exact h _ h1 s h2⟩
theorem texts_obj (Q : Str → Prop) (kvs : List (Str × JVal)) : Texts Q (.obj kvs) ↔ ∀ kv ∈ kvs, Texts Q kv.2 :=
  ⟨fun h _ hx => h.entry hx, fun h s hs => by cases hs with | entry h1 h2 => exact h _ h1 s h2⟩

namespace Example

theorem input_canon : Canon Demo.input := by
  simp only [Demo.input, canon_obj, canon_arr, canon_str, canon_real, canon_int, canon_uint, List.forall_mem_cons,
    and_true, List.not_mem_nil, false_imp_iff, implies_true, GoMap.Ascending]
  decide

theorem wrong_canon : Canon Demo.wrong := by
  simp only [Demo.wrong, canon_obj, canon_arr, canon_str, canon_real, canon_int, canon_uint, List.forall_mem_cons,
    and_true, List.not_mem_nil, false_imp_iff, implies_true, GoMap.Ascending]
  decide

theorem input_depth : DepthLe 3 Demo.input := by
  simp [Demo.input, depth_obj, depth_arr, depth_str, depth_real, depth_int, depth_uint]

theorem wrong_depth : DepthLe 3 Demo.wrong := by
  simp [Demo.wrong, depth_obj, depth_arr, depth_str, depth_real, depth_int, depth_uint]

theorem schema_valid : validateSchema cpp Demo.schema = .ok [] := by decide +kernel

theorem schema_lower : LowerNames Demo.schema := by constructor <;> decide

theorem exactBounds_of_small (b : Bounds) (h : ∀ m, b.min = some m ∨ b.max = some m → m.natAbs ≤ 2 ^ 53) :
    ExactBounds b :=
  ⟨fun m hm => PyRuntime.round_int_exact m (h m (.inl hm)), fun m hm => PyRuntime.round_int_exact m (h m (.inr hm))⟩

theorem schema_sound : SoundGraph Demo.schema := by
  constructor
  · simp only [PyRuntime.Demo.schema, List.forall_mem_cons, List.not_mem_nil, false_imp_iff, implies_true, and_true]
    refine ⟨⟨_, rfl⟩, exactBounds_of_small _ ?_, trivial⟩
    rintro m (h | h) <;> cases h
    decide
  · simp only [PyRuntime.Demo.schema, List.forall_mem_cons, List.not_mem_nil, false_imp_iff, implies_true, and_true]
    exact ⟨trivial, trivial, trivial, trivial⟩
  · simp only [PyRuntime.Demo.schema, List.forall_mem_cons, List.not_mem_nil, false_imp_iff, implies_true, and_true]
    exact ⟨trivial, trivial⟩

/-- The input of the examples is read. -/
theorem demo_parsed : parseGraph .ctime Demo.lib Demo.schema 3 Demo.input c!"#" (newGraph Demo.schema) (.new 5) =
    .ok (Demo.value, .new 5) := by
  decide +kernel

example : Accepts .ctime Demo.lib Demo.schema 3 Demo.input c!"#" (newGraph Demo.schema) 5 Demo.value :=
  ⟨_, demo_parsed, rfl⟩
/-- ... hence the input describes the graph. -/
theorem demo_reads : ReadsGraph .ctime Demo.lib (Loose .ctime Demo.lib) Demo.schema 3 Demo.input Demo.value :=
  (C52_accepts_partial .ctime Demo.lib Demo.schema 3 c!"#" 5 Demo.input schema_valid schema_lower schema_sound
    Demo.lib_garbage (by decide) input_canon Demo.value).1 ⟨_, demo_parsed, rfl⟩
theorem demo_valid : ValidGraph Demo.schema .ctime Demo.lib 3 Demo.value :=
  C52_valid_partial .ctime Demo.lib Demo.schema 3 c!"#" 5 Demo.input schema_valid schema_lower schema_sound
    Demo.lib_garbage (by decide) input_canon Demo.value ⟨_, demo_parsed, rfl⟩
/-- The two errors of the other input: one does not fit into the container. -/
example : (parseGraph .ctime Demo.lib Demo.schema 3 Demo.wrong c!"#" (newGraph Demo.schema) (.new 1)).map
    (fun r => r.2.values.map (·.ref)) = .ok [c!"#/persons/p1/age"] := by decide +kernel
example : (parseGraph .ctime Demo.lib Demo.schema 3 Demo.wrong c!"#" (newGraph Demo.schema) (.new 5)).map
    (fun r => r.2.values.map (·.ref)) = .ok [c!"#/persons/p1/age", c!"#/persons/p2/name", c!"#/homes"] := by
  decide +kernel

end Example

/-! ### Violations -/

section

variable {ty : Ty} {optional : Bool} {D : DateLib} {L : Lib} {M : Meaning} {n : Nat} {v : JVal}

theorem single_defined (h : DefinedTy (Demo.single ty optional) ty) : DefinedGraph (Demo.single ty optional) :=
  ⟨by simpa [Demo.single] using h, by simp [Demo.single], by simp [Demo.single]⟩

/-- What describes a graph with a single property -/
theorem single_reads {x : Val} (h : Reads D L M (Demo.single ty optional)
    (Described (Demo.single ty optional) [(c!"it", v)]) n ty v x) :
    ReadsGraph D L M (Demo.single ty optional) n (.obj [(c!"it", v)]) ⟨[(c!"it", x)], []⟩ :=
  ⟨_, rfl, .nil, .cons ⟨rfl, h⟩ .nil⟩

theorem single_not_reads {fields : CppRuntime.Fields} {regs : List (Str × GoMap Instance)}
    (h : ReadsGraph D L M (Demo.single ty optional) n (.obj [(c!"it", v)]) ⟨fields, regs⟩) :
    ∃ x, fields = [(c!"it", x)] ∧ Reads D L M (Demo.single ty optional)
      (Described (Demo.single ty optional) [(c!"it", v)]) n ty v x := by
  obtain ⟨kvs, hk, hr, hp⟩ := h
  cases hk
  unfold ReadsProps at hp
  simp only [Demo.single] at hp
  cases hp with
  | @cons _ f _ fs h1 h2 =>
    cases h2
    obtain ⟨a, b⟩ := f
    have h3 : a = c!"it" := h1.1
    subst h3
    exact ⟨b, rfl, h1.2⟩

end

/-- Nothing is recorded in a container which can not hold an error: a missing property goes unnoticed. -/
theorem C52_violated_cap : ¬ C52Full := by
  intro h
  have h1 := (h .ctime Demo.lib (Demo.single .boolean) 1 (.obj []) [] 0 ⟨[(c!"it", .zero)], []⟩ (by decide +kernel)
    (single_defined trivial) (.obj _ .nil (fun _ h => by cases h))).1 ⟨.new 0, by decide +kernel, rfl⟩
  obtain ⟨kvs, hk, _, hp⟩ := h1
  cases hk
  cases hp with
  | cons h1 _ => exact absurd h1.2.1 (by decide)

theorem text_canon (s : Str) : Canon (.obj [(c!"it", .str s)]) := by
  rw [canon_obj]
  exact ⟨by simp [GoMap.Ascending], by simp [canon_str]⟩

/-- With `date.h` a date may be followed by anything. -/
theorem C52_violated_trailing : ¬ C52Full := by
  intro h
  have h1 := (h .dateH Demo.lib (Demo.single (.date c!"%Y-%m-%d")) 1 (.obj [(c!"it", .str c!"2020-01-02 or so")]) [] 5
    ⟨[(c!"it", .time { year := 2020, month := 1, day := 2 })], []⟩ (by decide +kernel)
    (single_defined trivial) (text_canon _)).1 ⟨.new 5, by decide +kernel, rfl⟩
  obtain ⟨x, _, s, t, hs, hm, _⟩ := single_not_reads h1
  cases hs
  exact absurd hm (by
    show ¬ Demo.lib.dateParse .date c!"%Y-%m-%d" c!"2020-01-02 or so" = some (t, [])
    simp [Demo.lib])

/-- With `ctime` it may be followed by anything after a NUL. -/
theorem C52_violated_nul : ¬ C52Full := by
  intro h
  have h1 := (h .ctime Demo.lib (Demo.single (.date c!"%Y-%m-%d")) 1
    (.obj [(c!"it", .str (c!"2020-01-02" ++ Char.ofNat 0 :: c!" or so"))]) [] 5
    ⟨[(c!"it", .time { year := 2020, month := 1, day := 2 })], []⟩ (by decide +kernel)
    (single_defined trivial) (text_canon _)).1 ⟨.new 5, by decide +kernel, rfl⟩
  obtain ⟨x, _, s, t, hs, hm, _⟩ := single_not_reads h1
  cases hs
  exact absurd hm.1 (by decide)

/-- If the uninitialised variable happens to be true, no duration is accepted. -/
theorem C52_violated_uninitialised : ¬ C52Full := by
  intro h
  obtain ⟨e, h1, h2⟩ := (h .ctime { Demo.lib with garbage := fun _ => true } (Demo.single .duration) 1
    (.obj [(c!"it", .str c!"PT1S")]) [] 5 ⟨[(c!"it", .duration 1000000000)], []⟩ (by decide +kernel)
    (single_defined trivial) (text_canon _)).2
    (single_reads ⟨c!"PT1S", 1000000000, rfl, by decide +kernel, rfl⟩)
  have h3 : (parseGraph .ctime { Demo.lib with garbage := fun _ => true } (Demo.single .duration) 1
    (.obj [(c!"it", .str c!"PT1S")]) [] (newGraph (Demo.single .duration)) (.new 5)).map (fun r => r.2.values) = .ok [] := by
    rw [h1, ← h2]; rfl
  exact absurd h3 (by decide +kernel)

theorem two_within : PyRuntime.Spec.Within { max := some (2 ^ 53 + 1), exMax := true } (2 ^ 53 : Rat) := by
  constructor
  all_goals intro m hm
  all_goals cases hm
  all_goals decide +kernel

/-- A bound which is not a double is rounded: 2^53 is rejected although it is less than the maximum. -/
theorem C52_violated_bound : ¬ C52Full := by
  intro h
  obtain ⟨e, h1, h2⟩ := (h .ctime Demo.lib (Demo.single (.float { max := some (2 ^ 53 + 1), exMax := true })) 1
    (.obj [(c!"it", .real (.fin (2 ^ 53)))]) [] 5 ⟨[(c!"it", .float (.fin (2 ^ 53)))], []⟩ (by decide +kernel)
    (single_defined trivial) (by
      rw [canon_obj]
      exact ⟨by simp [GoMap.Ascending], by simp [canon_real]⟩)).2
    (single_reads ⟨_, .inr (.inr rfl), rfl, two_within⟩)
  have h3 : (parseGraph .ctime Demo.lib (Demo.single (.float { max := some (2 ^ 53 + 1), exMax := true })) 1
    (.obj [(c!"it", .real (.fin (2 ^ 53)))]) [] (newGraph (Demo.single (.float { max := some (2 ^ 53 + 1), exMax := true })))
    (.new 5)).map (fun r => r.2.values) = .ok [] := by
    rw [h1, ← h2]; rfl
  exact absurd h3 (by decide +kernel)

/-! ## C53 -/

/-- The full property: whatever the container and the target, the parser returns if the stack suffices for the
nesting of the input. -/
def C53Full : Prop := ∀ (D : DateLib) (L : Lib) (g : Graph) (n m : Nat) (v : JVal) (ref : Str) (target : GraphVal)
  (cap : Nat), validateSchema cpp g = .ok [] → DefinedGraph g → Canon v → DepthLe m v → m < n →
  ∃ r, parseGraph D L g n v ref target (.new cap) = .ok r

section

variable (D : DateLib) (L : Lib) (g : Graph) (n : Nat) (ref : Str) (target : GraphVal) (cap : Nat) (v : JVal)

/-- Whatever the target, the exceptions are `std::out_of_range` on a text which is a duration with too large numbers
and the exhausted stack for an input which is nested too deeply. -/
theorem C53_only_throws (hd : DefinedGraph g) (hcap : 0 < cap) (x : Exc)
    (h : parseGraph D L g n v ref target (.new cap) = .error x) :
    (x = .overflowError ∧ ∃ s, InsideJ (.str s) v ∧ cppFromString (L.garbage s) s = .throws) ∨
      (x = .recursionError ∧ ∀ m, m < n → ¬ DepthLe m v) :=
  (throws_graph D L g n hd v ref target cap hcap).only x h

/-- **C53 (partial).** With a container which can hold an error, and without such a text in the input, the parser
returns. -/
theorem C53_returns_partial (m : Nat) (hd : DefinedGraph g) (hcap : 0 < cap) (hm : DepthLe m v) (hn : m < n)
    (hs : ∀ s, InsideJ (.str s) v → cppFromString (L.garbage s) s ≠ .throws) :
    ∃ r, parseGraph D L g n v ref target (.new cap) = .ok r := by
  cases h : parseGraph D L g n v ref target (.new cap) with
  | ok r => exact ⟨r, rfl⟩
  | error x =>
    rcases C53_only_throws D L g n ref target cap v hd hcap x h with ⟨_, s, h1, h2⟩ | ⟨_, h1⟩
    · exact absurd h2 (hs s h1)
    · exact absurd hm (h1 m hn)

theorem definedTy_of_go : ∀ t, GoRuntime.Spec.DefinedTy g t → DefinedTy g t
  | .array t _ _, h => definedTy_of_go t h
  | .map t, h => definedTy_of_go t h
  | .embed _, h => h
  | .boolean, _ | .integer _, _ | .float _, _ | .string _, _ | .path _, _ | .date _, _ | .time _, _ | .datetime _, _
  | .timeZone, _ | .duration, _ | .cls _, _ => trivial

/-- The code generated for a schema which is read from a mapping returns. -/
theorem C53_returns_parsed_partial (V : Validation.Lib) (mapping : PyRuntime.Json) (at_ref : Str)
    (s : ParseSchema.Schema) (hs : ParseSchema.schemaFromMapping V mapping at_ref = .ok s) (m : Nat) (hcap : 0 < cap)
    (hm : DepthLe m v) (hn : m < n) (ht : ∀ s, InsideJ (.str s) v → cppFromString (L.garbage s) s ≠ .throws) :
    ∃ r, parseGraph D L s.graph n v ref target (.new cap) = .ok r := by
  have hd := Props.defined_of_parsed hs
  exact C53_returns_partial D L s.graph n ref target cap v m
    ⟨fun p hp => definedTy_of_go _ _ (hd.graph p hp), fun c hc p hp => definedTy_of_go _ _ (hd.cls c hc p hp),
      fun e he p hp => definedTy_of_go _ _ (hd.embed e he p hp)⟩ hcap hm hn ht

/-- A container which is not empty is the caller's mistake and is reported as such. -/
theorem C53_nonempty (e : CppErrors) (he : e.values ≠ []) :
    parseGraph D L g n v ref target e = .error (.valueError c!"Unexpected non-empty errors") := by
  unfold parseGraph
  rw [if_pos]
  unfold CppErrors.empty
  cases hv : e.values with
  | nil => exact absurd hv he
  | cons _ _ => rfl

end

example : ∃ r, parseGraph .ctime Demo.lib Demo.schema 4 Demo.wrong c!"#" Demo.value (.new 1) = .ok r := by
  refine C53_returns_partial .ctime Demo.lib Demo.schema 4 c!"#" Demo.value 1 Demo.wrong 3
    (CppRuntime.SoundGraph.defined Example.schema_sound) (by decide) Example.wrong_depth (by decide) ?_
  show Texts _ _
  simp only [Demo.wrong, texts_obj, texts_arr, texts_str, texts_int, List.forall_mem_cons, List.not_mem_nil,
    false_imp_iff, implies_true, and_true, true_and, Demo.lib]
  decide +kernel

/-- The numbers of a duration are not limited. -/
theorem C53_violated_duration : ¬ C53Full := by
  intro h
  obtain ⟨r, hr⟩ := h .ctime Demo.lib (Demo.single .duration) 2 1 (.obj [(c!"it", .str c!"PT9223372036854775808S")]) []
    (newGraph (Demo.single .duration)) 5 (by decide +kernel) (single_defined trivial) (text_canon _)
    (by simp [depth_obj, depth_str]) (by decide)
  exact absurd hr (by
    have : parseGraph .ctime Demo.lib (Demo.single .duration) 2 (.obj [(c!"it", .str c!"PT9223372036854775808S")]) []
      (newGraph (Demo.single .duration)) (.new 5) = .error .overflowError := by decide +kernel
    rw [this]
    simp)

/-- With a container which can not hold an error, an identifier which does not match the pattern is looked up. -/
theorem C53_violated_cap : ¬ C53Full := by
  intro h
  obtain ⟨r, hr⟩ := h .ctime Demo.lib (Demo.registry (some c!"p")) 4 3 (.obj [(c!"somes", .obj [(c!"x", .obj [])])]) []
    (newGraph (Demo.registry (some c!"p"))) 0 (by decide +kernel)
    ⟨by simp [Demo.registry], by simp [Demo.registry], by simp [Demo.registry]⟩
    (by simp [canon_obj, GoMap.Ascending]) (by simp [depth_obj]) (by decide)
  exact absurd hr (by
    have : parseGraph .ctime Demo.lib (Demo.registry (some c!"p")) 4 (.obj [(c!"somes", .obj [(c!"x", .obj [])])]) []
      (newGraph (Demo.registry (some c!"p"))) (.new 0) = .error .overflowError := by decide +kernel
    rw [this]
    simp)

end Mapry.Props.Cpp
