import Verif.SchemaClaims
import Verif.PyDemo

/-!
# Properties of the validation and the parsing of a schema (C18–C22, C49, C50)

The specification of a schema mapping is in `Verif/SchemaSpec.lean`.
-/

namespace Mapry.Props

open Mapry.PyRuntime (Json)
open Mapry.SchemaSpec Mapry.Validation Mapry.ParseSchema

/-! ## A schema for the examples -/

namespace SchemaDemo

/-- A library which rejects only the pattern `[` -/
def lib : Validation.Lib where
  compileError p := if p = c!"[" then some c!"unterminated character set" else none
  explainGraph _ := ([], c!"invalid")
  explainType _ := ([], c!"invalid")
  render _ := c!"error"

def object (kvs : List (Str × Json)) : Json := .obj true kvs
def text (s : Str) : Json := .str s

/-- The definition of a type with a description -/
def definition (type : Str) (rest : List (Str × Json)) : Json :=
  object ((c!"type", text type) :: (c!"description", text c!"is described.") :: rest)

def age : Json := definition c!"integer"
  [(c!"minimum", .int 0), (c!"maximum", .int 150), (c!"exclusive_maximum", .bool true)]

def share : Json := definition c!"float"
  [(c!"minimum", .int 0), (c!"exclusive_minimum", .bool true), (c!"maximum", .float (.fin 1)),
   (c!"json", text c!"Share"), (c!"optional", .bool true)]

def friends : Json := definition c!"array"
  [(c!"values", .obj false [(c!"type", text c!"Person")]), (c!"minimum_size", .int 1)]

def person : Json := object
  [(c!"name", text c!"Person"), (c!"description", text c!"is a person."), (c!"plural", text c!"People"),
   (c!"id_pattern", text c!"^[a-z]+$"),
   (c!"properties", object [(c!"friends", friends), (c!"age", age)])]

def address : Json := object
  [(c!"name", text c!"Address"), (c!"description", text c!"is an address."),
   (c!"properties", .obj false [(c!"town", definition c!"string" []), (c!"owner", definition c!"Person" [])])]

def mapping : Json := object
  [(c!"name", text c!"Shop"), (c!"description", text c!"is a shop."),
   (c!"py", object [(c!"module_name", text c!"some.shop"), (c!"path_as", text c!"str"),
     (c!"timezone_as", text c!"str")]),
   (c!"classes", .arr [person]), (c!"embeds", .arr [address]),
   (c!"properties", object [(c!"share", share), (c!"place", definition c!"Address" [])])]

theorem valid : validate lib mapping c!"#" = .ok [] := by decide +kernel

/-- The schema which is parsed -/
def schema : Schema where
  graph :=
    { ref := c!"#", name := c!"Shop", description := c!"is a shop.",
      classes := [
        { name := c!"Person", plural := c!"People", description := c!"is a person.", ref := c!"#/classes/0",
          idPattern := some c!"^[a-z]+$",
          properties := [
            { ref := c!"#/classes/0/friends", name := c!"friends", json := c!"friends",
              description := c!"is described.", ty := .array (.cls c!"Person") (some 1) none },
            { ref := c!"#/classes/0/age", name := c!"age", json := c!"age", description := c!"is described.",
              ty := .integer ⟨some 0, false, some 150, true⟩ }] }],
      embeds := [
        { name := c!"Address", description := c!"is an address.", ref := c!"#/embeds/0",
          properties := [
            { ref := c!"#/embeds/0/owner", name := c!"owner", json := c!"owner", description := c!"is described.",
              ty := .cls c!"Person" },
            { ref := c!"#/embeds/0/town", name := c!"town", json := c!"town", description := c!"is described.",
              ty := .string none }] }],
      properties := [
        { ref := c!"#/share", name := c!"share", json := c!"Share", optional := true, description := c!"is described.",
          ty := .float ⟨some 0, true, some 1, false⟩ },
        { ref := c!"#/place", name := c!"place", json := c!"place", description := c!"is described.",
          ty := .embed c!"Address" }] }
  cpp := none
  go := none
  py := some ⟨c!"some.shop", c!"str", c!"str", c!"    "⟩

theorem parsed : schemaFromMapping lib mapping c!"#" = .ok schema := by decide +kernel

/-- A mapping with one property of the graph -/
def single (type : Str) (rest : List (Str × Json)) : Json := object
  [(c!"name", text c!"Shop"), (c!"description", text c!"is a shop."),
   (c!"properties", object [(c!"x", definition type rest)])]

theorem single_within (type : Str) (rest : List (Str × Json)) : Within (single type rest) (definition type rest) :=
  ⟨_, c!"x", _, .inl rfl, ⟨true, [(c!"x", definition type rest)], rfl, by simp⟩, .self _⟩

/-- The graph parsed from a float with the minimum 0.5 -/
def halfGraph : Graph where
  ref := c!"#"
  name := c!"Shop"
  description := c!"is a shop."
  properties := [
    { ref := c!"#/x", name := c!"x", json := c!"x", description := c!"is described.",
      ty := .float ⟨some 0, false, none, false⟩ }]

end SchemaDemo

open SchemaDemo in
/-- An invalid pattern is reported. -/
example : validate lib (single c!"string" [(c!"pattern", text c!"[")]) c!"#" =
    .ok [⟨c!"#/properties/x/pattern", .pattern c!"unterminated character set"⟩] := by decide +kernel

/-! ## C18 -/

def C18Full : Prop := ∀ (L : Validation.Lib) (mapping : Json) (ref : Str), validate L mapping ref = .ok [] →
  ∀ w, Within mapping w →
    (HasType w c!"integer" → ∃ i : Int, InRange w (.fin i)) ∧
    (HasType w c!"float" → ∃ x : F64, InRange w x) ∧
    (HasType w c!"array" → ∃ n : Nat, InSizes w n)

/-- It is violated: there is no integer between 0 and 1. -/
theorem C18_violated : ¬ C18Full := by
  intro h
  obtain ⟨i, hi⟩ := (h SchemaDemo.lib (SchemaDemo.single c!"integer"
    [(c!"minimum", .int 0), (c!"maximum", .int 1), (c!"exclusive_minimum", .bool true),
     (c!"exclusive_maximum", .bool true)]) c!"#" (by decide +kernel) _ (SchemaDemo.single_within _ _)).1 rfl
  have h1 := (hi.min (.int 0) (.fin 0) rfl (.int 0)).2 (.inl rfl)
  have h2 := (hi.max (.int 1) (.fin 1) rfl (.int 1)).2 (.inl rfl)
  rw [lt_fin] at h1 h2
  have h1 := Rat.intCast_pos.1 h1
  have h2 : i < 1 := Rat.intCast_lt_intCast.1 h2
  omega

/-- It is also violated by the bound NaN, which Python reads from JSON ... -/
theorem C18_violated_nan : ¬ C18Full := by
  intro h
  obtain ⟨x, hx⟩ := (h SchemaDemo.lib (SchemaDemo.single c!"float" [(c!"minimum", .float .nan)]) c!"#"
    (by decide +kernel) _ (SchemaDemo.single_within _ _)).2.1 rfl
  exact not_nan_le (hx.min (.float .nan) .nan rfl (.float _)).1

/-- ... and by a number greater than infinity. -/
theorem C18_violated_infinity : ¬ C18Full := by
  intro h
  obtain ⟨x, hx⟩ := (h SchemaDemo.lib (SchemaDemo.single c!"float"
    [(c!"minimum", .float (.inf false)), (c!"exclusive_minimum", .bool true)]) c!"#"
    (by decide +kernel) _ (SchemaDemo.single_within _ _)).2.1 rfl
  have h1 := hx.min (.float (.inf false)) (.inf false) rfl (.float _)
  refine (h1.2 (.inl rfl)).2 (.top ?_)
  intro e
  rw [e] at h1
  exact not_le_nan h1.1

/-- An accepted integer type is satisfiable, unless both bounds are exclusive and adjacent. -/
theorem C18_integer_partial (L : Validation.Lib) (mapping : Json) (ref : Str) (hv : validate L mapping ref = .ok [])
    (w : Json) (hw : Within mapping w) (ht : HasType w c!"integer") :
    (∃ i : Int, InRange w (.fin i)) ↔
      ¬ ∃ m : Int, field w c!"minimum" = some (.int m) ∧ field w c!"maximum" = some (.int (m + 1)) ∧
        Flag w c!"exclusive_minimum" true ∧ Flag w c!"exclusive_maximum" true := by
  obtain ⟨types, hcl⟩ := clean_of hv
  obtain ⟨top, r, hw⟩ := clean_within hcl hw
  obtain ⟨o, kvs, t, rfl, ha⟩ := accepted_of hw
  have : t = c!"integer" := by
    have h1 := ha.type
    simp only [HasType, field] at ht
    rw [h1] at ht
    cases ht; rfl
  subst this
  have hnum : ∀ key ∈ [c!"minimum", c!"maximum"], ∀ v, kvs.lookup key = some v → isInteger v = true := by
    intro key hk v hl
    have := accepted_field ha (s := boundsOf isInteger) rfl hl
    simp only [List.mem_cons, List.not_mem_nil, or_false] at hk
    rcases hk with rfl | rfl <;> exact this
  have hf1 : Flag (.obj o kvs) c!"exclusive_minimum" (flag c!"exclusive_minimum" kvs) :=
    flag_spec fun v hl => accepted_field ha (s := boundsOf isInteger) rfl hl
  have hf2 : Flag (.obj o kvs) c!"exclusive_maximum" (flag c!"exclusive_maximum" kvs) :=
    flag_spec fun v hl => accepted_field ha (s := boundsOf isInteger) rfl hl
  constructor
  · rintro ⟨i, hi⟩ ⟨m, h1, h2, h3, h4⟩
    have a1 := (hi.min _ _ h1 (.int m)).2 h3
    have a2 := (hi.max _ _ h2 (.int (m + 1))).2 h4
    rw [lt_fin, Rat.intCast_lt_intCast] at a1 a2
    omega
  · intro hno
    have lo : ∀ {v a}, kvs.lookup c!"minimum" = some v → Number v a → ∃ m : Int, v = .int m ∧ a = .fin m := by
      intro v a hl hn
      obtain ⟨m, rfl⟩ := isInteger_int (hnum _ (by simp) v hl)
      cases hn
      exact ⟨m, rfl, rfl⟩
    have hi : ∀ {v a}, kvs.lookup c!"maximum" = some v → Number v a → ∃ m : Int, v = .int m ∧ a = .fin m := by
      intro v a hl hn
      obtain ⟨m, rfl⟩ := isInteger_int (hnum _ (by simp) v hl)
      cases hn
      exact ⟨m, rfl, rfl⟩
    have build : ∀ i : Int,
        (∀ m : Int, kvs.lookup c!"minimum" = some (.int m) → m ≤ i ∧ (flag c!"exclusive_minimum" kvs = true → m < i)) →
        (∀ m : Int, kvs.lookup c!"maximum" = some (.int m) → i ≤ m ∧ (flag c!"exclusive_maximum" kvs = true → i < m)) →
        InRange (.obj o kvs) (.fin i) := by
      intro i h1 h2
      constructor
      · intro v a hl hn
        obtain ⟨m, rfl, rfl⟩ := lo hl hn
        rw [le_fin, lt_fin, Rat.intCast_le_intCast, Rat.intCast_lt_intCast]
        exact ⟨(h1 m hl).1, fun hf => (h1 m hl).2 (flag_fun hf1 hf)⟩
      · intro v a hl hn
        obtain ⟨m, rfl, rfl⟩ := hi hl hn
        rw [le_fin, lt_fin, Rat.intCast_le_intCast, Rat.intCast_lt_intCast]
        exact ⟨(h2 m hl).1, fun hf => (h2 m hl).2 (flag_fun hf2 hf)⟩
    cases hmin : kvs.lookup c!"minimum" with
    | none =>
      cases hmax : kvs.lookup c!"maximum" with
      | none =>
        refine ⟨0, build 0 ?_ ?_⟩
        · intro m h; rw [hmin] at h; cases h
        · intro m h; rw [hmax] at h; cases h
      | some v =>
        obtain ⟨b, rfl⟩ := isInteger_int (hnum _ (by simp) v hmax)
        refine ⟨b - 1, build _ ?_ ?_⟩
        · intro m h; rw [hmin] at h; cases h
        · intro m h; rw [hmax] at h; cases h; exact ⟨by omega, fun _ => by omega⟩
    | some v =>
      obtain ⟨a, rfl⟩ := isInteger_int (hnum _ (by simp) v hmin)
      cases hmax : kvs.lookup c!"maximum" with
      | none =>
        refine ⟨a + 1, build _ ?_ ?_⟩
        · intro m h; rw [hmin] at h; cases h; exact ⟨by omega, fun _ => by omega⟩
        · intro m h; rw [hmax] at h; cases h
      | some v =>
        obtain ⟨b, rfl⟩ := isInteger_int (hnum _ (by simp) v hmax)
        obtain ⟨r1, r2⟩ := integer_range (accepted_integer ha) hmin hmax (.int a) (.int b)
        simp only [f64Gt, f64Eq, decide_eq_false_iff_not, Rat.intCast_lt_intCast, Rat.intCast_inj,
          Bool.or_eq_true] at r1 r2
        by_cases hex : flag c!"exclusive_minimum" kvs = true
        · refine ⟨a + 1, build _ ?_ ?_⟩
          · intro m h; rw [hmin] at h; cases h; exact ⟨by omega, fun _ => by omega⟩
          · intro m h; rw [hmax] at h; cases h
            have := r2 (.inl hex)
            refine ⟨by omega, fun hx => ?_⟩
            have : b ≠ a + 1 := by
              rintro rfl
              exact hno ⟨a, hmin, hmax, by rw [hex] at hf1; exact hf1, by rw [hx] at hf2; exact hf2⟩
            omega
        · refine ⟨a, build _ ?_ ?_⟩
          · intro m h; rw [hmin] at h; cases h; exact ⟨by omega, fun hh => absurd hh hex⟩
          · intro m h; rw [hmax] at h; cases h
            refine ⟨by omega, fun hx => ?_⟩
            have := r2 (.inr hx)
            omega

/-- The type `age` of the example is satisfiable. -/
example : ∃ i : Int, InRange SchemaDemo.age (.fin i) := by
  refine (C18_integer_partial _ _ _ SchemaDemo.valid SchemaDemo.age
    ⟨SchemaDemo.person, c!"age", _, .inr (.inl ?_), ?_, .self _⟩ rfl).2 ?_
  · exact List.mem_cons_self ..
  · exact ⟨_, _, rfl, List.mem_cons_of_mem _ (List.mem_cons_self ..)⟩
  · rintro ⟨m, h1, h2, _⟩
    cases h1
    cases h2

/-- An accepted float type with finite bounds is satisfied by some rational number. -/
theorem C18_float_partial (L : Validation.Lib) (mapping : Json) (ref : Str) (hv : validate L mapping ref = .ok [])
    (w : Json) (hw : Within mapping w) (ht : HasType w c!"float")
    (hfin : ∀ key ∈ [c!"minimum", c!"maximum"], ∀ v, field w key = some v → ∃ q : Rat, Value v q) :
    ∃ q : Rat, InRange w (.fin q) := by
  obtain ⟨types, hcl⟩ := clean_of hv
  obtain ⟨top, r, hw⟩ := clean_within hcl hw
  obtain ⟨o, kvs, t, rfl, ha⟩ := accepted_of hw
  have : t = c!"float" := by
    have h1 := ha.type
    simp only [HasType, field] at ht
    rw [h1] at ht
    cases ht; rfl
  subst this
  have hf1 : Flag (.obj o kvs) c!"exclusive_minimum" (flag c!"exclusive_minimum" kvs) :=
    flag_spec fun v hl => accepted_field ha (s := boundsOf isNumber) rfl hl
  have hf2 : Flag (.obj o kvs) c!"exclusive_maximum" (flag c!"exclusive_maximum" kvs) :=
    flag_spec fun v hl => accepted_field ha (s := boundsOf isNumber) rfl hl
  have build : ∀ q : Rat,
      (∀ v m, kvs.lookup c!"minimum" = some v → Value v m →
        m ≤ q ∧ (flag c!"exclusive_minimum" kvs = true → m < q)) →
      (∀ v m, kvs.lookup c!"maximum" = some v → Value v m →
        q ≤ m ∧ (flag c!"exclusive_maximum" kvs = true → q < m)) →
      InRange (.obj o kvs) (.fin q) := by
    intro q h1 h2
    constructor
    · intro v a hl hn
      obtain ⟨m, hm⟩ := hfin _ (by simp) v hl
      rw [value_number hm hn, le_fin, lt_fin]
      exact ⟨(h1 v m hl hm).1, fun hf => (h1 v m hl hm).2 (flag_fun hf1 hf)⟩
    · intro v a hl hn
      obtain ⟨m, hm⟩ := hfin _ (by simp) v hl
      rw [value_number hm hn, le_fin, lt_fin]
      exact ⟨(h2 v m hl hm).1, fun hf => (h2 v m hl hm).2 (flag_fun hf2 hf)⟩
  have unique : ∀ {v : Json} {p q : Rat}, Value v p → Value v q → p = q := by
    intro v p q h1 h2
    have := value_number h1 (number_of_value h2)
    cases this; rfl
  cases hmin : kvs.lookup c!"minimum" with
  | none =>
    cases hmax : kvs.lookup c!"maximum" with
    | none =>
      refine ⟨0, build 0 ?_ ?_⟩
      · intro v m h; rw [hmin] at h; cases h
      · intro v m h; rw [hmax] at h; cases h
    | some v =>
      obtain ⟨b, hb⟩ := hfin c!"maximum" (by simp) v hmax
      refine ⟨b - 1, build _ ?_ ?_⟩
      · intro v m h; rw [hmin] at h; cases h
      · intro v m h hm; rw [hmax] at h; cases h; rw [unique hm hb]; exact ⟨by grind, fun _ => by grind⟩
  | some v =>
    obtain ⟨a, hav⟩ := hfin c!"minimum" (by simp) v hmin
    cases hmax : kvs.lookup c!"maximum" with
    | none =>
      refine ⟨a + 1, build _ ?_ ?_⟩
      · intro v m h hm; rw [hmin] at h; cases h; rw [unique hm hav]; exact ⟨by grind, fun _ => by grind⟩
      · intro v m h; rw [hmax] at h; cases h
    | some u =>
      obtain ⟨b, hbv⟩ := hfin c!"maximum" (by simp) u hmax
      obtain ⟨r1, r2⟩ := float_range (accepted_float ha) hmin hmax (number_of_value hav) (number_of_value hbv)
      simp only [f64Gt, f64Eq, decide_eq_false_iff_not, Rat.not_lt, Bool.or_eq_true] at r1 r2
      refine ⟨(a + b) / 2, build _ ?_ ?_⟩
      · intro v m h hm; rw [hmin] at h; cases h; rw [unique hm hav]
        refine ⟨by grind, fun hx => ?_⟩
        have := r2 (.inl hx)
        have := Rat.lt_of_le_of_ne r1 this
        grind
      · intro v m h hm; rw [hmax] at h; cases h; rw [unique hm hbv]
        refine ⟨by grind, fun hx => ?_⟩
        have := r2 (.inr hx)
        have := Rat.lt_of_le_of_ne r1 this
        grind

/-- The bounds 0.2 and 0.7, both exclusive, are accepted and satisfiable (see C21 for what the code makes of it). -/
example : ∃ q : Rat, InRange (SchemaDemo.definition c!"float"
    [(c!"minimum", .float (.fin (1 / 5))), (c!"maximum", .float (.fin (7 / 10))), (c!"exclusive_minimum", .bool true),
     (c!"exclusive_maximum", .bool true)]) (.fin q) := by
  refine C18_float_partial SchemaDemo.lib _ c!"#" ?_ _ (SchemaDemo.single_within _ _) rfl ?_
  · decide +kernel
  · intro key hk v hv
    simp only [List.mem_cons, List.not_mem_nil, or_false] at hk
    rcases hk with rfl | rfl <;> (cases hv; exact ⟨_, .float _⟩)

/-- An accepted array type allows some number of elements. -/
theorem C18_array (L : Validation.Lib) (mapping : Json) (ref : Str) (hv : validate L mapping ref = .ok [])
    (w : Json) (hw : Within mapping w) (ht : HasType w c!"array") : ∃ n : Nat, InSizes w n := by
  obtain ⟨types, hcl⟩ := clean_of hv
  obtain ⟨top, r, hw⟩ := clean_within hcl hw
  obtain ⟨o, kvs, t, rfl, ha⟩ := accepted_of hw
  have : t = c!"array" := by
    have h1 := ha.type
    simp only [HasType, field] at ht
    rw [h1] at ht
    cases ht; rfl
  subst this
  have hlo : ∀ v, kvs.lookup c!"minimum_size" = some v → isSize v = true := fun v hl => accepted_field ha rfl hl
  have hhi : ∀ v, kvs.lookup c!"maximum_size" = some v → isSize v = true := fun v hl => accepted_field ha rfl hl
  have hs := accepted_sizes ha
  have cast : ∀ {i : Int}, 0 ≤ i → ((i.toNat : Nat) : Rat) = (i : Rat) := by
    intro i h
    rw [← Rat.intCast_natCast, Int.toNat_of_nonneg h]
  cases hmin : kvs.lookup c!"minimum_size" with
  | none =>
    refine ⟨0, ?_, ?_⟩
    · intro v q h; simp only [field] at h; rw [hmin] at h; cases h
    · intro v q h hq
      obtain ⟨b, rfl, hb⟩ := isSize_int (hhi v h)
      cases hq
      exact Rat.intCast_nonneg.2 hb
  | some v =>
    obtain ⟨a, rfl, ha0⟩ := isSize_int (hlo v hmin)
    refine ⟨a.toNat, ?_, ?_⟩
    · intro v q h hq; simp only [field] at h; rw [hmin] at h; cases h
      cases hq
      rw [cast ha0]
      exact Rat.le_refl
    · intro v q h hq
      simp only [field] at h
      obtain ⟨b, rfl, hb⟩ := isSize_int (hhi v h)
      rw [validateSizes, hmin, h] at hs
      simp only [number?, pure_ok] at hs
      cases hq
      rw [cast ha0]
      by_cases hlt : (b : Rat) < a
      · rw [if_pos (by simpa [f64Gt] using hlt)] at hs; cases hs
      · exact Rat.not_lt.1 hlt

example : ∃ n : Nat, InSizes SchemaDemo.friends n := by
  refine C18_array _ _ _ SchemaDemo.valid SchemaDemo.friends ⟨SchemaDemo.person, c!"friends", _, .inr (.inl ?_), ?_, .self _⟩ rfl
  · exact List.mem_cons_self ..
  · exact ⟨_, _, rfl, List.mem_cons_self ..⟩

/-! ## C19 -/

def C19Full : Prop := ∀ (L : Validation.Lib) (mapping : Json) (ref : Str), validate L mapping ref = .ok [] →
  ∃ s, schemaFromMapping L mapping ref = .ok s

/-- It is violated: the name of the graph is accepted as a type, but the parser raises `NotImplementedError`. -/
theorem C19_violated : ¬ C19Full := by
  intro h
  obtain ⟨s, hs⟩ := h SchemaDemo.lib (SchemaDemo.single c!"Shop" []) c!"#" (by decide +kernel)
  have h2 : schemaFromMapping SchemaDemo.lib (SchemaDemo.single c!"Shop" []) c!"#" =
      .error (.notImplemented c!"Unhandled type identifier: Shop") := by decide +kernel
  rw [h2] at hs
  cases hs

/-- An infinite bound is accepted, but the parser raises `OverflowError`. -/
theorem C19_violated_infinity : ¬ C19Full := by
  intro h
  obtain ⟨s, hs⟩ := h SchemaDemo.lib (SchemaDemo.single c!"float" [(c!"maximum", .float (.inf false))]) c!"#"
    (by decide +kernel)
  have h2 : schemaFromMapping SchemaDemo.lib (SchemaDemo.single c!"float" [(c!"maximum", .float (.inf false))]) c!"#" =
      .error .overflowError := by decide +kernel
  rw [h2] at hs
  cases hs

/-- These are the only reasons: an accepted schema is parsed if and only if no type is the name of the graph and the
bounds of the floats are finite. -/
theorem C19_parsed_partial (L : Validation.Lib) (mapping : Json) (ref : Str) (hv : validate L mapping ref = .ok []) :
    (∃ s, schemaFromMapping L mapping ref = .ok s) ↔
      (∀ w n, Within mapping w → HasType w n → ¬ IsName mapping n) ∧
      (∀ w, Within mapping w → HasType w c!"float" → ∀ key ∈ [c!"minimum", c!"maximum"], ∀ v, field w key = some v →
        ∃ q : Rat, Value v q) := by
  constructor
  · rintro ⟨s, hs⟩
    have hg := graph_spec hs fun _ _ p _ _ => cutFloats_by p
    obtain ⟨types, hcl⟩ := clean_of hv
    constructor
    · intro w n hw hn hname
      obtain ⟨u, hu⟩ := within_typed hcl hg hw
      obtain ⟨n', hn', hres⟩ := typeOf_name hu
      have : n' = n := by
        simp only [HasType] at hn hn'
        rw [hn] at hn'
        cases hn'; rfl
      subst this
      obtain ⟨g, cs, es, hgn, hcs, hes, hnd, _⟩ := hcl.names
      have hgn' : n' = g := by
        simp only [IsName] at hname hgn
        rw [hname] at hgn
        cases hgn; rfl
      subst hgn'
      rw [List.nodup_append, List.nodup_append] at hnd
      rcases hres with hb | hb | hb
      · have hup : upperFirstRe n' = true := by
          obtain ⟨o, kvs, rfl, _⟩ := objectOf_obj hcl.check
          obtain ⟨s, hs, hre⟩ := isStr_str (objectOf_field hcl.check (k := c!"name") hgn)
          cases hs
          exact hre
        revert hup
        simp only [builtin, List.mem_cons, List.not_mem_nil, or_false] at hb
        rcases hb with rfl | rfl | rfl | rfl | rfl | rfl | rfl | rfl | rfl | rfl | rfl | rfl <;> decide
      · have := (forall₂_names hcs).2 (graph_class_names hg hb)
        exact hnd.2.1.2.2 n' (List.mem_reverse.2 this) n' (by simp) rfl
      · have := (forall₂_names hes).2 (graph_embed_names hg hb)
        exact hnd.2.2 n' (List.mem_reverse.2 this) n' (by simp) rfl
    · intro w hw ht key hk v hv
      obtain ⟨u, hu⟩ := within_typed hcl hg hw
      have hup : ∀ n, ClassNamed mapping n ∨ EmbedNamed mapping n → n ≠ c!"float" := by
        rintro n h rfl
        obtain ⟨c, cs, h, hc⟩ := member_upper hcl h
        cases h
        exact absurd hc (by decide)
      have other : ∀ n, HasType w n → n = c!"float" := by
        intro n hn
        simp only [HasType] at ht hn
        rw [ht] at hn
        cases hn; rfl
      have hb : ∃ b, CutBoundsOf w b := by
        cases hu with
        | float _ hb => exact ⟨_, hb⟩
        | cls hn hm => exact absurd (other _ hn) (hup _ (.inl (graph_class_names hg hm)))
        | embed hn hm => exact absurd (other _ hn) (hup _ (.inr (graph_embed_names hg hm)))
        | boolean hn => cases other _ hn
        | integer hn => cases other _ hn
        | string hn => cases other _ hn
        | path hn => cases other _ hn
        | date hn => cases other _ hn
        | time hn => cases other _ hn
        | datetime hn => cases other _ hn
        | timeZone hn => cases other _ hn
        | duration hn => cases other _ hn
        | array hn => cases other _ hn
        | map hn => cases other _ hn
      obtain ⟨b, hb⟩ := hb
      have limit : ∀ {r}, CutLimit w key r → ∃ q : Rat, Value v q := by
        intro r hr
        cases hr with
        | absent h => rw [hv] at h; cases h
        | present h hq => rw [hv] at h; cases h; exact ⟨_, hq⟩
      simp only [List.mem_cons, List.not_mem_nil, or_false] at hk
      rcases hk with rfl | rfl
      · exact limit hb.min
      · exact limit hb.max
  · rintro ⟨h1, h2⟩
    exact schema_total hv h1 fun c name p hc hp w hn ht => h2 w ⟨c, name, p, hc, hp, hn⟩ ht

/-- The schema of the examples is parsed. -/
example : ∃ s, schemaFromMapping SchemaDemo.lib SchemaDemo.mapping c!"#" = .ok s := ⟨_, SchemaDemo.parsed⟩

/-! ## C20 -/

def C20Full : Prop := ∀ (L : Validation.Lib) (mapping : Json) (ref : Str) (s : Schema),
  schemaFromMapping L mapping ref = .ok s → SchemaOf BoundsOf ref mapping s

/-- Everything is preserved, except that the bounds of floats lose their fractional parts. -/
theorem C20_preserved_partial (L : Validation.Lib) (mapping : Json) (ref : Str) (s : Schema)
    (h : schemaFromMapping L mapping ref = .ok s) : SchemaOf CutBoundsOf ref mapping s := by
  have hg := graph_spec h fun _ _ p _ _ => cutFloats_by p
  obtain ⟨hv, o, kvs, rfl, h'⟩ := validated_of h
  obtain ⟨types, hcl⟩ := clean_of hv
  obtain ⟨n1, n2⟩ := names_nodup hcl hg
  refine ⟨hg, fun c hc => find_by_name Class.name n1 hc, fun e he => find_by_name Embed.name n2 he, ?_, ?_, ?_⟩ <;>
    (unfold schemaAfterValidation at h'
     simp only [bind_ok, pure_ok] at h'
     obtain ⟨_, _, _, _, _, _, _, _, _, _, _, _, _, _, _, _, _, _, cpp, hcpp, go, hgo, py, hpy, rfl⟩ := h')
  · refine setting_spec hcpp fun v s hs => ?_
    rw [cppFromMapping] at hs
    simp only [bind_ok, pure_ok, strItem_ok] at hs
    obtain ⟨fs, hfs, _, h1, _, h2, _, h3, _, h4, _, h5, rfl⟩ := hs
    obtain ⟨o', rfl⟩ := asFields_ok hfs
    exact ⟨.present h1, .present h2, .present h3, .present h4, textOr_spec h5⟩
  · refine setting_spec hgo fun v s hs => ?_
    rw [goFromMapping] at hs
    simp only [bind_ok, pure_ok, strItem_ok] at hs
    obtain ⟨fs, hfs, _, h1, rfl⟩ := hs
    obtain ⟨o', rfl⟩ := asFields_ok hfs
    exact ⟨.present h1⟩
  · refine setting_spec hpy fun v s hs => ?_
    rw [pyFromMapping] at hs
    simp only [bind_ok, pure_ok, strItem_ok] at hs
    obtain ⟨fs, hfs, _, h1, _, h2, _, h3, _, h5, rfl⟩ := hs
    obtain ⟨o', rfl⟩ := asFields_ok hfs
    exact ⟨.present h1, .present h2, .present h3, textOr_spec h5⟩

/-- The full property holds if the bounds of floats are whole numbers. -/
theorem C20_preserved_whole (L : Validation.Lib) (mapping : Json) (ref : Str) (s : Schema)
    (hw : ∀ w, Within mapping w → HasType w c!"float" → ∀ key ∈ [c!"minimum", c!"maximum"], ∀ v,
      field w key = some v → ∃ i : Int, Value v i)
    (h : schemaFromMapping L mapping ref = .ok s) : SchemaOf BoundsOf ref mapping s := by
  have hp := C20_preserved_partial L mapping ref s h
  have hg := graph_spec h fun c name p hc hp => wholeFloats_by fun w hn ht => hw w ⟨c, name, p, hc, hp, hn⟩ ht
  exact { hp with graph := hg }

/-- The schema of the examples: the properties of `Address` are sorted, as their mapping is not ordered. -/
example : SchemaOf CutBoundsOf c!"#" SchemaDemo.mapping SchemaDemo.schema :=
  C20_preserved_partial _ _ _ _ SchemaDemo.parsed

/-- It is violated: the bound 0.5 becomes 0. -/
theorem C20_violated : ¬ C20Full := by
  intro h
  have hs : schemaFromMapping SchemaDemo.lib (SchemaDemo.single c!"float" [(c!"minimum", .float (.fin (1 / 2)))]) c!"#" =
      .ok ⟨SchemaDemo.halfGraph, none, none, none⟩ := by decide +kernel
  have hg := (h _ _ _ _ hs).graph
  obtain ⟨p', hm, hp⟩ := properties_left hg.properties (name := c!"x")
    (p := SchemaDemo.definition c!"float" [(c!"minimum", .float (.fin (1 / 2)))])
    ⟨true, [(c!"x", SchemaDemo.definition c!"float" [(c!"minimum", .float (.fin (1 / 2)))])], rfl, by simp⟩
  simp only [SchemaDemo.halfGraph, List.mem_cons, List.not_mem_nil, or_false] at hm
  subst hm
  have hty := hp.ty
  cases hty with
  | float _ hb =>
    have := hb.min
    generalize hq : ((some 0 : Option Int)) = r at this
    cases this with
    | absent h => cases h
    | @present v i hf hv =>
      cases hq
      have hf' : v = .float (.fin (1 / 2)) := by cases hf; rfl
      subst hf'
      have := value_number hv (.float _)
      simp only [F64.fin.injEq] at this
      exact absurd this (by decide +kernel)

/-! ## C21 -/

def C21Full : Prop := ∀ (L : Validation.Lib) (mapping : Json) (ref : Str) (s : Schema),
  schemaFromMapping L mapping ref = .ok s → ∀ (c : Json) (name : Str) (p : Json) , IsComposite mapping c →
  IsProperty c name p → ∃ ps, PropertiesIn s.graph mapping c ps ∧ ∃ p' ∈ ps, p'.name = name ∧
    ∀ w u, At p p'.ty w u → (HasType w c!"integer" → IntegerEnforced w u) ∧ (HasType w c!"float" → FloatEnforced w u)

/-- Integers are enforced as written; floats are enforced as written if their bounds are whole numbers. -/
theorem C21_enforced_partial (L : Validation.Lib) (mapping : Json) (ref : Str) (s : Schema)
    (h : schemaFromMapping L mapping ref = .ok s) (c : Json) (name : Str) (p : Json) (hc : IsComposite mapping c)
    (hp : IsProperty c name p) : ∃ ps, PropertiesIn s.graph mapping c ps ∧ ∃ p' ∈ ps, p'.name = name ∧
    ∀ w u, At p p'.ty w u → (HasType w c!"integer" → IntegerEnforced w u) ∧
      (HasType w c!"float" →
        (∀ key ∈ [c!"minimum", c!"maximum"], ∀ v, field w key = some v → ∃ i : Int, Value v i) →
        FloatEnforced w u) := by
  have hs := C20_preserved_partial L mapping ref s h
  obtain ⟨hv, _⟩ := validated_of h
  obtain ⟨types, hcl⟩ := clean_of hv
  have hprop : ∃ ref ps p', PropertiesIn s.graph mapping c ps ∧ p' ∈ ps ∧ PropertyOf CutBoundsOf
      (s.graph.classes.map (·.name)) (s.graph.embeds.map (·.name)) ref (name, p) p' := by
    rcases hc with rfl | hx | hx
    · obtain ⟨p', hm, hp'⟩ := properties_left hs.graph.properties hp
      exact ⟨_, _, p', .graph, hm, hp'⟩
    · obtain ⟨k, hk⟩ := mem_zipIdx 0 hx
      obtain ⟨d, hd, hcls⟩ := forall₂_left hs.graph.classes hk
      obtain ⟨p', hm, hp'⟩ := properties_left hcls.properties hp
      exact ⟨_, _, p', .cls hx hcls.name (hs.cls d hd), hm, hp'⟩
    · obtain ⟨k, hk⟩ := mem_zipIdx 0 hx
      obtain ⟨d, hd, hcls⟩ := forall₂_left hs.graph.embeds hk
      obtain ⟨p', hm, hp'⟩ := properties_left hcls.properties hp
      exact ⟨_, _, p', .embed hx hcls.name (hs.embed d hd), hm, hp'⟩
  obtain ⟨_, ps, p', hin, hm, hp'⟩ := hprop
  refine ⟨ps, hin, p', hm, hp'.name, fun w u ha => ?_⟩
  have hty := at_typed ha hp'.ty
  have upper : ∀ t, t.head?.any Char.isUpper = false →
      t ∉ s.graph.classes.map (·.name) ∧ t ∉ s.graph.embeds.map (·.name) := by
    intro t ht
    constructor
    · intro hm
      obtain ⟨c, cs, rfl, hu⟩ := member_upper hcl (.inl (graph_class_names hs.graph hm))
      simp [hu] at ht
    · intro hm
      obtain ⟨c, cs, rfl, hu⟩ := member_upper hcl (.inr (graph_embed_names hs.graph hm))
      simp [hu] at ht
  constructor
  · intro ht
    obtain ⟨b, rfl, hb⟩ := integer_typed hty ht (upper _ (by decide)).1 (upper _ (by decide)).2
    intro E embed i at_ref cap hcap
    rw [parse_integer_iff E embed b i at_ref hcap, floatWithin_iff hb]
  · intro ht hwhole
    obtain ⟨b, rfl, hb⟩ := float_typed hty ht (upper _ (by decide)).1 (upper _ (by decide)).2
    intro E embed f at_ref cap hcap
    rw [parse_float_iff E embed b f at_ref hcap, floatWithin_iff (whole_bounds hb hwhole)]

/-- The property `age` of the class `Person` in the example -/
example : ∃ ps, PropertiesIn SchemaDemo.schema.graph SchemaDemo.mapping SchemaDemo.person ps ∧ ∃ p' ∈ ps,
    p'.name = c!"age" ∧ IntegerEnforced SchemaDemo.age p'.ty := by
  obtain ⟨ps, hin, p', hm, hn, h⟩ := C21_enforced_partial _ _ _ _ SchemaDemo.parsed SchemaDemo.person c!"age"
    SchemaDemo.age (.inr (.inl (List.mem_cons_self ..)))
    ⟨_, _, rfl, List.mem_cons_of_mem _ (List.mem_cons_self ..)⟩
  exact ⟨ps, hin, p', hm, hn, (h _ _ (.self _ _)).1 rfl⟩

/-- A library for the runtime -/
def C21env : PyRuntime.Env where
  lib := PyRuntime.Demo.lib
  settings := {}
  graph := SchemaDemo.halfGraph
  ids := fun _ => []

/-- It is violated: with the minimum 0.5, the float 0.25 is accepted. -/
theorem C21_violated : ¬ C21Full := by
  intro h
  have hs : schemaFromMapping SchemaDemo.lib (SchemaDemo.single c!"float" [(c!"minimum", .float (.fin (1 / 2)))]) c!"#" =
      .ok ⟨SchemaDemo.halfGraph, none, none, none⟩ := by decide +kernel
  obtain ⟨ps, hin, p', hm, _, hall⟩ := h _ _ _ _ hs _ c!"x"
    (SchemaDemo.definition c!"float" [(c!"minimum", .float (.fin (1 / 2)))]) (.inl rfl)
    ⟨true, [(c!"x", SchemaDemo.definition c!"float" [(c!"minimum", .float (.fin (1 / 2)))])], rfl, by simp⟩
  cases hin with
  | graph =>
    simp only [SchemaDemo.halfGraph, List.mem_cons, List.not_mem_nil, or_false] at hm
    subst hm
    have within : PyRuntime.Spec.FloatWithin ⟨some 0, false, none, false⟩ (.fin (1 / 4)) := by
      refine ⟨fun m hm => ?_, fun m _ h => (by cases h), fun m hm => (by cases hm), fun m hm => (by cases hm)⟩
      cases hm
      decide +kernel
    have := ((hall _ _ (.self _ _)).2 rfl C21env (fun _ _ _ es => .ok (.none, es)) (.fin (1 / 4)) [] 1
      (by decide)).1 ((parse_float_iff _ _ _ _ _ (by decide)).2 within)
    have := (this.min (.float (.fin (1 / 2))) (.fin (1 / 2)) rfl (.float _)).1
    rw [le_fin] at this
    exact absurd this (by decide +kernel)
  | cls hx => cases hx
  | embed hx => cases hx

/-! ## C22 -/

def C22Full : Prop := ∀ (L : Validation.Lib) (mapping : Json) (ref : Str), validate L mapping ref = .ok [] →
  DistinctNames mapping ∧
  (∀ x ∈ members mapping c!"classes", ∀ p, ¬ IsProperty x c!"id" p) ∧
  (∀ c name p, IsComposite mapping c → IsProperty c name p → Identifier name) ∧
  (∀ w, Within mapping w → ∃ t, HasType w t ∧ (t ∈ builtin ∨ ClassNamed mapping t ∨ EmbedNamed mapping t))

/-- It is violated by the name of the graph used as a type ... -/
theorem C22_violated_graph : ¬ C22Full := by
  intro h
  obtain ⟨t, ht, hr⟩ := (h SchemaDemo.lib (SchemaDemo.single c!"Shop" []) c!"#" (by decide +kernel)).2.2.2 _
    (SchemaDemo.single_within _ _)
  cases ht
  rcases hr with hr | ⟨x, hx, _⟩ | ⟨x, hx, _⟩
  · exact absurd hr (by decide)
  · cases hx
  · cases hx

/-- ... and by a line feed at the end of a name. -/
theorem C22_violated_newline : ¬ C22Full := by
  intro h
  have := (h SchemaDemo.lib (SchemaDemo.object
    [(c!"name", SchemaDemo.text c!"Shop"), (c!"description", SchemaDemo.text c!"is a shop."),
     (c!"properties", SchemaDemo.object [(c!"x\n", SchemaDemo.definition c!"boolean" [])])]) c!"#"
    (by decide +kernel)).2.2.1 _ c!"x\n" (SchemaDemo.definition c!"boolean" []) (.inl rfl)
    ⟨true, [(c!"x\n", SchemaDemo.definition c!"boolean" [])], rfl, by simp⟩
  rcases this.chars '\n' (by simp) with h | h | h <;> revert h
  · unfold IsLetter; decide
  · unfold IsDigit; decide
  · decide

/-- The names of the graph, of the classes and of the embeddable structures are distinct. -/
theorem C22_distinct (L : Validation.Lib) (mapping : Json) (ref : Str) (hv : validate L mapping ref = .ok []) :
    DistinctNames mapping := by
  obtain ⟨types, hcl⟩ := clean_of hv
  obtain ⟨g, cs, es, hg, hcs, hes, hnd, _⟩ := hcl.names
  refine ⟨g, cs, es, hg, hcs, hes, ?_⟩
  have := (List.reverse_perm (g :: (cs ++ es))).nodup_iff.1
  apply this
  simpa using hnd

example : DistinctNames SchemaDemo.mapping := C22_distinct _ _ _ SchemaDemo.valid

/-- No class has a property named `id`. -/
theorem C22_no_id (L : Validation.Lib) (mapping : Json) (ref : Str) (hv : validate L mapping ref = .ok [])
    (x : Json) (hx : x ∈ members mapping c!"classes") (p : Json) : ¬ IsProperty x c!"id" p := by
  obtain ⟨types, hcl⟩ := clean_of hv
  obtain ⟨ref', h⟩ := hcl.classes x hx
  exact class_no_id h p

example (p : Json) : ¬ IsProperty SchemaDemo.person c!"id" p :=
  C22_no_id _ _ _ SchemaDemo.valid _ (List.mem_cons_self ..) p

/-- The names of the properties are identifiers, up to a line feed at the end. -/
theorem C22_property_names_partial (L : Validation.Lib) (mapping : Json) (ref : Str)
    (hv : validate L mapping ref = .ok []) (c : Json) (name : Str) (p : Json) (hc : IsComposite mapping c)
    (hp : IsProperty c name p) : Identifier name ∨ ∃ n, name = n ++ [Char.ofNat 10] ∧ Identifier n := by
  obtain ⟨types, hcl⟩ := clean_of hv
  have h := (hcl.properties c hc name p hp).1
  rcases dollar_spec h with h | ⟨t, rfl, ht⟩
  · exact .inl (ident_spec (fun _ h => h) h)
  · exact .inr ⟨t, rfl, ident_spec (fun _ h => h) ht⟩

example : Identifier c!"age" := by
  rcases C22_property_names_partial _ _ _ SchemaDemo.valid SchemaDemo.person c!"age" SchemaDemo.age
    (.inr (.inl (List.mem_cons_self ..))) ⟨_, _, rfl, List.mem_cons_of_mem _ (List.mem_cons_self ..)⟩ with h | ⟨n, hn, _⟩
  · exact h
  · have := congrArg List.getLast? hn
    simp only [List.getLast?_append, List.getLast?_singleton, Option.some_or] at this
    exact absurd this (by decide)

/-- Every type is known or the name of the graph. -/
theorem C22_types_partial (L : Validation.Lib) (mapping : Json) (ref : Str) (hv : validate L mapping ref = .ok [])
    (w : Json) (hw : Within mapping w) :
    ∃ t, HasType w t ∧ (t ∈ builtin ∨ ClassNamed mapping t ∨ EmbedNamed mapping t ∨ IsName mapping t) := by
  obtain ⟨types, hcl⟩ := clean_of hv
  obtain ⟨top, r, hv'⟩ := clean_within hcl hw
  obtain ⟨o, kvs, t, rfl, ha⟩ := accepted_of hv'
  exact ⟨t, ha.type, clean_type hcl hw ha.type⟩

/-- Once the schema is parsed, every type is known. -/
theorem C22_types_parsed (L : Validation.Lib) (mapping : Json) (ref : Str) (s : Schema)
    (h : schemaFromMapping L mapping ref = .ok s) (w : Json) (hw : Within mapping w) :
    ∃ t, HasType w t ∧ (t ∈ builtin ∨ ClassNamed mapping t ∨ EmbedNamed mapping t) := by
  obtain ⟨t, ht, hr⟩ := C22_types_partial L mapping ref (validated_of h).1 w hw
  refine ⟨t, ht, ?_⟩
  have := ((C19_parsed_partial L mapping ref (validated_of h).1).1 ⟨s, h⟩).1 w t hw ht
  rcases hr with hr | hr | hr | hr
  · exact .inl hr
  · exact .inr (.inl hr)
  · exact .inr (.inr hr)
  · exact absurd hr this

/-- The type of the elements of `friends` is nested in an array. -/
example : ∃ t, HasType (.obj false [(c!"type", SchemaDemo.text c!"Person")]) t ∧
    (t ∈ builtin ∨ ClassNamed SchemaDemo.mapping t ∨ EmbedNamed SchemaDemo.mapping t) :=
  C22_types_parsed _ _ _ _ SchemaDemo.parsed _ ⟨SchemaDemo.person, c!"friends", SchemaDemo.friends,
    .inr (.inl (List.mem_cons_self ..)), ⟨_, _, rfl, List.mem_cons_self ..⟩,
    .values (.inl rfl) rfl (.self _)⟩

/-! ## C49 -/

def C49Full : Prop := ∀ (L : Validation.Lib) (mapping : Json) (ref : Str), ∃ errs, validate L mapping ref = .ok errs

/-- It is violated: the type of the elements of an array is missing (`KeyError`) ... -/
theorem C49_violated_missing : ¬ C49Full := by
  intro h
  obtain ⟨errs, he⟩ := h SchemaDemo.lib (SchemaDemo.single c!"array" [(c!"values", SchemaDemo.object [])]) c!"#"
  have h2 : validate SchemaDemo.lib (SchemaDemo.single c!"array" [(c!"values", SchemaDemo.object [])]) c!"#" =
      .error .keyError := by decide +kernel
  rw [h2] at he
  cases he

/-- ... or it is a list (`TypeError`) ... -/
theorem C49_violated_list : ¬ C49Full := by
  intro h
  obtain ⟨errs, he⟩ := h SchemaDemo.lib
    (SchemaDemo.single c!"map" [(c!"values", SchemaDemo.object [(c!"type", .arr [])])]) c!"#"
  have h2 : validate SchemaDemo.lib
      (SchemaDemo.single c!"map" [(c!"values", SchemaDemo.object [(c!"type", .arr [])])]) c!"#" =
      .error .typeError := by decide +kernel
  rw [h2] at he
  cases he

/-- ... or the automatic plural of a class does not begin with an upper-case letter (a violated precondition). -/
theorem C49_violated_plural : ¬ C49Full := by
  intro h
  have h2 : (match validate SchemaDemo.lib (SchemaDemo.object
      [(c!"name", SchemaDemo.text c!"Shop"), (c!"description", SchemaDemo.text c!"is a shop."),
       (c!"classes", .arr [SchemaDemo.object [(c!"name", SchemaDemo.text c!"Some_focus"),
         (c!"description", SchemaDemo.text c!"is a focus.")]]),
       (c!"properties", SchemaDemo.object [(c!"x", SchemaDemo.definition c!"boolean" [])])]) c!"#" with
      | .ok _ => true | .error _ => false) = false := by decide +kernel
  obtain ⟨errs, he⟩ := h SchemaDemo.lib (SchemaDemo.object
      [(c!"name", SchemaDemo.text c!"Shop"), (c!"description", SchemaDemo.text c!"is a shop."),
       (c!"classes", .arr [SchemaDemo.object [(c!"name", SchemaDemo.text c!"Some_focus"),
         (c!"description", SchemaDemo.text c!"is a focus.")]]),
       (c!"properties", SchemaDemo.object [(c!"x", SchemaDemo.definition c!"boolean" [])])]) c!"#"
  rw [he] at h2
  cases h2

/-- Otherwise the validation of any JSON value reports its errors. -/
theorem C49_reports_partial (L : Validation.Lib) (mapping : Json) (ref : Str)
    (ht : ∀ w, Within mapping w → ∃ t, field w c!"type" = some t ∧ (∀ xs, t ≠ .arr xs) ∧ ∀ o kvs, t ≠ .obj o kvs)
    (hp : ∀ x ∈ members mapping c!"classes", ∀ n p, IsName x n → TextOr x c!"plural" (Naming.plural n) p →
      ∃ c cs, p = c :: cs ∧ 'A' ≤ c ∧ c ≤ 'Z') : ∃ errs, validate L mapping ref = .ok errs := by
  refine validate_total ht fun x hx n p hn hp' => ?_
  obtain ⟨c, cs, e, h1, h2⟩ := hp x hx n p hn hp'
  exact ⟨c, cs, e, decide_eq_true ⟨h1, h2⟩⟩

/-- A mapping with many faults -/
example : ∃ errs, validate SchemaDemo.lib (SchemaDemo.single c!"unknown" [(c!"minimum", .null)]) c!"#" = .ok errs := by
  refine C49_reports_partial _ _ _ ?_ ?_
  · rintro w ⟨c, name, p, hc, ⟨o, kvs, hf, hm⟩, hn⟩
    rcases hc with rfl | hc | hc
    · cases hf
      simp only [List.mem_cons, List.not_mem_nil, or_false, Prod.mk.injEq] at hm
      obtain ⟨_, rfl⟩ := hm
      cases hn with
      | self => exact ⟨.str c!"unknown", rfl, by simp, by simp⟩
      | values ht => rcases ht with ht | ht <;> cases ht
    · cases hc
    · cases hc
  · intro x hx
    cases hx

/-! ## C50 -/

def C50Full : Prop := ∀ (L : Validation.Lib) (mapping : Json) (ref : Str), validate L mapping ref = .ok [] →
  (∀ n, IsName mapping n → Identifier n) ∧ (∀ n, ClassNamed mapping n → Identifier n) ∧
  (∀ n, EmbedNamed mapping n → Identifier n) ∧
  (∀ v p, field mapping c!"go" = some v → field v c!"package" = some (.str p) → Word p)

/-- It is violated by the name of a graph ... -/
theorem C50_violated_graph : ¬ C50Full := by
  intro h
  have := (h SchemaDemo.lib (SchemaDemo.object
    [(c!"name", SchemaDemo.text c!"A b"), (c!"description", SchemaDemo.text c!"is a shop.")]) c!"#"
    (by decide +kernel)).1 c!"A b" rfl
  rcases this.chars ' ' (by simp) with h | h | h <;> revert h
  · unfold IsLetter; decide
  · unfold IsDigit; decide
  · decide

/-- ... and by the package of Go. -/
theorem C50_violated_package : ¬ C50Full := by
  intro h
  have := (h SchemaDemo.lib (SchemaDemo.object
    [(c!"name", SchemaDemo.text c!"A"), (c!"description", SchemaDemo.text c!"is a shop."),
     (c!"go", SchemaDemo.object [(c!"package", SchemaDemo.text c!"a b")])]) c!"#"
    (by decide +kernel)).2.2.2 _ c!"a b" rfl rfl
  rcases this.chars ' ' (by simp) with h | h | h <;> revert h
  · unfold IsLetter; decide
  · unfold IsDigit; decide
  · decide

/-- The names of classes are identifiers, up to a line feed at the end; all names start with an upper-case letter. -/
theorem C50_names_partial (L : Validation.Lib) (mapping : Json) (ref : Str) (hv : validate L mapping ref = .ok []) :
    (∀ n, ClassNamed mapping n → Identifier n ∨ ∃ m, n = m ++ [Char.ofNat 10] ∧ Identifier m) ∧
    (∀ n, IsName mapping n ∨ ClassNamed mapping n ∨ EmbedNamed mapping n →
      ∃ c cs, n = c :: cs ∧ 'A' ≤ c ∧ c ≤ 'Z') := by
  obtain ⟨types, hcl⟩ := clean_of hv
  have upper : ∀ {n : Str}, (∃ c cs, n = c :: cs ∧ c.isUpper = true) → ∃ c cs, n = c :: cs ∧ 'A' ≤ c ∧ c ≤ 'Z' := by
    rintro n ⟨c, cs, rfl, h⟩
    simp only [Char.isUpper, decide_eq_true_eq] at h
    exact ⟨c, cs, rfl, h⟩
  constructor
  · rintro n ⟨x, hx, hn⟩
    obtain ⟨o, kvs, rfl, _⟩ := objectOf_obj hcl.check
    have hc := (members_check hcl.check).1 x hx
    obtain ⟨o', fs, rfl, _⟩ := objectOf_obj hc
    obtain ⟨s, hs, hre⟩ := isStr_str (objectOf_field hc (k := c!"name") hn)
    cases hs
    rcases dollar_spec hre with h | ⟨t, rfl, h⟩
    · exact .inl (ident_spec (fun c h => by simp [Char.isAlpha, h]) h)
    · exact .inr ⟨t, rfl, ident_spec (fun c h => by simp [Char.isAlpha, h]) h⟩
  · rintro n (hn | hn)
    · obtain ⟨o, kvs, rfl, _⟩ := objectOf_obj hcl.check
      obtain ⟨s, hs, hre⟩ := isStr_str (objectOf_field hcl.check (k := c!"name") hn)
      cases hs
      cases n with
      | nil => cases hre
      | cons c cs => exact upper ⟨c, cs, rfl, hre⟩
    · exact upper (member_upper hcl hn)

example : ∃ c cs, c!"Address" = c :: cs ∧ 'A' ≤ c ∧ c ≤ 'Z' :=
  (C50_names_partial _ _ _ SchemaDemo.valid).2 _ (.inr (.inr ⟨_, List.mem_cons_self .., rfl⟩))

end Mapry.Props
