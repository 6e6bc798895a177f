import Verif.ValidateFacts

/-!
# Vocabulary of the properties of the schema, and lemmas about it
-/

namespace Mapry.SchemaSpec

open Mapry.PyRuntime (Json)
open Mapry.ParseSchema (Cpp Go Py Schema)

/-- The settings at a key of the mapping: absent or given -/
inductive Setting {α : Type} (mapping : Json) (key : Str) (describes : Json → α → Prop) : Option α → Prop where
  | absent : field mapping key = none → Setting mapping key describes none
  | present {v : Json} {s : α} : field mapping key = some v → describes v s → Setting mapping key describes (some s)

structure CppOf (v : Json) (s : Cpp) : Prop where
  ns : Text v c!"namespace" (some s.ns)
  pathAs : Text v c!"path_as" (some s.pathAs)
  optionalAs : Text v c!"optional_as" (some s.optionalAs)
  datetimeLibrary : Text v c!"datetime_library" (some s.datetimeLibrary)
  indention : TextOr v c!"indention" c!"  " s.indention

structure GoOf (v : Json) (s : Go) : Prop where
  package : Text v c!"package" (some s.package)

structure PyOf (v : Json) (s : Py) : Prop where
  moduleName : Text v c!"module_name" (some s.moduleName)
  pathAs : Text v c!"path_as" (some s.pathAs)
  timezoneAs : Text v c!"timezone_as" (some s.timezoneAs)
  indention : TextOr v c!"indention" c!"    " s.indention

/-- The schema is the one described by the mapping; `fl` gives the bounds of the floats. A type of a class or an
embeddable structure is its name, which resolves to the very definition. -/
structure SchemaOf (fl : Json → Bounds → Prop) (ref : Str) (mapping : Json) (s : Schema) : Prop where
  graph : GraphOf fl Naming.plural ref mapping s.graph
  cls : ∀ c ∈ s.graph.classes, s.graph.cls? c.name = some c
  embed : ∀ e ∈ s.graph.embeds, s.graph.embed? e.name = some e
  cpp : Setting mapping c!"cpp" CppOf s.cpp
  go : Setting mapping c!"go" GoOf s.go
  py : Setting mapping c!"py" PyOf s.py

/-- The definition `w` nested in `j` and the type `u` at the same place in the type `t` -/
inductive At : Json → Ty → Json → Ty → Prop where
  | self (j : Json) (t : Ty) : At j t j t
  | array {j v w : Json} {t u : Ty} {lo hi : Option Int} : HasType j c!"array" → field j c!"values" = some v →
      At v t w u → At j (.array t lo hi) w u
  | map {j v w : Json} {t u : Ty} : HasType j c!"map" → field j c!"values" = some v → At v t w u → At j (.map t) w u

/-- The properties of the composite in the schema -/
inductive PropertiesIn (g : Graph) (mapping : Json) : Json → List Property → Prop where
  | graph : PropertiesIn g mapping mapping g.properties
  | cls {x : Json} {n : Str} {c : Class} : x ∈ members mapping c!"classes" → IsName x n → g.cls? n = some c →
      PropertiesIn g mapping x c.properties
  | embed {x : Json} {n : Str} {e : Embed} : x ∈ members mapping c!"embeds" → IsName x n → g.embed? n = some e →
      PropertiesIn g mapping x e.properties

/-- The generated Python code accepts exactly the integers within the bounds which are written in the definition. -/
def IntegerEnforced (w : Json) (u : Ty) : Prop :=
  ∀ (E : PyRuntime.Env) (embed : Str → Json → Str → Errors → Except Exc (PyRuntime.Val × Errors)) (i : Int)
    (at_ref : Str) (cap : Int), 0 < cap →
    (PyRuntime.parseTy E embed u (.int i) at_ref (Errors.new cap) = .ok (some (.int i), Errors.new cap) ↔
      InRange w (.fin i))

/-- The generated Python code accepts exactly the floats within the bounds which are written in the definition. -/
def FloatEnforced (w : Json) (u : Ty) : Prop :=
  ∀ (E : PyRuntime.Env) (embed : Str → Json → Str → Errors → Except Exc (PyRuntime.Val × Errors)) (f : F64)
    (at_ref : Str) (cap : Int), 0 < cap →
    (PyRuntime.parseTy E embed u (.float f) at_ref (Errors.new cap) = .ok (some (.float f), Errors.new cap) ↔
      InRange w f)

def IsLetter (c : Char) : Prop := ('a' ≤ c ∧ c ≤ 'z') ∨ ('A' ≤ c ∧ c ≤ 'Z')
def IsDigit (c : Char) : Prop := '0' ≤ c ∧ c ≤ '9'

/-- An identifier: a letter followed by letters, digits and underscores; it does not end with an underscore. -/
structure Identifier (s : Str) : Prop where
  first : ∃ c cs, s = c :: cs ∧ IsLetter c
  chars : ∀ c ∈ s, IsLetter c ∨ IsDigit c ∨ c = '_'
  last : s.getLast? ≠ some '_'

/-- The names of the graph, of the classes and of the embeddable structures are distinct. -/
def DistinctNames (mapping : Json) : Prop :=
  ∃ g cs es, IsName mapping g ∧ Forall₂ IsName (members mapping c!"classes") cs ∧
    Forall₂ IsName (members mapping c!"embeds") es ∧ (g :: (cs ++ es)).Nodup

/-- A word: a letter followed by letters, digits and underscores -/
structure Word (s : Str) : Prop where
  first : ∃ c cs, s = c :: cs ∧ IsLetter c
  chars : ∀ c ∈ s, IsLetter c ∨ IsDigit c ∨ c = '_'

end Mapry.SchemaSpec

namespace Mapry.Props

open Mapry.PyRuntime (Json)
open Mapry.SchemaSpec Mapry.Validation Mapry.ParseSchema

theorem setting_spec {α : Type} {f : Json → Except Exc α} {describes : Json → α → Prop} {key : Str} {o : Bool}
    {kvs : Fields} {r : Option α} (h : settingsItem key f kvs = .ok r)
    (hf : ∀ v s, f v = .ok s → describes v s) : Setting (.obj o kvs) key describes r := by
  rw [settingsItem] at h
  cases hl : kvs.lookup key with
  | none => rw [hl] at h; cases h; exact .absent hl
  | some v =>
    rw [hl] at h
    simp only [bind_ok, pure_ok] at h
    obtain ⟨s, hs, rfl⟩ := h
    exact .present hl (hf v s hs)

theorem textOr_spec {key default : Str} {o : Bool} {kvs : Fields} {s : Str} (h : strItemOr key default kvs = .ok s) :
    TextOr (.obj o kvs) key default s := by
  rw [strItemOr] at h
  cases hl : kvs.lookup key with
  | none => rw [hl] at h; cases h; exact ⟨none, .absent hl, rfl⟩
  | some v =>
    rw [hl] at h
    have := asStr_ok.1 h
    subst this
    exact ⟨_, .present hl, rfl⟩

theorem at_typed {fl : Json → Bounds → Prop} {classes embeds : List Str} {j w : Json} {t u : Ty} (ha : At j t w u)
    (h : TypeOf fl classes embeds j t) : TypeOf fl classes embeds w u := by
  induction ha with
  | self => exact h
  | array ht hv _ ih => cases h with | array _ hv' h' => rw [hv] at hv'; cases hv'; exact ih h'
  | map ht hv _ ih => cases h with | map _ hv' h' => rw [hv] at hv'; cases hv'; exact ih h'

theorem at_nested {j w : Json} {t u : Ty} (ha : At j t w u) : Nested j w := by
  induction ha with
  | self => exact .self _
  | array ht hv _ ih => exact .values (.inl ht) hv ih
  | map ht hv _ ih => exact .values (.inr ht) hv ih

theorem integer_typed {fl : Json → Bounds → Prop} {classes embeds : List Str} {w : Json} {u : Ty}
    (h : TypeOf fl classes embeds w u) (ht : HasType w c!"integer") (hc : c!"integer" ∉ classes)
    (he : c!"integer" ∉ embeds) : ∃ b, u = .integer b ∧ BoundsOf w b := by
  have other : ∀ n, HasType w n → n = c!"integer" := by
    intro n hn
    simp only [HasType] at ht hn
    rw [ht] at hn
    cases hn; rfl
  cases h with
  | integer _ hb => exact ⟨_, rfl, hb⟩
  | cls hn hm => exact absurd (other _ hn ▸ hm) hc
  | embed hn hm => exact absurd (other _ hn ▸ hm) he
  | boolean hn => cases other _ hn
  | float hn => cases other _ hn
  | string hn => cases other _ hn
  | path hn => cases other _ hn
  | date hn => cases other _ hn
  | time hn => cases other _ hn
  | datetime hn => cases other _ hn
  | timeZone hn => cases other _ hn
  | duration hn => cases other _ hn
  | array hn => cases other _ hn
  | map hn => cases other _ hn

theorem float_typed {fl : Json → Bounds → Prop} {classes embeds : List Str} {w : Json} {u : Ty}
    (h : TypeOf fl classes embeds w u) (ht : HasType w c!"float") (hc : c!"float" ∉ classes)
    (he : c!"float" ∉ embeds) : ∃ b, u = .float b ∧ fl w b := by
  have other : ∀ n, HasType w n → n = c!"float" := by
    intro n hn
    simp only [HasType] at ht hn
    rw [ht] at hn
    cases hn; rfl
  cases h with
  | float _ hb => exact ⟨_, rfl, hb⟩
  | cls hn hm => exact absurd (other _ hn ▸ hm) hc
  | embed hn hm => exact absurd (other _ hn ▸ hm) he
  | boolean hn => cases other _ hn
  | integer hn => cases other _ hn
  | string hn => cases other _ hn
  | path hn => cases other _ hn
  | date hn => cases other _ hn
  | time hn => cases other _ hn
  | datetime hn => cases other _ hn
  | timeZone hn => cases other _ hn
  | duration hn => cases other _ hn
  | array hn => cases other _ hn
  | map hn => cases other _ hn

theorem whole_bounds {w : Json} {b : Bounds} (h : CutBoundsOf w b)
    (hw : ∀ key ∈ [c!"minimum", c!"maximum"], ∀ v, field w key = some v → ∃ i : Int, Value v i) : BoundsOf w b := by
  have part : ∀ {i k : Int}, IntegralPart i k → i = k := by
    intro i k hp
    by_cases h0 : 0 ≤ (i : Rat)
    · obtain ⟨_, h1, h2⟩ := hp.nonneg h0
      rw [Rat.intCast_le_intCast] at h1
      have h2 : i < k + 1 := by
        rw [← Rat.intCast_lt_intCast, Rat.intCast_add]; exact h2
      omega
    · obtain ⟨_, h1, h2⟩ := hp.neg (Rat.not_le.1 h0)
      rw [Rat.intCast_le_intCast] at h1
      have h2 : k - 1 < i := by
        rw [← Rat.intCast_lt_intCast, Rat.intCast_sub]; exact h2
      omega
  have limit : ∀ {key r}, key ∈ [c!"minimum", c!"maximum"] → CutLimit w key r → Limit w key r := by
    intro key r hk hr
    cases hr with
    | absent h => exact .absent h
    | present hf hq hp =>
      obtain ⟨i, hi⟩ := hw key hk _ hf
      have := value_number hq (number_of_value hi)
      cases this
      rw [← part hp]
      exact .present hf hi
  exact ⟨limit (by simp) h.min, h.exMin, limit (by simp) h.max, h.exMax⟩

theorem letter_of_alpha {c : Char} (h : c.isAlpha = true) : IsLetter c := by
  simp only [Char.isAlpha, Char.isUpper, Char.isLower, Bool.or_eq_true, Bool.and_eq_true, decide_eq_true_eq] at h
  rcases h with h | h
  · exact .inr h
  · exact .inl h

theorem alnum_cases {c : Char} (h : c.isAlphanum = true) : IsLetter c ∨ IsDigit c := by
  simp only [Char.isAlphanum, Bool.or_eq_true] at h
  rcases h with h | h
  · exact .inl (letter_of_alpha h)
  · simp only [Char.isDigit, Bool.and_eq_true, decide_eq_true_eq] at h
    exact .inr h

theorem ident_spec {first : Char → Bool} (hf : ∀ c, first c = true → c.isAlpha = true) {s : Str}
    (h : identBody first s = true) : Identifier s := by
  cases s with
  | nil => cases h
  | cons c cs =>
    simp only [identBody, Bool.and_eq_true, List.all_eq_true] at h
    obtain ⟨⟨h1, h2⟩, h3⟩ := h
    have hc := hf c h1
    refine ⟨⟨c, cs, rfl, letter_of_alpha hc⟩, ?_, ?_⟩
    · intro x hx
      rcases List.mem_cons.1 hx with rfl | hx
      · exact .inl (letter_of_alpha hc)
      · have := h2 x hx
        simp only [isWord, Bool.or_eq_true, beq_iff_eq] at this
        rcases this with h | h
        · rcases alnum_cases h with h | h
          · exact .inl h
          · exact .inr (.inl h)
        · exact .inr (.inr h)
    · intro hl
      cases hg : cs.getLast? with
      | none =>
        have : cs = [] := by simpa using hg
        subst this
        simp only [List.getLast?_singleton, Option.some.injEq] at hl
        subst hl
        exact absurd hc (by decide)
      | some l =>
        rw [hg] at h3
        have : (c :: cs).getLast? = some l := by
          rw [List.getLast?_cons, hg]; rfl
        rw [this] at hl
        cases hl
        exact absurd h3 (by decide)

theorem dollar_spec {body : Str → Bool} {s : Str} (h : dollar body s = true) :
    body s = true ∨ ∃ t, s = t ++ ['\n'] ∧ body t = true := by
  simp only [dollar, Bool.or_eq_true, Bool.and_eq_true, beq_iff_eq] at h
  rcases h with h | ⟨h1, h2⟩
  · exact .inl h
  · refine .inr ⟨s.dropLast, ?_, h2⟩
    cases s with
    | nil => cases h1
    | cons c cs =>
      have hne : c :: cs ≠ [] := by simp
      rw [List.getLast?_eq_some_getLast hne, Option.some.injEq] at h1
      rw [← h1, List.dropLast_concat_getLast]

theorem class_no_id {L : Validation.Lib} {x : Json} {ref : Str} (h : validateClass L x ref = .ok []) (p : Json) :
    ¬ IsProperty x c!"id" p := by
  rintro ⟨o, ps, hf, hm⟩
  rw [validateClass] at h
  simp only [bind_ok] at h
  obtain ⟨kvs, hk, h⟩ := h
  obtain ⟨o', rfl⟩ := asFields_ok hk
  simp only [field] at hf
  rw [hf] at h
  simp only [asFields, bind_ok, pure_ok, List.append_eq_nil_iff] at h
  obtain ⟨props, hp, _, h⟩ := h
  cases hp
  split at h
  · cases h
  · rename_i hn
    apply hn
    clear h hf hn hk
    induction ps with
    | nil => cases hm
    | cons q qs ih =>
      obtain ⟨k, v⟩ := q
      rw [List.lookup_cons]
      cases hk : (c!"id" == k) with
      | true => rfl
      | false =>
        rcases List.mem_cons.1 hm with e | hm
        · cases e; simp at hk
        · exact ih hm

end Mapry.Props
