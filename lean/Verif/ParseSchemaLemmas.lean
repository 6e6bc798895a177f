import Verif.ValidateLemmas

/-!
# Lemmas about the parsing of schemas
-/

namespace Mapry.ParseSchema

open Mapry.PyRuntime (Json sub)
open Mapry.SchemaSpec Mapry.Validation

theorem valuesFromMapping_eq (L : Lib) (classes embeds : List Str) (kvs : Fields) :
    valuesFromMapping L classes embeds kvs =
      match kvs.lookup c!"values" with
      | none => .error .keyError
      | some v => typeFromMapping L classes embeds v := by
  induction kvs with
  | nil => simp [valuesFromMapping]
  | cons p rest ih =>
    obtain ⟨k, v⟩ := p
    rw [valuesFromMapping, List.lookup_cons]
    by_cases hk : k = c!"values"
    · rw [if_pos hk]; subst hk; simp
    · rw [if_neg hk, ih]
      have : (c!"values" == k) = false := by
        rw [beq_eq_false_iff_ne]; exact fun h => hk h.symm
      rw [this]

theorem lookup_lt {o : Bool} {kvs : Fields} {k : Str} {v : Json} (h : kvs.lookup k = some v) :
    sizeOf v < sizeOf (Json.obj o kvs) := by
  have h1 := List.sizeOf_lt_of_mem (lookup_mem h)
  have h2 : sizeOf (k, v) = 1 + sizeOf k + sizeOf v := rfl
  have h3 : sizeOf (Json.obj o kvs) = 1 + sizeOf o + sizeOf kvs := by simp
  omega

theorem accepted_field {L : Lib} {types : List Str} {top : Bool} {kvs : Fields} {ref t : Str}
    (h : Accepted L types top kvs ref t) {s : TypeSchema} (hs : typeToSchema.lookup t = some s) {k : Str} {v : Json}
    (hk : kvs.lookup k = some v) : ((s.properties.lookup k).getD allowed) v = true :=
  objectOf_field (h.schema s hs) hk

theorem flag_spec {o : Bool} {kvs : Fields} {key : Str} (h : ∀ v, kvs.lookup key = some v → isBool v = true) :
    Flag (.obj o kvs) key (flag key kvs) := by
  rw [flag]
  cases hl : kvs.lookup key with
  | none => exact .inr ⟨hl, rfl⟩
  | some v =>
    obtain ⟨b, rfl⟩ := isBool_bool (h v hl)
    exact .inl hl

theorem text_spec {L : Lib} {o : Bool} {kvs : Fields} {key : Str} {p : Option Str} (h : patternItem L key kvs = .ok p) :
    Text (.obj o kvs) key p := by
  rw [patternItem] at h
  cases hl : kvs.lookup key with
  | none => rw [hl] at h; cases h; exact .absent hl
  | some v =>
    rw [hl] at h
    simp only [bind_ok, asStr_ok] at h
    obtain ⟨q, rfl, h⟩ := h
    cases hc : L.compileError q with
    | some m => rw [hc] at h; cases h
    | none => rw [hc] at h; cases h; exact .present hl

theorem format_spec {o : Bool} {kvs : Fields} {default f : Str}
    (hn : kvs.lookup c!"format" ≠ some .null)
    (h : formatItem default kvs = .ok f) : TextOr (.obj o kvs) c!"format" default f := by
  rw [formatItem] at h
  cases hl : kvs.lookup c!"format" with
  | none => rw [hl] at h; cases h; exact ⟨none, .absent hl, rfl⟩
  | some v =>
    rw [hl] at h
    cases v with
    | null => exact absurd hl hn
    | str s' => cases h; exact ⟨some f, .present hl, rfl⟩
    | bool _ => cases h
    | int _ => cases h
    | float _ => cases h
    | arr _ => cases h
    | obj _ _ => cases h

/-- A whole number survives the conversion. -/
theorem limit_spec {o : Bool} {kvs : Fields} {key : Str} {r : Option Int}
    (hw : ∀ v, kvs.lookup key = some v → ∃ i : Int, Value v i) (h : intItem key kvs = .ok r) :
    Limit (.obj o kvs) key r := by
  rw [intItem] at h
  cases hl : kvs.lookup key with
  | none => rw [hl] at h; cases h; exact .absent hl
  | some v =>
    rw [hl] at h
    obtain ⟨i, hi⟩ := hw v hl
    simp only [bind_ok, pure_ok] at h
    obtain ⟨n, hn, rfl⟩ := h
    have : n = i := by
      generalize hq : (i : Rat) = q at hi
      cases hi with
      | int m =>
        cases hn
        exact (Rat.intCast_inj.1 hq).symm
      | float q =>
        simp only [toInt, Except.ok.injEq] at hn
        rw [← hn, ← hq, F64.truncRat]
        split
        · rw [← Rat.intCast_neg, Rat.floor_intCast]; omega
        · rw [Rat.floor_intCast]
    subst this
    exact .present hl hi

/-- The fractional bounds of floats are cut off by the parser: here are none. -/
def WholeFloats (j : Json) : Prop :=
  ∀ w, Nested j w → HasType w c!"float" → ∀ key ∈ [c!"minimum", c!"maximum"], ∀ v, field w key = some v →
    ∃ i : Int, Value v i

theorem bounds_spec {L : Lib} {types : List Str} {top : Bool} {o : Bool} {kvs : Fields} {ref t : Str}
    (ha : Accepted L types top kvs ref t) {number : Check} (hs : typeToSchema.lookup t = some (boundsOf number))
    (hw : ∀ key ∈ [c!"minimum", c!"maximum"], ∀ v, kvs.lookup key = some v → ∃ i : Int, Value v i)
    {b : Bounds} (h : boundsFromMapping kvs = .ok b) : BoundsOf (.obj o kvs) b := by
  rw [boundsFromMapping] at h
  simp only [bind_ok, pure_ok] at h
  obtain ⟨lo, h1, hi, h2, rfl⟩ := h
  exact ⟨limit_spec (hw _ (by simp)) h1, flag_spec fun v hv => accepted_field ha hs hv,
    limit_spec (hw _ (by simp)) h2, flag_spec fun v hv => accepted_field ha hs hv⟩

theorem int_value {v : Json} (h : isInteger v = true) : ∃ i : Int, Value v i := by
  obtain ⟨i, rfl⟩ := isInteger_int h; exact ⟨i, .int i⟩

theorem size_value {v : Json} (h : isSize v = true) : ∃ i : Int, Value v i := by
  obtain ⟨i, rfl, _⟩ := isSize_int h; exact ⟨i, .int i⟩

/-- The bounds of the floats are parsed as given by the relation. -/
def FloatsBy (fl : Json → Bounds → Prop) (j : Json) : Prop :=
  ∀ (L : Lib) (types : List Str) (top : Bool) (ref : Str) (o : Bool) (kvs : Fields) (b : Bounds),
    Nested j (.obj o kvs) → Accepted L types top kvs ref c!"float" → boundsFromMapping kvs = .ok b →
    fl (.obj o kvs) b

theorem wholeFloats_by {j : Json} (h : WholeFloats j) : FloatsBy BoundsOf j :=
  fun _ _ _ _ _ _ _ hn ha hb =>
    bounds_spec ha (number := isNumber) rfl (fun key hk v hv => h _ hn ha.type key hk v hv) hb

theorem integralPart_trunc (q : Rat) : IntegralPart q (F64.truncRat q) := by
  constructor
  · intro h
    rw [F64.truncRat, if_neg (Rat.not_lt.2 h)]
    have h2 := Rat.lt_floor (x := q)
    exact ⟨Rat.le_floor_iff.2 h, Rat.floor_le q, by grind⟩
  · intro h
    rw [F64.truncRat, if_pos h]
    have h1 := Rat.floor_le (-q)
    have h2 := Rat.lt_floor (x := -q)
    have h3 : (0 : Int) ≤ (-q).floor := Rat.le_floor_iff.2 (by rw [Rat.intCast_zero]; grind)
    exact ⟨by omega, by rw [Rat.intCast_neg]; grind, by rw [Rat.intCast_neg]; grind⟩

theorem integralPart_int (i : Int) : IntegralPart i i := by
  constructor
  · intro h
    exact ⟨Rat.intCast_nonneg.1 h, Rat.le_refl, by grind⟩
  · intro h
    have := Rat.intCast_neg_iff.1 h
    exact ⟨by omega, Rat.le_refl, by grind⟩

theorem cutLimit_spec {o : Bool} {kvs : Fields} {key : Str} {r : Option Int}
    (hn : ∀ v, kvs.lookup key = some v → isNumber v = true) (h : intItem key kvs = .ok r) :
    CutLimit (.obj o kvs) key r := by
  rw [intItem] at h
  cases hl : kvs.lookup key with
  | none => rw [hl] at h; cases h; exact .absent hl
  | some v =>
    rw [hl] at h
    simp only [bind_ok, pure_ok] at h
    obtain ⟨n, hi, rfl⟩ := h
    rcases isNumber_num (hn v hl) with ⟨i, rfl⟩ | ⟨f, rfl⟩
    · cases hi
      exact .present hl (.int _) (integralPart_int _)
    · cases f with
      | fin q =>
        cases hi
        exact .present hl (.float q) (integralPart_trunc q)
      | inf _ => cases hi
      | nan => cases hi

theorem cutFloats_by (j : Json) : FloatsBy CutBoundsOf j := by
  intro L types top ref o kvs b _ ha h
  rw [boundsFromMapping] at h
  simp only [bind_ok, pure_ok] at h
  obtain ⟨lo, h1, hi, h2, rfl⟩ := h
  have hs : typeToSchema.lookup c!"float" = some (boundsOf isNumber) := rfl
  exact ⟨cutLimit_spec (fun v hv => accepted_field ha hs hv) h1, flag_spec fun v hv => accepted_field ha hs hv,
    cutLimit_spec (fun v hv => accepted_field ha hs hv) h2, flag_spec fun v hv => accepted_field ha hs hv⟩

/-- The parsed type is the one which the definition describes. -/
theorem typeFromMapping_spec {fl : Json → Bounds → Prop} {L : Lib} {types classes embeds : List Str} (j : Json)
    {top : Bool} {ref : Str} (hv : validateType L types top j ref = .ok none) (hw : FloatsBy fl j) {ty : Ty}
    (h : typeFromMapping L classes embeds j = .ok ty) : TypeOf fl classes embeds j ty := by
  obtain ⟨o, kvs, t, rfl, ha⟩ := accepted_of hv
  have ht : HasType (.obj o kvs) t := ha.type
  rw [typeFromMapping, typeBody] at h
  simp only [bind_ok, strItem_ok] at h
  obtain ⟨t', ht', h⟩ := h
  rw [ha.type] at ht'
  cases ht'
  have fmt : ∀ {s : TypeSchema}, typeToSchema.lookup t = some s → s.properties.lookup c!"format" = some anyStr →
      kvs.lookup c!"format" ≠ some .null := by
    intro s hs hf hn
    have := accepted_field ha hs hn
    rw [hf] at this
    cases this
  have nested : t = c!"array" ∨ t = c!"map" → ∀ t, valuesFromMapping L classes embeds kvs = .ok t →
      ∃ v, kvs.lookup c!"values" = some v ∧ TypeOf fl classes embeds v t := by
    intro htt t hvm
    obtain ⟨v, hl, hvv⟩ := accepted_values ha htt
    rw [valuesFromMapping_eq, hl] at hvm
    have hlt := lookup_lt (o := o) hl
    refine ⟨v, hl, typeFromMapping_spec v hvv ?_ hvm⟩
    intro L' types' top' ref' o' kvs' b' hn
    refine hw L' types' top' ref' o' kvs' b' (.values ?_ hl hn)
    rcases htt with rfl | rfl
    · exact .inl ht
    · exact .inr ht
  by_cases e : t = c!"boolean"
  · subst e; cases h; exact .boolean ht
  rw [if_neg e] at h; clear e
  by_cases e : t = c!"integer"
  · subst e
    rw [if_pos rfl] at h
    simp only [bind_ok, pure_ok] at h
    obtain ⟨b, hb, rfl⟩ := h
    exact .integer ht (bounds_spec ha (number := isInteger) rfl (fun key hk v hv => by
      have h := accepted_field ha (s := boundsOf isInteger) rfl hv
      simp only [List.mem_cons, List.not_mem_nil, or_false] at hk
      rcases hk with rfl | rfl <;> exact int_value h) hb)
  rw [if_neg e] at h; clear e
  by_cases e : t = c!"float"
  · subst e
    rw [if_pos rfl] at h
    simp only [bind_ok, pure_ok] at h
    obtain ⟨b, hb, rfl⟩ := h
    exact .float ht (hw _ _ _ _ _ _ _ (.self _) ha hb)
  rw [if_neg e] at h; clear e
  by_cases e : t = c!"string"
  · subst e
    rw [if_pos rfl] at h
    simp only [bind_ok, pure_ok] at h
    obtain ⟨p, hp, rfl⟩ := h
    exact .string ht (text_spec hp)
  rw [if_neg e] at h; clear e
  by_cases e : t = c!"path"
  · subst e
    rw [if_pos rfl] at h
    simp only [bind_ok, pure_ok] at h
    obtain ⟨p, hp, rfl⟩ := h
    exact .path ht (text_spec hp)
  rw [if_neg e] at h; clear e
  by_cases e : t = c!"date"
  · subst e
    rw [if_pos rfl] at h
    simp only [bind_ok, pure_ok] at h
    obtain ⟨f, hf, rfl⟩ := h
    exact .date ht (format_spec (fmt rfl rfl) hf)
  rw [if_neg e] at h; clear e
  by_cases e : t = c!"time"
  · subst e
    rw [if_pos rfl] at h
    simp only [bind_ok, pure_ok] at h
    obtain ⟨f, hf, rfl⟩ := h
    exact .time ht (format_spec (fmt rfl rfl) hf)
  rw [if_neg e] at h; clear e
  by_cases e : t = c!"datetime"
  · subst e
    rw [if_pos rfl] at h
    simp only [bind_ok, pure_ok] at h
    obtain ⟨f, hf, rfl⟩ := h
    exact .datetime ht (format_spec (fmt rfl rfl) hf)
  rw [if_neg e] at h; clear e
  by_cases e : t = c!"time_zone"
  · subst e; cases h; exact .timeZone ht
  rw [if_neg e] at h; clear e
  by_cases e : t = c!"duration"
  · subst e; cases h; exact .duration ht
  rw [if_neg e] at h; clear e
  by_cases e : t = c!"array"
  · subst e
    rw [if_pos rfl] at h
    simp only [bind_ok, pure_ok] at h
    obtain ⟨t, htt, lo, hlo, hi, hhi, rfl⟩ := h
    obtain ⟨v, hl, hty⟩ := nested (.inl rfl) t htt
    exact .array ht hl hty (limit_spec (fun v hv => size_value (accepted_field ha rfl hv)) hlo)
      (limit_spec (fun v hv => size_value (accepted_field ha rfl hv)) hhi)
  rw [if_neg e] at h; clear e
  by_cases e : t = c!"map"
  · subst e
    rw [if_pos rfl] at h
    simp only [bind_ok, pure_ok] at h
    obtain ⟨t, htt, rfl⟩ := h
    obtain ⟨v, hl, hty⟩ := nested (.inr rfl) t htt
    exact .map ht hl hty
  rw [if_neg e] at h; clear e
  by_cases e : t ∈ classes
  · rw [if_pos e] at h; cases h; exact .cls ht e
  rw [if_neg e] at h; clear e
  by_cases e : t ∈ embeds
  · rw [if_pos e] at h; cases h; exact .embed ht e
  rw [if_neg e] at h; cases h
termination_by sizeOf j

/-! ## The parser does not raise -/

/-- Every type named in the definition can be resolved. -/
def Known (classes embeds : List Str) (j : Json) : Prop :=
  ∀ w t, Nested j w → HasType w t → t ∈ builtin ∨ t ∈ classes ∨ t ∈ embeds

/-- The bounds of floats are finite. -/
def FiniteFloats (j : Json) : Prop :=
  ∀ w, Nested j w → HasType w c!"float" → ∀ key ∈ [c!"minimum", c!"maximum"], ∀ v, field w key = some v →
    ∃ q : Rat, Value v q

theorem intItem_total {kvs : Fields} {key : Str} (h : ∀ v, kvs.lookup key = some v → ∃ q : Rat, Value v q) :
    ∃ r, intItem key kvs = .ok r := by
  rw [intItem]
  cases hl : kvs.lookup key with
  | none => exact ⟨_, rfl⟩
  | some v =>
    obtain ⟨q, hq⟩ := h v hl
    cases hq <;> exact ⟨_, rfl⟩

theorem bounds_total {kvs : Fields}
    (h : ∀ key ∈ [c!"minimum", c!"maximum"], ∀ v, kvs.lookup key = some v → ∃ q : Rat, Value v q) :
    ∃ b, boundsFromMapping kvs = .ok b := by
  obtain ⟨lo, h1⟩ := intItem_total (h c!"minimum" (by simp))
  obtain ⟨hi, h2⟩ := intItem_total (h c!"maximum" (by simp))
  rw [boundsFromMapping, h1, h2]
  exact ⟨_, rfl⟩

theorem pattern_total {L : Lib} {kvs : Fields} {ref : Str} (h : validatePattern L kvs ref = none) :
    ∃ p, patternItem L c!"pattern" kvs = .ok p := by
  rw [validatePattern] at h
  rw [patternItem]
  cases hl : kvs.lookup c!"pattern" with
  | none => exact ⟨_, rfl⟩
  | some v =>
    rw [hl] at h
    cases v with
    | str p =>
      simp only [Option.map_eq_none_iff] at h
      refine ⟨some p, ?_⟩
      simp only [bind_ok, asStr_ok]
      exact ⟨p, rfl, by rw [h]; rfl⟩
    | _ => cases h

theorem format_total {kvs : Fields} (default : Str) (h : ∀ v, kvs.lookup c!"format" = some v → anyStr v = true) :
    ∃ f, formatItem default kvs = .ok f := by
  rw [formatItem]
  cases hl : kvs.lookup c!"format" with
  | none => exact ⟨_, rfl⟩
  | some v =>
    obtain ⟨s, rfl, _⟩ := isStr_str (h v hl)
    exact ⟨_, rfl⟩

theorem typeFromMapping_total {L : Lib} {types classes embeds : List Str} (j : Json) {top : Bool} {ref : Str}
    (hv : validateType L types top j ref = .ok none) (hk : Known classes embeds j) (hf : FiniteFloats j) :
    ∃ ty, typeFromMapping L classes embeds j = .ok ty := by
  obtain ⟨o, kvs, t, rfl, ha⟩ := accepted_of hv
  have ht : HasType (.obj o kvs) t := ha.type
  have hlogic := ha.logic
  rw [typeFromMapping, typeBody, strItem_ok.2 ha.type]
  have nested : t = c!"array" ∨ t = c!"map" → ∃ t, valuesFromMapping L classes embeds kvs = .ok t := by
    intro htt
    obtain ⟨v, hl, hvv⟩ := accepted_values ha htt
    rw [valuesFromMapping_eq, hl]
    have hlt := lookup_lt (o := o) hl
    have hsub : ∀ w, Nested v w → Nested (.obj o kvs) w := fun w hn => .values (by
      rcases htt with rfl | rfl
      · exact .inl ht
      · exact .inr ht) hl hn
    exact typeFromMapping_total v hvv (fun w t hn => hk w t (hsub w hn)) (fun w hn => hf w (hsub w hn))
  change ∃ ty, (if t = c!"boolean" then _ else _) = _
  by_cases hb : t ∈ builtin
  · simp only [builtin, List.mem_cons, List.not_mem_nil, or_false] at hb
    rcases hb with rfl | rfl | rfl | rfl | rfl | rfl | rfl | rfl | rfl | rfl | rfl | rfl
    · exact ⟨_, rfl⟩
    · obtain ⟨b, hb⟩ := bounds_total (kvs := kvs) (fun key hkey v hv => by
        have h := accepted_field ha (s := boundsOf isInteger) rfl hv
        simp only [List.mem_cons, List.not_mem_nil, or_false] at hkey
        rcases hkey with rfl | rfl <;> (obtain ⟨i, hi⟩ := int_value h; exact ⟨_, hi⟩))
      simp [hb, bind, Except.bind, pure, Except.pure]
    · obtain ⟨b, hb⟩ := bounds_total (kvs := kvs) (hf _ (.self _) ht)
      simp [hb, bind, Except.bind, pure, Except.pure]
    · obtain ⟨p, hp⟩ := pattern_total (L := L) (kvs := kvs) (ref := ref) (by
        have := hlogic; simp [validateLogic] at this; exact this)
      simp [hp, bind, Except.bind, pure, Except.pure]
    · obtain ⟨p, hp⟩ := pattern_total (L := L) (kvs := kvs) (ref := ref) (by
        have := hlogic; simp [validateLogic] at this; exact this)
      simp [hp, bind, Except.bind, pure, Except.pure]
    · obtain ⟨f, hf⟩ := format_total c!"%Y-%m-%d" fun v hv => accepted_field ha rfl hv
      simp [hf, bind, Except.bind, pure, Except.pure]
    · obtain ⟨f, hf⟩ := format_total c!"%H:%M:%S" fun v hv => accepted_field ha rfl hv
      simp [hf, bind, Except.bind, pure, Except.pure]
    · obtain ⟨f, hf⟩ := format_total c!"%Y-%m-%dT%H:%M:%SZ" fun v hv => accepted_field ha rfl hv
      simp [hf, bind, Except.bind, pure, Except.pure]
    · exact ⟨_, rfl⟩
    · exact ⟨_, rfl⟩
    · obtain ⟨t, htt⟩ := nested (.inl rfl)
      obtain ⟨lo, hlo⟩ := intItem_total (kvs := kvs) (key := c!"minimum_size") fun v hv => by
        obtain ⟨i, hi⟩ := size_value (accepted_field ha rfl hv); exact ⟨_, hi⟩
      obtain ⟨hi, hhi⟩ := intItem_total (kvs := kvs) (key := c!"maximum_size") fun v hv => by
        obtain ⟨i, hi⟩ := size_value (accepted_field ha rfl hv); exact ⟨_, hi⟩
      simp [htt, hlo, hhi, bind, Except.bind, pure, Except.pure]
    · obtain ⟨t, htt⟩ := nested (.inr rfl)
      simp [htt, bind, Except.bind, pure, Except.pure]
  · have hc := (hk _ t (.self _) ht).resolve_left hb
    · simp only [builtin, List.mem_cons, List.not_mem_nil, or_false, not_or] at hb
      obtain ⟨h1, h2, h3, h4, h5, h6, h7, h8, h9, h10, h11, h12⟩ := hb
      rw [if_neg h1, if_neg h2, if_neg h3, if_neg h4, if_neg h5, if_neg h6, if_neg h7, if_neg h8, if_neg h9,
        if_neg h10, if_neg h11, if_neg h12]
      by_cases hcl : t ∈ classes
      · rw [if_pos hcl]; exact ⟨_, rfl⟩
      · rw [if_neg hcl, if_pos (hc.resolve_left hcl)]; exact ⟨_, rfl⟩
termination_by sizeOf j

/-! ## Composites -/

theorem strLt_iff (a b : Str) : strLt a b = true ↔ a < b := by
  induction a generalizing b with
  | nil => cases b <;> simp [strLt]
  | cons x xs ih =>
    cases b with
    | nil => simp [strLt]
    | cons y ys =>
      rw [strLt, List.cons_lt_cons_iff]
      by_cases h : x = y
      · subst h; simp [ih]
      · rw [if_neg h]
        simp only [decide_eq_true_eq, h, false_and, or_false]
        exact Iff.rfl

theorem insertItem_perm {α : Type} (x : Str × α) (l : List (Str × α)) : (insertItem x l).Perm (x :: l) := by
  induction l with
  | nil => exact .refl _
  | cons y ys ih =>
    rw [insertItem]
    split
    · exact (List.Perm.cons y ih).trans (.swap x y ys)
    · exact .refl _

theorem sortItems_perm {α : Type} (l : List (Str × α)) : (sortItems l).Perm l := by
  induction l with
  | nil => exact .refl _
  | cons x xs ih => exact (insertItem_perm x _).trans (.cons x ih)

theorem insertItem_sorted {α : Type} (x : Str × α) (l : List (Str × α))
    (h : l.Pairwise (fun a b => ¬ b.1 < a.1)) : (insertItem x l).Pairwise (fun a b => ¬ b.1 < a.1) := by
  induction l with
  | nil => simp [insertItem]
  | cons y ys ih =>
    rw [insertItem]
    obtain ⟨h1, h2⟩ := List.pairwise_cons.1 h
    split
    · rename_i hlt
      rw [strLt_iff] at hlt
      refine List.pairwise_cons.2 ⟨fun b hb => ?_, ih h2⟩
      rcases List.mem_cons.1 ((insertItem_perm x ys).mem_iff.1 hb) with rfl | hb
      · exact fun hc => List.lt_irrefl _ (List.lt_trans hlt hc)
      · exact h1 b hb
    · rename_i hlt
      have hlt : ¬ y.1 < x.1 := fun hc => hlt ((strLt_iff _ _).2 hc)
      refine List.pairwise_cons.2 ⟨fun b hb => ?_, h⟩
      rcases List.mem_cons.1 hb with rfl | hb
      · exact hlt
      · have := h1 b hb
        exact fun hc => hlt (List.lt_of_le_of_lt (List.not_lt.1 this) hc)

theorem sortItems_sorted {α : Type} (l : List (Str × α)) : (sortItems l).Pairwise (fun a b => ¬ b.1 < a.1) := by
  induction l with
  | nil => exact .nil
  | cons x xs ih => exact insertItem_sorted x _ ih

theorem orderedItems_mem {α : Type} {o : Bool} {l : List (Str × α)} {x : Str × α} (h : x ∈ orderedItems o l) :
    x ∈ l := by
  cases o with
  | true => exact h
  | false => exact (sortItems_perm l).mem_iff.1 h

theorem items_spec {c : Json} {o : Bool} {kvs : Fields} (h : field c c!"properties" = some (.obj o kvs)) :
    Items c (orderedItems o kvs) := by
  cases o with
  | true => exact .ordered h
  | false => exact .sorted h (sortItems_perm kvs) (sortItems_sorted kvs)

theorem mapE_spec {α β : Type} {f : α → Except Exc β} {xs : List α} {ys : List β} (h : mapE f xs = .ok ys) :
    Forall₂ (fun x y => f x = .ok y) xs ys := by
  induction xs generalizing ys with
  | nil => cases h; exact .nil
  | cons x xs ih =>
    rw [mapE] at h
    simp only [bind_ok, pure_ok] at h
    obtain ⟨y, h1, ys', h2, rfl⟩ := h
    exact .cons h1 (ih h2)

theorem mapE_total {α β : Type} {f : α → Except Exc β} {xs : List α} (h : ∀ x ∈ xs, ∃ y, f x = .ok y) :
    ∃ ys, mapE f xs = .ok ys := by
  induction xs with
  | nil => exact ⟨[], rfl⟩
  | cons x xs ih =>
    obtain ⟨y, hy⟩ := h x (by simp)
    obtain ⟨ys, hys⟩ := ih fun z hz => h z (by simp [hz])
    exact ⟨y :: ys, by rw [mapE, hy, hys]; rfl⟩

theorem forall₂_imp {α β : Type} {R S : α → β → Prop} {xs : List α} {ys : List β} (h : Forall₂ R xs ys)
    (himp : ∀ x ∈ xs, ∀ y, R x y → S x y) : Forall₂ S xs ys := by
  induction h with
  | nil => exact .nil
  | cons h1 _ ih => exact .cons (himp _ (by simp) _ h1) (ih fun x hx => himp x (by simp [hx]))

/-- The checks which every property of an accepted schema has passed -/
structure GoodProperty (L : Lib) (types : List Str) (kv : Str × Json) : Prop where
  check : propertyCheck kv.2 = true
  valid : ∃ ref, validateType L types true kv.2 ref = .ok none

theorem property_spec {fl : Json → Bounds → Prop} {L : Lib} {types classes embeds : List Str} {ref : Str} {kv : Str × Json} {p : Property}
    (hg : GoodProperty L types kv) (hw : FloatsBy fl kv.2)
    (h : propertyFromMapping L classes embeds ref kv = .ok p) : PropertyOf fl classes embeds ref kv p := by
  rw [propertyFromMapping] at h
  simp only [bind_ok, pure_ok, strItem_ok] at h
  obtain ⟨kvs, hkvs, d, hd, js, hjs, ty, hty, opt, hopt, rfl⟩ := h
  obtain ⟨o, ho⟩ := asFields_ok hkvs
  obtain ⟨r, hv⟩ := hg.valid
  refine ⟨rfl, rfl, ?_, ?_, ?_, typeFromMapping_spec kv.2 hv hw hty⟩
  · rw [ho]; exact hd
  · rw [ho]
    rw [strItemOr] at hjs
    cases hl : kvs.lookup c!"json" with
    | none => rw [hl] at hjs; cases hjs; exact ⟨none, .absent hl, rfl⟩
    | some v =>
      rw [hl] at hjs
      have := asStr_ok.1 hjs
      subst this
      exact ⟨_, .present hl, rfl⟩
  · rw [ho]
    rw [optionalItem] at hopt
    cases hl : kvs.lookup c!"optional" with
    | none => rw [hl] at hopt; cases hopt; exact .inr ⟨hl, rfl⟩
    | some v =>
      rw [hl] at hopt
      cases v <;> cases hopt
      exact .inl hl

theorem property_total {L : Lib} {types classes embeds : List Str} {ref : Str} {kv : Str × Json}
    (hg : GoodProperty L types kv) (hk : Known classes embeds kv.2) (hf : FiniteFloats kv.2) :
    ∃ p, propertyFromMapping L classes embeds ref kv = .ok p := by
  obtain ⟨r, hv⟩ := hg.valid
  obtain ⟨ty, hty⟩ := typeFromMapping_total (classes := classes) (embeds := embeds) kv.2 hv hk hf
  have hc := hg.check
  obtain ⟨o, kvs, hkv, _⟩ := objectOf_obj hc
  rw [hkv] at hc
  obtain ⟨d, hd⟩ := objectOf_required hc (k := c!"description") (by simp)
  obtain ⟨d, rfl, _⟩ := isStr_str (objectOf_field hc hd)
  have hj : ∃ js, strItemOr c!"json" kv.1 kvs = .ok js := by
    rw [strItemOr]
    cases hl : kvs.lookup c!"json" with
    | none => exact ⟨_, rfl⟩
    | some v =>
      obtain ⟨s, rfl, _⟩ := isStr_str (objectOf_field hc hl)
      exact ⟨_, rfl⟩
  have ho : ∃ b, optionalItem kvs = .ok b := by
    rw [optionalItem]
    cases hl : kvs.lookup c!"optional" with
    | none => exact ⟨_, rfl⟩
    | some v =>
      obtain ⟨s, rfl⟩ := isBool_bool (objectOf_field hc hl)
      exact ⟨_, rfl⟩
  obtain ⟨js, hjs⟩ := hj
  obtain ⟨b, hb⟩ := ho
  have hfields : asFields kv.2 = .ok kvs := by rw [hkv]; rfl
  rw [propertyFromMapping, hfields, hty]
  simp only [bind, Except.bind, strItem_ok.2 hd, hjs, hb, pure, Except.pure]
  exact ⟨_, rfl⟩

/-- The properties of a composite of an accepted schema -/
def GoodProperties (L : Lib) (types : List Str) (kvs : Fields) : Prop :=
  ∀ v, kvs.lookup c!"properties" = some v → ∃ o ps, v = .obj o ps ∧ ∀ kv ∈ ps, GoodProperty L types kv

theorem properties_spec {fl : Json → Bounds → Prop} {L : Lib} {types classes embeds : List Str} {ref : Str} {o : Bool}
    {kvs : Fields} {ps : List Property} (hg : GoodProperties L types kvs)
    (hw : ∀ name p, IsProperty (.obj o kvs) name p → FloatsBy fl p)
    (h : propertiesOf L classes embeds ref kvs = .ok ps) : PropertiesOf fl classes embeds ref (.obj o kvs) ps := by
  rw [propertiesOf] at h
  cases hl : kvs.lookup c!"properties" with
  | none => rw [hl] at h; cases h; exact ⟨[], .absent hl, .nil⟩
  | some v =>
    obtain ⟨o', kvs', rfl, hgood⟩ := hg v hl
    rw [hl] at h
    refine ⟨_, items_spec hl, forall₂_imp (mapE_spec h) fun kv hkv p hp => ?_⟩
    have hm := orderedItems_mem hkv
    exact property_spec (hgood kv hm) (hw kv.1 kv.2 ⟨o', kvs', hl, hm⟩) hp

theorem properties_total {L : Lib} {types classes embeds : List Str} {ref : Str} {o : Bool} {kvs : Fields}
    (hg : GoodProperties L types kvs)
    (hk : ∀ name p, IsProperty (.obj o kvs) name p → Known classes embeds p ∧ FiniteFloats p) :
    ∃ ps, propertiesOf L classes embeds ref kvs = .ok ps := by
  rw [propertiesOf]
  cases hl : kvs.lookup c!"properties" with
  | none => exact ⟨[], rfl⟩
  | some v =>
    obtain ⟨o', kvs', rfl, hgood⟩ := hg v hl
    refine mapE_total fun kv hkv => ?_
    have hm := orderedItems_mem hkv
    obtain ⟨h1, h2⟩ := hk kv.1 kv.2 ⟨o', kvs', hl, hm⟩
    exact property_total (hgood kv hm) h1 h2

end Mapry.ParseSchema
