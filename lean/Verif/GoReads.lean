import Verif.GoSpec
import Verif.PyReads
import Verif.Props.Duration

/-!
# The values read by the generated Go parser

For an empty container and a new target: a value is assigned without an error exactly if the JSON value
describes it (`Parses`). With a container of capacity one the parser does not panic, and there is only
one way to panic at all (`Total`).
-/

namespace Mapry.GoRuntime

open Mapry.Text Mapry.Duration Spec
open Mapry.PyRuntime.Spec (Within FloatWithin SizeWithin)

/-! ## Lists in two orders -/

theorem forall₂_perm {α β : Type} {R : α → β → Prop} {l m : List α} (h : l.Perm m) :
    ∀ {ys : List β}, Forall₂ R m ys → ∃ xs, xs.Perm ys ∧ Forall₂ R l xs := by
  induction h with
  | nil => intro ys h; exact ⟨ys, .refl _, h⟩
  | cons a _ ih =>
    intro ys h
    cases h with
    | @cons _ b _ bs h1 h2 =>
      obtain ⟨xs, hp, hf⟩ := ih h2
      exact ⟨b :: xs, hp.cons _, .cons h1 hf⟩
  | swap a b l =>
    intro ys h
    cases h with
    | @cons _ c _ cs h1 h2 =>
      cases h2 with
      | @cons _ d _ ds h3 h4 => exact ⟨d :: c :: ds, .swap .., .cons h3 (.cons h1 h4)⟩
  | trans _ _ ih1 ih2 =>
    intro ys h
    obtain ⟨xs, hp, hf⟩ := ih2 h
    obtain ⟨zs, hq, hg⟩ := ih1 hf
    exact ⟨zs, hq.trans hp, hg⟩

theorem forall₂_keys {α β : Type} {R : Str × α → Str × β → Prop} (hR : ∀ a b, R a b → b.1 = a.1)
    {l : List (Str × α)} {m : List (Str × β)} (h : Forall₂ R l m) : m.map (·.1) = l.map (·.1) := by
  induction h with
  | nil => rfl
  | cons h1 _ ih => rw [List.map_cons, List.map_cons, hR _ _ h1, ih]

theorem ascending_of_keys {α β : Type} {l : GoMap α} {m : GoMap β} (h : m.map (·.1) = l.map (·.1))
    (hl : GoMap.Ascending l) : GoMap.Ascending m := by
  have h1 : (l.map (·.1)).Pairwise (· < ·) := List.pairwise_map.2 hl
  rw [← h] at h1
  exact List.pairwise_map.1 h1

/-! ## States -/

/-- No error has been recorded. -/
def Clean (st : St) : Prop := st.errors.values = []

/-- The container keeps its capacity and its errors. -/
structure Grows (st st' : St) : Prop where
  cap : st'.errors.cap = st.errors.cap
  le : st.errors.values.length ≤ st'.errors.values.length

/-- A container of capacity one -/
structure One (st : St) : Prop where
  cap : st.errors.cap = 1
  le : st.errors.values.length ≤ 1

theorem Grows.refl (st : St) : Grows st st := ⟨rfl, Nat.le_refl _⟩

theorem Grows.trans {a b c : St} (h : Grows a b) (h' : Grows b c) : Grows a c :=
  ⟨h'.cap.trans h.cap, Nat.le_trans h.le h'.le⟩

theorem Grows.clean {a b : St} (h : Grows a b) (hb : Clean b) : Clean a := by
  have := h.le
  unfold Clean at hb ⊢
  rw [hb] at this
  exact List.length_eq_zero_iff.1 (by simpa using this)

theorem Grows.of_errors {a b : St} (h : b.errors = a.errors) : Grows a b := by
  constructor <;> simp [h]

theorem Grows.add (st : St) (ref msg : Str) : Grows st (st.add ref msg) := by
  unfold St.add GoErrors.add
  constructor
  · simp only; split <;> rfl
  · simp only; split <;> simp

theorem Grows.range (st : St) : Grows st st.range := .of_errors rfl

theorem Clean.of_errors {a b : St} (h : b.errors = a.errors) (ha : Clean a) : Clean b := by
  unfold Clean at *; rw [h]; exact ha

theorem Clean.full {st : St} (h : Clean st) : st.errors.full = false := by
  unfold GoErrors.full
  rw [h]
  cases st.errors.cap <;> simp

theorem Clean.empty {st : St} (h : Clean st) : st.errors.empty = true := by
  unfold GoErrors.empty
  rw [h]; rfl

theorem clean_of_empty {st : St} (h : st.errors.empty = true) : Clean st := by
  unfold GoErrors.empty at h
  exact List.length_eq_zero_iff.1 (by simpa using h)

theorem not_clean_of_full {st : St} (h : st.errors.full = true) : ¬ Clean st := fun hc => by
  rw [hc.full] at h; cases h

theorem not_clean_add {st : St} (ref msg : Str) : ¬ Clean (st.add ref msg) := by
  unfold Clean St.add GoErrors.add
  simp only
  split
  · simp
  · next h =>
    intro hn
    rw [hn] at h
    simp at h

theorem One.of_clean {st : St} (h : Clean st) (hc : st.errors.cap = 1) : One st := ⟨hc, by rw [h]; simp⟩

theorem One.add {st : St} (h : One st) (ref msg : Str) : One (st.add ref msg) := by
  have hc := h.cap
  have hl := h.le
  unfold St.add GoErrors.add
  constructor
  · simp only; split <;> exact hc
  · simp only
    split
    · next hlt =>
      rw [hc] at hlt
      simp only [List.length_append, List.length_singleton]
      omega
    · exact hl

theorem One.clean {st : St} (h : One st) (hf : st.errors.full = false) : Clean st := by
  have hc := h.cap
  have hl := h.le
  unfold GoErrors.full at hf
  rw [hc] at hf
  simp at hf
  exact List.length_eq_zero_iff.1 (by omega)

theorem One.errors {a b : St} (h : One a) (he : b.errors = a.errors) : One b := ⟨by rw [he]; exact h.cap, by rw [he]; exact h.le⟩

/-! ## What is to be shown of a parser -/

/-- The target has not been assigned a structure. -/
def Fresh (t : Val) : Prop := ∀ name fields, t ≠ .obj name fields

theorem fresh_zero : Fresh .zero := fun _ _ h => by cases h

theorem fresh_nil : Fresh .nil := fun _ _ h => by cases h

/-- The only panic of the generated code -/
def thePanic : Exc := .panic c!"unexpected non-empty errors"

/-- The parser of the value `v` assigns what `reads` says. -/
structure Parses (f : ParseFn) (v : JVal) (reads : Val → Prop) : Prop where
  mono : ∀ ref t st r st', f v ref t st = .ok (r, st') → Grows st st'
  yes : ∀ ref t st x, Clean st → Fresh t → reads x →
    ∃ st', f v ref t st = .ok (some x, st') ∧ st'.errors = st.errors
  no : ∀ ref t st r st', Clean st → Fresh t → f v ref t st = .ok (r, st') → Clean st' →
    ∃ x, r = some x ∧ reads x

/-- The parser of the value `v` panics in one way only, and not at all with capacity one. -/
structure Total (f : ParseFn) (v : JVal) : Prop where
  only : ∀ ref t st x, f v ref t st = .error x → x = thePanic
  one : ∀ ref t st, Clean st → st.errors.cap = 1 → ∃ r st', f v ref t st = .ok (r, st') ∧ One st'

/-- A parser without parts: the value is either described by `v`, or one error is recorded. -/
def Simple (f : ParseFn) (v : JVal) (reads : Val → Prop) : Prop :=
  (∃ x, reads x ∧ (∀ y, reads y → y = x) ∧ ∀ ref t st, f v ref t st = .ok (some x, st)) ∨
  ((∀ x, ¬ reads x) ∧ ∀ ref t st, ∃ m, f v ref t st = .ok (none, st.add ref m))

theorem Simple.parses {f : ParseFn} {v : JVal} {reads : Val → Prop} (h : Simple f v reads) :
    Parses f v reads := by
  rcases h with ⟨x, hx, hu, he⟩ | ⟨hn, he⟩
  · refine ⟨?_, ?_, ?_⟩
    · intro ref t st r st' h
      rw [he] at h
      cases h
      exact .refl _
    · intro ref t st y _ _ hy
      rw [hu y hy]
      exact ⟨st, he .., rfl⟩
    · intro ref t st r st' _ _ h _
      rw [he] at h
      cases h
      exact ⟨x, rfl, hx⟩
  · refine ⟨?_, ?_, ?_⟩
    · intro ref t st r st' h
      obtain ⟨m, hm⟩ := he ref t st
      rw [hm] at h
      cases h
      exact .add ..
    · intro ref t st y _ _ hy
      exact absurd hy (hn y)
    · intro ref t st r st' _ _ h hc
      obtain ⟨m, hm⟩ := he ref t st
      rw [hm] at h
      cases h
      exact absurd hc (not_clean_add _ _)

theorem Simple.total {f : ParseFn} {v : JVal} {reads : Val → Prop} (h : Simple f v reads) :
    Total f v := by
  rcases h with ⟨x, hx, hu, he⟩ | ⟨hn, he⟩
  · refine ⟨?_, ?_⟩
    · intro ref t st x h
      rw [he] at h
      cases h
    · intro ref t st hc h1
      exact ⟨_, _, he .., .of_clean hc h1⟩
  · refine ⟨?_, ?_⟩
    · intro ref t st x h
      obtain ⟨m, hm⟩ := he ref t st
      rw [hm] at h
      cases h
    · intro ref t st hc h1
      obtain ⟨m, hm⟩ := he ref t st
      exact ⟨_, _, hm, (One.of_clean hc h1).add ..⟩

theorem Simple.expected {f : ParseFn} {v : JVal} {reads : Val → Prop} {L : Lib} {what : Str}
    (hn : ∀ x, ¬ reads x) (h : ∀ ref t st, f v ref t st = GoRuntime.expected L what v ref st) :
    Simple f v reads :=
  .inr ⟨hn, fun ref t st => ⟨_, h ref t st⟩⟩

/-! ## Primitive values -/

section

variable (L : Lib) (ids : Str → Str → Prop) (embed : Str → JVal → Val → Prop)

theorem simple_boolean (v : JVal) : Simple (parseBoolean L) v (ReadsTy L ids embed .boolean v) := by
  cases v with
  | bool b =>
    refine .inl ⟨.bool b, ⟨b, rfl, rfl⟩, ?_, fun _ _ _ => rfl⟩
    rintro y ⟨c, hc, rfl⟩
    cases hc; rfl
  | _ => exact .expected (by rintro x ⟨c, hc, _⟩; cases hc) (fun _ _ _ => rfl)

theorem truncRat_int (i : Int) : F64.truncRat (i : Rat) = i := by
  unfold F64.truncRat
  split
  · have : (-(i : Rat)) = ((-i : Int) : Rat) := by simp
    rw [this, Rat.floor_intCast]; omega
  · exact Rat.floor_intCast i

theorem within_int (b : Bounds) (i : Int) :
    (intMinOk b i = true ∧ intMaxOk b i = true) ↔ Within b (i : Rat) := by
  rw [← PyRuntime.bounds_int]
  unfold intMinOk intMaxOk PyRuntime.minOk PyRuntime.maxOk
  cases b.min <;> cases b.max <;> cases b.exMin <;> cases b.exMax <;>
    simp [PyRuntime.Num.ge, PyRuntime.Num.gt, PyRuntime.Num.le, PyRuntime.Num.lt]

theorem int64_rat (i : Int) : ¬ (9223372036854775808 ≤ (i : Rat) ∨ (i : Rat) < -9223372036854775808) ↔ IsInt64 i := by
  have h1 : (9223372036854775808 : Rat) = ((9223372036854775808 : Int) : Rat) := rfl
  have h2 : (-9223372036854775808 : Rat) = ((-9223372036854775808 : Int) : Rat) := rfl
  rw [h2, h1, Rat.intCast_le_intCast, Rat.intCast_lt_intCast]
  unfold IsInt64 minInt64 maxInt64
  omega

theorem simple_integer (b : Bounds) (v : JVal) :
    Simple (parseInteger L b) v (ReadsTy L ids embed (.integer b) v) := by
  cases v with
  | float f =>
    cases f with
    | nan => exact .inr ⟨(by rintro x ⟨c, hc, _⟩; cases hc), fun ref t st => ⟨_, rfl⟩⟩
    | inf n => exact .inr ⟨(by rintro x ⟨c, hc, _⟩; cases hc), fun ref t st => ⟨_, rfl⟩⟩
    | fin q =>
      by_cases hw : q ≠ (F64.truncRat q : Rat)
      · refine .inr ⟨?_, fun ref t st => ⟨L.sprintf c!"expected a whole number, but got: %f" [.float (.fin q)], ?_⟩⟩
        · rintro x ⟨i, hi, _⟩
          cases hi
          rw [truncRat_int] at hw
          exact hw rfl
        · unfold parseInteger
          simp only
          rw [if_pos hw]
          rfl
      · have hq : q = ((F64.truncRat q : Int) : Rat) := Classical.not_not.1 hw
        generalize F64.truncRat q = i at hq
        subst hq
        have hpi : ∀ ref t st, parseInteger L b (.float (.fin (i : Rat))) ref t st =
            if 9223372036854775808 ≤ (i : Rat) ∨ (i : Rat) < -9223372036854775808 then
              overflow L (.float (.fin (i : Rat))) ref st
            else parseInt64 L b i ref st := by
          intro ref t st
          unfold parseInteger
          simp only
          rw [truncRat_int, if_neg (by simp)]
        by_cases ho : 9223372036854775808 ≤ (i : Rat) ∨ (i : Rat) < -9223372036854775808
        · refine .inr ⟨?_, fun ref t st => ⟨L.sprintf
            c!"expected the value to fit into int64, but got an overflow: %f" [.float (.fin (i : Rat))], ?_⟩⟩
          · rintro x ⟨j, hj, rfl, h64, _⟩
            simp only [JVal.float.injEq, F64.fin.injEq] at hj
            rw [hj] at ho
            exact (int64_rat j).2 h64 ho
          · rw [hpi, if_pos ho]; rfl
        · have h64 := (int64_rat i).1 ho
          by_cases hb : intMinOk b i = true ∧ intMaxOk b i = true
          · refine .inl ⟨.int i, ⟨i, rfl, rfl, h64, (within_int b i).1 hb⟩, ?_, ?_⟩
            · rintro y ⟨j, hj, rfl, _, _⟩
              simp only [JVal.float.injEq, F64.fin.injEq, Rat.intCast_inj] at hj
              rw [hj]
            · intro ref t st
              rw [hpi, if_neg ho]
              unfold parseInt64
              rw [hb.1, hb.2]
              rfl
          · refine .inr ⟨?_, ?_⟩
            · rintro x ⟨j, hj, rfl, _, hwi⟩
              simp only [JVal.float.injEq, F64.fin.injEq] at hj
              rw [← hj] at hwi
              exact hb ((within_int b i).2 hwi)
            · intro ref t st
              rw [hpi, if_neg ho]
              unfold parseInt64
              by_cases h1 : intMinOk b i = false
              · rw [if_pos h1]; exact ⟨_, rfl⟩
              · rw [if_neg h1]
                by_cases h2 : intMaxOk b i = false
                · rw [if_pos h2]; exact ⟨_, rfl⟩
                · exact absurd ⟨by simpa using h1, by simpa using h2⟩ hb
  | _ => exact .expected (by rintro x ⟨c, hc, _⟩; cases hc) (fun _ _ _ => rfl)

theorem within_float (b : Bounds) (hb : ExactBounds b) (f : F64) :
    (floatMinOk b f = true ∧ floatMaxOk b f = true) ↔ FloatWithin b f := by
  rw [← PyRuntime.bounds_float]
  obtain ⟨mn, exn, mx, exx⟩ := b
  obtain ⟨h1, h2⟩ := hb
  simp only at h1 h2
  unfold floatMinOk floatMaxOk PyRuntime.minOk PyRuntime.maxOk
  cases f with
  | nan =>
    cases mn <;> cases mx <;> cases exn <;> cases exx <;>
      simp [floatAbove, floatBelow, PyRuntime.Num.ge, PyRuntime.Num.gt, PyRuntime.Num.le, PyRuntime.Num.lt]
  | inf neg =>
    cases neg <;> cases mn <;> cases mx <;> cases exn <;> cases exx <;>
      simp [floatAbove, floatBelow, PyRuntime.Num.ge, PyRuntime.Num.gt, PyRuntime.Num.le, PyRuntime.Num.lt]
  | fin q =>
    cases mn with
    | none =>
      cases mx with
      | none => simp
      | some m => cases exx <;> simp [floatBelow, h2 m rfl, PyRuntime.Num.le, PyRuntime.Num.lt]
    | some k =>
      cases mx with
      | none => cases exn <;> simp [floatAbove, h1 k rfl, PyRuntime.Num.ge, PyRuntime.Num.gt]
      | some m =>
        cases exn <;> cases exx <;>
        simp [floatAbove, floatBelow, h1 k rfl, h2 m rfl, PyRuntime.Num.ge, PyRuntime.Num.gt,
          PyRuntime.Num.le, PyRuntime.Num.lt]

theorem simple_float (b : Bounds) (hb : ExactBounds b) (v : JVal) :
    Simple (parseFloat L b) v (ReadsTy L ids embed (.float b) v) := by
  cases v with
  | float f =>
    by_cases h : floatMinOk b f = true ∧ floatMaxOk b f = true
    · refine .inl ⟨.float f, ⟨f, rfl, rfl, (within_float b hb f).1 h⟩, ?_, ?_⟩
      · rintro y ⟨j, hj, rfl, _⟩
        cases hj; rfl
      · intro ref t st
        unfold parseFloat
        simp only [h.1, h.2]
        rfl
    · refine .inr ⟨?_, ?_⟩
      · rintro x ⟨j, hj, rfl, hw⟩
        cases hj
        exact h ((within_float b hb _).2 hw)
      · intro ref t st
        unfold parseFloat
        simp only
        by_cases h1 : floatMinOk b f = false
        · rw [if_pos h1]; exact ⟨_, rfl⟩
        · rw [if_neg h1]
          by_cases h2 : floatMaxOk b f = false
          · rw [if_pos h2]; exact ⟨_, rfl⟩
          · exact absurd ⟨by simpa using h1, by simpa using h2⟩ h
  | _ => exact .expected (by rintro x ⟨c, hc, _⟩; cases hc) (fun _ _ _ => rfl)

theorem simple_text (p : Option Str) (v : JVal) :
    Simple (parseString L p) v fun x => ∃ s, v = .str s ∧ x = .str s ∧ Matches L p s := by
  cases v with
  | str s =>
    cases p with
    | none =>
      refine .inl ⟨.str s, ⟨s, rfl, rfl, fun _ h => by cases h⟩, ?_, fun _ _ _ => rfl⟩
      rintro y ⟨c, hc, rfl, _⟩
      cases hc; rfl
    | some p =>
      by_cases hm : L.matchString p s = true
      · refine .inl ⟨.str s, ⟨s, rfl, rfl, fun q h => by cases h; exact hm⟩, ?_, ?_⟩
        · rintro y ⟨c, hc, rfl, _⟩
          cases hc; rfl
        · intro ref t st
          unfold parseString
          simp only [hm, if_true]
      · refine .inr ⟨?_, ?_⟩
        · rintro y ⟨c, hc, rfl, h⟩
          cases hc
          exact hm (h p rfl)
        · intro ref t st
          unfold parseString
          simp only [hm]
          exact ⟨_, rfl⟩
  | _ => exact .expected (by rintro x ⟨c, hc, _⟩; cases hc) (fun _ _ _ => rfl)

theorem simple_time (f : Str) (v : JVal) : Simple (parseDateTime L f) v fun x =>
    ∃ s t, v = .str s ∧ L.parseTime (layout f) s = some t ∧ x = .time t := by
  cases v with
  | str s =>
    cases hp : L.parseTime (layout f) s with
    | some t =>
      refine .inl ⟨.time t, ⟨s, t, rfl, hp, rfl⟩, ?_, ?_⟩
      · rintro y ⟨c, t', hc, ht, rfl⟩
        cases hc
        rw [hp] at ht
        cases ht; rfl
      · intro ref t' st
        unfold parseDateTime
        simp only [hp]
    | none =>
      refine .inr ⟨?_, ?_⟩
      · rintro y ⟨c, t', hc, ht, rfl⟩
        cases hc
        rw [hp] at ht
        cases ht
      · intro ref t' st
        unfold parseDateTime
        simp only [hp]
        exact ⟨_, rfl⟩
  | _ => exact .expected (by rintro x ⟨c, _, hc, _⟩; cases hc) (fun _ _ _ => rfl)

theorem simple_zone (v : JVal) : Simple (parseTimeZone L) v (ReadsTy L ids embed .timeZone v) := by
  cases v with
  | str s =>
    cases hp : L.loadLocation s with
    | some z =>
      refine .inl ⟨.zone z, ⟨s, z, rfl, hp, rfl⟩, ?_, ?_⟩
      · rintro y ⟨c, t', hc, ht, rfl⟩
        cases hc
        rw [hp] at ht
        cases ht; rfl
      · intro ref t' st
        unfold parseTimeZone
        simp only [hp]
    | none =>
      refine .inr ⟨?_, ?_⟩
      · rintro y ⟨c, t', hc, ht, rfl⟩
        cases hc
        rw [hp] at ht
        cases ht
      · intro ref t' st
        unfold parseTimeZone
        simp only [hp]
        exact ⟨_, rfl⟩
  | _ => exact .expected (by rintro x ⟨c, _, hc, _⟩; cases hc) (fun _ _ _ => rfl)

theorem simple_duration (v : JVal) : Simple (parseDuration L) v (ReadsTy L ids embed .duration v) := by
  cases v with
  | str s =>
    rcases Props.C46_go_total s with ⟨d, _, hd⟩ | ⟨m, hm⟩
    · refine .inl ⟨.duration d, ⟨s, d, rfl, hd, rfl⟩, ?_, ?_⟩
      · rintro y ⟨c, t', hc, ht, rfl⟩
        cases hc
        rw [hd] at ht
        cases ht; rfl
      · intro ref t' st
        unfold parseDuration
        simp only [hd]
    · refine .inr ⟨?_, ?_⟩
      · rintro y ⟨c, t', hc, ht, rfl⟩
        cases hc
        rw [hm] at ht
        cases ht
      · intro ref t' st
        unfold parseDuration
        simp only [hm]
        exact ⟨_, rfl⟩
  | _ => exact .expected (by rintro x ⟨c, _, hc, _⟩; cases hc) (fun _ _ _ => rfl)

theorem simple_reference (c : Str) (is : List Str) (h : ∀ id, id ∈ is ↔ ids c id) (v : JVal) :
    Simple (parseReference L c is) v (ReadsTy L ids embed (.cls c) v) := by
  cases v with
  | str s =>
    by_cases hs : s ∈ is
    · refine .inl ⟨.ref c s, ⟨s, rfl, rfl, (h s).1 hs⟩, ?_, ?_⟩
      · rintro y ⟨c, hc, rfl, _⟩
        cases hc; rfl
      · intro ref t st
        unfold parseReference
        simp only [hs, if_true]
    · refine .inr ⟨?_, ?_⟩
      · rintro y ⟨c, hc, rfl, h'⟩
        cases hc
        exact hs ((h s).2 h')
      · intro ref t st
        unfold parseReference
        simp only [hs, if_false]
        exact ⟨_, rfl⟩
  | _ => exact .expected (by rintro x ⟨c, hc, _⟩; cases hc) (fun _ _ _ => rfl)

end

/-! ## Arrays and maps -/

section

variable {f : ParseFn} {R : JVal → Val → Prop}

theorem parseItems_mono (xs : List JVal) (h : ∀ x ∈ xs, Parses f x (R x)) (ref : Str) (i : Nat) (st : St)
    (r : List Val) (st' : St) (he : parseItems f ref i xs st = .ok (r, st')) : Grows st st' := by
  induction xs generalizing i st r with
  | nil => cases he; exact .refl _
  | cons x xs ih =>
    unfold parseItems at he
    cases h1 : f x (sub ref (natStr i)) .zero st with
    | error e => rw [h1] at he; cases he
    | ok p =>
      obtain ⟨v, st1⟩ := p
      have g1 := (h x (List.mem_cons_self ..)).mono _ _ _ _ _ h1
      rw [h1] at he
      simp only [ok_bind] at he
      by_cases hf : st1.errors.full = true
      · rw [if_pos hf] at he
        cases he
        exact g1
      · rw [if_neg hf] at he
        cases h2 : parseItems f ref (i + 1) xs st1 with
        | error e => rw [h2] at he; cases he
        | ok p =>
          obtain ⟨vs, st2⟩ := p
          rw [h2] at he
          cases he
          exact g1.trans (ih (fun y hy => h y (List.mem_cons_of_mem _ hy)) _ _ _ h2)

theorem parseItems_yes (xs : List JVal) (h : ∀ x ∈ xs, Parses f x (R x)) (ref : Str) (i : Nat) (st : St)
    (vs : List Val) (hc : Clean st) (hv : Forall₂ R xs vs) :
    ∃ st', parseItems f ref i xs st = .ok (vs, st') ∧ st'.errors = st.errors := by
  induction hv generalizing i st with
  | nil => exact ⟨st, rfl, rfl⟩
  | @cons x v xs vs h1 _ ih =>
    obtain ⟨st1, e1, s1⟩ := (h x (List.mem_cons_self ..)).yes (sub ref (natStr i)) .zero st v hc fresh_zero h1
    have c1 := hc.of_errors s1
    obtain ⟨st2, e2, s2⟩ := ih (fun y hy => h y (List.mem_cons_of_mem _ hy)) (i + 1) st1 c1
    refine ⟨st2, ?_, s2.trans s1⟩
    unfold parseItems
    rw [e1]
    simp only [ok_bind, c1.full, e2]
    rfl

theorem parseItems_no (xs : List JVal) (h : ∀ x ∈ xs, Parses f x (R x)) (ref : Str) (i : Nat) (st : St)
    (r : List Val) (st' : St) (hc : Clean st) (he : parseItems f ref i xs st = .ok (r, st'))
    (hc' : Clean st') : Forall₂ R xs r := by
  induction xs generalizing i st r with
  | nil => cases he; exact .nil
  | cons x xs ih =>
    have hm := parseItems_mono (x :: xs) h ref i st r st' he
    unfold parseItems at he
    cases h1 : f x (sub ref (natStr i)) .zero st with
    | error e => rw [h1] at he; cases he
    | ok p =>
      obtain ⟨v, st1⟩ := p
      rw [h1] at he
      simp only [ok_bind] at he
      by_cases hf : st1.errors.full = true
      · rw [if_pos hf] at he
        cases he
        exact absurd hc' (not_clean_of_full hf)
      · rw [if_neg hf] at he
        cases h2 : parseItems f ref (i + 1) xs st1 with
        | error e => rw [h2] at he; cases he
        | ok p =>
          obtain ⟨vs, st2⟩ := p
          rw [h2] at he
          cases he
          have hrest : ∀ y ∈ xs, Parses f y (R y) := fun y hy => h y (List.mem_cons_of_mem _ hy)
          have c1 := (parseItems_mono xs hrest _ _ _ _ _ h2).clean hc'
          obtain ⟨y, rfl, hy⟩ := (h x (List.mem_cons_self ..)).no _ _ _ _ _ hc fresh_zero h1 c1
          exact .cons hy (ih hrest _ _ _ c1 h2)

theorem size_ok (lo hi : Option Int) (n : Nat) :
    (lo.any (fun m => decide ((n : Int) < m)) = false ∧ hi.any (fun m => decide (m < (n : Int))) = false) ↔
    SizeWithin lo hi n := by
  constructor
  · rintro ⟨h1, h2⟩
    constructor
    · rintro m rfl; simpa using h1
    · rintro m rfl; simpa using h2
  · rintro ⟨h1, h2⟩
    constructor
    · cases lo with
      | none => rfl
      | some m => simpa using h1 m rfl
    · cases hi with
      | none => rfl
      | some m => simpa using h2 m rfl

/-- The array as one case distinction -/
theorem parseArray_arr (L : Lib) (lo hi : Option Int) (xs : List JVal) (ref : Str) (t : Val) (st : St) :
    (¬ SizeWithin lo hi xs.length ∧ ∃ m, parseArray L f lo hi (.arr xs) ref t st = .ok (none, st.add ref m)) ∨
    (SizeWithin lo hi xs.length ∧ parseArray L f lo hi (.arr xs) ref t st =
      (do let (vs, st) ← parseItems f ref 0 xs st; return (some (.list vs), st))) := by
  rw [← size_ok]
  unfold parseArray
  simp only
  cases h1 : lo.any (fun m => decide ((xs.length : Int) < m)) with
  | true => exact .inl ⟨by simp, _, rfl⟩
  | false =>
    cases h2 : hi.any (fun m => decide (m < (xs.length : Int))) with
    | true => exact .inl ⟨by simp, _, rfl⟩
    | false => exact .inr ⟨by simp, rfl⟩

theorem parses_array (L : Lib) (lo hi : Option Int) (v : JVal)
    (h : ∀ xs, v = .arr xs → ∀ x ∈ xs, Parses f x (R x)) :
    Parses (parseArray L f lo hi) v fun y => ∃ xs vs, v = .arr xs ∧ y = .list vs ∧
      SizeWithin lo hi xs.length ∧ Forall₂ R xs vs := by
  cases v with
  | arr xs =>
    have h := h xs rfl
    refine ⟨?_, ?_, ?_⟩
    · intro ref t st r st' he
      rcases parseArray_arr L lo hi xs ref t st (f := f) with ⟨_, m, hm⟩ | ⟨_, hm⟩
      · rw [hm] at he; cases he; exact .add ..
      · rw [hm] at he
        cases h2 : parseItems f ref 0 xs st with
        | error e => rw [h2] at he; cases he
        | ok p =>
          rw [h2] at he
          cases he
          exact parseItems_mono xs h _ _ _ _ _ h2
    · rintro ref t st x hc _ ⟨xs', vs, hxs, rfl, hs, hv⟩
      cases hxs
      rcases parseArray_arr L lo hi xs ref t st (f := f) with ⟨hn, _⟩ | ⟨_, hm⟩
      · exact absurd hs hn
      · obtain ⟨st', e, s⟩ := parseItems_yes xs h ref 0 st vs hc hv
        refine ⟨st', ?_, s⟩
        rw [hm, e]
        rfl
    · intro ref t st r st' hc _ he hc'
      rcases parseArray_arr L lo hi xs ref t st (f := f) with ⟨_, m, hm⟩ | ⟨hs, hm⟩
      · rw [hm] at he; cases he; exact absurd hc' (not_clean_add _ _)
      · rw [hm] at he
        cases h2 : parseItems f ref 0 xs st with
        | error e => rw [h2] at he; cases he
        | ok p =>
          rw [h2] at he
          cases he
          exact ⟨_, rfl, xs, p.1, rfl, rfl, hs, parseItems_no xs h _ _ _ _ _ hc h2 hc'⟩
  | _ => exact Simple.parses (.expected (by rintro x ⟨_, _, hc, _⟩; cases hc) (fun _ _ _ => rfl))

theorem parseItems_total (xs : List JVal) (h : ∀ x ∈ xs, Total f x) (ref : Str) (i : Nat) (st : St) :
    (∀ x, parseItems f ref i xs st = .error x → x = thePanic) ∧
    (Clean st → st.errors.cap = 1 → ∃ r st', parseItems f ref i xs st = .ok (r, st') ∧ One st') := by
  induction xs generalizing i st with
  | nil => exact ⟨fun x hx => (by cases hx), fun hc h1 => ⟨_, _, rfl, .of_clean hc h1⟩⟩
  | cons x xs ih =>
    have ih := ih (fun y hy => h y (List.mem_cons_of_mem _ hy))
    have hx := h x (List.mem_cons_self ..)
    constructor
    · intro e he
      unfold parseItems at he
      cases h1 : f x (sub ref (natStr i)) .zero st with
      | error e' => rw [h1] at he; cases he; exact hx.only _ _ _ _ h1
      | ok p =>
        obtain ⟨v, st1⟩ := p
        rw [h1] at he
        simp only [ok_bind] at he
        by_cases hf : st1.errors.full = true
        · rw [if_pos hf] at he; cases he
        · rw [if_neg hf] at he
          cases h2 : parseItems f ref (i + 1) xs st1 with
          | error e' => rw [h2] at he; cases he; exact (ih _ _).1 _ h2
          | ok p => rw [h2] at he; cases he
    · intro hc hcap
      obtain ⟨v, st1, e1, o1⟩ := hx.one (sub ref (natStr i)) .zero st hc hcap
      unfold parseItems
      rw [e1]
      simp only [ok_bind]
      by_cases hf : st1.errors.full = true
      · rw [if_pos hf]; exact ⟨_, _, rfl, o1⟩
      · rw [if_neg hf]
        obtain ⟨vs, st2, e2, o2⟩ := (ih (i + 1) st1).2 (o1.clean (by simpa using hf)) o1.cap
        rw [e2]
        exact ⟨_, _, rfl, o2⟩

theorem total_array (L : Lib) (lo hi : Option Int) (v : JVal)
    (h : ∀ xs, v = .arr xs → ∀ x ∈ xs, Total f x) : Total (parseArray L f lo hi) v := by
  cases v with
  | arr xs =>
    have h := h xs rfl
    refine ⟨?_, ?_⟩
    · intro ref t st x he
      rcases parseArray_arr L lo hi xs ref t st (f := f) with ⟨_, m, hm⟩ | ⟨_, hm⟩
      · rw [hm] at he; cases he
      · rw [hm] at he
        cases h2 : parseItems f ref 0 xs st with
        | error e => rw [h2] at he; cases he; exact (parseItems_total xs h ref 0 st).1 _ h2
        | ok p => rw [h2] at he; cases he
    · intro ref t st hc hcap
      rcases parseArray_arr L lo hi xs ref t st (f := f) with ⟨_, m, hm⟩ | ⟨_, hm⟩
      · exact ⟨_, _, hm, (One.of_clean hc hcap).add ..⟩
      · obtain ⟨vs, st2, e2, o2⟩ := (parseItems_total xs h ref 0 st).2 hc hcap
        rw [hm, e2]
        exact ⟨_, _, rfl, o2⟩
  | _ => exact Simple.total (reads := fun _ => False) (.expected (fun _ h => h) (fun _ _ _ => rfl))

theorem parseEntries_mono (l : List (Str × JVal)) (h : ∀ e ∈ l, Parses f e.2 (R e.2)) (ref : Str)
    (acc : GoMap Val) (st : St) (r : GoMap Val) (st' : St)
    (he : parseEntries f ref acc l st = .ok (r, st')) : Grows st st' := by
  induction l generalizing acc st with
  | nil => cases he; exact .refl _
  | cons e l ih =>
    obtain ⟨k, x⟩ := e
    unfold parseEntries at he
    cases h1 : f x (sub ref k) .zero st with
    | error e => rw [h1] at he; cases he
    | ok p =>
      obtain ⟨v, st1⟩ := p
      have g1 := (h (k, x) (List.mem_cons_self ..)).mono _ _ _ _ _ h1
      rw [h1] at he
      simp only [ok_bind] at he
      by_cases hf : st1.errors.full = true
      · rw [if_pos hf] at he
        cases he
        exact g1
      · rw [if_neg hf] at he
        exact g1.trans (ih (fun y hy => h y (List.mem_cons_of_mem _ hy)) _ _ he)

/-- An entry of a map describes an entry. -/
def EntryReads (R : JVal → Val → Prop) (kv : Str × JVal) (w : Str × Val) : Prop := kv.1 = w.1 ∧ R kv.2 w.2

theorem parseEntries_yes (l : List (Str × JVal)) (h : ∀ e ∈ l, Parses f e.2 (R e.2)) (ref : Str)
    (acc : GoMap Val) (st : St) (ws : GoMap Val) (hc : Clean st) (hv : Forall₂ (EntryReads R) l ws) :
    ∃ st', parseEntries f ref acc l st = .ok (GoMap.putAll acc ws, st') ∧ st'.errors = st.errors := by
  induction hv generalizing acc st with
  | nil => exact ⟨st, rfl, rfl⟩
  | @cons e w l ws h1 _ ih =>
    obtain ⟨k, x⟩ := e
    obtain ⟨k', y⟩ := w
    obtain ⟨hk, hy⟩ := h1
    simp only at hk hy
    subst hk
    obtain ⟨st1, e1, s1⟩ := (h (k, x) (List.mem_cons_self ..)).yes (sub ref k) .zero st y hc fresh_zero hy
    have c1 := hc.of_errors s1
    obtain ⟨st2, e2, s2⟩ := ih (fun y hy => h y (List.mem_cons_of_mem _ hy)) (GoMap.put k y acc) st1 c1
    refine ⟨st2, ?_, s2.trans s1⟩
    unfold parseEntries
    rw [show f x (sub ref k) .zero st = _ from e1]
    simp only [ok_bind, c1.full, e2]
    rfl

theorem parseEntries_no (l : List (Str × JVal)) (h : ∀ e ∈ l, Parses f e.2 (R e.2)) (ref : Str)
    (acc : GoMap Val) (st : St) (r : GoMap Val) (st' : St) (hc : Clean st)
    (he : parseEntries f ref acc l st = .ok (r, st')) (hc' : Clean st') :
    ∃ ws, r = GoMap.putAll acc ws ∧ Forall₂ (EntryReads R) l ws := by
  induction l generalizing acc st with
  | nil => cases he; exact ⟨[], rfl, .nil⟩
  | cons e l ih =>
    obtain ⟨k, x⟩ := e
    unfold parseEntries at he
    cases h1 : f x (sub ref k) .zero st with
    | error e => rw [h1] at he; cases he
    | ok p =>
      obtain ⟨v, st1⟩ := p
      rw [h1] at he
      simp only [ok_bind] at he
      by_cases hf : st1.errors.full = true
      · rw [if_pos hf] at he
        cases he
        exact absurd hc' (not_clean_of_full hf)
      · rw [if_neg hf] at he
        have hrest : ∀ y ∈ l, Parses f y.2 (R y.2) := fun y hy => h y (List.mem_cons_of_mem _ hy)
        have c1 := (parseEntries_mono l hrest _ _ _ _ _ he).clean hc'
        obtain ⟨y, rfl, hy⟩ := (h (k, x) (List.mem_cons_self ..)).no _ _ _ _ _ hc fresh_zero h1 c1
        obtain ⟨ws, rfl, hws⟩ := ih hrest _ _ c1 he
        exact ⟨(k, y) :: ws, rfl, .cons ⟨rfl, hy⟩ hws⟩

theorem entry_keys {l : List (Str × JVal)} {ws : GoMap Val} (h : Forall₂ (EntryReads R) l ws) :
    ws.map (·.1) = l.map (·.1) := forall₂_keys (fun _ _ h => h.1.symm) h

theorem parses_map (O : Order) (hO : O.Proper) (L : Lib) (v : JVal)
    (h : ∀ kvs, v = .obj kvs → GoMap.Ascending kvs ∧ ∀ e ∈ kvs, Parses f e.2 (R e.2)) :
    Parses (parseMap O L f) v fun y => ∃ kvs ws, v = .obj kvs ∧ y = .map ws ∧
      Forall₂ (fun kv w => kv.1 = w.1 ∧ R kv.2 w.2) kvs ws := by
  cases v with
  | obj kvs =>
    obtain ⟨ha, h⟩ := h kvs rfl
    have hvis : ∀ st : St, ∀ e ∈ O.visit st.ranges kvs, Parses f e.2 (R e.2) :=
      fun st e he => h e ((Order.visit_perm hO _ _).mem_iff.1 he)
    refine ⟨?_, ?_, ?_⟩
    · intro ref t st r st' he
      unfold parseMap at he
      simp only at he
      cases h2 : parseEntries f ref [] (O.visit st.ranges kvs) st.range with
      | error e => rw [h2] at he; cases he
      | ok p =>
        rw [h2] at he
        cases he
        exact (Grows.range st).trans (parseEntries_mono _ (hvis st) _ _ _ _ _ h2)
    · rintro ref t st x hc _ ⟨kvs', ws, hk, rfl, hv⟩
      cases hk
      obtain ⟨ws', hp, hf⟩ := forall₂_perm (Order.visit_perm hO st.ranges kvs) hv
      obtain ⟨st', e, s⟩ := parseEntries_yes _ (hvis st) ref [] st.range ws' hc hf
      refine ⟨st', ?_, s⟩
      unfold parseMap
      simp only
      rw [e]
      have hasc := ascending_of_keys (entry_keys (R := R) hv) ha
      rw [GoMap.putAll_perm hp hasc]
      rfl
    · intro ref t st r st' hc _ he hc'
      unfold parseMap at he
      simp only at he
      cases h2 : parseEntries f ref [] (O.visit st.ranges kvs) st.range with
      | error e => rw [h2] at he; cases he
      | ok p =>
        rw [h2] at he
        cases he
        obtain ⟨ws, hr, hws⟩ := parseEntries_no _ (hvis st) ref [] st.range _ _ hc h2 hc'
        obtain ⟨ws', hp, hf⟩ := forall₂_perm (Order.visit_perm hO st.ranges kvs).symm hws
        have hasc := ascending_of_keys (entry_keys hf) ha
        refine ⟨_, rfl, kvs, ws', rfl, ?_, hf⟩
        rw [hr, GoMap.putAll_perm hp.symm hasc]
  | _ => exact Simple.parses (.expected (by rintro x ⟨_, _, hc, _⟩; cases hc) (fun _ _ _ => rfl))

theorem parseEntries_total (l : List (Str × JVal)) (h : ∀ e ∈ l, Total f e.2) (ref : Str)
    (acc : GoMap Val) (st : St) :
    (∀ x, parseEntries f ref acc l st = .error x → x = thePanic) ∧
    (Clean st → st.errors.cap = 1 → ∃ r st', parseEntries f ref acc l st = .ok (r, st') ∧ One st') := by
  induction l generalizing acc st with
  | nil => exact ⟨fun x hx => (by cases hx), fun hc h1 => ⟨_, _, rfl, .of_clean hc h1⟩⟩
  | cons e l ih =>
    obtain ⟨k, x⟩ := e
    have ih := ih (fun y hy => h y (List.mem_cons_of_mem _ hy))
    have hx : Total f x := h (k, x) (List.mem_cons_self ..)
    constructor
    · intro e he
      unfold parseEntries at he
      cases h1 : f x (sub ref k) .zero st with
      | error e' => rw [h1] at he; cases he; exact hx.only _ _ _ _ h1
      | ok p =>
        obtain ⟨v, st1⟩ := p
        rw [h1] at he
        simp only [ok_bind] at he
        by_cases hf : st1.errors.full = true
        · rw [if_pos hf] at he; cases he
        · rw [if_neg hf] at he
          exact (ih _ _).1 _ he
    · intro hc hcap
      obtain ⟨v, st1, e1, o1⟩ := hx.one (sub ref k) .zero st hc hcap
      unfold parseEntries
      rw [e1]
      simp only [ok_bind]
      by_cases hf : st1.errors.full = true
      · rw [if_pos hf]; exact ⟨_, _, rfl, o1⟩
      · rw [if_neg hf]
        exact (ih _ st1).2 (o1.clean (by simpa using hf)) o1.cap

theorem total_map (O : Order) (hO : O.Proper) (L : Lib) (v : JVal)
    (h : ∀ kvs, v = .obj kvs → ∀ e ∈ kvs, Total f e.2) : Total (parseMap O L f) v := by
  cases v with
  | obj kvs =>
    have h := h kvs rfl
    have hvis : ∀ st : St, ∀ e ∈ O.visit st.ranges kvs, Total f e.2 :=
      fun st e he => h e ((Order.visit_perm hO _ _).mem_iff.1 he)
    refine ⟨?_, ?_⟩
    · intro ref t st x he
      unfold parseMap at he
      simp only at he
      cases h2 : parseEntries f ref [] (O.visit st.ranges kvs) st.range with
      | error e => rw [h2] at he; cases he; exact (parseEntries_total _ (hvis st) ref _ _).1 _ h2
      | ok p => rw [h2] at he; cases he
    · intro ref t st hc hcap
      obtain ⟨vs, st2, e2, o2⟩ := (parseEntries_total _ (hvis st) ref [] st.range).2 hc hcap
      unfold parseMap
      simp only
      rw [e2]
      exact ⟨_, _, rfl, o2⟩
  | _ => exact Simple.total (reads := fun _ => False) (.expected (fun _ h => h) (fun _ _ _ => rfl))

end

end Mapry.GoRuntime
