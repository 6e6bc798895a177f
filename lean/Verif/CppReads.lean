import Verif.CppSpec
import Verif.GoReads

/-!
# The values read by the generated C++ parser

For a container which is not full and a new target, every template ends in one of three ways (`Outcome`):
the target holds the only described value and nothing is recorded; there is no described value and an
error is recorded; there is no described value and an exception is thrown.
-/

namespace Mapry.CppRuntime

open Mapry.Text Mapry.Duration Spec
open Mapry.PyRuntime.Spec (Within FloatWithin SizeWithin)

/-! ## Containers -/

/-- At least one error has been recorded. -/
structure Grew (e e' : CppErrors) : Prop where
  cap : e'.cap = e.cap
  lt : e.values.length < e'.values.length

/-- Room is left, or exactly no more. -/
def Room (e : CppErrors) : Prop := e.values.length < e.cap

theorem Grew.trans {a b c : CppErrors} (h : Grew a b) (h' : Grew b c) : Grew a c :=
  ⟨h'.cap.trans h.cap, Nat.lt_trans h.lt h'.lt⟩

theorem Grew.add {e : CppErrors} (h : Room e) (x : Err) : Grew e (e.add x) := by
  unfold Room at h
  unfold CppErrors.add
  rw [if_pos h]
  exact ⟨rfl, by simp⟩

theorem add_cap (e : CppErrors) (x : Err) : (e.add x).cap = e.cap := by
  unfold CppErrors.add; split <;> rfl

theorem add_length (e : CppErrors) (x : Err) : e.values.length ≤ (e.add x).values.length := by
  unfold CppErrors.add; split <;> simp

theorem Grew.add' {e e' : CppErrors} (h : Grew e e') (x : Err) : Grew e (e'.add x) :=
  ⟨(add_cap _ _).trans h.cap, Nat.lt_of_lt_of_le h.lt (add_length _ _)⟩

theorem add_le {e : CppErrors} (h : e.values.length ≤ e.cap) (x : Err) :
    (e.add x).values.length ≤ (e.add x).cap := by
  unfold CppErrors.add
  split
  · simp; omega
  · exact h

/-! ## Outcomes -/

/-- How a function on a container ends, see above. `B` tells which exceptions are possible. A container
never holds more errors than it may. -/
def Outcome {α : Type} (R : α → Prop) (B : Exc → Prop) (e : CppErrors) (r : Except Exc (α × CppErrors)) :
    Prop :=
  match r with
  | .error x => B x ∧ ∀ y, ¬ R y
  | .ok (x, e') => (e' = e ∧ R x ∧ ∀ y, R y → y = x) ∨
    (Grew e e' ∧ e'.values.length ≤ e'.cap ∧ ∀ y, ¬ R y)

theorem Room.of_full {e : CppErrors} (h : e.values.length ≤ e.cap) (hf : e.full = false) : Room e := by
  unfold CppErrors.full at hf
  unfold Room
  have : e.values.length ≠ e.cap := by simpa using hf
  omega

theorem Room.full {e : CppErrors} (h : Room e) : e.full = false := by
  unfold Room at h
  unfold CppErrors.full
  simp; omega

theorem Room.le {e : CppErrors} (h : Room e) : e.values.length ≤ e.cap := Nat.le_of_lt h

section

variable {α β γ : Type} {R : α → Prop} {B : Exc → Prop} {e : CppErrors}

theorem Outcome.value {x : α} (h : R x) (hu : ∀ y, R y → y = x) : Outcome R B e (.ok (x, e)) :=
  .inl ⟨rfl, h, hu⟩

theorem Outcome.add (hr : Room e) {x : α} {m : Err} (h : ∀ y, ¬ R y) : Outcome R B e (.ok (x, e.add m)) :=
  .inr ⟨.add hr m, add_le hr.le m, h⟩

theorem Outcome.mono {B' : Exc → Prop} (hB : ∀ x, B x → B' x) {r : Except Exc (α × CppErrors)}
    (h : Outcome R B e r) : Outcome R B' e r := by
  cases r with
  | error x => exact ⟨hB x h.1, h.2⟩
  | ok p => exact h

theorem Outcome.congr {R' : α → Prop} (hR : ∀ x, R x ↔ R' x) {r : Except Exc (α × CppErrors)}
    (h : Outcome R B e r) : Outcome R' B e r := by
  have : R = R' := funext fun x => propext (hR x)
  rw [← this]; exact h

/-- The value is wrapped. -/
theorem Outcome.map {S : β → Prop} (f : α → β) (hf : ∀ x, R x → S (f x))
    (hg : ∀ y, S y → ∃ x, R x ∧ y = f x) {r : Except Exc (α × CppErrors)} (h : Outcome R B e r) :
    Outcome S B e (r >>= fun p => .ok (f p.1, p.2)) := by
  cases r with
  | error x =>
    refine ⟨h.1, fun y hy => ?_⟩
    obtain ⟨x, hx, _⟩ := hg y hy
    exact h.2 x hx
  | ok p =>
    obtain ⟨x, e'⟩ := p
    rcases h with ⟨h1, h2, h3⟩ | ⟨h1, h2, h3⟩
    · refine .inl ⟨h1, hf x h2, fun y hy => ?_⟩
      obtain ⟨z, hz, rfl⟩ := hg y hy
      rw [h3 z hz]
    · refine .inr ⟨h1, h2, fun y hy => ?_⟩
      obtain ⟨z, hz, _⟩ := hg y hy
      exact h3 z hz

/-- One step and the rest, which is left out if the container is full: `part` is the result then. -/
theorem Outcome.step {S : γ → Prop} (part : α → γ) (next : α → CppErrors → Except Exc (γ × CppErrors))
    {r : Except Exc (α × CppErrors)} (h : Outcome R B e r) (hr : Room e)
    (hyes : ∀ x, r = .ok (x, e) → R x → (∀ y, R y → y = x) → Outcome S B e (next x e))
    (hno : ∀ x e', r = .ok (x, e') → Room e' → ∃ S' : γ → Prop, Outcome S' B e' (next x e'))
    (hS : ∀ z, S z → ∃ x, R x) :
    Outcome S B e (r >>= fun p => if p.2.full then .ok (part p.1, p.2) else next p.1 p.2) := by
  cases r with
  | error x =>
    refine ⟨h.1, fun z hz => ?_⟩
    obtain ⟨x, hx⟩ := hS z hz
    exact h.2 x hx
  | ok p =>
    obtain ⟨x, e'⟩ := p
    show Outcome S B e (if e'.full then .ok (part x, e') else next x e')
    rcases h with ⟨h1, h2, h3⟩ | ⟨h1, h2, h3⟩
    · subst h1
      rw [hr.full, if_neg (by simp)]
      exact hyes x rfl h2 h3
    · have hn : ∀ z, ¬ S z := fun z hz => by
        obtain ⟨x, hx⟩ := hS z hz
        exact h3 x hx
      cases hf : e'.full with
      | true =>
        rw [if_pos rfl]
        exact .inr ⟨h1, h2, hn⟩
      | false =>
        rw [if_neg (by simp)]
        obtain ⟨S', ho⟩ := hno x e' rfl (.of_full h2 hf)
        generalize next x e' = q at ho
        cases q with
        | error y => exact ⟨ho.1, hn⟩
        | ok q =>
          obtain ⟨z, e''⟩ := q
          rcases ho with ⟨g1, g2, g3⟩ | ⟨g1, g2, g3⟩
          · subst g1
            exact .inr ⟨h1, h2, hn⟩
          · exact .inr ⟨h1.trans g1, g2, hn⟩

end

/-! ## Primitive values -/

section

variable (D : DateLib) (L : Lib) (M : Meaning) (ids : Str → Str → Prop) (embed : Str → JVal → Val → Prop)
  {B : Exc → Prop} {e : CppErrors}

theorem outcome_boolean (v : JVal) (ref : Str) (t : Val) (hr : Room e) :
    Outcome (ReadsTy D L M ids embed .boolean v) B e (parseBoolean v ref t e) := by
  cases v with
  | bool b =>
    refine .value ⟨b, rfl, rfl⟩ ?_
    rintro y ⟨c, hc, rfl⟩
    cases hc; rfl
  | _ => exact .add hr (by rintro x ⟨c, hc, _⟩; cases hc)

theorem asInt64_iff {v : JVal} (hc : Canon v) (i : Int) :
    asInt64 v = some i ↔ IsInteger v i ∧ IsInt64 i := by
  unfold IsInteger
  cases v with
  | int j =>
    cases hc with
    | int _ h =>
      constructor
      · intro h'; cases h'; exact ⟨.inl rfl, h⟩
      · rintro ⟨h' | ⟨n, h', _⟩ | h', _⟩
        · cases h'; rfl
        · cases h'
        · cases h'
  | uint n =>
    unfold asInt64
    simp only
    have h64 : IsInt64 (n : Int) ↔ (n : Int) ≤ maxInt64 := by
      unfold IsInt64 minInt64
      omega
    split
    · next h =>
      constructor
      · intro h'; cases h'; exact ⟨.inr (.inl ⟨n, rfl, rfl⟩), h64.2 h⟩
      · rintro ⟨h' | ⟨m, h', rfl⟩ | h', _⟩
        · cases h'
        · cases h'; rfl
        · cases h'
    · next h =>
      constructor
      · intro h'; cases h'
      · rintro ⟨h' | ⟨m, h', rfl⟩ | h', h2⟩
        · cases h'
        · cases h'; exact absurd (h64.1 h2) h
        · cases h'
  | real f =>
    cases f with
    | fin q =>
      unfold asInt64
      simp only
      split
      · next h =>
        obtain ⟨h1, h2, h3⟩ := h
        generalize F64.truncRat q = j at h3
        subst h3
        have h64 : IsInt64 j := (GoRuntime.int64_rat j).1 (by
          intro h; rcases h with h | h
          · exact absurd h2 (Rat.not_lt.2 h)
          · exact absurd h1 (Rat.not_le.2 h))
        constructor
        · intro h'; cases h'; exact ⟨.inr (.inr rfl), h64⟩
        · rintro ⟨h' | ⟨m, h', rfl⟩ | h', _⟩
          · cases h'
          · cases h'
          · simp only [JVal.real.injEq, F64.fin.injEq, Rat.intCast_inj] at h'
            rw [h']
      · next h =>
        constructor
        · intro h'; cases h'
        · rintro ⟨h' | ⟨m, h', rfl⟩ | h', h64⟩
          · cases h'
          · cases h'
          · simp only [JVal.real.injEq, F64.fin.injEq] at h'
            subst h'
            refine absurd ⟨?_, ?_, ?_⟩ h
            · have := (GoRuntime.int64_rat i).2 h64
              exact Rat.not_lt.1 fun h => this (.inr h)
            · have := (GoRuntime.int64_rat i).2 h64
              exact Rat.not_le.1 fun h => this (.inl h)
            · rw [GoRuntime.truncRat_int]
    | _ =>
      constructor
      · intro h'; cases h'
      · rintro ⟨h' | ⟨m, h', rfl⟩ | h', _⟩ <;> cases h'
  | _ =>
    constructor
    · intro h'; cases h'
    · rintro ⟨h' | ⟨m, h', rfl⟩ | h', _⟩ <;> cases h'

theorem within_int (b : Bounds) (i : Int) :
    (intMinOk b i = true ∧ intMaxOk b i = true) ↔ Within b (i : Rat) := by
  rw [← PyRuntime.bounds_int]
  unfold intMinOk intMaxOk PyRuntime.minOk PyRuntime.maxOk
  cases b.min <;> cases b.max <;> cases b.exMin <;> cases b.exMax <;>
    simp [PyRuntime.Num.ge, PyRuntime.Num.gt, PyRuntime.Num.le, PyRuntime.Num.lt]

/-- The two checks against the bounds -/
theorem outcome_checks {R : Val → Prop} (a b : Bool) (r1 m1 r2 m2 : Str) (x t : Val) (hr : Room e)
    (hyes : a = true → b = true → R x ∧ ∀ y, R y → y = x) (hno : ¬ (a = true ∧ b = true) → ∀ y, ¬ R y) :
    Outcome R B e (.ok (if a && b then x else t, check b r2 m2 (check a r1 m1 e))) := by
  unfold check
  cases a <;> cases b <;> simp only [Bool.and_true, Bool.and_false, if_true, Bool.false_eq_true, if_false]
  · exact .inr ⟨(Grew.add hr _).add' _, add_le (add_le hr.le _) _, hno (by simp)⟩
  · exact .inr ⟨Grew.add hr _, add_le hr.le _, hno (by simp)⟩
  · exact .inr ⟨Grew.add hr _, add_le hr.le _, hno (by simp)⟩
  · exact .value (hyes rfl rfl).1 (hyes rfl rfl).2

theorem outcome_integer (b : Bounds) {v : JVal} (hc : Canon v) (ref : Str) (t : Val) (hr : Room e) :
    Outcome (ReadsTy D L M ids embed (.integer b) v) B e (parseInteger b v ref t e) := by
  unfold parseInteger
  cases h : asInt64 v with
  | none =>
    refine .add hr ?_
    rintro y ⟨i, hi, _, h64, _⟩
    rw [(asInt64_iff hc i).2 ⟨hi, h64⟩] at h
    cases h
  | some i =>
    have hi := (asInt64_iff hc i).1 h
    refine outcome_checks _ _ _ _ _ _ _ _ hr ?_ ?_
    · intro h1 h2
      refine ⟨⟨i, hi.1, rfl, hi.2, (within_int b i).1 ⟨h1, h2⟩⟩, ?_⟩
      rintro y ⟨j, hj, rfl, h64, _⟩
      rw [(asInt64_iff hc j).2 ⟨hj, h64⟩] at h
      cases h; rfl
    · rintro hn y ⟨j, hj, rfl, h64, hw⟩
      rw [(asInt64_iff hc j).2 ⟨hj, h64⟩] at h
      cases h
      exact hn ((within_int b i).2 hw)

theorem within_float (b : Bounds) (hb : ExactBounds b) (f : F64) :
    (floatMinOk b f = true ∧ floatMaxOk b f = true) ↔ FloatWithin b f := by
  rw [← PyRuntime.bounds_float]
  obtain ⟨mn, exn, mx, exx⟩ := b
  obtain ⟨h1, h2⟩ := hb
  simp only at h1 h2
  unfold floatMinOk floatMaxOk PyRuntime.minOk PyRuntime.maxOk
  cases f with
  | nan =>
    cases mn <;> cases mx <;> cases exn <;> cases exx <;>
      simp [floatAbove, floatBelow, PyRuntime.Num.ge, PyRuntime.Num.gt, PyRuntime.Num.le, PyRuntime.Num.lt]
  | inf neg =>
    cases neg <;> cases mn <;> cases mx <;> cases exn <;> cases exx <;>
      simp [floatAbove, floatBelow, PyRuntime.Num.ge, PyRuntime.Num.gt, PyRuntime.Num.le, PyRuntime.Num.lt]
  | fin q =>
    cases mn with
    | none =>
      cases mx with
      | none => simp
      | some m => cases exx <;> simp [floatBelow, h2 m rfl, PyRuntime.Num.le, PyRuntime.Num.lt]
    | some k =>
      cases mx with
      | none => cases exn <;> simp [floatAbove, h1 k rfl, PyRuntime.Num.ge, PyRuntime.Num.gt]
      | some m =>
        cases exn <;> cases exx <;>
        simp [floatAbove, floatBelow, h1 k rfl, h2 m rfl, PyRuntime.Num.ge, PyRuntime.Num.gt,
          PyRuntime.Num.le, PyRuntime.Num.lt]

theorem asDouble_iff (v : JVal) (f : F64) : asDouble v = some f ↔ IsDouble v f := by
  unfold IsDouble
  cases v <;> simp [asDouble, eq_comm]

theorem outcome_float (b : Bounds) (hb : ExactBounds b) (v : JVal) (ref : Str) (t : Val) (hr : Room e) :
    Outcome (ReadsTy D L M ids embed (.float b) v) B e (parseFloat L b v ref t e) := by
  unfold parseFloat
  cases h : asDouble v with
  | none =>
    refine .add hr ?_
    rintro y ⟨f, hf, _⟩
    rw [(asDouble_iff v f).2 hf] at h
    cases h
  | some f =>
    refine outcome_checks _ _ _ _ _ _ _ _ hr ?_ ?_
    · intro h1 h2
      refine ⟨⟨f, (asDouble_iff v f).1 h, rfl, (within_float b hb f).1 ⟨h1, h2⟩⟩, ?_⟩
      rintro y ⟨f', hf, rfl, _⟩
      rw [(asDouble_iff v f').2 hf] at h
      cases h; rfl
    · rintro hn y ⟨f', hf, rfl, hw⟩
      rw [(asDouble_iff v f').2 hf] at h
      cases h
      exact hn ((within_float b hb f).2 hw)

theorem outcome_text (p : Option Str) (v : JVal) (ref : Str) (t : Val) (hr : Room e) :
    Outcome (fun x => ∃ s, v = .str s ∧ x = .str s ∧ Matches L p s) B e (parseString L p v ref t e) := by
  cases v with
  | str s =>
    cases p with
    | none =>
      refine .value ⟨s, rfl, rfl, fun _ h => by cases h⟩ ?_
      rintro y ⟨c, hc, rfl, _⟩
      cases hc; rfl
    | some p =>
      unfold parseString
      simp only
      by_cases hm : L.regexMatch p s = true
      · rw [if_pos hm]
        refine .value ⟨s, rfl, rfl, fun q h => by cases h; exact hm⟩ ?_
        rintro y ⟨c, hc, rfl, _⟩
        cases hc; rfl
      · rw [if_neg hm]
        refine .add hr ?_
        rintro y ⟨c, hc, rfl, h⟩
        cases hc
        exact hm (h p rfl)
  | _ => exact .add hr (by rintro x ⟨c, hc, _⟩; cases hc)

theorem char_zero {c : Char} (h : c.toNat = 0) : c = Char.ofNat 0 := by
  rw [← h, Char.ofNat_toNat]

theorem cStr_split (s : Str) : ∃ rest, s = cStr s ++ rest ∧ Char.ofNat 0 ∉ cStr s ∧
    (rest = [] ∨ rest.head? = some (Char.ofNat 0)) := by
  induction s with
  | nil => exact ⟨[], rfl, by simp [cStr], .inl rfl⟩
  | cons c s ih =>
    obtain ⟨rest, h1, h2, h3⟩ := ih
    by_cases hc : c.toNat = 0
    · have h0 : c = Char.ofNat 0 := by
        exact char_zero hc
      have hs : cStr (c :: s) = [] := by
        unfold cStr
        rw [List.takeWhile_cons_of_neg (by simpa using hc)]
      rw [hs]
      exact ⟨c :: s, rfl, by simp, .inr (by rw [h0]; rfl)⟩
    · have hs : cStr (c :: s) = c :: cStr s := by
        unfold cStr
        rw [List.takeWhile_cons_of_pos (by simpa using hc)]
      rw [hs]
      refine ⟨rest, by rw [List.cons_append, ← h1], ?_, h3⟩
      intro h
      rcases List.mem_cons.1 h with h | h
      · exact hc (by rw [← h]; rfl)
      · exact h2 h

theorem takeWhile_split {p : Char → Bool} {s rest : Str} (h : ∀ c ∈ s, p c = true)
    (hr : rest = [] ∨ ∃ c, rest.head? = some c ∧ p c = false) : (s ++ rest).takeWhile p = s := by
  induction s with
  | nil =>
    rcases hr with rfl | ⟨c, hc, hp⟩
    · rfl
    · cases rest with
      | nil => rfl
      | cons d rest =>
        cases hc
        rw [List.nil_append, List.takeWhile_cons_of_neg (by simp [hp])]
  | cons d s ih =>
    rw [List.cons_append, List.takeWhile_cons_of_pos (h d List.mem_cons_self),
      ih fun c hc => h c (List.mem_cons_of_mem _ hc)]

theorem cStr_of_split {s rest : Str} (h : Char.ofNat 0 ∉ s)
    (hr : rest = [] ∨ rest.head? = some (Char.ofNat 0)) : cStr (s ++ rest) = s := by
  unfold cStr
  apply takeWhile_split
  · intro c hc
    have : c.toNat ≠ 0 := by
      intro h0
      apply h
      have : c = Char.ofNat 0 := by
        exact char_zero h0
      rw [← this]; exact hc
    simpa using this
  · rcases hr with h | h
    · exact .inl h
    · exact .inr ⟨_, h, by decide⟩

theorem timeOf_iff (k : TimeKind) (f s : Str) (t : Time) :
    timeOf D L k f s = some t ↔ Loose D L k f s t := by
  unfold timeOf Loose
  cases D with
  | ctime =>
    simp only
    constructor
    · intro h
      obtain ⟨rest, h1, h2, h3⟩ := cStr_split s
      refine ⟨_, rest, h1, h2, h3, ?_⟩
      split at h
      · next heq => cases h; exact heq
      · cases h
    · rintro ⟨s', rest, rfl, h1, h2, h3⟩
      rw [cStr_of_split h1 h2, h3]
  | dateH =>
    simp only
    constructor
    · intro h
      split at h
      · next heq => cases h; exact ⟨_, heq⟩
      · cases h
    · rintro ⟨rest, h⟩
      rw [h]

theorem outcome_time (k : TimeKind) (f : Str) (v : JVal) (ref : Str) (t : Val) (hr : Room e) :
    Outcome (fun x => ∃ s t, v = .str s ∧ Loose D L k f s t ∧ x = .time t) B e (parseTime D L k f v ref t e) := by
  cases v with
  | str s =>
    unfold parseTime
    simp only
    cases h : timeOf D L k f s with
    | some t' =>
      refine .value ⟨s, t', rfl, (timeOf_iff D L k f s t').1 h, rfl⟩ ?_
      rintro y ⟨c, t'', hc, ht, rfl⟩
      cases hc
      rw [(timeOf_iff D L k f s t'').2 ht] at h
      cases h; rfl
    | none =>
      refine .add hr ?_
      rintro y ⟨c, t'', hc, ht, rfl⟩
      cases hc
      rw [(timeOf_iff D L k f s t'').2 ht] at h
      cases h
  | _ => exact .add hr (by rintro x ⟨c, _, hc, _⟩; cases hc)

theorem zoneOf_iff (s z : Str) : zoneOf D L s = some z ↔ IsZone D L s z := by
  unfold zoneOf IsZone
  cases D <;> simp [eq_comm]

theorem outcome_zone (v : JVal) (ref : Str) (t : Val) (hr : Room e) :
    Outcome (ReadsTy D L M ids embed .timeZone v) B e (parseTimeZone D L v ref t e) := by
  cases v with
  | str s =>
    unfold parseTimeZone
    simp only
    cases h : zoneOf D L s with
    | some z =>
      refine .value ⟨s, z, rfl, (zoneOf_iff D L s z).1 h, rfl⟩ ?_
      rintro y ⟨c, z', hc, ht, rfl⟩
      cases hc
      rw [(zoneOf_iff D L s z').2 ht] at h
      cases h; rfl
    | none =>
      refine .add hr ?_
      rintro y ⟨c, z', hc, ht, rfl⟩
      cases hc
      rw [(zoneOf_iff D L s z').2 ht] at h
      cases h
  | _ => exact .add hr (by rintro x ⟨c, _, hc, _⟩; cases hc)

/-- The exceptions which a value may cause with the given stack -/
def Bad (L : Lib) (fuel : Nat) (v : JVal) (x : Exc) : Prop :=
  (x = .overflowError ∧ ∃ s, InsideJ (.str s) v ∧ cppFromString (L.garbage s) s = .throws) ∨
  (x = .recursionError ∧ ∀ m, m < fuel → ¬ DepthLe m v)

theorem outcome_duration (hG : NoGarbage L) (fuel : Nat) (v : JVal) (ref : Str) (t : Val) (hr : Room e) :
    Outcome (ReadsTy D L M ids embed .duration v) (Bad L fuel v) e (parseDuration L v ref t e) := by
  cases v with
  | str s =>
    unfold parseDuration
    simp only
    rw [hG s]
    cases h : cppFromString false s with
    | value d =>
      refine .value ⟨s, d, rfl, h, rfl⟩ ?_
      rintro y ⟨c, d', hc, ht, rfl⟩
      cases hc
      rw [h] at ht
      cases ht; rfl
    | error m =>
      refine .add hr ?_
      rintro y ⟨c, d', hc, ht, rfl⟩
      cases hc
      rw [h] at ht
      cases ht
    | throws =>
      refine ⟨.inl ⟨rfl, s, .here, by rw [hG s]; exact h⟩, ?_⟩
      rintro y ⟨c, d', hc, ht, rfl⟩
      cases hc
      rw [h] at ht
      cases ht
  | _ => exact .add hr (by rintro x ⟨c, _, hc, _⟩; cases hc)

theorem outcome_reference (c : Str) (keys : List Str) (hk : ∀ id, id ∈ keys ↔ ids c id) (v : JVal) (ref : Str)
    (t : Val) (hr : Room e) :
    Outcome (ReadsTy D L M ids embed (.cls c) v) B e (parseReference c keys v ref t e) := by
  cases v with
  | str s =>
    unfold parseReference
    simp only
    split
    · next h =>
      refine .value ⟨s, rfl, rfl, (hk s).1 h⟩ ?_
      rintro y ⟨c, hc, rfl, _⟩
      cases hc; rfl
    · next h =>
      refine .add hr ?_
      rintro y ⟨c, hc, rfl, hi⟩
      cases hc
      exact h ((hk s).2 hi)
  | _ => exact .add hr (by rintro x ⟨c, hc, _⟩; cases hc)

end

end Mapry.CppRuntime
