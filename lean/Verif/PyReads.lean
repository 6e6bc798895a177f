import Verif.PyTrace
import Verif.PySpec

/-!
# A trace without errors is the relation `Reads`
-/

namespace Mapry.PyRuntime

open Mapry.Text Mapry.Duration Spec

theorem leaf_ok {f : ParseFn} {v : Json} {ref : Str} {o : Option Val} :
    leaf f v ref = .ok (o, []) ↔ ∃ es, f v ref ⟨2, []⟩ = .ok (o, es) ∧ es.values = [] := by
  unfold leaf
  cases f v ref ⟨2, []⟩ with
  | error x => simp
  | ok r =>
    obtain ⟨a, es⟩ := r
    simp only [Except.ok.injEq, Prod.mk.injEq]
    constructor
    · rintro ⟨rfl, h⟩; exact ⟨es, ⟨rfl, rfl⟩, h⟩
    · rintro ⟨_, ⟨rfl, rfl⟩, h⟩; exact ⟨rfl, h⟩

theorem checkBounds_ok (L : Lib) (b : Bounds) (n : Num) (v : Json) (ref : Str) :
    (checkBounds L b n v ref ⟨2, []⟩).2.values = [] ↔ (minOk b n = true ∧ maxOk b n = true) := by
  unfold checkBounds
  cases hmn : minOk b n <;> cases hb : b.max <;> cases hmx : maxOk b n <;>
    simp_all [Errors.add, maxOk]

theorem checkBounds_fst (L : Lib) (b : Bounds) (n : Num) (v : Json) (ref : Str) (es : Errors)
    (h : minOk b n = true ∧ maxOk b n = true) : (checkBounds L b n v ref es).1 = true := by
  unfold checkBounds
  cases hb : b.max <;> simp_all

theorem rat_lt_iff (a b : Rat) : a < b ↔ a ≤ b ∧ a ≠ b := by
  constructor
  · intro h; exact ⟨Rat.le_of_lt h, fun e => by subst e; exact Rat.lt_irrefl h⟩
  · rintro ⟨h, hne⟩; exact Rat.lt_of_le_of_ne h hne

theorem bounds_rat (b : Bounds) (q : Rat) :
    (minOk b (.float (.fin q)) = true ∧ maxOk b (.float (.fin q)) = true) ↔ Within b q := by
  have key : Within b q ↔ (∀ m, b.min = some m → (m : Rat) ≤ q ∧ (b.exMin = true → (m : Rat) ≠ q)) ∧
      (∀ m, b.max = some m → q ≤ (m : Rat) ∧ (b.exMax = true → q ≠ (m : Rat))) :=
    ⟨fun h => ⟨fun m hm => ⟨h.lower m hm, h.lowerStrict m hm⟩,
        fun m hm => ⟨h.upper m hm, h.upperStrict m hm⟩⟩,
      fun h => ⟨fun m hm => (h.1 m hm).1, fun m hm => (h.1 m hm).2, fun m hm => (h.2 m hm).1,
        fun m hm => (h.2 m hm).2⟩⟩
  rw [key]
  unfold minOk maxOk
  cases b.min <;> cases b.max <;> cases b.exMin <;> cases b.exMax <;>
    simp [Num.ge, Num.gt, Num.le, Num.lt, rat_lt_iff]

theorem bounds_int (b : Bounds) (i : Int) :
    (minOk b (.int i) = true ∧ maxOk b (.int i) = true) ↔ Within b (i : Rat) := by
  rw [← bounds_rat]
  unfold minOk maxOk
  cases b.min <;> cases b.max <;> cases b.exMin <;> cases b.exMax <;>
    simp [Num.ge, Num.gt, Num.le, Num.lt, Rat.intCast_le_intCast, Rat.intCast_lt_intCast]

theorem bounds_float (b : Bounds) (f : F64) :
    (minOk b (.float f) = true ∧ maxOk b (.float f) = true) ↔ FloatWithin b f := by
  cases f with
  | fin q => exact bounds_rat b q
  | inf neg =>
    obtain ⟨mn, exn, mx, exx⟩ := b
    unfold minOk maxOk
    cases neg <;> cases mn <;> cases mx <;> cases exn <;> cases exx <;>
      simp [Num.ge, Num.gt, Num.le, Num.lt, FloatWithin]
  | nan =>
    obtain ⟨mn, exn, mx, exx⟩ := b
    unfold minOk maxOk
    cases mn <;> cases mx <;> cases exn <;> cases exx <;>
      simp [Num.ge, Num.gt, Num.le, Num.lt, FloatWithin]

/-! ## Primitive values -/

theorem leaf_boolean (v : Json) (ref : Str) (o : Option Val) :
    leaf parseBoolean v ref = .ok (o, []) ↔ ∃ x, o = some x ∧ ∃ c, v = .bool c ∧ x = .bool c := by
  cases v <;> simp [leaf, parseBoolean, Errors.add, eq_comm]

theorem checked_ok (L : Lib) (b : Bounds) (n : Num) (v : Json) (ref : Str) (w : Val) (o : Option Val) :
    ((if (checkBounds L b n v ref ⟨2, []⟩).1 then some w else none) = o ∧
      (checkBounds L b n v ref ⟨2, []⟩).2.values = []) ↔
    o = some w ∧ minOk b n = true ∧ maxOk b n = true := by
  rw [checkBounds_ok]
  constructor
  · rintro ⟨rfl, h⟩
    rw [checkBounds_fst L b n v ref _ h]
    exact ⟨by simp, h⟩
  · rintro ⟨rfl, h⟩
    rw [checkBounds_fst L b n v ref _ h]
    exact ⟨by simp, h⟩

theorem leaf_integer (L : Lib) (b : Bounds) (v : Json) (ref : Str) (o : Option Val) :
    leaf (parseInteger L b) v ref = .ok (o, []) ↔
      ∃ x, o = some x ∧ ∃ i : Int, IntValue true v x i ∧ Within b i := by
  have bad : v.int? = none → (leaf (parseInteger L b) v ref = .ok (o, []) ↔
      ∃ x, o = some x ∧ ∃ i : Int, IntValue true v x i ∧ Within b i) := by
    intro h
    constructor
    · intro hl; simp [leaf, parseInteger, h, Errors.add] at hl
    · rintro ⟨x, _, i, hi, _⟩
      cases hi <;> simp [Json.int?] at h
  have good : ∀ i w, v.int? = some (.int i) → v.intVal = w →
      (∀ x j, IntValue true v x j ↔ (x = w ∧ j = i)) → (leaf (parseInteger L b) v ref = .ok (o, []) ↔
      ∃ x, o = some x ∧ ∃ i : Int, IntValue true v x i ∧ Within b i) := by
    intro i w h hw hiff
    simp only [leaf, parseInteger, h, hw, Except.ok.injEq, Prod.mk.injEq, checked_ok, bounds_int, hiff]
    constructor
    · rintro ⟨rfl, h⟩; exact ⟨w, rfl, i, ⟨rfl, rfl⟩, h⟩
    · rintro ⟨_, rfl, _, ⟨rfl, rfl⟩, hq⟩; exact ⟨rfl, hq⟩
  cases v with
  | int i =>
    refine good i (.int i) rfl rfl ?_
    intro x j
    constructor
    · intro h; cases h; exact ⟨rfl, rfl⟩
    · rintro ⟨rfl, rfl⟩; exact .int _
  | bool c =>
    refine good (boolNum c) (.bool c) rfl rfl ?_
    intro x j
    constructor
    · intro h; cases h; exact ⟨rfl, rfl⟩
    · rintro ⟨rfl, rfl⟩; exact .bool _ rfl
  | _ => exact bad rfl

theorem leaf_float (L : Lib) (b : Bounds) (v : Json) (ref : Str) (o : Option Val) :
    leaf (parseFloat L b) v ref = .ok (o, []) ↔ ∃ x, o = some x ∧
      ((∃ f, v = .float f ∧ x = .float f ∧ FloatWithin b f) ∨
       (∃ w i q, IntValue true v w i ∧ x = .float (.fin q) ∧ Within b (i : Rat) ∧
          F64.round i = .fin q)) := by
  have step : ∀ n, v.num? = some n → (leaf (parseFloat L b) v ref = .ok (o, []) ↔
      ∃ f, n.toFloat = .ok f ∧ o = some (.float f) ∧ minOk b n = true ∧ maxOk b n = true) := by
    intro n h
    simp only [leaf, parseFloat, h]
    cases hb : (checkBounds L b n v ref ⟨2, []⟩).1 with
    | false =>
      simp only [Bool.false_eq_true, if_false, Except.ok.injEq, Prod.mk.injEq]
      constructor
      · rintro ⟨rfl, hv⟩
        have := checkBounds_fst L b n v ref ⟨2, []⟩ ((checkBounds_ok L b n v ref).1 hv)
        rw [hb] at this; simp at this
      · rintro ⟨f, _, _, hh⟩
        have := checkBounds_fst L b n v ref ⟨2, []⟩ hh
        rw [hb] at this; simp at this
    | true =>
      simp only [if_true]
      cases hf : n.toFloat with
      | error x => simp [bind, Except.bind]
      | ok f =>
        simp only [bind, Except.bind, pure, Except.pure, Except.ok.injEq, Prod.mk.injEq,
          checkBounds_ok]
        constructor
        · rintro ⟨rfl, h⟩; exact ⟨f, rfl, rfl, h⟩
        · rintro ⟨_, rfl, rfl, h⟩; exact ⟨rfl, h⟩
  have int : ∀ i, v.num? = some (.int i) → (∀ x j, IntValue true v x j → j = i) →
      (∃ w, IntValue true v w i) → (∀ f, v ≠ .float f) → (leaf (parseFloat L b) v ref = .ok (o, []) ↔
      ∃ x, o = some x ∧ ((∃ f, v = .float f ∧ x = .float f ∧ FloatWithin b f) ∨
       (∃ w i q, IntValue true v w i ∧ x = .float (.fin q) ∧ Within b (i : Rat) ∧
          F64.round i = .fin q))) := by
    intro i h huniq hex hne
    rw [step _ h]
    constructor
    · rintro ⟨f, hf, rfl, hb⟩
      obtain ⟨w, hw⟩ := hex
      have hb := (bounds_int b i).1 hb
      simp only [Num.toFloat] at hf
      split at hf
      · next q hq =>
        cases hf
        exact ⟨_, rfl, .inr ⟨w, i, q, hw, rfl, hb, hq⟩⟩
      · simp at hf
    · rintro ⟨x, rfl, ⟨f, hv, _⟩ | ⟨w, j, q, hj, rfl, hb, hr⟩⟩
      · exact absurd hv (hne f)
      · have := huniq w j hj
        subst this
        exact ⟨.fin q, by simp [Num.toFloat, hr], rfl, (bounds_int b j).2 hb⟩
  cases v with
  | float f =>
    rw [step (.float f) rfl]
    constructor
    · rintro ⟨f', h, rfl, hb⟩
      simp only [Num.toFloat, Except.ok.injEq] at h
      subst h
      exact ⟨_, rfl, .inl ⟨f, rfl, rfl, (bounds_float b f).1 hb⟩⟩
    · rintro ⟨x, rfl, ⟨f', h, rfl, hb⟩ | ⟨_, _, _, h, _⟩⟩
      · cases h
        exact ⟨f, rfl, rfl, (bounds_float b f).2 hb⟩
      · cases h
  | int i =>
    exact int i rfl (fun x j h => by cases h; rfl) ⟨_, .int i⟩ (by simp)
  | bool c =>
    exact int (boolNum c) rfl (fun x j h => by cases h; rfl) ⟨_, .bool c rfl⟩ (by simp)
  | _ =>
    constructor
    · intro hl; simp [leaf, parseFloat, Json.num?, Json.int?, Errors.add] at hl
    · rintro ⟨x, _, ⟨_, h, _⟩ | ⟨_, _, _, h, _⟩⟩ <;> cases h

theorem leaf_matched (L : Lib) (set : Str → Val) (p : Option Str) (v : Json) (ref : Str)
    (o : Option Val) :
    leaf (parseMatched L set p) v ref = .ok (o, []) ↔
      ∃ x, o = some x ∧ ∃ s, v = .str s ∧ x = set s ∧ Matches L p s := by
  cases v <;> try (simp [leaf, parseMatched, Errors.add]; done)
  next s =>
  cases p with
  | none => simp [leaf, parseMatched, Matches]; exact eq_comm
  | some p =>
    cases hm : L.reMatch p s with
    | true => simp [leaf, parseMatched, Matches, hm]; exact eq_comm
    | false =>
      simp only [leaf, parseMatched, hm, Matches]
      cases gotMessage (c!"Expected to match " ++ p) s <;>
        simp [bind, Except.bind, pure, Except.pure, Errors.add, hm]

theorem leaf_dateTime (L : Lib) (set : DateTime → Val) (f : Str) (v : Json) (ref : Str)
    (o : Option Val) :
    leaf (parseDateTime L set f) v ref = .ok (o, []) ↔
      ∃ x, o = some x ∧ ∃ s d, v = .str s ∧ L.strptime s f = .ok d ∧ x = set d := by
  cases v <;> try (simp [leaf, parseDateTime, Errors.add]; done)
  next s =>
  cases hs : L.strptime s f with
  | ok d =>
    simp only [leaf, parseDateTime, hs, Except.ok.injEq, Prod.mk.injEq, and_true]
    constructor
    · rintro rfl; exact ⟨_, rfl, s, d, rfl, hs, rfl⟩
    · rintro ⟨_, rfl, s', d', h, hd, rfl⟩
      cases h
      rw [hs] at hd
      cases hd; rfl
  | error x =>
    constructor
    · intro h
      simp only [leaf, parseDateTime, hs] at h
      cases x <;> try (simp at h; done)
      simp only [] at h
      generalize gotMessage (c!"Expected to strptime " ++ f) s = m at h
      cases m <;> simp [bind, Except.bind, pure, Except.pure, Errors.add] at h
    · rintro ⟨_, _, s', d', h, hd, _⟩
      cases h
      rw [hs] at hd
      cases hd

theorem leaf_timeZone (L : Lib) (S : Settings) (v : Json) (ref : Str) (o : Option Val) :
    leaf (parseTimeZone L S) v ref = .ok (o, []) ↔
      ∃ x, o = some x ∧ ∃ s, v = .str s ∧
        if S.pytz then ∃ z, L.timezone s = some z ∧ x = .zone z else x = .str s := by
  cases v <;> try (simp [leaf, parseTimeZone, Errors.add]; done)
  next s =>
  cases hp : S.pytz with
  | false => simp [leaf, parseTimeZone, hp, eq_comm]
  | true => cases hz : L.timezone s <;> simp [leaf, parseTimeZone, hp, hz, Errors.add, eq_comm]

theorem leaf_duration (L : Lib) (v : Json) (ref : Str) (o : Option Val) :
    leaf (parseDuration L) v ref = .ok (o, []) ↔
      ∃ x, o = some x ∧ ∃ s d, v = .str s ∧ pyFromString s = .ok d ∧ x = .duration d := by
  cases v <;> try (simp [leaf, parseDuration, Errors.add]; done)
  next s =>
  cases hs : pyFromString s with
  | ok d =>
    simp only [leaf, parseDuration, hs, Except.ok.injEq, Prod.mk.injEq, and_true]
    constructor
    · rintro rfl; exact ⟨_, rfl, s, d, rfl, hs, rfl⟩
    · rintro ⟨_, rfl, s', d', h, hd, rfl⟩
      cases h
      rw [hs] at hd
      cases hd; rfl
  | error x =>
    constructor
    · intro h
      simp only [leaf, parseDuration, hs] at h
      cases x <;> simp [Errors.add] at h
    · rintro ⟨_, _, s', d', h, hd, _⟩
      cases h
      rw [hs] at hd
      cases hd

theorem leaf_reference (c : Str) (ids : List Str) (v : Json) (ref : Str) (o : Option Val) :
    leaf (parseReference c ids) v ref = .ok (o, []) ↔
      ∃ x, o = some x ∧ ∃ id, v = .str id ∧ x = .ref c id ∧ id ∈ ids := by
  cases v <;> try (simp [leaf, parseReference, Errors.add]; done)
  next s =>
  by_cases h : s ∈ ids <;> simp [leaf, parseReference, h, Errors.add, eq_comm]

/-! ## Aggregates -/

theorem andThen_ok {α β : Type} {t : Except (Exc × Log) (α × Log)}
    {f : α → Except (Exc × Log) (β × Log)} {b : β} :
    andThen t f = .ok (b, []) ↔ ∃ a, t = .ok (a, []) ∧ f a = .ok (b, []) := by
  unfold andThen
  cases t with
  | error x => simp
  | ok r =>
    obtain ⟨a, l⟩ := r
    simp only []
    constructor
    · intro h
      split at h
      · simp at h
      · next b' l' hf =>
        simp only [Except.ok.injEq, Prod.mk.injEq, List.append_eq_nil_iff] at h
        obtain ⟨rfl, rfl, rfl⟩ := h
        exact ⟨a, rfl, hf⟩
    · rintro ⟨a', h, hf⟩
      cases h
      simp [hf]

theorem thenPure_ok {α β : Type} {t : Except (Exc × Log) (α × Log)} {f : α → β} {b : β} :
    thenPure t f = .ok (b, []) ↔ ∃ a, t = .ok (a, []) ∧ b = f a := by
  unfold thenPure
  cases t with
  | error x => simp
  | ok r =>
    obtain ⟨a, l⟩ := r
    simp only [Except.ok.injEq, Prod.mk.injEq]
    constructor
    · rintro ⟨rfl, rfl⟩; exact ⟨a, ⟨rfl, rfl⟩, rfl⟩
    · rintro ⟨_, ⟨rfl, rfl⟩, rfl⟩; exact ⟨rfl, rfl⟩

/-- A trace succeeds exactly on the values of the relation. -/
def Realises (t : TraceFn) (R : Json → Val → Prop) : Prop :=
  ∀ v ref o, t v ref = .ok (o, []) ↔ ∃ x, o = some x ∧ R v x

theorem items_ok {t : TraceFn} {R : Json → Val → Prop} (h : Realises t R) (ref : Str) (i : Nat)
    (acc : List Val) (xs : List Json) (ys : List Val) :
    tItems t ref i acc xs = .ok (ys, []) ↔ ∃ vs, ys = acc ++ vs ∧ Forall₂ R xs vs := by
  induction xs generalizing i acc with
  | nil =>
    simp only [tItems, Except.ok.injEq, Prod.mk.injEq, and_true]
    constructor
    · rintro rfl; exact ⟨[], by simp, .nil⟩
    · rintro ⟨vs, rfl, h⟩; cases h; simp
  | cons x xs ih =>
    simp only [tItems, andThen_ok, h x, ih]
    constructor
    · rintro ⟨a, ⟨v, rfl, hv⟩, vs, rfl, hf⟩
      exact ⟨v :: vs, by simp, .cons hv hf⟩
    · rintro ⟨vs, rfl, hf⟩
      cases hf with
      | cons hv hf => exact ⟨_, ⟨_, rfl, hv⟩, _, by simp, hf⟩

theorem array_ok {t : TraceFn} {R : Json → Val → Prop} (h : Realises t R) (lo hi : Option Int) :
    Realises (tArray t lo hi) fun v x => ∃ xs vs, v = .arr xs ∧ x = .list vs ∧
      SizeWithin lo hi xs.length ∧ Forall₂ R xs vs := by
  intro v ref o
  cases v <;> try (simp [tArray]; done)
  next xs =>
  have hs : (lo.any (fun m => decide ((xs.length : Int) < m)) = false ∧
      hi.any (fun m => decide (m < (xs.length : Int))) = false) ↔ SizeWithin lo hi xs.length := by
    constructor
    · rintro ⟨h1, h2⟩
      constructor
      · rintro m rfl; simpa using h1
      · rintro m rfl; simpa using h2
    · rintro ⟨h1, h2⟩
      constructor
      · cases lo with
        | none => rfl
        | some m => have := h1 m rfl; simpa using this
      · cases hi with
        | none => rfl
        | some m => have := h2 m rfl; simpa using this
  constructor
  · intro hh
    simp only [tArray] at hh
    split at hh
    · simp at hh
    · next h1 =>
      split at hh
      · simp at hh
      · next h2 =>
        obtain ⟨ys, hy, rfl⟩ := thenPure_ok.1 hh
        obtain ⟨vs, rfl, hf⟩ := (items_ok h ref 0 [] xs ys).1 hy
        exact ⟨_, rfl, xs, _, rfl, rfl, hs.1 ⟨by simpa using h1, by simpa using h2⟩, hf⟩
  · rintro ⟨x, rfl, xs', vs, hx, rfl, hsz, hf⟩
    cases hx
    obtain ⟨h1, h2⟩ := hs.2 hsz
    simp only [tArray, h1, h2, Bool.false_eq_true, if_false]
    exact thenPure_ok.2 ⟨_, (items_ok h ref 0 [] xs _).2 ⟨_, rfl, hf⟩, rfl⟩

theorem entries_ok (L : Lib) {t : TraceFn} {R : Json → Val → Prop} (h : Realises t R) (ref : Str)
    (acc : List (Str × Val)) (kvs : List (Str × Json)) (ys : List (Str × Val)) :
    tEntries L t ref acc kvs = .ok (ys, []) ↔
      ∃ ws, ys = acc ++ ws ∧ Forall₂ (fun kv w => kv.1 = w.1 ∧ R kv.2 w.2) kvs ws := by
  induction kvs generalizing acc with
  | nil =>
    simp only [tEntries, Except.ok.injEq, Prod.mk.injEq, and_true]
    constructor
    · rintro rfl; exact ⟨[], by simp, .nil⟩
    · rintro ⟨vs, rfl, h⟩; cases h; simp
  | cons kv kvs ih =>
    obtain ⟨k, x⟩ := kv
    simp only [tEntries, andThen_ok, h x, ih]
    constructor
    · rintro ⟨a, ⟨v, rfl, hv⟩, vs, rfl, hf⟩
      exact ⟨(k, v) :: vs, by simp, .cons ⟨rfl, hv⟩ hf⟩
    · rintro ⟨vs, rfl, hf⟩
      cases hf with
      | @cons _ w _ ws hv hf =>
        obtain ⟨k', v⟩ := w
        obtain ⟨hk, hv⟩ := hv
        simp only at hk
        subst hk
        exact ⟨_, ⟨_, rfl, hv⟩, _, by simp, hf⟩

theorem map_ok (L : Lib) {t : TraceFn} {R : Json → Val → Prop} (h : Realises t R) :
    Realises (tMap L t) fun v x => ∃ o kvs ws, v = .obj o kvs ∧ x = .map o ws ∧
      Forall₂ (fun kv w => kv.1 = w.1 ∧ R kv.2 w.2) kvs ws := by
  intro v ref o
  cases v <;> try (simp [tMap]; done)
  next ordered kvs =>
  simp only [tMap, thenPure_ok, entries_ok L h]
  constructor
  · rintro ⟨ys, ⟨ws, rfl, hf⟩, rfl⟩
    exact ⟨_, rfl, ordered, kvs, _, rfl, rfl, hf⟩
  · rintro ⟨x, rfl, o', kvs', ws, hx, rfl, hf⟩
    cases hx
    exact ⟨_, ⟨_, rfl, hf⟩, rfl⟩

theorem ty_ok (E : Env) (ids : Str → Str → Prop) (hids : ∀ c id, id ∈ E.ids c ↔ ids c id)
    {t : Str → Json → Str → Except (Exc × Log) (Val × Log)} {R : Str → Json → Val → Prop}
    (h : ∀ name v ref x, t name v ref = .ok (x, []) ↔ R name v x) (ty : Ty) :
    Realises (tTy E t ty) (ReadsTy true E.lib E.settings ids R ty) := by
  induction ty with
  | array ty lo hi ih => exact array_ok ih lo hi
  | map ty ih => exact map_ok E.lib ih
  | embed name =>
    intro v ref o
    simp only [tTy, ReadsTy, thenPure_ok, h]
    constructor
    · rintro ⟨x, hx, rfl⟩; exact ⟨x, rfl, hx⟩
    · rintro ⟨x, rfl, hx⟩; exact ⟨x, hx, rfl⟩
  | boolean => exact leaf_boolean
  | integer b => exact leaf_integer E.lib b
  | float b => exact leaf_float E.lib b
  | string p => exact leaf_matched E.lib _ p
  | path p => exact leaf_matched E.lib _ p
  | date f => exact leaf_dateTime E.lib _ f
  | time f => exact leaf_dateTime E.lib _ f
  | datetime f => exact leaf_dateTime E.lib _ f
  | timeZone => exact leaf_timeZone E.lib E.settings
  | duration => exact leaf_duration E.lib
  | cls c =>
    intro v ref o
    refine (leaf_reference c (E.ids c) v ref o).trans ?_
    simp only [hids, ReadsTy]

theorem _root_.Mapry.Forall₂.imp {α β : Type} {R Q : α → β → Prop} (h : ∀ a b, R a b → Q a b)
    {l : List α} {m : List β} (hf : Forall₂ R l m) : Forall₂ Q l m := by
  induction hf with
  | nil => exact .nil
  | cons hh _ ih => exact .cons (h _ _ hh) ih

theorem forall₂_and_left {α β : Type} {P : α → Prop} {R : α → β → Prop} {l : List α} {m : List β} :
    Forall₂ (fun a b => P a ∧ R a b) l m ↔ (∀ a ∈ l, P a) ∧ Forall₂ R l m := by
  constructor
  · intro hf
    induction hf with
    | nil => exact ⟨by simp, .nil⟩
    | cons hh _ ih => exact ⟨List.forall_mem_cons.2 ⟨hh.1, ih.1⟩, .cons hh.2 ih.2⟩
  · rintro ⟨hp, hf⟩
    induction hf with
    | nil => exact .nil
    | cons hh _ ih =>
      have := List.forall_mem_cons.1 hp
      exact .cons ⟨this.1, hh⟩ (ih this.2)

/-! ## Composites -/

theorem setAttr_append (a : Str) (v w : Val) (l rest : Attrs) (h : a ∉ l.map (·.1)) :
    setAttr a v (l ++ (a, w) :: rest) = l ++ (a, v) :: rest := by
  induction l with
  | nil => simp [setAttr]
  | cons b l ih =>
    obtain ⟨b, y⟩ := b
    simp only [List.map_cons, List.mem_cons, not_or] at h
    simp only [List.cons_append, setAttr]
    rw [if_neg (fun e => h.1 e.symm), ih h.2]

theorem property_ok {trace : Ty → TraceFn} {R : Ty → Json → Val → Prop}
    (h : ∀ ty, Realises (trace ty) (R ty)) (kvs : List (Str × Json)) (ref : Str) (p : Property)
    (l rest A : Attrs) (hl : attr p ∉ l.map (·.1)) :
    tProperty trace kvs ref p (l ++ (attr p, .none) :: rest) = .ok (A, []) ↔
      ∃ x, A = l ++ (attr p, x) :: rest ∧ ReadsProperty R kvs p x := by
  have missing : present kvs p.json = none →
      tProperty trace kvs ref p (l ++ (attr p, .none) :: rest) =
        (if p.optional then .ok (l ++ (attr p, .none) :: rest, [])
        else .ok (l ++ (attr p, .none) :: rest, [⟨ref, c!"Property is missing: " ++ p.json⟩])) := by
    unfold present tProperty
    cases kvs.lookup p.json with
    | none => intro _; rfl
    | some v => cases v <;> simp
  cases hp : present kvs p.json with
  | none =>
    rw [missing hp]
    simp only [ReadsProperty, hp]
    cases p.optional
    · simp
    · simp only [if_true, Except.ok.injEq, Prod.mk.injEq, and_true, true_and]
      constructor
      · rintro rfl; exact ⟨_, rfl, rfl⟩
      · rintro ⟨_, rfl, rfl⟩; rfl
  | some v =>
    have hlk : kvs.lookup p.json = some v ∧ v ≠ .null := by
      unfold present at hp
      split at hp
      · simp at hp
      · next hne => exact ⟨hp, fun e => hne (by rw [hp, e])⟩
    have : tProperty trace kvs ref p (l ++ (attr p, .none) :: rest) =
        thenPure (trace p.ty v (sub ref p.json)) fun x =>
          match x with
          | some x => setAttr (attr p) x (l ++ (attr p, .none) :: rest)
          | none => l ++ (attr p, .none) :: rest := by
      unfold tProperty
      rw [hlk.1]
      cases v <;> first | rfl | exact absurd rfl hlk.2
    rw [this, thenPure_ok]
    simp only [ReadsProperty, hp, h p.ty v]
    constructor
    · rintro ⟨_, ⟨x, rfl, hx⟩, rfl⟩
      exact ⟨x, by simp only [setAttr_append _ _ _ _ _ hl], hx⟩
    · rintro ⟨x, rfl, hx⟩
      exact ⟨some x, ⟨x, rfl, hx⟩, by simp only [setAttr_append _ _ _ _ _ hl]⟩

theorem props_ok {trace : Ty → TraceFn} {R : Ty → Json → Val → Prop}
    (h : ∀ ty, Realises (trace ty) (R ty)) (kvs : List (Str × Json)) (ref : Str) (ps : List Property)
    (l A : Attrs) (hl : (l.map (·.1) ++ ps.map attr).Nodup) :
    tProps trace kvs ref ps (l ++ placeholder ps) = .ok (A, []) ↔
      ∃ attrs, A = l ++ attrs ∧ ReadsProps R kvs ps attrs := by
  induction ps generalizing l with
  | nil =>
    simp only [tProps, placeholder, List.map_nil, List.append_nil, Except.ok.injEq, Prod.mk.injEq,
      and_true]
    constructor
    · rintro rfl; exact ⟨[], by simp, .nil⟩
    · rintro ⟨attrs, rfl, h⟩; cases h; simp
  | cons p ps ih =>
    have hp : attr p ∉ l.map (·.1) := by
      intro hm
      rw [List.nodup_append] at hl
      exact hl.2.2 _ hm _ (List.mem_cons_self ..) rfl
    have hpl : placeholder (p :: ps) = (attr p, .none) :: placeholder ps := rfl
    have hnd : ∀ x, (((l ++ [(attr p, x)]) : Attrs).map (·.1) ++ ps.map attr).Nodup := by
      intro x
      simpa using hl
    rw [hpl, tProps, andThen_ok]
    simp only [property_ok h kvs ref p l (placeholder ps) _ hp]
    constructor
    · rintro ⟨_, ⟨x, rfl, hx⟩, ht⟩
      have : l ++ (attr p, x) :: placeholder ps = (l ++ [(attr p, x)]) ++ placeholder ps := by simp
      rw [this, ih _ (hnd x)] at ht
      obtain ⟨attrs, rfl, hr⟩ := ht
      exact ⟨(attr p, x) :: attrs, by simp, .cons ⟨rfl, hx⟩ hr⟩
    · rintro ⟨attrs, rfl, hr⟩
      cases hr with
      | @cons _ a _ as hx hr =>
        obtain ⟨a, x⟩ := a
        obtain ⟨ha, hx⟩ := hx
        simp only at ha hx
        subst ha
        refine ⟨_, ⟨x, rfl, hx⟩, ?_⟩
        have : l ++ (attr p, x) :: placeholder ps = (l ++ [(attr p, x)]) ++ placeholder ps := by simp
        rw [this, ih _ (hnd x)]
        exact ⟨as, by simp [attr], hr⟩

theorem composite_ok {trace : Ty → TraceFn} {R : Ty → Json → Val → Prop}
    (h : ∀ ty, Realises (trace ty) (R ty)) (ps : List Property) (v : Json) (ref : Str) (A : Attrs)
    (hl : (ps.map fun p => Mapry.lower p.name).Nodup) :
    tComposite trace ps v ref = .ok (A, []) ↔ ∃ o kvs, v = .obj o kvs ∧ ReadsProps R kvs ps A := by
  cases v <;> try (simp [tComposite]; done)
  next o kvs =>
  have := props_ok h kvs ref ps [] A hl
  simp only [List.nil_append] at this
  simp only [tComposite, this]
  constructor
  · rintro ⟨attrs, rfl, hr⟩; exact ⟨o, kvs, rfl, hr⟩
  · rintro ⟨o', kvs', he, hr⟩; cases he; exact ⟨A, rfl, hr⟩

theorem embed_mem {g : Graph} {name : Str} {e : Embed} (h : g.embed? name = some e) : e ∈ g.embeds :=
  List.mem_of_find?_eq_some h

theorem embed_ok (E : Env) (ids : Str → Str → Prop) (hids : ∀ c id, id ∈ E.ids c ↔ ids c id)
    (hd : ∀ e ∈ E.graph.embeds, (e.properties.map fun p => Mapry.lower p.name).Nodup) (n : Nat) :
    ∀ name v ref x, tEmbed E n name v ref = .ok (x, []) ↔
      ReadsEmbed true E.lib E.settings E.graph ids n name v x := by
  induction n with
  | zero => intro name v ref x; simp [tEmbed, ReadsEmbed]
  | succ n ih =>
    intro name v ref x
    simp only [tEmbed, ReadsEmbed]
    cases he : E.graph.embed? name with
    | none => simp
    | some e =>
      simp only [thenPure_ok, composite_ok (ty_ok E ids hids ih) e.properties v ref _
        (hd e (embed_mem he)), Option.some.injEq]
      constructor
      · rintro ⟨A, ⟨o, kvs, hv, hr⟩, rfl⟩
        exact ⟨e, o, kvs, A, rfl, hv, rfl, hr⟩
      · rintro ⟨_, o, kvs, A, rfl, hv, rfl, hr⟩
        exact ⟨A, ⟨o, kvs, hv, hr⟩, rfl⟩

theorem reads_ok (E : Env) (ids : Str → Str → Prop) (hids : ∀ c id, id ∈ E.ids c ↔ ids c id)
    (hd : ∀ e ∈ E.graph.embeds, (e.properties.map fun p => Mapry.lower p.name).Nodup) (n : Nat)
    (ty : Ty) : Realises (tTy E (tEmbed E n) ty)
      (Reads true E.lib E.settings E.graph ids n ty) :=
  ty_ok E ids hids (embed_ok E ids hids hd n) ty

/-! ## The graph -/

theorem instances_ok (L : Lib) {trace : Ty → TraceFn} {R : Ty → Json → Val → Prop}
    (h : ∀ ty, Realises (trace ty) (R ty)) (c : Class) (ref : Str) (ids : List Str)
    (hl : (c.properties.map fun p => Mapry.lower p.name).Nodup)
    (entries : List (Str × Json)) (hsub : ∀ e ∈ entries, e.1 ∈ ids) (acc A : List (Str × Instance)) :
    tInstances L trace c ref ids entries acc = .ok (A, []) ↔
      ∃ new, A = acc ++ new ∧ Forall₂ (fun (e : Str × Json) (i : Str × Instance) =>
        i.1 = e.1 ∧ i.2.id = e.1 ∧ ∃ o kvs, e.2 = .obj o kvs ∧ ReadsProps R kvs c.properties i.2.attrs)
        entries new := by
  induction entries generalizing acc with
  | nil =>
    simp only [tInstances, Except.ok.injEq, Prod.mk.injEq, and_true]
    constructor
    · rintro rfl; exact ⟨[], by simp, .nil⟩
    · rintro ⟨vs, rfl, h⟩; cases h; simp
  | cons e entries ih =>
    obtain ⟨id, v⟩ := e
    have hid : id ∈ ids := hsub _ (List.mem_cons_self ..)
    simp only [tInstances, hid, if_true, andThen_ok, composite_ok h c.properties v _ _ hl,
      ih (fun e he => hsub e (List.mem_cons_of_mem _ he))]
    constructor
    · rintro ⟨attrs, ⟨o, kvs, hv, hr⟩, new, rfl, hf⟩
      exact ⟨(id, ⟨id, attrs⟩) :: new, by simp, .cons ⟨rfl, rfl, o, kvs, hv, hr⟩ hf⟩
    · rintro ⟨new, rfl, hf⟩
      cases hf with
      | @cons _ i _ new hi hf =>
        obtain ⟨k, iid, attrs⟩ := i
        obtain ⟨h1, h2, o, kvs, hv, hr⟩ := hi
        simp only at h1 h2 hr
        subst h1
        subst h2
        exact ⟨attrs, ⟨o, kvs, hv, hr⟩, new, by simp, hf⟩

theorem idErrors_nil (L : Lib) (c : Class) (ref : Str) (ids : List Str) :
    idErrors L c ref ids = [] ↔ ∀ id ∈ ids, Matches L c.idPattern id := by
  unfold idErrors Matches
  cases c.idPattern with
  | none => simp
  | some p => simp

theorem lookup_map_fst {α β : Type} [BEq α] [LawfulBEq α] {γ : Type} (f : γ → α) (k : γ → β)
    (l : List γ) (hn : (l.map f).Nodup) (c : γ) (hc : c ∈ l) :
    (l.map fun x => (f x, k x)).lookup (f c) = some (k c) := by
  induction l with
  | nil => simp at hc
  | cons x l ih =>
    simp only [List.map_cons, List.nodup_cons] at hn
    by_cases hx : x = c
    · subst hx; simp
    · have hcl : c ∈ l := by
        rcases List.mem_cons.1 hc with h | h
        · exact absurd h.symm hx
        · exact h
      have : (f c == f x) = false := by
        apply beq_false_of_ne
        intro e
        exact hn.1 (e ▸ List.mem_map_of_mem hcl)
      simp only [List.map_cons, List.lookup, this]
      exact ih hn.2 hcl

theorem lookup_map_none {α β : Type} [BEq α] [LawfulBEq α] {γ : Type} (f : γ → α) (k : γ → β)
    (l : List γ) (a : α) (hc : a ∉ l.map f) : (l.map fun x => (f x, k x)).lookup a = none := by
  induction l with
  | nil => rfl
  | cons x l ih =>
    simp only [List.map_cons, List.mem_cons, not_or] at hc
    have : (a == f x) = false := beq_false_of_ne hc.1
    simp only [List.map_cons, List.lookup, this]
    exact ih hc.2

/-- The allocated identifiers are those described by the input. -/
theorem ids_iff (L : Lib) (S : Settings) (g : Graph) (hn : (g.classes.map (·.name)).Nodup)
    (kvs : List (Str × Json)) (ref : Str) (c id : Str) :
    id ∈ (envOf L S g (allocated L kvs ref g.classes)).ids c ↔ Described g kvs c id := by
  have hreg : ∀ d : Class, id ∈ (tPrealloc L kvs ref d).1.2 ↔
      ∃ o entries, registryOf kvs d = some (.obj o entries) ∧ id ∈ entries.map (·.1) := by
    intro d
    unfold tPrealloc registryOf registryKey
    cases kvs.lookup (Mapry.lower d.plural) with
    | none => simp
    | some v =>
      cases v <;> try (simp; done)
      next o' es' =>
      constructor
      · intro h; exact ⟨o', es', rfl, h⟩
      · rintro ⟨_, _, he, h⟩; cases he; exact h
  simp only [envOf, allocated]
  by_cases hc : c ∈ g.classes.map (·.name)
  · obtain ⟨d, hd, rfl⟩ := List.mem_map.1 hc
    rw [lookup_map_fst (·.name) (fun c => (tPrealloc L kvs ref c).1) g.classes hn d hd]
    simp only [Option.map_some, Option.getD_some, hreg]
    constructor
    · intro h; exact ⟨d, hd, rfl, h⟩
    · rintro ⟨d', hd', he, h⟩
      have : d' = d := by
        have h1 := lookup_map_fst (·.name) (fun c => c) g.classes hn d hd
        have h2 := lookup_map_fst (·.name) (fun c => c) g.classes hn d' hd'
        rw [he, h1] at h2
        exact (Option.some.inj h2).symm
      subst this
      exact h
  · rw [lookup_map_none (·.name) (fun c => (tPrealloc L kvs ref c).1) g.classes c hc]
    simp only [Option.map_none, Option.getD_none, List.not_mem_nil, false_iff]
    rintro ⟨d, hd, rfl, _⟩
    exact hc (List.mem_map_of_mem hd)

/-- Without errors in the pre-allocation, the trace of a registry is the relation. -/
theorem registry_ok (lax : Bool) (L : Lib) (S : Settings) (g : Graph) (n : Nat) {trace : Ty → TraceFn}
    (kvs : List (Str × Json)) (ref : Str)
    (h : ∀ ty, Realises (trace ty) (Reads lax L S g (Described g kvs) n ty)) (c : Class)
    (hl : (c.properties.map fun p => Mapry.lower p.name).Nodup) (r : Registry) :
    ((tPrealloc L kvs ref c).2 = [] ∧
      tRegistry L trace kvs ref c (tPrealloc L kvs ref c).1 = .ok (r, [])) ↔
    ReadsRegistry lax L S g n kvs c r := by
  unfold tPrealloc tRegistry ReadsRegistry registryOf registryKey
  cases hk : kvs.lookup (Mapry.lower c.plural) with
  | none => simp [eq_comm]
  | some v =>
    cases v <;> try (simp; done)
    next o entries =>
    simp only [idErrors_nil, thenPure_ok,
      instances_ok L h c ref _ hl entries (fun e he => List.mem_map_of_mem he)]
    constructor
    · rintro ⟨hm, A, ⟨new, rfl, hf⟩, rfl⟩
      refine .inr ⟨o, entries, rfl, rfl, ?_⟩
      refine Forall₂.imp ?_ ((forall₂_and_left (P := fun e => Matches L c.idPattern e.1)).2
        ⟨fun e he => hm _ (List.mem_map_of_mem he), hf⟩)
      rintro e i ⟨h1, h2, h3, h4⟩
      exact ⟨h2, h3, h1, h4⟩
    · rintro (⟨hh, _⟩ | ⟨o', es', he, rfl, hf⟩)
      · simp at hh
      · cases he
        have := (forall₂_and_left (P := fun e : Str × Json => Matches L c.idPattern e.1)
          (R := fun (e : Str × Json) (i : Str × Instance) => i.1 = e.1 ∧ i.2.id = e.1 ∧
            ∃ o kvs', e.2 = .obj o kvs' ∧
              ReadsProps (Reads lax L S g (Described g kvs) n) kvs' c.properties i.2.attrs)).1
          (Forall₂.imp (fun e i h => ⟨h.2.2.1, h.1, h.2.1, h.2.2.2⟩) hf)
        refine ⟨?_, r.instances, ⟨r.instances, rfl, this.2⟩, rfl⟩
        intro id hid
        obtain ⟨e, he, rfl⟩ := List.mem_map.1 hid
        exact this.1 e he

theorem registries_ok (lax : Bool) (L : Lib) (S : Settings) (g : Graph) (n : Nat) {trace : Ty → TraceFn}
    (kvs : List (Str × Json)) (ref : Str)
    (h : ∀ ty, Realises (trace ty) (Reads lax L S g (Described g kvs) n ty))
    (hd : Distinct g) (cs : List Class) (hcs : ∀ c ∈ cs, c ∈ g.classes) (acc A : List (Str × Registry)) :
    (preErrors L kvs ref cs = [] ∧
      tRegistries L trace kvs ref (allocated L kvs ref g.classes) cs acc = .ok (A, [])) ↔
    ∃ new, A = acc ++ new ∧ Forall₂ (fun (c : Class) (r : Str × Registry) =>
      r.1 = c.name ∧ ReadsRegistry lax L S g n kvs c r.2) cs new := by
  induction cs generalizing acc with
  | nil =>
    simp only [preErrors, List.flatMap_nil, tRegistries, Except.ok.injEq, Prod.mk.injEq, and_true,
      true_and]
    constructor
    · rintro rfl; exact ⟨[], by simp, .nil⟩
    · rintro ⟨vs, rfl, h⟩; cases h; simp
  | cons c cs ih =>
    have hc := hcs c (List.mem_cons_self ..)
    have hpre : preErrors L kvs ref (c :: cs) = [] ↔
        (tPrealloc L kvs ref c).2 = [] ∧ preErrors L kvs ref cs = [] := by
      simp [preErrors]
    have hlook : ((allocated L kvs ref g.classes).lookup c.name).getD (true, []) =
        (tPrealloc L kvs ref c).1 := by
      unfold allocated
      rw [lookup_map_fst (·.name) (fun c => (tPrealloc L kvs ref c).1) g.classes hd.names c hc]
      rfl
    have hih := fun acc => ih (fun c hc => hcs c (List.mem_cons_of_mem _ hc)) acc
    have hreg := registry_ok lax L S g n kvs ref h c (hd.cls c hc)
    rw [hpre, tRegistries, hlook]
    simp only [andThen_ok]
    constructor
    · rintro ⟨⟨h1, h2⟩, r, h3, h4⟩
      obtain ⟨new, rfl, hf⟩ := (hih _).1 ⟨h2, h4⟩
      exact ⟨(c.name, r) :: new, by simp, .cons ⟨rfl, (hreg r).1 ⟨h1, h3⟩⟩ hf⟩
    · rintro ⟨new, rfl, hf⟩
      cases hf with
      | @cons _ r _ new hr hf =>
        obtain ⟨k, r⟩ := r
        obtain ⟨hk, hr⟩ := hr
        simp only at hk hr
        subst hk
        obtain ⟨h1, h3⟩ := (hreg r).2 hr
        obtain ⟨h2, h4⟩ := (hih (acc ++ [(c.name, r)])).2 ⟨new, by simp, hf⟩
        exact ⟨⟨h1, h2⟩, r, h3, h4⟩

/-- The trace of the graph has no errors exactly on the inputs of the relation. -/
theorem graph_ok (L : Lib) (S : Settings) (g : Graph) (hd : Distinct g) (n : Nat) (v : Json) (ref : Str)
    (o : Option GraphVal) :
    tGraph L S g n v ref = .ok (o, []) ↔ ∃ gv, o = some gv ∧ ReadsGraph true L S g n v gv := by
  cases v <;> try (simp [tGraph, ReadsGraph]; done)
  next ord kvs =>
  have hids := ids_iff L S g hd.names kvs ref
  have hreads : ∀ ty, Realises (tTy (envOf L S g (allocated L kvs ref g.classes))
      (tEmbed (envOf L S g (allocated L kvs ref g.classes)) n) ty)
      (Reads true L S g (Described g kvs) n ty) :=
    reads_ok (envOf L S g (allocated L kvs ref g.classes)) (Described g kvs) hids hd.embed n
  have hregs := fun A => registries_ok true L S g n kvs ref hreads hd g.classes (fun _ h => h) [] A
  have hprops := fun A => props_ok hreads kvs ref g.properties [] A hd.graph
  simp only [List.nil_append] at hregs hprops
  constructor
  · intro h
    simp only [tGraph] at h
    split at h
    · next hne => simp only [Except.ok.injEq, Prod.mk.injEq] at h; exact absurd h.2 hne
    · next hne =>
      have hpre : preErrors L kvs ref g.classes = [] := by simpa using hne
      split at h
      · simp at h
      · next gv log hb =>
        simp only [Except.ok.injEq, Prod.mk.injEq] at h
        obtain ⟨rfl, rfl⟩ := h
        simp only [tBody, andThen_ok, thenPure_ok] at hb
        obtain ⟨regs, hr, attrs, ha, rfl⟩ := hb
        obtain ⟨_, rfl, hr⟩ := (hregs regs).1 ⟨hpre, hr⟩
        obtain ⟨_, rfl, ha⟩ := (hprops attrs).1 ha
        exact ⟨⟨attrs, regs⟩, by simp, ord, kvs, rfl, hr, ha⟩
  · rintro ⟨gv, rfl, o', kvs', he, hr, ha⟩
    cases he
    obtain ⟨hpre, hr⟩ := (hregs gv.registries).2 ⟨_, rfl, hr⟩
    have ha := (hprops gv.attrs).2 ⟨_, rfl, ha⟩
    have hb : tBody L S g n kvs ref = .ok (gv, []) := by
      simp only [tBody, andThen_ok, thenPure_ok]
      exact ⟨_, hr, _, ha, rfl⟩
    simp [tGraph, hpre, hb]

end Mapry.PyRuntime
