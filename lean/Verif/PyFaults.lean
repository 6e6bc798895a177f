import Verif.PyValid
import Verif.PySim
import Verif.Props.Duration

/-!
# The errors of a trace are the faults of the input; when a trace raises
-/

namespace Mapry.PyRuntime

open Mapry.Text Mapry.Duration Spec

theorem sub_eq_part (ref name : Str) : sub ref name = part ref name := by
  simp [sub, part]

theorem exists_mem_cons {α : Type} {p : α → Prop} {a : α} {l : List α} :
    (∃ x ∈ a :: l, p x) ↔ p a ∨ ∃ x ∈ l, p x := by
  simp

/-- The references of the recorded errors -/
def refs (log : Log) : List Report := log.map report

theorem refs_append (a b : Log) : refs (a ++ b) = refs a ++ refs b := List.map_append

theorem andThen_split {α β : Type} {t : Except (Exc × Log) (α × Log)} {f : α → Except (Exc × Log) (β × Log)}
    {b : β} {log : Log} (h : andThen t f = .ok (b, log)) :
    ∃ a l l', t = .ok (a, l) ∧ f a = .ok (b, l') ∧ log = l ++ l' := by
  unfold andThen at h
  split at h
  · simp at h
  · next a l =>
    split at h
    · simp at h
    · next b' l' hf =>
      simp only [Except.ok.injEq, Prod.mk.injEq] at h
      obtain ⟨rfl, rfl⟩ := h
      exact ⟨a, l, l', rfl, hf, rfl⟩

theorem thenPure_split {α β : Type} {t : Except (Exc × Log) (α × Log)} {f : α → β} {b : β} {log : Log}
    (h : thenPure t f = .ok (b, log)) : ∃ a, t = .ok (a, log) ∧ b = f a := by
  unfold thenPure at h
  split at h
  · simp at h
  · next a l =>
    simp only [Except.ok.injEq, Prod.mk.injEq] at h
    obtain ⟨rfl, rfl⟩ := h
    exact ⟨a, rfl, rfl⟩

/-! ## Primitive values -/

theorem missingOf_none {m : Str} {c : Char} (h : m[3]? = some c) (hc : c ≠ 'p') : missingOf m = none := by
  unfold missingOf
  rw [if_neg]
  intro hm
  have h3 : (m.take 21)[3]? = some 'p' := by rw [hm]; rfl
  rw [List.getElem?_take_of_lt (by decide), h] at h3
  exact hc (by simpa using h3)

@[simp] theorem report_expected (ref what : Str) (v : Json) : report ⟨ref, expected what v⟩ = (ref, none) := by
  unfold report
  rw [missingOf_none (c := 'e') rfl (by decide)]

@[simp] theorem report_missing (ref name : Str) :
    report ⟨ref, c!"Property is missing: " ++ name⟩ = (ref, some name) := rfl

theorem missingOf_missing (name : Str) : missingOf (c!"Property is missing: " ++ name) = some name := rfl

theorem literalPart_cons {c : Char} (h1 : c ≠ '{') (h2 : c ≠ '}') (rest : Str) :
    literalPart (c :: rest) = (literalPart rest).map (c :: ·) := by
  rw [literalPart.eq_def]
  split <;> simp_all

theorem gotMessage_expected {rest got m : Str} (h : gotMessage (c!"Expected " ++ rest) got = .ok m) :
    ∃ m', m = c!"Expected " ++ m' := by
  unfold gotMessage at h
  split at h
  · next t ht =>
    simp only [Except.ok.injEq] at h
    rw [show c!"Expected " ++ rest = 'E' :: 'x' :: 'p' :: 'e' :: 'c' :: 't' :: 'e' :: 'd' :: ' ' :: rest from rfl] at ht
    rw [literalPart_cons (by decide) (by decide), literalPart_cons (by decide) (by decide),
      literalPart_cons (by decide) (by decide), literalPart_cons (by decide) (by decide),
      literalPart_cons (by decide) (by decide), literalPart_cons (by decide) (by decide),
      literalPart_cons (by decide) (by decide), literalPart_cons (by decide) (by decide),
      literalPart_cons (by decide) (by decide)] at ht
    cases hl : literalPart rest with
    | none => rw [hl] at ht; simp at ht
    | some l =>
      rw [hl] at ht
      simp only [Option.map_some, Option.some.injEq] at ht
      subst ht
      subst h
      exact ⟨_, rfl⟩
  · simp at h

theorem duration_message {s m : Str} (h : pyFromString s = .error (.valueError m)) : ∃ c, m[3]? = some c ∧ c ≠ 'p' := by
  unfold pyFromString at h
  split at h
  · simp only [Except.error.injEq, Exc.valueError.injEq] at h
    subst h
    exact ⟨_, rfl, by decide⟩
  · next f hf =>
    rcases Props.pyValue_outcome s f with ⟨hl, _⟩ | ⟨_, ⟨d, hd⟩ | hd⟩
    · have hp : pyMicroseconds s (fractionOf f.seconds) = .error (.valueError
          (c!"Precision only up to microseconds supported, but got: " ++ s)) := by
        unfold pyMicroseconds
        rw [if_neg (by intro h; rw [h] at hl; simp at hl), if_pos hl]
      unfold pyValue at h
      rw [hp] at h
      simp only [bind, Except.bind, Except.error.injEq, Exc.valueError.injEq] at h
      subst h
      exact ⟨_, rfl, by decide⟩
    · rw [hd] at h; simp at h
    · rw [hd] at h; simp at h

/-- All the errors refer to the value itself, and none tells about a missing property. -/
def OwnRef (f : ParseFn) : Prop :=
  ∀ v ref x es, f v ref ⟨2, []⟩ = .ok (x, es) → ∀ e ∈ es.values, report e = (ref, none)

theorem add_ref {es : Errors} {m ref : Str} (hm : ∃ c, m[3]? = some c ∧ c ≠ 'p')
    (h : ∀ e ∈ es.values, report e = (ref, none)) :
    ∀ e ∈ (es.add ⟨ref, m⟩).values, report e = (ref, none) := by
  unfold Errors.add
  split
  · intro x hx
    rcases List.mem_append.1 hx with hx | hx
    · exact h x hx
    · rw [List.mem_singleton.1 hx]
      unfold report
      obtain ⟨c, h1, h2⟩ := hm
      rw [missingOf_none h1 h2]
  · exact h

theorem nil_ref (c : Int) (ref : Str) : ∀ e ∈ (⟨c, []⟩ : Errors).values, report e = (ref, none) := by simp

theorem checkBounds_ref (L : Lib) (b : Bounds) (n : Num) (v : Json) (ref : Str) (es : Errors)
    (h : ∀ e ∈ es.values, report e = (ref, none)) :
    ∀ e ∈ (checkBounds L b n v ref es).2.values, report e = (ref, none) := by
  unfold checkBounds
  have h1 : ∀ e ∈ (if minOk b n then es else es.add ⟨ref, minMessage L b v⟩ : Errors).values,
      report e = (ref, none) := by
    split
    · exact h
    · exact add_ref (by unfold minMessage; simp only [List.append_assoc]; exact ⟨'e', rfl, by decide⟩) h
  dsimp only
  split
  · split
    · exact h1
    · exact add_ref (by unfold maxMessage; simp only [List.append_assoc]; exact ⟨'e', rfl, by decide⟩) h1
  · exact h1

theorem ownRef_boolean : OwnRef parseBoolean := by
  intro v ref x es h
  unfold parseBoolean at h
  split at h <;> cases h
  · exact nil_ref _ _
  · exact add_ref ⟨_, rfl, by decide⟩ (nil_ref _ _)

theorem ownRef_integer (L : Lib) (b : Bounds) : OwnRef (parseInteger L b) := by
  intro v ref x es h
  unfold parseInteger at h
  split at h
  · cases h; exact add_ref ⟨_, rfl, by decide⟩ (nil_ref _ _)
  · cases h; exact checkBounds_ref _ _ _ _ _ _ (nil_ref _ _)

theorem ownRef_float (L : Lib) (b : Bounds) : OwnRef (parseFloat L b) := by
  intro v ref x es h
  unfold parseFloat at h
  split at h
  · cases h; exact add_ref ⟨_, rfl, by decide⟩ (nil_ref _ _)
  · dsimp only at h
    split at h
    · simp only [bind, Except.bind] at h
      split at h
      · simp at h
      · cases h; exact checkBounds_ref _ _ _ _ _ _ (nil_ref _ _)
    · cases h; exact checkBounds_ref _ _ _ _ _ _ (nil_ref _ _)

theorem ownRef_matched (L : Lib) (set : Str → Val) (p : Option Str) : OwnRef (parseMatched L set p) := by
  intro v ref x es h
  unfold parseMatched at h
  split at h
  · split at h
    · cases h; exact nil_ref _ _
    · split at h
      · cases h; exact nil_ref _ _
      · simp only [bind, Except.bind] at h
        split at h
        · simp at h
        · next m hm =>
          cases h
          obtain ⟨m', rfl⟩ := gotMessage_expected (rest := c!"to match " ++ _) hm
          exact add_ref ⟨_, rfl, by decide⟩ (nil_ref _ _)
  · cases h; exact add_ref ⟨_, rfl, by decide⟩ (nil_ref _ _)

theorem ownRef_dateTime (L : Lib) (set : DateTime → Val) (f : Str) : OwnRef (parseDateTime L set f) := by
  intro v ref x es h
  unfold parseDateTime at h
  split at h
  · split at h
    · cases h; exact nil_ref _ _
    · simp only [bind, Except.bind] at h
      split at h
      · simp at h
      · next m hm =>
        cases h
        obtain ⟨m', rfl⟩ := gotMessage_expected (rest := c!"to strptime " ++ _) hm
        exact add_ref ⟨_, rfl, by decide⟩ (nil_ref _ _)
    · simp at h
  · cases h; exact add_ref ⟨_, rfl, by decide⟩ (nil_ref _ _)

theorem ownRef_timeZone (L : Lib) (S : Settings) : OwnRef (parseTimeZone L S) := by
  intro v ref x es h
  unfold parseTimeZone at h
  split at h
  · split at h
    · split at h
      · cases h; exact nil_ref _ _
      · cases h; exact add_ref ⟨_, rfl, by decide⟩ (nil_ref _ _)
    · cases h; exact nil_ref _ _
  · cases h; exact add_ref ⟨_, rfl, by decide⟩ (nil_ref _ _)

theorem ownRef_duration (L : Lib) : OwnRef (parseDuration L) := by
  intro v ref x es h
  unfold parseDuration at h
  split at h
  · split at h
    · cases h; exact nil_ref _ _
    · next m hm => cases h; exact add_ref (duration_message hm) (nil_ref _ _)
    · cases h; exact add_ref ⟨_, rfl, by decide⟩ (nil_ref _ _)
    · simp at h
  · cases h; exact add_ref ⟨_, rfl, by decide⟩ (nil_ref _ _)

theorem ownRef_reference (c : Str) (ids : List Str) : OwnRef (parseReference c ids) := by
  intro v ref x es h
  unfold parseReference at h
  split at h
  · split at h
    · cases h; exact nil_ref _ _
    · cases h; exact add_ref (by simp only [List.append_assoc]; exact ⟨_, rfl, by decide⟩) (nil_ref _ _)
  · cases h; exact add_ref ⟨_, rfl, by decide⟩ (nil_ref _ _)

/-- The references of the errors of a trace are exactly the faults. -/
def Reports (t : TraceFn) (F : Json → Str → Report → Prop) : Prop :=
  ∀ v ref o log, t v ref = .ok (o, log) → ∀ r, r ∈ refs log ↔ F v ref r

theorem leaf_reports {f : ParseFn} {R : Json → Val → Prop} (ho : OwnRef f) (hr : Realises (leaf f) R) :
    Reports (leaf f) fun v ref r => (¬ ∃ x, R v x) ∧ r = (ref, none) := by
  intro v ref o log h r
  have own : ∀ e ∈ log, report e = (ref, none) := by
    unfold leaf at h
    split at h
    · next hf =>
      simp only [Except.ok.injEq, Prod.mk.injEq] at h
      rw [← h.2]
      exact ho v ref _ _ hf
    · simp at h
  have hnil : log = [] ↔ ∃ x, R v x := by
    constructor
    · rintro rfl
      obtain ⟨x, _, hx⟩ := (hr v ref o).1 h
      exact ⟨x, hx⟩
    · rintro ⟨x, hx⟩
      have := (hr v ref (some x)).2 ⟨x, rfl, hx⟩
      rw [h] at this
      simp only [Except.ok.injEq, Prod.mk.injEq] at this
      exact this.2
  show r ∈ refs log ↔ (¬ ∃ x, R v x) ∧ r = (ref, none)
  rw [← hnil]
  unfold refs
  rw [List.mem_map]
  constructor
  · rintro ⟨e, he, rfl⟩
    exact ⟨fun hn => by rw [hn] at he; simp at he, own e he⟩
  · rintro ⟨hn, rfl⟩
    obtain ⟨e, he⟩ := List.exists_mem_of_ne_nil _ hn
    exact ⟨e, he, own e he⟩

/-! ## Aggregates -/

theorem items_reports {t : TraceFn} {F : Json → Str → Report → Prop} (h : Reports t F) (ref : Str) (i : Nat)
    (acc : List Val) (xs : List Json) (ys : List Val) (log : Log) (ht : tItems t ref i acc xs = .ok (ys, log))
    (r : Report) : r ∈ refs log ↔ ∃ j x, xs[j]? = some x ∧ F x (part ref (natStr (i + j))) r := by
  induction xs generalizing i acc log with
  | nil =>
    simp only [tItems, Except.ok.injEq, Prod.mk.injEq] at ht
    rw [← ht.2]
    simp [refs]
  | cons x xs ih =>
    obtain ⟨a, l, l', h1, h2, rfl⟩ := andThen_split ht
    rw [refs_append, List.mem_append, h _ _ _ _ h1, ih _ _ _ h2, sub_eq_part]
    constructor
    · rintro (hf | ⟨j, y, hy, hf⟩)
      · exact ⟨0, x, rfl, hf⟩
      · exact ⟨j + 1, y, by simpa using hy, by rw [← Nat.add_assoc, Nat.add_right_comm]; exact hf⟩
    · rintro ⟨j, y, hy, hf⟩
      cases j with
      | zero =>
        simp only [List.getElem?_cons_zero, Option.some.injEq] at hy
        subst hy
        exact .inl hf
      | succ j => exact .inr ⟨j, y, by simpa using hy, by rw [← Nat.add_assoc, Nat.add_right_comm] at hf; exact hf⟩

theorem size_iff (lo hi : Option Int) (n : Nat) :
    SizeWithin lo hi n ↔ lo.any (fun m => (n : Int) < m) = false ∧ hi.any (fun m => m < (n : Int)) = false := by
  constructor
  · rintro ⟨h1, h2⟩
    cases lo <;> cases hi <;> simp_all
  · rintro ⟨h1, h2⟩
    constructor
    · rintro m rfl; simpa using h1
    · rintro m rfl; simpa using h2

theorem array_reports {t : TraceFn} {F : Json → Str → Report → Prop} (h : Reports t F) (lo hi : Option Int) :
    Reports (tArray t lo hi) fun v ref r =>
      ((¬ ∃ xs, v = .arr xs ∧ SizeWithin lo hi xs.length) ∧ r = (ref, none)) ∨
      ∃ xs, v = .arr xs ∧ SizeWithin lo hi xs.length ∧
        ∃ i x, xs[i]? = some x ∧ F x (part ref (natStr i)) r := by
  intro v ref o log ht r
  unfold tArray at ht
  split at ht
  · next xs =>
    dsimp only at ht
    have key : SizeWithin lo hi xs.length ∨ ¬ SizeWithin lo hi xs.length := Classical.em _
    split at ht
    · next h1 =>
      cases ht
      have : ¬ SizeWithin lo hi xs.length := by rw [size_iff]; simp only [h1]; simp
      simp [refs, this]
      exact Iff.rfl
    · split at ht
      · next h1 h2 =>
        cases ht
        have : ¬ SizeWithin lo hi xs.length := by rw [size_iff]; simp only [h2]; simp
        simp [refs, this]
        exact Iff.rfl
      · next h1 h2 =>
        have hs : SizeWithin lo hi xs.length := by
          rw [size_iff]; exact ⟨by simpa using h1, by simpa using h2⟩
        obtain ⟨ys, h3, _⟩ := thenPure_split ht
        rw [items_reports h ref 0 [] xs ys log h3]
        simp only [Nat.zero_add, Json.arr.injEq]
        constructor
        · intro hh; exact .inr ⟨xs, rfl, hs, hh⟩
        · rintro (⟨hn, _⟩ | ⟨_, rfl, _, hh⟩)
          · exact absurd ⟨xs, rfl, hs⟩ hn
          · exact hh
  · next hne =>
    cases ht
    have : ¬ ∃ xs, v = .arr xs := by rintro ⟨xs, rfl⟩; exact hne xs rfl
    constructor
    · intro hr
      simp only [refs, List.map_cons, List.map_nil, List.mem_singleton] at hr
      exact .inl ⟨fun ⟨xs, hx, _⟩ => this ⟨xs, hx⟩, hr⟩
    · rintro (⟨_, rfl⟩ | ⟨xs, rfl, _⟩)
      · simp [refs]
      · exact absurd ⟨xs, rfl⟩ this

theorem entries_reports (L : Lib) {t : TraceFn} {F : Json → Str → Report → Prop} (h : Reports t F) (ref : Str)
    (acc : List (Str × Val)) (xs : List (Str × Json)) (ys : List (Str × Val)) (log : Log)
    (ht : tEntries L t ref acc xs = .ok (ys, log)) (r : Report) :
    r ∈ refs log ↔ ∃ kv ∈ xs, F kv.2 (part ref (L.repr kv.1)) r := by
  induction xs generalizing acc log with
  | nil =>
    simp only [tEntries, Except.ok.injEq, Prod.mk.injEq] at ht
    rw [← ht.2]
    simp [refs]
  | cons x xs ih =>
    obtain ⟨k, x⟩ := x
    obtain ⟨a, l, l', h1, h2, rfl⟩ := andThen_split ht
    rw [refs_append, List.mem_append, h _ _ _ _ h1, ih _ _ h2, sub_eq_part, exists_mem_cons]

theorem map_reports (L : Lib) {t : TraceFn} {F : Json → Str → Report → Prop} (h : Reports t F) :
    Reports (tMap L t) fun v ref r =>
      ((¬ ∃ o kvs, v = .obj o kvs) ∧ r = (ref, none)) ∨
      ∃ o kvs, v = .obj o kvs ∧ ∃ kv ∈ kvs, F kv.2 (part ref (L.repr kv.1)) r := by
  intro v ref o log ht r
  unfold tMap at ht
  split at ht
  · next o' kvs =>
    obtain ⟨ys, h3, _⟩ := thenPure_split ht
    rw [entries_reports L h ref [] kvs ys log h3]
    constructor
    · intro hh; exact .inr ⟨o', kvs, rfl, hh⟩
    · rintro (⟨hn, _⟩ | ⟨_, _, he, hh⟩)
      · exact absurd ⟨o', kvs, rfl⟩ hn
      · cases he; exact hh
  · next hne =>
    cases ht
    have : ¬ ∃ o kvs, v = .obj o kvs := by rintro ⟨o, kvs, rfl⟩; exact hne o kvs rfl
    constructor
    · intro hr
      simp only [refs, List.map_cons, List.map_nil, List.mem_singleton] at hr
      exact .inl ⟨this, hr⟩
    · rintro (⟨_, rfl⟩ | ⟨o, kvs, rfl, _⟩)
      · simp [refs]
      · exact absurd ⟨o, kvs, rfl⟩ this

theorem ty_reports (E : Env) (ids : Str → Str → Prop) (hids : ∀ c id, id ∈ E.ids c ↔ ids c id)
    {t : Str → Json → Str → Except (Exc × Log) (Val × Log)} {F : Str → Json → Str → Report → Prop}
    (h : ∀ name v ref x log, t name v ref = .ok (x, log) → ∀ r, r ∈ refs log ↔ F name v ref r) (ty : Ty) :
    Reports (tTy E t ty) (FaultTy E.lib E.settings ids F ty) := by
  induction ty with
  | array ty lo hi ih => exact array_reports ih lo hi
  | map ty ih => exact map_reports E.lib ih
  | embed name =>
    intro v ref o log ht r
    obtain ⟨x, hx, _⟩ := thenPure_split ht
    exact h name v ref x log hx r
  | boolean => exact leaf_reports ownRef_boolean leaf_boolean
  | integer b => exact leaf_reports (ownRef_integer _ _) (leaf_integer E.lib b)
  | float b => exact leaf_reports (ownRef_float _ _) (leaf_float E.lib b)
  | string p => exact leaf_reports (ownRef_matched _ _ _) (leaf_matched E.lib _ p)
  | path p => exact leaf_reports (ownRef_matched _ _ _) (leaf_matched E.lib _ p)
  | date f => exact leaf_reports (ownRef_dateTime _ _ _) (leaf_dateTime E.lib _ f)
  | time f => exact leaf_reports (ownRef_dateTime _ _ _) (leaf_dateTime E.lib _ f)
  | datetime f => exact leaf_reports (ownRef_dateTime _ _ _) (leaf_dateTime E.lib _ f)
  | timeZone => exact leaf_reports (ownRef_timeZone _ _) (leaf_timeZone E.lib E.settings)
  | duration => exact leaf_reports (ownRef_duration _) (leaf_duration E.lib)
  | cls c =>
    refine leaf_reports (ownRef_reference _ _) ?_
    intro v ref o
    refine (leaf_reference c (E.ids c) v ref o).trans ?_
    simp only [hids, ReadsTy]

/-! ## Composites -/

theorem property_missing {trace : Ty → TraceFn} {kvs : List (Str × Json)} (ref : Str) (p : Property)
    (attrs : Attrs) (hp : present kvs p.json = none) :
    tProperty trace kvs ref p attrs =
      if p.optional then .ok (attrs, []) else .ok (attrs, [⟨ref, c!"Property is missing: " ++ p.json⟩]) := by
  unfold present at hp
  unfold tProperty
  cases hl : kvs.lookup p.json with
  | none => rfl
  | some v => rw [hl] at hp; cases v <;> simp at hp ⊢

theorem property_present {trace : Ty → TraceFn} {kvs : List (Str × Json)} (ref : Str) (p : Property)
    (attrs : Attrs) {v : Json} (hp : present kvs p.json = some v) :
    tProperty trace kvs ref p attrs = thenPure (trace p.ty v (sub ref p.json)) fun x =>
      match x with
      | some x => setAttr (attr p) x attrs
      | none => attrs := by
  have hlk : kvs.lookup p.json = some v ∧ v ≠ .null := by
    unfold present at hp
    split at hp
    · simp at hp
    · next hne => exact ⟨hp, fun e => hne (by rw [hp, e])⟩
  unfold tProperty
  rw [hlk.1]
  cases v <;> first | rfl | exact absurd rfl hlk.2

theorem props_reports {trace : Ty → TraceFn} {F : Ty → Json → Str → Report → Prop}
    (h : ∀ ty, Reports (trace ty) (F ty)) (kvs : List (Str × Json)) (ref : Str) (ps : List Property)
    (attrs A : Attrs) (log : Log) (ht : tProps trace kvs ref ps attrs = .ok (A, log)) (r : Report) :
    r ∈ refs log ↔ FaultProps F kvs ps ref r := by
  unfold FaultProps
  induction ps generalizing attrs log with
  | nil =>
    simp only [tProps, Except.ok.injEq, Prod.mk.injEq] at ht
    rw [← ht.2]
    simp [refs]
  | cons p ps ih =>
    obtain ⟨a, l, l', h1, h2, rfl⟩ := andThen_split ht
    rw [refs_append, List.mem_append, ih _ _ h2, exists_mem_cons]
    refine or_congr ?_ Iff.rfl
    cases hp : present kvs p.json with
    | none =>
      rw [property_missing ref p attrs hp] at h1
      cases ho : p.optional with
      | true =>
        rw [ho] at h1
        cases h1
        simp [refs]
      | false =>
        rw [ho] at h1
        cases h1
        simp [refs]
        exact Iff.rfl
    | some v =>
      rw [property_present ref p attrs hp] at h1
      obtain ⟨x, hx, _⟩ := thenPure_split h1
      rw [h _ _ _ _ _ hx, sub_eq_part]
      simp

theorem composite_reports {trace : Ty → TraceFn} {F : Ty → Json → Str → Report → Prop}
    (h : ∀ ty, Reports (trace ty) (F ty)) (ps : List Property) (v : Json) (ref : Str) (A : Attrs) (log : Log)
    (ht : tComposite trace ps v ref = .ok (A, log)) (r : Report) :
    r ∈ refs log ↔ FaultComposite F ps v ref r := by
  unfold FaultComposite
  unfold tComposite at ht
  split at ht
  · next o kvs =>
    rw [props_reports h kvs ref ps _ A log ht]
    constructor
    · intro hh; exact .inr ⟨o, kvs, rfl, hh⟩
    · rintro (⟨hn, _⟩ | ⟨_, _, he, hh⟩)
      · exact absurd ⟨o, kvs, rfl⟩ hn
      · cases he; exact hh
  · next hne =>
    cases ht
    have : ¬ ∃ o kvs, v = .obj o kvs := by rintro ⟨o, kvs, rfl⟩; exact hne o kvs rfl
    constructor
    · intro hr
      simp only [refs, List.map_cons, List.map_nil, List.mem_singleton] at hr
      exact .inl ⟨this, hr⟩
    · rintro (⟨_, rfl⟩ | ⟨o, kvs, rfl, _⟩)
      · simp [refs]
      · exact absurd ⟨o, kvs, rfl⟩ this

theorem embed_reports (E : Env) (ids : Str → Str → Prop) (hids : ∀ c id, id ∈ E.ids c ↔ ids c id) (n : Nat) :
    ∀ name v ref x log, tEmbed E n name v ref = .ok (x, log) →
      ∀ r, r ∈ refs log ↔ FaultEmbed E.lib E.settings E.graph ids n name v ref r := by
  induction n with
  | zero => intro name v ref x log h; simp [tEmbed] at h
  | succ n ih =>
    intro name v ref x log h r
    simp only [tEmbed] at h
    simp only [FaultEmbed]
    split at h
    · simp at h
    · next e he =>
      obtain ⟨A, hA, _⟩ := thenPure_split h
      rw [composite_reports (ty_reports E ids hids ih) _ _ _ _ _ hA]
      constructor
      · intro hh; exact ⟨e, he, hh⟩
      · rintro ⟨e', he', hh⟩
        rw [he] at he'
        cases he'
        exact hh

/-! ## The graph -/

theorem instances_reports (L : Lib) {trace : Ty → TraceFn} {F : Ty → Json → Str → Report → Prop}
    (h : ∀ ty, Reports (trace ty) (F ty)) (c : Class) (ref : Str) (ids : List Str)
    (entries : List (Str × Json)) (acc A : List (Str × Instance)) (log : Log)
    (ht : tInstances L trace c ref ids entries acc = .ok (A, log)) (r : Report) :
    r ∈ refs log ↔ ∃ e ∈ entries, FaultComposite F c.properties e.2
      (part (part ref (Mapry.lower c.plural)) (L.repr e.1)) r := by
  induction entries generalizing acc log with
  | nil =>
    simp only [tInstances, Except.ok.injEq, Prod.mk.injEq] at ht
    rw [← ht.2]
    simp [refs]
  | cons e entries ih =>
    obtain ⟨k, x⟩ := e
    simp only [tInstances] at ht
    split at ht
    · obtain ⟨a, l, l', h1, h2, rfl⟩ := andThen_split ht
      rw [refs_append, List.mem_append, composite_reports h _ _ _ _ _ h1, ih _ _ h2, exists_mem_cons,
        sub_eq_part, sub_eq_part]
      rfl
    · simp at ht

theorem registries_reports (L : Lib) {trace : Ty → TraceFn} {F : Ty → Json → Str → Report → Prop}
    (h : ∀ ty, Reports (trace ty) (F ty)) (kvs : List (Str × Json)) (ref : Str)
    (pre : List (Str × Bool × List Str)) (cs : List Class) (acc A : List (Str × Registry)) (log : Log)
    (ht : tRegistries L trace kvs ref pre cs acc = .ok (A, log)) (r : Report) :
    r ∈ refs log ↔ ∃ c ∈ cs, ∃ o entries, registryOf kvs c = some (.obj o entries) ∧ ∃ e ∈ entries,
      FaultComposite F c.properties e.2 (part (part ref (Mapry.lower c.plural)) (L.repr e.1)) r := by
  induction cs generalizing acc log with
  | nil =>
    simp only [tRegistries, Except.ok.injEq, Prod.mk.injEq] at ht
    rw [← ht.2]
    simp [refs]
  | cons c cs ih =>
    obtain ⟨a, l, l', h1, h2, rfl⟩ := andThen_split ht
    rw [refs_append, List.mem_append, ih _ _ h2, exists_mem_cons]
    refine or_congr ?_ Iff.rfl
    unfold tRegistry registryKey at h1
    unfold registryOf
    split at h1
    · next hl =>
      cases h1
      simp [refs, hl]
    · next o entries hl =>
      obtain ⟨is, his, _⟩ := thenPure_split h1
      rw [instances_reports L h c ref _ entries _ _ _ his, hl]
      constructor
      · intro hh; exact ⟨o, entries, rfl, hh⟩
      · rintro ⟨_, _, he, hh⟩
        cases he; exact hh
    · simp at h1

theorem idErrors_refs (L : Lib) (c : Class) (ref : Str) (ids : List Str) (r : Report) :
    r ∈ refs (idErrors L c ref ids) ↔ r = (part ref (Mapry.lower c.plural), none) ∧
      ∃ id ∈ ids, ¬ Matches L c.idPattern id := by
  unfold idErrors refs Matches registryKey
  cases c.idPattern with
  | none => simp
  | some p =>
    simp only [List.map_map, List.mem_map, List.mem_filter, Function.comp, Option.some.injEq,
      forall_eq', Bool.not_eq_true', ← sub_eq_part, Bool.not_eq_true]
    constructor
    · rintro ⟨id, hid, rfl⟩; exact ⟨rfl, id, hid⟩
    · rintro ⟨rfl, id, hid⟩; exact ⟨id, hid, rfl⟩

theorem preErrors_refs (L : Lib) (g : Graph) (kvs : List (Str × Json)) (ref : Str) (r : Report) :
    r ∈ refs (preErrors L kvs ref g.classes) ↔ RegistryFault L g kvs ref r := by
  unfold preErrors RegistryFault
  have hm : r ∈ refs (g.classes.flatMap fun c => (tPrealloc L kvs ref c).2) ↔
      ∃ c ∈ g.classes, r ∈ refs (tPrealloc L kvs ref c).2 := by
    unfold refs
    simp only [List.mem_map, List.mem_flatMap]
    constructor
    · rintro ⟨e, ⟨c, hc, he⟩, rfl⟩; exact ⟨c, hc, e, he, rfl⟩
    · rintro ⟨c, hc, e, he, rfl⟩; exact ⟨e, ⟨c, hc, he⟩, rfl⟩
  rw [hm]
  refine exists_congr fun c => and_congr Iff.rfl ?_
  unfold tPrealloc present registryKey
  cases hl : kvs.lookup (Mapry.lower c.plural) with
  | none => simp [refs]
  | some v =>
    cases v with
    | null => simp [refs]
    | obj o ids =>
      simp only [idErrors_refs, List.mem_map]
      constructor
      · rintro ⟨rfl, _, ⟨e, he, rfl⟩, hm⟩
        exact ⟨rfl, _, rfl, .inr ⟨o, ids, rfl, e, he, hm⟩⟩
      · rintro ⟨rfl, w, hw, hn⟩
        simp only [Option.some.injEq] at hw
        subst hw
        rcases hn with hn | ⟨o', ids', he, e, hm, hn⟩
        · exact absurd ⟨o, ids, rfl⟩ hn
        · cases he
          exact ⟨rfl, _, ⟨e, hm, rfl⟩, hn⟩
    | _ => simp [refs, sub_eq_part]

theorem refs_nil {log : Log} : log = [] ↔ ∀ r, r ∉ refs log := by
  constructor
  · rintro rfl; simp [refs]
  · intro h
    cases log with
    | nil => rfl
    | cons e log => exact absurd (List.mem_cons_self ..) (h (report e))

/-- The errors recorded without a cap are exactly the faults. -/
theorem graph_reports (L : Lib) (S : Settings) (g : Graph) (hn : (g.classes.map (·.name)).Nodup) (n : Nat)
    (v : Json) (ref : Str) (o : Option GraphVal) (log : Log) (ht : tGraph L S g n v ref = .ok (o, log))
    (r : Report) : r ∈ refs log ↔ FaultGraph L S g n v ref r := by
  unfold FaultGraph
  unfold tGraph at ht
  split at ht
  · next o' kvs =>
    have hpre := preErrors_refs L g kvs ref
    dsimp only at ht
    split at ht
    · next hne =>
      cases ht
      rw [hpre]
      constructor
      · intro hh; exact .inr ⟨o', kvs, rfl, .inl hh⟩
      · rintro (⟨hx, _⟩ | ⟨_, _, he, hh | ⟨hno, _⟩⟩)
        · exact absurd ⟨o', kvs, rfl⟩ hx
        · cases he; exact hh
        · cases he
          exact absurd (refs_nil.2 fun r hr => hno r ((hpre r).1 hr)) hne
    · next hnil =>
      have hnil : preErrors L kvs ref g.classes = [] := Classical.not_not.1 hnil
      have hno : ∀ r', ¬ RegistryFault L g kvs ref r' := fun r' hr' =>
        refs_nil.1 hnil r' ((hpre r').2 hr')
      split at ht
      · simp at ht
      · next gv log' hb =>
        simp only [Except.ok.injEq, Prod.mk.injEq] at ht
        obtain ⟨_, rfl⟩ := ht
        have : r ∈ refs log' ↔ ContentFault L S g n kvs ref r := by
          unfold tBody at hb
          unfold ContentFault
          obtain ⟨regs, l, l', h1, h2, rfl⟩ := andThen_split hb
          obtain ⟨A, hA, _⟩ := thenPure_split h2
          have hids := ids_iff L S g hn kvs ref
          have hrep := ty_reports (envOf L S g (allocated L kvs ref g.classes)) (Described g kvs) hids
            (embed_reports _ (Described g kvs) hids n)
          rw [refs_append, List.mem_append, registries_reports L hrep kvs ref _ g.classes _ _ _ h1,
            props_reports hrep kvs ref g.properties _ _ _ hA]
          rfl
        rw [this]
        constructor
        · intro hh; exact .inr ⟨o', kvs, rfl, .inr ⟨hno, hh⟩⟩
        · rintro (⟨hx, _⟩ | ⟨_, _, he, hh | ⟨_, hh⟩⟩)
          · exact absurd ⟨o', kvs, rfl⟩ hx
          · cases he; exact absurd hh (hno r)
          · cases he; exact hh
  · next hne =>
    cases ht
    have : ¬ ∃ o kvs, v = .obj o kvs := by rintro ⟨o, kvs, rfl⟩; exact hne o kvs rfl
    constructor
    · intro hr
      simp only [refs, List.map_cons, List.map_nil, List.mem_singleton] at hr
      exact .inl ⟨this, hr⟩
    · rintro (⟨_, rfl⟩ | ⟨o, kvs, rfl, _⟩)
      · simp [refs]
      · exact absurd ⟨o, kvs, rfl⟩ this

/-! ## Traces which do not raise -/

/-- The trace ends without an exception. -/
def Calm {α : Type} (t : Except (Exc × Log) (α × Log)) : Prop := ∃ a log, t = .ok (a, log)

theorem calm_andThen {α β : Type} {t : Except (Exc × Log) (α × Log)} {f : α → Except (Exc × Log) (β × Log)}
    (h : Calm t) (hf : ∀ a, Calm (f a)) : Calm (andThen t f) := by
  obtain ⟨a, l, rfl⟩ := h
  obtain ⟨b, l', hb⟩ := hf a
  exact ⟨b, l ++ l', by unfold andThen; simp [hb]⟩

theorem calm_thenPure {α β : Type} {t : Except (Exc × Log) (α × Log)} {f : α → β} (h : Calm t) :
    Calm (thenPure t f) := by
  obtain ⟨a, l, rfl⟩ := h
  exact ⟨f a, l, rfl⟩

theorem calm_leaf {f : ParseFn} {v : Json} {ref : Str} (h : ∃ r, f v ref ⟨2, []⟩ = .ok r) :
    Calm (leaf f v ref) := by
  obtain ⟨⟨x, es⟩, h⟩ := h
  exact ⟨x, es.values, by unfold leaf; rw [h]⟩

theorem literalPart_noBraces {s : Str} (h : NoBraces s) : literalPart s = some s := by
  induction s with
  | nil => rfl
  | cons c s ih =>
    obtain ⟨h1, h2⟩ := h
    simp only [List.mem_cons, not_or] at h1 h2
    rw [literalPart_cons (Ne.symm h1.1) (Ne.symm h2.1), ih ⟨h1.2, h2.2⟩]
    rfl

theorem gotMessage_calm {pre s got : Str} (hp : NoBraces pre) (h : NoBraces s) :
    ∃ m, gotMessage (pre ++ s) got = .ok m := by
  have : NoBraces (pre ++ s) :=
    ⟨by simp only [List.mem_append, not_or]; exact ⟨hp.1, h.1⟩,
     by simp only [List.mem_append, not_or]; exact ⟨hp.2, h.2⟩⟩
  unfold gotMessage
  rw [literalPart_noBraces this]
  exact ⟨_, rfl⟩

theorem toFloat_calm {v : Json} {n : Num} (hv : FloatInts v) (h : v.num? = some n) :
    ∃ f, n.toFloat = .ok f := by
  cases v with
  | float f => simp only [Json.num?, Option.some.injEq] at h; subst h; exact ⟨f, rfl⟩
  | bool b =>
    simp only [Json.num?, Json.int?, Option.some.injEq] at h
    subst h
    unfold Num.toFloat
    dsimp only
    have hr : F64.round (((if b then 1 else 0 : Int)) : Rat) = .fin ((if b then 1 else 0 : Int) : Rat) :=
      round_int_exact _ (by cases b <;> decide)
    rw [hr]
    exact ⟨_, rfl⟩
  | int i =>
    simp only [Json.num?, Json.int?, Option.some.injEq] at h
    subst h
    obtain ⟨q, hq⟩ := hv i (.here _)
    unfold Num.toFloat
    dsimp only
    rw [hq]
    exact ⟨_, rfl⟩
  | _ => simp [Json.num?, Json.int?] at h

theorem float_calm (L : Lib) (b : Bounds) {v : Json} (hv : FloatInts v) (ref : Str) (es : Errors) :
    ∃ r, parseFloat L b v ref es = .ok r := by
  unfold parseFloat
  split
  · exact ⟨_, rfl⟩
  · next n hn =>
    obtain ⟨f, hf⟩ := toFloat_calm hv hn
    dsimp only
    split
    · rw [hf]; exact ⟨_, rfl⟩
    · exact ⟨_, rfl⟩

theorem matched_calm (L : Lib) (set : Str → Val) {p : Option Str} (hp : ∀ s, p = some s → NoBraces s)
    (v : Json) (ref : Str) (es : Errors) : ∃ r, parseMatched L set p v ref es = .ok r := by
  unfold parseMatched
  split
  · split
    · exact ⟨_, rfl⟩
    · next p =>
      split
      · exact ⟨_, rfl⟩
      · obtain ⟨m, hm⟩ := gotMessage_calm (pre := c!"Expected to match ") (got := _) ⟨by decide, by decide⟩ (hp p rfl)
        rw [hm]
        exact ⟨_, rfl⟩
  · exact ⟨_, rfl⟩

theorem dateTime_calm {L : Lib} (hL : TameLib L) (set : DateTime → Val) {f : Str} (hf : NoBraces f)
    (v : Json) (ref : Str) (es : Errors) : ∃ r, parseDateTime L set f v ref es = .ok r := by
  unfold parseDateTime
  split
  · split
    · exact ⟨_, rfl⟩
    · obtain ⟨m, hm⟩ := gotMessage_calm (pre := c!"Expected to strptime ") (got := _) ⟨by decide, by decide⟩ hf
      rw [hm]
      exact ⟨_, rfl⟩
    · next s x hne hx =>
      obtain ⟨m, hm⟩ := hL _ _ _ hx
      exact absurd hm (hne m)
  · exact ⟨_, rfl⟩

theorem timeZone_calm (L : Lib) (S : Settings) (v : Json) (ref : Str) (es : Errors) :
    ∃ r, parseTimeZone L S v ref es = .ok r := by
  unfold parseTimeZone
  split
  · split
    · split <;> exact ⟨_, rfl⟩
    · exact ⟨_, rfl⟩
  · exact ⟨_, rfl⟩

theorem duration_calm (L : Lib) (v : Json) (ref : Str) (es : Errors) :
    ∃ r, parseDuration L v ref es = .ok r := by
  unfold parseDuration
  split
  · next s =>
    rcases (Props.C14_accepts_partial s).2 with ⟨d, hd⟩ | hd | ⟨m, hd⟩ <;> rw [hd] <;> exact ⟨_, rfl⟩
  · exact ⟨_, rfl⟩

theorem reference_calm (c : Str) (ids : List Str) (v : Json) (ref : Str) (es : Errors) :
    ∃ r, parseReference c ids v ref es = .ok r := by
  unfold parseReference
  split
  · split <;> exact ⟨_, rfl⟩
  · exact ⟨_, rfl⟩

theorem boolean_calm (v : Json) (ref : Str) (es : Errors) : ∃ r, parseBoolean v ref es = .ok r := by
  unfold parseBoolean
  split <;> exact ⟨_, rfl⟩

theorem integer_calm (L : Lib) (b : Bounds) (v : Json) (ref : Str) (es : Errors) :
    ∃ r, parseInteger L b v ref es = .ok r := by
  unfold parseInteger
  split <;> exact ⟨_, rfl⟩

/-- At most `n` nested objects, and all the integers fit into a float -/
structure Mild (n : Nat) (v : Json) : Prop where
  depth : DepthLe n v
  ints : FloatInts v

theorem Mild.item {n : Nat} {xs : List Json} (h : Mild n (.arr xs)) : ∀ x ∈ xs, Mild n x := by
  intro x hx
  obtain ⟨hd, hi⟩ := h
  cases hd with
  | arr _ _ hd => exact ⟨hd x hx, fun i hi' => hi i (.item hx hi')⟩

theorem Mild.entry {n : Nat} {o : Bool} {kvs : List (Str × Json)} (h : Mild n (.obj o kvs)) :
    ∃ m, n = m + 1 ∧ ∀ kv ∈ kvs, Mild m kv.2 := by
  obtain ⟨hd, hi⟩ := h
  cases hd with
  | obj m _ _ hd => exact ⟨m, rfl, fun kv hkv => ⟨hd kv hkv, fun i hi' => hi i (.entry (k := kv.1) hkv hi')⟩⟩

theorem items_calm {t : TraceFn} (ref : Str) (xs : List Json) (h : ∀ x ∈ xs, ∀ ref, Calm (t x ref)) (i : Nat)
    (acc : List Val) : Calm (tItems t ref i acc xs) := by
  induction xs generalizing i acc with
  | nil => exact ⟨_, _, rfl⟩
  | cons x xs ih =>
    exact calm_andThen (h x (List.mem_cons_self ..) _)
      fun a => ih (fun y hy => h y (List.mem_cons_of_mem _ hy)) _ _

theorem entries_calm (L : Lib) {t : TraceFn} (ref : Str) (xs : List (Str × Json))
    (h : ∀ x ∈ xs, ∀ ref, Calm (t x.2 ref)) (acc : List (Str × Val)) : Calm (tEntries L t ref acc xs) := by
  induction xs generalizing acc with
  | nil => exact ⟨_, _, rfl⟩
  | cons x xs ih =>
    exact calm_andThen (h x (List.mem_cons_self ..) _)
      fun a => ih (fun y hy => h y (List.mem_cons_of_mem _ hy)) _

theorem ty_calm {E : Env} (hL : TameLib E.lib) {t : Str → Json → Str → Except (Exc × Log) (Val × Log)}
    (fuel : Nat) (h : ∀ name e, E.graph.embed? name = some e → ∀ n v, n < fuel → Mild n v → ∀ ref, Calm (t name v ref))
    (ty : Ty) (hty : TameTy E.graph ty) : ∀ n v, n < fuel → Mild n v → ∀ ref, Calm (tTy E t ty v ref) := by
  induction ty with
  | array ty lo hi ih =>
    intro n v hn hv ref
    show Calm (tArray _ lo hi v ref)
    unfold tArray
    split
    · dsimp only
      split
      · exact ⟨_, _, rfl⟩
      · split
        · exact ⟨_, _, rfl⟩
        · exact calm_thenPure (items_calm _ _ (fun x hx => ih hty n x hn (hv.item x hx)) _ _)
    · exact ⟨_, _, rfl⟩
  | map ty ih =>
    intro n v hn hv ref
    show Calm (tMap E.lib _ v ref)
    unfold tMap
    split
    · obtain ⟨m, rfl, hm⟩ := hv.entry
      exact calm_thenPure (entries_calm _ _ _ (fun x hx => ih hty m x.2 (by omega) (hm x hx)) _)
    · exact ⟨_, _, rfl⟩
  | embed name =>
    intro n v hn hv ref
    obtain ⟨e, he⟩ := hty
    exact calm_thenPure (h name e he n v hn hv ref)
  | boolean => intro n v _ _ ref; exact calm_leaf (boolean_calm _ _ _)
  | integer b => intro n v _ _ ref; exact calm_leaf (integer_calm _ _ _ _ _)
  | float b => intro n v _ hv ref; exact calm_leaf (float_calm _ _ hv.ints _ _)
  | string p => intro n v _ _ ref; exact calm_leaf (matched_calm _ _ hty _ _ _)
  | path p => intro n v _ _ ref; exact calm_leaf (matched_calm _ _ hty _ _ _)
  | date f => intro n v _ _ ref; exact calm_leaf (dateTime_calm hL _ hty _ _ _)
  | time f => intro n v _ _ ref; exact calm_leaf (dateTime_calm hL _ hty _ _ _)
  | datetime f => intro n v _ _ ref; exact calm_leaf (dateTime_calm hL _ hty _ _ _)
  | timeZone => intro n v _ _ ref; exact calm_leaf (timeZone_calm _ _ _ _ _)
  | duration => intro n v _ _ ref; exact calm_leaf (duration_calm _ _ _ _)
  | cls c => intro n v _ _ ref; exact calm_leaf (reference_calm _ _ _ _ _)

theorem lookup_mem {β : Type} {k : Str} {v : β} {kvs : List (Str × β)} (h : kvs.lookup k = some v) :
    ∃ k', (k', v) ∈ kvs := by
  induction kvs with
  | nil => simp at h
  | cons kv kvs ih =>
    obtain ⟨k', v'⟩ := kv
    rw [List.lookup_cons] at h
    split at h
    · simp only [Option.some.injEq] at h; subst h; exact ⟨k', List.mem_cons_self ..⟩
    · obtain ⟨k'', h⟩ := ih h; exact ⟨k'', List.mem_cons_of_mem _ h⟩

theorem present_mem {k : Str} {v : Json} {kvs : List (Str × Json)} (h : present kvs k = some v) :
    ∃ k', (k', v) ∈ kvs := by
  unfold present at h
  split at h
  · simp at h
  · exact lookup_mem h

theorem props_calm {trace : Ty → TraceFn} (kvs : List (Str × Json)) (ref : Str) (ps : List Property)
    (h : ∀ p ∈ ps, ∀ kv ∈ kvs, ∀ ref, Calm (trace p.ty kv.2 ref)) (attrs : Attrs) :
    Calm (tProps trace kvs ref ps attrs) := by
  induction ps generalizing attrs with
  | nil => exact ⟨_, _, rfl⟩
  | cons p ps ih =>
    refine calm_andThen ?_ fun a => ih (fun q hq => h q (List.mem_cons_of_mem _ hq)) a
    cases hp : present kvs p.json with
    | none =>
      rw [property_missing ref p attrs hp]
      split <;> exact ⟨_, _, rfl⟩
    | some v =>
      rw [property_present ref p attrs hp]
      obtain ⟨k, hk⟩ := present_mem hp
      exact calm_thenPure (h p (List.mem_cons_self ..) _ hk _)

theorem composite_calm {trace : Ty → TraceFn} (fuel : Nat) (ps : List Property)
    (h : ∀ p ∈ ps, ∀ n v, n < fuel → Mild n v → ∀ ref, Calm (trace p.ty v ref)) (n : Nat) (v : Json)
    (hn : n < fuel + 1) (hv : Mild n v) (ref : Str) : Calm (tComposite trace ps v ref) := by
  unfold tComposite
  split
  · obtain ⟨m, rfl, hm⟩ := hv.entry
    exact props_calm _ _ _ (fun p hp kv hkv ref => h p hp m kv.2 (by omega) (hm kv hkv) ref) _
  · exact ⟨_, _, rfl⟩

theorem embed?_mem {g : Graph} {name : Str} {e : Embed} (h : g.embed? name = some e) : e ∈ g.embeds :=
  List.mem_of_find?_eq_some h

theorem embed_calm {E : Env} (hL : TameLib E.lib) (hg : TameGraph E.graph) (fuel : Nat) :
    ∀ name e, E.graph.embed? name = some e → ∀ n v, n < fuel → Mild n v → ∀ ref,
      Calm (tEmbed E fuel name v ref) := by
  induction fuel with
  | zero => intro name e _ n v hn; omega
  | succ fuel ih =>
    intro name e he n v hn hv ref
    simp only [tEmbed, he]
    exact calm_thenPure (composite_calm fuel _
      (fun p hp => ty_calm hL fuel ih p.ty (hg.embed e (embed?_mem he) p hp)) n v hn hv ref)

theorem instances_calm (L : Lib) {trace : Ty → TraceFn} (c : Class) (ref : Str) (ids : List Str)
    (entries : List (Str × Json)) (hids : ∀ e ∈ entries, e.1 ∈ ids)
    (h : ∀ e ∈ entries, ∀ ref, Calm (tComposite trace c.properties e.2 ref)) (acc : List (Str × Instance)) :
    Calm (tInstances L trace c ref ids entries acc) := by
  induction entries generalizing acc with
  | nil => exact ⟨_, _, rfl⟩
  | cons e entries ih =>
    obtain ⟨id, v⟩ := e
    simp only [tInstances, if_pos (hids _ (List.mem_cons_self ..))]
    exact calm_andThen (h _ (List.mem_cons_self ..) _) fun a =>
      ih (fun e he => hids e (List.mem_cons_of_mem _ he)) (fun e he => h e (List.mem_cons_of_mem _ he)) _

theorem registries_calm (L : Lib) {trace : Ty → TraceFn} (kvs : List (Str × Json)) (ref : Str)
    (pre : List (Str × Bool × List Str)) (cs : List Class)
    (h : ∀ c ∈ cs, Calm (tRegistry L trace kvs ref c ((pre.lookup c.name).getD (true, []))))
    (acc : List (Str × Registry)) : Calm (tRegistries L trace kvs ref pre cs acc) := by
  induction cs generalizing acc with
  | nil => exact ⟨_, _, rfl⟩
  | cons c cs ih =>
    exact calm_andThen (h c (List.mem_cons_self ..)) fun a => ih (fun d hd => h d (List.mem_cons_of_mem _ hd)) _

/-- The trace of the graph ends without an exception if nothing in the schema or the input provokes one. -/
theorem graph_calm {L : Lib} (S : Settings) {g : Graph} (hL : TameLib L) (hg : TameGraph g)
    (hn : (g.classes.map (·.name)).Nodup) (fuel : Nat) (v : Json) (hv : Mild fuel v)
    (hnull : ∀ o kvs, v = .obj o kvs → ∀ c ∈ g.classes, registryOf kvs c ≠ some .null) (ref : Str) :
    Calm (tGraph L S g fuel v ref) := by
  unfold tGraph
  split
  · next o kvs =>
    dsimp only
    split
    · exact ⟨_, _, rfl⟩
    · next hnil =>
      have hnil : preErrors L kvs ref g.classes = [] := Classical.not_not.1 hnil
      obtain ⟨m, rfl, hm⟩ := hv.entry
      have hty : ∀ t, TameTy g t → ∀ n v, n < m + 1 → Mild n v → ∀ r,
          Calm (tTy (envOf L S g (allocated L kvs ref g.classes))
            (tEmbed (envOf L S g (allocated L kvs ref g.classes)) (m + 1)) t v r) :=
        fun t ht => ty_calm (E := envOf L S g (allocated L kvs ref g.classes)) hL (m + 1)
          (embed_calm (E := envOf L S g (allocated L kvs ref g.classes)) hL hg (m + 1)) t ht
      have hbody : Calm (tBody L S g (m + 1) kvs ref) := by
        refine calm_andThen (registries_calm L kvs ref _ _ ?_ _) fun regs => calm_thenPure
          (props_calm _ _ _ (fun p hp kv hkv => hty p.ty (hg.graph p hp) m kv.2 (by omega) (hm kv hkv)) _)
        intro c hc
        have hnone : ∀ w, present kvs (Mapry.lower c.plural) = some w → ∃ o entries, w = .obj o entries := by
          intro w hw
          refine Classical.byContradiction fun hno => ?_
          exact refs_nil.1 hnil _ ((preErrors_refs L g kvs ref _).2 ⟨c, hc, rfl, w, hw, .inl hno⟩)
        have hnot := hnull o kvs rfl c hc
        have hids := ids_iff L S g hn kvs ref c.name
        unfold tRegistry registryKey
        unfold registryOf at hnot
        split
        · exact ⟨_, _, rfl⟩
        · next o' entries hl =>
          refine calm_thenPure (instances_calm L c ref _ entries ?_ ?_ _)
          · intro e he
            have := (hids e.1).2 ⟨c, hc, rfl, o', entries, hl, List.mem_map_of_mem he⟩
            unfold envOf at this
            dsimp only at this
            cases hlk : (allocated L kvs ref g.classes).lookup c.name with
            | none => rw [hlk] at this; simp at this
            | some pr => rw [hlk] at this; exact this
          · intro e he r
            obtain ⟨k, hk⟩ := lookup_mem hl
            obtain ⟨m', rfl, hm'⟩ := (hm _ hk).entry
            exact composite_calm (m' + 1 + 1) _ (fun p hp => hty p.ty (hg.cls c hc p hp)) m' e.2 (by omega)
              (hm' e he) r
        · next w hw hl =>
          have hp : present kvs (Mapry.lower c.plural) = some w := by
            unfold present
            rw [hl]
            cases w <;> first | rfl | exact absurd hl hnot
          obtain ⟨o', entries, rfl⟩ := hnone w hp
          exact absurd rfl (hw o' entries)
      obtain ⟨gv, log, hb⟩ := hbody
      rw [hb]
      exact ⟨_, _, rfl⟩
  · exact ⟨_, _, rfl⟩

end Mapry.PyRuntime
