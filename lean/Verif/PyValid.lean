import Verif.PyReads

/-!
# What a JSON object describes satisfies the schema
-/

namespace Mapry.PyRuntime

open Mapry.Text Mapry.Duration Spec

theorem forall₂_length {α β : Type} {R : α → β → Prop} {l : List α} {m : List β}
    (h : Forall₂ R l m) : l.length = m.length := by
  induction h with
  | nil => rfl
  | cons _ _ ih => simp [ih]

/-- Every element on the right belongs to one on the left. -/
theorem forall₂_right {α β : Type} {R : α → β → Prop} {l : List α} {m : List β}
    (h : Forall₂ R l m) : ∀ b ∈ m, ∃ a ∈ l, R a b := by
  induction h with
  | nil => simp
  | cons hh _ ih =>
    intro b hb
    rcases List.mem_cons.1 hb with rfl | hb
    · exact ⟨_, List.mem_cons_self .., hh⟩
    · obtain ⟨a, ha, hr⟩ := ih b hb
      exact ⟨a, List.mem_cons_of_mem _ ha, hr⟩

theorem forall₂_left {α β : Type} {R : α → β → Prop} {l : List α} {m : List β}
    (h : Forall₂ R l m) : ∀ a ∈ l, ∃ b ∈ m, R a b := by
  induction h with
  | nil => simp
  | cons hh _ ih =>
    intro b hb
    rcases List.mem_cons.1 hb with rfl | hb
    · exact ⟨_, List.mem_cons_self .., hh⟩
    · obtain ⟨a, ha, hr⟩ := ih b hb
      exact ⟨a, List.mem_cons_of_mem _ ha, hr⟩

theorem Forall₂.imp_mem {α β : Type} {R Q : α → β → Prop} {l : List α} {m : List β}
    (h : ∀ a b, a ∈ l → b ∈ m → R a b → Q a b) (hf : Forall₂ R l m) : Forall₂ Q l m := by
  induction hf with
  | nil => exact .nil
  | cons hh _ ih =>
    exact .cons (h _ _ (List.mem_cons_self ..) (List.mem_cons_self ..) hh)
      (ih fun a b ha hb => h a b (List.mem_cons_of_mem _ ha) (List.mem_cons_of_mem _ hb))

theorem checkTd_ok {u : Int} {d : Timedelta} (h : checkTd u = .ok d) : Timedelta.InRange d := by
  unfold checkTd at h
  split at h
  · next hr => cases h; exact hr
  · simp at h

theorem pyFromString_inRange {s : Str} {d : Timedelta} (h : pyFromString s = .ok d) :
    Timedelta.InRange d := by
  unfold pyFromString at h
  split at h
  · simp at h
  · unfold pyValue at h
    simp only [bind, Except.bind] at h
    split at h
    · simp at h
    · split at h
      · simp at h
      · exact checkTd_ok h

theorem round_int_exact (i : Int) (h : i.natAbs ≤ 2 ^ 53) : F64.round (i : Rat) = .fin (i : Rat) := by
  obtain ⟨n, rfl | rfl⟩ := i.eq_nat_or_neg
  · exact F64.round_natCast n (by simpa using h)
  · by_cases h0 : n = 0
    · subst h0; exact F64.round_zero
    · have hn : n ≤ 2 ^ 53 := by simpa using h
      have hr := roundPos_nat n 0 hn (by omega) (by omega)
      have hnum : ((-(n : Int) : Int) : Rat).num = -(n : Int) := Rat.num_intCast _
      have hden : ((-(n : Int) : Int) : Rat).den = 1 := Rat.den_intCast _
      unfold F64.round
      rw [hnum, hden, if_neg (by omega), if_neg (by omega)]
      simp only [Int.natAbs_neg, Int.natAbs_natCast]
      simp only [Nat.pow_zero, Nat.mul_one] at hr
      rw [hr]
      simp only [F64.neg, Rat.intCast_neg]
      rfl

theorem occurs_trans {a b c : Json} (h : Occurs a b) (h' : Occurs b c) : Occurs a c := by
  induction h' with
  | here => exact h
  | item hx _ ih => exact .item hx ih
  | entry hx _ ih => exact .entry hx ih

theorem occurs_iff (w v : Json) : Occurs w v ↔ w = v ∨ match v with
    | .arr xs => ∃ x ∈ xs, Occurs w x
    | .obj _ kvs => ∃ kv ∈ kvs, Occurs w kv.2
    | _ => False := by
  constructor
  · intro h
    cases h with
    | here => exact .inl rfl
    | item hx h => exact .inr ⟨_, hx, h⟩
    | entry hx h => exact .inr ⟨_, hx, h⟩
  · rintro (rfl | h)
    · exact .here _
    · split at h
      · obtain ⟨x, hx, h⟩ := h; exact .item hx h
      · obtain ⟨kv, hx, h⟩ := h; exact .entry hx h
      · exact h.elim

theorem occurs_arr (w : Json) (xs : List Json) :
    Occurs w (.arr xs) ↔ w = .arr xs ∨ ∃ x ∈ xs, Occurs w x := occurs_iff w (.arr xs)
theorem occurs_obj (w : Json) (o : Bool) (kvs : List (Str × Json)) :
    Occurs w (.obj o kvs) ↔ w = .obj o kvs ∨ ∃ kv ∈ kvs, Occurs w kv.2 := occurs_iff w (.obj o kvs)
theorem occurs_str (w : Json) (s : Str) : Occurs w (.str s) ↔ w = .str s := by simp [occurs_iff]
theorem occurs_int (w : Json) (s : Int) : Occurs w (.int s) ↔ w = .int s := by simp [occurs_iff]
theorem occurs_bool (w : Json) (s : Bool) : Occurs w (.bool s) ↔ w = .bool s := by simp [occurs_iff]
theorem occurs_float (w : Json) (s : F64) : Occurs w (.float s) ↔ w = .float s := by
  simp [occurs_iff]
theorem occurs_null (w : Json) : Occurs w .null ↔ w = .null := by simp [occurs_iff]

theorem smallInts_mono {v w : Json} (h : SmallInts v) (ho : Occurs w v) : SmallInts w :=
  fun i hi => h i (occurs_trans hi ho)

theorem mem_of_lookup {kvs : List (Str × Json)} {k : Str} {v : Json} (h : kvs.lookup k = some v) :
    (k, v) ∈ kvs := by
  induction kvs with
  | nil => simp at h
  | cons kv kvs ih =>
    obtain ⟨k', v'⟩ := kv
    by_cases hk : k' = k
    · subst hk
      simp only [List.lookup, beq_self_eq_true, Option.some.injEq] at h
      subst h
      exact List.mem_cons_self ..
    · have : (k == k') = false := beq_false_of_ne (fun e => hk e.symm)
      simp only [List.lookup, this] at h
      exact List.mem_cons_of_mem _ (ih h)

theorem present_some {kvs : List (Str × Json)} {k : Str} {v : Json} :
    present kvs k = some v ↔ kvs.lookup k = some v ∧ v ≠ .null := by
  unfold present
  constructor
  · intro hp
    split at hp
    · simp at hp
    · next hne => exact ⟨hp, fun e => hne (by rw [hp, e])⟩
  · rintro ⟨h, hn⟩
    rw [h]
    cases v <;> first | rfl | exact absurd rfl hn

section

variable {lax : Bool} {L : Lib} {S : Settings} {g : Graph} {ids registered : Str → Str → Prop}
  {rounded : Bool}

theorem fits_ty (hids : ∀ c id, ids c id → registered c id) {R : Str → Json → Val → Prop}
    {F : Str → Val → Prop}
    (h : ∀ name v x, (rounded = false → SmallInts v) → R name v x → F name x) (ty : Ty) (v : Json)
    (x : Val) (hs : rounded = false → SmallInts v) (hr : ReadsTy lax L S ids R ty v x) :
    FitsTy lax L S rounded registered F ty x := by
  induction ty generalizing v x with
  | boolean => obtain ⟨c, _, rfl⟩ := hr; exact ⟨c, rfl⟩
  | integer b =>
    obtain ⟨i, hi, hb⟩ := hr
    cases hi with
    | int i => exact .inl ⟨i, rfl, hb⟩
    | bool c hl => exact .inr ⟨hl, c, rfl, hb⟩
  | float b =>
    rcases hr with ⟨f, _, rfl, hf⟩ | ⟨w, i, q, hi, rfl, hb, hq⟩
    · exact ⟨f, rfl, .inl hf⟩
    · by_cases hsm : i.natAbs ≤ 2 ^ 53
      · have := round_int_exact i hsm
        rw [hq] at this
        cases this
        exact ⟨_, rfl, .inl hb⟩
      · cases hi with
        | int i =>
          cases hrd : rounded with
          | true => exact ⟨_, rfl, .inr ⟨rfl, i, Nat.lt_of_not_le hsm, hb, hq⟩⟩
          | false => exact absurd (hs hrd i (.here _)) hsm
        | bool c => cases c <;> simp [boolNum] at hsm
  | string p => obtain ⟨s, _, rfl, hm⟩ := hr; exact ⟨s, rfl, hm⟩
  | path p => obtain ⟨s, _, rfl, hm⟩ := hr; exact ⟨s, rfl, hm⟩
  | date f => obtain ⟨s, d, _, hd, rfl⟩ := hr; exact ⟨s, d, hd, rfl⟩
  | time f => obtain ⟨s, d, _, hd, rfl⟩ := hr; exact ⟨s, d, hd, rfl⟩
  | datetime f => obtain ⟨s, d, _, hd, rfl⟩ := hr; exact ⟨s, d, hd, rfl⟩
  | timeZone =>
    obtain ⟨s, _, hz⟩ := hr
    simp only [FitsTy]
    split at hz
    · next hp => rw [if_pos hp]; obtain ⟨z, hz, rfl⟩ := hz; exact ⟨s, z, hz, rfl⟩
    · next hp => rw [if_neg hp]; exact ⟨s, hz⟩
  | duration => obtain ⟨s, d, _, hd, rfl⟩ := hr; exact ⟨d, rfl, pyFromString_inRange hd⟩
  | array t lo hi ih =>
    obtain ⟨xs, vs, rfl, rfl, hsz, hf⟩ := hr
    refine ⟨vs, rfl, by rw [← forall₂_length hf]; exact hsz, ?_⟩
    intro y hy
    obtain ⟨w, hw, hwy⟩ := forall₂_right hf y hy
    exact ih w y (fun hh => smallInts_mono (hs hh) (.item hw (.here _))) hwy
  | map t ih =>
    obtain ⟨o, kvs, ws, rfl, rfl, hf⟩ := hr
    refine ⟨o, ws, rfl, ?_⟩
    intro y hy
    obtain ⟨w, hw, _, hwy⟩ := forall₂_right hf y hy
    exact ih w.2 y.2 (fun hh => smallInts_mono (hs hh) (.entry hw (.here _))) hwy
  | cls c => obtain ⟨id, _, rfl, hi⟩ := hr; exact ⟨id, rfl, hids c id hi⟩
  | embed name => exact h name v x hs hr

theorem fits_props {R : Ty → Json → Val → Prop} {F : Ty → Val → Prop} {kvs : List (Str × Json)} {o : Bool}
    (h : ∀ ty v x, (rounded = false → SmallInts v) → R ty v x → F ty x)
    (hs : rounded = false → SmallInts (.obj o kvs)) {ps : List Property} {attrs : Attrs}
    (hr : ReadsProps R kvs ps attrs) : FitsProps F ps attrs := by
  refine Forall₂.imp ?_ hr
  rintro p a ⟨ha, hp⟩
  refine ⟨ha, ?_⟩
  unfold ReadsProperty at hp
  split at hp
  · exact .inl hp
  · next v hv =>
    have := mem_of_lookup (present_some.1 hv).1
    exact .inr (h _ v _ (fun hh => smallInts_mono (hs hh) (.entry this (.here _))) hp)

theorem fits_embed (hids : ∀ c id, ids c id → registered c id) (n : Nat) (name : Str) (v : Json)
    (x : Val) (hs : rounded = false → SmallInts v) (hr : ReadsEmbed lax L S g ids n name v x) :
    FitsEmbed lax L S g rounded registered n name x := by
  induction n generalizing name v x with
  | zero => exact hr
  | succ n ih =>
    obtain ⟨e, o, kvs, attrs, he, rfl, rfl, hp⟩ := hr
    exact ⟨e, attrs, he, rfl, fits_props (fun ty v x => fits_ty hids ih ty v x) hs hp⟩

theorem fits (hids : ∀ c id, ids c id → registered c id) (n : Nat) (ty : Ty) (v : Json)
    (x : Val) (hs : rounded = false → SmallInts v) (hr : Reads lax L S g ids n ty v x) :
    Fits lax L S g rounded registered n ty x :=
  fits_ty hids (fits_embed hids n) ty v x hs hr

/-- The registered instances are the described ones. -/
theorem registered_of_described {n : Nat} {kvs : List (Str × Json)} {regs : List (Str × Registry)}
    (hr : Forall₂ (fun (c : Class) (r : Str × Registry) =>
      r.1 = c.name ∧ ReadsRegistry lax L S g n kvs c r.2) g.classes regs) (c id : Str)
    (h : Described g kvs c id) : ∃ r, (c, r) ∈ regs ∧ ∃ i, (id, i) ∈ r.instances := by
  obtain ⟨d, hd, rfl, o, entries, hk, hid⟩ := h
  obtain ⟨⟨k, r⟩, hm, hn, hreg⟩ := forall₂_left hr d hd
  simp only at hn hreg
  subst hn
  refine ⟨r, hm, ?_⟩
  rcases hreg with ⟨hno, _⟩ | ⟨o', es, hk', _, hf⟩
  · rw [hk] at hno; simp at hno
  · rw [hk] at hk'
    cases hk'
    obtain ⟨e, he, rfl⟩ := List.mem_map.1 hid
    obtain ⟨⟨i, inst⟩, hi, h1, _⟩ := forall₂_left hf e he
    simp only at h1
    subst h1
    exact ⟨inst, hi⟩

theorem valid_graph (n : Nat) (v : Json) (gv : GraphVal) (hs : rounded = false → SmallInts v)
    (hr : ReadsGraph lax L S g n v gv) : ValidGraph lax L S g rounded n gv := by
  obtain ⟨o, kvs, rfl, hregs, hattrs⟩ := hr
  have hids : ∀ c id, Described g kvs c id → Registered gv c id :=
    fun c id h => registered_of_described hregs c id h
  constructor
  · refine Forall₂.imp ?_ hregs
    rintro c ⟨k, r⟩ ⟨hk, hreg⟩
    refine ⟨hk, ?_⟩
    intro i hi
    rcases hreg with ⟨_, rfl⟩ | ⟨o', es, hlk, _, hf⟩
    · simp at hi
    · obtain ⟨e, he, h1, h2, h3, o'', kvs', h4, h5⟩ := forall₂_right hf i hi
      refine ⟨by rw [h2, h1], by rw [h1]; exact h3, ?_⟩
      refine fits_props (o := o'') (fun ty v x => fits hids n ty v x) (fun hh => smallInts_mono (hs hh) ?_) h5
      obtain ⟨ek, ev⟩ := e
      simp only at h4
      subst h4
      exact .entry (mem_of_lookup hlk) (.entry he (.here _))
  · exact fits_props (fun ty v x => fits hids n ty v x) hs hattrs

end

end Mapry.PyRuntime
