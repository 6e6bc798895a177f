import Verif.DurationValue
import Verif.InteropCpp
import Verif.InteropPy
import Verif.PyValid
import Verif.Props.Duration

/-!
# Languages which agree on the values without parts agree on the documents
-/

namespace Mapry.Interop

open Mapry.Duration
open Mapry.PyRuntime.Spec (Within FloatWithin SizeWithin boolNum)

theorem forall₂_congr {α β : Type} {R T : α → β → Prop} : ∀ {l : List α} {m : List β},
    (∀ x ∈ l, ∀ y, R x y ↔ T x y) → (Forall₂ R l m ↔ Forall₂ T l m)
  | [], _, _ => ⟨fun h => by cases h; exact .nil, fun h => by cases h; exact .nil⟩
  | x :: l, m, h => by
    have ih := fun m => forall₂_congr (l := l) (m := m) fun y hy => h y (List.mem_cons_of_mem _ hy)
    have h1 := h x (List.mem_cons_self ..)
    constructor
    · intro hr
      cases hr with
      | cons a b => exact .cons ((h1 _).1 a) ((ih _).1 b)
    · intro hr
      cases hr with
      | cons a b => exact .cons ((h1 _).2 a) ((ih _).2 b)

section

variable {V W : Leaves} {g : Graph} {ids : Str → Str → Prop}

/-- The languages read the value alike. -/
def SameLeaf (V W : Leaves) (t : Ty) (d : Doc) : Prop := ∀ a, V.leaf t d a ↔ W.leaf t d a

theorem ty_congr {M N : Str → Doc → AVal → Prop} {Q : Str → Doc → Prop}
    (h : ∀ name d, Q name d → ∀ a, M name d a ↔ N name d a) :
    ∀ (t : Ty) (d : Doc), EveryTy (SameLeaf V W) Q t d → ∀ a, MeansTy V ids M t d a ↔ MeansTy W ids N t d a := by
  intro t
  induction t with
  | array t lo hi ih =>
    intro d hd a
    simp only [MeansTy]
    refine exists_congr fun ds => exists_congr fun as => and_congr_right fun e => and_congr_right fun _ =>
      and_congr_right fun _ => forall₂_congr fun x hx => ih x ?_
    rw [EveryTy] at hd
    exact hd ds e x hx
  | map t ih =>
    intro d hd a
    simp only [MeansTy]
    refine exists_congr fun ds => exists_congr fun as => and_congr_right fun e => and_congr_right fun _ =>
      forall₂_congr fun x hx y => and_congr_right fun _ => ih x.2 ?_ _
    rw [EveryTy] at hd
    exact hd ds e x hx
  | cls c => exact fun _ _ _ => Iff.rfl
  | embed name => exact fun d hd a => h name d hd a
  | _ => exact fun d hd a => hd a

theorem given_congr {kvs : List (Str × Doc)} {k : Str}
    (h : kvs.lookup k = some .null → V.nullMissing = W.nullMissing) :
    given V.nullMissing kvs k = given W.nullMissing kvs k := by
  by_cases e : kvs.lookup k = some .null
  · rw [h e]
  · unfold given
    split
    · rename_i e'; exact (e e').elim
    · rfl

theorem props_congr {R T : Ty → Doc → AVal → Prop} {Q : Ty → Doc → Prop}
    (h : ∀ t d, Q t d → ∀ a, R t d a ↔ T t d a) {kvs : List (Str × Doc)} {ps : List Property}
    (he : EveryProps (V.nullMissing = W.nullMissing) Q kvs ps) (fields : AFields) :
    MeansProps V R kvs ps fields ↔ MeansProps W T kvs ps fields := by
  refine forall₂_congr fun p hp f => and_congr_right fun _ => ?_
  unfold MeansProperty
  rw [given_congr fun e => (he p hp _ e).1 rfl]
  split
  · exact Iff.rfl
  · rename_i d hd
    exact h _ _ (he p hp d (given_some hd)).2 _

theorem embed_congr : ∀ (n : Nat) (name : Str) (d : Doc),
    EveryEmbed (SameLeaf V W) (V.nullMissing = W.nullMissing) g n name d →
    ∀ a, MeansEmbed V g ids n name d a ↔ MeansEmbed W g ids n name d a
  | 0, _, _, _, _ => Iff.rfl
  | n + 1, name, d, h, a => by
    simp only [MeansEmbed]
    refine exists_congr fun e => exists_congr fun kvs => exists_congr fun fs => and_congr_right fun he =>
      and_congr_right fun hd => and_congr_right fun _ => ?_
    rw [EveryEmbed] at h
    exact props_congr (ty_congr (embed_congr n)) (h e kvs he hd) fs

/-- Languages which read the values of a document alike read the document alike. -/
theorem means_congr {n : Nat} {d : Doc} (h : Alike V W g n d) (a : AGraph) :
    MeansGraph V g n d a ↔ MeansGraph W g n d a := by
  unfold MeansGraph
  refine exists_congr fun kvs => and_congr_right fun e => and_congr (forall₂_congr fun c hc r =>
    and_congr_right fun _ => ?_) ?_
  · obtain ⟨_, h2⟩ := h kvs e
    unfold MeansRegistry
    refine or_congr Iff.rfl (exists_congr fun entries => and_congr_right fun hl => forall₂_congr fun i hi j => ?_)
    obtain ⟨h3, h4⟩ := h2 c hc entries hl i hi
    unfold MeansInstance
    refine and_congr_right fun _ => and_congr ⟨fun hm p hp => (h3 p hp).1 (hm p hp), fun hm p hp =>
      (h3 p hp).2 (hm p hp)⟩ (exists_congr fun kvs' => and_congr_right fun hk => ?_)
    exact props_congr (ty_congr (embed_congr n)) (h4 kvs' hk) _
  · exact props_congr (ty_congr (embed_congr n)) (h kvs e).1 _

end

/-! ## Every value -/

section

variable {P Q : Ty → Doc → Prop} {key key' : Str → Str → Prop} {null null' : Prop} {g : Graph}

theorem EveryTy.imp {E F : Str → Doc → Prop} (h : ∀ t d, P t d → Q t d) (hE : ∀ name d, E name d → F name d) :
    ∀ (t : Ty) (d : Doc), EveryTy P E t d → EveryTy Q F t d := by
  intro t
  induction t with
  | array t lo hi ih => intro d hd; rw [EveryTy] at hd ⊢; exact fun ds e x hx => ih x (hd ds e x hx)
  | map t ih => intro d hd; rw [EveryTy] at hd ⊢; exact fun ds e x hx => ih x.2 (hd ds e x hx)
  | cls c => exact fun _ _ => trivial
  | embed name => exact fun d hd => hE name d hd
  | _ => exact fun d hd => h _ d hd

theorem EveryProps.imp {E F : Ty → Doc → Prop} (hn : null → null') (hE : ∀ t d, E t d → F t d)
    {kvs : List (Str × Doc)} {ps : List Property} (h : EveryProps null E kvs ps) : EveryProps null' F kvs ps :=
  fun p hp d hd => ⟨fun e => hn ((h p hp d hd).1 e), hE _ _ (h p hp d hd).2⟩

theorem EveryEmbed.imp (h : ∀ t d, P t d → Q t d) (hn : null → null') : ∀ (n : Nat) (name : Str) (d : Doc),
    EveryEmbed P null g n name d → EveryEmbed Q null' g n name d
  | 0, _, _, _ => trivial
  | n + 1, _, _, hd => fun e kvs he hk => (hd e kvs he hk).imp hn (EveryTy.imp h (EveryEmbed.imp h hn n))

theorem Every.imp (h : ∀ t d, P t d → Q t d) (hk : ∀ p s, key p s → key' p s) (hn : null → null') {n : Nat} {d : Doc}
    (he : Every P key null g n d) : Every Q key' null' g n d := by
  intro kvs e
  have hE := EveryTy.imp h (EveryEmbed.imp (g := g) h hn n)
  refine ⟨(he kvs e).1.imp hn hE, fun c hc es hl i hi => ⟨fun p hp => hk _ _ (((he kvs e).2 c hc es hl i hi).1 p hp), ?_⟩⟩
  exact fun kvs' hk' => (((he kvs e).2 c hc es hl i hi).2 kvs' hk').imp hn hE

end

/-! ## Plain documents -/

theorem plain_duration {s : Str} (h : PlainDuration s) : ∃ x : Timedelta, pyFromString s = .ok x ∧
    goFromString s = .ok (x * 1000) ∧ cppFromString false s = .value (x * 1000) := by
  obtain ⟨f, hv, hi, hl, hm, rfl⟩ := h
  have hfd : ∀ c ∈ fractionOf f.seconds, isDig c = true := by
    cases hs : f.seconds with
    | none => simp [fractionOf]
    | some n =>
      intro c hc
      have htv : n.Valid := by
        cases ht : f.time with
        | none => simp [Fields.seconds, ht] at hs
        | some x =>
          obtain ⟨a, b, s⟩ := x
          have := (hv.time a b s ht).2.2
          simp [Fields.seconds, ht] at hs
          exact this n hs
      simp only [fractionOf, Num.fracDigits] at hc
      cases hfr : n.frac with
      | none => rw [hfr] at hc; simp at hc
      | some fr => rw [hfr] at hc; exact (htv.2 fr hfr).2 c hc
  have hs : span 9 f = 1000 * span 6 f := by
    unfold span
    have e : 9 - (fractionOf f.seconds).length = (6 - (fractionOf f.seconds).length) + 3 := by omega
    rw [e, Nat.pow_add]
    generalize 10 ^ (6 - (fractionOf f.seconds).length) = k
    have : digitsVal (fractionOf f.seconds) * (k * 10 ^ 3) = 1000 * (digitsVal (fractionOf f.seconds) * k) := by
      rw [← Nat.mul_assoc]; omega
    omega
  have hsg : signed f (span 9 f) = signed f (span 6 f) * 1000 := by
    rw [hs]; unfold signed; split <;> omega
  have hm' := (matchDuration_text_iff (render f) f).2 ⟨hv, rfl⟩
  refine ⟨signed f (span 6 f), ?_, ?_, ?_⟩
  · refine Props.C14_exact_sum f hv hi hl ?_
    simp only [maxInt64] at hm
    have key : ∀ x : Int, -9223372036854775807 ≤ x * 1000 → x * 1000 ≤ 9223372036854775807 → tdMin ≤ x ∧ x ≤ tdMax := by
      intro x h1 h2
      unfold tdMin tdMax usPerDay
      omega
    refine key _ ?_ ?_ <;> rw [← hsg] <;> unfold signed <;> split <;> omega
  · unfold goFromString
    rw [hm']
    simp only
    rw [goValue_exact f hi hfd (by omega) hm, hsg]
  · unfold cppFromString
    rw [hm']
    simp only
    rw [cppValue_exact f hi (by omega) hm, hsg]

section

variable {L : PyRuntime.Lib} {S : PyRuntime.Settings} {G : GoRuntime.Lib} {D : CppRuntime.DateLib} {C : CppRuntime.Lib}

theorem matches_iff {f g : Str → Str → Bool} {p : Option Str} {s : Str} (h : ∀ r, p = some r → f r s = g r s) :
    (∀ r, p = some r → f r s = true) ↔ ∀ r, p = some r → g r s = true :=
  ⟨fun k r e => (h r e) ▸ k r e, fun k r e => (h r e).symm ▸ k r e⟩

theorem text_congr {d : Doc} {A B : Str → Prop} (h : ∀ s, d = .str s → (A s ↔ B s)) :
    (∃ s, d = .str s ∧ A s) ↔ ∃ s, d = .str s ∧ B s :=
  exists_congr fun s => and_congr_right fun e => h s e

theorem int_exact {i : Int} (h : i.natAbs ≤ 2 ^ 53) : F64.round (i : Rat) = .fin (i : Rat) :=
  PyRuntime.round_int_exact i h

theorem small_int64 {i : Int} (h : i.natAbs ≤ 2 ^ 53) : IsInt64 i ∧ ¬ TooLarge i := by
  unfold IsInt64 minInt64 maxInt64 TooLarge; omega

theorem fin_inj {a b : Rat} (h : F64.fin a = .fin b) : a = b := by injection h

theorem plain_int_go {b : Bounds} {d : Doc} (h : PlainLeaf L S G D C (.integer b) d) (a : AVal) :
    pyLeaf L S (.integer b) d a ↔ goLeaf G (.integer b) d a := by
  obtain ⟨h1, h2, h3⟩ := h
  simp only [pyLeaf, goLeaf]
  constructor
  · rintro (⟨i, rfl, rfl, hw⟩ | ⟨c, e, _⟩)
    · exact ⟨_, i, rfl, int_exact (h3 i rfl), rfl, (small_int64 (h3 i rfl)).1, hw⟩
    · exact (h1 c e).elim
  · rintro ⟨q, i, hq, hr, rfl, _, hw⟩
    cases d with
    | int j =>
      simp only [number, Option.some.injEq] at hq
      subst hq
      rw [int_exact (h3 j rfl)] at hr
      have := Rat.intCast_inj.1 (fin_inj hr)
      subst this
      exact .inl ⟨j, rfl, rfl, hw⟩
    | real q' =>
      simp only [number, Option.some.injEq] at hq
      subst hq
      exact (h2 _ rfl i hr).elim
    | _ => simp [number] at hq

theorem plain_int_cpp {b : Bounds} {d : Doc} (h : PlainLeaf L S G D C (.integer b) d) (a : AVal) :
    pyLeaf L S (.integer b) d a ↔ cppLeaf D C (.integer b) d a := by
  obtain ⟨h1, h2, h3⟩ := h
  simp only [pyLeaf, cppLeaf]
  constructor
  · rintro (⟨i, rfl, rfl, hw⟩ | ⟨c, e, _⟩)
    · exact ⟨i, .inl rfl, rfl, (small_int64 (h3 i rfl)).1, hw⟩
    · exact (h1 c e).elim
  · rintro ⟨i, rfl | ⟨q, e | ⟨j, rfl, hj, _⟩, hr⟩, rfl, _, hw⟩
    · exact .inl ⟨i, rfl, rfl, hw⟩
    · exact (h2 q e i hr).elim
    · exact ((small_int64 (h3 j rfl)).2 hj).elim

/-- The common reading of floats in Go and C++ -/
theorem plain_float {b : Bounds} {d : Doc} (h : PlainLeaf L S G D C (.float b) d) (a : AVal) :
    pyLeaf L S (.float b) d a ↔ ∃ q, number d = some q ∧ a = .float (F64.round q) ∧ FloatWithin b (F64.round q) := by
  obtain ⟨h1, h3⟩ := h
  simp only [pyLeaf]
  constructor
  · rintro (⟨q, rfl, rfl, hw⟩ | ⟨i, q, rfl | ⟨c, e, _⟩, rfl, hw, hr⟩)
    · exact ⟨q, rfl, rfl, hw⟩
    · refine ⟨i, rfl, by rw [hr], ?_⟩
      rw [int_exact (h3 i rfl)]
      exact hw
    · exact (h1 c e).elim
  · rintro ⟨q, hq, rfl, hw⟩
    cases d with
    | int j =>
      simp only [number, Option.some.injEq] at hq
      subst hq
      rw [int_exact (h3 j rfl)] at hw ⊢
      exact .inr ⟨j, j, .inl rfl, rfl, hw, int_exact (h3 j rfl)⟩
    | real q' =>
      simp only [number, Option.some.injEq] at hq
      subst hq
      exact .inl ⟨_, rfl, rfl, hw⟩
    | _ => simp [number] at hq

/-- The languages agree on plain values. -/
theorem plain_leaf {t : Ty} {d : Doc} (h : PlainLeaf L S G D C t d) (a : AVal) :
    (pyLeaf L S t d a ↔ goLeaf G t d a) ∧ (pyLeaf L S t d a ↔ cppLeaf D C t d a) := by
  cases t with
  | boolean => exact ⟨Iff.rfl, Iff.rfl⟩
  | integer b => exact ⟨plain_int_go h a, plain_int_cpp h a⟩
  | float b => exact ⟨plain_float h a, plain_float h a⟩
  | string p =>
    exact ⟨text_congr fun s e => and_congr_right fun _ => matches_iff fun r hr => (h s e r hr).1,
      text_congr fun s e => and_congr_right fun _ => matches_iff fun r hr => (h s e r hr).2⟩
  | path p =>
    have hn : ∀ s, d = .str s → (if S.pathlib then L.normPath s else s) = s := by
      intro s e
      split
      · rename_i hp; exact (h s e).1 hp
      · rfl
    refine ⟨text_congr fun s e => ?_, text_congr fun s e => ?_⟩
    · rw [hn s e]
      exact and_congr_right fun _ => matches_iff fun r hr => ((h s e).2 r hr).1
    · rw [hn s e]
      exact and_congr_right fun _ => matches_iff fun r hr => ((h s e).2 r hr).2
  | date f => exact h a
  | time f => exact h a
  | datetime f => exact h a
  | timeZone => exact h a
  | duration =>
    simp only [pyLeaf, goLeaf, cppLeaf]
    refine ⟨⟨?_, ?_⟩, ⟨?_, ?_⟩⟩
    all_goals
      rintro ⟨s, x, rfl, hx, rfl⟩
      obtain ⟨y, h1, h2, h3⟩ := plain_duration (h s rfl)
      simp_all
  | array t lo hi => exact ⟨Iff.rfl, Iff.rfl⟩
  | map t => exact ⟨Iff.rfl, Iff.rfl⟩
  | cls c => exact ⟨Iff.rfl, Iff.rfl⟩
  | embed name => exact ⟨Iff.rfl, Iff.rfl⟩

theorem plain_go {g : Graph} {n : Nat} {d : Doc} (h : Plain L S G D C g n d) :
    Alike (pyLeaves L S) (goLeaves G) g n d :=
  Every.imp (fun _ _ hl a => (plain_leaf hl a).1) (fun _ _ hk => by simp [pyLeaves, goLeaves, hk.1])
    (fun h => h.elim) h

theorem plain_cpp {g : Graph} {n : Nat} {d : Doc} (h : Plain L S G D C g n d) :
    Alike (pyLeaves L S) (cppLeaves D C) g n d :=
  Every.imp (fun _ _ hl a => (plain_leaf hl a).2) (fun _ _ hk => by simp [pyLeaves, cppLeaves, hk.2])
    (fun h => h.elim) h

end

/-! ## The decoders give values of the languages -/

theorem mem_putAll {α : Type} {e : Str × α} : ∀ {l : List (Str × α)} {m : GoMap α},
    e ∈ GoMap.putAll m l → e ∈ m ∨ e ∈ l
  | [], _, h => .inl h
  | a :: l, m, h => by
    rcases mem_putAll (l := l) h with h | h
    · rcases GoMap.mem_put h with h | h
      · exact .inr (h ▸ List.mem_cons_self ..)
      · exact .inl h
    · exact .inr (List.mem_cons_of_mem _ h)

mutual

theorem goVal_canon : ∀ d, GoRuntime.Spec.Canon (goVal d)
  | .null => .null
  | .bool b => .bool b
  | .int _ => .float _
  | .real _ => .float _
  | .str s => .str s
  | .arr xs => by rw [goVal]; exact .arr _ (goItems_canon xs)
  | .obj kvs => by
    rw [goVal]
    refine .obj _ (GoMap.Ascending.putAll (m := []) List.Pairwise.nil _) fun kv h => ?_
    rcases mem_putAll h with h | h
    · cases h
    · exact goEntries_canon kvs kv h

theorem goItems_canon : ∀ ds, ∀ x ∈ goItems ds, GoRuntime.Spec.Canon x
  | [], _, h => by simp [goItems] at h
  | d :: ds, x, h => by
    rw [goItems] at h
    rcases List.mem_cons.1 h with h | h
    · rw [h]; exact goVal_canon d
    · exact goItems_canon ds x h

theorem goEntries_canon : ∀ ds, ∀ kv ∈ goEntries ds, GoRuntime.Spec.Canon kv.2
  | [], _, h => by simp [goEntries] at h
  | (_, d) :: ds, x, h => by
    rw [goEntries] at h
    rcases List.mem_cons.1 h with h | h
    · rw [h]; exact goVal_canon d
    · exact goEntries_canon ds x h

end

mutual

theorem cppVal_canon : ∀ d, CppRuntime.Spec.Canon (cppVal d)
  | .null => .null
  | .bool b => .bool b
  | .int i => by
    rw [cppVal]
    split
    · exact .int _ (by assumption)
    · split
      · exact .uint _
      · exact .real _
  | .real _ => .real _
  | .str s => .str s
  | .arr xs => by rw [cppVal]; exact .arr _ (cppItems_canon xs)
  | .obj kvs => by
    rw [cppVal]
    refine .obj _ (GoMap.Ascending.putAll (m := []) List.Pairwise.nil _) fun kv h => ?_
    rcases mem_putAll h with h | h
    · cases h
    · exact cppEntries_canon kvs kv h

theorem cppItems_canon : ∀ ds, ∀ x ∈ cppItems ds, CppRuntime.Spec.Canon x
  | [], _, h => by simp [cppItems] at h
  | d :: ds, x, h => by
    rw [cppItems] at h
    rcases List.mem_cons.1 h with h | h
    · rw [h]; exact cppVal_canon d
    · exact cppItems_canon ds x h

theorem cppEntries_canon : ∀ ds, ∀ kv ∈ cppEntries ds, CppRuntime.Spec.Canon kv.2
  | [], _, h => by simp [cppEntries] at h
  | (_, d) :: ds, x, h => by
    rw [cppEntries] at h
    rcases List.mem_cons.1 h with h | h
    · rw [h]; exact cppVal_canon d
    · exact cppEntries_canon ds x h

end

end Mapry.Interop
