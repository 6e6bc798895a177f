import Verif.CppSer

/-!
# What is read from JSON satisfies the schema
-/

namespace Mapry.CppRuntime

open Mapry.Text Mapry.Duration Spec
open Mapry.GoRuntime (forall₂_right forall₂_left forall₂_length forall₂_keys ascending_of_keys)

/-! ## Durations -/

theorem wrap64_isInt64 (n : Int) : IsInt64 (wrap64 n) := by
  unfold wrap64
  simp only [IsInt64, minInt64, maxInt64]
  omega

theorem cppAdd_value {left : Int} {right : F64} {flag : Bool} {k : Int → CppResult} {d : Int}
    (hl : left ≤ maxInt64) (h : cppAdd left right flag k = .value d) :
    ∃ s, 0 ≤ s ∧ s ≤ maxInt64 ∧ k s = .value d := by
  unfold cppAdd at h
  unfold addRepDouble at h
  by_cases h0 : left < 0
  · rw [if_pos h0] at h
    cases h
  rw [if_neg h0] at h
  cases right with
  | nan =>
    simp only at h
    cases flag with
    | true => cases h
    | false => exact ⟨left, by omega, hl, h⟩
  | inf neg => cases neg <;> simp at h
  | fin q =>
    simp only at h
    by_cases hq : q < 0
    · rw [if_pos hq] at h; cases h
    rw [if_neg hq] at h
    by_cases hb : 9223372036854775808 ≤ q
    · rw [if_pos hb] at h; cases h
    rw [if_neg hb] at h
    by_cases hc : F64.truncRat q > maxInt64 - left
    · rw [if_pos hc] at h; cases h
    rw [if_neg hc] at h
    have hfl : 0 ≤ F64.truncRat q := by
      unfold F64.truncRat
      rw [if_neg hq]
      exact Rat.le_floor_iff.2 (by have := Rat.not_lt.1 hq; simpa using this)
    cases flag with
    | true => cases h
    | false =>
      simp only at h
      rw [wrap64_id (by simp only [IsInt64, minInt64, maxInt64] at *; omega)] at h
      exact ⟨_, by omega, by omega, h⟩

/-- A duration which is read is a number of 64 bits and not the least one. -/
theorem cppFromString_value {garbage : Bool} {s : Str} {d : Int} (h : cppFromString garbage s = .value d) :
    IsInt64 d ∧ d ≠ minInt64 := by
  unfold cppFromString at h
  split at h
  · cases h
  · unfold cppValue at h
    split at h
    · cases h
    · simp only at h
      split at h
      · split at h
        · cases h
        · split at h
          · cases h
          · obtain ⟨s1, _, h1, h⟩ := cppAdd_value (wrap64_isInt64 _).2 h
            obtain ⟨s2, _, h2, h⟩ := cppAdd_value h1 h
            obtain ⟨s3, _, h3, h⟩ := cppAdd_value h2 h
            obtain ⟨s4, _, h4, h⟩ := cppAdd_value h3 h
            obtain ⟨s5, _, h5, h⟩ := cppAdd_value h4 h
            obtain ⟨s6, h0, h6, h⟩ := cppAdd_value h5 h
            simp only [CppResult.value.injEq] at h
            subst h
            simp only [IsInt64, minInt64, maxInt64] at *
            split <;> omega
      · cases h

/-! ## Values -/

variable {D : DateLib} {L : Lib} {g : Graph}

theorem fits_ty {ids registered : Str → Str → Prop} {reads : Str → JVal → Val → Prop} {fits : Str → Val → Prop}
    (hids : ∀ c id, ids c id → registered c id)
    (he : ∀ name v x, Canon v → reads name v x → fits name x) (t : Ty) (v : JVal) (x : Val) (hv : Canon v)
    (h : ReadsTy D L (Loose D L) ids reads t v x) : FitsTy D L registered fits t x := by
  induction t generalizing v x with
  | boolean => obtain ⟨c, _, hx⟩ := h; exact ⟨c, hx⟩
  | integer b => obtain ⟨i, _, hx, h1, h2⟩ := h; exact ⟨i, hx, h1, h2⟩
  | float b => obtain ⟨i, _, hx, h1⟩ := h; exact ⟨i, hx, h1⟩
  | string p => obtain ⟨i, _, hx, h1⟩ := h; exact ⟨i, hx, h1⟩
  | path p => obtain ⟨i, _, hx, h1⟩ := h; exact ⟨i, hx, h1⟩
  | date f => obtain ⟨s, t, _, h1, hx⟩ := h; exact ⟨s, t, h1, hx⟩
  | time f => obtain ⟨s, t, _, h1, hx⟩ := h; exact ⟨s, t, h1, hx⟩
  | datetime f => obtain ⟨s, t, _, h1, hx⟩ := h; exact ⟨s, t, h1, hx⟩
  | timeZone => obtain ⟨s, t, _, h1, hx⟩ := h; exact ⟨s, t, h1, hx⟩
  | duration => obtain ⟨s, d, _, h1, hx⟩ := h; exact ⟨d, hx, (cppFromString_value h1).1⟩
  | array t lo hi ih =>
    obtain ⟨xs, vs, rfl, hx, hs, hf⟩ := h
    refine ⟨vs, hx, ?_, ?_⟩
    · rw [← forall₂_length hf]; exact hs
    · intro y hy
      obtain ⟨w, hw, hr⟩ := forall₂_right hf hy
      cases hv with
      | arr _ hc => exact ih w y (hc w hw) hr
  | map t ih =>
    obtain ⟨kvs, ws, rfl, hx, hf⟩ := h
    cases hv with
    | obj _ ha hc =>
      refine ⟨ws, hx, ?_, ?_⟩
      · exact ascending_of_keys (forall₂_keys (fun _ _ h => h.1.symm) hf) ha
      · intro y hy
        obtain ⟨w, hw, hr⟩ := forall₂_right hf hy
        exact ih w.2 y.2 (hc w hw) hr.2
  | cls c => obtain ⟨id, _, hx, h1⟩ := h; exact ⟨id, hx, hids c id h1⟩
  | embed name => exact he name v x hv h

theorem canon_member {kvs : List (Str × JVal)} (h : Canon (.obj kvs)) {k : Str} {v : JVal}
    (hl : kvs.lookup k = some v) : Canon v := by
  cases h with
  | obj _ _ hc => exact hc (k, v) (mem_of_lookup hl)

theorem fits_props {reads : Ty → JVal → Val → Prop} {fits : Ty → Val → Prop}
    (h : ∀ t v x, Canon v → reads t v x → fits t x) {kvs : List (Str × JVal)} (hk : Canon (.obj kvs))
    {ps : List Property} {fields : Fields} (hr : ReadsProps reads kvs ps fields) : FitsProps fits ps fields := by
  unfold ReadsProps at hr
  refine hr.imp fun p f hp => ⟨hp.1, ?_⟩
  have h2 := hp.2
  unfold ReadsProperty at h2
  split at h2
  · exact .inl h2
  · next v hl => exact .inr (h _ _ _ (canon_member hk hl) h2)

theorem fits_embed {ids registered : Str → Str → Prop} (hids : ∀ c id, ids c id → registered c id) (n : Nat) :
    ∀ name v x, Canon v → ReadsEmbed D L (Loose D L) g ids n name v x → FitsEmbed g D L registered n name x := by
  induction n with
  | zero => intro name v x _ h; exact h.elim
  | succ n ih =>
    rintro name v x hv ⟨e, kvs, fields, he, rfl, rfl, hr⟩
    exact ⟨e, fields, he, rfl, fits_props (fits_ty hids ih) hv hr⟩

theorem fits_value {ids registered : Str → Str → Prop} (hids : ∀ c id, ids c id → registered c id) (n : Nat)
    (t : Ty) (v : JVal) (x : Val) (hv : Canon v) (h : Reads D L (Loose D L) g ids n t v x) :
    Fits g D L registered n t x :=
  fits_ty hids (fits_embed hids n) t v x hv h

theorem described_registered {n : Nat} {kvs : List (Str × JVal)} {gv : GraphVal}
    (h : Forall₂ (fun (c : Class) (r : Str × GoMap Instance) =>
      r.1 = c.name ∧ ReadsRegistry D L (Loose D L) g n kvs c r.2) g.classes gv.registries) (c id : Str)
    (hd : Described g kvs c id) : Registered gv c id := by
  obtain ⟨d, hd, rfl, es, hes, hid⟩ := hd
  obtain ⟨⟨n', r⟩, hr, hn, hreg⟩ := GoRuntime.forall₂_left h hd
  simp only at hn hreg
  subst hn
  refine ⟨r, hr, ?_⟩
  rcases hreg with ⟨hl, _⟩ | ⟨es', hl, hf⟩
  · rw [hes] at hl; cases hl
  · rw [hes] at hl
    cases hl
    obtain ⟨e, he, rfl⟩ := List.mem_map.1 hid
    obtain ⟨i, hi, h1, _⟩ := GoRuntime.forall₂_left hf he
    exact ⟨i.2, by rw [← h1]; exact hi⟩

theorem valid_of_reads {n : Nat} {v : JVal} (hv : Canon v) {gv : GraphVal}
    (h : ReadsGraph D L (Loose D L) g n v gv) : ValidGraph g D L n gv := by
  obtain ⟨kvs, rfl, hregs, hprops⟩ := h
  have hids := described_registered hregs
  refine ⟨?_, fits_props (fits_value hids n) hv hprops⟩
  refine hregs.imp fun c r hr => ⟨hr.1, ?_⟩
  rcases hr.2 with ⟨_, h0⟩ | ⟨es, hl, hf⟩
  · rw [h0]; exact ⟨List.Pairwise.nil, fun i hi => by cases hi⟩
  · have hce := canon_member hv hl
    cases hce with
    | obj _ ha hc =>
      refine ⟨ascending_of_keys (forall₂_keys (fun _ _ h => h.1) hf) ha, fun i hi => ?_⟩
      obtain ⟨e, he, h1, h2, h3, kvs', hk', h4⟩ := forall₂_right hf hi
      refine ⟨h2.trans h1.symm, by rw [h1]; exact h3, ?_⟩
      have := hc e he
      rw [hk'] at this
      exact fits_props (fits_value hids n) this h4

end Mapry.CppRuntime
