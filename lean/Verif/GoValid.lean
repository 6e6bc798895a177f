import Verif.GoRegistries

/-!
# What is read from JSON satisfies the schema
-/

namespace Mapry.GoRuntime

open Mapry.Text Mapry.Duration Spec

theorem forall₂_length {α β : Type} {R : α → β → Prop} {l : List α} {m : List β} (h : Forall₂ R l m) :
    l.length = m.length := by
  induction h with
  | nil => rfl
  | cons _ _ ih => simp [ih]

theorem forall₂_right {α β : Type} {R : α → β → Prop} {l : List α} {m : List β} (h : Forall₂ R l m) {b : β}
    (hb : b ∈ m) : ∃ a ∈ l, R a b := by
  induction h with
  | nil => cases hb
  | @cons a b' l m h1 _ ih =>
    rcases List.mem_cons.1 hb with rfl | hb
    · exact ⟨a, List.mem_cons_self .., h1⟩
    · obtain ⟨a', ha, hr⟩ := ih hb
      exact ⟨a', List.mem_cons_of_mem _ ha, hr⟩

theorem forall₂_left {α β : Type} {R : α → β → Prop} {l : List α} {m : List β} (h : Forall₂ R l m) {a : α}
    (ha : a ∈ l) : ∃ b ∈ m, R a b := by
  induction h with
  | nil => cases ha
  | @cons a' b l m h1 _ ih =>
    rcases List.mem_cons.1 ha with rfl | ha
    · exact ⟨b, List.mem_cons_self .., h1⟩
    · obtain ⟨b', hb, hr⟩ := ih ha
      exact ⟨b', List.mem_cons_of_mem _ hb, hr⟩

variable {L : Lib} {g : Graph}

theorem fits_ty {ids registered : Str → Str → Prop} {reads : Str → JVal → Val → Prop} {fits : Str → Val → Prop}
    (hids : ∀ c id, ids c id → registered c id)
    (he : ∀ name v x, Canon v → reads name v x → fits name x) (t : Ty) (v : JVal) (x : Val) (hv : Canon v)
    (h : ReadsTy L ids reads t v x) : FitsTy L registered fits t x := by
  induction t generalizing v x with
  | boolean => obtain ⟨c, _, hx⟩ := h; exact ⟨c, hx⟩
  | integer b => obtain ⟨i, _, hx, h1, h2⟩ := h; exact ⟨i, hx, h1, h2⟩
  | float b => obtain ⟨i, _, hx, h1⟩ := h; exact ⟨i, hx, h1⟩
  | string p => obtain ⟨i, _, hx, h1⟩ := h; exact ⟨i, hx, h1⟩
  | path p => obtain ⟨i, _, hx, h1⟩ := h; exact ⟨i, hx, h1⟩
  | date f => obtain ⟨s, t, _, h1, hx⟩ := h; exact ⟨s, t, h1, hx⟩
  | time f => obtain ⟨s, t, _, h1, hx⟩ := h; exact ⟨s, t, h1, hx⟩
  | datetime f => obtain ⟨s, t, _, h1, hx⟩ := h; exact ⟨s, t, h1, hx⟩
  | timeZone => obtain ⟨s, t, _, h1, hx⟩ := h; exact ⟨s, t, h1, hx⟩
  | duration =>
    obtain ⟨s, d, _, h1, hx⟩ := h
    refine ⟨d, hx, ?_⟩
    rcases Props.C46_go_total s with ⟨d', hd, h2⟩ | ⟨m, hm⟩
    · rw [h1] at h2; cases h2; exact hd
    · rw [h1] at hm; cases hm
  | array t lo hi ih =>
    obtain ⟨xs, vs, rfl, hx, hs, hf⟩ := h
    refine ⟨vs, hx, ?_, ?_⟩
    · rw [← forall₂_length hf]; exact hs
    · intro y hy
      obtain ⟨w, hw, hr⟩ := forall₂_right hf hy
      cases hv with
      | arr _ hc => exact ih w y (hc w hw) hr
  | map t ih =>
    obtain ⟨kvs, ws, rfl, hx, hf⟩ := h
    cases hv with
    | obj _ ha hc =>
      refine ⟨ws, hx, ?_, ?_⟩
      · exact ascending_of_keys (forall₂_keys (fun _ _ h => h.1.symm) hf) ha
      · intro y hy
        obtain ⟨w, hw, hr⟩ := forall₂_right hf hy
        exact ih w.2 y.2 (hc w hw) hr.2
  | cls c => obtain ⟨id, _, hx, h1⟩ := h; exact ⟨id, hx, hids c id h1⟩
  | embed name => exact he name v x hv h

theorem fits_props {reads : Ty → JVal → Val → Prop} {fits : Ty → Val → Prop}
    (h : ∀ t v x, Canon v → reads t v x → fits t x) {kvs : List (Str × JVal)} (hk : Canon (.obj kvs))
    {ps : List Property} {fields : Fields} (hr : ReadsProps reads kvs ps fields) : FitsProps fits ps fields := by
  unfold ReadsProps at hr
  refine hr.imp fun p f hp => ⟨hp.1, ?_⟩
  have h2 := hp.2
  unfold ReadsProperty at h2
  split at h2
  · exact .inl h2
  · next v hl => exact .inr (h _ _ _ (canon_entry hk hl) h2)

theorem fits_embed {ids registered : Str → Str → Prop} (hids : ∀ c id, ids c id → registered c id) (n : Nat) :
    ∀ name v x, Canon v → ReadsEmbed L g ids n name v x → FitsEmbed L g registered n name x := by
  induction n with
  | zero => intro name v x _ h; exact h.elim
  | succ n ih =>
    rintro name v x hv ⟨e, kvs, fields, he, rfl, rfl, hr⟩
    exact ⟨e, fields, he, rfl, fits_props (fits_ty hids ih) hv hr⟩

theorem fits_value {ids registered : Str → Str → Prop} (hids : ∀ c id, ids c id → registered c id) (n : Nat)
    (t : Ty) (v : JVal) (x : Val) (hv : Canon v) (h : Reads L g ids n t v x) : Fits L g registered n t x :=
  fits_ty hids (fits_embed hids n) t v x hv h

theorem described_registered {n : Nat} {kvs : List (Str × JVal)} {gv : GraphVal}
    (h : Forall₂ (fun (c : Class) (r : Str × GoMap Instance) =>
      r.1 = c.name ∧ ReadsRegistry L g n kvs c r.2) g.classes gv.registries) (c id : Str)
    (hd : Described g kvs c id) : Registered gv c id := by
  obtain ⟨d, hd, rfl, es, hes, hid⟩ := hd
  obtain ⟨r, hr, hn, hreg⟩ := forall₂_left h hd
  obtain ⟨n', r⟩ := r
  simp only at hn hreg
  subst hn
  refine ⟨r, hr, ?_⟩
  rcases hreg with ⟨hl, _⟩ | ⟨es', hl, hf⟩
  · rw [hes] at hl; cases hl
  · rw [hes] at hl
    cases hl
    obtain ⟨e, he, rfl⟩ := List.mem_map.1 hid
    obtain ⟨i, hi, h1, _⟩ := forall₂_left hf he
    exact ⟨i.2, by rw [← h1]; exact hi⟩

theorem valid_of_reads {n : Nat} {v : JVal} (hv : Canon v) {gv : GraphVal} (h : ReadsGraph L g n v gv) :
    ValidGraph L g n gv := by
  obtain ⟨kvs, rfl, hregs, hprops⟩ := h
  have hids := described_registered hregs
  refine ⟨?_, fits_props (fits_value hids n) hv hprops⟩
  refine hregs.imp fun c r hr => ⟨hr.1, ?_⟩
  rcases hr.2 with ⟨_, h0⟩ | ⟨es, hl, hf⟩
  · rw [h0]; exact ⟨List.Pairwise.nil, fun i hi => by cases hi⟩
  · have hce := canon_entry hv hl
    cases hce with
    | obj _ ha hc =>
      refine ⟨ascending_of_keys (forall₂_keys (fun _ _ h => h.1) hf) ha, fun i hi => ?_⟩
      obtain ⟨e, he, h1, h2, h3, kvs', hk', h4⟩ := forall₂_right hf hi
      refine ⟨h2.trans h1.symm, by rw [h1]; exact h3, ?_⟩
      have := hc e he
      rw [hk'] at this
      exact fits_props (fits_value hids n) this h4

end Mapry.GoRuntime
