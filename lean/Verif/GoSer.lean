import Verif.GoValid

/-!
# The generated Go serializer

The JSON text of what is serialized from a graph which satisfies the schema describes the graph.
-/

namespace Mapry.GoRuntime

open Mapry.Text Mapry.Duration Spec

variable {O : Order} {L : Lib} {g : Graph}

theorem forall₂_imp_mem {α β : Type} {R Q : α → β → Prop} {l : List α} {m : List β}
    (h : ∀ a b, a ∈ l → b ∈ m → R a b → Q a b) (hf : Forall₂ R l m) : Forall₂ Q l m := by
  induction hf with
  | nil => exact .nil
  | cons hh _ ih =>
    exact .cons (h _ _ (List.mem_cons_self ..) (List.mem_cons_self ..) hh)
      (ih fun a b ha hb => h a b (List.mem_cons_of_mem _ ha) (List.mem_cons_of_mem _ hb))

/-! ## The way through the JSON text -/

/-- The value `v` goes through the JSON text and describes `x` then. -/
def Sent (reads : JVal → Val → Prop) (v : JVal) (x : Val) : Prop :=
  ∃ w, wire v = some w ∧ Canon w ∧ reads w x

theorem wireItems_eq {xs ws : List JVal} (h : Forall₂ (fun v w => wire v = some w) xs ws) :
    wireItems xs = some ws := by
  induction h with
  | nil => rfl
  | cons h1 _ ih => rw [wireItems, h1, ih]

theorem wireEntries_eq {xs ws : List (Str × JVal)}
    (h : Forall₂ (fun (v w : Str × JVal) => w.1 = v.1 ∧ wire v.2 = some w.2) xs ws) : wireEntries xs = some ws := by
  induction h with
  | nil => rfl
  | @cons v w xs ws h1 _ ih =>
    obtain ⟨k, v⟩ := v
    obtain ⟨k', w⟩ := w
    obtain ⟨hk, hw⟩ := h1
    simp only at hk hw
    rw [wireEntries, hw, ih, hk]

theorem sent_items {R : JVal → Val → Prop} {vs : List Val} {xs : List JVal} (h : Forall₂ (fun x v => Sent R v x) vs xs) :
    ∃ ws, wireItems xs = some ws ∧ (∀ w ∈ ws, Canon w) ∧ Forall₂ R ws vs := by
  induction h with
  | nil => exact ⟨[], rfl, fun w hw => (by cases hw), .nil⟩
  | @cons x v vs xs h1 _ ih =>
    obtain ⟨ws, hw, hc, hf⟩ := ih
    obtain ⟨w, e, c, r⟩ := h1
    refine ⟨w :: ws, by rw [wireItems, e, hw], ?_, .cons r hf⟩
    intro y hy
    rcases List.mem_cons.1 hy with rfl | hy
    · exact c
    · exact hc y hy

theorem sent_entries {α : Type} {Q : JVal → α → Prop} {vs : List (Str × α)} {xs : List (Str × JVal)}
    (h : Forall₂ (fun (x : Str × α) (v : Str × JVal) => v.1 = x.1 ∧ ∃ w, wire v.2 = some w ∧ Canon w ∧ Q w x.2) vs xs) :
    ∃ ws, wireEntries xs = some ws ∧ ws.map (·.1) = vs.map (·.1) ∧ (∀ w ∈ ws, Canon w.2) ∧
      Forall₂ (fun (w : Str × JVal) (x : Str × α) => w.1 = x.1 ∧ Q w.2 x.2) ws vs := by
  induction h with
  | nil => exact ⟨[], rfl, rfl, fun w hw => (by cases hw), .nil⟩
  | @cons x v vs xs h1 _ ih =>
    obtain ⟨ws, hw, hk, hc, hf⟩ := ih
    obtain ⟨k, v⟩ := v
    obtain ⟨e0, w, e, c, r⟩ := h1
    simp only at e0 e
    subst e0
    refine ⟨(x.1, w) :: ws, by rw [wireEntries, e, hw], by rw [List.map_cons, hk]; rfl, ?_, .cons ⟨rfl, r⟩ hf⟩
    intro y hy
    rcases List.mem_cons.1 hy with rfl | hy
    · exact c
    · exact hc y hy

/-- All the entries go through the JSON text. -/
def AllSent (m : GoMap JVal) : Prop := ∀ e ∈ m, ∃ w, wire e.2 = some w ∧ Canon w

theorem AllSent.put {m : GoMap JVal} (h : AllSent m) (k : Str) {v w : JVal} (hw : wire v = some w) (hc : Canon w) :
    AllSent (GoMap.put k v m) := by
  intro e he
  rcases GoMap.mem_put he with rfl | he
  · exact ⟨w, hw, hc⟩
  · exact h e he

theorem allSent_wire {m : GoMap JVal} (h : AllSent m) : ∃ ws, wireEntries m = some ws ∧
    ws.map (·.1) = m.map (·.1) ∧ (∀ e ∈ ws, Canon e.2) ∧
    (∀ k v, m.lookup k = some v → ∃ w, wire v = some w ∧ ws.lookup k = some w) ∧
    (∀ k, m.lookup k = none → ws.lookup k = none) := by
  induction m with
  | nil => exact ⟨[], rfl, rfl, fun e he => (by cases he), fun k v hk => (by cases hk), fun _ _ => rfl⟩
  | cons a m ih =>
    obtain ⟨k, v⟩ := a
    obtain ⟨ws, e1, e2, e3, e4, e5⟩ := ih fun e he => h e (List.mem_cons_of_mem _ he)
    obtain ⟨w, hw, hc⟩ := h (k, v) (List.mem_cons_self ..)
    simp only at hw
    refine ⟨(k, w) :: ws, by rw [wireEntries, hw, e1], by rw [List.map_cons, List.map_cons, e2], ?_, ?_, ?_⟩
    · intro e he
      rcases List.mem_cons.1 he with rfl | he
      · exact hc
      · exact e3 e he
    · intro k' v' hl
      rw [GoMap.lookup_step] at hl ⊢
      by_cases hk : k' = k
      · subst hk
        simp only [if_true, Option.some.injEq] at hl ⊢
        subst hl
        exact ⟨w, hw, rfl⟩
      · simp only [hk, if_false] at hl ⊢
        exact e4 k' v' hl
    · intro k' hl
      rw [GoMap.lookup_step] at hl ⊢
      by_cases hk : k' = k
      · subst hk
        simp at hl
      · simp only [hk, if_false] at hl ⊢
        exact e5 k' hl

/-! ## Values -/

section

variable {f : Val → Nat → Except Exc (JVal × Nat)} {R : JVal → Val → Prop}

theorem serItems_ok (vs : List Val) (h : ∀ x ∈ vs, ∀ r, ∃ v r', f x r = .ok (v, r') ∧ Sent R v x) (r : Nat) :
    ∃ xs r', serItems f vs r = .ok (xs, r') ∧ Forall₂ (fun x v => Sent R v x) vs xs := by
  induction vs generalizing r with
  | nil => exact ⟨[], r, rfl, .nil⟩
  | cons x vs ih =>
    obtain ⟨v, r1, e1, s1⟩ := h x (List.mem_cons_self ..) r
    obtain ⟨xs, r2, e2, s2⟩ := ih (fun y hy => h y (List.mem_cons_of_mem _ hy)) r1
    refine ⟨v :: xs, r2, ?_, .cons s1 s2⟩
    rw [serItems, e1]
    simp only [ok_bind]
    rw [e2]
    rfl

theorem serEntries_ok (l : List (Str × Val)) (h : ∀ e ∈ l, ∀ r, ∃ v r', f e.2 r = .ok (v, r') ∧ Sent R v e.2)
    (acc : GoMap JVal) (r : Nat) :
    ∃ xs r', serEntries f acc l r = .ok (GoMap.putAll acc xs, r') ∧
      Forall₂ (fun (x : Str × Val) (v : Str × JVal) => v.1 = x.1 ∧ ∃ w, wire v.2 = some w ∧ Canon w ∧ R w x.2) l xs := by
  induction l generalizing acc r with
  | nil => exact ⟨[], r, rfl, .nil⟩
  | cons e l ih =>
    obtain ⟨k, x⟩ := e
    obtain ⟨v, r1, e1, s1⟩ := h (k, x) (List.mem_cons_self ..) r
    obtain ⟨xs, r2, e2, s2⟩ := ih (fun y hy => h y (List.mem_cons_of_mem _ hy)) (GoMap.put k v acc) r1
    refine ⟨(k, v) :: xs, r2, ?_, .cons ⟨rfl, s1⟩ s2⟩
    simp only at e1
    rw [serEntries, e1]
    simp only [ok_bind]
    rw [e2]
    rfl

end

theorem sent_str {reads : JVal → Val → Prop} {s : Str} {x : Val} (h : reads (.str s) x) : Sent reads (.str s) x :=
  ⟨.str s, by rw [wire], .str s, h⟩

theorem ser_time (hfmt : ∀ t, L.formatTime t [] = []) (f : Str) (t : Time) :
    serTime L f (.time t) = .ok (.str (L.formatTime t (layout f))) := by
  show Except.ok (JVal.str (if layout f = [] then [] else L.formatTime t (layout f))) = _
  by_cases h : layout f = []
  · rw [if_pos h, h, hfmt]
  · rw [if_neg h]

/-- A value which satisfies its type is serialized to what describes it. -/
theorem ser_ty {registered : Str → Str → Prop} {ser : Str → Val → Nat → Except Exc (JVal × Nat)}
    {fits faith : Str → Val → Prop} {reads : Str → JVal → Val → Prop} (hO : O.Proper)
    (hfmt : ∀ t, L.formatTime t [] = [])
    (he : ∀ name x, fits name x → faith name x → ∀ r, ∃ v r', ser name x r = .ok (v, r') ∧ Sent (reads name) v x)
    (t : Ty) (x : Val) (hx : FitsTy L registered fits t x) (hf : FaithfulTy L faith t x) (r : Nat) :
    ∃ v r', serTy O L ser t x r = .ok (v, r') ∧ Sent (ReadsTy L registered reads t) v x := by
  have htime : ∀ f t, L.parseTime (layout f) (L.formatTime t (layout f)) = some t →
      ∃ s t', JVal.str (L.formatTime t (layout f)) = .str s ∧ L.parseTime (layout f) s = some t' ∧ Val.time t = .time t' :=
    fun f t h => ⟨_, t, rfl, h, rfl⟩
  induction t generalizing x r with
  | boolean =>
    obtain ⟨c, rfl⟩ := hx
    exact ⟨_, _, rfl, .bool c, by rw [wire], .bool c, c, rfl, rfl⟩
  | integer b =>
    obtain ⟨i, rfl, h1, h2⟩ := hx
    have hr := hf i rfl
    exact ⟨_, _, rfl, .float (.fin i), by rw [wire, hr], .float _, i, rfl, rfl, h1, h2⟩
  | float b =>
    obtain ⟨f, rfl, h1⟩ := hx
    obtain ⟨q, rfl⟩ := hf f rfl
    exact ⟨_, _, rfl, .float (.fin q), by rw [wire], .float _, _, rfl, rfl, h1⟩
  | string p =>
    obtain ⟨s, rfl, h1⟩ := hx
    exact ⟨_, _, rfl, sent_str ⟨s, rfl, rfl, h1⟩⟩
  | path p =>
    obtain ⟨s, rfl, h1⟩ := hx
    exact ⟨_, _, rfl, sent_str ⟨s, rfl, rfl, h1⟩⟩
  | date f =>
    obtain ⟨s, t, _, rfl⟩ := hx
    refine ⟨_, r, ?_, sent_str (htime f t (hf t rfl))⟩
    simp only [serTy, ser_time hfmt, ok_bind]; rfl
  | time f =>
    obtain ⟨s, t, _, rfl⟩ := hx
    refine ⟨_, r, ?_, sent_str (htime f t (hf t rfl))⟩
    simp only [serTy, ser_time hfmt, ok_bind]; rfl
  | datetime f =>
    obtain ⟨s, t, _, rfl⟩ := hx
    refine ⟨_, r, ?_, sent_str (htime f t (hf t rfl))⟩
    simp only [serTy, ser_time hfmt, ok_bind]; rfl
  | timeZone =>
    obtain ⟨s, z, h1, rfl⟩ := hx
    exact ⟨_, _, rfl, sent_str ⟨z, z, rfl, hf z rfl, rfl⟩⟩
  | duration =>
    obtain ⟨d, rfl, h1⟩ := hx
    exact ⟨_, _, rfl, sent_str ⟨_, d, rfl, Props.C15_go_round_trip_partial d h1 (hf d rfl), rfl⟩⟩
  | array t lo hi ih =>
    obtain ⟨vs, rfl, hs, hv⟩ := hx
    have hf := hf vs rfl
    obtain ⟨xs, r', e, s⟩ := serItems_ok (R := ReadsTy L registered reads t) vs (fun y hy r => ih y (hv y hy) (hf y hy) r) r
    obtain ⟨ws, hw, hc, hr⟩ := sent_items s
    refine ⟨.arr xs, r', ?_, .arr ws, by rw [wire, hw]; rfl, .arr ws hc, ws, vs, rfl, rfl, ?_, hr⟩
    · simp only [serTy, e, ok_bind]; rfl
    · rw [forall₂_length hr]; exact hs
  | map t ih =>
    obtain ⟨kvs, rfl, ha, hv⟩ := hx
    have hf := hf kvs rfl
    have hp := Order.visit_perm hO r kvs
    obtain ⟨xs, r', e, s⟩ := serEntries_ok (R := ReadsTy L registered reads t) (O.visit r kvs)
      (fun y hy r => ih y.2 (hv y (hp.mem_iff.1 hy)) (hf y (hp.mem_iff.1 hy)) r) [] (r + 1)
    obtain ⟨xs', hp', s'⟩ := forall₂_perm hp.symm s
    have hkeys : xs'.map (·.1) = kvs.map (·.1) := forall₂_keys (fun _ _ h => h.1) s'
    rw [GoMap.putAll_perm hp'.symm (ascending_of_keys hkeys ha)] at e
    obtain ⟨ws, hw, hk, hc, hr⟩ := sent_entries s'
    refine ⟨.obj xs', r', ?_, .obj ws, by rw [wire, hw]; rfl, .obj ws (ascending_of_keys hk ha) hc, ws, kvs, rfl, rfl, hr⟩
    simp only [serTy, e, ok_bind]; rfl
  | cls c =>
    obtain ⟨id, rfl, h1⟩ := hx
    exact ⟨_, _, rfl, sent_str ⟨id, rfl, rfl, h1⟩⟩
  | embed name => exact he name x hx hf r

/-! ## Properties -/

/-- The field is written, or it is optional and not set. -/
def Written (reads : Ty → JVal → Val → Prop) (m : GoMap JVal) (p : Property) (x : Val) : Prop :=
  (p.optional = true ∧ x = .nil ∧ m.lookup p.json = none) ∨ ∃ v, m.lookup p.json = some v ∧ Sent (reads p.ty) v x

theorem serProps_ok {ser : Ty → Val → Nat → Except Exc (JVal × Nat)} {reads : Ty → JVal → Val → Prop}
    (fields : Fields) (ps : List Property) (hn : (ps.map (·.json)).Nodup)
    (h : ∀ p ∈ ps, ∃ x, fields.lookup (field p) = some x ∧
      ((p.optional = true ∧ x = .nil) ∨ ∀ r, ∃ v r', ser p.ty x r = .ok (v, r') ∧ Sent (reads p.ty) v x))
    (m : GoMap JVal) (ha : GoMap.Ascending m) (hs : AllSent m) (hm : ∀ p ∈ ps, m.lookup p.json = none) (r : Nat) :
    ∃ m' r', serProps ser fields ps m r = .ok (m', r') ∧ GoMap.Ascending m' ∧ AllSent m' ∧
      (∀ k, k ∉ ps.map (·.json) → m'.lookup k = m.lookup k) ∧
      ∀ p ∈ ps, ∃ x, fields.lookup (field p) = some x ∧ Written reads m' p x := by
  induction ps generalizing m r with
  | nil => exact ⟨m, r, rfl, ha, hs, fun _ _ => rfl, fun p hp => (by cases hp)⟩
  | cons p ps ih =>
    rw [List.map_cons, List.nodup_cons] at hn
    obtain ⟨x, hl, hx⟩ := h p (List.mem_cons_self ..)
    have hrest : ∀ q ∈ ps, q.json ≠ p.json := by
      intro q hq he
      exact hn.1 (List.mem_map.2 ⟨q, hq, he⟩)
    by_cases hskip : p.optional = true ∧ x = .nil
    · obtain ⟨m', r', e, a', s', k', w'⟩ := ih hn.2 (fun q hq => h q (List.mem_cons_of_mem _ hq)) m ha hs
        (fun q hq => hm q (List.mem_cons_of_mem _ hq)) r
      refine ⟨m', r', ?_, a', s', ?_, ?_⟩
      · rw [serProps, hl, hskip.1, hskip.2]
        exact e
      · intro k hk
        rw [List.map_cons, List.mem_cons, not_or] at hk
        exact k' k hk.2
      · intro q hq
        rcases List.mem_cons.1 hq with rfl | hq
        · refine ⟨x, hl, .inl ⟨hskip.1, hskip.2, ?_⟩⟩
          rw [k' _ hn.1]
          exact hm _ (List.mem_cons_self ..)
        · exact w' q hq
    · rcases hx with hx | hx
      · exact absurd hx hskip
      · obtain ⟨v, r1, e1, s1⟩ := hx r
        have s1' := s1
        obtain ⟨w, hw, hcw, _⟩ := s1'
        obtain ⟨m', r', e, a', s', k', w'⟩ := ih hn.2 (fun q hq => h q (List.mem_cons_of_mem _ hq))
          (GoMap.put p.json v m) (ha.put _ _) (hs.put _ hw hcw)
          (fun q hq => by
            rw [GoMap.lookup_put, if_neg (hrest q hq)]
            exact hm q (List.mem_cons_of_mem _ hq)) r1
        refine ⟨m', r', ?_, a', s', ?_, ?_⟩
        · rw [serProps, hl]
          simp only
          split
          · next h1 h2 => exact absurd ⟨by assumption, rfl⟩ hskip
          · rw [e1]
            simp only [ok_bind]
            exact e
        · intro k hk
          rw [List.map_cons, List.mem_cons, not_or] at hk
          rw [k' k hk.2, GoMap.lookup_put, if_neg hk.1]
        · intro q hq
          rcases List.mem_cons.1 hq with rfl | hq
          · refine ⟨x, hl, .inr ⟨v, ?_, s1⟩⟩
            rw [k' _ hn.1, GoMap.lookup_put, if_pos rfl]
          · exact w' q hq

/-- The fields in the order of the properties -/
theorem fields_lookup {R : Property → Str × Val → Prop} (hR : ∀ p f, R p f → f.1 = goName p.name) {ps : List Property}
    {fields : Fields} (h : Forall₂ R ps fields) (hn : (ps.map field).Nodup) :
    ∀ p ∈ ps, ∃ x, fields.lookup (field p) = some x ∧ R p (field p, x) := by
  have hk : fields.map (·.1) = ps.map field := by
    clear hn
    induction h with
    | nil => rfl
    | cons h1 _ ih => rw [List.map_cons, List.map_cons, ih, hR _ _ h1]; rfl
  intro p hp
  obtain ⟨f, hf, hr⟩ := forall₂_left h hp
  obtain ⟨k, x⟩ := f
  have hkk : k = field p := hR _ _ hr
  subst hkk
  exact ⟨x, GoMap.lookup_of_mem (by rw [hk]; exact hn) hf, hr⟩

/-- The same, back again -/
theorem forall₂_of_lookup {Q : Property → Val → Prop} {R : Property → Str × Val → Prop}
    (hR : ∀ p f, R p f → f.1 = goName p.name) {ps : List Property} {fields : Fields} (h : Forall₂ R ps fields)
    (hn : (ps.map field).Nodup) (hq : ∀ p ∈ ps, ∃ x, fields.lookup (field p) = some x ∧ Q p x) :
    Forall₂ (fun p (f : Str × Val) => f.1 = goName p.name ∧ Q p f.2) ps fields := by
  have hk : fields.map (·.1) = ps.map field := by
    clear hn hq
    induction h with
    | nil => rfl
    | cons h1 _ ih => rw [List.map_cons, List.map_cons, ih, hR _ _ h1]; rfl
  refine forall₂_imp_mem (R := R) (fun p f hp hf hr => ⟨hR p f hr, ?_⟩) h
  obtain ⟨x, hl, hx⟩ := hq p hp
  obtain ⟨k, y⟩ := f
  have hkk : k = field p := hR _ _ hr
  subst hkk
  rw [GoMap.lookup_of_mem (by rw [hk]; exact hn) hf] at hl
  cases hl
  exact hx

/-- The properties of a structure or of the graph -/
theorem ser_props {ser : Ty → Val → Nat → Except Exc (JVal × Nat)} {reads : Ty → JVal → Val → Prop}
    {fits faith : Ty → Val → Prop}
    (h : ∀ t x, fits t x → faith t x → ∀ r, ∃ v r', ser t x r = .ok (v, r') ∧ Sent (reads t) v x)
    (ps : List Property) (hn : (ps.map field).Nodup) (hj : (ps.map (·.json)).Nodup) (fields : Fields)
    (hx : FitsProps fits ps fields) (hf : FaithfulProps faith ps fields) (r : Nat) :
    ∃ m r', serProps ser fields ps [] r = .ok (m, r') ∧ GoMap.Ascending m ∧ AllSent m ∧
      (∀ k, k ∉ ps.map (·.json) → m.lookup k = none) ∧
      ∀ p ∈ ps, ∃ x, fields.lookup (field p) = some x ∧ Written reads m p x := by
  refine serProps_ok fields ps hj ?_ [] List.Pairwise.nil (fun e he => (by cases he)) (fun _ _ => rfl) r
  intro p hp
  obtain ⟨x, hl, hq⟩ := fields_lookup (fun _ _ h => h.1) hx hn p hp
  refine ⟨x, hl, ?_⟩
  by_cases hnil : p.optional = true ∧ x = .nil
  · exact .inl hnil
  · rcases hq.2 with hq | hq
    · exact absurd hq hnil
    · exact .inr (h p.ty x hq (hf p hp x hl))

/-- What is written describes the fields. -/
theorem reads_of_written {reads : Ty → JVal → Val → Prop} {fits : Ty → Val → Prop} {ps : List Property}
    (hn : (ps.map field).Nodup) {fields : Fields} (hx : FitsProps fits ps fields) {m : GoMap JVal}
    (hw : ∀ p ∈ ps, ∃ x, fields.lookup (field p) = some x ∧ Written reads m p x) {ws : List (Str × JVal)}
    (h4 : ∀ k v, m.lookup k = some v → ∃ w, wire v = some w ∧ ws.lookup k = some w)
    (h5 : ∀ k, m.lookup k = none → ws.lookup k = none) : ReadsProps reads ws ps fields := by
  refine forall₂_of_lookup (fun _ _ h => h.1) hx hn fun p hp => ?_
  obtain ⟨x, hl, hx⟩ := hw p hp
  refine ⟨x, hl, ?_⟩
  unfold ReadsProperty
  rcases hx with ⟨ho, hnil, hm⟩ | ⟨v, hm, w, hwv, _, hr⟩
  · rw [h5 _ hm]; exact ⟨ho, hnil⟩
  · obtain ⟨w', hw', hl'⟩ := h4 _ _ hm
    rw [hwv] at hw'
    cases hw'
    rw [hl']
    exact hr

/-- A structure is serialized to what describes its fields. -/
theorem ser_composite {ser : Ty → Val → Nat → Except Exc (JVal × Nat)} {reads : Ty → JVal → Val → Prop}
    {fits faith : Ty → Val → Prop}
    (h : ∀ t x, fits t x → faith t x → ∀ r, ∃ v r', ser t x r = .ok (v, r') ∧ Sent (reads t) v x)
    (ps : List Property) (hn : (ps.map field).Nodup) (hj : (ps.map (·.json)).Nodup) (fields : Fields)
    (hx : FitsProps fits ps fields) (hf : FaithfulProps faith ps fields) (r : Nat) :
    ∃ v r', serComposite ser ps fields r = .ok (v, r') ∧ ∃ ws, wire v = some (.obj ws) ∧ Canon (.obj ws) ∧
      ReadsProps reads ws ps fields := by
  obtain ⟨m, r', e, ha, hs, _, hw⟩ := ser_props h ps hn hj fields hx hf r
  obtain ⟨ws, h1, h2, h3, h4, h5⟩ := allSent_wire hs
  refine ⟨.obj m, r', ?_, ws, by rw [wire, h1]; rfl, .obj ws (ascending_of_keys h2 ha) h3, reads_of_written hn hx hw h4 h5⟩
  unfold serComposite
  rw [e]
  rfl

theorem ser_embed {registered : Str → Str → Prop} (hO : O.Proper) (hfmt : ∀ t, L.formatTime t [] = [])
    (hD : Distinct g) (hJ : JsonKeys g) (n : Nat) :
    ∀ name x, FitsEmbed L g registered n name x → FaithfulEmbed L g n name x → ∀ r,
      ∃ v r', serEmbed O L g n name x r = .ok (v, r') ∧ Sent (ReadsEmbed L g registered n name) v x := by
  induction n with
  | zero => intro name x h; exact h.elim
  | succ n ih =>
    rintro name x ⟨e, fields, he, rfl, hx⟩ hf r
    have hmem := embed_mem he
    obtain ⟨v, r', e1, ws, hw, hc, hr⟩ := ser_composite (ser_ty (registered := registered) hO hfmt ih) e.properties
      (hD.embed e hmem) (hJ.embed e hmem) fields hx (hf e fields he rfl) r
    refine ⟨v, r', ?_, .obj ws, hw, hc, e, ws, fields, he, rfl, rfl, hr⟩
    rw [serEmbed, he]
    exact e1

theorem ser_value {registered : Str → Str → Prop} (hO : O.Proper) (hfmt : ∀ t, L.formatTime t [] = [])
    (hD : Distinct g) (hJ : JsonKeys g) (n : Nat) (t : Ty) (x : Val) (hx : Fits L g registered n t x)
    (hf : Faithful L g n t x) (r : Nat) :
    ∃ v r', serTy O L (serEmbed O L g n) t x r = .ok (v, r') ∧ Sent (Reads L g registered n t) v x :=
  ser_ty hO hfmt (ser_embed hO hfmt hD hJ n) t x hx hf r

/-! ## Registries -/

theorem serInstances_ok {ser : Ty → Val → Nat → Except Exc (JVal × Nat)} {reads : Ty → JVal → Val → Prop}
    {fits faith : Ty → Val → Prop}
    (h : ∀ t x, fits t x → faith t x → ∀ r, ∃ v r', ser t x r = .ok (v, r') ∧ Sent (reads t) v x)
    (c : Class) (hn : (c.properties.map field).Nodup) (hj : (c.properties.map (·.json)).Nodup)
    (l : List (Str × Instance))
    (hl : ∀ i ∈ l, i.2.id = i.1 ∧ FitsProps fits c.properties i.2.fields ∧ FaithfulProps faith c.properties i.2.fields)
    (acc : GoMap JVal) (r : Nat) :
    ∃ xs r', serInstances L ser c acc l r = .ok (GoMap.putAll acc xs, r') ∧
      Forall₂ (fun (i : Str × Instance) (v : Str × JVal) => v.1 = i.1 ∧ ∃ w, wire v.2 = some w ∧ Canon w ∧
        i.2.id = i.1 ∧ ∃ kvs', w = .obj kvs' ∧ ReadsProps reads kvs' c.properties i.2.fields) l xs := by
  induction l generalizing acc r with
  | nil => exact ⟨[], r, rfl, .nil⟩
  | cons i l ih =>
    obtain ⟨id, inst⟩ := i
    obtain ⟨hid, hx, hf⟩ := hl (id, inst) (List.mem_cons_self ..)
    obtain ⟨v, r1, e1, ws, hw, hc, hr⟩ := ser_composite h c.properties hn hj inst.fields hx hf r
    obtain ⟨xs, r2, e2, s2⟩ := ih (fun y hy => hl y (List.mem_cons_of_mem _ hy)) (GoMap.put id v acc) r1
    refine ⟨(id, v) :: xs, r2, ?_, .cons ⟨rfl, .obj ws, hw, hc, hid, ws, rfl, hr⟩ s2⟩
    rw [serInstances, if_neg (by simp only at hid; simp [hid]), e1]
    simp only [ok_bind]
    rw [e2]
    rfl

/-- The registry is written unless it is empty. -/
def RegWritten (reads : Ty → JVal → Val → Prop) (m : GoMap JVal) (c : Class) (reg : GoMap Instance) : Prop :=
  (reg = [] ∧ m.lookup (registryKey c) = none) ∨
  ∃ v es, m.lookup (registryKey c) = some v ∧ wire v = some (.obj es) ∧ Forall₂ (InstReads reads c) es reg

theorem serRegistries_ok {ser : Ty → Val → Nat → Except Exc (JVal × Nat)} {reads : Ty → JVal → Val → Prop}
    {fits faith : Ty → Val → Prop} (hO : O.Proper)
    (h : ∀ t x, fits t x → faith t x → ∀ r, ∃ v r', ser t x r = .ok (v, r') ∧ Sent (reads t) v x)
    (gv : GraphVal) (cs : List Class) (hk : (cs.map registryKey).Nodup)
    (hcs : ∀ c ∈ cs, (c.properties.map field).Nodup ∧ (c.properties.map (·.json)).Nodup ∧
      GoMap.Ascending (gv.registry c.name) ∧ ∀ i ∈ gv.registry c.name, i.2.id = i.1 ∧
        FitsProps fits c.properties i.2.fields ∧ FaithfulProps faith c.properties i.2.fields)
    (m : GoMap JVal) (ha : GoMap.Ascending m) (hs : AllSent m) (hm : ∀ c ∈ cs, m.lookup (registryKey c) = none) (r : Nat) :
    ∃ m' r', serRegistries O L ser gv cs m r = .ok (m', r') ∧ GoMap.Ascending m' ∧ AllSent m' ∧
      (∀ k, k ∉ cs.map registryKey → m'.lookup k = m.lookup k) ∧
      ∀ c ∈ cs, RegWritten reads m' c (gv.registry c.name) := by
  induction cs generalizing m r with
  | nil => exact ⟨m, r, rfl, ha, hs, fun _ _ => rfl, fun c hc => (by cases hc)⟩
  | cons c cs ih =>
    rw [List.map_cons, List.nodup_cons] at hk
    have hrest : ∀ d ∈ cs, registryKey d ≠ registryKey c := by
      intro d hd he
      exact hk.1 (List.mem_map.2 ⟨d, hd, he⟩)
    have hcs' := fun d hd => hcs d (List.mem_cons_of_mem _ hd)
    cases hreg : (gv.registry c.name).isEmpty with
    | true =>
      obtain ⟨m', r', e, a', s', k', w'⟩ := ih hk.2 hcs' m ha hs (fun d hd => hm d (List.mem_cons_of_mem _ hd)) r
      refine ⟨m', r', ?_, a', s', ?_, ?_⟩
      · rw [serRegistries, hreg]
        exact e
      · intro k hkk
        rw [List.map_cons, List.mem_cons, not_or] at hkk
        exact k' k hkk.2
      · intro d hd
        rcases List.mem_cons.1 hd with rfl | hd
        · refine .inl ⟨List.isEmpty_iff.1 hreg, ?_⟩
          rw [k' _ hk.1]
          exact hm _ (List.mem_cons_self ..)
        · exact w' d hd
    | false =>
      obtain ⟨h1, h2, hasc, h3⟩ := hcs c (List.mem_cons_self ..)
      have hp := Order.visit_perm hO r (gv.registry c.name)
      obtain ⟨xs, r1, e1, s1⟩ := serInstances_ok (L := L) h c h1 h2 (O.visit r (gv.registry c.name))
        (fun i hi => h3 i (hp.mem_iff.1 hi)) [] (r + 1)
      obtain ⟨xs', hp', s1'⟩ := forall₂_perm hp.symm s1
      have hkeys : xs'.map (·.1) = (gv.registry c.name).map (·.1) := forall₂_keys (fun _ _ h => h.1) s1'
      rw [GoMap.putAll_perm hp'.symm (ascending_of_keys hkeys hasc)] at e1
      obtain ⟨ws, hw, hwk, hwc, hwr⟩ := sent_entries (Q := fun w (i : Instance) =>
        ∃ kvs', w = .obj kvs' ∧ ReadsProps reads kvs' c.properties i.fields)
        (s1'.imp fun i v hv => ⟨hv.1, hv.2.choose, hv.2.choose_spec.1, hv.2.choose_spec.2.1, hv.2.choose_spec.2.2.2⟩)
      have hwire : wire (.obj xs') = some (.obj ws) := by rw [wire, hw]; rfl
      have hcw : Canon (.obj ws) := .obj ws (ascending_of_keys hwk hasc) hwc
      obtain ⟨m', r', e, a', s', k', w'⟩ := ih hk.2 hcs' (GoMap.put (registryKey c) (.obj xs') m) (ha.put _ _)
        (hs.put _ hwire hcw) (fun d hd => by
          rw [GoMap.lookup_put, if_neg (hrest d hd)]
          exact hm d (List.mem_cons_of_mem _ hd)) r1
      refine ⟨m', r', ?_, a', s', ?_, ?_⟩
      · rw [serRegistries, hreg]
        simp only [Bool.false_eq_true, if_false]
        rw [e1]
        simp only [ok_bind]
        exact e
      · intro k hkk
        rw [List.map_cons, List.mem_cons, not_or] at hkk
        rw [k' k hkk.2, GoMap.lookup_put, if_neg hkk.1]
      · intro d hd
        rcases List.mem_cons.1 hd with rfl | hd
        · refine .inr ⟨.obj xs', ws, ?_, hwire, ?_⟩
          · rw [k' _ hk.1, GoMap.lookup_put, if_pos rfl]
          · refine forall₂_imp_mem (fun e i _ hi he => ⟨he.1.symm, (h3 i hi).1.trans he.1.symm, he.2⟩) hwr
        · exact w' d hd

/-! ## The graph -/

theorem reads_mono {ids ids' : Str → Str → Prop} (h : ∀ c id, ids c id → ids' c id) {reads reads' : Str → JVal → Val → Prop}
    (he : ∀ name v x, reads name v x → reads' name v x) (t : Ty) (v : JVal) (x : Val)
    (hr : ReadsTy L ids reads t v x) : ReadsTy L ids' reads' t v x := by
  induction t generalizing v x with
  | array t lo hi ih =>
    obtain ⟨xs, vs, h1, h2, h3, h4⟩ := hr
    exact ⟨xs, vs, h1, h2, h3, h4.imp fun _ _ => ih _ _⟩
  | map t ih =>
    obtain ⟨kvs, ws, h1, h2, h4⟩ := hr
    exact ⟨kvs, ws, h1, h2, h4.imp fun _ _ h => ⟨h.1, ih _ _ h.2⟩⟩
  | cls c =>
    obtain ⟨id, h1, h2, h3⟩ := hr
    exact ⟨id, h1, h2, h c id h3⟩
  | embed name => exact he name v x hr
  | _ => exact hr

theorem readsProps_mono {reads reads' : Ty → JVal → Val → Prop} (h : ∀ t v x, reads t v x → reads' t v x)
    {kvs : List (Str × JVal)} {ps : List Property} {fields : Fields} (hr : ReadsProps reads kvs ps fields) :
    ReadsProps reads' kvs ps fields := by
  unfold ReadsProps at *
  refine hr.imp fun p f hp => ⟨hp.1, ?_⟩
  have := hp.2
  unfold ReadsProperty at *
  split
  · next hl => rw [hl] at this; exact this
  · next v hl => rw [hl] at this; exact h _ _ _ this

theorem readsEmbed_mono {ids ids' : Str → Str → Prop} (h : ∀ c id, ids c id → ids' c id) (n : Nat) :
    ∀ name v x, ReadsEmbed L g ids n name v x → ReadsEmbed L g ids' n name v x := by
  induction n with
  | zero => intro name v x hr; exact hr
  | succ n ih =>
    rintro name v x ⟨e, kvs, fields, h1, h2, h3, h4⟩
    exact ⟨e, kvs, fields, h1, h2, h3, readsProps_mono (reads_mono h ih) h4⟩

theorem registries_names {cs : List Class} {rs : List (Str × GoMap Instance)}
    (h : Forall₂ (fun (c : Class) (r : Str × GoMap Instance) => r.1 = c.name) cs rs) :
    rs.map (·.1) = cs.map Class.name := by
  induction h with
  | nil => rfl
  | cons h1 _ ih => rw [List.map_cons, List.map_cons, ih, h1]

/-- A graph which satisfies the schema is serialized to what describes it. -/
theorem ser_graph (hO : O.Proper) (hfmt : ∀ t, L.formatTime t [] = []) (hD : Distinct g) (hJ : JsonKeys g) (n : Nat)
    (gv : GraphVal) (hv : ValidGraph L g n gv) (hf : FaithfulGraph L g n gv) (r : Nat) :
    ∃ v r' w, serGraph O L g n gv r = .ok (v, r') ∧ wire v = some w ∧ Canon w ∧ ReadsGraph L g n w gv := by
  have hJ1 := List.nodup_append.1 hJ.graph
  have hval := ser_value (registered := Registered gv) (L := L) hO hfmt hD hJ n
  obtain ⟨m, r1, e1, ha, hs, hk, hw⟩ := ser_props hval g.properties hD.graph hJ1.1 gv.fields hv.fields hf.fields r
  -- the registry of a class
  have hnames : gv.registries.map (·.1) = g.classes.map Class.name :=
    registries_names (hv.registries.imp fun _ _ h => h.1)
  have hreg : ∀ c (r : GoMap Instance), (c, r) ∈ gv.registries → gv.registry c = r := by
    intro c r hm
    unfold GraphVal.registry
    rw [GoMap.lookup_of_mem (by rw [hnames]; exact hD.names) hm]
    rfl
  have hclass : ∀ c ∈ g.classes, (c.name, gv.registry c.name) ∈ gv.registries ∧ GoMap.Ascending (gv.registry c.name) ∧
      ∀ i ∈ gv.registry c.name, i.2.id = i.1 ∧ Matches L c.idPattern i.1 ∧
        FitsProps (Fits L g (Registered gv) n) c.properties i.2.fields := by
    intro c hc
    obtain ⟨⟨k, reg⟩, hm, h1, h2, h3⟩ := forall₂_left hv.registries hc
    simp only at h1 h2 h3
    subst h1
    rw [hreg _ _ hm]
    exact ⟨hm, h2, h3⟩
  have hkeys : (g.classes.map registryKey).Nodup := hJ1.2.1
  obtain ⟨m', r2, e2, ha', hs', hk', hw'⟩ := serRegistries_ok (L := L) hO hval gv g.classes hkeys (by
    intro c hc
    obtain ⟨h1, h2, h3⟩ := hclass c hc
    refine ⟨hD.cls c hc, hJ.cls c hc, h2, fun i hi => ⟨(h3 i hi).1, (h3 i hi).2.2, ?_⟩⟩
    exact hf.registries c hc _ (GoMap.lookup_of_mem (by rw [hnames]; exact hD.names) h1) i hi) m ha hs (by
    intro c hc
    refine hk _ fun hm => ?_
    exact hJ1.2.2 _ hm _ (List.mem_map.2 ⟨c, hc, rfl⟩) rfl) r1
  obtain ⟨ws, h1, h2, h3, h4, h5⟩ := allSent_wire hs'
  refine ⟨.obj m', r2, .obj ws, ?_, by rw [wire, h1]; rfl, .obj ws (ascending_of_keys h2 ha') h3, ?_⟩
  · unfold serGraph
    simp only
    rw [e1]
    simp only [ok_bind]
    rw [e2]
    rfl
  · -- the registered instances are described
    have hids : ∀ c id, Registered gv c id → Described g ws c id := by
      rintro c id ⟨reg, hm, i, hi⟩
      obtain ⟨d, hd, hdn, _⟩ := forall₂_right hv.registries hm
      simp only at hdn
      subst hdn
      refine ⟨d, hd, rfl, ?_⟩
      rcases hw' d hd with ⟨h0, _⟩ | ⟨v, es, hl, hwv, hfe⟩
      · rw [hreg _ _ hm] at h0; subst h0; cases hi
      · obtain ⟨w, hw1, hl1⟩ := h4 _ _ hl
        rw [hwv] at hw1
        cases hw1
        refine ⟨es, hl1, ?_⟩
        rw [← inst_keys hfe, hreg _ _ hm]
        exact List.mem_map.2 ⟨_, hi, rfl⟩
    have hmono : ∀ t v x, Reads L g (Registered gv) n t v x → Reads L g (Described g ws) n t v x :=
      reads_mono hids (readsEmbed_mono hids n)
    refine ⟨ws, rfl, ?_, ?_⟩
    · refine forall₂_imp_mem (fun c reg hc hm hq => ⟨hq.1, ?_⟩) hv.registries
      obtain ⟨k, reg⟩ := reg
      obtain ⟨hk1, hq⟩ := hq
      simp only at hk1 hq ⊢
      subst hk1
      have hrw := hw' c hc
      rw [hreg _ _ hm] at hrw
      rcases hrw with ⟨h0, hl⟩ | ⟨v, es, hl, hwv, hfe⟩
      · exact .inl ⟨h5 _ hl, h0⟩
      · obtain ⟨w, hw1, hl1⟩ := h4 _ _ hl
        rw [hwv] at hw1
        cases hw1
        refine .inr ⟨es, hl1, ?_⟩
        refine forall₂_imp_mem (fun e i _ hi he => ⟨he.1, he.2.1, ?_, ?_⟩) hfe
        · rw [← he.1]; exact (hq.2 i hi).2.1
        · obtain ⟨kvs', hk2, hp⟩ := he.2.2
          exact ⟨kvs', hk2, readsProps_mono hmono hp⟩
    · refine readsProps_mono hmono (reads_of_written hD.graph hv.fields (fun p hp => ?_) h4 h5)
      obtain ⟨x, hl, hx⟩ := hw p hp
      refine ⟨x, hl, ?_⟩
      have hke : m'.lookup p.json = m.lookup p.json := by
        refine hk' _ fun hm => ?_
        exact hJ1.2.2 _ (List.mem_map.2 ⟨p, hp, rfl⟩) _ hm rfl
      unfold Written at *
      rw [hke]
      exact hx

end Mapry.GoRuntime
