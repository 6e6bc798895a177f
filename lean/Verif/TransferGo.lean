import Verif.TransferMeans
import Verif.GoSer

/-!
# The documents written in Go
-/

namespace Mapry.Interop

open Mapry.Duration Mapry.Text
open Mapry.PyRuntime.Spec (Within FloatWithin SizeWithin boolNum)
open GoRuntime GoRuntime.Spec

theorem goTexts_iff : ∀ {xs : List JVal} {ds : List Doc}, GoTexts xs ds ↔ Forall₂ GoText xs ds
  | [], ds => by
    rw [GoTexts]
    exact ⟨fun h => h ▸ .nil, fun h => by cases h; rfl⟩
  | x :: xs, ds => by
    rw [GoTexts]
    constructor
    · rintro ⟨e, es, rfl, h1, h2⟩
      exact .cons h1 (goTexts_iff.1 h2)
    · intro h
      cases h with
      | cons h1 h2 => exact ⟨_, _, rfl, h1, goTexts_iff.2 h2⟩

theorem goMembers_iff : ∀ {xs : List (Str × JVal)} {ds : List (Str × Doc)},
    GoMembers xs ds ↔ Forall₂ (Member GoText) xs ds
  | [], ds => by
    rw [GoMembers]
    exact ⟨fun h => h ▸ .nil, fun h => by cases h; rfl⟩
  | x :: xs, ds => by
    rw [GoMembers]
    constructor
    · rintro ⟨e, es, rfl, h0, h1, h2⟩
      exact .cons ⟨h0, h1⟩ (goMembers_iff.1 h2)
    · intro h
      cases h with
      | cons h1 h2 => exact ⟨_, _, rfl, h1.1, h1.2, goMembers_iff.2 h2⟩

/-! ## The serializer without the way through the JSON text -/

section

variable {f : Val → Nat → Except Exc (JVal × Nat)} {R : JVal → Val → Prop}

theorem goItems_ok (vs : List Val) (h : ∀ x ∈ vs, ∀ r, ∃ v r', f x r = .ok (v, r') ∧ R v x) (r : Nat) :
    ∃ xs r', serItems f vs r = .ok (xs, r') ∧ Forall₂ R xs vs := by
  induction vs generalizing r with
  | nil => exact ⟨[], r, rfl, .nil⟩
  | cons x vs ih =>
    obtain ⟨v, r1, e1, s1⟩ := h x (List.mem_cons_self ..) r
    obtain ⟨xs, r2, e2, s2⟩ := ih (fun y hy => h y (List.mem_cons_of_mem _ hy)) r1
    refine ⟨v :: xs, r2, ?_, .cons s1 s2⟩
    rw [serItems, e1]
    simp only [ok_bind]
    rw [e2]
    rfl

theorem goEntries_ok (l : List (Str × Val)) (h : ∀ e ∈ l, ∀ r, ∃ v r', f e.2 r = .ok (v, r') ∧ R v e.2)
    (acc : GoMap JVal) (r : Nat) :
    ∃ xs r', serEntries f acc l r = .ok (GoMap.putAll acc xs, r') ∧
      Forall₂ (fun (x : Str × Val) (v : Str × JVal) => v.1 = x.1 ∧ R v.2 x.2) l xs := by
  induction l generalizing acc r with
  | nil => exact ⟨[], r, rfl, .nil⟩
  | cons e l ih =>
    obtain ⟨k, x⟩ := e
    obtain ⟨v, r1, e1, s1⟩ := h (k, x) (List.mem_cons_self ..) r
    obtain ⟨xs, r2, e2, s2⟩ := ih (fun y hy => h y (List.mem_cons_of_mem _ hy)) (GoMap.put k v acc) r1
    refine ⟨(k, v) :: xs, r2, ?_, .cons ⟨rfl, s1⟩ s2⟩
    simp only at e1
    rw [serEntries, e1]
    simp only [ok_bind]
    rw [e2]
    rfl

end

theorem forall₂_swap {α β : Type} {R : α → β → Prop} {l : List α} {m : List β} (h : Forall₂ R l m) :
    Forall₂ (fun b a => R a b) m l := by
  induction h with
  | nil => exact .nil
  | cons h _ ih => exact .cons h ih

/-- The field is written, or it is optional and not set. -/
def GoWritten (R : Ty → JVal → Val → Prop) (m : GoMap JVal) (p : Property) (x : Val) : Prop :=
  (p.optional = true ∧ x = .nil ∧ m.lookup p.json = none) ∨ ∃ v, m.lookup p.json = some v ∧ R p.ty v x

section

variable {ser : Ty → Val → Nat → Except Exc (JVal × Nat)} {R : Ty → JVal → Val → Prop} {fits : Ty → Val → Prop}

theorem goProps_ok (fields : GoRuntime.Fields) (ps : List Property) (hn : (ps.map (·.json)).Nodup)
    (h : ∀ p ∈ ps, ∃ x, fields.lookup (field p) = some x ∧
      ((p.optional = true ∧ x = .nil) ∨ ∀ r, ∃ v r', ser p.ty x r = .ok (v, r') ∧ R p.ty v x))
    (m : GoMap JVal) (ha : GoMap.Ascending m) (hm : ∀ p ∈ ps, m.lookup p.json = none) (r : Nat) :
    ∃ m' r', serProps ser fields ps m r = .ok (m', r') ∧ GoMap.Ascending m' ∧
      (∀ k, k ∉ ps.map (·.json) → m'.lookup k = m.lookup k) ∧
      ∀ p ∈ ps, ∃ x, fields.lookup (field p) = some x ∧ GoWritten R m' p x := by
  induction ps generalizing m r with
  | nil => exact ⟨m, r, rfl, ha, fun _ _ => rfl, fun p hp => (by cases hp)⟩
  | cons p ps ih =>
    rw [List.map_cons, List.nodup_cons] at hn
    obtain ⟨x, hl, hx⟩ := h p (List.mem_cons_self ..)
    have hrest : ∀ q ∈ ps, q.json ≠ p.json := by
      intro q hq he
      exact hn.1 (List.mem_map.2 ⟨q, hq, he⟩)
    by_cases hskip : p.optional = true ∧ x = .nil
    · obtain ⟨m', r', e, a', k', w'⟩ := ih hn.2 (fun q hq => h q (List.mem_cons_of_mem _ hq)) m ha
        (fun q hq => hm q (List.mem_cons_of_mem _ hq)) r
      refine ⟨m', r', ?_, a', ?_, ?_⟩
      · rw [serProps, hl, hskip.1, hskip.2]
        exact e
      · intro k hk
        rw [List.map_cons, List.mem_cons, not_or] at hk
        exact k' k hk.2
      · intro q hq
        rcases List.mem_cons.1 hq with rfl | hq
        · refine ⟨x, hl, .inl ⟨hskip.1, hskip.2, ?_⟩⟩
          rw [k' _ hn.1]
          exact hm _ (List.mem_cons_self ..)
        · exact w' q hq
    · rcases hx with hx | hx
      · exact absurd hx hskip
      · obtain ⟨v, r1, e1, s1⟩ := hx r
        obtain ⟨m', r', e, a', k', w'⟩ := ih hn.2 (fun q hq => h q (List.mem_cons_of_mem _ hq))
          (GoMap.put p.json v m) (ha.put _ _)
          (fun q hq => by
            rw [GoMap.lookup_put, if_neg (hrest q hq)]
            exact hm q (List.mem_cons_of_mem _ hq)) r1
        refine ⟨m', r', ?_, a', ?_, ?_⟩
        · rw [serProps, hl]
          simp only
          split
          · next h1 h2 => exact absurd ⟨by assumption, rfl⟩ hskip
          · rw [e1]
            simp only [ok_bind]
            exact e
        · intro k hk
          rw [List.map_cons, List.mem_cons, not_or] at hk
          rw [k' k hk.2, GoMap.lookup_put, if_neg hk.1]
        · intro q hq
          rcases List.mem_cons.1 hq with rfl | hq
          · refine ⟨x, hl, .inr ⟨v, ?_, s1⟩⟩
            rw [k' _ hn.1, GoMap.lookup_put, if_pos rfl]
          · exact w' q hq

variable (h : ∀ t x, fits t x → ∀ r, ∃ v r', ser t x r = .ok (v, r') ∧ R t v x)

include h

/-- The properties of a structure or of the graph -/
theorem go_ser_props (ps : List Property) (hn : (ps.map field).Nodup) (hj : (ps.map (·.json)).Nodup)
    (fields : GoRuntime.Fields) (hx : FitsProps fits ps fields) (r : Nat) :
    ∃ m r', serProps ser fields ps [] r = .ok (m, r') ∧ GoMap.Ascending m ∧
      (∀ k, k ∉ ps.map (·.json) → m.lookup k = none) ∧
      ∀ p ∈ ps, ∃ x, fields.lookup (field p) = some x ∧ GoWritten R m p x := by
  refine goProps_ok fields ps hj ?_ [] List.Pairwise.nil (fun _ _ => rfl) r
  intro p hp
  obtain ⟨x, hl, hq⟩ := fields_lookup (fun _ _ h => h.1) hx hn p hp
  refine ⟨x, hl, ?_⟩
  by_cases hnil : p.optional = true ∧ x = .nil
  · exact .inl hnil
  · rcases hq.2 with hq | hq
    · exact absurd hq hnil
    · exact .inr (h p.ty x hq)

omit h in
theorem go_reads_of_written {ps : List Property} (hn : (ps.map field).Nodup) {fields : GoRuntime.Fields}
    (hx : FitsProps fits ps fields) {m : GoMap JVal}
    (hw : ∀ p ∈ ps, ∃ x, fields.lookup (field p) = some x ∧ GoWritten R m p x) : ReadsProps R m ps fields := by
  refine forall₂_of_lookup (fun _ _ h => h.1) hx hn fun p hp => ?_
  obtain ⟨x, hl, hx⟩ := hw p hp
  refine ⟨x, hl, ?_⟩
  unfold ReadsProperty
  rcases hx with ⟨ho, hnil, hm⟩ | ⟨v, hm, hr⟩
  · rw [hm]; exact ⟨ho, hnil⟩
  · rw [hm]; exact hr

/-- The object has members only for the properties, and they describe the fields. -/
def GoObject (R : Ty → JVal → Val → Prop) (ps : List Property) (v : JVal) (fields : GoRuntime.Fields) : Prop :=
  ∃ m : GoMap JVal, v = .obj m ∧ GoMap.Ascending m ∧ (∀ k, k ∉ ps.map (·.json) → m.lookup k = none) ∧
    ReadsProps R m ps fields

theorem go_ser_composite (ps : List Property) (hn : (ps.map field).Nodup) (hj : (ps.map (·.json)).Nodup)
    (fields : GoRuntime.Fields) (hx : FitsProps fits ps fields) (r : Nat) :
    ∃ v r', serComposite ser ps fields r = .ok (v, r') ∧ GoObject R ps v fields := by
  obtain ⟨m, r', e, ha, hk, hw⟩ := go_ser_props h ps hn hj fields hx r
  refine ⟨.obj m, r', ?_, m, rfl, ha, hk, go_reads_of_written hn hx hw⟩
  unfold serComposite
  rw [e]
  rfl

theorem go_ser_instances {L : Lib} (c : Class) (hn : (c.properties.map field).Nodup)
    (hj : (c.properties.map (·.json)).Nodup) (l : List (Str × Instance))
    (hl : ∀ i ∈ l, i.2.id = i.1 ∧ FitsProps fits c.properties i.2.fields) (acc : GoMap JVal) (r : Nat) :
    ∃ xs r', serInstances L ser c acc l r = .ok (GoMap.putAll acc xs, r') ∧
      Forall₂ (fun (i : Str × Instance) (v : Str × JVal) => v.1 = i.1 ∧ GoObject R c.properties v.2 i.2.fields) l xs := by
  induction l generalizing acc r with
  | nil => exact ⟨[], r, rfl, .nil⟩
  | cons i l ih =>
    obtain ⟨id, inst⟩ := i
    obtain ⟨hid, hx⟩ := hl (id, inst) (List.mem_cons_self ..)
    obtain ⟨v, r1, e1, ho⟩ := go_ser_composite h c.properties hn hj inst.fields hx r
    obtain ⟨xs, r2, e2, s2⟩ := ih (fun y hy => hl y (List.mem_cons_of_mem _ hy)) (GoMap.put id v acc) r1
    refine ⟨(id, v) :: xs, r2, ?_, .cons ⟨rfl, ho⟩ s2⟩
    rw [serInstances, if_neg (by simp only at hid; simp [hid]), e1]
    simp only [ok_bind]
    rw [e2]
    rfl

/-- The registry is written unless it is empty. -/
def GoRegistry (R : Ty → JVal → Val → Prop) (m : GoMap JVal) (c : Class) (reg : GoMap Instance) : Prop :=
  (reg = [] ∧ m.lookup (registryKey c) = none) ∨
  ∃ es : GoMap JVal, m.lookup (registryKey c) = some (.obj es) ∧ GoMap.Ascending es ∧
    Forall₂ (fun (i : Str × Instance) (v : Str × JVal) => v.1 = i.1 ∧ GoObject R c.properties v.2 i.2.fields) reg es

theorem go_ser_registries {O : Order} {L : Lib} (hO : O.Proper)
    (gv : GraphVal) (cs : List Class) (hk : (cs.map registryKey).Nodup)
    (hcs : ∀ c ∈ cs, (c.properties.map field).Nodup ∧ (c.properties.map (·.json)).Nodup ∧
      GoMap.Ascending (gv.registry c.name) ∧ ∀ i ∈ gv.registry c.name, i.2.id = i.1 ∧
        FitsProps fits c.properties i.2.fields)
    (m : GoMap JVal) (ha : GoMap.Ascending m) (hm : ∀ c ∈ cs, m.lookup (registryKey c) = none) (r : Nat) :
    ∃ m' r', serRegistries O L ser gv cs m r = .ok (m', r') ∧ GoMap.Ascending m' ∧
      (∀ k, k ∉ cs.map registryKey → m'.lookup k = m.lookup k) ∧
      ∀ c ∈ cs, GoRegistry R m' c (gv.registry c.name) := by
  induction cs generalizing m r with
  | nil => exact ⟨m, r, rfl, ha, fun _ _ => rfl, fun c hc => (by cases hc)⟩
  | cons c cs ih =>
    rw [List.map_cons, List.nodup_cons] at hk
    have hrest : ∀ d ∈ cs, registryKey d ≠ registryKey c := by
      intro d hd he
      exact hk.1 (List.mem_map.2 ⟨d, hd, he⟩)
    have hcs' := fun d hd => hcs d (List.mem_cons_of_mem _ hd)
    cases hreg : (gv.registry c.name).isEmpty with
    | true =>
      obtain ⟨m', r', e, a', k', w'⟩ := ih hk.2 hcs' m ha (fun d hd => hm d (List.mem_cons_of_mem _ hd)) r
      refine ⟨m', r', ?_, a', ?_, ?_⟩
      · rw [serRegistries, hreg]
        exact e
      · intro k hkk
        rw [List.map_cons, List.mem_cons, not_or] at hkk
        exact k' k hkk.2
      · intro d hd
        rcases List.mem_cons.1 hd with rfl | hd
        · refine .inl ⟨List.isEmpty_iff.1 hreg, ?_⟩
          rw [k' _ hk.1]
          exact hm _ (List.mem_cons_self ..)
        · exact w' d hd
    | false =>
      obtain ⟨h1, h2, hasc, h3⟩ := hcs c (List.mem_cons_self ..)
      have hp := Order.visit_perm hO r (gv.registry c.name)
      obtain ⟨xs, r1, e1, s1⟩ := go_ser_instances (L := L) h c h1 h2 (O.visit r (gv.registry c.name))
        (fun i hi => h3 i (hp.mem_iff.1 hi)) [] (r + 1)
      obtain ⟨xs', hp', s1'⟩ := forall₂_perm hp.symm s1
      have hkeys : xs'.map (·.1) = (gv.registry c.name).map (·.1) := forall₂_keys (fun _ _ h => h.1) s1'
      have hx := ascending_of_keys hkeys hasc
      rw [GoMap.putAll_perm hp'.symm hx] at e1
      obtain ⟨m', r', e, a', k', w'⟩ := ih hk.2 hcs' (GoMap.put (registryKey c) (.obj xs') m) (ha.put _ _)
        (fun d hd => by
          rw [GoMap.lookup_put, if_neg (hrest d hd)]
          exact hm d (List.mem_cons_of_mem _ hd)) r1
      refine ⟨m', r', ?_, a', ?_, ?_⟩
      · rw [serRegistries, hreg]
        simp only [Bool.false_eq_true, if_false]
        rw [e1]
        simp only [ok_bind]
        exact e
      · intro k hkk
        rw [List.map_cons, List.mem_cons, not_or] at hkk
        rw [k' k hkk.2, GoMap.lookup_put, if_neg hkk.1]
      · intro d hd
        rcases List.mem_cons.1 hd with rfl | hd
        · refine .inr ⟨xs', ?_, hx, s1'⟩
          rw [k' _ hk.1, GoMap.lookup_put, if_pos rfl]
        · exact w' d hd

end

/-! ## The documents -/

/-- Every document which is written for `v` is written for a value which `x` shows. -/
def GoSends (M : Doc → AVal → Prop) (Q : AVal → Val → Prop) (v : JVal) (x : Val) : Prop :=
  ∀ d, GoText v d → ∃ a, M d a ∧ Q a x

section

variable {O : Order} {L : Lib} {g : Graph} {registered : Str → Str → Prop}

theorem go_writes_ty {ser : Str → Val → Nat → Except Exc (JVal × Nat)} {fits : Str → Val → Prop}
    {M : Str → Doc → AVal → Prop} {Q : Str → AVal → Val → Prop} (hO : O.Proper)
    (hfmt : ∀ t, L.formatTime t [] = [])
    (he : ∀ name x, fits name x → ∀ r, ∃ v r', ser name x r = .ok (v, r') ∧ GoSends (M name) (Q name) v x)
    (t : Ty) (x : Val) (hx : FitsTy L registered fits t x) (r : Nat) :
    ∃ v r', serTy O L ser t x r = .ok (v, r') ∧
      GoSends (WrittenTy (goWriter L) registered M t) (GoTy Q t) v x := by
  induction t generalizing x r with
  | boolean =>
    obtain ⟨c, rfl⟩ := hx
    exact ⟨_, _, rfl, fun d hd => ⟨.bool c, ⟨c, hd, rfl⟩, c, rfl, rfl⟩⟩
  | integer b =>
    obtain ⟨i, rfl, h1, h2⟩ := hx
    exact ⟨_, _, rfl, fun d hd => ⟨.int i, ⟨i, hd, rfl, h1, h2⟩, i, rfl, rfl⟩⟩
  | float b =>
    obtain ⟨f, rfl, h1⟩ := hx
    refine ⟨_, _, rfl, fun d hd => ?_⟩
    obtain ⟨q, rfl, hd⟩ := hd
    exact ⟨.float (.fin q), ⟨q, hd, rfl, h1⟩, _, rfl, rfl⟩
  | string p =>
    obtain ⟨s, rfl, h1⟩ := hx
    exact ⟨_, _, rfl, fun d hd => ⟨.str s, ⟨s, hd, rfl, h1⟩, s, rfl, rfl⟩⟩
  | path p =>
    obtain ⟨s, rfl, h1⟩ := hx
    exact ⟨_, _, rfl, fun d hd => ⟨.str s, ⟨s, hd, rfl, h1⟩, s, rfl, rfl⟩⟩
  | date f =>
    obtain ⟨s, t, _, rfl⟩ := hx
    refine ⟨.str (L.formatTime t (layout f)), r, ?_, fun d hd => ⟨_, ⟨t, hd, rfl⟩, t, rfl, rfl⟩⟩
    simp only [serTy, ser_time hfmt, ok_bind]; rfl
  | time f =>
    obtain ⟨s, t, _, rfl⟩ := hx
    refine ⟨.str (L.formatTime t (layout f)), r, ?_, fun d hd => ⟨_, ⟨t, hd, rfl⟩, t, rfl, rfl⟩⟩
    simp only [serTy, ser_time hfmt, ok_bind]; rfl
  | datetime f =>
    obtain ⟨s, t, _, rfl⟩ := hx
    refine ⟨.str (L.formatTime t (layout f)), r, ?_, fun d hd => ⟨_, ⟨t, hd, rfl⟩, t, rfl, rfl⟩⟩
    simp only [serTy, ser_time hfmt, ok_bind]; rfl
  | timeZone =>
    obtain ⟨s, z, h1, rfl⟩ := hx
    exact ⟨_, _, rfl, fun d hd => ⟨_, ⟨z, hd, rfl⟩, z, rfl, rfl⟩⟩
  | duration =>
    obtain ⟨x, rfl, h1⟩ := hx
    exact ⟨_, _, rfl, fun d hd => ⟨_, ⟨x, hd, rfl, h1⟩, x, rfl, rfl⟩⟩
  | array t lo hi ih =>
    obtain ⟨vs, rfl, hs, hv⟩ := hx
    obtain ⟨xs, r', e, s⟩ := goItems_ok (R := GoSends (WrittenTy (goWriter L) registered M t) (GoTy Q t)) vs
      (fun y hy r => ih y (hv y hy) r) r
    refine ⟨.arr xs, r', ?_, fun d hd => ?_⟩
    · simp only [serTy, e, ok_bind]; rfl
    · obtain ⟨ds, rfl, hd⟩ := hd
      have hd := goTexts_iff.1 hd
      obtain ⟨as, h1, h2⟩ := lift_list hd s
      refine ⟨.list as, ⟨ds, as, rfl, rfl, ?_, h1⟩, as, vs, rfl, rfl, h2⟩
      rw [← forall₂_length hd, forall₂_length s]; exact hs
  | map t ih =>
    obtain ⟨kvs, rfl, ha, hv⟩ := hx
    have hp := Order.visit_perm hO r kvs
    obtain ⟨xs, r', e, s⟩ := goEntries_ok (R := GoSends (WrittenTy (goWriter L) registered M t) (GoTy Q t))
      (O.visit r kvs) (fun y hy r => ih y.2 (hv y (hp.mem_iff.1 hy)) r) [] (r + 1)
    obtain ⟨xs', hp', s'⟩ := forall₂_perm hp.symm s
    have hkeys : xs'.map (·.1) = kvs.map (·.1) := forall₂_keys (fun _ _ h => h.1) s'
    have hasc := ascending_of_keys hkeys ha
    rw [GoMap.putAll_perm hp'.symm hasc] at e
    refine ⟨.obj xs', r', ?_, fun d hd => ?_⟩
    · simp only [serTy, e, ok_bind]; rfl
    · obtain ⟨ds, rfl, hd⟩ := hd
      have hd := goMembers_iff.1 hd
      obtain ⟨as, h1, h2⟩ := lift_list
        (M := fun e (b : Str × AVal) => b.1 = e.1 ∧ WrittenTy (goWriter L) registered M t e.2 b.2)
        (Q := fun (b : Str × AVal) y => y.1 = b.1 ∧ GoTy Q t b.2 y.2) hd ((forall₂_swap s').imp fun v x h e he => by
          obtain ⟨a, h1, h2⟩ := h.2 e.2 he.2
          exact ⟨(e.1, a), ⟨rfl, h1⟩, by rw [he.1]; exact h.1.symm, h2⟩)
      exact ⟨.map as, ⟨ds, as, rfl, rfl, by rw [members_keys hd]; exact hasc.nodup, h1⟩, as, kvs, rfl, rfl,
        unordered_of h2⟩
  | cls c =>
    obtain ⟨id, rfl, h1⟩ := hx
    exact ⟨_, _, rfl, fun d hd => ⟨_, ⟨id, hd, rfl, h1⟩, c, id, rfl, rfl⟩⟩
  | embed name => exact he name x hx r

theorem go_writes_props {M : Ty → Doc → AVal → Prop} {Q : Ty → AVal → Val → Prop} {m : GoMap JVal}
    {ps : List Property} {fields : GoRuntime.Fields} (hr : ReadsProps (fun t => GoSends (M t) (Q t)) m ps fields)
    {ds : List (Str × Doc)} (hd : Forall₂ (Member GoText) m ds) :
    ∃ as, WrittenProps M ds ps as ∧ Forall₃ (GoField Q) ps as fields := by
  refine lift_each hr ?_
  rintro p _ ⟨k, x⟩ _ ⟨rfl, hx⟩
  obtain ⟨a, h1, h2⟩ := lift_property (M := M) (Q := Q) (nil := Val.nil) (p := p) hd (x := x)
    (fun h => by unfold ReadsProperty at hx; rw [h] at hx; exact hx)
    (fun v h => by unfold ReadsProperty at hx; rw [h] at hx; exact hx)
  exact ⟨(p.name, a), ⟨rfl, h1⟩, rfl, rfl, h2⟩

theorem go_writes_object {M : Ty → Doc → AVal → Prop} {Q : Ty → AVal → Val → Prop} {v : JVal}
    {ps : List Property} {fields : GoRuntime.Fields}
    (ho : GoObject (fun t => GoSends (M t) (Q t)) ps v fields) {d : Doc} (hd : GoText v d) :
    ∃ as, WrittenObject M ps d as ∧ Forall₃ (GoField Q) ps as fields := by
  obtain ⟨m, rfl, ha, ht, hr⟩ := ho
  obtain ⟨ds, rfl, hd⟩ := hd
  have hd := goMembers_iff.1 hd
  obtain ⟨as, h1, h2⟩ := go_writes_props hr hd
  exact ⟨as, ⟨ds, rfl, members_closed hd ha.nodup ht, h1⟩, h2⟩

theorem go_writes_embed (hO : O.Proper) (hfmt : ∀ t, L.formatTime t [] = []) (hD : GoRuntime.Spec.Distinct g)
    (hJ : JsonKeys g) (n : Nat) :
    ∀ name x, FitsEmbed L g registered n name x → ∀ r, ∃ v r', serEmbed O L g n name x r = .ok (v, r') ∧
      GoSends (WrittenEmbed (goWriter L) g registered n name) (GoEmbed g n name) v x := by
  induction n with
  | zero => intro name x h; exact h.elim
  | succ n ih =>
    rintro name x ⟨e, fields, he, rfl, hx⟩ r
    have hmem := embed_mem he
    obtain ⟨v, r', e1, ho⟩ := go_ser_composite (R := fun t => GoSends _ _) (go_writes_ty hO hfmt ih) e.properties
      (hD.embed e hmem) (hJ.embed e hmem) fields hx r
    refine ⟨v, r', ?_, fun d hd => ?_⟩
    · rw [serEmbed, he]
      exact e1
    · obtain ⟨as, h1, h2⟩ := go_writes_object ho hd
      exact ⟨.obj name as, ⟨e, as, he, rfl, h1⟩, e, as, fields, he, rfl, rfl, h2⟩

/-- A graph which satisfies the schema is serialized, and the document is written for the graph. -/
theorem go_writes_graph (hO : O.Proper) (hfmt : ∀ t, L.formatTime t [] = []) (hD : GoRuntime.Spec.Distinct g)
    (hJ : JsonKeys g) (n : Nat) (gv : GraphVal) (hv : ValidGraph L g n gv) (r : Nat) :
    ∃ v r', serGraph O L g n gv r = .ok (v, r') ∧
      ∀ d, GoText v d → ∃ a, WrittenGraph (goWriter L) g n d a ∧ GoGraph g n a gv := by
  have hJ1 := List.nodup_append.1 hJ.graph
  have hval : ∀ t x, Fits L g (Registered gv) n t x → ∀ r, ∃ v r', serTy O L (serEmbed O L g n) t x r = .ok (v, r') ∧
      GoSends (Interop.Written (goWriter L) g (Registered gv) n t) (GoTy (GoEmbed g n) t) v x :=
    go_writes_ty hO hfmt (go_writes_embed hO hfmt hD hJ n)
  obtain ⟨m, r1, e1, ha, hk, hw⟩ := go_ser_props (R := fun t => GoSends _ _) hval g.properties hD.graph hJ1.1 gv.fields
    hv.fields r
  have hnames : gv.registries.map (·.1) = g.classes.map Class.name :=
    registries_names (hv.registries.imp fun _ _ h => h.1)
  have hreg : ∀ c (r : GoMap Instance), (c, r) ∈ gv.registries → gv.registry c = r := by
    intro c r hm
    unfold GraphVal.registry
    rw [GoMap.lookup_of_mem (by rw [hnames]; exact hD.names) hm]
    rfl
  have hclass : ∀ c ∈ g.classes, (c.name, gv.registry c.name) ∈ gv.registries ∧ GoMap.Ascending (gv.registry c.name) ∧
      ∀ i ∈ gv.registry c.name, i.2.id = i.1 ∧ Matches L c.idPattern i.1 ∧
        FitsProps (Fits L g (Registered gv) n) c.properties i.2.fields := by
    intro c hc
    obtain ⟨⟨k, reg⟩, hm, h1, h2, h3⟩ := forall₂_left hv.registries hc
    simp only at h1 h2 h3
    subst h1
    rw [hreg _ _ hm]
    exact ⟨hm, h2, h3⟩
  have hkeys : (g.classes.map registryKey).Nodup := hJ1.2.1
  obtain ⟨m', r2, e2, ha', hk', hw'⟩ := go_ser_registries (R := fun t => GoSends _ _) (L := L) hval hO gv g.classes hkeys (by
    intro c hc
    obtain ⟨h1, h2, h3⟩ := hclass c hc
    exact ⟨hD.cls c hc, hJ.cls c hc, h2, fun i hi => ⟨(h3 i hi).1, (h3 i hi).2.2⟩⟩) m ha (by
    intro c hc
    refine hk _ fun hm => ?_
    exact hJ1.2.2 _ hm _ (List.mem_map.2 ⟨c, hc, rfl⟩) rfl) r1
  refine ⟨.obj m', r2, ?_, fun d hd => ?_⟩
  · unfold serGraph
    simp only
    rw [e1]
    simp only [ok_bind]
    rw [e2]
    rfl
  obtain ⟨ds, rfl, hd⟩ := hd
  have hd := goMembers_iff.1 hd
  have hwprops : ∀ p ∈ g.properties, ∃ x, gv.fields.lookup (field p) = some x ∧
      GoWritten (fun t => GoSends (Interop.Written (goWriter L) g (Registered gv) n t) (GoTy (GoEmbed g n) t)) m' p x := by
    intro p hp
    obtain ⟨x, hl, hx⟩ := hw p hp
    refine ⟨x, hl, ?_⟩
    have hke : m'.lookup p.json = m.lookup p.json := by
      refine hk' _ fun hm => ?_
      exact hJ1.2.2 _ (List.mem_map.2 ⟨p, hp, rfl⟩) _ hm rfl
    unfold GoWritten at *
    rw [hke]
    exact hx
  -- the registry of a class in the document
  have hdoc : ∀ c ∈ g.classes, ∀ es, m'.lookup (registryKey c) = some (.obj es) →
      ∃ entries, ds.lookup (lower c.plural) = some (.obj entries) ∧ Forall₂ (Member GoText) es entries := by
    intro c _ es he
    rcases members_lookup hd (registryKey c) with ⟨h1, _⟩ | ⟨v, d, h1, h2, h3⟩
    · rw [h1] at he; cases he
    · rw [h1] at he
      cases he
      obtain ⟨entries, rfl, h3⟩ := h3
      exact ⟨entries, h2, goMembers_iff.1 h3⟩
  have hids : ∀ c id, Registered gv c id → Interop.Described g ds c id := by
    rintro c id ⟨reg, hm, i, hi⟩
    obtain ⟨d, hd', hdn, _⟩ := forall₂_right hv.registries hm
    simp only at hdn
    subst hdn
    refine ⟨d, hd', rfl, ?_⟩
    rcases hw' d hd' with ⟨h0, _⟩ | ⟨es, hl, _, hfe⟩
    · rw [hreg _ _ hm] at h0; subst h0; cases hi
    · obtain ⟨entries, h1, h2⟩ := hdoc d hd' es hl
      refine ⟨entries, h1, ?_⟩
      rw [members_keys h2, forall₂_keys (fun _ _ h => h.1) hfe, hreg _ _ hm]
      exact List.mem_map.2 ⟨_, hi, rfl⟩
  have hmono := written_ids (W := goWriter L) (g := g) hids n
  obtain ⟨fs, f1, f2⟩ := go_writes_props (go_reads_of_written hD.graph hv.fields hwprops) hd
  obtain ⟨rs, q1, q2⟩ := lift_each
    (M := fun (c : Class) (r : Str × List (Str × AFields)) => r.1 = c.name ∧
      WrittenRegistry (goWriter L) (Interop.Written (goWriter L) g (Interop.Described g ds) n) ds c r.2)
    (Q := fun (c : Class) r (r' : Str × GoMap Instance) => r.1 = c.name ∧ r'.1 = c.name ∧
      Unordered (GoInstance g n c) r.2 r'.2) hv.registries (by
    rintro c hc ⟨k, reg⟩ hm ⟨h1, _, hq⟩
    simp only at h1 hq ⊢
    subst h1
    have hrw := hw' c hc
    rw [hreg _ _ hm] at hrw
    rcases hrw with ⟨h0, hl⟩ | ⟨es, hl, hasc, hfe⟩
    · subst h0
      refine ⟨(c.name, []), ⟨rfl, .inl ⟨?_, rfl⟩⟩, rfl, rfl, unordered_of .nil⟩
      rcases members_lookup hd (registryKey c) with ⟨_, h1⟩ | ⟨v, d, h1, _⟩
      · exact h1
      · rw [hl] at h1; cases h1
    · obtain ⟨entries, h1, h2⟩ := hdoc c hc es hl
      obtain ⟨r, h3, h4⟩ := lift_list
        (M := WrittenInstance (goWriter L) (Interop.Written (goWriter L) g (Interop.Described g ds) n) c)
        (Q := GoInstance g n c) h2 (forall₂_imp_mem (fun e i _ hi he d hde => by
          obtain ⟨as, h5, h6⟩ := go_writes_object he.2 hde.2
          refine ⟨(d.1, as), ⟨rfl, ?_, writtenObject_imp hmono h5⟩, ?_, ?_, h6⟩
          · intro p hp
            rw [hde.1, he.1]
            exact (hq i hi).2.1 p hp
          · rw [hde.1]; exact he.1.symm
          · rw [hde.1, he.1]; exact (hq i hi).1) (forall₂_swap hfe))
      refine ⟨(c.name, r), ⟨rfl, .inr ⟨entries, h1, ?_, h3⟩⟩, rfl, rfl, unordered_of h4⟩
      rw [members_keys h2]
      exact hasc.nodup)
  refine ⟨⟨fs, rs⟩, ⟨ds, rfl, members_closed hd ha'.nodup ?_, q1, writtenProps_imp hmono f1⟩, q2, f2⟩
  intro k hk1
  rw [List.mem_append, not_or] at hk1
  rw [hk' k hk1.2, hk k hk1.1]

end

end Mapry.Interop
