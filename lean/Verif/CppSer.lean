import Verif.CppTotal
import Verif.GoSer

/-!
# The generated C++ serializer

What is serialized from a graph which satisfies the schema describes the graph.
-/

namespace Mapry.CppRuntime

open Mapry.Text Mapry.Duration Spec

variable {D : DateLib} {L : Lib} {g : Graph}

/-! ## Values -/

/-- The value `v` is a `Json::Value` and describes `x`. -/
def Sent (reads : JVal → Val → Prop) (v : JVal) (x : Val) : Prop := Canon v ∧ reads v x

section

variable {f : Val → Except Exc JVal} {R : JVal → Val → Prop}

theorem serItems_ok (vs : List Val) (h : ∀ x ∈ vs, ∃ v, f x = .ok v ∧ Sent R v x) :
    ∃ xs, serItems f vs = .ok xs ∧ (∀ v ∈ xs, Canon v) ∧ Forall₂ R xs vs := by
  induction vs with
  | nil => exact ⟨[], rfl, fun _ h => (by cases h), .nil⟩
  | cons x vs ih =>
    obtain ⟨v, e1, c1, r1⟩ := h x List.mem_cons_self
    obtain ⟨xs, e2, c2, r2⟩ := ih fun y hy => h y (List.mem_cons_of_mem _ hy)
    refine ⟨v :: xs, ?_, ?_, .cons r1 r2⟩
    · rw [serItems, e1]
      simp only [ok_bind]
      rw [e2]
      rfl
    · intro y hy
      rcases List.mem_cons.1 hy with rfl | hy
      · exact c1
      · exact c2 y hy

theorem serEntries_ok (l : GoMap Val) (ha : GoMap.Ascending l)
    (h : ∀ e ∈ l, ∃ v, f e.2 = .ok v ∧ Sent R v e.2) :
    ∀ acc : GoMap JVal, (∀ a ∈ acc, ∀ e ∈ l, a.1 < e.1) →
    ∃ xs, serEntries f l acc = .ok (acc ++ xs) ∧ (∀ v ∈ xs, Canon v.2) ∧
      Forall₂ (fun (v : Str × JVal) (x : Str × Val) => v.1 = x.1 ∧ R v.2 x.2) xs l := by
  induction l with
  | nil => intro acc _; exact ⟨[], by simp [serEntries], fun _ h => (by cases h), .nil⟩
  | cons e l ih =>
    obtain ⟨k, x⟩ := e
    intro acc hacc
    have ha' := List.pairwise_cons.1 ha
    obtain ⟨v, e1, c1, r1⟩ := h (k, x) List.mem_cons_self
    have hlt : ∀ a ∈ acc, a.1 < k := fun a h => hacc a h (k, x) List.mem_cons_self
    obtain ⟨xs, e2, c2, r2⟩ := ih ha'.2 (fun y hy => h y (List.mem_cons_of_mem _ hy)) (acc ++ [(k, v)]) (by
      intro a h e he
      rcases List.mem_append.1 h with h | h
      · exact hacc a h e (List.mem_cons_of_mem _ he)
      · rw [List.mem_singleton.1 h]; exact ha'.1 e he)
    refine ⟨(k, v) :: xs, ?_, ?_, .cons ⟨rfl, r1⟩ r2⟩
    · simp only at e1
      rw [serEntries, e1]
      simp only [ok_bind]
      rw [put_last v hlt, e2, List.append_assoc]
      rfl
    · intro y hy
      rcases List.mem_cons.1 hy with rfl | hy
      · exact c1
      · exact c2 y hy

end

theorem ser_time (k : TimeKind) (f : Str) (t : Time) (s : Str) (h : TextOf D L k f t s) :
    serTime D L k f (.time t) = .ok (.str s) := by
  unfold serTime
  rcases h with ⟨rfl, rfl⟩ | ⟨hf, h⟩
  · cases D <;> rfl
  · cases D with
    | ctime =>
      obtain ⟨rfl, h1, h2⟩ := h
      simp only
      unfold tmToString
      rw [if_neg hf, if_pos ⟨h1, by
        have : byteLength (L.strftime f t) = bytes (L.strftime f t) := rfl
        have h3 : byteLength f = bytes f := rfl
        rw [this, h3]; omega⟩]
      rfl
    | dateH =>
      have h : s = L.dateFormat k f t := h
      subst h
      simp only
      rw [if_neg hf]

/-- A value which satisfies its type is serialized to what describes it. -/
theorem ser_ty {registered : Str → Str → Prop} {ser : Str → Val → Except Exc JVal}
    {fits faith : Str → Val → Prop} {reads : Str → JVal → Val → Prop}
    (he : ∀ name x, fits name x → faith name x → ∃ v, ser name x = .ok v ∧ Sent (reads name) v x)
    (t : Ty) (x : Val) (hx : FitsTy D L registered fits t x) (hf : FaithfulTy D L faith t x) :
    ∃ v, serTy D L ser t x = .ok v ∧ Sent (ReadsTy D L (Loose D L) registered reads t) v x := by
  induction t generalizing x with
  | boolean =>
    obtain ⟨c, rfl⟩ := hx
    exact ⟨_, rfl, .bool c, c, rfl, rfl⟩
  | integer b =>
    obtain ⟨i, rfl, h1, h2⟩ := hx
    exact ⟨_, rfl, .int i h1, i, .inl rfl, rfl, h1, h2⟩
  | float b =>
    obtain ⟨f, rfl, h1⟩ := hx
    exact ⟨_, rfl, .real f, f, .inr (.inr rfl), rfl, h1⟩
  | string p =>
    obtain ⟨s, rfl, h1⟩ := hx
    exact ⟨_, rfl, .str s, s, rfl, rfl, h1⟩
  | path p =>
    obtain ⟨s, rfl, h1⟩ := hx
    exact ⟨_, rfl, .str s, s, rfl, rfl, h1⟩
  | date f =>
    obtain ⟨_, t, _, rfl⟩ := hx
    obtain ⟨s, h1, h2⟩ := hf t rfl
    exact ⟨_, ser_time .date f t s h1, .str s, s, t, rfl, h2, rfl⟩
  | time f =>
    obtain ⟨_, t, _, rfl⟩ := hx
    obtain ⟨s, h1, h2⟩ := hf t rfl
    exact ⟨_, ser_time .time f t s h1, .str s, s, t, rfl, h2, rfl⟩
  | datetime f =>
    obtain ⟨_, t, _, rfl⟩ := hx
    obtain ⟨s, h1, h2⟩ := hf t rfl
    exact ⟨_, ser_time .datetime f t s h1, .str s, s, t, rfl, h2, rfl⟩
  | timeZone =>
    obtain ⟨s, z, h1, rfl⟩ := hx
    exact ⟨_, rfl, .str z, z, z, rfl, hf z rfl, rfl⟩
  | duration =>
    obtain ⟨d, rfl, h1⟩ := hx
    obtain ⟨s, h2, h3⟩ := Props.C16_cpp_round_trip_partial d h1 (hf d rfl)
    refine ⟨.str s, ?_, .str s, s, d, rfl, h3, rfl⟩
    simp only [serTy, h2]
  | array t lo hi ih =>
    obtain ⟨vs, rfl, hs, hv⟩ := hx
    obtain ⟨xs, e, c, r⟩ := serItems_ok (R := ReadsTy D L (Loose D L) registered reads t) vs
      (fun y hy => ih y (hv y hy) (hf vs rfl y hy))
    refine ⟨.arr xs, ?_, .arr xs c, xs, vs, rfl, rfl, ?_, r⟩
    · simp only [serTy, e]; rfl
    · rw [GoRuntime.forall₂_length r]; exact hs
  | map t ih =>
    obtain ⟨kvs, rfl, ha, hv⟩ := hx
    obtain ⟨xs, e, c, r⟩ := serEntries_ok (R := ReadsTy D L (Loose D L) registered reads t) kvs ha
      (fun y hy => ih y.2 (hv y hy) (hf kvs rfl y hy)) [] (fun a h => by cases h)
    have hk : kvs.map (·.1) = xs.map (·.1) := GoRuntime.forall₂_keys (fun _ _ h => h.1.symm) r
    refine ⟨.obj xs, ?_, .obj xs (GoRuntime.ascending_of_keys hk.symm ha) c, xs, kvs, rfl, rfl, r⟩
    simp only [serTy, e]; rfl
  | cls c =>
    obtain ⟨id, rfl, h1⟩ := hx
    exact ⟨_, rfl, .str id, id, rfl, rfl, h1⟩
  | embed name => exact he name x hx hf

/-! ## Properties -/

/-- A `Json::Value` which becomes an object when the first member is added -/
def asJ (m : GoMap JVal) : JVal := if m = [] then .null else .obj m

theorem put_ne {α : Type} (k : Str) (x : α) (m : GoMap α) : GoMap.put k x m ≠ [] := by
  intro h
  have := GoMap.lookup_put k x m k
  rw [h, if_pos rfl] at this
  cases this

theorem putMember_asJ (k : Str) (x : JVal) (m : GoMap JVal) : putMember k x (asJ m) = asJ (GoMap.put k x m) := by
  have hr : asJ (GoMap.put k x m) = .obj (GoMap.put k x m) := by unfold asJ; rw [if_neg (put_ne k x m)]
  rw [hr]
  unfold asJ
  split
  · next h => subst h; rfl
  · rfl

/-- The field is written, or it is optional and not set. -/
def Written (reads : Ty → JVal → Val → Prop) (m : GoMap JVal) (p : Property) (x : Val) : Prop :=
  (p.optional = true ∧ x = .nil ∧ m.lookup p.json = none) ∨
    (¬ (p.optional = true ∧ x = .nil) ∧ ∃ v, m.lookup p.json = some v ∧ Sent (reads p.ty) v x)

def AllCanon (m : GoMap JVal) : Prop := ∀ e ∈ m, Canon e.2

theorem AllCanon.put {m : GoMap JVal} (h : AllCanon m) (k : Str) {v : JVal} (hc : Canon v) :
    AllCanon (GoMap.put k v m) := by
  intro e he
  rcases GoMap.mem_put he with rfl | he
  · exact hc
  · exact h e he

theorem serProps_ok {ser : Ty → Val → Except Exc JVal} {reads : Ty → JVal → Val → Prop}
    (fields : Fields) (ps : List Property) (hn : (ps.map (·.json)).Nodup)
    (h : ∀ p ∈ ps, ∃ x, fields.lookup p.name = some x ∧
      ((p.optional = true ∧ x = .nil) ∨ ∃ v, ser p.ty x = .ok v ∧ Sent (reads p.ty) v x))
    (m : GoMap JVal) (ha : GoMap.Ascending m) (hs : AllCanon m) (hm : ∀ p ∈ ps, m.lookup p.json = none) :
    ∃ m', serProps ser fields ps (asJ m) = .ok (asJ m') ∧ GoMap.Ascending m' ∧ AllCanon m' ∧
      (∀ k, k ∉ ps.map (·.json) → m'.lookup k = m.lookup k) ∧
      ∀ p ∈ ps, ∃ x, fields.lookup p.name = some x ∧ Written reads m' p x := by
  induction ps generalizing m with
  | nil => exact ⟨m, rfl, ha, hs, fun _ _ => rfl, fun p hp => (by cases hp)⟩
  | cons p ps ih =>
    rw [List.map_cons, List.nodup_cons] at hn
    obtain ⟨x, hl, hx⟩ := h p List.mem_cons_self
    have hrest : ∀ q ∈ ps, q.json ≠ p.json := by
      intro q hq he
      exact hn.1 (List.mem_map.2 ⟨q, hq, he⟩)
    by_cases hskip : p.optional = true ∧ x = .nil
    · obtain ⟨m', e, a', s', k', w'⟩ := ih hn.2 (fun q hq => h q (List.mem_cons_of_mem _ hq)) m ha hs
        (fun q hq => hm q (List.mem_cons_of_mem _ hq))
      refine ⟨m', ?_, a', s', ?_, ?_⟩
      · rw [serProps, hl, hskip.1, hskip.2]
        exact e
      · intro k hk
        rw [List.map_cons, List.mem_cons, not_or] at hk
        exact k' k hk.2
      · intro q hq
        rcases List.mem_cons.1 hq with rfl | hq
        · refine ⟨x, hl, .inl ⟨hskip.1, hskip.2, ?_⟩⟩
          rw [k' _ hn.1]
          exact hm _ List.mem_cons_self
        · exact w' q hq
    · rcases hx with hx | ⟨v, e1, s1⟩
      · exact absurd hx hskip
      · obtain ⟨m', e, a', s', k', w'⟩ := ih hn.2 (fun q hq => h q (List.mem_cons_of_mem _ hq))
          (GoMap.put p.json v m) (ha.put _ _) (hs.put _ s1.1)
          (fun q hq => by
            rw [GoMap.lookup_put, if_neg (hrest q hq)]
            exact hm q (List.mem_cons_of_mem _ hq))
        refine ⟨m', ?_, a', s', ?_, ?_⟩
        · rw [serProps, hl]
          simp only
          split
          · next h1 h2 => exact absurd ⟨by assumption, rfl⟩ hskip
          · rw [e1]
            simp only [ok_bind]
            rw [putMember_asJ]
            exact e
        · intro k hk
          rw [List.map_cons, List.mem_cons, not_or] at hk
          rw [k' k hk.2, GoMap.lookup_put, if_neg hk.1]
        · intro q hq
          rcases List.mem_cons.1 hq with rfl | hq
          · refine ⟨x, hl, .inr ⟨hskip, v, ?_, s1⟩⟩
            rw [k' _ hn.1, GoMap.lookup_put, if_pos rfl]
          · exact w' q hq

theorem forall₂_mem {α β : Type} {R : α → β → Prop} {l : List α} {m : List β} (h : Forall₂ R l m) :
    ∀ a ∈ l, ∃ b ∈ m, R a b := by
  induction h with
  | nil => intro a h; cases h
  | cons h1 _ ih =>
    intro a ha
    rcases List.mem_cons.1 ha with rfl | ha
    · exact ⟨_, List.mem_cons_self, h1⟩
    · obtain ⟨b, hb, hr⟩ := ih a ha
      exact ⟨b, List.mem_cons_of_mem _ hb, hr⟩

/-- The fields in the order of the properties -/
theorem names_eq {R : Property → Str × Val → Prop} (hR : ∀ p f, R p f → f.1 = p.name) {ps : List Property}
    {fields : Fields} (h : Forall₂ R ps fields) : fields.map (·.1) = ps.map (·.name) := by
  induction h with
  | nil => rfl
  | cons h1 _ ih => rw [List.map_cons, List.map_cons, ih, hR _ _ h1]

theorem fields_lookup {R : Property → Str × Val → Prop} (hR : ∀ p f, R p f → f.1 = p.name) {ps : List Property}
    {fields : Fields} (h : Forall₂ R ps fields) (hn : (ps.map (·.name)).Nodup) :
    ∀ p ∈ ps, ∃ x, fields.lookup p.name = some x ∧ R p (p.name, x) := by
  have hk := names_eq hR h
  intro p hp
  obtain ⟨⟨k, x⟩, hf, hr⟩ := forall₂_mem h p hp
  have hkk : k = p.name := hR _ _ hr
  subst hkk
  exact ⟨x, GoMap.lookup_of_mem (by rw [hk]; exact hn) hf, hr⟩

/-- The same, back again -/
theorem forall₂_of_lookup {Q : Property → Val → Prop} {R : Property → Str × Val → Prop}
    (hR : ∀ p f, R p f → f.1 = p.name) {ps : List Property} {fields : Fields} (h : Forall₂ R ps fields)
    (hn : (ps.map (·.name)).Nodup) (hq : ∀ p ∈ ps, ∃ x, fields.lookup p.name = some x ∧ Q p x) :
    Forall₂ (fun p (f : Str × Val) => f.1 = p.name ∧ Q p f.2) ps fields := by
  have hk := names_eq hR h
  refine GoRuntime.forall₂_imp_mem (R := R) (fun p f hp hf hr => ⟨hR p f hr, ?_⟩) h
  obtain ⟨x, hl, hx⟩ := hq p hp
  obtain ⟨k, y⟩ := f
  have hkk : k = p.name := hR _ _ hr
  subst hkk
  rw [GoMap.lookup_of_mem (by rw [hk]; exact hn) hf] at hl
  cases hl
  exact hx

section

variable {ser : Ty → Val → Except Exc JVal} {reads : Ty → JVal → Val → Prop} {fits faith : Ty → Val → Prop}

/-- The properties of a structure or of the graph -/
theorem ser_props (h : ∀ t x, fits t x → faith t x → ∃ v, ser t x = .ok v ∧ Sent (reads t) v x)
    (ps : List Property) (hn : (ps.map (·.name)).Nodup) (hj : (ps.map (·.json)).Nodup) (fields : Fields)
    (hx : FitsProps fits ps fields) (hf : FaithfulProps faith ps fields) :
    ∃ m, serProps ser fields ps .null = .ok (asJ m) ∧ GoMap.Ascending m ∧ AllCanon m ∧
      (∀ k, k ∉ ps.map (·.json) → m.lookup k = none) ∧
      ∀ p ∈ ps, ∃ x, fields.lookup p.name = some x ∧ Written reads m p x := by
  refine serProps_ok fields ps hj ?_ [] List.Pairwise.nil (fun e he => (by cases he)) (fun _ _ => rfl)
  intro p hp
  obtain ⟨x, hl, hq⟩ := fields_lookup (fun _ _ h => h.1) hx hn p hp
  refine ⟨x, hl, ?_⟩
  by_cases hnil : p.optional = true ∧ x = .nil
  · exact .inl hnil
  · rcases hq.2 with hq | hq
    · exact absurd hq hnil
    · exact .inr (h p.ty x hq (hf p hp x hl))

/-- What is written describes the fields. -/
theorem reads_of_written {ps : List Property} (hn : (ps.map (·.name)).Nodup) {fields : Fields}
    (hx : FitsProps fits ps fields) {m : GoMap JVal}
    (hw : ∀ p ∈ ps, ∃ x, fields.lookup p.name = some x ∧ Written reads m p x) : ReadsProps reads m ps fields := by
  refine forall₂_of_lookup (fun _ _ h => h.1) hx hn fun p hp => ?_
  obtain ⟨x, hl, hx⟩ := hw p hp
  refine ⟨x, hl, ?_⟩
  unfold ReadsProperty
  rcases hx with ⟨ho, hnil, hm⟩ | ⟨_, v, hm, _, hr⟩
  · rw [hm]; exact ⟨ho, hnil⟩
  · rw [hm]; exact hr

theorem asJ_shown {ps : List Property} {fields : Fields} {m : GoMap JVal}
    (hw : ∀ p ∈ ps, ∃ x, fields.lookup p.name = some x ∧ Written reads m p x) (h : SomeSet ps fields) : m ≠ [] := by
  obtain ⟨p, hp, x, hl, hx⟩ := h
  obtain ⟨x', hl', hw⟩ := hw p hp
  rw [hl] at hl'
  cases hl'
  rintro rfl
  rcases hw with ⟨h1, h2, _⟩ | ⟨_, v, hv, _⟩
  · exact hx ⟨h1, h2⟩
  · cases hv

/-- There are members only for the properties. -/
def Tight (m : GoMap JVal) (ps : List Property) : Prop := ∀ k, k ∉ ps.map (·.json) → m.lookup k = none

/-- A structure is serialized to what describes its fields. -/
theorem ser_composite (h : ∀ t x, fits t x → faith t x → ∃ v, ser t x = .ok v ∧ Sent (reads t) v x)
    (ps : List Property) (hn : (ps.map (·.name)).Nodup) (hj : (ps.map (·.json)).Nodup) (fields : Fields)
    (hx : FitsProps fits ps fields) (hf : FaithfulComposite faith ps fields) :
    ∃ m, serComposite ser ps fields = .ok (.obj m) ∧ Canon (.obj m) ∧ Tight m ps ∧ ReadsProps reads m ps fields := by
  unfold serComposite
  rcases hf.2 with rfl | hs
  · refine ⟨[], rfl, .obj _ .nil (fun _ h => by cases h), fun _ _ => rfl, ?_⟩
    cases hx
    exact .nil
  · obtain ⟨m, e, ha, hc, ht, hw⟩ := ser_props h ps hn hj fields hx hf.1
    refine ⟨m, ?_, .obj m ha hc, ht, reads_of_written hn hx hw⟩
    rw [if_neg (by rintro rfl; obtain ⟨p, hp, _⟩ := hs; cases hp), e]
    unfold asJ
    rw [if_neg (asJ_shown hw hs)]

end

theorem ser_embed {registered : Str → Str → Prop} (hC : Compiles g) (hJ : JsonKeys g) (n : Nat) :
    ∀ name x, FitsEmbed g D L registered n name x → FaithfulEmbed g D L n name x →
      ∃ v, serEmbed D L g n name x = .ok v ∧ Sent (ReadsEmbed D L (Loose D L) g registered n name) v x := by
  induction n with
  | zero => intro name x h; exact h.elim
  | succ n ih =>
    rintro name x ⟨e, fields, he, rfl, hx⟩ hf
    have hmem := embed_mem he
    obtain ⟨m, e1, hc, _, hr⟩ := ser_composite (ser_ty (registered := registered) ih) e.properties
      (hC.embed e hmem).nodup (hJ.embed e hmem) fields hx (hf e fields he rfl)
    refine ⟨.obj m, ?_, hc, e, m, fields, he, rfl, rfl, hr⟩
    rw [serEmbed, he]
    exact e1

theorem ser_value {registered : Str → Str → Prop} (hC : Compiles g) (hJ : JsonKeys g) (n : Nat) (t : Ty) (x : Val)
    (hx : Fits g D L registered n t x) (hf : Faithful g D L n t x) :
    ∃ v, serTy D L (serEmbed D L g n) t x = .ok v ∧ Sent (Reads D L (Loose D L) g registered n t) v x :=
  ser_ty (ser_embed hC hJ n) t x hx hf

/-! ## Registries -/

section

variable {ser : Ty → Val → Except Exc JVal} {reads : Ty → JVal → Val → Prop} {fits faith : Ty → Val → Prop}

theorem asJ_append {m : GoMap JVal} {k : Str} {x : JVal} (h : ∀ a ∈ m, a.1 < k) :
    putMember k x (asJ m) = asJ (m ++ [(k, x)]) := by
  rw [putMember_asJ, put_last x h]

/-- The member describes the instance, and there are members only for its properties. -/
def SentBody (reads : Ty → JVal → Val → Prop) (c : Class) (kv : Str × JVal) (i : Str × Instance) : Prop :=
  i.1 = kv.1 ∧ i.2.id = kv.1 ∧ ∃ kvs, kv.2 = .obj kvs ∧ Canon (.obj kvs) ∧ Tight kvs c.properties ∧
    ReadsProps reads kvs c.properties i.2.fields

theorem serInstances_ok (h : ∀ t x, fits t x → faith t x → ∃ v, ser t x = .ok v ∧ Sent (reads t) v x)
    (c : Class) (hn : (c.properties.map (·.name)).Nodup) (hj : (c.properties.map (·.json)).Nodup)
    (l : GoMap Instance) (ha : GoMap.Ascending l)
    (hl : ∀ i ∈ l, i.2.id = i.1 ∧ FitsProps fits c.properties i.2.fields ∧
      FaithfulComposite faith c.properties i.2.fields) :
    ∀ acc : GoMap JVal, (∀ a ∈ acc, ∀ i ∈ l, a.1 < i.1) →
    ∃ xs, serInstances ser c l (asJ acc) = .ok (asJ (acc ++ xs)) ∧ (∀ v ∈ xs, Canon v.2) ∧
      Forall₂ (SentBody reads c) xs l := by
  induction l with
  | nil => intro acc _; exact ⟨[], by simp [serInstances], fun _ h => (by cases h), .nil⟩
  | cons i l ih =>
    obtain ⟨id, inst⟩ := i
    intro acc hacc
    have ha' := List.pairwise_cons.1 ha
    have hlt : ∀ a ∈ acc, a.1 < id := fun a h => hacc a h (id, inst) List.mem_cons_self
    obtain ⟨hid, hx, hf⟩ := hl (id, inst) List.mem_cons_self
    simp only at hid hx hf
    obtain ⟨m, e1, hc, ht, hr⟩ := ser_composite h c.properties hn hj inst.fields hx hf
    obtain ⟨xs, e2, c2, r2⟩ := ih ha'.2 (fun y hy => hl y (List.mem_cons_of_mem _ hy)) (acc ++ [(id, .obj m)]) (by
      intro a h e he
      rcases List.mem_append.1 h with h | h
      · exact hacc a h e (List.mem_cons_of_mem _ he)
      · rw [List.mem_singleton.1 h]; exact ha'.1 e he)
    refine ⟨(id, .obj m) :: xs, ?_, ?_, .cons ⟨rfl, hid, m, rfl, hc, ht, hr⟩ r2⟩
    · rw [serInstances, if_neg (by simp [hid]), e1]
      simp only [ok_bind]
      rw [hid, asJ_append hlt, e2, List.append_assoc]
      rfl
    · intro y hy
      rcases List.mem_cons.1 hy with rfl | hy
      · exact hc
      · exact c2 y hy

/-- The registry is written unless it is empty. -/
def RegWritten (reads : Ty → JVal → Val → Prop) (m : GoMap JVal) (c : Class) (reg : GoMap Instance) : Prop :=
  (reg = [] ∧ m.lookup (registryKey c) = none) ∨
  (reg ≠ [] ∧ ∃ es, m.lookup (registryKey c) = some (.obj es) ∧ Canon (.obj es) ∧
    Forall₂ (SentBody reads c) es reg)

theorem serRegistries_ok (h : ∀ t x, fits t x → faith t x → ∃ v, ser t x = .ok v ∧ Sent (reads t) v x)
    (gv : GraphVal) (cs : List Class) (hk : (cs.map registryKey).Nodup)
    (hcs : ∀ c ∈ cs, (c.properties.map (·.name)).Nodup ∧ (c.properties.map (·.json)).Nodup ∧
      GoMap.Ascending (registryIn gv.registries c.name) ∧ ∀ i ∈ registryIn gv.registries c.name, i.2.id = i.1 ∧
        FitsProps fits c.properties i.2.fields ∧ FaithfulComposite faith c.properties i.2.fields)
    (m : GoMap JVal) (ha : GoMap.Ascending m) (hs : AllCanon m) (hm : ∀ c ∈ cs, m.lookup (registryKey c) = none) :
    ∃ m', serRegistries ser gv cs (asJ m) = .ok (asJ m') ∧ GoMap.Ascending m' ∧ AllCanon m' ∧
      (∀ k, k ∉ cs.map registryKey → m'.lookup k = m.lookup k) ∧
      ∀ c ∈ cs, RegWritten reads m' c (registryIn gv.registries c.name) := by
  induction cs generalizing m with
  | nil => exact ⟨m, rfl, ha, hs, fun _ _ => rfl, fun c hc => (by cases hc)⟩
  | cons c cs ih =>
    rw [List.map_cons, List.nodup_cons] at hk
    have hrest : ∀ d ∈ cs, registryKey d ≠ registryKey c := by
      intro d hd he
      exact hk.1 (List.mem_map.2 ⟨d, hd, he⟩)
    have hcs' := fun d hd => hcs d (List.mem_cons_of_mem _ hd)
    cases hreg : (registryIn gv.registries c.name).isEmpty with
    | true =>
      obtain ⟨m', e, a', s', k', w'⟩ := ih hk.2 hcs' m ha hs (fun d hd => hm d (List.mem_cons_of_mem _ hd))
      refine ⟨m', ?_, a', s', ?_, ?_⟩
      · rw [serRegistries, hreg]
        exact e
      · intro k hkk
        rw [List.map_cons, List.mem_cons, not_or] at hkk
        exact k' k hkk.2
      · intro d hd
        rcases List.mem_cons.1 hd with rfl | hd
        · refine .inl ⟨List.isEmpty_iff.1 hreg, ?_⟩
          rw [k' _ hk.1]
          exact hm _ List.mem_cons_self
        · exact w' d hd
    | false =>
      obtain ⟨h1, h2, hasc, h3⟩ := hcs c List.mem_cons_self
      have hne : registryIn gv.registries c.name ≠ [] := by
        intro h0
        rw [h0] at hreg
        cases hreg
      obtain ⟨xs, e1, c1, r1⟩ := serInstances_ok h c h1 h2 _ hasc h3 [] (fun a h => by cases h)
      rw [List.nil_append] at e1
      have hkeys : (registryIn gv.registries c.name).map (·.1) = xs.map (·.1) :=
        GoRuntime.forall₂_keys (fun _ _ h => h.1) r1
      have hxs : xs ≠ [] := by
        rintro rfl
        cases hr : registryIn gv.registries c.name with
        | nil => exact hne hr
        | cons a l => rw [hr] at hkeys; cases hkeys
      have hcx : Canon (.obj xs) := .obj xs (GoRuntime.ascending_of_keys hkeys.symm hasc) c1
      have hj : asJ xs = .obj xs := by unfold asJ; rw [if_neg hxs]
      rw [hj] at e1
      obtain ⟨m', e, a', s', k', w'⟩ := ih hk.2 hcs' (GoMap.put (registryKey c) (.obj xs) m) (ha.put _ _)
        (hs.put _ hcx) (fun d hd => by
          rw [GoMap.lookup_put, if_neg (hrest d hd)]
          exact hm d (List.mem_cons_of_mem _ hd))
      refine ⟨m', ?_, a', s', ?_, ?_⟩
      · rw [serRegistries, hreg]
        simp only [Bool.false_eq_true, if_false]
        have e1' : serInstances ser c (registryIn gv.registries c.name) .null = .ok (.obj xs) := e1
        rw [e1']
        simp only [ok_bind]
        rw [putMember_asJ]
        exact e
      · intro k hkk
        rw [List.map_cons, List.mem_cons, not_or] at hkk
        rw [k' k hkk.2, GoMap.lookup_put, if_neg hkk.1]
      · intro d hd
        rcases List.mem_cons.1 hd with rfl | hd
        · refine .inr ⟨hne, xs, ?_, hcx, r1⟩
          rw [k' _ hk.1, GoMap.lookup_put, if_pos rfl]
        · exact w' d hd

end

/-! ## The graph -/

/-- All the texts in the value -/
def Texts (Q : Str → Prop) (v : JVal) : Prop := ∀ s, InsideJ (.str s) v → Q s

theorem Texts.item {Q : Str → Prop} {xs : List JVal} (h : Texts Q (.arr xs)) {v : JVal} (hv : v ∈ xs) : Texts Q v :=
  fun s hs => h s (.item hv hs)

theorem Texts.entry {Q : Str → Prop} {kvs : List (Str × JVal)} (h : Texts Q (.obj kvs)) {kv : Str × JVal}
    (hv : kv ∈ kvs) : Texts Q kv.2 := fun s hs => h s (.entry hv hs)

theorem forall₂_imp_left {α β : Type} {R S : α → β → Prop} {l : List α} {m : List β}
    (h : ∀ a ∈ l, ∀ b, R a b → S a b) (hr : Forall₂ R l m) : Forall₂ S l m :=
  GoRuntime.forall₂_imp_mem (fun a b ha _ hab => h a ha b hab) hr

section

variable {M M' : Meaning} {Q : Str → Prop} (hM : ∀ k f s t, Q s → M k f s t → M' k f s t) {ids ids' : Str → Str → Prop}
  (h : ∀ c id, ids c id → ids' c id)

include hM h

theorem reads_mono {reads reads' : Str → JVal → Val → Prop}
    (he : ∀ name v x, Texts Q v → reads name v x → reads' name v x) (t : Ty) (v : JVal) (x : Val) (hv : Texts Q v)
    (hr : ReadsTy D L M ids reads t v x) : ReadsTy D L M' ids' reads' t v x := by
  induction t generalizing v x with
  | date f =>
    obtain ⟨s, t, h1, h2, h3⟩ := hr
    exact ⟨s, t, h1, hM _ _ _ _ (hv s (by rw [h1]; exact .here)) h2, h3⟩
  | time f =>
    obtain ⟨s, t, h1, h2, h3⟩ := hr
    exact ⟨s, t, h1, hM _ _ _ _ (hv s (by rw [h1]; exact .here)) h2, h3⟩
  | datetime f =>
    obtain ⟨s, t, h1, h2, h3⟩ := hr
    exact ⟨s, t, h1, hM _ _ _ _ (hv s (by rw [h1]; exact .here)) h2, h3⟩
  | array t lo hi ih =>
    obtain ⟨xs, vs, rfl, h2, h3, h4⟩ := hr
    exact ⟨xs, vs, rfl, h2, h3, forall₂_imp_left (fun a ha b => ih a b (hv.item ha)) h4⟩
  | map t ih =>
    obtain ⟨kvs, ws, rfl, h2, h4⟩ := hr
    exact ⟨kvs, ws, rfl, h2, forall₂_imp_left (fun a ha b hab => ⟨hab.1, ih _ _ (hv.entry ha) hab.2⟩) h4⟩
  | cls c =>
    obtain ⟨id, h1, h2, h3⟩ := hr
    exact ⟨id, h1, h2, h c id h3⟩
  | embed name => exact he name v x hv hr
  | _ => exact hr

omit hM h in
theorem readsProps_mono {reads reads' : Ty → JVal → Val → Prop}
    (h : ∀ t v x, Texts Q v → reads t v x → reads' t v x) {kvs : List (Str × JVal)} (hv : Texts Q (.obj kvs))
    {ps : List Property} {fields : Fields} (hr : ReadsProps reads kvs ps fields) : ReadsProps reads' kvs ps fields := by
  unfold ReadsProps at *
  refine hr.imp fun p f hp => ⟨hp.1, ?_⟩
  have := hp.2
  unfold ReadsProperty at *
  split
  · next hl => rw [hl] at this; exact this
  · next v hl => rw [hl] at this; exact h _ _ _ (hv.entry (mem_of_lookup hl)) this

theorem readsEmbed_mono (n : Nat) :
    ∀ name v x, Texts Q v → ReadsEmbed D L M g ids n name v x → ReadsEmbed D L M' g ids' n name v x := by
  induction n with
  | zero => intro name v x _ hr; exact hr
  | succ n ih =>
    rintro name v x hv ⟨e, kvs, fields, h1, rfl, h3, h4⟩
    exact ⟨e, kvs, fields, h1, rfl, h3, readsProps_mono (reads_mono hM h ih) hv h4⟩

omit h in
theorem readsGraph_mono {n : Nat} {v : JVal} (hv : Texts Q v) {gv : GraphVal}
    (h : ReadsGraph D L M g n v gv) : ReadsGraph D L M' g n v gv := by
  obtain ⟨kvs, rfl, h2, h3⟩ := h
  have hm : ∀ t v x, Texts Q v → Reads D L M g (Described g kvs) n t v x → Reads D L M' g (Described g kvs) n t v x :=
    reads_mono hM (fun _ _ h => h) (readsEmbed_mono hM (fun _ _ h => h) n)
  refine ⟨kvs, rfl, h2.imp fun c r hr => ⟨hr.1, ?_⟩, readsProps_mono hm hv h3⟩
  rcases hr.2 with h | ⟨es, h4, h5⟩
  · exact .inl h
  · have hes := hv.entry (mem_of_lookup h4)
    refine .inr ⟨es, h4, forall₂_imp_left (fun e he i hi => ⟨hi.1, hi.2.1, hi.2.2.1, ?_⟩) h5⟩
    obtain ⟨kvs', h6, h7⟩ := hi.2.2.2
    exact ⟨kvs', h6, readsProps_mono hm (by rw [← h6]; exact hes.entry he) h7⟩

end

theorem registries_names {cs : List Class} {rs : List (Str × GoMap Instance)}
    (h : Forall₂ (fun (c : Class) (r : Str × GoMap Instance) => r.1 = c.name) cs rs) :
    rs.map (·.1) = cs.map Class.name := by
  induction h with
  | nil => rfl
  | cons h1 _ ih => rw [List.map_cons, List.map_cons, ih, h1]

/-- A graph which satisfies the schema is serialized to what describes it. -/
theorem ser_graph (hC : Compiles g) (hJ : JsonKeys g) (n : Nat)
    (gv : GraphVal) (hv : ValidGraph g D L n gv) (hf : FaithfulGraph g D L n gv) :
    ∃ v, serGraph D L g n gv = .ok v ∧ Canon v ∧ ReadsGraph D L (Loose D L) g n v gv := by
  by_cases hempty : g.properties = [] ∧ g.classes = []
  · refine ⟨.obj [], ?_, .obj _ .nil (fun _ h => by cases h), [], rfl, ?_, ?_⟩
    · unfold serGraph
      rw [if_pos hempty]
    · have h1 := hv.registries
      rw [hempty.2] at h1 ⊢
      generalize gv.registries = rs at h1 ⊢
      cases h1
      exact .nil
    · have h1 := hv.fields
      unfold FitsProps at h1
      unfold ReadsProps
      rw [hempty.1] at h1 ⊢
      generalize gv.fields = fs at h1 ⊢
      cases h1
      exact .nil
  have hJ1 := List.nodup_append.1 hJ.graph
  have hval := ser_value (registered := Registered gv) (D := D) (L := L) hC hJ n
  obtain ⟨m, e1, ha, hs, hk, hw⟩ := ser_props hval g.properties hC.graph.nodup hJ1.1 gv.fields hv.fields hf.fields
  -- the registry of a class
  have hnames : gv.registries.map (·.1) = g.classes.map Class.name :=
    registries_names (hv.registries.imp fun _ _ h => h.1)
  have hlook : ∀ c (r : GoMap Instance), (c, r) ∈ gv.registries → gv.registries.lookup c = some r :=
    fun c r hm => GoMap.lookup_of_mem (by rw [hnames]; exact hC.names) hm
  have hreg : ∀ c (r : GoMap Instance), (c, r) ∈ gv.registries → registryIn gv.registries c = r := by
    intro c r hm
    unfold registryIn
    rw [hlook c r hm]
    rfl
  have hclass : ∀ c ∈ g.classes, (c.name, registryIn gv.registries c.name) ∈ gv.registries ∧
      GoMap.Ascending (registryIn gv.registries c.name) ∧
      ∀ i ∈ registryIn gv.registries c.name, i.2.id = i.1 ∧ Matches L c.idPattern i.1 ∧
        FitsProps (Fits g D L (Registered gv) n) c.properties i.2.fields := by
    intro c hc
    obtain ⟨⟨k, reg⟩, hm, h1, h2, h3⟩ := forall₂_mem hv.registries c hc
    simp only at h1 h2 h3
    subst h1
    rw [hreg _ _ hm]
    exact ⟨hm, h2, h3⟩
  have hkeys : (g.classes.map registryKey).Nodup := hJ1.2.1
  obtain ⟨m', e2, ha', hs', hk', hw'⟩ := serRegistries_ok hval gv g.classes hkeys (by
    intro c hc
    obtain ⟨h1, h2, h3⟩ := hclass c hc
    refine ⟨(hC.cls c hc).nodup, hJ.cls c hc, h2, fun i hi => ⟨(h3 i hi).1, (h3 i hi).2.2, ?_⟩⟩
    exact hf.registries c hc _ (hlook _ _ h1) i hi) m ha hs (by
    intro c hc
    refine hk _ fun hm => ?_
    exact hJ1.2.2 _ hm _ (List.mem_map.2 ⟨c, hc, rfl⟩) rfl)
  have hwprops : ∀ p ∈ g.properties, ∃ x, gv.fields.lookup p.name = some x ∧
      Written (Reads D L (Loose D L) g (Registered gv) n) m' p x := by
    intro p hp
    obtain ⟨x, hl, hx⟩ := hw p hp
    refine ⟨x, hl, ?_⟩
    have hke : m'.lookup p.json = m.lookup p.json := by
      refine hk' _ fun hm => ?_
      exact hJ1.2.2 _ (List.mem_map.2 ⟨p, hp, rfl⟩) _ hm rfl
    unfold Written at *
    rw [hke]
    exact hx
  have hne : m' ≠ [] := by
    rcases hf.shown with h | h | ⟨c, hc, r, hl, hr⟩
    · exact absurd h hempty
    · exact asJ_shown hwprops h
    · rintro rfl
      have hr' : registryIn gv.registries c.name = r := by unfold registryIn; rw [hl]; rfl
      rcases hw' c hc with ⟨h0, _⟩ | ⟨_, es, h0, _, _⟩
      · exact hr (hr'.symm.trans h0)
      · cases h0
  refine ⟨.obj m', ?_, .obj m' ha' hs', ?_⟩
  · unfold serGraph
    rw [if_neg hempty]
    simp only
    rw [e1]
    simp only [ok_bind]
    rw [e2]
    unfold asJ
    rw [if_neg hne]
  · -- the registered instances are described
    have hids : ∀ c id, Registered gv c id → Described g m' c id := by
      rintro c id ⟨reg, hm, i, hi⟩
      obtain ⟨d, hd, hdn, _⟩ := GoRuntime.forall₂_right hv.registries hm
      simp only at hdn
      subst hdn
      refine ⟨d, hd, rfl, ?_⟩
      rcases hw' d hd with ⟨h0, _⟩ | ⟨_, es, hl, _, hfe⟩
      · rw [hreg _ _ hm] at h0; subst h0; cases hi
      · refine ⟨es, hl, ?_⟩
        rw [← GoRuntime.forall₂_keys (fun _ _ h => h.1) hfe, hreg _ _ hm]
        exact List.mem_map.2 ⟨_, hi, rfl⟩
    have hmono : ∀ t v x, Texts (fun _ => True) v → Reads D L (Loose D L) g (Registered gv) n t v x →
        Reads D L (Loose D L) g (Described g m') n t v x :=
      reads_mono (fun _ _ _ _ _ h => h) hids (readsEmbed_mono (fun _ _ _ _ _ h => h) hids n)
    refine ⟨m', rfl, ?_, ?_⟩
    · refine GoRuntime.forall₂_imp_mem (fun c reg hc hm hq => ⟨hq.1, ?_⟩) hv.registries
      obtain ⟨k, reg⟩ := reg
      obtain ⟨hk1, hq⟩ := hq
      simp only at hk1 hq ⊢
      subst hk1
      have hrw := hw' c hc
      rw [hreg _ _ hm] at hrw
      rcases hrw with ⟨h0, hl⟩ | ⟨_, es, hl, _, hfe⟩
      · exact .inl ⟨hl, h0⟩
      · refine .inr ⟨es, hl, ?_⟩
        refine GoRuntime.forall₂_imp_mem (fun e i _ hi he => ⟨he.1, he.2.1, ?_, ?_⟩) hfe
        · rw [← he.1]; exact (hq.2 i hi).2.1
        · obtain ⟨kvs', hk2, _, _, hp⟩ := he.2.2
          exact ⟨kvs', hk2, readsProps_mono hmono (fun _ _ => trivial) hp⟩
    · exact readsProps_mono hmono (fun _ _ => trivial) (reads_of_written hC.graph.nodup hv.fields hwprops)

end Mapry.CppRuntime
