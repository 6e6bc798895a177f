import Verif.TransferMeans
import Verif.CppSer

/-!
# The documents written in C++
-/

namespace Mapry.Interop

open Mapry.Duration Mapry.Text
open Mapry.PyRuntime.Spec (Within FloatWithin SizeWithin boolNum)
open CppRuntime CppRuntime.Spec

theorem cppTexts_iff : ∀ {xs : List JVal} {ds : List Doc}, CppTexts xs ds ↔ Forall₂ CppText xs ds
  | [], ds => by
    rw [CppTexts]
    exact ⟨fun h => h ▸ .nil, fun h => by cases h; rfl⟩
  | x :: xs, ds => by
    rw [CppTexts]
    constructor
    · rintro ⟨e, es, rfl, h1, h2⟩
      exact .cons h1 (cppTexts_iff.1 h2)
    · intro h
      cases h with
      | cons h1 h2 => exact ⟨_, _, rfl, h1, cppTexts_iff.2 h2⟩

theorem cppMembers_iff : ∀ {xs : List (Str × JVal)} {ds : List (Str × Doc)},
    CppMembers xs ds ↔ Forall₂ (Member CppText) xs ds
  | [], ds => by
    rw [CppMembers]
    exact ⟨fun h => h ▸ .nil, fun h => by cases h; rfl⟩
  | x :: xs, ds => by
    rw [CppMembers]
    constructor
    · rintro ⟨e, es, rfl, h0, h1, h2⟩
      exact .cons ⟨h0, h1⟩ (cppMembers_iff.1 h2)
    · intro h
      cases h with
      | cons h1 h2 => exact ⟨_, _, rfl, h1.1, h1.2, cppMembers_iff.2 h2⟩

/-- Every document which is written for `v` is written for a value which `x` shows. -/
def CppSends (M : Doc → AVal → Prop) (Q : AVal → Val → Prop) (v : JVal) (x : Val) : Prop :=
  ∀ d, CppText v d → ∃ a, M d a ∧ Q a x

section

variable {D : DateLib} {C : Lib} {g : Graph} {registered : Str → Str → Prop}

theorem cpp_writes_ty {ser : Str → Val → Except Exc JVal} {fits faith : Str → Val → Prop}
    {M : Str → Doc → AVal → Prop} {Q : Str → AVal → Val → Prop}
    (he : ∀ name x, fits name x → faith name x → ∃ v, ser name x = .ok v ∧ Sent (CppSends (M name) (Q name)) v x)
    (t : Ty) (x : Val) (hx : FitsTy D C registered fits t x) (hf : CppWritableTy D C faith t x) :
    ∃ v, serTy D C ser t x = .ok v ∧
      Sent (CppSends (WrittenTy (cppWriter D C) registered M t) (CppTy Q t)) v x := by
  induction t generalizing x with
  | boolean =>
    obtain ⟨c, rfl⟩ := hx
    exact ⟨_, rfl, .bool c, fun d hd => ⟨.bool c, ⟨c, hd, rfl⟩, c, rfl, rfl⟩⟩
  | integer b =>
    obtain ⟨i, rfl, h1, h2⟩ := hx
    exact ⟨_, rfl, .int i h1, fun d hd => ⟨.int i, ⟨i, hd, rfl, h1, h2⟩, i, rfl, rfl⟩⟩
  | float b =>
    obtain ⟨f, rfl, h1⟩ := hx
    refine ⟨_, rfl, .real f, fun d hd => ?_⟩
    obtain ⟨q, rfl, hd⟩ := hd
    exact ⟨.float (.fin q), ⟨q, hd, rfl, h1⟩, _, rfl, rfl⟩
  | string p =>
    obtain ⟨s, rfl, h1⟩ := hx
    exact ⟨_, rfl, .str s, fun d hd => ⟨.str s, ⟨s, hd, rfl, h1⟩, s, rfl, rfl⟩⟩
  | path p =>
    obtain ⟨s, rfl, h1⟩ := hx
    exact ⟨_, rfl, .str s, fun d hd => ⟨.str s, ⟨s, hd, rfl, h1⟩, s, rfl, rfl⟩⟩
  | date f =>
    obtain ⟨_, t, _, rfl⟩ := hx
    obtain ⟨s, h1⟩ := hf t rfl
    exact ⟨_, ser_time .date f t s h1, .str s, fun d hd => ⟨_, ⟨s, t, hd, h1, rfl⟩, t, rfl, rfl⟩⟩
  | time f =>
    obtain ⟨_, t, _, rfl⟩ := hx
    obtain ⟨s, h1⟩ := hf t rfl
    exact ⟨_, ser_time .time f t s h1, .str s, fun d hd => ⟨_, ⟨s, t, hd, h1, rfl⟩, t, rfl, rfl⟩⟩
  | datetime f =>
    obtain ⟨_, t, _, rfl⟩ := hx
    obtain ⟨s, h1⟩ := hf t rfl
    exact ⟨_, ser_time .datetime f t s h1, .str s, fun d hd => ⟨_, ⟨s, t, hd, h1, rfl⟩, t, rfl, rfl⟩⟩
  | timeZone =>
    obtain ⟨s, z, h1, rfl⟩ := hx
    exact ⟨_, rfl, .str z, fun d hd => ⟨_, ⟨z, hd, rfl⟩, z, rfl, rfl⟩⟩
  | duration =>
    obtain ⟨d, rfl, h1⟩ := hx
    obtain ⟨s, h2, _⟩ := Props.C16_cpp_round_trip_partial d h1 (hf d rfl)
    refine ⟨.str s, ?_, .str s, fun e hd => ⟨_, ⟨s, d, hd, h2, rfl, h1, hf d rfl⟩, d, rfl, rfl⟩⟩
    simp only [serTy, h2]
  | array t lo hi ih =>
    obtain ⟨vs, rfl, hs, hv⟩ := hx
    obtain ⟨xs, e, c, r⟩ := serItems_ok (R := CppSends (WrittenTy (cppWriter D C) registered M t) (CppTy Q t)) vs
      (fun y hy => ih y (hv y hy) (hf vs rfl y hy))
    refine ⟨.arr xs, ?_, .arr xs c, fun d hd => ?_⟩
    · simp only [serTy, e]; rfl
    · obtain ⟨ds, rfl, hd⟩ := hd
      have hd := cppTexts_iff.1 hd
      obtain ⟨as, h1, h2⟩ := lift_list hd r
      refine ⟨.list as, ⟨ds, as, rfl, rfl, ?_, h1⟩, as, vs, rfl, rfl, h2⟩
      rw [← GoRuntime.forall₂_length hd, GoRuntime.forall₂_length r]; exact hs
  | map t ih =>
    obtain ⟨kvs, rfl, ha, hv⟩ := hx
    obtain ⟨xs, e, c, r⟩ := serEntries_ok (R := CppSends (WrittenTy (cppWriter D C) registered M t) (CppTy Q t)) kvs ha
      (fun y hy => ih y.2 (hv y hy) (hf kvs rfl y hy)) [] (fun a h => by cases h)
    have hk : kvs.map (·.1) = xs.map (·.1) := GoRuntime.forall₂_keys (fun _ _ h => h.1.symm) r
    have hasc := GoRuntime.ascending_of_keys hk.symm ha
    refine ⟨.obj xs, ?_, .obj xs hasc c, fun d hd => ?_⟩
    · simp only [serTy, e]; rfl
    · obtain ⟨ds, rfl, hd⟩ := hd
      have hd := cppMembers_iff.1 hd
      obtain ⟨as, h1, h2⟩ := lift_list
        (M := fun e (b : Str × AVal) => b.1 = e.1 ∧ WrittenTy (cppWriter D C) registered M t e.2 b.2)
        (Q := fun (b : Str × AVal) y => y.1 = b.1 ∧ CppTy Q t b.2 y.2) hd (r.imp fun v x h e he => by
          obtain ⟨a, h1, h2⟩ := h.2 e.2 he.2
          exact ⟨(e.1, a), ⟨rfl, h1⟩, by rw [he.1]; exact h.1.symm, h2⟩)
      exact ⟨.map as, ⟨ds, as, rfl, rfl, by rw [members_keys hd]; exact hasc.nodup, h1⟩, as, kvs, rfl, rfl,
        unordered_of h2⟩
  | cls c =>
    obtain ⟨id, rfl, h1⟩ := hx
    exact ⟨_, rfl, .str id, fun d hd => ⟨_, ⟨id, hd, rfl, h1⟩, c, id, rfl, rfl⟩⟩
  | embed name => exact he name x hx hf

theorem cpp_writes_props {M : Ty → Doc → AVal → Prop} {Q : Ty → AVal → Val → Prop} {m : GoMap JVal}
    {ps : List Property} {fields : CppRuntime.Fields} (hr : ReadsProps (fun t => CppSends (M t) (Q t)) m ps fields)
    {ds : List (Str × Doc)} (hd : Forall₂ (Member CppText) m ds) :
    ∃ as, WrittenProps M ds ps as ∧ Forall₃ (CppField Q) ps as fields := by
  refine lift_each hr ?_
  rintro p _ ⟨k, x⟩ _ ⟨rfl, hx⟩
  obtain ⟨a, h1, h2⟩ := lift_property (M := M) (Q := Q) (nil := Val.nil) (p := p) hd (x := x)
    (fun h => by unfold ReadsProperty at hx; rw [h] at hx; exact hx)
    (fun v h => by unfold ReadsProperty at hx; rw [h] at hx; exact hx)
  exact ⟨(p.name, a), ⟨rfl, h1⟩, rfl, rfl, h2⟩

theorem cpp_writes_object {M : Ty → Doc → AVal → Prop} {Q : Ty → AVal → Val → Prop} {m : GoMap JVal}
    (hc : Canon (.obj m)) {ps : List Property} (ht : Tight m ps) {fields : CppRuntime.Fields}
    (hr : ReadsProps (fun t => CppSends (M t) (Q t)) m ps fields) {d : Doc} (hd : CppText (.obj m) d) :
    ∃ as, WrittenObject M ps d as ∧ Forall₃ (CppField Q) ps as fields := by
  obtain ⟨ds, rfl, hd⟩ := hd
  have hd := cppMembers_iff.1 hd
  obtain ⟨as, h1, h2⟩ := cpp_writes_props hr hd
  cases hc with
  | obj _ ha _ => exact ⟨as, ⟨ds, rfl, members_closed hd ha.nodup ht, h1⟩, h2⟩

theorem cpp_writes_embed (hC : Compiles g) (hJ : JsonKeys g) (n : Nat) :
    ∀ name x, FitsEmbed g D C registered n name x → CppWritableEmbed D C g n name x →
      ∃ v, serEmbed D C g n name x = .ok v ∧
        Sent (CppSends (WrittenEmbed (cppWriter D C) g registered n name) (CppEmbed g n name)) v x := by
  induction n with
  | zero => intro name x h; exact h.elim
  | succ n ih =>
    rintro name x ⟨e, fields, he, rfl, hx⟩ hf
    have hmem := embed_mem he
    obtain ⟨m, e1, hc, ht, hr⟩ := ser_composite (reads := fun t => CppSends _ _) (cpp_writes_ty ih) e.properties
      (hC.embed e hmem).nodup (hJ.embed e hmem) fields hx (hf e fields he rfl)
    refine ⟨.obj m, ?_, hc, fun d hd => ?_⟩
    · rw [serEmbed, he]
      exact e1
    · obtain ⟨as, h1, h2⟩ := cpp_writes_object hc ht hr hd
      exact ⟨.obj name as, ⟨e, as, he, rfl, h1⟩, e, as, fields, he, rfl, rfl, h2⟩

theorem cpp_writes_value (hC : Compiles g) (hJ : JsonKeys g) (n : Nat) (t : Ty) (x : Val)
    (hx : Fits g D C registered n t x) (hf : CppWritableTy D C (CppWritableEmbed D C g n) t x) :
    ∃ v, serTy D C (serEmbed D C g n) t x = .ok v ∧
      Sent (CppSends (Interop.Written (cppWriter D C) g registered n t) (CppTy (CppEmbed g n) t)) v x :=
  cpp_writes_ty (cpp_writes_embed hC hJ n) t x hx hf

/-- A graph which satisfies the schema and can be serialized is serialized, and the document is written for the graph. -/
theorem cpp_writes_graph (hC : Compiles g) (hJ : JsonKeys g) (n : Nat) (gv : GraphVal) (hv : ValidGraph g D C n gv)
    (hf : CppWritable D C g n gv) : ∃ v, serGraph D C g n gv = .ok v ∧
      ∀ d, CppText v d → ∃ a, WrittenGraph (cppWriter D C) g n d a ∧ CppGraph g n a gv := by
  by_cases hempty : g.properties = [] ∧ g.classes = []
  · refine ⟨.obj [], by unfold serGraph; rw [if_pos hempty], fun d hd => ?_⟩
    obtain ⟨ds, rfl, hd⟩ := hd
    rw [CppMembers] at hd
    subst hd
    have h1 := hv.registries
    have h2 := hv.fields
    unfold FitsProps at h2
    refine ⟨⟨[], []⟩, ⟨[], rfl, ⟨by simp, by simp⟩, by rw [hempty.2]; exact .nil, ?_⟩, ?_, ?_⟩
    · unfold WrittenProps; rw [hempty.1]; exact .nil
    · rw [hempty.2] at h1 ⊢
      generalize gv.registries = rs at h1 ⊢
      cases h1
      exact .nil
    · rw [hempty.1] at h2 ⊢
      generalize gv.fields = fs at h2 ⊢
      cases h2
      exact .nil
  have hJ1 := List.nodup_append.1 hJ.graph
  have hval := cpp_writes_value (registered := Registered gv) (D := D) (C := C) hC hJ n
  obtain ⟨m, e1, ha, hs, hk, hw⟩ := ser_props (reads := fun t => CppSends _ _) hval g.properties hC.graph.nodup hJ1.1
    gv.fields hv.fields hf.fields
  have hnames : gv.registries.map (·.1) = g.classes.map Class.name :=
    registries_names (hv.registries.imp fun _ _ h => h.1)
  have hlook : ∀ c (r : GoMap Instance), (c, r) ∈ gv.registries → gv.registries.lookup c = some r :=
    fun c r hm => GoMap.lookup_of_mem (by rw [hnames]; exact hC.names) hm
  have hreg : ∀ c (r : GoMap Instance), (c, r) ∈ gv.registries → registryIn gv.registries c = r := by
    intro c r hm
    unfold registryIn
    rw [hlook c r hm]
    rfl
  have hclass : ∀ c ∈ g.classes, (c.name, registryIn gv.registries c.name) ∈ gv.registries ∧
      GoMap.Ascending (registryIn gv.registries c.name) ∧
      ∀ i ∈ registryIn gv.registries c.name, i.2.id = i.1 ∧ Matches C c.idPattern i.1 ∧
        FitsProps (Fits g D C (Registered gv) n) c.properties i.2.fields := by
    intro c hc
    obtain ⟨⟨k, reg⟩, hm, h1, h2, h3⟩ := forall₂_mem hv.registries c hc
    simp only at h1 h2 h3
    subst h1
    rw [hreg _ _ hm]
    exact ⟨hm, h2, h3⟩
  have hkeys : (g.classes.map registryKey).Nodup := hJ1.2.1
  obtain ⟨m', e2, ha', hs', hk', hw'⟩ := serRegistries_ok (reads := fun t => CppSends _ _) hval gv g.classes hkeys (by
    intro c hc
    obtain ⟨h1, h2, h3⟩ := hclass c hc
    refine ⟨(hC.cls c hc).nodup, hJ.cls c hc, h2, fun i hi => ⟨(h3 i hi).1, (h3 i hi).2.2, ?_⟩⟩
    exact hf.registries c hc _ (hlook _ _ h1) i hi) m ha hs (by
    intro c hc
    refine hk _ fun hm => ?_
    exact hJ1.2.2 _ hm _ (List.mem_map.2 ⟨c, hc, rfl⟩) rfl)
  have hwprops : ∀ p ∈ g.properties, ∃ x, gv.fields.lookup p.name = some x ∧
      CppRuntime.Written (fun t => CppSends (Interop.Written (cppWriter D C) g (Registered gv) n t)
        (CppTy (CppEmbed g n) t)) m' p x := by
    intro p hp
    obtain ⟨x, hl, hx⟩ := hw p hp
    refine ⟨x, hl, ?_⟩
    have hke : m'.lookup p.json = m.lookup p.json := by
      refine hk' _ fun hm => ?_
      exact hJ1.2.2 _ (List.mem_map.2 ⟨p, hp, rfl⟩) _ hm rfl
    unfold CppRuntime.Written at *
    rw [hke]
    exact hx
  have hne : m' ≠ [] := by
    rcases hf.shown with h | h | ⟨c, hc, r, hl, hr⟩
    · exact absurd h hempty
    · exact asJ_shown hwprops h
    · rintro rfl
      have hr' : registryIn gv.registries c.name = r := by unfold registryIn; rw [hl]; rfl
      rcases hw' c hc with ⟨h0, _⟩ | ⟨_, es, h0, _, _⟩
      · exact hr (hr'.symm.trans h0)
      · cases h0
  refine ⟨.obj m', ?_, fun d hd => ?_⟩
  · unfold serGraph
    rw [if_neg hempty]
    simp only
    rw [e1]
    simp only [ok_bind]
    rw [e2]
    unfold asJ
    rw [if_neg hne]
  obtain ⟨ds, rfl, hd⟩ := hd
  have hd := cppMembers_iff.1 hd
  -- the registry of a class in the document
  have hdoc : ∀ c ∈ g.classes, ∀ es, m'.lookup (registryKey c) = some (.obj es) →
      ∃ entries, ds.lookup (lower c.plural) = some (.obj entries) ∧ Forall₂ (Member CppText) es entries := by
    intro c _ es he
    rcases members_lookup hd (registryKey c) with ⟨h1, _⟩ | ⟨v, d, h1, h2, h3⟩
    · rw [h1] at he; cases he
    · rw [h1] at he
      cases he
      obtain ⟨entries, rfl, h3⟩ := h3
      exact ⟨entries, h2, cppMembers_iff.1 h3⟩
  have hids : ∀ c id, Registered gv c id → Interop.Described g ds c id := by
    rintro c id ⟨reg, hm, i, hi⟩
    obtain ⟨d, hd', hdn, _⟩ := GoRuntime.forall₂_right hv.registries hm
    simp only at hdn
    subst hdn
    refine ⟨d, hd', rfl, ?_⟩
    rcases hw' d hd' with ⟨h0, _⟩ | ⟨_, es, hl, _, hfe⟩
    · rw [hreg _ _ hm] at h0; subst h0; cases hi
    · obtain ⟨entries, h1, h2⟩ := hdoc d hd' es hl
      refine ⟨entries, h1, ?_⟩
      rw [members_keys h2, ← GoRuntime.forall₂_keys (fun _ _ h => h.1) hfe, hreg _ _ hm]
      exact List.mem_map.2 ⟨_, hi, rfl⟩
  have hmono := written_ids (W := cppWriter D C) (g := g) hids n
  obtain ⟨fs, f1, f2⟩ := cpp_writes_props (reads_of_written hC.graph.nodup hv.fields hwprops) hd
  obtain ⟨rs, r1, r2⟩ := lift_each
    (M := fun (c : Class) (r : Str × List (Str × AFields)) => r.1 = c.name ∧
      WrittenRegistry (cppWriter D C) (Interop.Written (cppWriter D C) g (Interop.Described g ds) n) ds c r.2)
    (Q := fun (c : Class) r (r' : Str × GoMap Instance) => r.1 = c.name ∧ r'.1 = c.name ∧
      Unordered (CppInstance g n c) r.2 r'.2) hv.registries (by
    rintro c hc ⟨k, reg⟩ hm ⟨h1, _, hq⟩
    simp only at h1 hq ⊢
    subst h1
    have hrw := hw' c hc
    rw [hreg _ _ hm] at hrw
    rcases hrw with ⟨h0, hl⟩ | ⟨_, es, hl, hcan, hfe⟩
    · subst h0
      refine ⟨(c.name, []), ⟨rfl, .inl ⟨?_, rfl⟩⟩, rfl, rfl, unordered_of .nil⟩
      rcases members_lookup hd (registryKey c) with ⟨_, h1⟩ | ⟨v, d, h1, _⟩
      · exact h1
      · rw [hl] at h1; cases h1
    · obtain ⟨entries, h1, h2⟩ := hdoc c hc es hl
      obtain ⟨r, h3, h4⟩ := lift_list
        (M := WrittenInstance (cppWriter D C) (Interop.Written (cppWriter D C) g (Interop.Described g ds) n) c)
        (Q := CppInstance g n c) h2 (GoRuntime.forall₂_imp_mem (fun e i _ hi he d hde => by
          obtain ⟨b1, b2, kvs, b3, b4, b5, b6⟩ := he
          have hde2 := hde.2
          rw [b3] at hde2
          obtain ⟨as, h5, h6⟩ := cpp_writes_object b4 b5 b6 hde2
          refine ⟨(d.1, as), ⟨rfl, ?_, writtenObject_imp hmono h5⟩, ?_, ?_, h6⟩
          · intro p hp
            rw [hde.1, ← b1]
            exact (hq i hi).2.1 p hp
          · rw [hde.1]; exact b1
          · rw [hde.1]; exact b2) hfe)
      refine ⟨(c.name, r), ⟨rfl, .inr ⟨entries, h1, ?_, h3⟩⟩, rfl, rfl, unordered_of h4⟩
      rw [members_keys h2]
      cases hcan with
      | obj _ hasc _ => exact hasc.nodup)
  refine ⟨⟨fs, rs⟩, ⟨ds, rfl, members_closed hd ha'.nodup ?_, r1, writtenProps_imp hmono f1⟩, r2, f2⟩
  intro k hk1
  rw [List.mem_append, not_or] at hk1
  rw [hk' k hk1.2, hk k hk1.1]

end

end Mapry.Interop
