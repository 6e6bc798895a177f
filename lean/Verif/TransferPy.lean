import Verif.TransferMeans
import Verif.PySer

/-!
# The documents written in Python
-/

namespace Mapry.Interop

open Mapry.Duration Mapry.Text
open Mapry.PyRuntime.Spec (Within FloatWithin SizeWithin boolNum)
open PyRuntime PyRuntime.Spec

theorem pyTexts_iff : ∀ {xs : List Json} {ds : List Doc}, PyTexts xs ds ↔ Forall₂ PyText xs ds
  | [], ds => by
    rw [PyTexts]
    exact ⟨fun h => h ▸ .nil, fun h => by cases h; rfl⟩
  | x :: xs, ds => by
    rw [PyTexts]
    constructor
    · rintro ⟨e, es, rfl, h1, h2⟩
      exact .cons h1 (pyTexts_iff.1 h2)
    · intro h
      cases h with
      | cons h1 h2 => exact ⟨_, _, rfl, h1, pyTexts_iff.2 h2⟩

theorem pyMembers_iff : ∀ {xs : List (Str × Json)} {ds : List (Str × Doc)},
    PyMembers xs ds ↔ Forall₂ (Member PyText) xs ds
  | [], ds => by
    rw [PyMembers]
    exact ⟨fun h => h ▸ .nil, fun h => by cases h; rfl⟩
  | x :: xs, ds => by
    rw [PyMembers]
    constructor
    · rintro ⟨e, es, rfl, h0, h1, h2⟩
      exact .cons ⟨h0, h1⟩ (pyMembers_iff.1 h2)
    · intro h
      cases h with
      | cons h1 h2 => exact ⟨_, _, rfl, h1.1, h1.2, pyMembers_iff.2 h2⟩

theorem same_keys {β γ : Type} {Q : Str × β → Str × γ → Prop} {l : List (Str × β)} {m : List (Str × γ)}
    (h : Forall₂ (fun a b => a.1 = b.1 ∧ Q a b) l m) : l.map (·.1) = m.map (·.1) := by
  induction h with
  | nil => rfl
  | cons h _ ih => rw [List.map_cons, List.map_cons, ih, h.1]

/-! ## What is written for the properties -/

theorem nodup_putKey {k : Str} {x : Json} {t : List (Str × Json)} (h : (t.map (·.1)).Nodup) :
    ((putKey k x t).map (·.1)).Nodup := by
  induction t with
  | nil => simp [putKey]
  | cons e t ih =>
    obtain ⟨a, y⟩ := e
    simp only [putKey]
    by_cases ha : a = k
    · subst ha
      rw [if_pos rfl]
      simpa using h
    · rw [if_neg ha]
      rw [List.map_cons, List.nodup_cons] at h ⊢
      refine ⟨fun hm => ?_, ih h.2⟩
      rcases (keys_putKey k x t a).1 hm with h1 | h1
      · exact ha h1
      · exact h.1 h1

/-- The attribute is written, or it is optional and not set. -/
def PyWritten (R : Ty → Json → Val → Prop) (m : List (Str × Json)) (p : Property) (x : Val) : Prop :=
  (p.optional = true ∧ x = .none ∧ m.lookup p.json = none) ∨ ∃ v, m.lookup p.json = some v ∧ R p.ty v x

section

variable {ser : Ty → Val → Except Exc Json} {R : Ty → Json → Val → Prop} {fits dicts : Ty → Val → Prop}

theorem pyProps_ok (field : Property → Str) (all : Attrs) (ps : List Property) (hn : (ps.map (·.json)).Nodup)
    (h : ∀ p ∈ ps, ∃ x, all.lookup (field p) = some x ∧
      ((p.optional = true ∧ x = .none) ∨ (x ≠ .none ∧ ∃ v, ser p.ty x = .ok v ∧ R p.ty v x)))
    (m : List (Str × Json)) (ha : (m.map (·.1)).Nodup) (hm : ∀ p ∈ ps, m.lookup p.json = none) :
    ∃ m', serProps ser field all ps m = .ok m' ∧ (m'.map (·.1)).Nodup ∧
      (∀ k, k ∉ ps.map (·.json) → m'.lookup k = m.lookup k) ∧
      ∀ p ∈ ps, ∃ x, all.lookup (field p) = some x ∧ PyWritten R m' p x := by
  induction ps generalizing m with
  | nil => exact ⟨m, rfl, ha, fun _ _ => rfl, fun p hp => (by cases hp)⟩
  | cons p ps ih =>
    rw [List.map_cons, List.nodup_cons] at hn
    obtain ⟨x, hl, hx⟩ := h p (List.mem_cons_self ..)
    have hrest : ∀ q ∈ ps, q.json ≠ p.json := by
      intro q hq he
      exact hn.1 (List.mem_map.2 ⟨q, hq, he⟩)
    rcases hx with ⟨ho, rfl⟩ | ⟨hnone, v, e1, s1⟩
    · obtain ⟨m', e, a', k', w'⟩ := ih hn.2 (fun q hq => h q (List.mem_cons_of_mem _ hq)) m ha
        (fun q hq => hm q (List.mem_cons_of_mem _ hq))
      refine ⟨m', ?_, a', ?_, ?_⟩
      · rw [serProps.eq_def]
        simp only [hl, ho, if_true]
        exact e
      · intro k hk
        rw [List.map_cons, List.mem_cons, not_or] at hk
        exact k' k hk.2
      · intro q hq
        rcases List.mem_cons.1 hq with rfl | hq
        · refine ⟨_, hl, .inl ⟨ho, rfl, ?_⟩⟩
          rw [k' _ hn.1]
          exact hm _ (List.mem_cons_self ..)
        · exact w' q hq
    · obtain ⟨m', e, a', k', w'⟩ := ih hn.2 (fun q hq => h q (List.mem_cons_of_mem _ hq))
        (putKey p.json v m) (nodup_putKey ha)
        (fun q hq => by
          rw [lookup_putKey, if_neg (hrest q hq)]
          exact hm q (List.mem_cons_of_mem _ hq))
      refine ⟨m', ?_, a', ?_, ?_⟩
      · rw [serProps.eq_def]
        simp only [hl, e1, bind, Except.bind]
        exact e
      · intro k hk
        rw [List.map_cons, List.mem_cons, not_or] at hk
        rw [k' k hk.2, lookup_putKey, if_neg hk.1]
      · intro q hq
        rcases List.mem_cons.1 hq with rfl | hq
        · refine ⟨x, hl, .inr ⟨v, ?_, s1⟩⟩
          rw [k' _ hn.1, lookup_putKey, if_pos rfl]
        · exact w' q hq

variable (hne : ∀ t x, fits t x → x ≠ .none)
  (h : ∀ t x, fits t x → dicts t x → ∃ v, ser t x = .ok v ∧ R t v x)

/-- What the dictionary has for the attributes -/
def PyProps (R : Ty → Json → Val → Prop) (m : List (Str × Json)) (ps : List Property) (attrs : Attrs) : Prop :=
  Forall₂ (fun p a => a.1 = Mapry.lower p.name ∧ PyWritten R m p a.2) ps attrs

include hne h

theorem py_ser_props (field : Property → Str) (ps : List Property) (attrs : Attrs)
    (hfield : ∀ p ∈ ps, field p = Mapry.lower p.name) (hd : (ps.map fun p => Mapry.lower p.name).Nodup)
    (hj : (ps.map (·.json)).Nodup) (hf : FitsProps fits ps attrs) (hg : FaithfulProps dicts ps attrs) :
    ∃ m, serProps ser field attrs ps [] = .ok m ∧ (m.map (·.1)).Nodup ∧
      (∀ k, k ∉ ps.map (·.json) → m.lookup k = none) ∧ PyProps R m ps attrs := by
  have hl := lookup_attr hd hf
  obtain ⟨m, e, hn, hk, hw⟩ := pyProps_ok (ser := ser) (R := R) field attrs ps hj (by
    intro p hp
    obtain ⟨a, _, h1, h2, h3⟩ := forall₂_left hl _ hp
    refine ⟨a.2, by rw [hfield p hp]; exact h1, ?_⟩
    rcases h3 with h3 | h3
    · exact .inl h3
    · exact .inr ⟨hne _ _ h3, h _ _ h3 (hg p hp _ h1 (hne _ _ h3))⟩) [] List.nodup_nil (fun _ _ => rfl)
  refine ⟨m, e, hn, hk, Forall₂.imp_mem ?_ hl⟩
  rintro p a hp _ ⟨h1, h2, _⟩
  obtain ⟨x, h3, h4⟩ := hw p hp
  rw [hfield p hp, h1] at h3
  cases h3
  exact ⟨h2, h4⟩

/-- The object has members only for the properties, and they describe the attributes. -/
def PyObject (R : Ty → Json → Val → Prop) (ps : List Property) (v : Json) (attrs : Attrs) : Prop :=
  ∃ o m, v = .obj o m ∧ (m.map (·.1)).Nodup ∧ (∀ k, k ∉ ps.map (·.json) → m.lookup k = none) ∧ PyProps R m ps attrs

theorem py_ser_composite (ordered : Bool) (ps : List Property) (attrs : Attrs)
    (hlow : ∀ p ∈ ps, Mapry.lower p.name = p.name) (hd : (ps.map fun p => Mapry.lower p.name).Nodup)
    (hj : (ps.map (·.json)).Nodup) (hf : FitsProps fits ps attrs) (hg : FaithfulProps dicts ps attrs) :
    ∃ v, serComposite ser ordered ps attrs = .ok v ∧ PyObject R ps v attrs := by
  obtain ⟨m, e, hn, hk, hw⟩ := py_ser_props hne h (fun p => p.name) ps attrs (fun p hp => (hlow p hp).symm) hd hj hf hg
  refine ⟨.obj ordered m, ?_, ordered, m, rfl, hn, hk, hw⟩
  simp [serComposite, e, bind, Except.bind, pure, Except.pure]

theorem py_ser_instances {L : Lib} (ordered : Bool) (c : Class)
    (hlow : ∀ p ∈ c.properties, Mapry.lower p.name = p.name)
    (hd : (c.properties.map fun p => Mapry.lower p.name).Nodup) (hj : (c.properties.map (·.json)).Nodup)
    (is : List (Str × Instance))
    (hi : ∀ i ∈ is, i.2.id = i.1 ∧ FitsProps fits c.properties i.2.attrs ∧ FaithfulProps dicts c.properties i.2.attrs) :
    ∃ xs, serInstances L ser ordered c is = .ok xs ∧
      Forall₂ (fun (v : Str × Json) (i : Str × Instance) => v.1 = i.1 ∧ PyObject R c.properties v.2 i.2.attrs) xs is := by
  induction is with
  | nil => exact ⟨[], rfl, .nil⟩
  | cons i is ih =>
    obtain ⟨id, inst⟩ := i
    obtain ⟨h1, h3, h4⟩ := hi (id, inst) (List.mem_cons_self ..)
    obtain ⟨xs, hx, hf⟩ := ih fun i hi' => hi i (List.mem_cons_of_mem _ hi')
    simp only at h1 h3 h4
    obtain ⟨v, e, ho⟩ := py_ser_composite hne h ordered c.properties inst.attrs hlow hd hj h3 h4
    refine ⟨(id, v) :: xs, ?_, .cons ⟨rfl, ho⟩ hf⟩
    simp [serInstances, h1, e, hx, bind, Except.bind, pure, Except.pure]

/-- The registry is written unless it is empty. -/
def PyRegistry (R : Ty → Json → Val → Prop) (m : List (Str × Json)) (c : Class) (r : Registry) : Prop :=
  (r.instances = [] ∧ m.lookup (registryKey c) = none) ∨
  ∃ o es, m.lookup (registryKey c) = some (.obj o es) ∧
    Forall₂ (fun (v : Str × Json) (i : Str × Instance) => v.1 = i.1 ∧ PyObject R c.properties v.2 i.2.attrs)
      es r.instances

theorem py_ser_registries {L : Lib} (ordered : Bool) (gv : GraphVal) (cs : List Class) (rs : List (Str × Registry))
    (hlow : ∀ c ∈ cs, ∀ p ∈ c.properties, Mapry.lower p.name = p.name)
    (hd : ∀ c ∈ cs, (c.properties.map fun p => Mapry.lower p.name).Nodup)
    (hj : ∀ c ∈ cs, (c.properties.map (·.json)).Nodup)
    (hf : Forall₂ (fun (c : Class) (r : Str × Registry) =>
      gv.registries.lookup c.name = some r.2 ∧ ∀ i ∈ r.2.instances, i.2.id = i.1 ∧
        FitsProps fits c.properties i.2.attrs ∧ FaithfulProps dicts c.properties i.2.attrs) cs rs)
    (hk : (cs.map registryKey).Nodup) (m : List (Str × Json)) (hn : (m.map (·.1)).Nodup)
    (hm : ∀ c ∈ cs, m.lookup (registryKey c) = none) :
    ∃ m', serRegistries L ser ordered gv cs m = .ok m' ∧ (m'.map (·.1)).Nodup ∧
      (∀ k, k ∉ cs.map registryKey → m'.lookup k = m.lookup k) ∧
      Forall₂ (fun (c : Class) (r : Str × Registry) => PyRegistry R m' c r.2) cs rs := by
  induction hf generalizing m with
  | nil => exact ⟨m, rfl, hn, fun _ _ => rfl, .nil⟩
  | @cons c r cs rs h1 h2 ih =>
    rw [List.map_cons, List.nodup_cons] at hk
    have ih := ih (fun c hc => hlow c (List.mem_cons_of_mem _ hc))
      (fun c hc => hd c (List.mem_cons_of_mem _ hc)) (fun c hc => hj c (List.mem_cons_of_mem _ hc)) hk.2
    obtain ⟨hl, hi⟩ := h1
    by_cases hemp : r.2.instances = []
    · obtain ⟨m', h3, hn', h4, h5⟩ := ih m hn fun c hc => hm c (List.mem_cons_of_mem _ hc)
      refine ⟨m', ?_, hn', fun k hkn => h4 k fun hm => hkn (List.mem_cons_of_mem _ hm), .cons ?_ h5⟩
      · simp [serRegistries, hl, hemp, h3]
      · exact .inl ⟨hemp, by rw [h4 _ hk.1]; exact hm c (List.mem_cons_self ..)⟩
    · obtain ⟨xs, hx, hxf⟩ := py_ser_instances (L := L) hne h ordered c (hlow c (List.mem_cons_self ..))
        (hd c (List.mem_cons_self ..)) (hj c (List.mem_cons_self ..)) r.2.instances hi
      obtain ⟨m', h3, hn', h4, h5⟩ := ih (putKey (registryKey c) (.obj ordered xs) m) (nodup_putKey hn) fun d hd => by
        rw [lookup_putKey, if_neg fun he => hk.1 (List.mem_map.2 ⟨d, hd, he⟩)]
        exact hm d (List.mem_cons_of_mem _ hd)
      refine ⟨m', ?_, hn', ?_, .cons (.inr ⟨ordered, xs, ?_, hxf⟩) h5⟩
      · have : r.2.instances.isEmpty = false := by
          cases hr : r.2.instances with
          | nil => exact absurd hr hemp
          | cons _ _ => rfl
        simp [serRegistries, hl, this, hx, h3, bind, Except.bind]
      · intro k hkn
        rw [h4 k fun hm => hkn (List.mem_cons_of_mem _ hm), lookup_putKey,
          if_neg fun he => hkn (by rw [he]; exact List.mem_cons_self ..)]
      · rw [h4 _ hk.1, lookup_putKey, if_pos rfl]

end

/-! ## The documents -/

/-- Every document which is written for `v` is written for a value which `x` shows. -/
def PySends (M : Doc → AVal → Prop) (Q : AVal → Val → Prop) (v : Json) (x : Val) : Prop :=
  ∀ d, PyText v d → ∃ a, M d a ∧ Q a x

section

variable {lax : Bool} {L : Lib} {S : Settings} {g : Graph} {registered : Str → Str → Prop}

theorem py_writes_ty {ser : Str → Val → Except Exc Json} {fits dicts : Str → Val → Prop}
    {M : Str → Doc → AVal → Prop} {Q : Str → AVal → Val → Prop}
    (he : ∀ name x, fits name x → dicts name x → ∃ v, ser name x = .ok v ∧ PySends (M name) (Q name) v x)
    (t : Ty) (x : Val) (hx : FitsTy lax L S false registered fits t x) (hf : PyDictsTy dicts t x) :
    ∃ v, serTy L S ser t x = .ok v ∧ PySends (WrittenTy (pyWriter L S) registered M t) (PyTy S Q t) v x := by
  induction t generalizing x with
  | boolean =>
    obtain ⟨c, rfl⟩ := hx
    exact ⟨_, rfl, fun d hd => ⟨.bool c, ⟨c, hd, rfl⟩, c, rfl, rfl⟩⟩
  | integer b =>
    rcases hx with ⟨i, rfl, h1⟩ | ⟨_, c, rfl, h1⟩
    · exact ⟨_, rfl, fun d hd => ⟨.int i, .inl ⟨i, hd, rfl, h1⟩, .inl ⟨i, rfl, rfl⟩⟩⟩
    · exact ⟨_, rfl, fun d hd => ⟨.bool c, .inr ⟨c, hd, rfl, h1⟩, .inr ⟨c, rfl, rfl⟩⟩⟩
  | float b =>
    obtain ⟨f, rfl, h1⟩ := hx
    refine ⟨_, rfl, fun d hd => ?_⟩
    obtain ⟨q, r, rfl, hd, hr⟩ := hd
    rcases h1 with h1 | ⟨h1, _⟩
    · exact ⟨.float (.fin q), ⟨q, r, hd, hr, rfl, h1⟩, _, rfl, rfl⟩
    · cases h1
  | string p =>
    obtain ⟨s, rfl, h1⟩ := hx
    exact ⟨_, rfl, fun d hd => ⟨.str s, ⟨s, hd, rfl, h1⟩, s, rfl, rfl⟩⟩
  | path p =>
    obtain ⟨s, rfl, h1⟩ := hx
    unfold pathVal
    cases hp : S.pathlib with
    | true =>
      refine ⟨.str (L.normPath s), by simp [serTy, hp], fun d hd => ?_⟩
      exact ⟨.str (L.normPath s), ⟨_, hd, rfl, by rw [hp]; intro h; cases h⟩, _, rfl, by simp [hp]⟩
    | false =>
      refine ⟨.str s, by simp [serTy, hp, serDirect], fun d hd => ?_⟩
      exact ⟨.str s, ⟨_, hd, rfl, fun _ => h1⟩, _, rfl, by simp [hp]⟩
  | date f =>
    obtain ⟨s, t, _, rfl⟩ := hx
    exact ⟨_, rfl, fun d hd => ⟨_, ⟨_, hd, rfl⟩, _, rfl, rfl⟩⟩
  | time f =>
    obtain ⟨s, t, _, rfl⟩ := hx
    exact ⟨_, rfl, fun d hd => ⟨_, ⟨_, hd, rfl⟩, _, rfl, rfl⟩⟩
  | datetime f =>
    obtain ⟨s, t, _, rfl⟩ := hx
    exact ⟨_, rfl, fun d hd => ⟨_, ⟨_, hd, rfl⟩, _, rfl, rfl⟩⟩
  | timeZone =>
    simp only [FitsTy] at hx
    split at hx
    · next hp =>
      obtain ⟨s, z, _, rfl⟩ := hx
      refine ⟨.str z, by simp [serTy, hp], fun d hd => ⟨.zone z, ⟨z, hd, rfl⟩, z, rfl, by rw [if_pos hp]⟩⟩
    · next hp =>
      obtain ⟨s, rfl⟩ := hx
      refine ⟨.str s, by simp [serTy, hp, serDirect], fun d hd => ⟨.zone s, ⟨s, hd, rfl⟩, s, rfl, by rw [if_neg hp]⟩⟩
  | duration =>
    obtain ⟨x, rfl, h1⟩ := hx
    exact ⟨_, rfl, fun d hd => ⟨_, ⟨x, hd, rfl⟩, x, rfl, rfl⟩⟩
  | array t lo hi ih =>
    obtain ⟨vs, rfl, hs, hv⟩ := hx
    obtain ⟨xs, e, r⟩ := serItems_reads (f := serTy L S ser t)
      (R := PySends (WrittenTy (pyWriter L S) registered M t) (PyTy S Q t)) (vs := vs)
      (fun y hy => ih y (hv y hy) (hf vs rfl y hy))
    refine ⟨.arr xs, by simp [serTy, e, bind, Except.bind, pure, Except.pure], fun d hd => ?_⟩
    obtain ⟨ds, rfl, hd⟩ := hd
    have hd := pyTexts_iff.1 hd
    obtain ⟨as, h1, h2⟩ := lift_list hd r
    refine ⟨.list as, ⟨ds, as, rfl, rfl, ?_, h1⟩, as, vs, rfl, rfl, h2⟩
    rw [← forall₂_length hd, forall₂_length r]; exact hs
  | map t ih =>
    obtain ⟨o, kvs, rfl, hv⟩ := hx
    obtain ⟨hn, hf⟩ := hf o kvs rfl
    obtain ⟨xs, e, r⟩ := serEntries_reads (f := serTy L S ser t)
      (R := PySends (WrittenTy (pyWriter L S) registered M t) (PyTy S Q t)) (vs := kvs)
      (fun y hy => ih y.2 (hv y hy) (hf y hy))
    have hk : xs.map (·.1) = kvs.map (·.1) := same_keys r
    refine ⟨.obj o xs, by simp [serTy, e, bind, Except.bind, pure, Except.pure], fun d hd => ?_⟩
    obtain ⟨ds, rfl, hd⟩ := hd
    have hd := pyMembers_iff.1 hd
    obtain ⟨as, h1, h2⟩ := lift_list
      (M := fun e (b : Str × AVal) => b.1 = e.1 ∧ WrittenTy (pyWriter L S) registered M t e.2 b.2)
      (Q := fun (b : Str × AVal) y => y.1 = b.1 ∧ PyTy S Q t b.2 y.2) hd (r.imp fun v x h e he => by
        obtain ⟨a, h1, h2⟩ := h.2 e.2 he.2
        exact ⟨(e.1, a), ⟨rfl, h1⟩, by rw [he.1]; exact h.1.symm, h2⟩)
    exact ⟨.map as, ⟨ds, as, rfl, rfl, by rw [members_keys hd, hk]; exact hn, h1⟩, as, o, kvs, rfl, rfl,
      unordered_of h2⟩
  | cls c =>
    obtain ⟨id, rfl, h1⟩ := hx
    exact ⟨_, rfl, fun d hd => ⟨_, ⟨id, hd, rfl, h1⟩, c, id, rfl, rfl⟩⟩
  | embed name => exact he name x hx hf

theorem py_writes_props {M : Ty → Doc → AVal → Prop} {Q : Ty → AVal → Val → Prop} {m : List (Str × Json)}
    {ps : List Property} {attrs : Attrs} (hr : PyProps (fun t => PySends (M t) (Q t)) m ps attrs)
    {ds : List (Str × Doc)} (hd : Forall₂ (Member PyText) m ds) :
    ∃ as, WrittenProps M ds ps as ∧ Forall₃ (PyField Q) ps as attrs := by
  refine lift_each hr ?_
  rintro p _ ⟨k, x⟩ _ ⟨rfl, hx⟩
  obtain ⟨a, h1, h2⟩ := lift_property (M := M) (Q := Q) (nil := Val.none) (p := p) hd (x := x)
    (fun h => by
      rcases hx with ⟨h1, h2, _⟩ | ⟨v, h1, _⟩
      · exact ⟨h1, h2⟩
      · rw [h] at h1; cases h1)
    (fun v h => by
      rcases hx with ⟨_, _, h1⟩ | ⟨w, h1, h2⟩
      · rw [h] at h1; cases h1
      · rw [h] at h1; cases h1; exact h2)
  exact ⟨(p.name, a), ⟨rfl, h1⟩, rfl, rfl, h2⟩

theorem py_writes_object {M : Ty → Doc → AVal → Prop} {Q : Ty → AVal → Val → Prop} {v : Json}
    {ps : List Property} {attrs : Attrs}
    (ho : PyObject (fun t => PySends (M t) (Q t)) ps v attrs) {d : Doc} (hd : PyText v d) :
    ∃ as, WrittenObject M ps d as ∧ Forall₃ (PyField Q) ps as attrs := by
  obtain ⟨o, m, rfl, ha, ht, hr⟩ := ho
  obtain ⟨ds, rfl, hd⟩ := hd
  have hd := pyMembers_iff.1 hd
  obtain ⟨as, h1, h2⟩ := py_writes_props hr hd
  exact ⟨as, ⟨ds, rfl, members_closed hd ha ht, h1⟩, h2⟩

theorem py_writes_embed (hD : PyRuntime.Spec.Distinct g) (hJ : JsonKeys g) (hlow : LowerNames g) (n : Nat) :
    ∀ name x, FitsEmbed lax L S g false registered n name x → PyDictsEmbed g n name x →
      ∃ v, serEmbed L S g n name x = .ok v ∧
        PySends (WrittenEmbed (pyWriter L S) g registered n name) (PyEmbed S g n name) v x := by
  induction n with
  | zero => intro name x h; exact h.elim
  | succ n ih =>
    rintro name x ⟨e, attrs, he, rfl, hx⟩ hf
    have hmem := embed_mem he
    obtain ⟨v, e1, ho⟩ := py_ser_composite (R := fun t => PySends _ _) (fits_ne_none (fitsEmbed_ne_none n))
      (py_writes_ty ih) false e.properties attrs (hlow.embed e hmem) (hD.embed e hmem) (hJ.embed e hmem) hx
      (hf e attrs he rfl)
    refine ⟨v, ?_, fun d hd => ?_⟩
    · rw [serEmbed, he]
      exact e1
    · obtain ⟨as, h1, h2⟩ := py_writes_object ho hd
      exact ⟨.obj name as, ⟨e, as, he, rfl, h1⟩, e, as, attrs, he, rfl, rfl, h2⟩

/-- A graph which satisfies the schema is serialized, and the document is written for the graph. -/
theorem py_writes_graph (hD : PyRuntime.Spec.Distinct g) (hJ : JsonKeys g) (hlow : LowerNames g) (n : Nat)
    (ordered : Bool) (gv : GraphVal) (hv : ValidGraph lax L S g false n gv) (hf : PyDicts g n gv) :
    ∃ v, serGraph L S g n ordered gv = .ok v ∧
      ∀ d, PyText v d → ∃ a, WrittenGraph (pyWriter L S) g n d a ∧ PyGraph S g n a gv := by
  have hne : ∀ ty x, Fits lax L S g false (Registered gv) n ty x → x ≠ .none :=
    fits_ne_none (fitsEmbed_ne_none n)
  have hval : ∀ t x, Fits lax L S g false (Registered gv) n t x → PyDictsTy (PyDictsEmbed g n) t x →
      ∃ v, serTy L S (serEmbed L S g n) t x = .ok v ∧
        PySends (Interop.Written (pyWriter L S) g (Registered gv) n t) (PyTy S (PyEmbed S g n) t) v x :=
    py_writes_ty (py_writes_embed hD hJ hlow n)
  obtain ⟨hkn, hkr, hkd⟩ := List.nodup_append.1 hJ.graph
  obtain ⟨m, e1, ha, hk, hw⟩ := py_ser_props (R := fun t => PySends _ _) hne hval attr g.properties gv.attrs
    (fun p _ => rfl) hD.graph hkn hv.attrs hf.attrs
  have hregs := lookup_registries hD.names hv.registries
  obtain ⟨m', e2, ha', hk', hw'⟩ := py_ser_registries (R := fun t => PySends _ _) (L := L) hne hval ordered gv g.classes
    gv.registries hlow.cls hD.cls hJ.cls
    (Forall₂.imp_mem (fun c r hc _ ⟨ha, _, hb⟩ => ⟨ha, fun i hi =>
      ⟨(hb i hi).1, (hb i hi).2.2, (hf.registries c hc _ ha).2 i hi⟩⟩) hregs) hkr m ha
    (fun c hc => hk _ fun hm => by
      exact hkd _ hm _ (List.mem_map.2 ⟨c, hc, rfl⟩) rfl)
  refine ⟨.obj ordered m', ?_, fun d hd => ?_⟩
  · simp [serGraph, e1, e2, bind, Except.bind, pure, Except.pure]
  obtain ⟨ds, rfl, hd⟩ := hd
  have hd := pyMembers_iff.1 hd
  have hwprops : PyProps (fun t => PySends (Interop.Written (pyWriter L S) g (Registered gv) n t)
      (PyTy S (PyEmbed S g n) t)) m' g.properties gv.attrs := by
    refine Forall₂.imp_mem ?_ hw
    rintro p a hp _ ⟨h1, h2⟩
    refine ⟨h1, ?_⟩
    have hke : m'.lookup p.json = m.lookup p.json := by
      refine hk' _ fun hm => ?_
      exact hkd _ (List.mem_map.2 ⟨p, hp, rfl⟩) _ hm rfl
    unfold PyWritten at *
    rw [hke]
    exact h2
  -- the registry of a class in the document
  have hdoc : ∀ (c : Class) o es, m'.lookup (registryKey c) = some (.obj o es) →
      ∃ entries, ds.lookup (lower c.plural) = some (.obj entries) ∧ Forall₂ (Member PyText) es entries := by
    intro c o es he
    rcases members_lookup hd (registryKey c) with ⟨h1, _⟩ | ⟨v, d, h1, h2, h3⟩
    · rw [h1] at he; cases he
    · rw [h1] at he
      cases he
      obtain ⟨entries, rfl, h3⟩ := h3
      exact ⟨entries, h2, pyMembers_iff.1 h3⟩
  have hboth := forall₂_and hregs hw'
  have hids : ∀ c id, Registered gv c id → Interop.Described g ds c id := by
    rintro c id ⟨reg, hm, i, hi⟩
    obtain ⟨d, hd', ⟨_, hdn, _⟩, hcase⟩ := forall₂_right hboth _ hm
    simp only at hdn hcase
    subst hdn
    refine ⟨d, hd', rfl, ?_⟩
    rcases hcase with ⟨h0, _⟩ | ⟨o, es, hl, hfe⟩
    · rw [h0] at hi; cases hi
    · obtain ⟨entries, h1, h2⟩ := hdoc d o es hl
      refine ⟨entries, h1, ?_⟩
      obtain ⟨e, hes, hei, _⟩ := forall₂_right hfe _ hi
      rw [members_keys h2]
      exact List.mem_map.2 ⟨_, hes, hei⟩
  have hmono := written_ids (W := pyWriter L S) (g := g) hids n
  obtain ⟨fs, f1, f2⟩ := py_writes_props hwprops hd
  obtain ⟨rs, q1, q2⟩ := lift_each
    (M := fun (c : Class) (r : Str × List (Str × AFields)) => r.1 = c.name ∧
      WrittenRegistry (pyWriter L S) (Interop.Written (pyWriter L S) g (Interop.Described g ds) n) ds c r.2)
    (Q := fun (c : Class) r (r' : Str × Registry) => r.1 = c.name ∧ r'.1 = c.name ∧
      Unordered (PyInstance S g n c) r.2 r'.2.instances) hboth (by
    rintro c hc ⟨k, reg⟩ hm ⟨⟨hlk, h1, hq⟩, hrw⟩
    simp only at hlk h1 hq hrw ⊢
    subst h1
    have hnod := (hf.registries c hc _ hlk).1
    rcases hrw with ⟨h0, hl⟩ | ⟨o, es, hl, hfe⟩
    · refine ⟨(c.name, []), ⟨rfl, .inl ⟨?_, rfl⟩⟩, rfl, rfl, ?_⟩
      · rcases members_lookup hd (registryKey c) with ⟨_, h1⟩ | ⟨v, d, h1, _⟩
        · exact h1
        · rw [hl] at h1; cases h1
      · rw [h0]; exact unordered_of .nil
    · obtain ⟨entries, h1, h2⟩ := hdoc c o es hl
      obtain ⟨r, h3, h4⟩ := lift_list
        (M := WrittenInstance (pyWriter L S) (Interop.Written (pyWriter L S) g (Interop.Described g ds) n) c)
        (Q := PyInstance S g n c) h2 (Forall₂.imp_mem (fun e i _ hi he d hde => by
          obtain ⟨as, h5, h6⟩ := py_writes_object he.2 hde.2
          refine ⟨(d.1, as), ⟨rfl, ?_, writtenObject_imp hmono h5⟩, ?_, ?_, h6⟩
          · intro p hp
            rw [hde.1, he.1]
            exact (hq i hi).2.1 p hp
          · rw [hde.1]; exact he.1.symm
          · rw [hde.1, he.1]; exact (hq i hi).1) hfe)
      refine ⟨(c.name, r), ⟨rfl, .inr ⟨entries, h1, ?_, h3⟩⟩, rfl, rfl, unordered_of h4⟩
      rw [members_keys h2]
      rw [same_keys hfe]
      exact hnod)
  refine ⟨⟨fs, rs⟩, ⟨ds, rfl, members_closed hd ha' ?_, q1, writtenProps_imp hmono f1⟩, q2, f2⟩
  intro k hk1
  rw [List.mem_append, not_or] at hk1
  rw [hk' k hk1.2, hk k hk1.1]

end

end Mapry.Interop
