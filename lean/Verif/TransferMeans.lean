import Verif.Transfer
import Verif.InteropMeans

/-!
# A document written for a graph whose values cross over means the graph
-/

namespace Mapry.Interop

open Mapry.Duration
open Mapry.PyRuntime.Spec (Within FloatWithin SizeWithin boolNum)

theorem finiteItems_iff : ∀ {ds : List Doc}, finiteItems ds = true ↔ ∀ d ∈ ds, d.finite = true
  | [] => by simp [finiteItems]
  | d :: ds => by simp [finiteItems, finiteItems_iff (ds := ds)]

theorem finiteEntries_iff : ∀ {ds : List (Str × Doc)}, finiteEntries ds = true ↔ ∀ e ∈ ds, e.2.finite = true
  | [] => by simp [finiteEntries]
  | d :: ds => by simp [finiteEntries, finiteEntries_iff (ds := ds)]

/-- The document can be read by the three decoders. -/
def Sound (d : Doc) : Prop := d ≠ .null ∧ d.Distinct ∧ d.finite = true

theorem Sound.list {ds : List Doc} (h : ∀ d ∈ ds, Sound d) : Sound (.arr ds) :=
  ⟨by simp, .arr _ fun d hd => (h d hd).2.1, by rw [Doc.finite, finiteItems_iff]; exact fun d hd => (h d hd).2.2⟩

theorem Sound.members {ds : List (Str × Doc)} (hn : (ds.map (·.1)).Nodup) (h : ∀ e ∈ ds, Sound e.2) :
    Sound (.obj ds) :=
  ⟨by simp, .obj _ hn fun d hd => (h d hd).2.1,
    by rw [Doc.finite, finiteEntries_iff]; exact fun d hd => (h d hd).2.2⟩

/-- Two lists related item by item, with a condition on one of them -/
theorem forall₂_with {α β : Type} {R T : α → β → Prop} {P : α → Prop} {Q : β → Prop} {l : List α} {m : List β}
    (h : Forall₂ R l m) (hq : ∀ b ∈ m, Q b) (ht : ∀ a b, R a b → Q b → T a b ∧ P a) :
    Forall₂ T l m ∧ ∀ a ∈ l, P a := by
  induction h with
  | nil => exact ⟨.nil, fun _ h => by cases h⟩
  | cons r rs ih =>
    obtain ⟨i1, i2⟩ := ih fun b hb => hq b (List.mem_cons_of_mem _ hb)
    obtain ⟨t, p⟩ := ht _ _ r (hq _ (List.mem_cons_self ..))
    refine ⟨.cons t i1, fun a ha => ?_⟩
    rcases List.mem_cons.1 ha with rfl | ha
    · exact p
    · exact i2 a ha

theorem forall₂_zip {α β : Type} {R T : α → β → Prop} {P : α → Prop} {l : List α} {m : List β}
    (h : Forall₂ R l m) (ht : ∀ e ∈ l.zip m, R e.1 e.2 → T e.1 e.2 ∧ P e.1) :
    Forall₂ T l m ∧ ∀ a ∈ l, P a := by
  induction h with
  | nil => exact ⟨.nil, fun _ h => by cases h⟩
  | cons r rs ih =>
    rw [List.zip_cons_cons] at ht
    obtain ⟨i1, i2⟩ := ih fun b hb => ht b (List.mem_cons_of_mem _ hb)
    obtain ⟨t, p⟩ := ht _ (List.mem_cons_self ..) r
    refine ⟨.cons t i1, fun a ha => ?_⟩
    rcases List.mem_cons.1 ha with rfl | ha
    · exact p
    · exact i2 a ha

section

variable {W V : Leaves} {g : Graph} {ids : Str → Str → Prop}
  (hl : ∀ t d a, W.leaf t d a → V.leaf t d a → Sound d)

include hl

theorem written_ty {M N : Str → Doc → AVal → Prop} {Q : Str → AVal → Prop}
    (h : ∀ name d a, M name d a → Q name a → N name d a ∧ Sound d) :
    ∀ (t : Ty) (d : Doc) (a : AVal), WrittenTy W ids M t d a → AllTy (CrossLeaf W V) Q t a →
      MeansTy V ids N t d a ∧ Sound d := by
  intro t
  induction t with
  | array t lo hi ih =>
    intro d a hw ha
    simp only [WrittenTy] at hw
    simp only [AllTy] at ha
    obtain ⟨ds, as, rfl, rfl, hs, hf⟩ := hw
    obtain ⟨h1, h2⟩ := forall₂_with hf (ha as rfl) fun d a hd hq => ih d a hd hq
    exact ⟨by simp only [MeansTy]; exact ⟨ds, as, rfl, rfl, hs, h1⟩, .list h2⟩
  | map t ih =>
    intro d a hw ha
    simp only [WrittenTy] at hw
    simp only [AllTy] at ha
    obtain ⟨ds, as, rfl, rfl, hn, hf⟩ := hw
    obtain ⟨h1, h2⟩ := forall₂_with (T := fun e b => b.1 = e.1 ∧ MeansTy V ids N t e.2 b.2) (P := fun e => Sound e.2)
      hf (ha as rfl) fun e b hd hq => ⟨⟨hd.1, (ih e.2 b.2 hd.2 hq).1⟩, (ih e.2 b.2 hd.2 hq).2⟩
    exact ⟨by simp only [MeansTy]; exact ⟨ds, as, rfl, rfl, h1⟩, .members hn h2⟩
  | cls c =>
    intro d a hw _
    obtain ⟨id, rfl, rfl, hi⟩ := hw
    exact ⟨⟨id, rfl, rfl, hi⟩, by simp, .str _, rfl⟩
  | embed name => exact fun d a hw ha => h name d a hw ha
  | _ => exact fun d a hw ha => ⟨ha d hw, hl _ d a hw (ha d hw)⟩

omit hl in
theorem written_props {M N : Ty → Doc → AVal → Prop} {Q : Ty → AVal → Prop}
    (h : ∀ t d a, M t d a → Q t a → N t d a ∧ Sound d) {kvs : List (Str × Doc)} {ps : List Property}
    {fields : AFields} (hw : WrittenProps M kvs ps fields) (ha : AllProps Q ps fields) :
    MeansProps V N kvs ps fields ∧ ∀ p ∈ ps, ∀ d, kvs.lookup p.json = some d → Sound d := by
  refine forall₂_zip hw ?_
  rintro ⟨p, f⟩ he ⟨h1, h2⟩
  have hq := ha _ he
  unfold WrittenProperty at h2
  unfold MeansProperty
  split at h2
  · rename_i hn
    refine ⟨⟨h1, ?_⟩, fun d hd => by rw [hn] at hd; cases hd⟩
    have : given V.nullMissing kvs p.json = none := by unfold given; rw [hn]
    rw [this]
    exact h2
  · rename_i d hd
    obtain ⟨h3, h4⟩ := h _ _ _ h2 hq
    refine ⟨⟨h1, ?_⟩, fun d' hd' => by rw [hd] at hd'; cases hd'; exact h4⟩
    have : given V.nullMissing kvs p.json = some d := by
      unfold given
      rw [hd]
      split
      · rename_i e; cases e; exact (h4.1 rfl).elim
      · rfl
    rw [this]
    exact h3

omit hl in
theorem written_object {M N : Ty → Doc → AVal → Prop} {Q : Ty → AVal → Prop}
    (h : ∀ t d a, M t d a → Q t a → N t d a ∧ Sound d) {ps : List Property} {d : Doc} {fields : AFields}
    (hw : WrittenObject M ps d fields) (ha : AllProps Q ps fields) :
    (∃ kvs, d = .obj kvs ∧ MeansProps V N kvs ps fields) ∧ Sound d := by
  obtain ⟨kvs, rfl, ⟨hn, hc⟩, hp⟩ := hw
  obtain ⟨h1, h2⟩ := written_props (V := V) h hp ha
  refine ⟨⟨kvs, rfl, h1⟩, .members hn ?_⟩
  rintro ⟨k, d⟩ he
  obtain ⟨p, hp, rfl⟩ := List.mem_map.1 (hc k (List.mem_map_of_mem he))
  exact h2 p hp d (GoMap.lookup_of_mem hn he)

theorem written_embed : ∀ (n : Nat) (name : Str) (d : Doc) (a : AVal), WrittenEmbed W g ids n name d a →
    AllEmbed (CrossLeaf W V) g n name a → MeansEmbed V g ids n name d a ∧ Sound d
  | 0, _, _, _, h, _ => h.elim
  | n + 1, name, d, a, h, ha => by
    obtain ⟨e, fields, he, rfl, ho⟩ := h
    obtain ⟨⟨kvs, h1, h2⟩, h3⟩ := written_object (V := V) (written_ty hl (written_embed n)) ho (ha e fields he rfl)
    exact ⟨⟨e, kvs, fields, he, h1, rfl, h2⟩, h3⟩

/-- A document written for a graph whose values cross over means the graph. -/
theorem written_means {n : Nat} {d : Doc} {a : AGraph} (hw : WrittenGraph W g n d a) (ha : Crosses W V g n a) :
    MeansGraph V g n d a ∧ Sound d := by
  obtain ⟨kvs, rfl, ⟨hn, hc⟩, hr, hp⟩ := hw
  obtain ⟨a1, a2⟩ := ha
  have hT := written_ty (ids := Described g kvs) hl (written_embed (g := g) (ids := Described g kvs) hl n)
  obtain ⟨p1, p2⟩ := written_props (V := V) hT hp a1
  obtain ⟨r1, r2⟩ := forall₂_zip
    (T := fun (c : Class) (r : Str × List (Str × AFields)) => r.1 = c.name ∧
      MeansRegistry V (Means V g (Described g kvs) n) kvs c r.2)
    (P := fun c => ∀ d, kvs.lookup (lower c.plural) = some d → Sound d) hr (by
      rintro ⟨c, r⟩ he ⟨h1, h2⟩
      have hq := a2 _ he
      rcases h2 with ⟨hk, e⟩ | ⟨entries, hk, hn', hi⟩
      · refine ⟨⟨h1, .inl ⟨hk, e⟩⟩, fun d hd => ?_⟩
        rw [hk] at hd; cases hd
      · obtain ⟨i1, i2⟩ := forall₂_with (T := MeansInstance V (Means V g (Described g kvs) n) c)
          (P := fun e => Sound e.2) hi hq (by
            rintro e i ⟨h3, h4, h5⟩ ⟨h6, h7⟩
            obtain ⟨h8, h9⟩ := written_object (V := V) hT h5 h7
            exact ⟨⟨h3, fun p hp => h3 ▸ h6 p hp (h3.symm ▸ h4 p hp), h8⟩, h9⟩)
        refine ⟨⟨h1, .inr ⟨entries, hk, i1⟩⟩, fun d hd => ?_⟩
        rw [hk] at hd; cases hd
        exact .members hn' i2)
  refine ⟨⟨kvs, rfl, r1, p1⟩, .members hn ?_⟩
  rintro ⟨k, d⟩ he
  have hd := GoMap.lookup_of_mem hn he
  rcases List.mem_append.1 (hc k (List.mem_map_of_mem he)) with h | h
  · obtain ⟨p, hp, rfl⟩ := List.mem_map.1 h
    exact p2 p hp d hd
  · obtain ⟨c, hc, rfl⟩ := List.mem_map.1 h
    exact r2 c hc d hd

end

/-! ## The identifiers -/

section

variable {W : Leaves} {g : Graph} {ids ids' : Str → Str → Prop} (hi : ∀ c id, ids c id → ids' c id)

include hi

theorem writtenTy_ids {M N : Str → Doc → AVal → Prop} (h : ∀ name d a, M name d a → N name d a) :
    ∀ (t : Ty) (d : Doc) (a : AVal), WrittenTy W ids M t d a → WrittenTy W ids' N t d a := by
  intro t
  induction t with
  | array t lo hi ih =>
    intro d a hw
    simp only [WrittenTy] at hw ⊢
    obtain ⟨ds, as, e1, e2, hs, hf⟩ := hw
    exact ⟨ds, as, e1, e2, hs, (forall₂_with (P := fun _ => True) (Q := fun _ => True) hf (fun _ _ => trivial)
      fun d a hd _ => ⟨ih d a hd, trivial⟩).1⟩
  | map t ih =>
    intro d a hw
    simp only [WrittenTy] at hw ⊢
    obtain ⟨ds, as, e1, e2, hs, hf⟩ := hw
    exact ⟨ds, as, e1, e2, hs, (forall₂_with (P := fun _ => True) (Q := fun _ => True) hf (fun _ _ => trivial)
      fun d a hd _ => ⟨⟨hd.1, ih d.2 a.2 hd.2⟩, trivial⟩).1⟩
  | cls c =>
    intro d a hw
    obtain ⟨id, e1, e2, h⟩ := hw
    exact ⟨id, e1, e2, hi c id h⟩
  | embed name => exact fun d a hw => h name d a hw
  | _ => exact fun d a hw => hw

omit hi in
theorem writtenProps_imp {M N : Ty → Doc → AVal → Prop} (h : ∀ t d a, M t d a → N t d a) {kvs : List (Str × Doc)}
    {ps : List Property} {fields : AFields} (hw : WrittenProps M kvs ps fields) : WrittenProps N kvs ps fields := by
  refine (forall₂_with (P := fun _ => True) (Q := fun _ => True) hw (fun _ _ => trivial) fun p f hp _ => ⟨⟨hp.1, ?_⟩, trivial⟩).1
  have h2 := hp.2
  unfold WrittenProperty at h2 ⊢
  split at h2
  · exact h2
  · exact h _ _ _ h2

omit hi in
theorem writtenObject_imp {M N : Ty → Doc → AVal → Prop} (h : ∀ t d a, M t d a → N t d a) {ps : List Property}
    {d : Doc} {fields : AFields} (hw : WrittenObject M ps d fields) : WrittenObject N ps d fields := by
  obtain ⟨kvs, e, hc, hp⟩ := hw
  exact ⟨kvs, e, hc, writtenProps_imp h hp⟩

theorem writtenEmbed_ids : ∀ (n : Nat) (name : Str) (d : Doc) (a : AVal), WrittenEmbed W g ids n name d a →
    WrittenEmbed W g ids' n name d a
  | 0, _, _, _, h => h
  | n + 1, _, _, _, h => by
    obtain ⟨e, fields, he, e2, ho⟩ := h
    exact ⟨e, fields, he, e2, writtenObject_imp (writtenTy_ids hi (writtenEmbed_ids n)) ho⟩

theorem written_ids (n : Nat) (t : Ty) (d : Doc) (a : AVal) (h : Written W g ids n t d a) :
    Written W g ids' n t d a := writtenTy_ids hi (writtenEmbed_ids hi n) t d a h

end

/-! ## Lists -/

theorem lift_list {J D A X : Type} {T : J → D → Prop} {M : D → A → Prop} {Q : A → X → Prop} :
    ∀ {vs : List J} {ds : List D} {xs : List X}, Forall₂ T vs ds →
      Forall₂ (fun v x => ∀ d, T v d → ∃ a, M d a ∧ Q a x) vs xs → ∃ as, Forall₂ M ds as ∧ Forall₂ Q as xs
  | _, _, _, .nil, .nil => ⟨[], .nil, .nil⟩
  | _, _, _, .cons t ts, .cons r rs => by
    obtain ⟨a, h1, h2⟩ := r _ t
    obtain ⟨as, h3, h4⟩ := lift_list ts rs
    exact ⟨a :: as, .cons h1 h3, .cons h2 h4⟩

theorem lift_each {P A X : Type} {R : P → X → Prop} {M : P → A → Prop} {Q : P → A → X → Prop} {ps : List P}
    {xs : List X} (h : Forall₂ R ps xs) (hr : ∀ p ∈ ps, ∀ x ∈ xs, R p x → ∃ a, M p a ∧ Q p a x) :
    ∃ as, Forall₂ M ps as ∧ Forall₃ Q ps as xs := by
  induction h with
  | nil => exact ⟨[], .nil, .nil⟩
  | cons r _ ih =>
    obtain ⟨a, h1, h2⟩ := hr _ (List.mem_cons_self ..) _ (List.mem_cons_self ..) r
    obtain ⟨as, h3, h4⟩ := ih fun p hp x hx => hr p (List.mem_cons_of_mem _ hp) x (List.mem_cons_of_mem _ hx)
    exact ⟨a :: as, .cons h1 h3, .cons h2 h4⟩

/-- The members of an object are written. -/
def Member {J : Type} (T : J → Doc → Prop) (kv : Str × J) (e : Str × Doc) : Prop := e.1 = kv.1 ∧ T kv.2 e.2

section

variable {J : Type} {T : J → Doc → Prop} {m : List (Str × J)} {ds : List (Str × Doc)}

theorem members_keys (h : Forall₂ (Member T) m ds) : ds.map (·.1) = m.map (·.1) := by
  induction h with
  | nil => rfl
  | cons h _ ih => rw [List.map_cons, List.map_cons, ih, h.1]

theorem members_lookup (h : Forall₂ (Member T) m ds) (k : Str) :
    (m.lookup k = none ∧ ds.lookup k = none) ∨ ∃ v d, m.lookup k = some v ∧ ds.lookup k = some d ∧ T v d := by
  induction h with
  | nil => exact .inl ⟨rfl, rfl⟩
  | @cons a b _ _ h _ ih =>
    rw [GoMap.lookup_step, GoMap.lookup_step, h.1]
    by_cases e : k = a.1
    · rw [if_pos e, if_pos e]
      exact .inr ⟨_, _, rfl, rfl, h.2⟩
    · rw [if_neg e, if_neg e]
      exact ih

theorem members_closed (h : Forall₂ (Member T) m ds) (hn : (m.map (·.1)).Nodup) {keys : List Str}
    (hk : ∀ k, k ∉ keys → m.lookup k = none) : Closed ds keys := by
  refine ⟨by rw [members_keys h]; exact hn, fun k hm => ?_⟩
  rw [members_keys h] at hm
  obtain ⟨⟨k, v⟩, hv, rfl⟩ := List.mem_map.1 hm
  refine Classical.byContradiction fun hc => ?_
  have := hk k hc
  rw [GoMap.lookup_of_mem hn hv] at this
  cases this

/-- What is written for a property, which may be missing -/
theorem lift_property (h : Forall₂ (Member T) m ds) {X : Type} {M : Ty → Doc → AVal → Prop} {Q : Ty → AVal → X → Prop}
    {nil : X} {p : Property} {x : X}
    (hx : m.lookup p.json = none → p.optional = true ∧ x = nil)
    (hx' : ∀ v, m.lookup p.json = some v → ∀ d, T v d → ∃ a, M p.ty d a ∧ Q p.ty a x) :
    ∃ a, WrittenProperty M ds p a ∧ ((p.optional = true ∧ a = .none ∧ x = nil) ∨ Q p.ty a x) := by
  unfold WrittenProperty
  rcases members_lookup h p.json with ⟨h1, h2⟩ | ⟨v, d, h1, h2, ht⟩
  · have hx := hx h1
    rw [h2]
    exact ⟨.none, ⟨hx.1, rfl⟩, .inl ⟨hx.1, rfl, hx.2⟩⟩
  · rw [h2]
    obtain ⟨a, h3, h4⟩ := hx' v h1 d ht
    exact ⟨a, h3, .inr h4⟩

end

theorem unordered_of {α β : Type} {R : α → β → Prop} {l : List α} {m : List β} (h : Forall₂ R l m) :
    Unordered R l m := ⟨m, .refl _, h⟩

/-! ## The values without parts are sound -/

theorem sound_bool (b : Bool) : Sound (.bool b) := ⟨by simp, .bool b, rfl⟩

theorem sound_str (s : Str) : Sound (.str s) := ⟨by simp, .str s, rfl⟩

theorem sound_int {i : Int} {q : Rat} (h : F64.round (i : Rat) = .fin q) : Sound (.int i) :=
  ⟨by simp, .int i, by rw [Doc.finite, h]; rfl⟩

theorem sound_real {r q : Rat} (h : F64.round r = .fin q) : Sound (.real r) :=
  ⟨by simp, .real r, by rw [Doc.finite, h]; rfl⟩

theorem sound_digits {q : Rat} {d : Doc} (h : Digits q d) : Sound d := by
  obtain ⟨r, h1, h2⟩ := h
  cases d with
  | int i => simp only [number, Option.some.injEq] at h1; subst h1; exact sound_int h2
  | real r' => simp only [number, Option.some.injEq] at h1; subst h1; exact sound_real h2
  | _ => simp [number] at h1

end Mapry.Interop
