import Verif.Interop
import Verif.GoReads

/-!
# The three parsers read what the document means
-/

namespace Mapry.Interop

open Mapry.Duration
open Mapry.PyRuntime.Spec (Within FloatWithin SizeWithin boolNum)
open Mapry.GoRuntime (forall₂_perm)

/-! ## Lists -/

/-- What is read from `v` is shown by what `d` means, and conversely. -/
def Agree {J D X A : Type} (R : J → X → Prop) (M : D → A → Prop) (P : A → X → Prop) (v : J) (d : D) : Prop :=
  (∀ x, R v x → ∃ a, M d a ∧ P a x) ∧ ∀ a, M d a → ∃ x, R v x ∧ P a x

theorem agree_list {J D X A : Type} {R : J → X → Prop} {M : D → A → Prop} {P : A → X → Prop} (f : D → J) :
    ∀ ds : List D, (∀ d ∈ ds, Agree R M P (f d) d) →
      Agree (Forall₂ R) (Forall₂ M) (Forall₂ P) (ds.map f) ds
  | [], _ => ⟨fun _ h => by cases h; exact ⟨[], .nil, .nil⟩, fun _ h => by cases h; exact ⟨[], .nil, .nil⟩⟩
  | d :: ds, h => by
    have h1 := h d (List.mem_cons_self ..)
    have h2 := agree_list f ds fun x hx => h x (List.mem_cons_of_mem _ hx)
    refine ⟨fun xs hx => ?_, fun as ha => ?_⟩
    · cases hx with
      | cons r rs =>
        obtain ⟨a, m, p⟩ := h1.1 _ r
        obtain ⟨as, ms, ps⟩ := h2.1 _ rs
        exact ⟨a :: as, .cons m ms, .cons p ps⟩
    · cases ha with
      | cons m ms =>
        obtain ⟨x, r, p⟩ := h1.2 _ m
        obtain ⟨xs, rs, ps⟩ := h2.2 _ ms
        exact ⟨x :: xs, .cons r rs, .cons p ps⟩

theorem agree_perm {J D X A : Type} {R : J → X → Prop} {M : D → A → Prop} {P : A → X → Prop} (f : D → J)
    {ds : List D} (h : ∀ d ∈ ds, Agree R M P (f d) d) {kvs : List J} (hp : kvs.Perm (ds.map f)) :
    Agree (Forall₂ R) (Forall₂ M) (Unordered P) kvs ds := by
  have hl := agree_list f ds h
  refine ⟨fun xs hx => ?_, fun as ha => ?_⟩
  · obtain ⟨xs', hq, hf⟩ := forall₂_perm hp.symm hx
    obtain ⟨as, hm, hs⟩ := hl.1 _ hf
    exact ⟨as, hm, xs', hq, hs⟩
  · obtain ⟨xs', hr, hs⟩ := hl.2 _ ha
    obtain ⟨xs, hq, hf⟩ := forall₂_perm hp hr
    exact ⟨xs, hf, xs', hq.symm, hs⟩

/-- The values for the properties of a composite -/
theorem agree_each {Q X A : Type} {R : Q → X → Prop} {M : Q → A → Prop} {P : Q → A → X → Prop} :
    ∀ ps : List Q, (∀ p ∈ ps, (∀ x, R p x → ∃ a, M p a ∧ P p a x) ∧ ∀ a, M p a → ∃ x, R p x ∧ P p a x) →
      (∀ xs, Forall₂ R ps xs → ∃ as, Forall₂ M ps as ∧ Forall₃ P ps as xs) ∧
      ∀ as, Forall₂ M ps as → ∃ xs, Forall₂ R ps xs ∧ Forall₃ P ps as xs
  | [], _ => ⟨fun _ h => by cases h; exact ⟨[], .nil, .nil⟩, fun _ h => by cases h; exact ⟨[], .nil, .nil⟩⟩
  | d :: ds, h => by
    have h1 := h d (List.mem_cons_self ..)
    have h2 := agree_each ds fun x hx => h x (List.mem_cons_of_mem _ hx)
    refine ⟨fun xs hx => ?_, fun as ha => ?_⟩
    · cases hx with
      | cons r rs =>
        obtain ⟨a, m, p⟩ := h1.1 _ r
        obtain ⟨as, ms, ps⟩ := h2.1 _ rs
        exact ⟨a :: as, .cons m ms, .cons p ps⟩
    · cases ha with
      | cons m ms =>
        obtain ⟨x, r, p⟩ := h1.2 _ m
        obtain ⟨xs, rs, ps⟩ := h2.2 _ ms
        exact ⟨x :: xs, .cons r rs, .cons p ps⟩

theorem lookup_mapped {α β : Type} (f : α → β) (kvs : List (Str × α)) (k : Str) :
    (kvs.map fun kv => (kv.1, f kv.2)).lookup k = (kvs.lookup k).map f := by
  induction kvs with
  | nil => rfl
  | cons a kvs ih =>
    rw [List.map_cons, GoMap.lookup_step, GoMap.lookup_step, ih]
    split <;> simp_all

theorem keys_mapped {α β : Type} (f : α → β) (kvs : List (Str × α)) :
    (kvs.map fun kv => (kv.1, f kv.2)).map (·.1) = kvs.map (·.1) := by
  simp [List.map_map, Function.comp_def]

theorem perm_of_putAll {α : Type} {l : List (Str × α)} (h : (l.map (·.1)).Nodup) : (GoMap.putAll [] l).Perm l := by
  have ha : GoMap.Ascending (GoMap.putAll [] l) := GoMap.Ascending.putAll (m := []) List.Pairwise.nil l
  have hn1 : (GoMap.putAll [] l).Nodup := by
    have := ha.nodup
    unfold List.Nodup at this ⊢
    rw [List.pairwise_map] at this
    exact this.imp fun h e => h (by rw [e])
  have hn2 : l.Nodup := by
    unfold List.Nodup at h ⊢
    rw [List.pairwise_map] at h
    exact h.imp fun h e => h (by rw [e])
  refine (List.perm_ext_iff_of_nodup hn1 hn2).2 fun e => ?_
  obtain ⟨k, x⟩ := e
  have hl : (GoMap.putAll [] l).lookup k = l.lookup k := by rw [GoMap.lookup_putAll _ _ h]; simp
  constructor
  · intro hm
    exact GoMap.lookup_mem (hl ▸ GoMap.lookup_of_mem ha.nodup hm)
  · intro hm
    exact GoMap.lookup_mem (hl.symm ▸ GoMap.lookup_of_mem h hm)

theorem Doc.Distinct.keys {kvs : List (Str × Doc)} (h : (Doc.obj kvs).Distinct) : (kvs.map (·.1)).Nodup := by
  cases h; assumption

theorem Doc.Distinct.value {kvs : List (Str × Doc)} (h : (Doc.obj kvs).Distinct) : ∀ kv ∈ kvs, kv.2.Distinct := by
  cases h; assumption

theorem Doc.Distinct.item {ds : List Doc} (h : (Doc.arr ds).Distinct) : ∀ d ∈ ds, d.Distinct := by
  cases h; assumption

theorem Doc.Distinct.at {kvs : List (Str × Doc)} (h : (Doc.obj kvs).Distinct) {k : Str} {d : Doc}
    (hk : kvs.lookup k = some d) : d.Distinct := h.value _ (GoMap.lookup_mem hk)

/-! ## Go -/

theorem goItems_eq : ∀ ds, goItems ds = ds.map goVal
  | [] => rfl
  | d :: ds => by rw [goItems, goItems_eq ds]; rfl

theorem goEntries_eq : ∀ ds, goEntries ds = ds.map fun kv => (kv.1, goVal kv.2)
  | [] => rfl
  | d :: ds => by rw [goEntries, goEntries_eq ds]; rfl

/-- The members of the decoded object -/
def goMembers (ds : List (Str × Doc)) : GoMap GoRuntime.JVal := GoMap.putAll [] (goEntries ds)

theorem goMembers_perm {ds : List (Str × Doc)} (h : (ds.map (·.1)).Nodup) :
    (goMembers ds).Perm (ds.map fun kv => (kv.1, goVal kv.2)) := by
  unfold goMembers
  rw [goEntries_eq]
  exact perm_of_putAll (by rw [keys_mapped]; exact h)

theorem goMembers_lookup {ds : List (Str × Doc)} (h : (ds.map (·.1)).Nodup) (k : Str) :
    (goMembers ds).lookup k = (ds.lookup k).map goVal := by
  unfold goMembers
  rw [goEntries_eq, GoMap.lookup_putAll _ _ (by rw [keys_mapped]; exact h), lookup_mapped]
  simp

theorem goMembers_keys {ds : List (Str × Doc)} (h : (ds.map (·.1)).Nodup) (k : Str) :
    k ∈ (goMembers ds).map (·.1) ↔ k ∈ ds.map (·.1) := by
  rw [((goMembers_perm h).map (·.1)).mem_iff, keys_mapped]

theorem goVal_obj (ds : List (Str × Doc)) : goVal (.obj ds) = .obj (goMembers ds) := by rw [goVal]; rfl

theorem goVal_arr (ds : List Doc) : goVal (.arr ds) = .arr (ds.map goVal) := by rw [goVal, goItems_eq]

theorem goVal_isObj {d : Doc} {kvs} : goVal d = .obj kvs ↔ ∃ ds, d = .obj ds ∧ kvs = goMembers ds := by
  cases d <;> simp [goVal, goMembers, eq_comm]

theorem goVal_isArr {d : Doc} {xs} : goVal d = .arr xs ↔ ∃ ds, d = .arr ds ∧ xs = ds.map goVal := by
  cases d <;> simp [goVal, goItems_eq, eq_comm]

theorem goVal_isStr {d : Doc} {s} : goVal d = .str s ↔ d = .str s := by
  cases d <;> simp [goVal]

theorem goVal_isBool {d : Doc} {b} : goVal d = .bool b ↔ d = .bool b := by
  cases d <;> simp [goVal]

theorem goVal_isFloat {d : Doc} {f} : goVal d = .float f ↔ ∃ q, number d = some q ∧ f = F64.round q := by
  cases d <;> simp [goVal, number, eq_comm]

section

variable (L : GoRuntime.Lib) (g : Graph) (ids : Str → Str → Prop)

theorem go_ty {E : Str → GoRuntime.JVal → GoRuntime.Val → Prop} {M : Str → Doc → AVal → Prop}
    {P : Str → AVal → GoRuntime.Val → Prop} (hE : ∀ name d, d.Distinct → Agree (E name) (M name) (P name) (goVal d) d) :
    ∀ (t : Ty) (d : Doc), d.Distinct →
      Agree (GoRuntime.Spec.ReadsTy L ids E t) (MeansTy (goLeaves L) ids M t) (GoTy P t) (goVal d) d := by
  intro t
  induction t with
  | boolean =>
    intro d _
    simp only [Agree, GoRuntime.Spec.ReadsTy, MeansTy, GoTy, goLeaves, goLeaf, goVal_isBool]
    exact ⟨by rintro x ⟨c, rfl, rfl⟩; exact ⟨_, ⟨c, rfl, rfl⟩, c, rfl, rfl⟩,
      by rintro x ⟨c, rfl, rfl⟩; exact ⟨_, ⟨c, rfl, rfl⟩, c, rfl, rfl⟩⟩
  | integer b =>
    intro d _
    simp only [Agree, GoRuntime.Spec.ReadsTy, MeansTy, GoTy, goLeaves, goLeaf, goVal_isFloat]
    refine ⟨?_, ?_⟩
    · rintro x ⟨i, ⟨q, hq, hr⟩, rfl, h1, h2⟩
      exact ⟨_, ⟨q, i, hq, hr.symm, rfl, h1, h2⟩, i, rfl, rfl⟩
    · rintro a ⟨q, i, hq, hr, rfl, h1, h2⟩
      exact ⟨_, ⟨i, ⟨q, hq, hr.symm⟩, rfl, h1, h2⟩, i, rfl, rfl⟩
  | float b =>
    intro d _
    simp only [Agree, GoRuntime.Spec.ReadsTy, MeansTy, GoTy, goLeaves, goLeaf, goVal_isFloat]
    refine ⟨?_, ?_⟩
    · rintro x ⟨f, ⟨q, hq, rfl⟩, rfl, h⟩
      exact ⟨_, ⟨q, hq, rfl, h⟩, _, rfl, rfl⟩
    · rintro a ⟨q, hq, rfl, h⟩
      exact ⟨_, ⟨_, ⟨q, hq, rfl⟩, rfl, h⟩, _, rfl, rfl⟩
  | string p | path p =>
    intro d _
    simp only [Agree, GoRuntime.Spec.ReadsTy, MeansTy, GoTy, goLeaves, goLeaf, goVal_isStr]
    exact ⟨by rintro x ⟨s, hs, rfl, h⟩; exact ⟨_, ⟨s, hs, rfl, h⟩, s, rfl, rfl⟩,
      by rintro x ⟨s, hs, rfl, h⟩; exact ⟨_, ⟨s, hs, rfl, h⟩, s, rfl, rfl⟩⟩
  | date f | time f | datetime f =>
    intro d _
    simp only [Agree, GoRuntime.Spec.ReadsTy, MeansTy, GoTy, goLeaves, goLeaf, goVal_isStr]
    exact ⟨by rintro x ⟨s, t, hs, ht, rfl⟩; exact ⟨_, ⟨s, t, hs, ht, rfl⟩, t, rfl, rfl⟩,
      by rintro x ⟨s, t, hs, ht, rfl⟩; exact ⟨_, ⟨s, t, hs, ht, rfl⟩, t, rfl, rfl⟩⟩
  | timeZone | duration =>
    intro d _
    simp only [Agree, GoRuntime.Spec.ReadsTy, MeansTy, GoTy, goLeaves, goLeaf, goVal_isStr]
    exact ⟨by rintro x ⟨s, t, hs, ht, rfl⟩; exact ⟨_, ⟨s, t, hs, ht, rfl⟩, t, rfl, rfl⟩,
      by rintro x ⟨s, t, hs, ht, rfl⟩; exact ⟨_, ⟨s, t, hs, ht, rfl⟩, t, rfl, rfl⟩⟩
  | array t lo hi ih =>
    intro d hd
    simp only [Agree, GoRuntime.Spec.ReadsTy, MeansTy, GoTy, goVal_isArr]
    refine ⟨?_, ?_⟩
    · rintro x ⟨_, xs, ⟨ds, rfl, rfl⟩, rfl, hs, hf⟩
      obtain ⟨as, hm, hp⟩ := (agree_list goVal ds fun d' h => ih d' (hd.item d' h)).1 _ hf
      exact ⟨_, ⟨ds, as, rfl, rfl, by simpa using hs, hm⟩, as, xs, rfl, rfl, hp⟩
    · rintro a ⟨ds, as, rfl, rfl, hs, hm⟩
      obtain ⟨xs, hf, hp⟩ := (agree_list goVal ds fun d' h => ih d' (hd.item d' h)).2 _ hm
      exact ⟨_, ⟨_, xs, ⟨ds, rfl, rfl⟩, rfl, by simpa using hs, hf⟩, as, xs, rfl, rfl, hp⟩
  | map t ih =>
    intro d hd
    simp only [Agree, GoRuntime.Spec.ReadsTy, MeansTy, GoTy, goVal_isObj]
    have key : ∀ ds, d = .obj ds → Agree
        (Forall₂ fun kv (w : Str × GoRuntime.Val) => kv.1 = w.1 ∧ GoRuntime.Spec.ReadsTy L ids E t kv.2 w.2)
        (Forall₂ fun e (b : Str × AVal) => b.1 = e.1 ∧ MeansTy (goLeaves L) ids M t e.2 b.2)
        (Unordered fun b (y : Str × GoRuntime.Val) => y.1 = b.1 ∧ GoTy P t b.2 y.2) (goMembers ds) ds := by
      rintro ds rfl
      refine agree_perm (fun kv => (kv.1, goVal kv.2)) (fun kv hkv => ?_) (goMembers_perm hd.keys)
      have h := ih kv.2 (hd.value kv hkv)
      refine ⟨?_, ?_⟩
      · rintro ⟨k, x⟩ ⟨rfl, hr⟩
        obtain ⟨a, hm, hp⟩ := h.1 _ hr
        exact ⟨(kv.1, a), ⟨rfl, hm⟩, rfl, hp⟩
      · rintro ⟨k, a⟩ ⟨rfl, hm⟩
        obtain ⟨x, hr, hp⟩ := h.2 _ hm
        exact ⟨(kv.1, x), ⟨rfl, hr⟩, rfl, hp⟩
    refine ⟨?_, ?_⟩
    · rintro x ⟨_, xs, ⟨ds, rfl, rfl⟩, rfl, hf⟩
      obtain ⟨as, hm, hp⟩ := (key ds rfl).1 _ hf
      exact ⟨_, ⟨ds, as, rfl, rfl, hm⟩, as, xs, rfl, rfl, hp⟩
    · rintro a ⟨ds, as, rfl, rfl, hm⟩
      obtain ⟨xs, hf, hp⟩ := (key ds rfl).2 _ hm
      exact ⟨_, ⟨_, xs, ⟨ds, rfl, rfl⟩, rfl, hf⟩, as, xs, rfl, rfl, hp⟩
  | cls c =>
    intro d _
    simp only [Agree, GoRuntime.Spec.ReadsTy, MeansTy, GoTy, goVal_isStr]
    exact ⟨by rintro x ⟨s, hs, rfl, h⟩; exact ⟨_, ⟨s, hs, rfl, h⟩, c, s, rfl, rfl⟩,
      by rintro x ⟨s, hs, rfl, h⟩; exact ⟨_, ⟨s, hs, rfl, h⟩, c, s, rfl, rfl⟩⟩
  | embed name => exact fun d hd => hE name d hd

/-- The fields of a composite -/
theorem go_props {R : Ty → GoRuntime.JVal → GoRuntime.Val → Prop} {M : Ty → Doc → AVal → Prop}
    {P : Ty → AVal → GoRuntime.Val → Prop} (h : ∀ t d, d.Distinct → Agree (R t) (M t) (P t) (goVal d) d)
    {ds : List (Str × Doc)} (hd : (Doc.obj ds).Distinct) (ps : List Property) :
    (∀ xs, GoRuntime.Spec.ReadsProps R (goMembers ds) ps xs →
      ∃ as, MeansProps (goLeaves L) M ds ps as ∧ Forall₃ (GoField P) ps as xs) ∧
    ∀ as, MeansProps (goLeaves L) M ds ps as →
      ∃ xs, GoRuntime.Spec.ReadsProps R (goMembers ds) ps xs ∧ Forall₃ (GoField P) ps as xs := by
  refine agree_each ps fun p _ => ?_
  have hg : given (goLeaves L).nullMissing ds p.json = ds.lookup p.json := by
    simp only [given, goLeaves]; split <;> simp_all
  simp only [GoRuntime.Spec.ReadsProperty, MeansProperty, GoField, hg, goMembers_lookup hd.keys]
  cases hl : ds.lookup p.json with
  | none =>
    simp only [Option.map_none]
    exact ⟨by rintro ⟨k, x⟩ ⟨rfl, ho, rfl⟩; exact ⟨(p.name, .none), ⟨rfl, ho, rfl⟩, rfl, rfl, .inl ⟨ho, rfl, rfl⟩⟩,
      by rintro ⟨k, x⟩ ⟨rfl, ho, rfl⟩; exact ⟨(_, .nil), ⟨rfl, ho, rfl⟩, rfl, rfl, .inl ⟨ho, rfl, rfl⟩⟩⟩
  | some d =>
    simp only [Option.map_some]
    have ha := h p.ty d (hd.at hl)
    refine ⟨?_, ?_⟩
    · rintro ⟨k, x⟩ ⟨rfl, hr⟩
      obtain ⟨a, hm, hp⟩ := ha.1 _ hr
      exact ⟨(p.name, a), ⟨rfl, hm⟩, rfl, rfl, .inr hp⟩
    · rintro ⟨k, a⟩ ⟨rfl, hm⟩
      obtain ⟨x, hr, hp⟩ := ha.2 _ hm
      exact ⟨(_, x), ⟨rfl, hr⟩, rfl, rfl, .inr hp⟩

theorem go_embed : ∀ (n : Nat) (name : Str) (d : Doc), d.Distinct →
    Agree (GoRuntime.Spec.ReadsEmbed L g ids n name) (MeansEmbed (goLeaves L) g ids n name) (GoEmbed g n name)
      (goVal d) d
  | 0, _, _, _ => ⟨fun _ h => h.elim, fun _ h => h.elim⟩
  | n + 1, name, d, hd => by
    simp only [Agree, GoRuntime.Spec.ReadsEmbed, MeansEmbed, GoEmbed, goVal_isObj]
    refine ⟨?_, ?_⟩
    · rintro x ⟨e, _, fs, he, ⟨ds, rfl, rfl⟩, rfl, hr⟩
      obtain ⟨as, hm, hp⟩ := (go_props L (go_ty L ids (go_embed n)) hd e.properties).1 _ hr
      exact ⟨_, ⟨e, ds, as, he, rfl, rfl, hm⟩, e, as, fs, he, rfl, rfl, hp⟩
    · rintro a ⟨e, ds, as, he, rfl, rfl, hm⟩
      obtain ⟨fs, hr, hp⟩ := (go_props L (go_ty L ids (go_embed n)) hd e.properties).2 _ hm
      exact ⟨_, ⟨e, _, fs, he, ⟨ds, rfl, rfl⟩, rfl, hr⟩, e, as, fs, he, rfl, rfl, hp⟩

theorem go_described {ds : List (Str × Doc)} (hd : (Doc.obj ds).Distinct) :
    GoRuntime.Spec.Described g (goMembers ds) = Described g ds := by
  funext c id
  simp only [GoRuntime.Spec.Described, Described, GoRuntime.Spec.registryOf, goMembers_lookup hd.keys, eq_iff_iff]
  refine exists_congr fun k => and_congr_right fun _ => and_congr_right fun _ => ⟨?_, ?_⟩
  · rintro ⟨entries, h1, h2⟩
    obtain ⟨d, h3, h4⟩ := Option.map_eq_some_iff.1 h1
    obtain ⟨es, rfl, rfl⟩ := goVal_isObj.1 h4
    exact ⟨es, h3, (goMembers_keys (hd.at h3).keys _).1 h2⟩
  · rintro ⟨es, h3, h2⟩
    exact ⟨goMembers es, by rw [h3, Option.map_some, goVal_obj], (goMembers_keys (hd.at h3).keys _).2 h2⟩

theorem go_registry {ds : List (Str × Doc)} (hd : (Doc.obj ds).Distinct) (n : Nat) (c : Class) :
    (∀ x, GoRuntime.Spec.ReadsRegistry L g n (goMembers ds) c x →
      ∃ r, MeansRegistry (goLeaves L) (Means (goLeaves L) g (Described g ds) n) ds c r ∧ Unordered (GoInstance g n c) r x) ∧
    ∀ r, MeansRegistry (goLeaves L) (Means (goLeaves L) g (Described g ds) n) ds c r →
      ∃ x, GoRuntime.Spec.ReadsRegistry L g n (goMembers ds) c x ∧ Unordered (GoInstance g n c) r x := by
  have key : ∀ es, ds.lookup (lower c.plural) = some (.obj es) → Agree
      (Forall₂ fun (e : Str × GoRuntime.JVal) (i : Str × GoRuntime.Instance) =>
        i.1 = e.1 ∧ i.2.id = e.1 ∧ GoRuntime.Spec.Matches L c.idPattern e.1 ∧
        ∃ kvs', e.2 = .obj kvs' ∧
          GoRuntime.Spec.ReadsProps (GoRuntime.Spec.Reads L g (Described g ds) n) kvs' c.properties i.2.fields)
      (Forall₂ (MeansInstance (goLeaves L) (Means (goLeaves L) g (Described g ds) n) c))
      (Unordered (GoInstance g n c)) (goMembers es) es := by
    intro es hes
    have hde := hd.at hes
    refine agree_perm (fun kv => (kv.1, goVal kv.2)) (fun kv hkv => ?_) (goMembers_perm hde.keys)
    have hdv := hde.value kv hkv
    refine ⟨?_, ?_⟩
    · rintro ⟨k, i⟩ ⟨rfl, hid, hmt, kvs', hk, hr⟩
      obtain ⟨ds', hk', rfl⟩ := goVal_isObj.1 hk
      rw [hk'] at hdv
      obtain ⟨as, hm, hp⟩ := (go_props L (go_ty L _ (go_embed L g _ n)) hdv c.properties).1 _ hr
      exact ⟨(kv.1, as), ⟨rfl, hmt, ds', hk', hm⟩, rfl, hid, hp⟩
    · rintro ⟨k, as⟩ ⟨rfl, hmt, ds', hk', hm⟩
      rw [hk'] at hdv
      obtain ⟨fs, hr, hp⟩ := (go_props L (go_ty L _ (go_embed L g _ n)) hdv c.properties).2 _ hm
      exact ⟨(kv.1, ⟨kv.1, fs⟩), ⟨rfl, rfl, hmt, _, by rw [hk', goVal_obj], hr⟩, rfl, rfl, hp⟩
  simp only [GoRuntime.Spec.ReadsRegistry, MeansRegistry, GoRuntime.Spec.registryOf, goMembers_lookup hd.keys,
    go_described g hd]
  refine ⟨?_, ?_⟩
  · rintro x (⟨h1, rfl⟩ | ⟨entries, h1, h2⟩)
    · exact ⟨[], .inl ⟨by simpa using h1, rfl⟩, [], .refl _, .nil⟩
    · obtain ⟨d, h3, h4⟩ := Option.map_eq_some_iff.1 h1
      obtain ⟨es, rfl, rfl⟩ := goVal_isObj.1 h4
      obtain ⟨r, hm, hp⟩ := (key es h3).1 _ h2
      exact ⟨r, .inr ⟨es, h3, hm⟩, hp⟩
  · rintro r (⟨h1, rfl⟩ | ⟨es, h3, h2⟩)
    · exact ⟨[], .inl ⟨by simpa using h1, rfl⟩, [], .refl _, .nil⟩
    · obtain ⟨x, hm, hp⟩ := (key es h3).2 _ h2
      exact ⟨x, .inr ⟨_, by rw [h3, Option.map_some, goVal_obj], hm⟩, hp⟩

/-- The Go parser reads what the document means. -/
theorem go_graph (n : Nat) {d : Doc} (hd : d.Distinct) :
    Agree (GoRuntime.Spec.ReadsGraph L g n) (MeansGraph (goLeaves L) g n) (GoGraph g n) (goVal d) d := by
  have key : ∀ ds, d = .obj ds →
      ((∀ xs, Forall₂ (fun (c : Class) (r : Str × GoMap GoRuntime.Instance) =>
        r.1 = c.name ∧ GoRuntime.Spec.ReadsRegistry L g n (goMembers ds) c r.2) g.classes xs → ∃ as, Forall₂
        (fun (c : Class) (r : Str × List (Str × AFields)) => r.1 = c.name ∧
          MeansRegistry (goLeaves L) (Means (goLeaves L) g (Described g ds) n) ds c r.2) g.classes as ∧
        Forall₃ (fun (c : Class) r r' => r.1 = c.name ∧ r'.1 = c.name ∧ Unordered (GoInstance g n c) r.2 r'.2)
          g.classes as xs) ∧
      ∀ as, Forall₂ (fun (c : Class) (r : Str × List (Str × AFields)) => r.1 = c.name ∧
          MeansRegistry (goLeaves L) (Means (goLeaves L) g (Described g ds) n) ds c r.2) g.classes as → ∃ xs, Forall₂
        (fun (c : Class) (r : Str × GoMap GoRuntime.Instance) =>
          r.1 = c.name ∧ GoRuntime.Spec.ReadsRegistry L g n (goMembers ds) c r.2) g.classes xs ∧
        Forall₃ (fun (c : Class) r r' => r.1 = c.name ∧ r'.1 = c.name ∧ Unordered (GoInstance g n c) r.2 r'.2)
          g.classes as xs) := by
    rintro ds rfl
    refine agree_each g.classes fun c _ => ⟨?_, ?_⟩
    · rintro ⟨k, x⟩ ⟨rfl, hr⟩
      obtain ⟨r, hm, hp⟩ := (go_registry L g hd n c).1 _ hr
      exact ⟨(c.name, r), ⟨rfl, hm⟩, rfl, rfl, hp⟩
    · rintro ⟨k, r⟩ ⟨rfl, hm⟩
      obtain ⟨x, hr, hp⟩ := (go_registry L g hd n c).2 _ hm
      exact ⟨(c.name, x), ⟨rfl, hr⟩, rfl, rfl, hp⟩
  simp only [Agree, GoRuntime.Spec.ReadsGraph, MeansGraph, GoGraph, goVal_isObj]
  refine ⟨?_, ?_⟩
  · rintro gv ⟨_, ⟨ds, rfl, rfl⟩, h1, h2⟩
    rw [go_described g hd] at h2
    obtain ⟨rs, m1, p1⟩ := (key ds rfl).1 _ h1
    obtain ⟨fs, m2, p2⟩ := (go_props L (go_ty L _ (go_embed L g _ n)) hd g.properties).1 _ h2
    exact ⟨⟨fs, rs⟩, ⟨ds, rfl, m1, m2⟩, p1, p2⟩
  · rintro a ⟨ds, rfl, m1, m2⟩
    obtain ⟨rs, h1, p1⟩ := (key ds rfl).2 _ m1
    obtain ⟨fs, h2, p2⟩ := (go_props L (go_ty L _ (go_embed L g _ n)) hd g.properties).2 _ m2
    exact ⟨⟨fs, rs⟩, ⟨_, ⟨ds, rfl, rfl⟩, h1, by rw [go_described g hd]; exact h2⟩, p1, p2⟩

end

end Mapry.Interop
