import Verif.InteropLemmas

/-!
# What the C++ parser reads
-/

namespace Mapry.Interop

open Mapry.Duration
open Mapry.PyRuntime.Spec (Within FloatWithin SizeWithin boolNum)
open Mapry.GoRuntime (forall₂_perm)

theorem cppItems_eq : ∀ ds, cppItems ds = ds.map cppVal
  | [] => rfl
  | d :: ds => by rw [cppItems, cppItems_eq ds]; rfl

theorem cppEntries_eq : ∀ ds, cppEntries ds = ds.map fun kv => (kv.1, cppVal kv.2)
  | [] => rfl
  | d :: ds => by rw [cppEntries, cppEntries_eq ds]; rfl

/-- The members of the decoded object -/
def cppMembers (ds : List (Str × Doc)) : GoMap CppRuntime.JVal := GoMap.putAll [] (cppEntries ds)

theorem cppMembers_perm {ds : List (Str × Doc)} (h : (ds.map (·.1)).Nodup) :
    (cppMembers ds).Perm (ds.map fun kv => (kv.1, cppVal kv.2)) := by
  unfold cppMembers
  rw [cppEntries_eq]
  exact perm_of_putAll (by rw [keys_mapped]; exact h)

theorem cppMembers_lookup {ds : List (Str × Doc)} (h : (ds.map (·.1)).Nodup) (k : Str) :
    (cppMembers ds).lookup k = (ds.lookup k).map cppVal := by
  unfold cppMembers
  rw [cppEntries_eq, GoMap.lookup_putAll _ _ (by rw [keys_mapped]; exact h), lookup_mapped]
  simp

theorem cppMembers_keys {ds : List (Str × Doc)} (h : (ds.map (·.1)).Nodup) (k : Str) :
    k ∈ (cppMembers ds).map (·.1) ↔ k ∈ ds.map (·.1) := by
  rw [((cppMembers_perm h).map (·.1)).mem_iff, keys_mapped]

theorem cppVal_obj (ds : List (Str × Doc)) : cppVal (.obj ds) = .obj (cppMembers ds) := by rw [cppVal]; rfl

theorem cppVal_arr (ds : List Doc) : cppVal (.arr ds) = .arr (ds.map cppVal) := by rw [cppVal, cppItems_eq]

theorem cppVal_isObj {d : Doc} {kvs} : cppVal d = .obj kvs ↔ ∃ ds, d = .obj ds ∧ kvs = cppMembers ds := by
  cases d <;> simp only [cppVal] <;> (repeat' split) <;> simp [cppMembers, eq_comm]

theorem cppVal_isArr {d : Doc} {xs} : cppVal d = .arr xs ↔ ∃ ds, d = .arr ds ∧ xs = ds.map cppVal := by
  cases d <;> simp only [cppVal] <;> (repeat' split) <;> simp [cppItems_eq, eq_comm]

theorem cppVal_isStr {d : Doc} {s} : cppVal d = .str s ↔ d = .str s := by
  cases d <;> simp only [cppVal] <;> (repeat' split) <;> simp

theorem cppVal_isBool {d : Doc} {b} : cppVal d = .bool b ↔ d = .bool b := by
  cases d <;> simp only [cppVal] <;> (repeat' split) <;> simp

theorem cppVal_isDouble {d : Doc} {f} :
    CppRuntime.Spec.IsDouble (cppVal d) f ↔ ∃ q, number d = some q ∧ f = F64.round q := by
  unfold CppRuntime.Spec.IsDouble
  cases d with
  | int i =>
    simp only [cppVal, number, Option.some.injEq]
    split
    · simp [eq_comm]
    · split
      · rename_i h
        have e : ((i.toNat : Int)) = i := Int.toNat_of_nonneg h.1
        simp [e]
      · simp [eq_comm]
  | real q => simp [cppVal, number, eq_comm]
  | null => simp [cppVal, number]
  | bool b => simp [cppVal, number]
  | str s => simp [cppVal, number]
  | arr xs => simp [cppVal, number]
  | obj kvs => simp [cppVal, number]

theorem cppVal_isInteger {d : Doc} {i : Int} (hi : IsInt64 i) : CppRuntime.Spec.IsInteger (cppVal d) i ↔
    (d = .int i ∨ ∃ q, (d = .real q ∨ ∃ j : Int, d = .int j ∧ TooLarge j ∧ q = j) ∧ F64.round q = .fin i) := by
  unfold CppRuntime.Spec.IsInteger
  cases d with
  | int j =>
    simp only [cppVal, Doc.int.injEq, reduceCtorEq, false_or]
    split
    · rename_i h
      have hs : ¬ TooLarge j := by
        unfold TooLarge; unfold IsInt64 minInt64 maxInt64 at h; omega
      refine ⟨fun h => .inl (by simpa using h), ?_⟩
      rintro (h | ⟨q, ⟨j', rfl, h', _⟩, _⟩)
      · exact .inl (by rw [h])
      · exact (hs h').elim
    · rename_i h
      have hne : j ≠ i := fun e => h (e ▸ hi)
      split
      · rename_i h'
        have hs : ¬ TooLarge j := by unfold TooLarge; omega
        have e : ((j.toNat : Int)) = j := Int.toNat_of_nonneg h'.1
        refine ⟨fun h => ?_, ?_⟩
        · simp [e] at h
          exact (hne h.symm).elim
        · rintro (h | ⟨q, ⟨j', rfl, h', _⟩, _⟩)
          · exact (hne h).elim
          · exact (hs h').elim
      · rename_i h'
        have hs : TooLarge j := by
          unfold TooLarge; unfold IsInt64 minInt64 maxInt64 at h; omega
        refine ⟨fun h => .inr ⟨j, ⟨j, rfl, hs, rfl⟩, by simpa using h⟩, ?_⟩
        rintro (h | ⟨q, ⟨j', rfl, _, rfl⟩, hr⟩)
        · exact (hne h).elim
        · exact .inr (.inr (by rw [hr]))
  | real q => simp [cppVal]
  | null => simp [cppVal]
  | bool b => simp [cppVal]
  | str s => simp [cppVal]
  | arr xs => simp [cppVal]
  | obj kvs => simp [cppVal]

section

variable (D : CppRuntime.DateLib) (L : CppRuntime.Lib) (g : Graph) (ids : Str → Str → Prop)

theorem cpp_ty {E : Str → CppRuntime.JVal → CppRuntime.Val → Prop} {M : Str → Doc → AVal → Prop}
    {P : Str → AVal → CppRuntime.Val → Prop} (hE : ∀ name d, d.Distinct → Agree (E name) (M name) (P name) (cppVal d) d) :
    ∀ (t : Ty) (d : Doc), d.Distinct →
      Agree (CppRuntime.Spec.ReadsTy D L (CppRuntime.Spec.Loose D L) ids E t) (MeansTy (cppLeaves D L) ids M t) (CppTy P t) (cppVal d) d := by
  intro t
  induction t with
  | boolean =>
    intro d _
    simp only [Agree, CppRuntime.Spec.ReadsTy, MeansTy, CppTy, cppLeaves, cppLeaf, cppVal_isBool]
    exact ⟨by rintro x ⟨c, rfl, rfl⟩; exact ⟨_, ⟨c, rfl, rfl⟩, c, rfl, rfl⟩,
      by rintro x ⟨c, rfl, rfl⟩; exact ⟨_, ⟨c, rfl, rfl⟩, c, rfl, rfl⟩⟩
  | integer b =>
    intro d _
    simp only [Agree, CppRuntime.Spec.ReadsTy, MeansTy, CppTy, cppLeaves, cppLeaf]
    refine ⟨?_, ?_⟩
    · rintro x ⟨i, hq, rfl, h1, h2⟩
      exact ⟨_, ⟨i, (cppVal_isInteger h1).1 hq, rfl, h1, h2⟩, i, rfl, rfl⟩
    · rintro a ⟨i, hq, rfl, h1, h2⟩
      exact ⟨_, ⟨i, (cppVal_isInteger h1).2 hq, rfl, h1, h2⟩, i, rfl, rfl⟩
  | float b =>
    intro d _
    simp only [Agree, CppRuntime.Spec.ReadsTy, MeansTy, CppTy, cppLeaves, cppLeaf, cppVal_isDouble]
    refine ⟨?_, ?_⟩
    · rintro x ⟨f, ⟨q, hq, rfl⟩, rfl, h⟩
      exact ⟨_, ⟨q, hq, rfl, h⟩, _, rfl, rfl⟩
    · rintro a ⟨q, hq, rfl, h⟩
      exact ⟨_, ⟨_, ⟨q, hq, rfl⟩, rfl, h⟩, _, rfl, rfl⟩
  | string p | path p =>
    intro d _
    simp only [Agree, CppRuntime.Spec.ReadsTy, MeansTy, CppTy, cppLeaves, cppLeaf, cppVal_isStr]
    exact ⟨by rintro x ⟨s, hs, rfl, h⟩; exact ⟨_, ⟨s, hs, rfl, h⟩, s, rfl, rfl⟩,
      by rintro x ⟨s, hs, rfl, h⟩; exact ⟨_, ⟨s, hs, rfl, h⟩, s, rfl, rfl⟩⟩
  | date f | time f | datetime f =>
    intro d _
    simp only [Agree, CppRuntime.Spec.ReadsTy, MeansTy, CppTy, cppLeaves, cppLeaf, cppVal_isStr]
    exact ⟨by rintro x ⟨s, t, hs, ht, rfl⟩; exact ⟨_, ⟨s, t, hs, ht, rfl⟩, t, rfl, rfl⟩,
      by rintro x ⟨s, t, hs, ht, rfl⟩; exact ⟨_, ⟨s, t, hs, ht, rfl⟩, t, rfl, rfl⟩⟩
  | timeZone | duration =>
    intro d _
    simp only [Agree, CppRuntime.Spec.ReadsTy, MeansTy, CppTy, cppLeaves, cppLeaf, cppVal_isStr]
    exact ⟨by rintro x ⟨s, t, hs, ht, rfl⟩; exact ⟨_, ⟨s, t, hs, ht, rfl⟩, t, rfl, rfl⟩,
      by rintro x ⟨s, t, hs, ht, rfl⟩; exact ⟨_, ⟨s, t, hs, ht, rfl⟩, t, rfl, rfl⟩⟩
  | array t lo hi ih =>
    intro d hd
    simp only [Agree, CppRuntime.Spec.ReadsTy, MeansTy, CppTy, cppVal_isArr]
    refine ⟨?_, ?_⟩
    · rintro x ⟨_, xs, ⟨ds, rfl, rfl⟩, rfl, hs, hf⟩
      obtain ⟨as, hm, hp⟩ := (agree_list cppVal ds fun d' h => ih d' (hd.item d' h)).1 _ hf
      exact ⟨_, ⟨ds, as, rfl, rfl, by simpa using hs, hm⟩, as, xs, rfl, rfl, hp⟩
    · rintro a ⟨ds, as, rfl, rfl, hs, hm⟩
      obtain ⟨xs, hf, hp⟩ := (agree_list cppVal ds fun d' h => ih d' (hd.item d' h)).2 _ hm
      exact ⟨_, ⟨_, xs, ⟨ds, rfl, rfl⟩, rfl, by simpa using hs, hf⟩, as, xs, rfl, rfl, hp⟩
  | map t ih =>
    intro d hd
    simp only [Agree, CppRuntime.Spec.ReadsTy, MeansTy, CppTy, cppVal_isObj]
    have key : ∀ ds, d = .obj ds → Agree
        (Forall₂ fun kv (w : Str × CppRuntime.Val) => kv.1 = w.1 ∧ CppRuntime.Spec.ReadsTy D L (CppRuntime.Spec.Loose D L) ids E t kv.2 w.2)
        (Forall₂ fun e (b : Str × AVal) => b.1 = e.1 ∧ MeansTy (cppLeaves D L) ids M t e.2 b.2)
        (Unordered fun b (y : Str × CppRuntime.Val) => y.1 = b.1 ∧ CppTy P t b.2 y.2) (cppMembers ds) ds := by
      rintro ds rfl
      refine agree_perm (fun kv => (kv.1, cppVal kv.2)) (fun kv hkv => ?_) (cppMembers_perm hd.keys)
      have h := ih kv.2 (hd.value kv hkv)
      refine ⟨?_, ?_⟩
      · rintro ⟨k, x⟩ ⟨rfl, hr⟩
        obtain ⟨a, hm, hp⟩ := h.1 _ hr
        exact ⟨(kv.1, a), ⟨rfl, hm⟩, rfl, hp⟩
      · rintro ⟨k, a⟩ ⟨rfl, hm⟩
        obtain ⟨x, hr, hp⟩ := h.2 _ hm
        exact ⟨(kv.1, x), ⟨rfl, hr⟩, rfl, hp⟩
    refine ⟨?_, ?_⟩
    · rintro x ⟨_, xs, ⟨ds, rfl, rfl⟩, rfl, hf⟩
      obtain ⟨as, hm, hp⟩ := (key ds rfl).1 _ hf
      exact ⟨_, ⟨ds, as, rfl, rfl, hm⟩, as, xs, rfl, rfl, hp⟩
    · rintro a ⟨ds, as, rfl, rfl, hm⟩
      obtain ⟨xs, hf, hp⟩ := (key ds rfl).2 _ hm
      exact ⟨_, ⟨_, xs, ⟨ds, rfl, rfl⟩, rfl, hf⟩, as, xs, rfl, rfl, hp⟩
  | cls c =>
    intro d _
    simp only [Agree, CppRuntime.Spec.ReadsTy, MeansTy, CppTy, cppVal_isStr]
    exact ⟨by rintro x ⟨s, hs, rfl, h⟩; exact ⟨_, ⟨s, hs, rfl, h⟩, c, s, rfl, rfl⟩,
      by rintro x ⟨s, hs, rfl, h⟩; exact ⟨_, ⟨s, hs, rfl, h⟩, c, s, rfl, rfl⟩⟩
  | embed name => exact fun d hd => hE name d hd

/-- The fields of a composite -/
theorem cpp_props {R : Ty → CppRuntime.JVal → CppRuntime.Val → Prop} {M : Ty → Doc → AVal → Prop}
    {P : Ty → AVal → CppRuntime.Val → Prop} (h : ∀ t d, d.Distinct → Agree (R t) (M t) (P t) (cppVal d) d)
    {ds : List (Str × Doc)} (hd : (Doc.obj ds).Distinct) (ps : List Property) :
    (∀ xs, CppRuntime.Spec.ReadsProps R (cppMembers ds) ps xs →
      ∃ as, MeansProps (cppLeaves D L) M ds ps as ∧ Forall₃ (CppField P) ps as xs) ∧
    ∀ as, MeansProps (cppLeaves D L) M ds ps as →
      ∃ xs, CppRuntime.Spec.ReadsProps R (cppMembers ds) ps xs ∧ Forall₃ (CppField P) ps as xs := by
  refine agree_each ps fun p _ => ?_
  have hg : given (cppLeaves D L).nullMissing ds p.json = ds.lookup p.json := by
    simp only [given, cppLeaves]; split <;> simp_all
  simp only [CppRuntime.Spec.ReadsProperty, MeansProperty, CppField, hg, cppMembers_lookup hd.keys]
  cases hl : ds.lookup p.json with
  | none =>
    simp only [Option.map_none]
    exact ⟨by rintro ⟨k, x⟩ ⟨rfl, ho, rfl⟩; exact ⟨(p.name, .none), ⟨rfl, ho, rfl⟩, rfl, rfl, .inl ⟨ho, rfl, rfl⟩⟩,
      by rintro ⟨k, x⟩ ⟨rfl, ho, rfl⟩; exact ⟨(_, .nil), ⟨rfl, ho, rfl⟩, rfl, rfl, .inl ⟨ho, rfl, rfl⟩⟩⟩
  | some d =>
    simp only [Option.map_some]
    have ha := h p.ty d (hd.at hl)
    refine ⟨?_, ?_⟩
    · rintro ⟨k, x⟩ ⟨rfl, hr⟩
      obtain ⟨a, hm, hp⟩ := ha.1 _ hr
      exact ⟨(p.name, a), ⟨rfl, hm⟩, rfl, rfl, .inr hp⟩
    · rintro ⟨k, a⟩ ⟨rfl, hm⟩
      obtain ⟨x, hr, hp⟩ := ha.2 _ hm
      exact ⟨(_, x), ⟨rfl, hr⟩, rfl, rfl, .inr hp⟩

theorem cpp_embed : ∀ (n : Nat) (name : Str) (d : Doc), d.Distinct →
    Agree (CppRuntime.Spec.ReadsEmbed D L (CppRuntime.Spec.Loose D L) g ids n name) (MeansEmbed (cppLeaves D L) g ids n name) (CppEmbed g n name)
      (cppVal d) d
  | 0, _, _, _ => ⟨fun _ h => h.elim, fun _ h => h.elim⟩
  | n + 1, name, d, hd => by
    simp only [Agree, CppRuntime.Spec.ReadsEmbed, MeansEmbed, CppEmbed, cppVal_isObj]
    refine ⟨?_, ?_⟩
    · rintro x ⟨e, _, fs, he, ⟨ds, rfl, rfl⟩, rfl, hr⟩
      obtain ⟨as, hm, hp⟩ := (cpp_props D L (cpp_ty D L ids (cpp_embed n)) hd e.properties).1 _ hr
      exact ⟨_, ⟨e, ds, as, he, rfl, rfl, hm⟩, e, as, fs, he, rfl, rfl, hp⟩
    · rintro a ⟨e, ds, as, he, rfl, rfl, hm⟩
      obtain ⟨fs, hr, hp⟩ := (cpp_props D L (cpp_ty D L ids (cpp_embed n)) hd e.properties).2 _ hm
      exact ⟨_, ⟨e, _, fs, he, ⟨ds, rfl, rfl⟩, rfl, hr⟩, e, as, fs, he, rfl, rfl, hp⟩

theorem cpp_described {ds : List (Str × Doc)} (hd : (Doc.obj ds).Distinct) :
    CppRuntime.Spec.Described g (cppMembers ds) = Described g ds := by
  funext c id
  simp only [CppRuntime.Spec.Described, Described, CppRuntime.Spec.registryOf, cppMembers_lookup hd.keys, eq_iff_iff]
  refine exists_congr fun k => and_congr_right fun _ => and_congr_right fun _ => ⟨?_, ?_⟩
  · rintro ⟨entries, h1, h2⟩
    obtain ⟨d, h3, h4⟩ := Option.map_eq_some_iff.1 h1
    obtain ⟨es, rfl, rfl⟩ := cppVal_isObj.1 h4
    exact ⟨es, h3, (cppMembers_keys (hd.at h3).keys _).1 h2⟩
  · rintro ⟨es, h3, h2⟩
    exact ⟨cppMembers es, by rw [h3, Option.map_some, cppVal_obj], (cppMembers_keys (hd.at h3).keys _).2 h2⟩

theorem cpp_registry {ds : List (Str × Doc)} (hd : (Doc.obj ds).Distinct) (n : Nat) (c : Class) :
    (∀ x, CppRuntime.Spec.ReadsRegistry D L (CppRuntime.Spec.Loose D L) g n (cppMembers ds) c x →
      ∃ r, MeansRegistry (cppLeaves D L) (Means (cppLeaves D L) g (Described g ds) n) ds c r ∧ Unordered (CppInstance g n c) r x) ∧
    ∀ r, MeansRegistry (cppLeaves D L) (Means (cppLeaves D L) g (Described g ds) n) ds c r →
      ∃ x, CppRuntime.Spec.ReadsRegistry D L (CppRuntime.Spec.Loose D L) g n (cppMembers ds) c x ∧ Unordered (CppInstance g n c) r x := by
  have key : ∀ es, ds.lookup (lower c.plural) = some (.obj es) → Agree
      (Forall₂ (CppRuntime.Spec.ReadsInstance L
        (CppRuntime.Spec.Reads D L (CppRuntime.Spec.Loose D L) g (Described g ds) n) c))
      (Forall₂ (MeansInstance (cppLeaves D L) (Means (cppLeaves D L) g (Described g ds) n) c))
      (Unordered (CppInstance g n c)) (cppMembers es) es := by
    intro es hes
    have hde := hd.at hes
    refine agree_perm (fun kv => (kv.1, cppVal kv.2)) (fun kv hkv => ?_) (cppMembers_perm hde.keys)
    have hdv := hde.value kv hkv
    refine ⟨?_, ?_⟩
    · rintro ⟨k, i⟩ ⟨rfl, hid, hmt, kvs', hk, hr⟩
      obtain ⟨ds', hk', rfl⟩ := cppVal_isObj.1 hk
      rw [hk'] at hdv
      obtain ⟨as, hm, hp⟩ := (cpp_props D L (cpp_ty D L _ (cpp_embed D L g _ n)) hdv c.properties).1 _ hr
      exact ⟨(kv.1, as), ⟨rfl, hmt, ds', hk', hm⟩, rfl, hid, hp⟩
    · rintro ⟨k, as⟩ ⟨rfl, hmt, ds', hk', hm⟩
      rw [hk'] at hdv
      obtain ⟨fs, hr, hp⟩ := (cpp_props D L (cpp_ty D L _ (cpp_embed D L g _ n)) hdv c.properties).2 _ hm
      exact ⟨(kv.1, ⟨kv.1, fs⟩), ⟨rfl, rfl, hmt, _, by rw [hk', cppVal_obj], hr⟩, rfl, rfl, hp⟩
  simp only [CppRuntime.Spec.ReadsRegistry, MeansRegistry, CppRuntime.Spec.registryOf, cppMembers_lookup hd.keys,
    cpp_described g hd]
  refine ⟨?_, ?_⟩
  · rintro x (⟨h1, rfl⟩ | ⟨entries, h1, h2⟩)
    · exact ⟨[], .inl ⟨by simpa using h1, rfl⟩, [], .refl _, .nil⟩
    · obtain ⟨d, h3, h4⟩ := Option.map_eq_some_iff.1 h1
      obtain ⟨es, rfl, rfl⟩ := cppVal_isObj.1 h4
      obtain ⟨r, hm, hp⟩ := (key es h3).1 _ h2
      exact ⟨r, .inr ⟨es, h3, hm⟩, hp⟩
  · rintro r (⟨h1, rfl⟩ | ⟨es, h3, h2⟩)
    · exact ⟨[], .inl ⟨by simpa using h1, rfl⟩, [], .refl _, .nil⟩
    · obtain ⟨x, hm, hp⟩ := (key es h3).2 _ h2
      exact ⟨x, .inr ⟨_, by rw [h3, Option.map_some, cppVal_obj], hm⟩, hp⟩

/-- The C++ parser reads what the document means. -/
theorem cpp_graph (n : Nat) {d : Doc} (hd : d.Distinct) :
    Agree (CppRuntime.Spec.ReadsGraph D L (CppRuntime.Spec.Loose D L) g n) (MeansGraph (cppLeaves D L) g n) (CppGraph g n) (cppVal d) d := by
  have key : ∀ ds, d = .obj ds →
      ((∀ xs, Forall₂ (fun (c : Class) (r : Str × GoMap CppRuntime.Instance) =>
        r.1 = c.name ∧ CppRuntime.Spec.ReadsRegistry D L (CppRuntime.Spec.Loose D L) g n (cppMembers ds) c r.2) g.classes xs → ∃ as, Forall₂
        (fun (c : Class) (r : Str × List (Str × AFields)) => r.1 = c.name ∧
          MeansRegistry (cppLeaves D L) (Means (cppLeaves D L) g (Described g ds) n) ds c r.2) g.classes as ∧
        Forall₃ (fun (c : Class) r r' => r.1 = c.name ∧ r'.1 = c.name ∧ Unordered (CppInstance g n c) r.2 r'.2)
          g.classes as xs) ∧
      ∀ as, Forall₂ (fun (c : Class) (r : Str × List (Str × AFields)) => r.1 = c.name ∧
          MeansRegistry (cppLeaves D L) (Means (cppLeaves D L) g (Described g ds) n) ds c r.2) g.classes as → ∃ xs, Forall₂
        (fun (c : Class) (r : Str × GoMap CppRuntime.Instance) =>
          r.1 = c.name ∧ CppRuntime.Spec.ReadsRegistry D L (CppRuntime.Spec.Loose D L) g n (cppMembers ds) c r.2) g.classes xs ∧
        Forall₃ (fun (c : Class) r r' => r.1 = c.name ∧ r'.1 = c.name ∧ Unordered (CppInstance g n c) r.2 r'.2)
          g.classes as xs) := by
    rintro ds rfl
    refine agree_each g.classes fun c _ => ⟨?_, ?_⟩
    · rintro ⟨k, x⟩ ⟨rfl, hr⟩
      obtain ⟨r, hm, hp⟩ := (cpp_registry D L g hd n c).1 _ hr
      exact ⟨(c.name, r), ⟨rfl, hm⟩, rfl, rfl, hp⟩
    · rintro ⟨k, r⟩ ⟨rfl, hm⟩
      obtain ⟨x, hr, hp⟩ := (cpp_registry D L g hd n c).2 _ hm
      exact ⟨(c.name, x), ⟨rfl, hr⟩, rfl, rfl, hp⟩
  simp only [Agree, CppRuntime.Spec.ReadsGraph, MeansGraph, CppGraph, cppVal_isObj]
  refine ⟨?_, ?_⟩
  · rintro gv ⟨_, ⟨ds, rfl, rfl⟩, h1, h2⟩
    rw [cpp_described g hd] at h2
    obtain ⟨rs, m1, p1⟩ := (key ds rfl).1 _ h1
    obtain ⟨fs, m2, p2⟩ := (cpp_props D L (cpp_ty D L _ (cpp_embed D L g _ n)) hd g.properties).1 _ h2
    exact ⟨⟨fs, rs⟩, ⟨ds, rfl, m1, m2⟩, p1, p2⟩
  · rintro a ⟨ds, rfl, m1, m2⟩
    obtain ⟨rs, h1, p1⟩ := (key ds rfl).2 _ m1
    obtain ⟨fs, h2, p2⟩ := (cpp_props D L (cpp_ty D L _ (cpp_embed D L g _ n)) hd g.properties).2 _ m2
    exact ⟨⟨fs, rs⟩, ⟨_, ⟨ds, rfl, rfl⟩, h1, by rw [cpp_described g hd]; exact h2⟩, p1, p2⟩

end

end Mapry.Interop
