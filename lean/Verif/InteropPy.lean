import Verif.InteropLemmas

/-!
# What the Python parser reads
-/

namespace Mapry.Interop

open Mapry.Duration
open Mapry.PyRuntime.Spec (Within FloatWithin SizeWithin boolNum)
open Mapry.GoRuntime (forall₂_perm)

theorem pyItems_eq (o : Bool) : ∀ ds, pyItems o ds = ds.map (pyOf o)
  | [] => rfl
  | d :: ds => by rw [pyItems, pyItems_eq o ds]; rfl

theorem pyEntries_eq (o : Bool) : ∀ ds, pyEntries o ds = ds.map fun kv => (kv.1, pyOf o kv.2)
  | [] => rfl
  | d :: ds => by rw [pyEntries, pyEntries_eq o ds]; rfl

theorem pyEntries_perm (o : Bool) (ds : List (Str × Doc)) :
    (pyEntries o ds).Perm (ds.map fun kv => (kv.1, pyOf o kv.2)) := by rw [pyEntries_eq]

theorem pyEntries_lookup (o : Bool) (ds : List (Str × Doc)) (k : Str) :
    (pyEntries o ds).lookup k = (ds.lookup k).map (pyOf o) := by rw [pyEntries_eq, lookup_mapped]

theorem pyEntries_keys (o : Bool) (ds : List (Str × Doc)) (k : Str) :
    k ∈ (pyEntries o ds).map (·.1) ↔ k ∈ ds.map (·.1) := by rw [pyEntries_eq, keys_mapped]

theorem pyOf_obj (o : Bool) (ds : List (Str × Doc)) : pyOf o (.obj ds) = .obj o (pyEntries o ds) := by rw [pyOf]

theorem pyOf_isObj {o o' : Bool} {d : Doc} {kvs} :
    pyOf o d = .obj o' kvs ↔ o = o' ∧ ∃ ds, d = .obj ds ∧ kvs = pyEntries o ds := by
  cases d <;> simp [pyOf, eq_comm]

theorem pyOf_isArr {o : Bool} {d : Doc} {xs} : pyOf o d = .arr xs ↔ ∃ ds, d = .arr ds ∧ xs = ds.map (pyOf o) := by
  cases d <;> simp [pyOf, pyItems_eq, eq_comm]

theorem pyOf_isStr {o : Bool} {d : Doc} {s} : pyOf o d = .str s ↔ d = .str s := by
  cases d <;> simp [pyOf]

theorem pyOf_isBool {o : Bool} {d : Doc} {b} : pyOf o d = .bool b ↔ d = .bool b := by
  cases d <;> simp [pyOf]

theorem pyOf_isInt {o : Bool} {d : Doc} {i} : pyOf o d = .int i ↔ d = .int i := by
  cases d <;> simp [pyOf]

theorem pyOf_isNull {o : Bool} {d : Doc} : pyOf o d = .null ↔ d = .null := by
  cases d <;> simp [pyOf]

theorem pyOf_isFloat {o : Bool} {d : Doc} {f} : pyOf o d = .float f ↔ ∃ q, d = .real q ∧ f = F64.round q := by
  cases d <;> simp [pyOf, eq_comm]

theorem pyOf_isIntValue {o : Bool} {d : Doc} {w i} : PyRuntime.Spec.IntValue true (pyOf o d) w i ↔
    (d = .int i ∧ w = .int i) ∨ ∃ c, d = .bool c ∧ w = .bool c ∧ i = boolNum c := by
  constructor
  · generalize e : pyOf o d = v
    rintro (⟨i⟩ | ⟨c, _⟩)
    · exact .inl ⟨pyOf_isInt.1 e, rfl⟩
    · exact .inr ⟨c, pyOf_isBool.1 e, rfl, rfl⟩
  · rintro (⟨rfl, rfl⟩ | ⟨c, rfl, rfl, rfl⟩)
    · rw [pyOf]; exact .int i
    · rw [pyOf]; exact .bool c rfl

theorem given_some {b : Bool} {ds : List (Str × Doc)} {k : Str} {d : Doc} (h : given b ds k = some d) :
    ds.lookup k = some d := by
  unfold given at h
  split at h
  · rename_i h'
    split at h
    · cases h
    · rw [h', h]
  · exact h

theorem py_present (o : Bool) (ds : List (Str × Doc)) (k : Str) :
    PyRuntime.Spec.present (pyEntries o ds) k = (given true ds k).map (pyOf o) := by
  unfold PyRuntime.Spec.present given
  rw [pyEntries_lookup]
  cases ds.lookup k with
  | none => rfl
  | some d => cases d <;> simp [pyOf]

section

variable (o : Bool) (L : PyRuntime.Lib) (S : PyRuntime.Settings) (g : Graph) (ids : Str → Str → Prop)

theorem py_ty {E : Str → PyRuntime.Json → PyRuntime.Val → Prop} {M : Str → Doc → AVal → Prop}
    {P : Str → AVal → PyRuntime.Val → Prop} (hE : ∀ name d, d.Distinct → Agree (E name) (M name) (P name) (pyOf o d) d) :
    ∀ (t : Ty) (d : Doc), d.Distinct →
      Agree (PyRuntime.Spec.ReadsTy true L S ids E t) (MeansTy (pyLeaves L S) ids M t) (PyTy S P t) (pyOf o d) d := by
  intro t
  induction t with
  | boolean =>
    intro d _
    simp only [Agree, PyRuntime.Spec.ReadsTy, MeansTy, PyTy, pyLeaves, pyLeaf, pyOf_isBool]
    exact ⟨by rintro x ⟨c, rfl, rfl⟩; exact ⟨_, ⟨c, rfl, rfl⟩, c, rfl, rfl⟩,
      by rintro x ⟨c, rfl, rfl⟩; exact ⟨_, ⟨c, rfl, rfl⟩, c, rfl, rfl⟩⟩
  | integer b =>
    intro d _
    simp only [Agree, PyRuntime.Spec.ReadsTy, MeansTy, PyTy, pyLeaves, pyLeaf, pyOf_isIntValue]
    refine ⟨?_, ?_⟩
    · rintro x ⟨i, ⟨h, rfl⟩ | ⟨c, h, rfl, rfl⟩, hw⟩
      · exact ⟨_, .inl ⟨i, h, rfl, hw⟩, .inl ⟨i, rfl, rfl⟩⟩
      · exact ⟨_, .inr ⟨c, h, rfl, hw⟩, .inr ⟨c, rfl, rfl⟩⟩
    · rintro a (⟨i, h, rfl, hw⟩ | ⟨c, h, rfl, hw⟩)
      · exact ⟨_, ⟨i, .inl ⟨h, rfl⟩, hw⟩, .inl ⟨i, rfl, rfl⟩⟩
      · exact ⟨_, ⟨_, .inr ⟨c, h, rfl, rfl⟩, hw⟩, .inr ⟨c, rfl, rfl⟩⟩
  | float b =>
    intro d _
    simp only [Agree, PyRuntime.Spec.ReadsTy, MeansTy, PyTy, pyLeaves, pyLeaf, pyOf_isIntValue, pyOf_isFloat]
    refine ⟨?_, ?_⟩
    · rintro x (⟨_, ⟨q, h, rfl⟩, rfl, hw⟩ | ⟨w, i, q, h, rfl, hw, hr⟩)
      · exact ⟨_, .inl ⟨q, h, rfl, hw⟩, _, rfl, rfl⟩
      · refine ⟨_, .inr ⟨i, q, ?_, rfl, hw, hr⟩, _, rfl, rfl⟩
        rcases h with ⟨h, _⟩ | ⟨c, h, _, h'⟩
        · exact .inl h
        · exact .inr ⟨c, h, h'⟩
    · rintro a (⟨q, h, rfl, hw⟩ | ⟨i, q, h, rfl, hw, hr⟩)
      · exact ⟨_, .inl ⟨_, ⟨q, h, rfl⟩, rfl, hw⟩, _, rfl, rfl⟩
      · rcases h with h | ⟨c, h, h'⟩
        · exact ⟨_, .inr ⟨_, i, q, .inl ⟨h, rfl⟩, rfl, hw, hr⟩, _, rfl, rfl⟩
        · exact ⟨_, .inr ⟨_, i, q, .inr ⟨c, h, rfl, h'⟩, rfl, hw, hr⟩, _, rfl, rfl⟩
  | string p =>
    intro d _
    simp only [Agree, PyRuntime.Spec.ReadsTy, MeansTy, PyTy, pyLeaves, pyLeaf, pyOf_isStr]
    exact ⟨by rintro x ⟨s, hs, rfl, h⟩; exact ⟨_, ⟨s, hs, rfl, h⟩, s, rfl, rfl⟩,
      by rintro x ⟨s, hs, rfl, h⟩; exact ⟨_, ⟨s, hs, rfl, h⟩, s, rfl, rfl⟩⟩
  | path p =>
    intro d _
    have e : ∀ s, PyRuntime.Spec.pathVal L S s =
        (if S.pathlib then .path (if S.pathlib then L.normPath s else s)
          else .str (if S.pathlib then L.normPath s else s)) := by
      intro s; unfold PyRuntime.Spec.pathVal; split <;> rfl
    simp only [Agree, PyRuntime.Spec.ReadsTy, MeansTy, PyTy, pyLeaves, pyLeaf, pyOf_isStr, e]
    exact ⟨by rintro x ⟨s, hs, rfl, h⟩; exact ⟨_, ⟨s, hs, rfl, h⟩, _, rfl, rfl⟩,
      by rintro x ⟨s, hs, rfl, h⟩; exact ⟨_, ⟨s, hs, rfl, h⟩, _, rfl, rfl⟩⟩
  | date f | time f | datetime f =>
    intro d _
    simp only [Agree, PyRuntime.Spec.ReadsTy, MeansTy, PyTy, pyLeaves, pyLeaf, pyOf_isStr]
    exact ⟨by rintro x ⟨s, t, hs, ht, rfl⟩; exact ⟨_, ⟨s, t, hs, ht, rfl⟩, _, rfl, rfl⟩,
      by rintro x ⟨s, t, hs, ht, rfl⟩; exact ⟨_, ⟨s, t, hs, ht, rfl⟩, ⟨_, by rfl, rfl⟩⟩⟩
  | timeZone =>
    intro d _
    simp only [Agree, PyRuntime.Spec.ReadsTy, MeansTy, PyTy, pyLeaves, pyLeaf, pyOf_isStr]
    cases S.pytz with
    | false =>
      exact ⟨by rintro x ⟨s, hs, rfl⟩; exact ⟨_, ⟨s, hs, rfl⟩, s, rfl, rfl⟩,
        by rintro x ⟨s, hs, rfl⟩; exact ⟨_, ⟨s, hs, rfl⟩, s, rfl, rfl⟩⟩
    | true =>
      exact ⟨by rintro x ⟨s, hs, z, hz, rfl⟩; exact ⟨_, ⟨s, hs, z, hz, rfl⟩, z, rfl, rfl⟩,
        by rintro x ⟨s, hs, z, hz, rfl⟩; exact ⟨_, ⟨s, hs, z, hz, rfl⟩, z, rfl, rfl⟩⟩
  | duration =>
    intro d _
    simp only [Agree, PyRuntime.Spec.ReadsTy, MeansTy, PyTy, pyLeaves, pyLeaf, pyOf_isStr]
    exact ⟨by rintro x ⟨s, t, hs, ht, rfl⟩; exact ⟨_, ⟨s, t, hs, ht, rfl⟩, t, rfl, rfl⟩,
      by rintro x ⟨s, t, hs, ht, rfl⟩; exact ⟨_, ⟨s, t, hs, ht, rfl⟩, t, rfl, rfl⟩⟩
  | array t lo hi ih =>
    intro d hd
    simp only [Agree, PyRuntime.Spec.ReadsTy, MeansTy, PyTy, pyOf_isArr]
    refine ⟨?_, ?_⟩
    · rintro x ⟨_, xs, ⟨ds, rfl, rfl⟩, rfl, hs, hf⟩
      obtain ⟨as, hm, hp⟩ := (agree_list (pyOf o) ds fun d' h => ih d' (hd.item d' h)).1 _ hf
      exact ⟨_, ⟨ds, as, rfl, rfl, by simpa using hs, hm⟩, as, xs, rfl, rfl, hp⟩
    · rintro a ⟨ds, as, rfl, rfl, hs, hm⟩
      obtain ⟨xs, hf, hp⟩ := (agree_list (pyOf o) ds fun d' h => ih d' (hd.item d' h)).2 _ hm
      exact ⟨_, ⟨_, xs, ⟨ds, rfl, rfl⟩, rfl, by simpa using hs, hf⟩, as, xs, rfl, rfl, hp⟩
  | map t ih =>
    intro d hd
    simp only [Agree, PyRuntime.Spec.ReadsTy, MeansTy, PyTy, pyOf_isObj]
    have key : ∀ ds, d = .obj ds → Agree
        (Forall₂ fun kv (w : Str × PyRuntime.Val) => kv.1 = w.1 ∧ PyRuntime.Spec.ReadsTy true L S ids E t kv.2 w.2)
        (Forall₂ fun e (b : Str × AVal) => b.1 = e.1 ∧ MeansTy (pyLeaves L S) ids M t e.2 b.2)
        (Unordered fun b (y : Str × PyRuntime.Val) => y.1 = b.1 ∧ PyTy S P t b.2 y.2) (pyEntries o ds) ds := by
      rintro ds rfl
      refine agree_perm (fun kv => (kv.1, pyOf o kv.2)) (fun kv hkv => ?_) (pyEntries_perm o ds)
      have h := ih kv.2 (hd.value kv hkv)
      refine ⟨?_, ?_⟩
      · rintro ⟨k, x⟩ ⟨rfl, hr⟩
        obtain ⟨a, hm, hp⟩ := h.1 _ hr
        exact ⟨(kv.1, a), ⟨rfl, hm⟩, rfl, hp⟩
      · rintro ⟨k, a⟩ ⟨rfl, hm⟩
        obtain ⟨x, hr, hp⟩ := h.2 _ hm
        exact ⟨(kv.1, x), ⟨rfl, hr⟩, rfl, hp⟩
    refine ⟨?_, ?_⟩
    · rintro x ⟨_, _, xs, ⟨rfl, ds, rfl, rfl⟩, rfl, hf⟩
      obtain ⟨as, hm, hp⟩ := (key ds rfl).1 _ hf
      exact ⟨_, ⟨ds, as, rfl, rfl, hm⟩, as, _, xs, rfl, rfl, hp⟩
    · rintro a ⟨ds, as, rfl, rfl, hm⟩
      obtain ⟨xs, hf, hp⟩ := (key ds rfl).2 _ hm
      exact ⟨_, ⟨_, _, xs, ⟨rfl, ds, rfl, rfl⟩, rfl, hf⟩, as, _, xs, rfl, rfl, hp⟩
  | cls c =>
    intro d _
    simp only [Agree, PyRuntime.Spec.ReadsTy, MeansTy, PyTy, pyOf_isStr]
    exact ⟨by rintro x ⟨s, hs, rfl, h⟩; exact ⟨_, ⟨s, hs, rfl, h⟩, c, s, rfl, rfl⟩,
      by rintro x ⟨s, hs, rfl, h⟩; exact ⟨_, ⟨s, hs, rfl, h⟩, c, s, rfl, rfl⟩⟩
  | embed name => exact fun d hd => hE name d hd

/-- The fields of a composite -/
theorem py_props {R : Ty → PyRuntime.Json → PyRuntime.Val → Prop} {M : Ty → Doc → AVal → Prop}
    {P : Ty → AVal → PyRuntime.Val → Prop} (h : ∀ t d, d.Distinct → Agree (R t) (M t) (P t) (pyOf o d) d)
    {ds : List (Str × Doc)} (hd : (Doc.obj ds).Distinct) (ps : List Property) :
    (∀ xs, PyRuntime.Spec.ReadsProps R (pyEntries o ds) ps xs →
      ∃ as, MeansProps (pyLeaves L S) M ds ps as ∧ Forall₃ (PyField P) ps as xs) ∧
    ∀ as, MeansProps (pyLeaves L S) M ds ps as →
      ∃ xs, PyRuntime.Spec.ReadsProps R (pyEntries o ds) ps xs ∧ Forall₃ (PyField P) ps as xs := by
  refine agree_each ps fun p _ => ?_
  have hg : (pyLeaves L S).nullMissing = true := rfl
  simp only [PyRuntime.Spec.ReadsProperty, MeansProperty, PyField, hg, py_present]
  cases hl : given true ds p.json with
  | none =>
    simp only [Option.map_none]
    exact ⟨by rintro ⟨k, x⟩ ⟨rfl, ho, rfl⟩; exact ⟨(p.name, .none), ⟨rfl, ho, rfl⟩, rfl, rfl, .inl ⟨ho, rfl, rfl⟩⟩,
      by rintro ⟨k, x⟩ ⟨rfl, ho, rfl⟩; exact ⟨(_, .none), ⟨rfl, ho, rfl⟩, rfl, rfl, .inl ⟨ho, rfl, rfl⟩⟩⟩
  | some d =>
    simp only [Option.map_some]
    have ha := h p.ty d (hd.at (given_some hl))
    refine ⟨?_, ?_⟩
    · rintro ⟨k, x⟩ ⟨rfl, hr⟩
      obtain ⟨a, hm, hp⟩ := ha.1 _ hr
      exact ⟨(p.name, a), ⟨rfl, hm⟩, rfl, rfl, .inr hp⟩
    · rintro ⟨k, a⟩ ⟨rfl, hm⟩
      obtain ⟨x, hr, hp⟩ := ha.2 _ hm
      exact ⟨(_, x), ⟨rfl, hr⟩, rfl, rfl, .inr hp⟩

theorem py_embed : ∀ (n : Nat) (name : Str) (d : Doc), d.Distinct →
    Agree (PyRuntime.Spec.ReadsEmbed true L S g ids n name) (MeansEmbed (pyLeaves L S) g ids n name) (PyEmbed S g n name)
      (pyOf o d) d
  | 0, _, _, _ => ⟨fun _ h => h.elim, fun _ h => h.elim⟩
  | n + 1, name, d, hd => by
    simp only [Agree, PyRuntime.Spec.ReadsEmbed, MeansEmbed, PyEmbed, pyOf_isObj]
    refine ⟨?_, ?_⟩
    · rintro x ⟨e, _, _, fs, he, ⟨rfl, ds, rfl, rfl⟩, rfl, hr⟩
      obtain ⟨as, hm, hp⟩ := (py_props o L S (py_ty o L S ids (py_embed n)) hd e.properties).1 _ hr
      exact ⟨_, ⟨e, ds, as, he, rfl, rfl, hm⟩, e, as, fs, he, rfl, rfl, hp⟩
    · rintro a ⟨e, ds, as, he, rfl, rfl, hm⟩
      obtain ⟨fs, hr, hp⟩ := (py_props o L S (py_ty o L S ids (py_embed n)) hd e.properties).2 _ hm
      exact ⟨_, ⟨e, _, _, fs, he, ⟨rfl, ds, rfl, rfl⟩, rfl, hr⟩, e, as, fs, he, rfl, rfl, hp⟩

theorem py_described (ds : List (Str × Doc)) :
    PyRuntime.Spec.Described g (pyEntries o ds) = Described g ds := by
  funext c id
  simp only [PyRuntime.Spec.Described, Described, PyRuntime.Spec.registryOf, pyEntries_lookup, eq_iff_iff]
  refine exists_congr fun k => and_congr_right fun _ => and_congr_right fun _ => ⟨?_, ?_⟩
  · rintro ⟨_, entries, h1, h2⟩
    obtain ⟨d, h3, h4⟩ := Option.map_eq_some_iff.1 h1
    obtain ⟨rfl, es, rfl, rfl⟩ := pyOf_isObj.1 h4
    exact ⟨es, h3, (pyEntries_keys o _ _).1 h2⟩
  · rintro ⟨es, h3, h2⟩
    exact ⟨o, pyEntries o es, by rw [h3, Option.map_some, pyOf_obj], (pyEntries_keys o _ _).2 h2⟩

theorem py_registry {ds : List (Str × Doc)} (hd : (Doc.obj ds).Distinct) (n : Nat) (c : Class) :
    (∀ x, PyRuntime.Spec.ReadsRegistry true L S g n (pyEntries o ds) c x →
      ∃ r, MeansRegistry (pyLeaves L S) (Means (pyLeaves L S) g (Described g ds) n) ds c r ∧
        Unordered (PyInstance S g n c) r x.instances) ∧
    ∀ r, MeansRegistry (pyLeaves L S) (Means (pyLeaves L S) g (Described g ds) n) ds c r →
      ∃ x, PyRuntime.Spec.ReadsRegistry true L S g n (pyEntries o ds) c x ∧ Unordered (PyInstance S g n c) r x.instances := by
  have key : ∀ es, ds.lookup (lower c.plural) = some (.obj es) → Agree
      (Forall₂ fun (e : Str × PyRuntime.Json) (i : Str × PyRuntime.Instance) =>
        i.1 = e.1 ∧ i.2.id = e.1 ∧ PyRuntime.Spec.Matches L c.idPattern e.1 ∧
        ∃ o' kvs', e.2 = .obj o' kvs' ∧
          PyRuntime.Spec.ReadsProps (PyRuntime.Spec.Reads true L S g (Described g ds) n) kvs' c.properties i.2.attrs)
      (Forall₂ (MeansInstance (pyLeaves L S) (Means (pyLeaves L S) g (Described g ds) n) c))
      (Unordered (PyInstance S g n c)) (pyEntries o es) es := by
    intro es hes
    have hde := hd.at hes
    refine agree_perm (fun kv => (kv.1, pyOf o kv.2)) (fun kv hkv => ?_) (pyEntries_perm o es)
    have hdv := hde.value kv hkv
    refine ⟨?_, ?_⟩
    · rintro ⟨k, i⟩ ⟨rfl, hid, hmt, _, kvs', hk, hr⟩
      obtain ⟨rfl, ds', hk', rfl⟩ := pyOf_isObj.1 hk
      rw [hk'] at hdv
      obtain ⟨as, hm, hp⟩ := (py_props o L S (py_ty o L S _ (py_embed o L S g _ n)) hdv c.properties).1 _ hr
      exact ⟨(kv.1, as), ⟨rfl, hmt, ds', hk', hm⟩, rfl, hid, hp⟩
    · rintro ⟨k, as⟩ ⟨rfl, hmt, ds', hk', hm⟩
      rw [hk'] at hdv
      obtain ⟨fs, hr, hp⟩ := (py_props o L S (py_ty o L S _ (py_embed o L S g _ n)) hdv c.properties).2 _ hm
      exact ⟨(kv.1, ⟨kv.1, fs⟩), ⟨rfl, rfl, hmt, _, _, by rw [hk', pyOf_obj], hr⟩, rfl, rfl, hp⟩
  simp only [PyRuntime.Spec.ReadsRegistry, MeansRegistry, PyRuntime.Spec.registryOf, pyEntries_lookup,
    py_described o g ds]
  refine ⟨?_, ?_⟩
  · rintro x (⟨h1, rfl⟩ | ⟨_, entries, h1, _, h2⟩)
    · exact ⟨[], .inl ⟨by simpa using h1, rfl⟩, [], .refl _, .nil⟩
    · obtain ⟨d, h3, h4⟩ := Option.map_eq_some_iff.1 h1
      obtain ⟨rfl, es, rfl, rfl⟩ := pyOf_isObj.1 h4
      obtain ⟨r, hm, hp⟩ := (key es h3).1 _ h2
      exact ⟨r, .inr ⟨es, h3, hm⟩, hp⟩
  · rintro r (⟨h1, rfl⟩ | ⟨es, h3, h2⟩)
    · exact ⟨⟨true, []⟩, .inl ⟨by simpa using h1, rfl⟩, [], .refl _, .nil⟩
    · obtain ⟨x, hm, hp⟩ := (key es h3).2 _ h2
      exact ⟨⟨o, x⟩, .inr ⟨o, _, by rw [h3, Option.map_some, pyOf_obj], rfl, hm⟩, hp⟩

/-- The Python parser reads what the document means. -/
theorem py_graph (n : Nat) {d : Doc} (hd : d.Distinct) :
    Agree (PyRuntime.Spec.ReadsGraph true L S g n) (MeansGraph (pyLeaves L S) g n) (PyGraph S g n) (pyOf o d) d := by
  have key : ∀ ds, d = .obj ds →
      ((∀ xs, Forall₂ (fun (c : Class) (r : Str × PyRuntime.Registry) =>
        r.1 = c.name ∧ PyRuntime.Spec.ReadsRegistry true L S g n (pyEntries o ds) c r.2) g.classes xs → ∃ as, Forall₂
        (fun (c : Class) (r : Str × List (Str × AFields)) => r.1 = c.name ∧
          MeansRegistry (pyLeaves L S) (Means (pyLeaves L S) g (Described g ds) n) ds c r.2) g.classes as ∧
        Forall₃ (fun (c : Class) r r' => r.1 = c.name ∧ r'.1 = c.name ∧ 
          Unordered (PyInstance S g n c) r.2 r'.2.instances)
          g.classes as xs) ∧
      ∀ as, Forall₂ (fun (c : Class) (r : Str × List (Str × AFields)) => r.1 = c.name ∧
          MeansRegistry (pyLeaves L S) (Means (pyLeaves L S) g (Described g ds) n) ds c r.2) g.classes as → ∃ xs, Forall₂
        (fun (c : Class) (r : Str × PyRuntime.Registry) =>
          r.1 = c.name ∧ PyRuntime.Spec.ReadsRegistry true L S g n (pyEntries o ds) c r.2) g.classes xs ∧
        Forall₃ (fun (c : Class) r r' => r.1 = c.name ∧ r'.1 = c.name ∧ 
          Unordered (PyInstance S g n c) r.2 r'.2.instances)
          g.classes as xs) := by
    rintro ds rfl
    refine agree_each g.classes fun c _ => ⟨?_, ?_⟩
    · rintro ⟨k, x⟩ ⟨rfl, hr⟩
      obtain ⟨r, hm, hp⟩ := (py_registry o L S g hd n c).1 _ hr
      exact ⟨(c.name, r), ⟨rfl, hm⟩, rfl, rfl, hp⟩
    · rintro ⟨k, r⟩ ⟨rfl, hm⟩
      obtain ⟨x, hr, hp⟩ := (py_registry o L S g hd n c).2 _ hm
      exact ⟨(c.name, x), ⟨rfl, hr⟩, rfl, rfl, hp⟩
  simp only [Agree, PyRuntime.Spec.ReadsGraph, MeansGraph, PyGraph, pyOf_isObj]
  refine ⟨?_, ?_⟩
  · rintro gv ⟨_, _, ⟨rfl, ds, rfl, rfl⟩, h1, h2⟩
    rw [py_described o g ds] at h2
    obtain ⟨rs, m1, p1⟩ := (key ds rfl).1 _ h1
    obtain ⟨fs, m2, p2⟩ := (py_props o L S (py_ty o L S _ (py_embed o L S g _ n)) hd g.properties).1 _ h2
    exact ⟨⟨fs, rs⟩, ⟨ds, rfl, m1, m2⟩, p1, p2⟩
  · rintro a ⟨ds, rfl, m1, m2⟩
    obtain ⟨rs, h1, p1⟩ := (key ds rfl).2 _ m1
    obtain ⟨fs, h2, p2⟩ := (py_props o L S (py_ty o L S _ (py_embed o L S g _ n)) hd g.properties).2 _ m2
    exact ⟨⟨fs, rs⟩, ⟨_, _, ⟨rfl, ds, rfl, rfl⟩, h1, by rw [py_described o g ds]; exact h2⟩, p1, p2⟩

end

end Mapry.Interop
