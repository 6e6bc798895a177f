import Verif.GoFuncs

/-!
# The names in the functions of the generated Go serializer
-/

namespace Mapry.GoCode

open Mapry.TypeGraph Mapry.Naming

/-- The code which writes a value of the type mentions the value: the format of a date, a time or a date time is not
empty. -/
def Visible : Ty → Prop
  | .date f => Strftime.convert f ≠ .ok []
  | .time f => Strftime.convert f ≠ .ok []
  | .datetime f => Strftime.convert f ≠ .ok []
  | _ => True

/-- The items of all the arrays and maps in a type are visible. -/
def ItemsVisible (t : Ty) : Prop :=
  (∀ u lo hi, Ty.array u lo hi ∈ parts t → Visible u) ∧ ∀ u, Ty.map u ∈ parts t → Visible u

/-- The names which the code of a type needs from outside. -/
def Serves (B : Name → Prop) : Ty → Prop
  | .duration => B (.glob c!"durationToString")
  | .embed e => ∀ f, ucamelCase e = .ok f → B (.glob (f ++ c!"ToJSONable"))
  | _ => True

/-- The name does not clash with the variables numbered from `n`. -/
def Old (n : Nat) (x : Name) : Prop := ∀ b k, x = vi b k → k < n

theorem Old.mono {n m : Nat} {x : Name} (h : Old n x) (hm : n ≤ m) : Old m x :=
  fun b k e => Nat.lt_of_lt_of_le (h b k e) hm

theorem old_vi (b : Str) (n : Nat) : Old (n + 1) (vi b n) := by
  intro b' k h
  simp only [vi, Name.var.injEq, Option.some.injEq] at h
  omega

theorem old_v (b : Str) (n : Nat) : Old n (v b) := by
  intro b' k h
  simp [v, vi] at h

theorem Old.ne {n : Nat} {x : Name} (h : Old n x) (b : Str) : x ≠ vi b n := fun e => Nat.lt_irrefl _ (h b n e)

theorem clean_append_iff {c d : Code} (h : ∀ x ∈ d.used, x ∉ c.decls) : (c ++ d).Clean ↔ c.Clean ∧ d.Clean := by
  induction c with
  | done => simp [Code.Clean]
  | use xs c ih => exact ih h
  | assign xs c ih => exact ih h
  | decl xs c ih =>
    have ih := ih fun x hx hm => h x hx (List.mem_append.2 (.inr hm))
    simp only [append_decl, Code.Clean, ih, and_assoc]
    refine and_congr_left fun _ => ⟨fun hu x hx => ?_, fun hu x hx => used_append.2 (.inl (hu x hx))⟩
    rcases used_append.1 (hu x hx) with hu | ⟨hu, _⟩
    · exact hu
    · exact absurd (List.mem_append.2 (.inl hx)) (h x hu)
  | block b c _ ih =>
    simp only [append_block, Code.Clean, ih h, and_assoc]

structure Writes (B : Name → Prop) (target value : List Name) (n : Nat) (c : Code) (m : Nat) : Prop where
  le : n ≤ m
  fresh : ∀ x ∈ c.decls, ∃ b k, x = vi b k ∧ n ≤ k ∧ k < m
  nodup : c.decls.Nodup
  writes : ∀ x ∈ target, x ∈ c.used
  free : ∀ x ∈ c.free, x ∈ target ∨ x ∈ value ∨ B x

theorem writes_plain {B : Name → Prop} {target value extra : List Name} {n : Nat} (h : ∀ x ∈ extra, B x) :
    Writes B target value n (.use (target ++ extra ++ value) .done) n where
  le := Nat.le_refl _
  fresh := by simp [Code.decls]
  nodup := by simp [Code.decls]
  writes := by intro x hx; simp [Code.used, hx]
  free := by
    intro x hx
    simp only [Code.free, List.append_nil, List.mem_append] at hx
    rcases hx with (hx | hx) | hx
    · exact .inl hx
    · exact .inr (.inr (h x hx))
    · exact .inr (.inl hx)

theorem serialize_dateTime {B : Name → Prop} {target value : List Name} {f : Str} {n m : Nat} {c : Code}
    (h : serializeDateTime f target value n = .ok (c, m)) :
    Writes B target value n c m ∧ c.Clean ∧ (Strftime.convert f ≠ .ok [] → ∀ x ∈ value, x ∈ c.used) ∧
    ∀ x ∈ c.used, x ∉ target → Strftime.convert f ≠ .ok [] := by
  obtain ⟨s, hs, h⟩ := ok_bind h
  cases h
  cases s with
  | nil =>
    refine ⟨?_, trivial, fun h => absurd hs h, fun x hx hn => absurd (by simpa [Code.used] using hx) hn⟩
    constructor
    · exact Nat.le_refl _
    · simp [Code.decls]
    · simp [Code.decls]
    · intro x hx; simp [Code.used, hx]
    · intro x hx
      simp only [List.isEmpty_nil, if_true, Code.free, List.append_nil] at hx
      exact .inl hx
  | cons a s =>
    refine ⟨(by simpa using writes_plain (B := B) (target := target) (value := value) (extra := []) (n := n) (by simp)),
      trivial, fun _ x hx => ?_, fun _ _ _ => by rw [hs]; simp⟩
    simp [Code.used, hx]

theorem itemsVisible_plain {t : Ty} (h : parts t = [t]) (h1 : ∀ u lo hi, t ≠ .array u lo hi) (h2 : ∀ u, t ≠ .map u) :
    ItemsVisible t := by
  constructor
  · intro u lo hi hu
    rw [h, List.mem_singleton] at hu
    exact absurd hu.symm (h1 u lo hi)
  · intro u hu
    rw [h, List.mem_singleton] at hu
    exact absurd hu.symm (h2 u)

theorem itemsVisible_array {t : Ty} {lo hi : Option Int} :
    ItemsVisible (.array t lo hi) ↔ Visible t ∧ ItemsVisible t := by
  constructor
  · intro h
    exact ⟨h.1 t lo hi (self_mem_parts _), fun u lo hi hu => h.1 u lo hi (by simp [parts, hu]),
      fun u hu => h.2 u (by simp [parts, hu])⟩
  · rintro ⟨h1, h2, h3⟩
    constructor
    · intro u lo' hi' hu
      simp only [parts, List.mem_cons, Ty.array.injEq] at hu
      rcases hu with ⟨rfl, _⟩ | hu
      · exact h1
      · exact h2 u lo' hi' hu
    · intro u hu
      simp only [parts, List.mem_cons, reduceCtorEq, false_or] at hu
      exact h3 u hu

theorem itemsVisible_map {t : Ty} : ItemsVisible (.map t) ↔ Visible t ∧ ItemsVisible t := by
  constructor
  · intro h
    exact ⟨h.2 t (self_mem_parts _), fun u lo hi hu => h.1 u lo hi (by simp [parts, hu]),
      fun u hu => h.2 u (by simp [parts, hu])⟩
  · rintro ⟨h1, h2, h3⟩
    constructor
    · intro u lo' hi' hu
      simp only [parts, List.mem_cons, reduceCtorEq, false_or] at hu
      exact h2 u lo' hi' hu
    · intro u hu
      simp only [parts, List.mem_cons, Ty.map.injEq] at hu
      rcases hu with rfl | hu
      · exact h1
      · exact h3 u hu

theorem serialize_fine {B : Name → Prop} {t : Ty} (hB : ∀ u ∈ parts t, Serves B u)
    {target value : List Name} {n m : Nat} {c : Code} (ht : ∀ x ∈ target, Old n x) (ho : ∀ x ∈ value, Old n x)
    (h : serializeValue t target value n = .ok (c, m)) :
    Writes B target value n c m ∧ (c.Clean ↔ ItemsVisible t) ∧ (Visible t → ∀ x ∈ value, x ∈ c.used) ∧
    ∀ x ∈ c.used, x ∉ target → Visible t := by
  have plain : ∀ {target value : List Name} {n : Nat} {t : Ty}, parts t = [t] → (∀ u lo hi, t ≠ .array u lo hi) →
      (∀ u, t ≠ .map u) → Visible t → (Writes B target value n (.use (target ++ value) .done) n ∧
      ((Code.use (target ++ value) .done).Clean ↔ ItemsVisible t) ∧
      (Visible t → ∀ x ∈ value, x ∈ (Code.use (target ++ value) .done).used) ∧
      ∀ x ∈ (Code.use (target ++ value) .done).used, x ∉ target → Visible t) := by
    intro target value n t h1 h2 h3 h4
    refine ⟨(by simpa using writes_plain (B := B) (target := target) (value := value) (extra := []) (n := n) (by simp)),
      iff_of_true trivial (itemsVisible_plain h1 h2 h3), fun _ x hx => ?_, fun _ _ _ => h4⟩
    simp [Code.used, hx]
  have extra : ∀ {target value : List Name} {n : Nat} {y : Name} {t : Ty}, parts t = [t] →
      (∀ u lo hi, t ≠ .array u lo hi) → (∀ u, t ≠ .map u) → Visible t → B y →
      (Writes B target value n (.use (target ++ y :: value) .done) n ∧
      ((Code.use (target ++ y :: value) .done).Clean ↔ ItemsVisible t) ∧
      (Visible t → ∀ x ∈ value, x ∈ (Code.use (target ++ y :: value) .done).used) ∧
      ∀ x ∈ (Code.use (target ++ y :: value) .done).used, x ∉ target → Visible t) := by
    intro target value n y t h1 h2 h3 h4 hy
    have := writes_plain (B := B) (target := target) (value := value) (extra := [y]) (n := n) (by simpa using hy)
    rw [List.append_assoc] at this
    exact ⟨this, iff_of_true trivial (itemsVisible_plain h1 h2 h3), fun _ x hx => by simp [Code.used, hx],
      fun _ _ _ => h4⟩
  induction t generalizing target value n m c with
  | date f =>
    obtain ⟨w, hc, h1, h2⟩ := serialize_dateTime (B := B) h
    exact ⟨w, iff_of_true hc (itemsVisible_plain rfl (by simp) (by simp)), h1, h2⟩
  | time f =>
    obtain ⟨w, hc, h1, h2⟩ := serialize_dateTime (B := B) h
    exact ⟨w, iff_of_true hc (itemsVisible_plain rfl (by simp) (by simp)), h1, h2⟩
  | datetime f =>
    obtain ⟨w, hc, h1, h2⟩ := serialize_dateTime (B := B) h
    exact ⟨w, iff_of_true hc (itemsVisible_plain rfl (by simp) (by simp)), h1, h2⟩
  | duration =>
    cases h
    exact extra rfl (by simp) (by simp) trivial (hB _ (self_mem_parts _))
  | embed e =>
    obtain ⟨f, hf, h⟩ := ok_bind h
    cases h
    exact extra rfl (by simp) (by simp) trivial (hB _ (self_mem_parts _) f hf)
  | array t lo hi ih =>
    obtain ⟨⟨item, k⟩, hi', h⟩ := ok_bind h
    cases h
    obtain ⟨w, wc, wv, wu⟩ := ih (fun u hu => hB u (by simp [parts, hu]))
      (by simpa using ⟨old_vi _ _, old_vi _ _⟩) (by simpa using ⟨old_vi _ _, old_vi _ _⟩) hi'
    have hslice : vi c!"slice" n ∈ item.used ↔ Visible t :=
      ⟨fun h => wu _ h (by simp [vi]), fun h => wv h _ (by simp)⟩
    have e1 : vi c!"slice" n ≠ vi c!"i" n := by simp [vi]
    have e2 : vi c!"slice" n ≠ vi c!"target" n := by simp [vi]
    have e3 : vi c!"slice" n ≠ vi c!"count" n := by simp [vi]
    have e4 : vi c!"count" n ≠ vi c!"target" n := by simp [vi]
    have e5 : vi c!"count" n ≠ vi c!"i" n := by simp [vi]
    refine ⟨⟨?_, ?_, ?_, ?_, ?_⟩, ?_, ?_, fun _ _ _ => trivial⟩
    · have := w.le
      omega
    · intro x hx
      have := w.le
      simp only [Code.decls, List.append_nil, List.mem_append, List.mem_singleton] at hx
      rcases hx with rfl | rfl | rfl <;> exact ⟨_, n, rfl, Nat.le_refl _, by omega⟩
    · simp [Code.decls, e2, e3.symm, e4]
    · intro x hx
      have h1 := (ht x hx).ne c!"count"
      have h2 := (ht x hx).ne c!"slice"
      have h3 := (ht x hx).ne c!"target"
      simp [Code.used, hx, h1, h2, h3]
    · intro x hx
      simp only [Code.free, List.mem_append, List.mem_filter, List.mem_cons, List.not_mem_nil, or_false,
        decide_eq_true_eq, List.append_nil] at hx
      have hw := w.free x
      simp only [List.mem_cons, List.not_mem_nil, or_false] at hw
      grind
    · have hst : vi c!"slice" n ∉ target := fun h => (ht _ h).ne _ rfl
      rw [itemsVisible_array, ← wc]
      simp only [Code.Clean, List.mem_singleton, forall_eq, Code.used, Code.decls, w.nodup]
      simp [hslice, hst, e1, e2, e3, e3.symm, e4, e5]
    · intro _ x hx
      simp [Code.used, hx]
  | map t ih =>
    obtain ⟨⟨item, k⟩, hi', h⟩ := ok_bind h
    cases h
    obtain ⟨w, wc, wv, wu⟩ := ih (fun u hu => hB u (by simp [parts, hu]))
      (by simpa using ⟨old_vi _ _, old_vi _ _⟩) (by simpa using old_vi _ _) hi'
    have hval : vi c!"v" n ∈ item.used ↔ Visible t :=
      ⟨fun h => wu _ h (by simp [vi]), fun h => wv h _ (by simp)⟩
    have hk := w.writes (vi c!"k" n) (by simp)
    have e1 : vi c!"target" n ≠ vi c!"map" n := by simp [vi]
    have e2 : vi c!"k" n ≠ vi c!"v" n := by simp [vi]
    refine ⟨⟨?_, ?_, ?_, ?_, ?_⟩, ?_, ?_, fun _ _ _ => trivial⟩
    · have := w.le
      omega
    · intro x hx
      have := w.le
      simp only [Code.decls, List.append_nil, List.mem_append, List.mem_singleton] at hx
      rcases hx with rfl | rfl <;> exact ⟨_, n, rfl, Nat.le_refl _, by omega⟩
    · simp [Code.decls, e1]
    · intro x hx
      have h2 := (ht x hx).ne c!"map"
      have h3 := (ht x hx).ne c!"target"
      simp [Code.used, hx, h2, h3]
    · intro x hx
      simp only [Code.free, List.mem_append, List.mem_filter, List.mem_cons, List.not_mem_nil, or_false,
        decide_eq_true_eq, List.append_nil] at hx
      have hw := w.free x
      simp only [List.mem_cons, List.not_mem_nil, or_false] at hw
      grind
    · rw [itemsVisible_map, ← wc]
      simp only [Code.Clean, List.mem_cons, List.not_mem_nil, or_false, Code.used, Code.decls, w.nodup]
      simp [hval, hk, e1, e2]
    · intro _ x hx
      have h3 := (ho x hx).ne c!"target"
      simp [Code.used, hx, h3]
  | boolean => cases h; exact plain rfl (by simp) (by simp) trivial
  | integer => cases h; exact plain rfl (by simp) (by simp) trivial
  | float => cases h; exact plain rfl (by simp) (by simp) trivial
  | string => cases h; exact plain rfl (by simp) (by simp) trivial
  | path => cases h; exact plain rfl (by simp) (by simp) trivial
  | timeZone => cases h; exact plain rfl (by simp) (by simp) trivial
  | cls => cases h; exact plain rfl (by simp) (by simp) trivial

theorem serializeProperty_fine {B : Name → Prop} {p : Property} (hB : ∀ u ∈ parts p.ty, Serves B u)
    {n m : Nat} {c : Code} (h : serializeProperty p n = .ok (c, m)) :
    n ≤ m ∧ (∀ x ∈ c.decls, ∃ b k, x = vi b k ∧ n ≤ k ∧ k < m) ∧ c.decls.Nodup ∧
    (c.Clean ↔ ItemsVisible p.ty) ∧ v c!"target" ∈ c.used ∧ ∀ x ∈ c.free, x = v c!"target" ∨ x = v c!"instance" ∨ B x := by
  obtain ⟨_, _, h⟩ := ok_bind h
  obtain ⟨⟨d, k⟩, hd, h⟩ := ok_bind h
  cases h
  obtain ⟨w, wc, _⟩ := serialize_fine hB (by simpa using old_v _ _) (by simpa using old_v _ _) hd
  have wt := w.writes (v c!"target") (by simp)
  have wf := w.free
  simp only [List.mem_singleton] at wf
  refine ⟨w.le, ?_⟩
  cases p.optional with
  | false => exact ⟨w.fresh, w.nodup, wc, wt, wf⟩
  | true =>
    refine ⟨by simp [Code.decls], by simp [Code.decls], ?_, by simp [Code.used, wt], ?_⟩
    · simp [Code.Clean, w.nodup, wc]
    intro x hx
    simp only [if_true, Code.free, List.append_nil, List.mem_append, List.mem_singleton] at hx
    rcases hx with hx | hx
    · exact .inr (.inl hx)
    · exact wf x hx

theorem serializeProps_fine {B : Name → Prop} {ps : List Property} (hB : ∀ p ∈ ps, ∀ u ∈ parts p.ty, Serves B u)
    (hvi : ∀ b k, ¬ B (vi b k)) {n : Nat} {c : Code} (h : serializeProps ps n = .ok c) :
    (∀ x ∈ c.decls, ∃ b k, x = vi b k ∧ n ≤ k) ∧ c.decls.Nodup ∧ (c.Clean ↔ ∀ p ∈ ps, ItemsVisible p.ty) ∧
    ∀ x ∈ c.free, x = v c!"target" ∨ x = v c!"instance" ∨ B x := by
  induction ps generalizing n c with
  | nil => cases h; simp [Code.decls, Code.Clean, Code.free]
  | cons p ps ih =>
    obtain ⟨⟨d, m⟩, hd, h⟩ := ok_bind h
    obtain ⟨rest, hr, h⟩ := ok_bind h
    cases h
    obtain ⟨h0, h1, h2, h3, _, h5⟩ := serializeProperty_fine (hB p (by simp)) hd
    obtain ⟨i1, i2, i3, i5⟩ := ih (fun q hq => hB q (by simp [hq])) hr
    refine ⟨?_, ?_, ?_, ?_⟩
    · intro x hx
      rw [decls_append, List.mem_append] at hx
      rcases hx with hx | hx
      · obtain ⟨b, k, e, hk, _⟩ := h1 x hx
        exact ⟨b, k, e, hk⟩
      · obtain ⟨b, k, e, hk⟩ := i1 x hx
        exact ⟨b, k, e, by omega⟩
    · rw [decls_append, List.nodup_append]
      refine ⟨h2, i2, ?_⟩
      rintro x hx y hy rfl
      obtain ⟨b, k, rfl, _, hk⟩ := h1 x hx
      obtain ⟨b', k', e, hk'⟩ := i1 _ hy
      simp only [vi, Name.var.injEq, Option.some.injEq] at e
      omega
    · rw [clean_append_iff, h3, i3]
      · simp
      · intro x hx hm
        obtain ⟨b, k, rfl, _⟩ := h1 x hm
        rcases i5 _ (used_sub_free hx) with e | e | e
        · simp [v, vi] at e
        · simp [v, vi] at e
        · exact hvi b k e
    · intro x hx
      rcases free_append.1 hx with hx | ⟨hx, _⟩
      · exact h5 x hx
      · exact i5 x hx

theorem serializeComposite_fine {name : Str} {ps : List Property} {O : List Name} {f : Func}
    (hB : ∀ p ∈ ps, ∀ u ∈ parts p.ty, Serves (· ∈ O) u) (hvi : ∀ b k, vi b k ∉ O)
    (hn : ∀ n, ucamelCase name = .ok n → .glob n ∈ O) (h : serializeComposite name ps = .ok f) :
    (f.Scoped O ↔ ∀ p ∈ ps, ItemsVisible p.ty) ∧ f.Needs O := by
  obtain ⟨props, hprops, h⟩ := ok_bind h
  obtain ⟨n, hname, h⟩ := ok_bind h
  cases h
  obtain ⟨h1, h2, h3, h4⟩ := serializeProps_fine hB hvi hprops
  refine Func.needs_iff ⟨?_, ?_, ?_⟩ ?_ ⟨fun h => h3.1 h.2.2, fun h3' => ⟨List.nodup_nil, trivial, h3.2 h3'⟩⟩
  rotate_left 3
  · show ([v c!"instance", v c!"target"] ++ props.decls).Nodup
    rw [List.nodup_append]
    refine ⟨by decide, h2, ?_⟩
    rintro x hx y hy rfl
    obtain ⟨b, k, rfl, _⟩ := h1 x hy
    simp [v, vi] at hx
  · intro x hx
    simp only [List.mem_cons, List.not_mem_nil, or_false] at hx
    rcases hx with hx | hx <;> cases hx
  · intro x hx
    simp only [Code.free, List.nil_append, List.mem_append, List.mem_singleton] at hx
    rcases hx with hx | hx | hx
    · exact .inl (by simp [hx])
    · exact .inl (by simp [hx])
    · rcases h4 x hx with hx | hx | hx
      · exact .inl (by simp [hx])
      · exact .inl (by simp [hx])
      · exact .inr hx
  · intro x hx
    rw [List.mem_singleton] at hx
    exact hx ▸ hn n hname

theorem serializeRegistry_fine {c : Class} {code : Code} (h : serializeRegistry c = .ok code) :
    ∃ name, ucamelCase c.name = .ok name ∧ code.decls = [] ∧ code.Clean ∧
      ∀ x ∈ code.free, x ∈ [v c!"instance", v c!"target", fmt, v c!"err", .glob (name ++ c!"ToJSONable")] := by
  unfold serializeRegistry at h
  obtain ⟨p, hp, h⟩ := ok_bind h
  obtain ⟨i, hi, h⟩ := ok_bind h
  obtain ⟨name, hname, h⟩ := ok_bind h
  obtain ⟨_, _, h⟩ := ok_bind h
  cases h
  refine ⟨name, hname, rfl, ?_, ?_⟩
  · simp [Code.Clean, Code.decls, Code.used]
  · intro x hx
    simp only [Code.free, List.mem_append, List.mem_filter, List.mem_cons, List.not_mem_nil, or_false,
      decide_eq_true_eq, List.append_nil] at hx ⊢
    grind

theorem registries_fine {cs : List Class} {l : List Code} (h : cs.mapM serializeRegistry = .ok l) :
    (concat l).decls = [] ∧ (concat l).Clean ∧
    ∀ x ∈ (concat l).free, (x ∈ [v c!"instance", v c!"target", v c!"err"]) ∨ (x = fmt ∧ cs ≠ []) ∨
      ∃ c ∈ cs, ∃ name, ucamelCase c.name = .ok name ∧ x = .glob (name ++ c!"ToJSONable") := by
  induction cs generalizing l with
  | nil => cases h; simp [concat, Code.decls, Code.Clean, Code.free]
  | cons c cs ih =>
    obtain ⟨code, rest, hc, hr, rfl⟩ := mapM_cons h
    obtain ⟨name, hname, h1, h2, h4⟩ := serializeRegistry_fine hc
    obtain ⟨i1, i2, i4⟩ := ih hr
    refine ⟨?_, clean_append h2 i2, ?_⟩
    · show (code ++ concat rest).decls = _
      rw [decls_append, h1, i1]
      rfl
    · intro x hx
      rcases (free_append (c := code) (d := concat rest)).1 hx with hx | ⟨hx, _⟩
      · have := h4 x hx
        simp only [List.mem_cons, List.not_mem_nil, or_false] at this ⊢
        rcases this with h | h | h | h | h
        · exact .inl (.inl h)
        · exact .inl (.inr (.inl h))
        · exact .inr (.inl ⟨h, by simp⟩)
        · exact .inl (.inr (.inr h))
        · exact .inr (.inr ⟨c, .inl rfl, name, hname, h⟩)
      · rcases i4 x hx with hx | ⟨hx, _⟩ | ⟨d, hd', hx⟩
        · exact .inl hx
        · exact .inr (.inl ⟨hx, by simp⟩)
        · exact .inr (.inr ⟨d, by simp [hd'], hx⟩)

theorem serializeGraph_fine {g : Graph} {O : List Name} {f : Func}
    (hB : ∀ p ∈ g.properties, ∀ u ∈ parts p.ty, Serves (· ∈ O) u) (hvi : ∀ b k, vi b k ∉ O)
    (hn : ∀ n, ucamelCase g.name = .ok n → .glob n ∈ O) (hfmt : g.classes ≠ [] → fmt ∈ O)
    (hc : ∀ c ∈ g.classes, ∀ n, ucamelCase c.name = .ok n → .glob (n ++ c!"ToJSONable") ∈ O)
    (h : serializeGraph g = .ok f) : (f.Scoped O ↔ ∀ p ∈ g.properties, ItemsVisible p.ty) ∧ f.Needs O := by
  obtain ⟨props, hprops, h⟩ := ok_bind h
  obtain ⟨regs, hregs, h⟩ := ok_bind h
  obtain ⟨n, hname, h⟩ := ok_bind h
  cases h
  obtain ⟨h1, h2, h3, h4⟩ := serializeProps_fine hB hvi hprops
  obtain ⟨r1, r2, r3⟩ := registries_fine hregs
  have hdis : ∀ x ∈ (concat regs).used, x ∉ props.decls := by
    intro x hx hm
    obtain ⟨b, k, rfl, _⟩ := h1 x hm
    rcases r3 _ (used_sub_free hx) with hx | ⟨hx, _⟩ | ⟨_, _, _, _, hx⟩
    · simp [v, vi] at hx
    · simp [vi, fmt] at hx
    · simp [vi] at hx
  refine Func.needs_iff ⟨?_, ?_, ?_⟩ ?_ ⟨fun h => h3.1 ((clean_append_iff hdis).1 h.2.2.2.2).1, fun h3' =>
    ⟨List.nodup_nil, trivial, List.nodup_nil, ⟨List.nodup_nil, trivial, trivial⟩, clean_append (h3.2 h3') r2⟩⟩
  rotate_left 3
  · show ([v c!"instance", v c!"target", v c!"err"] ++ (props ++ concat regs).decls).Nodup
    rw [decls_append, r1, List.append_nil, List.nodup_append]
    refine ⟨by decide, h2, ?_⟩
    rintro x hx y hy rfl
    obtain ⟨b, k, rfl, _⟩ := h1 x hy
    simp [v, vi] at hx
  · intro x hx
    simp only [List.mem_cons, List.not_mem_nil, or_false] at hx
    rcases hx with hx | hx | hx <;> cases hx
  · intro x hx
    have hx' : x = v c!"instance" ∨ x = v c!"target" ∨ (x = v c!"err" ∨ x = v c!"target") ∨
        x ∈ (props ++ concat regs).free := by
      simpa only [Code.free, List.nil_append, List.append_nil, List.mem_append, List.mem_singleton] using hx
    rcases hx' with hx | hx | (hx | hx) | hx
    · exact .inl (by simp [hx])
    · exact .inl (by simp [hx])
    · exact .inl (by simp [hx])
    · exact .inl (by simp [hx])
    · rcases free_append.1 hx with hx | ⟨hx, _⟩
      · rcases h4 x hx with hx | hx | hx
        · exact .inl (by simp [hx])
        · exact .inl (by simp [hx])
        · exact .inr hx
      · rcases r3 x hx with hx | ⟨rfl, hne⟩ | ⟨c, hc', name, hname, rfl⟩
        · exact .inl hx
        · exact .inr (hfmt hne)
        · exact .inr (hc c hc' name hname)
  · intro x hx
    rw [List.mem_singleton] at hx
    exact hx ▸ hn n hname

end Mapry.GoCode
