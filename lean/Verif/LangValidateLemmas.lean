import Verif.LangValidate

/-! Specifications and helper lemmas about the language validations. -/

namespace Mapry.LangValidate

/-! ## The first element with a key -/

/-- `x` is the first element of the list with the key `k`. -/
def FirstWith {α : Type} (key : α → Str → Prop) (l : List α) (k : Str) (x : α) : Prop :=
  ∃ l₁ l₂, l = l₁ ++ x :: l₂ ∧ key x k ∧ ∀ y ∈ l₁, ¬ key y k

theorem FirstWith.mem {α : Type} {key : α → Str → Prop} {l : List α} {k : Str} {x : α}
    (h : FirstWith key l k x) : x ∈ l ∧ key x k := by
  obtain ⟨l₁, l₂, rfl, hk, _⟩ := h
  exact ⟨by simp, hk⟩

theorem exists_firstWith {α : Type} (key : α → Str → Prop) (l : List α) (k : Str)
    (h : ∃ x ∈ l, key x k) : ∃ x, FirstWith key l k x := by
  induction l with
  | nil => simp at h
  | cons a as ih =>
    by_cases ha : key a k
    · exact ⟨a, [], as, rfl, ha, by simp⟩
    · obtain ⟨x, hx, hk⟩ := h
      rcases List.mem_cons.1 hx with rfl | hx
      · exact absurd hk ha
      · obtain ⟨y, l₁, l₂, rfl, hy, hn⟩ := ih ⟨x, hx, hk⟩
        refine ⟨y, a :: l₁, l₂, rfl, hy, ?_⟩
        intro z hz
        rcases List.mem_cons.1 hz with rfl | hz
        · exact ha
        · exact hn z hz

theorem firstWith_cons {α : Type} (key : α → Str → Prop) (a : α) (l : List α) (k : Str) (x : α) :
    FirstWith key (a :: l) k x ↔ (key a k ∧ x = a) ∨ (¬ key a k ∧ FirstWith key l k x) := by
  constructor
  · rintro ⟨l₁, l₂, h, hk, hn⟩
    cases l₁ with
    | nil => simp at h; obtain ⟨rfl, rfl⟩ := h; exact Or.inl ⟨hk, rfl⟩
    | cons b l₁ =>
      simp at h
      obtain ⟨rfl, rfl⟩ := h
      exact Or.inr ⟨hn _ (by simp), l₁, l₂, rfl, hk, fun y hy => hn y (by simp [hy])⟩
  · rintro (⟨hk, rfl⟩ | ⟨hn, l₁, l₂, rfl, hk, hn'⟩)
    · exact ⟨[], l, rfl, hk, by simp⟩
    · refine ⟨a :: l₁, l₂, rfl, hk, ?_⟩
      intro y hy
      rcases List.mem_cons.1 hy with rfl | hy
      · exact hn
      · exact hn' y hy

theorem firstWith_append_singleton {α : Type} (key : α → Str → Prop) (l : List α) (a : α) (k : Str)
    (x : α) : FirstWith key (l ++ [a]) k x ↔
      FirstWith key l k x ∨ ((∀ y ∈ l, ¬ key y k) ∧ key a k ∧ x = a) := by
  induction l with
  | nil =>
    rw [List.nil_append, firstWith_cons]
    simp only [List.not_mem_nil, false_implies, implies_true, true_and]
    constructor
    · rintro (h | ⟨_, h⟩)
      · exact Or.inr h
      · exact Or.inl h
    · rintro (h | h)
      · obtain ⟨l₁, l₂, h, _⟩ := h; simp at h
      · exact Or.inl h
  | cons b l ih =>
    rw [List.cons_append, firstWith_cons, firstWith_cons, ih]
    by_cases hb : key b k
    · simp [hb]
    · simp [hb]

/-- The dictionary `seen` maps every key to the value of the first element of `pre` with it. -/
def SeenOk {α β : Type} (key : α → Str → Prop) (val : α → β) (seen : List (Str × β))
    (pre : List α) : Prop :=
  ∀ k v, seen.lookup k = some v ↔ ∃ x, FirstWith key pre k x ∧ val x = v

theorem seenOk_nil {α β : Type} (key : α → Str → Prop) (val : α → β) : SeenOk key val [] [] := by
  intro k v
  simp only [List.lookup_nil, reduceCtorEq, false_iff]
  rintro ⟨x, ⟨l₁, l₂, h, _⟩, _⟩
  simp at h

theorem seenOk_none {α β : Type} {key : α → Str → Prop} {val : α → β} {seen : List (Str × β)}
    {pre : List α} (h : SeenOk key val seen pre) {k : Str} (hk : seen.lookup k = none) :
    ∀ y ∈ pre, ¬ key y k := by
  intro y hy hyk
  obtain ⟨x, hx⟩ := exists_firstWith key pre k ⟨y, hy, hyk⟩
  have := (h k (val x)).2 ⟨x, hx, rfl⟩
  rw [hk] at this
  cases this

theorem seenOk_step_none {α β : Type} {key : α → Str → Prop} {val : α → β} {seen : List (Str × β)}
    {pre : List α} (h : SeenOk key val seen pre) {k : Str} (hk : seen.lookup k = none) {a : α}
    (ha : ∀ k', key a k' ↔ k' = k) : SeenOk key val ((k, val a) :: seen) (pre ++ [a]) := by
  intro k' v
  have hnone := seenOk_none h hk
  simp only [firstWith_append_singleton]
  by_cases hkk : k' = k
  · subst hkk
    simp only [List.lookup_cons_self, Option.some.injEq]
    constructor
    · rintro rfl
      exact ⟨a, Or.inr ⟨hnone, (ha k').2 rfl, rfl⟩, rfl⟩
    · rintro ⟨x, (hx | ⟨_, _, rfl⟩), rfl⟩
      · exact absurd hx.mem.2 (hnone _ hx.mem.1)
      · rfl
  · have : (List.lookup k' ((k, val a) :: seen)) = seen.lookup k' := by
      have : (k' == k) = false := by simpa using hkk
      simp [List.lookup, this]
    rw [this, h k' v]
    constructor
    · rintro ⟨x, hx, rfl⟩; exact ⟨x, Or.inl hx, rfl⟩
    · rintro ⟨x, (hx | ⟨_, hx, _⟩), rfl⟩
      · exact ⟨x, hx, rfl⟩
      · exact absurd ((ha k').1 hx) hkk

theorem seenOk_step_some {α β : Type} {key : α → Str → Prop} {val : α → β} {seen : List (Str × β)}
    {pre : List α} (h : SeenOk key val seen pre) {k : Str} {v : β} (hk : seen.lookup k = some v)
    {a : α} (ha : ∀ k', key a k' ↔ k' = k) : SeenOk key val seen (pre ++ [a]) := by
  intro k' v'
  rw [h k' v']
  simp only [firstWith_append_singleton]
  constructor
  · rintro ⟨x, hx, rfl⟩; exact ⟨x, Or.inl hx, rfl⟩
  · rintro ⟨x, (hx | ⟨hn, hx, _⟩), rfl⟩
    · exact ⟨x, hx, rfl⟩
    · obtain rfl := (ha k').1 hx
      obtain ⟨y, hy, _⟩ := (h k' v).1 hk
      exact absurd hy.mem.2 (hn _ hy.mem.1)

/-- Splitting a non-empty list at one of its elements -/
theorem exists_split_cons {α : Type} (x : α) (xs : List α) (P : List α → α → Prop) :
    (∃ a y b, x :: xs = a ++ y :: b ∧ P a y) ↔
      (P [] x ∨ ∃ a y b, xs = a ++ y :: b ∧ P (x :: a) y) := by
  constructor
  · rintro ⟨a, y, b, h, hP⟩
    cases a with
    | nil => simp at h; obtain ⟨rfl, rfl⟩ := h; exact Or.inl hP
    | cons a' a =>
      simp at h
      obtain ⟨rfl, rfl⟩ := h
      exact Or.inr ⟨a, y, b, rfl, hP⟩
  · rintro (hP | ⟨a, y, b, rfl, hP⟩)
    · exact ⟨[], x, xs, rfl, hP⟩
    · exact ⟨x :: a, y, b, rfl, hP⟩

theorem mem_ite_singleton {α : Type} (c : Prop) [Decidable c] (x e : α) :
    e ∈ (if c then [x] else []) ↔ c ∧ e = x := by
  split
  · rename_i h; simp [h]
  · rename_i h; simp [h]

/-! ## Fields -/

/-- The property translates to the field name. -/
def FieldName (L : Lang) (p : Property) (n : Str) : Prop := L.field p.name = .ok n

/-- The class has the registry field. -/
def RegistryName (L : Lang) (c : Class) (n : Str) : Prop := L.field c.plural = .ok n

theorem toFields_ok (L : Lang) (ps : List Property) (fs : List Field) :
    toFields L ps = .ok fs ↔ Forall₂ (fun p f => FieldName L p f.1 ∧ f.2 = p.ref) ps fs := by
  induction ps generalizing fs with
  | nil =>
    simp only [toFields, Except.ok.injEq]
    constructor
    · rintro rfl; exact .nil
    · intro h; cases h; rfl
  | cons p ps ih =>
    simp only [toFields]
    constructor
    · intro h
      cases hn : L.field p.name with
      | error e => rw [hn] at h; cases h
      | ok n =>
        rw [hn] at h
        cases hr : toFields L ps with
        | error e => rw [hr] at h; cases h
        | ok r =>
          rw [hr] at h
          cases h
          exact .cons ⟨hn, rfl⟩ ((ih r).1 hr)
    · intro h
      cases h with
      | @cons _ f _ r h1 h2 =>
        obtain ⟨h11, h12⟩ := h1
        have h11 : L.field p.name = .ok f.1 := h11
        rw [h11, (ih r).2 h2, ← h12]
        rfl

/-- The dictionary of the fields seen before, on the level of properties. -/
theorem fieldErrors_mem (L : Lang) (pre ps : List Property) (seen fs : List Field)
    (h : Forall₂ (fun p f => FieldName L p f.1 ∧ f.2 = p.ref) ps fs)
    (hs : SeenOk (FieldName L) (fun p : Property => p.ref) seen pre) (e : SErr) :
    e ∈ fieldErrors L.keywords seen fs ↔
      ∃ a p b n, ps = a ++ p :: b ∧ FieldName L p n ∧
        ((n ∈ L.keywords ∧ e = ⟨p.ref, .fieldKeyword n⟩) ∨
         ∃ q, FirstWith (FieldName L) (pre ++ a) n q ∧ e = ⟨p.ref, .fieldDuplicate n q.ref⟩) := by
  induction h generalizing pre seen with
  | nil => simp [fieldErrors]
  | @cons p f ps fs h1 h2 ih =>
    obtain ⟨n, ref⟩ := f
    obtain ⟨hn, rfl⟩ := h1
    have hn : FieldName L p n := hn
    have hkey : ∀ k', FieldName L p k' ↔ k' = n := by
      intro k'
      constructor
      · intro hk
        unfold FieldName at hk hn
        rw [hn] at hk
        cases hk; rfl
      · rintro rfl; exact hn
    have hspec := exists_split_cons p ps (fun a q => ∃ m, FieldName L q m ∧
        ((m ∈ L.keywords ∧ e = ⟨q.ref, .fieldKeyword m⟩) ∨
         ∃ r, FirstWith (FieldName L) (pre ++ a) m r ∧ e = ⟨q.ref, .fieldDuplicate m r.ref⟩))
    have hform : (∃ a q b m, p :: ps = a ++ q :: b ∧ FieldName L q m ∧
        ((m ∈ L.keywords ∧ e = ⟨q.ref, .fieldKeyword m⟩) ∨
         ∃ r, FirstWith (FieldName L) (pre ++ a) m r ∧ e = ⟨q.ref, .fieldDuplicate m r.ref⟩)) ↔
        (∃ a q b, p :: ps = a ++ q :: b ∧ ∃ m, FieldName L q m ∧
        ((m ∈ L.keywords ∧ e = ⟨q.ref, .fieldKeyword m⟩) ∨
         ∃ r, FirstWith (FieldName L) (pre ++ a) m r ∧ e = ⟨q.ref, .fieldDuplicate m r.ref⟩)) := by
      constructor
      · rintro ⟨a, q, b, m, h, h'⟩; exact ⟨a, q, b, h, m, h'⟩
      · rintro ⟨a, q, b, h, m, h'⟩; exact ⟨a, q, b, m, h, h'⟩
    rw [hform, hspec]
    have htail : (∃ a q b, ps = a ++ q :: b ∧ ∃ m, FieldName L q m ∧
        ((m ∈ L.keywords ∧ e = ⟨q.ref, .fieldKeyword m⟩) ∨
         ∃ r, FirstWith (FieldName L) (pre ++ p :: a) m r ∧ e = ⟨q.ref, .fieldDuplicate m r.ref⟩)) ↔
        (∃ a q b m, ps = a ++ q :: b ∧ FieldName L q m ∧
        ((m ∈ L.keywords ∧ e = ⟨q.ref, .fieldKeyword m⟩) ∨
         ∃ r, FirstWith (FieldName L) ((pre ++ [p]) ++ a) m r ∧
          e = ⟨q.ref, .fieldDuplicate m r.ref⟩)) := by
      simp only [List.append_assoc, List.cons_append, List.nil_append]
      constructor
      · rintro ⟨a, q, b, h, m, h'⟩; exact ⟨a, q, b, m, h, h'⟩
      · rintro ⟨a, q, b, m, h, h'⟩; exact ⟨a, q, b, h, m, h'⟩
    rw [htail]
    have hhead : (∃ m, FieldName L p m ∧
        ((m ∈ L.keywords ∧ e = ⟨p.ref, .fieldKeyword m⟩) ∨
         ∃ r, FirstWith (FieldName L) (pre ++ []) m r ∧ e = ⟨p.ref, .fieldDuplicate m r.ref⟩)) ↔
        ((n ∈ L.keywords ∧ e = ⟨p.ref, .fieldKeyword n⟩) ∨
         ∃ r, FirstWith (FieldName L) pre n r ∧ e = ⟨p.ref, .fieldDuplicate n r.ref⟩) := by
      rw [List.append_nil]
      constructor
      · rintro ⟨m, hm, h'⟩; obtain rfl := (hkey m).1 hm; exact h'
      · intro h'; exact ⟨n, hn, h'⟩
    rw [hhead]
    simp only [fieldErrors, List.mem_append]
    rw [mem_ite_singleton]
    cases hl : seen.lookup n with
    | some other =>
      simp only [List.mem_cons]
      rw [ih (pre ++ [p]) seen (seenOk_step_some hs hl hkey)]
      have : (e = ⟨p.ref, .fieldDuplicate n other⟩) ↔
          ∃ r, FirstWith (FieldName L) pre n r ∧ e = ⟨p.ref, .fieldDuplicate n r.ref⟩ := by
        obtain ⟨x, hx, hxv⟩ := (hs n other).1 hl
        constructor
        · rintro rfl; exact ⟨x, hx, by rw [← hxv]⟩
        · rintro ⟨r, hr, rfl⟩
          have := (hs n r.ref).2 ⟨r, hr, rfl⟩
          rw [hl] at this
          cases this; rfl
      rw [this, or_assoc]
    | none =>
      simp only
      have hno : ¬ ∃ r, FirstWith (FieldName L) pre n r ∧
          e = ⟨p.ref, .fieldDuplicate n r.ref⟩ := by
        rintro ⟨r, hr, _⟩
        exact seenOk_none hs hl _ hr.mem.1 hr.mem.2
      rw [ih (pre ++ [p]) ((n, p.ref) :: seen) (seenOk_step_none hs hl hkey)]
      simp only [hno, or_false]

/-- The last element of the list with the key. -/
def LastWith {α : Type} (key : α → Str → Prop) (l : List α) (k : Str) (x : α) : Prop :=
  ∃ l₁ l₂, l = l₁ ++ x :: l₂ ∧ key x k ∧ ∀ y ∈ l₂, ¬ key y k

theorem lookup_firstWith (l : List Field) (k v : Str) :
    l.lookup k = some v ↔ FirstWith (fun f k => f.1 = k) l k (k, v) := by
  induction l with
  | nil =>
    simp only [List.lookup_nil, reduceCtorEq, false_iff]
    rintro ⟨l₁, l₂, h, _⟩; simp at h
  | cons f fs ih =>
    obtain ⟨n, r⟩ := f
    rw [firstWith_cons]
    by_cases h : k = n
    · subst h
      simp [eq_comm]
    · have h' : (k == n) = false := by simpa using h
      have h'' : ¬ n = k := fun e => h e.symm
      simp [List.lookup, h', h'', ih]

theorem fields_lookup_last (L : Lang) (ps : List Property) (fs : List Field)
    (h : Forall₂ (fun p f => FieldName L p f.1 ∧ f.2 = p.ref) ps fs) (k v : Str) :
    fs.reverse.lookup k = some v ↔ ∃ p, LastWith (FieldName L) ps k p ∧ p.ref = v := by
  have key : ∀ (ps : List Property) (fs : List Field),
      Forall₂ (fun p f => FieldName L p f.1 ∧ f.2 = p.ref) ps fs →
      ((∃ l₁ l₂, fs = l₁ ++ (k, v) :: l₂ ∧ ∀ y ∈ l₂, ¬ y.1 = k) ↔
        ∃ p, LastWith (FieldName L) ps k p ∧ p.ref = v) := by
    intro ps fs h
    induction h with
    | nil => simp [LastWith]
    | @cons p f ps fs h1 h2 ih =>
      have hany : (∀ y ∈ fs, ¬ y.1 = k) ↔ (∀ q ∈ ps, ¬ FieldName L q k) := by
        clear ih
        induction h2 with
        | nil => simp
        | @cons q g ps fs h1 h2 ih =>
          simp only [List.forall_mem_cons, ih]
          have : g.1 = k ↔ FieldName L q k := by
            have := h1.1
            unfold FieldName at this ⊢
            rw [this]
            simp
          rw [this]
      have hf : f.1 = k ↔ FieldName L p k := by
        have := h1.1
        unfold FieldName at this ⊢
        rw [this]
        simp
      constructor
      · rintro ⟨l₁, l₂, he, hn⟩
        cases l₁ with
        | nil =>
          simp at he
          obtain ⟨rfl, rfl⟩ := he
          exact ⟨p, ⟨[], ps, rfl, hf.1 rfl, hany.1 hn⟩, h1.2.symm⟩
        | cons x l₁ =>
          simp at he
          obtain ⟨rfl, rfl⟩ := he
          obtain ⟨q, ⟨m₁, m₂, rfl, h3, h4⟩, h5⟩ := ih.1 ⟨l₁, l₂, rfl, hn⟩
          exact ⟨q, ⟨p :: m₁, m₂, rfl, h3, h4⟩, h5⟩
      · rintro ⟨q, ⟨m₁, m₂, he, h3, h4⟩, h5⟩
        cases m₁ with
        | nil =>
          simp at he
          obtain ⟨rfl, rfl⟩ := he
          refine ⟨[], fs, ?_, hany.2 h4⟩
          have := hf.2 h3
          simp only [List.nil_append, List.cons.injEq, and_true]
          rw [← this, ← h5, ← h1.2]
        | cons x m₁ =>
          simp at he
          obtain ⟨rfl, rfl⟩ := he
          obtain ⟨l₁, l₂, rfl, hn⟩ := ih.2 ⟨q, ⟨m₁, m₂, rfl, h3, h4⟩, h5⟩
          exact ⟨f :: l₁, l₂, rfl, hn⟩
  rw [← key ps fs h, lookup_firstWith]
  constructor
  · rintro ⟨l₁, l₂, he, _, hn⟩
    refine ⟨l₂.reverse, l₁.reverse, ?_, ?_⟩
    · have := congrArg List.reverse he
      simpa using this
    · intro y hy; exact hn y (by simpa using hy)
  · rintro ⟨l₁, l₂, rfl, hn⟩
    refine ⟨l₂.reverse, l₁.reverse, by simp, rfl, ?_⟩
    intro y hy; exact hn y (by simpa using hy)

/-! ## Registries -/

/-- What is reported about a registry. -/
def RegistryReport (L : Lang) (ps : List Property) (pre : List Class) (c : Class) (e : SErr) : Prop :=
  ∃ n, RegistryName L c n ∧
    ((n ∈ L.keywords ∧ e = ⟨c.ref, .registryKeyword n c.name⟩) ∨
     (∃ p, LastWith (FieldName L) ps n p ∧ e = ⟨c.ref, .registryProperty n c.name p.ref⟩) ∨
     ∃ d, FirstWith (RegistryName L) pre n d ∧
      e = ⟨c.ref, .registryRegistry n c.name d.name d.ref⟩)

theorem registryErrors_mem (L : Lang) (ps : List Property) (fs : List Field)
    (hf : Forall₂ (fun p f => FieldName L p f.1 ∧ f.2 = p.ref) ps fs)
    (pre cs : List Class) (seen : List (Str × Str × Str)) (errs : List SErr)
    (h : registryErrors L fs seen cs = .ok errs)
    (hs : SeenOk (RegistryName L) (fun c : Class => (c.name, c.ref)) seen pre) (e : SErr) :
    e ∈ errs ↔ ∃ a c b, cs = a ++ c :: b ∧ RegistryReport L ps (pre ++ a) c e := by
  induction cs generalizing pre seen errs with
  | nil => simp only [registryErrors, Except.ok.injEq] at h; subst h; simp
  | cons c cs ih =>
    rw [exists_split_cons c cs (fun a c => RegistryReport L ps (pre ++ a) c e)]
    simp only [registryErrors] at h
    cases hn : L.field c.plural with
    | error x => rw [hn] at h; cases h
    | ok n =>
      rw [hn] at h
      have hkey : ∀ k', RegistryName L c k' ↔ k' = n := by
        intro k'
        unfold RegistryName
        rw [hn]
        simp [eq_comm]
      have hprop : (e ∈ (match fs.reverse.lookup n with
          | some ref => [(⟨c.ref, .registryProperty n c.name ref⟩ : SErr)]
          | none => [])) ↔
          ∃ p, LastWith (FieldName L) ps n p ∧ e = ⟨c.ref, .registryProperty n c.name p.ref⟩ := by
        cases hl : fs.reverse.lookup n with
        | none =>
          simp only [List.not_mem_nil, false_iff]
          rintro ⟨p, hp, _⟩
          have := (fields_lookup_last L ps fs hf n p.ref).2 ⟨p, hp, rfl⟩
          rw [hl] at this; cases this
        | some ref =>
          obtain ⟨p, hp, hpr⟩ := (fields_lookup_last L ps fs hf n ref).1 hl
          simp only [List.mem_singleton]
          constructor
          · rintro rfl; exact ⟨p, hp, by rw [hpr]⟩
          · rintro ⟨q, hq, rfl⟩
            have := (fields_lookup_last L ps fs hf n q.ref).2 ⟨q, hq, rfl⟩
            rw [hl] at this; cases this; rfl
      have hhead : RegistryReport L ps (pre ++ []) c e ↔
          ((n ∈ L.keywords ∧ e = ⟨c.ref, .registryKeyword n c.name⟩) ∨
           (∃ p, LastWith (FieldName L) ps n p ∧ e = ⟨c.ref, .registryProperty n c.name p.ref⟩) ∨
           ∃ d, FirstWith (RegistryName L) pre n d ∧
            e = ⟨c.ref, .registryRegistry n c.name d.name d.ref⟩) := by
        unfold RegistryReport
        rw [List.append_nil]
        constructor
        · rintro ⟨m, hm, h'⟩; obtain rfl := (hkey m).1 hm; exact h'
        · intro h'; exact ⟨n, hn, h'⟩
      have htail : (∃ a d b, cs = a ++ d :: b ∧ RegistryReport L ps (pre ++ c :: a) d e) ↔
          (∃ a d b, cs = a ++ d :: b ∧ RegistryReport L ps ((pre ++ [c]) ++ a) d e) := by
        simp only [List.append_assoc, List.cons_append, List.nil_append]
      rw [hhead, htail, ← hprop, ← mem_ite_singleton]
      simp only [bind, Except.bind] at h
      cases hl : seen.lookup n with
      | some other =>
        rw [hl] at h
        obtain ⟨on, or⟩ := other
        simp only at h
        cases hr : registryErrors L fs seen cs with
        | error x => rw [hr] at h; cases h
        | ok rest =>
          rw [hr] at h
          simp only [pure, Except.pure, Except.ok.injEq] at h
          subst h
          rw [← ih (pre ++ [c]) seen rest hr (seenOk_step_some hs hl hkey)]
          have : (e = ⟨c.ref, .registryRegistry n c.name on or⟩) ↔
              ∃ d, FirstWith (RegistryName L) pre n d ∧
                e = ⟨c.ref, .registryRegistry n c.name d.name d.ref⟩ := by
            obtain ⟨x, hx, hxv⟩ := (hs n (on, or)).1 hl
            simp only [Prod.mk.injEq] at hxv
            constructor
            · rintro rfl; exact ⟨x, hx, by rw [hxv.1, hxv.2]⟩
            · rintro ⟨r, hr, rfl⟩
              have := (hs n (r.name, r.ref)).2 ⟨r, hr, rfl⟩
              rw [hl] at this
              cases this; rfl
          rw [← this]
          simp only [List.mem_append, List.mem_cons, or_assoc]
          exact Iff.rfl
      | none =>
        rw [hl] at h
        simp only at h
        cases hr : registryErrors L fs ((n, c.name, c.ref) :: seen) cs with
        | error x => rw [hr] at h; cases h
        | ok rest =>
          rw [hr] at h
          simp only [pure, Except.pure, Except.ok.injEq] at h
          subst h
          have hno : ¬ ∃ d, FirstWith (RegistryName L) pre n d ∧
              e = ⟨c.ref, .registryRegistry n c.name d.name d.ref⟩ := by
            rintro ⟨r, hr, _⟩
            exact seenOk_none hs hl _ hr.mem.1 hr.mem.2
          rw [← ih (pre ++ [c]) ((n, c.name, c.ref) :: seen) rest hr
            (seenOk_step_none (val := fun c : Class => (c.name, c.ref)) hs hl hkey)]
          simp only [hno, or_false, List.mem_append, or_assoc]
          exact Iff.rfl

/-! ## Composites -/

/-- The composite has the identifier. -/
def CompId (L : Lang) (c : Comp) (n : Str) : Prop := L.composite c.name = .ok n

/-- What is reported about the properties of a composite. -/
def FieldReport (L : Lang) (kind : Kind) (ps : List Property) (e : SErr) : Prop :=
  (∃ a p b n, ps = a ++ p :: b ∧ FieldName L p n ∧
    ((n ∈ L.keywords ∧ e = ⟨p.ref, .fieldKeyword n⟩) ∨
     ∃ q, FirstWith (FieldName L) a n q ∧ e = ⟨p.ref, .fieldDuplicate n q.ref⟩)) ∨
  (kind = .cls ∧ ∃ p ∈ ps, FieldName L p L.reserved ∧ e = ⟨p.ref, .fieldReserved L.reserved⟩)

theorem validateFields_mem (L : Lang) (ps : List Property) (fs : List Field)
    (h : toFields L ps = .ok fs) (e : SErr) :
    e ∈ validateFields L fs ↔ ∃ a p b n, ps = a ++ p :: b ∧ FieldName L p n ∧
      ((n ∈ L.keywords ∧ e = ⟨p.ref, .fieldKeyword n⟩) ∨
       ∃ q, FirstWith (FieldName L) a n q ∧ e = ⟨p.ref, .fieldDuplicate n q.ref⟩) := by
  have := fieldErrors_mem L [] ps [] fs ((toFields_ok L ps fs).1 h) (seenOk_nil _ _) e
  unfold validateFields
  simpa using this

theorem reservedErrors_mem (L : Lang) (ps : List Property) (fs : List Field)
    (h : toFields L ps = .ok fs) (e : SErr) :
    e ∈ reservedErrors L fs ↔
      ∃ p ∈ ps, FieldName L p L.reserved ∧ e = ⟨p.ref, .fieldReserved L.reserved⟩ := by
  replace h := (toFields_ok L ps fs).1 h
  unfold reservedErrors
  induction h with
  | nil => simp
  | @cons p f ps fs h1 h2 ih =>
    obtain ⟨n, r⟩ := f
    obtain ⟨hn, rfl⟩ := h1
    have hn : L.field p.name = .ok n := hn
    have hkey : FieldName L p L.reserved ↔ n = L.reserved := by
      unfold FieldName; rw [hn]; simp
    have hex : (∃ q, q ∈ p :: ps ∧ FieldName L q L.reserved ∧
        e = ⟨q.ref, .fieldReserved L.reserved⟩) ↔
        ((n = L.reserved ∧ e = ⟨p.ref, .fieldReserved L.reserved⟩) ∨
          ∃ q, q ∈ ps ∧ FieldName L q L.reserved ∧ e = ⟨q.ref, .fieldReserved L.reserved⟩) := by
      simp only [List.mem_cons, or_and_right, exists_or, exists_eq_left, hkey]
    refine Iff.trans ?_ (hex.trans (or_congr_right ih.symm)).symm
    rw [List.filterMap_cons]
    by_cases hr : n = L.reserved
    · subst hr; simp
    · simp [hr]

theorem own_mem (L : Lang) (c : Comp) (errs : List SErr)
    (h : (if c.kind = .cls then validateClass L c.properties else validateEmbed L c.properties) =
      .ok errs) (e : SErr) : e ∈ errs ↔ FieldReport L c.kind c.properties e := by
  unfold FieldReport
  split at h
  · rename_i hk
    unfold validateClass at h
    cases hf : toFields L c.properties with
    | error x => rw [hf] at h; cases h
    | ok fs =>
      rw [hf] at h
      cases h
      rw [List.mem_append, validateFields_mem L _ _ hf, reservedErrors_mem L _ _ hf]
      simp only [hk, true_and]
  · rename_i hk
    unfold validateEmbed at h
    cases hf : toFields L c.properties with
    | error x => rw [hf] at h; cases h
    | ok fs =>
      rw [hf] at h
      cases h
      rw [validateFields_mem L _ _ hf]
      simp only [hk, false_and, or_false]

/-- What is reported about a class or an embed after the composites `pre`. -/
def CompReport (L : Lang) (pre : List Comp) (c : Comp) (e : SErr) : Prop :=
  (∃ n, CompId L c n ∧
    ((n ∈ L.keywords ∧ e = ⟨c.ref, .compositeKeyword c.kind n c.name⟩) ∨
     ∃ d, FirstWith (CompId L) pre n d ∧
      e = ⟨c.ref, .compositeDuplicate c.kind c.name d.name d.ref n⟩)) ∨
  FieldReport L c.kind c.properties e

theorem compositeErrors_mem (L : Lang) (pre cs : List Comp) (seen : Seen) (errs : List SErr)
    (h : compositeErrors L seen cs = .ok errs)
    (hs : SeenOk (CompId L) (fun c : Comp => (c.name, c.ref)) seen pre) (e : SErr) :
    e ∈ errs ↔ ∃ a c b, cs = a ++ c :: b ∧ CompReport L (pre ++ a) c e := by
  induction cs generalizing pre seen errs with
  | nil => simp only [compositeErrors, Except.ok.injEq] at h; subst h; simp
  | cons c cs ih =>
    rw [exists_split_cons c cs (fun a c => CompReport L (pre ++ a) c e)]
    simp only [compositeErrors] at h
    cases hn : L.composite c.name with
    | error x => rw [hn] at h; cases h
    | ok n =>
      rw [hn] at h
      have hkey : ∀ k', CompId L c k' ↔ k' = n := by
        intro k'
        unfold CompId
        rw [hn]
        simp [eq_comm]
      have hhead : CompReport L (pre ++ []) c e ↔
          (n ∈ L.keywords ∧ e = ⟨c.ref, .compositeKeyword c.kind n c.name⟩) ∨
           (∃ d, FirstWith (CompId L) pre n d ∧
            e = ⟨c.ref, .compositeDuplicate c.kind c.name d.name d.ref n⟩) ∨
           FieldReport L c.kind c.properties e := by
        unfold CompReport
        rw [List.append_nil, ← or_assoc]
        apply or_congr_left
        constructor
        · rintro ⟨m, hm, h'⟩; obtain rfl := (hkey m).1 hm; exact h'
        · intro h'; exact ⟨n, hn, h'⟩
      have htail : (∃ a d b, cs = a ++ d :: b ∧ CompReport L (pre ++ c :: a) d e) ↔
          (∃ a d b, cs = a ++ d :: b ∧ CompReport L ((pre ++ [c]) ++ a) d e) := by
        simp only [List.append_assoc, List.cons_append, List.nil_append]
      rw [hhead, htail, ← mem_ite_singleton]
      simp only [bind, Except.bind] at h
      cases hl : seen.lookup n with
      | some other =>
        rw [hl] at h
        obtain ⟨on, or⟩ := other
        simp only at h
        cases ho : (if c.kind = .cls then validateClass L c.properties
            else validateEmbed L c.properties) with
        | error x => rw [ho] at h; cases h
        | ok own =>
          rw [ho] at h
          simp only at h
          cases hr : compositeErrors L seen cs with
          | error x => rw [hr] at h; cases h
          | ok rest =>
            rw [hr] at h
            simp only [pure, Except.pure, Except.ok.injEq] at h
            subst h
            rw [← ih (pre ++ [c]) seen rest hr (seenOk_step_some hs hl hkey), ← own_mem L c own ho]
            have : (e = ⟨c.ref, .compositeDuplicate c.kind c.name on or n⟩) ↔
                ∃ d, FirstWith (CompId L) pre n d ∧
                  e = ⟨c.ref, .compositeDuplicate c.kind c.name d.name d.ref n⟩ := by
              obtain ⟨x, hx, hxv⟩ := (hs n (on, or)).1 hl
              simp only [Prod.mk.injEq] at hxv
              constructor
              · rintro rfl; exact ⟨x, hx, by rw [hxv.1, hxv.2]⟩
              · rintro ⟨r, hr, rfl⟩
                have := (hs n (r.name, r.ref)).2 ⟨r, hr, rfl⟩
                rw [hl] at this
                cases this; rfl
            rw [← this]
            simp only [List.mem_append, List.mem_cons, or_assoc]
      | none =>
        rw [hl] at h
        simp only at h
        cases ho : (if c.kind = .cls then validateClass L c.properties
            else validateEmbed L c.properties) with
        | error x => rw [ho] at h; cases h
        | ok own =>
          rw [ho] at h
          simp only at h
          cases hr : compositeErrors L ((n, c.name, c.ref) :: seen) cs with
          | error x => rw [hr] at h; cases h
          | ok rest =>
            rw [hr] at h
            simp only [pure, Except.pure, Except.ok.injEq] at h
            subst h
            have hno : ¬ ∃ d, FirstWith (CompId L) pre n d ∧
                e = ⟨c.ref, .compositeDuplicate c.kind c.name d.name d.ref n⟩ := by
              rintro ⟨r, hr, _⟩
              exact seenOk_none hs hl _ hr.mem.1 hr.mem.2
            rw [← ih (pre ++ [c]) ((n, c.name, c.ref) :: seen) rest hr
              (seenOk_step_none (val := fun c : Comp => (c.name, c.ref)) hs hl hkey),
              ← own_mem L c own ho]
            simp only [hno, false_or, List.mem_append, or_assoc]

end Mapry.LangValidate
