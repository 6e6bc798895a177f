import Verif.PyValid
import Verif.Props.Duration

/-!
# The generated Python serializer
-/

namespace Mapry.PyRuntime

open Mapry.Text Mapry.Duration Spec

/-! ## Dictionaries -/

theorem lookup_putKey (k : Str) (x : Json) (t : List (Str × Json)) (k' : Str) :
    (putKey k x t).lookup k' = if k' = k then some x else t.lookup k' := by
  induction t with
  | nil =>
    by_cases h : k' = k
    · simp [putKey, h]
    · have : (k' == k) = false := beq_false_of_ne h
      simp [putKey, h, List.lookup, this]
  | cons e t ih =>
    obtain ⟨a, y⟩ := e
    simp only [putKey]
    by_cases ha : a = k
    · subst ha
      rw [if_pos rfl]
      by_cases h : k' = a
      · simp [h, List.lookup]
      · have : (k' == a) = false := beq_false_of_ne h
        simp [h, List.lookup, this]
    · rw [if_neg ha]
      by_cases h : k' = a
      · subst h; simp [List.lookup, ha]
      · have : (k' == a) = false := beq_false_of_ne h
        simp [List.lookup, this, ih]

theorem keys_putKey (k : Str) (x : Json) (t : List (Str × Json)) (k' : Str) :
    k' ∈ (putKey k x t).map (·.1) ↔ k' = k ∨ k' ∈ t.map (·.1) := by
  induction t with
  | nil => simp [putKey]
  | cons e t ih =>
    obtain ⟨a, y⟩ := e
    simp only [putKey]
    by_cases ha : a = k
    · subst ha
      simp
    · rw [if_neg ha]
      simp only [List.map_cons, List.mem_cons, ih]
      exact or_left_comm

/-! ## What is written and which exceptions are raised -/

/-- The property is written: an optional one only if it is set. -/
def Written (field : Property → Str) (attrs : Attrs) (p : Property) : Prop :=
  ¬ (p.optional = true ∧ attrs.lookup (field p) = some .none)

theorem serProps_keys {ser : Ty → Val → Except Exc Json} {field : Property → Str} {attrs : Attrs}
    (ps : List Property) (target kvs : List (Str × Json))
    (h : serProps ser field attrs ps target = .ok kvs) (k : Str) :
    k ∈ kvs.map (·.1) ↔ k ∈ target.map (·.1) ∨ ∃ p ∈ ps, Written field attrs p ∧ p.json = k := by
  induction ps generalizing target with
  | nil => simp only [serProps, Except.ok.injEq] at h; simp [h]
  | cons p ps ih =>
    have key : ∀ x, serProps ser field attrs ps (putKey p.json x target) = .ok kvs →
        Written field attrs p →
        (k ∈ kvs.map (·.1) ↔
          k ∈ target.map (·.1) ∨ ∃ q ∈ p :: ps, Written field attrs q ∧ q.json = k) := by
      intro x hx hw
      rw [ih _ hx, keys_putKey]
      simp only [List.mem_cons, exists_eq_or_imp, hw, true_and]
      constructor
      · rintro ((h | h) | h)
        · exact .inr (.inl h.symm)
        · exact .inl h
        · exact .inr (.inr h)
      · rintro (h | h | h)
        · exact .inl (.inr h)
        · exact .inl (.inl h.symm)
        · exact .inr h
    rw [serProps.eq_def] at h
    simp only at h
    split at h
    · simp at h
    · next hl =>
      split at h
      · next ho =>
        have hw : ¬ Written field attrs p := fun hw => hw ⟨ho, hl⟩
        rw [ih _ h]
        simp [hw]
      · next ho =>
        simp only [bind, Except.bind] at h
        split at h
        · simp at h
        · exact key _ h fun hh => ho hh.1
    · next v hne hl =>
      simp only [bind, Except.bind] at h
      split at h
      · simp at h
      · refine key _ h fun hh => ?_
        rw [hl] at hh
        exact hne (Option.some.inj hh.2)

/-- The function does not raise `ValueError`. -/
def NoValueError {α β : Type} (f : α → Except Exc β) : Prop := ∀ v m, f v ≠ .error (.valueError m)

theorem serItems_noValueError {f : Val → Except Exc Json} (h : NoValueError f) :
    NoValueError (serItems f) := by
  intro vs m
  induction vs with
  | nil => simp [serItems]
  | cons v vs ih =>
    simp only [serItems, bind, Except.bind]
    split
    · next hx => intro he; rw [Except.error.inj he] at hx; exact h v m hx
    · split
      · next hx => intro he; rw [Except.error.inj he] at hx; exact ih hx
      · simp [pure, Except.pure]

theorem serEntries_noValueError {f : Val → Except Exc Json} (h : NoValueError f) :
    NoValueError (serEntries f) := by
  intro vs m
  induction vs with
  | nil => simp [serEntries]
  | cons v vs ih =>
    obtain ⟨k, v⟩ := v
    simp only [serEntries, bind, Except.bind]
    split
    · next hx => intro he; rw [Except.error.inj he] at hx; exact h v m hx
    · split
      · next hx => intro he; rw [Except.error.inj he] at hx; exact ih hx
      · simp [pure, Except.pure]

theorem serDirect_noValueError : NoValueError serDirect := by
  intro v m
  cases v <;> simp [serDirect]

theorem serTy_noValueError (L : Lib) (S : Settings) {embed : Str → Val → Except Exc Json}
    (h : ∀ name, NoValueError (embed name)) (ty : Ty) : NoValueError (serTy L S embed ty) := by
  induction ty with
  | array t lo hi ih =>
    intro v m
    simp only [serTy]
    split
    · simp only [bind, Except.bind]
      split
      · next hx => intro he; rw [Except.error.inj he] at hx; exact serItems_noValueError ih _ m hx
      · simp [pure, Except.pure]
    · simp
  | map t ih =>
    intro v m
    simp only [serTy]
    split
    · simp only [bind, Except.bind]
      split
      · next hx => intro he; rw [Except.error.inj he] at hx; exact serEntries_noValueError ih _ m hx
      · simp [pure, Except.pure]
    · simp
  | embed name => exact h name
  | path p =>
    intro v m
    simp only [serTy]
    split
    · split <;> simp
    · exact serDirect_noValueError v m
  | timeZone =>
    intro v m
    simp only [serTy]
    split
    · split <;> simp
    · exact serDirect_noValueError v m
  | boolean => exact serDirect_noValueError
  | integer _ => exact serDirect_noValueError
  | float _ => exact serDirect_noValueError
  | string _ => exact serDirect_noValueError
  | _ =>
    intro v m
    simp only [serTy]
    split <;> simp

theorem serProps_noValueError {ser : Ty → Val → Except Exc Json} (h : ∀ ty, NoValueError (ser ty))
    (field : Property → Str) (attrs : Attrs) (ps : List Property) :
    NoValueError (serProps ser field attrs ps) := by
  intro target m
  induction ps generalizing target with
  | nil => simp [serProps]
  | cons p ps ih =>
    rw [serProps.eq_def]
    simp only
    split
    · simp
    · split
      · exact ih target
      · simp only [bind, Except.bind]
        split
        · next hx => intro he; rw [Except.error.inj he] at hx; exact h _ _ m hx
        · exact ih _
    · simp only [bind, Except.bind]
      split
      · next hx => intro he; rw [Except.error.inj he] at hx; exact h _ _ m hx
      · exact ih _

theorem serComposite_noValueError {ser : Ty → Val → Except Exc Json} (h : ∀ ty, NoValueError (ser ty))
    (ordered : Bool) (ps : List Property) : NoValueError (serComposite ser ordered ps) := by
  intro attrs m
  simp only [serComposite, bind, Except.bind]
  split
  · next hx => intro he; rw [Except.error.inj he] at hx; exact serProps_noValueError h _ _ _ _ m hx
  · simp [pure, Except.pure]

theorem serEmbed_noValueError (L : Lib) (S : Settings) (g : Graph) (n : Nat) (name : Str) :
    NoValueError (serEmbed L S g n name) := by
  induction n generalizing name with
  | zero => intro v m; simp [serEmbed]
  | succ n ih =>
    intro v m
    simp only [serEmbed]
    split
    · simp
    · split
      · exact serComposite_noValueError (fun ty => serTy_noValueError L S ih ty) _ _ _ m
      · simp

theorem ser_noValueError (L : Lib) (S : Settings) (g : Graph) (n : Nat) (ty : Ty) :
    NoValueError (serTy L S (serEmbed L S g n) ty) :=
  serTy_noValueError L S (serEmbed_noValueError L S g n) ty

/-! ## Registries -/

theorem serInstances_spec (L : Lib) {ser : Ty → Val → Except Exc Json} (h : ∀ ty, NoValueError (ser ty))
    (ordered : Bool) (c : Class) (is : List (Str × Instance)) :
    (∀ xs, serInstances L ser ordered c is = .ok xs →
      (∀ i ∈ is, i.1 = i.2.id) ∧ xs.map (·.1) = is.map (·.1)) ∧
    (∀ m, serInstances L ser ordered c is = .error (.valueError m) → ∃ i ∈ is, i.1 ≠ i.2.id) := by
  induction is with
  | nil => simp [serInstances]
  | cons i is ih =>
    obtain ⟨id, inst⟩ := i
    simp only [serInstances]
    split
    · next hne => exact ⟨by simp, fun m _ => ⟨_, List.mem_cons_self .., hne⟩⟩
    · next heq =>
      have heq : id = inst.id := by simpa using heq
      simp only [bind, Except.bind]
      split
      · next x hx =>
        exact ⟨by simp, fun m he => absurd (by rw [hx, Except.error.inj he])
          (serComposite_noValueError h ordered c.properties inst.attrs m)⟩
      · next j hj =>
        split
        · next x hx =>
          refine ⟨by simp, fun m he => ?_⟩
          obtain ⟨i, hi, hne⟩ := ih.2 m (by rw [hx, Except.error.inj he])
          exact ⟨i, List.mem_cons_of_mem _ hi, hne⟩
        · next xs hxs =>
          refine ⟨fun ys hy => ?_, by simp [pure, Except.pure]⟩
          simp only [pure, Except.pure, Except.ok.injEq] at hy
          subst hy
          obtain ⟨h1, h2⟩ := ih.1 xs hxs
          refine ⟨?_, by simp [h2]⟩
          intro i hi
          rcases List.mem_cons.1 hi with rfl | hi
          · exact heq
          · exact h1 i hi

/-- The class has a registry with instances. -/
def Populated (gv : GraphVal) (c : Class) : Prop :=
  ∃ r, gv.registries.lookup c.name = some r ∧ r.instances ≠ []

theorem serRegistries_spec (L : Lib) {ser : Ty → Val → Except Exc Json} (h : ∀ ty, NoValueError (ser ty))
    (ordered : Bool) (gv : GraphVal) (cs : List Class) (target : List (Str × Json)) :
    (∀ kvs, serRegistries L ser ordered gv cs target = .ok kvs →
      (∀ c ∈ cs, ∀ r, gv.registries.lookup c.name = some r → ∀ i ∈ r.instances, i.1 = i.2.id) ∧
      ∀ k, k ∈ kvs.map (·.1) ↔
        k ∈ target.map (·.1) ∨ ∃ c ∈ cs, Populated gv c ∧ registryKey c = k) ∧
    (∀ m, serRegistries L ser ordered gv cs target = .error (.valueError m) →
      ∃ c ∈ cs, ∃ r, gv.registries.lookup c.name = some r ∧ ∃ i ∈ r.instances, i.1 ≠ i.2.id) := by
  induction cs generalizing target with
  | nil => simp [serRegistries]
  | cons c cs ih =>
    simp only [serRegistries]
    split
    · simp
    · next r hr =>
      split
      · next hemp =>
        have hemp : r.instances = [] := List.isEmpty_iff.1 hemp
        obtain ⟨ih1, ih2⟩ := ih target
        constructor
        · intro kvs hk
          obtain ⟨h1, h2⟩ := ih1 kvs hk
          refine ⟨?_, ?_⟩
          · intro d hd r' hr' i hi
            rcases List.mem_cons.1 hd with rfl | hd
            · rw [hr] at hr'; cases hr'; rw [hemp] at hi; simp at hi
            · exact h1 d hd r' hr' i hi
          · intro k
            have hnp : ¬ Populated gv c := by
              rintro ⟨r', hr', hne⟩
              rw [hr] at hr'; cases hr'
              exact hne hemp
            rw [h2 k]
            simp [hnp]
        · intro m hm
          obtain ⟨d, hd, rest⟩ := ih2 m hm
          exact ⟨d, List.mem_cons_of_mem _ hd, rest⟩
      · next hne =>
        have hne : r.instances ≠ [] := fun he => hne (by simp [he])
        obtain ⟨hi1, hi2⟩ := serInstances_spec L h ordered c r.instances
        simp only [bind, Except.bind]
        split
        · next x hx =>
          refine ⟨by simp, fun m he => ?_⟩
          exact ⟨c, List.mem_cons_self .., r, hr, hi2 m (by rw [hx, Except.error.inj he])⟩
        · next xs hxs =>
          obtain ⟨ih1, ih2⟩ := ih (putKey (registryKey c) (.obj ordered xs) target)
          constructor
          · intro kvs hk
            obtain ⟨h1, h2⟩ := ih1 kvs hk
            refine ⟨?_, ?_⟩
            · intro d hd r' hr' i hi
              rcases List.mem_cons.1 hd with rfl | hd
              · rw [hr] at hr'; cases hr'; exact (hi1 xs hxs).1 i hi
              · exact h1 d hd r' hr' i hi
            · intro k
              have hp : Populated gv c := ⟨r, hr, hne⟩
              rw [h2 k, keys_putKey]
              simp only [List.mem_cons, exists_eq_or_imp, hp, true_and]
              constructor
              · rintro ((h | h) | h)
                · exact .inr (.inl h.symm)
                · exact .inl h
                · exact .inr (.inr h)
              · rintro (h | h | h)
                · exact .inl (.inr h)
                · exact .inl (.inl h.symm)
                · exact .inr h
          · intro m hm
            obtain ⟨d, hd, rest⟩ := ih2 m hm
            exact ⟨d, List.mem_cons_of_mem _ hd, rest⟩

/-! ## Typed values are serialized without an exception -/

theorem serItems_total {f : Val → Except Exc Json} {vs : List Val} (h : ∀ v ∈ vs, ∃ j, f v = .ok j) :
    ∃ xs, serItems f vs = .ok xs := by
  induction vs with
  | nil => exact ⟨[], rfl⟩
  | cons v vs ih =>
    obtain ⟨j, hj⟩ := h v (List.mem_cons_self ..)
    obtain ⟨xs, hx⟩ := ih fun v hv => h v (List.mem_cons_of_mem _ hv)
    exact ⟨j :: xs, by simp [serItems, hj, hx, bind, Except.bind, pure, Except.pure]⟩

theorem serEntries_total {f : Val → Except Exc Json} {vs : List (Str × Val)}
    (h : ∀ v ∈ vs, ∃ j, f v.2 = .ok j) : ∃ xs, serEntries f vs = .ok xs := by
  induction vs with
  | nil => exact ⟨[], rfl⟩
  | cons v vs ih =>
    obtain ⟨k, v⟩ := v
    obtain ⟨j, hj⟩ := h (k, v) (List.mem_cons_self ..)
    obtain ⟨xs, hx⟩ := ih fun v hv => h v (List.mem_cons_of_mem _ hv)
    exact ⟨(k, j) :: xs, by
      simp only at hj
      simp [serEntries, hj, hx, bind, Except.bind, pure, Except.pure]⟩

theorem serTy_total (L : Lib) (S : Settings) {embed : Str → Val → Except Exc Json}
    {T : Str → Val → Prop} (h : ∀ name x, T name x → ∃ j, embed name x = .ok j) (ty : Ty) (x : Val)
    (ht : TypedTy S T ty x) : ∃ j, serTy L S embed ty x = .ok j := by
  induction ty generalizing x with
  | boolean => obtain ⟨c, rfl⟩ := ht; exact ⟨_, rfl⟩
  | integer b => rcases ht with ⟨i, rfl⟩ | ⟨c, rfl⟩ <;> exact ⟨_, rfl⟩
  | float b => rcases ht with ⟨i, rfl⟩ | ⟨c, rfl⟩ | ⟨c, rfl⟩ <;> exact ⟨_, rfl⟩
  | string p => obtain ⟨c, rfl⟩ := ht; exact ⟨_, rfl⟩
  | path p =>
    simp only [TypedTy] at ht
    simp only [serTy]
    split at ht <;> (next hp => obtain ⟨s, rfl⟩ := ht; exact ⟨.str s, by simp [hp, serDirect]⟩)
  | timeZone =>
    simp only [TypedTy] at ht
    simp only [serTy]
    split at ht <;> (next hp => obtain ⟨s, rfl⟩ := ht; exact ⟨.str s, by simp [hp, serDirect]⟩)
  | date f => obtain ⟨c, rfl⟩ := ht; exact ⟨_, rfl⟩
  | time f => obtain ⟨c, rfl⟩ := ht; exact ⟨_, rfl⟩
  | datetime f => obtain ⟨c, rfl⟩ := ht; exact ⟨_, rfl⟩
  | duration => obtain ⟨c, rfl⟩ := ht; exact ⟨_, rfl⟩
  | cls c => obtain ⟨id, rfl⟩ := ht; exact ⟨_, rfl⟩
  | embed name => exact h name x ht
  | array t lo hi ih =>
    obtain ⟨vs, rfl, hv⟩ := ht
    obtain ⟨xs, hx⟩ := serItems_total (f := serTy L S embed t) fun v hv' => ih v (hv v hv')
    exact ⟨.arr xs, by simp [serTy, hx, bind, Except.bind, pure, Except.pure]⟩
  | map t ih =>
    obtain ⟨o, vs, rfl, hv⟩ := ht
    obtain ⟨xs, hx⟩ := serEntries_total (f := serTy L S embed t) fun v hv' => ih v.2 (hv v hv')
    exact ⟨.obj o xs, by simp [serTy, hx, bind, Except.bind, pure, Except.pure]⟩

theorem serProps_total {ser : Ty → Val → Except Exc Json} {typed : Ty → Val → Prop}
    (h : ∀ ty x, typed ty x → ∃ j, ser ty x = .ok j) (field : Property → Str) (attrs : Attrs)
    (ps : List Property) (hfield : ∀ p ∈ ps, field p = Mapry.lower p.name) (target : List (Str × Json))
    (ht : TypedProps typed ps attrs) : ∃ kvs, serProps ser field attrs ps target = .ok kvs := by
  induction ps generalizing target with
  | nil => exact ⟨target, rfl⟩
  | cons p ps ih =>
    have ih := fun target => ih (fun p hp => hfield p (List.mem_cons_of_mem _ hp)) target
      (fun p hp => ht p (List.mem_cons_of_mem _ hp))
    obtain ⟨x, hx, hx'⟩ := ht p (List.mem_cons_self ..)
    rw [← hfield p (List.mem_cons_self ..)] at hx
    rw [serProps.eq_def]
    simp only [hx]
    rcases hx' with ⟨ho, rfl⟩ | hx'
    · simp only [ho, if_true]
      exact ih target
    · obtain ⟨j, hj⟩ := h _ _ hx'
      split
      · next he => simp at he
      · next he =>
        cases he
        split
        · exact ih target
        · simp only [hj, bind, Except.bind]; exact ih _
      · next v _ he =>
        cases he
        simp only [hj, bind, Except.bind]; exact ih _

theorem serComposite_total {ser : Ty → Val → Except Exc Json} {typed : Ty → Val → Prop}
    (h : ∀ ty x, typed ty x → ∃ j, ser ty x = .ok j) (ordered : Bool) (attrs : Attrs)
    (ps : List Property) (hlow : ∀ p ∈ ps, Mapry.lower p.name = p.name)
    (ht : TypedProps typed ps attrs) : ∃ j, serComposite ser ordered ps attrs = .ok j := by
  obtain ⟨kvs, hk⟩ := serProps_total h (fun p => p.name) attrs ps (fun p hp => (hlow p hp).symm) [] ht
  exact ⟨.obj ordered kvs, by simp [serComposite, hk, bind, Except.bind, pure, Except.pure]⟩

theorem serEmbed_total (L : Lib) (S : Settings) (g : Graph) (hlow : LowerNames g) (n : Nat) (name : Str)
    (x : Val) (h : TypedEmbed S g n name x) : ∃ j, serEmbed L S g n name x = .ok j := by
  induction n generalizing name x with
  | zero => exact h.elim
  | succ n ih =>
    obtain ⟨e, attrs, he, rfl, hp⟩ := h
    simp only [serEmbed, he]
    exact serComposite_total (serTy_total L S ih) false attrs e.properties (hlow.embed e (embed_mem he)) hp

theorem serInstances_total (L : Lib) {ser : Ty → Val → Except Exc Json} {typed : Ty → Val → Prop}
    (h : ∀ ty x, typed ty x → ∃ j, ser ty x = .ok j) (ordered : Bool) (c : Class)
    (hlow : ∀ p ∈ c.properties, Mapry.lower p.name = p.name) (is : List (Str × Instance))
    (hi : ∀ i ∈ is, TypedProps typed c.properties i.2.attrs) :
    (∃ xs, serInstances L ser ordered c is = .ok xs) ∨
    ∃ m, serInstances L ser ordered c is = .error (.valueError m) := by
  induction is with
  | nil => exact .inl ⟨[], rfl⟩
  | cons i is ih =>
    obtain ⟨id, inst⟩ := i
    simp only [serInstances]
    split
    · exact .inr ⟨_, rfl⟩
    · obtain ⟨j, hj⟩ := serComposite_total h ordered inst.attrs c.properties hlow
        (hi (id, inst) (List.mem_cons_self ..))
      rcases ih fun i hi' => hi i (List.mem_cons_of_mem _ hi') with ⟨xs, hx⟩ | ⟨m, hm⟩
      · exact .inl ⟨(id, j) :: xs, by simp [hj, hx, bind, Except.bind, pure, Except.pure]⟩
      · exact .inr ⟨m, by simp [hj, hm, bind, Except.bind]⟩

theorem serRegistries_total (L : Lib) {ser : Ty → Val → Except Exc Json} {typed : Ty → Val → Prop}
    (h : ∀ ty x, typed ty x → ∃ j, ser ty x = .ok j) (ordered : Bool) (gv : GraphVal) (cs : List Class)
    (hlow : ∀ c ∈ cs, ∀ p ∈ c.properties, Mapry.lower p.name = p.name)
    (hi : ∀ c ∈ cs, ∃ r, gv.registries.lookup c.name = some r ∧
      ∀ i ∈ r.instances, TypedProps typed c.properties i.2.attrs) (target : List (Str × Json)) :
    (∃ xs, serRegistries L ser ordered gv cs target = .ok xs) ∨
    ∃ m, serRegistries L ser ordered gv cs target = .error (.valueError m) := by
  induction cs generalizing target with
  | nil => exact .inl ⟨target, rfl⟩
  | cons c cs ih =>
    have ih := fun target => ih (fun c hc => hlow c (List.mem_cons_of_mem _ hc))
      (fun c hc => hi c (List.mem_cons_of_mem _ hc)) target
    obtain ⟨r, hr, hin⟩ := hi c (List.mem_cons_self ..)
    simp only [serRegistries, hr]
    split
    · exact ih target
    · rcases serInstances_total L h ordered c (hlow c (List.mem_cons_self ..)) r.instances hin
        with ⟨xs, hx⟩ | ⟨m, hm⟩
      · simp only [hx, bind, Except.bind]; exact ih _
      · exact .inr ⟨m, by simp [hm, bind, Except.bind]⟩

/-! ## Serializing and reading back -/

theorem forall₂_of_all {α β : Type} {R : α → β → Prop} {l : List α} (h : ∀ a ∈ l, ∃ b, R a b) :
    ∃ m, Forall₂ R l m := by
  induction l with
  | nil => exact ⟨[], .nil⟩
  | cons a l ih =>
    obtain ⟨b, hb⟩ := h a (List.mem_cons_self ..)
    obtain ⟨m, hm⟩ := ih fun a ha => h a (List.mem_cons_of_mem _ ha)
    exact ⟨b :: m, .cons hb hm⟩

theorem serItems_reads {f : Val → Except Exc Json} {R : Json → Val → Prop} {vs : List Val}
    (h : ∀ v ∈ vs, ∃ j, f v = .ok j ∧ R j v) : ∃ xs, serItems f vs = .ok xs ∧ Forall₂ R xs vs := by
  induction vs with
  | nil => exact ⟨[], rfl, .nil⟩
  | cons v vs ih =>
    obtain ⟨j, hj, hr⟩ := h v (List.mem_cons_self ..)
    obtain ⟨xs, hx, hf⟩ := ih fun v hv => h v (List.mem_cons_of_mem _ hv)
    exact ⟨j :: xs, by simp [serItems, hj, hx, bind, Except.bind, pure, Except.pure], .cons hr hf⟩

theorem serEntries_reads {f : Val → Except Exc Json} {R : Json → Val → Prop} {vs : List (Str × Val)}
    (h : ∀ v ∈ vs, ∃ j, f v.2 = .ok j ∧ R j v.2) :
    ∃ xs, serEntries f vs = .ok xs ∧ Forall₂ (fun kv w => kv.1 = w.1 ∧ R kv.2 w.2) xs vs := by
  induction vs with
  | nil => exact ⟨[], rfl, .nil⟩
  | cons v vs ih =>
    obtain ⟨k, v⟩ := v
    obtain ⟨j, hj, hr⟩ := h (k, v) (List.mem_cons_self ..)
    obtain ⟨xs, hx, hf⟩ := ih fun v hv => h v (List.mem_cons_of_mem _ hv)
    simp only at hj hr
    exact ⟨(k, j) :: xs, by simp [serEntries, hj, hx, bind, Except.bind, pure, Except.pure],
      .cons ⟨rfl, hr⟩ hf⟩

section

variable {lax : Bool} {L : Lib} {S : Settings} {g : Graph} {ids registered : Str → Str → Prop}

/-- The value is written to something which describes it. -/
def WrittenBack (ser : Val → Except Exc Json) (reads : Json → Val → Prop) (x : Val) : Prop :=
  ∃ j, ser x = .ok j ∧ j ≠ .null ∧ reads j x

theorem serTy_reads (hids : ∀ c id, registered c id → ids c id) {F G : Str → Val → Prop}
    {R : Str → Json → Val → Prop} {embed : Str → Val → Except Exc Json}
    (h : ∀ name x, F name x → G name x → WrittenBack (embed name) (R name) x) (ty : Ty) (x : Val)
    (hf : FitsTy lax L S false registered F ty x) (hg : FaithfulTy L G ty x) :
    WrittenBack (serTy L S embed ty) (ReadsTy lax L S ids R ty) x := by
  induction ty generalizing x with
  | boolean => obtain ⟨c, rfl⟩ := hf; exact ⟨.bool c, rfl, by simp, c, rfl, rfl⟩
  | integer b =>
    rcases hf with ⟨i, rfl, hb⟩ | ⟨hl, c, rfl, hb⟩
    · exact ⟨.int i, rfl, by simp, i, .int i, hb⟩
    · exact ⟨.bool c, rfl, by simp, boolNum c, .bool c hl, hb⟩
  | float b =>
    obtain ⟨f, rfl, hb | ⟨hb, _⟩⟩ := hf
    · exact ⟨.float f, rfl, by simp, .inl ⟨f, rfl, rfl, hb⟩⟩
    · simp at hb
  | string p => obtain ⟨s, rfl, hm⟩ := hf; exact ⟨.str s, rfl, by simp, s, rfl, rfl, hm⟩
  | path p =>
    obtain ⟨s, rfl, hm⟩ := hf
    unfold pathVal at hg ⊢
    cases hp : S.pathlib with
    | true =>
      simp only [hp, if_true] at hg ⊢
      obtain ⟨h1, h2⟩ := hg _ rfl
      refine ⟨.str (L.normPath s), by simp [serTy, hp], by simp, L.normPath s, rfl, ?_, h2⟩
      simp [pathVal, hp, h1]
    | false =>
      refine ⟨.str s, by simp [serTy, hp, serDirect], by simp, s, rfl, by simp [pathVal, hp], hm⟩
  | date f =>
    obtain ⟨s, d, hd, rfl⟩ := hf
    obtain ⟨d', h1, h2, h3, h4⟩ := hg _ rfl
    refine ⟨.str _, rfl, by simp, _, d', rfl, h1, ?_⟩
    rw [h2, h3, h4]
  | time f =>
    obtain ⟨s, d, hd, rfl⟩ := hf
    obtain ⟨d', h1, h2, h3, h4, h5⟩ := hg _ rfl
    refine ⟨.str _, rfl, by simp, _, d', rfl, h1, ?_⟩
    rw [h2, h3, h4, h5]
  | datetime f =>
    obtain ⟨s, d, hd, rfl⟩ := hf
    exact ⟨.str _, rfl, by simp, _, d, rfl, hg _ rfl, rfl⟩
  | timeZone =>
    simp only [FitsTy] at hf
    split at hf
    · next hp =>
      obtain ⟨s, z, hz, rfl⟩ := hf
      refine ⟨.str z, by simp [serTy, hp], by simp, z, rfl, ?_⟩
      rw [if_pos hp]
      exact ⟨z, hg z rfl, rfl⟩
    · next hp =>
      obtain ⟨s, rfl⟩ := hf
      refine ⟨.str s, by simp [serTy, hp, serDirect], by simp, s, rfl, ?_⟩
      rw [if_neg hp]
  | duration =>
    obtain ⟨d, rfl, hd⟩ := hf
    exact ⟨.str _, rfl, by simp, _, d, rfl, Props.C13_python_round_trip d hd, rfl⟩
  | cls c =>
    obtain ⟨id, rfl, hr⟩ := hf
    exact ⟨.str id, rfl, by simp, id, rfl, rfl, hids c id hr⟩
  | embed name => exact h name x hf hg
  | array t lo hi ih =>
    obtain ⟨vs, rfl, hsz, hv⟩ := hf
    obtain ⟨xs, hx, hfa⟩ := serItems_reads (f := serTy L S embed t) (R := ReadsTy lax L S ids R t)
      (vs := vs) fun v hv' =>
        let ⟨j, h1, _, h3⟩ := ih v (hv v hv') (hg vs rfl v hv')
        ⟨j, h1, h3⟩
    refine ⟨.arr xs, by simp [serTy, hx, bind, Except.bind, pure, Except.pure], by simp, xs, vs, rfl,
      rfl, ?_, hfa⟩
    rw [forall₂_length hfa]; exact hsz
  | map t ih =>
    obtain ⟨o, vs, rfl, hv⟩ := hf
    obtain ⟨xs, hx, hfa⟩ := serEntries_reads (f := serTy L S embed t) (R := ReadsTy lax L S ids R t)
      (vs := vs) fun v hv' =>
        let ⟨j, h1, _, h3⟩ := ih v.2 (hv v hv') (hg o vs rfl v hv')
        ⟨j, h1, h3⟩
    exact ⟨.obj o xs, by simp [serTy, hx, bind, Except.bind, pure, Except.pure], by simp, o, xs, vs, rfl,
      rfl, hfa⟩

/-- The attributes of a composite with distinct names are found under their names. -/
theorem lookup_attr {fits : Ty → Val → Prop} {ps : List Property} {attrs : Attrs}
    (hd : (ps.map fun p => Mapry.lower p.name).Nodup) (h : FitsProps fits ps attrs) :
    Forall₂ (fun p a => attrs.lookup (Mapry.lower p.name) = some a.2 ∧ a.1 = Mapry.lower p.name ∧
      ((p.optional = true ∧ a.2 = .none) ∨ fits p.ty a.2)) ps attrs := by
  induction h with
  | nil => exact .nil
  | @cons p a ps attrs h1 h2 ih =>
    rw [List.map_cons, List.nodup_cons] at hd
    obtain ⟨ak, av⟩ := a
    obtain ⟨rfl, h1⟩ := h1
    refine .cons ⟨by simp [List.lookup], rfl, h1⟩ (Forall₂.imp_mem ?_ (ih hd.2))
    rintro q b hq _ ⟨hl, hb⟩
    refine ⟨?_, hb⟩
    have hne : Mapry.lower q.name ≠ Mapry.lower p.name := fun he =>
      hd.1 (List.mem_map.2 ⟨q, hq, he⟩)
    have : (Mapry.lower q.name == Mapry.lower p.name) = false := beq_false_of_ne hne
    simp only [List.lookup, this]
    exact hl

/-- The properties are written to a dictionary which describes the attributes. -/
theorem serProps_reads {ser : Ty → Val → Except Exc Json} {reads : Ty → Json → Val → Prop}
    (field : Property → Str) (all : Attrs) (ps : List Property) (attrs : Attrs)
    (h : Forall₂ (fun p a => all.lookup (field p) = some a.2 ∧ a.1 = Mapry.lower p.name ∧
      ((p.optional = true ∧ a.2 = .none) ∨ (a.2 ≠ .none ∧ WrittenBack (ser p.ty) (reads p.ty) a.2)))
      ps attrs)
    (hj : (ps.map (·.json)).Nodup) (target : List (Str × Json))
    (ht : ∀ p ∈ ps, target.lookup p.json = none) :
    ∃ kvs, serProps ser field all ps target = .ok kvs ∧
      (∀ k, k ∉ ps.map (·.json) → kvs.lookup k = target.lookup k) ∧
      ∀ kvs', (∀ k ∈ ps.map (·.json), kvs'.lookup k = kvs.lookup k) → ReadsProps reads kvs' ps attrs := by
  induction h generalizing target with
  | nil => exact ⟨target, rfl, fun k _ => rfl, fun _ _ => .nil⟩
  | @cons p a ps attrs h1 h2 ih =>
    rw [List.map_cons, List.nodup_cons] at hj
    obtain ⟨hl, ha, hx⟩ := h1
    have hnot : p.json ∉ ps.map (·.json) := hj.1
    have hpres : ∀ (t : List (Str × Json)) k, present t k = match t.lookup k with
        | some .null => none
        | r => r := fun _ _ => rfl
    rcases hx with ⟨ho, hn⟩ | ⟨hn, j, hsj, hjn, hr⟩
    · obtain ⟨kvs, hk, h3, h4⟩ := ih hj.2 target fun q hq => ht q (List.mem_cons_of_mem _ hq)
      refine ⟨kvs, ?_, ?_, ?_⟩
      · rw [serProps.eq_def]
        simp only [hl, hn, ho, if_true]
        exact hk
      · intro k hkn
        exact h3 k fun hm => hkn (List.mem_cons_of_mem _ hm)
      · intro kvs' hkvs'
        refine .cons ⟨ha, ?_⟩ (h4 kvs' fun k hk => hkvs' k (List.mem_cons_of_mem _ hk))
        unfold ReadsProperty
        have : kvs'.lookup p.json = none := by
          rw [hkvs' _ (List.mem_cons_self ..), h3 _ hnot]
          exact ht p (List.mem_cons_self ..)
        rw [hpres, this]
        exact ⟨ho, hn⟩
    · obtain ⟨kvs, hk, h3, h4⟩ := ih hj.2 (putKey p.json j target) fun q hq => by
        rw [lookup_putKey, if_neg fun he => hnot (List.mem_map.2 ⟨q, hq, he⟩)]
        exact ht q (List.mem_cons_of_mem _ hq)
      refine ⟨kvs, ?_, ?_, ?_⟩
      · rw [serProps.eq_def]
        simp only [hl, hsj, bind, Except.bind]
        exact hk
      · intro k hkn
        rw [h3 k fun hm => hkn (List.mem_cons_of_mem _ hm), lookup_putKey,
          if_neg fun he => hkn (by rw [he]; exact List.mem_cons_self ..)]
      · intro kvs' hkvs'
        refine .cons ⟨ha, ?_⟩ (h4 kvs' fun k hk => hkvs' k (List.mem_cons_of_mem _ hk))
        have : present kvs' p.json = some j := by
          rw [present_some]
          refine ⟨?_, hjn⟩
          rw [hkvs' _ (List.mem_cons_self ..), h3 _ hnot, lookup_putKey, if_pos rfl]
        unfold ReadsProperty
        rw [this]
        exact hr

/-- No value of a type is `None`. -/
theorem fits_ne_none {rounded : Bool} {F : Str → Val → Prop} (h : ∀ name x, F name x → x ≠ .none) (ty : Ty)
    (x : Val) (hf : FitsTy lax L S rounded registered F ty x) : x ≠ .none := by
  cases ty with
  | integer b => rcases hf with ⟨i, rfl, _⟩ | ⟨_, c, rfl, _⟩ <;> simp
  | path p => obtain ⟨s, rfl, _⟩ := hf; unfold pathVal; split <;> simp
  | timeZone =>
    simp only [FitsTy] at hf
    split at hf
    · obtain ⟨s, z, _, rfl⟩ := hf; simp
    · obtain ⟨s, rfl⟩ := hf; simp
  | embed name => exact h name x hf
  | date f => obtain ⟨s, d, _, rfl⟩ := hf; simp
  | time f => obtain ⟨s, d, _, rfl⟩ := hf; simp
  | datetime f => obtain ⟨s, d, _, rfl⟩ := hf; simp
  | map t => obtain ⟨o, s, rfl, _⟩ := hf; simp
  | boolean => obtain ⟨s, rfl⟩ := hf; simp
  | _ => obtain ⟨s, rfl, _⟩ := hf; simp

theorem fitsEmbed_ne_none {rounded : Bool} (n : Nat) (name : Str) (x : Val)
    (hf : FitsEmbed lax L S g rounded registered n name x) : x ≠ .none := by
  cases n with
  | zero => exact hf.elim
  | succ n => obtain ⟨e, attrs, _, rfl, _⟩ := hf; simp

/-- The composite: what is written describes the attributes. -/
theorem composite_reads {fits faithful : Ty → Val → Prop} {ser : Ty → Val → Except Exc Json}
    {reads : Ty → Json → Val → Prop} (hne : ∀ ty x, fits ty x → x ≠ .none)
    (h : ∀ ty x, fits ty x → faithful ty x → WrittenBack (ser ty) (reads ty) x)
    (field : Property → Str) (ps : List Property) (attrs : Attrs)
    (hfield : ∀ p ∈ ps, field p = Mapry.lower p.name) (hd : (ps.map fun p => Mapry.lower p.name).Nodup)
    (hj : (ps.map (·.json)).Nodup) (hf : FitsProps fits ps attrs) (hg : FaithfulProps faithful ps attrs) :
    ∃ kvs, serProps ser field attrs ps [] = .ok kvs ∧
      (∀ k, k ∉ ps.map (·.json) → kvs.lookup k = none) ∧
      ∀ kvs', (∀ k ∈ ps.map (·.json), kvs'.lookup k = kvs.lookup k) → ReadsProps reads kvs' ps attrs := by
  refine serProps_reads (ser := ser) (reads := reads) field attrs ps attrs ?_ hj [] (fun p _ => rfl)
  · refine Forall₂.imp_mem ?_ (lookup_attr hd hf)
    rintro p a hp _ ⟨h1, h2, h3⟩
    refine ⟨by rw [hfield p hp]; exact h1, h2, ?_⟩
    rcases h3 with h3 | h3
    · exact .inl h3
    · exact .inr ⟨hne _ _ h3, h _ _ h3 (hg p hp _ h1 (hne _ _ h3))⟩

theorem serEmbed_reads (hids : ∀ c id, registered c id → ids c id) (hd : Distinct g) (hk : JsonKeys g)
    (hlow : LowerNames g) (n : Nat) (name : Str) (x : Val)
    (hf : FitsEmbed lax L S g false registered n name x) (hg : FaithfulEmbed L g n name x) :
    WrittenBack (serEmbed L S g n name) (ReadsEmbed lax L S g ids n name) x := by
  induction n generalizing name x with
  | zero => exact hf.elim
  | succ n ih =>
    obtain ⟨e, attrs, he, rfl, hp⟩ := hf
    have hm := embed_mem he
    obtain ⟨kvs, h1, _, h3⟩ := composite_reads (fits_ne_none (fitsEmbed_ne_none n))
      (serTy_reads hids (fun name x => ih name x)) (fun p => p.name) e.properties attrs
      (fun p hp => (hlow.embed e hm p hp).symm) (hd.embed e hm) (hk.embed e hm) hp (hg e attrs he rfl)
    refine ⟨.obj false kvs, ?_, by simp, e, false, kvs, attrs, he, rfl, rfl, h3 kvs fun _ _ => rfl⟩
    simp [serEmbed, he, serComposite, h1, bind, Except.bind, pure, Except.pure]

theorem ser_reads (hids : ∀ c id, registered c id → ids c id) (hd : Distinct g) (hk : JsonKeys g)
    (hlow : LowerNames g) (n : Nat) (ty : Ty) (x : Val)
    (hf : Fits lax L S g false registered n ty x) (hg : Faithful L g n ty x) :
    WrittenBack (serTy L S (serEmbed L S g n) ty) (Reads lax L S g ids n ty) x :=
  serTy_reads hids (fun name x => serEmbed_reads hids hd hk hlow n name x) ty x hf hg

/-! ### The identifiers may become more -/

theorem readsTy_ids (hids : ∀ c id, registered c id → ids c id) {R R' : Str → Json → Val → Prop}
    (h : ∀ name v x, R name v x → R' name v x) (ty : Ty) (v : Json) (x : Val)
    (hr : ReadsTy lax L S registered R ty v x) : ReadsTy lax L S ids R' ty v x := by
  induction ty generalizing v x with
  | array t lo hi ih =>
    obtain ⟨xs, vs, rfl, rfl, hsz, hf⟩ := hr
    exact ⟨xs, vs, rfl, rfl, hsz, Forall₂.imp (fun a b hab => ih a b hab) hf⟩
  | map t ih =>
    obtain ⟨o, kvs, ws, rfl, rfl, hf⟩ := hr
    exact ⟨o, kvs, ws, rfl, rfl, Forall₂.imp (fun a b hab => ⟨hab.1, ih a.2 b.2 hab.2⟩) hf⟩
  | embed name => exact h name v x hr
  | cls c => obtain ⟨id, rfl, rfl, hi⟩ := hr; exact ⟨id, rfl, rfl, hids c id hi⟩
  | _ => exact hr

theorem readsProps_imp {R R' : Ty → Json → Val → Prop} {kvs : List (Str × Json)}
    (h : ∀ ty v x, R ty v x → R' ty v x) {ps : List Property} {attrs : Attrs}
    (hr : ReadsProps R kvs ps attrs) : ReadsProps R' kvs ps attrs := by
  refine Forall₂.imp ?_ hr
  rintro p a ⟨ha, hp⟩
  refine ⟨ha, ?_⟩
  unfold ReadsProperty at hp ⊢
  split at hp
  · exact hp
  · exact h _ _ _ hp

theorem readsEmbed_ids (hids : ∀ c id, registered c id → ids c id) (n : Nat) (name : Str) (v : Json)
    (x : Val) (hr : ReadsEmbed lax L S g registered n name v x) :
    ReadsEmbed lax L S g ids n name v x := by
  induction n generalizing name v x with
  | zero => exact hr
  | succ n ih =>
    obtain ⟨e, o, kvs, attrs, he, rfl, rfl, hp⟩ := hr
    exact ⟨e, o, kvs, attrs, he, rfl, rfl, readsProps_imp (fun ty v x => readsTy_ids hids ih ty v x) hp⟩

theorem reads_ids (hids : ∀ c id, registered c id → ids c id) (n : Nat) (ty : Ty) (v : Json)
    (x : Val) (hr : Reads lax L S g registered n ty v x) : Reads lax L S g ids n ty v x :=
  readsTy_ids hids (readsEmbed_ids hids n) ty v x hr

/-! ### Registries and graphs -/

/-- The entry describes the instance. -/
def EntryReads (L : Lib) (reads : Ty → Json → Val → Prop) (ordered : Bool) (c : Class)
    (e : Str × Json) (i : Str × Instance) : Prop :=
  i.1 = e.1 ∧ i.2.id = e.1 ∧ Matches L c.idPattern e.1 ∧
    ∃ kvs', e.2 = .obj ordered kvs' ∧ ReadsProps reads kvs' c.properties i.2.attrs

theorem serInstances_reads {fits faithful : Ty → Val → Prop} {ser : Ty → Val → Except Exc Json}
    {reads : Ty → Json → Val → Prop} (hne : ∀ ty x, fits ty x → x ≠ .none)
    (h : ∀ ty x, fits ty x → faithful ty x → WrittenBack (ser ty) (reads ty) x)
    (ordered : Bool) (c : Class) (hlow : ∀ p ∈ c.properties, Mapry.lower p.name = p.name)
    (hd : (c.properties.map fun p => Mapry.lower p.name).Nodup) (hj : (c.properties.map (·.json)).Nodup)
    (is : List (Str × Instance))
    (hi : ∀ i ∈ is, i.2.id = i.1 ∧ Matches L c.idPattern i.1 ∧ FitsProps fits c.properties i.2.attrs ∧
      FaithfulProps faithful c.properties i.2.attrs) :
    ∃ xs, serInstances L ser ordered c is = .ok xs ∧ Forall₂ (EntryReads L reads ordered c) xs is := by
  induction is with
  | nil => exact ⟨[], rfl, .nil⟩
  | cons i is ih =>
    obtain ⟨id, inst⟩ := i
    obtain ⟨h1, h2, h3, h4⟩ := hi (id, inst) (List.mem_cons_self ..)
    obtain ⟨xs, hx, hf⟩ := ih fun i hi' => hi i (List.mem_cons_of_mem _ hi')
    simp only at h1 h2 h3 h4
    obtain ⟨kvs, hk, _, hr⟩ := composite_reads hne h (fun p => p.name) c.properties inst.attrs
      (fun p hp => (hlow p hp).symm) hd hj h3 h4
    refine ⟨(id, .obj ordered kvs) :: xs, ?_, .cons ⟨rfl, h1, h2, kvs, rfl, hr kvs fun _ _ => rfl⟩ hf⟩
    simp [serInstances, h1, serComposite, hk, hx, bind, Except.bind, pure, Except.pure]

theorem serRegistries_reads {fits faithful : Ty → Val → Prop} {ser : Ty → Val → Except Exc Json}
    {reads : Ty → Json → Val → Prop} (hne : ∀ ty x, fits ty x → x ≠ .none)
    (h : ∀ ty x, fits ty x → faithful ty x → WrittenBack (ser ty) (reads ty) x)
    (ordered : Bool) (gv : GraphVal) (cs : List Class) (rs : List (Str × Registry))
    (hlow : ∀ c ∈ cs, ∀ p ∈ c.properties, Mapry.lower p.name = p.name)
    (hd : ∀ c ∈ cs, (c.properties.map fun p => Mapry.lower p.name).Nodup)
    (hj : ∀ c ∈ cs, (c.properties.map (·.json)).Nodup)
    (hf : Forall₂ (fun (c : Class) (r : Str × Registry) =>
      gv.registries.lookup c.name = some r.2 ∧ ∀ i ∈ r.2.instances, i.2.id = i.1 ∧
        Matches L c.idPattern i.1 ∧ FitsProps fits c.properties i.2.attrs ∧
        FaithfulProps faithful c.properties i.2.attrs) cs rs)
    (hk : (cs.map registryKey).Nodup) (target : List (Str × Json))
    (ht : ∀ c ∈ cs, target.lookup (registryKey c) = none) :
    ∃ kvs, serRegistries L ser ordered gv cs target = .ok kvs ∧
      (∀ k, k ∉ cs.map registryKey → kvs.lookup k = target.lookup k) ∧
      Forall₂ (fun (c : Class) (r : Str × Registry) =>
        (r.2.instances = [] ∧ kvs.lookup (registryKey c) = none) ∨
        (r.2.instances ≠ [] ∧ ∃ xs, kvs.lookup (registryKey c) = some (.obj ordered xs) ∧
          Forall₂ (EntryReads L reads ordered c) xs r.2.instances)) cs rs := by
  induction hf generalizing target with
  | nil => exact ⟨target, rfl, fun _ _ => rfl, .nil⟩
  | @cons c r cs rs h1 h2 ih =>
    rw [List.map_cons, List.nodup_cons] at hk
    have ih := ih (fun c hc => hlow c (List.mem_cons_of_mem _ hc))
      (fun c hc => hd c (List.mem_cons_of_mem _ hc)) (fun c hc => hj c (List.mem_cons_of_mem _ hc)) hk.2
    obtain ⟨hl, hi⟩ := h1
    by_cases hemp : r.2.instances = []
    · obtain ⟨kvs, h3, h4, h5⟩ := ih target fun c hc => ht c (List.mem_cons_of_mem _ hc)
      refine ⟨kvs, ?_, fun k hkn => h4 k fun hm => hkn (List.mem_cons_of_mem _ hm), .cons ?_ h5⟩
      · simp [serRegistries, hl, hemp, h3]
      · exact .inl ⟨hemp, by rw [h4 _ hk.1]; exact ht c (List.mem_cons_self ..)⟩
    · obtain ⟨xs, hx, hxf⟩ := serInstances_reads hne h ordered c (hlow c (List.mem_cons_self ..))
        (hd c (List.mem_cons_self ..)) (hj c (List.mem_cons_self ..)) r.2.instances hi
      obtain ⟨kvs, h3, h4, h5⟩ := ih (putKey (registryKey c) (.obj ordered xs) target) fun d hd => by
        rw [lookup_putKey, if_neg fun he => hk.1 (List.mem_map.2 ⟨d, hd, he⟩)]
        exact ht d (List.mem_cons_of_mem _ hd)
      refine ⟨kvs, ?_, ?_, .cons (.inr ⟨hemp, xs, ?_, hxf⟩) h5⟩
      · have : r.2.instances.isEmpty = false := by
          cases hr : r.2.instances with
          | nil => exact absurd hr hemp
          | cons _ _ => rfl
        simp [serRegistries, hl, this, hx, h3, bind, Except.bind]
      · intro k hkn
        rw [h4 k fun hm => hkn (List.mem_cons_of_mem _ hm), lookup_putKey,
          if_neg fun he => hkn (by rw [he]; exact List.mem_cons_self ..)]
      · rw [h4 _ hk.1, lookup_putKey, if_pos rfl]

theorem lookup_registries {Q : Class → Str × Registry → Prop} {cs : List Class}
    {rs : List (Str × Registry)} (hn : (cs.map (·.name)).Nodup)
    (h : Forall₂ (fun c r => r.1 = c.name ∧ Q c r) cs rs) :
    Forall₂ (fun c r => rs.lookup c.name = some r.2 ∧ r.1 = c.name ∧ Q c r) cs rs := by
  induction h with
  | nil => exact .nil
  | @cons c r cs rs h1 h2 ih =>
    rw [List.map_cons, List.nodup_cons] at hn
    obtain ⟨rk, r⟩ := r
    obtain ⟨rfl, h1⟩ := h1
    refine .cons ⟨by simp [List.lookup], rfl, h1⟩ (Forall₂.imp_mem ?_ (ih hn.2))
    rintro d s hd _ ⟨hl, hs⟩
    refine ⟨?_, hs⟩
    have : (d.name == c.name) = false := beq_false_of_ne fun he => hn.1 (List.mem_map.2 ⟨d, hd, he⟩)
    simp only [List.lookup, this]
    exact hl

theorem forall₂_map_right {α β γ : Type} {R : α → γ → Prop} {f : β → γ} {l : List α} {m : List β}
    (h : Forall₂ (fun a b => R a (f b)) l m) : Forall₂ R l (m.map f) := by
  induction h with
  | nil => exact .nil
  | cons h1 _ ih => exact .cons h1 ih

theorem forall₂_and {α β : Type} {R Q : α → β → Prop} {l : List α} {m : List β}
    (h : Forall₂ R l m) (h' : Forall₂ Q l m) : Forall₂ (fun a b => R a b ∧ Q a b) l m := by
  induction h with
  | nil => exact .nil
  | cons h1 _ ih => cases h' with
    | cons h2 h3 => exact .cons ⟨h1, h2⟩ (ih h3)

/-- What is written describes the graph. -/
theorem serGraph_reads (hd : Distinct g) (hk : JsonKeys g) (hlow : LowerNames g) (n : Nat)
    (ordered : Bool) (gv : GraphVal) (hv : ValidGraph lax L S g false n gv)
    (hf : FaithfulGraph L g n gv) :
    ∃ j, serGraph L S g n ordered gv = .ok j ∧ ReadsGraph lax L S g n j (withOrdered ordered gv) := by
  have hne : ∀ ty x, Fits lax L S g false (Registered gv) n ty x → x ≠ .none :=
    fits_ne_none (fitsEmbed_ne_none n)
  have hw : ∀ ty x, Fits lax L S g false (Registered gv) n ty x → Faithful L g n ty x →
      WrittenBack (serTy L S (serEmbed L S g n) ty) (Reads lax L S g (Registered gv) n ty) x :=
    fun ty x => ser_reads (fun _ _ h => h) hd hk hlow n ty x
  obtain ⟨hkn, hkr, hkd⟩ := List.nodup_append.1 hk.graph
  obtain ⟨kvs, h1, h2, h3⟩ := composite_reads hne hw attr g.properties gv.attrs (fun p _ => rfl) hd.graph
    hkn hv.attrs hf.attrs
  have hregs := lookup_registries hd.names hv.registries
  obtain ⟨kvs', h4, h5, h6⟩ := serRegistries_reads (L := L) hne hw ordered gv g.classes gv.registries hlow.cls
    hd.cls hk.cls
    (Forall₂.imp_mem (fun c r hc _ ⟨ha, _, hb⟩ => ⟨ha, fun i hi =>
      ⟨(hb i hi).1, (hb i hi).2.1, (hb i hi).2.2, hf.registries c hc _ ha i hi⟩⟩) hregs)
    hkr kvs (fun c hc => h2 _ fun hm => by
      exact hkd _ hm _ (List.mem_map.2 ⟨c, hc, rfl⟩) rfl)
  -- the registered instances are described
  have hids : ∀ c id, Registered gv c id → Described g kvs' c id := by
    rintro c id ⟨r, hr, i, hi⟩
    obtain ⟨d, hdm, ⟨_, hname, _⟩, hcase⟩ := forall₂_right (forall₂_and hregs h6) _ hr
    refine ⟨d, hdm, hname.symm, ?_⟩
    rcases hcase with ⟨hemp, _⟩ | ⟨_, xs, hlk, hxf⟩
    · simp only at hemp; rw [hemp] at hi; simp at hi
    · obtain ⟨e, he, hid, _⟩ := forall₂_right hxf _ hi
      exact ⟨ordered, xs, hlk, List.mem_map.2 ⟨e, he, hid.symm⟩⟩
  refine ⟨.obj ordered kvs', ?_, ordered, kvs', rfl, ?_, ?_⟩
  · simp [serGraph, h1, h4, bind, Except.bind, pure, Except.pure]
  · refine forall₂_map_right (Forall₂.imp ?_ (forall₂_and hregs h6))
    rintro c ⟨rk, r⟩ ⟨⟨_, hname, _⟩, hcase⟩
    refine ⟨hname, ?_⟩
    rcases hcase with ⟨hemp, hlk⟩ | ⟨hnemp, xs, hlk, hxf⟩
    · simp only at hemp
      refine .inl ⟨hlk, ?_⟩
      simp [hemp]
    · simp only at hnemp hxf
      refine .inr ⟨ordered, xs, hlk, by simp [hnemp], ?_⟩
      refine Forall₂.imp ?_ hxf
      rintro e i ⟨h7, h8, h9, kvs'', h10, h11⟩
      exact ⟨h7, h8, h9, ordered, kvs'', h10, readsProps_imp (reads_ids hids n) h11⟩
  · refine readsProps_imp (reads_ids hids n) (h3 kvs' fun k hk => h5 k fun hm => ?_)
    exact hkd _ hk _ hm rfl

end

end Mapry.PyRuntime
