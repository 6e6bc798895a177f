import Verif.CppValues

/-!
# The graphs read by the generated C++ parser
-/

namespace Mapry.CppRuntime

open Mapry.Text Mapry.Duration Spec
open Mapry.PyRuntime.Spec (Within FloatWithin SizeWithin)

variable {B : Exc → Prop} {e : CppErrors}

/-! ## Pre-allocation -/

/-- The container is kept or enlarged by errors. -/
structure Keeps (e e' : CppErrors) : Prop where
  cap : e'.cap = e.cap
  le : e.values.length ≤ e'.values.length
  fits : e.values.length ≤ e.cap → e'.values.length ≤ e'.cap

theorem Keeps.refl (e : CppErrors) : Keeps e e := ⟨rfl, Nat.le_refl _, id⟩

theorem Keeps.trans {a b c : CppErrors} (h : Keeps a b) (h' : Keeps b c) : Keeps a c :=
  ⟨h'.cap.trans h.cap, Nat.le_trans h.le h'.le, fun x => h'.fits (h.fits x)⟩

theorem Keeps.add (e : CppErrors) (x : Err) : Keeps e (e.add x) := ⟨add_cap _ _, add_length _ _, fun h => add_le h x⟩

theorem Grew.keeps {a b c : CppErrors} (h : Grew a b) (h' : Keeps b c) : Grew a c :=
  ⟨h'.cap.trans h.cap, Nat.lt_of_lt_of_le h.lt h'.le⟩

theorem preallocIds_keeps (L : Lib) (c : Class) (ref : Str) (ids : List Str) :
    ∀ reg e, Keeps e (preallocIds L c ref ids reg e).2 := by
  induction ids with
  | nil => intro reg e; exact .refl e
  | cons id ids ih =>
    intro reg e
    unfold preallocIds
    split
    · exact ih _ _
    · simp only
      split
      · exact .add ..
      · exact (Keeps.add _ _).trans (ih _ _)

theorem prealloc_keeps (L : Lib) (kvs : List (Str × JVal)) (ref : Str) (c : Class)
    (regs : List (Str × GoMap Instance)) (e : CppErrors) : Keeps e (prealloc L kvs ref c regs e).2 := by
  unfold prealloc
  split
  · exact .refl e
  · exact preallocIds_keeps ..
  · exact .add ..

theorem preallocAll_keeps (L : Lib) (kvs : List (Str × JVal)) (ref : Str) (cs : List Class) :
    ∀ regs e, Keeps e (preallocAll L kvs ref cs regs e).2 := by
  induction cs with
  | nil => intro regs e; exact .refl e
  | cons c cs ih => intro regs e; exact (prealloc_keeps L kvs ref c regs e).trans (ih _ _)

/-- The new instance of a class -/
def fresh (c : Class) (id : Str) : Str × Instance := (id, ⟨id, zeroFields c.properties⟩)

theorem idOk_iff (L : Lib) (c : Class) (id : Str) : idOk L c id = true ↔ Matches L c.idPattern id := by
  unfold idOk Matches
  cases c.idPattern <;> simp

theorem outcome_preallocIds (L : Lib) (c : Class) (ref : Str) (ids : List Str) (ha : ids.Pairwise (· < ·)) :
    ∀ (reg : GoMap Instance) e, Room e → (∀ a ∈ reg, ∀ id ∈ ids, a.1 < id) →
      Outcome (fun r => r = reg ++ ids.map (fresh c) ∧ ∀ id ∈ ids, Matches L c.idPattern id) B e
        (.ok (preallocIds L c ref ids reg e)) := by
  induction ids with
  | nil =>
    intro reg e _ _
    refine .value ⟨by simp, fun _ h => by cases h⟩ ?_
    rintro y ⟨rfl, _⟩
    simp
  | cons id ids ih =>
    intro reg e hr hreg
    have ha' := List.pairwise_cons.1 ha
    have hlt : ∀ a ∈ reg, a.1 < id := fun a h => hreg a h id List.mem_cons_self
    unfold preallocIds
    split
    · next hok =>
      rw [put_last _ hlt]
      refine Outcome.congr (fun r => ?_) (ih ha'.2 (reg ++ [(id, ⟨id, zeroFields c.properties⟩)]) e hr ?_)
      · constructor
        · rintro ⟨rfl, h⟩
          refine ⟨by simp [fresh], fun i hi => ?_⟩
          rcases List.mem_cons.1 hi with rfl | hi
          · exact (idOk_iff L c _).1 hok
          · exact h i hi
        · rintro ⟨rfl, h⟩
          exact ⟨by simp [fresh], fun i hi => h i (List.mem_cons_of_mem _ hi)⟩
      · intro a h i hi
        rcases List.mem_append.1 h with h | h
        · exact hreg a h i (List.mem_cons_of_mem _ hi)
        · rw [List.mem_singleton.1 h]; exact ha'.1 i hi
    · next hok =>
      have hn : ∀ r : GoMap Instance, ¬ (r = reg ++ (id :: ids).map (fresh c) ∧
          ∀ i ∈ id :: ids, Matches L c.idPattern i) :=
        fun r h => hok ((idOk_iff L c id).2 (h.2 id List.mem_cons_self))
      simp only
      split
      · exact .add hr hn
      · have hk := preallocIds_keeps L c ref ids reg
          (e.add ⟨ref, c!"Expected ID to match " ++ c.idPattern.getD [] ++ c!", but got: " ++ id⟩)
        exact .inr ⟨(Grew.add hr _).keeps hk, hk.fits (add_le hr.le _), hn⟩

theorem registryIn_middle {done rest : List (Str × GoMap Instance)} {c : Str} {r : GoMap Instance}
    (h : c ∉ done.map (·.1)) : registryIn (done ++ (c, r) :: rest) c = r := by
  unfold registryIn
  rw [lookup_middle h]; rfl

theorem setRegistry_middle {done rest : List (Str × GoMap Instance)} {c : Str} {r r' : GoMap Instance}
    (h : c ∉ done.map (·.1)) : setRegistry c r' (done ++ (c, r) :: rest) = done ++ (c, r') :: rest := by
  induction done with
  | nil => simp [setRegistry]
  | cons a done ih =>
    rw [List.map_cons, List.mem_cons, not_or] at h
    obtain ⟨k', x'⟩ := a
    rw [List.cons_append, setRegistry, if_neg (Ne.symm h.1), ih h.2]
    rfl

/-- The registry after the pre-allocation -/
def PreReg (L : Lib) (kvs : List (Str × JVal)) (c : Class) (r : GoMap Instance) : Prop :=
  (registryOf kvs c = none ∧ r = []) ∨
  ∃ entries, registryOf kvs c = some (.obj entries) ∧ r = entries.map (fun kv => fresh c kv.1) ∧
    ∀ kv ∈ entries, Matches L c.idPattern kv.1

theorem outcome_prealloc (L : Lib) (kvs : List (Str × JVal)) (hc : Canon (.obj kvs)) (ref : Str) (c : Class)
    (done rest : List (Str × GoMap Instance)) (hn : c.name ∉ done.map (·.1)) (hr : Room e) :
    ∃ r : GoMap Instance × CppErrors, Outcome (PreReg L kvs c) B e (.ok r) ∧
      prealloc L kvs ref c (done ++ (c.name, []) :: rest) e = (done ++ (c.name, r.1) :: rest, r.2) := by
  unfold prealloc
  have hkey : kvs.lookup (registryKey c) = registryOf kvs c := rfl
  rw [hkey]
  cases hl : registryOf kvs c with
  | none =>
    refine ⟨([], e), .value (.inl ⟨hl, rfl⟩) ?_, rfl⟩
    rintro y (⟨_, h⟩ | ⟨_, h, _⟩)
    · exact h
    · rw [hl] at h; cases h
  | some v =>
    by_cases hv : ∃ entries, v = .obj entries
    · obtain ⟨entries, rfl⟩ := hv
      have hce : Canon (.obj entries) := by
        cases hc with
        | obj _ _ h => exact h (_, _) (mem_of_lookup hl)
      have hasc : (entries.map (·.1)).Pairwise (· < ·) := by
        cases hce with
        | obj _ h _ => exact List.pairwise_map.2 h
      simp only
      rw [registryIn_middle hn]
      refine ⟨preallocIds L c (sub ref (registryKey c)) (entries.map (·.1)) [] e, ?_, ?_⟩
      · refine (outcome_preallocIds L c _ _ hasc [] e hr (fun a h => by cases h)).congr fun r => ?_
        rw [List.nil_append, List.map_map]
        constructor
        · rintro ⟨h1, h2⟩
          exact .inr ⟨entries, hl, h1, fun kv hkv => h2 kv.1 (List.mem_map_of_mem hkv)⟩
        · rintro (⟨h, _⟩ | ⟨es, h, h1, h2⟩)
          · rw [hl] at h; cases h
          · rw [hl] at h
            cases h
            refine ⟨h1, fun i hi => ?_⟩
            obtain ⟨kv, hkv, rfl⟩ := List.mem_map.1 hi
            exact h2 kv hkv
      · rw [setRegistry_middle hn]
    · refine ⟨([], e.add ⟨sub ref (registryKey c), c!"Expected an object, but got: " ++ typeName v⟩), .add hr ?_, ?_⟩
      · rintro y (⟨h, _⟩ | ⟨es, h, h1, h2⟩)
        · rw [hl] at h; cases h
        · rw [hl] at h
          cases h
          exact hv ⟨es, rfl⟩
      · cases v <;> first | rfl | exact absurd ⟨_, rfl⟩ hv

theorem outcome_preallocAll (L : Lib) (kvs : List (Str × JVal)) (hc : Canon (.obj kvs)) (ref : Str) (cs : List Class)
    (hnd : (cs.map (·.name)).Nodup) :
    ∀ (done : List (Str × GoMap Instance)) e, Room e → (∀ f ∈ done.map (·.1), f ∉ cs.map (·.name)) →
      Outcome (fun r => ∃ rs, r = done ++ rs ∧ Forall₂ (fun (c : Class) (r : Str × GoMap Instance) =>
        r.1 = c.name ∧ PreReg L kvs c r.2) cs rs) B e
        (.ok (preallocAll L kvs ref cs (done ++ cs.map fun c => (c.name, [])) e)) := by
  induction cs with
  | nil =>
    intro done e _ _
    refine .value ⟨[], rfl, .nil⟩ ?_
    rintro y ⟨fs, rfl, h⟩
    cases h; rfl
  | cons c cs ih =>
    intro done e hr hd
    have hnd' := List.nodup_cons.1 (show (c.name :: cs.map (·.name)).Nodup from hnd)
    have hn : c.name ∉ done.map (·.1) := fun h => hd _ h List.mem_cons_self
    obtain ⟨r, ho, heq⟩ := outcome_prealloc (B := B) L kvs hc ref c done (cs.map fun c => (c.name, [])) hn hr
    unfold preallocAll
    rw [List.map_cons, heq]
    obtain ⟨r, e'⟩ := r
    simp only
    rcases ho with ⟨h1, h2, h3⟩ | ⟨h1, h2, h3⟩
    · subst h1
      have hd' : ∀ f ∈ (done ++ [(c.name, r)]).map (·.1), f ∉ cs.map (·.name) := by
        intro f h
        rw [List.map_append, List.mem_append] at h
        rcases h with h | h
        · exact fun h' => hd f h (List.mem_cons_of_mem _ h')
        · rw [List.map_singleton, List.mem_singleton] at h
          rw [h]; exact hnd'.1
      have := ih hnd'.2 (done ++ [(c.name, r)]) e' hr hd'
      rw [List.append_assoc] at this
      refine Outcome.congr (fun rs => ?_) this
      constructor
      · rintro ⟨rs', rfl, h⟩
        exact ⟨(c.name, r) :: rs', by simp, .cons ⟨rfl, h2⟩ h⟩
      · rintro ⟨rs', rfl, h⟩
        cases h with
        | @cons _ f _ fs' h4 h5 =>
          obtain ⟨k, x⟩ := f
          obtain ⟨h6, h7⟩ := h4
          simp only at h6 h7
          subst h6
          rw [h3 _ h7]
          exact ⟨fs', by simp, h5⟩
    · have hk := preallocAll_keeps L kvs ref cs (done ++ (c.name, r) :: cs.map fun c => (c.name, [])) e'
      refine .inr ⟨h1.keeps hk, hk.fits h2, ?_⟩
      rintro z ⟨rs, rfl, h⟩
      cases h with
      | cons h4 _ => exact h3 _ h4.2

/-! ## Instances -/

theorem put_middle {α : Type} {done rest : GoMap α} {k : Str} {x y : α} (h : ∀ a ∈ done, a.1 < k) :
    GoMap.put k y (done ++ (k, x) :: rest) = done ++ (k, y) :: rest := by
  induction done with
  | nil => simp [GoMap.put]
  | cons a done ih =>
    obtain ⟨k', x'⟩ := a
    have hk : k' < k := h (k', x') List.mem_cons_self
    rw [List.cons_append, GoMap.put, if_neg (by rintro rfl; exact strLt_irrefl _ hk), if_neg (strLt_asymm hk),
      ih fun a ha => h a (List.mem_cons_of_mem _ ha)]
    rfl

theorem not_mem_keys {α : Type} {m : GoMap α} {k : Str} (h : ∀ a ∈ m, a.1 < k) : k ∉ m.map (·.1) := by
  intro hk
  obtain ⟨a, ha, rfl⟩ := List.mem_map.1 hk
  exact strLt_irrefl _ (h a ha)

/-- What is read after the pre-allocation of an instance -/
def ReadsBody (reads : Ty → JVal → Val → Prop) (c : Class) (kv : Str × JVal) (i : Str × Instance) : Prop :=
  i.1 = kv.1 ∧ i.2.id = kv.1 ∧ ∃ kvs, kv.2 = .obj kvs ∧ ReadsProps reads kvs c.properties i.2.fields

theorem outcome_instances (parse : Ty → ParseFn) (reads : Ty → JVal → Val → Prop) (c : Class)
    (hok : FieldsOk c.properties) (clean : Ty → Val → Prop) (hz : ∀ ty, clean ty .zero)
    (hother : ∀ ty t, needsEmplace ty = false → clean ty t) (ref : Str) (entries : GoMap JVal) (ha : GoMap.Ascending entries)
    (hf : ∀ kv ∈ entries, ∀ kvs, kv.2 = .obj kvs → ∀ p ∈ c.properties, ∀ v, kvs.lookup p.json = some v →
      ∀ ref t e, clean p.ty t → Room e → Outcome (reads p.ty v) B e (parse p.ty v ref t e)) :
    ∀ (done : GoMap Instance) e, Room e → (∀ a ∈ done, ∀ kv ∈ entries, a.1 < kv.1) →
      Outcome (fun r => ∃ rs, r = done ++ rs ∧ Forall₂ (ReadsBody reads c) entries rs) B e
        (parseInstances parse c ref entries (done ++ entries.map fun kv => fresh c kv.1) e) := by
  induction entries with
  | nil =>
    intro done e _ _
    refine .value ⟨[], rfl, .nil⟩ ?_
    rintro y ⟨fs, rfl, h⟩
    cases h; rfl
  | cons kv entries ih =>
    obtain ⟨id, v⟩ := kv
    intro done e hr hd
    have ha' := List.pairwise_cons.1 ha
    have ih := ih ha'.2 fun kv h => hf kv (List.mem_cons_of_mem _ h)
    have hlt : ∀ a ∈ done, a.1 < id := fun a h => hd a h (id, v) List.mem_cons_self
    have hd' : ∀ i : Instance, ∀ a ∈ done ++ [(id, i)], ∀ kv ∈ entries, a.1 < kv.1 := by
      intro i a h kv hkv
      rcases List.mem_append.1 h with h | h
      · exact hd a h kv (List.mem_cons_of_mem _ hkv)
      · rw [List.mem_singleton.1 h]; exact ha'.1 kv hkv
    have ho := outcome_composite (e := e) parse reads (sub ref id) c.properties hok clean hz hother _
      (clean_zeroFields hz _) v hr
      (hf (id, v) List.mem_cons_self)
    unfold parseInstances
    have hm : List.map (fun kv => fresh c kv.1) ((id, v) :: entries) =
        (id, ⟨id, zeroFields c.properties⟩) :: entries.map fun kv => fresh c kv.1 := rfl
    rw [hm, lookup_middle (not_mem_keys hlt)]
    have heq : (parseComposite parse c.properties v (sub ref id) (zeroFields c.properties) e >>= fun q =>
        (let reg := GoMap.put id ⟨id, q.1⟩ (done ++ (id, ⟨id, zeroFields c.properties⟩) ::
            entries.map fun kv => fresh c kv.1)
         if q.2.full then (.ok (reg, q.2) : Except Exc (GoMap Instance × CppErrors))
         else parseInstances parse c ref entries reg q.2)) =
        (parseComposite parse c.properties v (sub ref id) (zeroFields c.properties) e >>= fun q =>
          if q.2.full then .ok (done ++ (id, ⟨id, q.1⟩) :: entries.map (fun kv => fresh c kv.1), q.2)
          else parseInstances parse c ref entries
            ((done ++ [(id, ⟨id, q.1⟩)]) ++ entries.map fun kv => fresh c kv.1) q.2) := by
      congr 1
      funext q
      simp only
      rw [put_middle hlt, List.append_assoc]
      rfl
    refine Eq.mpr (congrArg (Outcome _ B e) heq) ?_
    refine Outcome.step (fun fs => done ++ (id, ⟨id, fs⟩) :: entries.map fun kv => fresh c kv.1)
      (fun fs e => parseInstances parse c ref entries
        ((done ++ [(id, ⟨id, fs⟩)]) ++ entries.map fun kv => fresh c kv.1) e) ho hr ?_ ?_ ?_
    · intro fs _ hy hu
      refine (ih (done ++ [(id, ⟨id, fs⟩)]) e hr (hd' _)).congr fun r => ?_
      constructor
      · rintro ⟨rs, rfl, h⟩
        exact ⟨(id, ⟨id, fs⟩) :: rs, by simp, .cons ⟨rfl, rfl, hy⟩ h⟩
      · rintro ⟨rs, rfl, h⟩
        cases h with
        | @cons _ i _ rs h1 h2 =>
          obtain ⟨k, ⟨i, fs'⟩⟩ := i
          obtain ⟨h3, h4, h5⟩ := h1
          simp only at h3 h4 h5
          subst h3
          subst h4
          rw [hu _ h5]
          exact ⟨rs, by simp, h2⟩
    · intro fs e' _ he'
      exact ⟨_, ih _ e' he' (hd' _)⟩
    · rintro z ⟨rs, rfl, h⟩
      cases h with
      | cons h1 _ => exact ⟨_, h1.2.2⟩

/-! ## Registries -/

theorem registries_flag (parse : Ty → ParseFn) (kvs : List (Str × JVal)) (ref : Str) (cs : List Class) :
    ∀ regs e r e', e.full = false → parseRegistries parse kvs ref cs regs e = .ok ((r, false), e') →
      e'.full = false := by
  induction cs with
  | nil => intro regs e r e' hf h; cases h; exact hf
  | cons c cs ih =>
    intro regs e r e' hf h
    unfold parseRegistries at h
    split at h
    · next v _ =>
      cases hp : parseInstances parse c (sub ref (registryKey c)) (membersOf v) (registryIn regs c.name) e with
      | error x => rw [hp] at h; cases h
      | ok q =>
        obtain ⟨reg, e1⟩ := q
        rw [hp] at h
        have h : (if e1.full then (.ok ((setRegistry c.name reg regs, true), e1) :
          Except Exc ((List (Str × GoMap Instance) × Bool) × CppErrors))
          else parseRegistries parse kvs ref cs (setRegistry c.name reg regs) e1) = .ok ((r, false), e') := h
        cases hf1 : e1.full with
        | true => rw [hf1, if_pos rfl] at h; cases h
        | false => rw [hf1, if_neg (by simp)] at h; exact ih _ _ _ _ hf1 h
    · rw [hf, if_neg (by simp)] at h
      exact ih _ _ _ _ hf h

/-- What is read after the pre-allocation of a registry -/
def ReadsReg (reads : Ty → JVal → Val → Prop) (kvs : List (Str × JVal)) (c : Class) (r : GoMap Instance) : Prop :=
  (registryOf kvs c = none ∧ r = []) ∨
  ∃ entries, registryOf kvs c = some (.obj entries) ∧ Forall₂ (ReadsBody reads c) entries r

theorem outcome_registries (L : Lib) (parse : Ty → ParseFn) (reads : Ty → JVal → Val → Prop)
    (kvs : List (Str × JVal)) (hc : Canon (.obj kvs)) (ref : Str) (cs : List Class)
    (hnd : (cs.map (·.name)).Nodup) (hok : ∀ c ∈ cs, FieldsOk c.properties)
    (clean : Ty → Val → Prop) (hz : ∀ ty, clean ty .zero) (hother : ∀ ty t, needsEmplace ty = false → clean ty t)
    (hf : ∀ c ∈ cs, ∀ entries, registryOf kvs c = some (.obj entries) → ∀ kv ∈ entries, ∀ kvs, kv.2 = .obj kvs →
      ∀ p ∈ c.properties, ∀ v, kvs.lookup p.json = some v →
      ∀ ref t e, clean p.ty t → Room e → Outcome (reads p.ty v) B e (parse p.ty v ref t e)) :
    ∀ (done pre : List (Str × GoMap Instance)) e, Room e → (∀ f ∈ done.map (·.1), f ∉ cs.map (·.name)) →
      Forall₂ (fun (c : Class) (r : Str × GoMap Instance) => r.1 = c.name ∧ PreReg L kvs c r.2) cs pre →
      Outcome (fun r => r.2 = false ∧ ∃ rs, r.1 = done ++ rs ∧
        Forall₂ (fun (c : Class) (r : Str × GoMap Instance) => r.1 = c.name ∧ ReadsReg reads kvs c r.2) cs rs) B e
        (parseRegistries parse kvs ref cs (done ++ pre) e) := by
  induction cs with
  | nil =>
    intro done pre e _ _ hp
    cases hp
    refine .value ⟨rfl, [], rfl, .nil⟩ ?_
    rintro ⟨y, b⟩ ⟨h1, fs, h2, h⟩
    cases h
    simp only at h1 h2
    rw [h1, h2]
  | cons c cs ih =>
    intro done pre e hr hd hp
    have hnd' := List.nodup_cons.1 (show (c.name :: cs.map (·.name)).Nodup from hnd)
    have ih := ih hnd'.2 (fun c h => hok c (List.mem_cons_of_mem _ h)) fun c h => hf c (List.mem_cons_of_mem _ h)
    have hn : c.name ∉ done.map (·.1) := fun h => hd _ h List.mem_cons_self
    have hd' : ∀ r : GoMap Instance, ∀ f ∈ (done ++ [(c.name, r)]).map (·.1), f ∉ cs.map (·.name) := by
      intro r f h
      rw [List.map_append, List.mem_append] at h
      rcases h with h | h
      · exact fun h' => hd f h (List.mem_cons_of_mem _ h')
      · rw [List.map_singleton, List.mem_singleton] at h
        rw [h]; exact hnd'.1
    cases hp with
    | @cons _ pr _ pre h1 h2 =>
    obtain ⟨k, r⟩ := pr
    obtain ⟨h1, h3⟩ := h1
    simp only at h1 h3
    subst h1
    -- what follows the registry
    have next : ∀ (R : GoMap Instance → Prop) (x : GoMap Instance), R x → (∀ y, R y → y = x) → ∀ e, Room e →
        (∀ y, R y ↔ ReadsReg reads kvs c y) →
        Outcome (fun r => r.2 = false ∧ ∃ rs, r.1 = done ++ rs ∧
          Forall₂ (fun (c : Class) (r : Str × GoMap Instance) => r.1 = c.name ∧ ReadsReg reads kvs c r.2)
            (c :: cs) rs) B e
          (parseRegistries parse kvs ref cs ((done ++ [(c.name, x)]) ++ pre) e) := by
      intro R x hx hu e hr hR
      refine (ih (done ++ [(c.name, x)]) pre e hr (hd' x) h2).congr fun r => ?_
      constructor
      · rintro ⟨h4, rs, h5, h6⟩
        exact ⟨h4, (c.name, x) :: rs, by rw [h5]; simp, .cons ⟨rfl, (hR x).1 hx⟩ h6⟩
      · rintro ⟨h4, rs, h5, h6⟩
        cases h6 with
        | @cons _ f _ rs h7 h8 =>
          obtain ⟨k', y⟩ := f
          obtain ⟨h9, h10⟩ := h7
          simp only at h9 h10
          rw [hu y ((hR y).2 h10), h9] at h5
          exact ⟨h4, rs, by rw [h5]; simp, h8⟩
    unfold parseRegistries
    have hkey : kvs.lookup (registryKey c) = registryOf kvs c := rfl
    rw [hkey]
    rcases h3 with ⟨hl, rfl⟩ | ⟨entries, hl, rfl, hmatch⟩
    · rw [hl]
      simp only
      rw [hr.full, if_neg (by simp)]
      have := next (fun y => y = []) [] rfl (fun y h => h) e hr (fun y => by
        constructor
        · rintro rfl; exact .inl ⟨hl, rfl⟩
        · rintro (⟨_, h⟩ | ⟨_, h, _⟩)
          · exact h
          · rw [hl] at h; cases h)
      rw [List.append_assoc] at this
      exact this
    · rw [hl]
      have hce : GoMap.Ascending entries := by
        cases hc with
        | obj _ _ h =>
          have := h (_, _) (mem_of_lookup hl)
          cases this with
          | obj _ h _ => exact h
      have ho := outcome_instances (B := B) parse reads c (hok c List.mem_cons_self) clean hz hother (sub ref (registryKey c))
        entries hce (hf c List.mem_cons_self entries hl) [] e hr (fun a h => by cases h)
      have hreg : registryIn (done ++ (c.name, entries.map fun kv => fresh c kv.1) :: pre) c.name =
          entries.map fun kv => fresh c kv.1 := registryIn_middle hn
      have heq : (parseInstances parse c (sub ref (registryKey c)) entries
            (registryIn (done ++ (c.name, entries.map fun kv => fresh c kv.1) :: pre) c.name) e >>= fun q =>
          (let regs := setRegistry c.name q.1 (done ++ (c.name, entries.map fun kv => fresh c kv.1) :: pre)
           if q.2.full then (.ok ((regs, true), q.2) :
             Except Exc ((List (Str × GoMap Instance) × Bool) × CppErrors))
           else parseRegistries parse kvs ref cs regs q.2)) =
          (parseInstances parse c (sub ref (registryKey c)) entries
            ([] ++ entries.map fun kv => fresh c kv.1) e >>= fun q =>
          if q.2.full then .ok ((done ++ (c.name, q.1) :: pre, true), q.2)
          else parseRegistries parse kvs ref cs ((done ++ [(c.name, q.1)]) ++ pre) q.2) := by
        rw [hreg]
        congr 1
        funext q
        simp only
        rw [setRegistry_middle hn, List.append_assoc]
        rfl
      refine Eq.mpr (congrArg (Outcome _ B e) heq) ?_
      refine Outcome.step (fun r => (done ++ (c.name, r) :: pre, true))
        (fun r e => parseRegistries parse kvs ref cs ((done ++ [(c.name, r)]) ++ pre) e) ho hr ?_ ?_ ?_
      · intro x _ hx hu
        refine next _ x hx hu e hr fun y => ?_
        constructor
        · rintro ⟨rs, h, h'⟩
          rw [List.nil_append] at h
          subst h
          exact .inr ⟨entries, hl, h'⟩
        · rintro (⟨h, _⟩ | ⟨es, h, h'⟩)
          · rw [hl] at h; cases h
          · rw [hl] at h
            cases h
            exact ⟨y, rfl, h'⟩
      · intro x e' _ he'
        exact ⟨_, ih _ pre e' he' (hd' x) h2⟩
      · rintro z ⟨_, rs, _, h⟩
        cases h with
        | cons h4 _ =>
          rcases h4.2 with ⟨h, _⟩ | ⟨es, h, h'⟩
          · rw [hl] at h; cases h
          · rw [hl] at h
            cases h
            exact ⟨_, _, rfl, h'⟩

/-! ## The graph -/

theorem registryIn_pre {R : Class → GoMap Instance → Prop} {cs : List Class} {pre : List (Str × GoMap Instance)}
    (h : Forall₂ (fun (c : Class) (r : Str × GoMap Instance) => r.1 = c.name ∧ R c r.2) cs pre)
    (hnd : (cs.map (·.name)).Nodup) (name : Str) :
    (∃ c ∈ cs, c.name = name ∧ R c (registryIn pre name)) ∨
      ((∀ c ∈ cs, c.name ≠ name) ∧ registryIn pre name = []) := by
  induction h with
  | nil => exact .inr ⟨fun c h => (by cases h), rfl⟩
  | @cons c r cs pre h1 h2 ih =>
    obtain ⟨k, r⟩ := r
    obtain ⟨h1, h3⟩ := h1
    simp only at h1 h3
    subst h1
    have hnd' := List.nodup_cons.1 (show (c.name :: cs.map (·.name)).Nodup from hnd)
    unfold registryIn
    rw [GoMap.lookup_step]
    by_cases hk : name = c.name
    · rw [if_pos hk]
      exact .inl ⟨c, List.mem_cons_self, hk.symm, h3⟩
    · rw [if_neg hk]
      rcases ih hnd'.2 with ⟨d, hd, h4, h5⟩ | ⟨h4, h5⟩
      · exact .inl ⟨d, List.mem_cons_of_mem _ hd, h4, h5⟩
      · refine .inr ⟨fun d hd => ?_, h5⟩
        rcases List.mem_cons.1 hd with rfl | hd
        · exact fun h => hk h.symm
        · exact h4 d hd

theorem class_unique {cs : List Class} (hnd : (cs.map (·.name)).Nodup) {c d : Class} (hc : c ∈ cs) (hd : d ∈ cs)
    (h : c.name = d.name) : c = d := by
  induction cs with
  | nil => cases hc
  | cons a cs ih =>
    have hnd' := List.nodup_cons.1 (show (a.name :: cs.map (·.name)).Nodup from hnd)
    rcases List.mem_cons.1 hc with h1 | h1
    · rcases List.mem_cons.1 hd with h2 | h2
      · rw [h1, h2]
      · exact absurd (List.mem_map.2 ⟨d, h2, by rw [← h, h1]⟩) hnd'.1
    · rcases List.mem_cons.1 hd with h2 | h2
      · exact absurd (List.mem_map.2 ⟨c, h1, by rw [h, h2]⟩) hnd'.1
      · exact ih hnd'.2 h1 h2

theorem described_iff (L : Lib) (g : Graph) (hnd : (g.classes.map (·.name)).Nodup) (kvs : List (Str × JVal))
    {pre : List (Str × GoMap Instance)}
    (h : Forall₂ (fun (c : Class) (r : Str × GoMap Instance) => r.1 = c.name ∧ PreReg L kvs c r.2) g.classes pre)
    (name id : Str) : id ∈ (registryIn pre name).map (·.1) ↔ Described g kvs name id := by
  rcases registryIn_pre h hnd name with ⟨c, hc, hn, h1⟩ | ⟨h1, h2⟩
  · rcases h1 with ⟨hl, h1⟩ | ⟨entries, hl, h1, _⟩
    · rw [h1]
      constructor
      · intro h; cases h
      · rintro ⟨d, hd, hdn, es, hes, _⟩
        rw [class_unique hnd hd hc (hdn.trans hn.symm), hl] at hes
        cases hes
    · rw [h1, List.map_map]
      constructor
      · intro h
        obtain ⟨kv, hkv, rfl⟩ := List.mem_map.1 h
        exact ⟨c, hc, hn, entries, hl, List.mem_map_of_mem hkv⟩
      · rintro ⟨d, hd, hdn, es, hes, hid⟩
        rw [class_unique hnd hd hc (hdn.trans hn.symm), hl] at hes
        cases hes
        obtain ⟨kv, hkv, rfl⟩ := List.mem_map.1 hid
        exact List.mem_map.2 ⟨kv, hkv, rfl⟩
  · rw [h2]
    constructor
    · intro h; cases h
    · rintro ⟨d, hd, hdn, _⟩
      exact absurd hdn (h1 d hd)

theorem forall₂_exists {α β : Type} {R : α → β → Prop} {l : List α} (h : ∀ a ∈ l, ∃ b, R a b) :
    ∃ m, Forall₂ R l m := by
  induction l with
  | nil => exact ⟨[], .nil⟩
  | cons a l ih =>
    obtain ⟨b, hb⟩ := h a List.mem_cons_self
    obtain ⟨m, hm⟩ := ih fun a ha => h a (List.mem_cons_of_mem _ ha)
    exact ⟨b :: m, .cons hb hm⟩

theorem forall₂_left {α β : Type} {R : α → β → Prop} {l : List α} {m : List β} (h : Forall₂ R l m) :
    ∀ a ∈ l, ∃ b, R a b := by
  induction h with
  | nil => intro a h; cases h
  | cons h1 _ ih =>
    intro a ha
    rcases List.mem_cons.1 ha with rfl | ha
    · exact ⟨_, h1⟩
    · exact ih a ha

theorem forall₂_imp {α β : Type} {R S : α → β → Prop} {l : List α} {m : List β} (h : Forall₂ R l m)
    (hRS : ∀ a ∈ l, ∀ b, R a b → S a b) : Forall₂ S l m := by
  induction h with
  | nil => exact .nil
  | cons h1 _ ih =>
    exact .cons (hRS _ List.mem_cons_self _ h1) (ih fun a ha => hRS a (List.mem_cons_of_mem _ ha))

theorem forall₂_and {α β : Type} {P : α → Prop} {R : α → β → Prop} {l : List α} {m : List β}
    (h : ∀ a ∈ l, P a) (h' : Forall₂ R l m) : Forall₂ (fun a b => P a ∧ R a b) l m :=
  forall₂_imp h' fun a ha _ hb => ⟨h a ha, hb⟩

/-- A registry is described if the identifiers are right and the instances are described. -/
theorem readsRegistry_iff (D : DateLib) (L : Lib) (M : Meaning) (g : Graph) (n : Nat) (kvs : List (Str × JVal))
    (c : Class) (r : GoMap Instance) :
    ReadsRegistry D L M g n kvs c r ↔
      (∃ r0, PreReg L kvs c r0) ∧ ReadsReg (Reads D L M g (Described g kvs) n) kvs c r := by
  unfold ReadsRegistry PreReg ReadsReg
  constructor
  · rintro (⟨h1, h2⟩ | ⟨entries, h1, h2⟩)
    · exact ⟨⟨[], .inl ⟨h1, rfl⟩⟩, .inl ⟨h1, h2⟩⟩
    · refine ⟨⟨_, .inr ⟨entries, h1, rfl, fun kv hkv => ?_⟩⟩, .inr ⟨entries, h1, ?_⟩⟩
      · obtain ⟨b, hb⟩ := forall₂_left h2 kv hkv
        exact hb.2.2.1
      · exact forall₂_imp h2 fun a _ b hb => ⟨hb.1, hb.2.1, hb.2.2.2⟩
  · rintro ⟨⟨r0, ⟨h0, _⟩ | ⟨es, h0, _, h⟩⟩, ⟨h1, h2⟩ | ⟨entries, h1, h2⟩⟩
    · exact .inl ⟨h1, h2⟩
    · rw [h0] at h1; cases h1
    · rw [h0] at h1; cases h1
    · rw [h0] at h1
      cases h1
      exact .inr ⟨es, h0, forall₂_imp h2 fun a ha b hb => ⟨hb.1, hb.2.1, h a ha, hb.2.2⟩⟩

theorem Grew.nonempty {e e' : CppErrors} (h : Grew e e') : e'.empty = false := by
  unfold CppErrors.empty
  have := h.lt
  cases hv : e'.values with
  | nil => rw [hv] at this; simp at this
  | cons a l => rfl

theorem clean_newGraph (g : Graph) (n : Nat) : CleanGraph g n (newGraph g) :=
  ⟨rfl, clean_zeroFields (clean_zero (cleanEmbed_zero g n)) _⟩

/-- The whole parser -/
theorem outcome_graph (D : DateLib) (L : Lib) (g : Graph) (n : Nat) (hG : NoGarbage L) (hs : SoundGraph g)
    (hC : Compiles g) (v : JVal) (hc : Canon v) (ref : Str) (target : GraphVal) (ht : CleanGraph g n target)
    (cap : Nat) (hcap : 0 < cap) :
    Outcome (ReadsGraph D L (Loose D L) g n v) (Bad L n v) (.new cap)
      (parseGraph D L g n v ref target (.new cap)) := by
  have hr : Room (.new cap) := hcap
  have hempty : (CppErrors.new cap).empty = true := rfl
  cases v with
  | obj kvs =>
    have hreg : target.registries = [] ++ g.classes.map fun c => (c.name, []) := ht.registries
    have hz := clean_zero (cleanEmbed_zero g n)
    have hother : ∀ ty t, needsEmplace ty = false → Clean g n ty t := fun ty t h => clean_other h t
    have hpre := outcome_preallocAll (B := Bad L n (.obj kvs)) L kvs hc ref g.classes hC.names [] (.new cap) hr
      (fun f h => by cases h)
    unfold parseGraph
    rw [hempty, hreg]
    simp only [Bool.not_true, Bool.false_eq_true, if_false]
    generalize hpe : preallocAll L kvs ref g.classes ([] ++ g.classes.map fun c => (c.name, [])) (.new cap) = pre at hpre
    obtain ⟨regs, e1⟩ := pre
    rcases hpre with ⟨h1, ⟨rs, h2, h3⟩, h4⟩ | ⟨h1, h2, h3⟩
    · subst h1
      rw [hempty]
      simp only [Bool.not_true, Bool.and_false, Bool.false_eq_true, if_false]
      rw [List.nil_append] at h2
      subst h2
      -- the values
      have hval : ∀ w, (∃ kv ∈ kvs, InsideJ w kv.2) → Canon w → ∀ ty, SoundTy g ty → ∀ m ref t e, Clean g n ty t → Room e →
          (∀ x, Bad L n w x → Bad L m (.obj kvs) x) →
          Outcome (Reads D L (Loose D L) g (Described g kvs) n ty w) (Bad L m (.obj kvs)) e
            (parseTy (envOf D L g regs) (parseEmbed (envOf D L g regs) n) ty w ref t e) := by
        intro w _ hcw ty hty m ref t e hf hr hB
        exact (outcome_value (envOf D L g regs) (Described g kvs) hG
          (fun c id => described_iff L g hC.names kvs h3 c id) hs hC n ty hty w hcw ref t e hf hr).mono hB
      have hcan : ∀ kv ∈ kvs, Canon kv.2 := by
        cases hc with
        | obj _ _ h => exact h
      have hregs := outcome_registries (B := Bad L n (.obj kvs)) L
        (parseTy (envOf D L g regs) (parseEmbed (envOf D L g regs) n))
        (Reads D L (Loose D L) g (Described g kvs) n) kvs hc ref g.classes hC.names hC.cls (Clean g n) hz hother (by
          intro c hcm entries hl kv hkv kvs' hkvs p hp w hlw ref t e hf hr
          have hm := mem_of_lookup hl
          have hm' := mem_of_lookup hlw
          have hce := hcan _ hm
          have hcw : Canon w := by
            cases hce with
            | obj _ _ h =>
              have := h kv hkv
              rw [hkvs] at this
              cases this with
              | obj _ _ h => exact h _ hm'
          refine hval w ⟨_, hm, .entry hkv (by rw [hkvs]; exact .entry hm' .here)⟩ hcw p.ty
            (hs.cls c hcm p hp) n ref t e hf hr fun x hx => ?_
          have h1 : Bad L (n + 1) kv.2 x := by
            rw [hkvs]; exact bad_entry hm' hx
          exact bad_le (by omega) (bad_entry hm (bad_entry hkv h1))) [] regs (.new cap) hr (fun f h => by cases h) h3
      have hprops := outcome_props (B := Bad L n (.obj kvs))
        (parseTy (envOf D L g regs) (parseEmbed (envOf D L g regs) n))
        (Reads D L (Loose D L) g (Described g kvs) n) kvs ref g.properties hC.graph (Clean g n) hz hother (by
          intro p hp w hlw ref t e hf hr
          have hm := mem_of_lookup hlw
          exact hval w ⟨_, hm, .here⟩ (hcan _ hm) p.ty (hs.graph p hp) n ref t e hf hr fun x hx =>
            bad_le (Nat.le_succ n) (bad_entry hm hx)) [] target.fields
      -- the relation
      have hrel : ∀ gv : GraphVal, ReadsGraph D L (Loose D L) g n (.obj kvs) gv ↔
          (Forall₂ (fun (c : Class) (r : Str × GoMap Instance) => r.1 = c.name ∧
            ReadsReg (Reads D L (Loose D L) g (Described g kvs) n) kvs c r.2) g.classes gv.registries ∧
          ReadsProps (Reads D L (Loose D L) g (Described g kvs) n) kvs g.properties gv.fields) := by
        intro gv
        unfold ReadsGraph
        constructor
        · rintro ⟨kvs', h, h5, h6⟩
          cases h
          exact ⟨forall₂_imp h5 fun c _ r hr => ⟨hr.1, ((readsRegistry_iff ..).1 hr.2).2⟩, h6⟩
        · rintro ⟨h5, h6⟩
          refine ⟨kvs, rfl, forall₂_imp h5 fun c hcm r hr => ⟨hr.1, (readsRegistry_iff ..).2 ⟨?_, hr.2⟩⟩, h6⟩
          obtain ⟨b, hb⟩ := forall₂_left h3 c hcm
          exact ⟨_, hb.2⟩
      rw [List.nil_append] at hregs
      generalize hq : parseRegistries (parseTy (envOf D L g regs) (parseEmbed (envOf D L g regs) n)) kvs ref
        g.classes regs (.new cap) = q at hregs
      show Outcome _ _ _ (q >>= fun r => if r.1.2 then .ok (GraphVal.mk (target.fields) r.1.1, r.2)
        else parseProps (parseTy (envOf D L g regs) (parseEmbed (envOf D L g regs) n)) kvs ref g.properties
          (target.fields) r.2 >>= fun f => .ok (GraphVal.mk f.1 r.1.1, f.2))
      cases q with
      | error x =>
        refine ⟨hregs.1, fun gv hgv => ?_⟩
        exact hregs.2 (gv.registries, false) ⟨rfl, _, rfl, ((hrel gv).1 hgv).1⟩
      | ok q =>
        obtain ⟨⟨regs', flag⟩, e2⟩ := q
        rcases hregs with ⟨g1, ⟨g2, rs', g3, g4⟩, g5⟩ | ⟨g1, g2, g3⟩
        · subst g1
          simp only at g2 g3
          subst g2
          rw [List.nil_append] at g3
          subst g3
          show Outcome _ _ _ (parseProps _ kvs ref g.properties (target.fields) (.new cap) >>=
            fun f => .ok (GraphVal.mk f.1 regs', f.2))
          refine Outcome.map (fun fs => GraphVal.mk fs regs') ?_ ?_ (hprops (.new cap) ht.fields hr (fun f h => by cases h))
          · rintro fs ⟨fs', h5, h6⟩
            rw [List.nil_append] at h5
            subst h5
            exact (hrel _).2 ⟨g4, h6⟩
          · intro gv hgv
            obtain ⟨h5, h6⟩ := (hrel gv).1 hgv
            have := g5 (gv.registries, false) ⟨rfl, _, rfl, h5⟩
            simp only [Prod.mk.injEq, and_true] at this
            refine ⟨gv.fields, ⟨_, rfl, h6⟩, ?_⟩
            rw [← this]
        · have hn : ∀ gv, ¬ ReadsGraph D L (Loose D L) g n (.obj kvs) gv := fun gv hgv =>
            g3 (gv.registries, false) ⟨rfl, _, rfl, ((hrel gv).1 hgv).1⟩
          cases flag with
          | true => exact .inr ⟨g1, g2, hn⟩
          | false =>
            have hf := registries_flag _ _ _ _ _ _ _ _ hr.full hq
            have ho := hprops e2 ht.fields (.of_full g2 hf) (fun f h => by cases h)
            rw [List.nil_append] at ho
            show Outcome _ _ _ (parseProps _ kvs ref g.properties (target.fields) e2 >>=
              fun f => .ok (GraphVal.mk f.1 regs', f.2))
            generalize parseProps (parseTy (envOf D L g regs) (parseEmbed (envOf D L g regs) n)) kvs ref
              g.properties (target.fields) e2 = q at ho
            cases q with
            | error x => exact ⟨ho.1, hn⟩
            | ok q =>
              obtain ⟨fs, e3⟩ := q
              rcases ho with ⟨k1, _, _⟩ | ⟨k1, k2, _⟩
              · subst k1
                exact .inr ⟨g1, g2, hn⟩
              · exact .inr ⟨g1.trans k1, k2, hn⟩
    · have hn : ∀ gv, ¬ ReadsGraph D L (Loose D L) g n (.obj kvs) gv := by
        rintro gv ⟨kvs', h, h5, h6⟩
        cases h
        obtain ⟨m, hm⟩ := forall₂_exists (R := fun (c : Class) (r : Str × GoMap Instance) =>
          r.1 = c.name ∧ PreReg L kvs c r.2) (l := g.classes) (by
            intro c hcm
            obtain ⟨b, hb⟩ := forall₂_left h5 c hcm
            obtain ⟨r0, hr0⟩ := ((readsRegistry_iff ..).1 hb.2).1
            exact ⟨(c.name, r0), rfl, hr0⟩)
        exact h3 m ⟨m, rfl, hm⟩
      have hne : g.classes.isEmpty = false := by
        cases hcs : g.classes with
        | nil =>
          rw [hcs] at hpe
          cases hpe
          exact absurd h1.lt (Nat.lt_irrefl _)
        | cons => rfl
      rw [hne, h1.nonempty]
      exact .inr ⟨h1, h2, hn⟩
  | _ => exact .add hr (by rintro x ⟨c, hc, _⟩; cases hc)

end Mapry.CppRuntime
