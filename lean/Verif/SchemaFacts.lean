import Verif.SchemaAssembly
import Verif.PySim
import Verif.PyReads

/-!
# Consequences of the acceptance of a schema mapping
-/

namespace Mapry.ParseSchema

open Mapry.PyRuntime (Json sub)
open Mapry.SchemaSpec Mapry.Validation

/-! ## The definitions of a described graph -/

theorem items_mem {c : Json} {items : List (Str × Json)} (h : Items c items) {name : Str} {p : Json}
    (hp : IsProperty c name p) : (name, p) ∈ items := by
  obtain ⟨o, kvs, hf, hm⟩ := hp
  cases h with
  | absent h => rw [h] at hf; cases hf
  | ordered h => rw [h] at hf; cases hf; exact hm
  | sorted h hperm _ => rw [h] at hf; cases hf; exact hperm.mem_iff.2 hm

theorem forall₂_left {α β : Type} {R : α → β → Prop} {xs : List α} {ys : List β} (h : Forall₂ R xs ys) {x : α}
    (hx : x ∈ xs) : ∃ y ∈ ys, R x y := by
  induction h with
  | nil => cases hx
  | @cons a b as bs h1 _ ih =>
    rcases List.mem_cons.1 hx with rfl | hx
    · exact ⟨b, List.mem_cons_self .., h1⟩
    · obtain ⟨y, hy, hr⟩ := ih hx
      exact ⟨y, List.mem_cons_of_mem _ hy, hr⟩

theorem forall₂_right {α β : Type} {R : α → β → Prop} {xs : List α} {ys : List β} (h : Forall₂ R xs ys) {y : β}
    (hy : y ∈ ys) : ∃ x ∈ xs, R x y := by
  induction h with
  | nil => cases hy
  | @cons a b as bs h1 _ ih =>
    rcases List.mem_cons.1 hy with rfl | hy
    · exact ⟨a, List.mem_cons_self .., h1⟩
    · obtain ⟨x, hx, hr⟩ := ih hy
      exact ⟨x, List.mem_cons_of_mem _ hx, hr⟩

theorem mem_zipIdx {α : Type} {xs : List α} {x : α} (i : Nat) (h : x ∈ xs) : ∃ k, (x, k) ∈ xs.zipIdx i := by
  induction xs generalizing i with
  | nil => cases h
  | cons y ys ih =>
    rw [List.zipIdx_cons]
    rcases List.mem_cons.1 h with rfl | h
    · exact ⟨i, List.mem_cons_self ..⟩
    · obtain ⟨k, hk⟩ := ih (i + 1) h
      exact ⟨k, List.mem_cons_of_mem _ hk⟩

theorem properties_left {fl : Json → Bounds → Prop} {classes embeds : List Str} {ref : Str} {c : Json}
    {ps : List Property} (h : PropertiesOf fl classes embeds ref c ps) {name : Str} {p : Json}
    (hp : IsProperty c name p) : ∃ p' ∈ ps, PropertyOf fl classes embeds ref (name, p) p' := by
  obtain ⟨items, hi, hf⟩ := h
  exact forall₂_left hf (items_mem hi hp)

/-- Every property of a composite is among the properties of the described composite. -/
theorem graph_property {fl : Json → Bounds → Prop} {plural : Str → Str} {ref : Str} {mapping : Json} {g : Graph}
    (h : GraphOf fl plural ref mapping g) {c : Json} (hc : IsComposite mapping c) {name : Str} {p : Json}
    (hp : IsProperty c name p) :
    ∃ ref ps p', (ps = g.properties ∨ (∃ d ∈ g.classes, IsName c d.name ∧ ps = d.properties) ∨
        (∃ e ∈ g.embeds, IsName c e.name ∧ ps = e.properties)) ∧ p' ∈ ps ∧
      PropertyOf fl (g.classes.map (·.name)) (g.embeds.map (·.name)) ref (name, p) p' := by
  rcases hc with rfl | hx | hx
  · obtain ⟨p', hm, hp'⟩ := properties_left h.properties hp
    exact ⟨_, _, p', .inl rfl, hm, hp'⟩
  · obtain ⟨k, hk⟩ := mem_zipIdx 0 hx
    obtain ⟨d, hd, hcls⟩ := forall₂_left h.classes hk
    obtain ⟨p', hm, hp'⟩ := properties_left hcls.properties hp
    exact ⟨_, _, p', .inr (.inl ⟨d, hd, hcls.name, rfl⟩), hm, hp'⟩
  · obtain ⟨k, hk⟩ := mem_zipIdx 0 hx
    obtain ⟨d, hd, hcls⟩ := forall₂_left h.embeds hk
    obtain ⟨p', hm, hp'⟩ := properties_left hcls.properties hp
    exact ⟨_, _, p', .inr (.inr ⟨d, hd, hcls.name, rfl⟩), hm, hp'⟩

theorem nested_typed {fl : Json → Bounds → Prop} {classes embeds : List Str} {j w : Json} (hn : Nested j w) {t : Ty}
    (h : TypeOf fl classes embeds j t) (hres : ∀ n ∈ [c!"array", c!"map"], n ∉ classes ∧ n ∉ embeds) :
    ∃ u, TypeOf fl classes embeds w u := by
  induction hn generalizing t with
  | self j => exact ⟨t, h⟩
  | @values j v w ht hv _ ih =>
    have other : ∀ n, HasType j n → n = c!"array" ∨ n = c!"map" := by
      intro n hn
      rcases ht with ht | ht <;> (simp only [HasType] at ht hn; rw [ht] at hn; cases hn; simp)
    cases h with
    | array _ hv' h' => rw [hv] at hv'; cases hv'; exact ih h'
    | map _ hv' h' => rw [hv] at hv'; cases hv'; exact ih h'
    | cls hn hm => rcases other _ hn with rfl | rfl <;> exact absurd hm (hres _ (by simp)).1
    | embed hn hm => rcases other _ hn with rfl | rfl <;> exact absurd hm (hres _ (by simp)).2
    | boolean hn => rcases other _ hn with h | h <;> cases h
    | integer hn => rcases other _ hn with h | h <;> cases h
    | float hn => rcases other _ hn with h | h <;> cases h
    | string hn => rcases other _ hn with h | h <;> cases h
    | path hn => rcases other _ hn with h | h <;> cases h
    | date hn => rcases other _ hn with h | h <;> cases h
    | time hn => rcases other _ hn with h | h <;> cases h
    | datetime hn => rcases other _ hn with h | h <;> cases h
    | timeZone hn => rcases other _ hn with h | h <;> cases h
    | duration hn => rcases other _ hn with h | h <;> cases h

theorem typeOf_name {fl : Json → Bounds → Prop} {classes embeds : List Str} {j : Json} {t : Ty}
    (h : TypeOf fl classes embeds j t) : ∃ n, HasType j n ∧ (n ∈ builtin ∨ n ∈ classes ∨ n ∈ embeds) := by
  cases h with
  | cls hn hm => exact ⟨_, hn, .inr (.inl hm)⟩
  | embed hn hm => exact ⟨_, hn, .inr (.inr hm)⟩
  | array hn => exact ⟨_, hn, .inl (by simp [builtin])⟩
  | map hn => exact ⟨_, hn, .inl (by simp [builtin])⟩
  | boolean hn => exact ⟨_, hn, .inl (by simp [builtin])⟩
  | integer hn => exact ⟨_, hn, .inl (by simp [builtin])⟩
  | float hn => exact ⟨_, hn, .inl (by simp [builtin])⟩
  | string hn => exact ⟨_, hn, .inl (by simp [builtin])⟩
  | path hn => exact ⟨_, hn, .inl (by simp [builtin])⟩
  | date hn => exact ⟨_, hn, .inl (by simp [builtin])⟩
  | time hn => exact ⟨_, hn, .inl (by simp [builtin])⟩
  | datetime hn => exact ⟨_, hn, .inl (by simp [builtin])⟩
  | timeZone hn => exact ⟨_, hn, .inl (by simp [builtin])⟩
  | duration hn => exact ⟨_, hn, .inl (by simp [builtin])⟩

theorem graph_class_names {fl : Json → Bounds → Prop} {plural : Str → Str} {ref : Str} {mapping : Json} {g : Graph}
    (h : GraphOf fl plural ref mapping g) {n : Str} (hn : n ∈ g.classes.map (·.name)) : ClassNamed mapping n := by
  obtain ⟨c, hc, rfl⟩ := List.mem_map.1 hn
  obtain ⟨xi, hxi, hcls⟩ := forall₂_right h.classes hc
  exact ⟨xi.1, mem_of_zipIdx hxi, hcls.name⟩

theorem graph_embed_names {fl : Json → Bounds → Prop} {plural : Str → Str} {ref : Str} {mapping : Json} {g : Graph}
    (h : GraphOf fl plural ref mapping g) {n : Str} (hn : n ∈ g.embeds.map (·.name)) : EmbedNamed mapping n := by
  obtain ⟨c, hc, rfl⟩ := List.mem_map.1 hn
  obtain ⟨xi, hxi, hcls⟩ := forall₂_right h.embeds hc
  exact ⟨xi.1, mem_of_zipIdx hxi, hcls.name⟩

/-- The names of classes and embeddable structures start with a capital. -/
theorem member_upper {L : Lib} {mapping : Json} {types : List Str} (hcl : Clean L mapping types) {n : Str}
    (h : ClassNamed mapping n ∨ EmbedNamed mapping n) : ∃ c cs, n = c :: cs ∧ c.isUpper = true := by
  obtain ⟨o, kvs, rfl, _⟩ := objectOf_obj hcl.check
  obtain ⟨m1, m2⟩ := members_check hcl.check
  rcases h with ⟨x, hx, hn⟩ | ⟨x, hx, hn⟩
  · have hc := m1 x hx
    obtain ⟨o', kvs', rfl, _⟩ := objectOf_obj hc
    obtain ⟨s, hs, hre⟩ := isStr_str (objectOf_field hc (k := c!"name") hn)
    cases hs
    cases n with
    | nil => cases hre
    | cons c cs =>
      refine ⟨c, cs, rfl, ?_⟩
      simp only [classNameRe, dollar, Bool.or_eq_true, Bool.and_eq_true, identBody] at hre
      rcases hre with h | ⟨_, h⟩
      · exact h.1.1
      · cases cs with
        | nil => cases h
        | cons d ds =>
          rw [List.dropLast_cons_of_ne_nil (by simp)] at h
          simp only [Bool.and_eq_true] at h
          exact h.1.1
  · have hc := m2 x hx
    obtain ⟨o', kvs', rfl, _⟩ := objectOf_obj hc
    obtain ⟨s, hs, hre⟩ := isStr_str (objectOf_field hc (k := c!"name") hn)
    cases hs
    cases n with
    | nil => cases hre
    | cons c cs => exact ⟨c, cs, rfl, hre⟩

/-- Every definition in the mapping is parsed to a type which it describes. -/
theorem within_typed {fl : Json → Bounds → Prop} {L : Lib} {mapping : Json} {types : List Str}
    (hcl : Clean L mapping types) {plural : Str → Str} {ref : Str} {g : Graph} (h : GraphOf fl plural ref mapping g)
    {w : Json} (hw : Within mapping w) :
    ∃ u, TypeOf fl (g.classes.map (·.name)) (g.embeds.map (·.name)) w u := by
  obtain ⟨c, name, p, hc, hp, hn⟩ := hw
  obtain ⟨_, _, p', _, _, hp'⟩ := graph_property h hc hp
  refine nested_typed hn hp'.ty fun n hmem => ⟨fun hh => ?_, fun hh => ?_⟩
  · obtain ⟨c, cs, rfl, hu⟩ := member_upper hcl (.inl (graph_class_names h hh))
    simp only [List.mem_cons, List.not_mem_nil, or_false] at hmem
    rcases hmem with h | h <;> (cases h; exact absurd hu (by decide))
  · obtain ⟨c, cs, rfl, hu⟩ := member_upper hcl (.inr (graph_embed_names h hh))
    simp only [List.mem_cons, List.not_mem_nil, or_false] at hmem
    rcases hmem with h | h <;> (cases h; exact absurd hu (by decide))

theorem names_nodup {fl : Json → Bounds → Prop} {L : Lib} {mapping : Json} {types : List Str}
    (hcl : Clean L mapping types) {plural : Str → Str} {ref : Str} {g : Graph} (h : GraphOf fl plural ref mapping g) :
    (g.classes.map (·.name)).Nodup ∧ (g.embeds.map (·.name)).Nodup := by
  obtain ⟨n, cs, es, hg, hcs, hes, hnd, _⟩ := hcl.names
  have same : ∀ {α : Type} {xs : List Json} {i : Nat} {ys : List α} {ns : List Str} {nm : α → Str}
      {R : Json × Nat → α → Prop}, (∀ xi y, R xi y → IsName xi.1 (nm y)) → Forall₂ R (xs.zipIdx i) ys →
      Forall₂ IsName xs ns → ys.map nm = ns := by
    intro α xs i ys ns nm R hR h1 h2
    induction h2 generalizing i ys with
    | nil => cases h1; rfl
    | @cons x n xs ns hx _ ih =>
      rw [List.zipIdx_cons] at h1
      cases h1 with
      | cons a b =>
        have := hR _ _ a
        simp only [IsName] at this hx
        rw [hx] at this
        cases this
        rw [List.map_cons, ih b]
  rw [same (fun _ _ h => h.name) h.classes hcs, same (fun _ _ h => h.name) h.embeds hes]
  rw [List.nodup_append] at hnd
  obtain ⟨h1, h2, _⟩ := hnd
  rw [List.nodup_append] at h2
  exact ⟨(List.reverse_perm cs).nodup_iff.1 h2.1, (List.reverse_perm es).nodup_iff.1 h1⟩

theorem find_by_name {α : Type} (nm : α → Str) {l : List α} (hnd : (l.map nm).Nodup) {x : α} (hx : x ∈ l) :
    l.find? (fun y => nm y == nm x) = some x := by
  induction l with
  | nil => cases hx
  | cons y ys ih =>
    rw [List.map_cons, List.nodup_cons] at hnd
    rcases List.mem_cons.1 hx with rfl | hx
    · simp
    · have : nm y ≠ nm x := fun e => hnd.1 (e ▸ List.mem_map_of_mem hx)
      rw [List.find?_cons_of_neg (by simpa using this)]
      exact ih hnd.2 hx

/-! ## Bounds -/

theorem flag_fun {j : Json} {key : Str} {a b : Bool} (h : Flag j key a) (h' : Flag j key b) : a = b := by
  rcases h with h | ⟨h, rfl⟩ <;> rcases h' with h' | ⟨h', rfl⟩ <;> rw [h] at h' <;> simp_all

theorem value_number {v : Json} {q : Rat} {a : F64} (h : Value v q) (h' : Number v a) : a = .fin q := by
  cases h <;> cases h' <;> rfl

theorem number_of_value {v : Json} {q : Rat} (h : Value v q) : Number v (.fin q) := by
  cases h
  · exact .int _
  · exact .float _

theorem le_fin {a b : Rat} : Le (.fin a) (.fin b) ↔ a ≤ b :=
  ⟨fun h => by cases h; assumption, .fin⟩

theorem le_inf {a : Rat} {n : Bool} : Le (.fin a) (.inf n) ↔ n = false :=
  ⟨fun h => by cases h; rfl, fun h => by subst h; exact .top (by simp)⟩

theorem inf_le {a : Rat} {n : Bool} : Le (.inf n) (.fin a) ↔ n = true :=
  ⟨fun h => by cases h; rfl, fun h => by subst h; exact .bot (by simp)⟩

theorem not_le_nan {a : F64} : ¬ Le a .nan := by
  intro h
  cases h with
  | bot h => exact h rfl

theorem not_nan_le {a : F64} : ¬ Le .nan a := by
  intro h
  cases h with
  | top h => exact h rfl

theorem inRange_iff {j : Json} {b : Bounds} (h : BoundsOf j b) (x : F64) :
    InRange j x ↔ (∀ m, b.min = some m → Le (.fin m) x ∧ (b.exMin = true → Lt (.fin m) x)) ∧
      (∀ m, b.max = some m → Le x (.fin m) ∧ (b.exMax = true → Lt x (.fin m))) := by
  have f1 : Flag j c!"exclusive_minimum" true ↔ b.exMin = true :=
    ⟨fun hf => (flag_fun h.exMin hf), fun he => he ▸ h.exMin⟩
  have f2 : Flag j c!"exclusive_maximum" true ↔ b.exMax = true :=
    ⟨fun hf => (flag_fun h.exMax hf), fun he => he ▸ h.exMax⟩
  constructor
  · intro hr
    constructor
    · intro m hm
      have := h.min
      rw [hm] at this
      cases this with
      | present hv hq =>
        have := hr.min _ _ hv (number_of_value hq)
        rwa [f1] at this
    · intro m hm
      have := h.max
      rw [hm] at this
      cases this with
      | present hv hq =>
        have := hr.max _ _ hv (number_of_value hq)
        rwa [f2] at this
  · rintro ⟨h1, h2⟩
    constructor
    · intro v a hv ha
      have hmin := h.min
      cases hm : b.min with
      | none => rw [hm] at hmin; cases hmin with | absent hn => rw [hv] at hn; cases hn
      | some m =>
        rw [hm] at hmin
        cases hmin with
        | present hv' hq =>
          rw [hv] at hv'
          cases hv'
          rw [value_number hq ha, f1]
          exact h1 m hm
    · intro v a hv ha
      have hmax := h.max
      cases hm : b.max with
      | none => rw [hm] at hmax; cases hmax with | absent hn => rw [hv] at hn; cases hn
      | some m =>
        rw [hm] at hmax
        cases hmax with
        | present hv' hq =>
          rw [hv] at hv'
          cases hv'
          rw [value_number hq ha, f2]
          exact h2 m hm

theorem lt_fin {a b : Rat} : Lt (.fin a) (.fin b) ↔ a < b := by
  rw [Lt, le_fin, le_fin, Rat.not_le]
  exact ⟨fun h => h.2, fun h => ⟨Rat.le_of_lt h, h⟩⟩

theorem floatWithin_iff {j : Json} {b : Bounds} (h : BoundsOf j b) (x : F64) :
    PyRuntime.Spec.FloatWithin b x ↔ InRange j x := by
  rw [inRange_iff h]
  cases x with
  | fin q =>
    simp only [le_fin, lt_fin, PyRuntime.Spec.FloatWithin]
    constructor
    · intro hw
      refine ⟨fun m hm => ⟨hw.lower m hm, fun he => ?_⟩, fun m hm => ⟨hw.upper m hm, fun he => ?_⟩⟩
      · exact Rat.lt_of_le_of_ne (hw.lower m hm) (hw.lowerStrict m hm he)
      · exact Rat.lt_of_le_of_ne (hw.upper m hm) (hw.upperStrict m hm he)
    · rintro ⟨h1, h2⟩
      exact ⟨fun m hm => (h1 m hm).1, fun m hm he => Rat.ne_of_lt ((h1 m hm).2 he), fun m hm => (h2 m hm).1,
        fun m hm he => Rat.ne_of_lt ((h2 m hm).2 he)⟩
  | inf n =>
    cases n with
    | false =>
      simp only [PyRuntime.Spec.FloatWithin, Lt, le_inf, inf_le]
      cases b.max <;> simp
    | true =>
      simp only [PyRuntime.Spec.FloatWithin, Lt, le_inf, inf_le]
      cases b.min <;> simp
  | nan =>
    simp only [PyRuntime.Spec.FloatWithin, Lt, not_le_nan, not_nan_le]
    cases b.min <;> cases b.max <;> simp

/-- An integer is accepted by the generated code if and only if it is within the bounds. -/
theorem parse_integer_iff (E : PyRuntime.Env)
    (embed : Str → Json → Str → Errors → Except Exc (PyRuntime.Val × Errors)) (b : Bounds) (i : Int) (ref : Str)
    {cap : Int} (hcap : 0 < cap) :
    PyRuntime.parseTy E embed (.integer b) (.int i) ref (Errors.new cap) = .ok (some (.int i), Errors.new cap) ↔
      PyRuntime.Spec.FloatWithin b (.fin i) := by
  show PyRuntime.parseInteger E.lib b (.int i) ref _ = _ ↔ PyRuntime.Spec.Within b i
  rw [← PyRuntime.bounds_int]
  simp only [PyRuntime.parseInteger, PyRuntime.Json.int?, PyRuntime.Json.intVal]
  have hnil : ∀ e : Err, (Errors.new cap).add e ≠ Errors.new cap := by
    intro e h
    have := congrArg (·.values.length) h
    simp [Errors.new, Errors.add, hcap] at this
  have hnil2 : ∀ e e' : Err, ((Errors.new cap).add e).add e' ≠ Errors.new cap := by
    intro e e' h
    have := congrArg (·.values.length) h
    simp only [Errors.new, Errors.add] at this
    simp [hcap] at this
    split at this <;> simp at this
  unfold PyRuntime.checkBounds
  cases hmn : PyRuntime.minOk b (.int i) <;> cases hb : b.max <;> cases hmx : PyRuntime.maxOk b (.int i) <;>
    simp_all [PyRuntime.maxOk]

/-- A float is accepted by the generated code if and only if it is within the bounds. -/
theorem parse_float_iff (E : PyRuntime.Env)
    (embed : Str → Json → Str → Errors → Except Exc (PyRuntime.Val × Errors)) (b : Bounds) (f : F64) (ref : Str)
    {cap : Int} (hcap : 0 < cap) :
    PyRuntime.parseTy E embed (.float b) (.float f) ref (Errors.new cap) = .ok (some (.float f), Errors.new cap) ↔
      PyRuntime.Spec.FloatWithin b f := by
  show PyRuntime.parseFloat E.lib b (.float f) ref _ = _ ↔ _
  rw [← PyRuntime.bounds_float]
  have hnil : ∀ e : Err, (Errors.new cap).add e ≠ Errors.new cap := by
    intro e h
    have := congrArg (·.values.length) h
    simp [Errors.new, Errors.add, hcap] at this
  have hnil2 : ∀ e e' : Err, ((Errors.new cap).add e).add e' ≠ Errors.new cap := by
    intro e e' h
    have := congrArg (·.values.length) h
    simp only [Errors.new, Errors.add] at this
    simp [hcap] at this
    split at this <;> simp at this
  simp only [PyRuntime.parseFloat, PyRuntime.Json.num?]
  unfold PyRuntime.checkBounds
  cases hmn : PyRuntime.minOk b (.float f) <;> cases hb : b.max <;> cases hmx : PyRuntime.maxOk b (.float f) <;>
    simp_all [PyRuntime.maxOk, PyRuntime.Num.toFloat, bind, Except.bind, pure, Except.pure]

end Mapry.ParseSchema
