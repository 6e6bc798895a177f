import Verif.PyFromGraph

/-!
# The code which serializes a value
-/

namespace Mapry.PyCode

set_option linter.unusedSimpArgs false

open Mapry.TypeGraph Mapry.Naming Mapry.ParseSchema
open Mapry.GoCode (referencesOf hasPattern mapM_mem mapM_mem' mapM_cons)

variable {ok : Name → Prop}

/-! ## Temporary variables -/

/-- The bases of the temporary variables. -/
def toBases : List Str := [c!"item", c!"target", c!"target_item", c!"key", c!"value", c!"target_value"]

/-- A temporary variable of the serialization. -/
def ToTemp (x : Var) : Prop := ∃ base ∈ toBases, ∃ k, x = .temp base k

/-- A variable which is not confused with a temporary one. -/
def Tame (y : Var) : Prop := (∃ base k, y = .temp base k) ∨ NoDigit y.text

theorem ToTemp.tame {x} (h : ToTemp x) : Tame x := let ⟨base, _, k, e⟩ := h; .inl ⟨base, k, e⟩

theorem tame_fixed {x : Str} (h : NoDigit x) : Tame (.fixed x) := .inr h

theorem ToTemp.stays {x y} (hx : ToTemp x) (hy : Tame y) (e : x.text = y.text) : x = y := by
  obtain ⟨base, _, k, rfl⟩ := hx
  rcases hy with ⟨base', k', rfl⟩ | hy
  · obtain ⟨rfl, rfl⟩ := temp_inj e
    rfl
  · exact absurd (e ▸ hy) (temp_digit base k)

theorem stays_of_temps {xs : List Var} (hx : ∀ x ∈ xs, ToTemp x) {y} (hy : Tame y) : Stays xs y :=
  fun x hm e => (hx x hm).stays hy e

theorem distinct_of_temps {xs : List Var} (hx : ∀ x ∈ xs, ToTemp x) : Distinct xs :=
  fun x hm => stays_of_temps hx (hx x hm).tame

/-- Code which binds only temporary variables. -/
structure Temps (c : Code) : Prop where
  sets : ∀ x ∈ c.sets, ToTemp x
  drops : c.drops = []

theorem Temps.kept {c} (h : Temps c) {y} (hy : Tame y) : Kept c y :=
  ⟨stays_of_temps h.sets hy, by simp [h.drops]⟩

theorem drops_nil_append {c d : Code} (hc : c.drops = []) (hd : d.drops = []) : (c ++ d).drops = [] := by
  refine List.eq_nil_iff_forall_not_mem.2 fun x hx => ?_
  rcases drops_append hx with h | h
  · simp [hc] at h
  · simp [hd] at h

theorem Temps.append {c d} (hc : Temps c) (hd : Temps d) : Temps (c ++ d) :=
  ⟨fun x hx => (sets_append hx).elim (hc.sets x) (hd.sets x), drops_nil_append hc.drops hd.drops⟩

theorem safe_store {tgt : Target} {xs : List Name} {A} (hA : ∀ y ∈ A, Tame y) (hs : ∀ x ∈ tgt.sets, ToTemp x)
    (hx : ∀ x ∈ xs, Good ok A x) (hu : ∀ x ∈ tgt.uses, Good ok A x) : Safe ok (store tgt xs) A (tgt.sets ++ A) :=
  .use (fun x hm => (List.mem_append.1 hm).elim (hx x) (hu x))
    (.bind (distinct_of_temps hs) (fun y hy => stays_of_temps hs (hA y hy)) .done)

/-! ## Expressions -/

/-- The names of a type in the module `tojsonable`. -/
def toNames : Ty → List Name
  | .duration => [.glob c!"_duration_to_string"]
  | .map _ => [collections]
  | .embed name => [.glob (c!"serialize_" ++ lower name)]
  | _ => []

/-- The calls of a type in the module `tojsonable`. -/
inductive ToCall : Ty → Call → Prop where
  | duration : ToCall .duration ⟨.glob c!"_duration_to_string", [.other], []⟩
  | embed (name) : ToCall (.embed name) ⟨.glob (c!"serialize_" ++ lower name), [.target name], []⟩

/-- What the code of an expression does. -/
structure ExprFine (ok : Name → Prop) (value : List Name) (ty : Ty) (e : Code) : Prop where
  safe : ∀ A, (∀ x ∈ value, Good ok A x) → All (Static ok) e → Safe ok e A A
  sets : e.sets = []
  drops : e.drops = []
  names : ∀ x ∈ e.names, x ∈ value ∨ x = b c!"str" ∨ x ∈ toNames ty
  value : ∀ x ∈ value, x ∈ e.names
  uses : ∀ x ∈ toNames ty, x ∈ e.names
  calls : ∀ a ∈ e.calls, ToCall ty a
  isOpen : e.Open
  parts : parts ty = [ty]

theorem expr_plain {value ty} (h1 : toNames ty = []) (h2 : parts ty = [ty]) : ExprFine ok value ty (.use value .done) :=
  ⟨fun A h _ => .use h .done, rfl, rfl, by simp +contextual [Code.names], by simp [Code.names], by simp [h1], by simp [Code.calls],
    trivial, h2⟩

theorem expr_str {value ty} (h1 : toNames ty = []) (h2 : parts ty = [ty]) :
    ExprFine ok value ty (.use (b c!"str" :: value) .done) := by
  refine ⟨fun A h hn => .use ?_ .done, rfl, rfl, by simp +contextual [Code.names], by simp +contextual [Code.names], by simp [h1],
    by simp [Code.calls], trivial, h2⟩
  intro x hx
  rcases List.mem_cons.1 hx with rfl | hx
  · exact hn (b c!"str") (by simp [Code.names])
  · exact h x hx

theorem expr_call {value ty f a} (h1 : toNames ty = [.glob f]) (h2 : parts ty = [ty]) (h3 : ToCall ty ⟨.glob f, a, []⟩) :
    ExprFine ok value ty (.use value (.call (.glob f) a [] .done)) :=
  ⟨fun A h hn => .use h (.call (hn (.glob f) (by simp [Code.names])) .done), rfl, rfl, by simp [Code.names, h1]; grind,
    by simp +contextual [Code.names], by simp [h1, Code.names], by simp [Code.calls, h3], trivial, h2⟩

theorem expr_fine {py value ty e} (h : serializationExpr py value ty = .ok (some e)) : ExprFine ok value ty e := by
  cases ty with
  | boolean | integer | float | string | date | time | datetime | cls =>
    simp only [serializationExpr, Except.ok.injEq, Option.some.injEq] at h
    exact h ▸ expr_plain rfl rfl
  | path =>
    simp only [serializationExpr] at h
    obtain ⟨names, _, h⟩ := ok_bind h
    simp only [pure, Except.pure, Except.ok.injEq, Option.some.injEq] at h
    subst h
    split
    · exact expr_str rfl rfl
    · exact expr_plain rfl rfl
  | timeZone =>
    simp only [serializationExpr] at h
    obtain ⟨names, _, h⟩ := ok_bind h
    simp only [pure, Except.pure, Except.ok.injEq, Option.some.injEq] at h
    subst h
    split
    · exact expr_str rfl rfl
    · exact expr_plain rfl rfl
  | duration =>
    simp only [serializationExpr, Except.ok.injEq, Option.some.injEq] at h
    exact h ▸ expr_call rfl rfl .duration
  | array => simp [serializationExpr] at h
  | map => simp [serializationExpr] at h
  | embed name =>
    simp only [serializationExpr] at h
    obtain ⟨f, hf, h⟩ := ok_bind h
    simp only [pure, Except.pure, Except.ok.injEq, Option.some.injEq] at h
    obtain ⟨rfl, _⟩ := asVariable_eq hf
    exact h ▸ expr_call rfl rfl (.embed name)

/-! ## Values -/

/-- The code which serializes a value, without the exceptions. -/
inductive Serializes (py : Py) : Ty → Target → List Name → Nat → Code → Prop where
  | copy (x lo hi tgt value n) : directCopy py x = true → Serializes py (.array x lo hi) tgt value n (store tgt value)
  | each (x lo hi tgt value n item) : serializationExpr py [t c!"item" n] x = .ok (some item) →
    Serializes py (.array x lo hi) tgt value n
      (.use value (.loop [.temp c!"item" n] item (.bind [.temp c!"target" n] (store tgt [t c!"target" n]))))
  | array (x lo hi tgt value n item) : Serializes py x ⟨[], [.temp c!"target_item" n]⟩ [t c!"item" n] (n + 1) item →
    Serializes py (.array x lo hi) tgt value n
      (.bind [.temp c!"target" n] (.use value (.loop [.temp c!"item" n]
        (item ++ .use [t c!"target" n, t c!"target_item" n] .done) (store tgt [t c!"target" n]))))
  | mapEach (x tgt value n item) : serializationExpr py [t c!"value" n] x = .ok (some item) →
    Serializes py (.map x) tgt value n (.use (b c!"isinstance" :: value ++ [collections])
      (.branch (.use [collections] (.bind [.temp c!"target" n] .done)) (.use [b c!"dict"] (.bind [.temp c!"target" n] .done))
      (.use value (.loop [.temp c!"key" n, .temp c!"value" n] (item ++ .use [t c!"target" n, t c!"key" n] .done)
        (store tgt [t c!"target" n])))))
  | map (x tgt value n item) : Serializes py x ⟨[], [.temp c!"target_value" n]⟩ [t c!"value" n] (n + 1) item →
    Serializes py (.map x) tgt value n (.use (b c!"isinstance" :: value ++ [collections])
      (.branch (.use [collections] (.bind [.temp c!"target" n] .done)) (.use [b c!"dict"] (.bind [.temp c!"target" n] .done))
      (.use value (.loop [.temp c!"key" n, .temp c!"value" n]
        (item ++ .use [t c!"target" n, t c!"key" n, t c!"target_value" n] .done) (store tgt [t c!"target" n])))))
  | leaf (x tgt value n e) : serializationExpr py value x = .ok (some e) → Serializes py x tgt value n (e ++ store tgt [])

theorem serializes_of_ok (py : Py) (ty : Ty) : ∀ tgt value n c m, serializeValue py ty tgt value n = .ok (c, m) →
    Serializes py ty tgt value n c := by
  have leaf : ∀ ty tgt value n c m, (do
      match ← serializationExpr py value ty with
      | some e => pure (e ++ store tgt [], n)
      | none => .error (.notImplemented []) : Except Exc (Code × Nat)) = .ok (c, m) → Serializes py ty tgt value n c := by
    intro ty tgt value n c m h
    obtain ⟨e, he, h⟩ := ok_bind h
    cases e with
    | none => cases h
    | some e =>
      cases h
      exact .leaf ty tgt value _ e he
  induction ty with
  | boolean | integer | float | string | date | time | datetime | cls | path | timeZone | duration | embed =>
    intro tgt value n c m h
    rw [serializeValue] at h
    · exact leaf _ _ _ _ _ _ h
    · simp
    · simp
  | array x lo hi ih =>
    intro tgt value n c m h
    rw [serializeValue] at h
    split at h
    · cases h
      exact .copy x lo hi tgt value n (by assumption)
    · obtain ⟨e, he, h⟩ := ok_bind h
      cases e with
      | some item =>
        cases h
        exact .each x lo hi tgt value n item he
      | none =>
        obtain ⟨⟨item, m'⟩, hi', h⟩ := ok_bind h
        cases h
        exact .array x lo hi tgt value n item (ih _ _ _ _ _ hi')
  | map x ih =>
    intro tgt value n c m h
    rw [serializeValue] at h
    obtain ⟨⟨item, m'⟩, hi', h⟩ := ok_bind h
    obtain ⟨e, he, hi'⟩ := ok_bind hi'
    cases e with
    | some e =>
      cases hi'
      cases h
      exact .mapEach x tgt value n e he
    | none =>
      obtain ⟨⟨e, m''⟩, hi2, hi'⟩ := ok_bind hi'
      cases hi'
      cases h
      exact .map x tgt value n e (ih _ _ _ _ _ hi2)

theorem toTemp_mk {base : Str} (k) (h : base ∈ toBases := by simp [toBases]) : ToTemp (.temp base k) := ⟨base, h, k, rfl⟩

theorem serializes_temps {py ty tgt value n c} (h : Serializes py ty tgt value n c) (hs : ∀ x ∈ tgt.sets, ToTemp x) :
    Temps c := by
  have e1 := toTemp_mk (base := c!"item")
  have e2 := toTemp_mk (base := c!"target")
  have e3 := toTemp_mk (base := c!"key")
  have e4 := toTemp_mk (base := c!"value")
  have e5 := toTemp_mk (base := c!"target_item")
  have e6 := toTemp_mk (base := c!"target_value")
  induction h with
  | copy => exact ⟨by simpa [store, Code.sets] using hs, rfl⟩
  | each x lo hi tgt value n item he =>
    have hf := expr_fine (ok := fun _ => True) he
    exact ⟨by simpa [store, Code.sets, hf.sets, e1, e2] using hs, by simp [store, Code.drops, hf.drops]⟩
  | array x lo hi tgt value n item hp ih =>
    have ht := (ih (by simp [e5])).append (d := .use [t c!"target" n, t c!"target_item" n] .done)
      ⟨by simp [Code.sets], by simp [Code.drops]⟩
    exact ⟨by
      simp only [Code.sets, store, List.append_nil, List.forall_mem_append, List.forall_mem_cons, List.not_mem_nil,
        false_implies, implies_true, and_true]
      exact ⟨e2 n, ⟨e1 n, ht.sets⟩, hs⟩, by simp [store, Code.drops, ht.drops]⟩
  | mapEach x tgt value n item he =>
    have hf := expr_fine (ok := fun _ => True) he
    have ht := Temps.append (c := item) (d := .use [t c!"target" n, t c!"key" n] .done)
      ⟨by simp [hf.sets], by simp [hf.drops]⟩ ⟨by simp [Code.sets], by simp [Code.drops]⟩
    exact ⟨by
      simp only [Code.sets, store, List.append_nil, List.forall_mem_append, List.forall_mem_cons, List.not_mem_nil,
        false_implies, implies_true, and_true]
      exact ⟨⟨e2 n, e2 n⟩, ⟨⟨e3 n, e4 n⟩, ht.sets⟩, hs⟩, by simp [store, Code.drops, ht.drops]⟩
  | map x tgt value n item hp ih =>
    have ht := (ih (by simp [e6])).append (d := .use [t c!"target" n, t c!"key" n, t c!"target_value" n] .done)
      ⟨by simp [Code.sets], by simp [Code.drops]⟩
    exact ⟨by
      simp only [Code.sets, store, List.append_nil, List.forall_mem_append, List.forall_mem_cons, List.not_mem_nil,
        false_implies, implies_true, and_true]
      exact ⟨⟨e2 n, e2 n⟩, ⟨⟨e3 n, e4 n⟩, ht.sets⟩, hs⟩, by simp [store, Code.drops, ht.drops]⟩
  | leaf x tgt value n e he =>
    have hf := expr_fine (ok := fun _ => True) he
    exact Temps.append ⟨by simp [hf.sets], by simp [hf.drops]⟩ ⟨by simpa [store, Code.sets] using hs, by simp [store, Code.drops]⟩

theorem serializes_safe {py ty tgt value n c} (h : Serializes py ty tgt value n c) : ∀ A, (∀ y ∈ A, Tame y) →
    (∀ x ∈ tgt.sets, ToTemp x) → (∀ x ∈ value, Good ok A x) → (∀ x ∈ tgt.uses, Good ok A x) → All (Static ok) c →
    Safe ok c A (tgt.sets ++ A) := by
  induction h with
  | copy => exact fun A hA hs hv hu _ => safe_store hA hs hv hu
  | each x lo hi tgt value n item he =>
    intro A hA hs hv hu hn
    have hf := expr_fine (ok := ok) he
    have ht : ToTemp (.temp c!"target" n) := toTemp_mk n
    have hi : ToTemp (.temp c!"item" n) := toTemp_mk n
    simp only [all_use, all_loop] at hn
    refine .use hv (.loop (C := .temp c!"item" n :: A) (distinct_one _) (fun y hy => ⟨stays_of_temps (by simp [hi]) (hA y hy), ?_⟩) (hf.safe _ (by simp) hn.2.1) (.bind
      (distinct_one _) (fun y hy => stays_of_temps (by simp [ht]) (hA y hy)) ((safe_store ?_ hs (by simp) ?_).weaken
        (fun _ h => h) ?_)))
    · exact ⟨by simp [hf.sets, Stays], by simp [hf.drops]⟩
    · simpa [ht.tame] using hA
    · exact fun x hx => (hu x hx).mono (by simp +contextual)
    · simp +contextual
      grind
  | array x lo hi tgt value n item hp ih =>
    intro A hA hs hv hu hn
    have ht : ToTemp (.temp c!"target" n) := toTemp_mk n
    have hi : ToTemp (.temp c!"item" n) := toTemp_mk n
    have hti : ToTemp (.temp c!"target_item" n) := toTemp_mk n
    have hb := (serializes_temps hp (by simp [hti])).append (d := .use [t c!"target" n, t c!"target_item" n] .done)
      ⟨by simp [Code.sets], by simp [Code.drops]⟩
    have hA1 : ∀ y ∈ [Var.temp c!"target" n] ++ A, Tame y := by simpa [ht.tame] using hA
    have hn' : All (Static ok) item := by
      simp only [all_use, all_loop, all_bind] at hn
      exact fun x hx => hn.2.1 x (names_left hx)
    refine .bind (distinct_one _) (fun y hy => stays_of_temps (by simp [ht]) (hA y hy)) (.use
      (fun x hx => (hv x hx).mono (by simp +contextual)) (.loop (C := []) (distinct_one _) (fun y hy =>
        ⟨stays_of_temps (by simp [hi]) (hA1 y hy), hb.kept (hA1 y hy)⟩) (.append (ih _ ?_ (by simp [hti]) (by simp) (by simp) hn')
        (.use (by simp) (Safe.done.weaken (A := []) (by simp) fun _ h => h)))
      ((safe_store hA1 hs (by simp) ?_).weaken (fun _ h => h) ?_)))
    · simpa [ht.tame, hi.tame] using hA
    · exact fun x hx => (hu x hx).mono (by simp +contextual)
    · simp +contextual
      grind
  | mapEach x tgt value n item he =>
    intro A hA hs hv hu hn
    have hf := expr_fine (ok := ok) he
    have ht : ToTemp (.temp c!"target" n) := toTemp_mk n
    have hk : ToTemp (.temp c!"key" n) := toTemp_mk n
    have hva : ToTemp (.temp c!"value" n) := toTemp_mk n
    have hb := Temps.append (c := item) (d := .use [t c!"target" n, t c!"key" n] .done)
      ⟨by simp [hf.sets], by simp [hf.drops]⟩ ⟨by simp [Code.sets], by simp [Code.drops]⟩
    have hA1 : ∀ y ∈ [Var.temp c!"target" n] ++ A, Tame y := by simpa [ht.tame] using hA
    have hn1 : ok (b c!"isinstance") := hn (b c!"isinstance") (by simp [Code.names])
    have hn2 : ok collections := hn collections (by simp [Code.names])
    have hn3 : ok (b c!"dict") := hn (b c!"dict") (by simp [Code.names])
    have hn' : All (Static ok) item := by
      simp only [all_use, all_loop, all_branch] at hn
      exact fun x hx => hn.2.2.2.2.1 x (names_left hx)
    have hv1 : ∀ x ∈ value, Good ok ([Var.temp c!"target" n] ++ A) x := fun x hx => (hv x hx).mono (by simp +contextual)
    refine .use ?_ (.branch (C := [.temp c!"target" n] ++ A) (.use (by simpa using hn2) (.bind (distinct_one _)
      (fun y hy => stays_of_temps (by simp [ht]) (hA y hy)) .done)) (.use (by simpa using hn3) (.bind (distinct_one _)
      (fun y hy => stays_of_temps (by simp [ht]) (hA y hy)) .done)) (.use hv1 (.loop (C := []) (distinct_of_temps (by simp [hk, hva]))
      (fun y hy => ⟨stays_of_temps (by simp [hk, hva]) (hA1 y hy), hb.kept (hA1 y hy)⟩) (.append (hf.safe _ (by simp) hn')
        (.use (by simp) (Safe.done.weaken (A := []) (by simp) fun _ h => h)))
      ((safe_store hA1 hs (by simp) ?_).weaken (fun _ h => h) ?_))))
    · simp only [List.cons_append, List.forall_mem_cons, List.forall_mem_append]
      exact ⟨hn1, hv, hn2, by simp⟩
    · exact fun x hx => (hu x hx).mono (by simp +contextual)
    · simp +contextual
      grind
  | map x tgt value n item hp ih =>
    intro A hA hs hv hu hn
    have ht : ToTemp (.temp c!"target" n) := toTemp_mk n
    have hk : ToTemp (.temp c!"key" n) := toTemp_mk n
    have hva : ToTemp (.temp c!"value" n) := toTemp_mk n
    have hti : ToTemp (.temp c!"target_value" n) := toTemp_mk n
    have hb := (serializes_temps hp (by simp [hti])).append (d := .use [t c!"target" n, t c!"key" n, t c!"target_value" n] .done)
      ⟨by simp [Code.sets], by simp [Code.drops]⟩
    have hA1 : ∀ y ∈ [Var.temp c!"target" n] ++ A, Tame y := by simpa [ht.tame] using hA
    have hn1 : ok (b c!"isinstance") := hn (b c!"isinstance") (by simp [Code.names])
    have hn2 : ok collections := hn collections (by simp [Code.names])
    have hn3 : ok (b c!"dict") := hn (b c!"dict") (by simp [Code.names])
    have hn' : All (Static ok) item := by
      simp only [all_use, all_loop, all_branch] at hn
      exact fun x hx => hn.2.2.2.2.1 x (names_left hx)
    have hv1 : ∀ x ∈ value, Good ok ([Var.temp c!"target" n] ++ A) x := fun x hx => (hv x hx).mono (by simp +contextual)
    refine .use ?_ (.branch (C := [.temp c!"target" n] ++ A) (.use (by simpa using hn2) (.bind (distinct_one _)
      (fun y hy => stays_of_temps (by simp [ht]) (hA y hy)) .done)) (.use (by simpa using hn3) (.bind (distinct_one _)
      (fun y hy => stays_of_temps (by simp [ht]) (hA y hy)) .done)) (.use hv1 (.loop (C := []) (distinct_of_temps (by simp [hk, hva]))
      (fun y hy => ⟨stays_of_temps (by simp [hk, hva]) (hA1 y hy), hb.kept (hA1 y hy)⟩)
      (.append (ih _ ?_ (by simp [hti]) (by simp) (by simp) hn')
        (.use (by simp) (Safe.done.weaken (A := []) (by simp) fun _ h => h)))
      ((safe_store hA1 hs (by simp) ?_).weaken (fun _ h => h) ?_))))
    · simp only [List.cons_append, List.forall_mem_cons, List.forall_mem_append]
      exact ⟨hn1, hv, hn2, by simp⟩
    · simpa [ht.tame, hk.tame, hva.tame] using hA
    · exact fun x hx => (hu x hx).mono (by simp +contextual)
    · simp +contextual
      grind
  | leaf x tgt value n e he =>
    intro A hA hs hv hu hn
    have hf := expr_fine (ok := ok) he
    exact .append (hf.safe A hv fun x hx => hn x (names_left hx)) (safe_store hA hs (by simp) hu)

/-- The names of the parts of a type. -/
def ToUses (ty : Ty) (x : Name) : Prop := Plain x ∨ ∃ u ∈ parts ty, x ∈ toNames u

theorem toUses_of {ty x} (h : Plain x) : ToUses ty x := .inl h

theorem serializes_names {py ty tgt value n c} (h : Serializes py ty tgt value n c) (hv : ∀ x ∈ value, Plain x)
    (hu : ∀ x ∈ tgt.uses, Plain x) : All (ToUses ty) c := by
  have i1 : ∀ {ty}, ToUses ty (b c!"isinstance") := .inl (by simp [builtins])
  have i2 : ∀ {ty}, ToUses ty (b c!"dict") := .inl (by simp [builtins])
  have i3 : ∀ {x}, ToUses (.map x) collections := .inr ⟨_, self_mem_parts _, by simp [toNames]⟩
  have i4 : ∀ {ty s k}, ToUses ty (t s k) := .inl (by simp)
  have i5 : ∀ {ty x}, ToUses ty (.var x) := .inl (by simp)
  induction h with
  | copy => simp only [all_store]; exact ⟨fun x hx => .inl (hv x hx), fun x hx => .inl (hu x hx)⟩
  | each x lo hi tgt value n item he =>
    have hf := expr_fine (ok := fun _ => True) he
    simp only [all_use, all_loop, all_bind, all_store, List.forall_mem_cons]
    refine ⟨fun x hx => .inl (hv x hx), ?_, by simp [i4], fun x hx => .inl (hu x hx)⟩
    intro y hy
    rcases hf.names y hy with h | h | h
    · exact .inl (by simp_all)
    · exact .inl (by simp [h, builtins])
    · exact .inr ⟨x, List.mem_cons_of_mem _ (self_mem_parts x), h⟩
  | array x lo hi tgt value n item hp ih =>
    simp only [all_use, all_loop, all_bind, all_store, List.forall_mem_cons]
    refine ⟨fun x hx => .inl (hv x hx), all_append ?_ (by simp [i4]), by simp [i4], fun x hx => .inl (hu x hx)⟩
    exact fun y hy => (ih (by simp) (by simp) y hy).imp id (fun ⟨u, hu, hy⟩ => ⟨u, List.mem_cons_of_mem _ hu, hy⟩)
  | mapEach x tgt value n item he =>
    have hf := expr_fine (ok := fun _ => True) he
    simp only [all_use, all_loop, all_bind, all_store, all_branch, all_done, List.forall_mem_cons, List.cons_append,
      List.forall_mem_append]
    refine ⟨⟨i1, fun x hx => .inl (hv x hx), i3, by simp⟩, by simp [i3], by simp [i2], fun x hx => .inl (hv x hx),
      all_append ?_ (by simp [i4]), by simp [i4], fun x hx => .inl (hu x hx)⟩
    intro y hy
    rcases hf.names y hy with h | h | h
    · exact .inl (by simp_all)
    · exact .inl (by simp [h, builtins])
    · exact .inr ⟨x, List.mem_cons_of_mem _ (self_mem_parts x), h⟩
  | map x tgt value n item hp ih =>
    simp only [all_use, all_loop, all_bind, all_store, all_branch, all_done, List.forall_mem_cons, List.cons_append,
      List.forall_mem_append]
    refine ⟨⟨i1, fun x hx => .inl (hv x hx), i3, by simp⟩, by simp [i3], by simp [i2], fun x hx => .inl (hv x hx),
      all_append ?_ (by simp [i4]), by simp [i4], fun x hx => .inl (hu x hx)⟩
    exact fun y hy => (ih (by simp) (by simp) y hy).imp id (fun ⟨u, hu, hy⟩ => ⟨u, List.mem_cons_of_mem _ hu, hy⟩)
  | leaf x tgt value n e he =>
    have hf := expr_fine (ok := fun _ => True) he
    refine all_append (fun y hy => ?_) (by simp only [all_store]; exact ⟨by simp, fun x hx => .inl (hu x hx)⟩)
    rcases hf.names y hy with h | h | h
    · exact .inl (hv y h)
    · exact .inl (by simp [h, builtins])
    · exact .inr ⟨x, self_mem_parts x, h⟩

theorem serializes_uses {py ty tgt value n c} (h : Serializes py ty tgt value n c) {u : Ty} (hu : u ∈ parts ty)
    {x : Name} (hx : x ∈ toNames u) : x ∈ c.names := by
  induction h with
  | copy y lo hi tgt value n hc =>
    simp only [parts, List.mem_cons] at hu
    rcases hu with rfl | hu
    · simp [toNames] at hx
    · cases y <;> simp [directCopy] at hc <;> simp [parts] at hu <;> subst hu <;> simp [toNames] at hx
  | each y lo hi tgt value n item he =>
    have hf := expr_fine (ok := fun _ => True) he
    simp only [parts, List.mem_cons] at hu
    rcases hu with rfl | hu
    · simp [toNames] at hx
    · rw [hf.parts] at hu
      obtain rfl := List.mem_singleton.1 hu
      simp [Code.names, hf.uses x hx]
  | array y lo hi tgt value n item hp ih =>
    simp only [parts, List.mem_cons] at hu
    rcases hu with rfl | hu
    · simp [toNames] at hx
    · simp only [Code.names, List.mem_append]
      exact .inr (.inl (names_left (ih hu)))
  | mapEach y tgt value n item he =>
    have hf := expr_fine (ok := fun _ => True) he
    simp only [parts, List.mem_cons] at hu
    rcases hu with rfl | hu
    · simp [toNames] at hx
      simp [Code.names, hx]
    · rw [hf.parts] at hu
      obtain rfl := List.mem_singleton.1 hu
      simp only [Code.names, List.mem_append]
      exact .inr (.inr (.inr (.inl (names_left (hf.uses x hx)))))
  | map y tgt value n item hp ih =>
    simp only [parts, List.mem_cons] at hu
    rcases hu with rfl | hu
    · simp [toNames] at hx
      simp [Code.names, hx]
    · simp only [Code.names, List.mem_append]
      exact .inr (.inr (.inr (.inl (names_left (ih hu)))))
  | leaf y tgt value n e he =>
    have hf := expr_fine (ok := fun _ => True) he
    rw [hf.parts] at hu
    obtain rfl := List.mem_singleton.1 hu
    exact names_left (hf.uses x hx)

theorem serializes_calls {py ty tgt value n c} (h : Serializes py ty tgt value n c) {a : Call} (ha : a ∈ c.calls) :
    ∃ u ∈ parts ty, ToCall u a := by
  induction h with
  | copy => simp at ha
  | each y lo hi tgt value n item he =>
    have hf := expr_fine (ok := fun _ => True) he
    simp only [Code.calls, store_calls, List.append_nil] at ha
    exact ⟨y, List.mem_cons_of_mem _ (self_mem_parts y), hf.calls a ha⟩
  | array y lo hi tgt value n item hp ih =>
    simp only [Code.calls, store_calls, List.append_nil] at ha
    rcases calls_append ha with ha | ha
    · obtain ⟨u, hu, h⟩ := ih ha
      exact ⟨u, List.mem_cons_of_mem _ hu, h⟩
    · simp [Code.calls] at ha
  | mapEach y tgt value n item he =>
    have hf := expr_fine (ok := fun _ => True) he
    simp only [Code.calls, store_calls, List.append_nil, List.nil_append] at ha
    rcases calls_append ha with ha | ha
    · exact ⟨y, List.mem_cons_of_mem _ (self_mem_parts y), hf.calls a ha⟩
    · simp [Code.calls] at ha
  | map y tgt value n item hp ih =>
    simp only [Code.calls, store_calls, List.append_nil, List.nil_append] at ha
    rcases calls_append ha with ha | ha
    · obtain ⟨u, hu, h⟩ := ih ha
      exact ⟨u, List.mem_cons_of_mem _ hu, h⟩
    · simp [Code.calls] at ha
  | leaf y tgt value n e he =>
    have hf := expr_fine (ok := fun _ => True) he
    rcases calls_append ha with ha | ha
    · exact ⟨y, self_mem_parts y, hf.calls a ha⟩
    · simp at ha

theorem serializes_open {py ty tgt value n c} (h : Serializes py ty tgt value n c) : c.Open := by
  cases h with
  | leaf _ _ _ _ e he => exact open_append (expr_fine (ok := fun _ => True) he).isOpen (by simp [store, Code.Open])
  | _ => simp [store, Code.Open]

end Mapry.PyCode
