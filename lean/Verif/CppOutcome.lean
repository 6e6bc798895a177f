import Verif.CppWriteGraph
import Verif.DurationValue

/-!
# When the C++ serializer succeeds

A graph which the memory holds is serialized unless an instance is registered under another identifier, a pointer is null, a
duration is the least one or the text of a time does not fit into the buffer.
-/

namespace Mapry.CppExec

open Mapry.CppLang Mapry.CppGen Mapry.Naming Mapry.ParseSchema
open Mapry.Duration (minInt64)
open Mapry.CppRuntime (JVal Lib DateLib Fields serTy serItems serEntries serTime serProps serComposite serEmbed serInstances serRegistries
  serGraph putMember GraphVal Instance registryIn registryKey idMessage compositeName byteLength tmToString)

/-- The text of the time does not fit into the buffer of four times the size of the format, or it is empty. -/
def Unfit (L : Lib) (format : Str) (t : CppRuntime.Time) : Prop :=
  format ≠ [] ∧ (L.strftime format t = [] ∨ byteLength format * 4 ≤ byteLength (L.strftime format t))

/-- A part of the value can not be serialized, with the exception. -/
inductive Raises (D : DateLib) (L : Lib) (g : Graph) : Ty → CV → Exc → Prop
  | cls {c} : Raises D L g (.cls c) .nil (.panic c!"null pointer")
  | zone : Raises D L g .timeZone .nil (.panic c!"null pointer")
  | duration : Raises D L g .duration (.duration minInt64) (.runtimeError c!"std::overflow_error")
  | date {f t} : D = .ctime → Unfit L f t → Raises D L g (.date f) (.time t) (.runtimeError c!"std::length_error")
  | time {f t} : D = .ctime → Unfit L f t → Raises D L g (.time f) (.time t) (.runtimeError c!"std::length_error")
  | datetime {f t} : D = .ctime → Unfit L f t → Raises D L g (.datetime f) (.time t) (.runtimeError c!"std::length_error")
  | array {t lo hi ys y e} : y ∈ ys → Raises D L g t y e → Raises D L g (.array t lo hi) (.list ys) e
  | map {t ys k y e} : (k, y) ∈ ys → Raises D L g t y e → Raises D L g (.map t) (.map ys) e
  | embed {n n' m p fields y e} : g.embed? n = some m → p ∈ m.properties → fields.lookup p.name = some y →
      (p.optional = true → y ≠ .nil) → Raises D L g p.ty y e → Raises D L g (.embed n) (.obj n' fields) e

/-- The fields contain such a value. -/
def RaisesIn (D : DateLib) (L : Lib) (g : Graph) (ps : List Property) (fields : Fields) (e : Exc) : Prop :=
  ∃ p y, p ∈ ps ∧ fields.lookup p.name = some y ∧ (p.optional = true → y ≠ .nil) ∧ Raises D L g p.ty y e

/-- A result exactly if there is no reason for an exception, and otherwise one of the exceptions -/
def Tells {α : Type} (E : Exc → Prop) : Except Exc α → Prop
  | .ok _ => ∀ e, ¬ E e
  | .error e => E e

theorem Tells.iff {α : Type} {E F : Exc → Prop} (h : ∀ e, E e ↔ F e) {r : Except Exc α} (ht : Tells E r) : Tells F r := by
  cases r with
  | ok a => exact fun e m => ht e ((h e).2 m)
  | error e => exact (h e).1 ht

theorem Tells.map {α β : Type} {E : Exc → Prop} {r : Except Exc α} (ht : Tells E r) (f : α → β) : Tells E (r.map f) := by
  cases r <;> exact ht

theorem Tells.bind {α β : Type} {E F G : Exc → Prop} {r : Except Exc α} {f : α → Except Exc β} (ht : Tells E r)
    (hf : ∀ a, Tells F (f a)) (hg : ∀ e, G e ↔ E e ∨ F e) : Tells G (r >>= f) := by
  cases r with
  | ok a =>
    refine Tells.iff (fun e => ?_) (hf a)
    rw [hg]
    exact ⟨.inr, fun h => h.resolve_left (ht e)⟩
  | error e => exact (hg e).2 (.inl ht)

theorem Tells.ok {α : Type} {E : Exc → Prop} (a : α) (h : ∀ e, ¬ E e) : Tells E (.ok a : Except Exc α) := h

theorem tells_items {E : CV → Exc → Prop} {f : CV → Except Exc JVal} : ∀ (ys : List CV),
    (∀ y ∈ ys, Tells (E y) (f y)) → Tells (fun e => ∃ y ∈ ys, E y e) (serItems f ys)
  | [], _ => fun _ ⟨_, h, _⟩ => nomatch h
  | y :: ys, h => by
    rw [serItems]
    refine Tells.bind (F := fun e => ∃ y ∈ ys, E y e) (h y (by simp)) (fun a => ?_) (by simp)
    exact Tells.map (tells_items ys fun y hy => h y (by simp [hy])) (a :: ·)

theorem tells_entries {E : CV → Exc → Prop} {f : CV → Except Exc JVal} : ∀ (ys : List (Str × CV)) (acc : GoMap JVal),
    (∀ y ∈ ys, Tells (E y.2) (f y.2)) → Tells (fun e => ∃ y ∈ ys, E y.2 e) (serEntries f ys acc)
  | [], _, _ => fun _ ⟨_, h, _⟩ => nomatch h
  | (k, y) :: ys, acc, h => by
    rw [serEntries]
    refine Tells.bind (F := fun e => ∃ y ∈ ys, E y.2 e) (h (k, y) (by simp)) (fun a => ?_) (by simp)
    exact tells_entries ys _ fun y hy => h y (by simp [hy])

section

variable {D : DateLib} {L : Lib} {g : Graph} {heap : List Val}

theorem tells_props {x : Val} {fields : Fields} {embed : Str → CV → Except Exc JVal} :
    ∀ (ps : List Property) (acc : JVal), HoldsFields D g heap ps x fields →
    (∀ p ∈ ps, ∀ w y, fields.lookup p.name = some y → Holds D g heap p.ty w y →
      Tells (Raises D L g p.ty y) (serTy D L embed p.ty y)) →
    Tells (RaisesIn D L g ps fields) (serProps (serTy D L embed) fields ps acc)
  | [], acc, _, _ => fun _ ⟨_, _, h, _⟩ => nomatch h
  | p :: ps, acc, hh, h => by
    obtain ⟨w, y, hw, hy, hp⟩ := hh p (by simp)
    have ih := fun acc => tells_props (embed := embed) ps acc (fun q hq => hh q (by simp [hq])) fun q hq => h q (by simp [hq])
    have key : ∀ e, RaisesIn D L g (p :: ps) fields e ↔
        ((p.optional = true → y ≠ .nil) ∧ Raises D L g p.ty y e) ∨ RaisesIn D L g ps fields e := by
      intro e
      constructor
      · rintro ⟨q, z, hq, hz, h1, h2⟩
        rcases List.mem_cons.1 hq with rfl | hq
        · rw [hy] at hz
          cases hz
          exact .inl ⟨h1, h2⟩
        · exact .inr ⟨q, z, hq, hz, h1, h2⟩
      · rintro (⟨h1, h2⟩ | ⟨q, z, hq, hz, h1, h2⟩)
        · exact ⟨p, y, by simp, hy, h1, h2⟩
        · exact ⟨q, z, by simp [hq], hz, h1, h2⟩
    rw [serProps_cons hy]
    by_cases ho : p.optional = true ∧ y = .nil
    · obtain ⟨ho, rfl⟩ := ho
      simp only [serProp, ho]
      refine Tells.iff (fun e => ?_) (ih acc)
      rw [key]
      exact ⟨.inr, fun h => h.elim (fun h => absurd rfl (h.1 ho)) id⟩
    · have hhold : ∃ w, Holds D g heap p.ty w y := by
        cases hp with
        | direct _ h => exact ⟨_, h⟩
        | none h1 => exact absurd ⟨h1, rfl⟩ ho
        | some _ h _ => exact ⟨_, h⟩
      obtain ⟨w, hw⟩ := hhold
      have hne : p.optional = true → y ≠ .nil := fun h e => ho ⟨h, e⟩
      rw [serProp_direct (by grind)]
      refine Tells.bind (F := RaisesIn D L g ps fields) ((h p (by simp) w y hy hw).map _) (fun a => ih _) fun e => ?_
      rw [key]
      exact ⟨fun h => h.imp_left And.right, fun h => h.imp_left fun h => ⟨hne, h⟩⟩

theorem tells_composite {x : Val} {fields : Fields} {embed : Str → CV → Except Exc JVal} {ps : List Property}
    (hh : HoldsFields D g heap ps x fields)
    (h : ∀ p ∈ ps, ∀ w y, fields.lookup p.name = some y → Holds D g heap p.ty w y →
      Tells (Raises D L g p.ty y) (serTy D L embed p.ty y)) :
    Tells (RaisesIn D L g ps fields) (serComposite (serTy D L embed) ps fields) := by
  unfold serComposite
  by_cases hp : ps = []
  · rw [if_pos hp]
    subst hp
    exact fun _ ⟨_, _, h, _⟩ => nomatch h
  · rw [if_neg hp]
    exact tells_props ps .null hh h

theorem lookup_size {α : Type} [SizeOf α] {fields : List (Str × α)} {k : Str} {y : α} (h : fields.lookup k = some y) :
    sizeOf y < sizeOf fields := by
  induction fields with
  | nil => cases h
  | cons e fields ih =>
    obtain ⟨k', z⟩ := e
    simp only [List.lookup] at h
    split at h
    · cases h
      simp
      omega
    · have := ih h
      simp
      omega

theorem tells_tm {format : Str} {t : CppRuntime.Time} :
    Tells (fun e => Unfit L format t ∧ e = .runtimeError c!"std::length_error") (tmToString L t format) := by
  unfold tmToString Unfit
  by_cases hf : format = []
  · rw [if_pos hf]
    exact fun e h => h.1.1 hf
  · rw [if_neg hf]
    simp only
    by_cases ht : L.strftime format t ≠ [] ∧ byteLength (L.strftime format t) < byteLength format * 4
    · rw [if_pos ht]
      rintro e ⟨⟨_, h⟩, _⟩
      rcases h with h | h
      · exact ht.1 h
      · omega
    · rw [if_neg ht]
      refine ⟨⟨hf, ?_⟩, rfl⟩
      by_cases h : L.strftime format t = []
      · exact .inl h
      · exact .inr (Nat.le_of_not_lt fun h' => ht ⟨h, h'⟩)

/-- **Values.** -/
theorem tells_value : ∀ (fuel : Nat) (t : Ty) (w : Val) (y : CV), Holds D g heap t w y → sizeOf y ≤ fuel →
    Tells (Raises D L g t y) (serTy D L (serEmbed D L g fuel) t y) := by
  intro fuel
  induction fuel with
  | zero =>
    intro t w y _ h
    cases y <;> simp at h
  | succ fuel ihf =>
    intro t
    induction t with
    | array t lo hi ih =>
      intro w y hh hs
      cases hh with
      | @array _ _ _ xs ys hlen _ hi =>
        refine ((tells_items (E := Raises D L g t) ys fun y hy => ?_).map _).iff fun e => ?_
        · obtain ⟨i, hi', he⟩ := List.mem_iff_getElem.1 hy
          have h1 : ys[i]? = some y := by rw [List.getElem?_eq_getElem hi', he]
          have h2 : xs[i]? = some (xs[i]'(hlen ▸ hi')) := List.getElem?_eq_getElem _
          have h3 := List.sizeOf_lt_of_mem hy
          exact ih _ _ (hi i _ _ h2 h1) (by simp at hs; omega)
        · constructor
          · rintro ⟨y, hy, h⟩
            exact .array hy h
          · intro h
            cases h with
            | array hy h => exact ⟨_, hy, h⟩
    | map t ih =>
      intro w y hh hs
      cases hh with
      | @map _ xs ys hlen hi =>
        have hlen' : xs.length = ys.length := by simpa using congrArg List.length hlen
        refine ((tells_entries (E := Raises D L g t) ys [] fun y hy => ?_).map _).iff fun e => ?_
        · obtain ⟨i, hi', he⟩ := List.mem_iff_getElem.1 hy
          have h1 : ys[i]? = some y := by rw [List.getElem?_eq_getElem hi', he]
          have h2 : xs[i]? = some (xs[i]'(hlen' ▸ hi')) := List.getElem?_eq_getElem _
          have h3 := List.sizeOf_lt_of_mem hy
          obtain ⟨k, y⟩ := y
          exact ih _ y (hi i _ _ h2 h1) (by simp at hs h3; omega)
        · constructor
          · rintro ⟨y, hy, h⟩
            exact .map hy h
          · intro h
            cases h with
            | map hy h => exact ⟨_, hy, h⟩
    | embed n =>
      intro w y hh hs
      cases hh with
      | @embed _ _ e ty xs fields V u he ht h1 h2 h3 =>
        show Tells _ (serEmbed D L g (fuel + 1) n _)
        rw [serEmbed, he]
        refine (tells_composite (heap := heap) (x := .struct ty xs) (fun p hp => ⟨_, _, h2 p hp, h1 p hp, h3 p hp⟩) ?_).iff fun e' => ?_
        · intro p hp w y hy hh
          have := lookup_size hy
          exact ihf _ _ _ hh (by simp at hs; omega)
        · constructor
          · rintro ⟨p, y, hp, hy, h1, h2⟩
            exact .embed he hp hy h1 h2
          · intro h
            cases h with
            | embed he' hp hy h1 h2 =>
              rw [he] at he'
              cases he'
              exact ⟨_, _, hp, hy, h1, h2⟩
    | cls c =>
      intro w y hh hs
      cases hh with
      | cls _ _ => exact nofun
      | clsNull => exact .cls
    | timeZone =>
      intro w y hh hs
      cases hh with
      | zoneC _ _ => exact nofun
      | zone _ _ => exact nofun
      | zoneNull _ => exact .zone
    | duration =>
      intro w y hh hs
      cases hh with
      | duration d =>
        show Tells _ (match Duration.cppToString d with | some s => _ | none => _)
        by_cases hd : d = minInt64
        · subst hd
          rw [show Duration.cppToString minInt64 = none by decide]
          exact .duration
        · rw [Duration.cppToString_eq_go d hd]
          intro e h
          cases h
          exact hd rfl
    | date f =>
      intro w y hh hs
      cases hh with
      | dateC _ t hD =>
        subst hD
        refine (tells_tm.map _).iff fun e => ?_
        exact ⟨fun ⟨h, e⟩ => e ▸ .date rfl h, fun h => by cases h; exact ⟨by assumption, rfl⟩⟩
      | date _ t hD =>
        subst hD
        intro e h
        cases h with
        | date h _ => cases h
    | time f =>
      intro w y hh hs
      cases hh with
      | timeC _ t hD =>
        subst hD
        refine (tells_tm.map _).iff fun e => ?_
        exact ⟨fun ⟨h, e⟩ => e ▸ .time rfl h, fun h => by cases h; exact ⟨by assumption, rfl⟩⟩
      | time _ t hD =>
        subst hD
        intro e h
        cases h with
        | time h _ => cases h
    | datetime f =>
      intro w y hh hs
      cases hh with
      | datetimeC _ t hD =>
        subst hD
        refine (tells_tm.map _).iff fun e => ?_
        exact ⟨fun ⟨h, e⟩ => e ▸ .datetime rfl h, fun h => by cases h; exact ⟨by assumption, rfl⟩⟩
      | datetime _ t hD =>
        subst hD
        intro e h
        cases h with
        | datetime h _ => cases h
    | _ =>
      intro w y hh hs
      cases hh <;> exact nofun

/-- The reasons for an exception among instances -/
def WrongIn (D : DateLib) (L : Lib) (g : Graph) (c : Class) (ys : List (Str × Instance)) (e : Exc) : Prop :=
  ∃ i ∈ ys, (i.1 ≠ i.2.id ∧ e = .valueError (idMessage c i.1 i.2.id)) ∨ RaisesIn D L g c.properties i.2.fields e

theorem tells_instances {ser : Ty → CV → Except Exc JVal} {c : Class} : ∀ (ys : List (Str × Instance)) (acc : JVal),
    (∀ i ∈ ys, Tells (RaisesIn D L g c.properties i.2.fields) (serComposite ser c.properties i.2.fields)) →
    -- an instance under another identifier is not serialized
    (∃ e, serInstances ser c ys acc = .error e ∧ WrongIn D L g c ys e) ∨
      ((∃ j, serInstances ser c ys acc = .ok j) ∧ ∀ e, ¬ WrongIn D L g c ys e)
  | [], acc, _ => .inr ⟨⟨acc, rfl⟩, fun _ ⟨_, h, _⟩ => nomatch h⟩
  | (id, inst) :: ys, acc, h => by
    simp only [serInstances]
    by_cases he : id = inst.id
    · rw [if_neg (by simp [he])]
      have h1 := h (id, inst) (by simp)
      simp only at h1
      cases hc : serComposite ser c.properties inst.fields with
      | error e =>
        rw [hc] at h1
        exact .inl ⟨e, rfl, (id, inst), by simp, .inr h1⟩
      | ok j =>
        rw [hc] at h1
        rcases tells_instances ys (putMember inst.id j acc) fun y hy => h y (by simp [hy]) with ⟨e, h2, i, hi, h3⟩ | ⟨h2, h3⟩
        · exact .inl ⟨e, h2, i, by simp [hi], h3⟩
        · refine .inr ⟨h2, ?_⟩
          rintro e ⟨i, hi, h4⟩
          rcases List.mem_cons.1 hi with rfl | hi
          · rcases h4 with ⟨h4, _⟩ | h4
            · exact h4 he
            · exact h1 e h4
          · exact h3 e ⟨i, hi, h4⟩
    · rw [if_pos he]
      exact .inl ⟨_, rfl, (id, inst), by simp, .inl ⟨he, rfl⟩⟩

theorem tells_registries {ser : Ty → CV → Except Exc JVal} {gv : GraphVal} : ∀ (cs : List Class) (acc : JVal),
    (∀ c ∈ cs, ∀ i ∈ registryIn gv.registries c.name, Tells (RaisesIn D L g c.properties i.2.fields) (serComposite ser c.properties i.2.fields)) →
    Tells (fun e => ∃ c ∈ cs, WrongIn D L g c (registryIn gv.registries c.name) e) (serRegistries ser gv cs acc)
  | [], _, _ => fun _ ⟨_, h, _⟩ => nomatch h
  | c :: cs, acc, h => by
    have ih := fun acc => tells_registries cs acc fun d hd => h d (by simp [hd])
    rw [serRegistries]
    by_cases he : (registryIn gv.registries c.name).isEmpty = true
    · rw [if_pos he]
      have he := List.isEmpty_iff.1 he
      refine (ih _).iff fun e => ?_
      simp [he, WrongIn]
    · rw [if_neg he]
      refine Tells.bind (E := WrongIn D L g c (registryIn gv.registries c.name)) ?_ (fun a => ih _) (by simp)
      rcases tells_instances (registryIn gv.registries c.name) .null (h c (by simp)) with ⟨e, h1, h2⟩ | ⟨⟨j, h1⟩, h2⟩
      · rw [h1]; exact h2
      · rw [h1]; exact h2

/-- The reasons for an exception in the graph: a value which can not be serialized, or an instance under another identifier -/
def RaisesGraph (D : DateLib) (L : Lib) (g : Graph) (gv : GraphVal) (e : Exc) : Prop :=
  RaisesIn D L g g.properties gv.fields e ∨ ∃ c ∈ g.classes, WrongIn D L g c (registryIn gv.registries c.name) e

theorem forall₂_right {α β : Type} {R : α → β → Prop} {xs : List α} {ys : List β} (h : Forall₂ R xs ys) :
    ∀ y ∈ ys, ∃ x, R x y := by
  induction h with
  | nil => exact nofun
  | cons h _ ih =>
    intro y hy
    rcases List.mem_cons.1 hy with rfl | hy
    · exact ⟨_, h⟩
    · exact ih y hy

theorem registry_size {gv : GraphVal} {n : Str} {e : Str × Instance} (h : e ∈ registryIn gv.registries n) :
    sizeOf e.2.fields < sizeOf gv.registries := by
  unfold registryIn at h
  cases hl : gv.registries.lookup n with
  | none => rw [hl] at h; exact nomatch h
  | some m =>
    rw [hl] at h
    have h1 := lookup_size hl
    have h2 := List.sizeOf_lt_of_mem (show e ∈ m from h)
    obtain ⟨k, inst⟩ := e
    obtain ⟨id, fields⟩ := inst
    simp at h2 ⊢
    omega

/-- **The graph.** -/
theorem tells_graph {x : Val} {gv : GraphVal} (hh : HoldsGraph D g heap x gv) {fuel : Nat} (hf : sizeOf gv ≤ fuel) :
    Tells (RaisesGraph D L g gv) (serGraph D L g fuel gv) := by
  have hs : sizeOf gv.fields < fuel ∧ sizeOf gv.registries < fuel := by
    obtain ⟨a, b⟩ := gv
    simp at hf ⊢
    omega
  unfold serGraph
  by_cases hp : g.properties = [] ∧ g.classes = []
  · rw [if_pos hp]
    rintro e (⟨_, _, h, _⟩ | ⟨_, h, _⟩)
    · rw [hp.1] at h; exact nomatch h
    · rw [hp.2] at h; exact nomatch h
  · rw [if_neg hp]
    refine Tells.bind (E := RaisesIn D L g g.properties gv.fields) ?_ (fun a => tells_registries g.classes a ?_) fun e => Iff.rfl
    · exact tells_props (heap := heap) (x := x) g.properties .null hh.fields fun p hp w y hy hw =>
        tells_value fuel _ w y hw (by have := lookup_size hy; omega)
    · intro c hc i hi
      obtain ⟨kvs, _, hr⟩ := hh.registries c hc
      obtain ⟨a, _, l, ty, xs, _, _, _, _, hxi⟩ := forall₂_right hr i hi
      have hsz := registry_size hi
      exact tells_composite (heap := heap) hxi fun p hp w y hy hw =>
        tells_value fuel _ w y hw (by have := lookup_size hy; omega)

end

end Mapry.CppExec
