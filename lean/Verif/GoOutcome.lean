import Verif.GoWriteGraph

/-!
# When the Go serializer succeeds

A graph which the memory holds is serialized unless an instance is registered under another identifier or a reference is `nil`.
-/

namespace Mapry.GoExec

open Mapry.GoLang Mapry.Naming
open Mapry.GoRuntime (JVal Lib field serTy serItems serEntries serProps serComposite serEmbed serInstances serRegistries serGraph
  GraphVal Instance Fields idMessage)
open Mapry.GoCode (isPointer)

/-- A reference which has to be followed is `nil`. -/
inductive NilRef (g : Graph) : Ty → GV → Prop
  | cls {c} : NilRef g (.cls c) .nil
  | array {t lo hi ys y} : y ∈ ys → NilRef g t y → NilRef g (.array t lo hi) (.list ys)
  | map {t ys k y} : (k, y) ∈ ys → NilRef g t y → NilRef g (.map t) (.map ys)
  | embed {n n' e p fields y} : g.embed? n = some e → p ∈ e.properties → fields.lookup (field p) = some y →
      (p.optional = true → y ≠ .nil) → NilRef g p.ty y → NilRef g (.embed n) (.obj n' fields)

/-- The fields contain such a reference. -/
def NilIn (g : Graph) (ps : List Property) (fields : Fields) : Prop :=
  ∃ p y, p ∈ ps ∧ fields.lookup (field p) = some y ∧ (p.optional = true → y ≠ .nil) ∧ NilRef g p.ty y

/-- The result of the serializer: a result exactly if there is no such reference, and a panic otherwise. -/
def Tells {α : Type} (N : Prop) : Except Exc α → Prop
  | .ok _ => ¬ N
  | .error (.panic _) => N
  | .error _ => False

theorem Tells.iff {α : Type} {N M : Prop} (h : N ↔ M) {r : Except Exc α} (ht : Tells N r) : Tells M r := by
  cases r with
  | ok a => exact fun m => ht (h.2 m)
  | error e => cases e <;> first | exact h.1 ht | exact ht

theorem Tells.map {α β : Type} {N : Prop} {r : Except Exc α} (ht : Tells N r) (f : α → Except Exc β)
    (hf : ∀ a, ∃ b, f a = .ok b) : Tells N (r >>= f) := by
  cases r with
  | ok a =>
    obtain ⟨b, hb⟩ := hf a
    show Tells N (f a)
    rw [hb]
    exact ht
  | error e => cases e <;> exact ht

theorem Tells.bind {α β : Type} {N M K : Prop} {r : Except Exc α} {f : α → Except Exc β} (ht : Tells N r)
    (hf : ∀ a, Tells M (f a)) (hk : K ↔ N ∨ M) : Tells K (r >>= f) := by
  cases r with
  | ok a =>
    have h := hf a
    show Tells K (f a)
    refine Tells.iff ?_ h
    rw [hk]
    exact ⟨.inr, fun h => h.resolve_left ht⟩
  | error e => cases e <;> first | exact hk.2 (.inl ht) | exact ht

theorem tells_items {N : GV → Prop} {f : GV → Nat → Except Exc (JVal × Nat)} : ∀ (ys : List GV) (r : Nat),
    (∀ y ∈ ys, ∀ r, Tells (N y) (f y r)) → Tells (∃ y ∈ ys, N y) (serItems f ys r)
  | [], r, _ => fun ⟨_, h, _⟩ => nomatch h
  | y :: ys, r, h => by
    rw [serItems]
    refine Tells.bind (M := ∃ y ∈ ys, N y) (h y (by simp) r) (fun a => ?_) (by simp)
    exact (tells_items ys a.2 fun y hy => h y (by simp [hy])).map _ fun a => ⟨_, rfl⟩

theorem tells_entries {N : GV → Prop} {f : GV → Nat → Except Exc (JVal × Nat)} :
    ∀ (ys : List (Str × GV)) (acc : GoMap JVal) (r : Nat),
    (∀ y ∈ ys, ∀ r, Tells (N y.2) (f y.2 r)) → Tells (∃ y ∈ ys, N y.2) (serEntries f acc ys r)
  | [], _, r, _ => fun ⟨_, h, _⟩ => nomatch h
  | (k, y) :: ys, acc, r, h => by
    rw [serEntries]
    refine Tells.bind (M := ∃ y ∈ ys, N y.2) (h (k, y) (by simp) r) (fun a => ?_) (by simp)
    exact tells_entries ys _ a.2 fun y hy => h y (by simp [hy])

theorem tells_props {g : Graph} {σ : St} {x : Val} {fields : Fields} {ser : Ty → GV → Nat → Except Exc (JVal × Nat)} :
    ∀ (ps : List Property) (acc : GoMap JVal) (r : Nat), HoldsFields g σ ps x fields →
    (∀ p ∈ ps, ∀ w y, fields.lookup (field p) = some y → Holds g σ p.ty w y →
      ∀ r, Tells (NilRef g p.ty y) (ser p.ty y r)) →
    Tells (NilIn g ps fields) (serProps ser fields ps acc r)
  | [], acc, r, _, _ => fun ⟨_, _, h, _⟩ => nomatch h
  | p :: ps, acc, r, hh, h => by
    obtain ⟨w, y, hw, hy, hp⟩ := hh p (by simp)
    have ih := fun acc r => tells_props (ser := ser) ps acc r (fun q hq => hh q (by simp [hq])) fun q hq => h q (by simp [hq])
    have key : NilIn g (p :: ps) fields ↔ ((p.optional = true → y ≠ .nil) ∧ NilRef g p.ty y) ∨ NilIn g ps fields := by
      constructor
      · rintro ⟨q, z, hq, hz, h1, h2⟩
        rcases List.mem_cons.1 hq with rfl | hq
        · rw [hy] at hz
          cases hz
          exact .inl ⟨h1, h2⟩
        · exact .inr ⟨q, z, hq, hz, h1, h2⟩
      · rintro (⟨h1, h2⟩ | ⟨q, z, hq, hz, h1, h2⟩)
        · exact ⟨p, y, by simp, hy, h1, h2⟩
        · exact ⟨q, z, by simp [hq], hz, h1, h2⟩
    by_cases ho : p.optional = true ∧ y = .nil
    · obtain ⟨ho, rfl⟩ := ho
      rw [serProps_skip hy ho]
      refine Tells.iff ?_ (ih acc r)
      rw [key]
      exact ⟨.inr, fun h => h.elim (fun h => absurd rfl (h.1 ho)) id⟩
    · rw [serProps_write hy (by grind)]
      refine Tells.bind (M := NilIn g ps fields) (N := NilRef g p.ty y) ?_ (fun a => ih _ _) ?_
      · have : ∃ w, Holds g σ p.ty w y := by
          cases hp with
          | direct _ h => exact ⟨_, h⟩
          | none h1 => exact absurd ⟨h1, rfl⟩ ho
          | some _ _ _ h => exact ⟨_, h⟩
        obtain ⟨w, hw⟩ := this
        exact h p (by simp) w y hy hw r
      · rw [key]
        have : p.optional = true → y ≠ .nil := fun h e => ho ⟨h, e⟩
        exact ⟨fun h => h.imp_left And.right, fun h => h.imp_left fun h => ⟨this, h⟩⟩

theorem lookup_size {α : Type} [SizeOf α] {fields : List (Str × α)} {k : Str} {y : α} (h : fields.lookup k = some y) :
    sizeOf y < sizeOf fields := by
  induction fields with
  | nil => cases h
  | cons e fields ih =>
    obtain ⟨k', z⟩ := e
    simp only [List.lookup] at h
    split at h
    · cases h
      simp
      omega
    · have := ih h
      simp
      omega

theorem tells_value {O : Order} {L : Lib} {g : Graph} {σ : St} (hO : O.Proper) :
    ∀ (fuel : Nat) (t : Ty) (w : Val) (y : GV), Holds g σ t w y → sizeOf y ≤ fuel → ∀ r, Tells (NilRef g t y) (serTy O L (serEmbed O L g fuel) t y r) := by
  intro fuel
  induction fuel with
  | zero =>
    intro t w y _ h
    cases y <;> simp at h
  | succ fuel ihf =>
    intro t
    induction t with
    | array t lo hi ih =>
      intro w y hh hs r
      cases hh with
      | arrayNil _ => exact nofun
      | @array _ _ _ l xs ys hl hlen hi =>
        refine ((tells_items (N := NilRef g t) ys r fun y hy => ?_).map _ fun a => ⟨_, rfl⟩).iff ?_
        · obtain ⟨i, hi', he⟩ := List.mem_iff_getElem.1 hy
          have h1 : ys[i]? = some y := by rw [List.getElem?_eq_getElem hi', he]
          have h2 : xs[i]? = some (xs[i]'(hlen ▸ hi')) := List.getElem?_eq_getElem _
          have h3 := List.sizeOf_lt_of_mem hy
          exact ih _ _ (hi i _ _ h2 h1) (by simp at hs; omega)
        · constructor
          · rintro ⟨y, hy, h⟩
            exact .array hy h
          · intro h
            cases h with
            | array hy h => exact ⟨_, hy, h⟩
    | map t ih =>
      intro w y hh hs r
      cases hh with
      | mapNil _ => exact nofun
      | @map _ l xs ys hl hlen hi =>
        have hlen' : xs.length = ys.length := by simpa using congrArg List.length hlen
        refine ((tells_entries (N := NilRef g t) (O.visit r ys) [] (r + 1) fun y hy => ?_).map _ fun a => ⟨_, rfl⟩).iff ?_
        · have hy := (Order.visit_perm hO _ _).mem_iff.1 hy
          obtain ⟨i, hi', he⟩ := List.mem_iff_getElem.1 hy
          have h1 : ys[i]? = some y := by rw [List.getElem?_eq_getElem hi', he]
          have h2 : xs[i]? = some (xs[i]'(hlen' ▸ hi')) := List.getElem?_eq_getElem _
          have h3 := List.sizeOf_lt_of_mem hy
          obtain ⟨k, y⟩ := y
          exact ih _ y (hi i _ _ h2 h1) (by simp at hs h3; omega)
        · constructor
          · rintro ⟨y, hy, h⟩
            exact .map ((Order.visit_perm hO _ _).mem_iff.1 hy) h
          · intro h
            cases h with
            | map hy h => exact ⟨_, (Order.visit_perm hO _ _).mem_iff.2 hy, h⟩
    | embed n =>
      intro w y hh hs r
      cases hh with
      | @embed _ _ e _ fields V u he h1 h2 h3 =>
        show Tells _ (serEmbed O L g (fuel + 1) n _ r)
        rw [serEmbed, he]
        refine ((tells_props (σ := σ) (x := w) e.properties [] r (fun p hp => ⟨_, _, h2 p hp, h1 p hp, h3 p hp⟩) ?_).map _
          fun a => ⟨_, rfl⟩).iff ?_
        · intro p hp w y hy hh r
          have := lookup_size hy
          exact ihf _ _ _ hh (by simp at hs; omega) r
        · constructor
          · rintro ⟨p, y, hp, hy, h1, h2⟩
            exact .embed he hp hy h1 h2
          · intro h
            cases h with
            | embed he' hp hy h1 h2 =>
              rw [he] at he'
              cases he'
              exact ⟨_, _, hp, hy, h1, h2⟩
    | cls c =>
      intro w y hh hs r
      cases hh with
      | cls _ => exact nofun
      | clsNil _ => exact .cls
    | _ =>
      intro w y hh hs r
      cases hh <;> exact nofun

/-- What the serializer of the instances and of the graph returns: a result if there is no wrong identifier and no such
reference, the message of a wrong identifier, or a panic. -/
def Ends {α : Type} (M : Str → Prop) (N : Prop) : Except Exc α → Prop
  | .ok _ => (∀ m, ¬ M m) ∧ ¬ N
  | .error (.valueError m) => M m
  | .error (.panic _) => N
  | .error _ => False

theorem Ends.mono {α : Type} {M M' : Str → Prop} {N N' : Prop} (hm : ∀ m, M m ↔ M' m) (hn : N ↔ N') {r : Except Exc α}
    (h : Ends M N r) : Ends M' N' r := by
  cases r with
  | ok a => exact ⟨fun m hm' => h.1 m ((hm m).2 hm'), fun n => h.2 (hn.2 n)⟩
  | error e => cases e <;> first | exact hn.1 h | exact (hm _).1 h | exact h

theorem Tells.ends {α : Type} {N : Prop} {r : Except Exc α} (h : Tells N r) : Ends (fun _ => False) N r := by
  cases r with
  | ok a => exact ⟨fun _ => id, h⟩
  | error e => cases e <;> exact h

theorem Ends.map {α β : Type} {M : Str → Prop} {N : Prop} {r : Except Exc α} (ht : Ends M N r) (f : α → Except Exc β)
    (hf : ∀ a, ∃ b, f a = .ok b) : Ends M N (r >>= f) := by
  cases r with
  | ok a =>
    obtain ⟨b, hb⟩ := hf a
    show Ends M N (f a)
    rw [hb]
    exact ht
  | error e => cases e <;> exact ht

theorem Ends.bind {α β : Type} {M M' : Str → Prop} {N N' : Prop} {r : Except Exc α} {f : α → Except Exc β} (ht : Ends M N r)
    (hf : ∀ a, Ends M' N' (f a)) : Ends (fun m => M m ∨ M' m) (N ∨ N') (r >>= f) := by
  cases r with
  | ok a =>
    show Ends _ _ (f a)
    refine (hf a).mono (fun m => ?_) ?_
    · exact ⟨.inr, fun h => h.resolve_left (ht.1 m)⟩
    · exact ⟨.inr, fun h => h.resolve_left ht.2⟩
  | error e => cases e <;> first | exact .inl ht | exact ht

/-- The message of an instance which is registered under another identifier -/
def WrongIn (L : Lib) (c : Class) (ys : List (Str × Instance)) (m : Str) : Prop :=
  ∃ e ∈ ys, e.1 ≠ e.2.id ∧ m = idMessage L c e.1 e.2.id

theorem ends_instances {L : Lib} {ser : Ty → GV → Nat → Except Exc (JVal × Nat)} {c : Class} {N : Instance → Prop} :
    ∀ (ys : List (Str × Instance)) (acc : GoMap JVal) (r : Nat),
    (∀ e ∈ ys, ∀ r, Tells (N e.2) (serComposite ser c.properties e.2.fields r)) →
    Ends (WrongIn L c ys) (∃ e ∈ ys, N e.2) (serInstances L ser c acc ys r)
  | [], _, r, _ => ⟨fun _ ⟨_, h, _⟩ => (nomatch h), fun ⟨_, h, _⟩ => nomatch h⟩
  | (id, inst) :: ys, acc, r, h => by
    rw [serInstances]
    by_cases he : id = inst.id
    · rw [if_neg (by simp [he])]
      refine (Ends.bind (M' := WrongIn L c ys) (N' := ∃ e ∈ ys, N e.2) (h (id, inst) (by simp) r).ends fun a =>
        ends_instances ys _ a.2 fun y hy => h y (by simp [hy])).mono (fun m => ?_) (by simp)
      simp [WrongIn, he]
    · rw [if_pos he]
      exact ⟨(id, inst), by simp, he, rfl⟩

theorem ends_registries {O : Order} {L : Lib} {ser : Ty → GV → Nat → Except Exc (JVal × Nat)} {gv : GraphVal}
    {N : Class → Instance → Prop} (hO : O.Proper) : ∀ (cs : List Class) (acc : GoMap JVal) (r : Nat),
    (∀ c ∈ cs, ∀ e ∈ gv.registry c.name, ∀ r, Tells (N c e.2) (serComposite ser c.properties e.2.fields r)) →
    Ends (fun m => ∃ c ∈ cs, WrongIn L c (gv.registry c.name) m) (∃ c ∈ cs, ∃ e ∈ gv.registry c.name, N c e.2)
      (serRegistries O L ser gv cs acc r)
  | [], _, r, _ => ⟨fun _ ⟨_, h, _⟩ => (nomatch h), fun ⟨_, h, _⟩ => nomatch h⟩
  | c :: cs, acc, r, h => by
    have ih := fun acc r => ends_registries (L := L) hO cs acc r fun d hd => h d (by simp [hd])
    rw [serRegistries]
    by_cases he : (gv.registry c.name).isEmpty = true
    · rw [if_pos he]
      have he := List.isEmpty_iff.1 he
      refine (ih _ _).mono (fun m => ?_) ?_
      · simp [he, WrongIn]
      · simp [he]
    · rw [if_neg he]
      have hp := Order.visit_perm hO r (gv.registry c.name)
      refine (Ends.bind (ends_instances (L := L) (N := N c) (O.visit r (gv.registry c.name)) [] (r + 1) fun e he => ?_)
        fun a => ih _ _).mono (fun m => ?_) ?_
      · exact h c (by simp) e (hp.mem_iff.1 he)
      · simp [WrongIn, hp.mem_iff]
      · simp [hp.mem_iff]

/-- An instance is registered under another identifier, with the message about it. -/
def Wrong (L : Lib) (g : Graph) (gv : GraphVal) (m : Str) : Prop :=
  ∃ c ∈ g.classes, ∃ e ∈ gv.registry c.name, e.1 ≠ e.2.id ∧ m = idMessage L c e.1 e.2.id

/-- A reference in the graph is `nil`. -/
def NilInGraph (g : Graph) (gv : GraphVal) : Prop :=
  NilIn g g.properties gv.fields ∨ ∃ c ∈ g.classes, ∃ e ∈ gv.registry c.name, NilIn g c.properties e.2.fields

theorem forall₂_right {α β : Type} {R : α → β → Prop} {xs : List α} {ys : List β} (h : Forall₂ R xs ys) :
    ∀ y ∈ ys, ∃ x, R x y := by
  induction h with
  | nil => exact nofun
  | cons h _ ih =>
    intro y hy
    rcases List.mem_cons.1 hy with rfl | hy
    · exact ⟨_, h⟩
    · exact ih y hy

theorem registry_holds {g : Graph} {σ : St} {c : Class} {w : Val} {ys : GoMap Instance} (h : HoldsRegistry g σ c w ys) :
    ∀ e ∈ ys, ∃ x, HoldsFields g σ c.properties x e.2.fields := by
  cases h with
  | nil _ => exact nofun
  | map _ _ h =>
    intro e he
    obtain ⟨y, _, _, x, _, _, _, h⟩ := forall₂_right h e he
    exact ⟨x, h⟩

theorem registry_size {gv : GraphVal} {n : Str} {e : Str × Instance} (h : e ∈ gv.registry n) :
    sizeOf e.2.fields < sizeOf gv.registries := by
  unfold GraphVal.registry at h
  cases hl : gv.registries.lookup n with
  | none => rw [hl] at h; exact nomatch h
  | some m =>
    rw [hl] at h
    have h1 := lookup_size hl
    have h2 := List.sizeOf_lt_of_mem (show e ∈ m from h)
    obtain ⟨k, inst⟩ := e
    obtain ⟨id, fields⟩ := inst
    simp at h2 ⊢
    omega

theorem ends_graph {O : Order} {L : Lib} {g : Graph} {σ : St} {x : Val} {gv : GraphVal} (hO : O.Proper)
    (hh : HoldsGraph g σ x gv) {fuel : Nat} (hf : sizeOf gv ≤ fuel) (r : Nat) :
    Ends (Wrong L g gv) (NilInGraph g gv) (serGraph O L g fuel gv r) := by
  have hs : sizeOf gv.fields < fuel ∧ sizeOf gv.registries < fuel := by
    obtain ⟨a, b⟩ := gv
    simp at hf ⊢
    omega
  unfold serGraph
  refine (Ends.bind (α := GoMap JVal × Nat) (M := fun _ => False) (N := NilIn g g.properties gv.fields) ?_ fun a =>
    (ends_registries (L := L) (N := fun c i => NilIn g c.properties i.fields) hO g.classes a.1 a.2 ?_).map _
      fun a => ⟨_, rfl⟩).mono (fun m => ?_) Iff.rfl
  · exact (tells_props (σ := σ) (x := x) g.properties [] r hh.fields fun p hp w y hy hw r =>
      tells_value hO fuel _ w y hw (by have := lookup_size hy; omega) r).ends
  · intro c hc e he r
    obtain ⟨w, _, hr⟩ := hh.registries c hc
    obtain ⟨xi, hxi⟩ := registry_holds hr e he
    have hsz := registry_size he
    exact (tells_props (σ := σ) (x := xi) c.properties [] r hxi fun p hp w y hy hw r =>
      tells_value hO fuel _ w y hw (by have := lookup_size hy; omega) r).map _ fun a => ⟨_, rfl⟩
  · exact ⟨fun h => h.elim False.elim id, .inr⟩

end Mapry.GoExec
