import Verif.ParseSchemaLemmas

/-!
# The loops over the classes and embeddable structures of a schema mapping
-/

namespace Mapry.ParseSchema

open Mapry.PyRuntime (Json sub)
open Mapry.SchemaSpec Mapry.Validation

/-! ## The loops over the classes -/

theorem setClass_append {c : Class} {acc : List Class} (h : c.name ∉ acc.map (·.name)) :
    setClass c acc = acc ++ [c] := by
  induction acc with
  | nil => rfl
  | cons d ds ih =>
    simp only [List.map_cons, List.mem_cons, not_or] at h
    rw [setClass, if_neg (fun e => h.1 e.symm), ih h.2]
    rfl

/-- What the first loop makes of a class -/
def AllocatedClass (L : Lib) (ref : Str) (xi : Json × Nat) (c : Class) : Prop :=
  ∃ o kvs, xi.1 = .obj o kvs ∧ classFromMapping L kvs (refAt ref c!"classes" xi.2) = .ok c

theorem allocateClasses_spec {L : Lib} {ref : Str} {i : Nat} {xs : List Json} {acc cs : List Class} {ns : List Str}
    (h : allocateClasses L ref i xs acc = .ok cs) (hn : Forall₂ IsName xs ns)
    (hd : (acc.map (·.name) ++ ns).Nodup) :
    ∃ new, cs = acc ++ new ∧ new.map (·.name) = ns ∧ Forall₂ (AllocatedClass L ref) (xs.zipIdx i) new := by
  induction xs generalizing i acc ns with
  | nil =>
    cases hn
    rw [allocateClasses] at h
    cases h
    exact ⟨[], by simp, rfl, .nil⟩
  | cons x xs ih =>
    cases hn with
    | cons hx hn =>
      rename_i n ns
      rw [allocateClasses] at h
      simp only [bind_ok] at h
      obtain ⟨kvs, hkvs, c, hc, h⟩ := h
      have hname : c.name = n := by
        obtain ⟨o, rfl⟩ := asFields_ok hkvs
        have hc' := hc
        rw [classFromMapping] at hc'
        simp only [bind_ok, pure_ok, strItem_ok] at hc'
        obtain ⟨m, hm, hc'⟩ := hc'
        simp only [IsName, field] at hx
        rw [hm] at hx
        cases hx
        obtain ⟨_, _, _, _, _, _, rfl⟩ := hc'
        rfl
      subst hname
      rw [setClass_append (fun hmem => by
        rw [List.nodup_append] at hd
        exact hd.2.2 _ hmem _ (List.mem_cons_self ..) rfl)] at h
      obtain ⟨new, h1, h2, h3⟩ := ih h hn (by simpa using hd)
      obtain ⟨o, rfl⟩ := asFields_ok hkvs
      refine ⟨c :: new, by simp [h1], by simp [h2], ?_⟩
      rw [List.zipIdx_cons]
      exact .cons ⟨o, kvs, rfl, hc⟩ h3

theorem allocateClasses_total {L : Lib} {ref : Str} {i : Nat} {xs : List Json} {acc : List Class}
    (h : ∀ x ∈ xs, ∃ o kvs, x = .obj o kvs ∧ ∀ ref, ∃ c, classFromMapping L kvs ref = .ok c) :
    ∃ cs, allocateClasses L ref i xs acc = .ok cs := by
  induction xs generalizing i acc with
  | nil => exact ⟨acc, rfl⟩
  | cons x xs ih =>
    obtain ⟨o, kvs, rfl, hc⟩ := h x (by simp)
    obtain ⟨c, hc⟩ := hc (refAt ref c!"classes" i)
    obtain ⟨cs, hcs⟩ := ih (i := i + 1) (acc := setClass c acc) fun y hy => h y (by simp [hy])
    refine ⟨cs, ?_⟩
    rw [allocateClasses]
    simp only [bind_ok]
    exact ⟨kvs, rfl, c, hc, hcs⟩

theorem setClassProperties_not_mem {n : Str} {ps : List Property} {cs : List Class} (h : n ∉ cs.map (·.name)) :
    setClassProperties n ps cs = cs := by
  induction cs with
  | nil => rfl
  | cons c cs ih =>
    simp only [List.map_cons, List.mem_cons, not_or] at h
    have := ih h.2
    rw [setClassProperties] at this ⊢
    rw [List.map_cons, if_neg (fun e => h.1 e.symm), this]

theorem setClassProperties_append {n : Str} {ps : List Property} {done todo : List Class} {c : Class}
    (hc : c.name = n) (h1 : n ∉ done.map (·.name)) (h2 : n ∉ todo.map (·.name)) :
    setClassProperties n ps (done ++ c :: todo) = done ++ { c with properties := ps } :: todo := by
  have h1 := setClassProperties_not_mem (ps := ps) h1
  have h2 := setClassProperties_not_mem (ps := ps) h2
  rw [setClassProperties] at h1 h2 ⊢
  rw [List.map_append, List.map_cons, h1, h2, if_pos hc]

/-- What the second loop makes of a class -/
def FilledClass (L : Lib) (classes embeds : List Str) (ref : Str) (xi : Json × Nat) (c : Class) : Prop :=
  ∃ c' o kvs ps, AllocatedClass L ref xi c' ∧ xi.1 = .obj o kvs ∧ c = { c' with properties := ps } ∧
    propertiesOf L classes embeds (refAt ref c!"classes" xi.2) kvs = .ok ps

theorem fillClasses_spec {L : Lib} {classes embeds : List Str} {ref : Str} {i : Nat} {xs : List Json}
    {done todo cs : List Class} {ns : List Str}
    (h : fillClasses L classes embeds ref i xs (done ++ todo) = .ok cs) (hn : Forall₂ IsName xs ns)
    (ht : todo.map (·.name) = ns) (hd : (done.map (·.name) ++ ns).Nodup)
    (ha : Forall₂ (AllocatedClass L ref) (xs.zipIdx i) todo) :
    ∃ filled, cs = done ++ filled ∧ filled.map (·.name) = ns ∧
      Forall₂ (FilledClass L classes embeds ref) (xs.zipIdx i) filled := by
  induction xs generalizing i done todo ns with
  | nil =>
    cases hn
    rw [List.map_eq_nil_iff] at ht
    subst ht
    rw [fillClasses] at h
    cases h
    exact ⟨[], rfl, rfl, .nil⟩
  | cons x xs ih =>
    cases hn with
    | cons hx hn =>
      rename_i n ns
      rw [List.zipIdx_cons] at ha ⊢
      cases ha with
      | cons ha1 ha =>
        rename_i c todo
        simp only [List.map_cons, List.cons.injEq] at ht
        obtain ⟨hcn, ht⟩ := ht
        rw [fillClasses] at h
        simp only [bind_ok] at h
        obtain ⟨kvs, hkvs, m, hm, ps, hps, h⟩ := h
        obtain ⟨o, rfl⟩ := asFields_ok hkvs
        have hmn : m = n := by
          have := strItem_ok.1 hm
          simp only [IsName, field] at hx
          rw [hx] at this
          cases this; rfl
        subst hmn
        have hset : (if (kvs.lookup c!"properties").isSome then setClassProperties m ps (done ++ c :: todo)
            else done ++ c :: todo) = (done ++ [{ c with properties := ps }]) ++ todo := by
          rw [List.nodup_append, List.nodup_cons] at hd
          cases hl : kvs.lookup c!"properties" with
          | some v =>
            rw [Option.isSome_some, if_pos rfl, setClassProperties_append hcn
              (fun hmem => hd.2.2 _ hmem _ (List.mem_cons_self ..) rfl) (by rw [ht]; exact hd.2.1.1)]
            simp
          | none =>
            rw [propertiesOf, hl] at hps
            cases hps
            have : c.properties = [] := by
              obtain ⟨o', kvs', _, hc⟩ := ha1
              rw [classFromMapping] at hc
              simp only [bind_ok, pure_ok] at hc
              obtain ⟨_, _, _, _, _, _, _, _, rfl⟩ := hc
              rfl
            have : { c with properties := [] } = c := by cases c; simp only at this; subst this; rfl
            rw [this]
            simp
        rw [hset] at h
        obtain ⟨filled, h1, h2, h3⟩ := ih h hn ht (by simpa [hcn] using hd) ha
        refine ⟨{ c with properties := ps } :: filled, by simp [h1], by simp [h2, hcn], .cons ?_ h3⟩
        exact ⟨c, o, kvs, ps, ha1, rfl, rfl, hps⟩

theorem fillClasses_total {L : Lib} {classes embeds : List Str} {ref : Str} {i : Nat} {xs : List Json}
    {acc : List Class}
    (h : ∀ x ∈ xs, ∃ o kvs n, x = .obj o kvs ∧ kvs.lookup c!"name" = some (.str n) ∧
      ∀ ref, ∃ ps, propertiesOf L classes embeds ref kvs = .ok ps) :
    ∃ cs, fillClasses L classes embeds ref i xs acc = .ok cs := by
  induction xs generalizing i acc with
  | nil => exact ⟨acc, rfl⟩
  | cons x xs ih =>
    obtain ⟨o, kvs, n, rfl, hn, hps⟩ := h x (by simp)
    obtain ⟨ps, hps⟩ := hps (refAt ref c!"classes" i)
    obtain ⟨cs, hcs⟩ := ih (i := i + 1)
      (acc := if (kvs.lookup c!"properties").isSome then setClassProperties n ps acc else acc)
      fun y hy => h y (by simp [hy])
    refine ⟨cs, ?_⟩
    rw [fillClasses]
    simp only [bind_ok, strItem_ok]
    exact ⟨kvs, rfl, n, hn, ps, hps, hcs⟩

/-! ## The loops over the embeddable structures -/

theorem setEmbed_append {c : Embed} {acc : List Embed} (h : c.name ∉ acc.map (·.name)) :
    setEmbed c acc = acc ++ [c] := by
  induction acc with
  | nil => rfl
  | cons d ds ih =>
    simp only [List.map_cons, List.mem_cons, not_or] at h
    rw [setEmbed, if_neg (fun e => h.1 e.symm), ih h.2]
    rfl

/-- What the first loop makes of a embeddable structure -/
def AllocatedEmbed (ref : Str) (xi : Json × Nat) (c : Embed) : Prop :=
  ∃ o kvs, xi.1 = .obj o kvs ∧ embedFromMapping kvs (refAt ref c!"embeds" xi.2) = .ok c

theorem allocateEmbeds_spec {ref : Str} {i : Nat} {xs : List Json} {acc cs : List Embed} {ns : List Str}
    (h : allocateEmbeds ref i xs acc = .ok cs) (hn : Forall₂ IsName xs ns)
    (hd : (acc.map (·.name) ++ ns).Nodup) :
    ∃ new, cs = acc ++ new ∧ new.map (·.name) = ns ∧ Forall₂ (AllocatedEmbed ref) (xs.zipIdx i) new := by
  induction xs generalizing i acc ns with
  | nil =>
    cases hn
    rw [allocateEmbeds] at h
    cases h
    exact ⟨[], by simp, rfl, .nil⟩
  | cons x xs ih =>
    cases hn with
    | cons hx hn =>
      rename_i n ns
      rw [allocateEmbeds] at h
      simp only [bind_ok] at h
      obtain ⟨kvs, hkvs, c, hc, h⟩ := h
      have hname : c.name = n := by
        obtain ⟨o, rfl⟩ := asFields_ok hkvs
        have hc' := hc
        rw [embedFromMapping] at hc'
        simp only [bind_ok, pure_ok, strItem_ok] at hc'
        obtain ⟨m, hm, hc'⟩ := hc'
        simp only [IsName, field] at hx
        rw [hm] at hx
        cases hx
        obtain ⟨_, _, rfl⟩ := hc'
        rfl
      subst hname
      rw [setEmbed_append (fun hmem => by
        rw [List.nodup_append] at hd
        exact hd.2.2 _ hmem _ (List.mem_cons_self ..) rfl)] at h
      obtain ⟨new, h1, h2, h3⟩ := ih h hn (by simpa using hd)
      obtain ⟨o, rfl⟩ := asFields_ok hkvs
      refine ⟨c :: new, by simp [h1], by simp [h2], ?_⟩
      rw [List.zipIdx_cons]
      exact .cons ⟨o, kvs, rfl, hc⟩ h3

theorem allocateEmbeds_total {ref : Str} {i : Nat} {xs : List Json} {acc : List Embed}
    (h : ∀ x ∈ xs, ∃ o kvs, x = .obj o kvs ∧ ∀ ref, ∃ c, embedFromMapping kvs ref = .ok c) :
    ∃ cs, allocateEmbeds ref i xs acc = .ok cs := by
  induction xs generalizing i acc with
  | nil => exact ⟨acc, rfl⟩
  | cons x xs ih =>
    obtain ⟨o, kvs, rfl, hc⟩ := h x (by simp)
    obtain ⟨c, hc⟩ := hc (refAt ref c!"embeds" i)
    obtain ⟨cs, hcs⟩ := ih (i := i + 1) (acc := setEmbed c acc) fun y hy => h y (by simp [hy])
    refine ⟨cs, ?_⟩
    rw [allocateEmbeds]
    simp only [bind_ok]
    exact ⟨kvs, rfl, c, hc, hcs⟩

theorem setEmbedProperties_not_mem {n : Str} {ps : List Property} {cs : List Embed} (h : n ∉ cs.map (·.name)) :
    setEmbedProperties n ps cs = cs := by
  induction cs with
  | nil => rfl
  | cons c cs ih =>
    simp only [List.map_cons, List.mem_cons, not_or] at h
    have := ih h.2
    rw [setEmbedProperties] at this ⊢
    rw [List.map_cons, if_neg (fun e => h.1 e.symm), this]

theorem setEmbedProperties_append {n : Str} {ps : List Property} {done todo : List Embed} {c : Embed}
    (hc : c.name = n) (h1 : n ∉ done.map (·.name)) (h2 : n ∉ todo.map (·.name)) :
    setEmbedProperties n ps (done ++ c :: todo) = done ++ { c with properties := ps } :: todo := by
  have h1 := setEmbedProperties_not_mem (ps := ps) h1
  have h2 := setEmbedProperties_not_mem (ps := ps) h2
  rw [setEmbedProperties] at h1 h2 ⊢
  rw [List.map_append, List.map_cons, h1, h2, if_pos hc]

/-- What the second loop makes of a embeddable structure -/
def FilledEmbed (L : Lib) (classes embeds : List Str) (ref : Str) (xi : Json × Nat) (c : Embed) : Prop :=
  ∃ c' o kvs ps, AllocatedEmbed ref xi c' ∧ xi.1 = .obj o kvs ∧ c = { c' with properties := ps } ∧
    propertiesOf L classes embeds (refAt ref c!"embeds" xi.2) kvs = .ok ps

theorem fillEmbeds_spec {L : Lib} {classes embeds : List Str} {ref : Str} {i : Nat} {xs : List Json}
    {done todo cs : List Embed} {ns : List Str}
    (h : fillEmbeds L classes embeds ref i xs (done ++ todo) = .ok cs) (hn : Forall₂ IsName xs ns)
    (ht : todo.map (·.name) = ns) (hd : (done.map (·.name) ++ ns).Nodup)
    (ha : Forall₂ (AllocatedEmbed ref) (xs.zipIdx i) todo) :
    ∃ filled, cs = done ++ filled ∧ filled.map (·.name) = ns ∧
      Forall₂ (FilledEmbed L classes embeds ref) (xs.zipIdx i) filled := by
  induction xs generalizing i done todo ns with
  | nil =>
    cases hn
    rw [List.map_eq_nil_iff] at ht
    subst ht
    rw [fillEmbeds] at h
    cases h
    exact ⟨[], rfl, rfl, .nil⟩
  | cons x xs ih =>
    cases hn with
    | cons hx hn =>
      rename_i n ns
      rw [List.zipIdx_cons] at ha ⊢
      cases ha with
      | cons ha1 ha =>
        rename_i c todo
        simp only [List.map_cons, List.cons.injEq] at ht
        obtain ⟨hcn, ht⟩ := ht
        rw [fillEmbeds] at h
        simp only [bind_ok] at h
        obtain ⟨kvs, hkvs, m, hm, ps, hps, h⟩ := h
        obtain ⟨o, rfl⟩ := asFields_ok hkvs
        have hmn : m = n := by
          have := strItem_ok.1 hm
          simp only [IsName, field] at hx
          rw [hx] at this
          cases this; rfl
        subst hmn
        have hset : (if (kvs.lookup c!"properties").isSome then setEmbedProperties m ps (done ++ c :: todo)
            else done ++ c :: todo) = (done ++ [{ c with properties := ps }]) ++ todo := by
          rw [List.nodup_append, List.nodup_cons] at hd
          cases hl : kvs.lookup c!"properties" with
          | some v =>
            rw [Option.isSome_some, if_pos rfl, setEmbedProperties_append hcn
              (fun hmem => hd.2.2 _ hmem _ (List.mem_cons_self ..) rfl) (by rw [ht]; exact hd.2.1.1)]
            simp
          | none =>
            rw [propertiesOf, hl] at hps
            cases hps
            have : c.properties = [] := by
              obtain ⟨o', kvs', _, hc⟩ := ha1
              rw [embedFromMapping] at hc
              simp only [bind_ok, pure_ok] at hc
              obtain ⟨_, _, _, _, rfl⟩ := hc
              rfl
            have : { c with properties := [] } = c := by cases c; simp only at this; subst this; rfl
            rw [this]
            simp
        rw [hset] at h
        obtain ⟨filled, h1, h2, h3⟩ := ih h hn ht (by simpa [hcn] using hd) ha
        refine ⟨{ c with properties := ps } :: filled, by simp [h1], by simp [h2, hcn], .cons ?_ h3⟩
        exact ⟨c, o, kvs, ps, ha1, rfl, rfl, hps⟩

theorem fillEmbeds_total {L : Lib} {classes embeds : List Str} {ref : Str} {i : Nat} {xs : List Json}
    {acc : List Embed}
    (h : ∀ x ∈ xs, ∃ o kvs n, x = .obj o kvs ∧ kvs.lookup c!"name" = some (.str n) ∧
      ∀ ref, ∃ ps, propertiesOf L classes embeds ref kvs = .ok ps) :
    ∃ cs, fillEmbeds L classes embeds ref i xs acc = .ok cs := by
  induction xs generalizing i acc with
  | nil => exact ⟨acc, rfl⟩
  | cons x xs ih =>
    obtain ⟨o, kvs, n, rfl, hn, hps⟩ := h x (by simp)
    obtain ⟨ps, hps⟩ := hps (refAt ref c!"embeds" i)
    obtain ⟨cs, hcs⟩ := ih (i := i + 1)
      (acc := if (kvs.lookup c!"properties").isSome then setEmbedProperties n ps acc else acc)
      fun y hy => h y (by simp [hy])
    refine ⟨cs, ?_⟩
    rw [fillEmbeds]
    simp only [bind_ok, strItem_ok]
    exact ⟨kvs, rfl, n, hn, ps, hps, hcs⟩

end Mapry.ParseSchema
