import Verif.GoRegistries

/-! # Parsing into a target which has been used before -/

namespace Mapry.GoRuntime

open Mapry.Duration Mapry.GoRuntime.Spec

/-- The same keys, and the same values except at the keys in `S` -/
def Agree {α : Type} (S : List Str) (l m : List (Str × α)) : Prop :=
  Forall₂ (fun a b => a.1 = b.1 ∧ (a.1 ∉ S → a.2 = b.2)) l m

variable {α : Type} {S : List Str} {l m : List (Str × α)}

theorem Agree.eq (h : Agree [] l m) : l = m := by
  unfold Agree at h
  induction h with
  | nil => rfl
  | cons h1 _ ih => rw [ih, Prod.ext h1.1 (h1.2 (by simp))]

theorem Agree.keys (h : Agree S l m) : l.map (·.1) = m.map (·.1) := by
  unfold Agree at h
  induction h with
  | nil => rfl
  | cons h1 _ ih => rw [List.map_cons, List.map_cons, ih, h1.1]

theorem agree_of_keys (h : l.map (·.1) = m.map (·.1)) (hS : ∀ k ∈ l.map (·.1), k ∈ S) : Agree S l m := by
  induction l generalizing m with
  | nil =>
    cases m with
    | nil => exact .nil
    | cons => simp at h
  | cons a l ih =>
    cases m with
    | nil => simp at h
    | cons b m =>
      simp only [List.map_cons, List.cons.injEq] at h
      refine .cons ⟨h.1, fun hn => absurd (hS a.1 (by simp)) hn⟩ (ih h.2 fun k hk => hS k ?_)
      rw [List.map_cons]
      exact List.mem_cons_of_mem _ hk

/-- `m[k] = x` in a list of fields -/
def assign (k : Str) (x : α) : List (Str × α) → List (Str × α)
  | [] => [(k, x)]
  | (k', x') :: rest => if k' = k then (k, x) :: rest else (k', x') :: assign k x rest

theorem setField_eq (k : Str) (x : Val) (fs : Fields) : setField k x fs = assign k x fs := by
  induction fs with
  | nil => rfl
  | cons a fs ih =>
    obtain ⟨k', x'⟩ := a
    simp only [setField, assign, ih]

theorem setRegistry_eq (k : Str) (x : GoMap Instance) (rs : List (Str × GoMap Instance)) :
    setRegistry k x rs = assign k x rs := by
  induction rs with
  | nil => rfl
  | cons a fs ih =>
    obtain ⟨k', x'⟩ := a
    simp only [setRegistry, assign, ih]

theorem assign_keys_mem {k : Str} (x : α) (h : k ∈ l.map (·.1)) : (assign k x l).map (·.1) = l.map (·.1) := by
  induction l with
  | nil => simp at h
  | cons a l ih =>
    obtain ⟨k', x'⟩ := a
    unfold assign
    by_cases hk : k' = k
    · rw [if_pos hk]; simp [hk]
    · rw [if_neg hk, List.map_cons, List.map_cons, ih]
      simp only [List.map_cons, List.mem_cons] at h
      rcases h with h | h
      · exact absurd h.symm hk
      · exact h

theorem Agree.assign {k : Str} (x : α) (h : Agree (k :: S) l m) (hn : (l.map (·.1)).Nodup) :
    Agree S (assign k x l) (assign k x m) := by
  induction l generalizing m with
  | nil =>
    cases h
    exact .cons ⟨rfl, fun _ => rfl⟩ .nil
  | cons a l ih =>
    cases h with
    | @cons _ b _ m h1 h2 =>
      obtain ⟨ka, xa⟩ := a
      obtain ⟨kb, xb⟩ := b
      obtain ⟨hk, hx⟩ := h1
      simp only at hk hx
      subst hk
      rw [List.map_cons, List.nodup_cons] at hn
      unfold GoRuntime.assign
      by_cases hkk : ka = k
      · rw [if_pos hkk, if_pos hkk]
        refine .cons ⟨rfl, fun _ => rfl⟩ ?_
        -- the key does not occur in the rest
        subst hkk
        have hno := hn.1
        clear ih hn hx
        induction h2 with
        | nil => exact .nil
        | @cons a b as bs h1 _ ih =>
          simp only [List.map_cons, List.mem_cons, not_or] at hno
          refine .cons ⟨h1.1, fun hS => h1.2 ?_⟩ (ih hno.2)
          rw [List.mem_cons, not_or]
          exact ⟨fun h => hno.1 h.symm, hS⟩
      · rw [if_neg hkk, if_neg hkk]
        refine .cons ⟨rfl, fun hS => hx ?_⟩ (ih h2 hn.2)
        rw [List.mem_cons, not_or]
        exact ⟨hkk, hS⟩

/-! ## Values -/

/-- Only the parser of a structure looks at the target. -/
theorem target_ignored (E : Env) (embed : Str → JVal → Str → Val → St → Except Exc (Val × St)) (t : Ty)
    (ht : ∀ name, t ≠ .embed name) (v : JVal) (ref : Str) (x y : Val) (st : St) :
    parseTy E embed t v ref x st = parseTy E embed t v ref y st := by
  cases t with
  | embed name => exact absurd rfl (ht name)
  | _ => rfl

/-! ## Properties -/

/-- The property does not hand the target on. -/
def Replaces (p : Property) : Prop := p.optional = true ∨ ∀ name, p.ty ≠ .embed name

theorem parseProperty_agree {E : Env} {embed : Str → JVal → Str → Val → St → Except Exc (Val × St)}
    {reads : Ty → JVal → Val → Prop} {kvs : List (Str × JVal)} (ref : Str) (p : Property) (hr : Replaces p) {v : JVal}
    (hv : kvs.lookup p.json = some v) (h : Parses (parseTy E embed p.ty) v (reads p.ty v)) {f1 f2 : Fields}
    {S : List Str} (ha : Agree (field p :: S) f1 f2) (hn : (f1.map (·.1)).Nodup) {st : St} (hc : Clean st)
    {r1 : Fields} {st1 : St} (he : parseProperty (parseTy E embed) kvs ref p f1 st = .ok (r1, st1)) (hc1 : Clean st1) :
    ∃ r2, parseProperty (parseTy E embed) kvs ref p f2 st = .ok (r2, st1) ∧ Agree S r1 r2 ∧ ∃ x, r1 = assign (field p) x f1 := by
  unfold parseProperty at he ⊢
  rw [hv] at he ⊢
  simp only at he ⊢
  by_cases hop : (p.optional && !isPointer p.ty) = true
  · rw [if_pos hop] at he ⊢
    cases h1 : parseTy E embed p.ty v (sub ref p.json) .zero st with
    | error x => rw [h1] at he; cases he
    | ok q =>
      rw [h1] at he
      cases he
      refine ⟨_, rfl, ?_, _, setField_eq ..⟩
      rw [setField_eq, setField_eq]
      exact ha.assign _ hn
  · rw [if_neg hop] at he ⊢
    have hne : ∀ name, p.ty ≠ .embed name := by
      rcases hr with hr | hr
      · intro name hty
        rw [hr, hty] at hop
        simp [isPointer] at hop
      · exact hr
    rw [target_ignored E embed p.ty hne _ _ _ .zero] at he ⊢
    cases h1 : parseTy E embed p.ty v (sub ref p.json) .zero st with
    | error x => rw [h1] at he; cases he
    | ok q =>
      obtain ⟨q, st'⟩ := q
      rw [h1] at he
      simp only [ok_bind] at he ⊢
      have hst : st' = st1 := by cases q <;> cases he <;> rfl
      subst hst
      obtain ⟨x, rfl, _⟩ := h.no _ _ _ _ _ hc fresh_zero h1 hc1
      cases he
      refine ⟨_, rfl, ?_, x, setField_eq ..⟩
      show Agree S (setField (field p) x f1) (setField (field p) x f2)
      rw [setField_eq, setField_eq]
      exact ha.assign _ hn

theorem parseProps_agree {E : Env} {embed : Str → JVal → Str → Val → St → Except Exc (Val × St)}
    {reads : Ty → JVal → Val → Prop} {kvs : List (Str × JVal)} (ref : Str) (ps : List Property)
    (hr : ∀ p ∈ ps, Replaces p) (hall : ∀ p ∈ ps, ∃ v, kvs.lookup p.json = some v)
    (h : ∀ p ∈ ps, ∀ v, kvs.lookup p.json = some v → Parses (parseTy E embed p.ty) v (reads p.ty v)) {f1 f2 : Fields}
    (ha : Agree (ps.map field) f1 f2) (hn : (f1.map (·.1)).Nodup) (hm : ∀ p ∈ ps, field p ∈ f1.map (·.1)) {st : St}
    (hc : Clean st) {r1 : Fields} {st1 : St} (he : parseProps (parseTy E embed) kvs ref ps f1 st = .ok (r1, st1))
    (hc1 : Clean st1) : parseProps (parseTy E embed) kvs ref ps f2 st = .ok (r1, st1) := by
  induction ps generalizing f1 f2 st with
  | nil => rw [← ha.eq]; exact he
  | cons p ps ih =>
    unfold parseProps at he ⊢
    cases h1 : parseProperty (parseTy E embed) kvs ref p f1 st with
    | error x => rw [h1] at he; cases he
    | ok q =>
      obtain ⟨q1, st'⟩ := q
      rw [h1] at he
      simp only [ok_bind] at he ⊢
      obtain ⟨v, hv⟩ := hall p (List.mem_cons_self ..)
      have hps := fun y hy => h y (List.mem_cons_of_mem p hy)
      have hc' : Clean st' := by
        split at he
        · cases he; exact hc1
        · exact (parseProps_mono ps hps _ _ _ _ _ he).clean hc1
      obtain ⟨q2, h2, ha', x, hx⟩ := parseProperty_agree ref p (hr p (List.mem_cons_self ..)) hv
        (h p (List.mem_cons_self ..) v hv) ha hn hc h1 hc'
      rw [h2]
      simp only [ok_bind]
      have hkeys : q1.map (·.1) = f1.map (·.1) := by
        rw [hx]
        exact assign_keys_mem _ (hm p (List.mem_cons_self ..))
      by_cases hf : st'.errors.full = true
      · rw [GoErrors.full, hc'] at hf
        simp only [List.length_nil, Bool.and_eq_true, decide_eq_true_eq] at hf
        exact absurd hf.2.symm hf.1
      · rw [if_neg hf] at he ⊢
        exact ih (fun y hy => hr y (List.mem_cons_of_mem _ hy)) (fun y hy => hall y (List.mem_cons_of_mem _ hy)) hps ha'
          (by rw [hkeys]; exact hn) (fun y hy => by rw [hkeys]; exact hm y (List.mem_cons_of_mem _ hy)) hc' he

/-! ## Registries -/

theorem preallocAll_agree (O : Order) (L : Lib) (kvs : List (Str × JVal)) (ref : Str) (cs : List Class)
    (hall : ∀ c ∈ cs, ∃ v, kvs.lookup (registryKey c) = some v) (r1 r2 : List (Str × GoMap Instance))
    (ha : Agree (cs.map Class.name) r1 r2) (hn : (r1.map (·.1)).Nodup) (hm : ∀ c ∈ cs, c.name ∈ r1.map (·.1)) (st : St)
    (hc : Clean (preallocAll O L kvs ref cs r1 st).2) :
    preallocAll O L kvs ref cs r1 st = preallocAll O L kvs ref cs r2 st := by
  induction cs generalizing r1 r2 st with
  | nil => rw [ha.eq]
  | cons c cs ih =>
    unfold preallocAll at hc ⊢
    simp only at hc ⊢
    have hcl := (preallocAll_mono L ref cs _ _).clean hc
    obtain ⟨v, hv⟩ := hall c (List.mem_cons_self ..)
    have hrest := fun d hd => hall d (List.mem_cons_of_mem c hd)
    unfold prealloc at hc hcl ⊢
    rw [hv] at hc hcl ⊢
    cases v with
    | obj es =>
      simp only at hc hcl ⊢
      rw [setRegistry_eq] at hc
      rw [setRegistry_eq, setRegistry_eq]
      have hkeys := assign_keys_mem (preallocIds L c (sub ref (registryKey c)) ((O.visit st.ranges es).map (·.1)) [] st.range).1
        (hm c (List.mem_cons_self ..))
      exact ih hrest _ _ (ha.assign _ hn) (by rw [hkeys]; exact hn)
        (fun d hd => by rw [hkeys]; exact hm d (List.mem_cons_of_mem _ hd)) _ hc
    | _ => exact absurd hcl (not_clean_add _ _)

theorem flag_full (O : Order) (L : Lib) (parse : Ty → ParseFn) (kvs : List (Str × JVal)) (ref : Str) (cs : List Class)
    (regs : List (Str × GoMap Instance)) (st : St) (r : List (Str × GoMap Instance) × Bool) (st' : St)
    (h : parseRegistries O L parse kvs ref cs regs st = .ok (r, st')) (hf : r.2 = true) : st'.errors.full = true := by
  induction cs generalizing regs st with
  | nil => cases h; cases hf
  | cons c cs ih =>
    unfold parseRegistries at h
    split at h
    · next es hl =>
      cases h1 : parseInstances L parse c (sub ref (registryKey c)) (O.visit st.ranges es)
        ((regs.lookup c.name).getD []) st.range with
      | error x => rw [h1] at h; cases h
      | ok q =>
        rw [h1] at h
        simp only [ok_bind] at h
        split at h
        · next hfull => cases h; exact hfull
        · exact ih _ _ h
    · split at h
      · next hfull => cases h; exact hfull
      · exact ih _ _ h

/-! ## Graphs -/

/-- The target is a graph of the schema. -/
structure Shaped (g : Graph) (gv : GraphVal) : Prop where
  registries : gv.registries.map (·.1) = g.classes.map Class.name
  fields : gv.fields.map (·.1) = g.properties.map field

theorem graph_target {O : Order} (hO : O.Proper) {L : Lib} {g : Graph} (hD : Distinct g) (hX : ExactGraph g) (n : Nat)
    (kvs : List (Str × JVal)) (hv : Canon (.obj kvs)) (hr : ∀ p ∈ g.properties, Replaces p)
    (hp : ∀ p ∈ g.properties, ∃ v, kvs.lookup p.json = some v)
    (hcs : ∀ c ∈ g.classes, ∃ v, kvs.lookup (registryKey c) = some v) (ref : Str) (t1 t2 : GraphVal) (s1 : Shaped g t1)
    (s2 : Shaped g t2) (st : St) (hc : Clean st) (gv : GraphVal) (st' : St)
    (he : parseGraph O L g n (.obj kvs) ref t1 st = .ok (gv, st')) (hc' : Clean st') :
    parseGraph O L g n (.obj kvs) ref t2 st = .ok (gv, st') := by
  unfold parseGraph at he ⊢
  rw [hc.empty] at he ⊢
  simp only [Bool.not_true, Bool.false_eq_true, if_false] at he ⊢
  by_cases hpc : (!g.classes.isEmpty && !(preallocAll O L kvs ref g.classes t1.registries st).2.errors.empty) = true
  · rw [if_pos hpc] at he
    cases he
    rw [hc'.empty] at hpc
    simp at hpc
  · rw [if_neg hpc] at he
    have c0 : Clean (preallocAll O L kvs ref g.classes t1.registries st).2 := by
      cases hcl : g.classes with
      | nil => exact hc
      | cons c cs =>
        rw [hcl] at hpc
        exact clean_of_empty (by simpa using hpc)
    have hn1 : (t1.registries.map (·.1)).Nodup := by rw [s1.registries]; exact hD.names
    have hagree := preallocAll_agree O L kvs ref g.classes hcs t1.registries t2.registries
      (agree_of_keys (by rw [s1.registries, s2.registries]) (by rw [s1.registries]; exact fun k hk => hk)) hn1
      (fun c hc => by rw [s1.registries]; exact List.mem_map.2 ⟨c, hc, rfl⟩) st c0
    have hpre := preallocAll_no L ref hO g.classes _ _ c0
    obtain ⟨stn, sn, en⟩ := preallocAll_yes L ref hO hv g.classes [] st hpre (by simpa using hD.names)
    simp only [List.nil_append] at en
    have hblank := preallocAll_agree O L kvs ref g.classes hcs t1.registries (g.classes.map fun c => (c.name, []))
      (agree_of_keys (by rw [s1.registries, List.map_map]; rfl) (by rw [s1.registries]; exact fun k hk => hk)) hn1
      (fun c hc => by rw [s1.registries]; exact List.mem_map.2 ⟨c, hc, rfl⟩) st c0
    rw [hagree] at hpc
    rw [if_neg hpc, ← hagree]
    rw [hblank, en] at he ⊢
    simp only at he ⊢
    have hpar := graph_parsers (L := L) hO hD hX n kvs
    have hpg : ∀ p ∈ g.properties, ∀ w, kvs.lookup p.json = some w → Parses _ w _ :=
      fun p hp w hw => hpar p.ty (hX.graph p hp) w (canon_entry hv hw)
    cases h2 : parseRegistries O L (parseTy (envOf O L g (g.classes.map fun c => (c.name, regBlank kvs c)))
          (parseEmbed (envOf O L g (g.classes.map fun c => (c.name, regBlank kvs c))) n)) kvs ref g.classes
          (g.classes.map fun c => (c.name, regBlank kvs c)) stn with
    | error x => rw [h2] at he; cases he
    | ok q =>
      obtain ⟨q, st2⟩ := q
      rw [h2] at he
      simp only [ok_bind] at he ⊢
      cases hq : q.2 with
      | true =>
        have hfull := flag_full _ _ _ _ _ _ _ _ _ _ h2 hq
        rw [hq] at he
        cases he
        rw [GoErrors.full, hc'] at hfull
        simp only [List.length_nil, Bool.and_eq_true, decide_eq_true_eq] at hfull
        exact absurd hfull.2.symm hfull.1
      | false =>
        rw [hq] at he
        simp only [Bool.false_eq_true, if_false] at he ⊢
        cases h3 : parseProps (parseTy (envOf O L g (g.classes.map fun c => (c.name, regBlank kvs c)))
          (parseEmbed (envOf O L g (g.classes.map fun c => (c.name, regBlank kvs c))) n)) kvs ref g.properties
          t1.fields st2 with
        | error x => rw [h3] at he; cases he
        | ok s =>
          obtain ⟨s, st3⟩ := s
          rw [h3] at he
          cases he
          have c2 := (parseProps_mono g.properties hpg _ _ _ _ _ h3).clean hc'
          rw [parseProps_agree ref g.properties hr hp hpg
            (agree_of_keys (by rw [s1.fields, s2.fields]) (by rw [s1.fields]; exact fun k hk => hk))
            (by rw [s1.fields]; exact hD.graph)
            (fun p hp => by rw [s1.fields]; exact List.mem_map.2 ⟨p, hp, rfl⟩) c2 h3 hc']
          rfl

end Mapry.GoRuntime
