import Verif.GoReads

/-!
# The structures and the graph read by the generated Go parser
-/

namespace Mapry.GoRuntime

open Mapry.Text Mapry.Duration Spec
open Mapry.PyRuntime.Spec (Within FloatWithin SizeWithin)

/-! ## Types -/

theorem parses_ty {E : Env} {ids : Str → Str → Prop} {embed : Str → JVal → Str → Val → St → Except Exc (Val × St)}
    {reads : Str → JVal → Val → Prop} (hO : E.order.Proper) (hids : ∀ c id, id ∈ E.ids c ↔ ids c id)
    (he : ∀ name v, Canon v → Parses (parseTy E embed (.embed name)) v (reads name v)) :
    ∀ t, ExactTy t → ∀ v, Canon v → Parses (parseTy E embed t) v (ReadsTy E.lib ids reads t v) := by
  intro t
  induction t with
  | boolean => intro _ v _; exact (simple_boolean _ _ _ v).parses
  | integer b => intro _ v _; exact (simple_integer _ _ _ b v).parses
  | float b => intro hb v _; exact (simple_float _ _ _ b hb v).parses
  | string p => intro _ v _; exact (simple_text _ p v).parses
  | path p => intro _ v _; exact (simple_text _ p v).parses
  | date f => intro _ v _; exact (simple_time _ f v).parses
  | time f => intro _ v _; exact (simple_time _ f v).parses
  | datetime f => intro _ v _; exact (simple_time _ f v).parses
  | timeZone => intro _ v _; exact (simple_zone _ _ _ v).parses
  | duration => intro _ v _; exact (simple_duration _ _ _ v).parses
  | array t lo hi ih =>
    intro hx v hv
    refine parses_array E.lib lo hi v fun xs hxs x hmem => ih hx x ?_
    subst hxs
    cases hv with
    | arr _ h => exact h x hmem
  | map t ih =>
    intro hx v hv
    refine parses_map E.order hO E.lib v fun kvs hk => ?_
    subst hk
    cases hv with
    | obj _ ha h => exact ⟨ha, fun e he => ih hx e.2 (h e he)⟩
  | cls c => intro _ v _; exact (simple_reference _ _ _ c _ (hids c) v).parses
  | embed name => intro _ v hv; exact he name v hv

theorem total_ty {E : Env} {embed : Str → JVal → Str → Val → St → Except Exc (Val × St)} (hO : E.order.Proper)
    (n : Nat)
    (he : ∀ name v, DepthLe n v → (∃ e, E.graph.embed? name = some e) → Total (parseTy E embed (.embed name)) v) :
    ∀ t, DefinedTy E.graph t → ∀ m v, m ≤ n → DepthLe m v → Total (parseTy E embed t) v := by
  have up : ∀ m v, DepthLe m v → ∀ k, m ≤ k → DepthLe k v := by
    intro m v h
    induction h with
    | arr n xs _ ih => intro k hk; exact .arr k xs fun x hx => ih x hx k hk
    | obj n kvs _ ih =>
      intro k hk
      obtain ⟨j, rfl⟩ : ∃ j, k = j + 1 := ⟨k - 1, by omega⟩
      exact .obj j kvs fun x hx => ih x hx j (by omega)
    | null => intro k _; exact .null k
    | bool _ b => intro k _; exact .bool k b
    | float _ b => intro k _; exact .float k b
    | int64 _ b => intro k _; exact .int64 k b
    | str _ b => intro k _; exact .str k b
  intro t
  induction t with
  | boolean => intro _ m v _ _; exact (simple_boolean E.lib (fun _ _ => False) (fun _ _ _ => False) v).total
  | integer b => intro _ m v _ _; exact (simple_integer E.lib (fun _ _ => False) (fun _ _ _ => False) b v).total
  | float b =>
    intro _ m v _ _
    cases v with
    | float f =>
      refine ⟨?_, ?_⟩
      · intro ref t st x h
        show x = thePanic
        change parseFloat E.lib b (.float f) ref t st = _ at h
        unfold parseFloat at h
        simp only at h
        split at h
        · cases h
        · split at h <;> cases h
      · intro ref t st hc h1
        have ho := One.of_clean hc h1
        change ∃ r st', parseFloat E.lib b (.float f) ref t st = _ ∧ _
        unfold parseFloat
        simp only
        split
        · exact ⟨_, _, rfl, ho.add ..⟩
        · split
          · exact ⟨_, _, rfl, ho.add ..⟩
          · exact ⟨_, _, rfl, ho⟩
    | _ => exact Simple.total (reads := fun _ => False) (.expected (fun _ h => h) (fun _ _ _ => rfl))
  | string p => intro _ m v _ _; exact (simple_text E.lib p v).total
  | path p => intro _ m v _ _; exact (simple_text E.lib p v).total
  | date f => intro _ m v _ _; exact (simple_time E.lib f v).total
  | time f => intro _ m v _ _; exact (simple_time E.lib f v).total
  | datetime f => intro _ m v _ _; exact (simple_time E.lib f v).total
  | timeZone => intro _ m v _ _; exact (simple_zone E.lib (fun _ _ => False) (fun _ _ _ => False) v).total
  | duration => intro _ m v _ _; exact (simple_duration E.lib (fun _ _ => False) (fun _ _ _ => False) v).total
  | array t lo hi ih =>
    intro hx m v hm hv
    refine total_array E.lib lo hi v fun xs hxs x hmem => ih hx m x hm ?_
    subst hxs
    cases hv with
    | arr _ _ h => exact h x hmem
  | map t ih =>
    intro hx m v hm hv
    refine total_map E.order hO E.lib v fun kvs hk e he => ?_
    subst hk
    cases hv with
    | obj j _ h => exact ih hx j e.2 (by omega) (h e he)
  | cls c =>
    intro _ m v _ _
    exact (simple_reference E.lib (fun c id => id ∈ E.ids c) (fun _ _ _ => False) c _ (fun _ => Iff.rfl) v).total
  | embed name => intro hd m v hm hv; exact he name v (up m v hv n hm) hd

/-! ## Properties -/

theorem setField_at (done : Fields) (f : Str) (x z : Val) (rest : Fields) (h : f ∉ done.map (·.1)) :
    setField f x (done ++ (f, z) :: rest) = done ++ (f, x) :: rest := by
  induction done with
  | nil => simp [setField]
  | cons a done ih =>
    obtain ⟨k, y⟩ := a
    simp only [List.map_cons, List.mem_cons, not_or] at h
    simp only [List.cons_append, setField]
    rw [if_neg (Ne.symm h.1), ih h.2]

theorem lookup_at {α : Type} (done : List (Str × α)) (f : Str) (z : α) (rest : List (Str × α))
    (h : f ∉ done.map (·.1)) : (done ++ (f, z) :: rest).lookup f = some z := by
  induction done with
  | nil => simp
  | cons a done ih =>
    simp only [List.map_cons, List.mem_cons, not_or] at h
    rw [List.cons_append, GoMap.lookup_step, if_neg h.1, ih h.2]

/-- The zero value of a property -/
def zeroOf (p : Property) : Val := if p.optional then .nil else .zero

theorem fresh_zeroOf (p : Property) : Fresh (zeroOf p) := by
  unfold zeroOf; split
  · exact fresh_nil
  · exact fresh_zero

theorem zeroFields_cons (p : Property) (ps : List Property) :
    zeroFields (p :: ps) = (field p, zeroOf p) :: zeroFields ps := rfl

section

variable {parse : Ty → ParseFn} {reads : Ty → JVal → Val → Prop} {kvs : List (Str × JVal)}

theorem parseProperty_mono {p : Property}
    (h : ∀ v, kvs.lookup p.json = some v → Parses (parse p.ty) v (reads p.ty v))
    (ref : Str) (fields : Fields) (st : St) (r : Fields) (st' : St)
    (he : parseProperty parse kvs ref p fields st = .ok (r, st')) : Grows st st' := by
  unfold parseProperty at he
  cases hl : kvs.lookup p.json with
  | none =>
    rw [hl] at he
    simp only at he
    by_cases ho : p.optional = true
    · rw [if_pos ho] at he; cases he; exact .refl _
    · rw [if_neg ho] at he; cases he; exact .add ..
  | some v =>
    rw [hl] at he
    simp only at he
    have hp := h v hl
    by_cases ho : (p.optional && !isPointer p.ty) = true
    · rw [if_pos ho] at he
      cases h1 : parse p.ty v (sub ref p.json) .zero st with
      | error e => rw [h1] at he; cases he
      | ok q => rw [h1] at he; cases he; exact hp.mono _ _ _ _ _ h1
    · rw [if_neg ho] at he
      cases h1 : parse p.ty v (sub ref p.json) ((fields.lookup (field p)).getD .zero) st with
      | error e => rw [h1] at he; cases he
      | ok q => rw [h1] at he; cases he; exact hp.mono _ _ _ _ _ h1

theorem parseProperty_yes {p : Property}
    (h : ∀ v, kvs.lookup p.json = some v → Parses (parse p.ty) v (reads p.ty v))
    (ref : Str) (done : Fields) (rest : Fields) (st : St) (x : Val) (hc : Clean st)
    (hd : field p ∉ done.map (·.1)) (hx : ReadsProperty reads kvs p x) :
    ∃ st', parseProperty parse kvs ref p (done ++ (field p, zeroOf p) :: rest) st =
      .ok (done ++ (field p, x) :: rest, st') ∧ st'.errors = st.errors := by
  unfold ReadsProperty at hx
  unfold parseProperty
  cases hl : kvs.lookup p.json with
  | none =>
    rw [hl] at hx
    obtain ⟨ho, rfl⟩ := hx
    simp only
    rw [if_pos ho]
    refine ⟨st, ?_, rfl⟩
    unfold zeroOf
    rw [if_pos ho]
  | some v =>
    rw [hl] at hx
    simp only at hx ⊢
    have hp := h v hl
    by_cases ho : (p.optional && !isPointer p.ty) = true
    · rw [if_pos ho]
      obtain ⟨st', e, s⟩ := hp.yes (sub ref p.json) .zero st x hc fresh_zero hx
      refine ⟨st', ?_, s⟩
      rw [e, ok_bind]
      simp only [Option.getD_some]
      rw [setField_at _ _ _ _ _ hd]
      rfl
    · rw [if_neg ho, lookup_at _ _ _ _ hd]
      obtain ⟨st', e, s⟩ := hp.yes (sub ref p.json) (zeroOf p) st x hc (fresh_zeroOf p) hx
      refine ⟨st', ?_, s⟩
      simp only [Option.getD_some]
      rw [e, ok_bind]
      simp only
      rw [setField_at _ _ _ _ _ hd]
      rfl

theorem parseProperty_no {p : Property}
    (h : ∀ v, kvs.lookup p.json = some v → Parses (parse p.ty) v (reads p.ty v))
    (ref : Str) (done : Fields) (rest : Fields) (st : St) (r : Fields) (st' : St) (hc : Clean st)
    (hd : field p ∉ done.map (·.1))
    (he : parseProperty parse kvs ref p (done ++ (field p, zeroOf p) :: rest) st = .ok (r, st'))
    (hc' : Clean st') : ∃ x, r = done ++ (field p, x) :: rest ∧ ReadsProperty reads kvs p x := by
  unfold ReadsProperty
  unfold parseProperty at he
  cases hl : kvs.lookup p.json with
  | none =>
    rw [hl] at he
    simp only at he ⊢
    by_cases ho : p.optional = true
    · rw [if_pos ho] at he
      cases he
      refine ⟨.nil, ?_, ho, rfl⟩
      unfold zeroOf
      rw [if_pos ho]
    · rw [if_neg ho] at he
      cases he
      exact absurd hc' (not_clean_add _ _)
  | some v =>
    rw [hl] at he
    simp only at he ⊢
    have hp := h v hl
    by_cases ho : (p.optional && !isPointer p.ty) = true
    · rw [if_pos ho] at he
      cases h1 : parse p.ty v (sub ref p.json) .zero st with
      | error e => rw [h1] at he; cases he
      | ok q =>
        obtain ⟨y, st1⟩ := q
        rw [h1] at he
        cases he
        obtain ⟨x, rfl, hx⟩ := hp.no _ _ _ _ _ hc fresh_zero h1 hc'
        exact ⟨x, setField_at _ _ _ _ _ hd, hx⟩
    · rw [if_neg ho, lookup_at _ _ _ _ hd] at he
      simp only [Option.getD_some] at he
      cases h1 : parse p.ty v (sub ref p.json) (zeroOf p) st with
      | error e => rw [h1] at he; cases he
      | ok q =>
        obtain ⟨y, st1⟩ := q
        rw [h1] at he
        cases he
        obtain ⟨x, rfl, hx⟩ := hp.no _ _ _ _ _ hc (fresh_zeroOf p) h1 hc'
        exact ⟨x, setField_at _ _ _ _ _ hd, hx⟩

theorem parseProps_mono (ps : List Property)
    (h : ∀ p ∈ ps, ∀ v, kvs.lookup p.json = some v → Parses (parse p.ty) v (reads p.ty v))
    (ref : Str) (fields : Fields) (st : St) (r : Fields) (st' : St)
    (he : parseProps parse kvs ref ps fields st = .ok (r, st')) : Grows st st' := by
  induction ps generalizing fields st with
  | nil => cases he; exact .refl _
  | cons p ps ih =>
    unfold parseProps at he
    cases h1 : parseProperty parse kvs ref p fields st with
    | error e => rw [h1] at he; cases he
    | ok q =>
      obtain ⟨f1, st1⟩ := q
      have g1 := parseProperty_mono (h p (List.mem_cons_self ..)) _ _ _ _ _ h1
      rw [h1] at he
      simp only [ok_bind] at he
      by_cases hf : st1.errors.full = true
      · rw [if_pos hf] at he
        cases he
        exact g1
      · rw [if_neg hf] at he
        exact g1.trans (ih (fun y hy => h y (List.mem_cons_of_mem _ hy)) _ _ he)

theorem parseProps_yes (ps : List Property)
    (h : ∀ p ∈ ps, ∀ v, kvs.lookup p.json = some v → Parses (parse p.ty) v (reads p.ty v))
    (ref : Str) (done : Fields) (st : St) (out : Fields) (hc : Clean st)
    (hd : (done.map (·.1) ++ ps.map field).Nodup) (hr : ReadsProps reads kvs ps out) :
    ∃ st', parseProps parse kvs ref ps (done ++ zeroFields ps) st = .ok (done ++ out, st') ∧
      st'.errors = st.errors := by
  unfold ReadsProps at hr
  induction hr generalizing done st with
  | nil => exact ⟨st, by simp [parseProps, zeroFields], rfl⟩
  | @cons p o ps out h1 _ ih =>
    obtain ⟨k, x⟩ := o
    obtain ⟨hk, hx⟩ := h1
    simp only at hk hx
    subst hk
    have hnd : field p ∉ done.map (·.1) := by
      intro hm
      exact (List.nodup_append.1 hd).2.2 _ hm _ (List.mem_cons_self ..) rfl
    obtain ⟨st1, e1, s1⟩ := parseProperty_yes (h p (List.mem_cons_self ..)) ref done (zeroFields ps) st x hc hnd hx
    have c1 := hc.of_errors s1
    have hd' : ((done ++ [(field p, x)]).map (·.1) ++ ps.map field).Nodup := by
      simpa [List.map_append, List.append_assoc] using hd
    obtain ⟨st2, e2, s2⟩ := ih (fun y hy => h y (List.mem_cons_of_mem _ hy)) (done ++ [(field p, x)]) st1 c1 hd'
    refine ⟨st2, ?_, s2.trans s1⟩
    unfold parseProps
    rw [zeroFields_cons, e1]
    simp only [ok_bind, c1.full]
    rw [List.append_assoc] at e2
    simp only [List.cons_append, List.nil_append] at e2
    rw [if_neg (by simp), e2, List.append_assoc]
    rfl

theorem parseProps_no (ps : List Property)
    (h : ∀ p ∈ ps, ∀ v, kvs.lookup p.json = some v → Parses (parse p.ty) v (reads p.ty v))
    (ref : Str) (done : Fields) (st : St) (r : Fields) (st' : St) (hc : Clean st)
    (hd : (done.map (·.1) ++ ps.map field).Nodup)
    (he : parseProps parse kvs ref ps (done ++ zeroFields ps) st = .ok (r, st')) (hc' : Clean st') :
    ∃ out, r = done ++ out ∧ ReadsProps reads kvs ps out := by
  induction ps generalizing done st with
  | nil => cases he; exact ⟨[], rfl, .nil⟩
  | cons p ps ih =>
    unfold parseProps at he
    rw [zeroFields_cons] at he
    have hnd : field p ∉ done.map (·.1) := by
      intro hm
      exact (List.nodup_append.1 hd).2.2 _ hm _ (List.mem_cons_self ..) rfl
    cases h1 : parseProperty parse kvs ref p (done ++ (field p, zeroOf p) :: zeroFields ps) st with
    | error e => rw [h1] at he; cases he
    | ok q =>
      obtain ⟨f1, st1⟩ := q
      rw [h1] at he
      simp only [ok_bind] at he
      by_cases hf : st1.errors.full = true
      · rw [if_pos hf] at he
        cases he
        exact absurd hc' (not_clean_of_full hf)
      · rw [if_neg hf] at he
        have hrest : ∀ p ∈ ps, ∀ v, kvs.lookup p.json = some v → Parses (parse p.ty) v (reads p.ty v) :=
          fun y hy => h y (List.mem_cons_of_mem _ hy)
        have c1 := (parseProps_mono ps hrest _ _ _ _ _ he).clean hc'
        obtain ⟨x, rfl, hx⟩ := parseProperty_no (h p (List.mem_cons_self ..)) ref done (zeroFields ps) st _ _ hc hnd h1 c1
        have hd' : ((done ++ [(field p, x)]).map (·.1) ++ ps.map field).Nodup := by
          simpa [List.map_append, List.append_assoc] using hd
        have he' : parseProps parse kvs ref ps ((done ++ [(field p, x)]) ++ zeroFields ps) st1 = .ok (r, st') := by
          rw [List.append_assoc]; exact he
        obtain ⟨out, rfl, ho⟩ := ih hrest _ _ c1 hd' he'
        exact ⟨(field p, x) :: out, by simp, .cons ⟨rfl, hx⟩ ho⟩

theorem parseProperty_total {p : Property} (h : ∀ v, kvs.lookup p.json = some v → Total (parse p.ty) v)
    (ref : Str) (fields : Fields) (st : St) :
    (∀ x, parseProperty parse kvs ref p fields st = .error x → x = thePanic) ∧
    (Clean st → st.errors.cap = 1 → ∃ r st', parseProperty parse kvs ref p fields st = .ok (r, st') ∧ One st') := by
  unfold parseProperty
  cases hl : kvs.lookup p.json with
  | none =>
    simp only
    by_cases ho : p.optional = true
    · rw [if_pos ho]
      exact ⟨fun x hx => (by cases hx), fun hc h1 => ⟨_, _, rfl, .of_clean hc h1⟩⟩
    · rw [if_neg ho]
      exact ⟨fun x hx => (by cases hx), fun hc h1 => ⟨_, _, rfl, (One.of_clean hc h1).add ..⟩⟩
  | some v =>
    have hp := h v hl
    simp only
    by_cases ho : (p.optional && !isPointer p.ty) = true
    · rw [if_pos ho]
      constructor
      · intro x hx
        cases h1 : parse p.ty v (sub ref p.json) .zero st with
        | error e => rw [h1] at hx; cases hx; exact hp.only _ _ _ _ h1
        | ok q => rw [h1] at hx; cases hx
      · intro hc hcap
        obtain ⟨y, st1, e1, o1⟩ := hp.one (sub ref p.json) .zero st hc hcap
        rw [e1]
        exact ⟨_, _, rfl, o1⟩
    · rw [if_neg ho]
      constructor
      · intro x hx
        cases h1 : parse p.ty v (sub ref p.json) ((fields.lookup (field p)).getD .zero) st with
        | error e => rw [h1] at hx; cases hx; exact hp.only _ _ _ _ h1
        | ok q => rw [h1] at hx; cases hx
      · intro hc hcap
        obtain ⟨y, st1, e1, o1⟩ := hp.one (sub ref p.json) ((fields.lookup (field p)).getD .zero) st hc hcap
        rw [e1]
        exact ⟨_, _, rfl, o1⟩

theorem parseProps_total (ps : List Property)
    (h : ∀ p ∈ ps, ∀ v, kvs.lookup p.json = some v → Total (parse p.ty) v)
    (ref : Str) (fields : Fields) (st : St) :
    (∀ x, parseProps parse kvs ref ps fields st = .error x → x = thePanic) ∧
    (Clean st → st.errors.cap = 1 → ∃ r st', parseProps parse kvs ref ps fields st = .ok (r, st') ∧ One st') := by
  induction ps generalizing fields st with
  | nil => exact ⟨fun x hx => (by cases hx), fun hc h1 => ⟨_, _, rfl, .of_clean hc h1⟩⟩
  | cons p ps ih =>
    have ih := ih (fun y hy => h y (List.mem_cons_of_mem _ hy))
    have hp := parseProperty_total (h p (List.mem_cons_self ..)) ref fields st
    constructor
    · intro x hx
      unfold parseProps at hx
      cases h1 : parseProperty parse kvs ref p fields st with
      | error e => rw [h1] at hx; cases hx; exact hp.1 _ h1
      | ok q =>
        obtain ⟨f1, st1⟩ := q
        rw [h1] at hx
        simp only [ok_bind] at hx
        by_cases hf : st1.errors.full = true
        · rw [if_pos hf] at hx; cases hx
        · rw [if_neg hf] at hx
          exact (ih _ _).1 _ hx
    · intro hc hcap
      obtain ⟨f1, st1, e1, o1⟩ := hp.2 hc hcap
      unfold parseProps
      rw [e1]
      simp only [ok_bind]
      by_cases hf : st1.errors.full = true
      · rw [if_pos hf]; exact ⟨_, _, rfl, o1⟩
      · rw [if_neg hf]
        exact (ih _ st1).2 (o1.clean (by simpa using hf)) o1.cap

/-! ## Classes and embeddable structures -/

theorem parseComposite_mono (L : Lib) (ps : List Property) (v : JVal)
    (h : ∀ kvs, v = .obj kvs → ∀ p ∈ ps, ∀ w, kvs.lookup p.json = some w → Parses (parse p.ty) w (reads p.ty w))
    (ref : Str) (target : Fields) (st : St) (r : Fields × Bool) (st' : St)
    (he : parseComposite L parse ps v ref target st = .ok (r, st')) : Grows st st' := by
  unfold parseComposite at he
  by_cases hem : (!st.errors.empty) = true
  · rw [if_pos hem] at he; cases he
  · rw [if_neg hem] at he
    cases v with
    | obj kvs =>
      simp only at he
      cases h1 : parseProps parse kvs ref ps target st with
      | error e => rw [h1] at he; cases he
      | ok q => rw [h1] at he; cases he; exact parseProps_mono ps (h kvs rfl) _ _ _ _ _ h1
    | _ => cases he; exact .add ..

theorem parseComposite_yes (L : Lib) (ps : List Property) (kvs : List (Str × JVal))
    (h : ∀ p ∈ ps, ∀ w, kvs.lookup p.json = some w → Parses (parse p.ty) w (reads p.ty w))
    (hd : (ps.map field).Nodup) (ref : Str) (st : St) (out : Fields) (hc : Clean st)
    (hr : ReadsProps reads kvs ps out) :
    ∃ st', parseComposite L parse ps (.obj kvs) ref (zeroFields ps) st = .ok ((out, true), st') ∧
      st'.errors = st.errors := by
  obtain ⟨st', e, s⟩ := parseProps_yes ps h ref [] st out hc (by simpa using hd) hr
  refine ⟨st', ?_, s⟩
  unfold parseComposite
  rw [hc.empty]
  simp only [List.nil_append] at e
  simp only [Bool.not_true, Bool.false_eq_true, if_false, e]
  rfl

theorem parseComposite_no (L : Lib) (ps : List Property) (v : JVal)
    (h : ∀ kvs, v = .obj kvs → ∀ p ∈ ps, ∀ w, kvs.lookup p.json = some w → Parses (parse p.ty) w (reads p.ty w))
    (hd : (ps.map field).Nodup) (ref : Str) (st : St) (r : Fields × Bool) (st' : St) (hc : Clean st)
    (he : parseComposite L parse ps v ref (zeroFields ps) st = .ok (r, st')) (hc' : Clean st') :
    ∃ kvs, v = .obj kvs ∧ r.2 = true ∧ ReadsProps reads kvs ps r.1 := by
  unfold parseComposite at he
  rw [hc.empty] at he
  simp only [Bool.not_true, Bool.false_eq_true, if_false] at he
  cases v with
  | obj kvs =>
    simp only at he
    cases h1 : parseProps parse kvs ref ps (zeroFields ps) st with
    | error e => rw [h1] at he; cases he
    | ok q =>
      rw [h1] at he
      cases he
      obtain ⟨out, ho, hr⟩ := parseProps_no ps (h kvs rfl) ref [] st _ _ hc (by simpa using hd) h1 hc'
      refine ⟨kvs, rfl, rfl, ?_⟩
      rw [ho]
      exact hr
  | _ => cases he; exact absurd hc' (not_clean_add _ _)

theorem parseComposite_total (L : Lib) (ps : List Property) (v : JVal)
    (h : ∀ kvs, v = .obj kvs → ∀ p ∈ ps, ∀ w, kvs.lookup p.json = some w → Total (parse p.ty) w)
    (ref : Str) (target : Fields) (st : St) :
    (∀ x, parseComposite L parse ps v ref target st = .error x → x = thePanic) ∧
    (Clean st → st.errors.cap = 1 →
      ∃ r st', parseComposite L parse ps v ref target st = .ok (r, st') ∧ One st') := by
  constructor
  · intro x hx
    unfold parseComposite at hx
    by_cases hem : (!st.errors.empty) = true
    · rw [if_pos hem] at hx; cases hx; rfl
    · rw [if_neg hem] at hx
      cases v with
      | obj kvs =>
        simp only at hx
        cases h1 : parseProps parse kvs ref ps target st with
        | error e => rw [h1] at hx; cases hx; exact (parseProps_total ps (h kvs rfl) ref target st).1 _ h1
        | ok q => rw [h1] at hx; cases hx
      | _ => cases hx
  · intro hc hcap
    unfold parseComposite
    rw [hc.empty]
    simp only [Bool.not_true, Bool.false_eq_true, if_false]
    cases v with
    | obj kvs =>
      obtain ⟨f1, st1, e1, o1⟩ := (parseProps_total ps (h kvs rfl) ref target st).2 hc hcap
      simp only
      rw [e1]
      exact ⟨_, _, rfl, o1⟩
    | _ => exact ⟨_, _, rfl, (One.of_clean hc hcap).add ..⟩

end

theorem targetFields_fresh (ps : List Property) {t : Val} (h : Fresh t) : targetFields ps t = zeroFields ps := by
  cases t with
  | obj name fields => exact absurd rfl (h name fields)
  | _ => rfl

theorem canon_entry {kvs : List (Str × JVal)} (h : Canon (.obj kvs)) {k : Str} {v : JVal}
    (hl : kvs.lookup k = some v) : Canon v := by
  cases h with
  | obj _ _ h => exact h _ (GoMap.lookup_mem hl)

theorem embed_mem {g : Graph} {name : Str} {e : Embed} (h : g.embed? name = some e) : e ∈ g.embeds :=
  List.mem_of_find?_eq_some h

theorem parses_embed {E : Env} {ids : Str → Str → Prop} (hO : E.order.Proper)
    (hids : ∀ c id, id ∈ E.ids c ↔ ids c id) (hD : Distinct E.graph) (hX : ExactGraph E.graph) (n : Nat) :
    ∀ name v, Canon v → Parses (parseTy E (parseEmbed E n) (.embed name)) v (ReadsEmbed E.lib E.graph ids n name v) := by
  induction n with
  | zero =>
    intro name v _
    refine ⟨?_, ?_, ?_⟩
    · intro ref t st r st' h; cases h
    · intro ref t st x _ _ hx; exact hx.elim
    · intro ref t st r st' _ _ h; cases h
  | succ n ih =>
    intro name v hv
    have hty := parses_ty hO hids ih
    cases hg : E.graph.embed? name with
    | none =>
      have heq : ∀ ref t st, parseTy E (parseEmbed E (n + 1)) (.embed name) v ref t st = .error .keyError := by
        intro ref t st
        unfold parseTy parseEmbed
        simp only [hg]
        rfl
      refine ⟨?_, ?_, ?_⟩
      · intro ref t st r st' h; rw [heq] at h; cases h
      · rintro ref t st x _ _ ⟨e, _, _, he, _⟩
        rw [hg] at he; cases he
      · intro ref t st r st' _ _ h; rw [heq] at h; cases h
    | some e =>
      have hmem := embed_mem hg
      have hps : ∀ kvs, v = .obj kvs → ∀ p ∈ e.properties, ∀ w, kvs.lookup p.json = some w →
          Parses (parseTy E (parseEmbed E n) p.ty) w (ReadsTy E.lib ids (ReadsEmbed E.lib E.graph ids n) p.ty w) := by
        rintro kvs rfl p hp w hw
        exact hty p.ty (hX.embed e hmem p hp) w (canon_entry hv hw)
      have hnd : (e.properties.map field).Nodup := hD.embed e hmem
      have heq : ∀ ref t st, parseTy E (parseEmbed E (n + 1)) (.embed name) v ref t st =
          (do
            let (r, st) ← parseComposite E.lib (parseTy E (parseEmbed E n)) e.properties v ref
              (targetFields e.properties t) st
            return (some (.obj name r.1), st)) := by
        intro ref t st
        rw [parseTy.eq_def]
        simp only
        rw [parseEmbed.eq_def]
        simp only [hg]
        cases parseComposite E.lib (parseTy E (parseEmbed E n)) e.properties v ref (targetFields e.properties t) st <;> rfl
      refine ⟨?_, ?_, ?_⟩
      · intro ref t st r st' h
        rw [heq] at h
        cases h1 : parseComposite E.lib (parseTy E (parseEmbed E n)) e.properties v ref
            (targetFields e.properties t) st with
        | error x => rw [h1] at h; cases h
        | ok q =>
          rw [h1] at h
          cases h
          exact parseComposite_mono E.lib e.properties v hps _ _ _ _ _ h1
      · rintro ref t st x hc hf ⟨e', kvs, fields, he', rfl, rfl, hr⟩
        rw [hg] at he'
        cases he'
        obtain ⟨st', h1, s⟩ := parseComposite_yes E.lib e.properties kvs (hps kvs rfl) hnd ref st fields hc hr
        refine ⟨st', ?_, s⟩
        rw [heq, targetFields_fresh _ hf, h1]
        rfl
      · intro ref t st r st' hc hf h hc'
        rw [heq, targetFields_fresh _ hf] at h
        cases h1 : parseComposite E.lib (parseTy E (parseEmbed E n)) e.properties v ref
            (zeroFields e.properties) st with
        | error x => rw [h1] at h; cases h
        | ok q =>
          rw [h1] at h
          cases h
          obtain ⟨kvs, rfl, _, hr⟩ := parseComposite_no E.lib e.properties v hps hnd ref st _ _ hc h1 hc'
          exact ⟨_, rfl, e, kvs, q.1.1, hg, rfl, rfl, hr⟩

/-- The parser of the types with `n` levels of structures. -/
theorem parses_value {E : Env} {ids : Str → Str → Prop} (hO : E.order.Proper)
    (hids : ∀ c id, id ∈ E.ids c ↔ ids c id) (hD : Distinct E.graph) (hX : ExactGraph E.graph) (n : Nat)
    (t : Ty) (ht : ExactTy t) (v : JVal) (hv : Canon v) :
    Parses (parseTy E (parseEmbed E n) t) v (Reads E.lib E.graph ids n t v) :=
  parses_ty hO hids (parses_embed hO hids hD hX n) t ht v hv

theorem total_embed {E : Env} (hO : E.order.Proper) (hD : DefinedGraph E.graph) (n : Nat) :
    ∀ name v, DepthLe n v → (∃ e, E.graph.embed? name = some e) →
      Total (parseTy E (parseEmbed E (n + 1)) (.embed name)) v := by
  induction n with
  | zero =>
    rintro name v hv ⟨e, hg⟩
    have hps : ∀ kvs, v = .obj kvs → ∀ p ∈ e.properties, ∀ w, kvs.lookup p.json = some w →
        Total (parseTy E (parseEmbed E 0) p.ty) w := by
      rintro kvs rfl; cases hv
    have ht := parseComposite_total (parse := parseTy E (parseEmbed E 0)) E.lib e.properties v hps
    have heq : ∀ ref t st, parseTy E (parseEmbed E 1) (.embed name) v ref t st =
        (do
          let (r, st) ← parseComposite E.lib (parseTy E (parseEmbed E 0)) e.properties v ref
            (targetFields e.properties t) st
          return (some (.obj name r.1), st)) := by
      intro ref t st
      rw [parseTy.eq_def]
      simp only
      rw [parseEmbed.eq_def]
      simp only [hg]
      cases parseComposite E.lib (parseTy E (parseEmbed E 0)) e.properties v ref (targetFields e.properties t) st <;> rfl
    refine ⟨?_, ?_⟩
    · intro ref t st x h
      rw [heq] at h
      cases h1 : parseComposite E.lib (parseTy E (parseEmbed E 0)) e.properties v ref
          (targetFields e.properties t) st with
      | error y => rw [h1] at h; cases h; exact (ht ref _ st).1 _ h1
      | ok q => rw [h1] at h; cases h
    · intro ref t st hc hcap
      obtain ⟨r, st', e1, o1⟩ := (ht ref (targetFields e.properties t) st).2 hc hcap
      rw [heq, e1]
      exact ⟨_, _, rfl, o1⟩
  | succ n ih =>
    rintro name v hv ⟨e, hg⟩
    have hps : ∀ kvs, v = .obj kvs → ∀ p ∈ e.properties, ∀ w, kvs.lookup p.json = some w →
        Total (parseTy E (parseEmbed E (n + 1)) p.ty) w := by
      rintro kvs rfl p hp w hw
      cases hv with
      | obj _ _ h => exact total_ty hO n ih p.ty (hD.embed e (embed_mem hg) p hp) n w (Nat.le_refl _) (h _ (GoMap.lookup_mem hw))
    have ht := parseComposite_total (parse := parseTy E (parseEmbed E (n + 1))) E.lib e.properties v hps
    have heq : ∀ ref t st, parseTy E (parseEmbed E (n + 1 + 1)) (.embed name) v ref t st =
        (do
          let (r, st) ← parseComposite E.lib (parseTy E (parseEmbed E (n + 1))) e.properties v ref
            (targetFields e.properties t) st
          return (some (.obj name r.1), st)) := by
      intro ref t st
      rw [parseTy.eq_def]
      simp only
      rw [parseEmbed.eq_def]
      simp only [hg]
      cases parseComposite E.lib (parseTy E (parseEmbed E (n + 1))) e.properties v ref (targetFields e.properties t) st <;> rfl
    refine ⟨?_, ?_⟩
    · intro ref t st x h
      rw [heq] at h
      cases h1 : parseComposite E.lib (parseTy E (parseEmbed E (n + 1))) e.properties v ref
          (targetFields e.properties t) st with
      | error y => rw [h1] at h; cases h; exact (ht ref _ st).1 _ h1
      | ok q => rw [h1] at h; cases h
    · intro ref t st hc hcap
      obtain ⟨r, st', e1, o1⟩ := (ht ref (targetFields e.properties t) st).2 hc hcap
      rw [heq, e1]
      exact ⟨_, _, rfl, o1⟩

theorem total_value {E : Env} (hO : E.order.Proper) (hD : DefinedGraph E.graph) (n : Nat) (t : Ty)
    (ht : DefinedTy E.graph t) (v : JVal) (hv : DepthLe n v) : Total (parseTy E (parseEmbed E (n + 1)) t) v :=
  total_ty hO n (total_embed hO hD n) t ht n v (Nat.le_refl _) hv

end Mapry.GoRuntime
