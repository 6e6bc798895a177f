import Verif.CppReads

/-!
# The arrays, maps and composites read by the generated C++ parser
-/

namespace Mapry.CppRuntime

open Mapry.Text Mapry.Duration Spec
open Mapry.PyRuntime.Spec (Within FloatWithin SizeWithin)

variable {B : Exc → Prop} {e : CppErrors}

/-! ## Arrays -/

theorem outcome_items (f : ParseFn) (reads : JVal → Val → Prop) (clean : Val → Prop) (ref : Str) (xs : List JVal)
    (hf : ∀ x ∈ xs, ∀ ref t e, clean t → Room e → Outcome (reads x) B e (f x ref t e)) :
    ∀ i ts e, ts.length = xs.length → (∀ t ∈ ts, clean t) → Room e → Outcome (Forall₂ reads xs) B e
      (parseItems f ref i xs ts e) := by
  induction xs with
  | nil =>
    intro i ts e hl _ _
    cases ts with
    | cons t ts => cases hl
    | nil =>
      refine .value .nil ?_
      intro y hy
      cases hy; rfl
  | cons x xs ih =>
    intro i ts e hl ht hr
    cases ts with
    | nil => cases hl
    | cons t ts =>
    have hl : ts.length = xs.length := Nat.succ.inj hl
    have hts : ∀ t ∈ ts, clean t := fun t h => ht t (List.mem_cons_of_mem _ h)
    have ih := ih fun x hx => hf x (List.mem_cons_of_mem _ hx)
    have hx := hf x List.mem_cons_self (sub ref (natStr i)) t e (ht t List.mem_cons_self) hr
    have hrest : ∀ e', Room e' → ∀ y, reads x y → (∀ z, reads x z → z = y) →
        Outcome (Forall₂ reads (x :: xs)) B e'
          (parseItems f ref (i + 1) xs ts e' >>= fun p => .ok (y :: p.1, p.2)) := by
      intro e' he' y hy hu
      refine (ih (i + 1) ts e' hl hts he').map (y :: ·) (fun ys hys => .cons hy hys) ?_
      intro zs hzs
      cases hzs with
      | cons h1 h2 => exact ⟨_, h2, by rw [hu _ h1]⟩
    refine Outcome.step (fun t => t :: ts) (fun t e =>
      parseItems f ref (i + 1) xs ts e >>= fun p => .ok (t :: p.1, p.2)) hx hr ?_ ?_ ?_
    · intro y _ hy hu
      exact hrest e hr y hy hu
    · intro y e' _ he'
      refine ⟨fun z => ∃ zs, Forall₂ reads xs zs ∧ z = y :: zs, (ih (i + 1) ts e' hl hts he').map (y :: ·) ?_ ?_⟩
      · intro ys hys; exact ⟨ys, hys, rfl⟩
      · rintro z ⟨zs, h1, h2⟩; exact ⟨zs, h1, h2⟩
    · intro z hz
      cases hz with
      | cons h1 _ => exact ⟨_, h1⟩

theorem resize_length (n : Nat) (xs : List Val) : (resize n xs).length = n := by
  simp only [resize, List.length_append, List.length_take, List.length_replicate]
  omega

theorem resize_clean {clean : Val → Prop} (hz : clean .zero) (n : Nat) (xs : List Val) (h : ∀ x ∈ xs, clean x) :
    ∀ x ∈ resize n xs, clean x := by
  intro x hx
  rcases List.mem_append.1 hx with hx | hx
  · exact h x (List.mem_of_mem_take hx)
  · rw [(List.mem_replicate.1 hx).2]; exact hz

theorem outcome_array (f : ParseFn) (reads : JVal → Val → Prop) (clean : Val → Prop) (hz : clean .zero)
    (lo hi : Option Int) (v : JVal) (ref : Str) (t : Val) (ht : ∀ vs, t = .list vs → ∀ x ∈ vs, clean x) (hr : Room e)
    (hf : ∀ xs, v = .arr xs → ∀ x ∈ xs, ∀ ref t e, clean t → Room e → Outcome (reads x) B e (f x ref t e)) :
    Outcome (fun x => ∃ xs vs, v = .arr xs ∧ x = .list vs ∧ SizeWithin lo hi xs.length ∧
      Forall₂ reads xs vs) B e (parseArray f lo hi v ref t e) := by
  cases v with
  | arr xs =>
    have h1 : ∀ m, lo = some m → (lo.any (fun m => (xs.length : Int) < m) = true ↔ (xs.length : Int) < m) := by
      rintro m rfl; simp
    have h2 : ∀ m, hi = some m → (hi.any (fun m => m < (xs.length : Int)) = true ↔ m < (xs.length : Int)) := by
      rintro m rfl; simp
    unfold parseArray
    simp only
    split
    · next h =>
      refine .add hr ?_
      rintro y ⟨xs', vs, hx, rfl, hs, _⟩
      cases hx
      cases lo with
      | none => cases h
      | some m =>
        have := (h1 m rfl).1 h
        have := hs.1 m rfl
        omega
    · next hlo =>
      split
      · next h =>
        refine .add hr ?_
        rintro y ⟨xs', vs, hx, rfl, hs, _⟩
        cases hx
        cases hi with
        | none => cases h
        | some m =>
          have := (h2 m rfl).1 h
          have := hs.2 m rfl
          omega
      · next hhi =>
        have hs : SizeWithin lo hi xs.length := by
          constructor
          · intro m hm
            have := mt (h1 m hm).2 hlo
            omega
          · intro m hm
            have := mt (h2 m hm).2 hhi
            omega
        have hitems : ∀ x ∈ itemsOf t, clean x := by
          cases t with
          | list vs => exact ht vs rfl
          | _ => intro x hx; cases hx
        show Outcome _ B e (parseItems f ref 0 xs (resize xs.length (itemsOf t)) e >>= fun p => .ok (Val.list p.1, p.2))
        refine (outcome_items f reads clean ref xs (hf xs rfl) 0 _ e (resize_length _ _)
          (resize_clean hz _ _ hitems) hr).map Val.list ?_ ?_
        · intro vs h
          exact ⟨xs, vs, rfl, rfl, hs, h⟩
        · rintro y ⟨xs', vs, hx, rfl, _, h⟩
          cases hx
          exact ⟨vs, h, rfl⟩
  | _ => exact .add hr (by rintro x ⟨c, _, hc, _⟩; cases hc)

/-! ## Maps -/

/-- Two ascending maps one after another -/
theorem put_last {α : Type} {m : GoMap α} {k : Str} (x : α) (h : ∀ a ∈ m, a.1 < k) :
    GoMap.put k x m = m ++ [(k, x)] := by
  induction m with
  | nil => rfl
  | cons a m ih =>
    obtain ⟨k', x'⟩ := a
    have hk : k' < k := h (k', x') List.mem_cons_self
    unfold GoMap.put
    rw [if_neg (by rintro rfl; exact strLt_irrefl _ hk), if_neg (strLt_asymm hk),
      ih fun a ha => h a (List.mem_cons_of_mem _ ha)]
    rfl

theorem lookup_none_of_lt {α : Type} {m : GoMap α} {k : Str} (h : ∀ a ∈ m, a.1 < k) : m.lookup k = none := by
  induction m with
  | nil => rfl
  | cons a m ih =>
    rw [GoMap.lookup_step, if_neg, ih fun a ha => h a (List.mem_cons_of_mem _ ha)]
    rintro rfl
    exact strLt_irrefl _ (h a List.mem_cons_self)

theorem outcome_entries (f : ParseFn) (reads : JVal → Val → Prop) (ref : Str) (kvs : GoMap JVal)
    (ha : GoMap.Ascending kvs)
    (hf : ∀ kv ∈ kvs, ∀ ref e, Room e → Outcome (reads kv.2) B e (f kv.2 ref .zero e)) :
    ∀ (m : GoMap Val) e, Room e → (∀ a ∈ m, ∀ kv ∈ kvs, a.1 < kv.1) →
      Outcome (fun r => ∃ ws, r = m ++ ws ∧
        Forall₂ (fun (kv : Str × JVal) (w : Str × Val) => kv.1 = w.1 ∧ reads kv.2 w.2) kvs ws) B e
      (parseEntries f ref kvs m e) := by
  induction kvs with
  | nil =>
    intro m e _ _
    refine .value ⟨[], by simp, .nil⟩ ?_
    rintro y ⟨ws, rfl, h⟩
    cases h; simp
  | cons kv kvs ih =>
    obtain ⟨k, x⟩ := kv
    intro m e hr hm
    have ha' := List.pairwise_cons.1 ha
    have ih := ih ha'.2 fun kv h => hf kv (List.mem_cons_of_mem _ h)
    have hlt : ∀ a ∈ m, a.1 < k := fun a h => hm a h (k, x) List.mem_cons_self
    have hzero : entryOf k m = .zero := by unfold entryOf; rw [lookup_none_of_lt hlt]; rfl
    have hx := hf (k, x) List.mem_cons_self (sub ref k) e hr
    have hm' : ∀ t : Val, ∀ a ∈ m ++ [(k, t)], ∀ kv ∈ kvs, a.1 < kv.1 := by
      intro t a h kv hkv
      rcases List.mem_append.1 h with h | h
      · exact hm a h kv (List.mem_cons_of_mem _ hkv)
      · rw [List.mem_singleton.1 h]; exact ha'.1 kv hkv
    unfold parseEntries
    rw [hzero]
    have key : ∀ t e', (let m' := GoMap.put k t m
        if e'.full then (.ok (m', e') : Except Exc (GoMap Val × CppErrors)) else parseEntries f ref kvs m' e') =
        if e'.full then .ok (m ++ [(k, t)], e') else parseEntries f ref kvs (m ++ [(k, t)]) e' := by
      intro t e'
      simp only
      rw [put_last t hlt]
    have heq : (f x (sub ref k) .zero e >>= fun p => (let m' := GoMap.put k p.1 m
        if p.2.full then (.ok (m', p.2) : Except Exc (GoMap Val × CppErrors)) else parseEntries f ref kvs m' p.2)) =
        (f x (sub ref k) .zero e >>= fun p =>
          if p.2.full then .ok (m ++ [(k, p.1)], p.2) else parseEntries f ref kvs (m ++ [(k, p.1)]) p.2) := by
      congr 1
      funext p
      exact key p.1 p.2
    show Outcome _ B e (f x (sub ref k) .zero e >>= fun p => (let m' := GoMap.put k p.1 m
        if p.2.full then (.ok (m', p.2) : Except Exc (GoMap Val × CppErrors)) else parseEntries f ref kvs m' p.2))
    rw [heq]
    refine Outcome.step (fun t => m ++ [(k, t)]) (fun t e => parseEntries f ref kvs (m ++ [(k, t)]) e) hx hr ?_ ?_ ?_
    · intro y _ hy hu
      refine (ih _ e hr (hm' y)).congr fun r => ?_
      constructor
      · rintro ⟨ws, rfl, h⟩
        exact ⟨(k, y) :: ws, by simp, .cons ⟨rfl, hy⟩ h⟩
      · rintro ⟨ws, rfl, h⟩
        cases h with
        | @cons _ w _ ws h1 h2 =>
          obtain ⟨k', y'⟩ := w
          obtain ⟨h3, h4⟩ := h1
          simp only at h3 h4
          subst h3
          rw [hu _ h4]
          exact ⟨ws, by simp, h2⟩
    · intro y e' _ he'
      exact ⟨_, ih _ e' he' (hm' y)⟩
    · rintro z ⟨ws, rfl, h⟩
      cases h with
      | cons h1 _ => exact ⟨_, h1.2⟩

theorem outcome_map (f : ParseFn) (reads : JVal → Val → Prop) {v : JVal} (hc : Canon v) (ref : Str) (t : Val)
    (ht : ∀ kvs, t = .map kvs → kvs = []) (hr : Room e)
    (hf : ∀ kvs, v = .obj kvs → ∀ kv ∈ kvs, ∀ ref e, Room e → Outcome (reads kv.2) B e (f kv.2 ref .zero e)) :
    Outcome (fun x => ∃ kvs ws, v = .obj kvs ∧ x = .map ws ∧
      Forall₂ (fun (kv : Str × JVal) (w : Str × Val) => kv.1 = w.1 ∧ reads kv.2 w.2) kvs ws) B e
      (parseMap f v ref t e) := by
  cases hc with
  | obj kvs ha _ =>
    have hentries : entriesOf t = [] := by
      cases t with
      | map kvs => exact ht kvs rfl
      | _ => rfl
    show Outcome _ B e (parseEntries f ref kvs (entriesOf t) e >>= fun p => .ok (Val.map p.1, p.2))
    rw [hentries]
    refine (outcome_entries f reads ref kvs ha (hf kvs rfl) [] e hr (fun a h => by cases h)).map Val.map ?_ ?_
    · rintro r ⟨ws, hw, h⟩
      exact ⟨kvs, ws, rfl, congrArg Val.map hw, h⟩
    · rintro y ⟨kvs', ws, hx, rfl, h⟩
      cases hx
      exact ⟨ws, ⟨ws, rfl, h⟩, rfl⟩
  | _ => exact .add hr (by rintro x ⟨c, _, hc, _⟩; cases hc)

/-! ## Depth -/

theorem depth_mono {n m : Nat} {v : JVal} (h : DepthLe n v) : n ≤ m → DepthLe m v := by
  intro hnm
  induction h generalizing m with
  | null => exact .null _
  | bool => exact .bool ..
  | int => exact .int ..
  | uint => exact .uint ..
  | real => exact .real ..
  | str => exact .str ..
  | arr n xs _ ih => exact .arr _ _ fun x hx => ih x hx hnm
  | obj n kvs _ ih =>
    cases m with
    | zero => omega
    | succ m => exact .obj _ _ fun kv hkv => ih kv hkv (by omega)

theorem bad_item {L : Lib} {n : Nat} {xs : List JVal} {v : JVal} (hv : v ∈ xs) {x : Exc} (h : Bad L n v x) :
    Bad L n (.arr xs) x := by
  rcases h with ⟨h1, s, h2, h3⟩ | ⟨h1, h2⟩
  · exact .inl ⟨h1, s, .item hv h2, h3⟩
  · refine .inr ⟨h1, fun m hm hd => ?_⟩
    cases hd with
    | arr _ _ h => exact h2 m hm (h v hv)

/-- The values of an object: one level deeper -/
theorem bad_entry {L : Lib} {n : Nat} {kvs : List (Str × JVal)} {kv : Str × JVal} (hv : kv ∈ kvs) {x : Exc}
    (h : Bad L n kv.2 x) : Bad L (n + 1) (.obj kvs) x := by
  rcases h with ⟨h1, s, h2, h3⟩ | ⟨h1, h2⟩
  · exact .inl ⟨h1, s, .entry hv h2, h3⟩
  · refine .inr ⟨h1, fun m hm hd => ?_⟩
    cases hd with
    | obj m _ h => exact h2 m (by omega) (h kv hv)

theorem bad_le {L : Lib} {n m : Nat} {v : JVal} {x : Exc} (hnm : n ≤ m) (h : Bad L m v x) : Bad L n v x := by
  rcases h with h | ⟨h1, h2⟩
  · exact .inl h
  · exact .inr ⟨h1, fun k hk => h2 k (by omega)⟩

/-! ## Types -/

section

variable (E : Env) (g : Graph) (ids : Str → Str → Prop)

theorem clean_zero {cleanE : Str → Val → Prop} (hz : ∀ name, cleanE name .zero) (ty : Ty) :
    CleanTy cleanE ty .zero := by
  cases ty with
  | array t lo hi => intro vs h; cases h
  | map t => intro vs h; cases h
  | embed name => exact hz name
  | _ => trivial

theorem clean_other {cleanE : Str → Val → Prop} {ty : Ty} (h : needsEmplace ty = false) (t : Val) :
    CleanTy cleanE ty t := by
  cases ty with
  | array t lo hi => cases h
  | map t => cases h
  | embed name => cases h
  | _ => trivial

theorem outcome_ty (hG : NoGarbage E.lib) (hk : ∀ c id, id ∈ E.ids c ↔ ids c id) (n : Nat)
    (parseE : Str → ParseFn) (readsE : Str → JVal → Val → Prop) (cleanE : Str → Val → Prop)
    (hz : ∀ name, cleanE name .zero)
    (hE : ∀ name v, (∃ emb, g.embed? name = some emb) → Canon v → ∀ ref t e, cleanE name t → Room e →
      Outcome (readsE name v) (Bad E.lib n v) e (parseE name v ref t e)) :
    ∀ (ty : Ty), SoundTy g ty → ∀ v, Canon v → ∀ ref t e, CleanTy cleanE ty t → Room e →
      Outcome (ReadsTy E.dateLib E.lib (Loose E.dateLib E.lib) ids readsE ty v) (Bad E.lib n v) e
        (parseTy E parseE ty v ref t e) := by
  intro ty
  induction ty with
  | boolean => intro _ v _ ref t e _ hr; exact outcome_boolean _ _ _ _ _ v ref t hr
  | integer b => intro _ v hc ref t e _ hr; exact outcome_integer _ _ _ _ _ b hc ref t hr
  | float b => intro hs v _ ref t e _ hr; exact outcome_float _ _ _ _ _ b hs v ref t hr
  | string p => intro _ v _ ref t e _ hr; exact outcome_text _ p v ref t hr
  | path p => intro _ v _ ref t e _ hr; exact outcome_text _ p v ref t hr
  | date f => intro _ v _ ref t e _ hr; exact outcome_time _ _ .date f v ref t hr
  | time f => intro _ v _ ref t e _ hr; exact outcome_time _ _ .time f v ref t hr
  | datetime f => intro _ v _ ref t e _ hr; exact outcome_time _ _ .datetime f v ref t hr
  | timeZone => intro _ v _ ref t e _ hr; exact outcome_zone _ _ _ _ _ v ref t hr
  | duration => intro _ v _ ref t e _ hr; exact outcome_duration _ _ _ _ _ hG n v ref t hr
  | array ty lo hi ih =>
    intro hs v hc ref t e hf hr
    refine outcome_array _ _ (CleanTy cleanE ty) (clean_zero hz ty) lo hi v ref t hf hr ?_
    rintro xs rfl x hx ref t e ht hr
    cases hc with
    | arr _ hc => exact (ih hs x (hc x hx) ref t e ht hr).mono fun _ h => bad_item hx h
  | map ty ih =>
    intro hs v hc ref t e hf hr
    refine outcome_map _ _ hc ref t hf hr ?_
    rintro kvs rfl kv hkv ref e hr
    cases hc with
    | obj _ _ hc =>
      exact (ih hs kv.2 (hc kv hkv) ref .zero e (clean_zero hz ty) hr).mono
        fun _ h => bad_le (Nat.le_succ n) (bad_entry hkv h)
  | cls c => intro _ v _ ref t e _ hr; exact outcome_reference _ _ _ _ _ c _ (hk c) v ref t hr
  | embed name =>
    intro hs v hc ref t e hf hr
    exact hE name v hs hc ref t e hf hr

end

/-! ## Properties -/

/-- The fields of a new structure are clean. -/
theorem clean_zeroFields {clean : Ty → Val → Prop} (hz : ∀ ty, clean ty .zero) (ps : List Property) :
    CleanProps clean ps (zeroFields ps) := by
  induction ps with
  | nil => exact .nil
  | cons p ps ih =>
    refine .cons ⟨rfl, fun h => ?_, fun h => ?_⟩ ih
    · simp only [h, if_true]
    · simp only [h, Bool.false_eq_true, if_false]; exact hz p.ty

theorem lookup_middle {α : Type} {done rest : List (Str × α)} {k : Str} {x : α} (h : k ∉ done.map (·.1)) :
    (done ++ (k, x) :: rest).lookup k = some x := by
  induction done with
  | nil => rw [List.nil_append, GoMap.lookup_step, if_pos rfl]
  | cons a done ih =>
    rw [List.map_cons, List.mem_cons, not_or] at h
    rw [List.cons_append, GoMap.lookup_step, if_neg h.1, ih h.2]

theorem setField_middle {done rest : Fields} {k : Str} {x y : Val} (h : k ∉ done.map (·.1)) :
    setField k y (done ++ (k, x) :: rest) = done ++ (k, y) :: rest := by
  induction done with
  | nil => simp [setField]
  | cons a done ih =>
    rw [List.map_cons, List.mem_cons, not_or] at h
    obtain ⟨k', x'⟩ := a
    rw [List.cons_append, setField, if_neg (Ne.symm h.1), ih h.2]
    rfl

theorem outcome_property (parse : Ty → ParseFn) (reads : Ty → JVal → Val → Prop) (kvs : List (Str × JVal))
    (ref : Str) (p : Property) (hlow : Mapry.lower p.name = p.name) (done rest : Fields) (t : Val)
    (clean : Ty → Val → Prop) (hz : ∀ ty, clean ty .zero) (hother : ∀ ty t, needsEmplace ty = false → clean ty t)
    (ht : (p.optional = true → t = .nil) ∧ (p.optional = false → clean p.ty t))
    (hn : p.name ∉ done.map (·.1)) (hr : Room e)
    (hf : ∀ v, kvs.lookup p.json = some v → ∀ ref t e, clean p.ty t → Room e →
      Outcome (reads p.ty v) B e (parse p.ty v ref t e)) :
    ∃ r : Except Exc (Val × CppErrors), Outcome (ReadsProperty reads kvs p) B e r ∧
      parseProperty parse kvs ref p (done ++ (p.name, t) :: rest) e =
        r >>= fun q => .ok (done ++ (p.name, q.1) :: rest, q.2) := by
  unfold parseProperty
  have hfield : asField p.name = p.name := hlow
  cases hl : kvs.lookup p.json with
  | none =>
    simp only
    by_cases ho : p.optional = true
    · refine ⟨.ok (.nil, e), .value (by unfold ReadsProperty; rw [hl]; exact ⟨ho, rfl⟩) ?_, ?_⟩
      · intro y hy
        unfold ReadsProperty at hy
        rw [hl] at hy
        exact hy.2
      · rw [if_pos ho, ht.1 ho]
        rfl
    · refine ⟨.ok (t, e.add ⟨ref, c!"Property is missing: " ++ p.json⟩), .add hr ?_, ?_⟩
      · intro y hy
        unfold ReadsProperty at hy
        rw [hl] at hy
        exact ho hy.1
      · rw [if_neg ho]
        rfl
  | some v =>
    simp only
    rw [hfield, lookup_middle hn]
    have hfresh : clean p.ty (if (p.optional && needsEmplace p.ty) = true then .zero else (some t).getD .zero) := by
      cases hn : needsEmplace p.ty with
      | false => exact hother _ _ hn
      | true =>
        cases ho : p.optional with
        | true => exact hz _
        | false => exact ht.2 ho
    refine ⟨_, (hf v hl (sub ref p.json) _ e hfresh hr).congr ?_, ?_⟩
    · intro x
      unfold ReadsProperty
      rw [hl]
    · congr 1
      funext q
      show Except.ok (setField p.name q.1 _, q.2) = _
      rw [setField_middle hn]

theorem outcome_props (parse : Ty → ParseFn) (reads : Ty → JVal → Val → Prop) (kvs : List (Str × JVal))
    (ref : Str) (ps : List Property) (hok : FieldsOk ps) (clean : Ty → Val → Prop) (hz : ∀ ty, clean ty .zero)
    (hother : ∀ ty t, needsEmplace ty = false → clean ty t)
    (hf : ∀ p ∈ ps, ∀ v, kvs.lookup p.json = some v → ∀ ref t e, clean p.ty t → Room e →
      Outcome (reads p.ty v) B e (parse p.ty v ref t e)) :
    ∀ (done target : Fields) e, CleanProps clean ps target → Room e →
      (∀ f ∈ done.map (·.1), f ∉ ps.map (·.name)) →
      Outcome (fun r => ∃ fs, r = done ++ fs ∧ ReadsProps reads kvs ps fs) B e
        (parseProps parse kvs ref ps (done ++ target) e) := by
  induction ps with
  | nil =>
    intro done target e hcl _ _
    cases hcl
    refine .value ⟨[], rfl, .nil⟩ ?_
    rintro y ⟨fs, rfl, h⟩
    cases h; rfl
  | cons p ps ih =>
    intro done target e hcl hr hd
    cases hcl with
    | @cons _ f0 _ target hc1 hcl =>
    obtain ⟨k0, t0⟩ := f0
    obtain ⟨hk0, hc1⟩ := hc1
    simp only at hk0 hc1
    subst hk0
    have hnd := List.nodup_cons.1 (show (p.name :: ps.map (·.name)).Nodup from hok.nodup)
    have ih := ih ⟨fun q hq => hok.lower q (List.mem_cons_of_mem _ hq), hnd.2⟩
      fun q hq => hf q (List.mem_cons_of_mem _ hq)
    have hn : p.name ∉ done.map (·.1) := fun h => hd _ h List.mem_cons_self
    obtain ⟨r, ho, heq⟩ := outcome_property (e := e) parse reads kvs ref p (hok.lower p List.mem_cons_self) done
      target t0 clean hz hother hc1 hn hr (hf p List.mem_cons_self)
    have hd' : ∀ x : Val, ∀ f ∈ (done ++ [(p.name, x)]).map (·.1), f ∉ ps.map (·.name) := by
      intro x f h
      rw [List.map_append, List.mem_append] at h
      rcases h with h | h
      · exact fun h' => hd f h (List.mem_cons_of_mem _ h')
      · rw [List.map_singleton, List.mem_singleton] at h
        rw [h]; exact hnd.1
    unfold parseProps
    rw [heq]
    have hstep : ((r >>= fun q => (.ok (done ++ (p.name, q.1) :: target, q.2) : Except Exc (Fields × CppErrors)))
        >>= fun q => if q.2.full then .ok (q.1, q.2) else parseProps parse kvs ref ps q.1 q.2) =
        (r >>= fun q => if q.2.full then .ok (done ++ (p.name, q.1) :: target, q.2)
          else parseProps parse kvs ref ps ((done ++ [(p.name, q.1)]) ++ target) q.2) := by
      cases r with
      | error x => rfl
      | ok q =>
        show (if q.2.full then _ else parseProps parse kvs ref ps (done ++ (p.name, q.1) :: target) q.2) =
          (if q.2.full then _ else parseProps parse kvs ref ps ((done ++ [(p.name, q.1)]) ++ target) q.2)
        rw [List.append_assoc]
        rfl
    refine Eq.mpr (congrArg (Outcome _ B e) hstep) ?_
    refine Outcome.step (fun x => done ++ (p.name, x) :: target)
      (fun x e => parseProps parse kvs ref ps ((done ++ [(p.name, x)]) ++ target) e) ho hr ?_ ?_ ?_
    · intro y _ hy hu
      refine (ih (done ++ [(p.name, y)]) target e hcl hr (hd' y)).congr fun fs => ?_
      constructor
      · rintro ⟨fs', rfl, h⟩
        exact ⟨(p.name, y) :: fs', by simp, .cons ⟨rfl, hy⟩ h⟩
      · rintro ⟨fs', rfl, h⟩
        cases h with
        | @cons _ f _ fs' h1 h2 =>
          obtain ⟨k, x⟩ := f
          obtain ⟨h3, h4⟩ := h1
          simp only at h3 h4
          subst h3
          rw [hu _ h4]
          exact ⟨fs', by simp, h2⟩
    · intro y e' _ he'
      exact ⟨_, ih _ target e' hcl he' (hd' y)⟩
    · rintro z ⟨fs, rfl, h⟩
      cases h with
      | cons h1 _ => exact ⟨_, h1.2⟩

theorem outcome_composite (parse : Ty → ParseFn) (reads : Ty → JVal → Val → Prop) (ref : Str) (ps : List Property)
    (hok : FieldsOk ps) (clean : Ty → Val → Prop) (hz : ∀ ty, clean ty .zero)
    (hother : ∀ ty t, needsEmplace ty = false → clean ty t) (target : Fields) (hcl : CleanProps clean ps target)
    (v : JVal) (hr : Room e)
    (hf : ∀ kvs, v = .obj kvs → ∀ p ∈ ps, ∀ v, kvs.lookup p.json = some v → ∀ ref t e, clean p.ty t → Room e →
      Outcome (reads p.ty v) B e (parse p.ty v ref t e)) :
    Outcome (fun fs => ∃ kvs, v = .obj kvs ∧ ReadsProps reads kvs ps fs) B e
      (parseComposite parse ps v ref target e) := by
  cases v with
  | obj kvs =>
    have := outcome_props (B := B) parse reads kvs ref ps hok clean hz hother (hf kvs rfl) [] target e hcl hr (fun f h => by cases h)
    refine Outcome.congr (fun fs => ?_) this
    constructor
    · rintro ⟨fs', rfl, h⟩; exact ⟨kvs, rfl, h⟩
    · rintro ⟨kvs', h, h'⟩
      cases h
      exact ⟨fs, rfl, h'⟩
  | _ => exact .add hr (by rintro x ⟨c, hc, _⟩; cases hc)

/-! ## Embeddable structures -/

theorem mem_of_lookup {α : Type} {l : List (Str × α)} {k : Str} {x : α} (h : l.lookup k = some x) : (k, x) ∈ l := by
  induction l with
  | nil => cases h
  | cons a l ih =>
    rw [GoMap.lookup_step] at h
    split at h
    · next hk => cases h; rw [hk]; exact List.mem_cons_self
    · exact List.mem_cons_of_mem _ (ih h)

theorem embed_mem {g : Graph} {name : Str} {emb : Embed} (h : g.embed? name = some emb) : emb ∈ g.embeds := by
  unfold Graph.embed? at h
  exact List.mem_of_find?_eq_some h

theorem cleanEmbed_zero (g : Graph) (n : Nat) (name : Str) : CleanEmbed g n name .zero := by
  cases n with
  | zero => trivial
  | succ n => intro e _ k fields h; cases h

theorem outcome_embed (E : Env) (ids : Str → Str → Prop) (hG : NoGarbage E.lib)
    (hk : ∀ c id, id ∈ E.ids c ↔ ids c id) (hs : SoundGraph E.graph) (hC : Compiles E.graph) :
    ∀ n name v, (∃ emb, E.graph.embed? name = some emb) → Canon v → ∀ ref t e, CleanEmbed E.graph n name t → Room e →
      Outcome (ReadsEmbed E.dateLib E.lib (Loose E.dateLib E.lib) E.graph ids n name v) (Bad E.lib n v) e
        (parseEmbed E n name v ref t e) := by
  intro n
  induction n with
  | zero =>
    intro name v _ _ ref t e _ _
    exact ⟨.inr ⟨rfl, fun m hm => absurd hm (Nat.not_lt_zero m)⟩, fun y h => h⟩
  | succ n ih =>
    rintro name v ⟨emb, hemb⟩ hc ref t e ht hr
    unfold parseEmbed
    rw [hemb]
    show Outcome _ _ e (parseComposite (parseTy E (parseEmbed E n)) emb.properties v ref
      (targetFields emb.properties t) e >>= fun p => .ok (Val.obj name p.1, p.2))
    refine Outcome.map (R := fun fs => ∃ kvs, v = .obj kvs ∧ ReadsProps (Reads E.dateLib E.lib
      (Loose E.dateLib E.lib) E.graph ids n) kvs emb.properties fs) (Val.obj name) ?_ ?_ ?_
    · rintro fs ⟨kvs, h1, h2⟩
      exact ⟨emb, kvs, fs, hemb, h1, rfl, h2⟩
    · rintro y ⟨emb', kvs, fs, h0, h1, rfl, h2⟩
      rw [hemb] at h0
      cases h0
      exact ⟨fs, ⟨kvs, h1, h2⟩, rfl⟩
    · refine outcome_composite _ _ ref _ (hC.embed emb (embed_mem hemb)) (Clean E.graph n)
        (clean_zero (cleanEmbed_zero E.graph n)) (fun ty t h => clean_other h t) _ ?_ v hr ?_
      · cases t with
        | obj k fields => exact ht emb hemb k fields rfl
        | _ => exact clean_zeroFields (clean_zero (cleanEmbed_zero E.graph n)) _
      rintro kvs rfl p hp w hl ref t e hf hr
      cases hc with
      | obj _ _ hc =>
        have hm := mem_of_lookup hl
        exact (outcome_ty E E.graph ids hG hk n (parseEmbed E n) _ _ (cleanEmbed_zero E.graph n) ih p.ty
          (hs.embed emb (embed_mem hemb) p hp) w (hc _ hm) ref t e hf hr).mono fun _ h => bad_entry hm h

/-- The values of the schema -/
theorem outcome_value (E : Env) (ids : Str → Str → Prop) (hG : NoGarbage E.lib)
    (hk : ∀ c id, id ∈ E.ids c ↔ ids c id) (hs : SoundGraph E.graph) (hC : Compiles E.graph) (n : Nat)
    (ty : Ty) (hty : SoundTy E.graph ty) (v : JVal) (hc : Canon v) (ref : Str) (t : Val) (e : CppErrors)
    (hf : Clean E.graph n ty t) (hr : Room e) :
    Outcome (Reads E.dateLib E.lib (Loose E.dateLib E.lib) E.graph ids n ty v) (Bad E.lib n v) e
      (parseTy E (parseEmbed E n) ty v ref t e) :=
  outcome_ty E E.graph ids hG hk n (parseEmbed E n) _ _ (cleanEmbed_zero E.graph n) (outcome_embed E ids hG hk hs hC n) ty hty v hc ref t e hf hr

end Mapry.CppRuntime
