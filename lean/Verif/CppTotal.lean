import Verif.CppGraph

/-!
# When the generated C++ parser throws

For every target and every container: the exceptions are those of the durations and of the stack. At the
level of the graph the container has to be able to hold an error.
-/

namespace Mapry.CppRuntime

open Mapry.Text Mapry.Duration Spec

/-- Only the given exceptions are thrown. -/
structure Throws {α : Type} (B : Exc → Prop) (r : Except Exc α) : Prop where
  only : ∀ x, r = .error x → B x

section

variable {α β : Type} {B : Exc → Prop}

theorem throws_ok (a : α) : Throws B (.ok a) := ⟨fun x h => by cases h⟩

theorem throws_bind {r : Except Exc α} {f : α → Except Exc β} (h : Throws B r) (hf : ∀ a, r = .ok a → Throws B (f a)) :
    Throws B (r >>= f) := by
  cases r with
  | error x => exact ⟨fun y hy => by cases hy; exact h.only x rfl⟩
  | ok a => exact hf a rfl

theorem throws_mono {B' : Exc → Prop} {r : Except Exc α} (h : Throws B r) (hB : ∀ x, B x → B' x) : Throws B' r :=
  ⟨fun x hx => hB x (h.only x hx)⟩

end

theorem throws_items {B : Exc → Prop} (f : ParseFn) (ref : Str) (xs : List JVal)
    (hf : ∀ x ∈ xs, ∀ ref t e, Throws B (f x ref t e)) :
    ∀ i ts e, Throws B (parseItems f ref i xs ts e) := by
  induction xs with
  | nil => intro i ts e; exact throws_ok _
  | cons x xs ih =>
    intro i ts e
    cases ts with
    | nil => exact throws_ok _
    | cons t ts =>
      unfold parseItems
      refine throws_bind (hf x List.mem_cons_self ..) fun p _ => ?_
      obtain ⟨t', e'⟩ := p
      show Throws B (if e'.full then _ else _)
      split
      · exact throws_ok _
      · exact throws_bind (ih (fun x hx => hf x (List.mem_cons_of_mem _ hx)) ..) fun q _ => throws_ok _

theorem throws_entries {B : Exc → Prop} (f : ParseFn) (ref : Str) (kvs : List (Str × JVal))
    (hf : ∀ kv ∈ kvs, ∀ ref t e, Throws B (f kv.2 ref t e)) :
    ∀ m e, Throws B (parseEntries f ref kvs m e) := by
  induction kvs with
  | nil => intro m e; exact throws_ok _
  | cons kv kvs ih =>
    obtain ⟨k, x⟩ := kv
    intro m e
    unfold parseEntries
    refine throws_bind (hf (k, x) List.mem_cons_self ..) fun p _ => ?_
    obtain ⟨t', e'⟩ := p
    show Throws B (if e'.full then _ else _)
    split
    · exact throws_ok _
    · exact ih (fun x hx => hf x (List.mem_cons_of_mem _ hx)) ..

/-- The embeddable structures are defined. -/
def DefinedTy (g : Graph) : Ty → Prop
  | .array t _ _ => DefinedTy g t
  | .map t => DefinedTy g t
  | .embed name => ∃ e, g.embed? name = some e
  | _ => True

theorem throws_ty (E : Env) (n : Nat) (parseE : Str → ParseFn)
    (hE : ∀ name v, (∃ emb, E.graph.embed? name = some emb) → ∀ ref t e,
      Throws (Bad E.lib n v) (parseE name v ref t e)) :
    ∀ (ty : Ty), DefinedTy E.graph ty → ∀ v ref t e, Throws (Bad E.lib n v) (parseTy E parseE ty v ref t e) := by
  intro ty
  induction ty with
  | boolean => intro _ v ref t e; cases v <;> exact throws_ok _
  | integer b =>
    intro _ v ref t e
    show Throws _ (parseInteger b v ref t e)
    unfold parseInteger
    split <;> exact throws_ok _
  | float b =>
    intro _ v ref t e
    show Throws _ (parseFloat E.lib b v ref t e)
    unfold parseFloat
    split <;> exact throws_ok _
  | string p | path p =>
    intro _ v ref t e
    show Throws _ (parseString E.lib p v ref t e)
    unfold parseString
    split
    · split
      · exact throws_ok _
      · split <;> exact throws_ok _
    · exact throws_ok _
  | date f =>
    intro _ v ref t e
    show Throws _ (parseTime E.dateLib E.lib .date f v ref t e)
    unfold parseTime
    split
    · split <;> exact throws_ok _
    · exact throws_ok _
  | time f =>
    intro _ v ref t e
    show Throws _ (parseTime E.dateLib E.lib .time f v ref t e)
    unfold parseTime
    split
    · split <;> exact throws_ok _
    · exact throws_ok _
  | datetime f =>
    intro _ v ref t e
    show Throws _ (parseTime E.dateLib E.lib .datetime f v ref t e)
    unfold parseTime
    split
    · split <;> exact throws_ok _
    · exact throws_ok _
  | timeZone =>
    intro _ v ref t e
    show Throws _ (parseTimeZone E.dateLib E.lib v ref t e)
    unfold parseTimeZone
    split
    · split <;> exact throws_ok _
    · exact throws_ok _
  | duration =>
    intro _ v ref t e
    show Throws _ (parseDuration E.lib v ref t e)
    unfold parseDuration
    split
    · next s =>
      cases h : cppFromString (E.lib.garbage s) s with
      | throws =>
        refine ⟨fun x hx => ?_⟩
        cases hx
        exact .inl ⟨rfl, s, .here, h⟩
      | _ => exact throws_ok _
    · exact throws_ok _
  | array ty lo hi ih =>
    intro hd v ref t e
    show Throws _ (parseArray _ lo hi v ref t e)
    unfold parseArray
    split
    · next xs =>
      simp only
      split
      · exact throws_ok _
      · split
        · exact throws_ok _
        · refine throws_bind (throws_items _ ref xs (fun x hx ref t e => ?_) ..) fun p _ => throws_ok _
          exact throws_mono (ih hd x ref t e) fun y hy => bad_item hx hy
    · exact throws_ok _
  | map ty ih =>
    intro hd v ref t e
    show Throws _ (parseMap _ v ref t e)
    unfold parseMap
    split
    · next kvs =>
      refine throws_bind (throws_entries _ ref kvs (fun kv hkv ref t e => ?_) ..) fun p _ => throws_ok _
      exact throws_mono (ih hd kv.2 ref t e) fun y hy => bad_le (Nat.le_succ n) (bad_entry hkv hy)
    · exact throws_ok _
  | cls c =>
    intro _ v ref t e
    show Throws _ (parseReference c _ v ref t e)
    unfold parseReference
    split
    · split <;> exact throws_ok _
    · exact throws_ok _
  | embed name =>
    intro hd v ref t e
    exact hE name v hd ref t e

theorem throws_props {B : Exc → Prop} (parse : Ty → ParseFn) (kvs : List (Str × JVal)) (ref : Str) (ps : List Property)
    (hf : ∀ p ∈ ps, ∀ v, kvs.lookup p.json = some v → ∀ ref t e, Throws B (parse p.ty v ref t e)) :
    ∀ fields e, Throws B (parseProps parse kvs ref ps fields e) := by
  induction ps with
  | nil => intro fields e; exact throws_ok _
  | cons p ps ih =>
    intro fields e
    unfold parseProps
    refine throws_bind ?_ fun q _ => ?_
    · unfold parseProperty
      cases hl : kvs.lookup p.json with
      | none => simp only; split <;> exact throws_ok _
      | some v =>
        exact throws_bind (hf p List.mem_cons_self v hl ..) fun q _ => throws_ok _
    · obtain ⟨fs, e'⟩ := q
      show Throws B (if e'.full then _ else _)
      split
      · exact throws_ok _
      · exact ih (fun p hp => hf p (List.mem_cons_of_mem _ hp)) ..

theorem throws_composite {B : Exc → Prop} (parse : Ty → ParseFn) (ps : List Property) (v : JVal)
    (hf : ∀ kvs, v = .obj kvs → ∀ p ∈ ps, ∀ v, kvs.lookup p.json = some v → ∀ ref t e, Throws B (parse p.ty v ref t e))
    (ref : Str) (fields : Fields) (e : CppErrors) : Throws B (parseComposite parse ps v ref fields e) := by
  unfold parseComposite
  split
  · exact throws_props parse _ ref ps (hf _ rfl) ..
  · exact throws_ok _

/-- The embeddable structures used in the schema are defined. -/
structure DefinedGraph (g : Graph) : Prop where
  graph : ∀ p ∈ g.properties, DefinedTy g p.ty
  cls : ∀ c ∈ g.classes, ∀ p ∈ c.properties, DefinedTy g p.ty
  embed : ∀ e ∈ g.embeds, ∀ p ∈ e.properties, DefinedTy g p.ty

theorem definedTy_of_sound {g : Graph} : ∀ ty, SoundTy g ty → DefinedTy g ty
  | .array t _ _, h => definedTy_of_sound t h
  | .map t, h => definedTy_of_sound t h
  | .embed _, h => h
  | .boolean, _ | .integer _, _ | .float _, _ | .string _, _ | .path _, _ | .date _, _ | .time _, _ | .datetime _, _
  | .timeZone, _ | .duration, _ | .cls _, _ => trivial

theorem SoundGraph.defined {g : Graph} (h : SoundGraph g) : DefinedGraph g :=
  ⟨fun p hp => definedTy_of_sound _ (h.graph p hp), fun c hc p hp => definedTy_of_sound _ (h.cls c hc p hp),
    fun e he p hp => definedTy_of_sound _ (h.embed e he p hp)⟩

theorem throws_embed (E : Env) (hd : DefinedGraph E.graph) :
    ∀ n name v, (∃ emb, E.graph.embed? name = some emb) → ∀ ref t e,
      Throws (Bad E.lib n v) (parseEmbed E n name v ref t e) := by
  intro n
  induction n with
  | zero =>
    intro name v _ ref t e
    refine ⟨fun x hx => ?_⟩
    cases hx
    exact .inr ⟨rfl, fun m hm => absurd hm (Nat.not_lt_zero m)⟩
  | succ n ih =>
    rintro name v ⟨emb, hemb⟩ ref t e
    unfold parseEmbed
    rw [hemb]
    refine throws_bind (throws_composite _ _ v ?_ ..) fun q _ => throws_ok _
    rintro kvs rfl p hp w hl ref t e
    have hm := mem_of_lookup hl
    exact throws_mono (throws_ty E n (parseEmbed E n) ih p.ty (hd.embed emb (embed_mem hemb) p hp) w ref t e)
      fun x hx => bad_entry hm hx

/-! ## Registries -/

theorem registryIn_set (c d : Str) (m : GoMap Instance) (regs : List (Str × GoMap Instance)) :
    registryIn (setRegistry c m regs) d = if d = c then m else registryIn regs d := by
  unfold registryIn
  induction regs with
  | nil =>
    simp only [setRegistry, GoMap.lookup_step]
    split <;> rfl
  | cons a regs ih =>
    obtain ⟨k, x⟩ := a
    simp only [setRegistry]
    split
    · next h =>
      subst h
      simp only [GoMap.lookup_step]
      split <;> rfl
    · next h =>
      simp only [GoMap.lookup_step]
      by_cases hd : d = k
      · subst hd
        rw [if_pos rfl, if_pos rfl, if_neg h]
      · rw [if_neg hd, if_neg hd, ih]

/-- The instance is there. -/
def Has (m : GoMap Instance) (id : Str) : Prop := ∃ i, m.lookup id = some i

theorem has_put {m : GoMap Instance} {k id : Str} (x : Instance) (h : Has m id) : Has (GoMap.put k x m) id := by
  obtain ⟨i, hi⟩ := h
  unfold Has
  rw [GoMap.lookup_put]
  split
  · exact ⟨x, rfl⟩
  · exact ⟨i, hi⟩

theorem preallocIds_has (L : Lib) (c : Class) (ref : Str) (ids : List Str) :
    ∀ reg e id, Has reg id → Has (preallocIds L c ref ids reg e).1 id := by
  induction ids with
  | nil => intro reg e id h; exact h
  | cons i ids ih =>
    intro reg e id h
    unfold preallocIds
    split
    · exact ih _ _ _ (has_put _ h)
    · simp only
      split
      · exact h
      · exact ih _ _ _ h

/-- No error, and the container could hold one. -/
structure Clean (e : CppErrors) : Prop where
  cap : 0 < e.cap
  values : e.values = []

theorem clean_of_keeps {e e' : CppErrors} (hc : 0 < e.cap) (h : Keeps e e') (h' : e'.values = []) : Clean e := by
  refine ⟨hc, ?_⟩
  have := h.le
  rw [h'] at this
  exact List.length_eq_zero_iff.1 (by simpa using this)

theorem not_clean_add {e e' : CppErrors} {x : Err} (hc : 0 < e.cap) (h : Keeps (e.add x) e') (h' : e'.values = []) : False := by
  have h1 := h.le
  rw [h'] at h1
  have h2 : (e.add x).values = [] := List.length_eq_zero_iff.1 (by simpa using h1)
  unfold CppErrors.add at h2
  split at h2
  · simp at h2
  · next hn =>
    rw [h2] at hn
    exact hn hc

theorem preallocIds_all (L : Lib) (c : Class) (ref : Str) (ids : List Str) :
    ∀ reg e, 0 < e.cap → (preallocIds L c ref ids reg e).2.values = [] →
      ∀ id ∈ ids, Has (preallocIds L c ref ids reg e).1 id := by
  induction ids with
  | nil => intro reg e _ _ id h; cases h
  | cons i ids ih =>
    intro reg e hc hv id hid
    unfold preallocIds at hv ⊢
    by_cases hok : idOk L c i = true
    · rw [if_pos hok] at hv ⊢
      rcases List.mem_cons.1 hid with rfl | hid
      · refine preallocIds_has L c ref ids _ _ _ ?_
        unfold Has
        rw [GoMap.lookup_put, if_pos rfl]
        exact ⟨_, rfl⟩
      · exact ih _ _ hc hv id hid
    · rw [if_neg hok] at hv
      simp only at hv
      exfalso
      split at hv
      · exact not_clean_add hc (.refl _) hv
      · exact not_clean_add hc (preallocIds_keeps ..) hv

/-- What the loops over the registries need: every instance in the JSON object has been allocated. -/
def Ready (kvs : List (Str × JVal)) (regs : List (Str × GoMap Instance)) (c : Class) : Prop :=
  ∀ v, registryOf kvs c = some v → ∃ entries, v = .obj entries ∧
    ∀ kv ∈ entries, Has (registryIn regs c.name) kv.1

theorem prealloc_has (L : Lib) (kvs : List (Str × JVal)) (ref : Str) (c : Class) (regs : List (Str × GoMap Instance))
    (e : CppErrors) (d id : Str) (h : Has (registryIn regs d) id) :
    Has (registryIn (prealloc L kvs ref c regs e).1 d) id := by
  unfold prealloc
  split
  · exact h
  · simp only
    rw [registryIn_set]
    split
    · next hd => subst hd; exact preallocIds_has _ _ _ _ _ _ _ h
    · exact h
  · exact h

theorem preallocAll_has (L : Lib) (kvs : List (Str × JVal)) (ref : Str) (cs : List Class) :
    ∀ regs e d id, Has (registryIn regs d) id → Has (registryIn (preallocAll L kvs ref cs regs e).1 d) id := by
  induction cs with
  | nil => intro regs e d id h; exact h
  | cons c cs ih => intro regs e d id h; exact ih _ _ _ _ (prealloc_has _ _ _ _ _ _ _ _ h)

theorem preallocAll_ready (L : Lib) (kvs : List (Str × JVal)) (ref : Str) (cs : List Class) :
    ∀ regs e, 0 < e.cap → (preallocAll L kvs ref cs regs e).2.values = [] →
      ∀ c ∈ cs, Ready kvs (preallocAll L kvs ref cs regs e).1 c := by
  induction cs with
  | nil => intro regs e _ _ c h; cases h
  | cons c cs ih =>
    intro regs e hc hv d hd
    unfold preallocAll at hv ⊢
    simp only at hv ⊢
    have hk := prealloc_keeps L kvs ref c regs e
    have hcap : 0 < (prealloc L kvs ref c regs e).2.cap := by rw [hk.cap]; exact hc
    rcases List.mem_cons.1 hd with rfl | hd
    · have hclean := (clean_of_keeps hcap (preallocAll_keeps L kvs ref cs _ _) hv).values
      intro v hl
      have hl' : kvs.lookup (registryKey d) = some v := hl
      by_cases hobj : ∃ entries, v = .obj entries
      · obtain ⟨entries, rfl⟩ := hobj
        refine ⟨entries, rfl, fun kv hkv => preallocAll_has _ _ _ _ _ _ _ _ ?_⟩
        unfold prealloc at hclean ⊢
        rw [hl'] at hclean ⊢
        simp only at hclean ⊢
        rw [registryIn_set, if_pos rfl]
        exact preallocIds_all _ _ _ _ _ _ hc hclean _ (List.mem_map_of_mem hkv)
      · exfalso
        unfold prealloc at hclean
        rw [hl'] at hclean
        cases v <;> first | exact not_clean_add hc (.refl _) hclean | exact hobj ⟨_, rfl⟩
    · exact ih _ _ hcap hv d hd

theorem throws_instances {B : Exc → Prop} (parse : Ty → ParseFn) (c : Class) (ref : Str) (entries : List (Str × JVal))
    (hf : ∀ kv ∈ entries, ∀ ref fields e, Throws B (parseComposite parse c.properties kv.2 ref fields e)) :
    ∀ reg e, (∀ kv ∈ entries, Has reg kv.1) → Throws B (parseInstances parse c ref entries reg e) := by
  induction entries with
  | nil => intro reg e _; exact throws_ok _
  | cons kv entries ih =>
    obtain ⟨id, v⟩ := kv
    intro reg e hh
    obtain ⟨i, hi⟩ := hh (id, v) List.mem_cons_self
    unfold parseInstances
    rw [hi]
    refine throws_bind (hf (id, v) List.mem_cons_self ..) fun q _ => ?_
    obtain ⟨fs, e'⟩ := q
    show Throws B (if e'.full then _ else _)
    split
    · exact throws_ok _
    · exact ih (fun kv h => hf kv (List.mem_cons_of_mem _ h)) _ _
        fun kv h => has_put _ (hh kv (List.mem_cons_of_mem _ h))

theorem instances_has (parse : Ty → ParseFn) (c : Class) (ref : Str) (entries : List (Str × JVal)) :
    ∀ reg e reg' e', parseInstances parse c ref entries reg e = .ok (reg', e') → ∀ id, Has reg id → Has reg' id := by
  induction entries with
  | nil => intro reg e reg' e' h id hid; cases h; exact hid
  | cons kv entries ih =>
    obtain ⟨i, v⟩ := kv
    intro reg e reg' e' h id hid
    unfold parseInstances at h
    split at h
    · cases h
    · next inst _ =>
      cases hp : parseComposite parse c.properties v (sub ref i) inst.fields e with
      | error x => rw [hp] at h; cases h
      | ok q =>
        obtain ⟨fs, e1⟩ := q
        rw [hp] at h
        have h : (if e1.full then (.ok (GoMap.put i ⟨inst.id, fs⟩ reg, e1) : Except Exc (GoMap Instance × CppErrors))
          else parseInstances parse c ref entries (GoMap.put i ⟨inst.id, fs⟩ reg) e1) = .ok (reg', e') := h
        split at h
        · cases h; exact has_put _ hid
        · exact ih _ _ _ _ h id (has_put _ hid)

theorem ready_set {kvs : List (Str × JVal)} {regs : List (Str × GoMap Instance)} {c d : Class} {m : GoMap Instance}
    (h : Ready kvs regs d) (hm : ∀ id, Has (registryIn regs c.name) id → Has m id) :
    Ready kvs (setRegistry c.name m regs) d := by
  intro v hl
  obtain ⟨entries, h1, h2⟩ := h v hl
  refine ⟨entries, h1, fun kv hkv => ?_⟩
  rw [registryIn_set]
  split
  · next hd => exact hm _ (by rw [← hd]; exact h2 kv hkv)
  · exact h2 kv hkv

theorem throws_registries {B : Exc → Prop} (parse : Ty → ParseFn) (kvs : List (Str × JVal)) (ref : Str) (cs : List Class)
    (hf : ∀ c ∈ cs, ∀ entries, registryOf kvs c = some (.obj entries) → ∀ kv ∈ entries, ∀ ref fields e,
      Throws B (parseComposite parse c.properties kv.2 ref fields e)) :
    ∀ regs e, (∀ c ∈ cs, Ready kvs regs c) → Throws B (parseRegistries parse kvs ref cs regs e) := by
  induction cs with
  | nil => intro regs e _; exact throws_ok _
  | cons c cs ih =>
    intro regs e hr
    have ih := ih fun c h => hf c (List.mem_cons_of_mem _ h)
    have hr' : ∀ d ∈ cs, Ready kvs regs d := fun d h => hr d (List.mem_cons_of_mem _ h)
    unfold parseRegistries
    cases hl : kvs.lookup (registryKey c) with
    | none =>
      simp only
      split
      · exact throws_ok _
      · exact ih regs e hr'
    | some v =>
      obtain ⟨entries, rfl, h2⟩ := hr c List.mem_cons_self v hl
      refine throws_bind (throws_instances parse c _ entries (hf c List.mem_cons_self entries hl) _ e h2) fun q hq => ?_
      obtain ⟨reg, e'⟩ := q
      show Throws B (if e'.full then _ else _)
      split
      · exact throws_ok _
      · exact ih _ e' fun d hd => ready_set (hr' d hd) (instances_has _ _ _ _ _ _ _ _ hq)

/-- The whole parser -/
theorem throws_graph (D : DateLib) (L : Lib) (g : Graph) (n : Nat) (hd : DefinedGraph g) (v : JVal) (ref : Str)
    (target : GraphVal) (cap : Nat) (hcap : 0 < cap) :
    Throws (Bad L n v) (parseGraph D L g n v ref target (.new cap)) := by
  unfold parseGraph
  split
  · next h => cases h
  · cases v with
    | obj kvs =>
      simp only
      split
      · exact throws_ok _
      · next h =>
        generalize hpre : preallocAll L kvs ref g.classes target.registries (.new cap) = pre at h
        have hready : ∀ c ∈ g.classes, Ready kvs pre.1 c := by
          cases hcs : g.classes with
          | nil => intro c h; cases h
          | cons a l =>
            rw [← hcs, ← hpre]
            refine preallocAll_ready L kvs ref g.classes target.registries (.new cap) hcap ?_
            rw [hpre]
            rw [hcs] at h
            simpa [CppErrors.empty] using h
        have hty : ∀ ty, DefinedTy g ty → ∀ w ref t e, Throws (Bad L n w)
            (parseTy (envOf D L g pre.1) (parseEmbed (envOf D L g pre.1) n) ty w ref t e) :=
          throws_ty (envOf D L g pre.1) n _ (throws_embed (envOf D L g pre.1) hd n)
        refine throws_bind (throws_registries _ kvs ref g.classes ?_ pre.1 pre.2 hready) fun q _ => ?_
        · intro c hc entries hl kv hkv ref fields e
          refine throws_composite _ _ _ ?_ ref fields e
          intro kvs' hkvs p hp w hlw ref t e
          have hm := mem_of_lookup hl
          have hm' := mem_of_lookup hlw
          refine throws_mono (hty p.ty (hd.cls c hc p hp) w ref t e) fun x hx => ?_
          have h1 : Bad L (n + 1) kv.2 x := by
            rw [hkvs]; exact bad_entry hm' hx
          exact bad_le (by omega) (bad_entry hm (bad_entry hkv h1))
        · obtain ⟨⟨r, b⟩, e⟩ := q
          show Throws _ (if b then _ else _)
          split
          · exact throws_ok _
          · refine throws_bind (throws_props _ kvs ref g.properties ?_ ..) fun f _ => throws_ok _
            intro p hp w hlw ref t e
            have hm := mem_of_lookup hlw
            exact throws_mono (hty p.ty (hd.graph p hp) w ref t e) fun x hx =>
              bad_le (Nat.le_succ n) (bad_entry hm hx)
    | _ => exact throws_ok _

end Mapry.CppRuntime
