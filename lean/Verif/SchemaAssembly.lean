import Verif.ParseLoops

/-!
# Parsing of a whole schema mapping
-/

namespace Mapry.ParseSchema

open Mapry.PyRuntime (Json sub)
open Mapry.SchemaSpec Mapry.Validation

theorem propertiesCheck_obj {v : Json} (h : propertiesCheck v = true) :
    ∃ o ps, v = .obj o ps ∧ ∀ kv ∈ ps, propertyCheck kv.2 = true := by
  obtain ⟨o, ps, rfl, _, h2⟩ := objectOf_obj h
  exact ⟨o, ps, rfl, fun kv hkv => h2 kv hkv⟩

theorem members_check {o : Bool} {kvs : Fields} (hc : graphCheck (.obj o kvs) = true) :
    (∀ x ∈ members (.obj o kvs) c!"classes", classCheck x = true) ∧
    (∀ x ∈ members (.obj o kvs) c!"embeds", embedCheck x = true) := by
  constructor
  · intro x hx
    rw [members, field] at hx
    cases hl : kvs.lookup c!"classes" with
    | none => rw [hl] at hx; cases hx
    | some v =>
      rw [hl] at hx
      obtain ⟨xs, rfl, h⟩ := isArray_arr (objectOf_field hc hl)
      exact h x hx
  · intro x hx
    rw [members, field] at hx
    cases hl : kvs.lookup c!"embeds" with
    | none => rw [hl] at hx; cases hx
    | some v =>
      rw [hl] at hx
      obtain ⟨xs, rfl, h⟩ := isArray_arr (objectOf_field hc hl)
      exact h x hx

/-- Every composite of an accepted schema is an object with a name and a description, and its properties have passed
the checks. -/
theorem composite_good {L : Lib} {mapping : Json} {types : List Str} (h : Clean L mapping types) {c : Json}
    (hc : IsComposite mapping c) : ∃ o kvs n d, c = .obj o kvs ∧ kvs.lookup c!"name" = some (.str n) ∧
      kvs.lookup c!"description" = some (.str d) ∧ GoodProperties L types kvs := by
  have key : ∀ {ps : List (Str × Check)} {nameOk descriptionOk : Str → Bool},
      objectOf ps [c!"name", c!"description"] forbidden c = true →
      (ps.lookup c!"name") = some (isStr nameOk) → (ps.lookup c!"description") = some (isStr descriptionOk) →
      (ps.lookup c!"properties") = some propertiesCheck →
      ∃ o kvs n d, c = .obj o kvs ∧ kvs.lookup c!"name" = some (.str n) ∧
        kvs.lookup c!"description" = some (.str d) ∧ GoodProperties L types kvs := by
    intro ps n1 n2 hcheck h1 h2 h3
    obtain ⟨o, kvs, rfl, _⟩ := objectOf_obj hcheck
    obtain ⟨n, hn⟩ := objectOf_required hcheck (k := c!"name") (by simp)
    obtain ⟨d, hd⟩ := objectOf_required hcheck (k := c!"description") (by simp)
    have hn' := objectOf_field hcheck hn
    have hd' := objectOf_field hcheck hd
    rw [h1] at hn'
    rw [h2] at hd'
    obtain ⟨n, rfl, _⟩ := isStr_str hn'
    obtain ⟨d, rfl, _⟩ := isStr_str hd'
    refine ⟨o, kvs, n, d, rfl, hn, hd, ?_⟩
    intro v hv
    have hp := objectOf_field hcheck hv
    rw [h3] at hp
    obtain ⟨o', ps', rfl, hps⟩ := propertiesCheck_obj hp
    refine ⟨o', ps', rfl, fun kv hkv => ⟨hps kv hkv, ?_⟩⟩
    exact (h.properties _ hc kv.1 kv.2 ⟨o', ps', hv, hkv⟩).2
  have hg := h.check
  obtain ⟨o, kvs, hm, _⟩ := objectOf_obj hg
  subst hm
  rcases hc with rfl | hx | hx
  · exact key hg rfl rfl rfl
  · exact key ((members_check hg).1 c hx) rfl rfl rfl
  · exact key ((members_check hg).2 c hx) rfl rfl rfl

theorem elements_total {o : Bool} {kvs : Fields} (hc : graphCheck (.obj o kvs) = true) :
    elements c!"classes" kvs = .ok (members (.obj o kvs) c!"classes") ∧
    elements c!"embeds" kvs = .ok (members (.obj o kvs) c!"embeds") := by
  constructor
  · rw [elements, members, field]
    cases hl : kvs.lookup c!"classes" with
    | none => rfl
    | some v =>
      obtain ⟨xs, rfl, h⟩ := isArray_arr (objectOf_field hc hl)
      rfl
  · rw [elements, members, field]
    cases hl : kvs.lookup c!"embeds" with
    | none => rfl
    | some v =>
      obtain ⟨xs, rfl, h⟩ := isArray_arr (objectOf_field hc hl)
      rfl

theorem allocatedClass_spec {L : Lib} {ref : Str} {xi : Json × Nat} {c : Class} (h : AllocatedClass L ref xi c) :
    IsName xi.1 c.name ∧ field xi.1 c!"description" = some (.str c.description) ∧
    TextOr xi.1 c!"plural" (Naming.plural c.name) c.plural ∧ Text xi.1 c!"id_pattern" c.idPattern ∧
    c.ref = memberRef ref c!"classes" xi.2 := by
  obtain ⟨o, kvs, hx, hc⟩ := h
  rw [hx]
  rw [classFromMapping] at hc
  simp only [bind_ok, pure_ok, strItem_ok] at hc
  obtain ⟨n, hn, pl, hpl, d, hd, ip, hip, rfl⟩ := hc
  refine ⟨hn, hd, ?_, text_spec hip, rfl⟩
  rw [pluralOf] at hpl
  cases hl : kvs.lookup c!"plural" with
  | none =>
    rw [hl] at hpl
    simp only [bind_ok, pure_ok, strItem_ok] at hpl
    obtain ⟨n', hn', rfl⟩ := hpl
    rw [hn] at hn'
    cases hn'
    exact ⟨none, .absent hl, rfl⟩
  | some v =>
    rw [hl] at hpl
    have := asStr_ok.1 hpl
    subst this
    exact ⟨_, .present hl, rfl⟩

theorem allocatedEmbed_spec {ref : Str} {xi : Json × Nat} {e : Embed} (h : AllocatedEmbed ref xi e) :
    IsName xi.1 e.name ∧ field xi.1 c!"description" = some (.str e.description) ∧
    e.ref = memberRef ref c!"embeds" xi.2 := by
  obtain ⟨o, kvs, hx, hc⟩ := h
  rw [hx]
  rw [embedFromMapping] at hc
  simp only [bind_ok, pure_ok, strItem_ok] at hc
  obtain ⟨n, hn, d, hd, rfl⟩ := hc
  exact ⟨hn, hd, rfl⟩

theorem mem_of_zipIdx {α : Type} {xs : List α} {xi : α × Nat} {i : Nat} (h : xi ∈ xs.zipIdx i) : xi.1 ∈ xs := by
  induction xs generalizing i with
  | nil => cases h
  | cons x xs ih =>
    rw [List.zipIdx_cons] at h
    rcases List.mem_cons.1 h with rfl | h
    · exact List.mem_cons_self ..
    · exact List.mem_cons_of_mem _ (ih h)

/-- The outcome of the validation within `schema_from_mapping` -/
theorem validated_of {L : Lib} {mapping : Json} {ref : Str} {s : Schema} (h : schemaFromMapping L mapping ref = .ok s) :
    validate L mapping ref = .ok [] ∧ ∃ o kvs, mapping = .obj o kvs ∧ schemaAfterValidation L kvs ref = .ok s := by
  rw [schemaFromMapping] at h
  simp only [bind_ok] at h
  obtain ⟨errs, hv, h⟩ := h
  cases errs with
  | nil =>
    simp only [bind_ok] at h
    obtain ⟨kvs, hk, h⟩ := h
    obtain ⟨o, rfl⟩ := asFields_ok hk
    exact ⟨hv, o, kvs, rfl, h⟩
  | cons e es => cases es <;> cases h

theorem forall₂_names {xs : List Json} {ns : List Str} (h : Forall₂ IsName xs ns) {n : Str} :
    n ∈ ns ↔ ∃ x ∈ xs, IsName x n := by
  induction h with
  | nil => simp
  | @cons a b as bs h1 _ ih =>
    rw [List.mem_cons, ih]
    constructor
    · rintro (hb | ⟨x, hx, hn⟩)
      · rw [hb]; exact ⟨a, List.mem_cons_self .., h1⟩
      · exact ⟨x, List.mem_cons_of_mem _ hx, hn⟩
    · rintro ⟨x, hx, hn⟩
      rcases List.mem_cons.1 hx with rfl | hx
      · left
        simp only [IsName] at h1 hn
        rw [h1] at hn
        cases hn; rfl
      · exact .inr ⟨x, hx, hn⟩

/-- The parsed graph is the one described by the mapping. -/
theorem graph_spec {fl : Json → Bounds → Prop} {L : Lib} {mapping : Json} {ref : Str} {s : Schema}
    (h : schemaFromMapping L mapping ref = .ok s)
    (hw : ∀ c name p, IsComposite mapping c → IsProperty c name p → FloatsBy fl p) :
    GraphOf fl Naming.plural ref mapping s.graph := by
  obtain ⟨hv, o, kvs, rfl, h'⟩ := validated_of h
  clear h
  have h := h'
  obtain ⟨types, hcl⟩ := clean_of hv
  obtain ⟨g, cs, es, hg, hcs, hes, hnd, _⟩ := hcl.names
  have hnd1 : cs.Nodup := by
    rw [List.nodup_append] at hnd
    have := hnd.2.1
    rw [List.nodup_append] at this
    exact (List.reverse_perm cs).nodup_iff.1 this.1
  have hnd2 : es.Nodup := by
    rw [List.nodup_append] at hnd
    exact (List.reverse_perm es).nodup_iff.1 hnd.1
  unfold schemaAfterValidation at h
  obtain ⟨he1, he2⟩ := elements_total hcl.check
  rw [he1, he2] at h
  simp only [bind_ok, pure_ok, strItem_ok, Except.ok.injEq] at h
  obtain ⟨name, hname, description, hdesc, _, rfl, _, rfl, classes, hal, embeds, hae, props, hprops, classes', hfc,
    embeds', hfe, cpp, _, go, _, py, _, rfl⟩ := h
  obtain ⟨new, h1, h2, h3⟩ := allocateClasses_spec hal hcs (by simpa using hnd1)
  obtain ⟨newE, e1, e2, e3⟩ := allocateEmbeds_spec hae hes (by simpa using hnd2)
  rw [List.nil_append] at h1 e1
  subst h1 e1
  obtain ⟨filled, f1, f2, f3⟩ := fillClasses_spec (done := []) hfc hcs h2 (by simpa using hnd1) h3
  obtain ⟨filledE, g1, g2, g3⟩ := fillEmbeds_spec (done := []) hfe hes e2 (by simpa using hnd2) e3
  rw [List.nil_append] at f1 g1
  subst f1 g1
  have n1 : classes.map (·.name) = classes'.map (·.name) := by rw [h2, f2]
  have n2 : embeds.map (·.name) = embeds'.map (·.name) := by rw [e2, g2]
  rw [n1, n2] at f3 g3 hprops
  refine ⟨rfl, hname, hdesc, ?_, ?_, ?_⟩
  · refine forall₂_imp f3 fun xi hxi c hc => ?_
    obtain ⟨c', o', kvs', ps, ha, hx, rfl, hps⟩ := hc
    obtain ⟨a1, a2, a3, a4, a5⟩ := allocatedClass_spec ha
    have hcomp : IsComposite (.obj o kvs) xi.1 := .inr (.inl (mem_of_zipIdx hxi))
    obtain ⟨o2, kvs2, _, _, hx2, _, _, hgood⟩ := composite_good hcl hcomp
    rw [hx] at hx2
    cases hx2
    refine ⟨a1, a2, a3, a4, a5, ?_⟩
    rw [hx]
    exact properties_spec hgood (fun n p hp => hw xi.1 n p hcomp (hx ▸ hp)) hps
  · refine forall₂_imp g3 fun xi hxi c hc => ?_
    obtain ⟨c', o', kvs', ps, ha, hx, rfl, hps⟩ := hc
    obtain ⟨a1, a2, a5⟩ := allocatedEmbed_spec ha
    have hcomp : IsComposite (.obj o kvs) xi.1 := .inr (.inr (mem_of_zipIdx hxi))
    obtain ⟨o2, kvs2, _, _, hx2, _, _, hgood⟩ := composite_good hcl hcomp
    rw [hx] at hx2
    cases hx2
    refine ⟨a1, a2, a5, ?_⟩
    rw [hx]
    exact properties_spec hgood (fun n p hp => hw xi.1 n p hcomp (hx ▸ hp)) hps
  · obtain ⟨o2, kvs2, _, _, hx2, _, _, hgood⟩ := composite_good hcl (c := .obj o kvs) (.inl rfl)
    cases hx2
    exact properties_spec hgood (fun n p hp => hw _ n p (.inl rfl) hp) hprops

/-! ## The parser does not raise -/

theorem class_total {L : Lib} {x : Json} {ref : Str} (hc : classCheck x = true) (hv : validateClass L x ref = .ok []) :
    ∃ o kvs, x = .obj o kvs ∧ ∀ ref, ∃ c, classFromMapping L kvs ref = .ok c := by
  obtain ⟨o, kvs, rfl, _⟩ := objectOf_obj hc
  refine ⟨o, kvs, rfl, fun ref' => ?_⟩
  obtain ⟨n, hn⟩ := objectOf_required hc (k := c!"name") (by simp)
  obtain ⟨d, hd⟩ := objectOf_required hc (k := c!"description") (by simp)
  obtain ⟨n, rfl, _⟩ := isStr_str (objectOf_field hc hn)
  obtain ⟨d, rfl, _⟩ := isStr_str (objectOf_field hc hd)
  have hpl : ∃ p, pluralOf kvs = .ok p := by
    rw [pluralOf]
    cases hl : kvs.lookup c!"plural" with
    | none => exact ⟨Naming.plural n, by simp only [strItem_ok.2 hn]; rfl⟩
    | some v =>
      obtain ⟨s, rfl, _⟩ := isStr_str (objectOf_field hc hl)
      exact ⟨_, rfl⟩
  have hip : ∃ p, patternItem L c!"id_pattern" kvs = .ok p := by
    rw [patternItem]
    cases hl : kvs.lookup c!"id_pattern" with
    | none => exact ⟨_, rfl⟩
    | some v =>
      obtain ⟨p, rfl, _⟩ := isStr_str (objectOf_field hc hl)
      refine ⟨some p, ?_⟩
      simp only [bind_ok, asStr_ok]
      refine ⟨p, rfl, ?_⟩
      have hcomp : L.compileError p = none := by
        rw [validateClass] at hv
        simp only [asFields, bind, Except.bind, hl] at hv
        cases hce : L.compileError p with
        | none => rfl
        | some m =>
          rw [hce] at hv
          cases hp : kvs.lookup c!"properties" with
          | none => rw [hp] at hv; cases hv
          | some v =>
            rw [hp] at hv
            cases v <;> cases hv
      rw [hcomp]; rfl
  obtain ⟨pl, hpl⟩ := hpl
  obtain ⟨ip, hip⟩ := hip
  rw [classFromMapping]
  simp only [strItem_ok.2 hn, strItem_ok.2 hd, hpl, hip]
  exact ⟨_, rfl⟩

theorem embed_total {x : Json} (hc : embedCheck x = true) :
    ∃ o kvs, x = .obj o kvs ∧ ∀ ref, ∃ e, embedFromMapping kvs ref = .ok e := by
  obtain ⟨o, kvs, rfl, _⟩ := objectOf_obj hc
  refine ⟨o, kvs, rfl, fun ref' => ?_⟩
  obtain ⟨n, hn⟩ := objectOf_required hc (k := c!"name") (by simp)
  obtain ⟨d, hd⟩ := objectOf_required hc (k := c!"description") (by simp)
  obtain ⟨n, rfl, _⟩ := isStr_str (objectOf_field hc hn)
  obtain ⟨d, rfl, _⟩ := isStr_str (objectOf_field hc hd)
  rw [embedFromMapping]
  simp only [strItem_ok.2 hn, strItem_ok.2 hd]
  exact ⟨_, rfl⟩

theorem str_required {ps : List (Str × Check)} {req : List Str} {add : Check} {o : Bool} {kvs : Fields}
    (hc : objectOf ps req add (.obj o kvs) = true) {k : Str} {p : Str → Bool} (hk : k ∈ req)
    (hp : ps.lookup k = some (isStr p)) : ∃ s, strItem k kvs = .ok s ∧ p s = true := by
  obtain ⟨v, hv⟩ := objectOf_required hc hk
  have := objectOf_field hc hv
  rw [hp] at this
  obtain ⟨s, rfl, hs⟩ := isStr_str this
  exact ⟨s, strItem_ok.2 hv, hs⟩

theorem str_or {ps : List (Str × Check)} {req : List Str} {add : Check} {o : Bool} {kvs : Fields}
    (hc : objectOf ps req add (.obj o kvs) = true) {k : Str} {p : Str → Bool} (default : Str)
    (hp : ps.lookup k = some (isStr p)) : ∃ s, strItemOr k default kvs = .ok s := by
  rw [strItemOr]
  cases hl : kvs.lookup k with
  | none => exact ⟨_, rfl⟩
  | some v =>
    have := objectOf_field hc hl
    rw [hp] at this
    obtain ⟨s, rfl, _⟩ := isStr_str this
    exact ⟨_, rfl⟩

theorem cpp_total {v : Json} (h : cppCheck v = true) : ∃ s, cppFromMapping v = .ok s := by
  obtain ⟨o, kvs, rfl, _⟩ := objectOf_obj h
  obtain ⟨a, ha, _⟩ := str_required h (k := c!"namespace") (by simp) rfl
  obtain ⟨b, hb, _⟩ := str_required h (k := c!"path_as") (by simp) rfl
  obtain ⟨c, hc, _⟩ := str_required h (k := c!"optional_as") (by simp) rfl
  obtain ⟨d, hd, _⟩ := str_required h (k := c!"datetime_library") (by simp) rfl
  obtain ⟨e, he⟩ := str_or h (k := c!"indention") c!"  " rfl
  refine ⟨⟨a, b, c, d, e⟩, ?_⟩
  rw [cppFromMapping]
  simp only [bind_ok, pure_ok]
  exact ⟨kvs, rfl, a, ha, b, hb, c, hc, d, hd, e, he, rfl⟩

theorem go_total {v : Json} (h : goCheck v = true) : ∃ s, goFromMapping v = .ok s := by
  obtain ⟨o, kvs, rfl, _⟩ := objectOf_obj h
  obtain ⟨a, ha, _⟩ := str_required h (k := c!"package") (by simp) rfl
  refine ⟨⟨a⟩, ?_⟩
  rw [goFromMapping]
  simp only [bind_ok, pure_ok]
  exact ⟨kvs, rfl, a, ha, rfl⟩

theorem py_total {v : Json} (h : pyCheck v = true) : ∃ s, pyFromMapping v = .ok s := by
  obtain ⟨o, kvs, rfl, _⟩ := objectOf_obj h
  obtain ⟨a, ha, _⟩ := str_required h (k := c!"module_name") (by simp) rfl
  obtain ⟨b, hb, _⟩ := str_required h (k := c!"path_as") (by simp) rfl
  obtain ⟨c, hc, _⟩ := str_required h (k := c!"timezone_as") (by simp) rfl
  obtain ⟨e, he⟩ := str_or h (k := c!"indention") c!"    " rfl
  refine ⟨⟨a, b, c, e⟩, ?_⟩
  rw [pyFromMapping]
  simp only [bind_ok, pure_ok]
  exact ⟨kvs, rfl, a, ha, b, hb, c, hc, e, he, rfl⟩

theorem settings_total {α : Type} {key : Str} {f : Json → Except Exc α} {kvs : Fields}
    (h : ∀ v, kvs.lookup key = some v → ∃ s, f v = .ok s) : ∃ s, settingsItem key f kvs = .ok s := by
  rw [settingsItem]
  cases hl : kvs.lookup key with
  | none => exact ⟨_, rfl⟩
  | some v =>
    obtain ⟨s, hs⟩ := h v hl
    simp only [hs]
    exact ⟨_, rfl⟩

/-- A definition within an accepted schema names a builtin type, a class, an embeddable structure or the graph. -/
theorem clean_type {L : Lib} {mapping : Json} {types : List Str} (h : Clean L mapping types) {w : Json}
    (hw : Within mapping w) {t : Str} (ht : HasType w t) :
    t ∈ builtin ∨ ClassNamed mapping t ∨ EmbedNamed mapping t ∨ IsName mapping t := by
  obtain ⟨top, ref, hv⟩ := clean_within h hw
  obtain ⟨o, kvs, t', rfl, ha⟩ := accepted_of hv
  have : t' = t := by
    have h1 := ha.type
    simp only [HasType, field] at ht
    rw [h1] at ht
    cases ht; rfl
  subst this
  have hk := ha.known
  obtain ⟨g, cs, es, hg, hcs, hes, _, rfl⟩ := h.names
  simp only [List.mem_append, List.mem_reverse, List.mem_cons, List.not_mem_nil, or_false] at hk
  rcases hk with hk | hk | hk | rfl
  · left
    simp only [noncompositeTypes, List.mem_cons, List.not_mem_nil, or_false] at hk
    simp only [builtin, List.mem_cons, List.not_mem_nil, or_false]
    rcases hk with rfl | rfl | rfl | rfl | rfl | rfl | rfl | rfl | rfl | rfl | rfl | rfl <;> simp
  · exact .inr (.inr (.inl ((forall₂_names hes).1 hk)))
  · exact .inr (.inl ((forall₂_names hcs).1 hk))
  · exact .inr (.inr (.inr hg))

theorem schema_total {L : Lib} {mapping : Json} {ref : Str} (hv : validate L mapping ref = .ok [])
    (hgraph : ∀ w n, Within mapping w → HasType w n → ¬ IsName mapping n)
    (hfin : ∀ c name p, IsComposite mapping c → IsProperty c name p → FiniteFloats p) :
    ∃ s, schemaFromMapping L mapping ref = .ok s := by
  obtain ⟨types, hcl⟩ := clean_of hv
  obtain ⟨o, kvs, n, d, rfl, hn, hd, hgood⟩ := composite_good hcl (c := mapping) (.inl rfl)
  obtain ⟨g, cs, es, hg, hcs, hes, hnd, _⟩ := hcl.names
  have hnd1 : cs.Nodup := by
    rw [List.nodup_append] at hnd
    have := hnd.2.1
    rw [List.nodup_append] at this
    exact (List.reverse_perm cs).nodup_iff.1 this.1
  have hnd2 : es.Nodup := by
    rw [List.nodup_append] at hnd
    exact (List.reverse_perm es).nodup_iff.1 hnd.1
  obtain ⟨he1, he2⟩ := elements_total hcl.check
  obtain ⟨m1, m2⟩ := members_check hcl.check
  obtain ⟨classes, hal⟩ := allocateClasses_total (L := L) (ref := ref) (i := 0) (acc := [])
    (xs := members (.obj o kvs) c!"classes") fun x hx => by
      obtain ⟨r, hr⟩ := hcl.classes x hx
      exact class_total (m1 x hx) hr
  obtain ⟨embeds, hae⟩ := allocateEmbeds_total (ref := ref) (i := 0) (acc := [])
    (xs := members (.obj o kvs) c!"embeds") fun x hx => embed_total (m2 x hx)
  obtain ⟨new, h1, h2, h3⟩ := allocateClasses_spec hal hcs (by simpa using hnd1)
  obtain ⟨newE, e1, e2, e3⟩ := allocateEmbeds_spec hae hes (by simpa using hnd2)
  rw [List.nil_append] at h1 e1
  subst h1 e1
  have known : ∀ c name p, IsComposite (.obj o kvs) c → IsProperty c name p →
      Known (classes.map (·.name)) (embeds.map (·.name)) p := by
    intro c name p hc hp w t hn ht
    have hw : Within (.obj o kvs) w := ⟨c, name, p, hc, hp, hn⟩
    rcases clean_type hcl hw ht with hb | hb | hb | hb
    · exact .inl hb
    · rw [h2]; exact .inr (.inl ((forall₂_names hcs).2 hb))
    · rw [e2]; exact .inr (.inr ((forall₂_names hes).2 hb))
    · exact absurd hb (hgraph w t hw ht)
  obtain ⟨ps, hps⟩ := properties_total (classes := classes.map (·.name)) (embeds := embeds.map (·.name)) (ref := ref)
    (o := o) hgood fun name p hp => ⟨known _ name p (.inl rfl) hp, hfin _ name p (.inl rfl) hp⟩
  obtain ⟨classes', hfc⟩ := fillClasses_total (L := L) (classes := classes.map (·.name))
    (embeds := embeds.map (·.name)) (ref := ref) (i := 0) (xs := members (.obj o kvs) c!"classes") (acc := classes)
    fun x hx => by
      have hcomp : IsComposite (.obj o kvs) x := .inr (.inl hx)
      obtain ⟨o2, kvs2, n2, d2, rfl, hn2, _, hgood2⟩ := composite_good hcl hcomp
      exact ⟨o2, kvs2, n2, rfl, hn2, fun r => properties_total hgood2
        fun name p hp => ⟨known _ name p hcomp hp, hfin _ name p hcomp hp⟩⟩
  obtain ⟨embeds', hfe⟩ := fillEmbeds_total (L := L) (classes := classes.map (·.name))
    (embeds := embeds.map (·.name)) (ref := ref) (i := 0) (xs := members (.obj o kvs) c!"embeds") (acc := embeds)
    fun x hx => by
      have hcomp : IsComposite (.obj o kvs) x := .inr (.inr hx)
      obtain ⟨o2, kvs2, n2, d2, rfl, hn2, _, hgood2⟩ := composite_good hcl hcomp
      exact ⟨o2, kvs2, n2, rfl, hn2, fun r => properties_total hgood2
        fun name p hp => ⟨known _ name p hcomp hp, hfin _ name p hcomp hp⟩⟩
  obtain ⟨cpp, hcpp⟩ := settings_total (key := c!"cpp") (kvs := kvs) fun v hv => cpp_total (objectOf_field hcl.check hv)
  obtain ⟨go, hgo⟩ := settings_total (key := c!"go") (kvs := kvs) fun v hv => go_total (objectOf_field hcl.check hv)
  obtain ⟨py, hpy⟩ := settings_total (key := c!"py") (kvs := kvs) fun v hv => py_total (objectOf_field hcl.check hv)
  refine ⟨⟨⟨ref, n, d, classes', embeds', ps⟩, cpp, go, py⟩, ?_⟩
  · rw [schemaFromMapping]
    simp only [bind_ok]
    refine ⟨[], hv, ?_⟩
    simp only [bind_ok]
    refine ⟨kvs, rfl, ?_⟩
    unfold schemaAfterValidation
    simp only [bind_ok, pure_ok]
    exact ⟨n, strItem_ok.2 hn, d, strItem_ok.2 hd, _, he1, _, he2, classes, hal, embeds, hae, ps, hps, classes', hfc,
      embeds', hfe, cpp, hcpp, go, hgo, py, hpy, rfl⟩

end Mapry.ParseSchema
