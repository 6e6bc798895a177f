import Verif.PyImports
import Verif.GoValidated

/-!
# When the Python generators succeed
-/

namespace Mapry.PyCode

set_option linter.unusedSimpArgs false

open Mapry.TypeGraph Mapry.Naming Mapry.ParseSchema Mapry.LangValidate
open Mapry.GoCode (referencesOf mapM_mem mapM_mem' mapM_cons Resolves Ok ok_ok ok_pure Ok.bind Ok.mapM Ok.of_bind Capital
  jsonPlural_ok_iff refers_known find_class referencesOf_ok)

/-- The settings are the ones which the schema of the settings admits. -/
structure Settings (py : Py) : Prop where
  path : py.pathAs = c!"str" ∨ py.pathAs = c!"pathlib.Path"
  zone : py.timezoneAs = c!"str" ∨ py.timezoneAs = c!"pytz.timezone"

theorem Settings.pathNames {py : Py} (h : Settings py) : Ok (pathNames py) := by
  unfold PyCode.pathNames
  split
  · exact ok_ok _
  · rename_i hn
    rw [if_pos (h.path.resolve_left hn)]
    exact ok_ok _

theorem Settings.zoneNames {py : Py} (h : Settings py) : Ok (zoneNames py) := by
  unfold PyCode.zoneNames
  split
  · exact ok_ok _
  · rename_i hn
    rw [if_pos (h.zone.resolve_left hn)]
    exact ok_ok _

theorem capital_iff {s : Str} : Capital s ↔ ∃ c cs, s = c :: cs ∧ isUpper c = true := by
  simp only [Capital, isUpper, Char.isUpper, decide_eq_true_eq]
  rfl

theorem asVariable_ok_iff {s : Str} : Ok (asVariable s) ↔ Capital s := by
  rw [capital_iff]
  unfold asVariable Ok
  cases s with
  | nil => simp
  | cons c cs =>
    by_cases hc : isUpper c = true
    · simp [hc]
    · simp [hc]

theorem asAttribute_ok_iff {s : Str} : Ok (asAttribute s) ↔ s ≠ [] := by
  unfold asAttribute Ok
  split <;> simp_all

/-- What the generators need. -/
structure Writable (g : Graph) : Prop where
  facts : Facts g
  plurals : ∀ c ∈ g.classes, Capital c.plural

section
variable {g : Graph} {py : Py} (hf : Facts g)
include hf

theorem Facts.composite_ok {n : Str} (hn : n ∈ allNames g) : Ok (asComposite n) := ⟨_, hf.composite n hn⟩

theorem Facts.variable_ok {n : Str} (hn : n ∈ allNames g) : Ok (asVariable n) :=
  asVariable_ok_iff.2 (capital_iff.2 (composite_first (hf.composite n hn)))

theorem Facts.attribute_ok {o : Owner} {p : Property} (hp : p ∈ ownerProps g o) : Ok (asAttribute p.name) := by
  refine asAttribute_ok_iff.2 ?_
  cases o with
  | graph => exact hf.nonempty.2.2 p hp
  | cls n =>
    simp only [ownerProps] at hp
    cases hc : g.cls? n with
    | none => rw [hc] at hp; cases hp
    | some c => rw [hc] at hp; exact (hf.nonempty.1 c (find_mem hc).1).2 p hp
  | embed n =>
    simp only [ownerProps] at hp
    cases hc : g.embed? n with
    | none => rw [hc] at hp; cases hp
    | some c => rw [hc] at hp; exact hf.nonempty.2.1 c (find_mem hc).1 p hp

theorem Facts.plural_ok {c : Class} (hc : c ∈ g.classes) : Ok (asAttribute c.plural) :=
  asAttribute_ok_iff.2 (hf.nonempty.1 c hc).1

/-- A composite which occurs as a type. -/
theorem Facts.type_mem {u : Ty} (hu : Occurs g u) {n : Str} (h : u = .cls n ∨ u = .embed n) : n ∈ allNames g := by
  rcases h with rfl | rfl
  · obtain ⟨c, hc, rfl⟩ := hf.resolves.1 n hu
    exact owner_name_mem (o := .cls c.name) (comp_order (class_comp hc))
  · obtain ⟨e, he, rfl⟩ := hf.resolves.2 n hu
    exact owner_name_mem (o := .embed e.name) (comp_order (embed_comp ⟨e, he, rfl⟩))

theorem annotation_ok (hs : Settings py) {d : List Owner} {t : Ty} (ht : Occurs g t) : Ok (annotation py d t) := by
  induction t with
  | array t lo hi ih => exact (ih (ht.part (by simp [parts, self_mem_parts]))).bind fun _ _ => ok_pure _
  | map t ih => exact (ih (ht.part (by simp [parts, self_mem_parts]))).bind fun _ _ => ok_pure _
  | path p => exact hs.pathNames
  | timeZone => exact hs.zoneNames
  | cls n => exact (hf.composite_ok (hf.type_mem ht (.inl rfl))).bind fun _ _ => ok_pure _
  | embed n => exact (hf.composite_ok (hf.type_mem ht (.inr rfl))).bind fun _ _ => ok_pure _
  | _ => exact ok_ok _

theorem typeRepr_ok (hs : Settings py) {t : Ty} (ht : Occurs g t) : Ok (typeRepr py t) := by
  induction t with
  | array t lo hi ih => exact ih (ht.part (by simp [parts, self_mem_parts]))
  | map t ih => exact ih (ht.part (by simp [parts, self_mem_parts]))
  | path p => exact hs.pathNames.bind fun _ _ => ok_pure _
  | timeZone => exact hs.zoneNames.bind fun _ _ => ok_pure _
  | cls n => exact (hf.composite_ok (hf.type_mem ht (.inl rfl))).bind fun _ _ => ok_pure _
  | embed n => exact (hf.composite_ok (hf.type_mem ht (.inr rfl))).bind fun _ _ => ok_pure _
  | _ => exact ok_ok _

theorem args_ok (hs : Settings py) {d : List Owner} {ps : List Property} {o : Owner} (h : ∀ p ∈ ps, p ∈ ownerProps g o) :
    Ok ((Text.orderByOptional ps).mapM (propertyArg py d)) :=
  Ok.mapM fun p hp => by
    have hp' := h p ((order_perm _).mem_iff.1 hp)
    exact (hf.attribute_ok hp').bind fun _ _ => (annotation_ok hf hs (occurs_owner hp')).bind fun _ _ => ok_pure _

omit hf in
theorem neededPath_ok (hs : Settings py) : Ok (neededPath g py) := by
  unfold neededPath
  split
  · exact hs.pathNames
  · exact ok_ok _

omit hf in
theorem neededZone_ok (hs : Settings py) : Ok (neededZone g py) := by
  unfold neededZone
  split
  · exact hs.zoneNames
  · exact ok_ok _

omit hf in
theorem class_name_mem {c : Class} (hc : c ∈ g.classes) : c.name ∈ allNames g :=
  List.mem_append_left _ (List.mem_append_left _ (List.mem_map.2 ⟨c, hc, rfl⟩))

omit hf in
theorem embed_name_mem {e : Embed} (he : e ∈ g.embeds) : e.name ∈ allNames g :=
  List.mem_append_left _ (List.mem_append_right _ (List.mem_map.2 ⟨e, he, rfl⟩))

omit hf in
theorem graph_name_mem : g.name ∈ allNames g := List.mem_append_right _ (List.mem_singleton.2 rfl)

theorem class_props {c : Class} (hc : c ∈ g.classes) : ∀ p ∈ c.properties, p ∈ ownerProps g (.cls c.name) := by
  intro p hp
  simpa [ownerProps, hf.named.cls? hc] using hp

theorem embed_props {e : Embed} (he : e ∈ g.embeds) : ∀ p ∈ e.properties, p ∈ ownerProps g (.embed e.name) := by
  intro p hp
  simpa [ownerProps, hf.named.embed? he] using hp

theorem typesModule_ok (hs : Settings py) : Ok (typesModule g py) := by
  unfold typesModule
  refine Ok.bind ?_ fun _ _ => (Ok.mapM fun c hc => ?_).bind fun _ _ => (Ok.mapM fun e he => ?_).bind fun _ _ =>
    Ok.bind ?_ fun _ _ => ok_pure _
  · exact (neededPath_ok hs).bind fun _ _ => (neededZone_ok hs).bind fun _ _ => ok_pure _
  · exact (hf.composite_ok (class_name_mem hc)).bind fun _ _ => (args_ok hf hs (class_props hf hc)).bind fun _ _ => ok_pure _
  · refine (hf.composite_ok (embed_name_mem he)).bind fun _ _ => ?_
    split
    · exact ok_pure _
    · exact (args_ok hf hs (embed_props hf he)).bind fun _ _ => ok_pure _
  · refine (hf.composite_ok graph_name_mem).bind fun _ _ => ?_
    split
    · exact ok_pure _
    · refine (args_ok (o := .graph) hf hs fun p hp => hp).bind fun _ _ => (Ok.mapM fun c hc => ?_).bind fun _ _ => ok_pure _
      exact (hf.plural_ok hc).bind fun _ _ =>
        ((hf.composite_ok (class_name_mem hc)).bind fun _ _ => ok_pure _).bind fun _ _ => ok_pure _

theorem noneArgs_ok {ps : List Property} {o : Owner} (h : ∀ p ∈ ps, p ∈ ownerProps g o) : Ok ((required ps).mapM noneArg) :=
  Ok.mapM fun p hp => (hf.attribute_ok (h p (List.mem_filter.1 hp).1)).bind fun _ _ => ok_pure _

theorem parseModule_ok : Ok (parseModule g py) := by
  unfold parseModule
  refine (Ok.mapM fun e he => ?_).bind fun _ _ => (Ok.mapM fun c hc => ?_).bind fun _ _ => Ok.bind ?_ fun _ _ => ok_pure _
  · exact (hf.variable_ok (embed_name_mem he)).bind fun _ _ => (hf.composite_ok (embed_name_mem he)).bind fun _ _ =>
      (noneArgs_ok hf (embed_props hf he)).bind fun _ _ => ok_pure _
  · exact (hf.variable_ok (class_name_mem hc)).bind fun _ _ => (hf.composite_ok (class_name_mem hc)).bind fun _ _ =>
      (noneArgs_ok hf (class_props hf hc)).bind fun _ _ => ok_pure _
  · exact (hf.variable_ok graph_name_mem).bind fun _ _ => (hf.composite_ok graph_name_mem).bind fun _ _ =>
      (noneArgs_ok (o := .graph) hf fun p hp => hp).bind fun _ _ => ok_pure _

end

/-- What the code which parses a type needs. -/
def Handled (ctx : Ctx) (t : Ty) : Prop :=
  (∀ c, t = .cls c → Ok (ctx.registry c)) ∧
  ∀ e, t = .embed e → Ok (asVariable e) ∧ ∃ refs, referencesOf ctx.graph (.embed e) = .ok refs ∧ ∀ r ∈ refs, Ok (ctx.registry r)

theorem parse_ok {ctx : Ctx} (hs : Settings ctx.py) {g : Graph} (hf : Facts g) {t : Ty} (ht : Occurs g t)
    (h : ∀ u ∈ parts t, Handled ctx u) (value : Var) (tgt : Target) (ref : List Name) (n : Nat) :
    Ok (parseValue ctx t value tgt ref n) := by
  induction t generalizing value tgt ref n with
  | path p => exact hs.pathNames.bind fun _ _ => ok_pure _
  | timeZone => exact hs.zoneNames.bind fun _ _ => ok_pure _
  | array t lo hi ih =>
    have ho : Occurs g t := ht.part (by simp [parts, self_mem_parts])
    exact (ih ho (fun u hu => h u (by simp [parts, hu])) ..).bind fun _ _ => (typeRepr_ok hf hs ho).bind fun _ _ => ok_pure _
  | map t ih =>
    have ho : Occurs g t := ht.part (by simp [parts, self_mem_parts])
    exact (ih ho (fun u hu => h u (by simp [parts, hu])) ..).bind fun _ _ => (typeRepr_ok hf hs ho).bind fun _ _ => ok_pure _
  | cls c => exact ((h _ (self_mem_parts _)).1 c rfl).bind fun _ _ => ok_pure _
  | embed e =>
    obtain ⟨h1, refs, h2, h3⟩ := (h _ (self_mem_parts _)).2 e rfl
    refine Ok.bind ⟨refs, h2⟩ fun refs' e' => ?_
    rw [h2] at e'
    cases e'
    exact (Ok.mapM h3).bind fun _ _ => h1.bind fun _ _ => ok_pure _
  | _ => exact ok_ok _

theorem parseProps_ok {ctx : Ctx} (hs : Settings ctx.py) {g : Graph} (hf : Facts g) {obj : Str} {ps : List Property}
    (h : ∀ p ∈ ps, Ok (asAttribute p.name) ∧ Occurs g p.ty ∧ ∀ u ∈ parts p.ty, Handled ctx u) (n : Nat) :
    Ok (parseProps ctx obj ps n) := by
  induction ps generalizing n with
  | nil => exact ok_ok _
  | cons p ps ih =>
    obtain ⟨h1, h2, h3⟩ := h p (by simp)
    refine Ok.bind (h1.bind fun _ _ => (parse_ok hs hf h2 h3 ..).bind fun ⟨parsing, m⟩ _ => ok_pure _) fun ⟨c, m⟩ _ => ?_
    exact (ih (fun p hp => h p (by simp [hp])) m).bind fun _ _ => ok_pure _

section
variable {g : Graph} {py : Py} (hw : Writable g) (hs : Settings py)
include hw

/-- Every type in a composite is handled if the registries of the references of the composite are there. -/
theorem handled_of {registry : Str → Except Exc (List Name)} {o : Owner} (hreg : ∀ n, Refers g o n → Ok (registry n)) {p : Property}
    (hp : p ∈ ownerProps g o) : ∀ u ∈ parts p.ty, Handled ⟨g, py, registry⟩ u := by
  intro u hu
  have ho : Occurs g u := (occurs_owner hp).part hu
  refine ⟨?_, ?_⟩
  · rintro n rfl
    exact hreg n (refers_class hp hu)
  · rintro n rfl
    refine ⟨hw.facts.variable_ok (hw.facts.type_mem ho (.inr rfl)), ?_⟩
    obtain ⟨l, h1, hl⟩ := referencesOf_ok g (.embed n)
    exact ⟨l, h1, fun m hm => hreg m (refers_embed hp hu ((mem_references hl m).1 hm))⟩

theorem registryParam_ok {n : Str} (h : ∃ c ∈ g.classes, c.name = n) : Ok (registryParam g n) := by
  obtain ⟨c, hm, hc⟩ := find_class h
  unfold registryParam
  rw [hc]
  exact (asVariable_ok_iff.2 (hw.plurals c hm)).bind fun _ _ => ok_pure _

theorem pluralAttribute_ok {n : Str} (h : ∃ c ∈ g.classes, c.name = n) : Ok (pluralAttribute g n) := by
  obtain ⟨c, hm, hc⟩ := find_class h
  unfold pluralAttribute
  rw [hc]
  exact hw.facts.plural_ok hm

include hs

theorem parseComposite_ok {o : Owner} (ho : o ∈ definitionOrder g) {b : Bool} : Ok (parseComposite g py o (ownerName g o) b) := by
  unfold parseComposite
  obtain ⟨refs, h1, h2⟩ := referencesOf_ok g o
  have hk : ∀ n ∈ refs, ∃ c ∈ g.classes, c.name = n := fun n hn => refers_known hw.facts.resolves ((mem_references h2 n).1 hn)
  refine Ok.bind ⟨refs, h1⟩ fun refs' e => ?_
  rw [h1] at e
  cases e
  refine (Ok.mapM fun n hn => (registryParam_ok hw (hk n hn)).bind fun _ _ => ok_pure _).bind fun _ _ => ?_
  refine (parseProps_ok hs hw.facts (fun p hp => ⟨hw.facts.attribute_ok hp, occurs_owner hp, handled_of hw ?_ hp⟩) 0).bind fun _ _ => ?_
  · intro n hrn
    have hm : n ∈ refs := (mem_references h2 n).2 hrn
    simp only [hm, if_true]
    exact (registryParam_ok hw (hk n hm)).bind fun _ _ => ok_pure _
  refine (hw.facts.variable_ok (owner_name_mem ho)).bind fun _ _ => (hw.facts.composite_ok (owner_name_mem ho)).bind fun _ _ =>
    (Ok.mapM fun n hn => ?_).bind fun _ _ => ok_pure _
  obtain ⟨c, hm, rfl⟩ := hk n hn
  exact (hw.facts.composite_ok (class_name_mem hm)).bind fun _ _ => ok_pure _

theorem parseGraph_ok : Ok (parseGraph g py) := by
  unfold parseGraph
  refine (parseProps_ok hs hw.facts (fun p hp => ⟨hw.facts.attribute_ok (o := .graph) hp, occurs_owner (o := .graph) hp,
    handled_of (o := .graph) hw ?_ hp⟩) 0).bind fun _ _ => ?_
  · intro n hrn
    exact (pluralAttribute_ok hw (refers_known hw.facts.resolves hrn)).bind fun _ _ => ok_pure _
  refine (hw.facts.variable_ok graph_name_mem).bind fun _ _ => (hw.facts.composite_ok graph_name_mem).bind fun _ _ =>
    (Ok.mapM fun c hc => ?_).bind fun _ _ => (Ok.mapM fun c hc => ?_).bind fun _ _ => ok_pure _
  · exact ((jsonPlural_ok_iff _).2 (hw.plurals c hc)).bind fun _ _ => (hw.facts.plural_ok hc).bind fun _ _ =>
      (hw.facts.variable_ok (class_name_mem hc)).bind fun _ _ => ok_pure _
  · obtain ⟨refs, r1, r2⟩ := referencesOf_ok g (.cls c.name)
    refine (hw.facts.plural_ok hc).bind fun _ _ => (hw.facts.variable_ok (class_name_mem hc)).bind fun _ _ =>
      Ok.bind ⟨refs, r1⟩ fun refs' e => ?_
    rw [r1] at e
    cases e
    exact (Ok.mapM fun n hn => pluralAttribute_ok hw (refers_known hw.facts.resolves ((mem_references r2 n).1 hn))).bind
      fun _ _ => ok_pure _

theorem fromModule_ok : Ok (fromModule g py) := by
  unfold fromModule
  refine Ok.bind ?_ fun _ _ => (Ok.mapM fun c hc => ?_).bind fun _ _ => (Ok.mapM fun e he => ?_).bind fun _ _ =>
    (parseGraph_ok hw hs).bind fun _ _ => ok_pure _
  · exact (neededPath_ok hs).bind fun _ _ => (neededZone_ok hs).bind fun _ _ => ok_pure _
  · exact parseComposite_ok hw hs (o := .cls c.name) (comp_order (class_comp hc))
  · exact parseComposite_ok hw hs (o := .embed e.name) (comp_order (embed_comp ⟨e, he, rfl⟩))

omit hw in
theorem serializationExpr_ok {t : Ty} (h : ∀ n, t = .embed n → Ok (asVariable n)) (value : List Name) :
    Ok (serializationExpr py value t) := by
  cases t with
  | path p => exact hs.pathNames.bind fun _ _ => ok_pure _
  | timeZone => exact hs.zoneNames.bind fun _ _ => ok_pure _
  | embed n => exact (h n rfl).bind fun _ _ => ok_pure _
  | _ => exact ok_ok _

omit hw in
theorem serialize_ok {t : Ty} (h : ∀ u ∈ parts t, ∀ n, u = .embed n → Ok (asVariable n)) (tgt : Target) (value : List Name)
    (n : Nat) : Ok (serializeValue py t tgt value n) := by
  have leaf : ∀ {t : Ty}, (∀ n, t = .embed n → Ok (asVariable n)) → (∀ u lo hi, t ≠ .array u lo hi) → (∀ u, t ≠ .map u) →
      ∀ tgt value n, Ok (serializeValue py t tgt value n) := by
    intro t he h1 h2 tgt value n
    have : serializeValue py t tgt value n = (do
      match ← serializationExpr py value t with
      | some e => pure (e ++ store tgt [], n)
      | none => .error (.notImplemented [])) := by
      cases t <;> first | rfl | exact absurd rfl (h1 _ _ _) | exact absurd rfl (h2 _)
    rw [this]
    refine (serializationExpr_ok hs he value).bind fun e he' => ?_
    cases e with
    | some e => exact ok_pure _
    | none =>
      exfalso
      cases t with
      | array u lo hi => exact h1 _ _ _ rfl
      | map u => exact h2 _ rfl
      | path p =>
        obtain ⟨_, _, he'⟩ := ok_bind he'
        cases he'
      | timeZone =>
        obtain ⟨_, _, he'⟩ := ok_bind he'
        cases he'
      | embed n =>
        obtain ⟨_, _, he'⟩ := ok_bind he'
        cases he'
      | _ => cases he'
  induction t generalizing tgt value n with
  | array t lo hi ih =>
    unfold serializeValue
    split
    · exact ok_ok _
    · refine (serializationExpr_ok hs (fun n hn => h t (by simp [parts, self_mem_parts]) n hn) _).bind fun e _ => ?_
      cases e with
      | some e => exact ok_pure _
      | none => exact (ih (fun u hu => h u (by simp [parts, hu])) ..).bind fun _ _ => ok_pure _
  | map t ih =>
    unfold serializeValue
    refine Ok.bind ((serializationExpr_ok hs (fun n hn => h t (by simp [parts, self_mem_parts]) n hn) _).bind fun e _ => ?_)
      fun _ _ => ok_pure _
    cases e with
    | some e => exact ok_pure _
    | none => exact (ih (fun u hu => h u (by simp [parts, hu])) ..).bind fun _ _ => ok_pure _
  | embed n => exact leaf (fun m hm => h _ (self_mem_parts _) m hm) (by simp) (by simp) ..
  | _ => exact leaf (by simp) (by simp) (by simp) ..

omit hw in
theorem serializeProps_ok (hf : Facts g) {ps : List Property} {o : Owner} (h : ∀ p ∈ ps, p ∈ ownerProps g o) (n : Nat) :
    Ok (serializeProps py ps n) := by
  induction ps generalizing n with
  | nil => exact ok_ok _
  | cons p ps ih =>
    have hp := h p (by simp)
    refine Ok.bind ((serialize_ok hs (fun u hu m hm => hf.variable_ok (hf.type_mem ((occurs_owner hp).part hu) (.inr hm))) ..).bind
      fun _ _ => (hf.attribute_ok hp).bind fun _ _ => ok_pure _) fun ⟨c, m⟩ _ => ?_
    exact (ih (fun p hp => h p (by simp [hp])) m).bind fun _ _ => ok_pure _

theorem toModule_ok : Ok (toModule g py) := by
  have hf := hw.facts
  unfold toModule
  refine (Ok.mapM fun c hc => ?_).bind fun _ _ => (Ok.mapM fun e he => ?_).bind fun _ _ => Ok.bind ?_ fun _ _ => ok_pure _
  · exact (serializeProps_ok hs hf (class_props hf hc) 0).bind fun _ _ => (hf.variable_ok (class_name_mem hc)).bind fun _ _ =>
      (hf.composite_ok (class_name_mem hc)).bind fun _ _ => ok_pure _
  · exact (serializeProps_ok hs hf (embed_props hf he) 0).bind fun _ _ => (hf.variable_ok (embed_name_mem he)).bind fun _ _ =>
      (hf.composite_ok (embed_name_mem he)).bind fun _ _ => ok_pure _
  · refine (serializeProps_ok (o := .graph) hs hf (fun p hp => hp) 0).bind fun _ _ => (hf.variable_ok graph_name_mem).bind fun _ _ =>
      (hf.composite_ok graph_name_mem).bind fun _ _ => (Ok.mapM fun c hc => ?_).bind fun _ _ => ok_pure _
    exact (hf.composite_ok (class_name_mem hc)).bind fun _ _ => (asVariable_ok_iff.2 (hw.plurals c hc)).bind fun _ _ =>
      (hf.variable_ok (class_name_mem hc)).bind fun _ _ => ((jsonPlural_ok_iff _).2 (hw.plurals c hc)).bind fun _ _ => ok_pure _

end

/-- When all the modules are generated. -/
theorem package_ok_iff {g : Graph} {py : Py} (hf : Facts g) (hs : Settings py) :
    Ok (package g py) ↔ ∀ c ∈ g.classes, Capital c.plural := by
  constructor
  · rintro ⟨pkg, h⟩ c hc
    obtain ⟨T, P, F, O, hp, _⟩ := package_inv h
    have h3 := hp.from_
    unfold fromModule at h3
    obtain ⟨_, _, h3⟩ := ok_bind h3
    obtain ⟨_, _, h3⟩ := ok_bind h3
    obtain ⟨_, _, h3⟩ := ok_bind h3
    obtain ⟨_, hg, _⟩ := ok_bind h3
    obtain ⟨_, _, _, _, _, hcl, _⟩ := parseGraph_inv hg
    obtain ⟨x, hx⟩ := (hcl c hc).1
    exact (jsonPlural_ok_iff _).1 (Ok.of_bind ⟨x, hx⟩)
  · intro h
    have hw : Writable g := ⟨hf, h⟩
    exact (typesModule_ok hf hs).bind fun _ _ => (parseModule_ok hf).bind fun _ _ => (fromModule_ok hw hs).bind fun _ _ =>
      (toModule_ok hw hs).bind fun _ _ => ok_pure _

/-! ## The settings of a parsed schema -/

theorem settings_of {L : Validation.Lib} {mapping : PyRuntime.Json} {ref : Str} {s : Schema}
    (h : schemaFromMapping L mapping ref = .ok s) {py : Py} (hp : s.py = some py) : Settings py := by
  obtain ⟨hv, o, kvs, rfl, h'⟩ := validated_of h
  obtain ⟨types, hcl⟩ := Validation.clean_of hv
  clear h
  have h := h'
  unfold schemaAfterValidation at h
  simp only [Validation.bind_ok, Validation.pure_ok, Except.ok.injEq] at h
  obtain ⟨_, _, _, _, _, _, _, _, _, _, _, _, _, _, _, _, _, _, _, _, _, _, py', hpy, rfl⟩ := h
  obtain rfl : py' = some py := hp
  unfold settingsItem at hpy
  cases hl : kvs.lookup c!"py" with
  | none => rw [hl] at hpy; cases hpy
  | some v =>
    rw [hl] at hpy
    have hc := Validation.objectOf_field hcl.check hl
    have hc : Validation.pyCheck v = true := hc
    simp only [Validation.bind_ok, Validation.pure_ok] at hpy
    obtain ⟨q, hq, e⟩ := hpy
    cases e
    obtain ⟨o2, kvs2, rfl, _⟩ := Validation.objectOf_obj hc
    obtain ⟨b, hb, hb'⟩ := str_required hc (k := c!"path_as") (by simp) rfl
    obtain ⟨z, hz, hz'⟩ := str_required hc (k := c!"timezone_as") (by simp) rfl
    unfold pyFromMapping at hq
    simp only [Validation.bind_ok, Validation.pure_ok] at hq
    obtain ⟨kvs3, e3, m, _, b2, hb2, z2, hz2, i, _, rfl⟩ := hq
    cases e3
    rw [hb] at hb2
    rw [hz] at hz2
    cases hb2
    cases hz2
    simp only [decide_eq_true_eq, List.mem_cons, List.not_mem_nil, or_false] at hb' hz'
    exact ⟨hb', hz'⟩

end Mapry.PyCode
