import Verif.CppDefs
import Verif.PyTotal

/-!
# When the C++ generators succeed
-/

namespace Mapry.CppCode

set_option linter.unusedSimpArgs false

open Mapry.TypeGraph Mapry.Naming Mapry.ParseSchema Mapry.LangValidate
open Mapry.GoCode (referencesOf ok_bind mapM_mem mapM_mem' mapM_cons Resolves Ok ok_ok ok_pure Ok.bind Ok.mapM Ok.of_bind Capital
  jsonPlural_ok_iff refers_known find_class referencesOf_ok)
open Mapry.PyCode (Facts allNames Writable asVariable_ok_iff class_name_mem embed_name_mem graph_name_mem class_props embed_props
  comp_order class_comp embed_comp owner_name_mem)

/-- The settings are the ones which the schema of the settings admits. -/
structure Settings (cpp : Cpp) : Prop where
  path : cpp.pathAs = c!"std::filesystem::path" ∨ cpp.pathAs = c!"boost::filesystem::path"
  optional : cpp.optionalAs = c!"boost::optional" ∨ cpp.optionalAs = c!"std::optional" ∨
    cpp.optionalAs = c!"std::experimental::optional"
  date : cpp.datetimeLibrary = c!"ctime" ∨ cpp.datetimeLibrary = c!"date.h"

theorem Settings.pathBoost {cpp : Cpp} (h : Settings cpp) : Ok (pathBoost cpp) := by
  unfold CppCode.pathBoost
  rcases h.path with e | e <;> rw [e] <;> exact ⟨_, rfl⟩

theorem Settings.dateH {cpp : Cpp} (h : Settings cpp) : Ok (dateH cpp) := by
  unfold CppCode.dateH
  rcases h.date with e | e <;> rw [e] <;> exact ⟨_, rfl⟩

theorem Settings.optionalOk {cpp : Cpp} (h : Settings cpp) : Ok (optionalOk cpp) := by
  unfold CppCode.optionalOk
  rcases h.optional with e | e | e <;> rw [e] <;> exact ⟨_, rfl⟩

theorem Settings.pathHeader {cpp : Cpp} (h : Settings cpp) (g : Graph) : Ok (pathHeader g cpp) := by
  unfold CppCode.pathHeader
  split
  · exact h.pathBoost.bind fun _ _ => ok_pure _
  · exact ok_ok _

theorem Settings.optionalHeader {cpp : Cpp} (h : Settings cpp) (g : Graph) : Ok (optionalHeader g cpp) := by
  unfold CppCode.optionalHeader
  split
  · rcases h.optional with e | e | e <;> rw [e] <;> exact ⟨_, rfl⟩
  · exact ok_ok _

section
variable {g : Graph} {cpp : Cpp} (hf : Facts g) (hs : Settings cpp)
include hf hs

theorem typeRepr_ok {t : Ty} (ht : Occurs g t) : Ok (typeRepr cpp t) := by
  induction t with
  | array t lo hi ih => exact (ih (ht.part (by simp [parts, self_mem_parts]))).bind fun _ _ => ok_pure _
  | map t ih => exact (ih (ht.part (by simp [parts, self_mem_parts]))).bind fun _ _ => ok_pure _
  | path p => exact hs.pathBoost.bind fun _ _ => ok_pure _
  | date f => exact hs.dateH.bind fun _ _ => ok_pure _
  | time f => exact hs.dateH.bind fun _ _ => ok_pure _
  | datetime f => exact hs.dateH.bind fun _ _ => ok_pure _
  | timeZone => exact hs.dateH.bind fun _ _ => ok_pure _
  | cls n => exact (hf.composite_ok (hf.type_mem ht (.inl rfl))).bind fun _ _ => ok_pure _
  | embed n => exact (hf.composite_ok (hf.type_mem ht (.inr rfl))).bind fun _ _ => ok_pure _
  | _ => exact ok_ok _

omit hf in
theorem defaultValue_ok (t : Ty) : Ok (defaultValue cpp t) := by
  cases t with
  | date f => exact hs.dateH.bind fun _ _ => ok_pure _
  | time f => exact hs.dateH.bind fun _ _ => ok_pure _
  | datetime f => exact hs.dateH.bind fun _ _ => ok_pure _
  | timeZone => exact hs.dateH.bind fun _ _ => ok_pure _
  | _ => exact ok_ok _

theorem propertyField_ok {p : Property} {o : Owner} (hp : p ∈ ownerProps g o) : Ok (propertyField cpp p) := by
  unfold propertyField
  refine (typeRepr_ok hf hs (occurs_owner hp)).bind fun _ _ => ?_
  split
  · exact hs.optionalOk.bind fun _ _ => ok_pure _
  · exact (defaultValue_ok hs _).bind fun _ _ => ok_pure _

theorem fields_ok {ps : List Property} {o : Owner} (h : ∀ p ∈ ps, p ∈ ownerProps g o) :
    Ok (ps.mapM (propertyField cpp)) := Ok.mapM fun p hp => propertyField_ok hf hs (h p hp)

theorem typesHeader_generates : Ok (typesHeader g cpp) := by
  unfold typesHeader
  refine Ok.bind ?_ fun _ _ => Ok.bind ?_ fun _ _ => (Ok.mapM fun e he => ?_).bind fun _ _ =>
    (Ok.mapM fun c hc => ?_).bind fun _ _ => Ok.bind ?_ fun _ _ => ok_pure _
  · exact (hs.pathHeader g).bind fun _ _ => hs.dateH.bind fun _ _ => (hs.optionalHeader g).bind fun _ _ => ok_pure _
  · exact (hf.composite_ok graph_name_mem).bind fun _ _ => (Ok.mapM fun c hc => hf.composite_ok (class_name_mem hc)).bind
      fun _ _ => (Ok.mapM fun e he => hf.composite_ok (embed_name_mem he)).bind fun _ _ => ok_pure _
  · exact (hf.composite_ok (embed_name_mem he)).bind fun _ _ => (fields_ok hf hs (embed_props hf he)).bind fun _ _ => ok_pure _
  · exact (hf.composite_ok (class_name_mem hc)).bind fun _ _ => (fields_ok hf hs (class_props hf hc)).bind fun _ _ => ok_pure _
  · refine (hf.composite_ok graph_name_mem).bind fun _ _ => (fields_ok (o := .graph) hf hs fun p hp => hp).bind fun _ _ =>
      (Ok.mapM fun c hc => ?_).bind fun _ _ => ok_pure _
    exact (hf.composite_ok (class_name_mem hc)).bind fun _ _ => (hf.plural_ok hc).bind fun _ _ => ok_pure _

end

/-- What the code which parses a type needs. -/
def Handled (ctx : Ctx) (t : Ty) : Prop :=
  (∀ c, t = .cls c → Ok (ctx.registry c)) ∧
  ∀ e, t = .embed e → Ok (asVariable e) ∧ ∃ refs, referencesOf ctx.graph (.embed e) = .ok refs ∧ ∀ r ∈ refs, Ok (ctx.registry r)

theorem parse_generates {ctx : Ctx} (hs : Settings ctx.cpp) {g : Graph} (hf : Facts g) {t : Ty} (ht : Occurs g t)
    (h : ∀ u ∈ parts t, Handled ctx u) (value tgt : Expr) (ref : List Expr) (n : Nat) :
    Ok (parseValue ctx t value tgt ref n) := by
  induction t generalizing value tgt ref n with
  | path p => exact hs.pathBoost.bind fun _ _ => ok_pure _
  | date f => exact hs.dateH.bind fun _ _ => ok_pure _
  | time f => exact hs.dateH.bind fun _ _ => ok_pure _
  | datetime f => exact hs.dateH.bind fun _ _ => ok_pure _
  | timeZone => exact hs.dateH.bind fun _ _ => ok_pure _
  | array t lo hi ih =>
    have ho : Occurs g t := ht.part (by simp [parts, self_mem_parts])
    exact (ih ho (fun u hu => h u (by simp [parts, hu])) ..).bind fun _ _ => (typeRepr_ok hf hs ht).bind fun _ _ => ok_pure _
  | map t ih =>
    have ho : Occurs g t := ht.part (by simp [parts, self_mem_parts])
    exact (ih ho (fun u hu => h u (by simp [parts, hu])) ..).bind fun _ _ => (typeRepr_ok hf hs ht).bind fun _ _ => ok_pure _
  | cls c => exact ((h _ (self_mem_parts _)).1 c rfl).bind fun _ _ => ok_pure _
  | embed e =>
    obtain ⟨h1, refs, h2, h3⟩ := (h _ (self_mem_parts _)).2 e rfl
    refine Ok.bind ⟨refs, h2⟩ fun refs' e' => ?_
    rw [h2] at e'
    cases e'
    exact (Ok.mapM h3).bind fun _ _ => h1.bind fun _ _ => ok_pure _
  | _ => exact ok_ok _

theorem parseProps_generates {ctx : Ctx} (hs : Settings ctx.cpp) {g : Graph} (hf : Facts g) {ps : List Property}
    (h : ∀ p ∈ ps, Ok (asAttribute p.name) ∧ Occurs g p.ty ∧ ∀ u ∈ parts p.ty, Handled ctx u) (n : Nat) :
    Ok (parseProps ctx ps n) := by
  induction ps generalizing n with
  | nil => exact ok_ok _
  | cons p ps ih =>
    obtain ⟨h1, h2, h3⟩ := h p (by simp)
    refine Ok.bind (h1.bind fun _ _ => (parse_generates hs hf h2 h3 ..).bind fun ⟨parsing, m⟩ _ => ?_) fun ⟨c, m⟩ _ => ?_
    · dsimp only
      split <;> exact ok_pure _
    · exact (ih (fun p hp => h p (by simp [hp])) m).bind fun _ _ => ok_pure _

section
variable {g : Graph} {cpp : Cpp} (hw : Writable g) (hs : Settings cpp)
include hw

/-- Every type in a composite is handled if the registries of the references of the composite are there. -/
theorem handled_of {registry : Str → Except Exc Expr} {o : Owner} (hreg : ∀ n, Refers g o n → Ok (registry n)) {p : Property}
    (hp : p ∈ ownerProps g o) : ∀ u ∈ parts p.ty, Handled ⟨g, cpp, registry⟩ u := by
  intro u hu
  have ho : Occurs g u := (occurs_owner hp).part hu
  refine ⟨?_, ?_⟩
  · rintro n rfl
    exact hreg n (refers_class hp hu)
  · rintro n rfl
    refine ⟨hw.facts.variable_ok (hw.facts.type_mem ho (.inr rfl)), ?_⟩
    obtain ⟨l, h1, hl⟩ := referencesOf_ok g (.embed n)
    exact ⟨l, h1, fun m hm => hreg m (refers_embed hp hu ((mem_references hl m).1 hm))⟩

omit hw in
theorem classOf_ok {n : Str} (h : ∃ c ∈ g.classes, c.name = n) : ∃ c ∈ g.classes, classOf g n = .ok c := by
  obtain ⟨c, hm, hc⟩ := find_class h
  exact ⟨c, hm, by unfold classOf; rw [hc]⟩

theorem registryParam_ok {n : Str} (h : ∃ c ∈ g.classes, c.name = n) : Ok (registryParam g n) := by
  obtain ⟨c, hm, hc⟩ := classOf_ok h
  unfold registryParam
  rw [hc]
  exact (asVariable_ok_iff.2 (hw.plurals c hm)).bind fun _ _ => (hw.facts.composite_ok (class_name_mem hm)).bind fun _ _ => ok_pure _

theorem registryOf_ok {n : Str} (h : ∃ c ∈ g.classes, c.name = n) : Ok (registryOf g n) := by
  obtain ⟨c, hm, hc⟩ := classOf_ok h
  unfold registryOf
  rw [hc]
  exact (hw.facts.plural_ok hm).bind fun _ _ => ok_pure _

theorem registryVar_ok {refs : List Str} {n : Str} (hn : n ∈ refs) (h : ∃ c ∈ g.classes, c.name = n) :
    Ok (registryVar g refs n) := by
  obtain ⟨c, hm, hc⟩ := classOf_ok h
  unfold registryVar
  rw [if_pos hn, hc]
  exact (asVariable_ok_iff.2 (hw.plurals c hm)).bind fun _ _ => ok_pure _

theorem parseDecl_generates {o : Owner} {n : Str} (hn : n ∈ allNames g) : Ok (parseDecl g o n) := by
  unfold parseDecl
  obtain ⟨refs, h1, h2⟩ := referencesOf_ok g o
  have hk : ∀ n ∈ refs, ∃ c ∈ g.classes, c.name = n := fun n hn => refers_known hw.facts.resolves ((mem_references h2 n).1 hn)
  refine Ok.bind ⟨refs, h1⟩ fun refs' e => ?_
  rw [h1] at e
  cases e
  exact (hw.facts.variable_ok hn).bind fun _ _ => (Ok.mapM fun n hn => registryParam_ok hw (hk n hn)).bind fun _ _ =>
    (hw.facts.composite_ok hn).bind fun _ _ => ok_pure _

theorem serializeDecl_generates {n : Str} (hn : n ∈ allNames g) : Ok (serializeDecl n) :=
  (hw.facts.variable_ok hn).bind fun _ _ => (hw.facts.composite_ok hn).bind fun _ _ => ok_pure _

include hs

theorem jsonHeader_generates : Ok (jsonHeader g cpp) := by
  unfold jsonHeader
  refine Ok.bind ?_ fun _ _ => (hw.facts.variable_ok graph_name_mem).bind fun _ _ =>
    (hw.facts.composite_ok graph_name_mem).bind fun _ _ => (Ok.mapM fun e he => ?_).bind fun _ _ =>
    (Ok.mapM fun c hc => ?_).bind fun _ _ => (Ok.mapM fun n hn => ?_).bind fun _ _ => ok_pure _
  · exact (hs.pathHeader g).bind fun _ _ => (hs.optionalHeader g).bind fun _ _ => ok_pure _
  · exact parseDecl_generates hw (embed_name_mem he)
  · exact parseDecl_generates hw (class_name_mem hc)
  · simp only [List.cons_append, List.mem_cons, List.mem_append, List.mem_map] at hn
    rcases hn with rfl | ⟨c, hc, rfl⟩ | ⟨e, he, rfl⟩
    · exact serializeDecl_generates hw graph_name_mem
    · exact serializeDecl_generates hw (class_name_mem hc)
    · exact serializeDecl_generates hw (embed_name_mem he)

theorem parseComposite_generates {o : Owner} {n : Str} (hn : n ∈ allNames g) : Ok (parseComposite g cpp o n) := by
  unfold parseComposite
  obtain ⟨refs, h1, h2⟩ := referencesOf_ok g o
  have hk : ∀ n ∈ refs, ∃ c ∈ g.classes, c.name = n := fun n hn => refers_known hw.facts.resolves ((mem_references h2 n).1 hn)
  refine Ok.bind ⟨refs, h1⟩ fun refs' e => ?_
  rw [h1] at e
  cases e
  refine (Ok.mapM fun n hn => registryParam_ok hw (hk n hn)).bind fun _ _ => ?_
  refine (parseProps_generates hs hw.facts (fun p hp => ⟨hw.facts.attribute_ok hp, occurs_owner hp, handled_of hw ?_ hp⟩) 0).bind fun _ _ => ?_
  · intro n hrn
    have hm : n ∈ refs := (mem_references h2 n).2 hrn
    exact registryVar_ok hw hm (hk n hm)
  · exact (hw.facts.variable_ok hn).bind fun _ _ => (hw.facts.composite_ok hn).bind fun _ _ => ok_pure _

theorem parseGraph_generates : Ok (parseGraph g cpp) := by
  unfold parseGraph
  refine (parseProps_generates hs hw.facts (fun p hp => ⟨hw.facts.attribute_ok (o := .graph) hp, occurs_owner (o := .graph) hp,
    handled_of (o := .graph) hw ?_ hp⟩) 0).bind fun _ _ => ?_
  · exact fun n hrn => registryOf_ok hw (refers_known hw.facts.resolves hrn)
  refine (hw.facts.variable_ok graph_name_mem).bind fun _ _ => (hw.facts.composite_ok graph_name_mem).bind fun _ _ =>
    (Ok.mapM fun c hc => ?_).bind fun _ _ => (Ok.mapM fun c hc => ?_).bind fun _ _ => ok_pure _
  · exact (asVariable_ok_iff.2 (hw.plurals c hc)).bind fun _ _ => ((jsonPlural_ok_iff _).2 (hw.plurals c hc)).bind fun _ _ =>
      (hw.facts.plural_ok hc).bind fun _ _ => (hw.facts.composite_ok (class_name_mem hc)).bind fun _ _ =>
      (hw.facts.variable_ok (class_name_mem hc)).bind fun _ _ => ok_pure _
  · obtain ⟨refs, r1, r2⟩ := referencesOf_ok g (.cls c.name)
    refine (asVariable_ok_iff.2 (hw.plurals c hc)).bind fun _ _ => ((jsonPlural_ok_iff _).2 (hw.plurals c hc)).bind fun _ _ =>
      (hw.facts.plural_ok hc).bind fun _ _ => (hw.facts.composite_ok (class_name_mem hc)).bind fun _ _ =>
      (hw.facts.variable_ok (class_name_mem hc)).bind fun _ _ => Ok.bind ⟨refs, r1⟩ fun refs' e => ?_
    rw [r1] at e
    cases e
    exact (Ok.mapM fun n hn => registryOf_ok hw (refers_known hw.facts.resolves ((mem_references r2 n).1 hn))).bind
      fun _ _ => ok_pure _

omit hw in
theorem serialize_generates {t : Ty} (h : ∀ u ∈ parts t, ∀ n, u = .embed n → Ok (asVariable n)) (tgt x : Expr) (n : Nat) :
    Ok (serializeValue cpp t tgt x n) := by
  induction t generalizing tgt x n with
  | date f => exact hs.dateH.bind fun _ _ => ok_pure _
  | time f => exact hs.dateH.bind fun _ _ => ok_pure _
  | datetime f => exact hs.dateH.bind fun _ _ => ok_pure _
  | timeZone => exact hs.dateH.bind fun _ _ => ok_pure _
  | array t lo hi ih => exact (ih (fun u hu => h u (by simp [parts, hu])) ..).bind fun _ _ => ok_pure _
  | map t ih => exact (ih (fun u hu => h u (by simp [parts, hu])) ..).bind fun _ _ => ok_pure _
  | embed e => exact (h _ (self_mem_parts _) e rfl).bind fun _ _ => ok_pure _
  | _ => exact ok_ok _

omit hw in
theorem serializeProps_generates (hf : Facts g) {f : Str} {ps : List Property} {o : Owner} (h : ∀ p ∈ ps, p ∈ ownerProps g o) (n : Nat) :
    Ok (serializeProps cpp f ps n) := by
  induction ps generalizing n with
  | nil => exact ok_ok _
  | cons p ps ih =>
    have hp := h p (by simp)
    have hv : ∀ u ∈ parts p.ty, ∀ n, u = .embed n → Ok (asVariable n) :=
      fun u hu m hm => hf.variable_ok (hf.type_mem ((occurs_owner hp).part hu) (.inr hm))
    refine Ok.bind ?_ fun ⟨c, m⟩ _ => (ih (fun p hp => h p (by simp [hp])) m).bind fun _ _ => ok_pure _
    unfold serializeProperty
    dsimp only
    split
    · exact (serialize_generates hs hv ..).bind fun _ _ => ok_pure _
    · exact serialize_generates hs hv ..

theorem serializeComposite_generates {n : Str} (hn : n ∈ allNames g) {ps : List Property} {o : Owner} (h : ∀ p ∈ ps, p ∈ ownerProps g o) :
    Ok (serializeComposite cpp n ps) :=
  (hw.facts.variable_ok hn).bind fun _ _ => (hw.facts.composite_ok hn).bind fun _ _ =>
    (serializeProps_generates hs hw.facts h 0).bind fun _ _ => ok_pure _

theorem serializeGraph_generates : Ok (serializeGraph g cpp) := by
  refine (hw.facts.variable_ok graph_name_mem).bind fun _ _ => (hw.facts.composite_ok graph_name_mem).bind fun _ _ =>
    (serializeProps_generates (o := .graph) hs hw.facts (fun p hp => hp) 0).bind fun _ _ => (Ok.mapM fun c hc => ?_).bind fun _ _ => ok_pure _
  exact (asVariable_ok_iff.2 (hw.plurals c hc)).bind fun _ _ => ((jsonPlural_ok_iff _).2 (hw.plurals c hc)).bind fun _ _ =>
    (hw.facts.composite_ok (class_name_mem hc)).bind fun _ _ => (hw.facts.variable_ok (class_name_mem hc)).bind fun _ _ => ok_pure _

theorem jsonImpl_generates : Ok (jsonImpl g cpp) := by
  have hf := hw.facts
  unfold jsonImpl
  refine Ok.bind (hs.dateH.bind fun _ _ => ok_pure _) fun _ _ => (Ok.mapM fun c hc => ?_).bind fun _ _ =>
    (parseGraph_generates hw hs).bind fun _ _ => hs.dateH.bind fun _ _ => (Ok.mapM fun c hc => ?_).bind fun _ _ =>
    (Ok.mapM fun e he => ?_).bind fun _ _ => (Ok.mapM fun c hc => ?_).bind fun _ _ => (Ok.mapM fun e he => ?_).bind fun _ _ =>
    (serializeGraph_generates hw hs).bind fun _ _ => ok_pure _
  · unfold patternItem
    split
    · exact (hf.variable_ok (class_name_mem hc)).bind fun _ _ => ok_pure _
    · exact ok_ok _
  · exact parseComposite_generates hw hs (class_name_mem hc)
  · exact parseComposite_generates hw hs (embed_name_mem he)
  · exact serializeComposite_generates hw hs (class_name_mem hc) (class_props hf hc)
  · exact serializeComposite_generates hw hs (embed_name_mem he) (embed_props hf he)

end

/-- When the implementation is generated. -/
theorem jsonImpl_generates_iff {g : Graph} {cpp : Cpp} (hf : Facts g) (hs : Settings cpp) :
    Ok (jsonImpl g cpp) ↔ ∀ c ∈ g.classes, Capital c.plural := by
  constructor
  · rintro ⟨items, h⟩ c hc
    unfold jsonImpl at h
    obtain ⟨_, _, h⟩ := ok_bind h
    obtain ⟨_, _, h⟩ := ok_bind h
    obtain ⟨_, hg, _⟩ := ok_bind h
    unfold parseGraph at hg
    obtain ⟨_, _, hg⟩ := ok_bind hg
    obtain ⟨_, _, hg⟩ := ok_bind hg
    obtain ⟨_, _, hg⟩ := ok_bind hg
    obtain ⟨l, hl, _⟩ := ok_bind hg
    obtain ⟨x, hx⟩ := mapM_mem' hl hc
    exact asVariable_ok_iff.1 (Ok.of_bind ⟨x, hx.2⟩)
  · exact fun h => jsonImpl_generates ⟨hf, h⟩ hs

/-! ## The settings of a parsed schema -/

theorem settings_of {L : Validation.Lib} {mapping : PyRuntime.Json} {ref : Str} {s : Schema}
    (h : schemaFromMapping L mapping ref = .ok s) {cpp : Cpp} (hp : s.cpp = some cpp) : Settings cpp := by
  obtain ⟨hv, o, kvs, rfl, h'⟩ := validated_of h
  obtain ⟨types, hcl⟩ := Validation.clean_of hv
  clear h
  have h := h'
  unfold schemaAfterValidation at h
  simp only [Validation.bind_ok, Validation.pure_ok, Except.ok.injEq] at h
  obtain ⟨_, _, _, _, _, _, _, _, _, _, _, _, _, _, _, _, _, _, cpp', hcpp, _, _, _, _, rfl⟩ := h
  obtain rfl : cpp' = some cpp := hp
  unfold settingsItem at hcpp
  cases hl : kvs.lookup c!"cpp" with
  | none => rw [hl] at hcpp; cases hcpp
  | some v =>
    rw [hl] at hcpp
    have hc := Validation.objectOf_field hcl.check hl
    have hc : Validation.cppCheck v = true := hc
    simp only [Validation.bind_ok, Validation.pure_ok] at hcpp
    obtain ⟨q, hq, e⟩ := hcpp
    cases e
    obtain ⟨o2, kvs2, rfl, _⟩ := Validation.objectOf_obj hc
    obtain ⟨b, hb, hb'⟩ := str_required hc (k := c!"path_as") (by simp) rfl
    obtain ⟨z, hz, hz'⟩ := str_required hc (k := c!"optional_as") (by simp) rfl
    obtain ⟨w, hw, hw'⟩ := str_required hc (k := c!"datetime_library") (by simp) rfl
    unfold cppFromMapping at hq
    simp only [Validation.bind_ok, Validation.pure_ok] at hq
    obtain ⟨kvs3, e3, m, _, b2, hb2, z2, hz2, w2, hw2, i, _, rfl⟩ := hq
    cases e3
    rw [hb] at hb2
    rw [hz] at hz2
    rw [hw] at hw2
    cases hb2
    cases hz2
    cases hw2
    simp only [decide_eq_true_eq, List.mem_cons, List.not_mem_nil, or_false] at hb' hz' hw'
    exact ⟨hb', hz', hw'⟩

end Mapry.CppCode
