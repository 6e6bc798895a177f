import Verif.PyTotal
import Verif.PyGen

/-!
# When the code of `Verif/PyGen.lean` is generated

It is generated for the same schemas as the modules of `Verif/PyCode.lean`.
-/

namespace Mapry.PyGen

open Mapry.TypeGraph hiding Obj
open Mapry.Naming Mapry.ParseSchema Mapry.LangValidate Mapry.PyLang
open Mapry.GoCode (referencesOf Ok ok_ok ok_pure Ok.bind Ok.mapM Ok.of_bind Capital jsonPlural_ok_iff refers_known
  find_class referencesOf_ok)
open Mapry.PyCode (Facts Settings Writable asVariable_ok_iff asAttribute_ok_iff class_name_mem embed_name_mem graph_name_mem
  class_props embed_props order_perm typeRepr_ok owner_name_mem definitionOrder ownerName
  class_comp embed_comp comp_order ok_bind)

theorem pathlib_ok {py : Py} (h : Settings py) : Ok (pathlib py) := by
  unfold pathlib
  split
  · exact ok_ok _
  · rename_i hn
    rw [if_pos (h.path.resolve_left hn)]
    exact ok_ok _

theorem pytz_ok {py : Py} (h : Settings py) : Ok (pytz py) := by
  unfold pytz
  split
  · exact ok_ok _
  · rename_i hn
    rw [if_pos (h.zone.resolve_left hn)]
    exact ok_ok _

section
variable {g : Graph} {py : Py} (hf : Facts g)
include hf

theorem params_ok {ps : List Property} {o : Owner} (h : ∀ p ∈ ps, p ∈ ownerProps g o) :
    Ok ((Text.orderByOptional ps).mapM param) :=
  Ok.mapM fun p hp => (hf.attribute_ok (h p ((order_perm _).mem_iff.1 hp))).bind fun _ _ => ok_pure _

theorem keeps_ok {ps : List Property} {o : Owner} (h : ∀ p ∈ ps, p ∈ ownerProps g o) :
    Ok ((Text.orderByOptional ps).mapM keep) :=
  Ok.mapM fun p hp => (hf.attribute_ok (h p ((order_perm _).mem_iff.1 hp))).bind fun _ _ => ok_pure _

theorem types_ok : Ok (types g) := by
  unfold types
  refine (Ok.mapM fun c hc => ?_).bind fun _ _ => (Ok.mapM fun e he => ?_).bind fun _ _ => Ok.bind ?_ fun _ _ => ok_pure _
  · exact (hf.composite_ok (class_name_mem hc)).bind fun _ _ => (params_ok hf (class_props hf hc)).bind fun _ _ =>
      (keeps_ok hf (class_props hf hc)).bind fun _ _ => ok_pure _
  · refine (hf.composite_ok (embed_name_mem he)).bind fun _ _ => ?_
    split
    · exact ok_pure _
    · exact (params_ok hf (embed_props hf he)).bind fun _ _ => (keeps_ok hf (embed_props hf he)).bind fun _ _ => ok_pure _
  · refine (hf.composite_ok graph_name_mem).bind fun _ _ => ?_
    split
    · exact ok_pure _
    · exact (params_ok (o := .graph) hf fun p hp => hp).bind fun _ _ =>
        (Ok.mapM fun c hc => (hf.plural_ok hc).bind fun _ _ => ok_pure _).bind fun _ _ =>
        (keeps_ok (o := .graph) hf fun p hp => hp).bind fun _ _ =>
        (Ok.mapM fun c hc => (hf.plural_ok hc).bind fun _ _ => ok_pure _).bind fun _ _ => ok_pure _

theorem noneArgs_ok {ps : List Property} {o : Owner} (h : ∀ p ∈ ps, p ∈ ownerProps g o) :
    Ok ((PyCode.required ps).mapM noneArg) :=
  Ok.mapM fun p hp => (hf.attribute_ok (h p (List.mem_filter.1 hp).1)).bind fun _ _ => ok_pure _

theorem parse_ok : Ok (parse g) := by
  unfold parse
  refine (Ok.mapM fun e he => ?_).bind fun _ _ => (Ok.mapM fun c hc => ?_).bind fun _ _ => Ok.bind ?_ fun _ _ => ok_pure _
  · exact (hf.variable_ok (embed_name_mem he)).bind fun _ _ => (hf.composite_ok (embed_name_mem he)).bind fun _ _ =>
      (noneArgs_ok hf (embed_props hf he)).bind fun _ _ => ok_pure _
  · exact (hf.variable_ok (class_name_mem hc)).bind fun _ _ => (hf.composite_ok (class_name_mem hc)).bind fun _ _ =>
      (noneArgs_ok hf (class_props hf hc)).bind fun _ _ => ok_pure _
  · exact (hf.variable_ok graph_name_mem).bind fun _ _ => (hf.composite_ok graph_name_mem).bind fun _ _ =>
      (noneArgs_ok (o := .graph) hf fun p hp => hp).bind fun _ _ => ok_pure _

end

/-- What the code which parses a type needs. -/
def Handled (ctx : Ctx) (t : Ty) : Prop :=
  (∀ c, t = .cls c → Ok (ctx.registry c)) ∧
  ∀ e, t = .embed e → Ok (asVariable e) ∧ ∃ refs, referencesOf ctx.graph (.embed e) = .ok refs ∧ ∀ r ∈ refs, Ok (ctx.registry r)

theorem parseValue_ok {ctx : Ctx} (hs : Settings ctx.py) {g : Graph} (hf : Facts g) {t : Ty} (ht : Occurs g t)
    (h : ∀ u ∈ parts t, Handled ctx u) (value : Str) (tgt : Target) (ref : List Expr) (n : Nat) :
    Ok (parseValue ctx t value tgt ref n) := by
  induction t generalizing value tgt ref n with
  | path p => exact (pathlib_ok hs).bind fun _ _ => ok_pure _
  | timeZone => exact (pytz_ok hs).bind fun _ _ => ok_pure _
  | array t lo hi ih =>
    have ho : Occurs g t := ht.part (by simp [parts, self_mem_parts])
    exact (ih ho (fun u hu => h u (by simp [parts, hu])) ..).bind fun _ _ => (typeRepr_ok hf hs ho).bind fun _ _ => ok_pure _
  | map t ih =>
    have ho : Occurs g t := ht.part (by simp [parts, self_mem_parts])
    exact (ih ho (fun u hu => h u (by simp [parts, hu])) ..).bind fun _ _ => (typeRepr_ok hf hs ho).bind fun _ _ => ok_pure _
  | cls c => exact ((h _ (self_mem_parts _)).1 c rfl).bind fun _ _ => ok_pure _
  | embed e =>
    obtain ⟨h1, refs, h2, h3⟩ := (h _ (self_mem_parts _)).2 e rfl
    refine Ok.bind ⟨refs, h2⟩ fun refs' e' => ?_
    rw [h2] at e'
    cases e'
    exact (Ok.mapM h3).bind fun _ _ => h1.bind fun _ _ => ok_pure _
  | _ => exact ok_ok _

theorem parseProps_ok {ctx : Ctx} (hs : Settings ctx.py) {g : Graph} (hf : Facts g) {obj : Str} {ps : List Property}
    (h : ∀ p ∈ ps, Ok (asAttribute p.name) ∧ Occurs g p.ty ∧ ∀ u ∈ parts p.ty, Handled ctx u) (n : Nat) :
    Ok (parseProps ctx obj ps n) := by
  induction ps generalizing n with
  | nil => exact ok_ok _
  | cons p ps ih =>
    obtain ⟨h1, h2, h3⟩ := h p (by simp)
    refine Ok.bind (h1.bind fun _ _ => (parseValue_ok hs hf h2 h3 ..).bind fun ⟨parsing, m⟩ _ => ok_pure _) fun ⟨c, m⟩ _ => ?_
    exact (ih (fun p hp => h p (by simp [hp])) m).bind fun _ _ => ok_pure _

section
variable {g : Graph} {py : Py} (hw : Writable g) (hs : Settings py)
include hw

theorem handled_of {registry : Str → Except Exc Expr} {o : Owner} (hreg : ∀ n, Refers g o n → Ok (registry n)) {p : Property}
    (hp : p ∈ ownerProps g o) : ∀ u ∈ parts p.ty, Handled ⟨g, py, registry⟩ u := by
  intro u hu
  have ho : Occurs g u := (occurs_owner hp).part hu
  refine ⟨?_, ?_⟩
  · rintro n rfl
    exact hreg n (refers_class hp hu)
  · rintro n rfl
    refine ⟨hw.facts.variable_ok (hw.facts.type_mem ho (.inr rfl)), ?_⟩
    obtain ⟨l, h1, hl⟩ := referencesOf_ok g (.embed n)
    exact ⟨l, h1, fun m hm => hreg m (refers_embed hp hu ((mem_references hl m).1 hm))⟩

theorem registryParam_ok {n : Str} (h : ∃ c ∈ g.classes, c.name = n) : Ok (registryParam g n) := by
  obtain ⟨c, hm, hc⟩ := find_class h
  unfold registryParam
  rw [hc]
  exact (asVariable_ok_iff.2 (hw.plurals c hm)).bind fun _ _ => ok_pure _

theorem registryAttr_ok {n : Str} (h : ∃ c ∈ g.classes, c.name = n) : Ok (registryAttr g n) := by
  obtain ⟨c, hm, hc⟩ := find_class h
  unfold registryAttr
  rw [hc]
  exact (hw.facts.plural_ok hm).bind fun _ _ => ok_pure _

include hs

theorem parseComposite_ok {o : Owner} (ho : o ∈ definitionOrder g) {b : Bool} : Ok (parseComposite g py o (ownerName g o) b) := by
  unfold parseComposite
  obtain ⟨refs, h1, h2⟩ := referencesOf_ok g o
  have hk : ∀ n ∈ refs, ∃ c ∈ g.classes, c.name = n := fun n hn => refers_known hw.facts.resolves ((mem_references h2 n).1 hn)
  refine Ok.bind ⟨refs, h1⟩ fun refs' e => ?_
  rw [h1] at e
  cases e
  refine (Ok.mapM fun n hn => registryParam_ok hw (hk n hn)).bind fun _ _ => ?_
  refine (parseProps_ok hs hw.facts (fun p hp => ⟨hw.facts.attribute_ok hp, occurs_owner hp, handled_of hw ?_ hp⟩) 0).bind fun _ _ => ?_
  · intro n hrn
    have hm : n ∈ refs := (mem_references h2 n).2 hrn
    simp only [hm, if_true]
    exact (registryParam_ok hw (hk n hm)).bind fun _ _ => ok_pure _
  exact (hw.facts.variable_ok (owner_name_mem ho)).bind fun _ _ => ok_pure _

theorem parseGraph_ok : Ok (parseGraph g py) := by
  unfold parseGraph
  refine (parseProps_ok hs hw.facts (fun p hp => ⟨hw.facts.attribute_ok (o := .graph) hp, occurs_owner (o := .graph) hp,
    handled_of (o := .graph) hw ?_ hp⟩) 0).bind fun _ _ => ?_
  · intro n hrn
    exact registryAttr_ok hw (refers_known hw.facts.resolves hrn)
  refine (hw.facts.variable_ok graph_name_mem).bind fun _ _ => 
    (Ok.mapM fun c hc => ?_).bind fun _ _ => (Ok.mapM fun c hc => ?_).bind fun _ _ => ok_pure _
  · exact ((jsonPlural_ok_iff _).2 (hw.plurals c hc)).bind fun _ _ => (hw.facts.plural_ok hc).bind fun _ _ =>
      (hw.facts.variable_ok (class_name_mem hc)).bind fun _ _ => ok_pure _
  · obtain ⟨refs, r1, r2⟩ := referencesOf_ok g (.cls c.name)
    refine ((jsonPlural_ok_iff _).2 (hw.plurals c hc)).bind fun _ _ =>
      (hw.facts.plural_ok hc).bind fun _ _ => (hw.facts.variable_ok (class_name_mem hc)).bind fun _ _ =>
      Ok.bind ⟨refs, r1⟩ fun refs' e => ?_
    rw [r1] at e
    cases e
    exact (Ok.mapM fun n hn => registryAttr_ok hw (refers_known hw.facts.resolves ((mem_references r2 n).1 hn))).bind
      fun _ _ => ok_pure _

theorem fromJsonable_ok : Ok (fromJsonable g py) := by
  unfold fromJsonable
  refine (Ok.mapM fun c hc => ?_).bind fun _ _ => (Ok.mapM fun e he => ?_).bind fun _ _ =>
    (parseGraph_ok hw hs).bind fun _ _ => ok_pure _
  · exact parseComposite_ok hw hs (o := .cls c.name) (comp_order (class_comp hc))
  · exact parseComposite_ok hw hs (o := .embed e.name) (comp_order (embed_comp ⟨e, he, rfl⟩))

omit hw in
theorem serializationExpr_ok {t : Ty} (h : ∀ n, t = .embed n → Ok (asVariable n)) (value : Expr) :
    Ok (serializationExpr py value t) := by
  cases t with
  | path p => exact (pathlib_ok hs).bind fun _ _ => ok_pure _
  | timeZone => exact (pytz_ok hs).bind fun _ _ => ok_pure _
  | embed n => exact (h n rfl).bind fun _ _ => ok_pure _
  | _ => exact ok_ok _

omit hw in
theorem serializeValue_ok {t : Ty} (h : ∀ u ∈ parts t, ∀ n, u = .embed n → Ok (asVariable n)) (tgt : Target) (value : Expr)
    (n : Nat) : Ok (serializeValue py t tgt value n) := by
  have leaf : ∀ {t : Ty}, (∀ n, t = .embed n → Ok (asVariable n)) → (∀ u lo hi, t ≠ .array u lo hi) → (∀ u, t ≠ .map u) →
      ∀ tgt value n, Ok (serializeValue py t tgt value n) := by
    intro t he h1 h2 tgt value n
    have : serializeValue py t tgt value n = (do
      match ← serializationExpr py value t with
      | some e => pure (.assign tgt e, n)
      | none => .error (.notImplemented [])) := by
      cases t <;> first | rfl | exact absurd rfl (h1 _ _ _) | exact absurd rfl (h2 _)
    rw [this]
    refine (serializationExpr_ok hs he value).bind fun e he' => ?_
    cases e with
    | some e => exact ok_pure _
    | none =>
      exfalso
      cases t with
      | array u lo hi => exact h1 _ _ _ rfl
      | map u => exact h2 _ rfl
      | path p =>
        obtain ⟨_, _, he'⟩ := ok_bind he'
        cases he'
      | timeZone =>
        obtain ⟨_, _, he'⟩ := ok_bind he'
        cases he'
      | embed n =>
        obtain ⟨_, _, he'⟩ := ok_bind he'
        cases he'
      | _ => cases he'
  induction t generalizing tgt value n with
  | array t lo hi ih =>
    unfold serializeValue
    split
    · exact ok_ok _
    · refine (serializationExpr_ok hs (fun n hn => h t (by simp [parts, self_mem_parts]) n hn) _).bind fun e _ => ?_
      cases e with
      | some e => exact ok_pure _
      | none => exact (ih (fun u hu => h u (by simp [parts, hu])) ..).bind fun _ _ => ok_pure _
  | map t ih =>
    unfold serializeValue
    refine Ok.bind ((serializationExpr_ok hs (fun n hn => h t (by simp [parts, self_mem_parts]) n hn) _).bind fun e _ => ?_)
      fun _ _ => ok_pure _
    cases e with
    | some e => exact ok_pure _
    | none => exact (ih (fun u hu => h u (by simp [parts, hu])) ..).bind fun _ _ => ok_pure _
  | embed n => exact leaf (fun m hm => h _ (self_mem_parts _) m hm) (by simp) (by simp) ..
  | _ => exact leaf (by simp) (by simp) (by simp) ..

omit hw in
theorem serializeProps_ok (hf : Facts g) {field : Property → Except Exc Str} {ps : List Property} {o : Owner}
    (h : ∀ p ∈ ps, p ∈ ownerProps g o) (hx : ∀ p ∈ ps, Ok (field p)) (n : Nat) :
    Ok (serializeProps py field ps n) := by
  induction ps generalizing n with
  | nil => exact ok_ok _
  | cons p ps ih =>
    have hp := h p (by simp)
    refine (hx p (by simp)).bind fun _ _ => Ok.bind ((serializeValue_ok hs (fun u hu m hm =>
      hf.variable_ok (hf.type_mem ((occurs_owner hp).part hu) (.inr hm))) ..).bind
      fun _ _ => (hf.attribute_ok hp).bind fun _ _ => ok_pure _) fun ⟨c, m⟩ _ => ?_
    exact (ih (fun p hp => h p (by simp [hp])) (fun p hp => hx p (by simp [hp])) m).bind fun _ _ => ok_pure _

theorem toJsonable_ok : Ok (toJsonable g py) := by
  have hf := hw.facts
  unfold toJsonable
  refine (Ok.mapM fun c hc => ?_).bind fun _ _ => (Ok.mapM fun e he => ?_).bind fun _ _ => Ok.bind ?_ fun _ _ => ok_pure _
  · exact (serializeProps_ok hs hf (class_props hf hc) (fun _ _ => ok_ok _) 0).bind fun _ _ =>
      (hf.variable_ok (class_name_mem hc)).bind fun _ _ => ok_pure _
  · exact (serializeProps_ok hs hf (embed_props hf he) (fun _ _ => ok_ok _) 0).bind fun _ _ =>
      (hf.variable_ok (embed_name_mem he)).bind fun _ _ => ok_pure _
  · refine (serializeProps_ok (o := .graph) hs hf (fun p hp => hp) (fun p hp => hf.attribute_ok (o := .graph) hp) 0).bind
      fun _ _ => (hf.variable_ok graph_name_mem).bind fun _ _ => (Ok.mapM fun c hc => ?_).bind fun _ _ => ok_pure _
    exact (hf.composite_ok (class_name_mem hc)).bind fun _ _ => (asVariable_ok_iff.2 (hw.plurals c hc)).bind fun _ _ =>
      (hf.plural_ok hc).bind fun _ _ =>
      (hf.variable_ok (class_name_mem hc)).bind fun _ _ => ((jsonPlural_ok_iff _).2 (hw.plurals c hc)).bind fun _ _ => ok_pure _

end

/-- When the code of the parser is generated. -/
theorem parser_ok_iff {g : Graph} {py : Py} (hf : Facts g) (hs : Settings py) :
    Ok (parser g py) ↔ ∀ c ∈ g.classes, Capital c.plural := by
  constructor
  · rintro ⟨P, h⟩ c hc
    unfold parser at h
    obtain ⟨_, _, h⟩ := ok_bind h
    obtain ⟨_, _, h⟩ := ok_bind h
    obtain ⟨_, h, _⟩ := ok_bind h
    unfold fromJsonable at h
    obtain ⟨_, _, h⟩ := ok_bind h
    obtain ⟨_, _, h⟩ := ok_bind h
    obtain ⟨_, h, _⟩ := ok_bind h
    unfold parseGraph at h
    obtain ⟨_, _, h⟩ := ok_bind h
    obtain ⟨_, _, h⟩ := ok_bind h
    obtain ⟨_, h, _⟩ := ok_bind h
    obtain ⟨s, hs⟩ := GoCode.mapM_mem' h hc
    exact (jsonPlural_ok_iff _).1 (Ok.of_bind ⟨s, hs.2⟩)
  · intro hc
    exact (types_ok hf).bind fun _ _ => (parse_ok hf).bind fun _ _ => (fromJsonable_ok ⟨hf, hc⟩ hs).bind fun _ _ => ok_pure _

/-- When the code of the serializer is generated. -/
theorem writer_ok_iff {g : Graph} {py : Py} (hf : Facts g) (hs : Settings py) :
    Ok (writer g py) ↔ ∀ c ∈ g.classes, Capital c.plural := by
  constructor
  · rintro ⟨P, h⟩ c hc
    unfold writer at h
    obtain ⟨_, _, h⟩ := ok_bind h
    obtain ⟨_, h, _⟩ := ok_bind h
    unfold toJsonable at h
    obtain ⟨_, _, h⟩ := ok_bind h
    obtain ⟨_, _, h⟩ := ok_bind h
    obtain ⟨_, h, _⟩ := ok_bind h
    unfold serializeGraph at h
    obtain ⟨_, _, h⟩ := ok_bind h
    obtain ⟨_, _, h⟩ := ok_bind h
    obtain ⟨_, h, _⟩ := ok_bind h
    obtain ⟨s, hs⟩ := GoCode.mapM_mem' h hc
    have hs := hs.2
    unfold serializeRegistry at hs
    obtain ⟨_, _, hs⟩ := ok_bind hs
    exact asVariable_ok_iff.1 (Ok.of_bind ⟨s, hs⟩)
  · intro hc
    exact (types_ok hf).bind fun _ _ => (toJsonable_ok ⟨hf, hc⟩ hs).bind fun _ _ => ok_pure _

end Mapry.PyGen
