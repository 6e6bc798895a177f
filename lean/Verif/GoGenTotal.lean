import Verif.GoGen
import Verif.GoTotal
import Verif.GoFuncs
import Verif.Props.Naming

/-!
# The code of the Go serializer is generated whenever the package is
-/

namespace Mapry.GoGen

open Mapry.GoLang Mapry.TypeGraph Mapry.Naming
open Mapry.Props (C01_ucamel_case_ok_iff)
open Mapry.GoCode (Ok ok_ok ok_pure Convertible Resolves formatOf mapM_cons mapM_mem)

theorem value_gen {t : Ty} (hf : ∀ u ∈ parts t, ∀ f, formatOf u = some f → Ok (Strftime.convert f))
    (he : ∀ u ∈ parts t, ∀ n, u = .embed n → Ok (ucamelCase n)) (target : Place) (value : Expr) (n : Nat) :
    Ok (serializeValue t target value n) := by
  have dt : ∀ {f : Str}, Ok (Strftime.convert f) → ∀ target value (n : Nat),
      Ok ((serializeDateTime f target value).bind fun s => pure (s, n)) := by
    intro f h target value n
    exact (h.bind fun _ _ => ok_pure _).bind fun _ _ => ok_pure _
  induction t generalizing target value n with
  | date f => exact dt (hf _ (self_mem_parts _) f rfl) ..
  | time f => exact dt (hf _ (self_mem_parts _) f rfl) ..
  | datetime f => exact dt (hf _ (self_mem_parts _) f rfl) ..
  | array t lo hi ih =>
    exact (ih (fun u hu => hf u (by simp [parts, hu])) (fun u hu => he u (by simp [parts, hu])) ..).bind
      fun _ _ => ok_pure _
  | map t ih =>
    exact (ih (fun u hu => hf u (by simp [parts, hu])) (fun u hu => he u (by simp [parts, hu])) ..).bind
      fun _ _ => ok_pure _
  | embed e => exact (he _ (self_mem_parts _) e rfl).bind fun _ _ => ok_pure _
  | _ => exact ok_ok _

theorem props_gen {g : Graph} (hr : Resolves g) (hc : Convertible g) {ps : List Property}
    (h : ∀ p ∈ ps, Ok (ucamelCase p.name) ∧ Occurs g p.ty) (n : Nat) : Ok (serializeProps ps n) := by
  induction ps generalizing n with
  | nil => exact ok_ok _
  | cons p ps ih =>
    obtain ⟨h1, h2⟩ := h p (by simp)
    refine Ok.bind (h1.bind fun _ _ => (value_gen (fun u hu f hf => hc.formats u f (h2.part hu) hf)
      (fun u hu n hn => GoCode.camel_occurs hr hc (h2.part hu) (.inr hn)) ..).bind fun _ _ => ok_pure _) ?_
    intro ⟨c, m⟩ _
    exact (ih (fun p hp => h p (by simp [hp])) m).bind fun _ _ => ok_pure _

/-- The code is generated. -/
theorem writer_gen {g : Graph} (hr : Resolves g) (hc : Convertible g) : Ok (writer g) := by
  have oc : ∀ c ∈ g.classes, ∀ p ∈ c.properties, Occurs g p.ty := fun c hc p hp => .cls c p hc hp (self_mem_parts _)
  have oe : ∀ e ∈ g.embeds, ∀ p ∈ e.properties, Occurs g p.ty := fun c hc p hp => .embed c p hc hp (self_mem_parts _)
  have og : ∀ p ∈ g.properties, Occurs g p.ty := fun p hp => .graph p hp (self_mem_parts _)
  unfold writer
  refine (Ok.mapM fun c hm => ?_).bind fun _ _ => (Ok.mapM fun e he => ?_).bind fun _ _ => Ok.bind ?_ fun _ _ => ok_pure _
  · exact (props_gen hr hc (fun p hp => ⟨hc.classProps c hm p hp, oc c hm p hp⟩) 0).bind fun _ _ =>
      (hc.classes c hm).1.bind fun _ _ => ok_pure _
  · exact (props_gen hr hc (fun p hp => ⟨hc.embedProps e he p hp, oe e he p hp⟩) 0).bind fun _ _ =>
      (hc.embeds e he).bind fun _ _ => ok_pure _
  · unfold serializeGraph
    refine (props_gen hr hc (fun p hp => ⟨hc.graphProps p hp, og p hp⟩) 0).bind fun _ _ =>
      (Ok.mapM fun c hm => ?_).bind fun _ _ => hc.graph.bind fun _ _ => ok_pure _
    obtain ⟨h1, h2, h3, h4, h5⟩ := hc.classes c hm
    exact h3.bind fun _ _ => h2.bind fun _ _ => h1.bind fun _ _ => h5.bind fun _ _ => ok_pure _

theorem composite_name {name : Str} {ps : List Property} {F : Func} (h : serializeComposite name ps = .ok F) :
    F.name = camelSpec true name ++ c!"ToJSONable" := by
  unfold serializeComposite at h
  obtain ⟨_, _, h⟩ := GoCode.ok_bind h
  obtain ⟨f, hf, h⟩ := GoCode.ok_bind h
  cases h
  rw [((C01_ucamel_case_ok_iff _ _).1 hf).2]

theorem composite_names {α : Type} (name : α → Str) (ps : α → List Property) : ∀ {xs : List α} {Fs : List Func},
    xs.mapM (fun c => serializeComposite (name c) (ps c)) = .ok Fs →
    Fs.map (·.name) = xs.map fun c => camelSpec true (name c) ++ c!"ToJSONable"
  | [], _, h => by cases h; rfl
  | x :: xs, _, h => by
    obtain ⟨b, bs, hb, hbs, rfl⟩ := mapM_cons h
    simp [composite_name hb, composite_names name ps hbs]

/-- The names of the functions -/
theorem writer_names {g : Graph} {P : Program} (h : writer g = .ok P) : P.funcs.map (·.name) =
    (g.classes.map (·.name) ++ g.embeds.map (·.name) ++ [g.name]).map fun n => camelSpec true n ++ c!"ToJSONable" := by
  unfold writer at h
  obtain ⟨cs, h1, h⟩ := GoCode.ok_bind h
  obtain ⟨es, h2, h⟩ := GoCode.ok_bind h
  obtain ⟨F, h3, h⟩ := GoCode.ok_bind h
  cases h
  unfold serializeGraph at h3
  obtain ⟨_, _, h3⟩ := GoCode.ok_bind h3
  obtain ⟨_, _, h3⟩ := GoCode.ok_bind h3
  obtain ⟨f, hf, h3⟩ := GoCode.ok_bind h3
  cases h3
  simp only [List.map_append, composite_names _ _ h1, composite_names _ _ h2, ((C01_ucamel_case_ok_iff _ _).1 hf).2,
    List.map_map, List.map_cons, List.map_nil]
  rfl

/-- They are distinct if the identifiers of the composites are. -/
theorem writer_nodup {g : Graph} {P : Program} (h : writer g = .ok P)
    (hn : ((g.name :: (g.classes.map (·.name) ++ g.embeds.map (·.name))).map (camelSpec true)).Nodup) :
    (P.funcs.map (·.name)).Nodup := by
  rw [writer_names h]
  have h1 : ((g.classes.map (·.name) ++ g.embeds.map (·.name) ++ [g.name]).map (camelSpec true)).Nodup := by
    refine (List.Perm.nodup_iff (List.Perm.map _ ?_)).1 hn
    exact (List.perm_append_comm (l₁ := [g.name]))
  have h2 : (((g.classes.map (·.name) ++ g.embeds.map (·.name) ++ [g.name]).map (camelSpec true)).map
      fun u => u ++ c!"ToJSONable").Nodup :=
    List.Pairwise.map (S := (· ≠ ·)) (fun u => u ++ c!"ToJSONable")
      (fun a b (hab : a ≠ b) e => hab (List.append_cancel_right e)) h1
  rw [List.map_map] at h2
  exact h2

end Mapry.GoGen
