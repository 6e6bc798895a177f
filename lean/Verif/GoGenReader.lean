import Verif.GoGenTotal
import Verif.GoPatterns

/-!
# The code of the Go parser is generated whenever the package is
-/

namespace Mapry.GoGen

open Mapry.GoLang Mapry.TypeGraph Mapry.Naming
open Mapry.Props (C01_ucamel_case_ok_iff)
open Mapry.GoCode (Ok ok_ok ok_pure Convertible Bounded Resolves formatOf mapM_cons mapM_mem Rounds boundsOf HasPattern
  enumeratePatterns)

/-- What the code of a type needs. -/
structure Needs (ctx : Ctx) (t : Ty) : Prop where
  bounds : ∀ b ∈ boundsOf t, Rounds b
  formats : ∀ f, formatOf t = some f → Ok (Strftime.convert f)
  patterns : ∀ p, t = .string (some p) ∨ t = .path (some p) → Ok (uidOf ctx.uids p)
  cls : ∀ c, t = .cls c → Ok (ctx.registry c) ∧ Ok (ucamelCase c)
  embed : ∀ e, t = .embed e → (∃ refs, GoCode.referencesOf ctx.graph (.embed e) = .ok refs ∧ Ok (refs.mapM ctx.registry)) ∧ Ok (ucamelCase e)

theorem parse_gen {ctx : Ctx} {t : Ty} (h : ∀ u ∈ parts t, Needs ctx u) (value : Expr) (target : Place) (ref : List Expr) (n : Nat) :
    Ok (parseValue ctx t value target ref n) := by
  have dt : ∀ {t : Ty} {f : Str}, Needs ctx t → formatOf t = some f → ∀ value target ref n, Ok (parseDateTime f value target ref n) := by
    intro t f ht hf value target ref n
    exact (ht.formats f hf).bind fun _ _ => ok_pure _
  have text : ∀ {t : Ty} {p : Option Str}, Needs ctx t → t = .string p ∨ t = .path p → ∀ value target ref n,
      Ok (parseText ctx p value target ref n) := by
    intro t p ht hp value target ref n
    cases p with
    | none => exact ok_pure _
    | some p => exact (ht.patterns p hp).bind fun _ _ => ok_pure _
  induction t generalizing value target ref n with
  | float b =>
    have hb := (h _ (self_mem_parts _)).bounds
    exact ((GoCode.formatFloat_ok_iff _).2 fun i hi => hb i (by simp [boundsOf, Option.mem_def.1 hi])).bind fun _ _ =>
      ((GoCode.formatFloat_ok_iff _).2 fun i hi => hb i (by simp [boundsOf, Option.mem_def.1 hi])).bind fun _ _ => ok_pure _
  | string p => exact text (h _ (self_mem_parts _)) (.inl rfl) ..
  | path p => exact text (h _ (self_mem_parts _)) (.inr rfl) ..
  | date f => exact dt (h _ (self_mem_parts _)) rfl ..
  | time f => exact dt (h _ (self_mem_parts _)) rfl ..
  | datetime f => exact dt (h _ (self_mem_parts _)) rfl ..
  | array t lo hi ih => exact (ih (fun u hu => h u (by simp [parts, hu])) ..).bind fun _ _ => ok_pure _
  | map t ih => exact (ih (fun u hu => h u (by simp [parts, hu])) ..).bind fun _ _ => ok_pure _
  | cls c =>
    obtain ⟨h1, h2⟩ := (h _ (self_mem_parts _)).cls c rfl
    exact h1.bind fun _ _ => h2.bind fun _ _ => ok_pure _
  | embed e =>
    obtain ⟨⟨refs, h1, h2⟩, h3⟩ := (h _ (self_mem_parts _)).embed e rfl
    refine Ok.bind ⟨refs, h1⟩ fun refs' e => ?_
    rw [h1] at e
    cases e
    exact h2.bind fun _ _ => h3.bind fun _ _ => ok_pure _
  | _ => exact ok_ok _

theorem readProps_gen {ctx : Ctx} {ps : List Property}
    (h : ∀ p ∈ ps, Ok (ucamelCase p.name) ∧ ∀ u ∈ parts p.ty, Needs ctx u) (n : Nat) : Ok (parseProps ctx ps n) := by
  induction ps generalizing n with
  | nil => exact ok_ok _
  | cons p ps ih =>
    obtain ⟨h1, h2⟩ := h p (by simp)
    have hp : Ok (parseProperty ctx p n) := h1.bind fun _ _ => (parse_gen h2 ..).bind fun _ _ => ok_pure _
    exact hp.bind fun ⟨c, m⟩ _ => (ih (fun p hp => h p (by simp [hp])) m).bind fun _ _ => ok_pure _

theorem uid_gen {g : Graph} {p : Str} (h : HasPattern g p) : Ok (uidOf (enumeratePatterns g) p) := by
  obtain ⟨n, h1, _⟩ := GoCode.lookup_mem (((GoCode.patterns_enumerated g).2.2 p).2 h)
  exact ⟨n, by unfold uidOf; rw [h1]⟩

/-- The pattern which is compiled for an identifier is the one which has the identifier. -/
theorem uid_compiled {g : Graph} {p : Str} {n : Nat} (h : uidOf (enumeratePatterns g) p = .ok n) :
    compiled (enumeratePatterns g) n = p := by
  unfold uidOf at h
  cases hl : (enumeratePatterns g).lookup p with
  | none => rw [hl] at h; cases h
  | some m =>
    rw [hl] at h
    cases h
    have hm : (p, n) ∈ enumeratePatterns g := by
      have hk : p ∈ (enumeratePatterns g).map (·.1) := by
        refine Decidable.byContradiction fun hn => ?_
        have := List.lookup_eq_none_iff.2 (fun q (hq : q ∈ enumeratePatterns g) => by
          have : q.1 ≠ p := fun e => hn (e ▸ List.mem_map_of_mem hq)
          exact by simpa using fun e => this (Eq.symm e))
        rw [this] at hl
        cases hl
      obtain ⟨k, h1, h2⟩ := GoCode.lookup_mem hk
      rw [hl] at h1
      cases h1
      exact h2
    have hv := (GoCode.patterns_enumerated g).2.1
    have key : ∀ {l : List (Str × Nat)}, (l.map (·.2)).Nodup → (p, n) ∈ l → l.find? (fun e => e.2 == n) = some (p, n) := by
      intro l hl hm
      induction l with
      | nil => cases hm
      | cons e l ih =>
        rw [List.map_cons, List.nodup_cons] at hl
        rw [List.find?_cons]
        rcases List.mem_cons.1 hm with rfl | hm
        · simp
        · have : (e.2 == n) = false := by
            simp only [beq_eq_false_iff_ne]
            intro h
            exact hl.1 (h ▸ List.mem_map_of_mem hm)
          rw [this]
          exact ih hl.2 hm
    unfold compiled
    rw [key hv hm]

/-- Every type in a composite is handled if the registries of the references of the composite are there. -/
theorem needs_of {g : Graph} (hr : Resolves g) (hc : Convertible g) (hb : Bounded g) {registry : Str → Except Exc Expr} {o : Owner}
    (hreg : ∀ n, Refers g o n → Ok (registry n)) {p : Property} (hp : p ∈ ownerProps g o) :
    ∀ u ∈ parts p.ty, Needs ⟨g, enumeratePatterns g, registry⟩ u := by
  intro u hu
  have ho : Occurs g u := (occurs_owner hp).part hu
  refine ⟨fun b => hb u b ho, fun f hf => hc.formats u f ho hf, fun p hp => uid_gen (.inl ⟨u, ho, hp⟩), ?_, ?_⟩
  · rintro n rfl
    exact ⟨hreg n (refers_class hp hu), GoCode.camel_occurs hr hc ho (.inl rfl)⟩
  · rintro n rfl
    refine ⟨?_, GoCode.camel_occurs hr hc ho (.inr rfl)⟩
    obtain ⟨refs, h1, h2⟩ := GoCode.referencesOf_ok g (.embed n)
    exact ⟨refs, h1, Ok.mapM fun m hm => hreg m (refers_embed hp hu ((mem_references h2 m).1 hm))⟩

theorem parseComposite_gen {g : Graph} (hr : Resolves g) (hc : Convertible g) (hb : Bounded g) {o : Owner} {name : Str} {b : Bool}
    (hname : Ok (ucamelCase name)) : Ok (parseComposite g (enumeratePatterns g) o name (ownerProps g o) b) := by
  unfold parseComposite
  obtain ⟨refs, h1, h2⟩ := GoCode.referencesOf_ok g o
  have hk : ∀ n ∈ refs, ∃ c ∈ g.classes, c.name = n := fun n hn => GoCode.refers_known hr ((mem_references h2 n).1 hn)
  refine Ok.bind ⟨refs, h1⟩ fun refs' e => ?_
  rw [h1] at e
  cases e
  refine (Ok.mapM fun n hn => GoCode.registryParam_ok hc (hk n hn)).bind fun _ _ => ?_
  refine (readProps_gen (fun p hp => ⟨GoCode.props_of hc hp, needs_of hr hc hb ?_ hp⟩) 0).bind fun _ _ => ?_
  · intro n hrn
    have hm : n ∈ refs := (mem_references h2 n).2 hrn
    simp only [hm, if_true]
    exact (GoCode.registryParam_ok hc (hk n hm)).bind fun _ _ => ok_pure _
  exact hname.bind fun _ _ => ok_pure _

theorem parseGraph_gen {g : Graph} (hr : Resolves g) (hc : Convertible g) (hb : Bounded g) :
    Ok (parseGraph g (enumeratePatterns g)) := by
  unfold parseGraph
  refine (Ok.mapM fun c hm => ?_).bind fun _ _ => ?_
  · obtain ⟨h1, h2, h3, h4, h5⟩ := hc.classes c hm
    refine h4.bind fun _ _ => h3.bind fun _ _ => h5.bind fun _ _ => ?_
    cases hp : c.idPattern with
    | none => exact ok_pure _
    | some p => exact (uid_gen (.inr ⟨c, hm, hp⟩)).bind fun _ _ => ok_pure _
  refine (Ok.mapM fun c hm => ?_).bind fun _ _ => ?_
  · obtain ⟨h1, h2, h3, h4, h5⟩ := hc.classes c hm
    obtain ⟨refs, r1, r2⟩ := GoCode.referencesOf_ok g (.cls c.name)
    refine h4.bind fun _ _ => h3.bind fun _ _ => h1.bind fun _ _ => Ok.bind ⟨refs, r1⟩ fun refs' e => ?_
    rw [r1] at e
    cases e
    exact (Ok.mapM fun n hn => GoCode.pluralField_ok hc (GoCode.refers_known hr ((mem_references r2 n).1 hn))).bind fun _ _ => ok_pure _
  refine (readProps_gen (fun p hp => ⟨hc.graphProps p hp, needs_of (o := .graph) hr hc hb ?_ hp⟩) 0).bind fun _ _ => ?_
  · intro n hrn
    exact (GoCode.pluralField_ok hc (GoCode.refers_known hr hrn)).bind fun _ _ => ok_pure _
  exact hc.graph.bind fun _ _ => ok_pure _

theorem ownerProps_cls {g : Graph} (hn : Named g) {c : Class} (hc : c ∈ g.classes) : ownerProps g (.cls c.name) = c.properties := by
  have : g.cls? c.name = some c := TypeGraph.find_unique (fun c : Class => c.name) hn.classes hc
  rw [ownerProps, this]
  rfl

theorem ownerProps_embed {g : Graph} (hn : Named g) {e : Embed} (he : e ∈ g.embeds) : ownerProps g (.embed e.name) = e.properties := by
  have : g.embed? e.name = some e := TypeGraph.find_unique (fun c : Embed => c.name) hn.embeds he
  rw [ownerProps, this]
  rfl

/-- The code is generated. -/
theorem reader_gen {g : Graph} (hn : Named g) (hr : Resolves g) (hc : Convertible g) (hb : Bounded g) : Ok (reader g) := by
  unfold reader
  refine (Ok.mapM fun c hm => ?_).bind fun _ _ => (Ok.mapM fun e he => ?_).bind fun _ _ => (parseGraph_gen hr hc hb).bind
    fun _ _ => ok_pure _
  · have := parseComposite_gen (o := .cls c.name) (b := true) hr hc hb (hc.classes c hm).1
    rwa [ownerProps_cls hn hm] at this
  · have := parseComposite_gen (o := .embed e.name) (b := false) hr hc hb (hc.embeds e he)
    rwa [ownerProps_embed hn he] at this

theorem composite_from {g : Graph} {uids : List (Str × Nat)} {o : Owner} {name : Str} {ps : List Property} {b : Bool} {F : Func}
    (h : parseComposite g uids o name ps b = .ok F) : F.name = camelSpec true name ++ c!"FromJSONable" := by
  unfold parseComposite at h
  obtain ⟨_, _, h⟩ := GoCode.ok_bind h
  obtain ⟨_, _, h⟩ := GoCode.ok_bind h
  obtain ⟨_, _, h⟩ := GoCode.ok_bind h
  obtain ⟨f, hf, h⟩ := GoCode.ok_bind h
  cases h
  rw [((C01_ucamel_case_ok_iff _ _).1 hf).2]

theorem composites_from {α : Type} {g : Graph} {uids : List (Str × Nat)} (o : α → Owner) (name : α → Str) (ps : α → List Property)
    (b : Bool) : ∀ {xs : List α} {Fs : List Func}, xs.mapM (fun c => parseComposite g uids (o c) (name c) (ps c) b) = .ok Fs →
    Fs.map (·.name) = xs.map fun c => camelSpec true (name c) ++ c!"FromJSONable"
  | [], _, h => by cases h; rfl
  | x :: xs, _, h => by
    obtain ⟨F, Fs, hF, hFs, rfl⟩ := mapM_cons h
    simp [composite_from hF, composites_from o name ps b hFs]

/-- The names of the functions -/
theorem reader_names {g : Graph} {P : Program} (h : reader g = .ok P) : P.funcs.map (·.name) =
    (g.classes.map (·.name) ++ g.embeds.map (·.name) ++ [g.name]).map fun n => camelSpec true n ++ c!"FromJSONable" := by
  unfold reader at h
  obtain ⟨cs, h1, h⟩ := GoCode.ok_bind h
  obtain ⟨es, h2, h⟩ := GoCode.ok_bind h
  obtain ⟨F, h3, h⟩ := GoCode.ok_bind h
  cases h
  unfold parseGraph at h3
  obtain ⟨_, _, h3⟩ := GoCode.ok_bind h3
  obtain ⟨_, _, h3⟩ := GoCode.ok_bind h3
  obtain ⟨_, _, h3⟩ := GoCode.ok_bind h3
  obtain ⟨f, hf, h3⟩ := GoCode.ok_bind h3
  cases h3
  simp only [List.map_append, composites_from (fun c : Class => .cls c.name) _ _ _ h1,
    composites_from (fun e : Embed => .embed e.name) _ _ _ h2, ((C01_ucamel_case_ok_iff _ _).1 hf).2, List.map_map, List.map_cons,
    List.map_nil]
  rfl

/-- They are distinct if the identifiers of the composites are. -/
theorem reader_nodup {g : Graph} {P : Program} (h : reader g = .ok P)
    (hn : ((g.name :: (g.classes.map (·.name) ++ g.embeds.map (·.name))).map (camelSpec true)).Nodup) :
    (P.funcs.map (·.name)).Nodup := by
  rw [reader_names h]
  have h1 : ((g.classes.map (·.name) ++ g.embeds.map (·.name) ++ [g.name]).map (camelSpec true)).Nodup := by
    refine (List.Perm.nodup_iff (List.Perm.map _ ?_)).1 hn
    exact (List.perm_append_comm (l₁ := [g.name]))
  have h2 : (((g.classes.map (·.name) ++ g.embeds.map (·.name) ++ [g.name]).map (camelSpec true)).map
      fun u => u ++ c!"FromJSONable").Nodup :=
    List.Pairwise.map (S := (· ≠ ·)) (fun u => u ++ c!"FromJSONable")
      (fun a b (hab : a ≠ b) e => hab (List.append_cancel_right e)) h1
  rw [List.map_map] at h2
  exact h2

/-- What the program consists of -/
theorem reader_parts {g : Graph} {P : Program} (h : reader g = .ok P) : P.patterns = compiled (enumeratePatterns g) ∧
    (∀ c ∈ g.classes, ∃ F ∈ P.funcs, parseComposite g (enumeratePatterns g) (.cls c.name) c.name c.properties true = .ok F) ∧
    (∀ e ∈ g.embeds, ∃ F ∈ P.funcs, parseComposite g (enumeratePatterns g) (.embed e.name) e.name e.properties false = .ok F) ∧
    ∃ F ∈ P.funcs, parseGraph g (enumeratePatterns g) = .ok F := by
  unfold reader at h
  obtain ⟨cs, h1, h⟩ := GoCode.ok_bind h
  obtain ⟨es, h2, h⟩ := GoCode.ok_bind h
  obtain ⟨F, h3, h⟩ := GoCode.ok_bind h
  cases h
  refine ⟨rfl, fun c hc => ?_, fun e he => ?_, F, by simp, h3⟩
  · obtain ⟨F, hF, hF'⟩ := GoCode.mapM_mem' h1 hc
    exact ⟨F, by simp [hF], hF'⟩
  · obtain ⟨F, hF, hF'⟩ := GoCode.mapM_mem' h2 he
    exact ⟨F, by simp [hF], hF'⟩

end Mapry.GoGen
