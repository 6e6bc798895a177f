import Verif.GoPackage

/-!
# When the Go generators succeed
-/

namespace Mapry.GoCode

open Mapry.TypeGraph Mapry.Naming

/-- A result without an exception. -/
def Ok {α : Type} (x : Except Exc α) : Prop := ∃ a, x = .ok a

theorem Ok.bind {α β : Type} {x : Except Exc α} {f : α → Except Exc β} (h : Ok x) (hf : ∀ a, x = .ok a → Ok (f a)) :
    Ok (x >>= f) := by
  obtain ⟨a, rfl⟩ := h
  exact hf a rfl

theorem ok_ok {α : Type} (a : α) : Ok (.ok a : Except Exc α) := ⟨a, rfl⟩
theorem ok_pure {α : Type} (a : α) : Ok (pure a : Except Exc α) := ⟨a, rfl⟩

theorem Ok.mapM {α β : Type} {f : α → Except Exc β} {l : List α} (h : ∀ a ∈ l, Ok (f a)) : Ok (l.mapM f) := mapM_ok h

theorem Ok.of_bind {α β : Type} {x : Except Exc α} {f : α → Except Exc β} (h : Ok (x >>= f)) : Ok x := by
  obtain ⟨b, hb⟩ := h
  obtain ⟨a, ha, _⟩ := ok_bind hb
  exact ⟨a, ha⟩

/-- The format of a date, a time or a datetime. -/
def formatOf : Ty → Option Str
  | .date f => some f
  | .time f => some f
  | .datetime f => some f
  | _ => none

/-- All the names and formats can be converted. -/
structure Convertible (g : Graph) : Prop where
  graph : Ok (ucamelCase g.name)
  classes : ∀ c ∈ g.classes, Ok (ucamelCase c.name) ∧ Ok (camelCase c.name) ∧ Ok (ucamelCase c.plural) ∧
    Ok (camelCase c.plural) ∧ Ok (jsonPlural c.plural)
  embeds : ∀ e ∈ g.embeds, Ok (ucamelCase e.name)
  graphProps : ∀ p ∈ g.properties, Ok (ucamelCase p.name)
  classProps : ∀ c ∈ g.classes, ∀ p ∈ c.properties, Ok (ucamelCase p.name)
  embedProps : ∀ e ∈ g.embeds, ∀ p ∈ e.properties, Ok (ucamelCase p.name)
  formats : ∀ t f, Occurs g t → formatOf t = some f → Ok (Strftime.convert f)

/-- The bounds of a float. -/
def boundsOf : Ty → List Int
  | .float b => b.min.toList ++ b.max.toList
  | _ => []

/-- The integer rounds to a float. -/
def Rounds (b : Int) : Prop := b.natAbs < 2 ^ 1024 - 2 ^ 970

instance (b : Int) : Decidable (Rounds b) := inferInstanceAs (Decidable (_ < _))

/-- The bounds of the floats round to floats. -/
def Bounded (g : Graph) : Prop := ∀ t b, Occurs g t → b ∈ boundsOf t → Rounds b

theorem formatFloat_ok_iff (b : Option Int) : Ok (formatFloat b) ↔ ∀ i ∈ b, Rounds i := by
  cases b with
  | none => simp [formatFloat, Ok]
  | some b =>
    have e : formatFloat (some b) = if Rounds b then .ok () else .error .overflowError := rfl
    rw [e]
    by_cases h : Rounds b <;> simp [h, Ok]

/-- What the code of a type needs. -/
def Handled (ctx : Ctx) (t : Ty) : Prop :=
  (∀ b ∈ boundsOf t, Rounds b) ∧
  (∀ f, formatOf t = some f → Ok (Strftime.convert f)) ∧
  (∀ c, t = .cls c → Ok (ctx.registry c) ∧ Ok (ucamelCase c)) ∧
  ∀ e, t = .embed e → Ok (embedRegistries ctx e) ∧ Ok (ucamelCase e)

theorem typeNames_ok {t : Ty} (h : ∀ u ∈ parts t, ∀ n, u = .cls n ∨ u = .embed n → Ok (ucamelCase n)) :
    Ok (typeNames t) := by
  induction t with
  | array t lo hi ih => exact ih fun u hu => h u (by simp [parts, hu])
  | map t ih => exact ih fun u hu => h u (by simp [parts, hu])
  | cls n => exact (h _ (self_mem_parts _) n (.inl rfl)).bind fun _ _ => ok_pure _
  | embed n => exact (h _ (self_mem_parts _) n (.inr rfl)).bind fun _ _ => ok_pure _
  | _ => exact ok_ok _

theorem typeNames_of {ctx : Ctx} {t : Ty} (h : ∀ u ∈ parts t, Handled ctx u) : Ok (typeNames t) := by
  refine typeNames_ok fun u hu n hn => ?_
  rcases hn with rfl | rfl
  · exact ((h _ hu).2.2.1 n rfl).2
  · exact ((h _ hu).2.2.2 n rfl).2

theorem parse_ok {ctx : Ctx} {t : Ty} (h : ∀ u ∈ parts t, Handled ctx u) (value : List Name) (tgt : Target)
    (ref : List Name) (n : Nat) : Ok (parseValue ctx t value tgt ref n) := by
  have embed : ∀ {e : Str}, Handled ctx (.embed e) → ∀ value tgt ref n, Ok (parseValue ctx (.embed e) value tgt ref n) := by
    intro e he value tgt ref n
    obtain ⟨h1, h2⟩ := he.2.2.2 e rfl
    exact h1.bind fun _ _ => h2.bind fun _ _ => ok_pure _
  have dt : ∀ {t : Ty} {f : Str}, Handled ctx t → formatOf t = some f → ∀ value tgt ref n, Ok (parseDateTime f value tgt ref n) := by
    intro t f ht hf value tgt ref n
    exact (ht.2.1 f hf).bind fun _ _ => ok_pure _
  induction t generalizing value tgt ref n with
  | float b =>
    have hb := (h _ (self_mem_parts _)).1
    exact ((formatFloat_ok_iff _).2 fun i hi => hb i (by simp [boundsOf, Option.mem_def.1 hi])).bind fun _ _ =>
      ((formatFloat_ok_iff _).2 fun i hi => hb i (by simp [boundsOf, Option.mem_def.1 hi])).bind fun _ _ => ok_pure _
  | date f => exact dt (h _ (self_mem_parts _)) rfl ..
  | time f => exact dt (h _ (self_mem_parts _)) rfl ..
  | datetime f => exact dt (h _ (self_mem_parts _)) rfl ..
  | array t lo hi ih =>
    have ht : ∀ u ∈ parts t, Handled ctx u := fun u hu => h u (by simp [parts, hu])
    exact (ih ht ..).bind fun _ _ => (typeNames_of ht).bind fun _ _ => ok_pure _
  | cls c =>
    obtain ⟨h1, h2⟩ := (h _ (self_mem_parts _)).2.2.1 c rfl
    exact h1.bind fun _ _ => h2.bind fun _ _ => ok_pure _
  | embed e => exact embed (h _ (self_mem_parts _)) ..
  | map t ih =>
    have ht : ∀ u ∈ parts t, Handled ctx u := fun u hu => h u (by simp [parts, hu])
    by_cases he : ∃ e, t = .embed e
    · obtain ⟨e, rfl⟩ := he
      exact (embed (ht _ (self_mem_parts _)) ..).bind fun _ _ => (typeNames_of ht).bind fun _ _ => ok_pure _
    · have : parseValue ctx (.map t) value tgt ref n = (do
        let (item, m) ← parseValue ctx t [vi c!"cast" n, vi c!"k" n]
          ⟨[vi c!"target" n, vi c!"k" n], [], [vi c!"target" n, vi c!"k" n]⟩ (ref ++ [vi c!"k" n]) (n + 1)
        let names ← typeNames t
        pure (castTo (vi c!"cast" n) n value ref
          (otherwise (parseItems names (vi c!"cast" n) (vi c!"k" n) item tgt n)), m)) := by
        cases t <;> first | rfl | exact absurd ⟨_, rfl⟩ he
      rw [this]
      exact (ih ht ..).bind fun _ _ => (typeNames_of ht).bind fun _ _ => ok_pure _
  | _ => exact ok_ok _

theorem parseProps_ok {ctx : Ctx} {ps : List Property}
    (h : ∀ p ∈ ps, Ok (ucamelCase p.name) ∧ ∀ u ∈ parts p.ty, Handled ctx u) (n : Nat) : Ok (parseProps ctx ps n) := by
  induction ps generalizing n with
  | nil => exact ok_ok _
  | cons p ps ih =>
    obtain ⟨h1, h2⟩ := h p (by simp)
    have hp : Ok (parseProperty ctx p n) := by
      refine h1.bind fun _ _ => (parse_ok h2 ..).bind fun ⟨parsing, m⟩ _ => (typeNames_of h2).bind fun _ _ => ?_
      simp only
      split
      · exact ok_pure _
      · split
        · exact ok_pure _
        · exact ok_pure _
    refine hp.bind fun ⟨c, m⟩ _ => (ih (fun p hp => h p (by simp [hp])) m).bind fun _ _ => ok_pure _

theorem refers_known {g : Graph} (hr : Resolves g) {o : Owner} {n : Str} (h : Refers g o n) :
    ∃ c ∈ g.classes, c.name = n := by
  obtain ⟨x, hx, hreach⟩ := h
  obtain ⟨k, p, hp, rfl⟩ := mem_propObjs.1 hx
  have h0 : Known g (resolve o k 0 p.ty) := known_resolve (occurs_owner (List.mem_of_getElem? hp))
  have : Known g (.cls n) := hreach.closed (Known g) h0 fun _ hy _ hc => known_children hy (refChildren_sub hc)
  rcases this with ⟨c, hc, e⟩ | h
  · exact ⟨c, hc, e⟩
  · exact hr.1 n h

theorem find_class {g : Graph} {n : Str} (h : ∃ c ∈ g.classes, c.name = n) : ∃ c ∈ g.classes, g.cls? n = some c := by
  obtain ⟨c, hc, rfl⟩ := h
  cases hf : g.cls? c.name with
  | some d => exact ⟨d, (find_mem hf).1, rfl⟩
  | none =>
    unfold Graph.cls? at hf
    rw [List.find?_eq_none] at hf
    exact absurd (by simp) (hf c hc)

theorem registryParam_ok {g : Graph} (hc : Convertible g) {n : Str} (h : ∃ c ∈ g.classes, c.name = n) :
    Ok (registryParam g n) := by
  obtain ⟨c, hm, hf⟩ := find_class h
  unfold registryParam
  rw [hf]
  exact (hc.classes c hm).2.2.2.1.bind fun _ _ => ok_pure _

theorem pluralField_ok {g : Graph} (hc : Convertible g) {n : Str} (h : ∃ c ∈ g.classes, c.name = n) :
    Ok (pluralField g n) := by
  obtain ⟨c, hm, hf⟩ := find_class h
  unfold pluralField
  rw [hf]
  exact (hc.classes c hm).2.2.1

theorem referencesOf_ok (g : Graph) (o : Owner) : ∃ l, referencesOf g o = .ok l ∧ references? g o = some l := by
  obtain ⟨l, hl⟩ := references_total g o
  exact ⟨l, by unfold referencesOf; rw [hl], hl⟩

theorem camel_occurs {g : Graph} (hr : Resolves g) (hc : Convertible g) {t : Ty} (ht : Occurs g t) {n : Str}
    (h : t = .cls n ∨ t = .embed n) : Ok (ucamelCase n) := by
  rcases h with rfl | rfl
  · obtain ⟨c, hm, rfl⟩ := hr.1 n ht
    exact (hc.classes c hm).1
  · obtain ⟨e, hm, rfl⟩ := hr.2 n ht
    exact hc.embeds e hm

/-- Every type in a composite is handled if the registries of the references of the composite are there. -/
theorem handled_of {g : Graph} (hr : Resolves g) (hc : Convertible g) (hb : Bounded g) {uids : List (Str × Nat)}
    {registry : Str → Except Exc (List Name)} {o : Owner} (hreg : ∀ n, Refers g o n → Ok (registry n)) {p : Property}
    (hp : p ∈ ownerProps g o) : ∀ u ∈ parts p.ty, Handled ⟨g, uids, registry⟩ u := by
  intro u hu
  have ho : Occurs g u := (occurs_owner hp).part hu
  refine ⟨fun b => hb u b ho, fun f hf => hc.formats u f ho hf, ?_, ?_⟩
  · rintro n rfl
    exact ⟨hreg n (refers_class hp hu), camel_occurs hr hc ho (.inl rfl)⟩
  · rintro n rfl
    refine ⟨?_, camel_occurs hr hc ho (.inr rfl)⟩
    obtain ⟨l, hl⟩ := references_total g (.embed n)
    unfold embedRegistries
    simp only [hl]
    refine (Ok.mapM fun m hm => hreg m (refers_embed hp hu ((mem_references hl m).1 hm))).bind fun _ _ => ok_pure _

theorem props_of {g : Graph} (hc : Convertible g) {o : Owner} {p : Property} (hp : p ∈ ownerProps g o) :
    Ok (ucamelCase p.name) := by
  cases o with
  | graph => exact hc.graphProps p hp
  | cls n =>
    simp only [ownerProps] at hp
    cases hf : g.cls? n with
    | none => rw [hf] at hp; cases hp
    | some c => rw [hf] at hp; exact hc.classProps c (find_mem hf).1 p hp
  | embed n =>
    simp only [ownerProps] at hp
    cases hf : g.embed? n with
    | none => rw [hf] at hp; cases hp
    | some c => rw [hf] at hp; exact hc.embedProps c (find_mem hf).1 p hp

theorem parseComposite_ok {g : Graph} (hr : Resolves g) (hc : Convertible g) (hb : Bounded g) {uids : List (Str × Nat)}
    {o : Owner} {name : Str} {b : Bool} (hname : Ok (ucamelCase name)) : Ok (parseComposite g uids o name b) := by
  unfold parseComposite
  obtain ⟨refs, h1, h2⟩ := referencesOf_ok g o
  have hk : ∀ n ∈ refs, ∃ c ∈ g.classes, c.name = n := fun n hn => refers_known hr ((mem_references h2 n).1 hn)
  refine Ok.bind ⟨refs, h1⟩ fun refs' e => ?_
  rw [h1] at e
  cases e
  refine (Ok.mapM fun n hn => registryParam_ok hc (hk n hn)).bind fun _ _ => ?_
  refine (Ok.mapM fun n hn => ?_).bind fun _ _ => ?_
  · obtain ⟨c, hm, rfl⟩ := hk n hn
    exact (hc.classes c hm).1.bind fun _ _ => ok_pure _
  refine (parseProps_ok (fun p hp => ⟨props_of hc hp, handled_of hr hc hb ?_ hp⟩) 0).bind fun _ _ => ?_
  · intro n hrn
    have hm : n ∈ refs := (mem_references h2 n).2 hrn
    simp only [hm, if_true]
    exact (registryParam_ok hc (hk n hm)).bind fun _ _ => ok_pure _
  exact hname.bind fun _ _ => ok_pure _

theorem parseGraph_ok {g : Graph} (hr : Resolves g) (hc : Convertible g) (hb : Bounded g) {uids : List (Str × Nat)} :
    Ok (parseGraph g uids) := by
  unfold parseGraph
  refine (Ok.mapM fun c hm => ?_).bind fun _ _ => ?_
  · obtain ⟨h1, h2, h3, h4, h5⟩ := hc.classes c hm
    exact h4.bind fun _ _ => h3.bind fun _ _ => h1.bind fun _ _ => h5.bind fun _ _ => ok_pure _
  refine (Ok.mapM fun c hm => ?_).bind fun _ _ => ?_
  · obtain ⟨h1, h2, h3, h4, h5⟩ := hc.classes c hm
    obtain ⟨refs, r1, r2⟩ := referencesOf_ok g (.cls c.name)
    refine h4.bind fun _ _ => h3.bind fun _ _ => h1.bind fun _ _ => Ok.bind ⟨refs, r1⟩ fun refs' e => ?_
    rw [r1] at e
    cases e
    exact (Ok.mapM fun n hn => pluralField_ok hc (refers_known hr ((mem_references r2 n).1 hn))).bind fun _ _ => ok_pure _
  refine (parseProps_ok (fun p hp => ⟨hc.graphProps p hp, handled_of (o := .graph) hr hc hb ?_ hp⟩) 0).bind fun _ _ => ?_
  · intro n hrn
    exact (pluralField_ok hc (refers_known hr hrn)).bind fun _ _ => ok_pure _
  exact hc.graph.bind fun _ _ => ok_pure _

theorem serialize_ok {t : Ty} (hf : ∀ u ∈ parts t, ∀ f, formatOf u = some f → Ok (Strftime.convert f))
    (he : ∀ u ∈ parts t, ∀ n, u = .embed n → Ok (ucamelCase n)) (target value : List Name) (n : Nat) :
    Ok (serializeValue t target value n) := by
  have dt : ∀ {f : Str}, Ok (Strftime.convert f) → ∀ target value n, Ok (serializeDateTime f target value n) := by
    intro f h target value n
    exact h.bind fun _ _ => ok_pure _
  induction t generalizing target value n with
  | date f => exact dt (hf _ (self_mem_parts _) f rfl) ..
  | time f => exact dt (hf _ (self_mem_parts _) f rfl) ..
  | datetime f => exact dt (hf _ (self_mem_parts _) f rfl) ..
  | array t lo hi ih =>
    exact (ih (fun u hu => hf u (by simp [parts, hu])) (fun u hu => he u (by simp [parts, hu])) ..).bind
      fun _ _ => ok_pure _
  | map t ih =>
    exact (ih (fun u hu => hf u (by simp [parts, hu])) (fun u hu => he u (by simp [parts, hu])) ..).bind
      fun _ _ => ok_pure _
  | embed e => exact (he _ (self_mem_parts _) e rfl).bind fun _ _ => ok_pure _
  | _ => exact ok_ok _

theorem serializeProps_ok {g : Graph} (hr : Resolves g) (hc : Convertible g) {ps : List Property}
    (h : ∀ p ∈ ps, Ok (ucamelCase p.name) ∧ Occurs g p.ty) (n : Nat) : Ok (serializeProps ps n) := by
  induction ps generalizing n with
  | nil => exact ok_ok _
  | cons p ps ih =>
    obtain ⟨h1, h2⟩ := h p (by simp)
    refine Ok.bind (h1.bind fun _ _ => (serialize_ok (fun u hu f hf => hc.formats u f (h2.part hu) hf)
      (fun u hu n hn => camel_occurs hr hc (h2.part hu) (.inr hn)) ..).bind fun _ _ => ok_pure _) ?_
    intro ⟨c, m⟩ _
    exact (ih (fun p hp => h p (by simp [hp])) m).bind fun _ _ => ok_pure _

theorem fieldNames_ok {g : Graph} (hr : Resolves g) (hc : Convertible g) {ps : List Property}
    (h : ∀ p ∈ ps, Occurs g p.ty) : Ok (fieldNames ps) :=
  (Ok.mapM fun p hp => typeNames_ok fun _ hu _ hn => camel_occurs hr hc ((h p hp).part hu) hn).bind fun _ _ => ok_pure _

/-- All the files are generated. -/
theorem package_ok {g : Graph} (hr : Resolves g) (hc : Convertible g) (hb : Bounded g) : Ok (package g) := by
  have oc : ∀ c ∈ g.classes, ∀ p ∈ c.properties, Occurs g p.ty := fun c hc p hp => .cls c p hc hp (self_mem_parts _)
  have oe : ∀ e ∈ g.embeds, ∀ p ∈ e.properties, Occurs g p.ty := fun c hc p hp => .embed c p hc hp (self_mem_parts _)
  have og : ∀ p ∈ g.properties, Occurs g p.ty := fun p hp => .graph p hp (self_mem_parts _)
  unfold package
  have hT : Ok (typesFile g) := by
    unfold typesFile
    refine (Ok.mapM fun e he => ?_).bind fun _ _ => (Ok.mapM fun c hm => ?_).bind fun _ _ =>
      (fieldNames_ok hr hc og).bind fun _ _ => hc.graph.bind fun _ _ => ok_pure _
    · exact (hc.embeds e he).bind fun _ _ => (fieldNames_ok hr hc (oe e he)).bind fun _ _ => ok_pure _
    · exact (hc.classes c hm).1.bind fun _ _ => (fieldNames_ok hr hc (oc c hm)).bind fun _ _ => ok_pure _
  have hP : Ok (parseFile g) := by
    unfold parseFile
    refine (Ok.mapM fun c hm => ?_).bind fun _ _ => (Ok.mapM fun e he => ?_).bind fun _ _ =>
      (parseGraph_ok hr hc hb).bind fun _ _ => ok_pure _
    · exact parseComposite_ok hr hc hb (hc.classes c hm).1
    · exact parseComposite_ok hr hc hb (hc.embeds e he)
  have hS : Ok (serializeFile g) := by
    unfold serializeFile
    refine (Ok.mapM fun c hm => ?_).bind fun _ _ => (Ok.mapM fun e he => ?_).bind fun _ _ => Ok.bind ?_ fun _ _ => ok_pure _
    · exact (serializeProps_ok hr hc (fun p hp => ⟨hc.classProps c hm p hp, oc c hm p hp⟩) 0).bind fun _ _ =>
        (hc.classes c hm).1.bind fun _ _ => ok_pure _
    · exact (serializeProps_ok hr hc (fun p hp => ⟨hc.embedProps e he p hp, oe e he p hp⟩) 0).bind fun _ _ =>
        (hc.embeds e he).bind fun _ _ => ok_pure _
    · unfold serializeGraph
      refine (serializeProps_ok hr hc (fun p hp => ⟨hc.graphProps p hp, og p hp⟩) 0).bind fun _ _ =>
        (Ok.mapM fun c hm => ?_).bind fun _ _ => hc.graph.bind fun _ _ => ok_pure _
      obtain ⟨h1, h2, h3, h4, h5⟩ := hc.classes c hm
      exact h3.bind fun _ _ => h2.bind fun _ _ => h1.bind fun _ _ => h5.bind fun _ _ => ok_pure _
  exact hT.bind fun _ _ => hP.bind fun _ _ => hS.bind fun _ _ => ok_pure _

/-! ## What the generation needs -/

theorem serialize_formats {t : Ty} {target value : List Name} {n : Nat} (h : Ok (serializeValue t target value n)) :
    ∀ u ∈ parts t, ∀ f, formatOf u = some f → Ok (Strftime.convert f) := by
  induction t generalizing target value n with
  | array t lo hi ih =>
    intro u hu f hf
    rcases List.mem_cons.1 hu with rfl | hu
    · cases hf
    · exact ih h.of_bind u hu f hf
  | map t ih =>
    intro u hu f hf
    rcases List.mem_cons.1 hu with rfl | hu
    · cases hf
    · exact ih h.of_bind u hu f hf
  | date f => intro u hu k hk; rw [List.mem_singleton.1 hu] at hk; cases hk; exact h.of_bind
  | time f => intro u hu k hk; rw [List.mem_singleton.1 hu] at hk; cases hk; exact h.of_bind
  | datetime f => intro u hu k hk; rw [List.mem_singleton.1 hu] at hk; cases hk; exact h.of_bind
  | _ => intro u hu k hk; rw [List.mem_singleton.1 hu] at hk; cases hk

theorem serializeProps_needs {ps : List Property} {n : Nat} (h : Ok (serializeProps ps n)) :
    ∀ p ∈ ps, Ok (ucamelCase p.name) ∧ ∀ u ∈ parts p.ty, ∀ f, formatOf u = some f → Ok (Strftime.convert f) := by
  induction ps generalizing n with
  | nil => simp
  | cons p ps ih =>
    obtain ⟨c, h⟩ := h
    obtain ⟨⟨d, m⟩, hd, h⟩ := ok_bind h
    obtain ⟨rest, hr, h⟩ := ok_bind h
    obtain ⟨w, hw, hd⟩ := ok_bind hd
    obtain ⟨s, hs, hd⟩ := ok_bind hd
    intro q hq
    rcases List.mem_cons.1 hq with rfl | hq
    · exact ⟨⟨w, hw⟩, serialize_formats ⟨s, hs⟩⟩
    · exact ih ⟨rest, hr⟩ q hq

theorem package_needs {g : Graph} (h : Ok (package g)) : Convertible g := by
  obtain ⟨fs, h⟩ := h
  obtain ⟨T, P, S, hT, hP, hS, _⟩ := package_parts h
  obtain ⟨cs, es, gr, hcs, hes, hgr, _⟩ := serializeFile_parts hS
  obtain ⟨_, _, pg, _, _, hpg, _⟩ := parseFile_parts hP
  unfold serializeGraph at hgr
  obtain ⟨gp, hgp, hgr⟩ := ok_bind hgr
  obtain ⟨regs, hregs, hgr⟩ := ok_bind hgr
  obtain ⟨n, hn, hgr⟩ := ok_bind hgr
  have comp : ∀ {name : Str} {ps : List Property} {f : Func}, serializeComposite name ps = .ok f →
      Ok (ucamelCase name) ∧ Ok (serializeProps ps 0) := by
    intro name ps f h
    obtain ⟨props, hp, h⟩ := ok_bind h
    obtain ⟨k, hk, h⟩ := ok_bind h
    exact ⟨⟨k, hk⟩, ⟨props, hp⟩⟩
  have hcls : ∀ c ∈ g.classes, Ok (ucamelCase c.name) ∧ Ok (serializeProps c.properties 0) := by
    intro c hc
    obtain ⟨f, _, hf⟩ := mapM_mem' hcs hc
    exact comp hf
  have hemb : ∀ e ∈ g.embeds, Ok (ucamelCase e.name) ∧ Ok (serializeProps e.properties 0) := by
    intro e he
    obtain ⟨f, _, hf⟩ := mapM_mem' hes he
    exact comp hf
  refine ⟨⟨n, hn⟩, ?_, fun e he => (hemb e he).1, fun p hp => (serializeProps_needs ⟨gp, hgp⟩ p hp).1,
    fun c hc p hp => (serializeProps_needs (hcls c hc).2 p hp).1,
    fun e he p hp => (serializeProps_needs (hemb e he).2 p hp).1, ?_⟩
  · intro c hc
    obtain ⟨code, _, hcode⟩ := mapM_mem' hregs hc
    obtain ⟨a, ha, hcode⟩ := ok_bind hcode
    obtain ⟨b, hb, hcode⟩ := ok_bind hcode
    obtain ⟨d, hd, hcode⟩ := ok_bind hcode
    obtain ⟨e, he, hcode⟩ := ok_bind hcode
    unfold parseGraph at hpg
    obtain ⟨alloc, halloc, hpg⟩ := ok_bind hpg
    obtain ⟨code', _, hcode'⟩ := mapM_mem' halloc hc
    obtain ⟨k, hk, _⟩ := ok_bind hcode'
    exact ⟨⟨d, hd⟩, ⟨b, hb⟩, ⟨a, ha⟩, ⟨k, hk⟩, ⟨e, he⟩⟩
  · rintro t f (⟨p, hp, ht⟩ | ⟨c, p, hc, hp, ht⟩ | ⟨e, p, he, hp, ht⟩) hf
    · exact (serializeProps_needs ⟨gp, hgp⟩ p hp).2 t ht f hf
    · exact (serializeProps_needs (hcls c hc).2 p hp).2 t ht f hf
    · exact (serializeProps_needs (hemb e he).2 p hp).2 t ht f hf

theorem parse_bounds {ctx : Ctx} {t : Ty} {value : List Name} {tgt : Target} {ref : List Name} {n : Nat}
    (h : Ok (parseValue ctx t value tgt ref n)) : ∀ u ∈ parts t, ∀ b ∈ boundsOf u, Rounds b := by
  induction t generalizing value tgt ref n with
  | array t lo hi ih =>
    intro u hu b hb
    rcases List.mem_cons.1 hu with rfl | hu
    · cases hb
    · exact ih h.of_bind u hu b hb
  | map t ih =>
    intro u hu b hb
    rcases List.mem_cons.1 hu with rfl | hu
    · cases hb
    · have : ∃ value tgt ref n, Ok (parseValue ctx t value tgt ref n) := by
        cases t <;> exact ⟨_, _, _, _, h.of_bind⟩
      obtain ⟨value, tgt, ref, n, h⟩ := this
      exact ih h u hu b hb
  | float b =>
    intro u hu i hi
    rw [List.mem_singleton.1 hu] at hi
    obtain ⟨_, h⟩ := h
    obtain ⟨_, h1, h⟩ := ok_bind h
    obtain ⟨_, h2, h⟩ := ok_bind h
    rcases List.mem_append.1 hi with hi | hi
    · exact (formatFloat_ok_iff _).1 ⟨_, h1⟩ i (Option.mem_toList.1 hi)
    · exact (formatFloat_ok_iff _).1 ⟨_, h2⟩ i (Option.mem_toList.1 hi)
  | _ => intro u hu b hb; rw [List.mem_singleton.1 hu] at hb; cases hb

theorem parseProps_bounds {ctx : Ctx} {ps : List Property} {n : Nat} (h : Ok (parseProps ctx ps n)) :
    ∀ p ∈ ps, ∀ u ∈ parts p.ty, ∀ b ∈ boundsOf u, Rounds b := by
  induction ps generalizing n with
  | nil => simp
  | cons p ps ih =>
    obtain ⟨c, h⟩ := h
    obtain ⟨⟨d, m⟩, hd, h⟩ := ok_bind h
    obtain ⟨rest, hr, h⟩ := ok_bind h
    obtain ⟨w, hw, hd⟩ := ok_bind hd
    obtain ⟨s, hs, hd⟩ := ok_bind hd
    intro q hq
    rcases List.mem_cons.1 hq with rfl | hq
    · exact parse_bounds ⟨s, hs⟩
    · exact ih ⟨rest, hr⟩ q hq

theorem parseComposite_bounds {g : Graph} {uids : List (Str × Nat)} {o : Owner} {name : Str} {b : Bool} {f : Func}
    (h : parseComposite g uids o name b = .ok f) :
    ∀ p ∈ ownerProps g o, ∀ u ∈ parts p.ty, ∀ b ∈ boundsOf u, Rounds b := by
  obtain ⟨refs, _, h⟩ := ok_bind h
  obtain ⟨params, _, h⟩ := ok_bind h
  obtain ⟨types, _, h⟩ := ok_bind h
  obtain ⟨props, hp, h⟩ := ok_bind h
  exact parseProps_bounds ⟨props, hp⟩

theorem package_bounds {g : Graph} (hn : Named g) (h : Ok (package g)) : Bounded g := by
  obtain ⟨fs, h⟩ := h
  obtain ⟨T, P, S, hT, hP, hS, _⟩ := package_parts h
  obtain ⟨cs, es, pg, hcs, hes, hpg, _⟩ := parseFile_parts hP
  unfold parseGraph at hpg
  obtain ⟨alloc, _, hpg⟩ := ok_bind hpg
  obtain ⟨insts, _, hpg⟩ := ok_bind hpg
  obtain ⟨props, hp, hpg⟩ := ok_bind hpg
  rintro t b (⟨p, hp', ht⟩ | ⟨c, p, hc, hp', ht⟩ | ⟨e, p, he, hp', ht⟩) hb
  · exact parseProps_bounds ⟨props, hp⟩ p hp' t ht b hb
  · obtain ⟨f, _, hf⟩ := mapM_mem' hcs hc
    have e1 : ownerProps g (.cls c.name) = c.properties := by rw [ownerProps, hn.cls? hc]; rfl
    exact parseComposite_bounds hf p (e1 ▸ hp') t ht b hb
  · obtain ⟨f, _, hf⟩ := mapM_mem' hes he
    have e1 : ownerProps g (.embed e.name) = e.properties := by rw [ownerProps, hn.embed? he]; rfl
    exact parseComposite_bounds hf p (e1 ▸ hp') t ht b hb

theorem package_ok_iff {g : Graph} (hn : Named g) (hr : Resolves g) : Ok (package g) ↔ Convertible g ∧ Bounded g :=
  ⟨fun h => ⟨package_needs h, package_bounds hn h⟩, fun h => package_ok hr h.1 h.2⟩

end Mapry.GoCode
