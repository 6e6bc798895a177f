import Verif.GoTypes
import Verif.Props.GoNames
import Verif.PyTotal
import Verif.PyFromModule

/-! # C70: the types of the generated Go package -/

namespace Mapry.GoTypes

open Mapry.TypeGraph Mapry.Naming Mapry.LangValidate Mapry.Props
open Mapry.GoCode (Resolves isPointer)
open Mapry.PyCode (allNames defNames)

/-- The Go identifier -/
abbrev camel (n : Str) : Str := camelSpec true n

/-- The types of the fields without exceptions -/
def pureRepr : Ty → GTy
  | .boolean => .bool
  | .integer _ => .int64
  | .float _ => .float64
  | .string _ => .string
  | .path _ => .string
  | .date _ => .time
  | .time _ => .time
  | .datetime _ => .time
  | .timeZone => .ptr .location
  | .duration => .duration
  | .array t _ _ => .slice (pureRepr t)
  | .map t => .map (pureRepr t)
  | .cls n => .ptr (.named (camel n))
  | .embed n => .named (camel n)

def pureField (p : Property) : Str × GTy :=
  (camel p.name, if p.optional then (if isPointer p.ty then pureRepr p.ty else .ptr (pureRepr p.ty)) else pureRepr p.ty)

def pureClass (c : Class) : TypeDef := ⟨camel c.name, (c!"ID", .string) :: c.properties.map pureField⟩

def pureEmbed (e : Embed) : TypeDef := ⟨camel e.name, e.properties.map pureField⟩

def pureRegistry (c : Class) : Str × GTy := (camel c.plural, .map (.ptr (.named (camel c.name))))

def pureGraph (g : Graph) : TypeDef := ⟨camel g.name, g.classes.map pureRegistry ++ g.properties.map pureField⟩

def pureDefs (g : Graph) : List TypeDef := g.embeds.map pureEmbed ++ g.classes.map pureClass ++ [pureGraph g]

/-- What is known of a schema which is parsed and which passes the validation for Go. -/
structure GoFacts (g : Graph) : Prop where
  named : Named g
  resolves : Resolves g
  names : ∀ n ∈ allNames g, ucamelCase n = .ok (camel n)
  ids : ((defNames g).map camel).Nodup
  cls : ∀ c ∈ g.classes, (c.properties.map fun p => camel p.name).Nodup ∧ c!"ID" ∉ c.properties.map fun p => camel p.name
  embed : ∀ e ∈ g.embeds, (e.properties.map fun p => camel p.name).Nodup
  graph : ((g.properties.map fun p => camel p.name) ++ g.classes.map fun c => camel c.plural).Nodup
  fields : (∀ c ∈ g.classes, ∀ p ∈ c.properties, ucamelCase p.name = .ok (camel p.name)) ∧
    (∀ e ∈ g.embeds, ∀ p ∈ e.properties, ucamelCase p.name = .ok (camel p.name)) ∧
    ∀ p ∈ g.properties, ucamelCase p.name = .ok (camel p.name)
  plurals : ∀ c ∈ g.classes, ucamelCase c.plural = .ok (camel c.plural)

theorem camel_eq {n x : Str} (h : ucamelCase n = .ok x) : x = camel n := ((C01_ucamel_case_ok_iff _ _).1 h).2

theorem forall₂_camel {α : Type} {f : α → Str} {R : α → Str → Prop} (hR : ∀ a x, R a x → ucamelCase (f a) = .ok x) {l : List α}
    {ns : List Str} (h : Forall₂ R l ns) : ns = l.map (fun a => camel (f a)) ∧ ∀ a ∈ l, ucamelCase (f a) = .ok (camel (f a)) := by
  induction h with
  | nil => exact ⟨rfl, by simp⟩
  | cons h1 _ ih =>
    have e := camel_eq (hR _ _ h1)
    exact ⟨by rw [ih.1, e]; rfl, by simpa using ⟨e ▸ hR _ _ h1, ih.2⟩⟩

theorem valid_go {g : Graph} (h : goValidateSchema g = .ok []) : validateSchema go g = .ok [] := by
  unfold goValidateSchema at h
  cases hv : validateSchema go g with
  | error x => rw [hv] at h; cases h
  | ok es =>
    rw [hv] at h
    cases hr : goReservedTypes g with
    | error x => rw [hr] at h; cases h
    | ok r =>
      rw [hr] at h
      cases hf : formatErrors (iterateOverTypes g) with
      | error x => rw [hf] at h; cases h
      | ok fs =>
        rw [hf] at h
        have : es ++ fs = [] := Except.ok.inj h
        rw [(List.append_eq_nil_iff.1 this).1]

theorem goFacts_of {g : Graph} (hn : Named g) (hr : Resolves g) (h : goValidateSchema g = .ok []) : GoFacts g := by
  obtain ⟨⟨n, hg, _⟩, ⟨ids, hids, hnd, _⟩, hf, ⟨ns, rs, hns, hrs, hgn, _⟩⟩ := (Props.valid_iff go g).1 (valid_go h)
  obtain ⟨e1, hi⟩ := forall₂_camel (f := Comp.name) (fun _ _ h => h) hids
  obtain ⟨rfl, hp⟩ := forall₂_camel (f := Property.name) (fun _ _ h => h) hns
  obtain ⟨rfl, hpl⟩ := forall₂_camel (f := Class.plural) (fun _ _ h => h) hrs
  have e2 : (definitions g).map (fun c => camel c.name) = (defNames g).map camel := by
    simp [definitions, defNames, Function.comp_def]
  have key : ∀ c ∈ g.classes, (⟨.cls, c.name, c.ref, c.properties⟩ : Comp) ∈ definitions g :=
    fun c hc => List.mem_append_left _ (List.mem_map.2 ⟨c, hc, rfl⟩)
  have key' : ∀ e ∈ g.embeds, (⟨.embed, e.name, e.ref, e.properties⟩ : Comp) ∈ definitions g :=
    fun e he => List.mem_append_right _ (List.mem_map.2 ⟨e, he, rfl⟩)
  refine ⟨hn, hr, ?_, by rw [← e2, ← e1]; exact hnd, ?_, ?_, hgn, ⟨?_, ?_, hp⟩, hpl⟩
  · intro x hx
    rcases List.mem_append.1 hx with hx | hx
    · rcases List.mem_append.1 hx with hx | hx
      · obtain ⟨c, hc, rfl⟩ := List.mem_map.1 hx
        exact hi _ (key c hc)
      · obtain ⟨c, hc, rfl⟩ := List.mem_map.1 hx
        exact hi _ (key' c hc)
    · obtain rfl := List.mem_singleton.1 hx
      have hg' : ucamelCase g.name = .ok n := hg
      rw [← camel_eq hg']
      exact hg'
  · intro c hc
    obtain ⟨ns, h1, h2, _, h3⟩ := hf _ (key c hc)
    obtain ⟨rfl, _⟩ := forall₂_camel (f := Property.name) (fun _ _ h => h) h1
    exact ⟨h2, h3 rfl⟩
  · intro e he
    obtain ⟨ns, h1, h2, _⟩ := hf _ (key' e he)
    obtain ⟨rfl, _⟩ := forall₂_camel (f := Property.name) (fun _ _ h => h) h1
    exact h2
  · intro c hc
    obtain ⟨ns, h1, _⟩ := hf _ (key c hc)
    exact (forall₂_camel (f := Property.name) (fun _ _ h => h) h1).2
  · intro e he
    obtain ⟨ns, h1, _⟩ := hf _ (key' e he)
    exact (forall₂_camel (f := Property.name) (fun _ _ h => h) h1).2

theorem mapM_pure_of {α β : Type} {f : α → Except Exc β} {k : α → β} {l : List α} (h : ∀ a ∈ l, f a = .ok (k a)) :
    l.mapM f = .ok (l.map k) := by
  induction l with
  | nil => rfl
  | cons a l ih =>
    rw [List.mapM_cons, h a (by simp), ih fun b hb => h b (by simp [hb])]
    rfl

theorem typeRepr_pure {t : Ty} (h : ∀ n, Ty.cls n ∈ parts t ∨ Ty.embed n ∈ parts t → ucamelCase n = .ok (camel n)) :
    typeRepr t = .ok (pureRepr t) := by
  induction t with
  | array y lo hi ih => rw [typeRepr, ih fun n hn => h n (by simpa [parts] using hn)]; rfl
  | map y ih => rw [typeRepr, ih fun n hn => h n (by simpa [parts] using hn)]; rfl
  | cls n => rw [typeRepr, h n (.inl (by simp [parts]))]; rfl
  | embed n => rw [typeRepr, h n (.inr (by simp [parts]))]; rfl
  | _ => rfl

section
variable {g : Graph} (hf : GoFacts g)
include hf

theorem GoFacts.occurs {n : Str} (h : Occurs g (.cls n) ∨ Occurs g (.embed n)) : n ∈ defNames g := by
  rcases h with h | h
  · obtain ⟨c, hc, rfl⟩ := hf.resolves.1 n h
    exact List.mem_append_left _ (List.mem_map.2 ⟨c, hc, rfl⟩)
  · obtain ⟨c, hc, rfl⟩ := hf.resolves.2 n h
    exact List.mem_append_right _ (List.mem_map.2 ⟨c, hc, rfl⟩)

theorem GoFacts.field {p : Property} (hn : ucamelCase p.name = .ok (camel p.name)) (ho : ∀ t ∈ parts p.ty, Occurs g t) :
    field p = .ok (pureField p) := by
  have := typeRepr_pure (t := p.ty) fun n hn => hf.names n
    (List.mem_append_left _ (hf.occurs (hn.imp (ho _) (ho _))))
  simp only [GoTypes.field, propertyType, hn, this]
  rfl

theorem GoFacts.defs : typeDefs g = .ok (pureDefs g) := by
  have hc : g.classes.mapM defineClass = .ok (g.classes.map pureClass) := mapM_pure_of fun c hc => by
    have := mapM_pure_of fun p hp => hf.field (hf.fields.1 c hc p hp) fun t ht => .cls c p hc hp ht
    simp only [defineClass, hf.names _ (PyCode.class_name_mem hc), this]
    rfl
  have he : g.embeds.mapM defineEmbed = .ok (g.embeds.map pureEmbed) := mapM_pure_of fun e he => by
    have := mapM_pure_of fun p hp => hf.field (hf.fields.2.1 e he p hp) fun t ht => .embed e p he hp ht
    simp only [defineEmbed, hf.names _ (PyCode.embed_name_mem he), this]
    rfl
  have hg : defineGraph g = .ok (pureGraph g) := by
    have h1 := mapM_pure_of fun p hp => hf.field (hf.fields.2.2 p hp) fun t ht => .graph p hp ht
    have h2 : g.classes.mapM registry = .ok (g.classes.map pureRegistry) := mapM_pure_of fun c hc => by
      simp only [registry, hf.plurals c hc, hf.names _ (PyCode.class_name_mem hc)]
      rfl
    simp only [defineGraph, hf.names _ PyCode.graph_name_mem, h1, h2]
    rfl
  simp only [typeDefs, hc, he, hg]
  rfl

end

/-! ## Containment -/

/-- A value of the embed contains a value of the other: one of its properties is required and has the type. -/
def Stored (g : Graph) (a b : Str) : Prop :=
  ∃ e ∈ g.embeds, e.name = a ∧ ∃ p ∈ e.properties, p.optional = false ∧ p.ty = .embed b

theorem pureField_named {p : Property} {x : Str} (h : (pureField p).2 = .named x) :
    p.optional = false ∧ ∃ n, p.ty = .embed n ∧ x = camel n := by
  unfold pureField at h
  cases hopt : p.optional with
  | true =>
    simp only [hopt, if_true] at h
    split at h
    · rename_i hp
      cases ht : p.ty <;> rw [ht] at h hp <;> simp [isPointer, pureRepr] at h hp
    · cases h
  | false =>
    simp only [hopt, Bool.false_eq_true, if_false] at h
    refine ⟨rfl, ?_⟩
    cases ht : p.ty <;> rw [ht] at h <;> simp [pureRepr] at h
    exact ⟨_, rfl, h.symm⟩

theorem contains_of_stored {g : Graph} {a b : Str} (h : Stored g a b) : Contains (pureDefs g) (camel a) (camel b) := by
  obtain ⟨e, he, rfl, p, hp, ho, ht⟩ := h
  refine ⟨pureEmbed e, by simp [pureDefs]; exact .inl ⟨e, he, rfl⟩, rfl, pureField p, List.mem_map.2 ⟨p, hp, rfl⟩, ?_⟩
  simp [pureField, ho, ht, pureRepr]

theorem embed_of_field {g : Graph} (hf : GoFacts g) {p : Property} (ho : ∀ t ∈ parts p.ty, Occurs g t) {x : Str}
    (h : (pureField p).2 = .named x) : ∃ e ∈ g.embeds, camel e.name = x := by
  obtain ⟨_, n, ht, rfl⟩ := pureField_named h
  obtain ⟨e, he, rfl⟩ := hf.resolves.2 n (ho _ (by rw [ht]; simp [parts]))
  exact ⟨e, he, rfl⟩

/-- What is contained is an embed. -/
theorem contained_embed {g : Graph} (hf : GoFacts g) {a b : Str} (h : Contains (pureDefs g) a b) : ∃ e ∈ g.embeds, camel e.name = b := by
  obtain ⟨d, hd, _, f, hm, hb⟩ := h
  simp only [pureDefs, List.mem_append, List.mem_map, List.mem_singleton] at hd
  rcases hd with (⟨e, he, rfl⟩ | ⟨c, hc, rfl⟩) | rfl
  · obtain ⟨p, hp, rfl⟩ := List.mem_map.1 hm
    exact embed_of_field hf (fun t ht => .embed e p he hp ht) hb
  · rcases List.mem_cons.1 hm with rfl | hm
    · cases hb
    · obtain ⟨p, hp, rfl⟩ := List.mem_map.1 hm
      exact embed_of_field hf (fun t ht => .cls c p hc hp ht) hb
  · rcases List.mem_append.1 hm with hm | hm
    · obtain ⟨c, _, rfl⟩ := List.mem_map.1 hm
      cases hb
    · obtain ⟨p, hp, rfl⟩ := List.mem_map.1 hm
      exact embed_of_field hf (fun t ht => .graph p hp ht) hb

section
variable {g : Graph} (hf : GoFacts g) (hd : ((pureDefs g).map (·.name)).Nodup)
include hf hd

/-- An embed contains exactly what is stored in it. -/
theorem stored_of_contains {e : Embed} (he : e ∈ g.embeds) {b : Str} (h : Contains (pureDefs g) (camel e.name) b) :
    ∃ m ∈ g.embeds, camel m.name = b ∧ Stored g e.name m.name := by
  obtain ⟨d, hdm, hn, f, hm, hb⟩ := h
  have heq : d = pureEmbed e := PyCode.map_inj hd hdm (by simp [pureDefs]; exact .inl ⟨e, he, rfl⟩) hn
  subst heq
  obtain ⟨p, hp, rfl⟩ := List.mem_map.1 hm
  obtain ⟨ho, n, ht, rfl⟩ := pureField_named hb
  obtain ⟨m, hme, rfl⟩ := hf.resolves.2 n (.embed e p he hp (by rw [ht]; simp [parts]))
  exact ⟨m, hme, rfl, e, he, rfl, p, hp, ho, ht⟩

theorem trans_stored {a b : Str} (h : Relation.TransGen (Contains (pureDefs g)) a b) {e : Embed} (he : e ∈ g.embeds)
    (ha : camel e.name = a) : ∃ m ∈ g.embeds, camel m.name = b ∧ Relation.TransGen (Stored g) e.name m.name := by
  induction h with
  | single h =>
    subst ha
    obtain ⟨m, hm, h1, h2⟩ := stored_of_contains hf hd he h
    exact ⟨m, hm, h1, .single h2⟩
  | tail _ h ih =>
    obtain ⟨m, hm, rfl, h2⟩ := ih
    obtain ⟨k, hk, h3, h4⟩ := stored_of_contains hf hd hm h
    exact ⟨k, hk, h3, .tail h2 h4⟩

end

theorem finite_iff {g : Graph} (hf : GoFacts g) (hd : ((pureDefs g).map (·.name)).Nodup) :
    (∀ n, ¬ Relation.TransGen (Contains (pureDefs g)) n n) ↔ ∀ n, ¬ Relation.TransGen (Stored g) n n := by
  constructor
  · intro h n hn
    refine h (camel n) ?_
    have key : ∀ a b, Relation.TransGen (Stored g) a b → Relation.TransGen (Contains (pureDefs g)) (camel a) (camel b) := by
      intro a b h
      induction h with
      | single h => exact .single (contains_of_stored h)
      | tail _ h ih => exact .tail ih (contains_of_stored h)
    exact key _ _ hn
  · intro h n hn
    have : ∃ e ∈ g.embeds, camel e.name = n := by
      cases hn with
      | single h => exact contained_embed hf h
      | tail _ h => exact contained_embed hf h
    obtain ⟨e, he, hen⟩ := this
    obtain ⟨m, hm, hmn, ht⟩ := trans_stored hf hd hn he hen
    have hem : m.name = e.name := PyCode.map_inj hf.ids (List.mem_append_right _ (List.mem_map.2 ⟨m, hm, rfl⟩))
      (List.mem_append_right _ (List.mem_map.2 ⟨e, he, rfl⟩)) (hmn.trans hen.symm)
    rw [hem] at ht
    exact h _ ht

theorem names_pure (g : Graph) : (pureDefs g).map (·.name) = g.embeds.map (fun e => camel e.name) ++ g.classes.map (fun c => camel c.name) ++
    [camel g.name] := by
  simp [pureDefs, Function.comp_def, pureEmbed, pureClass, pureGraph]

theorem types_iff {g : Graph} (hf : GoFacts g) : ((pureDefs g).map (·.name)).Nodup ↔ ∀ n ∈ defNames g, camel n ≠ camel g.name := by
  have hn : (g.embeds.map (fun e => camel e.name) ++ g.classes.map (fun c => camel c.name)).Nodup := by
    have := hf.ids
    simp only [defNames, List.map_append, List.map_map] at this
    exact (List.perm_append_comm.nodup_iff).1 this
  have hm : ∀ x, x ∈ g.embeds.map (fun e => camel e.name) ++ g.classes.map (fun c => camel c.name) ↔ ∃ n ∈ defNames g, camel n = x := by
    intro x
    simp only [defNames, List.mem_append, List.mem_map]
    constructor
    · rintro (⟨e, he, h⟩ | ⟨c, hc, h⟩)
      · exact ⟨_, .inr ⟨e, he, rfl⟩, h⟩
      · exact ⟨_, .inl ⟨c, hc, rfl⟩, h⟩
    · rintro ⟨_, ⟨c, hc, rfl⟩ | ⟨e, he, rfl⟩, h⟩
      · exact .inr ⟨c, hc, h⟩
      · exact .inl ⟨e, he, h⟩
  rw [names_pure, List.nodup_append, and_iff_right hn, and_iff_right (by simp)]
  constructor
  · intro h n hn e
    exact h _ ((hm _).2 ⟨n, hn, rfl⟩) _ (by simp) e
  · intro h a ha b hb e
    obtain ⟨n, hn, rfl⟩ := (hm a).1 ha
    cases List.mem_singleton.1 hb
    exact h n hn e

theorem names_repr {t : Ty} {x : Str} (h : x ∈ (pureRepr t).names) : ∃ n, (Ty.cls n ∈ parts t ∨ Ty.embed n ∈ parts t) ∧ x = camel n := by
  induction t with
  | array y lo hi ih => obtain ⟨n, hn, e⟩ := ih h; exact ⟨n, by simpa [parts] using hn, e⟩
  | map y ih => obtain ⟨n, hn, e⟩ := ih h; exact ⟨n, by simpa [parts] using hn, e⟩
  | cls n => exact ⟨n, .inl (by simp [parts]), List.mem_singleton.1 h⟩
  | embed n => exact ⟨n, .inr (by simp [parts]), List.mem_singleton.1 h⟩
  | _ => cases h

theorem names_field {p : Property} {x : Str} (h : x ∈ (pureField p).2.names) :
    ∃ n, (Ty.cls n ∈ parts p.ty ∨ Ty.embed n ∈ parts p.ty) ∧ x = camel n := by
  unfold pureField at h
  dsimp only at h
  split at h
  · split at h <;> exact names_repr h
  · exact names_repr h

theorem defsOk_iff {g : Graph} (hf : GoFacts g) :
    DefsOk (pureDefs g) ↔ (∀ n ∈ defNames g, camel n ≠ camel g.name) ∧ ∀ n, ¬ Relation.TransGen (Stored g) n n := by
  have hfs : ∀ d ∈ pureDefs g, (d.fields.map (·.1)).Nodup := by
    intro d hd
    simp only [pureDefs, List.mem_append, List.mem_map, List.mem_singleton] at hd
    have hn : ∀ ps : List Property, (ps.map pureField).map (·.1) = ps.map fun p => camel p.name := by
      intro ps; simp [pureField, Function.comp_def]
    rcases hd with (⟨e, he, rfl⟩ | ⟨c, hc, rfl⟩) | rfl
    · simp only [pureEmbed, hn]
      exact hf.embed e he
    · simp only [pureClass, List.map_cons, hn]
      exact List.nodup_cons.2 ⟨(hf.cls c hc).2, (hf.cls c hc).1⟩
    · simp only [pureGraph, List.map_append, hn]
      have : (g.classes.map pureRegistry).map (·.1) = g.classes.map fun c => camel c.plural := by simp [pureRegistry, Function.comp_def]
      rw [this]
      exact (List.perm_append_comm.nodup_iff).1 hf.graph
  have hdecl : ∀ d ∈ pureDefs g, ∀ f ∈ d.fields, ∀ n ∈ f.2.names, n ∈ (pureDefs g).map (·.name) := by
    have hocc : ∀ n, Occurs g (.cls n) ∨ Occurs g (.embed n) → camel n ∈ (pureDefs g).map (·.name) := by
      intro n hn
      rw [names_pure]
      have := hf.occurs hn
      simp only [defNames, List.mem_append, List.mem_map] at this ⊢
      rcases this with ⟨c, hc, rfl⟩ | ⟨c, hc, rfl⟩
      · exact .inl (.inr ⟨c, hc, rfl⟩)
      · exact .inl (.inl ⟨c, hc, rfl⟩)
    intro d hd f hm x hx
    simp only [pureDefs, List.mem_append, List.mem_map, List.mem_singleton] at hd
    rcases hd with (⟨e, he, rfl⟩ | ⟨c, hc, rfl⟩) | rfl
    · obtain ⟨p, hp, rfl⟩ := List.mem_map.1 hm
      obtain ⟨n, hn, rfl⟩ := names_field hx
      exact hocc n (hn.imp (.embed e p he hp) (.embed e p he hp))
    · rcases List.mem_cons.1 hm with rfl | hm
      · cases hx
      · obtain ⟨p, hp, rfl⟩ := List.mem_map.1 hm
        obtain ⟨n, hn, rfl⟩ := names_field hx
        exact hocc n (hn.imp (.cls c p hc hp) (.cls c p hc hp))
    · rcases List.mem_append.1 hm with hm | hm
      · obtain ⟨c, hc, rfl⟩ := List.mem_map.1 hm
        cases List.mem_singleton.1 hx
        rw [names_pure]
        simp only [List.mem_append, List.mem_map]
        exact .inl (.inr ⟨c, hc, rfl⟩)
      · obtain ⟨p, hp, rfl⟩ := List.mem_map.1 hm
        obtain ⟨n, hn, rfl⟩ := names_field hx
        exact hocc n (hn.imp (.graph p hp) (.graph p hp))
  constructor
  · rintro ⟨h1, _, _, h4⟩
    exact ⟨(types_iff hf).1 h1, (finite_iff hf h1).1 h4⟩
  · rintro ⟨h1, h4⟩
    have h1 := (types_iff hf).2 h1
    exact ⟨h1, hfs, hdecl, (finite_iff hf h1).2 h4⟩

end Mapry.GoTypes

namespace Mapry.Props.Go

open Mapry.TypeGraph Mapry.Naming Mapry.LangValidate Mapry.ParseSchema Mapry.GoCode
open Mapry.PyRuntime (Json)
open Mapry.GoTypes (TypeDef typeDefs DefsOk goFacts_of defsOk_iff camel)

/-- C70: the compiler accepts the type declarations which are generated for a schema. -/
def C70Full : Prop := ∀ (L : Validation.Lib) (mapping : Json) (ref : Str) (s : Schema) (ds : List TypeDef),
  schemaFromMapping L mapping ref = .ok s → goValidateSchema s.graph = .ok [] → typeDefs s.graph = .ok ds → DefsOk ds

/-- The embed is stored in the other one: as a required property which is neither in an array nor in a map. -/
def Stored (g : Graph) (outer inner : Str) : Prop :=
  ∃ e ∈ g.embeds, e.name = outer ∧ ∃ p ∈ e.properties, p.optional = false ∧ p.ty = .embed inner

/-- The declarations are generated, and they are accepted exactly if no class and no embed has the name of the graph in Go
and no embed is stored in itself, directly or in another one. -/
theorem C70_types_partial (L : Validation.Lib) (mapping : Json) (ref : Str) (s : Schema)
    (hs : schemaFromMapping L mapping ref = .ok s) (hv : goValidateSchema s.graph = .ok []) :
    ∃ ds, typeDefs s.graph = .ok ds ∧ (DefsOk ds ↔
      (∀ c ∈ s.graph.classes, ucamelCase c.name ≠ ucamelCase s.graph.name) ∧
      (∀ e ∈ s.graph.embeds, ucamelCase e.name ≠ ucamelCase s.graph.name) ∧
      ∀ n, ¬ Relation.TransGen (Stored s.graph) n n) := by
  have hf := goFacts_of (parsed_facts hs).1 (parsed_facts hs).2 hv
  refine ⟨_, hf.defs, (defsOk_iff hf).trans ?_⟩
  rw [← and_assoc]
  refine and_congr ?_ Iff.rfl
  have he : ∀ n ∈ PyCode.allNames s.graph, (camel n ≠ camel s.graph.name ↔ ucamelCase n ≠ ucamelCase s.graph.name) := by
    intro n hn
    rw [hf.names n hn, hf.names _ PyCode.graph_name_mem]
    simp
  constructor
  · intro h
    exact ⟨fun c hc => (he _ (PyCode.class_name_mem hc)).1 (h _ (List.mem_append_left _ (List.mem_map.2 ⟨c, hc, rfl⟩))),
      fun c hc => (he _ (PyCode.embed_name_mem hc)).1 (h _ (List.mem_append_right _ (List.mem_map.2 ⟨c, hc, rfl⟩)))⟩
  · rintro ⟨h1, h2⟩ n hn
    rcases List.mem_append.1 hn with hn | hn
    · obtain ⟨c, hc, rfl⟩ := List.mem_map.1 hn
      exact (he _ (PyCode.class_name_mem hc)).2 (h1 c hc)
    · obtain ⟨c, hc, rfl⟩ := List.mem_map.1 hn
      exact (he _ (PyCode.embed_name_mem hc)).2 (h2 c hc)

/-- A schema with an embed with one property -/
def Demo.nested (type : Str) (more : List (Str × Json)) : Json := SchemaDemo.object
  [(c!"name", SchemaDemo.text c!"Shop"), (c!"description", SchemaDemo.text c!"is a shop."),
   (c!"embeds", .arr [SchemaDemo.object [(c!"name", SchemaDemo.text c!"Place"), (c!"description", SchemaDemo.text c!"is a place."),
     (c!"properties", SchemaDemo.object [(c!"inner", SchemaDemo.definition type more)])]])]

theorem Demo.nested_parsed {m : Json} {test : Graph → Bool}
    (h : (match schemaFromMapping SchemaDemo.lib m c!"#" with
      | .error _ => false
      | .ok s => decide (goValidateSchema s.graph = .ok []) && test s.graph) = true) :
    ∃ s, schemaFromMapping SchemaDemo.lib m c!"#" = .ok s ∧ goValidateSchema s.graph = .ok [] ∧ test s.graph = true := by
  split at h
  · cases h
  · rename_i s hs
    simp only [Bool.and_eq_true, decide_eq_true_eq] at h
    exact ⟨s, hs, h.1, h.2⟩

/-- It is violated by an embed with a required property of its own type. -/
theorem C70_violated : ¬ C70Full := by
  intro h
  obtain ⟨s, hs, hv, ht⟩ := Demo.nested_parsed (m := Demo.nested c!"Place" [])
    (test := fun g => g.embeds.any fun e => decide (e.name = c!"Place") && e.properties.any fun p =>
      decide (p.optional = false ∧ p.ty = .embed c!"Place")) (by decide +kernel)
  obtain ⟨ds, hd, hiff⟩ := C70_types_partial _ _ _ s hs hv
  simp only [List.any_eq_true, Bool.and_eq_true, decide_eq_true_eq] at ht
  obtain ⟨e, he, hn, p, hp, hpt⟩ := ht
  exact (hiff.1 (h _ _ _ s ds hs hv hd)).2.2 c!"Place" (.single ⟨e, he, hn, p, hp, hpt⟩)

/-- It is accepted if the property is optional. -/
example : ∃ s ds, schemaFromMapping SchemaDemo.lib (Demo.nested c!"Place" [(c!"optional", .bool true)]) c!"#" = .ok s ∧
    goValidateSchema s.graph = .ok [] ∧ typeDefs s.graph = .ok ds ∧ DefsOk ds := by
  obtain ⟨s, hs, hv, ht⟩ := Demo.nested_parsed (m := Demo.nested c!"Place" [(c!"optional", .bool true)])
    (test := fun g => decide (g.classes = []) && (g.embeds.all fun e => decide (ucamelCase e.name ≠ ucamelCase g.name) &&
      e.properties.all fun p => decide (p.optional = true))) (by decide +kernel)
  obtain ⟨ds, hd, hiff⟩ := C70_types_partial _ _ _ s hs hv
  simp only [List.all_eq_true, Bool.and_eq_true, decide_eq_true_eq] at ht
  refine ⟨s, ds, hs, hv, hd, hiff.2 ⟨by rw [ht.1]; simp, fun e he => (ht.2 e he).1, ?_⟩⟩
  have none : ∀ a b, ¬ Stored s.graph a b := by
    rintro a b ⟨e, he, _, p, hp, ho, _⟩
    rw [(ht.2 e he).2 p hp] at ho
    cases ho
  intro n hn
  cases hn with
  | single h => exact none _ _ h
  | tail _ h => exact none _ _ h

end Mapry.Props.Go
