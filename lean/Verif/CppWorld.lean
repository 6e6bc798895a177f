import Verif.CppSerGraph
import Verif.PyTypesModule

/-!
# What the C++ files declare

The facts about a validated schema and the members of the generated structures on which the lemmas about the
generated functions depend.
-/

namespace Mapry.CppCode

set_option linter.unusedSimpArgs false

open Mapry.TypeGraph Mapry.Naming Mapry.ParseSchema Mapry.LangValidate
open Mapry.PyCode (Facts idOf idOf_eq allNames defNames attrs map_inj asAttribute_eq)
open Mapry.GoCode (ok_bind mapM_mem mapM_mem' mapM_cons Resolves needs_ty)

variable {g : Graph} {cpp : Cpp}

/-! ## What the schema ensures -/

/-- What is known of a schema which passes the validation for C++. -/
structure CppFacts (g : Graph) : Prop extends Facts g where
  graphKeyword : idOf g.name ∉ cppKeywords
  idKeyword : ∀ n ∈ defNames g, idOf n ∉ cppKeywords
  clsKeyword : ∀ c ∈ g.classes, ∀ p ∈ c.properties, lower p.name ∉ cppKeywords
  embedKeyword : ∀ e ∈ g.embeds, ∀ p ∈ e.properties, lower p.name ∉ cppKeywords
  propKeyword : ∀ p ∈ g.properties, lower p.name ∉ cppKeywords
  pluralKeyword : ∀ c ∈ g.classes, lower c.plural ∉ cppKeywords

theorem cppFields_eq {ps : List Property} {ns : List Str} (h : Forall₂ (FieldName LangValidate.cpp) ps ns) :
    ns = attrs ps ∧ ∀ p ∈ ps, p.name ≠ [] := by
  induction h with
  | nil => exact ⟨rfl, by simp⟩
  | cons h1 _ ih =>
    obtain ⟨rfl, h2⟩ := asAttribute_eq h1
    exact ⟨by rw [ih.1]; rfl, by simpa using ⟨h2, ih.2⟩⟩

theorem cppRegistries_eq {cs : List Class} {ns : List Str} (h : Forall₂ (RegistryName LangValidate.cpp) cs ns) :
    ns = (cs.map fun c => lower c.plural) ∧ ∀ c ∈ cs, c.plural ≠ [] := by
  induction h with
  | nil => exact ⟨rfl, by simp⟩
  | cons h1 _ ih =>
    obtain ⟨rfl, h2⟩ := asAttribute_eq h1
    exact ⟨by rw [ih.1]; rfl, by simpa using ⟨h2, ih.2⟩⟩

theorem cppIds_eq {cs : List Comp} {ns : List Str} (h : Forall₂ (CompId LangValidate.cpp) cs ns) :
    ns = (cs.map fun c => idOf c.name) ∧ ∀ c ∈ cs, asComposite c.name = .ok (idOf c.name) := by
  induction h with
  | nil => exact ⟨rfl, by simp⟩
  | cons h1 _ ih =>
    have h1' : asComposite _ = .ok _ := h1
    have e := idOf_eq h1'
    exact ⟨by rw [ih.1, ← e]; rfl, by simpa using ⟨e ▸ h1', ih.2⟩⟩

theorem cppFacts_of (hn : Named g) (hr : Resolves g) (h : validateSchema LangValidate.cpp g = .ok []) : CppFacts g := by
  obtain ⟨⟨n, hg, hgk⟩, ⟨ids, hids, hnd, hidk⟩, hf, ⟨ns, rs, hns, hrs, hgn, hgnk⟩⟩ := (Props.valid_iff LangValidate.cpp g).1 h
  obtain ⟨e1, hi⟩ := cppIds_eq hids
  obtain ⟨rfl, hp⟩ := cppFields_eq hns
  obtain ⟨rfl, hpl⟩ := cppRegistries_eq hrs
  have e2 : (Props.definitions g).map (fun c => idOf c.name) = (defNames g).map idOf := by
    simp [Props.definitions, defNames, Function.comp_def]
  have key : ∀ c ∈ g.classes, (⟨.cls, c.name, c.ref, c.properties⟩ : Comp) ∈ Props.definitions g :=
    fun c hc => List.mem_append_left _ (List.mem_map.2 ⟨c, hc, rfl⟩)
  have key' : ∀ e ∈ g.embeds, (⟨.embed, e.name, e.ref, e.properties⟩ : Comp) ∈ Props.definitions g :=
    fun e he => List.mem_append_right _ (List.mem_map.2 ⟨e, he, rfl⟩)
  have hg' : asComposite g.name = .ok n := hg
  refine ⟨⟨hn, hr, ?_, by rw [← e2, ← e1]; exact hnd, ?_, ?_, hgn, ?_, ?_, hp⟩, ?_, ?_, ?_, ?_, ?_, ?_⟩
  · intro x hx
    rcases List.mem_append.1 hx with hx | hx
    · rcases List.mem_append.1 hx with hx | hx
      · obtain ⟨c, hc, rfl⟩ := List.mem_map.1 hx
        exact hi _ (key c hc)
      · obtain ⟨c, hc, rfl⟩ := List.mem_map.1 hx
        exact hi _ (key' c hc)
    · obtain rfl := List.mem_singleton.1 hx
      rw [idOf_eq hg']
      exact hg'
  · intro c hc
    obtain ⟨ns, h1, h2, _, h3⟩ := hf _ (key c hc)
    obtain ⟨rfl, _⟩ := cppFields_eq h1
    exact ⟨h2, h3 rfl⟩
  · intro e he
    obtain ⟨ns, h1, h2, _⟩ := hf _ (key' e he)
    obtain ⟨rfl, _⟩ := cppFields_eq h1
    exact h2
  · intro c hc
    refine ⟨hpl c hc, ?_⟩
    obtain ⟨ns, h1, _⟩ := hf _ (key c hc)
    exact (cppFields_eq h1).2
  · intro e he
    obtain ⟨ns, h1, _⟩ := hf _ (key' e he)
    exact (cppFields_eq h1).2
  · rw [idOf_eq hg']
    exact hgk
  · intro m hm
    refine hidk _ ?_
    rw [e1, e2]
    exact List.mem_map.2 ⟨m, hm, rfl⟩
  · intro c hc p hp
    obtain ⟨ns, h1, _, h2, _⟩ := hf _ (key c hc)
    obtain ⟨rfl, _⟩ := cppFields_eq h1
    exact h2 _ (List.mem_map.2 ⟨p, hp, rfl⟩)
  · intro c hc p hp
    obtain ⟨ns, h1, _, h2, _⟩ := hf _ (key' c hc)
    obtain ⟨rfl, _⟩ := cppFields_eq h1
    exact h2 _ (List.mem_map.2 ⟨p, hp, rfl⟩)
  · intro p hp
    exact hgnk _ (List.mem_append_left _ (List.mem_map.2 ⟨p, hp, rfl⟩))
  · intro c hc
    exact hgnk _ (List.mem_append_right _ (List.mem_map.2 ⟨c, hc, rfl⟩))

/-! ## The members of the structures -/

theorem lower_twice (s : Str) : lower (lower s) = lower s := by simp [lower, toLower_toLower]

/-- The members as they are known in the other files -/
def cells (fs : List Field) : List (Str × CTy) := fs.map fun f => (f.name, f.ty)

theorem propertyField_inv {p : Property} {f : Field} (h : propertyField cpp p = .ok f) :
    ∃ t, typeRepr cpp p.ty = .ok t ∧ f.name = p.name ∧ f.ty = memberType p t ∧
      (p.optional = true → f.init = none) ∧ (p.optional = false → defaultValue cpp p.ty = .ok f.init) := by
  unfold propertyField at h
  obtain ⟨t, ht, h⟩ := ok_bind h
  split at h
  · rename_i hp
    obtain ⟨_, _, h⟩ := ok_bind h
    cases h
    exact ⟨t, ht, rfl, by simp [memberType, hp], fun _ => rfl, by simp [hp]⟩
  · rename_i hp
    obtain ⟨i, hi, h⟩ := ok_bind h
    cases h
    exact ⟨t, ht, rfl, by simp [memberType, hp], by simp [hp], fun _ => hi⟩

theorem cells_keys {ps : List Property} {fs : List Field} (h : ps.mapM (propertyField cpp) = .ok fs) :
    (cells fs).map (·.1) = ps.map (·.name) := by
  induction ps generalizing fs with
  | nil => cases h; rfl
  | cons p ps ih =>
    obtain ⟨f, fs', h1, h2, rfl⟩ := mapM_cons h
    obtain ⟨t, _, hn, _⟩ := propertyField_inv h1
    simp only [cells, List.map_cons, hn] at ih ⊢
    rw [ih h2]

theorem cells_mem {ps : List Property} {fs : List Field} (h : ps.mapM (propertyField cpp) = .ok fs) {p : Property} (hp : p ∈ ps) :
    ∃ t, typeRepr cpp p.ty = .ok t ∧ (p.name, memberType p t) ∈ cells fs := by
  obtain ⟨f, hf, h1⟩ := mapM_mem' h hp
  obtain ⟨t, ht, hn, hty, _⟩ := propertyField_inv h1
  exact ⟨t, ht, List.mem_map.2 ⟨f, hf, by rw [hn, hty]⟩⟩

theorem member_some {W : World} {X x : Str} {t : CTy} {L : List (Str × CTy)} (hW : fields W (.struct X) = L) (hn : (L.map (·.1)).Nodup)
    (h : (x, t) ∈ L) : member W (.struct X) x = some t := by
  rw [member, hW, TypeGraph.find_unique (fun e : Str × CTy => e.1) hn h]
  rfl

theorem member_none {W : World} {X x : Str} {L : List (Str × CTy)} (hW : fields W (.struct X) = L) (h : x ∉ L.map (·.1)) :
    member W (.struct X) x = none := by
  rw [member, hW, Option.map_eq_none_iff, List.find?_eq_none]
  intro e he hx
  exact h (List.mem_map.2 ⟨e, he, eq_of_beq hx⟩)

/-- The members of the properties and the further members of a structure are found. -/
structure Found (W : World) (cpp : Cpp) (X : Str) (ps : List Property) (extra : List (Str × CTy)) : Prop where
  raw : ∀ p ∈ ps, ∃ t, typeRepr cpp p.ty = .ok t ∧ member W (.struct X) p.name = some (memberType p t) ∧
    member W (.struct X) (lower p.name) = if lower p.name = p.name then some (memberType p t) else none
  more : ∀ e ∈ extra, member W (.struct X) e.1 = some e.2

theorem nodup_names {ps : List Property} {ks : List Str} (hn : (attrs ps ++ ks).Nodup) (hx : ∀ k ∈ ks, lower k = k) :
    (ps.map (·.name) ++ ks).Nodup := by
  obtain ⟨h1, h2, h3⟩ := List.nodup_append.1 hn
  refine List.nodup_append.2 ⟨?_, h2, ?_⟩
  · rw [attrs, show (fun p : Property => lower p.name) = lower ∘ (fun p : Property => p.name) from rfl, ← List.map_map] at h1
    exact (List.pairwise_map.1 h1).imp fun h e => h (by rw [e])
  · intro a ha b hb e
    subst e
    obtain ⟨p, hp, rfl⟩ := List.mem_map.1 ha
    exact h3 (lower p.name) (List.mem_map.2 ⟨p, hp, rfl⟩) p.name hb (hx _ hb)

/-- The converted name of a property is the name of a member only if it is the name of the property. -/
theorem lower_mem {ps : List Property} {ks : List Str} (hn : (attrs ps ++ ks).Nodup) {p : Property} (hp : p ∈ ps) :
    lower p.name ∈ ps.map (·.name) ++ ks ↔ lower p.name = p.name := by
  obtain ⟨h1, h2, h3⟩ := List.nodup_append.1 hn
  constructor
  · intro h
    rcases List.mem_append.1 h with h | h
    · obtain ⟨q, hq, e⟩ := List.mem_map.1 h
      have e' : lower q.name = lower p.name := by rw [e, lower_twice]
      rw [← e, map_inj h1 hq hp e']
    · exact absurd rfl (h3 _ (List.mem_map.2 ⟨p, hp, rfl⟩) _ h)
  · intro h
    rw [h]
    exact List.mem_append_left _ (List.mem_map.2 ⟨p, hp, rfl⟩)

theorem found {W : World} {X : Str} {ps : List Property} {fs : List Field} {L extra : List (Str × CTy)}
    (hW : fields W (.struct X) = L) (hL : L = cells fs ++ extra ∨ L = extra ++ cells fs)
    (hfs : ps.mapM (propertyField cpp) = .ok fs) (hn : (attrs ps ++ extra.map (·.1)).Nodup) (hx : ∀ e ∈ extra, lower e.1 = e.1) :
    Found W cpp X ps extra := by
  have hx' : ∀ k ∈ extra.map (·.1), lower k = k := by
    intro k hk
    obtain ⟨e, he, rfl⟩ := List.mem_map.1 hk
    exact hx e he
  have hn' : (L.map (·.1)).Nodup := by
    have := nodup_names hn hx'
    rw [← cells_keys hfs] at this
    rcases hL with rfl | rfl
    · rw [List.map_append]; exact this
    · rw [List.map_append]
      obtain ⟨h1, h2, h3⟩ := List.nodup_append.1 this
      exact List.nodup_append.2 ⟨h2, h1, fun a ha b hb e => h3 b hb a ha e.symm⟩
  have hmem : ∀ e, e ∈ L ↔ e ∈ cells fs ∨ e ∈ extra := by
    intro e
    rcases hL with rfl | rfl
    · exact List.mem_append
    · rw [List.mem_append, or_comm]
  have hkeys : ∀ x, x ∈ L.map (·.1) ↔ x ∈ ps.map (·.name) ++ extra.map (·.1) := by
    intro x
    rw [← cells_keys hfs]
    rcases hL with rfl | rfl
    · rw [List.map_append]
    · rw [List.map_append, List.mem_append, List.mem_append, or_comm]
  refine ⟨?_, fun e he => member_some hW hn' ((hmem e).2 (.inr he))⟩
  intro p hp
  obtain ⟨t, ht, hm⟩ := cells_mem hfs hp
  have hsome : member W (.struct X) p.name = some (memberType p t) := member_some hW hn' ((hmem _).2 (.inl hm))
  refine ⟨t, ht, hsome, ?_⟩
  split
  · rename_i h
    rw [h, hsome]
  · rename_i h
    refine member_none hW ?_
    rw [hkeys, lower_mem hn hp]
    exact h

/-! ## The structures of the header -/

theorem typesHeader_inv {H : TypesHeader} (h : typesHeader g cpp = .ok H) :
    ∃ es cs gs, typesIncludes g cpp = .ok H.includes ∧ forward g = .ok H.forward ∧ g.embeds.mapM (embedStruct cpp) = .ok es ∧
      g.classes.mapM (classStruct cpp) = .ok cs ∧ graphStruct cpp g = .ok gs ∧ H.structs = es ++ cs ++ [gs] := by
  unfold typesHeader at h
  obtain ⟨i, hi, h⟩ := ok_bind h
  obtain ⟨w, hw, h⟩ := ok_bind h
  obtain ⟨es, hes, h⟩ := ok_bind h
  obtain ⟨cs, hcs, h⟩ := ok_bind h
  obtain ⟨gs, hgs, h⟩ := ok_bind h
  cases h
  exact ⟨es, cs, gs, hi, hw, hes, hcs, hgs, rfl⟩

theorem embedStruct_inv {e : Embed} {s : Struct} (h : embedStruct cpp e = .ok s) :
    s.name = idOf e.name ∧ e.properties.mapM (propertyField cpp) = .ok s.fields := by
  unfold embedStruct at h
  obtain ⟨x, hx, h⟩ := ok_bind h
  obtain ⟨fs, hfs, h⟩ := ok_bind h
  cases h
  exact ⟨(idOf_eq hx).symm, hfs⟩

theorem classStruct_inv {c : Class} {s : Struct} (h : classStruct cpp c = .ok s) :
    s.name = idOf c.name ∧ ∃ fs, c.properties.mapM (propertyField cpp) = .ok fs ∧ s.fields = ⟨c!"id", .string, none⟩ :: fs := by
  unfold classStruct at h
  obtain ⟨x, hx, h⟩ := ok_bind h
  obtain ⟨fs, hfs, h⟩ := ok_bind h
  cases h
  exact ⟨(idOf_eq hx).symm, fs, hfs, rfl⟩

/-- The registry of a class -/
def registryCell (c : Class) : Field := ⟨lower c.plural, .map (.owner (idOf c.name)), none⟩

theorem registryField_inv {c : Class} {f : Field} (h : registryField c = .ok f) : f = registryCell c := by
  unfold registryField at h
  obtain ⟨x, hx, h⟩ := ok_bind h
  obtain ⟨y, hy, h⟩ := ok_bind h
  cases h
  rw [registryCell, idOf_eq hx, (asAttribute_eq hy).1]

theorem registries_cells {cs : List Class} {fs : List Field} (h : cs.mapM registryField = .ok fs) : fs = cs.map registryCell := by
  induction cs generalizing fs with
  | nil => cases h; rfl
  | cons c cs ih =>
    obtain ⟨f, fs', h1, h2, rfl⟩ := mapM_cons h
    rw [List.map_cons, registryField_inv h1, ih h2]

theorem graphStruct_inv {s : Struct} (h : graphStruct cpp g = .ok s) :
    s.name = idOf g.name ∧ ∃ fs, g.properties.mapM (propertyField cpp) = .ok fs ∧ s.fields = fs ++ g.classes.map registryCell := by
  unfold graphStruct at h
  obtain ⟨x, hx, h⟩ := ok_bind h
  obtain ⟨fs, hfs, h⟩ := ok_bind h
  obtain ⟨rs, hrs, h⟩ := ok_bind h
  cases h
  exact ⟨(idOf_eq hx).symm, fs, hfs, by rw [registries_cells hrs]⟩

theorem names_of {α : Type} {k : α → Str} {f : α → Except Exc Struct} {l : List α} {ss : List Struct} (h : l.mapM f = .ok ss)
    (hk : ∀ a s, f a = .ok s → s.name = k a) : ss.map (·.name) = l.map k := by
  induction l generalizing ss with
  | nil => cases h; rfl
  | cons a l ih =>
    obtain ⟨s, ss', h1, h2, rfl⟩ := mapM_cons h
    rw [List.map_cons, List.map_cons, hk a s h1, ih h2]

/-- The identifiers of the structures in the order of the header -/
def structNames (g : Graph) : List Str :=
  g.embeds.map (fun e => idOf e.name) ++ g.classes.map (fun c => idOf c.name) ++ [idOf g.name]

theorem header_names {H : TypesHeader} (h : typesHeader g cpp = .ok H) : H.structs.map (·.name) = structNames g := by
  obtain ⟨es, cs, gs, _, _, hes, hcs, hgs, e⟩ := typesHeader_inv h
  rw [e, List.map_append, List.map_append, names_of hes fun _ _ hs => (embedStruct_inv hs).1,
    names_of hcs fun _ _ hs => (classStruct_inv hs).1, List.map_cons, (graphStruct_inv hgs).1]
  rfl

theorem mem_structNames {x : Str} : x ∈ structNames g ↔ ∃ n ∈ allNames g, x = idOf n := by
  simp only [structNames, allNames, defNames, List.mem_append, List.mem_map, List.mem_singleton]
  constructor
  · rintro ((⟨e, he, rfl⟩ | ⟨c, hc, rfl⟩) | rfl)
    · exact ⟨e.name, .inl (.inr ⟨e, he, rfl⟩), rfl⟩
    · exact ⟨c.name, .inl (.inl ⟨c, hc, rfl⟩), rfl⟩
    · exact ⟨g.name, .inr rfl, rfl⟩
  · rintro ⟨n, (⟨c, hc, rfl⟩ | ⟨e, he, rfl⟩) | rfl, rfl⟩
    · exact .inl (.inr ⟨c, hc, rfl⟩)
    · exact .inl (.inl ⟨e, he, rfl⟩)
    · exact .inr rfl

theorem structsOf_names {H : TypesHeader} (h : typesHeader g cpp = .ok H) : (structsOf H).map (·.1) = structNames g := by
  rw [← header_names h, structsOf, List.map_map]
  rfl

theorem declares_of {W : World} {H : TypesHeader} (h : typesHeader g cpp = .ok H) (hW : W.structs = structsOf H) : Declares W g := by
  intro x
  rw [← mem_structNames, ← structsOf_names h, hW, List.mem_map]

theorem fields_of {W : World} {H : TypesHeader} (h : typesHeader g cpp = .ok H) (hW : W.structs = structsOf H)
    (hn : (structNames g).Nodup) {s : Struct} (hs : s ∈ H.structs) : fields W (.struct s.name) = cells s.fields := by
  have hm : (s.name, cells s.fields) ∈ structsOf H := List.mem_map.2 ⟨s, hs, rfl⟩
  have hn' : ((structsOf H).map (·.1)).Nodup := by rw [structsOf_names h]; exact hn
  rw [fields, hW]
  have := TypeGraph.find_unique (fun e : Str × List (Str × CTy) => e.1) hn' hm
  rw [this]
  rfl

section
variable {W : World} {H : TypesHeader} (h : typesHeader g cpp = .ok H) (hW : W.structs = structsOf H)
  (hn : (structNames g).Nodup) (hf : Facts g)
include h hW hn hf

theorem found_embed {e : Embed} (he : e ∈ g.embeds) : Found W cpp (idOf e.name) e.properties [] := by
  obtain ⟨es, cs, gs, _, _, hes, hcs, hgs, e'⟩ := typesHeader_inv h
  obtain ⟨s, hs, h1⟩ := mapM_mem' hes he
  obtain ⟨e1, h2⟩ := embedStruct_inv h1
  rw [← e1]
  refine found (fields_of h hW hn (by rw [e']; simp [hs])) (.inl (List.append_nil _).symm) h2 ?_ (by simp)
  simpa using hf.embed e he

theorem found_class {c : Class} (hc : c ∈ g.classes) : Found W cpp (idOf c.name) c.properties [(c!"id", .string)] := by
  obtain ⟨es, cs, gs, _, _, hes, hcs, hgs, e'⟩ := typesHeader_inv h
  obtain ⟨s, hs, h1⟩ := mapM_mem' hcs hc
  obtain ⟨e1, fs, h2, h3⟩ := classStruct_inv h1
  rw [← e1]
  refine found (fields_of h hW hn (by rw [e']; simp [hs])) (.inr (by rw [h3]; rfl)) h2 ?_ (by decide)
  obtain ⟨h4, h5⟩ := hf.cls c hc
  refine List.nodup_append.2 ⟨h4, by simp, ?_⟩
  intro a ha b hb e
  simp only [List.map_cons, List.map_nil, List.mem_singleton] at hb
  subst e
  exact h5 (hb ▸ ha)

theorem found_graph : Found W cpp (idOf g.name) g.properties (g.classes.map fun c => (lower c.plural, .map (.owner (idOf c.name)))) := by
  obtain ⟨es, cs, gs, _, _, hes, hcs, hgs, e'⟩ := typesHeader_inv h
  obtain ⟨e1, fs, h2, h3⟩ := graphStruct_inv hgs
  rw [← e1]
  refine found (fields_of h hW hn (by rw [e']; simp)) (.inl ?_) h2 ?_ ?_
  · rw [h3, cells, cells, List.map_append, List.map_map]
    rfl
  · rw [List.map_map]
    exact hf.graph
  · intro e he
    obtain ⟨c, _, rfl⟩ := List.mem_map.1 he
    exact lower_twice _

end

end Mapry.CppCode
