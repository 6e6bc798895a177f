import Verif.CppHeader

/-!
# The definitions of the generated C++ file
-/

namespace Mapry.CppCode

set_option linter.unusedSimpArgs false

open Mapry.TypeGraph Mapry.Naming Mapry.ParseSchema
open Mapry.PyCode (Facts idOf idOf_eq allNames defNames attrs map_inj)
open Mapry.GoCode (ok_bind mapM_mem mapM_mem' mapM_cons Resolves needs_ty referencesOf)

variable {g : Graph} {cpp : Cpp} {date : Bool}

/-! ## The names of the functions -/

/-- The name of a generated function -/
def FuncName (g : Graph) (x : Str) : Prop :=
  ∃ n ∈ allNames g, x = lower n ++ c!"_from" ∨ x = c!"serialize_" ++ lower n

theorem sigs_names {sigs : List Sig} (h : jsonHeader g cpp = .ok sigs) : ∀ s ∈ sigs, FuncName g s.name := by
  obtain ⟨es, cs, ss, hes, hcs, hss, rfl⟩ := jsonHeader_inv h
  intro s hs
  simp only [List.mem_append, List.mem_cons] at hs
  rcases hs with ((rfl | hs) | hs) | hs
  · exact ⟨g.name, by simp [allNames, defNames], .inl rfl⟩
  · obtain ⟨e, he, h1⟩ := mapM_mem hes hs
    obtain ⟨rs, _, rfl, _⟩ := parseDecl_inv h1
    exact ⟨e.name, by simp [allNames, defNames]; exact .inr (.inl ⟨e, he, rfl⟩), .inl rfl⟩
  · obtain ⟨c, hc, h1⟩ := mapM_mem hcs hs
    obtain ⟨rs, _, rfl, _⟩ := parseDecl_inv h1
    exact ⟨c.name, by simp [allNames, defNames]; exact .inl ⟨c, hc, rfl⟩, .inl rfl⟩
  · obtain ⟨n, hn, h1⟩ := mapM_mem hss hs
    obtain ⟨_, rfl⟩ := serializeDecl_inv h1
    refine ⟨n, ?_, .inr rfl⟩
    simp only [allNames, defNames, List.mem_append, List.mem_singleton, List.mem_cons] at hn ⊢
    rcases hn with (h | h) | h
    · exact .inr (.inl h)
    · exact .inl (.inl h)
    · exact .inl (.inr h)

theorem serialize_declared {sigs : List Sig} (h : jsonHeader g cpp = .ok sigs) {n : Str} (hn : n ∈ allNames g) :
    ∃ s ∈ sigs, s.name = c!"serialize_" ++ lower n := by
  obtain ⟨es, cs, ss, hes, hcs, hss, rfl⟩ := jsonHeader_inv h
  have hn' : n ∈ g.name :: g.classes.map (·.name) ++ g.embeds.map (·.name) := by
    simp only [allNames, defNames, List.mem_append, List.mem_singleton, List.mem_cons] at hn ⊢
    rcases hn with (h | h) | h | h
    · exact .inl (.inr h)
    · exact .inr h
    · exact .inl (.inl h)
    · cases h
  obtain ⟨s, hs, h1⟩ := mapM_mem' hss hn'
  obtain ⟨_, rfl⟩ := serializeDecl_inv h1
  exact ⟨_, List.mem_append_right _ hs, rfl⟩

theorem keywords_from : ∀ w ∈ keywords, w.drop (w.length - 5) ≠ c!"_from" ∧ w.take 10 ≠ c!"serialize_" ∧ w.drop (w.length - 3) ≠ c!"_re" := by
  decide +kernel

theorem funcName_keyword {x : Str} (h : FuncName g x) : x ∉ keywords := by
  intro hk
  obtain ⟨n, _, rfl | rfl⟩ := h
  · exact (keywords_from _ hk).1 (List.drop_left' (by simp))
  · exact (keywords_from _ hk).2.1 (List.take_left' (by simp))

theorem from_ne_re (a b : Str) : a ++ c!"_from" ≠ b ++ c!"_re" := by
  intro h
  have := congrArg (fun l => l.getLast?) h
  simp at this

theorem fixed_names : ∀ s ∈ fixedSigs, s.name ∉ keywords ∧ s.name.drop (s.name.length - 3) ≠ c!"_re" := by decide +kernel

theorem ends_re (x : Str) : (x ++ c!"_re").drop ((x ++ c!"_re").length - 3) = c!"_re" := List.drop_left' (by simp)

/-! ## The structures in the parameters -/

/-- The structure which a generated function takes -/
def structOf : CTy → Option Str
  | .struct X => some X
  | .ptr (.struct X) => some X
  | _ => none

def subject (s : Sig) : List Str := s.params.filterMap structOf

theorem subject_parse {f X : Str} {rs : List (Var × CTy)} (h : ∀ r ∈ rs, ∃ Y, r.2 = .map (.owner Y)) {R : CTy} :
    subject ⟨f, (parseParams rs X).map (·.2), R⟩ = [X] := by
  have h1 : (rs.map (·.2)).filterMap structOf = [] := by
    rw [List.filterMap_eq_nil_iff]
    intro t ht
    obtain ⟨r, hr, rfl⟩ := List.mem_map.1 ht
    obtain ⟨Y, e⟩ := h r hr
    rw [e]
    rfl
  unfold subject parseParams
  simp only [List.map_append, List.map_cons, List.map_nil, List.cons_append, List.filterMap_cons, List.filterMap_append, h1, structOf,
    List.filterMap_nil, List.nil_append]

theorem subject_parseDecl {o : Owner} {n : Str} {s : Sig} (h : parseDecl g o n = .ok s) :
    subject s = [idOf n] ∧ s.params.head? = some .json := by
  obtain ⟨rs, _, rfl, refs, _, hrs⟩ := parseDecl_inv h
  refine ⟨subject_parse ?_, rfl⟩
  intro r hr
  obtain ⟨n, _, h1⟩ := mapM_mem hrs hr
  exact ⟨_, registryParam_type h1⟩

theorem subject_serialize {n : Str} {s : Sig} (h : serializeDecl n = .ok s) :
    subject s = [idOf n] ∧ s.params.head? = some (.struct (idOf n)) := by
  obtain ⟨_, rfl⟩ := serializeDecl_inv h
  exact ⟨rfl, rfl⟩

theorem mapM_subject {α : Type} {D : α → Except Exc Sig} {k : α → Str} {l : List α} {ss : List Sig} (h : l.mapM D = .ok ss)
    (hk : ∀ a s, D a = .ok s → subject s = [idOf (k a)]) : ss.map subject = l.map fun a => [idOf (k a)] := by
  induction l generalizing ss with
  | nil => cases h; rfl
  | cons a l ih =>
    obtain ⟨s, ss', h1, h2, rfl⟩ := mapM_cons h
    rw [List.map_cons, List.map_cons, hk a s h1, ih h2]

theorem nodup_of_map {α β : Type} {k : α → β} {l : List α} (h : (l.map k).Nodup) : l.Nodup :=
  (List.pairwise_map.1 h).imp fun hne e => hne (by rw [e])

/-- The key of an overloaded function -/
def key (s : Sig) : Str × List CTy := (s.name, s.params)

theorem nodup_keys {l : List Sig} (h : (l.map subject).Nodup) : (l.map key).Nodup :=
  List.pairwise_map.2 ((List.pairwise_map.1 h).imp fun hne e => hne (congrArg (List.filterMap structOf) (Prod.ext_iff.1 e).2))

theorem structNames_perm (g : Graph) : (structNames g).Perm ((g.name :: g.embeds.map (·.name) ++ g.classes.map (·.name)).map idOf) := by
  simp only [structNames, List.map_append, List.map_cons, List.map_map, List.cons_append]
  exact List.perm_append_singleton _ _

theorem structNames_perm' (g : Graph) : (structNames g).Perm ((g.name :: g.classes.map (·.name) ++ g.embeds.map (·.name)).map idOf) := by
  refine (structNames_perm g).trans (List.Perm.map _ ?_)
  exact List.Perm.cons _ List.perm_append_comm

theorem nodup_singletons {l : List Str} (h : l.Nodup) : (l.map fun x => [x]).Nodup :=
  List.pairwise_map.2 (h.imp fun hne e => hne (by simpa using e))

theorem sigs_nodup {sigs : List Sig} (h : jsonHeader g cpp = .ok sigs) (hn : (structNames g).Nodup) : (sigs.map key).Nodup := by
  obtain ⟨es, cs, ss, hes, hcs, hss, rfl⟩ := jsonHeader_inv h
  rw [List.map_append]
  refine List.nodup_append.2 ⟨nodup_keys ?_, nodup_keys ?_, ?_⟩
  · have : (graphSig g :: es ++ cs).map subject = ((g.name :: g.embeds.map (·.name) ++ g.classes.map (·.name)).map idOf).map fun x => [x] := by
      rw [List.map_append, List.map_cons, mapM_subject (k := (·.name)) hes fun _ _ h => (subject_parseDecl h).1,
        mapM_subject (k := (·.name)) hcs fun _ _ h => (subject_parseDecl h).1,
        show subject (graphSig g) = [idOf g.name] from subject_parse (by simp)]
      simp [Function.comp_def]
    rw [this]
    exact nodup_singletons ((structNames_perm g).nodup_iff.1 hn)
  · have : ss.map subject = ((g.name :: g.classes.map (·.name) ++ g.embeds.map (·.name)).map idOf).map fun x => [x] := by
      rw [mapM_subject (k := fun n => n) hss fun _ _ h => (subject_serialize h).1, List.map_map]
      rfl
    rw [this]
    exact nodup_singletons ((structNames_perm' g).nodup_iff.1 hn)
  · intro a ha b hb e
    obtain ⟨s, hs, rfl⟩ := List.mem_map.1 ha
    obtain ⟨r, hr, rfl⟩ := List.mem_map.1 hb
    obtain ⟨n, _, h1⟩ := mapM_mem hss hr
    have h2 := (subject_serialize h1).2
    have h3 : s.params.head? = some .json := by
      simp only [List.mem_append, List.mem_cons] at hs
      rcases hs with (rfl | hs) | hs
      · rfl
      · obtain ⟨_, _, h4⟩ := mapM_mem hes hs
        exact (subject_parseDecl h4).2
      · obtain ⟨_, _, h4⟩ := mapM_mem hcs hs
        exact (subject_parseDecl h4).2
    have e : s.params = r.params := (Prod.ext_iff.1 e).2
    rw [← e, h3] at h2
    cases h2

/-! ## The definitions -/

/-- The functions with a fixed text which are defined -/
def fixedPart (g : Graph) (date : Bool) : List Sig :=
  [messageSig] ++ (if needs g .duration then [durationFromSig] else []) ++ [valueTypeSig] ++
    ((if !date && (needs g .date || needs g .time || needs g .datetime) then [tmSig] else []) ++
        (if needs g .duration then [durationToSig] else []))

theorem fixedPart_mem {s : Sig} (h : s ∈ fixedPart g date) : s ∈ fixedSigs := by
  simp only [fixedPart, List.mem_append, List.mem_singleton] at h
  rcases h with ((rfl | h) | rfl) | h | h
  · decide
  · split at h
    · rw [List.mem_singleton.1 h]; decide
    · cases h
  · decide
  · split at h
    · rw [List.mem_singleton.1 h]; decide
    · cases h
  · split at h
    · rw [List.mem_singleton.1 h]; decide
    · cases h

theorem fixedPart_nodup : ((fixedPart g date).map key).Nodup := by
  unfold fixedPart
  cases needs g .duration <;> cases (!date && (needs g .date || needs g .time || needs g .datetime)) <;> decide

theorem sigs_funcs (fs : List Func) : (fs.map Item.func).filterMap Item.sig? = fs.map Func.sig := by
  induction fs with
  | nil => rfl
  | cons f fs ih => exact congrArg (f.sig :: ·) ih

theorem ns_funcs (fs : List Func) : (fs.map Item.func).filterMap Item.ns? = [] := by
  induction fs with
  | nil => rfl
  | cons f fs ih => exact ih

theorem sigs_patterns (ns : List Str) : (ns.map Item.pattern).filterMap Item.sig? = [] := by
  induction ns with
  | nil => rfl
  | cons f fs ih => exact ih

theorem ns_patterns (ns : List Str) : (ns.map Item.pattern).filterMap Item.ns? = ns := by
  induction ns with
  | nil => rfl
  | cons f fs ih => exact congrArg (f :: ·) ih

theorem sigs_if (b : Bool) (s : Sig) : (if b then [Item.helper s] else []).filterMap Item.sig? = if b then [s] else [] := by
  cases b <;> rfl

theorem ns_if (b : Bool) (s : Sig) : (if b then [Item.helper s] else []).filterMap Item.ns? = [] := by
  cases b <;> rfl

theorem Impl.namespaces {items : List Item} (I : Impl g cpp date items) : items.filterMap Item.ns? = patternNames g := by
  refine (congrArg (List.filterMap Item.ns?) I.hitems).trans ?_
  simp only [List.cons_append, List.filterMap_append, List.filterMap_cons, ns_patterns, ns_if, ns_funcs, Item.ns?, List.filterMap_nil,
    List.append_nil]

theorem Impl.signatures {items : List Item} (I : Impl g cpp date items) :
    (items.filterMap Item.sig?).Perm (fixedPart g date ++ (funcsOf items).map Func.sig) := by
  have e : items.filterMap Item.sig? = ([messageSig] ++ (if needs g .duration then [durationFromSig] else []) ++ [valueTypeSig]) ++
      ([I.graph.sig] ++ (((if !date && (needs g .date || needs g .time || needs g .datetime) then [tmSig] else []) ++
        (if needs g .duration then [durationToSig] else [])) ++
        (I.classes ++ I.embeds ++ I.classesTo ++ I.embedsTo ++ [I.graphTo]).map Func.sig)) := by
    refine (congrArg (List.filterMap Item.sig?) I.hitems).trans ?_
    simp only [List.cons_append, List.filterMap_append, List.filterMap_cons, sigs_patterns, sigs_if, sigs_funcs, Item.sig?,
      List.filterMap_nil, List.nil_append, List.append_assoc, List.map_cons, List.map_nil]
  rw [e, I.funcs, fixedPart, List.map_cons]
  generalize (if !date && (needs g .date || needs g .time || needs g .datetime) then [tmSig] else []) ++
        (if needs g .duration then [durationToSig] else []) = m
  rw [List.append_assoc (_ ++ [valueTypeSig]) m]
  refine List.Perm.append_left _ ?_
  exact List.perm_append_comm_assoc _ _ _

theorem definitions_iff {H : TypesHeader} {sigs : List Sig} {items : List Item} (F : Files g cpp date H sigs)
    (h : jsonImpl g cpp = .ok items) :
    definitionsOk sigs items ↔ (patternNames g).Nodup ∧ ∀ x ∈ patternNames g, ∀ n ∈ allNames g, c!"serialize_" ++ lower n ≠ x := by
  obtain ⟨I⟩ := impl_of F.date h
  have hperm : (items.filterMap Item.sig?).Perm (fixedPart g date ++ sigs) := I.signatures.trans (List.Perm.append_left _ (I.perm F.header))
  have hmem : ∀ s ∈ sigs ++ items.filterMap Item.sig?, s ∈ sigs ∨ s ∈ fixedSigs := by
    intro s hs
    rcases List.mem_append.1 hs with hs | hs
    · exact .inl hs
    · rcases List.mem_append.1 (hperm.mem_iff.1 hs) with hs | hs
      · exact .inr (fixedPart_mem hs)
      · exact .inl hs
  have hnodup : ((items.filterMap Item.sig?).map key).Nodup := by
    rw [(hperm.map key).nodup_iff, List.map_append]
    refine List.nodup_append.2 ⟨fixedPart_nodup, sigs_nodup F.header F.ids, ?_⟩
    intro a ha b hb e
    obtain ⟨s, hs, rfl⟩ := List.mem_map.1 ha
    obtain ⟨r, hr, rfl⟩ := List.mem_map.1 hb
    obtain ⟨_, e⟩ := Prod.ext_iff.1 e
    have h1 := fixed_params s (fixedPart_mem hs)
    have e : s.params = r.params := e
    rw [e] at h1
    rcases generated_sigs F.header r hr with ⟨h2, _⟩ | ⟨X, h2, _⟩
    · exact h1.1 h2
    · exact h1.2 X h2
  have hkey : ∀ s ∈ sigs ++ items.filterMap Item.sig?, s.name ∉ keywords := by
    intro s hs
    rcases hmem s hs with hs | hs
    · exact funcName_keyword (sigs_names F.header s hs)
    · exact (fixed_names s hs).1
  have hfun : ∀ s ∈ sigs, ∀ r ∈ sigs ++ items.filterMap Item.sig?, s.name = r.name → s.params = r.params → s.result = r.result := by
    intro s hs r hr e e'
    rw [functional (generated_sigs F.header) (.inl hs) (hmem r hr) e.symm e'.symm]
  unfold definitionsOk
  rw [I.namespaces]
  constructor
  · rintro ⟨_, h1, h2, _⟩
    refine ⟨h1, ?_⟩
    intro x hx n hn
    obtain ⟨s, hs, e⟩ := serialize_declared F.header hn
    rw [← e]
    exact (h2 x hx).2 s (List.mem_append_left _ hs)
  · rintro ⟨h1, h2⟩
    refine ⟨hnodup, h1, ?_, hkey, hfun⟩
    intro x hx
    obtain ⟨c, _, e⟩ := List.mem_map.1 hx
    have e : x = lower c.name ++ c!"_re" := e.symm
    refine ⟨fun hk => (keywords_from _ hk).2.2 (by rw [e]; exact ends_re _), ?_⟩
    intro s hs e'
    rcases hmem s hs with hs | hs
    · obtain ⟨n, hn, h3 | h3⟩ := sigs_names F.header s hs
      · exact from_ne_re _ _ (h3.symm.trans (e'.trans e))
      · exact h2 x hx n hn (h3.symm.trans e')
    · refine (fixed_names s hs).2 ?_
      rw [e', e]
      exact ends_re _

end Mapry.CppCode
