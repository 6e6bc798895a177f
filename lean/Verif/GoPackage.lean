import Verif.GoSerNames
import Verif.GoPatterns

/-!
# The files of the generated Go package

What the files declare and import covers what their functions need.
-/

namespace Mapry.GoCode

open Mapry.TypeGraph Mapry.Naming

/-! ## What occurs in a graph -/

theorem iterateTy_parts (t : Ty) (ref : Str) : (iterateTy t ref).map (·.1) = parts t := by
  induction t generalizing ref with
  | array t _ _ ih => simp [iterateTy, parts, ih]
  | map t ih => simp [iterateTy, parts, ih]
  | _ => rfl

theorem mem_iterateComposite {c : Composite} {t : Ty} :
    (∃ r, (t, r) ∈ iterateComposite c) ↔ ∃ p ∈ c.properties, t ∈ parts p.ty := by
  unfold iterateComposite
  simp only [List.mem_flatMap]
  constructor
  · rintro ⟨r, p, hp, h⟩
    refine ⟨p, hp, ?_⟩
    rw [← iterateTy_parts p.ty (c.ref ++ c!"/" ++ p.name)]
    exact List.mem_map.2 ⟨_, h, rfl⟩
  · rintro ⟨p, hp, h⟩
    rw [← iterateTy_parts p.ty (c.ref ++ c!"/" ++ p.name)] at h
    obtain ⟨⟨u, r⟩, h', rfl⟩ := List.mem_map.1 h
    exact ⟨r, p, hp, h'⟩

theorem mem_iterate {g : Graph} {t : Ty} : (∃ r, (t, r) ∈ iterateOverTypes g) ↔ Occurs g t := by
  unfold iterateOverTypes
  constructor
  · rintro ⟨r, h⟩
    rw [List.mem_append, List.mem_append, List.mem_flatMap, List.mem_flatMap] at h
    rcases h with (⟨c, hc, h⟩ | ⟨e, he, h⟩) | h
    · obtain ⟨p, hp, ht⟩ := mem_iterateComposite.1 ⟨r, h⟩
      exact .cls c p hc hp ht
    · obtain ⟨p, hp, ht⟩ := mem_iterateComposite.1 ⟨r, h⟩
      exact .embed e p he hp ht
    · obtain ⟨p, hp, ht⟩ := mem_iterateComposite.1 ⟨r, h⟩
      exact .graph p hp ht
  · rintro (⟨p, hp, ht⟩ | ⟨c, p, hc, hp, ht⟩ | ⟨e, p, he, hp, ht⟩)
    · obtain ⟨r, h⟩ := (mem_iterateComposite (c := g.composite)).2 ⟨p, hp, ht⟩
      exact ⟨r, by simp [h]⟩
    · obtain ⟨r, h⟩ := (mem_iterateComposite (c := c.composite)).2 ⟨p, hp, ht⟩
      exact ⟨r, by rw [List.mem_append, List.mem_append]; exact .inl (.inl (List.mem_flatMap.2 ⟨c, hc, h⟩))⟩
    · obtain ⟨r, h⟩ := (mem_iterateComposite (c := e.composite)).2 ⟨p, hp, ht⟩
      exact ⟨r, by rw [List.mem_append, List.mem_append]; exact .inl (.inr (List.mem_flatMap.2 ⟨e, he, h⟩))⟩

theorem any_iterate {g : Graph} {f : Ty → Bool} :
    (iterateOverTypes g).any (fun t => f t.1) = true ↔ ∃ t, Occurs g t ∧ f t = true := by
  rw [List.any_eq_true]
  constructor
  · rintro ⟨⟨t, r⟩, h, hf⟩
    exact ⟨t, mem_iterate.1 ⟨r, h⟩, hf⟩
  · rintro ⟨t, h, hf⟩
    obtain ⟨r, h⟩ := mem_iterate.2 h
    exact ⟨(t, r), h, hf⟩

theorem needs_ty {g : Graph} (hn : Named g) {q : Traverse.Tag} (h1 : q ≠ .graph) (h2 : q ≠ .cls) (h3 : q ≠ .embed) :
    needs g q = true ↔ ∃ t, Occurs g t ∧ tyTag t = q := by
  rw [needs_iff hn]
  simp [h1, h2, h3]

/-- Every class and every embed which is used as a type is defined. -/
def Resolves (g : Graph) : Prop :=
  (∀ n, Occurs g (.cls n) → ∃ c ∈ g.classes, c.name = n) ∧ ∀ n, Occurs g (.embed n) → ∃ e ∈ g.embeds, e.name = n

/-! ## What the files declare -/

/-- The types and functions of the generated package. -/
structure Covers (g : Graph) (D : List Name) : Prop where
  errors : .glob c!"Errors" ∈ D
  error : .glob c!"Error" ∈ D
  types : ∀ f, ((∃ c ∈ g.classes, ucamelCase c.name = .ok f) ∨ (∃ e ∈ g.embeds, ucamelCase e.name = .ok f) ∨
    ucamelCase g.name = .ok f) → .glob f ∈ D ∧ .glob (f ++ c!"FromJSONable") ∈ D ∧ .glob (f ++ c!"ToJSONable") ∈ D
  patterns : ∀ p, HasPattern g p → patternName (enumeratePatterns g) p ∈ D
  duration : needs g .duration = true → .glob c!"durationFromString" ∈ D ∧ .glob c!"durationToString" ∈ D ∧
    .glob c!"durationRe" ∈ D ∧ .glob c!"addDuration" ∈ D

theorem typesFile_declares {g : Graph} {F : File} (h : typesFile g = .ok F) :
    ∀ f, ((∃ c ∈ g.classes, ucamelCase c.name = .ok f) ∨ (∃ e ∈ g.embeds, ucamelCase e.name = .ok f) ∨
    ucamelCase g.name = .ok f) → .glob f ∈ F.declares := by
  unfold typesFile at h
  obtain ⟨es, hes, h⟩ := ok_bind h
  obtain ⟨cs, hcs, h⟩ := ok_bind h
  obtain ⟨ps, hps, h⟩ := ok_bind h
  obtain ⟨n, hn, h⟩ := ok_bind h
  cases h
  intro f hf
  simp only [List.mem_append, List.mem_map, List.mem_singleton]
  rcases hf with ⟨c, hc, hf⟩ | ⟨e, he, hf⟩ | hf
  · obtain ⟨⟨y, ys⟩, hy, hy'⟩ := mapM_mem' hcs hc
    obtain ⟨z, hz, hy'⟩ := ok_bind hy'
    obtain ⟨zs, _, hy'⟩ := ok_bind hy'
    cases hy'
    rw [hf] at hz
    cases hz
    exact .inl (.inr ⟨_, hy, rfl⟩)
  · obtain ⟨⟨y, ys⟩, hy, hy'⟩ := mapM_mem' hes he
    obtain ⟨z, hz, hy'⟩ := ok_bind hy'
    obtain ⟨zs, _, hy'⟩ := ok_bind hy'
    cases hy'
    rw [hf] at hz
    cases hz
    exact .inl (.inl ⟨_, hy, rfl⟩)
  · rw [hf] at hn
    cases hn
    exact .inr rfl

theorem parseComposite_name {g : Graph} {uids : List (Str × Nat)} {o : Owner} {name : Str} {b : Bool} {f : Func}
    (h : parseComposite g uids o name b = .ok f) : ∃ n, ucamelCase name = .ok n ∧ f.name = n ++ c!"FromJSONable" := by
  unfold parseComposite at h
  obtain ⟨_, _, h⟩ := ok_bind h
  obtain ⟨_, _, h⟩ := ok_bind h
  obtain ⟨_, _, h⟩ := ok_bind h
  obtain ⟨_, _, h⟩ := ok_bind h
  obtain ⟨n, hn, h⟩ := ok_bind h
  cases h
  exact ⟨n, hn, rfl⟩

theorem parseGraph_name {g : Graph} {uids : List (Str × Nat)} {f : Func} (h : parseGraph g uids = .ok f) :
    ∃ n, ucamelCase g.name = .ok n ∧ f.name = n ++ c!"FromJSONable" := by
  unfold parseGraph at h
  obtain ⟨_, _, h⟩ := ok_bind h
  obtain ⟨_, _, h⟩ := ok_bind h
  obtain ⟨_, _, h⟩ := ok_bind h
  obtain ⟨n, hn, h⟩ := ok_bind h
  cases h
  exact ⟨n, hn, rfl⟩

theorem serializeComposite_name {name : Str} {ps : List Property} {f : Func} (h : serializeComposite name ps = .ok f) :
    ∃ n, ucamelCase name = .ok n ∧ f.name = n ++ c!"ToJSONable" := by
  obtain ⟨_, _, h⟩ := ok_bind h
  obtain ⟨n, hn, h⟩ := ok_bind h
  cases h
  exact ⟨n, hn, rfl⟩

theorem serializeGraph_name {g : Graph} {f : Func} (h : serializeGraph g = .ok f) :
    ∃ n, ucamelCase g.name = .ok n ∧ f.name = n ++ c!"ToJSONable" := by
  obtain ⟨_, _, h⟩ := ok_bind h
  obtain ⟨_, _, h⟩ := ok_bind h
  obtain ⟨n, hn, h⟩ := ok_bind h
  cases h
  exact ⟨n, hn, rfl⟩

/-- The parts of the file of the parser. -/
theorem parseFile_parts {g : Graph} {F : File} (h : parseFile g = .ok F) :
    ∃ cs es gr, g.classes.mapM (fun c => parseComposite g (enumeratePatterns g) (.cls c.name) c.name true) = .ok cs ∧
      g.embeds.mapM (fun e => parseComposite g (enumeratePatterns g) (.embed e.name) e.name false) = .ok es ∧
      parseGraph g (enumeratePatterns g) = .ok gr ∧
      F.imports = parseImports g ∧
      F.funcs = (if needs g .duration then durationFromString else []) ++ cs ++ es ++ [gr] ∧
      F.declares = F.funcs.map (fun f => .glob f.name) ++ (if needs g .duration then [.glob c!"durationRe"] else []) ++
        (enumeratePatterns g).map (fun e => .pattern e.2) ∧
      F.top = (if needs g .duration then [regexp] else []) ++ (enumeratePatterns g).map (fun _ => regexp) := by
  unfold parseFile at h
  obtain ⟨cs, hcs, h⟩ := ok_bind h
  obtain ⟨es, hes, h⟩ := ok_bind h
  obtain ⟨gr, hgr, h⟩ := ok_bind h
  cases h
  exact ⟨cs, es, gr, hcs, hes, hgr, rfl, rfl, rfl, rfl⟩

/-- The parts of the file of the serializer. -/
theorem serializeFile_parts {g : Graph} {F : File} (h : serializeFile g = .ok F) :
    ∃ cs es gr, g.classes.mapM (fun c => serializeComposite c.name c.properties) = .ok cs ∧
      g.embeds.mapM (fun e => serializeComposite e.name e.properties) = .ok es ∧
      serializeGraph g = .ok gr ∧ F.imports = serializeImports g ∧
      F.funcs = (if needs g .duration then durationToString else []) ++ cs ++ es ++ [gr] ∧
      F.declares = F.funcs.map (fun f => .glob f.name) ∧ F.top = [] := by
  unfold serializeFile at h
  obtain ⟨cs, hcs, h⟩ := ok_bind h
  obtain ⟨es, hes, h⟩ := ok_bind h
  obtain ⟨gr, hgr, h⟩ := ok_bind h
  cases h
  exact ⟨cs, es, gr, hcs, hes, hgr, rfl, rfl, rfl, rfl⟩

theorem parseFile_declares {g : Graph} {F : File} (h : parseFile g = .ok F) :
    (∀ f, ((∃ c ∈ g.classes, ucamelCase c.name = .ok f) ∨ (∃ e ∈ g.embeds, ucamelCase e.name = .ok f) ∨
      ucamelCase g.name = .ok f) → .glob (f ++ c!"FromJSONable") ∈ F.declares) ∧
    (∀ p, HasPattern g p → patternName (enumeratePatterns g) p ∈ F.declares) ∧
    (needs g .duration = true → .glob c!"durationFromString" ∈ F.declares ∧ .glob c!"durationRe" ∈ F.declares ∧
      .glob c!"addDuration" ∈ F.declares) := by
  obtain ⟨cs, es, gr, hcs, hes, hgr, _, hfuncs, hdecl, _⟩ := parseFile_parts h
  rw [hdecl]
  have hf : ∀ f ∈ F.funcs, .glob f.name ∈ F.funcs.map (fun f => Name.glob f.name) :=
    fun f hf => List.mem_map.2 ⟨f, hf, rfl⟩
  refine ⟨?_, ?_, ?_⟩
  · intro f h
    rw [List.mem_append, List.mem_append]
    refine .inl (.inl ?_)
    rcases h with ⟨c, hc, h⟩ | ⟨e, he, h⟩ | h
    · obtain ⟨y, hy, hy'⟩ := mapM_mem' hcs hc
      obtain ⟨n, hn, e⟩ := parseComposite_name hy'
      rw [h] at hn
      cases hn
      rw [← e]
      exact hf y (by simp [hfuncs, hy])
    · obtain ⟨y, hy, hy'⟩ := mapM_mem' hes he
      obtain ⟨n, hn, e⟩ := parseComposite_name hy'
      rw [h] at hn
      cases hn
      rw [← e]
      exact hf y (by simp [hfuncs, hy])
    · obtain ⟨n, hn, e⟩ := parseGraph_name hgr
      rw [h] at hn
      cases hn
      rw [← e]
      exact hf gr (by simp [hfuncs])
  · intro p hp
    rw [List.mem_append]
    exact .inr (patternName_declared hp)
  · intro hd
    rw [hfuncs, hd]
    simp [durationFromString]

theorem serializeFile_declares {g : Graph} {F : File} (h : serializeFile g = .ok F) :
    (∀ f, ((∃ c ∈ g.classes, ucamelCase c.name = .ok f) ∨ (∃ e ∈ g.embeds, ucamelCase e.name = .ok f) ∨
      ucamelCase g.name = .ok f) → .glob (f ++ c!"ToJSONable") ∈ F.declares) ∧
    (needs g .duration = true → .glob c!"durationToString" ∈ F.declares) := by
  obtain ⟨cs, es, gr, hcs, hes, hgr, _, hfuncs, hdecl, _⟩ := serializeFile_parts h
  rw [hdecl]
  have hf : ∀ f ∈ F.funcs, .glob f.name ∈ F.funcs.map (fun f => Name.glob f.name) :=
    fun f hf => List.mem_map.2 ⟨f, hf, rfl⟩
  refine ⟨?_, ?_⟩
  · intro f h
    rcases h with ⟨c, hc, h⟩ | ⟨e, he, h⟩ | h
    · obtain ⟨y, hy, hy'⟩ := mapM_mem' hcs hc
      obtain ⟨n, hn, e⟩ := serializeComposite_name hy'
      rw [h] at hn
      cases hn
      rw [← e]
      exact hf y (by simp [hfuncs, hy])
    · obtain ⟨y, hy, hy'⟩ := mapM_mem' hes he
      obtain ⟨n, hn, e⟩ := serializeComposite_name hy'
      rw [h] at hn
      cases hn
      rw [← e]
      exact hf y (by simp [hfuncs, hy])
    · obtain ⟨n, hn, e⟩ := serializeGraph_name hgr
      rw [h] at hn
      cases hn
      rw [← e]
      exact hf gr (by simp [hfuncs])
  · intro hd
    rw [hfuncs, hd]
    simp [durationToString]

/-- The files of the package. -/
theorem package_parts {g : Graph} {fs : List File} (h : package g = .ok fs) :
    ∃ T P S, typesFile g = .ok T ∧ parseFile g = .ok P ∧ serializeFile g = .ok S ∧
      fs = [T, errorsFile, P, parseTestFile g, S, serializeTestFile g] := by
  unfold package at h
  obtain ⟨T, hT, h⟩ := ok_bind h
  obtain ⟨P, hP, h⟩ := ok_bind h
  obtain ⟨S, hS, h⟩ := ok_bind h
  cases h
  exact ⟨T, P, S, hT, hP, hS, rfl⟩

theorem package_covers {g : Graph} {fs : List File} (h : package g = .ok fs) : Covers g (declared fs) := by
  obtain ⟨T, P, S, hT, hP, hS, rfl⟩ := package_parts h
  have mT : ∀ x ∈ T.declares, x ∈ declared [T, errorsFile, P, parseTestFile g, S, serializeTestFile g] := by
    intro x hx; simp [declared, hx]
  have mP : ∀ x ∈ P.declares, x ∈ declared [T, errorsFile, P, parseTestFile g, S, serializeTestFile g] := by
    intro x hx; simp [declared, hx]
  have mS : ∀ x ∈ S.declares, x ∈ declared [T, errorsFile, P, parseTestFile g, S, serializeTestFile g] := by
    intro x hx; simp [declared, hx]
  obtain ⟨p1, p2, p3⟩ := parseFile_declares hP
  obtain ⟨s1, s2⟩ := serializeFile_declares hS
  constructor
  · simp [declared, errorsFile]
  · simp [declared, errorsFile]
  · intro f hf
    exact ⟨mT _ (typesFile_declares hT f hf), mP _ (p1 f hf), mS _ (s1 f hf)⟩
  · intro p hp
    exact mP _ (p2 p hp)
  · intro hd
    exact ⟨mP _ (p3 hd).1, mS _ (s2 hd), mP _ (p3 hd).2.1, mP _ (p3 hd).2.2⟩

/-! ## What the parser imports -/

theorem parseImports_provide {g : Graph} (hn : Named g) {t : Ty} (ht : Occurs g t) :
    (tyTag t = .integer → c!"math" ∈ parseImports g) ∧
    (tyTag t = .date ∨ tyTag t = .time ∨ tyTag t = .datetime ∨ tyTag t = .timeZone ∨ tyTag t = .duration →
      c!"time" ∈ parseImports g) ∧
    (isArray t = true → c!"strconv" ∈ parseImports g) := by
  refine ⟨?_, ?_, ?_⟩
  · intro h
    have : needs g .integer = true := (needs_ty hn (by decide) (by decide) (by decide)).2 ⟨t, ht, h⟩
    simp [parseImports, this]
  · intro h
    have : ∀ q, tyTag t = q → q ≠ .graph → q ≠ .cls → q ≠ .embed → needs g q = true :=
      fun q hq h1 h2 h3 => (needs_ty hn h1 h2 h3).2 ⟨t, ht, hq⟩
    rcases h with h | h | h | h | h
    all_goals simp [parseImports, this _ h (by decide) (by decide) (by decide)]
  · intro h
    have := any_iterate.2 ⟨t, ht, h⟩
    simp [parseImports, this]

theorem pkg_mem {fs : List Name} {i : List Str} {p : Str} (h : p ∈ i) : Name.pkg p ∈ fs ++ i.map Name.pkg := by
  rw [List.mem_append]
  exact .inr (List.mem_map.2 ⟨p, h, rfl⟩)

theorem provides_of {g : Graph} {fs : List File} (hn : Named g) (hr : Resolves g) (h : package g = .ok fs) :
    Provides g (enumeratePatterns g) (declared fs ++ (parseImports g).map Name.pkg) := by
  have hc := package_covers h
  have inl : ∀ x ∈ declared fs, x ∈ declared fs ++ (parseImports g).map Name.pkg :=
    fun x hx => List.mem_append.2 (.inl hx)
  constructor
  · exact pkg_mem (by simp [parseImports])
  · exact pkg_mem (by simp [parseImports])
  · exact inl _ hc.errors
  · intro t ht
    obtain ⟨i1, i2, i3⟩ := parseImports_provide hn ht
    cases t with
    | integer => exact pkg_mem (i1 rfl)
    | string p =>
      cases p with
      | none => trivial
      | some p => exact inl _ (hc.patterns p (.inl ⟨_, ht, .inl rfl⟩))
    | path p =>
      cases p with
      | none => trivial
      | some p => exact inl _ (hc.patterns p (.inl ⟨_, ht, .inr rfl⟩))
    | date => exact pkg_mem (i2 (by simp [tyTag]))
    | time => exact pkg_mem (i2 (by simp [tyTag]))
    | datetime => exact pkg_mem (i2 (by simp [tyTag]))
    | timeZone => exact pkg_mem (i2 (by simp [tyTag]))
    | duration =>
      refine ⟨pkg_mem (i2 (by simp [tyTag])), inl _ (hc.duration ?_).1⟩
      exact (needs_ty hn (by decide) (by decide) (by decide)).2 ⟨_, ht, rfl⟩
    | array => exact pkg_mem (i3 rfl)
    | cls n =>
      intro f hf
      obtain ⟨c, hc', rfl⟩ := hr.1 n ht
      exact inl _ (hc.types f (.inl ⟨c, hc', hf⟩)).1
    | embed n =>
      intro f hf
      obtain ⟨e, he, rfl⟩ := hr.2 n ht
      have := hc.types f (.inr (.inl ⟨e, he, hf⟩))
      exact ⟨inl _ this.1, inl _ this.2.1⟩
    | boolean => trivial
    | float => trivial
    | map => trivial
  · intro c hc' p hp
    exact inl _ (hc.patterns p (.inr ⟨c, hc', hp⟩))
  · intro c hc' f hf
    have := hc.types f (.inl ⟨c, hc', hf⟩)
    exact ⟨inl _ this.1, inl _ this.2.1⟩
  · intro e he f hf
    exact inl _ (hc.types f (.inr (.inl ⟨e, he, hf⟩))).1
  · intro f hf
    exact inl _ (hc.types f (.inr (.inr hf))).1

/-! ## All the files -/

/-- The items of all the arrays and maps of the graph are visible. -/
def AllItemsVisible (g : Graph) : Prop :=
  (∀ u lo hi, Occurs g (.array u lo hi) → Visible u) ∧ ∀ u, Occurs g (.map u) → Visible u

theorem AllItemsVisible.of {g : Graph} (h : AllItemsVisible g) {t : Ty} (ht : Occurs g t) : ItemsVisible t :=
  ⟨fun u lo hi hu => h.1 u lo hi (ht.part hu), fun u hu => h.2 u (ht.part hu)⟩

theorem serves_of {g : Graph} {fs : List File} (hn : Named g) (hr : Resolves g) (h : package g = .ok fs)
    {i : List Name} {t : Ty} (ht : Occurs g t) : Serves (· ∈ declared fs ++ i) t := by
  have hc := package_covers h
  cases t with
  | duration =>
    exact List.mem_append.2 (.inl (hc.duration
      ((needs_ty hn (by decide) (by decide) (by decide)).2 ⟨_, ht, rfl⟩)).2.1)
  | embed n =>
    intro f hf
    obtain ⟨e, he, rfl⟩ := hr.2 n ht
    exact List.mem_append.2 (.inl (hc.types f (.inr (.inl ⟨e, he, hf⟩))).2.2)
  | _ => trivial

theorem constant_scoped {name : Str} {sig uses O : List Name} (h : ∀ x ∈ sig ++ uses, x ∈ O) :
    (Func.mk name [] sig (.use uses .done)).Scoped O where
  nodup := List.nodup_nil
  clean := trivial
  free := by
    intro x hx
    simp only [Code.free, List.append_nil] at hx
    exact .inr (h x (by simp [hx]))
  sig := fun x hx => h x (by simp [hx])

theorem constant_needs {name : Str} {sig uses O : List Name} (h : ∀ x ∈ sig ++ uses, x ∈ O) :
    (Func.mk name [] sig (.use uses .done)).Needs O where
  params := by simp
  free := by
    intro x hx
    simp only [Code.free, List.append_nil] at hx
    exact .inr (h x (by simp [hx]))
  sig := fun x hx => h x (by simp [hx])

/-- The file needs no more than the package and its imports. -/
structure File.Needs (F : File) (package : List Name) : Prop where
  top : ∀ x ∈ F.top, x ∈ package ∨ x ∈ F.imports.map Name.pkg
  funcs : ∀ f ∈ F.funcs, f.Needs (package ++ F.imports.map Name.pkg)

theorem parseFile_fine {g : Graph} {fs : List File} {F : File} (hn : Named g) (hr : Resolves g)
    (h : package g = .ok fs) (hF : parseFile g = .ok F) :
    (PluralsDistinct g ∧ (g.classes ≠ [] ∨ g.properties ≠ []) → F.Scoped (declared fs)) ∧ F.Needs (declared fs) := by
  obtain ⟨cs, es, gr, hcs, hes, hgr, himp, hfuncs, _, htop⟩ := parseFile_parts hF
  have hp := provides_of hn hr h
  have hc := package_covers h
  have top : ∀ x ∈ F.top, x ∈ declared fs ∨ x ∈ F.imports.map Name.pkg := by
    intro x hx
    refine .inr ?_
    rw [himp]
    rw [htop, List.mem_append] at hx
    rcases hx with hx | hx
    · split at hx
      · rename_i hnd
        rw [List.mem_singleton] at hx
        subst hx
        exact List.mem_map.2 ⟨c!"regexp", by simp [parseImports, hnd], rfl⟩
      · cases hx
    · obtain ⟨e, he, rfl⟩ := List.mem_map.1 hx
      refine List.mem_map.2 ⟨c!"regexp", ?_, rfl⟩
      have : HasPattern g e.1 := ((patterns_enumerated g).2.2 e.1).1 (List.mem_map_of_mem he)
      have : (iterateOverTypes g).any (fun t => hasPattern t.1) = true ∨
          g.classes.any (fun c => c.idPattern.isSome) = true := by
        rcases this with ⟨t, ht, h⟩ | ⟨c, hc, h⟩
        · exact .inl (any_iterate.2 ⟨t, ht, by rcases h with rfl | rfl <;> rfl⟩)
        · exact .inr (List.any_eq_true.2 ⟨c, hc, by simp [h]⟩)
      rcases this with h | h <;> simp [parseImports, h]
  have funcs : ∀ f ∈ F.funcs, (PluralsDistinct g ∧ (g.classes ≠ [] ∨ g.properties ≠ []) →
      f.Scoped (declared fs ++ F.imports.map Name.pkg)) ∧ f.Needs (declared fs ++ F.imports.map Name.pkg) := by
    intro f hf
    rw [himp]
    rw [hfuncs] at hf
    simp only [List.mem_append, List.mem_singleton] at hf
    rcases hf with ((hf | hf) | hf) | rfl
    · split at hf
      · rename_i hnd
        have himps : ∀ p, p ∈ [c!"math", c!"time", c!"strconv", c!"fmt", c!"strings"] →
            Name.pkg p ∈ declared fs ++ (parseImports g).map Name.pkg := by
          intro p hp
          refine pkg_mem ?_
          simp only [List.mem_cons, List.not_mem_nil, or_false] at hp
          rcases hp with rfl | rfl | rfl | rfl | rfl <;> simp [parseImports, hnd]
        obtain ⟨_, _, d3, d4⟩ := hc.duration hnd
        have ht := himps c!"time" (by simp)
        have hm := himps c!"math" (by simp)
        simp only [durationFromString, List.mem_cons, List.not_mem_nil, or_false] at hf
        rcases hf with rfl | rfl
        · suffices hall : _ from ⟨fun _ => constant_scoped hall, constant_needs hall⟩
          intro x hx
          simp only [List.cons_append, List.nil_append, List.mem_cons, List.not_mem_nil, or_false] at hx
          rcases hx with rfl | rfl | rfl
          · exact ht
          · exact ht
          · exact hm
        · suffices hall : _ from ⟨fun _ => constant_scoped hall, constant_needs hall⟩
          intro x hx
          simp only [List.cons_append, List.nil_append, List.mem_cons, List.not_mem_nil, or_false] at hx
          rcases hx with rfl | rfl | rfl | rfl | rfl | rfl | rfl | rfl
          · exact ht
          · exact List.mem_append.2 (.inl d3)
          · exact himps c!"fmt" (by simp)
          · exact himps c!"strconv" (by simp)
          · exact himps c!"strings" (by simp)
          · exact ht
          · exact hm
          · exact List.mem_append.2 (.inl d4)
      · cases hf
    · obtain ⟨c, hc', hf⟩ := mapM_mem hcs hf
      have := parseComposite_fine hp (fun n h => (hp.classes c hc' n h).1) hf
      exact ⟨fun h => this.1 h.1, this.2⟩
    · obtain ⟨e, he, hf⟩ := mapM_mem hes hf
      have := parseComposite_fine hp (fun n h => hp.embeds e he n h) hf
      exact ⟨fun h => this.1 h.1, this.2⟩
    · exact parseGraph_fine hn hp hgr
  exact ⟨fun h => ⟨top, fun f hf => (funcs f hf).1 h⟩, top, fun f hf => (funcs f hf).2⟩

theorem declared_names {g : Graph} {fs : List File} (h : package g = .ok fs) :
    (∀ b k, Name.var b k ∉ declared fs) ∧ ∀ p, Name.pkg p ∉ declared fs := by
  obtain ⟨T, P, S, hT, hP, hS, rfl⟩ := package_parts h
  obtain ⟨_, _, _, _, _, _, _, _, hPd, _⟩ := parseFile_parts hP
  obtain ⟨_, _, _, _, _, _, _, _, hSd, _⟩ := serializeFile_parts hS
  have hT' : (∀ b k, Name.var b k ∉ T.declares) ∧ ∀ p, Name.pkg p ∉ T.declares := by
    unfold typesFile at hT
    obtain ⟨es, hes, hT⟩ := ok_bind hT
    obtain ⟨cs, hcs, hT⟩ := ok_bind hT
    obtain ⟨ps, hps, hT⟩ := ok_bind hT
    obtain ⟨n, hnm, hT⟩ := ok_bind hT
    cases hT
    simp
  constructor
  · intro b k
    have hPn : Name.var b k ∉ P.declares := by
      rw [hPd]
      simp
    have hSn : Name.var b k ∉ S.declares := by rw [hSd]; simp
    simp [declared, hT', hPn, hSn, errorsFile, parseTestFile, serializeTestFile]
  · intro p
    have hPn : Name.pkg p ∉ P.declares := by
      rw [hPd]
      simp
    have hSn : Name.pkg p ∉ S.declares := by rw [hSd]; simp
    simp [declared, hT', hPn, hSn, errorsFile, parseTestFile, serializeTestFile]

theorem serializeFile_fine {g : Graph} {fs : List File} {F : File} (hn : Named g) (hr : Resolves g)
    (h : package g = .ok fs) (hF : serializeFile g = .ok F) :
    (F.Scoped (declared fs) ↔ AllItemsVisible g) ∧ F.Needs (declared fs) := by
  obtain ⟨cs, es, gr, hcs, hes, hgr, himp, hfuncs, _, htop⟩ := serializeFile_parts hF
  have hc := package_covers h
  have hvi : ∀ b k, vi b k ∉ declared fs ++ (serializeImports g).map Name.pkg := by
    intro b k hm
    rw [List.mem_append] at hm
    rcases hm with hm | hm
    · exact (declared_names h).1 _ _ hm
    · obtain ⟨_, _, hm⟩ := List.mem_map.1 hm
      cases hm
  have sc : ∀ c ∈ g.classes, ∀ f, serializeComposite c.name c.properties = .ok f →
      (f.Scoped (declared fs ++ (serializeImports g).map Name.pkg) ↔ ∀ p ∈ c.properties, ItemsVisible p.ty) ∧
      f.Needs (declared fs ++ (serializeImports g).map Name.pkg) :=
    fun c hc' f hf => serializeComposite_fine (fun p hp u hu => serves_of hn hr h (.cls c p hc' hp hu)) hvi
      (fun n h => List.mem_append.2 (.inl (hc.types n (.inl ⟨c, hc', h⟩)).1)) hf
  have se : ∀ e ∈ g.embeds, ∀ f, serializeComposite e.name e.properties = .ok f →
      (f.Scoped (declared fs ++ (serializeImports g).map Name.pkg) ↔ ∀ p ∈ e.properties, ItemsVisible p.ty) ∧
      f.Needs (declared fs ++ (serializeImports g).map Name.pkg) :=
    fun e he f hf => serializeComposite_fine (fun p hp u hu => serves_of hn hr h (.embed e p he hp hu)) hvi
      (fun n h => List.mem_append.2 (.inl (hc.types n (.inr (.inl ⟨e, he, h⟩))).1)) hf
  have sg : (gr.Scoped (declared fs ++ (serializeImports g).map Name.pkg) ↔
      ∀ p ∈ g.properties, ItemsVisible p.ty) ∧ gr.Needs (declared fs ++ (serializeImports g).map Name.pkg) := by
    refine serializeGraph_fine (fun p hp u hu => serves_of hn hr h (.graph p hp hu)) hvi
      (fun n h => List.mem_append.2 (.inl (hc.types n (.inr (.inr h))).1)) ?_
      (fun c hc' n h => List.mem_append.2 (.inl (hc.types n (.inl ⟨c, hc', h⟩)).2.2)) hgr
    intro hne
    exact pkg_mem (by simp [serializeImports, hne])
  have sd : ∀ f ∈ (if needs g .duration = true then durationToString else []),
      f.Scoped (declared fs ++ (serializeImports g).map Name.pkg) ∧
      f.Needs (declared fs ++ (serializeImports g).map Name.pkg) := by
    intro f hf
    split at hf
    · rename_i hnd
      simp only [durationToString, List.mem_singleton] at hf
      subst hf
      suffices hall : _ from ⟨constant_scoped hall, constant_needs hall⟩
      intro x hx
      simp only [List.cons_append, List.nil_append, List.mem_cons, List.not_mem_nil, or_false] at hx
      rcases hx with rfl | rfl | rfl | rfl <;> exact pkg_mem (by simp [serializeImports, hnd])
    · cases hf
  refine ⟨⟨?_, ?_⟩, ?_⟩
  · intro hs
    have hfs := hs.funcs
    rw [himp] at hfs
    have hall : ∀ t u, Occurs g t → u ∈ parts t → ∃ w, ItemsVisible w ∧ u ∈ parts w := by
      intro t u ht hu
      cases ht with
      | graph p hp h =>
        exact ⟨p.ty, sg.1.1 (hfs gr (by simp [hfuncs])) p hp, parts_trans hu h⟩
      | cls c p hc' hp h =>
        obtain ⟨f, hf, hf'⟩ := mapM_mem' hcs hc'
        exact ⟨p.ty, (sc c hc' f hf').1.1 (hfs f (by simp [hfuncs, hf])) p hp, parts_trans hu h⟩
      | embed e p he hp h =>
        obtain ⟨f, hf, hf'⟩ := mapM_mem' hes he
        exact ⟨p.ty, (se e he f hf').1.1 (hfs f (by simp [hfuncs, hf])) p hp, parts_trans hu h⟩
    constructor
    · intro u lo hi hu
      obtain ⟨w, hw, huw⟩ := hall _ _ hu (self_mem_parts _)
      exact hw.1 u lo hi huw
    · intro u hu
      obtain ⟨w, hw, huw⟩ := hall _ _ hu (self_mem_parts _)
      exact hw.2 u huw
  · intro hv
    constructor
    · rw [htop]; simp
    · intro f hf
      rw [himp]
      rw [hfuncs] at hf
      simp only [List.mem_append, List.mem_singleton] at hf
      rcases hf with ((hf | hf) | hf) | rfl
      · exact (sd f hf).1
      · obtain ⟨c, hc', hf⟩ := mapM_mem hcs hf
        exact (sc c hc' f hf).1.2 fun p hp => hv.of (.cls c p hc' hp (self_mem_parts _))
      · obtain ⟨e, he, hf⟩ := mapM_mem hes hf
        exact (se e he f hf).1.2 fun p hp => hv.of (.embed e p he hp (self_mem_parts _))
      · exact sg.1.2 fun p hp => hv.of (.graph p hp (self_mem_parts _))
  · constructor
    · rw [htop]; simp
    · intro f hf
      rw [himp]
      rw [hfuncs] at hf
      simp only [List.mem_append, List.mem_singleton] at hf
      rcases hf with ((hf | hf) | hf) | rfl
      · exact (sd f hf).2
      · obtain ⟨c, hc', hf⟩ := mapM_mem hcs hf
        exact (sc c hc' f hf).2
      · obtain ⟨e, he, hf⟩ := mapM_mem hes hf
        exact (se e he f hf).2
      · exact sg.2

theorem fieldNames_scoped {g : Graph} {fs : List File} (hn : Named g) (hr : Resolves g) (h : package g = .ok fs)
    {ps : List Property} (hps : ∀ p ∈ ps, Occurs g p.ty) {ns : List Name} (hf : fieldNames ps = .ok ns) :
    ∀ x ∈ ns, x ∈ declared fs ∨ x ∈ (typesImports g).map Name.pkg := by
  obtain ⟨l, hl, hf⟩ := ok_bind hf
  cases hf
  intro x hx
  obtain ⟨names, hnames, hx⟩ := List.mem_flatten.1 hx
  obtain ⟨p, hp, hnames⟩ := mapM_mem hl hnames
  have hc := package_covers h
  have key : ∀ t, Occurs g t → ∀ names, typeNames t = .ok names →
      ∀ x ∈ names, x ∈ declared fs ∨ x ∈ (typesImports g).map Name.pkg := by
    intro t
    have htime : ∀ t, Occurs g t → (tyTag t = .date ∨ tyTag t = .time ∨ tyTag t = .datetime ∨ tyTag t = .timeZone ∨
        tyTag t = .duration) → time ∈ (typesImports g).map Name.pkg := by
      intro t ht h
      have : ∀ q, tyTag t = q → q ≠ .graph → q ≠ .cls → q ≠ .embed → needs g q = true :=
        fun q hq h1 h2 h3 => (needs_ty hn h1 h2 h3).2 ⟨t, ht, hq⟩
      refine List.mem_map.2 ⟨c!"time", ?_, rfl⟩
      rcases h with h | h | h | h | h
      all_goals simp [typesImports, this _ h (by decide) (by decide) (by decide)]
    induction t with
    | array t _ _ ih => intro ht names hn; exact ih (ht.part (by simp [parts, self_mem_parts])) names hn
    | map t ih => intro ht names hn; exact ih (ht.part (by simp [parts, self_mem_parts])) names hn
    | cls n =>
      intro ht names hnm x hx
      obtain ⟨f, hf, hnm⟩ := ok_bind hnm
      cases hnm
      rw [List.mem_singleton] at hx
      subst hx
      obtain ⟨c, hc', rfl⟩ := hr.1 n ht
      exact .inl (hc.types f (.inl ⟨c, hc', hf⟩)).1
    | embed n =>
      intro ht names hnm x hx
      obtain ⟨f, hf, hnm⟩ := ok_bind hnm
      cases hnm
      rw [List.mem_singleton] at hx
      subst hx
      obtain ⟨e, he, rfl⟩ := hr.2 n ht
      exact .inl (hc.types f (.inr (.inl ⟨e, he, hf⟩))).1
    | date =>
      intro ht names hnm x hx; cases hnm; rw [List.mem_singleton] at hx
      exact .inr (hx ▸ htime _ ht (by simp [tyTag]))
    | time =>
      intro ht names hnm x hx; cases hnm; rw [List.mem_singleton] at hx
      exact .inr (hx ▸ htime _ ht (by simp [tyTag]))
    | datetime =>
      intro ht names hnm x hx; cases hnm; rw [List.mem_singleton] at hx
      exact .inr (hx ▸ htime _ ht (by simp [tyTag]))
    | timeZone =>
      intro ht names hnm x hx; cases hnm; rw [List.mem_singleton] at hx
      exact .inr (hx ▸ htime _ ht (by simp [tyTag]))
    | duration =>
      intro ht names hnm x hx; cases hnm; rw [List.mem_singleton] at hx
      exact .inr (hx ▸ htime _ ht (by simp [tyTag]))
    | boolean => intro _ _ hnm x hx; cases hnm; cases hx
    | integer => intro _ _ hnm x hx; cases hnm; cases hx
    | float => intro _ _ hnm x hx; cases hnm; cases hx
    | string => intro _ _ hnm x hx; cases hnm; cases hx
    | path => intro _ _ hnm x hx; cases hnm; cases hx
  exact key _ (hps p hp) _ hnames x hx

theorem typesFile_scoped {g : Graph} {fs : List File} {F : File} (hn : Named g) (hr : Resolves g)
    (h : package g = .ok fs) (hF : typesFile g = .ok F) : F.Scoped (declared fs) := by
  have hc := package_covers h
  unfold typesFile at hF
  obtain ⟨es, hes, hF⟩ := ok_bind hF
  obtain ⟨cs, hcs, hF⟩ := ok_bind hF
  obtain ⟨ps, hps, hF⟩ := ok_bind hF
  obtain ⟨n, hnm, hF⟩ := ok_bind hF
  cases hF
  refine ⟨?_, by simp⟩
  intro x hx
  simp only [List.mem_append, List.mem_flatMap, List.mem_map] at hx
  rcases hx with ((⟨y, hy, hx⟩ | ⟨y, hy, hx⟩) | ⟨y, hy, rfl⟩) | hx
  · obtain ⟨e, he, hy⟩ := mapM_mem hes hy
    obtain ⟨f, hf, hy⟩ := ok_bind hy
    obtain ⟨ns, hns, hy⟩ := ok_bind hy
    cases hy
    exact fieldNames_scoped hn hr h (fun p hp => .embed e p he hp (self_mem_parts _)) hns x hx
  · obtain ⟨c, hc', hy⟩ := mapM_mem hcs hy
    obtain ⟨f, hf, hy⟩ := ok_bind hy
    obtain ⟨ns, hns, hy⟩ := ok_bind hy
    cases hy
    exact fieldNames_scoped hn hr h (fun p hp => .cls c p hc' hp (self_mem_parts _)) hns x hx
  · obtain ⟨c, hc', hy⟩ := mapM_mem hcs hy
    obtain ⟨f, hf, hy⟩ := ok_bind hy
    obtain ⟨ns, hns, hy⟩ := ok_bind hy
    cases hy
    exact .inl (hc.types f (.inl ⟨c, hc', hf⟩)).1
  · exact fieldNames_scoped hn hr h (fun p hp => .graph p hp (self_mem_parts _)) hps x hx

/-- The names in all the files of the package are in order. -/
theorem package_scoped {g : Graph} {fs : List File} (hn : Named g) (hr : Resolves g) (h : package g = .ok fs) :
    (∀ F ∈ fs, F.Scoped (declared fs)) ↔
      PluralsDistinct g ∧ (g.classes ≠ [] ∨ g.properties ≠ []) ∧ AllItemsVisible g := by
  have hc := package_covers h
  have h' := h
  obtain ⟨T, P, S, hT, hP, hS, rfl⟩ := package_parts h'
  constructor
  · intro hall
    obtain ⟨_, _, gr, _, _, hgr, _, hfuncs, _⟩ := parseFile_parts hP
    obtain ⟨n1, n2⟩ := parseGraph_needs hgr ((hall P (by simp)).funcs gr (by simp [hfuncs]))
    exact ⟨n2, n1, (serializeFile_fine hn hr h hS).1.1 (hall S (by simp))⟩
  rintro ⟨hd, hne, hv⟩
  have h1 := typesFile_scoped hn hr h hT
  have h2 := (parseFile_fine hn hr h hP).1 ⟨hd, hne⟩
  have h3 := (serializeFile_fine hn hr h hS).1.2 hv
  generalize hD : declared [T, errorsFile, P, parseTestFile g, S, serializeTestFile g] = D at *
  intro F hF
  simp only [List.mem_cons, List.not_mem_nil, or_false] at hF
  rcases hF with rfl | rfl | rfl | rfl | rfl | rfl
  · exact h1
  · constructor
    · intro x hx
      rw [List.mem_singleton.1 hx]
      exact .inl hc.error
    · intro f hf
      rw [List.mem_singleton.1 hf]
      refine constant_scoped ?_
      intro x hx
      simp only [List.cons_append, List.nil_append, List.mem_cons, List.not_mem_nil, or_false] at hx
      rcases hx with rfl | rfl | rfl
      · exact List.mem_append.2 (.inl hc.errors)
      · exact List.mem_append.2 (.inl hc.errors)
      · exact List.mem_append.2 (.inl hc.error)
  · exact h2
  · refine ⟨by simp [parseTestFile], ?_⟩
    intro f hf
    simp only [parseTestFile] at hf ⊢
    split at hf
    · rename_i hnd
      obtain ⟨s, _, rfl⟩ := List.mem_map.1 hf
      refine constant_scoped ?_
      intro x hx
      simp only [List.nil_append, List.mem_cons, List.not_mem_nil, or_false] at hx
      rcases hx with rfl | rfl
      · exact List.mem_append.2 (.inl (hc.duration hnd).1)
      · exact pkg_mem (by simp [hnd])
    · cases hf
  · exact h3
  · refine ⟨by simp [serializeTestFile], ?_⟩
    intro f hf
    simp only [serializeTestFile] at hf ⊢
    split at hf
    · rename_i hnd
      obtain ⟨s, _, rfl⟩ := List.mem_map.1 hf
      refine constant_scoped ?_
      intro x hx
      simp only [List.nil_append, List.mem_cons, List.not_mem_nil, or_false] at hx
      rcases hx with rfl | rfl | rfl
      · exact pkg_mem (by simp [hnd])
      · exact List.mem_append.2 (.inl (hc.duration hnd).2.1)
      · exact pkg_mem (by simp [hnd])
    · cases hf

end Mapry.GoCode
