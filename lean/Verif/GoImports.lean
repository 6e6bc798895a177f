import Verif.GoPackage

/-!
# The imports of the generated Go files
-/

namespace Mapry.GoCode

open Mapry.TypeGraph Mapry.Naming

/-! ## Every package used is imported -/

theorem Needs.imports {F : File} {D : List Name} (h : F.Needs D) (hD : ∀ p, Name.pkg p ∉ D) {p : Str}
    (hp : Name.pkg p ∈ F.used) : p ∈ F.imports := by
  have key : Name.pkg p ∈ D ∨ Name.pkg p ∈ F.imports.map Name.pkg → p ∈ F.imports := by
    rintro (hp | hp)
    · exact absurd hp (hD p)
    · obtain ⟨q, hq, e⟩ := List.mem_map.1 hp
      cases e
      exact hq
  unfold File.used at hp
  rw [List.mem_append, List.mem_flatMap] at hp
  rcases hp with hp | ⟨f, hf, hp⟩
  · exact key (h.top _ hp)
  · rw [List.mem_append] at hp
    rcases hp with hp | hp
    · exact key (List.mem_append.1 ((h.funcs f hf).sig _ hp))
    · obtain ⟨hp, hn⟩ := List.mem_filter.1 hp
      have hn : Name.pkg p ∉ f.params := by simpa using hn
      exact key (List.mem_append.1 (((h.funcs f hf).free _ (used_sub_free hp)).resolve_left hn))

/-! ## Every package imported is used -/

theorem pkg_used_castTo {b : Str} {n : Nat} {value ref : List Name} {rest : Code} {p : Str}
    (h : p = c!"strings" ∨ p = c!"fmt" ∨ Name.pkg p ∈ ref ∨ Name.pkg p ∈ rest.used) :
    Name.pkg p ∈ (castTo (vi b n) n value ref rest).used := by
  unfold castTo report
  simp only [Code.used, List.mem_append, List.mem_filter, List.mem_cons, List.not_mem_nil, or_false, vi,
    decide_eq_true_eq, reduceCtorEq, not_false_eq_true, and_true, or_self, errors, v, strings, fmt, Name.pkg.injEq,
    false_or]
  grind

theorem pkg_used_checkBound {ref : List Name} {bound : Option Int} {cast : Name} {rest : Code} {x : Name}
    (h : x ∈ rest.used) : x ∈ (checkBound ref bound cast rest).used := by
  unfold checkBound
  split
  · simp [report, Code.used, h]
  · exact h

theorem pkg_used_items {names : List Name} {x i : Name} {item : Code} {tgt : Target} {n : Nat} {p : Str}
    (hi : ∃ b k, i = vi b k) (h : Name.pkg p ∈ item.used) : Name.pkg p ∈ (parseItems names x i item tgt n).used := by
  obtain ⟨b, k, rfl⟩ := hi
  unfold parseItems
  have := (used_append (c := item) (d := Code.use [errors] (.block .done .done))).2 (.inl h)
  simp [Code.used, vi, this]

/-- The packages which the code of a type uses. -/
structure UsesPkgs (t : Ty) (ref : List Name) (c : Code) : Prop where
  strings : strings ∈ c.used
  ref : ∀ p, Name.pkg p ∈ ref → Name.pkg p ∈ c.used
  math : (∃ u ∈ parts t, tyTag u = .integer) → math ∈ c.used
  time : (∃ u ∈ parts t, tyTag u = .date ∨ tyTag u = .time ∨ tyTag u = .datetime ∨ tyTag u = .timeZone) →
    time ∈ c.used
  strconv : (∃ u ∈ parts t, isArray u = true) → strconv ∈ c.used

theorem usesPkgs_plain {t : Ty} {ref : List Name} {c : Code} (ht : parts t = [t]) (ha : isArray t = false)
    (h1 : strings ∈ c.used) (h2 : ∀ p, Name.pkg p ∈ ref → Name.pkg p ∈ c.used)
    (h3 : tyTag t = .integer → math ∈ c.used)
    (h4 : tyTag t = .date ∨ tyTag t = .time ∨ tyTag t = .datetime ∨ tyTag t = .timeZone → time ∈ c.used) :
    UsesPkgs t ref c where
  strings := h1
  ref := h2
  math := by rw [ht]; simpa using h3
  time := by
    rintro ⟨u, hu, h⟩
    rw [ht, List.mem_singleton] at hu
    exact h4 (hu ▸ h)
  strconv := by
    rintro ⟨u, hu, h⟩
    rw [ht, List.mem_singleton] at hu
    subst hu
    rw [ha] at h
    cases h

theorem usesPkgs_cast {t : Ty} {b : Str} {n : Nat} {value ref : List Name} {rest : Code} (ht : parts t = [t])
    (ha : isArray t = false) (h3 : tyTag t = .integer → math ∈ rest.used)
    (h4 : tyTag t = .date ∨ tyTag t = .time ∨ tyTag t = .datetime ∨ tyTag t = .timeZone → time ∈ rest.used) :
    UsesPkgs t ref (castTo (vi b n) n value ref rest) :=
  usesPkgs_plain ht ha (pkg_used_castTo (.inl rfl)) (fun _ h => pkg_used_castTo (.inr (.inr (.inl h))))
    (fun h => pkg_used_castTo (.inr (.inr (.inr (h3 h))))) (fun h => pkg_used_castTo (.inr (.inr (.inr (h4 h)))))

/-- The packages used by the items. -/
theorem UsesPkgs.loop {t u : Ty} {ref iref : List Name} {item c : Code} (h : UsesPkgs t iref item)
    (hp : parts u = u :: parts t) (hu : tyTag u = .array ∨ tyTag u = .map) (href : ∀ x ∈ ref, x ∈ iref)
    (hc : ∀ p, Name.pkg p ∈ item.used → Name.pkg p ∈ c.used) (hs : isArray u = true → Name.pkg c!"strconv" ∈ iref) :
    UsesPkgs u ref c where
  strings := hc _ h.strings
  ref := fun p hp => hc p (h.ref p (href _ hp))
  math := by
    rw [hp]
    rintro ⟨w, hw, ht⟩
    rcases List.mem_cons.1 hw with rfl | hw
    · rcases hu with hu | hu <;> (rw [hu] at ht; cases ht)
    · exact hc _ (h.math ⟨w, hw, ht⟩)
  time := by
    rw [hp]
    rintro ⟨w, hw, ht⟩
    rcases List.mem_cons.1 hw with rfl | hw
    · rcases hu with hu | hu <;> (rw [hu] at ht; simp at ht)
    · exact hc _ (h.time ⟨w, hw, ht⟩)
  strconv := by
    rw [hp]
    rintro ⟨w, hw, ht⟩
    rcases List.mem_cons.1 hw with rfl | hw
    · exact hc _ (h.ref _ (hs ht))
    · exact hc _ (h.strconv ⟨w, hw, ht⟩)

theorem parse_usesPkgs {ctx : Ctx} {t : Ty} {value : List Name} {tgt : Target} {ref : List Name} {n m : Nat} {c : Code}
    (h : parseValue ctx t value tgt ref n = .ok (c, m)) : UsesPkgs t ref c := by
  have loop : ∀ {t : Ty}, (∀ {value : List Name} {tgt : Target} {ref : List Name} {n m : Nat} {c : Code},
      parseValue ctx t value tgt ref n = .ok (c, m) → UsesPkgs t ref c) → (∀ e, t ≠ .embed e) →
      ∀ {value : List Name} {tgt : Target} {ref : List Name} {n m : Nat} {c : Code},
      parseValue ctx (.map t) value tgt ref n = .ok (c, m) → UsesPkgs (.map t) ref c := by
    intro t ih hne value tgt ref n m c h
    have h' : (do
      let (item, m) ← parseValue ctx t [vi c!"cast" n, vi c!"k" n]
        ⟨[vi c!"target" n, vi c!"k" n], [], [vi c!"target" n, vi c!"k" n]⟩ (ref ++ [vi c!"k" n]) (n + 1)
      let names ← typeNames t
      pure (castTo (vi c!"cast" n) n value ref
        (otherwise (parseItems names (vi c!"cast" n) (vi c!"k" n) item tgt n)), m)) = .ok (c, m) := by
      cases t <;> first | exact h | exact absurd rfl (hne _)
    obtain ⟨⟨item, k⟩, hi, h⟩ := ok_bind h'
    obtain ⟨names, hnm, h⟩ := ok_bind h
    cases h
    refine (ih hi).loop rfl (.inr rfl) (fun x hx => by simp [hx]) ?_ (fun h => by cases h)
    intro p hp
    refine pkg_used_castTo (.inr (.inr (.inr ?_)))
    exact List.mem_append.2 (.inl (pkg_used_items ⟨_, _, rfl⟩ hp))
  have embed : ∀ {e : Str} {value : List Name} {tgt : Target} {ref : List Name} {n m : Nat} {c : Code},
      parseValue ctx (.embed e) value tgt ref n = .ok (c, m) → UsesPkgs (.embed e) ref c := by
    intro e value tgt ref n m c h
    obtain ⟨rs, hrs, h⟩ := ok_bind h
    obtain ⟨f, hf, h⟩ := ok_bind h
    cases h
    exact usesPkgs_plain rfl rfl (by simp [Code.used]) (fun p hp => by simp [Code.used, hp])
      (fun h => by cases h) (fun h => by simp [tyTag] at h)
  have conv : ∀ {f : Name} {args value : List Name} {tgt : Target} {ref : List Name} {n : Nat} {t : Ty},
      parts t = [t] → isArray t = false → tyTag t ≠ .integer →
      (tyTag t = .date ∨ tyTag t = .time ∨ tyTag t = .datetime ∨ tyTag t = .timeZone → f = time) →
      UsesPkgs t ref (convertWith f args value tgt ref n) := by
    intro f args value tgt ref n t h1 h2 h3 h4
    refine usesPkgs_cast h1 h2 (fun h => absurd h h3) (fun h => ?_)
    simp [otherwise, Code.used, h4 h]
  have dt : ∀ {f : Str} {value : List Name} {tgt : Target} {ref : List Name} {n m : Nat} {c : Code} {t : Ty},
      parts t = [t] → isArray t = false → tyTag t ≠ .integer →
      parseDateTime f value tgt ref n = .ok (c, m) → UsesPkgs t ref c := by
    intro f value tgt ref n m c t h1 h2 h3 h
    obtain ⟨_, _, h⟩ := ok_bind h
    cases h
    exact conv h1 h2 h3 fun _ => rfl
  induction t generalizing value tgt ref n m c with
  | boolean => cases h; exact usesPkgs_cast rfl rfl (fun h => by cases h) (fun h => by simp [tyTag] at h)
  | integer b =>
    cases h
    refine usesPkgs_cast rfl rfl (fun _ => ?_) (fun h => by simp [tyTag] at h)
    simp [Code.used]
  | float b =>
    obtain ⟨_, _, h⟩ := ok_bind h
    obtain ⟨_, _, h⟩ := ok_bind h
    cases h
    exact usesPkgs_cast rfl rfl (fun h => by cases h) (fun h => by simp [tyTag] at h)
  | string p => cases h; exact usesPkgs_cast rfl rfl (fun h => by cases h) (fun h => by simp [tyTag] at h)
  | path p => cases h; exact usesPkgs_cast rfl rfl (fun h => by cases h) (fun h => by simp [tyTag] at h)
  | date f => exact dt rfl rfl (by simp [tyTag]) h
  | time f => exact dt rfl rfl (by simp [tyTag]) h
  | datetime f => exact dt rfl rfl (by simp [tyTag]) h
  | timeZone => cases h; exact conv rfl rfl (by simp [tyTag]) fun _ => rfl
  | duration => cases h; exact conv rfl rfl (by simp [tyTag]) fun h => by simp [tyTag] at h
  | array t lo hi ih =>
    obtain ⟨⟨item, k⟩, hi', h⟩ := ok_bind h
    obtain ⟨names, hnm, h⟩ := ok_bind h
    cases h
    refine (ih hi').loop rfl (.inl rfl) (fun x hx => by simp [hx]) ?_ (fun _ => by simp [strconv])
    intro p hp
    refine pkg_used_castTo (.inr (.inr (.inr ?_)))
    refine pkg_used_checkBound (pkg_used_checkBound ?_)
    exact List.mem_append.2 (.inl (pkg_used_items ⟨_, _, rfl⟩ hp))
  | cls c =>
    obtain ⟨r, hr, h⟩ := ok_bind h
    obtain ⟨_, _, h⟩ := ok_bind h
    cases h
    exact usesPkgs_cast rfl rfl (fun h => by cases h) (fun h => by simp [tyTag] at h)
  | embed e => exact embed h
  | map t ih =>
    by_cases he : ∃ e, t = .embed e
    · obtain ⟨e, rfl⟩ := he
      obtain ⟨⟨item, k⟩, hi', h⟩ := ok_bind h
      obtain ⟨names, hnm, h⟩ := ok_bind h
      cases h
      refine (embed hi').loop rfl (.inr rfl) (fun x hx => by simp [hx]) ?_ (fun h => by cases h)
      intro p hp
      refine pkg_used_castTo (.inr (.inr (.inr ?_)))
      refine List.mem_append.2 (.inl (pkg_used_items ⟨_, _, rfl⟩ ?_))
      simp [Code.used, used_append, hp, vi]
    · exact loop ih (fun e h => he ⟨e, h⟩) h

theorem parseProperty_usesPkgs {ctx : Ctx} {p : Property} {n m : Nat} {c : Code}
    (h : parseProperty ctx p n = .ok (c, m)) : UsesPkgs p.ty [] c := by
  obtain ⟨_, _, h⟩ := ok_bind h
  obtain ⟨⟨parsing, k⟩, hp, h⟩ := ok_bind h
  obtain ⟨names, hn, h⟩ := ok_bind h
  have hu := parse_usesPkgs hp
  have key : ∀ q, Name.pkg q ∈ parsing.used → Name.pkg q ∈ c.used := by
    intro q hq
    simp only at h
    split at h
    · cases h
      simp [Code.used, hq, vi]
    · split at h
      · cases h
        simp [Code.used, hq, vi]
      · cases h
        simp [Code.used, used_append, hq, vi]
  exact ⟨key _ hu.strings, by simp, fun h => key _ (hu.math h), fun h => key _ (hu.time h),
    fun h => key _ (hu.strconv h)⟩

theorem parseProps_used {ctx : Ctx} {ps : List Property} {n : Nat} {c : Code} (h : parseProps ctx ps n = .ok c)
    {q : Str} {p : Property} (hp : p ∈ ps)
    (hq : ∀ n m d, parseProperty ctx p n = .ok (d, m) → Name.pkg q ∈ d.used) : Name.pkg q ∈ c.used := by
  induction ps generalizing n c with
  | nil => cases hp
  | cons a ps ih =>
    obtain ⟨⟨d, m⟩, hd, h⟩ := ok_bind h
    obtain ⟨rest, hr, h⟩ := ok_bind h
    cases h
    rcases List.mem_cons.1 hp with rfl | hp
    · exact used_append.2 (.inl (hq _ _ _ hd))
    · have hvar : ∀ x ∈ d.decls, ∃ b k, x = Name.var b k := by
        obtain ⟨_, _, hd⟩ := ok_bind hd
        obtain ⟨_, _, hd⟩ := ok_bind hd
        obtain ⟨_, _, hd⟩ := ok_bind hd
        simp only at hd
        split at hd
        · cases hd
          simp [Code.decls, vi]
        · split at hd
          · cases hd
            simp [Code.decls, vi]
          · cases hd
            simp [Code.decls, vi]
      refine used_append.2 (.inr ⟨?_, ?_⟩)
      · simp [Code.used, ih hr hp]
      · intro hm
        obtain ⟨b, k, e⟩ := hvar _ hm
        cases e

theorem preamble_used {c : Code} {x : Name} (h : x ∈ c.used) : x ∈ (preamble c).used := by
  simp [preamble, Code.used, h]

theorem parseComposite_used {g : Graph} {uids : List (Str × Nat)} {o : Owner} {name : Str} {b : Bool} {f : Func}
    (h : parseComposite g uids o name b = .ok f) {q : Str} {p : Property} (hp : p ∈ ownerProps g o)
    (hq : ∀ ctx n m d, parseProperty ctx p n = .ok (d, m) → Name.pkg q ∈ d.used) : Name.pkg q ∈ f.body.used := by
  unfold parseComposite at h
  obtain ⟨refs, hrefs, h⟩ := ok_bind h
  obtain ⟨params, hparams, h⟩ := ok_bind h
  obtain ⟨types, htypes, h⟩ := ok_bind h
  obtain ⟨props, hprops, h⟩ := ok_bind h
  obtain ⟨n, hn, h⟩ := ok_bind h
  cases h
  have hu := parseProps_used hprops hp (hq _)
  refine preamble_used ?_
  have hu' : Name.pkg q ∈ (if b then Code.use [v c!"target", v c!"id"] props else props).used := by
    split
    · simp [Code.used, hu]
    · exact hu
  generalize (if b then Code.use [v c!"target", v c!"id"] props else props) = rest at hu'
  split <;> simp [Code.used, hu', v]

/-- A composite without properties uses one package. -/
theorem parseComposite_only {g : Graph} {uids : List (Str × Nat)} {o : Owner} {name : Str} {b : Bool} {f : Func}
    (h : parseComposite g uids o name b = .ok f) (hp : ownerProps g o = []) {q : Str}
    (hq : Name.pkg q ∈ f.body.used) : Name.pkg q = fmt := by
  unfold parseComposite at h
  obtain ⟨refs, hrefs, h⟩ := ok_bind h
  obtain ⟨params, hparams, h⟩ := ok_bind h
  obtain ⟨types, htypes, h⟩ := ok_bind h
  obtain ⟨props, hprops, h⟩ := ok_bind h
  obtain ⟨n, hn, h⟩ := ok_bind h
  cases h
  rw [hp] at hprops
  cases hprops
  cases b
  · simpa [preamble, Code.used, hp, v, errors] using hq
  · simpa [preamble, Code.used, hp, v, errors] using hq

theorem parseComposite_sig {g : Graph} {uids : List (Str × Nat)} {o : Owner} {name : Str} {b : Bool} {f : Func}
    (h : parseComposite g uids o name b = .ok f) {q : Str} : Name.pkg q ∉ f.sig := by
  unfold parseComposite at h
  obtain ⟨refs, hrefs, h⟩ := ok_bind h
  obtain ⟨params, hparams, h⟩ := ok_bind h
  obtain ⟨types, htypes, h⟩ := ok_bind h
  obtain ⟨props, hprops, h⟩ := ok_bind h
  obtain ⟨n, hn, h⟩ := ok_bind h
  cases h
  simp only [List.mem_append, List.mem_cons, reduceCtorEq, List.not_mem_nil, or_self, or_false]
  intro hm
  obtain ⟨c, _, hm⟩ := mapM_mem htypes hm
  obtain ⟨_, _, hm⟩ := ok_bind hm
  cases hm

theorem group_pkg {ps : List Str} {q : Str} : Name.pkg q ∉ ps.flatMap group := by
  simp [group, own]

theorem insts_used {g : Graph} {cs : List Class} {l : List Code} (h : cs.mapM (parseInstances g) = .ok l)
    (hne : cs ≠ []) : strings ∈ (concat l).used := by
  cases cs with
  | nil => exact absurd rfl hne
  | cons c cs =>
    obtain ⟨code, rest, hc, hr, rfl⟩ := mapM_cons h
    refine (used_append (c := code) (d := concat rest)).2 (.inl ?_)
    obtain ⟨p, _, hc⟩ := ok_bind hc
    obtain ⟨_, _, hc⟩ := ok_bind hc
    obtain ⟨name, _, hc⟩ := ok_bind hc
    obtain ⟨refs, _, hc⟩ := ok_bind hc
    obtain ⟨_, _, hc⟩ := ok_bind hc
    cases hc
    simp [Code.used, v, strings]

theorem parseGraph_used {g : Graph} {uids : List (Str × Nat)} {f : Func} (h : parseGraph g uids = .ok f) :
    fmt ∈ f.body.used ∧ (g.classes ≠ [] → strings ∈ f.body.used) ∧
    (∀ q, ∀ p ∈ g.properties, (∀ ctx n m d, parseProperty ctx p n = .ok (d, m) → Name.pkg q ∈ d.used) →
      Name.pkg q ∈ f.body.used) ∧
    (g.classes = [] → g.properties = [] → ∀ q, Name.pkg q ∈ f.body.used → Name.pkg q = fmt) ∧
    ∀ q, Name.pkg q ∉ f.sig := by
  unfold parseGraph at h
  obtain ⟨alloc, halloc, h⟩ := ok_bind h
  obtain ⟨insts, hinsts, h⟩ := ok_bind h
  obtain ⟨props, hprops, h⟩ := ok_bind h
  obtain ⟨n, hname, h⟩ := ok_bind h
  cases h
  obtain ⟨ps, _, hd⟩ := allocs_decls halloc
  obtain ⟨hi, _⟩ := insts_fine hinsts
  have hm : (if g.classes.isEmpty then Code.done else .use [errors] (.block .done .done)).decls = [] := by
    split <;> rfl
  have body : ∀ q, Name.pkg q ∈ (concat insts).used ∨ Name.pkg q ∈ props.used →
      Name.pkg q ∈ (concat alloc ++ (if g.classes.isEmpty then Code.done else .use [errors] (.block .done .done)) ++
        concat insts ++ props).used := by
    intro q hq
    simp only [used_append, decls_append, hm, hd, hi, List.append_nil, group_pkg, not_false_eq_true, and_true]
    rcases hq with hq | hq
    · exact .inl (.inr hq)
    · exact .inr hq
  refine ⟨?_, ?_, ?_, ?_, by simp⟩
  · refine preamble_used ?_
    simp [Code.used, v, fmt]
  · intro hne
    refine preamble_used ?_
    have := body _ (.inl (insts_used hinsts hne))
    simp only [Code.used, List.mem_append, List.mem_filter]
    exact .inr ⟨.inr (.inr this), by decide⟩
  · intro q p hp hq
    refine preamble_used ?_
    have := body _ (.inr (parseProps_used hprops hp (hq _)))
    simp only [Code.used, List.mem_append, List.mem_filter]
    exact .inr ⟨.inr (.inr this), by simp [v]⟩
  · intro hc hp q hq
    rw [hc] at halloc hinsts
    rw [hp] at hprops
    cases halloc
    cases hinsts
    cases hprops
    rw [hc] at hq
    simpa [preamble, Code.used, v, errors, concat] using hq

/-- A package used in a function is used in the file. -/
theorem mem_file_used {F : File} {D : List Name} (hF : F.Needs D) {f : Func} (hf : f ∈ F.funcs) {q : Str}
    (h : Name.pkg q ∈ f.body.used) : Name.pkg q ∈ F.used := by
  unfold File.used
  rw [List.mem_append, List.mem_flatMap]
  refine .inr ⟨f, hf, List.mem_append.2 (.inr (List.mem_filter.2 ⟨h, ?_⟩))⟩
  simp only [decide_eq_true_eq]
  exact (hF.funcs f hf).params _

/-- What the code of every property of a type uses is used in the file of the parser. -/
theorem parseFile_used {g : Graph} {fs : List File} {F : File} (hn : Named g) (hr : Resolves g)
    (h : package g = .ok fs) (hF : parseFile g = .ok F) {t : Ty} (ht : Occurs g t) {q : Str}
    (hq : ∀ ctx p n m d, t ∈ parts p.ty → parseProperty ctx p n = .ok (d, m) → Name.pkg q ∈ d.used) :
    Name.pkg q ∈ F.used := by
  have hN := (parseFile_fine hn hr h hF).2
  obtain ⟨cs, es, gr, hcs, hes, hgr, himp, hfuncs, _, htop⟩ := parseFile_parts hF
  rcases ht with ⟨p, hp, ht⟩ | ⟨c, p, hc, hp, ht⟩ | ⟨e, p, he, hp, ht⟩
  · exact mem_file_used hN (by simp [hfuncs]) ((parseGraph_used hgr).2.2.1 q p hp fun ctx n m d => hq ctx p n m d ht)
  · obtain ⟨f, hf, hf'⟩ := mapM_mem' hcs hc
    refine mem_file_used hN (f := f) (by simp [hfuncs, hf]) (parseComposite_used hf' (p := p) ?_ fun ctx n m d => hq ctx p n m d ht)
    simpa [ownerProps, hn.cls? hc] using hp
  · obtain ⟨f, hf, hf'⟩ := mapM_mem' hes he
    refine mem_file_used hN (f := f) (by simp [hfuncs, hf]) (parseComposite_used hf' (p := p) ?_ fun ctx n m d => hq ctx p n m d ht)
    simpa [ownerProps, hn.embed? he] using hp

/-- The imports of the parser are in use, apart from `strings` if there is nothing to parse. -/
theorem parseFile_exact {g : Graph} {fs : List File} {F : File} (hn : Named g) (hr : Resolves g)
    (h : package g = .ok fs) (hF : parseFile g = .ok F) :
    F.ImportsExact ↔ (g.classes ≠ [] ∨ ∃ t, Occurs g t) := by
  have hN := (parseFile_fine hn hr h hF).2
  obtain ⟨cs, es, gr, hcs, hes, hgr, himp, hfuncs, _, htop⟩ := parseFile_parts hF
  obtain ⟨g1, g2, g3, g4, g5⟩ := parseGraph_used hgr
  constructor
  · intro hx
    refine Classical.byContradiction fun hno => ?_
    have hc : g.classes = [] := Classical.byContradiction fun hc => hno (.inl hc)
    have hocc : ∀ t, ¬ Occurs g t := fun t ht => hno (.inr ⟨t, ht⟩)
    have hgp : g.properties = [] := by
      cases hg : g.properties with
      | nil => rfl
      | cons p ps => exact absurd (Occurs.graph p (by simp [hg]) (self_mem_parts _)) (hocc _)
    have hep : ∀ e ∈ g.embeds, e.properties = [] := by
      intro e he
      cases hg : e.properties with
      | nil => rfl
      | cons p ps => exact absurd (Occurs.embed e p he (by simp [hg]) (self_mem_parts _)) (hocc _)
    have hdur : needs g .duration = false := by
      cases hd : needs g .duration with
      | false => rfl
      | true =>
        obtain ⟨t, ht, _⟩ := (needs_ty hn (by decide) (by decide) (by decide)).1 hd
        exact absurd ht (hocc t)
    have hpat : enumeratePatterns g = [] := by
      cases he : enumeratePatterns g with
      | nil => rfl
      | cons e l =>
        have := ((patterns_enumerated g).2.2 e.1).1 (by simp [he])
        rcases this with ⟨u, hu, _⟩ | ⟨c, hc', _⟩
        · exact absurd hu (hocc u)
        · rw [hc] at hc'
          cases hc'
    have hs := (hx c!"strings").1 (by rw [himp]; simp [parseImports])
    unfold File.used at hs
    rw [htop, hfuncs, hdur, hpat] at hs
    rw [hc] at hcs
    cases hcs
    simp only [Bool.false_eq_true, if_false, List.map_nil, List.append_nil, List.nil_append, List.reverse_nil,
      List.flatMap_append, List.mem_append, List.mem_flatMap, List.mem_filter, List.mem_singleton] at hs
    rcases hs with ⟨f, hf, hs⟩ | ⟨f, rfl, hs⟩
    · obtain ⟨e, he, hf⟩ := mapM_mem hes hf
      rcases hs with hs | hs
      · exact parseComposite_sig hf hs
      · have := parseComposite_only hf (by simp [ownerProps, hn.embed? he, hep e he]) hs.1
        exact absurd this (by decide)
    · rcases hs with hs | hs
      · exact g5 _ hs
      · exact absurd (g4 hc hgp _ hs.1) (by decide)
  · intro hne p
    refine ⟨fun hp => ?_, Needs.imports hN (declared_names h).2⟩
    have tag : ∀ q, q ≠ .graph → q ≠ .cls → q ≠ .embed → needs g q = true → ∃ t, Occurs g t ∧ tyTag t = q :=
      fun q h1 h2 h3 => (needs_ty hn h1 h2 h3).1
    have hpart : ∀ {t : Ty} {p : Property}, t ∈ parts p.ty → ∀ {P : Ty → Prop}, P t → ∃ u ∈ parts p.ty, P u :=
      fun ht _ hP => ⟨_, ht, hP⟩
    have dur : needs g .duration = true → ∀ q ∈ [c!"math", c!"time", c!"strconv"], Name.pkg q ∈ F.used := by
      intro hd q hq
      unfold File.used
      rw [List.mem_append, List.mem_flatMap]
      refine .inr ⟨⟨c!"durationFromString", [], [time],
        .use [.glob c!"durationRe", fmt, strconv, strings, time, math, .glob c!"addDuration"] .done⟩,
        by simp [hfuncs, hd, durationFromString], ?_⟩
      simp only [List.mem_cons, List.not_mem_nil, or_false] at hq
      rcases hq with rfl | rfl | rfl <;> decide
    rw [himp] at hp
    unfold parseImports at hp
    simp only [List.mem_append, List.mem_cons, List.not_mem_nil, or_false] at hp
    rcases hp with ((((hp | hp) | hp) | hp) | hp) | hp
    · rcases hp with rfl | rfl
      · rcases hne with hc | ⟨t, ht⟩
        · exact mem_file_used hN (by simp [hfuncs]) (g2 hc)
        · exact parseFile_used hn hr h hF ht fun ctx p n m d _ hd => (parseProperty_usesPkgs hd).strings
      · exact mem_file_used hN (by simp [hfuncs]) g1
    · split at hp
      · rename_i hnd
        rw [List.mem_singleton] at hp
        subst hp
        obtain ⟨t, ht, hq⟩ := tag _ (by decide) (by decide) (by decide) hnd
        exact parseFile_used hn hr h hF ht fun ctx p n m d hp hd => (parseProperty_usesPkgs hd).math ⟨t, hp, hq⟩
      · cases hp
    · split at hp
      · rename_i hnd
        rw [List.mem_singleton] at hp
        subst hp
        simp only [Bool.or_eq_true] at hnd
        have : ∃ t, Occurs g t ∧ (tyTag t = .date ∨ tyTag t = .time ∨ tyTag t = .datetime ∨ tyTag t = .timeZone) := by
          rcases hnd with ((hnd | hnd) | hnd) | hnd
          all_goals
            obtain ⟨t, ht, hq⟩ := tag _ (by decide) (by decide) (by decide) hnd
            exact ⟨t, ht, by simp [hq]⟩
        obtain ⟨t, ht, hq⟩ := this
        exact parseFile_used hn hr h hF ht fun ctx p n m d hp hd => (parseProperty_usesPkgs hd).time ⟨t, hp, hq⟩
      · cases hp
    · split at hp
      · rename_i hnd
        simp only [List.mem_cons, List.not_mem_nil, or_false] at hp
        rcases hp with rfl | rfl | rfl | rfl
        · exact dur hnd _ (by simp)
        · exact dur hnd _ (by simp)
        · unfold File.used
          rw [htop, hnd]
          simp [regexp]
        · exact dur hnd _ (by simp)
      · cases hp
    · split at hp
      · rename_i hnd
        rw [List.mem_singleton] at hp
        subst hp
        have : ∃ q, HasPattern g q := by
          rw [Bool.or_eq_true, any_iterate, List.any_eq_true] at hnd
          rcases hnd with ⟨t, ht, hp⟩ | ⟨c, hc, hp⟩
          · cases t with
            | string q =>
              obtain ⟨q, rfl⟩ := Option.isSome_iff_exists.1 hp
              exact ⟨q, .inl ⟨_, ht, .inl rfl⟩⟩
            | path q =>
              obtain ⟨q, rfl⟩ := Option.isSome_iff_exists.1 hp
              exact ⟨q, .inl ⟨_, ht, .inr rfl⟩⟩
            | _ => cases hp
          · obtain ⟨q, hq⟩ := Option.isSome_iff_exists.1 hp
            exact ⟨q, .inr ⟨c, hc, hq⟩⟩
        obtain ⟨q, hq⟩ := this
        have hm := ((patterns_enumerated g).2.2 q).2 hq
        obtain ⟨e, he, _⟩ := List.mem_map.1 hm
        unfold File.used
        rw [htop]
        refine List.mem_append.2 (.inl (List.mem_append.2 (.inr (List.mem_map.2 ⟨e, he, rfl⟩))))
      · cases hp
    · split at hp
      · rename_i hnd
        rw [List.mem_singleton] at hp
        subst hp
        obtain ⟨t, ht, hq⟩ := any_iterate.1 hnd
        exact parseFile_used hn hr h hF ht fun ctx p n m d hp hd => (parseProperty_usesPkgs hd).strconv ⟨t, hp, hq⟩
      · cases hp

theorem serializeFile_exact {g : Graph} {fs : List File} {F : File} (hn : Named g) (hr : Resolves g)
    (h : package g = .ok fs) (hF : serializeFile g = .ok F) : F.ImportsExact := by
  have hN := (serializeFile_fine hn hr h hF).2
  obtain ⟨cs, es, gr, hcs, hes, hgr, himp, hfuncs, _, htop⟩ := serializeFile_parts hF
  intro p
  refine ⟨fun hp => ?_, Needs.imports hN (declared_names h).2⟩
  have dur : needs g .duration = true → ∀ q ∈ [c!"fmt", c!"strings", c!"time"], Name.pkg q ∈ F.used := by
    intro hd q hq
    unfold File.used
    rw [List.mem_append, List.mem_flatMap]
    refine .inr ⟨⟨c!"durationToString", [], [time], .use [time, fmt, strings] .done⟩,
      by simp [hfuncs, hd, durationToString], ?_⟩
    simp only [List.mem_cons, List.not_mem_nil, or_false] at hq
    rcases hq with rfl | rfl | rfl <;> decide
  rw [himp] at hp
  unfold serializeImports at hp
  rw [List.mem_append] at hp
  rcases hp with hp | hp
  · split at hp
    · cases hp
    · rename_i hc
      rw [List.mem_singleton] at hp
      subst hp
      refine mem_file_used hN (f := gr) (by simp [hfuncs]) ?_
      obtain ⟨props, hprops, hgr⟩ := ok_bind hgr
      obtain ⟨regs, hregs, hgr⟩ := ok_bind hgr
      obtain ⟨n, _, hgr⟩ := ok_bind hgr
      cases hgr
      have hvar : ∀ q, Name.pkg q ∉ props.decls := by
        obtain ⟨w, _⟩ := serializeProps_fine (B := fun x => ∃ n, x = .glob n) (ps := g.properties)
          (fun p _ u _ => by cases u <;> simp [Serves]) (by simp [vi]) hprops
        intro q hq
        obtain ⟨b, k, e, _⟩ := w _ hq
        cases e
      have hfmt : fmt ∈ (concat regs).used := by
        cases hcl : g.classes with
        | nil => simp [hcl] at hc
        | cons c rest =>
          rw [hcl] at hregs
          obtain ⟨code, l, hcode, hl, rfl⟩ := mapM_cons hregs
          refine (used_append (c := code) (d := concat l)).2 (.inl ?_)
          obtain ⟨_, _, hcode⟩ := ok_bind hcode
          obtain ⟨_, _, hcode⟩ := ok_bind hcode
          obtain ⟨_, _, hcode⟩ := ok_bind hcode
          obtain ⟨_, _, hcode⟩ := ok_bind hcode
          cases hcode
          simp [Code.used, v, own, fmt]
      simp only [Code.used, List.mem_append]
      exact .inr (.inr (.inr (used_append.2 (.inr ⟨hfmt, hvar _⟩))))
  · split at hp
    · rename_i hnd
      exact dur hnd _ hp
    · cases hp

theorem typeNames_time {t : Ty} {ns : List Name} (h : typeNames t = .ok ns) {u : Ty} (hu : u ∈ parts t)
    (ht : tyTag u = .date ∨ tyTag u = .time ∨ tyTag u = .datetime ∨ tyTag u = .duration ∨ tyTag u = .timeZone) :
    time ∈ ns := by
  induction t generalizing ns with
  | array t lo hi ih =>
    rcases List.mem_cons.1 hu with rfl | hu
    · simp [tyTag] at ht
    · exact ih h hu
  | map t ih =>
    rcases List.mem_cons.1 hu with rfl | hu
    · simp [tyTag] at ht
    · exact ih h hu
  | cls n => rw [List.mem_singleton.1 hu] at ht; simp [tyTag] at ht
  | embed n => rw [List.mem_singleton.1 hu] at ht; simp [tyTag] at ht
  | boolean => rw [List.mem_singleton.1 hu] at ht; simp [tyTag] at ht
  | integer => rw [List.mem_singleton.1 hu] at ht; simp [tyTag] at ht
  | float => rw [List.mem_singleton.1 hu] at ht; simp [tyTag] at ht
  | string => rw [List.mem_singleton.1 hu] at ht; simp [tyTag] at ht
  | path => rw [List.mem_singleton.1 hu] at ht; simp [tyTag] at ht
  | _ => cases h; simp

theorem fieldNames_time {ps : List Property} {ns : List Name} (h : fieldNames ps = .ok ns) {p : Property}
    (hp : p ∈ ps) {u : Ty} (hu : u ∈ parts p.ty)
    (ht : tyTag u = .date ∨ tyTag u = .time ∨ tyTag u = .datetime ∨ tyTag u = .duration ∨ tyTag u = .timeZone) :
    time ∈ ns := by
  obtain ⟨l, hl, h⟩ := ok_bind h
  cases h
  obtain ⟨names, hm, hnames⟩ := mapM_mem' hl hp
  exact List.mem_flatten.2 ⟨names, hm, typeNames_time hnames hu ht⟩

theorem typesFile_exact {g : Graph} {fs : List File} {F : File} (hn : Named g) (hr : Resolves g)
    (h : package g = .ok fs) (hF : typesFile g = .ok F) : F.ImportsExact := by
  have hs := typesFile_scoped hn hr h hF
  unfold typesFile at hF
  obtain ⟨es, hes, hF⟩ := ok_bind hF
  obtain ⟨cs, hcs, hF⟩ := ok_bind hF
  obtain ⟨ps, hps, hF⟩ := ok_bind hF
  obtain ⟨n, hnm, hF⟩ := ok_bind hF
  cases hF
  intro p
  constructor
  · intro hp
    have hp : p ∈ typesImports g := hp
    unfold typesImports at hp
    split at hp
    · rename_i hnd
      rw [List.mem_singleton] at hp
      subst hp
      simp only [Bool.or_eq_true] at hnd
      have : ∃ t, Occurs g t ∧ (tyTag t = .date ∨ tyTag t = .time ∨ tyTag t = .datetime ∨ tyTag t = .duration ∨
          tyTag t = .timeZone) := by
        rcases hnd with (((hnd | hnd) | hnd) | hnd) | hnd
        all_goals
          obtain ⟨t, ht, hq⟩ := (needs_ty hn (by decide) (by decide) (by decide)).1 hnd
          exact ⟨t, ht, by simp [hq]⟩
      obtain ⟨t, ht, hq⟩ := this
      unfold File.used
      simp only [List.flatMap_nil, List.append_nil, List.mem_append]
      rcases ht with ⟨p, hp, ht⟩ | ⟨c, p, hc, hp, ht⟩ | ⟨e, p, he, hp, ht⟩
      · exact .inr (fieldNames_time hps hp ht hq)
      · obtain ⟨y, hy, hy'⟩ := mapM_mem' hcs hc
        obtain ⟨f, hf, hy'⟩ := ok_bind hy'
        obtain ⟨ns, hns, hy'⟩ := ok_bind hy'
        cases hy'
        exact .inl (.inl (.inr (List.mem_flatMap.2 ⟨_, hy, fieldNames_time hns hp ht hq⟩)))
      · obtain ⟨y, hy, hy'⟩ := mapM_mem' hes he
        obtain ⟨f, hf, hy'⟩ := ok_bind hy'
        obtain ⟨ns, hns, hy'⟩ := ok_bind hy'
        cases hy'
        exact .inl (.inl (.inl (List.mem_flatMap.2 ⟨_, hy, fieldNames_time hns hp ht hq⟩)))
    · cases hp
  · intro hp
    have := hs.top (.pkg p) (by simpa [File.used] using hp)
    rcases this with hp | hp
    · exact absurd hp ((declared_names h).2 _)
    · obtain ⟨q, hq, e⟩ := List.mem_map.1 hp
      cases e
      exact hq

/-- The imports of all the files are the packages which they use, unless the graph has neither a class nor a
property. -/
theorem package_imports {g : Graph} {fs : List File} (hn : Named g) (hr : Resolves g) (h : package g = .ok fs) :
    (∀ F ∈ fs, F.ImportsExact) ↔ (g.classes ≠ [] ∨ ∃ t, Occurs g t) := by
  have h' := h
  obtain ⟨T, P, S, hT, hP, hS, rfl⟩ := package_parts h'
  constructor
  · intro hall
    exact (parseFile_exact hn hr h hP).1 (hall P (by simp))
  · intro hne F hF
    have h1 := typesFile_exact hn hr h hT
    have h2 := (parseFile_exact hn hr h hP).2 hne
    have h3 := serializeFile_exact hn hr h hS
    simp only [List.mem_cons, List.not_mem_nil, or_false] at hF
    rcases hF with rfl | rfl | rfl | rfl | rfl | rfl
    · exact h1
    · intro p
      simp [errorsFile, File.used, Code.used]
    · exact h2
    · intro p
      unfold parseTestFile
      split
      · simp [File.used, examplesFromString, exampleFunc, Code.used, fmt]
      · simp [File.used]
    · exact h3
    · intro p
      unfold serializeTestFile
      split
      · simp [File.used, examplesToString, exampleFunc, Code.used, fmt, time]
        grind
      · simp [File.used]

/-- Whatever the graph is, every package which is used is imported. -/
theorem package_used {g : Graph} {fs : List File} (hn : Named g) (hr : Resolves g) (h : package g = .ok fs) :
    ∀ F ∈ fs, ∀ p, Name.pkg p ∈ F.used → p ∈ F.imports := by
  have h' := h
  obtain ⟨T, P, S, hT, hP, hS, rfl⟩ := package_parts h'
  have h1 := typesFile_exact hn hr h hT
  have h2 := (parseFile_fine hn hr h hP).2
  have h3 := serializeFile_exact hn hr h hS
  have hd := (declared_names h).2
  intro F hF
  simp only [List.mem_cons, List.not_mem_nil, or_false] at hF
  rcases hF with rfl | rfl | rfl | rfl | rfl | rfl
  · exact fun p => (h1 p).2
  · intro p
    simp [errorsFile, File.used, Code.used]
  · exact fun p => Needs.imports h2 hd
  · intro p
    unfold parseTestFile
    split
    · simp [File.used, examplesFromString, exampleFunc, Code.used, fmt]
    · simp [File.used]
  · exact fun p => (h3 p).2
  · intro p
    unfold serializeTestFile
    split
    · simp [File.used, examplesToString, exampleFunc, Code.used, fmt, time]
      grind
    · simp [File.used]

end Mapry.GoCode
