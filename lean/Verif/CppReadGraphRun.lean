import Verif.CppReadGraph
import Verif.CppReadRun
import Verif.CppTotal

/-! # The generated C++ function which parses the graph -/

namespace Mapry.CppRead

open Mapry.CppRuntime (JVal Val Lib DateLib Fields GraphVal Instance registryIn setRegistry membersOf registryKey sub registryIn_set)
open Mapry.CppCode (Var)
open Mapry.Naming Mapry.TypeGraph
open Mapry.GoCode (referencesOf)

/-! ## Registries -/

abbrev Registries := List (Str × GoMap Instance)

theorem set_self {c : Str} {regs : Registries} (h : (regs.lookup c).isSome = true) : setRegistry c (registryIn regs c) regs = regs := by
  unfold registryIn
  induction regs with
  | nil => cases h
  | cons a regs ih =>
    obtain ⟨k, x⟩ := a
    rw [setRegistry]
    rw [GoMap.lookup_step] at h ⊢
    by_cases hk : k = c
    · subst hk
      simp
    · have hk' : c ≠ k := fun h => hk h.symm
      simp only [hk', if_false] at h
      simp only [hk, hk', if_false]
      rw [ih h]

theorem set_set {c : Str} {m m' : GoMap Instance} {regs : Registries} : setRegistry c m' (setRegistry c m regs) = setRegistry c m' regs := by
  induction regs with
  | nil => simp [setRegistry]
  | cons a regs ih =>
    obtain ⟨k, x⟩ := a
    by_cases hk : k = c
    · simp [setRegistry, hk]
    · simp [setRegistry, hk, ih]

theorem has_set {c d : Str} {m : GoMap Instance} {regs : Registries} (h : (regs.lookup d).isSome = true) :
    ((setRegistry c m regs).lookup d).isSome = true := by
  induction regs with
  | nil => cases h
  | cons a regs ih =>
    obtain ⟨k, x⟩ := a
    rw [GoMap.lookup_step] at h
    rw [setRegistry]
    by_cases hk : k = c
    · rw [if_pos hk, GoMap.lookup_step]
      by_cases hd : d = k
      · simp [hd, hk]
      · simp only [hd, if_false] at h
        have : d ≠ c := fun e => hd (e.trans hk.symm)
        simp [this, h]
    · rw [if_neg hk, GoMap.lookup_step]
      by_cases hd : d = k
      · simp [hd]
      · simp only [hd, if_false] at h ⊢
        exact ih h

theorem keys_put {α : Type} {k : Str} {x : α} {m : GoMap α} (ha : GoMap.Ascending m) (hk : k ∈ m.map (·.1)) :
    (GoMap.put k x m).map (·.1) = m.map (·.1) := by
  induction m with
  | nil => cases hk
  | cons a m ih =>
    obtain ⟨k', x'⟩ := a
    rw [GoMap.put]
    by_cases h1 : k = k'
    · simp [h1]
    · have hm : k ∈ m.map (·.1) := by
        rcases List.mem_cons.1 hk with h | h
        · exact absurd h h1
        · exact h
      by_cases h2 : k < k'
      · have := GoMap.lookup_lt ha (k := k) (.inr h2)
        exact absurd hm (GoMap.lookup_none.1 this)
      · have ha' : GoMap.Ascending m := (List.pairwise_cons.1 ha).2
        simp only [h1, h2, if_false, List.map_cons, ih ha' hm]

theorem ascending_keys {α : Type} {m m' : GoMap α} (h : m'.map (·.1) = m.map (·.1)) (ha : GoMap.Ascending m) : GoMap.Ascending m' := by
  have : ∀ l : GoMap α, GoMap.Ascending l ↔ (l.map (·.1)).Pairwise (· < ·) := by
    intro l
    rw [List.pairwise_map]
    exact Iff.rfl
  rw [this, h, ← this]
  exact ha

theorem lookup_keys {α : Type} {m m' : GoMap α} (h : m'.map (·.1) = m.map (·.1)) (k : Str) : m'.lookup k = none ↔ m.lookup k = none := by
  rw [GoMap.lookup_none, GoMap.lookup_none, h]

/-! ## Allocation -/

section

variable {L : Lib} {P : Program} {n : Nat}

theorem alloc_loop {ρ : Env} {c : Class} {v r : Str} (href : ∀ a : RV, getVar ((itVar, a) :: ρ) (pluralRef v) = .ok (.text r))
    (entries : List (Str × JVal)) {fields : Fields} {regs : Registries} {e : CppErrors} (hc : (regs.lookup c.name).isSome = true) :
    gloop (fun w => gexec L P n ((itVar, w) :: ρ) (allocCode c v)) (entries.map fun kv => .iter kv.1 kv.2) ⟨⟨fields, regs⟩, e⟩ =
      .ok (.next, ⟨⟨fields, setRegistry c.name (CppRuntime.preallocIds L c r (entries.map (·.1)) (registryIn regs c.name) e).1 regs⟩,
        (CppRuntime.preallocIds L c r (entries.map (·.1)) (registryIn regs c.name) e).2⟩) := by
  induction entries generalizing regs e with
  | nil => simp [gloop, CppRuntime.preallocIds, set_self hc]
  | cons a entries ih =>
    obtain ⟨id, w⟩ := a
    rw [List.map_cons, gloop, List.map_cons, CppRuntime.preallocIds]
    have hi : getVar ((itVar, .iter id w) :: ρ) itVar = .ok (.iter id w) := getVar_here
    have halloc : gexec L P n ((itVar, .iter id w) :: ρ) (.alloc c.name (CppRuntime.zeroFields c.properties) itVar)
        ⟨⟨fields, regs⟩, e⟩ = .ok (.next, ⟨⟨fields, setRegistry c.name (GoMap.put id ⟨id, CppRuntime.zeroFields c.properties⟩
          (registryIn regs c.name)) regs⟩, e⟩) := by
      simp [gexec, eval, hi, RV.toStr, bind, Except.bind, pure, Except.pure]
    cases hok : CppRuntime.idOk L c id with
    | true =>
      have hgood : gexec L P n ((itVar, .iter id w) :: ρ) (allocCode c v) ⟨⟨fields, regs⟩, e⟩ =
          .ok (.next, ⟨⟨fields, setRegistry c.name (GoMap.put id ⟨id, CppRuntime.zeroFields c.properties⟩
            (registryIn regs c.name)) regs⟩, e⟩) := by
        unfold CppRuntime.idOk at hok
        unfold allocCode
        cases hp : c.idPattern with
        | none => exact halloc
        | some p =>
          rw [hp] at hok
          simp only at hok ⊢
          rw [gexec]
          simp only [eval, hi, hok, RV.toStr, RV.toBool, bind, Except.bind, pure, Except.pure, Bool.not_true, Bool.false_eq_true, if_false]
          exact halloc
      rw [hgood]
      simp only [if_true]
      rw [@ih (setRegistry c.name _ regs) e (has_set hc)]
      simp [registryIn_set, set_set]
    | false =>
      have hbad : gexec L P n ((itVar, .iter id w) :: ρ) (allocCode c v) ⟨⟨fields, regs⟩, e⟩ =
          .ok (if (e.add ⟨r, c!"Expected ID to match " ++ c.idPattern.getD [] ++ c!", but got: " ++ id⟩).full then .brk else .next,
            ⟨⟨fields, regs⟩, e.add ⟨r, c!"Expected ID to match " ++ c.idPattern.getD [] ++ c!", but got: " ++ id⟩⟩) := by
        unfold CppRuntime.idOk at hok
        unfold allocCode
        cases hp : c.idPattern with
        | none => rw [hp] at hok; cases hok
        | some p =>
          rw [hp] at hok
          simp only at hok
          simp only [gexec, eval, hi, href, hok, RV.toStr, RV.toBool, bind, Except.bind, pure, Except.pure, Bool.not_false, if_true,
            Option.getD_some]
          split <;> rfl
      rw [hbad]
      simp only [Bool.false_eq_true, if_false]
      cases hfull : (e.add ⟨r, c!"Expected ID to match " ++ c.idPattern.getD [] ++ c!", but got: " ++ id⟩).full with
      | true => simp [set_self hc]
      | false =>
        simp only [Bool.false_eq_true, if_false]
        exact ih hc

theorem prealloc_run {ρ : Env} {c : Class} {v r : Str} {kvs : List (Str × JVal)} (hv : ρ.lookup value = some (.json (.obj kvs)))
    (hr : ρ.lookup (pluralRef v) = some (.text (sub r (registryKey c)))) {t : GraphVal} {e : CppErrors}
    (hc : (t.registries.lookup c.name).isSome = true) :
    gexec L P n ρ (preallocCode c v) ⟨t, e⟩ = .ok (.next, ⟨⟨t.fields, (CppRuntime.prealloc L kvs r c t.registries e).1⟩,
      (CppRuntime.prealloc L kvs r c t.registries e).2⟩) := by
  have hmem : eval L ρ (.isMember (.var value) (lower c.plural)) = .ok (.bool (kvs.lookup (registryKey c)).isSome) := by
    simp [eval, getVar_eq hv, RV.toJson, hasMember, bind, Except.bind, pure, Except.pure, registryKey]
  rw [preallocCode, gexec, hmem]
  simp only [bind, Except.bind, RV.toBool]
  cases hk : kvs.lookup (registryKey c) with
  | none => simp [gexec, CppRuntime.prealloc, hk]
  | some w =>
    have hobj : eval L ρ (.member (.var value) (lower c.plural)) = .ok (.json w) := by
      have : kvs.lookup (lower c.plural) = some w := hk
      simp [eval, getVar_eq hv, RV.toJson, memberOf, this, bind, Except.bind, pure, Except.pure]
    have href : ∀ a b : RV, getVar ((itVar, a) :: (objVar, b) :: ρ) (pluralRef v) = .ok (.text (sub r (registryKey c))) := fun a b => by
      rw [getVar_there (by simp [itVar, pluralRef]), getVar_there (by simp [objVar, pluralRef]), getVar_eq hr]
    have href' : ∀ b : RV, getVar ((objVar, b) :: ρ) (pluralRef v) = .ok (.text (sub r (registryKey c))) := fun b => by
      rw [getVar_there (by simp [objVar, pluralRef]), getVar_eq hr]
    have ho : ∀ b : RV, getVar ((objVar, b) :: ρ) objVar = .ok b := fun b => getVar_here
    simp only [Option.isSome_some, if_true]
    rw [gexec, hobj]
    simp only [bind, Except.bind]
    by_cases hw : ∃ entries, w = .obj entries
    · obtain ⟨entries, rfl⟩ := hw
      have hp : CppRuntime.prealloc L kvs r c t.registries e =
          (setRegistry c.name (CppRuntime.preallocIds L c (sub r (registryKey c)) (entries.map (·.1)) (registryIn t.registries c.name) e).1
            t.registries, (CppRuntime.preallocIds L c (sub r (registryKey c)) (entries.map (·.1)) (registryIn t.registries c.name) e).2) := by
        simp only [CppRuntime.prealloc, hk]
      rw [hp, gexec]
      simp only [eval, ho, isKind, RV.toJson, RV.toBool, bind, Except.bind, pure, Except.pure, Bool.not_true, Bool.false_eq_true, if_false]
      rw [gexec]
      simp only [eval, ho, RV.toJson, bind, Except.bind, membersOf]
      exact alloc_loop (fun a => href a _) entries hc
    · have hkind : isKind .object w = false := by
        cases w <;> first | rfl | exact absurd ⟨_, rfl⟩ hw
      have hp : CppRuntime.prealloc L kvs r c t.registries e =
          (t.registries, e.add ⟨sub r (registryKey c), c!"Expected an object, but got: " ++ CppRuntime.typeName w⟩) := by
        simp only [CppRuntime.prealloc, hk]
        cases w <;> first | rfl | exact absurd ⟨_, rfl⟩ hw
      rw [hp, gexec]
      simp [gexec, eval, ho, href', hkind, RV.toJson, RV.toBool, RV.toStr, bind, Except.bind, pure, Except.pure]

theorem has_prealloc {kvs : List (Str × JVal)} {r : Str} {c : Class} {d : Str} {regs : Registries} {e : CppErrors}
    (h : (regs.lookup d).isSome = true) : ((CppRuntime.prealloc L kvs r c regs e).1.lookup d).isSome = true := by
  unfold CppRuntime.prealloc
  split
  · exact h
  · exact has_set h
  · exact h

/-- All the registries; `Q` tells what holds of the statements which follow. -/
theorem preallocs_run {kvs : List (Str × JVal)} {r : Str} {rest : GStmt} : ∀ (cs : List Class) {code : GStmt} {vs : List Str},
    preallocsCode cs rest = .ok code → cs.mapM (fun c => asVariable c.plural) = .ok vs → vs.Nodup →
    ∀ {ρ : Env} {t : GraphVal} {e : CppErrors}, ρ.lookup value = some (.json (.obj kvs)) → ρ.lookup refVar = some (.text r) →
    (∀ c ∈ cs, (t.registries.lookup c.name).isSome = true) →
    ∃ ρ', gexec L P n ρ code ⟨t, e⟩ = gexec L P n ρ' rest ⟨⟨t.fields, (CppRuntime.preallocAll L kvs r cs t.registries e).1⟩,
        (CppRuntime.preallocAll L kvs r cs t.registries e).2⟩ ∧
      ρ'.lookup value = some (.json (.obj kvs)) ∧ ρ'.lookup refVar = some (.text r) ∧
      (∀ c ∈ cs, ∀ v, asVariable c.plural = .ok v → ρ'.lookup (pluralRef v) = some (.text (sub r (registryKey c)))) ∧
      (∀ v, v ∉ vs → ρ'.lookup (pluralRef v) = ρ.lookup (pluralRef v)) := by
  intro cs
  induction cs with
  | nil =>
    intro code vs h _ _ ρ t e hv hr _
    cases h
    exact ⟨ρ, rfl, hv, hr, by simp, fun _ _ => rfl⟩
  | cons c cs ih =>
    intro code vs h hvs hnd ρ t e hv hr hc
    rw [preallocsCode] at h
    rw [List.mapM_cons] at hvs
    cases hp : asVariable c.plural with
    | error a => rw [hp] at h; cases h
    | ok v =>
      rw [hp] at h hvs
      simp only [bind, Except.bind] at h hvs
      cases h1 : preallocsCode cs rest with
      | error a => rw [h1] at h; cases h
      | ok more =>
        rw [h1] at h
        cases h
        cases h2 : cs.mapM (fun c => asVariable c.plural) with
        | error a => rw [h2] at hvs; cases hvs
        | ok ws =>
          rw [h2] at hvs
          cases hvs
          have hnd' := List.nodup_cons.1 hnd
          have hev : eval L ρ (.cat (.var refVar) (.text (c!"/" ++ lower c.plural))) = .ok (.text (sub r (registryKey c))) := by
            simp [eval, getVar_eq hr, RV.toStr, sub, registryKey, bind, Except.bind, pure, Except.pure]
          rw [gexec, hev]
          simp only [bind, Except.bind]
          rw [gexec, prealloc_run (kvs := kvs) (r := r) (by rw [lookup_cons_ne (by simp [value, pluralRef]), hv]) lookup_cons_eq
            (hc c (List.mem_cons_self ..))]
          simp only
          obtain ⟨ρ', k1, k2, k3, k4, k5⟩ := ih h1 h2 hnd'.2 (ρ := (pluralRef v, .text (sub r (registryKey c))) :: ρ)
            (t := ⟨t.fields, (CppRuntime.prealloc L kvs r c t.registries e).1⟩) (e := (CppRuntime.prealloc L kvs r c t.registries e).2)
            (by rw [lookup_cons_ne (by simp [value, pluralRef]), hv]) (by rw [lookup_cons_ne (by simp [refVar, pluralRef]), hr])
            (fun d hd => has_prealloc (hc d (List.mem_cons_of_mem _ hd)))
          refine ⟨ρ', k1, k2, k3, ?_, ?_⟩
          · intro d hd w hw
            rcases List.mem_cons.1 hd with rfl | hd
            · rw [hp] at hw
              cases hw
              rw [k5 v hnd'.1, lookup_cons_eq]
            · exact k4 d hd w hw
          · intro w hw
            rw [List.mem_cons, not_or] at hw
            rw [k5 w hw.2, lookup_cons_ne (by simpa [pluralRef] using hw.1)]

/-! ## Instances -/

/-- The registries have the keys which the allocation has given them. -/
structure Keys (E : CppRuntime.Env) (regs : Registries) : Prop where
  ids : ∀ d, (registryIn regs d).map (·.1) = E.ids d
  ascending : ∀ d, GoMap.Ascending (registryIn regs d)

theorem Keys.put {E : CppRuntime.Env} {regs : Registries} (h : Keys E regs) {c id : Str} (hid : id ∈ E.ids c) (x : Instance) :
    Keys E (setRegistry c (GoMap.put id x (registryIn regs c)) regs) := by
  have hk : (GoMap.put id x (registryIn regs c)).map (·.1) = (registryIn regs c).map (·.1) :=
    keys_put (h.ascending c) (by rw [h.ids]; exact hid)
  refine ⟨fun d => ?_, fun d => ?_⟩
  · rw [registryIn_set]
    split
    · next hd => rw [hk, h.ids, hd]
    · exact h.ids d
  · rw [registryIn_set]
    split
    · exact ascending_keys hk (h.ascending c)
    · exact h.ascending d

/-- What the loop over the instances does -/
def LoopDone (E : CppRuntime.Env) (c : Str) (cs : List Class) (fields : Fields) (reg : GoMap Instance) (regs : Registries) (e : CppErrors) :
    Except Exc (GoMap Instance × CppErrors) → GResult → Prop
  | .ok (reg', e'), R => ∃ regs', R = .ok (.next, ⟨⟨fields, regs'⟩, e'⟩) ∧ Ext e e' ∧ Keys E regs' ∧
      reg'.map (·.1) = E.ids c ∧ (∀ d ∈ cs, (regs'.lookup d.name).isSome = true) ∧ (e' = e → registryIn regs c = reg → regs' = setRegistry c reg' regs)
  | .error x, R => R = .error x

theorem instances_done {E : CppRuntime.Env} (hP : Apart P) (hg : reader E.graph E.dateLib = .ok P) (hk : KnownGraph E.graph) {c : Class}
    (hc : c ∈ E.graph.classes) {f v r : Str} {refs : List Str} (hf : asVariable c.name = .ok f)
    (hrefs : referencesOf E.graph (.cls c.name) = .ok refs) {ρ : Env}
    (href : ∀ a : RV, getVar ((itVar, a) :: ρ) (pluralRef v) = .ok (.text r)) {fields : Fields} :
    ∀ (ms : List (Str × JVal)) {reg : GoMap Instance} {regs : Registries} {e : CppErrors}, Room e → Keys E regs →
    reg.map (·.1) = E.ids c.name → (∀ d ∈ E.graph.classes, (regs.lookup d.name).isSome = true) →
    LoopDone E c.name E.graph.classes fields reg regs e
      (CppRuntime.parseInstances (CppRuntime.parseTy E (CppRuntime.parseEmbed E n)) c r ms reg e)
      (gloop (fun w => gexec E.lib P n ((itVar, w) :: ρ) (.seq (.parseAt c.name (f ++ c!"_from") itVar refs
          (.cat (.cat (.var (pluralRef v)) (.text c!"/")) (.name itVar))) (.ifFull .brk)))
        (ms.map fun kv => .iter kv.1 kv.2) ⟨⟨fields, regs⟩, e⟩) := by
  intro ms
  induction ms with
  | nil =>
    intro reg regs e he hks hids hhas
    exact ⟨regs, rfl, .refl he, hks, hids, hhas, fun _ h => by rw [← h, set_self (hhas c hc)]⟩
  | cons a ms ih =>
    intro reg regs e he hks hids hhas
    obtain ⟨id, j⟩ := a
    rw [CppRuntime.parseInstances, List.map_cons, gloop, gexec, gexec]
    have hi : getVar ((itVar, .iter id j) :: ρ) itVar = .ok (.iter id j) := getVar_here
    have hkk : reg.map (·.1) = (registryIn regs c.name).map (·.1) := by rw [hids, hks.ids]
    have hargs : refs.map (memberReg ⟨fields, regs⟩) = args E refs := by
      unfold args
      refine List.map_congr_left fun d _ => ?_
      simp only [memberReg, hks.ids]
    simp only [eval, hi, href, hargs, RV.toStr, RV.toJson, bind, Except.bind, pure, Except.pure]
    cases hl : reg.lookup id with
    | none =>
      rw [(lookup_keys hkk id).1 hl]
      rfl
    | some inst =>
      cases hl' : (registryIn regs c.name).lookup id with
      | none =>
        rw [(lookup_keys hkk id).2 hl'] at hl
        cases hl
      | some inst' =>
        simp only
        have hid : id ∈ E.ids c.name := by
          rw [← hks.ids]
          exact List.mem_map.2 ⟨_, GoMap.lookup_mem hl', rfl⟩
        have hsub : r ++ c!"/" ++ id = sub r id := by simp [sub]
        rw [hsub]
        have hd := class_run hP hg hk (n := n) hc hf hrefs j (sub r id) (.obj c.name inst.fields) (.obj c.name inst'.fields) e he
        simp only [CppRuntime.targetFields] at hd
        cases hm : CppRuntime.parseComposite (CppRuntime.parseTy E (CppRuntime.parseEmbed E n)) c.properties j (sub r id) inst.fields e with
        | error x =>
          rw [hm] at hd
          have hd : run E.lib P (n + 1) (f ++ c!"_from") c.name j (args E refs) (sub r id) (.obj c.name inst'.fields) e = .error x := hd
          rw [hd]
          rfl
        | ok q =>
          obtain ⟨fs, e1⟩ := q
          rw [hm] at hd
          obtain ⟨x', k1, k2, k3⟩ := hd
          rw [k1]
          simp only
          have hks1 := hks.put hid ⟨inst'.id, fieldsIn inst'.fields x'⟩
          have hreg1 : (GoMap.put id ⟨inst.id, fs⟩ reg).map (·.1) = E.ids c.name := by
            rw [keys_put (ascending_keys hkk (hks.ascending c.name)) (by rw [hids]; exact hid), hids]
          have hhas1 : ∀ d ∈ E.graph.classes, ((setRegistry c.name (GoMap.put id ⟨inst'.id, fieldsIn inst'.fields x'⟩
              (registryIn regs c.name)) regs).lookup d.name).isSome = true := fun d hd => has_set (hhas d hd)
          have heq : e1 = e → registryIn regs c.name = reg →
              GoMap.put id ⟨inst'.id, fieldsIn inst'.fields x'⟩ (registryIn regs c.name) = GoMap.put id ⟨inst.id, fs⟩ reg := by
            intro h1 h2
            rw [h2] at hl' ⊢
            rw [hl] at hl'
            cases hl'
            rw [k3 h1 rfl]
            rfl
          rw [gexec]
          cases hfull : e1.full with
          | true =>
            simp only [if_true, gexec]
            exact ⟨_, rfl, k2, hks1, hreg1, hhas1, fun h1 h2 => by rw [heq h1 h2]⟩
          | false =>
            simp only [Bool.false_eq_true, if_false]
            have hr := ih (k2.room hfull) hks1 hreg1 hhas1
            cases hp : CppRuntime.parseInstances (CppRuntime.parseTy E (CppRuntime.parseEmbed E n)) c r ms
                (GoMap.put id ⟨inst.id, fs⟩ reg) e1 with
            | error x =>
              rw [hp] at hr
              exact hr
            | ok q =>
              obtain ⟨reg2, e2⟩ := q
              rw [hp] at hr
              obtain ⟨regs2, j1, j2, j3, j4, j5, j6⟩ := hr
              refine ⟨regs2, j1, k2.trans j2, j3, j4, j5, fun h1 h2 => ?_⟩
              have h3 : e1 = e := k2.eq_of_eq j2 h1
              rw [j6 (h1.trans h3.symm) (by rw [registryIn_set, if_pos rfl, heq h3 h2]), set_set]

/-- What the loops over all the instances do -/
def RegsDone (E : CppRuntime.Env) (fields : Fields) (regs regs' : Registries) (e : CppErrors) :
    Except Exc ((Registries × Bool) × CppErrors) → GResult → Prop
  | .ok ((regs2, full), e'), R => ∃ regs2', R = .ok (if full then .ret else .next, ⟨⟨fields, regs2'⟩, e'⟩) ∧
      Ext e e' ∧ Keys E regs2' ∧ (full = false → Room e') ∧ (e' = e → regs' = regs → regs2' = regs2)
  | .error x, R => R = .error x

theorem registries_done {E : CppRuntime.Env} (hP : Apart P) (hg : reader E.graph E.dateLib = .ok P) (hk : KnownGraph E.graph) {ρ : Env}
    {kvs : List (Str × JVal)} {r : Str} (hv : ρ.lookup value = some (.json (.obj kvs)))
    (href : ∀ c ∈ E.graph.classes, ∀ v, asVariable c.plural = .ok v → ρ.lookup (pluralRef v) = some (.text (sub r (registryKey c))))
    {fields : Fields} : ∀ (cs : List Class) {code : GStmt}, allInstances E.graph cs = .ok code → (∀ c ∈ cs, c ∈ E.graph.classes) →
    ∀ {regs regs' : Registries} {e : CppErrors}, Room e → Keys E regs' → (∀ d, (registryIn regs d).map (·.1) = E.ids d) →
    (∀ d ∈ E.graph.classes, (regs'.lookup d.name).isSome = true) →
    RegsDone E fields regs regs' e
      (CppRuntime.parseRegistries (CppRuntime.parseTy E (CppRuntime.parseEmbed E n)) kvs r cs regs e)
      (gexec E.lib P n ρ code ⟨⟨fields, regs'⟩, e⟩) := by
  intro cs
  induction cs with
  | nil =>
    intro code h _ regs regs' e he hks hids hhas
    cases h
    exact ⟨regs', rfl, .refl he, hks, fun _ => he, fun _ h => h⟩
  | cons c cs ih =>
    intro code h hcs regs regs' e he hks hids hhas
    have hc := hcs c (List.mem_cons_self ..)
    rw [allInstances, instancesCode] at h
    cases h1 : asVariable c.plural with
    | error a => rw [h1] at h; cases h
    | ok v =>
      cases h2 : asVariable c.name with
      | error a => simp only [h1, h2, bind, Except.bind] at h; cases h
      | ok f =>
        cases h3 : referencesOf E.graph (.cls c.name) with
        | error a => simp only [h1, h2, h3, bind, Except.bind] at h; cases h
        | ok refs =>
          simp only [h1, h2, h3, bind, Except.bind, pure, Except.pure] at h
          cases h4 : allInstances E.graph cs with
          | error a => rw [h4] at h; cases h
          | ok rest =>
            rw [h4] at h
            cases h
            have hmem : eval E.lib ρ (.isMember (.var value) (lower c.plural)) = .ok (.bool (kvs.lookup (registryKey c)).isSome) := by
              simp [eval, getVar_eq hv, RV.toJson, hasMember, bind, Except.bind, pure, Except.pure, registryKey]
            rw [CppRuntime.parseRegistries, gexec, gexec, gexec, hmem]
            simp only [bind, Except.bind, RV.toBool]
            cases hl : kvs.lookup (registryKey c) with
            | none =>
              simp only [Option.isSome_none, Bool.false_eq_true, if_false, gexec, he.not_full]
              exact ih h4 (fun d hd => hcs d (List.mem_cons_of_mem _ hd)) he hks hids hhas
            | some w =>
              have hobj : eval E.lib ρ (.member (.var value) (lower c.plural)) = .ok (.json w) := by
                have : kvs.lookup (lower c.plural) = some w := hl
                simp [eval, getVar_eq hv, RV.toJson, memberOf, this, bind, Except.bind, pure, Except.pure]
              have ho : getVar ((objVar, .json w) :: ρ) objVar = .ok (.json w) := getVar_here
              simp only [Option.isSome_some, if_true]
              rw [gexec, hobj]
              simp only [bind, Except.bind]
              rw [gexec]
              simp only [eval, ho, RV.toJson, bind, Except.bind]
              have hd := instances_done (n := n) hP hg hk hc h2 h3 (ρ := (objVar, .json w) :: ρ) (v := v) (r := sub r (registryKey c))
                (fun a => by rw [getVar_there (by simp [itVar, pluralRef]), getVar_there (by simp [objVar, pluralRef]),
                  getVar_eq (href c hc v h1)]) (fields := fields) (membersOf w) (reg := registryIn regs c.name) he hks (hids c.name) hhas
              cases hm : CppRuntime.parseInstances (CppRuntime.parseTy E (CppRuntime.parseEmbed E n)) c (sub r (registryKey c)) (membersOf w)
                  (registryIn regs c.name) e with
              | error x =>
                rw [hm] at hd
                have hd : _ = Except.error x := hd
                rw [hd]
                rfl
              | ok q =>
                obtain ⟨reg1, e1⟩ := q
                rw [hm] at hd
                obtain ⟨regs1, j1, j2, j3, j4, j5, j6⟩ := hd
                rw [j1]
                simp only
                rw [gexec]
                cases hfull : e1.full with
                | true =>
                  simp only [if_true, gexec]
                  refine ⟨regs1, rfl, j2, j3, fun h => (by cases h), fun a b => ?_⟩
                  rw [j6 a (by rw [b]), b]
                | false =>
                  simp only [Bool.false_eq_true, if_false]
                  have hr := ih h4 (fun d hd => hcs d (List.mem_cons_of_mem _ hd)) (regs := setRegistry c.name reg1 regs) (regs' := regs1)
                    (j2.room hfull) j3 (fun d => by
                      rw [registryIn_set]
                      split
                      · next h => rw [j4, h]
                      · exact hids d) j5
                  cases hp : CppRuntime.parseRegistries (CppRuntime.parseTy E (CppRuntime.parseEmbed E n)) kvs r cs
                      (setRegistry c.name reg1 regs) e1 with
                  | error x =>
                    rw [hp] at hr
                    exact hr
                  | ok q =>
                    obtain ⟨⟨regs2, b⟩, e2⟩ := q
                    rw [hp] at hr
                    obtain ⟨regs2', k1, k2, k3, k4, k5⟩ := hr
                    refine ⟨regs2', k1, j2.trans k2, k3, k4, fun h5 h6 => ?_⟩
                    have h7 : e1 = e := j2.eq_of_eq k2 h5
                    exact k5 (h5.trans h7.symm) (by rw [j6 h7 (by rw [h6]), h6])

/-! ## The graph -/

theorem ext_ids {c : Class} {r : Str} (ids : List Str) {reg : GoMap Instance} {a e : CppErrors} (h : Ext a e) :
    Ext a (CppRuntime.preallocIds L c r ids reg e).2 := by
  induction ids generalizing reg e with
  | nil => exact h
  | cons id ids ih =>
    rw [CppRuntime.preallocIds]
    split
    · exact ih h
    · simp only
      split
      · exact h.add _
      · exact ih (h.add _)

theorem ext_prealloc {kvs : List (Str × JVal)} {r : Str} (cs : List Class) {regs : Registries} {a e : CppErrors} (h : Ext a e) :
    Ext a (CppRuntime.preallocAll L kvs r cs regs e).2 := by
  induction cs generalizing regs e with
  | nil => exact h
  | cons c cs ih =>
    rw [CppRuntime.preallocAll]
    refine ih ?_
    unfold CppRuntime.prealloc
    split
    · exact h
    · exact ext_ids _ h
    · exact h.add _

theorem ascending_ids {c : Class} {r : Str} (ids : List Str) {reg : GoMap Instance} {e : CppErrors} (h : GoMap.Ascending reg) :
    GoMap.Ascending (CppRuntime.preallocIds L c r ids reg e).1 := by
  induction ids generalizing reg e with
  | nil => exact h
  | cons id ids ih =>
    rw [CppRuntime.preallocIds]
    split
    · exact ih (h.put ..)
    · simp only
      split
      · exact h
      · exact ih h

theorem ascending_prealloc {kvs : List (Str × JVal)} {r : Str} (cs : List Class) {regs : Registries} {e : CppErrors}
    (h : ∀ d, GoMap.Ascending (registryIn regs d)) : ∀ d, GoMap.Ascending (registryIn (CppRuntime.preallocAll L kvs r cs regs e).1 d) := by
  induction cs generalizing regs e with
  | nil => exact h
  | cons c cs ih =>
    rw [CppRuntime.preallocAll]
    refine ih fun d => ?_
    unfold CppRuntime.prealloc
    split
    · exact h d
    · simp only
      rw [registryIn_set]
      split
      · exact ascending_ids _ (h c.name)
      · exact h d
    · exact h d

theorem has_preallocs {kvs : List (Str × JVal)} {r : Str} {d : Str} (cs : List Class) {regs : Registries} {e : CppErrors}
    (h : (regs.lookup d).isSome = true) : ((CppRuntime.preallocAll L kvs r cs regs e).1.lookup d).isSome = true := by
  induction cs generalizing regs e with
  | nil => exact h
  | cons c cs ih =>
    rw [CppRuntime.preallocAll]
    exact ih (has_prealloc h)

theorem empty_eq {a b : CppErrors} (h : Ext a b) (he : b.empty = true) : b = a := by
  obtain ⟨h1, _, w, h3⟩ := h
  unfold CppErrors.empty at he
  have h4 : b.values = [] := List.isEmpty_iff.1 he
  rw [h4] at h3
  have h5 : a.values = [] := (List.append_eq_nil_iff.1 h3.symm).1
  cases a
  cases b
  simp_all

/-- The members of the graph are as the classes demand it: a map for each class. -/
structure Typed (g : Graph) (t : GraphVal) : Prop where
  has : ∀ c ∈ g.classes, (t.registries.lookup c.name).isSome = true
  ascending : ∀ d, GoMap.Ascending (registryIn t.registries d)

theorem lookup_members {t : GraphVal} {cs : List Str} {ρ : Env} {c : Str} (h : c ∈ cs) :
    (cs.map (fun c => (memberVar c, memberReg t c)) ++ ρ).lookup (memberVar c) = some (memberReg t c) := by
  induction cs with
  | nil => cases h
  | cons a cs ih =>
    by_cases hc : c = a
    · subst hc
      simp
    · have hne : memberVar c ≠ memberVar a := by simpa [memberVar] using hc
      rw [List.map_cons, List.cons_append, lookup_cons_ne hne]
      rcases List.mem_cons.1 h with h | h
      · exact absurd h hc
      · exact ih h

theorem lookup_fixed {t : GraphVal} {cs : List Str} {ρ : Env} {x : Str} :
    (cs.map (fun c => (memberVar c, memberReg t c)) ++ ρ).lookup (.fixed x) = ρ.lookup (.fixed x) := by
  induction cs with
  | nil => rfl
  | cons a cs ih =>
    rw [List.map_cons, List.cons_append, lookup_cons_ne (by simp [memberVar]), ih]

/-- What the function does -/
def GraphDone (e : CppErrors) : Except Exc (GraphVal × CppErrors) → Except Exc (GraphVal × CppErrors) → Prop
  | .ok (t, e'), R => ∃ t', R = .ok (t', e') ∧ Ext e e' ∧ (e' = e → t' = t)
  | .error x, R => R = .error x

theorem graph_done {g : Graph} {D : DateLib} (hP : Apart P) (hg : reader g D = .ok P) (hk : KnownGraph g)
    (hkp : ∀ q ∈ g.properties, Known g q.ty) {body : GStmt} (hb : parseGraphCode g D = .ok body) {vs : List Str}
    (hvs : g.classes.mapM (fun c => asVariable c.plural) = .ok vs) (hnd : vs.Nodup) (j : JVal) (r : Str) (t : GraphVal) (ht : Typed g t)
    (e : CppErrors) (hcap : 0 < e.cap) :
    GraphDone e (CppRuntime.parseGraph D L g n j r t e) (runGraph L P n body j r t e) := by
  rw [parseGraphCode] at hb
  cases h1 : parseProps ⟨g, D, memberOfGraph g⟩ g.properties 0 with
  | error a => rw [h1] at hb; cases hb
  | ok props =>
    cases h2 : allInstances g g.classes with
    | error a => simp only [h1, h2, bind, Except.bind] at hb; cases hb
    | ok instances =>
      simp only [h1, h2, bind, Except.bind] at hb
      cases h3 : preallocsCode g.classes (.seq (if g.classes.isEmpty = true then .skip else .ifErrors .ret)
          (.seq instances (.code (g.classes.map (·.name)) props))) with
      | error a => rw [h3] at hb; cases hb
      | ok code =>
        rw [h3] at hb
        cases hb
        unfold runGraph CppRuntime.parseGraph
        rw [gexec, gexec]
        cases hempty : e.empty with
        | false => simp [gexec, GraphDone, bind, Except.bind]
        | true =>
          have he : Room e := by
            have : e.values = [] := List.isEmpty_iff.1 hempty
            unfold Room
            rw [this]
            exact hcap
          have hval : ∀ ρ : Env, getVar ((value, .json j) :: ρ) value = .ok (.json j) := fun ρ => getVar_here
          have href : ∀ ρ : Env, getVar ((value, .json j) :: (refVar, .text r) :: ρ) refVar = .ok (.text r) := fun ρ => by
            rw [getVar_there (by simp [value, refVar]), getVar_here]
          simp only [Bool.not_true, Bool.false_eq_true, if_false, if_true]
          rw [gexec, gexec]
          by_cases hj : ∃ kvs, j = .obj kvs
          · obtain ⟨kvs, rfl⟩ := hj
            simp only [eval, hval, isKind, RV.toJson, RV.toBool, bind, Except.bind, pure, Except.pure, Bool.not_true, Bool.false_eq_true,
              if_false, gexec]
            obtain ⟨ρ, k1, k2, k3, k4, _⟩ := preallocs_run (L := L) (P := P) (n := n) (kvs := kvs) (r := r) g.classes h3 hvs hnd
              (ρ := [(value, .json (.obj kvs)), (refVar, .text r)]) (t := t) (e := e) lookup_cons_eq
              (by rw [lookup_cons_ne (by simp [value, refVar]), lookup_cons_eq]) ht.has
            rw [k1]
            have hpre : Ext e (CppRuntime.preallocAll L kvs r g.classes t.registries e).2 := ext_prealloc g.classes (.refl he)
            have hasc := ascending_prealloc (L := L) (kvs := kvs) (r := r) g.classes (e := e) ht.ascending
            have hhas := fun d hd => has_preallocs (L := L) (kvs := kvs) (r := r) g.classes (e := e) (ht.has d hd)
            have hnil : g.classes.isEmpty = true → (CppRuntime.preallocAll L kvs r g.classes t.registries e).2 = e := fun h => by
              rw [List.isEmpty_iff.1 h]
              rfl
            generalize CppRuntime.preallocAll L kvs r g.classes t.registries e = pre at hpre hasc hhas hnil ⊢
            rw [gexec]
            by_cases hstop : (!g.classes.isEmpty && !pre.2.empty) = true
            · rw [if_pos hstop]
              have hs : g.classes.isEmpty = false ∧ pre.2.empty = false := by simpa using hstop
              simp only [hs.1, hs.2, gexec, Bool.false_eq_true, if_false]
              exact ⟨_, rfl, hpre, fun _ => rfl⟩
            · rw [if_neg hstop]
              have hfirst : gexec L P n ρ (if g.classes.isEmpty = true then .skip else .ifErrors .ret) ⟨⟨t.fields, pre.1⟩, pre.2⟩ =
                  .ok (.next, ⟨⟨t.fields, pre.1⟩, pre.2⟩) := by
                cases hcl : g.classes.isEmpty with
                | true => simp [gexec]
                | false =>
                  have : pre.2.empty = true := by simpa [hcl] using hstop
                  simp [gexec, this]
              have hroom : Room pre.2 := by
                cases hcl : g.classes.isEmpty with
                | true =>
                  rw [hnil hcl]
                  exact he
                | false =>
                  have : pre.2.empty = true := by simpa [hcl] using hstop
                  rw [empty_eq hpre this]
                  exact he
              rw [hfirst]
              simp only
              rw [gexec]
              have hd := registries_done (n := n) (E := CppRuntime.envOf D L g pre.1) hP hg hk (ρ := ρ) (kvs := kvs) (r := r) k2 k4
                (fields := t.fields) g.classes h2 (fun _ h => h) (regs := pre.1) (regs' := pre.1) hroom
                ⟨fun _ => rfl, hasc⟩ (fun _ => rfl) hhas
              change RegsDone _ _ _ _ _ _ (gexec L P n ρ instances _) at hd
              cases hm : CppRuntime.parseRegistries (CppRuntime.parseTy (CppRuntime.envOf D L g pre.1)
                  (CppRuntime.parseEmbed (CppRuntime.envOf D L g pre.1) n)) kvs r g.classes pre.1 pre.2 with
              | error x =>
                rw [hm] at hd
                have hd : gexec L P n ρ instances ⟨⟨t.fields, pre.1⟩, pre.2⟩ = .error x := hd
                rw [hd]
                rfl
              | ok q =>
                obtain ⟨⟨regs2, b⟩, e2⟩ := q
                rw [hm] at hd
                obtain ⟨regs2', j1, j2, j3, j4, j5⟩ := hd
                rw [j1]
                cases b with
                | true =>
                  simp only [if_true]
                  refine ⟨_, rfl, hpre.trans j2, fun a => ?_⟩
                  have : e2 = pre.2 := a.trans (hpre.eq_of_eq j2 a).symm
                  rw [j5 this rfl]
                | false =>
                  simp only [Bool.false_eq_true, if_false]
                  rw [gexec]
                  have hw : Within (CppRuntime.envOf D L g pre.1) ⟨g, D, memberOfGraph g⟩
                      ((g.classes.map (·.name)).map (fun c => (memberVar c, memberReg ⟨t.fields, regs2'⟩ c)) ++ ρ) kvs r := by
                    refine ⟨by rw [value, lookup_fixed]; exact k2, by rw [refVar, lookup_fixed]; exact k3, ?_⟩
                    intro c x hx
                    simp only [memberOfGraph] at hx
                    split at hx
                    · next hc =>
                      cases hx
                      refine ⟨⟨_, _, _, rfl⟩, ?_⟩
                      rw [lookup_members hc]
                      simp only [memberReg, j3.ids]
                    · cases hx
                  have hp := props_done (L := L) (E := CppRuntime.envOf D L g pre.1) (ctx := ⟨g, D, memberOfGraph g⟩) ⟨rfl, rfl⟩ rfl
                    (calls_done (E := CppRuntime.envOf D L g pre.1) hP hg hk n) hw (nm := []) g.properties h1 hkp (fields := t.fields)
                    (fm := t.fields) (j4 rfl)
                  change PropsDone _ _ _ _ _ (exec L (run L P n) props _) at hp
                  cases hq : CppRuntime.parseProps (CppRuntime.parseTy (CppRuntime.envOf D L g pre.1)
                      (CppRuntime.parseEmbed (CppRuntime.envOf D L g pre.1) n)) kvs r g.properties t.fields e2 with
                  | error x =>
                    rw [hq] at hp
                    have hp : exec L (run L P n) props _ = .error x := hp
                    simp only [hp, bind, Except.bind]
                    rfl
                  | ok q =>
                    obtain ⟨fs, e3⟩ := q
                    rw [hq] at hp
                    obtain ⟨fl, ρ', fs', m1, m2, m3⟩ := hp
                    simp only [m1, bind, Except.bind, pure, Except.pure]
                    refine ⟨_, rfl, (hpre.trans j2).trans m2, fun a => ?_⟩
                    have h4 : e2 = e := (hpre.trans j2).eq_of_eq m2 a
                    have h5 : e2 = pre.2 := h4.trans (hpre.eq_of_eq j2 h4).symm
                    rw [j5 h5 rfl, m3 (a.trans h4.symm) rfl]
                    rfl
          · have hkind : isKind .object j = false := by
              cases j <;> first | rfl | exact absurd ⟨_, rfl⟩ hj
            simp only [gexec, eval, hval, href, hkind, RV.toJson, RV.toStr, RV.toBool, bind, Except.bind, pure, Except.pure,
              Bool.not_false, if_true]
            cases j <;> first | exact ⟨t, rfl, (Ext.refl he).add _, fun _ => rfl⟩ | exact absurd ⟨_, rfl⟩ hj

end

end Mapry.CppRead
