import Verif.CppReadValue
import Verif.CppWriteGraph

/-! # The generated C++ functions which parse the classes and the embeddable structures -/

namespace Mapry.CppRead

open Mapry.CppRuntime (JVal Val Lib DateLib Fields setField targetFields)
open Mapry.CppCode (Var)
open Mapry.Naming Mapry.TypeGraph
open Mapry.GoCode (referencesOf)
open Mapry.CppExec (mapM_ok forall₂_left embed_found)

section

variable {L : Lib} {call : Call} {E : CppRuntime.Env} {ctx : Ctx} {embed : Str → CppRuntime.ParseFn}

/-- The variables of a function -/
structure Within (E : CppRuntime.Env) (ctx : Ctx) (ρ : Env) (kvs : List (Str × JVal)) (r : Str) : Prop where
  value : ρ.lookup value = some (.json (.obj kvs))
  ref : ρ.lookup refVar = some (.text r)
  regs : Regs E ctx ρ

/-- What the code of a property does with the structure -/
def PropDone (nm : Str) (fields fm : Fields) (e : CppErrors) (ρ : Env) : Except Exc (Fields × CppErrors) → Result → Prop
  | .ok (fs, e'), R => ∃ fs', R = .ok (.next, ⟨ρ, .obj nm fs', e'⟩) ∧ Ext e e' ∧ (e' = e → fm = fields → fs' = fs)
  | .error x, R => R = .error x

theorem at_field {f nm : Str} {fields : Fields} {w : Val} (h : At [.field f] (.obj nm fields) w) : ∃ fs, w = .obj nm fs := by
  rcases h with rfl | ⟨x, rfl⟩
  · exact ⟨_, rfl⟩
  · exact ⟨_, rfl⟩

theorem property_done (hE : ctx.graph = E.graph ∧ ctx.dateLib = E.dateLib) (hL : E.lib = L) (hcall : Calls E embed call) {q : Property}
    {n m : Nat} {code : Stmt} (h : parseProperty ctx q n = .ok (code, m)) (hk : Known E.graph q.ty) {ρ : Env} {kvs : List (Str × JVal)}
    {r : Str} (hρ : Within E ctx ρ kvs r) {nm : Str} {fields fm : Fields} {e : CppErrors} (he : Room e) :
    PropDone nm fields fm e ρ (CppRuntime.parseProperty (CppRuntime.parseTy E embed) kvs r q fm e)
      (exec L call code ⟨ρ, .obj nm fields, e⟩) := by
  rw [parseProperty] at h
  cases hf : asAttribute q.name with
  | error a => rw [hf] at h; cases h
  | ok f =>
    have hf' : f = CppRuntime.asField q.name := by
      unfold asAttribute at hf
      split at hf
      · cases hf
      · cases hf
        rfl
    rw [hf] at h
    simp only [bind, Except.bind] at h
    cases hc : parseValue ctx q.ty (.member (.var value) q.json)
        (if (q.optional && CppRuntime.needsEmplace q.ty) = true then .star (.arrow f) else .arrow f)
        (.cat (.var refVar) (.text (c!"/" ++ q.json))) n with
    | error a => rw [hc] at h; cases h
    | ok d =>
      obtain ⟨inner, m'⟩ := d
      rw [hc] at h
      simp only at h
      have hval : ∀ ρ', Agree (Old n) ρ ρ' → getVar ρ' value = .ok (.json (.obj kvs)) := fun ρ' ha =>
        getVar_eq ((ha (.fixed c!"value") trivial).trans hρ.value)
      have href : ∀ ρ', Agree (Old n) ρ ρ' → getVar ρ' refVar = .ok (.text r) := fun ρ' ha =>
        getVar_eq ((ha (.fixed c!"ref") trivial).trans hρ.ref)
      have hmem : eval L ρ (.isMember (.var value) q.json) = .ok (.bool (kvs.lookup q.json).isSome) := by
        simp [eval, hval _ .refl, RV.toJson, hasMember, bind, Except.bind, pure, Except.pure]
      have hdone : ∀ v fs tm, kvs.lookup q.json = some v → Done [.field f] (.obj nm fs) e ρ tm
          (CppRuntime.parseTy E embed q.ty v (CppRuntime.sub r q.json) tm e) (exec L call inner ⟨ρ, .obj nm fs, e⟩) := by
        intro v fs tm hv
        refine value_done hE hL hcall q.ty hc hk ⟨fun ρ' ha => ?_, fun ρ' ha => ?_, fun ρ' ha => ?_, trivial, trivial⟩ hρ.regs he
        · simp [eval, hval _ ha, RV.toJson, memberOf, hv, bind, Except.bind, pure, Except.pure]
        · simp [eval, href _ ha, RV.toStr, CppRuntime.sub, bind, Except.bind, pure, Except.pure]
        · refine ⟨_, ?_, .inl rfl⟩
          split <;> simp [locate]
      rw [CppRuntime.parseProperty]
      cases hv : kvs.lookup q.json with
      | none =>
        rw [hv] at hmem
        cases hopt : q.optional with
        | true =>
          simp only [hopt, if_true] at h
          cases h
          rw [exec_ite hmem]
          exact ⟨fields, rfl, .refl he, fun _ h => h.symm⟩
        | false =>
          simp only [hopt, Bool.false_eq_true, if_false] at h
          cases h
          rw [exec_ite (eval_not hmem)]
          have hadd : exec L call (.add (.var refVar) (.text (c!"Property is missing: " ++ q.json))) ⟨ρ, .obj nm fields, e⟩ =
              .ok (.next, ⟨ρ, .obj nm fields, e.add ⟨r, c!"Property is missing: " ++ q.json⟩⟩) := by
            simp [exec, eval, href _ .refl, RV.toStr, bind, Except.bind, pure, Except.pure]
          simp only [Option.isSome_none, Bool.not_false, if_true, Bool.false_eq_true, if_false]
          rw [hadd]
          exact ⟨fields, rfl, (Ext.refl he).add _, fun h => absurd h (add_ne he _)⟩
      | some v =>
        rw [hv] at hmem
        simp only
        cases hopt : q.optional && CppRuntime.needsEmplace q.ty with
        | true =>
          have ho : q.optional = true ∧ CppRuntime.needsEmplace q.ty = true := by simpa using hopt
          simp only [ho.1, ho.2, Bool.and_true, if_true] at h
          cases h
          have hemp : exec L call (.emplace (.arrow f)) ⟨ρ, .obj nm fields, e⟩ = .ok (.next, ⟨ρ, .obj nm (setField f .zero fields), e⟩) := by
            simp [exec, locate, put, Step.put, bind, Except.bind, pure, Except.pure]
          rw [exec_ite hmem]
          simp only [Option.isSome_some, if_true]
          rw [exec_seq hemp]
          have hd := hdone v (setField f .zero fields) .zero hv
          cases hm : CppRuntime.parseTy E embed q.ty v (CppRuntime.sub r q.json) .zero e with
          | error x =>
            rw [hm] at hd
            exact hd
          | ok d =>
            obtain ⟨t, e'⟩ := d
            rw [hm] at hd
            obtain ⟨w, h1, h2, h3, h4⟩ := hd
            obtain ⟨fs, rfl⟩ := at_field h2
            refine ⟨fs, h1, h3, fun a b => ?_⟩
            have hg : Val.zero = get [.field f] (.obj nm (setField f .zero fields)) := by
              simp [get, Step.get, lookup_setField]
            have := h4 a hg
            simp only [put, Step.put, setField_setField, Val.obj.injEq, true_and] at this
            subst b
            rw [this, hf']
        | false =>
          have hrun : exec L call code ⟨ρ, .obj nm fields, e⟩ = exec L call inner ⟨ρ, .obj nm fields, e⟩ := by
            cases ho : q.optional with
            | true =>
              have hn : CppRuntime.needsEmplace q.ty = false := by simpa [ho] using hopt
              simp only [ho, hn, Bool.and_false, Bool.false_eq_true, if_true, if_false] at h
              cases h
              rw [exec_ite hmem]
              rfl
            | false =>
              simp only [ho, Bool.false_eq_true, if_false] at h
              cases h
              rw [exec_ite (eval_not hmem)]
              rfl
          rw [hrun]
          simp only [Bool.false_eq_true, if_false]
          have hd := hdone v fields ((fm.lookup (CppRuntime.asField q.name)).getD .zero) hv
          cases hm : CppRuntime.parseTy E embed q.ty v (CppRuntime.sub r q.json) ((fm.lookup (CppRuntime.asField q.name)).getD .zero) e with
          | error x =>
            rw [hm] at hd
            exact hd
          | ok d =>
            obtain ⟨t, e'⟩ := d
            rw [hm] at hd
            obtain ⟨w, h1, h2, h3, h4⟩ := hd
            obtain ⟨fs, rfl⟩ := at_field h2
            refine ⟨fs, h1, h3, fun a b => ?_⟩
            subst b
            have := h4 a (by rw [hf']; rfl)
            simp only [put, Step.put, Val.obj.injEq, true_and] at this
            rw [this, hf']

/-- What the code of a function does with the structure -/
def PropsDone (nm : Str) (fields fm : Fields) (e : CppErrors) : Except Exc (Fields × CppErrors) → Result → Prop
  | .ok (fs, e'), R => ∃ fl ρ fs', R = .ok (fl, ⟨ρ, .obj nm fs', e'⟩) ∧ Ext e e' ∧ (e' = e → fm = fields → fs' = fs)
  | .error x, R => R = .error x

theorem props_done (hE : ctx.graph = E.graph ∧ ctx.dateLib = E.dateLib) (hL : E.lib = L) (hcall : Calls E embed call) {ρ : Env}
    {kvs : List (Str × JVal)} {r : Str} (hρ : Within E ctx ρ kvs r) {nm : Str} : ∀ (ps : List Property) {n : Nat} {code : Stmt},
    parseProps ctx ps n = .ok code → (∀ q ∈ ps, Known E.graph q.ty) → ∀ {fields fm : Fields} {e : CppErrors}, Room e →
    PropsDone nm fields fm e (CppRuntime.parseProps (CppRuntime.parseTy E embed) kvs r ps fm e)
      (exec L call code ⟨ρ, .obj nm fields, e⟩) := by
  intro ps
  induction ps with
  | nil =>
    intro n code h _ fields fm e he
    cases h
    exact ⟨.next, ρ, fields, rfl, .refl he, fun _ h => h.symm⟩
  | cons q ps ih =>
    intro n code h hk fields fm e he
    rw [parseProps] at h
    cases h1 : parseProperty ctx q n with
    | error a => rw [h1] at h; cases h
    | ok d =>
      obtain ⟨c1, m⟩ := d
      rw [h1] at h
      simp only [bind, Except.bind] at h
      cases h2 : parseProps ctx ps m with
      | error a => rw [h2] at h; cases h
      | ok rest =>
        rw [h2] at h
        cases h
        have hd := property_done hE hL hcall h1 (hk q (List.mem_cons_self ..)) hρ (nm := nm) (fields := fields) (fm := fm) he
        rw [CppRuntime.parseProps]
        cases hm : CppRuntime.parseProperty (CppRuntime.parseTy E embed) kvs r q fm e with
        | error x =>
          rw [hm] at hd
          have hd : exec L call c1 ⟨ρ, .obj nm fields, e⟩ = .error x := hd
          rw [exec, hd]
          rfl
        | ok d =>
          obtain ⟨fs, e1⟩ := d
          rw [hm] at hd
          obtain ⟨fs', k1, k2, k3⟩ := hd
          rw [exec_seq k1]
          simp only [bind, Except.bind, pure, Except.pure]
          cases hfull : e1.full with
          | true =>
            simp only [if_true]
            have : exec L call (.seq (.ifFull .ret) rest) ⟨ρ, .obj nm fs', e1⟩ = .ok (.ret, ⟨ρ, .obj nm fs', e1⟩) := by
              simp [exec, hfull]
            rw [this]
            exact ⟨.ret, ρ, fs', rfl, k2, k3⟩
          | false =>
            simp only [Bool.false_eq_true, if_false]
            have : exec L call (.seq (.ifFull .ret) rest) ⟨ρ, .obj nm fs', e1⟩ = exec L call rest ⟨ρ, .obj nm fs', e1⟩ := by
              simp [exec, hfull]
            rw [this]
            have hd := ih h2 (fun q hq => hk q (List.mem_cons_of_mem _ hq)) (fields := fs') (fm := fs) (k2.room hfull)
            cases hr : CppRuntime.parseProps (CppRuntime.parseTy E embed) kvs r ps fs e1 with
            | error x =>
              rw [hr] at hd
              exact hd
            | ok d =>
              obtain ⟨fs2, e2⟩ := d
              rw [hr] at hd
              obtain ⟨fl, ρ2, fs2', j1, j2, j3⟩ := hd
              refine ⟨fl, ρ2, fs2', j1, k2.trans j2, fun a b => ?_⟩
              have ha : e1 = e := k2.eq_of_eq j2 a
              exact j3 (a.trans ha.symm) (k3 ha b).symm

/-! ## Functions -/

theorem lookup_registries {refs : List Str} {vs : List Var} {g : Graph} (h : Forall₂ (fun c v => registryParam g c = .ok v) refs vs)
    (hn : vs.Nodup) {c : Str} (hc : c ∈ refs) {x : Var} (hx : registryParam g c = .ok x) :
    (vs.zip (args E refs)).lookup x = some (.registry c (E.ids c)) ∨
      ∃ c' ∈ refs, c' ≠ c ∧ registryParam g c' = .ok x := by
  induction h with
  | nil => cases hc
  | @cons a v as vs hav hrest ih =>
    by_cases hca : a = c
    · subst hca
      rw [hav] at hx
      cases hx
      left
      simp [args]
    · rcases List.mem_cons.1 hc with rfl | hc
      · exact absurd rfl hca
      · by_cases hvx : x = v
        · subst hvx
          exact .inr ⟨a, List.mem_cons_self .., hca, hav⟩
        · rcases ih (List.nodup_cons.1 hn).2 hc with h' | ⟨c', h1, h2⟩
          · left
            have : (x == v) = false := by simpa using hvx
            simpa [args, List.lookup, this] using h'
          · exact .inr ⟨c', List.mem_cons_of_mem _ h1, h2⟩

/-- The functions can be told apart, and so can the parameters of a function. -/
structure Apart (P : Program) : Prop where
  functions : (P.map fun f => (f.name, f.ty)).Nodup
  params : ∀ F ∈ P, F.registries.Nodup

theorem find_func {P : Program} (hP : Apart P) {F : Func} (hm : F ∈ P) : P.find? (fun h => h.name == F.name && h.ty == F.ty) = some F := by
  replace hP := hP.functions
  induction P with
  | nil => cases hm
  | cons a P ih =>
    simp only [List.map_cons, List.nodup_cons] at hP
    rw [List.find?_cons]
    rcases List.mem_cons.1 hm with rfl | hm
    · simp
    · have : (a.name == F.name && a.ty == F.ty) = false := by
        rw [Bool.and_eq_false_iff]
        simp only [beq_eq_false_iff_ne]
        by_cases h : a.name = F.name
        · refine .inr fun h' => hP.1 ?_
          rw [h, h']
          exact List.mem_map.2 ⟨F, hm, rfl⟩
        · exact .inl h
      rw [this]
      exact ih hm hP.2

theorem nodup_registry {refs : List Str} {vs : List Var} {g : Graph} (h : Forall₂ (fun c v => registryParam g c = .ok v) refs vs)
    (hn : vs.Nodup) {c c' : Str} (hc : c ∈ refs) (hc' : c' ∈ refs) {x : Var} (h1 : registryParam g c = .ok x)
    (h2 : registryParam g c' = .ok x) : c' = c := by
  induction h with
  | nil => cases hc
  | @cons a v as vs hav hrest ih =>
    have hn' := List.nodup_cons.1 hn
    have hmem : ∀ d ∈ as, registryParam g d ≠ .ok v := by
      intro d hd hdv
      obtain ⟨b, hb, hdb⟩ := forall₂_left hrest d hd
      rw [hdv] at hdb
      cases hdb
      exact hn'.1 hb
    rcases List.mem_cons.1 hc with rfl | hc1 <;> rcases List.mem_cons.1 hc' with rfl | hc1'
    · rfl
    · rw [hav] at h1
      cases h1
      exact absurd h2 (hmem _ hc1')
    · rw [hav] at h2
      cases h2
      exact absurd h1 (hmem _ hc1)
    · exact ih hn'.2 hc1 hc1'

/-- The function of a class or of an embeddable structure -/
theorem composite_done {P : Program} (hP : Apart P) {n : Nat} (hcall : Calls E embed (run E.lib P n)) {o : Owner} {name f : Str}
    {refs : List Str} {ps : List Property} {F : Func} (h : parseComposite E.graph E.dateLib o name ps = .ok F) (hF : F ∈ P)
    (hf : asVariable name = .ok f) (hrefs : referencesOf E.graph o = .ok refs) (hk : ∀ q ∈ ps, Known E.graph q.ty) (j : JVal) (r : Str)
    (tm x : Val) (e : CppErrors) (he : Room e) :
    Called e tm x ((CppRuntime.parseComposite (CppRuntime.parseTy E embed) ps j r (targetFields ps tm) e).map fun q => (.obj name q.1, q.2))
      (run E.lib P (n + 1) (f ++ c!"_from") name j (args E refs) r x e) := by
  rw [parseComposite] at h
  simp only [hrefs, hf, bind, Except.bind] at h
  cases h1 : refs.mapM (registryParam E.graph) with
  | error a => rw [h1] at h; cases h
  | ok vs =>
    rw [h1] at h
    simp only at h
    cases h2 : parseProps ⟨E.graph, E.dateLib, registryVar E.graph refs⟩ ps 0 with
    | error a => rw [h2] at h; cases h
    | ok props =>
      rw [h2] at h
      cases h
      have hparts := mapM_ok h1
      have hnd : vs.Nodup := hP.params _ hF
      have hlen : vs.length = (args E refs).length := by
        have : ∀ {as : List Str} {bs : List Var}, Forall₂ (fun c v => registryParam E.graph c = .ok v) as bs → bs.length = as.length := by
          intro as bs h
          induction h with
          | nil => rfl
          | cons _ _ ih => simp [ih]
        simp [args, this hparts]
      have hfind := find_func hP hF
      simp only at hfind
      rw [run]
      simp only [hfind, hlen, if_true]
      have hpt : ∀ b : Stmt, pointee ⟨f ++ c!"_from", vs, name, CppRuntime.zeroFields ps, b⟩ x = .obj name (targetFields ps x) := by
        intro b
        cases x <;> rfl
      rw [hpt]
      have hv : ∀ env : Env, getVar ((value, .json j) :: env) value = .ok (.json j) := fun env => getVar_here
      have href : ∀ env : Env, getVar ((value, .json j) :: (refVar, .text r) :: env) refVar = .ok (.text r) := fun env => by
        rw [getVar_there (by simp [value, refVar]), getVar_here]
      have hregs : Regs E ⟨E.graph, E.dateLib, registryVar E.graph refs⟩ ((value, .json j) :: (refVar, .text r) :: vs.zip (args E refs)) := by
        intro c y hy
        simp only [registryVar] at hy
        split at hy
        · next hc =>
          have hown : ∃ a b d, y = .own a b d := by
            unfold registryParam at hy
            split at hy
            · next cl _ =>
              cases hp : asVariable cl.plural with
              | error a => rw [hp] at hy; cases hy
              | ok s =>
                rw [hp] at hy
                cases hy
                exact ⟨_, _, _, rfl⟩
            · cases hy
          refine ⟨hown, ?_⟩
          obtain ⟨a, b, d, rfl⟩ := hown
          rw [lookup_cons_ne (by simp [value]), lookup_cons_ne (by simp [refVar])]
          rcases lookup_registries (E := E) hparts hnd hc hy with h' | ⟨c', h1, h2, h3⟩
          · exact h'
          · exact absurd (nodup_registry hparts hnd hc h1 hy h3) h2
        · cases hy
      by_cases hobj : ∃ kvs, j = .obj kvs
      · obtain ⟨kvs, rfl⟩ := hobj
        have hd := props_done (E := E) (ctx := ⟨E.graph, E.dateLib, registryVar E.graph refs⟩) ⟨rfl, rfl⟩ rfl hcall
          (ρ := (value, .json (.obj kvs)) :: (refVar, .text r) :: vs.zip (args E refs)) (kvs := kvs) (r := r)
          ⟨lookup_cons_eq, by rw [lookup_cons_ne (by simp [value, refVar]), lookup_cons_eq], hregs⟩ (nm := name) ps h2 hk
          (fields := targetFields ps x) (fm := targetFields ps tm) he
        rw [exec_seq (s' := ⟨(value, .json (.obj kvs)) :: (refVar, .text r) :: vs.zip (args E refs), .obj name (targetFields ps x), e⟩)
          (by
            rw [exec_ite (b := false) (by simp [eval, hv, isKind, RV.toJson, RV.toBool, bind, Except.bind, pure, Except.pure])]
            rfl)]
        simp only [CppRuntime.parseComposite]
        cases hm : CppRuntime.parseProps (CppRuntime.parseTy E embed) kvs r ps (targetFields ps tm) e with
        | error ex =>
          rw [hm] at hd
          have hd : exec E.lib (run E.lib P n) props ⟨(value, .json (.obj kvs)) :: (refVar, .text r) :: vs.zip (args E refs),
            .obj name (targetFields ps x), e⟩ = .error ex := hd
          rw [hd]
          rfl
        | ok q =>
          obtain ⟨fs, e'⟩ := q
          rw [hm] at hd
          obtain ⟨fl, ρ', fs', k1, k2, k3⟩ := hd
          rw [k1]
          refine ⟨_, rfl, k2, fun a b => ?_⟩
          rw [k3 a (by rw [b])]
      · have hm : CppRuntime.parseComposite (CppRuntime.parseTy E embed) ps j r (targetFields ps tm) e =
            .ok (targetFields ps tm, e.add ⟨r, c!"Expected an object, but got: " ++ CppRuntime.typeName j⟩) := by
          cases j <;> first | rfl | exact absurd ⟨_, rfl⟩ hobj
        have hkind : isKind .object j = false := by
          cases j <;> first | rfl | exact absurd ⟨_, rfl⟩ hobj
        have hrun : exec E.lib (run E.lib P n) (.seq (.ite (.not (.is .object (.var value)))
            (.seq (report (.var refVar) c!"Expected an object, but got: " (.typeText (.var value))) .ret) .skip) props)
            ⟨(value, .json j) :: (refVar, .text r) :: vs.zip (args E refs), .obj name (targetFields ps x), e⟩ =
            .ok (.ret, ⟨(value, .json j) :: (refVar, .text r) :: vs.zip (args E refs), .obj name (targetFields ps x),
              e.add ⟨r, c!"Expected an object, but got: " ++ CppRuntime.typeName j⟩⟩) := by
          rw [exec, exec_ite (b := true) (by simp [eval, hv, hkind, RV.toJson, RV.toBool, bind, Except.bind, pure, Except.pure])]
          simp only [if_true]
          simp [exec, report, eval, hv, href, RV.toJson, RV.toStr, bind, Except.bind, pure, Except.pure]
        rw [hm, hrun]
        exact ⟨_, rfl, (Ext.refl he).add _, fun h => absurd h (add_ne he _)⟩

/-- The functions of the program -/
structure Parts (g : Graph) (D : DateLib) (P : Program) : Prop where
  classes : ∀ c ∈ g.classes, ∃ F ∈ P, parseComposite g D (.cls c.name) c.name c.properties = .ok F
  embeds : ∀ m ∈ g.embeds, ∃ F ∈ P, parseComposite g D (.embed m.name) m.name m.properties = .ok F

theorem parts {g : Graph} {D : DateLib} {P : Program} (h : reader g D = .ok P) : Parts g D P := by
  simp only [reader] at h
  cases h1 : g.classes.mapM fun c => parseComposite g D (.cls c.name) c.name c.properties with
  | error e => rw [h1] at h; cases h
  | ok cs =>
    cases h2 : g.embeds.mapM fun e => parseComposite g D (.embed e.name) e.name e.properties with
    | error e => simp only [bind, Except.bind, h1, h2] at h; cases h
    | ok es =>
      simp only [bind, Except.bind, h1, h2, pure, Except.pure] at h
      cases h
      refine ⟨fun c hc => ?_, fun e he => ?_⟩
      · obtain ⟨b, hb, h⟩ := forall₂_left (mapM_ok h1) c hc
        exact ⟨b, by simp [hb], h⟩
      · obtain ⟨b, hb, h⟩ := forall₂_left (mapM_ok h2) e he
        exact ⟨b, by simp [hb], h⟩

/-- The embeddable structures in the types of the properties are in the graph. -/
structure KnownGraph (g : Graph) : Prop where
  classes : ∀ c ∈ g.classes, ∀ q ∈ c.properties, Known g q.ty
  embeds : ∀ m ∈ g.embeds, ∀ q ∈ m.properties, Known g q.ty

/-- The functions of the embeddable structures -/
theorem calls_done {P : Program} (hP : Apart P) (hr : reader E.graph E.dateLib = .ok P) (hk : KnownGraph E.graph) :
    ∀ n, Calls E (CppRuntime.parseEmbed E n) (run E.lib P n) := by
  intro n
  induction n with
  | zero =>
    intro name f refs _ _ _ j r tm x e _
    rfl
  | succ n ih =>
    intro name f refs hname hf hrefs j r tm x e he
    obtain ⟨m, hm⟩ := Option.isSome_iff_exists.1 hname
    obtain ⟨hmem, rfl⟩ := embed_found hm
    obtain ⟨F, hF, hc⟩ := (parts hr).embeds m hmem
    have := composite_done hP ih hc hF hf hrefs (hk.embeds m hmem) j r tm x e he
    rw [CppRuntime.parseEmbed, hm]
    simp only
    cases h : CppRuntime.parseComposite (CppRuntime.parseTy E (CppRuntime.parseEmbed E n)) m.properties j r
        (targetFields m.properties tm) e with
    | error a => rw [h] at this; exact this
    | ok q => rw [h] at this; exact this

/-- The functions of the classes -/
theorem class_run {P : Program} (hP : Apart P) (hr : reader E.graph E.dateLib = .ok P) (hk : KnownGraph E.graph) {n : Nat} {c : Class}
    (hc : c ∈ E.graph.classes) {f : Str} {refs : List Str} (hf : asVariable c.name = .ok f)
    (hrefs : referencesOf E.graph (.cls c.name) = .ok refs) (j : JVal) (r : Str) (tm x : Val) (e : CppErrors) (he : Room e) :
    Called e tm x ((CppRuntime.parseComposite (CppRuntime.parseTy E (CppRuntime.parseEmbed E n)) c.properties j r
        (targetFields c.properties tm) e).map fun q => (.obj c.name q.1, q.2))
      (run E.lib P (n + 1) (f ++ c!"_from") c.name j (args E refs) r x e) := by
  obtain ⟨F, hF, h⟩ := (parts hr).classes c hc
  exact composite_done hP (calls_done hP hr hk n) h hF hf hrefs (hk.classes c hc) j r tm x e he

end

end Mapry.CppRead
