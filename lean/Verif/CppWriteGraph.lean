import Verif.CppWriteValue

/-! # The generated C++ code which serializes structures and the graph -/

namespace Mapry.CppExec

open Mapry.CppLang Mapry.CppGen Mapry.Naming Mapry.ParseSchema
open Mapry.CppCode (Var objVar asValue pluralValue)
open Mapry.CppRuntime (JVal Lib DateLib serTy serProps serComposite serEmbed serInstances serRegistries serGraph putMember
  GraphVal Instance registryIn registryKey idMessage compositeName)

/-- The members of the structure are the fields of the model. -/
def HoldsFields (D : DateLib) (g : Graph) (heap : List Val) (ps : List Property) (x : Val) (fields : CppRuntime.Fields) : Prop :=
  ∀ p ∈ ps, ∃ w y, member p.name x = .ok w ∧ fields.lookup p.name = some y ∧ HoldsProp D g heap p w y

/-- The entry of the registry points to the instance. -/
def HoldsInstance (D : DateLib) (g : Graph) (heap : List Val) (c : Class) (a : Str × Val) (b : Str × Instance) : Prop :=
  a.1 = b.1 ∧ ∃ l ty xs, a.2 = .ptr (some l) ∧ heap[l]? = some (.struct ty xs) ∧ asComposite c.name = .ok ty ∧
    member c!"id" (.struct ty xs) = .ok (.str b.2.id) ∧ HoldsFields D g heap c.properties (.struct ty xs) b.2.fields

/-- The structure is the graph of the model. -/
structure HoldsGraph (D : DateLib) (g : Graph) (heap : List Val) (x : Val) (gv : GraphVal) : Prop where
  struct : ∃ ty xs, x = .struct ty xs ∧ asComposite g.name = .ok ty
  fields : HoldsFields D g heap g.properties x gv.fields
  registries : ∀ c ∈ g.classes, ∃ kvs, member (lower c.plural) x = .ok (.map kvs) ∧
    Forall₂ (HoldsInstance D g heap c) kvs (registryIn gv.registries c.name)

/-! ## Objects -/

/-- Null or an object -/
def Objectish : JVal → Prop
  | .null => True
  | .obj _ => True
  | _ => False

theorem putAt_member {k : Str} {j old : JVal} (h : Objectish old) : putAt (.str k) j old = .ok (putMember k j old) := by
  cases old <;> first | rfl | exact h.elim

theorem objectish_put {k : Str} {j old : JVal} : Objectish (putMember k j old) := by
  cases old <;> trivial

theorem set_get {x : Var} {v : Val} : ∀ {ρ : Env}, Env.get meant x ρ = some v → Env.set meant x v ρ = ρ := by
  intro ρ
  induction ρ with
  | nil => intro h; cases h
  | cons a ρ ih =>
    obtain ⟨y, u⟩ := a
    intro h
    rw [get_cons] at h
    rw [set_cons]
    split
    · rename_i e
      rw [if_pos e] at h
      cases h
      rfl
    · rename_i e
      rw [if_neg e] at h
      rw [ih h]

theorem old_own {n : Nat} {r : CppCode.Role} {a b : Str} : ¬ New n (.own r a b) := by
  rintro ⟨_, _, e, _⟩
  cases e

theorem old_fixed {n : Nat} {a : Str} : ¬ New n (.fixed a) := by
  rintro ⟨_, _, e, _⟩
  cases e

theorem asValue_ne {f f' : Str} : asValue f ≠ objVar f' := by
  intro h
  simp [asValue, objVar] at h

theorem exec_seq {L : Lib} {heap : List Val} {call : Str → Val → Except Exc JVal} {a b : Stmt} {ρ ρ' : Env}
    (h : exec meant L heap call a ρ = .ok (ρ', none)) : exec meant L heap call (.seq a b) ρ = exec meant L heap call b ρ' := by
  simp [exec, h, Bind.bind, Except.bind]

theorem exec_seq_error {L : Lib} {heap : List Val} {call : Str → Val → Except Exc JVal} {a b : Stmt} {ρ : Env} {e : Exc}
    (h : exec meant L heap call a ρ = .error e) : exec meant L heap call (.seq a b) ρ = .error e := by
  simp [exec, h, Bind.bind, Except.bind]

section

variable {D : DateLib} {L : Lib} {g : Graph} {heap : List Val} {call : Str → Val → Except Exc JVal}
  {embed : Str → CV → Except Exc JVal} {cpp : Cpp}

/-! ## Properties -/

/-- The variables after the object has been written to -/
def WroteTo (x : Var) (ρ : Env) (j : JVal) (ρ' : Env) : Prop :=
  Objectish j ∧ ∃ ext : Env, (∀ b ∈ ext, New 0 b.1) ∧ ρ' = ext ++ Env.set meant x (.json j) ρ

theorem WroteTo.trans {x : Var} {ρ ρ' ρ'' : Env} {j j' : JVal} (hx : ¬ New 0 x) (h : WroteTo x ρ j ρ') (h' : WroteTo x ρ' j' ρ'') :
    WroteTo x ρ j' ρ'' := by
  obtain ⟨_, ext, he, rfl⟩ := h
  obtain ⟨ho, ext', he', rfl⟩ := h'
  refine ⟨ho, ext' ++ ext, ?_, ?_⟩
  · intro b hb
    rcases List.mem_append.1 hb with hb | hb
    · exact he' b hb
    · exact he b hb
  · rw [set_append fun b hb => ne_of_new (he b hb) hx, set_set, List.append_assoc]

theorem WroteTo.get {x z : Var} {ρ ρ' : Env} {j : JVal} (h : WroteTo x ρ j ρ') (hz : ¬ New 0 z) (hxz : x ≠ z) :
    Env.get meant z ρ' = Env.get meant z ρ := by
  obtain ⟨_, ext, he, rfl⟩ := h
  rw [get_append fun b hb => ne_of_new (he b hb) hz, get_set_other hxz]

theorem WroteTo.got {x : Var} {ρ ρ' : Env} {j old : JVal} (h : WroteTo x ρ j ρ') (hx : ¬ New 0 x)
    (hg : Env.get meant x ρ = some (.json old)) : Env.get meant x ρ' = some (.json j) := by
  obtain ⟨_, ext, he, rfl⟩ := h
  rw [get_append fun b hb => ne_of_new (he b hb) hx, get_set_same hg]

/-- What the code for a property needs to know about the functions it calls -/
def Calls (D : DateLib) (g : Graph) (heap : List Val) (embed : Str → CV → Except Exc JVal) (call : Str → Val → Except Exc JVal) : Prop :=
  ∀ name f x y, asVariable name = .ok f → Holds D g heap (.embed name) x y → Mirrors (embed name y) (call (c!"serialize_" ++ f) x)

/-- The object after a property -/
def serProp (D : DateLib) (L : Lib) (embed : Str → CV → Except Exc JVal) (p : Property) (y : CV) (old : JVal) : Except Exc JVal :=
  match p.optional, y with
  | true, .nil => .ok old
  | _, y => (serTy D L embed p.ty y).map fun j => putMember p.json j old

theorem serProps_cons {fields : CppRuntime.Fields} {p : Property} {ps : List Property} {y : CV} {old : JVal}
    (hy : fields.lookup p.name = some y) : serProps (serTy D L embed) fields (p :: ps) old =
      (serProp D L embed p y old).bind (serProps (serTy D L embed) fields ps) := by
  have h : ∀ y, (do let x ← serTy D L embed p.ty y; serProps (serTy D L embed) fields ps (putMember p.json x old)) =
      ((serTy D L embed p.ty y).map fun j => putMember p.json j old).bind (serProps (serTy D L embed) fields ps) := by
    intro y
    cases serTy D L embed p.ty y <;> rfl
  simp only [serProps, hy, serProp]
  cases p.optional <;> cases y <;> first | rfl | exact h _

theorem serProp_direct {p : Property} {y : CV} {old : JVal} (h : p.optional = false ∨ y ≠ .nil) :
    serProp D L embed p y old = (serTy D L embed p.ty y).map fun j => putMember p.json j old := by
  simp only [serProp]
  rcases h with h | h
  · rw [h]
  · cases p.optional <;> cases y <;> first | rfl | exact absurd rfl h

/-- One property -/
theorem property_ok (hD : dateLib cpp = .ok D) (hcall : Calls D g heap embed call) {f : Str} {p : Property} {n m : Nat} {code : Stmt}
    (hc : serializeProperty cpp f p n = .ok (code, m)) {ρ : Env} {obj w : Val} {y : CV} {old : JVal}
    (ho : Env.get meant (objVar f) ρ = some obj) (hv : Env.get meant (asValue f) ρ = some (.json old)) (hold : Objectish old)
    (hw : member p.name obj = .ok w) (hh : HoldsProp D g heap p w y) :
    Does (fun j ρ' => WroteTo (asValue f) ρ j ρ')
      (serProp D L embed p y old) (exec meant L heap call code ρ) := by
  have hval : eval meant L heap ρ (.dot (.var (objVar f)) p.name) = .ok w := by
    simp [eval, ho, hw, Bind.bind, Except.bind]
  have hplace : ∀ n, Place L heap n ρ (asValue f) (.text p.json) (fun j => putMember p.json j old) := fun n =>
    ⟨old_own, (by intro z hz; cases hz), .str p.json, old, rfl, hv, fun j => putAt_member hold⟩
  have hr : ∀ n, ∀ z ∈ reads (.dot (.var (objVar f)) p.name), ¬ New n z := by
    intro n z hz
    cases List.mem_singleton.1 hz
    exact old_own
  simp only [serializeProperty] at hc
  -- from a value to the object
  have key : ∀ {r : Except Exc JVal} {R : Except Exc Flow}, Does (Wrote n (asValue f) (fun j => putMember p.json j old) ρ) r R →
      Does (fun j ρ' => WroteTo (asValue f) ρ j ρ') (r.map fun j => putMember p.json j old) R := by
    intro r R h
    rcases h.cases with rfl | ⟨j, ρ', rfl, rfl, ext, he, rfl⟩ | ⟨e, rfl, rfl⟩
    · trivial
    · exact ⟨_, rfl, objectish_put, ext, fun b hb => (he b hb).le (Nat.zero_le _), rfl⟩
    · exact Does.error e
  cases hh with
  | direct hopt hh =>
    rw [hopt] at hc
    rw [serProp_direct (.inl hopt)]
    exact key (value_ok hD hcall _ _ _ _ _ _ _ (by simpa using hc) _ _ _ _ hh (hplace n) hval (hr n))
  | none hopt =>
    rw [hopt] at hc
    simp only [serProp, hopt]
    simp only [if_true] at hc
    cases hs : serializeValue cpp p.ty (asValue f) (.text p.json) (.star (.dot (.var (objVar f)) p.name)) n with
    | error e => rw [hs] at hc; cases hc
    | ok cm =>
      obtain ⟨c, m'⟩ := cm
      rw [hs] at hc
      cases hc
      refine ⟨ρ, ?_, hold, [], by simp, ?_⟩
      · simp [exec, hval, truth, Bind.bind, Except.bind, pure, Except.pure]
      · rw [set_get hv]; rfl
  | some hopt hh hnil =>
    rename_i x
    rw [hopt] at hc
    rw [serProp_direct (.inr hnil)]
    simp only [if_true] at hc
    cases hs : serializeValue cpp p.ty (asValue f) (.text p.json) (.star (.dot (.var (objVar f)) p.name)) n with
    | error e => rw [hs] at hc; cases hc
    | ok cm =>
      obtain ⟨c, m'⟩ := cm
      rw [hs] at hc
      cases hc
      have h1 := value_ok (L := L) hD hcall _ _ _ _ _ _ _ hs _ _ ρ _ hh (hplace n)
        (by simp [eval, ho, hw, pointee, Bind.bind, Except.bind]) (fun z hz => hr n z hz)
      have hrun : exec meant L heap call (.when (.dot (.var (objVar f)) p.name) c) ρ =
          (exec meant L heap call c ρ).map (CppLang.block ρ.length) := by
        simp only [exec, hval, truth, Bind.bind, Except.bind, Option.isSome_some, if_true]
        cases exec meant L heap call c ρ <;> rfl
      · rw [hrun]
        rcases h1.cases with h | ⟨j, ρ', h, hR, ext, he, rfl⟩ | ⟨e, h, hR⟩
        · rw [h]; trivial
        · rw [h, hR]
          refine ⟨_, rfl, objectish_put, [], by simp, ?_⟩
          exact leave_append length_set
        · rw [h, hR]
          exact Does.error e

/-- The properties -/
theorem props_ok (hD : dateLib cpp = .ok D) (hcall : Calls D g heap embed call) {f : Str} {obj : Val} {fields : CppRuntime.Fields} :
    ∀ (ps : List Property) (n : Nat) (code : Stmt), serializeProps cpp f ps n = .ok code →
      HoldsFields D g heap ps obj fields → ∀ (ρ : Env) (old : JVal), Env.get meant (objVar f) ρ = some obj →
        Env.get meant (asValue f) ρ = some (.json old) → Objectish old →
        Does (fun j ρ' => WroteTo (asValue f) ρ j ρ') (serProps (serTy D L embed) fields ps old) (exec meant L heap call code ρ) := by
  intro ps
  induction ps with
  | nil =>
    intro n code hc _ ρ old ho hv hold
    cases hc
    exact ⟨ρ, rfl, hold, [], by simp, by rw [set_get hv]; rfl⟩
  | cons p ps ih =>
    intro n code hc hh ρ old ho hv hold
    simp only [serializeProps] at hc
    cases hp : serializeProperty cpp f p n with
    | error e => rw [hp] at hc; cases hc
    | ok cm =>
      obtain ⟨c, m⟩ := cm
      rw [hp] at hc
      cases hps : serializeProps cpp f ps m with
      | error e => simp only [Bind.bind, Except.bind, hps] at hc; cases hc
      | ok rest =>
        simp only [Bind.bind, Except.bind, hps, pure, Except.pure] at hc
        cases hc
        obtain ⟨w, y, hw, hy, hprop⟩ := hh p (List.mem_cons_self ..)
        have h1 := property_ok (L := L) hD hcall hp ho hv hold hw hprop
        rw [serProps_cons hy]
        rcases h1.cases with h | ⟨j, ρ', h, hR, hw'⟩ | ⟨e, h, hR⟩
        · rw [h]; trivial
        · rw [h, exec_seq hR]
          have h2 := ih m rest hps (fun q hq => hh q (List.mem_cons_of_mem _ hq)) ρ' j
            ((hw'.get old_own asValue_ne).trans ho) (hw'.got old_own hv) hw'.1
          rcases h2.cases with h3 | ⟨j', ρ'', h3, hR3, hw3⟩ | ⟨e, h3, hR3⟩
          · simp only [Except.bind, h3]; trivial
          · simp only [Except.bind, h3]
            exact ⟨ρ'', hR3, hw'.trans old_own hw3⟩
          · simp only [Except.bind, h3, hR3]
            exact Does.error e
        · rw [h, exec_seq_error hR]
          exact Does.error e

/-! ## Functions -/

/-- The names of the functions, with the types of their parameters, are distinct. -/
def Apart (P : Program) : Prop := (P.map fun f => (f.name, f.ty)).Nodup

theorem find_func {P : Program} (hP : Apart P) {fn : Func} (hm : fn ∈ P) :
    P.find? (fun h => h.name == fn.name && h.ty == fn.ty) = some fn := by
  unfold Apart at hP
  induction P with
  | nil => cases hm
  | cons a P ih =>
    simp only [List.map_cons, List.nodup_cons] at hP
    rw [List.find?_cons]
    rcases List.mem_cons.1 hm with rfl | hm
    · simp
    · have : (a.name == fn.name && a.ty == fn.ty) = false := by
        rw [Bool.eq_false_iff]
        intro h
        simp only [Bool.and_eq_true, beq_iff_eq] at h
        exact hP.1 (List.mem_map.2 ⟨fn, hm, by rw [h.1, h.2]⟩)
      rw [this]
      exact ih hP.2 hm

theorem run_func {P : Program} (hP : Apart P) {fn : Func} (hm : fn ∈ P) {n : Nat} {xs : List (Str × Val)} :
    run meant L heap P (n + 1) fn.name (.struct fn.ty xs) =
      (exec meant L heap (run meant L heap P n) fn.body [(fn.param, .struct fn.ty xs)]).bind fun r =>
        match r.2 with
        | some j => .ok j
        | none => .error .typeError := by
  simp only [run, select, find_func hP hm]
  rfl

/-- The function for a class or an embeddable structure -/
theorem composite_ok (hD : dateLib cpp = .ok D) {P : Program} (hP : Apart P) {n : Nat}
    (hcall : Calls D g heap embed (run meant L heap P n)) {name f ty : Str} {ps : List Property} {fn : Func}
    (hc : serializeComposite cpp name ps = .ok fn) (hm : fn ∈ P) (hf : asVariable name = .ok f) (ht : asComposite name = .ok ty)
    {xs : List (Str × Val)} {fields : CppRuntime.Fields} (hh : HoldsFields D g heap ps (.struct ty xs) fields) :
    Mirrors (serComposite (serTy D L embed) ps fields) (run meant L heap P (n + 1) (c!"serialize_" ++ f) (.struct ty xs)) := by
  simp only [serializeComposite, hf, ht, Bind.bind, Except.bind] at hc
  cases hps : serializeProps cpp f ps 0 with
  | error e => rw [hps] at hc; cases hc
  | ok props =>
    rw [hps] at hc
    cases hc
    rw [show (c!"serialize_" ++ f) = (Func.mk (c!"serialize_" ++ f) (objVar f) ty (if ps.length = 0 then .ret (.kind .object)
      else .seq (.json (asValue f) none) (.seq props (.ret (.var (asValue f)))))).name from rfl]
    have hrun := run_func (L := L) (heap := heap) hP hm (n := n) (xs := xs)
    simp only at hrun
    rw [hrun]
    cases ps with
    | nil =>
      simp only [serComposite, List.length_nil, if_true, exec, eval, Bind.bind, Except.bind, toJson, pure, Except.pure, Kind.empty]
      exact Mirrors.rfl' _
    | cons p ps =>
      simp only [serComposite, List.length_cons, Nat.succ_ne_zero, if_false, reduceCtorEq]
      rw [exec_seq (ρ' := (asValue f, .json .null) :: [(objVar f, .struct ty xs)]) rfl]
      have h1 := props_ok (L := L) hD hcall (p :: ps) 0 props hps hh ((asValue f, .json .null) :: [(objVar f, .struct ty xs)]) .null
        (by simp [get_cons, asValue_ne]) (by simp [get_cons]) trivial
      rcases h1.cases with h | ⟨j, ρ', h, hR, hw⟩ | ⟨e, h, hR⟩
      · rw [h]; trivial
      · rw [h, exec_seq hR]
        have : Env.get meant (asValue f) ρ' = some (.json j) := hw.got old_own (old := .null) (by simp [get_cons])
        simp only [exec, eval, this, Bind.bind, Except.bind, toJson, pure, Except.pure]
        exact Mirrors.rfl' _
      · rw [h, exec_seq_error hR]
        exact Mirrors.rfl' _

/-! ## The program -/

theorem mapM_ok {α β : Type} {f : α → Except Exc β} : ∀ {l : List α} {bs : List β}, l.mapM f = .ok bs → Forall₂ (fun a b => f a = .ok b) l bs := by
  intro l
  induction l with
  | nil => intro bs h; cases h; exact .nil
  | cons a l ih =>
    intro bs h
    rw [List.mapM_cons] at h
    cases ha : f a with
    | error e => rw [ha] at h; cases h
    | ok b =>
      rw [ha] at h
      cases hl : l.mapM f with
      | error e => simp only [Bind.bind, Except.bind, hl] at h; cases h
      | ok bs' =>
        simp only [Bind.bind, Except.bind, hl, pure, Except.pure] at h
        cases h
        exact .cons ha (ih hl)

theorem forall₂_left {α β : Type} {R : α → β → Prop} {l : List α} {m : List β} (h : Forall₂ R l m) : ∀ a ∈ l, ∃ b ∈ m, R a b := by
  induction h with
  | nil => intro a ha; cases ha
  | cons hab _ ih =>
    intro a ha
    rcases List.mem_cons.1 ha with rfl | ha
    · exact ⟨_, List.mem_cons_self .., hab⟩
    · obtain ⟨b, hb, h⟩ := ih a ha
      exact ⟨b, List.mem_cons_of_mem _ hb, h⟩

/-- The functions of the program -/
structure Parts (g : Graph) (cpp : Cpp) (P : Program) : Prop where
  classes : ∀ c ∈ g.classes, ∃ fn ∈ P, serializeComposite cpp c.name c.properties = .ok fn
  embeds : ∀ e ∈ g.embeds, ∃ fn ∈ P, serializeComposite cpp e.name e.properties = .ok fn
  graph : ∃ fn ∈ P, serializeGraph g cpp = .ok fn

theorem parts {P : Program} (h : writer g cpp = .ok P) : Parts g cpp P := by
  simp only [writer] at h
  cases h1 : g.classes.mapM fun c => serializeComposite cpp c.name c.properties with
  | error e => rw [h1] at h; cases h
  | ok cs =>
    cases h2 : g.embeds.mapM fun e => serializeComposite cpp e.name e.properties with
    | error e => simp only [Bind.bind, Except.bind, h1, h2] at h; cases h
    | ok es =>
      cases h3 : serializeGraph g cpp with
      | error e => simp only [Bind.bind, Except.bind, h1, h2, h3] at h; cases h
      | ok fn =>
        simp only [Bind.bind, Except.bind, h1, h2, h3, pure, Except.pure] at h
        cases h
        refine ⟨fun c hc => ?_, fun e he => ?_, fn, by simp, h3⟩
        · obtain ⟨b, hb, h⟩ := forall₂_left (mapM_ok h1) c hc
          exact ⟨b, by simp [hb], h⟩
        · obtain ⟨b, hb, h⟩ := forall₂_left (mapM_ok h2) e he
          exact ⟨b, by simp [hb], h⟩

theorem embed_found {name : Str} {e : Embed} (h : g.embed? name = some e) : e ∈ g.embeds ∧ e.name = name := by
  unfold Graph.embed? at h
  exact ⟨List.mem_of_find?_eq_some h, by simpa using List.find?_some h⟩

/-- The functions for the embeddable structures -/
theorem embed_ok (hD : dateLib cpp = .ok D) {P : Program} (hw : writer g cpp = .ok P) (hP : Apart P) :
    ∀ k n, k ≤ n → Calls D g heap (serEmbed D L g k) (run meant L heap P n) := by
  intro k
  induction k with
  | zero => intro n _ name f x y _ _; trivial
  | succ k ih =>
    intro n hn name f x y hf hh
    obtain ⟨n, rfl⟩ : ∃ m, n = m + 1 := ⟨n - 1, by omega⟩
    cases hh with
    | embed V w he ht hV hw' hprops =>
    rename_i e ty xs fields
    obtain ⟨hm, rfl⟩ := embed_found he
    obtain ⟨fn, hfn, hc⟩ := (parts hw).embeds e hm
    simp only [serEmbed, he]
    exact composite_ok hD hP (ih n (by omega)) hc hfn hf ht
      fun p hp => ⟨w p, V p, hw' p hp, hV p hp, hprops p hp⟩

/-! ## Instances -/

theorem run_when {c : Expr} {body : Stmt} {ρ : Env} {v : Val} {b : Bool} (hc : eval meant L heap ρ c = .ok v) (hb : truth v = .ok b) :
    exec meant L heap call (.when c body) ρ =
      if b then (exec meant L heap call body ρ).map (CppLang.block ρ.length) else .ok (ρ, none) := by
  simp only [exec, hc, hb, Bind.bind, Except.bind]
  cases b
  · rfl
  · simp only [if_true]
    cases exec meant L heap call body ρ <;> rfl

/-- The exception about an instance under another identifier -/
theorem throw_ok {ty id own : Str} {inst : Val} {ρ : Env} (hid : Env.get meant (.fixed c!"id") ρ = some (.str id))
    (hi : Env.get meant (.fixed c!"instance") ρ = some inst) {x : Val} (hx : pointee heap inst = .ok x)
    (hown : member c!"id" x = .ok (.str own)) :
    exec meant L heap call (throwDiffers ty) ρ =
      .error (.valueError (c!"Expected the class instance of " ++ ty ++ c!"to have the ID " ++ id ++ c!", but got: " ++ own)) := by
  simp [throwDiffers, exec, eval, CppGen.v, instanceId, get_cons, set_cons, hid, hi, hx, hown, textOf, textSize, CppLang.sum, Bind.bind,
    Except.bind, pure, Except.pure]

/-- The variables while the instances of a class are written -/
def during (pv : Var) (j : JVal) (ρ : Env) : Env := (pv, .json j) :: ρ

/-- The loop over the instances -/
theorem instances_ok (hD : dateLib cpp = .ok D) {P : Program} (hw : writer g cpp = .ok P) (hP : Apart P) {k n : Nat} (hn : k ≤ n)
    {c : Class} (hc : c ∈ g.classes) {cf ty plural : Str} (hf : asVariable c.name = .ok cf) (ht : asComposite c.name = .ok ty) :
    ∀ (kvs : List (Str × Val)) (insts : List (Str × Instance)), Forall₂ (HoldsInstance D g heap c) kvs insts →
      ∀ (ρ : Env) (old : JVal), Objectish old →
      Does (fun j ρ' => Objectish j ∧ ρ' = during (pluralValue plural) j ρ)
        (serInstances (serTy D L (serEmbed D L g k)) c insts old)
        (loop (fun kv ρ => do
          let r ← exec meant L heap (run meant L heap P (n + 1)) (instanceBody (pluralValue plural) cf ty)
            ((.fixed c!"kv", pairOf kv) :: ρ)
          pure (CppLang.block ρ.length r)) kvs (during (pluralValue plural) old ρ)) := by
  intro kvs insts h
  induction h with
  | nil => intro ρ old ho; exact ⟨_, rfl, ho, rfl⟩
  | @cons a b as bs hab _ ih =>
    intro ρ old ho
    obtain ⟨key, ptr⟩ := a
    obtain ⟨id, inst⟩ := b
    obtain ⟨rfl, l, ty', xs, hptr, hl, ht', hid, hfields⟩ := hab
    simp only at hptr hid hfields
    subst hptr
    obtain rfl : ty = ty' := by rw [ht] at ht'; exact Except.ok.inj ht'
    -- the variables of the iteration
    generalize hρ : during (pluralValue plural) old ρ = ρ₀
    have hpv : ∀ x, Var.fixed x ≠ pluralValue plural := by intro x h; cases h
    let ρ₁ : Env := (.fixed c!"instance", .ptr (some l)) :: (.fixed c!"id", .str key) :: (.fixed c!"kv", pairOf (key, .ptr (some l))) :: ρ₀
    have hstart : exec meant L heap (run meant L heap P (n + 1)) (instanceBody (pluralValue plural) cf ty)
        ((.fixed c!"kv", pairOf (key, .ptr (some l))) :: ρ₀) =
        exec meant L heap (run meant L heap P (n + 1)) (.seq (.when (.ne (CppGen.v c!"id") instanceId) (throwDiffers ty))
          (.assign (pluralValue plural) instanceId (.call (c!"serialize_" ++ cf) (.star (CppGen.v c!"instance"))))) ρ₁ := by
      rw [instanceBody, exec_seq (ρ' := (.fixed c!"id", .str key) :: (.fixed c!"kv", pairOf (key, .ptr (some l))) :: ρ₀),
        exec_seq (ρ' := ρ₁)]
      · simp [exec, eval, CppGen.v, get_cons, pairOf, member, pointer, Bind.bind, Except.bind, pure, Except.pure, List.lookup, ρ₁]
      · simp [exec, eval, CppGen.v, get_cons, pairOf, member, Bind.bind, Except.bind, pure, Except.pure, List.lookup]
    have hgi : Env.get meant (.fixed c!"instance") ρ₁ = some (.ptr (some l)) := by simp [ρ₁, get_cons]
    have hgd : Env.get meant (.fixed c!"id") ρ₁ = some (.str key) := by simp [ρ₁, get_cons]
    have hcond : eval meant L heap ρ₁ (.ne (CppGen.v c!"id") instanceId) = .ok (.bool (decide (key ≠ inst.id))) := by
      simp [eval, CppGen.v, instanceId, hgd, hgi, pointee, hl, hid, differ, Bind.bind, Except.bind]
    simp only [serInstances]
    by_cases hne : key = inst.id
    · rw [if_neg (by simpa using hne)]
      have hmir := composite_ok (L := L) hD hP (embed_ok hD hw hP k n hn) ((parts hw).classes c hc).choose_spec.2
        ((parts hw).classes c hc).choose_spec.1 hf ht hfields
      have hplace : Place L heap 0 ρ₁ (pluralValue plural) instanceId (fun j => putMember inst.id j old) := by
        refine ⟨old_own, ?_, .str inst.id, old, ?_, ?_, fun j => putAt_member ho⟩
        · intro z hz
          cases List.mem_singleton.1 hz
          exact old_fixed
        · simp [eval, CppGen.v, instanceId, hgi, pointee, hl, hid, Bind.bind, Except.bind]
        · simp [ρ₁, get_cons, hpv, ← hρ, during]
      have h1 := hplace.called (call := run meant L heap P (n + 1)) (f := c!"serialize_" ++ cf)
        (e := .star (CppGen.v c!"instance")) (v := .struct ty xs)
        (by simp [eval, CppGen.v, hgi, pointee, hl, Bind.bind, Except.bind]) hmir
      have hwhen : exec meant L heap (run meant L heap P (n + 1)) (.when (.ne (CppGen.v c!"id") instanceId) (throwDiffers ty)) ρ₁ =
          .ok (ρ₁, none) := by
        rw [run_when hcond rfl]
        simp [hne]
      rw [exec_seq hwhen] at hstart
      rcases h1.cases with h | ⟨j, ρ', h, hR, ext, he, rfl⟩ | ⟨e, h, hR⟩
      · rw [h]; trivial
      · rw [h]
        rw [hR] at hstart
        have hset : Env.set meant (pluralValue plural) (.json (putMember inst.id j old)) ρ₁ =
            [(.fixed c!"instance", .ptr (some l)), (.fixed c!"id", .str key), (.fixed c!"kv", pairOf (key, .ptr (some l)))] ++
              during (pluralValue plural) (putMember inst.id j old) ρ := by
          simp [ρ₁, set_cons, hpv, ← hρ, during]
        rw [loop_cons (ρ' := during (pluralValue plural) (putMember inst.id j old) ρ)]
        · exact ih ρ _ objectish_put
        · rw [hstart, hset, ← List.append_assoc]
          simp only [Bind.bind, Except.bind, pure, Except.pure, CppLang.block]
          rw [leave_append (by simp [← hρ, during])]
      · rw [h, loop_error (e := e)]
        · exact Does.error e
        · rw [hstart, hR]; rfl
    · rw [if_pos hne]
      have hthrow := throw_ok (L := L) (heap := heap) (call := run meant L heap P (n + 1)) (ty := ty) hgd hgi
        (x := .struct ty xs) (by simp [pointee, hl]) hid
      have hwhen : exec meant L heap (run meant L heap P (n + 1)) (.when (.ne (CppGen.v c!"id") instanceId) (throwDiffers ty)) ρ₁ =
          .error (.valueError (idMessage c key inst.id)) := by
        rw [run_when hcond rfl, hthrow]
        have hcn : compositeName c.name = ty := by
          unfold asComposite at ht
          unfold compositeName
          split at ht
          · cases ht
          · split at ht
            · rw [ht]
            · cases ht
        simp [hne, idMessage, Except.map, hcn]
      rw [exec_seq_error hwhen] at hstart
      rw [loop_error]
      · exact Does.error _
      · rw [hstart]; rfl

/-- The registries of all the classes -/
theorem registries_ok (hD : dateLib cpp = .ok D) {P : Program} (hw : writer g cpp = .ok P) (hP : Apart P) {k n : Nat} (hn : k ≤ n)
    {f : Str} {obj : Val} {gv : GraphVal} :
    ∀ (cs : List Class) (codes : List Stmt), Forall₂ (fun c s => serializeInstances f c = .ok s) cs codes → (∀ c ∈ cs, c ∈ g.classes) →
      (∀ c ∈ cs, ∃ kvs, member (lower c.plural) obj = .ok (.map kvs) ∧
        Forall₂ (HoldsInstance D g heap c) kvs (registryIn gv.registries c.name)) →
      ∀ (ρ : Env) (old : JVal), Env.get meant (objVar f) ρ = some obj → Env.get meant (asValue f) ρ = some (.json old) → Objectish old →
      Does (fun j ρ' => ρ' = Env.set meant (asValue f) (.json j) ρ)
        (serRegistries (serTy D L (serEmbed D L g k)) gv cs old)
        (exec meant L heap (run meant L heap P (n + 1)) (sequence codes) ρ) := by
  intro cs codes h
  induction h with
  | nil =>
    intro _ _ ρ old ho hv _
    exact ⟨ρ, rfl, (set_get hv).symm⟩
  | @cons c code cs codes hcode _ ih =>
    intro hcs hregs ρ old ho hv hold
    obtain ⟨kvs, hmember, hinsts⟩ := hregs c (List.mem_cons_self ..)
    have hih := ih (fun d hd => hcs d (List.mem_cons_of_mem _ hd)) (fun d hd => hregs d (List.mem_cons_of_mem _ hd))
    simp only [serializeInstances] at hcode
    cases h1 : asVariable c.plural with
    | error e => rw [h1] at hcode; cases hcode
    | ok plural =>
    cases h2 : jsonPlural c.plural with
    | error e => simp only [Bind.bind, Except.bind, h1, h2] at hcode; cases hcode
    | ok key =>
    cases h3 : asComposite c.name with
    | error e => simp only [Bind.bind, Except.bind, h1, h2, h3] at hcode; cases hcode
    | ok ty =>
    cases h4 : asVariable c.name with
    | error e => simp only [Bind.bind, Except.bind, h1, h2, h3, h4] at hcode; cases hcode
    | ok cf =>
    simp only [Bind.bind, Except.bind, h1, h2, h3, h4, pure, Except.pure] at hcode
    cases hcode
    obtain rfl : plural = lower c.plural := by
      unfold asVariable at h1
      split at h1
      · cases h1
      · split at h1
        · exact (Except.ok.inj h1).symm
        · cases h1
    obtain rfl : key = registryKey c := by
      unfold jsonPlural at h2
      unfold registryKey
      split at h2
      · cases h2
      · split at h2
        · exact (Except.ok.inj h2).symm
        · cases h2
    have hempty : eval meant L heap ρ (.not (.empty (.dot (.var (objVar f)) (lower c.plural)))) = .ok (.bool (!kvs.isEmpty)) := by
      simp [eval, ho, hmember, isEmpty, truth, Bind.bind, Except.bind, pure, Except.pure]
    have hsame : kvs.isEmpty = (registryIn gv.registries c.name).isEmpty := by
      generalize registryIn gv.registries c.name = r at hinsts
      cases hinsts <;> rfl
    have hwhen := run_when (call := run meant L heap P (n + 1)) (body := .seq (.json (pluralValue (lower c.plural)) none)
      (.seq (.forEach (.fixed c!"kv") (.dot (.var (objVar f)) (lower c.plural)) (instanceBody (pluralValue (lower c.plural)) cf ty))
      (.assign (asValue f) (.text (registryKey c)) (.val (.var (pluralValue (lower c.plural))))))) hempty rfl
    simp only [serRegistries, sequence]
    cases hb : (registryIn gv.registries c.name).isEmpty with
    | true =>
      rw [hsame, hb] at hwhen
      rw [exec_seq hwhen]
      exact hih ρ old ho hv hold
    | false =>
      rw [hsame, hb] at hwhen
      simp only [Bool.not_false, if_true, Bool.false_eq_true, if_false] at hwhen ⊢
      have hpo : pluralValue (lower c.plural) ≠ objVar f := by intro h; simp [pluralValue, objVar] at h
      have hpa : pluralValue (lower c.plural) ≠ asValue f := by intro h; simp [pluralValue, asValue] at h
      rw [exec_seq (ρ' := during (pluralValue (lower c.plural)) .null ρ) rfl] at hwhen
      have hloop := instances_ok (L := L) (heap := heap) (plural := lower c.plural) hD hw hP hn (hcs c (List.mem_cons_self ..)) h4 h3 kvs _
        hinsts ρ .null trivial
      have hfor : exec meant L heap (run meant L heap P (n + 1)) (.forEach (.fixed c!"kv") (.dot (.var (objVar f)) (lower c.plural))
          (instanceBody (pluralValue (lower c.plural)) cf ty)) (during (pluralValue (lower c.plural)) .null ρ) =
          loop (fun kv ρ => do
            let r ← exec meant L heap (run meant L heap P (n + 1)) (instanceBody (pluralValue (lower c.plural)) cf ty)
              ((.fixed c!"kv", pairOf kv) :: ρ)
            pure (CppLang.block ρ.length r)) kvs (during (pluralValue (lower c.plural)) .null ρ) := by
        have : eval meant L heap (during (pluralValue (lower c.plural)) .null ρ) (.dot (.var (objVar f)) (lower c.plural)) =
            .ok (.map kvs) := by
          simp [eval, during, get_cons, hpo, ho, hmember, Bind.bind, Except.bind]
        simp only [exec, this, entriesOf, Bind.bind, Except.bind]
      rcases hloop.cases with h | ⟨j, ρ', h, hR, hj, rfl⟩ | ⟨e, h, hR⟩
      · simp only [h, Bind.bind, Except.bind]; trivial
      · simp only [h, Bind.bind, Except.bind]
        rw [exec_seq (hfor.trans hR)] at hwhen
        have hassign : exec meant L heap (run meant L heap P (n + 1)) (.assign (asValue f) (.text (registryKey c))
            (.val (.var (pluralValue (lower c.plural))))) (during (pluralValue (lower c.plural)) j ρ) =
            .ok ([(pluralValue (lower c.plural), .json j)] ++ Env.set meant (asValue f) (.json (putMember (registryKey c) j old)) ρ, none) := by
          simp [exec, eval, during, get_cons, set_cons, hpa, hv, toJson, jsonOf, putAt_member hold, Bind.bind, Except.bind, pure,
            Except.pure]
        rw [hassign] at hwhen
        simp only [Except.map, CppLang.block] at hwhen
        rw [leave_append length_set] at hwhen
        rw [exec_seq hwhen]
        have h5 := hih (Env.set meant (asValue f) (.json (putMember (registryKey c) j old)) ρ) (putMember (registryKey c) j old)
          (by rw [get_set_other asValue_ne]; exact ho) (get_set_same hv) objectish_put
        rcases h5.cases with h6 | ⟨j', ρ', h6, hR6, rfl⟩ | ⟨e, h6, hR6⟩
        · rw [h6]; trivial
        · rw [h6, hR6]
          exact ⟨_, rfl, set_set⟩
        · rw [h6, hR6]
          exact Does.error e
      · simp only [h, Bind.bind, Except.bind]
        rw [exec_seq_error (hfor.trans hR)] at hwhen
        rw [exec_seq_error (e := e)]
        · exact Does.error e
        · exact hwhen

/-- **The graph.** -/
theorem graph_ok (hD : dateLib cpp = .ok D) {P : Program} (hw : writer g cpp = .ok P) (hP : Apart P) {k n : Nat} (hn : k ≤ n)
    {x : Val} {gv : GraphVal} (hh : HoldsGraph D g heap x gv) {f : Str} (hf : asVariable g.name = .ok f) :
    Mirrors (serGraph D L g k gv) (run meant L heap P (n + 2) (c!"serialize_" ++ f) x) := by
  obtain ⟨ty, xs, rfl, ht⟩ := hh.struct
  obtain ⟨fn, hm, hc⟩ := (parts hw).graph
  simp only [serializeGraph, hf, ht, Bind.bind, Except.bind] at hc
  cases hps : serializeProps cpp f g.properties 0 with
  | error e => rw [hps] at hc; cases hc
  | ok props =>
  cases hcs : g.classes.mapM (serializeInstances f) with
  | error e => simp only [hps, hcs] at hc; cases hc
  | ok codes =>
  simp only [hps, hcs, pure, Except.pure] at hc
  cases hc
  have hrun := run_func (L := L) (heap := heap) hP hm (n := n + 1) (xs := xs)
  simp only at hrun
  rw [hrun]
  by_cases hempty : g.properties = [] ∧ g.classes = []
  · simp only [serGraph, hempty.1, hempty.2, List.length_nil, and_self, if_true, decide_true, Bool.and_self, exec, eval,
      Bind.bind, Except.bind, toJson, pure, Except.pure, Kind.empty]
    exact Mirrors.rfl' _
  · have hcond : (decide (g.properties.length = 0) && decide (g.classes.length = 0)) = false := by
      rw [Bool.eq_false_iff]
      intro h
      simp only [Bool.and_eq_true, decide_eq_true_eq, List.length_eq_zero_iff] at h
      exact hempty h
    simp only [serGraph, if_neg hempty, hcond, Bool.false_eq_true, if_false]
    let ρ : Env := (asValue f, .json .null) :: [(objVar f, .struct ty xs)]
    rw [exec_seq (ρ' := ρ) rfl]
    have hgo : Env.get meant (objVar f) ρ = some (.struct ty xs) := by simp [ρ, get_cons, asValue_ne]
    have hgv : Env.get meant (asValue f) ρ = some (.json .null) := by simp [ρ, get_cons]
    have h1 := props_ok (L := L) hD (embed_ok (L := L) hD hw hP k (n + 1) (by omega)) g.properties 0 props hps hh.fields ρ .null hgo hgv trivial
    rcases h1.cases with h | ⟨j, ρ', h, hR, hw1⟩ | ⟨e, h, hR⟩
    · simp only [h, Bind.bind, Except.bind]; trivial
    · simp only [h, Bind.bind, Except.bind]
      rw [exec_seq hR]
      have h2 := registries_ok (L := L) hD hw hP hn (f := f) g.classes codes (mapM_ok hcs) (fun c hc => hc) hh.registries ρ' j
        ((hw1.get old_own asValue_ne).trans hgo) (hw1.got old_own hgv) hw1.1
      rcases h2.cases with h3 | ⟨j', ρ'', h3, hR3, rfl⟩ | ⟨e, h3, hR3⟩
      · rw [h3]; trivial
      · rw [h3, exec_seq hR3]
        have : Env.get meant (asValue f) (Env.set meant (asValue f) (.json j') ρ') = some (.json j') :=
          get_set_same (hw1.got old_own hgv)
        simp only [exec, eval, this, Bind.bind, Except.bind, toJson, pure, Except.pure]
        exact Mirrors.rfl' _
      · rw [h3, exec_seq_error hR3]
        exact Mirrors.rfl' _
    · simp only [h, Bind.bind, Except.bind]
      rw [exec_seq_error hR]
      exact Mirrors.rfl' _

end

end Mapry.CppExec
