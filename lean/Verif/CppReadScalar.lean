import Verif.CppReadPath

/-! # The generated C++ code which parses a value: the types without parts -/

namespace Mapry.CppRead

open Mapry.CppRuntime (JVal Val Time Lib TimeKind DateLib Fields setField itemsOf entriesOf entryOf)
open Mapry.CppCode (Var)
open Mapry.Duration (intStr)

/-! ## Variables -/

/-- The variables have the same values. -/
def Agree (K : Var → Prop) (ρ ρ' : Env) : Prop := ∀ x, K x → ρ'.lookup x = ρ.lookup x

/-- The variables which are declared before the code with the identifier `n` -/
def Old (n : Nat) : Var → Prop
  | .temp _ m _ => m < n
  | _ => True

/-- These and the variable with the value -/
def In (n : Nat) (x : Var) : Prop := Old n x ∨ x = tmp c!"value" n

theorem Agree.refl {K : Var → Prop} {ρ : Env} : Agree K ρ ρ := fun _ _ => rfl

theorem lookup_cons_ne {x y : Var} {v : RV} {ρ : Env} (h : x ≠ y) : List.lookup x ((y, v) :: ρ) = ρ.lookup x := by
  have : (x == y) = false := by simpa using h
  simp [List.lookup, this]

theorem lookup_cons_eq {x : Var} {v : RV} {ρ : Env} : List.lookup x ((x, v) :: ρ) = some v := by simp [List.lookup]

theorem Agree.cons {K : Var → Prop} {ρ ρ' : Env} (h : Agree K ρ ρ') {x : Var} (hx : ¬ K x) {v : RV} : Agree K ρ ((x, v) :: ρ') := by
  intro y hy
  rw [lookup_cons_ne (by rintro rfl; exact hx hy), h y hy]

theorem Agree.trans {K : Var → Prop} {a b c : Env} (h : Agree K a b) (h' : Agree K b c) : Agree K a c := fun x hx =>
  (h' x hx).trans (h x hx)

theorem Agree.mono {K K' : Var → Prop} {a b : Env} (h : Agree K' a b) (hk : ∀ x, K x → K' x) : Agree K a b := fun x hx => h x (hk x hx)

theorem Agree.right {K : Var → Prop} {ρ ρ' : Env} {x : Var} {v : RV} (h : Agree K ((x, v) :: ρ) ρ') {K' : Var → Prop} (hk : ∀ y, K' y → K y)
    (hx : ¬ K' x) : Agree K' ρ ρ' := fun y hy => by rw [h y (hk y hy), lookup_cons_ne (by rintro rfl; exact hx hy)]

theorem getVar_eq {ρ : Env} {x : Var} {v : RV} (h : ρ.lookup x = some v) : getVar ρ x = .ok v := by rw [getVar, h]

theorem getVar_here {ρ : Env} {x : Var} {v : RV} : getVar ((x, v) :: ρ) x = .ok v := getVar_eq lookup_cons_eq

theorem getVar_there {ρ : Env} {x y : Var} {v : RV} (h : x ≠ y) : getVar ((y, v) :: ρ) x = getVar ρ x := by
  rw [getVar, lookup_cons_ne h, getVar]

theorem not_in {n : Nat} {b : Str} {a : Str} (h : (b, a) ≠ (c!"value", [])) : ¬ In n (.temp b n a) := by
  rintro (h' | h')
  · exact Nat.lt_irrefl _ h'
  · cases h'
    exact h rfl

theorem not_old {n : Nat} {b a : Str} : ¬ Old n (.temp b n a) := Nat.lt_irrefl n

/-! ## What the code gets -/

/-- The expressions for the value, the place and the reference, whatever other variables are declared -/
structure Args (L : Lib) (K : Var → Prop) (ρ : Env) (root : Val) (e : Expr) (tgt : Place) (ref : Expr) (j : JVal) (r : Str) (p : Path) :
    Prop where
  value : ∀ ρ', Agree K ρ ρ' → eval L ρ' e = .ok (.json j)
  ref : ∀ ρ', Agree K ρ ρ' → eval L ρ' ref = .ok (.text r)
  place : ∀ ρ', Agree K ρ ρ' → ∃ r1, locate ρ' root tgt = .ok (p, r1) ∧ (r1 = root ∨ r1 = put p (get p root) root)
  valid : Valid p root

/-- What the code does: it reports the same errors, it changes nothing but the target, and without an error the target is the one
of the parser. -/
def Done (p : Path) (root : Val) (e : CppErrors) (ρ : Env) (tm : Val) : Except Exc (Val × CppErrors) → Result → Prop
  | .ok (t, e'), R => ∃ w, R = .ok (.next, ⟨ρ, w, e'⟩) ∧ At p root w ∧ Ext e e' ∧ (e' = e → tm = get p root → w = put p t root)
  | .error x, R => R = .error x

section

variable {L : Lib} {call : Call} {n : Nat} {ρ : Env} {root : Val} {x ref : Expr} {tgt : Place} {j : JVal} {r : Str} {p : Path}
  {e : CppErrors} {tm : Val}

theorem Done.failed (he : Room e) (er : Err) : Done p root e ρ tm (.ok (tm, e.add er)) (.ok (.next, ⟨ρ, root, e.add er⟩)) :=
  ⟨root, rfl, .inl rfl, (Ext.refl he).add er, fun h => absurd h (add_ne he er)⟩

theorem Done.stored (he : Room e) (t : Val) : Done p root e ρ tm (.ok (t, e)) (.ok (.next, ⟨ρ, put p t root, e⟩)) :=
  ⟨_, rfl, .inr ⟨t, rfl⟩, Ext.refl he, fun _ _ => rfl⟩

theorem Done.left {y : Var} {v : RV} {M : Except Exc (Val × CppErrors)} {R : Result} (h : Done p root e ((y, v) :: ρ) tm M R) :
    Done p root e ρ tm M (leave R) := by
  cases M with
  | error a =>
    have h : R = .error a := h
    subst h
    rfl
  | ok q =>
    obtain ⟨t, e'⟩ := q
    obtain ⟨w, rfl, h⟩ := h
    exact ⟨w, rfl, h⟩

/-- The value is bound to a variable. -/
theorem bind_done {E : Expr} {body : Expr → Stmt} {M : Except Exc (Val × CppErrors)} (A : Args L (Old n) ρ root E tgt ref j r p)
    (h : ∀ ρ₁ x, Agree (Old n) ρ ρ₁ → Args L (In n) ρ₁ root x tgt ref j r p → Done p root e ρ₁ tm M (exec L call (body x) ⟨ρ₁, root, e⟩)) :
    Done p root e ρ tm M (exec L call (bindValue E n body) ⟨ρ, root, e⟩) := by
  unfold bindValue
  split
  · exact h _ _ .refl ⟨fun ρ' a => A.value ρ' (a.mono fun _ => .inl), fun ρ' a => A.ref ρ' (a.mono fun _ => .inl),
      fun ρ' a => A.place ρ' (a.mono fun _ => .inl), A.valid⟩
  · rw [exec, A.value _ .refl]
    refine (h _ _ (.cons .refl not_old) ⟨fun ρ' a => ?_, fun ρ' a => A.ref ρ' (a.right (fun _ => .inl) not_old),
      fun ρ' a => A.place ρ' (a.right (fun _ => .inl) not_old), A.valid⟩).left
    rw [eval]
    exact getVar_eq ((a _ (.inr rfl)).trans lookup_cons_eq)

variable {ρ' : Env} (A : Args L (In n) ρ root x tgt ref j r p)

include A

theorem exec_report (ha : Agree (In n) ρ ρ') {m d : Str} {detail : Expr} (hd : eval L ρ' detail = .ok (.text d)) {e : CppErrors} :
    exec L call (report ref m detail) ⟨ρ', root, e⟩ = .ok (.next, ⟨ρ', root, e.add ⟨r, m ++ d⟩⟩) := by
  simp [report, exec, eval, A.ref _ ha, hd, RV.toStr, bind, Except.bind, pure, Except.pure]

theorem exec_store (ha : Agree (In n) ρ ρ') {E : Expr} {v : RV} {t : Val} (hv : eval L ρ' E = .ok v) (ht : v.toVal = .ok t) {e : CppErrors} :
    exec L call (.store tgt E) ⟨ρ', root, e⟩ = .ok (.next, ⟨ρ', put p t root, e⟩) := by
  obtain ⟨r1, h1, h2⟩ := A.place _ ha
  have : put p t r1 = put p t root := by
    rcases h2 with rfl | rfl
    · rfl
    · exact put_put A.valid _ _
  simp [exec, hv, ht, h1, this, bind, Except.bind, pure, Except.pure]

/-- The kind of the value is tested. -/
theorem exec_expect {k : Kind} {what : Str} {body : Stmt} {M : Except Exc (Val × CppErrors)} (he : Room e)
    (h1 : isKind k j = false → M = CppRuntime.expected what j r tm e)
    (h2 : isKind k j = true → Done p root e ρ tm M (exec L call body ⟨ρ, root, e⟩)) :
    Done p root e ρ tm M (exec L call (expect k what ref x body) ⟨ρ, root, e⟩) := by
  have hc : eval L ρ (.not (.is k x)) = .ok (.bool !isKind k j) := by
    simp [eval, A.value _ .refl, RV.toJson, RV.toBool, bind, Except.bind, pure, Except.pure]
  have hrun : exec L call (expect k what ref x body) ⟨ρ, root, e⟩ =
      if isKind k j then exec L call body ⟨ρ, root, e⟩
      else exec L call (report ref (c!"Expected " ++ what ++ c!", but got: ") (.typeText x)) ⟨ρ, root, e⟩ := by
    rw [expect, exec, hc]
    cases isKind k j <;> rfl
  rw [hrun]
  cases hk : isKind k j with
  | true => exact h2 hk
  | false =>
    rw [h1 hk, if_neg (by simp), exec_report A .refl (d := CppRuntime.typeName j)
      (by simp [eval, A.value _ .refl, RV.toJson, bind, Except.bind, pure, Except.pure])]
    exact .failed he _

theorem eval_asString (ha : Agree (In n) ρ ρ') {s : Str} (hj : j = .str s) : eval L ρ' (.asString x) = .ok (.text s) := by
  subst hj
  simp [eval, A.value _ ha, RV.toJson, asString, bind, Except.bind, pure, Except.pure]

omit A in
theorem eval_not {E : Expr} {b : Bool} (h : eval L ρ' E = .ok (.bool b)) : eval L ρ' (.not E) = .ok (.bool !b) := by
  simp [eval, h, RV.toBool, bind, Except.bind, pure, Except.pure]

omit A in
theorem exec_ite {c : Expr} {b : Bool} (h : eval L ρ' c = .ok (.bool b)) {s t : Stmt} {rt : Val} {e : CppErrors} :
    exec L call (.ite c s t) ⟨ρ', rt, e⟩ = if b then exec L call s ⟨ρ', rt, e⟩ else exec L call t ⟨ρ', rt, e⟩ := by
  rw [exec, h]
  rfl

omit A in
theorem exec_decl {y : Var} {E : Expr} {v : RV} (h : eval L ρ' E = .ok v) {body : Stmt} {rt : Val} {e : CppErrors} :
    exec L call (.decl y E body) ⟨ρ', rt, e⟩ = leave (exec L call body ⟨(y, v) :: ρ', rt, e⟩) := by
  rw [exec, h]
  rfl

omit A in
theorem exec_seq {a b : Stmt} {s s' : St} (h : exec L call a s = .ok (.next, s')) : exec L call (.seq a b) s = exec L call b s' := by
  rw [exec, h]

theorem boolean_done (he : Room e) : Done p root e ρ tm (CppRuntime.parseBoolean j r tm e)
    (exec L call (expect .bool c!"a bool" ref x (.store tgt (.asBool x))) ⟨ρ, root, e⟩) := by
  refine exec_expect A he (fun h => ?_) fun h => ?_
  · cases j <;> first | rfl | (simp [isKind] at h; done)
  · cases j <;> first | (simp [isKind] at h; done) | skip
    rename_i b
    rw [exec_store A .refl (v := .bool b) (t := .bool b)
      (by simp [eval, A.value _ .refl, RV.toJson, asBool, bind, Except.bind, pure, Except.pure]) rfl]
    exact .stored he _

/-! ## Numbers -/

/-- A bound is checked. -/
theorem exec_bound {op : Cmp} {txt after : Str} {b : Option Int} {rv : RV} {o ok : Bool} {d : Str} {e : CppErrors}
    (h1 : ∀ m, b = some m → compare op m rv = .ok ok) (h2 : b = none → ok = true) (hd : toText L rv = .ok d) :
    exec L call (checkBound n ref op txt after b) ⟨(tmp c!"ok" n, .bool o) :: (tmp c!"cast" n, rv) :: ρ, root, e⟩ =
      .ok (.next, ⟨(tmp c!"ok" n, .bool (o && ok)) :: (tmp c!"cast" n, rv) :: ρ, root,
        CppRuntime.check ok r (c!"Expected " ++ txt ++ c!" " ++ intStr (b.getD 0) ++ after ++ c!", but got: " ++ d) e⟩) := by
  have hA : Agree (In n) ρ ((tmp c!"ok" n, .bool o) :: (tmp c!"cast" n, rv) :: ρ) :=
    .cons (.cons .refl (not_in (by decide))) (not_in (by decide))
  have hcast : getVar ((tmp c!"ok" n, .bool o) :: (tmp c!"cast" n, rv) :: ρ) (tmp c!"cast" n) = .ok rv := by
    rw [getVar_there (by simp [tmp]), getVar_here]
  cases b with
  | none =>
    rw [h2 rfl]
    simp [checkBound, exec, CppRuntime.check]
  | some m =>
    have hc : eval L ((tmp c!"ok" n, .bool o) :: (tmp c!"cast" n, rv) :: ρ) (.not (.cmp op (.var (tmp c!"cast" n)) m)) =
        .ok (.bool !ok) := by
      simp [eval, hcast, h1 m rfl, RV.toBool, bind, Except.bind, pure, Except.pure]
    rw [checkBound, exec_ite hc]
    cases ok with
    | true => simp [exec, CppRuntime.check]
    | false =>
      rw [if_pos (by rfl), exec_seq (exec_report A hA (d := d)
        (by simp [eval, hcast, hd, bind, Except.bind, pure, Except.pure]))]
      simp [exec, eval, setVar, CppRuntime.check, bind, Except.bind, pure, Except.pure]

theorem number_done (he : Room e) {as : Expr} {rv : RV} {t : Val} {d after : Str} {bd : Bounds} {okMin okMax : Bool}
    (has : ∀ ρ', Agree (In n) ρ ρ' → eval L ρ' as = .ok rv) (ht : rv.toVal = .ok t) (hd : toText L rv = .ok d)
    (h1 : ∀ m, bd.min = some m → compare (if bd.exMin then .gt else .ge) m rv = .ok okMin) (h1' : bd.min = none → okMin = true)
    (h2 : ∀ m, bd.max = some m → compare (if bd.exMax then .lt else .le) m rv = .ok okMax) (h2' : bd.max = none → okMax = true) :
    Done p root e ρ tm (.ok (if okMin && okMax then t else tm,
        CppRuntime.check okMax r (c!"Expected " ++ CppRuntime.maxOp bd ++ c!" " ++ intStr (bd.max.getD 0) ++ after ++ c!", but got: " ++ d)
          (CppRuntime.check okMin r (c!"Expected " ++ CppRuntime.minOp bd ++ c!" " ++ intStr (bd.min.getD 0) ++ after ++
            c!", but got: " ++ d) e)))
      (exec L call (numberBody n ref bd after tgt as) ⟨ρ, root, e⟩) := by
  unfold numberBody
  by_cases h : (bd.min.isNone && bd.max.isNone) = true
  · rw [if_pos h]
    simp only [Bool.and_eq_true, Option.isNone_iff_eq_none] at h
    rw [h1' h.1, h2' h.2, exec_store A .refl (has _ .refl) ht]
    exact .stored he _
  · rw [if_neg h, exec_decl (has _ .refl), exec_decl (v := .bool true) rfl, exec_seq (exec_bound A h1 h1' hd), exec_seq (exec_bound A h2 h2' hd)]
    rw [exec_ite (b := true && okMin && okMax) (by rw [eval]; exact getVar_here)]
    cases okMin <;> cases okMax
    · rw [if_neg (by decide)]
      refine ⟨root, rfl, .inl rfl, ((Ext.refl he).add _).add _, fun h => absurd h (add_ne' he ((Ext.refl he).add _) _)⟩
    · exact .failed he _
    · exact .failed he _
    · have ha : Agree (In n) ρ ((tmp c!"ok" n, .bool (true && true && true)) :: (tmp c!"cast" n, rv) :: ρ) :=
        .cons (.cons .refl (not_in (by decide))) (not_in (by decide))
      rw [if_pos (by decide), exec_store A (v := rv) ha
        (by rw [eval, getVar_there (by simp [tmp])]; exact getVar_here) ht]
      exact .stored he _

theorem integer_done (he : Room e) (bd : Bounds) : Done p root e ρ tm (CppRuntime.parseInteger bd j r tm e)
    (exec L call (expect .int64 c!"an int64" ref x (numberBody n ref bd [] tgt (.asInt64 x))) ⟨ρ, root, e⟩) := by
  refine exec_expect A he (fun h => ?_) fun h => ?_
  · rw [isKind, Option.isSome_eq_false_iff, Option.isNone_iff_eq_none] at h
    rw [CppRuntime.parseInteger, h]
  · rw [isKind, Option.isSome_iff_exists] at h
    obtain ⟨i, h⟩ := h
    have := number_done A he (call := call) (tm := tm) (as := .asInt64 x) (rv := .int i) (t := .int i) (d := intStr i) (after := [])
      (bd := bd) (okMin := CppRuntime.intMinOk bd i) (okMax := CppRuntime.intMaxOk bd i)
      (fun ρ' ha => by simp [eval, A.value _ ha, RV.toJson, asInt64, h, bind, Except.bind, pure, Except.pure]) rfl rfl
      (fun m hm => by cases hx : bd.exMin <;> simp [compare, cmpInt, CppRuntime.intMinOk, hm, hx])
      (fun hm => by simp [CppRuntime.intMinOk, hm])
      (fun m hm => by cases hx : bd.exMax <;> simp [compare, cmpInt, CppRuntime.intMaxOk, hm, hx])
      (fun hm => by simp [CppRuntime.intMaxOk, hm])
    simpa only [CppRuntime.parseInteger, h, List.append_assoc, List.append_nil, List.nil_append] using this

theorem float_done (he : Room e) (bd : Bounds) : Done p root e ρ tm (CppRuntime.parseFloat L bd j r tm e)
    (exec L call (expect .double c!"a double" ref x (numberBody n ref bd c!".000000" tgt (.asDouble x))) ⟨ρ, root, e⟩) := by
  refine exec_expect A he (fun h => ?_) fun h => ?_
  · rw [isKind, Option.isSome_eq_false_iff, Option.isNone_iff_eq_none] at h
    rw [CppRuntime.parseFloat, h]
  · rw [isKind, Option.isSome_iff_exists] at h
    obtain ⟨f, h⟩ := h
    have := number_done A he (call := call) (tm := tm) (as := .asDouble x) (rv := .float f) (t := .float f) (d := L.doubleStr f)
      (after := c!".000000") (bd := bd) (okMin := CppRuntime.floatMinOk bd f) (okMax := CppRuntime.floatMaxOk bd f)
      (fun ρ' ha => by simp [eval, A.value _ ha, RV.toJson, asDouble, h, bind, Except.bind, pure, Except.pure]) rfl rfl
      (fun m hm => by cases hx : bd.exMin <;> simp [compare, cmpFloat, CppRuntime.floatMinOk, hm, hx])
      (fun hm => by simp [CppRuntime.floatMinOk, hm])
      (fun m hm => by cases hx : bd.exMax <;> simp [compare, cmpFloat, CppRuntime.floatMaxOk, hm, hx])
      (fun hm => by simp [CppRuntime.floatMaxOk, hm])
    have e1 : ∀ s : Str, c!".000000" ++ (c!", but got: " ++ s) = c!".000000, but got: " ++ s := fun s => rfl
    simpa only [CppRuntime.parseFloat, h, List.append_assoc, e1] using this

/-! ## Texts, dates, time zones and durations -/

theorem not_string (h : isKind .string j = false) : ∀ s, j ≠ .str s := by
  rintro s rfl
  cases h

theorem text_done (he : Room e) (pat : Option Str) {make : Expr}
    (hm : ∀ s ρ', j = .str s → Agree (In n) ρ ρ' → getVar ρ' (tmp c!"cast" n) = .ok (.text s) → eval L ρ' make = .ok (.text s)) :
    Done p root e ρ tm (CppRuntime.parseString L pat j r tm e)
      (exec L call (expect .string c!"a string" ref x (textBody n ref tgt x make pat)) ⟨ρ, root, e⟩) := by
  refine exec_expect A he (fun h => ?_) fun h => ?_
  · cases j <;> first | rfl | (simp [isKind] at h; done)
  · cases j <;> first | (simp [isKind] at h; done) | skip
    rename_i s
    cases pat with
    | none =>
      rw [textBody, exec_store A .refl (eval_asString A .refl rfl) (t := .str s) rfl]
      exact .stored he _
    | some q =>
      have ha : Agree (In n) ρ ((tmp c!"ok" n, .bool true) :: (tmp c!"cast" n, .text s) :: ρ) :=
        .cons (.cons .refl (not_in (by decide))) (not_in (by decide))
      have ha' : Agree (In n) ρ ((tmp c!"ok" n, .bool false) :: (tmp c!"cast" n, .text s) :: ρ) :=
        .cons (.cons .refl (not_in (by decide))) (not_in (by decide))
      have hcast : getVar ((tmp c!"ok" n, .bool true) :: (tmp c!"cast" n, .text s) :: ρ) (tmp c!"cast" n) = .ok (.text s) := by
        rw [getVar_there (by simp [tmp]), getVar_here]
      have hc : eval L ((tmp c!"ok" n, .bool true) :: (tmp c!"cast" n, .text s) :: ρ)
          (.not (.matches q (.var (tmp c!"cast" n)))) = .ok (.bool !L.regexMatch q s) := by
        simp [eval, hcast, RV.toStr, RV.toBool, bind, Except.bind, pure, Except.pure]
      rw [textBody, exec_decl (eval_asString A .refl rfl), exec_decl (v := .bool true) rfl]
      simp only [CppRuntime.parseString]
      cases hq : L.regexMatch q s with
      | true =>
        rw [hq] at hc
        rw [exec_seq (s' := ⟨(tmp c!"ok" n, .bool true) :: (tmp c!"cast" n, .text s) :: ρ, root, e⟩) (by rw [exec_ite hc]; rfl),
          exec_ite (b := true) (by rw [eval]; exact getVar_here), if_pos rfl,
          exec_store A ha (hm s _ rfl ha hcast) (t := .str s) rfl]
        exact .stored he _
      | false =>
        rw [hq] at hc
        rw [exec_seq (s' := ⟨(tmp c!"ok" n, .bool false) :: (tmp c!"cast" n, .text s) :: ρ, root,
            e.add ⟨r, c!"Expected to match " ++ q ++ c!", but got: " ++ s⟩⟩),
          exec_ite (b := false) (by rw [eval]; exact getVar_here)]
        · exact .failed he _
        · rw [exec_ite hc]
          simp only [Bool.not_false, if_true]
          rw [exec_seq (exec_report A ha (d := s) (by rw [eval]; exact hcast))]
          simp [exec, eval, setVar, bind, Except.bind, pure, Except.pure]

theorem ctime_done (he : Room e) (k : TimeKind) (f : Str) : Done p root e ρ tm (CppRuntime.parseTime .ctime L k f j r tm e)
    (exec L call (expect .string c!"a string" ref x (ctimeBody n ref f tgt x)) ⟨ρ, root, e⟩) := by
  refine exec_expect A he (fun h => ?_) fun h => ?_
  · cases j <;> first | rfl | (simp [isKind] at h; done)
  · cases j <;> first | (simp [isKind] at h; done) | skip
    rename_i s
    rw [ctimeBody, exec_decl (eval_asString A .refl rfl), exec, getVar_here]
    simp only [CppRuntime.parseTime, CppRuntime.timeOf, CppRuntime.timeFn, RV.toStr, bind, Except.bind]
    have ha : ∀ a b, Agree (In n) ρ ((tmp c!"ret" n, a) :: (tmp c!"tm" n, b) :: (tmp c!"cast" n, .text s) :: ρ) := fun a b =>
      .cons (.cons (.cons .refl (not_in (by decide))) (not_in (by decide))) (not_in (by decide))
    have hcast : ∀ a b, eval L ((tmp c!"ret" n, a) :: (tmp c!"tm" n, b) :: (tmp c!"cast" n, .text s) :: ρ) (.var (tmp c!"cast" n)) =
        .ok (.text s) := fun a b => by
      rw [eval, getVar_there (by simp [tmp]), getVar_there (by simp [tmp]), getVar_here]
    cases h : L.strptime f (CppRuntime.cStr s) with
    | none =>
      simp only
      rw [exec_ite (b := true) (by simp [eval, getVar_here, bind, Except.bind, pure, Except.pure]), if_pos rfl,
        exec_report A (ha _ _) (hcast _ _)]
      simp only [List.append_assoc]
      exact .failed he _
    | some q =>
      obtain ⟨t, rest⟩ := q
      simp only
      cases rest with
      | nil =>
        rw [exec_ite (b := false) (by simp [eval, getVar_here, bind, Except.bind, pure, Except.pure]), if_neg (by decide),
          exec_store A (ha _ _) (v := .time t) (t := .time t) (by rw [eval, getVar_there (by simp [tmp]), getVar_here]) rfl]
        exact .stored he _
      | cons c cs =>
        rw [exec_ite (b := true) (by simp [eval, getVar_here, bind, Except.bind, pure, Except.pure]), if_pos rfl,
          exec_report A (ha _ _) (hcast _ _)]
        simp only [List.append_assoc]
        exact .failed he _

theorem date_done (he : Room e) (k : TimeKind) (f : Str) : Done p root e ρ tm (CppRuntime.parseTime .dateH L k f j r tm e)
    (exec L call (expect .string c!"a string" ref x (dateBody n ref k f tgt x)) ⟨ρ, root, e⟩) := by
  refine exec_expect A he (fun h => ?_) fun h => ?_
  · cases j <;> first | rfl | (simp [isKind] at h; done)
  · cases j <;> first | (simp [isKind] at h; done) | skip
    rename_i s
    have ha : ∀ a, Agree (In n) ρ ((tmp c!"iss" n, a) :: ρ) := fun a => .cons .refl (not_in (by decide))
    have hs : eval L ρ (.stream (.asString x)) = .ok (.stream s false) := by
      simp only [eval, A.value _ .refl, RV.toJson, asString, RV.toStr, bind, Except.bind, pure, Except.pure]
    rw [dateBody, exec_decl hs]
    simp only [CppRuntime.parseTime, CppRuntime.timeOf, CppRuntime.timeFn]
    obtain ⟨r1, hl, hr⟩ := A.place _ (ha (.stream s false))
    have hput : ∀ y, put p y r1 = put p y root := fun y => by
      rcases hr with rfl | rfl
      · rfl
      · exact put_put A.valid _ _
    cases h : L.dateParse k f s with
    | some q =>
      obtain ⟨t, rest⟩ := q
      rw [exec_seq (s' := ⟨(tmp c!"iss" n, .stream rest false) :: ρ, put p (.time t) root, e⟩)
        (by simp [exec, hl, getVar_here, h, setVar, hput, bind, Except.bind, pure, Except.pure]),
        exec_ite (b := false) (by simp [eval, getVar_here, bind, Except.bind, pure, Except.pure])]
      exact .stored he _
    | none =>
      have hat : At p root r1 := by
        rcases hr with rfl | rfl
        · exact .inl rfl
        · exact .inr ⟨_, rfl⟩
      rw [exec_seq (s' := ⟨(tmp c!"iss" n, .stream s true) :: ρ, r1, e⟩)
        (by simp [exec, hl, getVar_here, h, setVar, bind, Except.bind, pure, Except.pure]),
        exec_ite (b := true) (by simp [eval, getVar_here, bind, Except.bind, pure, Except.pure]), if_pos rfl]
      have hrep : exec L call (report ref (c!"Expected to date::parse " ++ f ++ c!", but got: ") (.asString x))
          ⟨(tmp c!"iss" n, .stream s true) :: ρ, r1, e⟩ = .ok (.next, ⟨(tmp c!"iss" n, .stream s true) :: ρ, r1,
            e.add ⟨r, c!"Expected to " ++ c!"date::parse" ++ c!" " ++ f ++ c!", but got: " ++ s⟩⟩) := by
        simp [report, exec, A.ref _ (ha _), A.value _ (ha _), eval, RV.toStr, RV.toJson, asString, bind, Except.bind, pure, Except.pure]
      rw [hrep]
      exact ⟨r1, rfl, hat, (Ext.refl he).add _, fun h => absurd h (add_ne he _)⟩

theorem timeOfDay_done (he : Room e) (f : Str) : Done p root e ρ tm (CppRuntime.parseTime .dateH L .time f j r tm e)
    (exec L call (expect .string c!"a string" ref x (timeOfDayBody n ref f tgt x)) ⟨ρ, root, e⟩) := by
  refine exec_expect A he (fun h => ?_) fun h => ?_
  · cases j <;> first | rfl | (simp [isKind] at h; done)
  · cases j <;> first | (simp [isKind] at h; done) | skip
    rename_i s
    have ha : ∀ a b, Agree (In n) ρ ((tmp c!"iss" n, a) :: (tmp c!"seconds_of_day" n, b) :: ρ) := fun a b =>
      .cons (.cons .refl (not_in (by decide))) (not_in (by decide))
    have hs : eval L ((tmp c!"seconds_of_day" n, .void) :: ρ) (.stream (.asString x)) = .ok (.stream s false) := by
      have hv := A.value ((tmp c!"seconds_of_day" n, .void) :: ρ) (.cons .refl (not_in (by decide)))
      simp only [eval, hv, RV.toJson, asString, RV.toStr, bind, Except.bind, pure, Except.pure]
    rw [timeOfDayBody, exec, exec_decl hs]
    simp only [CppRuntime.parseTime, CppRuntime.timeOf, CppRuntime.timeFn]
    cases h : L.dateParse .time f s with
    | some q =>
      obtain ⟨t, rest⟩ := q
      rw [exec_seq (s' := ⟨(tmp c!"iss" n, .stream rest false) :: (tmp c!"seconds_of_day" n, .time t) :: ρ, root, e⟩)
        (by simp [exec, getVar_here, h, setVar, tmp, bind, Except.bind, pure, Except.pure]),
        exec_ite (b := false) (by simp [eval, getVar_here, bind, Except.bind, pure, Except.pure]), if_neg (by decide),
        exec_store A (ha _ _) (v := .time t) (t := .time t)
          (by simp [eval, getVar_here, getVar_there, tmp, bind, Except.bind, pure, Except.pure]) rfl]
      exact .stored he _
    | none =>
      rw [exec_seq (s' := ⟨(tmp c!"iss" n, .stream s true) :: (tmp c!"seconds_of_day" n, .void) :: ρ, root, e⟩)
        (by simp [exec, getVar_here, h, setVar, bind, Except.bind, pure, Except.pure]),
        exec_ite (b := true) (by simp [eval, getVar_here, bind, Except.bind, pure, Except.pure]), if_pos rfl,
        exec_report A (ha _ _) (eval_asString A (ha _ _) rfl)]
      simp only [List.append_assoc]
      exact .failed he _

theorem time_done (he : Room e) (D : DateLib) (k : TimeKind) (f : Str) : Done p root e ρ tm (CppRuntime.parseTime D L k f j r tm e)
    (exec L call (expect .string c!"a string" ref x (timeBody D k n ref f tgt x)) ⟨ρ, root, e⟩) := by
  cases D with
  | ctime => exact ctime_done A he k f
  | dateH =>
    cases k with
    | time => exact timeOfDay_done A he f
    | date => exact date_done A he .date f
    | datetime => exact date_done A he .datetime f

theorem zone_done (he : Room e) (D : DateLib) : Done p root e ρ tm (CppRuntime.parseTimeZone D L j r tm e)
    (exec L call (expect .string c!"a string" ref x
      (match D with
        | .ctime => .store tgt (.asZone x)
        | .dateH => zoneBody n ref tgt x)) ⟨ρ, root, e⟩) := by
  refine exec_expect A he (fun h => ?_) fun h => ?_
  · cases j <;> first | rfl | (simp [isKind] at h; done)
  · cases j <;> first | (simp [isKind] at h; done) | skip
    rename_i s
    cases D with
    | ctime =>
      simp only
      rw [exec_store A .refl (v := .zone s) (t := .zone s)
        (by simp only [eval, A.value _ .refl, RV.toJson, asString, bind, Except.bind, pure, Except.pure]) rfl]
      exact .stored he _
    | dateH =>
      have ha : Agree (In n) ρ ((tmp c!"cast" n, .text s) :: ρ) := .cons .refl (not_in (by decide))
      simp only [zoneBody, CppRuntime.parseTimeZone, CppRuntime.zoneOf]
      rw [exec_decl (eval_asString A .refl rfl), exec, getVar_here]
      simp only [RV.toStr, bind, Except.bind]
      cases h : L.locateZone s with
      | none =>
        simp only
        rw [exec_report A ha (d := s) (by rw [eval]; exact getVar_here)]
        exact .failed he _
      | some z =>
        obtain ⟨r1, hl, hr⟩ := A.place _ ha
        have hput : put p (.zone z) r1 = put p (.zone z) root := by
          rcases hr with rfl | rfl
          · rfl
          · exact put_put A.valid _ _
        simp only [hl, hput, pure, Except.pure]
        exact .stored he _

omit A in
theorem cppAdd_error {a : Int} {f : F64} {g : Bool} {k : Int → Duration.CppResult} {m : Str} (hk : ∀ i, k i = .error m → m ≠ [])
    (h : Duration.cppAdd a f g k = .error m) : m ≠ [] := by
  unfold Duration.cppAdd at h
  split at h
  · cases h
  · cases h
    simp
  · exact hk _ h

omit A in
theorem cppFromString_error {g : Bool} {s m : Str} (h : Duration.cppFromString g s = .error m) : m ≠ [] := by
  unfold Duration.cppFromString at h
  split at h
  · cases h
    simp
  · unfold Duration.cppValue at h
    repeat' first | refine cppAdd_error (fun _ h => ?_) h | split at h | (dsimp only at h; split at h)
    all_goals first | (simp at h; done) | (simp only [Duration.CppResult.error.injEq] at h; subst h; simp)

theorem duration_done (he : Room e) : Done p root e ρ tm (CppRuntime.parseDuration L j r tm e)
    (exec L call (expect .string c!"a string" ref x (durationBody n ref tgt x)) ⟨ρ, root, e⟩) := by
  refine exec_expect A he (fun h => ?_) fun h => ?_
  · cases j <;> first | rfl | (simp [isKind] at h; done)
  · cases j <;> first | (simp [isKind] at h; done) | skip
    rename_i s
    have ha : ∀ a b, Agree (In n) ρ ((tmp c!"cast" n, a) :: (tmp c!"error" n, b) :: (.temp c!"cast" n c!"_str", .text s) :: ρ) := fun a b =>
      .cons (.cons (.cons .refl (not_in (by decide))) (not_in (by decide))) (not_in (by decide))
    have herr : ∀ a b, eval L ((tmp c!"cast" n, a) :: (tmp c!"error" n, .text b) :: (.temp c!"cast" n c!"_str", .text s) :: ρ)
        (.var (tmp c!"error" n)) = .ok (.text b) := fun a b => by rw [eval, getVar_there (by simp [tmp]), getVar_here]
    rw [durationBody, exec_decl (eval_asString A .refl rfl), exec, getVar_here]
    simp only [RV.toStr, durationOf, CppRuntime.parseDuration, bind, Except.bind]
    cases h : Duration.cppFromString (L.garbage s) s with
    | throws => rfl
    | value d =>
      simp only
      rw [exec_ite (b := false) (by
        have := herr (.duration d) []
        rw [eval] at this
        simp [eval, this, RV.toStr, RV.toBool, bind, Except.bind, pure, Except.pure]), if_neg (by decide),
        exec_store A (ha _ _) (v := .duration d) (t := .duration d) (by rw [eval]; exact getVar_here) rfl]
      exact .stored he _
    | error m =>
      have hm := cppFromString_error h
      simp only
      rw [exec_ite (b := true) (by
        have := herr .void (m ++ s)
        rw [eval] at this
        simp [eval, this, RV.toStr, RV.toBool, bind, Except.bind, pure, Except.pure, hm]), if_pos rfl, exec_report A (ha _ _) (herr _ _)]
      simp only [List.append_assoc]
      exact .failed he _

theorem class_done (he : Room e) {cls : Str} {registry : Var} {ids : List Str}
    (hreg : ∀ ρ', Agree (In n) ρ ρ' → getVar ρ' registry = .ok (.registry cls ids)) :
    Done p root e ρ tm (CppRuntime.parseReference cls ids j r tm e)
      (exec L call (classBody n ref cls registry tgt x) ⟨ρ, root, e⟩) := by
  refine exec_expect A he (fun h => ?_) fun h => ?_
  · cases j <;> first | rfl | (simp [isKind] at h; done)
  · cases j <;> first | (simp [isKind] at h; done) | skip
    rename_i s
    have ha : Agree (In n) ρ ((tmp c!"cast" n, .text s) :: ρ) := .cons .refl (not_in (by decide))
    rw [exec_decl (eval_asString A .refl rfl), exec_ite (b := decide (s ∉ ids))
      (by simp [eval, getVar_here, hreg _ ha, RV.toStr, bind, Except.bind, pure, Except.pure])]
    simp only [CppRuntime.parseReference]
    by_cases h : s ∈ ids
    · rw [if_pos h, if_neg (by simpa using h), exec_store A ha (v := .instance cls s) (t := .ref cls s)
        (by simp [eval, getVar_here, hreg _ ha, RV.toStr, h, bind, Except.bind, pure, Except.pure]) rfl]
      exact .stored he _
    · rw [if_neg h, if_pos (by simpa using h), exec_report A ha (d := s) (by rw [eval]; exact getVar_here)]
      exact .failed he _

end

end Mapry.CppRead
