import Verif.CppParseValue
import Verif.GoFuncs

/-! # The generated C++ code which parses a value, type by type -/

namespace Mapry.CppCode

open Mapry.TypeGraph Mapry.Naming Mapry.ParseSchema
open Mapry.GoCode (referencesOf ok_bind mapM_cons)

variable {W : World} {R : CTy} {ctx : Ctx} {ref : List Expr} {x tgt : Expr} {T : Option CTy} {n : Nat} {Γ : Env}

/-! ## Dates and times -/

theorem Setting.ctime (S : Setting W ctx ref x tgt T n Γ) (hT : T = none ∨ T = some .tm ∨ T = some (.optional .tm)) :
    (run W R Γ.enter (ctimeBody n ref tgt x)).isSome = T.isSome := by
  have S1 := S.enter.push (y := .temp c!"cast" n []) (ty := .string) (inside_temp (by decide) (by decide))
  have S2 := S1.push (y := .temp c!"tm" n []) (ty := .tm) (inside_temp (by decide) (by decide))
  have S3 := S2.push (y := .temp c!"ret" n []) (ty := .chars) (inside_temp (by decide) (by decide))
  have hp : typeOf W (((Γ.enter.push (.temp c!"cast" n []) .string).push (.temp c!"tm" n []) .tm).push (.temp c!"ret" n []) .chars)
      (fnCall c!"strptime" [call₀ (t c!"cast" n) c!"c_str", .text, .addr (t c!"tm" n)]) = some .chars := by
    rw [typeOf_fn, S3.sees.now.strptime]
    simp only [types, typeOf_call₀, typeOf_addr, typeOf_text]
    rw [show typeOf W _ (t c!"cast" n) = some .string by found, show typeOf W _ (t c!"tm" n) = some .tm by found]
    simp only [Option.bind_some, Option.map_some, string_c_str, Bool.false_eq_true, if_false]
    exact S.basics.strptime.pick
  rw [ctimeBody, run_decl temp_keyword (by simp) (typeOk_plain rfl) (s := .string) (by simp [typeOf_call₀, S1.json, json_asString])
      (by decide),
    run_decl temp_keyword (by simp [Var.text]) (typeOk_plain rfl) (s := .tm)
      (by rw [typeOf_zeroTm, S2.sees.now.tm]; rfl) (by decide),
    run_decl temp_keyword (by simp [Var.text]) (typeOk_plain rfl) hp (by decide), run_ifElse, typeOf_or, typeOf_cmp, typeOf_cmp,
    typeOf_star, typeOf_num, show typeOf W _ (t c!"ret" n) = some .chars by found]
  simp only [Option.bind_some, typeOf_null, comparable, if_true, pointee, CTy.number, Bool.and_self, testable, Int.natAbs_zero,
    Nat.reducePow, Nat.zero_lt_succ]
  rw [CppCode.report, S3.enter.report (by decide) (by simp) (by found)]
  simp only [Option.bind_some]
  rw [run_store hT S3.enter.target.now (by found)]
  cases T <;> rfl

theorem Setting.date (S : Setting W ctx ref x tgt T n Γ) {ty : CTy} (hx : extractable ty = true)
    (hT : T = none ∨ T = some ty ∨ T = some (.optional ty)) :
    (run W R Γ.enter (dateBody n ref tgt x)).isSome = decide (T = some ty) := by
  have S1 := S.enter.push (y := .temp c!"iss" n []) (ty := .stream) (inside_temp (by decide) (by decide))
  rw [dateBody, run_decl temp_keyword (by simp) (typeOk_plain rfl) (s := .stream)
      (by simp [typeOf_lib, types, typeOf_call₀, S1.json, json_asString, lib_stream]) (by decide)]
  simp only [run]
  rw [show typeOf W _ (t c!"iss" n) = some .stream by found, S1.target.now]
  rcases hT with rfl | rfl | rfl
  · simp
  · simp only [Option.bind_some, hx, and_self, if_true]
    rw [run_ifThen, typeOf_call₀, show typeOf W _ (t c!"iss" n) = some .stream by found]
    simp only [Option.bind_some, stream_fail, testable, if_true]
    rw [CppCode.report, S1.enter.report (by decide) (by simp)
      (by rw [typeOf_call₀, (S1.enter.push (y := .fixed c!"expected_but_got") (inside_inner (by decide))).json]; exact json_asString)]
    simp
  · cases ty <;> simp_all [extractable]

theorem Setting.time (S : Setting W ctx ref x tgt T n Γ) (hT : T = none ∨ T = some .timeOfDay ∨ T = some (.optional .timeOfDay)) :
    (run W R Γ.enter (timeOfDayBody n ref tgt x)).isSome = T.isSome := by
  have S1 := S.enter.push (y := .temp c!"seconds_of_day" n []) (ty := .seconds) (inside_temp (by decide) (by decide))
  have S2 := S1.push (y := .temp c!"iss" n []) (ty := .stream) (inside_temp (by decide) (by decide))
  rw [timeOfDayBody, run_decl₀ temp_keyword (by simp) (typeOk_plain rfl), run_decl temp_keyword (by simp [Var.text])
    (typeOk_plain rfl) (s := .stream) (by simp [typeOf_lib, types, typeOf_call₀, S2.json, json_asString, lib_stream]) (by decide)]
  simp only [run]
  rw [show typeOf W _ (t c!"iss" n) = some .stream by found, show typeOf W _ (t c!"seconds_of_day" n) = some .seconds by found]
  simp only [Option.bind_some, extractable, and_self, if_true]
  rw [run_ifElse, typeOf_call₀, show typeOf W _ (t c!"iss" n) = some .stream by found]
  simp only [Option.bind_some, stream_fail, testable, if_true]
  rw [CppCode.report, S2.enter.report (by decide) (by simp)
      (by rw [typeOf_call₀, (S2.enter.push (y := .fixed c!"expected_but_got") (inside_inner (by decide))).json]; exact json_asString),
    Option.bind_some, run_store (ty := .timeOfDay) hT S2.enter.target.now]
  · cases T <;> rfl
  · rw [typeOf_lib]
    simp only [types]
    rw [show typeOf W _ (t c!"seconds_of_day" n) = some .seconds by found]
    exact lib_time

theorem Setting.zone (S : Setting W ctx ref x tgt T n Γ) (hT : T = none ∨ T = some .zone ∨ T = some (.optional .zone)) :
    (run W R Γ.enter (zoneBody n ref tgt x)).isSome = T.isSome := by
  have S1 := S.enter.push (y := .temp c!"cast" n []) (ty := .string) (inside_temp (by decide) (by decide))
  have S2 := S1.enter.push (y := .fixed c!"e") (ty := .exception) (inside_inner (by decide))
  rw [zoneBody, run_decl temp_keyword (by simp) (typeOk_plain rfl) (s := .string) (by simp [typeOf_call₀, S1.json, json_asString])
      (by decide)]
  simp only [run]
  rw [show typeOf W _ (libCall c!"date::locate_zone" [t c!"cast" n]) = some .zone by
    rw [typeOf_lib]; simp only [types]; rw [show typeOf W _ (t c!"cast" n) = some .string by found]; exact lib_zone, S1.enter.target.now]
  have h2 : run W R (((Γ.enter.push (.temp c!"cast" n []) .string).enter.push (.fixed c!"e") .exception)) (CppCode.report ref (t c!"cast" n)) = some _ :=
    S2.report (by decide) (by simp [Var.text]) (by found)
  rw [declare_eq (inner_keyword _ (by decide)) (by simp) (typeOk_plain rfl), Option.bind_some, h2]
  rcases hT with rfl | rfl | rfl <;> simp [converts_refl, converts_optional]

theorem Setting.duration (S : Setting W ctx ref x tgt T n Γ) (hd : Knows W durationFromSig)
    (hT : T = none ∨ T = some .nanoseconds ∨ T = some (.optional .nanoseconds)) :
    (run W R Γ.enter (durationBody n ref tgt x)).isSome = T.isSome := by
  have S1 := S.enter.push (y := .temp c!"cast" n c!"_str") (ty := .string) inside_str
  have S2 := S1.push (y := .temp c!"error" n []) (ty := .string) (inside_temp (by decide) (by decide))
  have S3 := S2.push (y := .temp c!"cast" n []) (ty := .nanoseconds) (inside_temp (by decide) (by decide))
  have hne : (Var.temp c!"cast" n []).text ≠ (Var.temp c!"cast" n c!"_str").text := by simp [Var.text]
  have hcall : typeOf W (((Γ.enter.push (.temp c!"cast" n c!"_str") .string).push (.temp c!"error" n []) .string).push
      (.temp c!"cast" n []) .nanoseconds)
      (fnCall c!"duration_from_string" [.var (.temp c!"cast" n c!"_str"), .addr (t c!"error" n)]) = some .nanoseconds := by
    rw [typeOf_fn, S3.sees.now.duration]
    simp only [types, typeOf_addr]
    rw [show typeOf W _ (.var (.temp c!"cast" n c!"_str")) = some .string by
        rw [typeOf_var, lookup_push_ne hne, lookup_push_ne (by simp [Var.text]), lookup_push_self],
      show typeOf W _ (t c!"error" n) = some .string by found]
    simp only [Option.bind_some, Option.map_some, Bool.false_eq_true, if_false]
    exact hd.pick
  rw [durationBody, run_decl cast_keyword (by simp) (typeOk_plain rfl) (s := .string) (by simp [typeOf_call₀, S1.json, json_asString])
      (by decide),
    run_decl₀ temp_keyword (by simp [Var.text]) (typeOk_plain rfl),
    run_decl temp_keyword (by simp [Var.text]) (typeOk_plain rfl) hcall (by decide), run_ifElse, typeOf_neg, typeOf_call₀,
    show typeOf W _ (t c!"error" n) = some .string by found]
  simp only [Option.bind_some, string_empty, testable, if_true]
  rw [S3.enter.report (by decide) (by simp) (by found), Option.bind_some, run_store hT S3.enter.target.now (by found)]
  cases T <;> rfl

theorem Setting.text (S : Setting W ctx ref x tgt T n Γ) {re : Var} (hre : re = .temp c!"regex" n [] ∨ re = .fixed c!"regex")
    {plain set : Code} {b : Bool} (hplain : (run W R Γ.enter plain).isSome = b)
    (hset : ∀ Δ, Setting W ctx ref x tgt T n Δ → typeOf W Δ (t c!"cast" n) = some .string → (run W R Δ set).isSome = b)
    (p : Option Str) : (run W R Γ.enter (textBody re n ref x plain set p)).isSome = b := by
  cases p with
  | none => exact hplain
  | some _ => exact S.pattern hre hset

/-! ## Arrays and maps -/

theorem Setting.size (S : Setting W ctx ref x tgt T n Γ) (s : Option Int) {body : Code} {b : Bool}
    (hb : ∀ Δ, Setting W ctx ref x tgt T n Δ → Δ.block = [] → (run W R Δ body).isSome = b) (hΓ : Γ.block = []) :
    (run W R Γ (checkSize ref x s body)).isSome = (literal s && b) := by
  cases s with
  | none => simpa [checkSize, literal] using hb Γ S hΓ
  | some i =>
    rw [checkSize, run_ifElse, typeOf_cmp, typeOf_call₀, S.json, typeOf_num]
    simp only [Option.bind_some, json_size]
    by_cases hi : i.natAbs < 2 ^ 63
    · rw [if_pos hi]
      simp only [Option.bind_some, comparable, CTy.number, if_true, testable, literal, hi, decide_true, Bool.true_and]
      rw [CppCode.report, S.enter.report (by decide) (by simp)]
      · rw [Option.bind_some, then_some, hb Γ.enter S.enter rfl]
        cases b <;> rfl
      · rw [typeOf_lib]
        simp only [types, typeOf_call₀]
        rw [(S.enter.push (y := .fixed c!"expected_but_got") (inside_inner (by decide))).json]
        simp only [Option.bind_some, json_size, Option.map_some]
        exact lib_to_size
    · rw [if_neg hi]
      simp [literal, hi]

theorem type_full {ref : List Expr} (h : Sees W ctx ref Γ) : typeOf W Γ full = some .bool := by
  rw [full, typeOf_via₀, h.errors]
  exact errors_full

/-- The variables of the loop over an array -/
def inArray (n : Nat) (ty : CTy) (Γ : Env) : Env :=
  (((Γ.enter.push (.temp c!"target" n []) ty).push (.temp c!"i" n []) .size).enter).push (.temp c!"item" n []) .json

theorem Setting.array (S : Setting W ctx ref x tgt T n Γ) {ty : CTy} {lo hi : Option Int} {item : Code} {b : Bool}
    (htop : ∀ Δ : Env, (∀ s ∈ W.structs, Δ.hides s.1 = false) → typeOk W Δ (.vector ty) = true)
    (hT : T = none ∨ T = some (.vector ty))
    (hitem : ∀ Δ, Setting W ctx ref x tgt T n Δ → ∃ Θ, run W R (inArray n (.vector ty) Δ) item = (if b then some Θ else none) ∧
      Extends (Fresh (n + 1)) (inArray n (.vector ty) Δ) Θ) :
    run W R Γ (arrayBody n ref (.vector ty) lo hi tgt x item) =
      if (T.isSome && (literal lo && (literal hi && b))) then some Γ else none := by
  have key : ∀ Δ, Setting W ctx ref x tgt T n Δ → Δ.block = [] → (run W R Δ
      (.ref (.temp c!"target" n []) (.vector ty) tgt
        (.eval (call₁ (t c!"target" n) c!"resize" (call₀ x c!"size"))
        (.decl (.temp c!"i" n []) .size (some (.num 0))
        (.each (.temp c!"item" n []) (some .json) x (item ++ .eval (t c!"i" n) (.test full .done)) .done))))).isSome
      = (T.isSome && b) := by
    intro Δ S hΔ
    have S1 := S.push (y := .temp c!"target" n []) (ty := .vector ty) (inside_temp (by decide) (by decide))
    have S2 := S1.push (y := .temp c!"i" n []) (ty := .size) (inside_temp (by decide) (by decide))
    rw [run_ref temp_keyword (by simp [hΔ]) (htop _ S.sees.now.types), S1.target.now]
    rcases hT with rfl | rfl
    · simp
    · simp only [if_true, run, typeOf_call₁, typeOf_call₀]
      rw [show typeOf W _ (t c!"target" n) = some (.vector ty) by found, S1.json]
      simp only [Option.bind_some, json_size, vector_resize]
      rw [declare_eq temp_keyword (by simp [hΔ, Var.text]) (typeOk_plain rfl)]
      simp only [Option.bind_some, typeOf_num, Int.natAbs_zero, Nat.reducePow, Nat.reduceLT, if_true, converts, CTy.number, Bool.and_self,
        Bool.or_true]
      rw [S2.json]
      simp only [Option.bind_some, CppCode.item, loopOk, converts_refl, if_true, Option.getD_some]
      rw [declare_eq temp_keyword (by simp) (typeOk_plain rfl), Option.bind_some, run_append]
      have he : ((Δ.push (.temp c!"target" n []) (.vector ty)).push (.temp c!"i" n []) .size).enter.push (.temp c!"item" n []) .json
          = inArray n (.vector ty) Δ := by
        simp [inArray, Env.enter, Env.push, Env.all, hΔ]
      rw [he]
      obtain ⟨Θ, hrun, hext⟩ := hitem Δ S
      rw [hrun]
      cases b
      · simp
      · have hi : typeOf W Θ (t c!"i" n) = some .size := by
          rw [t, typeOf_var, hext.lookup (fun y hy => hy.ne_temp (Nat.lt_succ_self n) (by decide))]
          simp only [inArray]
          rw [lookup_push_ne (by simp [Var.text]), lookup_enter, lookup_push_self]
        have hs : Sees W ctx ref Θ := by
          refine S.sees Θ (Extends.trans ?_ (hext.mono fun y hy => ⟨hy.mono (Nat.le_succ n), hy.ne_temp (Nat.lt_succ_self n) (by decide)⟩))
          simp only [inArray]
          grown
        simp only [if_true, Option.bind_some, run, hi, type_full hs, testable, Option.isSome_some, Bool.and_self]
  rw [arrayBody, S.expect json_isArray, S.enter.size lo (b := literal hi && (T.isSome && b)) _ rfl]
  · cases T <;> cases literal lo <;> cases literal hi <;> cases b <;> rfl
  · intro Δ S hΔ
    exact S.size hi key hΔ

/-- The variables of the loop over a map -/
def inMap (n : Nat) (ty : CTy) (Γ : Env) : Env :=
  (Γ.enter.push (.temp c!"target" n []) ty).enter.push (.temp c!"it" n []) .iter

theorem Setting.map (S : Setting W ctx ref x tgt T n Γ) {ty : CTy} {item : Code} {b : Bool}
    (htop : ∀ Δ : Env, (∀ s ∈ W.structs, Δ.hides s.1 = false) → typeOk W Δ (.map ty) = true)
    (hT : T = none ∨ T = some (.map ty))
    (hitem : ∃ Θ, run W R (inMap n (.map ty) Γ) item = (if b then some Θ else none) ∧
      Extends (Fresh (n + 1)) (inMap n (.map ty) Γ) Θ) :
    run W R Γ (mapBody n ref (.map ty) tgt x item) = if (T.isSome && b) then some Γ else none := by
  have S1 := S.enter.push (y := .temp c!"target" n []) (ty := .map ty) (inside_temp (by decide) (by decide))
  have S2 := S1.enter.push (y := .temp c!"it" n []) (ty := .iter) (inside_temp (by decide) (by decide))
  rw [mapBody, S.expect json_isObject, run_ref temp_keyword (by simp) (htop _ S.enter.sees.now.types), S1.target.now]
  rcases hT with rfl | rfl
  · simp
  · simp only [if_true, run]
    rw [declare_eq temp_keyword (by simp) (typeOk_plain rfl), Option.bind_some, typeOf_call₀, S2.json]
    simp only [Option.bind_some, json_begin, converts_refl, if_true, typeOf_cmp, typeOf_call₀]
    rw [show typeOf W _ (t c!"it" n) = some .iter by found, S2.json]
    simp only [Option.bind_some, json_end, comparable, testable, if_true]
    rw [run_append]
    obtain ⟨Θ, hrun, hext⟩ := hitem
    simp only [inMap] at hrun hext
    rw [hrun]
    cases b
    · simp
    · have hs : Sees W ctx ref Θ := by
        refine S.sees Θ (Extends.trans ?_ (hext.mono fun y hy => ⟨hy.mono (Nat.le_succ n), hy.ne_temp (Nat.lt_succ_self n) (by decide)⟩))
        grown
      simp only [if_true, Option.bind_some, run, type_full hs, testable, Option.isSome_some, Bool.and_self]

theorem Setting.cls (S : Setting W ctx ref x tgt T n Γ) {registry : Expr} {name : Str}
    (hr : ∀ Δ, Sees W ctx ref Δ → typeOf W Δ registry = some (.map (.owner name)))
    (hT : T = none ∨ T = some (.ptr (.struct name)) ∨ T = some (.optional (.ptr (.struct name)))) :
    run W R Γ (classBody n ref registry tgt x) = if T.isSome then some Γ else none := by
  have S1 := S.enter.push (y := .temp c!"cast" n []) (ty := .string) (inside_temp (by decide) (by decide))
  rw [classBody, S.expect json_isString, run_decl temp_keyword (by simp) (typeOk_plain rfl) (s := .string)
    (by simp [typeOf_call₀, S1.json, json_asString]) (by decide), run_ifElse, typeOf_cmp, typeOf_call₁, hr _ S1.sees.now,
    show typeOf W _ (t c!"cast" n) = some .string by found, typeOf_num]
  simp only [Option.bind_some, map_count, Int.natAbs_zero, Nat.reducePow, Nat.reduceLT, if_true, comparable, CTy.number, Bool.and_self,
    testable]
  rw [S1.enter.report (by decide) (by simp) (by found), Option.bind_some, run_store hT S1.enter.target.now]
  · cases T <;> rfl
  · rw [typeOf_call₀, typeOf_call₁, hr _ S1.enter.sees.now, show typeOf W _ (t c!"cast" n) = some .string by found]
    simp only [Option.bind_some, map_at, owner_get]

/-! ## All types -/

/-- The environment after the code of a value -/
def after (e : Expr) (n : Nat) (Γ : Env) : Env := if isVariable e then Γ else Γ.push (.temp c!"value" n []) .json

theorem after_extends (e : Expr) (n : Nat) (Γ : Env) : Extends (Fresh n) Γ (after e n Γ) := by
  rw [after]
  split
  · exact .refl Γ
  · exact (Extends.refl Γ).push (fresh_temp (by decide))

/-- No variable of the block has the text of a fresh one. -/
def Clear (n : Nat) (Γ : Env) : Prop := ∀ e ∈ Γ.block, ∀ y, Fresh n y → y.text ≠ e.1.text

theorem run_bindValue (hb : Basics W) (hs : Always (Fresh n) Γ (Sees W ctx ref)) {e : Expr}
    (he : Always (Fresh n) Γ fun Δ => typeOf W Δ e = some .json) (ht : Always (Fresh n) Γ fun Δ => typeOf W Δ tgt = T)
    (hc : Clear n Γ) (body : Expr → Code) :
    ∃ x, run W R Γ (bindValue e n body) = run W R (after e n Γ) (body x) ∧ Setting W ctx ref x tgt T n (after e n Γ) := by
  rw [bindValue, after]
  by_cases hv : isVariable e = true
  · rw [if_pos hv, if_pos hv]
    exact ⟨e, rfl, hb, hs.of (fun _ h => h.1) (.refl Γ), he.of (fun _ h => h.1) (.refl Γ), ht.of (fun _ h => h.1) (.refl Γ)⟩
  · rw [if_neg hv, if_neg hv]
    have hx : Extends (Fresh n) Γ (Γ.push (.temp c!"value" n []) .json) := (Extends.refl Γ).push (fresh_temp (by decide))
    refine ⟨t c!"value" n, ?_, hb, hs.of (fun _ h => h.1) hx, fun Δ hΔ => ?_, ht.of (fun _ h => h.1) hx⟩
    · exact run_decl temp_keyword (fun a ha => (hc a ha _ (fresh_temp (by decide))).symm) (typeOk_plain rfl) (he _ hx) (by decide)
    · show typeOf W Δ (t c!"value" n) = some .json
      rw [t, typeOf_var, hΔ.lookup fun y hy => hy.2, lookup_push_self]

theorem types_append {Γ : Env} : ∀ (a b : List Expr), types W Γ (a ++ b) = (types W Γ a).bind fun ts => (types W Γ b).map (ts ++ ·)
  | [], b => by simp [types]
  | e :: a, b => by
    simp only [List.cons_append, types, types_append a b]
    cases typeOf W Γ e with
    | none => rfl
    | some t =>
      simp only [Option.bind_some]
      cases types W Γ a <;> cases types W Γ b <;> simp

theorem classOf_name {g : Graph} {name : Str} {c : Class} (h : classOf g name = .ok c) : c.name = name ∧ c ∈ g.classes := by
  unfold classOf at h
  split at h
  · rename_i c' hc
    cases h
    exact ⟨by simpa using List.find?_some hc, List.mem_of_find?_eq_some hc⟩
  · cases h

theorem registryParam_type {g : Graph} {name : Str} {x : Var × CTy} (h : registryParam g name = .ok x) :
    x.2 = .map (.owner (PyCode.idOf name)) := by
  unfold registryParam at h
  obtain ⟨c, hc, h⟩ := ok_bind h
  obtain ⟨p, hp, h⟩ := ok_bind h
  obtain ⟨t, ht, h⟩ := ok_bind h
  cases h
  rw [(classOf_name hc).1] at ht
  rw [PyCode.idOf_eq ht]

theorem registries_type {ref : List Expr} {Γ : Env} (hs : Sees W ctx ref Γ) :
    ∀ {refs : List Str} {regs : List Expr} {params : List (Var × CTy)}, refs.mapM ctx.registry = .ok regs →
      refs.mapM (registryParam ctx.graph) = .ok params → types W Γ regs = some (params.map (·.2))
  | [], _, _, h, h' => by cases h; cases h'; rfl
  | c :: cs, _, _, h, h' => by
    obtain ⟨r, rs, hr, hrs, rfl⟩ := mapM_cons h
    obtain ⟨p, ps, hp, hps, rfl⟩ := mapM_cons h'
    simp only [types, hs.registry c r hr, registries_type hs hrs hps, Option.bind_some, Option.map_some, List.map_cons,
      registryParam_type hp]

/-- The structures of the type of a value are declared. -/
theorem supplied_names {cpp : Cpp} {g : Graph} : ∀ {ty : Ty} {t : CTy}, typeRepr cpp ty = .ok t → Supplies W g ty →
    ∀ n ∈ t.names, ∃ s ∈ W.structs, s.1 = n := by
  intro ty
  induction ty with
  | cls c =>
    intro t h hs n hn
    simp only [typeRepr] at h
    obtain ⟨i, hi, h⟩ := ok_bind h
    cases h
    simp only [CTy.names, List.mem_singleton] at hn
    subst hn
    obtain ⟨s, h1, h2⟩ := hs
    exact ⟨s, h1, by rw [h2, PyCode.idOf_eq hi]⟩
  | embed c =>
    intro t h hs n hn
    simp only [typeRepr] at h
    obtain ⟨i, hi, h⟩ := ok_bind h
    cases h
    simp only [CTy.names, List.mem_singleton] at hn
    subst hn
    obtain ⟨⟨s, h1, h2⟩, _⟩ := hs
    exact ⟨s, h1, by rw [h2, PyCode.idOf_eq hi]⟩
  | array y lo hi ih =>
    intro t h hs n hn
    simp only [typeRepr] at h
    obtain ⟨t', ht, h⟩ := ok_bind h
    cases h
    exact ih ht hs n hn
  | map y ih =>
    intro t h hs n hn
    simp only [typeRepr] at h
    obtain ⟨t', ht, h⟩ := ok_bind h
    cases h
    exact ih ht hs n hn
  | boolean => intro t h hs n hn; cases h; cases hn
  | integer _ => intro t h hs n hn; cases h; cases hn
  | float _ => intro t h hs n hn; cases h; cases hn
  | string _ => intro t h hs n hn; cases h; cases hn
  | duration => intro t h hs n hn; cases h; cases hn
  | path _ => intro t h hs n hn; simp only [typeRepr] at h; obtain ⟨b, _, h⟩ := ok_bind h; cases h; cases hn
  | date _ => intro t h hs n hn; simp only [typeRepr] at h; obtain ⟨b, _, h⟩ := ok_bind h; cases h; cases b <;> cases hn
  | time _ => intro t h hs n hn; simp only [typeRepr] at h; obtain ⟨b, _, h⟩ := ok_bind h; cases h; cases b <;> cases hn
  | datetime _ => intro t h hs n hn; simp only [typeRepr] at h; obtain ⟨b, _, h⟩ := ok_bind h; cases h; cases b <;> cases hn
  | timeZone => intro t h hs n hn; simp only [typeRepr] at h; obtain ⟨b, _, h⟩ := ok_bind h; cases h; cases b <;> cases hn

theorem typeOk_of {t : CTy} (h : ∀ n ∈ t.names, ∃ s ∈ W.structs, s.1 = n) {Δ : Env} (hΔ : ∀ s ∈ W.structs, Δ.hides s.1 = false) :
    typeOk W Δ t = true := by
  rw [typeOk, List.all_eq_true]
  intro n hn
  obtain ⟨s, hs, rfl⟩ := h n hn
  rw [hΔ s hs, Bool.and_eq_true]
  exact ⟨List.any_eq_true.2 ⟨s, hs, by simp⟩, rfl⟩

theorem Place.leaf {ty : Ty} {t : CTy} (h : Place ty t T) : T = none ∨ T = some t ∨ T = some (.optional t) := by
  rcases h with h | h | h
  · exact .inl h
  · exact .inr (.inl h)
  · exact .inr (.inr h.1)

theorem Place.composite {ty : Ty} {t : CTy} (h : Place ty t T) (hn : needsEmplace ty = true) : T = none ∨ T = some t := by
  rcases h with h | h | h
  · exact .inl h
  · exact .inr h
  · rw [hn] at h; cases h.2

theorem typeRepr_optional {cpp : Cpp} (y : Ty) (u : CTy) : typeRepr cpp y ≠ .ok (.optional u) := by
  intro h
  cases y <;> simp only [typeRepr] at h
  case boolean => cases h
  case integer => cases h
  case float => cases h
  case string => cases h
  case duration => cases h
  all_goals (obtain ⟨b, _, h⟩ := ok_bind h; try cases b) <;> cases h

theorem accepts_exact {cpp : Cpp} {date : Bool} {y : Ty} {ty : CTy} (h : typeRepr cpp y = .ok ty) :
    accepts date y (some ty) = inRange y := by
  cases ty with
  | optional u => exact absurd h (typeRepr_optional y u)
  | _ => simp [accepts]

/-- The code which parses a value is accepted iff the place exists, the literals fit and `date::parse` does not read
into an optional value. -/
theorem run_parseValue {date : Bool} (hb : Basics W) (hd : dateH ctx.cpp = .ok date) : ∀ (ty : Ty) {e tgt : Expr} {ref : List Expr}
    {n : Nat} {code : Code} {m : Nat} {t : CTy} {T : Option CTy} {Γ : Env},
    parseValue ctx ty e tgt ref n = .ok (code, m) → typeRepr ctx.cpp ty = .ok t → Supplies W ctx.graph ty → Place ty t T →
    Always (Fresh n) Γ (Sees W ctx ref) → (Always (Fresh n) Γ fun Δ => typeOf W Δ e = some .json) →
    (Always (Fresh n) Γ fun Δ => typeOf W Δ tgt = T) → Clear n Γ →
    n < m ∧ run W R Γ code = if accepts date ty T then some (after e n Γ) else none := by
  intro ty
  have leaf : ∀ {b : Bool} {body : Code} {Γ : Env}, (run W R Γ.enter body).isSome = b →
      (if (run W R Γ.enter body).isSome = true then some Γ else none) = if b then some Γ else none := by
    intro b body Γ h
    rw [h]
  induction ty with
  | boolean =>
    intro e tgt ref n code m t T Γ h ht _ hp hs he hg hc
    cases h; cases ht
    obtain ⟨x, hx, S⟩ := run_bindValue (R := R) hb hs he hg hc fun x => expect c!"isBool" ref x (.assign tgt (call₀ x c!"asBool") .done)
    refine ⟨Nat.lt_succ_self n, hx.trans ?_⟩
    rw [S.expect json_isBool, run_store hp.leaf S.enter.target.now (by simp [typeOf_call₀, S.enter.json, json_asBool])]
    cases T <;> simp [accepts, inRange, dated]
  | integer bd =>
    intro e tgt ref n code m t T Γ h ht _ hp hs he hg hc
    cases h; cases ht
    obtain ⟨x, hx, S⟩ := run_bindValue (R := R) hb hs he hg hc fun x =>
      expect c!"isInt64" ref x (numberBody c!"asInt64" n ref bd tgt x)
    refine ⟨Nat.lt_succ_self n, hx.trans ?_⟩
    rw [S.expect json_isInt64, leaf (S.number json_asInt64 rfl lib_to_int64 hp.leaf bd)]
    simp [accepts, inRange, dated]
  | float bd =>
    intro e tgt ref n code m t T Γ h ht _ hp hs he hg hc
    cases h; cases ht
    obtain ⟨x, hx, S⟩ := run_bindValue (R := R) hb hs he hg hc fun x =>
      expect c!"isDouble" ref x (numberBody c!"asDouble" n ref bd tgt x)
    refine ⟨Nat.lt_succ_self n, hx.trans ?_⟩
    rw [S.expect json_isDouble, leaf (S.number json_asDouble rfl lib_to_double hp.leaf bd)]
    simp [accepts, inRange, dated]
  | string p =>
    intro e tgt ref n code m t' T Γ h ht _ hp hs he hg hc
    cases h; cases ht
    obtain ⟨x, hx, S⟩ := run_bindValue (R := R) hb hs he hg hc fun x =>
      expect c!"isString" ref x (textBody (.temp c!"regex" n []) n ref x
        (.assign tgt (call₀ x c!"asString") .done) (.assign tgt (t c!"cast" n) .done) p)
    refine ⟨Nat.lt_succ_self n, hx.trans ?_⟩
    rw [S.expect json_isString, leaf (S.text (.inl rfl) (b := T.isSome) ?_ ?_ p)]
    · simp [accepts, inRange, dated]
    · rw [run_store hp.leaf S.enter.target.now (by simp [typeOf_call₀, S.enter.json, json_asString])]
      cases T <;> rfl
    · intro Δ SΔ hΔ
      rw [run_store hp.leaf SΔ.target.now hΔ]
      cases T <;> rfl
  | path p =>
    intro e tgt ref n code m t' T Γ h ht _ hp hs he hg hc
    simp only [parseValue] at h
    simp only [typeRepr] at ht
    obtain ⟨b, hbo, h⟩ := ok_bind h
    rw [hbo] at ht
    cases h; cases ht
    obtain ⟨x, hx, S⟩ := run_bindValue (R := R) hb hs he hg hc fun x => expect c!"isString" ref x
      (textBody (.fixed c!"regex") n ref x
        (.assign tgt (libCall (if b then c!"boost::filesystem::path" else c!"std::filesystem::path") [call₀ x c!"asString"]) .done)
        (.assign tgt (libCall (if b then c!"boost::filesystem::path" else c!"std::filesystem::path") [call₀ x c!"asString"]) .done) p)
    have hty : ∀ Δ, typeOf W Δ x = some .json →
        typeOf W Δ (libCall (if b then c!"boost::filesystem::path" else c!"std::filesystem::path") [call₀ x c!"asString"]) =
          some (.path b) := by
      intro Δ hΔ
      rw [typeOf_lib]
      simp only [types, typeOf_call₀, hΔ, Option.bind_some, json_asString, Option.map_some]
      cases b
      · exact lib_path
      · exact lib_boost
    refine ⟨Nat.lt_succ_self n, hx.trans ?_⟩
    rw [S.expect json_isString, leaf (S.text (.inr rfl) (b := T.isSome) ?_ ?_ p)]
    · simp [accepts, inRange, dated]
    · rw [run_store hp.leaf S.enter.target.now (hty _ S.enter.json)]
      cases T <;> rfl
    · intro Δ SΔ _
      rw [run_store hp.leaf SΔ.target.now (hty _ SΔ.json)]
      cases T <;> rfl
  | date f =>
    intro e tgt ref n code m t' T Γ h ht _ hp hs he hg hc
    simp only [parseValue, hd] at h
    simp only [typeRepr, hd] at ht
    cases h; cases ht
    obtain ⟨x, hx, S⟩ := run_bindValue (R := R) hb hs he hg hc fun x => expect c!"isString" ref x
      (if date then dateBody n ref tgt x else ctimeBody n ref tgt x)
    refine ⟨Nat.lt_succ_self n, hx.trans ?_⟩
    rw [S.expect json_isString]
    cases date with
    | false =>
      simp only [Bool.false_eq_true, if_false]
      rw [leaf (S.ctime hp.leaf)]
      simp [accepts, inRange, dated]
    | true =>
      rw [if_pos rfl, leaf (S.date (ty := .localDays) rfl hp.leaf)]
      rcases hp.leaf with rfl | rfl | rfl <;> simp [accepts, inRange, dated]
  | time f =>
    intro e tgt ref n code m t' T Γ h ht _ hp hs he hg hc
    simp only [parseValue, hd] at h
    simp only [typeRepr, hd] at ht
    cases h; cases ht
    obtain ⟨x, hx, S⟩ := run_bindValue (R := R) hb hs he hg hc fun x => expect c!"isString" ref x
      (if date then timeOfDayBody n ref tgt x else ctimeBody n ref tgt x)
    refine ⟨Nat.lt_succ_self n, hx.trans ?_⟩
    rw [S.expect json_isString]
    cases date with
    | false =>
      simp only [Bool.false_eq_true, if_false]
      rw [leaf (S.ctime hp.leaf)]
      simp [accepts, inRange, dated]
    | true =>
      rw [if_pos rfl, leaf (S.time hp.leaf)]
      simp [accepts, inRange, dated]
  | datetime f =>
    intro e tgt ref n code m t' T Γ h ht _ hp hs he hg hc
    simp only [parseValue, hd] at h
    simp only [typeRepr, hd] at ht
    cases h; cases ht
    obtain ⟨x, hx, S⟩ := run_bindValue (R := R) hb hs he hg hc fun x => expect c!"isString" ref x
      (if date then dateBody n ref tgt x else ctimeBody n ref tgt x)
    refine ⟨Nat.lt_succ_self n, hx.trans ?_⟩
    rw [S.expect json_isString]
    cases date with
    | false =>
      simp only [Bool.false_eq_true, if_false]
      rw [leaf (S.ctime hp.leaf)]
      simp [accepts, inRange, dated]
    | true =>
      rw [if_pos rfl, leaf (S.date (ty := .localSeconds) rfl hp.leaf)]
      rcases hp.leaf with rfl | rfl | rfl <;> simp [accepts, inRange, dated]
  | timeZone =>
    intro e tgt ref n code m t' T Γ h ht _ hp hs he hg hc
    simp only [parseValue, hd] at h
    simp only [typeRepr, hd] at ht
    cases h; cases ht
    obtain ⟨x, hx, S⟩ := run_bindValue (R := R) hb hs he hg hc fun x => expect c!"isString" ref x
      (if date then zoneBody n ref tgt x else .assign tgt (call₀ x c!"asString") .done)
    refine ⟨Nat.lt_succ_self n, hx.trans ?_⟩
    rw [S.expect json_isString]
    cases date with
    | false =>
      simp only [Bool.false_eq_true, if_false]
      rw [run_store hp.leaf S.enter.target.now (by simp [typeOf_call₀, S.enter.json, json_asString])]
      cases T <;> simp [accepts, inRange, dated]
    | true =>
      rw [if_pos rfl, leaf (S.zone hp.leaf)]
      simp [accepts, inRange, dated]
  | duration =>
    intro e tgt ref n code m t' T Γ h ht hsup hp hs he hg hc
    cases h; cases ht
    obtain ⟨x, hx, S⟩ := run_bindValue (R := R) hb hs he hg hc fun x => expect c!"isString" ref x (durationBody n ref tgt x)
    refine ⟨Nat.lt_succ_self n, hx.trans ?_⟩
    rw [S.expect json_isString, leaf (S.duration hsup hp.leaf)]
    simp [accepts, inRange, dated]
  | array y lo hi ih =>
    intro e tgt ref n code m t' T Γ h ht hsup hp hs he hg hc
    simp only [parseValue] at h
    obtain ⟨⟨item, k⟩, hi', h⟩ := ok_bind h
    obtain ⟨_, ht', h⟩ := ok_bind h
    rw [ht] at ht'
    cases ht'; cases h
    have htop := fun (Δ : Env) hΔ => typeOk_of (Δ := Δ) (supplied_names (W := W) (g := ctx.graph) ht hsup) hΔ
    simp only [typeRepr] at ht
    obtain ⟨ty, hty, ht⟩ := ok_bind ht
    cases ht
    have fact : ∀ {Γ : Env} {x : Expr}, Setting W ctx ref x tgt T n Γ → n + 1 < k ∧
        run W R (inArray n (.vector ty) Γ) item =
          if accepts date y (some ty) then some (after (t c!"item" n) (n + 1) (inArray n (.vector ty) Γ)) else none := by
      intro Γ x S
      have hlift : ∀ {Δ}, Extends (Fresh (n + 1)) (inArray n (.vector ty) Γ) Δ → Extends (Inside n) Γ Δ := by
        intro Δ hΔ
        refine Extends.trans ?_ (hΔ.mono fun y hy => ⟨hy.mono (Nat.le_succ n), hy.ne_temp (Nat.lt_succ_self n) (by decide)⟩)
        simp only [inArray]
        grown
      have hvar : ∀ {Δ}, Extends (Fresh (n + 1)) (inArray n (.vector ty) Γ) Δ →
          typeOf W Δ (t c!"item" n) = some .json ∧ typeOf W Δ (t c!"i" n) = some .size ∧
          typeOf W Δ (t c!"target" n) = some (.vector ty) := by
        intro Δ hΔ
        simp only [t, typeOf_var]
        rw [hΔ.lookup (fun y hy => hy.ne_temp (Nat.lt_succ_self n) (by decide)),
          hΔ.lookup (fun y hy => hy.ne_temp (Nat.lt_succ_self n) (by decide)),
          hΔ.lookup (fun y hy => hy.ne_temp (Nat.lt_succ_self n) (by decide))]
        simp only [inArray]
        refine ⟨lookup_push_self _ _ _, ?_, ?_⟩
        · rw [lookup_push_ne (by simp [Var.text]), lookup_enter, lookup_push_self]
        · rw [lookup_push_ne (by simp [Var.text]), lookup_enter, lookup_push_ne (by simp [Var.text]), lookup_push_self]
      refine ih hi' hty hsup (.inr (.inl rfl)) ?_ ?_ ?_ ?_
      · intro Δ hΔ
        have h := S.sees Δ (hlift hΔ)
        refine { h with ref := h.ref.more ?_ }
        intro p hp
        simp only [List.mem_cons, List.not_mem_nil, or_false] at hp
        rcases hp with rfl | rfl
        · exact .inr rfl
        · refine .inl ?_
          rw [typeOf_lib]
          simp only [types, (hvar hΔ).2.1, Option.bind_some, Option.map_some]
          exact lib_to_size
      · exact fun Δ hΔ => (hvar hΔ).1
      · intro Δ hΔ
        rw [typeOf_call₁, (hvar hΔ).2.1, (hvar hΔ).2.2]
        exact vector_at ty
      · intro a ha y hy
        simp only [inArray, push_block, enter_block, List.mem_singleton] at ha
        subst ha
        exact hy.ne_temp (Nat.lt_succ_self n) (by decide)
    obtain ⟨x, hx, S⟩ := run_bindValue (R := R) hb hs he hg hc fun x => arrayBody n ref (.vector ty) lo hi tgt x item
    refine ⟨Nat.lt_of_succ_lt (fact S).1, hx.trans ?_⟩
    rw [S.array (b := accepts date y (some ty)) htop (hp.composite rfl) fun Δ SΔ => ⟨_, (fact SΔ).2, after_extends _ _ _⟩]
    rw [accepts_exact hty]
    cases T <;> simp [accepts, inRange, dated, and_assoc]
  | map y ih =>
    intro e tgt ref n code m t' T Γ h ht hsup hp hs he hg hc
    simp only [parseValue] at h
    obtain ⟨⟨item, k⟩, hi', h⟩ := ok_bind h
    obtain ⟨_, ht', h⟩ := ok_bind h
    rw [ht] at ht'
    cases ht'; cases h
    have htop := fun (Δ : Env) hΔ => typeOk_of (Δ := Δ) (supplied_names (W := W) (g := ctx.graph) ht hsup) hΔ
    simp only [typeRepr] at ht
    obtain ⟨ty, hty, ht⟩ := ok_bind ht
    cases ht
    have fact : ∀ {Γ : Env} {x : Expr}, Setting W ctx ref x tgt T n Γ → n + 1 < k ∧
        run W R (inMap n (.map ty) Γ) item =
          if accepts date y (some ty) then some (after (.star (t c!"it" n)) (n + 1) (inMap n (.map ty) Γ)) else none := by
      intro Γ x S
      have hlift : ∀ {Δ}, Extends (Fresh (n + 1)) (inMap n (.map ty) Γ) Δ → Extends (Inside n) Γ Δ := by
        intro Δ hΔ
        refine Extends.trans ?_ (hΔ.mono fun y hy => ⟨hy.mono (Nat.le_succ n), hy.ne_temp (Nat.lt_succ_self n) (by decide)⟩)
        simp only [inMap]
        grown
      have hvar : ∀ {Δ}, Extends (Fresh (n + 1)) (inMap n (.map ty) Γ) Δ →
          typeOf W Δ (t c!"it" n) = some .iter ∧ typeOf W Δ (t c!"target" n) = some (.map ty) := by
        intro Δ hΔ
        simp only [t, typeOf_var]
        rw [hΔ.lookup (fun y hy => hy.ne_temp (Nat.lt_succ_self n) (by decide)),
          hΔ.lookup (fun y hy => hy.ne_temp (Nat.lt_succ_self n) (by decide))]
        simp only [inMap]
        refine ⟨lookup_push_self _ _ _, ?_⟩
        rw [lookup_push_ne (by simp [Var.text]), lookup_enter, lookup_push_self]
      have hname : ∀ {Δ}, Extends (Fresh (n + 1)) (inMap n (.map ty) Γ) Δ →
          typeOf W Δ (call₀ (t c!"it" n) c!"name") = some .string := by
        intro Δ hΔ
        rw [typeOf_call₀, (hvar hΔ).1]
        exact iter_name
      refine ih hi' hty hsup (.inr (.inl rfl)) ?_ ?_ ?_ ?_
      · intro Δ hΔ
        have h := S.sees Δ (hlift hΔ)
        refine { h with ref := h.ref.more ?_ }
        intro p hp
        simp only [List.mem_cons, List.not_mem_nil, or_false] at hp
        rcases hp with rfl | rfl
        · exact .inr rfl
        · exact .inl (hname hΔ)
      · intro Δ hΔ
        show typeOf W Δ _ = _
        rw [typeOf_star, (hvar hΔ).1]
        rfl
      · intro Δ hΔ
        show typeOf W Δ _ = _
        rw [typeOf_index, hname hΔ, (hvar hΔ).2]
        rfl
      · intro a ha y hy
        simp only [inMap, push_block, enter_block, List.mem_singleton] at ha
        subst ha
        exact hy.ne_temp (Nat.lt_succ_self n) (by decide)
    obtain ⟨x, hx, S⟩ := run_bindValue (R := R) hb hs he hg hc fun x => mapBody n ref (.map ty) tgt x item
    refine ⟨Nat.lt_of_succ_lt (fact S).1, hx.trans ?_⟩
    rw [S.map (b := accepts date y (some ty)) htop (hp.composite rfl) ⟨_, (fact S).2, after_extends _ _ _⟩, accepts_exact hty]
    cases T <;> simp [accepts, inRange, dated]
  | cls c =>
    intro e tgt ref n code m t' T Γ h ht hsup hp hs he hg hc
    simp only [parseValue] at h
    obtain ⟨registry, hr, h⟩ := ok_bind h
    cases h
    simp only [typeRepr] at ht
    obtain ⟨i, hi, ht⟩ := ok_bind ht
    cases ht
    obtain ⟨x, hx, S⟩ := run_bindValue (R := R) hb hs he hg hc fun x => classBody n ref registry tgt x
    refine ⟨Nat.lt_succ_self n, hx.trans ?_⟩
    rw [S.cls (name := i) (fun Δ hΔ => by rw [hΔ.registry c registry hr, PyCode.idOf_eq hi]) hp.leaf]
    simp [accepts, inRange, dated]
  | embed c =>
    intro e tgt ref n code m t' T Γ h ht hsup hp hs he hg hc
    simp only [parseValue] at h
    obtain ⟨refs, hrefs, h⟩ := ok_bind h
    obtain ⟨regs, hregs, h⟩ := ok_bind h
    obtain ⟨f, hf, h⟩ := ok_bind h
    cases h
    simp only [typeRepr] at ht
    obtain ⟨i, hi, ht⟩ := ok_bind ht
    cases ht
    obtain ⟨_, s, hsig, hk⟩ := hsup
    simp only [parseDecl, hrefs] at hsig
    obtain ⟨_, e1, hsig⟩ := ok_bind hsig
    cases e1
    obtain ⟨_, e1, hsig⟩ := ok_bind hsig
    rw [hf] at e1
    cases e1
    obtain ⟨params, hparams, hsig⟩ := ok_bind hsig
    obtain ⟨_, e1, hsig⟩ := ok_bind hsig
    rw [hi] at e1
    cases e1
    cases hsig
    obtain ⟨x, hx, S⟩ := run_bindValue (R := R) hb hs he hg hc fun x =>
      .eval (fnCall (f ++ c!"_from") (x :: regs ++ [joinStrings ref, .addr tgt, errors])) .done
    refine ⟨Nat.lt_succ_self n, hx.trans ?_⟩
    simp only [run]
    rw [typeOf_fn, S.sees.now.from_ f, List.cons_append]
    simp only [types, types_append, S.json, registries_type S.sees.now hregs hparams, S.sees.now.ref.join, S.sees.now.errors,
      typeOf_addr, S.target.now, Option.bind_some, Bool.false_eq_true, if_false, Option.map_some]
    rcases hp.composite rfl with rfl | rfl
    · simp [accepts]
    · simp only [Option.map_some, Option.bind_some]
      have hpick := hk.pick
      simp only [parseParams, List.map_cons, List.map_append, List.cons_append, List.map_nil] at hpick
      rw [hpick]
      simp [accepts, inRange, dated]

end Mapry.CppCode
