import Verif.CppFresh
import Verif.PyTypesModule

/-! # The generated C++ code which parses a value is accepted by the compiler -/

namespace Mapry.CppCode

open Mapry.TypeGraph Mapry.Naming Mapry.ParseSchema

/-! ## Calls of the libraries -/

theorem json_isBool : pick (methods .json) c!"isBool" [] = some .bool := by decide +kernel
theorem json_isInt64 : pick (methods .json) c!"isInt64" [] = some .bool := by decide +kernel
theorem json_isDouble : pick (methods .json) c!"isDouble" [] = some .bool := by decide +kernel
theorem json_isString : pick (methods .json) c!"isString" [] = some .bool := by decide +kernel
theorem json_isArray : pick (methods .json) c!"isArray" [] = some .bool := by decide +kernel
theorem json_isObject : pick (methods .json) c!"isObject" [] = some .bool := by decide +kernel
theorem json_isMember : pick (methods .json) c!"isMember" [.text] = some .bool := by decide +kernel
theorem json_asBool : pick (methods .json) c!"asBool" [] = some .bool := by decide +kernel
theorem json_asInt64 : pick (methods .json) c!"asInt64" [] = some .int64 := by decide +kernel
theorem json_asDouble : pick (methods .json) c!"asDouble" [] = some .double := by decide +kernel
theorem json_asString : pick (methods .json) c!"asString" [] = some .string := by decide +kernel
theorem json_size : pick (methods .json) c!"size" [] = some .size := by decide +kernel
theorem json_type : pick (methods .json) c!"type" [] = some .valueType := by decide +kernel
theorem json_begin : pick (methods .json) c!"begin" [] = some .iter := by decide +kernel
theorem json_end : pick (methods .json) c!"end" [] = some .iter := by decide +kernel
theorem iter_name : pick (methods .iter) c!"name" [] = some .string := by decide +kernel
theorem string_empty : pick (methods .string) c!"empty" [] = some .bool := by decide +kernel
theorem string_size : pick (methods .string) c!"size" [] = some .size := by decide +kernel
theorem string_c_str : pick (methods .string) c!"c_str" [] = some .text := by decide +kernel
theorem string_append : pick (methods .string) c!"append" [.string] = some .string := by decide +kernel
theorem string_append' : pick (methods .string) c!"append" [.text] = some .string := by decide +kernel
theorem string_add : pick (methods .string) c!"operator+=" [.string] = some .string := by decide +kernel
theorem string_add' : pick (methods .string) c!"operator+=" [.text] = some .string := by decide +kernel
theorem string_clear : pick (methods .string) c!"clear" [] = some .void := by decide +kernel
theorem string_reserve : pick (methods .string) c!"reserve" [.size] = some .void := by decide +kernel
theorem string_resize : pick (methods .string) c!"resize" [.size] = some .void := by decide +kernel
theorem stream_fail : pick (methods .stream) c!"fail" [] = some .bool := by decide +kernel
theorem path_string (b) : pick (methods (.path b)) c!"string" [] = some .string := by decide +revert +kernel
theorem time_duration : pick (methods .timeOfDay) c!"to_duration" [] = some .seconds := by decide +kernel
theorem vector_resize (t) : pick (methods (.vector t)) c!"resize" [.size] = some .void := by simp [methods, pick]
theorem vector_size (t) : pick (methods (.vector t)) c!"size" [] = some .size := by simp [methods, pick]
theorem vector_at (t) : pick (methods (.vector t)) c!"at" [.size] = some t := by simp [methods, pick]
theorem map_count (t) : pick (methods (.map t)) c!"count" [.string] = some .size := by simp [methods, pick]
theorem map_at (t) : pick (methods (.map t)) c!"at" [.string] = some t := by simp [methods, pick]
theorem map_empty (t) : pick (methods (.map t)) c!"empty" [] = some .bool := by simp [methods, pick]
theorem optional_emplace (t) : pick (methods (.optional t)) c!"emplace" [] = some .void := by simp [methods, pick]
theorem owner_get (n) : pick (methods (.owner n)) c!"get" [] = some (.ptr (.struct n)) := by simp [methods, pick]
theorem errors_add : pick (methodsVia (.ptr .errors)) c!"add" [.string, .string] = some .void := by decide +kernel
theorem errors_add' : pick (methodsVia (.ptr .errors)) c!"add" [.string, .text] = some .void := by decide +kernel
theorem errors_full : pick (methodsVia (.ptr .errors)) c!"full" [] = some .bool := by decide +kernel
theorem errors_empty : pick (methodsVia (.ptr .errors)) c!"empty" [] = some .bool := by decide +kernel
theorem zone_name : pick (methodsVia .zone) c!"name" [] = some .string := by decide +kernel
theorem lib_to_int64 : pick library c!"std::to_string" [.int64] = some .string := by decide +kernel
theorem lib_to_double : pick library c!"std::to_string" [.double] = some .string := by decide +kernel
theorem lib_to_size : pick library c!"std::to_string" [.size] = some .string := by decide +kernel
theorem lib_string : pick library c!"std::string" [.string] = some .string := by decide +kernel
theorem lib_regex : pick library c!"std::regex" [.text] = some .regex := by decide +kernel
theorem lib_match : pick library c!"std::regex_match" [.string, .regex] = some .bool := by decide +kernel
theorem lib_path : pick library c!"std::filesystem::path" [.string] = some (.path false) := by decide +kernel
theorem lib_boost : pick library c!"boost::filesystem::path" [.string] = some (.path true) := by decide +kernel
theorem lib_stream : pick library c!"std::istringstream" [.string] = some .stream := by decide +kernel
theorem lib_invalid : pick library c!"std::invalid_argument" [.string] = some .exception := by decide +kernel
theorem lib_invalid' : pick library c!"std::invalid_argument" [.text] = some .exception := by decide +kernel
theorem lib_time : pick library c!"date::make_time" [.seconds] = some .timeOfDay := by decide +kernel
theorem lib_zone : pick library c!"date::locate_zone" [.string] = some .zone := by decide +kernel
theorem lib_format_days : pick library c!"date::format" [.text, .localDays] = some .string := by decide +kernel
theorem lib_format_local : pick library c!"date::format" [.text, .localSeconds] = some .string := by decide +kernel
theorem lib_format_seconds : pick library c!"date::format" [.text, .seconds] = some .string := by decide +kernel

/-! ## Joined texts -/

variable {W : World} {R : CTy}

/-- The first part is a string and the others are strings or literals. -/
def RefOk (W : World) (Γ : Env) (ref : List Expr) : Prop :=
  ∃ e ps, ref = e :: ps ∧ typeOf W Γ e = some .string ∧ ∀ p ∈ ps, typeOf W Γ p = some .string ∨ typeOf W Γ p = some .text

theorem appended_type {Γ : Env} : ∀ {ps : List Expr} {e : Expr}, typeOf W Γ e = some .string →
    (∀ p ∈ ps, typeOf W Γ p = some .string ∨ typeOf W Γ p = some .text) → typeOf W Γ (appended e ps) = some .string
  | [], _, h, _ => h
  | p :: ps, e, h, hp => by
    refine appended_type (ps := ps) (e := call₁ e c!"append" p) ?_ fun q hq => hp q (by simp [hq])
    rw [typeOf_call₁, h]
    rcases hp p (by simp) with h' | h' <;> rw [h'] <;> simp [string_append, string_append']

theorem RefOk.join {Γ : Env} {ref : List Expr} (h : RefOk W Γ ref) : typeOf W Γ (joinStrings ref) = some .string := by
  obtain ⟨e, ps, rfl, he, hp⟩ := h
  cases ps with
  | nil => exact he
  | cons p ps =>
    refine appended_type ?_ hp
    simp [typeOf_lib, types, he, lib_string]

theorem RefOk.more {Γ : Env} {ref : List Expr} (h : RefOk W Γ ref) {more : List Expr}
    (hm : ∀ p ∈ more, typeOf W Γ p = some .string ∨ typeOf W Γ p = some .text) : RefOk W Γ (ref ++ more) := by
  obtain ⟨e, ps, rfl, he, hp⟩ := h
  refine ⟨e, ps ++ more, rfl, he, fun p h => ?_⟩
  rcases List.mem_append.1 h with h | h
  · exact hp p h
  · exact hm p h

/-! ## What is known in the code -/

/-- The functions which every parser calls -/
structure Basics (W : World) : Prop where
  message : Knows W messageSig
  strlen : Knows W ⟨c!"strlen", [.text], .size⟩
  strptime : Knows W ⟨c!"strptime", [.text, .text, .ptr .tm], .chars⟩
  valueType : Knows W valueTypeSig

/-- The functions which are called in the code of a value and the type which it names -/
def Supplies (W : World) (g : Graph) : Ty → Prop
  | .duration => Knows W durationFromSig
  | .embed n => (∃ s ∈ W.structs, s.1 = PyCode.idOf n) ∧ ∃ s, parseDecl g (.embed n) n = .ok s ∧ Knows W s
  | .cls n => ∃ s ∈ W.structs, s.1 = PyCode.idOf n
  | .array y _ _ => Supplies W g y
  | .map y => Supplies W g y
  | _ => True

/-- The functions, the types, the references and the registries are visible. -/
structure Sees (W : World) (ctx : Ctx) (ref : List Expr) (Γ : Env) : Prop where
  errors : typeOf W Γ errors = some (.ptr .errors)
  message : Γ.hides c!"message" = false
  strlen : Γ.hides c!"strlen" = false
  strptime : Γ.hides c!"strptime" = false
  valueType : Γ.hides c!"value_type_to_string" = false
  duration : Γ.hides c!"duration_from_string" = false
  from_ : ∀ f : Str, Γ.hides (f ++ c!"_from") = false
  tm : Γ.hides c!"tm" = false
  types : ∀ s ∈ W.structs, Γ.hides s.1 = false
  ref : RefOk W Γ ref
  registry : ∀ c r, ctx.registry c = .ok r → typeOf W Γ r = some (.map (.owner (PyCode.idOf c)))

/-! ## Reports -/

theorem type_strlen {Γ : Env} (hb : Basics W) (hs : Γ.hides c!"strlen" = false) {e : Expr} (he : typeOf W Γ e = some .text) :
    typeOf W Γ (fnCall c!"strlen" [e]) = some .size := by
  rw [typeOf_fn, hs]
  simp only [types, he, Bool.false_eq_true, if_false, Option.bind_some, Option.map_some]
  exact hb.strlen.pick

theorem type_valueType {Γ : Env} (hb : Basics W) (hs : Γ.hides c!"value_type_to_string" = false) {e : Expr}
    (he : typeOf W Γ e = some .json) : typeOf W Γ (fnCall c!"value_type_to_string" [call₀ e c!"type"]) = some .string := by
  rw [typeOf_fn, hs]
  simp only [types, typeOf_call₀, he, json_type, Bool.false_eq_true, if_false, Option.bind_some, Option.map_some]
  exact hb.valueType.pick

theorem run_reportAs {Γ : Env} {x : Str} {ref : List Expr} {detail : Expr} (hb : Basics W) (hk : x ∉ keywords)
    (hx : ∀ e ∈ Γ.block, e.1.text ≠ x) {ctx : Ctx} (h : Sees W ctx ref (Γ.push (.fixed x) .text))
    (hd : typeOf W (Γ.push (.fixed x) .text) detail = some .string) :
    run W R Γ (reportAs x ref detail) = some (Γ.push (.fixed x) .text) := by
  have hl : typeOf W (Γ.push (.fixed x) .text) (v x) = some .text := by rw [v, typeOf_var, lookup_push_self]
  have hm : typeOf W (Γ.push (.fixed x) .text) (fnCall c!"message" [v x, fnCall c!"strlen" [v x], detail]) = some .string := by
    rw [typeOf_fn, h.message]
    simp only [types, hl, type_strlen hb h.strlen hl, hd, Bool.false_eq_true, if_false, Option.bind_some, Option.map_some]
    exact hb.message.pick
  rw [reportAs]
  simp only [run]
  rw [declare_eq (x := .fixed x) hk hx (typeOk_plain rfl)]
  simp only [Option.bind_some, typeOf_text, reduceCtorEq, if_false]
  show (typeOf W (Γ.push (.fixed x) .text) _).bind _ = _
  rw [typeOf_via₂, h.errors, h.ref.join, hm]
  simp [errors_add, Env.push]

/-! ## The place where the value is stored -/

/-- A date or a datetime -/
def dated : Ty → Bool
  | .date _ | .datetime _ => true
  | _ => false

/-- The literal fits into 64 bits. -/
def literal : Option Int → Bool
  | none => true
  | some b => b.natAbs < 2 ^ 63

/-- The bounds of the numbers and of the sizes fit into 64 bits. -/
def inRange : Ty → Bool
  | .integer bd | .float bd => literal bd.min && literal bd.max
  | .array y lo hi => literal lo && literal hi && inRange y
  | .map y => inRange y
  | _ => true

/-- The place exists, the literals fit and `date::parse` does not read into an optional value. -/
def accepts (date : Bool) (ty : Ty) (T : Option CTy) : Bool :=
  T.isSome && inRange ty && !(date && dated ty && (match T with | some (.optional _) => true | _ => false))

/-- The type of the place is the one of the value or the optional one, if the place exists. -/
def Place (ty : Ty) (t : CTy) (T : Option CTy) : Prop :=
  T = none ∨ T = some t ∨ T = some (.optional t) ∧ needsEmplace ty = false

theorem converts_refl (t : CTy) : converts t t = true := by cases t <;> simp [converts]

theorem converts_optional (t : CTy) : converts (.optional t) t = true := by simp [converts, converts_refl]

/-- A variable which the code of a value may declare after `value_{n}` -/
def Inside (n : Nat) (x : Var) : Prop := Fresh n x ∧ x.text ≠ (Var.temp c!"value" n []).text

theorem inside_temp {n : Nat} {b : Str} (h : b ∈ tempNames) (hb : b.head? ≠ some 'v') : Inside n (.temp b n []) := by
  refine ⟨fresh_temp h, fun e => hb ?_⟩
  have : b ≠ [] := by rintro rfl; revert h; decide
  cases b with
  | nil => exact absurd rfl this
  | cons c cs =>
    simp only [Var.text, List.cons_append, List.append_nil, List.cons.injEq] at e
    simp [e.1]

theorem inside_str {n : Nat} : Inside n (.temp c!"cast" n c!"_str") :=
  ⟨⟨by decide, Nat.le_refl n, .inr ⟨rfl, rfl⟩⟩, by simp [Var.text]⟩

theorem inside_inner {n : Nat} {x : Str} (h : x ∈ innerNames) : Inside n (.fixed x) := by
  refine ⟨fresh_inner h, fun e => ?_⟩
  have : ∀ y ∈ innerNames, y.head? ≠ some 'v' := by decide
  refine this x h ?_
  have e : x = (Var.temp c!"value" n []).text := e
  rw [e]
  rfl

/-- The second environment extends the first one by fresh variables. -/
macro "grown" : tactic => `(tactic| (
  repeat' (first | exact Extends.refl _ | apply Extends.enter | apply Extends.push)
  all_goals first
    | exact inside_temp (by decide) (by decide)
    | exact inside_inner (by decide)
    | exact inside_str))

/-- The type of a variable which was declared before -/
macro "found" : tactic => `(tactic| (
  simp only [t, v, typeOf_var]
  repeat first | rw [lookup_push_self] | rw [lookup_enter] | rw [lookup_push_ne (by simp [Var.text])]))

section
variable {Γ : Env} {x : Var} {ty : CTy} {e : Expr} {rest : Code}

theorem run_auto {s : CTy} (hk : x.text ∉ keywords) (hb : ∀ e ∈ Γ.block, e.1.text ≠ x.text)
    (he : typeOf W (Γ.push x .void) e = some s) (hs : s ≠ .void) :
    run W R Γ (.auto x e rest) = run W R (Γ.push x s) rest := by
  simp only [run]
  rw [declare_eq hk hb (typeOk_plain rfl), Option.bind_some, he, Option.bind_some, if_neg hs]
  rfl

theorem run_decl {s : CTy} (hk : x.text ∉ keywords) (hb : ∀ e ∈ Γ.block, e.1.text ≠ x.text) (ht : typeOk W Γ ty = true)
    (he : typeOf W (Γ.push x ty) e = some s) (hs : converts ty s = true) :
    run W R Γ (.decl x ty (some e) rest) = run W R (Γ.push x ty) rest := by
  simp only [run]
  rw [declare_eq hk hb ht, Option.bind_some, he, Option.bind_some, if_pos hs]

theorem run_decl₀ (hk : x.text ∉ keywords) (hb : ∀ e ∈ Γ.block, e.1.text ≠ x.text) (ht : typeOk W Γ ty = true) :
    run W R Γ (.decl x ty none rest) = run W R (Γ.push x ty) rest := by
  simp only [run]
  rw [declare_eq hk hb ht, Option.bind_some]

theorem run_ref (hk : x.text ∉ keywords) (hb : ∀ e ∈ Γ.block, e.1.text ≠ x.text) (ht : typeOk W Γ ty = true) :
    run W R Γ (.ref x ty e rest) = if typeOf W (Γ.push x ty) e = some ty then run W R (Γ.push x ty) rest else none := by
  simp only [run]
  rw [declare_eq hk hb ht, Option.bind_some]
  cases typeOf W (Γ.push x ty) e with
  | none => simp
  | some s => simp

end

theorem then_some {Γ : Env} {o : Option Env} : (o.bind fun _ => some Γ) = if o.isSome then some Γ else none := by
  cases o <;> rfl

/-- What is known about the code after `value_{n}` is declared. -/
structure Setting (W : World) (ctx : Ctx) (ref : List Expr) (x tgt : Expr) (T : Option CTy) (n : Nat) (Γ : Env) : Prop where
  basics : Basics W
  sees : Always (Inside n) Γ (Sees W ctx ref)
  value : Always (Inside n) Γ fun Δ => typeOf W Δ x = some .json
  target : Always (Inside n) Γ fun Δ => typeOf W Δ tgt = T

variable {ctx : Ctx} {ref : List Expr} {x tgt : Expr} {T : Option CTy} {n : Nat} {Γ : Env}

theorem Setting.enter (S : Setting W ctx ref x tgt T n Γ) : Setting W ctx ref x tgt T n Γ.enter :=
  ⟨S.basics, fun Δ h => S.sees Δ h.of_enter, fun Δ h => S.value Δ h.of_enter, fun Δ h => S.target Δ h.of_enter⟩

theorem Setting.push (S : Setting W ctx ref x tgt T n Γ) {y : Var} {ty : CTy} (hy : Inside n y) :
    Setting W ctx ref x tgt T n (Γ.push y ty) :=
  ⟨S.basics, fun Δ h => S.sees Δ (((Extends.refl Γ).push hy).trans h),
    fun Δ h => S.value Δ (((Extends.refl Γ).push hy).trans h), fun Δ h => S.target Δ (((Extends.refl Γ).push hy).trans h)⟩

theorem Setting.json (S : Setting W ctx ref x tgt T n Γ) : typeOf W Γ x = some .json := S.value.now

/-- The report of an error in a new block -/
theorem Setting.report (S : Setting W ctx ref x tgt T n Γ) {w : Str} (hw : w ∈ innerNames) {detail : Expr}
    (hb : ∀ e ∈ Γ.block, e.1.text ≠ w) (hd : typeOf W (Γ.push (.fixed w) .text) detail = some .string) :
    run W R Γ (reportAs w ref detail) = some (Γ.push (.fixed w) .text) :=
  run_reportAs S.basics (inner_keyword w hw) hb (S.sees _ ((Extends.refl Γ).push (inside_inner hw))) hd

theorem Setting.expect (S : Setting W ctx ref x tgt T n Γ) {is : Str} (his : pick (methods .json) is [] = some .bool)
    (body : Code) : run W R Γ (expect is ref x body) = if (run W R Γ.enter body).isSome then some Γ else none := by
  rw [CppCode.expect, run_ifElse, typeOf_neg, typeOf_call₀, S.json]
  simp only [Option.bind_some, his, testable, if_true]
  rw [CppCode.report, S.enter.report (by decide) (by simp), Option.bind_some, then_some]
  have S' := S.enter.push (y := .fixed c!"expected_but_got") (ty := .text) (inside_inner (by decide))
  exact type_valueType S.basics S'.sees.now.valueType S'.json

theorem run_store {ty : CTy} {r : Expr} (hT : T = none ∨ T = some ty ∨ T = some (.optional ty)) (ht : typeOf W Γ tgt = T)
    (hr : typeOf W Γ r = some ty) : run W R Γ (.assign tgt r .done) = if T.isSome then some Γ else none := by
  simp only [run]
  rw [ht, hr]
  rcases hT with rfl | rfl | rfl <;> simp [converts_refl, converts_optional]

/-! ## Numbers -/

theorem Setting.bound (S : Setting W ctx ref x tgt T n Γ) {c : CTy} (hc : typeOf W Γ (t c!"cast" n) = some c)
    (hok : typeOf W Γ (t c!"ok" n) = some .bool) (hn : c.number = true)
    (hto : pick library c!"std::to_string" [c] = some .string) (b : Option Int) :
    run W R Γ (checkBound n ref b) = if literal b then some Γ else none := by
  cases b with
  | none => rfl
  | some b =>
    have hcmp : comparable c .int = true := by
      revert hn
      cases c <;> simp [CTy.number, comparable]
    rw [checkBound, run_ifThen, typeOf_neg, typeOf_cmp, hc, typeOf_num]
    by_cases hb : b.natAbs < 2 ^ 63
    · rw [if_pos hb]
      simp only [Option.bind_some, hcmp, testable, if_true, literal, hb, decide_true]
      have hc' : typeOf W (Γ.enter.push (.fixed c!"expected_but_got") .text) (t c!"cast" n) = some c := by
        rw [t, typeOf_var, lookup_push_ne (by simp [Var.text]), lookup_enter, ← typeOf_var (W := W)]
        exact hc
      have hok' : typeOf W (Γ.enter.push (.fixed c!"expected_but_got") .text) (t c!"ok" n) = some .bool := by
        rw [t, typeOf_var, lookup_push_ne (by simp [Var.text]), lookup_enter, ← typeOf_var (W := W)]
        exact hok
      rw [run_append, CppCode.report, S.enter.report (by decide) (by simp) (by simp [typeOf_lib, types, hc', hto])]
      simp only [Option.bind_some, run, hok', typeOf_bool, converts_refl, if_true]
    · rw [if_neg hb]
      simp [literal, hb]

theorem Setting.number (S : Setting W ctx ref x tgt T n Γ) {as : Str} {c : CTy}
    (has : pick (methods .json) as [] = some c) (hn : c.number = true) (hto : pick library c!"std::to_string" [c] = some .string)
    (hT : T = none ∨ T = some c ∨ T = some (.optional c)) (bd : Bounds) :
    (run W R Γ.enter (numberBody as n ref bd tgt x)).isSome = (T.isSome && (literal bd.min && literal bd.max)) := by
  have hv : c ≠ .void := by rintro rfl; cases hn
  rw [numberBody]
  split
  · rename_i h
    obtain ⟨hmin, hmax⟩ : bd.min = none ∧ bd.max = none := by simpa using h
    rw [run_store hT S.enter.target.now (by simp [typeOf_call₀, S.enter.json, has])]
    cases T <;> simp [hmin, hmax, literal]
  · have S1 := (S.enter.push (y := .temp c!"cast" n []) (ty := .void) (inside_temp (by decide) (by decide)))
    have S2 := (S.enter.push (y := .temp c!"cast" n []) (ty := c) (inside_temp (by decide) (by decide))).push
      (y := .temp c!"ok" n []) (ty := .bool) (inside_temp (by decide) (by decide))
    rw [run_auto temp_keyword (by simp) (s := c) (by simp [typeOf_call₀, S1.json, has]) hv,
      run_decl temp_keyword (by simp [Var.text]) (typeOk_plain rfl) typeOf_bool (by decide), run_append, run_append,
      S2.bound (by found) (by found) hn hto]
    cases literal bd.min
    · simp
    · simp only [if_true, Option.bind_some]
      rw [S2.bound (by found) (by found) hn hto]
      cases literal bd.max
      · simp
      · simp only [if_true, Option.bind_some]
        rw [run_ifThen, show typeOf W _ (t c!"ok" n) = some .bool by found]
        simp only [Option.bind_some, testable, if_true]
        rw [run_store hT S2.enter.target.now (by found)]
        cases T <;> rfl

/-! ## Texts -/

theorem Setting.pattern (S : Setting W ctx ref x tgt T n Γ) {re : Var} (hre : re = .temp c!"regex" n [] ∨ re = .fixed c!"regex")
    {set : Code} {b : Bool}
    (hset : ∀ Δ, Setting W ctx ref x tgt T n Δ → typeOf W Δ (t c!"cast" n) = some .string → (run W R Δ set).isSome = b) :
    (run W R Γ.enter (patternBody re n ref x set)).isSome = b := by
  have hk : re.text ∉ keywords := by
    rcases hre with rfl | rfl
    · exact temp_keyword
    · decide
  have hi : Inside n re := by
    rcases hre with rfl | rfl
    · exact inside_temp (by decide) (by decide)
    · exact inside_inner (by decide)
  have h1 : re.text ≠ (Var.temp c!"cast" n []).text := by rcases hre with rfl | rfl <;> simp [Var.text]
  have h2 : re.text ≠ (Var.temp c!"ok" n []).text := by rcases hre with rfl | rfl <;> simp [Var.text]
  have S1 := S.enter.push (y := re) (ty := .regex) hi
  have S2 := S1.push (y := .temp c!"cast" n []) (ty := .string) (inside_temp (by decide) (by decide))
  have S3 := S2.push (y := .temp c!"ok" n []) (ty := .bool) (inside_temp (by decide) (by decide))
  have hcast : ∀ Δ, Extends (fun y => y.text ≠ (Var.temp c!"cast" n []).text)
      (((Γ.enter.push re .regex).push (.temp c!"cast" n []) .string).push (.temp c!"ok" n []) .bool) Δ →
      typeOf W Δ (t c!"cast" n) = some .string := by
    intro Δ hΔ
    rw [t, typeOf_var, hΔ.lookup fun y hy => hy, lookup_push_ne (by simp [Var.text]), lookup_push_self]
  rw [patternBody, run_decl hk (by simp) (typeOk_plain rfl) (s := .regex) (by simp [typeOf_lib, types, typeOf_text, lib_regex])
      (by decide),
    run_decl temp_keyword (by simpa using h1) (typeOk_plain rfl) (s := .string) (by simp [typeOf_call₀, S2.json, json_asString])
      (by decide),
    run_decl temp_keyword (by simpa [Var.text] using h2) (typeOk_plain rfl) typeOf_bool (by decide), run_append, run_ifThen,
    typeOf_neg, typeOf_lib]
  have hre' : typeOf W (((Γ.enter.push re .regex).push (.temp c!"cast" n []) .string).push (.temp c!"ok" n []) .bool)
      (.var re) = some .regex := by
    rw [typeOf_var, lookup_push_ne (Ne.symm h2), lookup_push_ne (Ne.symm h1), lookup_push_self]
  simp only [types, hcast _ (.refl _), hre', Option.bind_some, Option.map_some, lib_match, testable, if_true]
  rw [run_append, CppCode.report, S3.enter.report (by decide) (by simp)
    (hcast _ ((Extends.refl _).enter.push (by simp [Var.text])))]
  simp only [Option.bind_some, run]
  rw [show typeOf W _ (t c!"ok" n) = some .bool by found]
  simp only [Option.bind_some, typeOf_bool, converts_refl, if_true]
  rw [run_ifThen, show typeOf W _ (t c!"ok" n) = some .bool by found]
  simp only [Option.bind_some, testable, if_true, then_some]
  have hb := hset _ S3.enter (hcast _ (Extends.refl _).enter)
  rw [hb]
  cases b <;> rfl

end Mapry.CppCode
