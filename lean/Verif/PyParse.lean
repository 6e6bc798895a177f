import Verif.PyFlow
import Verif.PyCode
import Verif.GoTotal

/-!
# The code which parses a value binds its variables before it uses them
-/

namespace Mapry.PyCode

open Mapry.TypeGraph Mapry.Naming Mapry.ParseSchema
open Mapry.GoCode (referencesOf hasPattern)

/-- A name which is no variable is found. -/
def Static (ok : Name → Prop) : Name → Prop
  | .var _ => True
  | n => ok n

variable {ok : Name → Prop}

@[simp] theorem static_var (x) : Static ok (.var x) ↔ True := Iff.rfl
@[simp] theorem static_mod (o p) : Static ok (.mod o p) ↔ ok (.mod o p) := Iff.rfl
@[simp] theorem static_member (p n) : Static ok (.member p n) ↔ ok (.member p n) := Iff.rfl
@[simp] theorem static_glob (n) : Static ok (.glob n) ↔ ok (.glob n) := Iff.rfl
@[simp] theorem static_builtin (n) : Static ok (.builtin n) ↔ ok (.builtin n) := Iff.rfl

@[simp] theorem good_var (A x) : Good ok A (.var x) ↔ x ∈ A := Iff.rfl
@[simp] theorem good_mod (A o p) : Good ok A (.mod o p) ↔ ok (.mod o p) := Iff.rfl
@[simp] theorem good_member (A p n) : Good ok A (.member p n) ↔ ok (.member p n) := Iff.rfl
@[simp] theorem good_glob (A n) : Good ok A (.glob n) ↔ ok (.glob n) := Iff.rfl
@[simp] theorem good_builtin (A n) : Good ok A (.builtin n) ↔ ok (.builtin n) := Iff.rfl

@[simp] theorem static_b (x) : Static ok (b x) ↔ ok (b x) := Iff.rfl
@[simp] theorem good_b (A x) : Good ok A (b x) ↔ ok (b x) := Iff.rfl
@[simp] theorem static_lib (x) : Static ok (lib x) ↔ ok (lib x) := Iff.rfl
@[simp] theorem good_lib (A x) : Good ok A (lib x) ↔ ok (lib x) := Iff.rfl
@[simp] theorem static_typing : Static ok typing ↔ ok typing := Iff.rfl
@[simp] theorem good_typing (A) : Good ok A typing ↔ ok typing := Iff.rfl
@[simp] theorem static_collections : Static ok collections ↔ ok collections := Iff.rfl
@[simp] theorem good_collections (A) : Good ok A collections ↔ ok collections := Iff.rfl
@[simp] theorem static_datetime : Static ok datetime ↔ ok datetime := Iff.rfl
@[simp] theorem good_datetime (A) : Good ok A datetime ↔ ok datetime := Iff.rfl
@[simp] theorem static_pathlib : Static ok pathlib ↔ ok pathlib := Iff.rfl
@[simp] theorem good_pathlib (A) : Good ok A pathlib ↔ ok pathlib := Iff.rfl
@[simp] theorem static_re : Static ok re ↔ ok re := Iff.rfl
@[simp] theorem good_re (A) : Good ok A re ↔ ok re := Iff.rfl
@[simp] theorem static_v (x) : Static ok (v x) ↔ True := Iff.rfl
@[simp] theorem good_v (A x) : Good ok A (v x) ↔ .fixed x ∈ A := Iff.rfl
@[simp] theorem static_t (x n) : Static ok (t x n) ↔ True := Iff.rfl
@[simp] theorem good_t (A x n) : Good ok A (t x n) ↔ .temp x n ∈ A := Iff.rfl
@[simp] theorem static_errors : Static ok errors ↔ True := Iff.rfl
@[simp] theorem good_errors (A) : Good ok A errors ↔ .fixed c!"errors" ∈ A := Iff.rfl

/-- The variable is not one of those with an identifier from `n` on, and not `err`. -/
inductive Old (n : Nat) : Var → Prop where
  | temp (b k) : k < n → Old n (.temp b k)
  | plain (x) : NoDigit x.text → x.text ≠ c!"err" → Old n x

theorem Old.mono {n m : Nat} (h : n ≤ m) {x} (hx : Old n x) : Old m x := by
  cases hx with
  | temp b k hk => exact .temp b k (by omega)
  | plain x h1 h2 => exact .plain x h1 h2

theorem Old.ne_temp {n} {x} (hx : Old n x) (b : Str) {k : Nat} (hk : n ≤ k) : (Var.temp b k).text ≠ x.text := by
  intro e
  cases hx with
  | temp b' k' h' => have := (temp_inj e).2; omega
  | plain x h1 _ => exact temp_digit b k (e ▸ h1)

theorem Old.stays_temp {n} {x} (hx : Old n x) (b : Str) (k : Nat) : (Var.temp b k).text = x.text → Var.temp b k = x := by
  intro e
  cases hx with
  | temp b' k' h' => obtain ⟨h1, h2⟩ := temp_inj e; rw [h1, h2]
  | plain x h1 _ => exact absurd (e ▸ h1) (temp_digit b k)

theorem err_noDigit : NoDigit c!"err" := by decide

theorem Old.ne_err {n} {x} (hx : Old n x) : (Var.fixed c!"err").text ≠ x.text := by
  intro e
  cases hx with
  | temp b k hk => exact temp_digit b k (e ▸ err_noDigit)
  | plain x _ h2 => exact h2 e.symm

/-- The variables which the code of a value may bind. -/
structure Within (sets : List Var) (n : Nat) (c : Code) : Prop where
  sets : ∀ x ∈ c.sets, x ∈ sets ∨ x = .fixed c!"err" ∨ ∃ b k, x = .temp b k ∧ n ≤ k
  drops : ∀ x ∈ c.drops, x = .fixed c!"err"

theorem Within.mono {s s' : List Var} {n n' : Nat} {c} (h : Within s n c) (hn : n' ≤ n)
    (hs : ∀ x ∈ s, x ∈ s' ∨ ∃ b k, x = .temp b k ∧ n' ≤ k) : Within s' n' c := by
  refine ⟨fun x hx => ?_, h.drops⟩
  rcases h.sets x hx with h | h | ⟨b, k, rfl, hk⟩
  · rcases hs x h with h | h
    · exact .inl h
    · exact .inr (.inr h)
  · exact .inr (.inl h)
  · exact .inr (.inr ⟨b, k, rfl, by omega⟩)

/-- What was there before is kept. -/
theorem Within.kept {s n c} (h : Within s n c) (hs : ∀ x ∈ s, ∃ b k, x = .temp b k) {y} (hy : Old n y) :
    Kept c y := by
  refine ⟨fun x hx e => ?_, fun x hx => ?_⟩
  · rcases h.sets x hx with h | rfl | ⟨b, k, rfl, hk⟩
    · obtain ⟨b, k, rfl⟩ := hs x h
      exact hy.stays_temp b k e
    · exact absurd e hy.ne_err
    · exact absurd e (hy.ne_temp b hk)
  · rw [h.drops x hx]
    exact hy.ne_err

theorem bounds_within {s n ref bd value body} (h : Within s n body) : Within s n (checkBounds ref bd value body) := by
  cases bd with
  | mk lo _ hi _ => cases lo <;> cases hi <;> constructor <;>
      simp [checkBounds, report, Code.sets, Code.drops] <;> first | exact h.sets | exact h.drops

theorem pattern_within {s n ref p value body} (h : Within s n body) : Within s n (checkPattern ref p value body) := by
  cases p <;> constructor <;>
      simp [checkPattern, report, Code.sets, Code.drops] <;> first | exact h.sets | exact h.drops

theorem size_within {s n ref p value body} (h : Within s n body) : Within s n (checkSize ref p value body) := by
  cases p <;> constructor <;>
      simp [checkSize, report, Code.sets, Code.drops] <;> first | exact h.sets | exact h.drops

theorem expect_within {s n value types ref body} (h : Within s n body) : Within s n (expect value types ref body) := by
  constructor <;> simp [expect, report, Code.sets, Code.drops] <;> first | exact h.sets | exact h.drops

theorem store_within {n xs} (tgt : Target) : Within tgt.sets n (store tgt xs) := by
  constructor <;> simp +contextual [store, Code.sets, Code.drops]

theorem attempt_within {s n b h c} (hb : Within s n b) (hh : Within s n h) (hc : Within s n c) :
    Within s n (.attempt b h c) := by
  constructor
  · intro x hx
    simp only [Code.sets, List.mem_append] at hx
    rcases hx with (hx | hx) | hx
    · exact hb.sets x hx
    · exact hh.sets x hx
    · exact hc.sets x hx
  · intro x hx
    simp only [Code.drops, List.mem_append] at hx
    rcases hx with (hx | hx) | hx
    · exact hb.drops x hx
    · exact hh.drops x hx
    · exact hc.drops x hx

/-- The code of an array (`parseValue`). -/
def arrayCode (lo hi : Option Int) (value : Var) (tgt : Target) (ref : List Name) (n : Nat) (item : Code) : Code :=
  expect (.var value) [b c!"list"] ref (checkSize ref lo (.var value) (checkSize ref hi (.var value)
      (.bind [.temp c!"target" n] (.use [b c!"enumerate", .var value]
        (.loop [.temp c!"i" n, .temp c!"item" n]
          (.bind [.temp c!"target_item" n] (item ++
            .use [t c!"target_item" n] (.branch (.use [t c!"target" n, t c!"target_item" n] .done) .done
            (.use [errors] (.branch .stop .done .done)))))
        (store tgt [t c!"target" n]))))))

/-- The code of a map (`parseValue`). -/
def mapCode (value : Var) (tgt : Target) (ref : List Name) (n : Nat) (item : Code) : Code :=
  expect (.var value) [b c!"dict"] ref (.use [b c!"isinstance", .var value, collections]
      (.branch (.use [collections] (.bind [.temp c!"target" n] .done)) (.use [b c!"dict"] (.bind [.temp c!"target" n] .done))
      (.use [.var value] (.loop [.temp c!"key" n, .temp c!"value" n]
        (.use [b c!"isinstance", t c!"key" n, b c!"str"]
          (.branch (report ref [b c!"type", t c!"key" n] ++ .use [errors] (.branch .stop .stop .done)) .done
          (.bind [.temp c!"target_item" n] (item ++
            .use [t c!"target_item" n]
              (.branch (.use [t c!"target" n, t c!"key" n, t c!"target_item" n] .done) .done
              (.use [errors] (.branch .stop .done .done)))))))
      (.use [t c!"target" n] (.branch (store tgt [t c!"target" n]) .done .done))))))

/-- The code of a value which `parseValue` returns, without the exceptions. -/
inductive Parses (ctx : Ctx) : Ty → Var → Target → List Name → Nat → Code → Prop where
  | boolean (value tgt ref n) :
    Parses ctx .boolean value tgt ref n (expect (.var value) [b c!"bool"] ref (store tgt [.var value]))
  | integer (bd value tgt ref n) :
    Parses ctx (.integer bd) value tgt ref n (expect (.var value) [b c!"int"] ref
      (checkBounds ref bd (.var value) (store tgt [.var value])))
  | float (bd value tgt ref n) :
    Parses ctx (.float bd) value tgt ref n (expect (.var value) [b c!"int", b c!"float"] ref
      (checkBounds ref bd (.var value) (store tgt [b c!"float", .var value])))
  | string (p value tgt ref n) :
    Parses ctx (.string p) value tgt ref n (expect (.var value) [b c!"str"] ref
      (checkPattern ref p (.var value) (store tgt [.var value])))
  | pathStr (p value tgt ref n) : ctx.py.pathAs = c!"str" →
    Parses ctx (.path p) value tgt ref n (expect (.var value) [b c!"str"] ref
      (checkPattern ref p (.var value) (store tgt [.var value])))
  | pathLib (p value tgt ref n) : ctx.py.pathAs = c!"pathlib.Path" →
    Parses ctx (.path p) value tgt ref n (expect (.var value) [b c!"str"] ref
      (checkPattern ref p (.var value) (store tgt [pathlib, .var value])))
  | date (f value tgt ref n) : Parses ctx (.date f) value tgt ref n (parseDateTime value tgt ref)
  | time (f value tgt ref n) : Parses ctx (.time f) value tgt ref n (parseDateTime value tgt ref)
  | datetime (f value tgt ref n) : Parses ctx (.datetime f) value tgt ref n (parseDateTime value tgt ref)
  | zoneStr (value tgt ref n) : ctx.py.timezoneAs = c!"str" →
    Parses ctx .timeZone value tgt ref n (expect (.var value) [b c!"str"] ref (store tgt [.var value]))
  | zonePytz (value tgt ref n) : ctx.py.timezoneAs = c!"pytz.timezone" →
    Parses ctx .timeZone value tgt ref n (expect (.var value) [b c!"str"] ref
      (.attempt (store tgt [lib c!"pytz", .var value])
        (.use [lib c!"pytz.exceptions"] (report ref [.var value])) .done))
  | duration (value tgt ref n) :
    Parses ctx .duration value tgt ref n (expect (.var value) [b c!"str"] ref (.attempt
      (.use [.var value] (.call (.glob c!"_duration_from_string") [.other] [] (store tgt [])))
      (.use [b c!"ValueError", b c!"OverflowError"] (.bind [.fixed c!"err"]
        (.use (errors :: ref ++ [b c!"str", v c!"err"]) (.forget [.fixed c!"err"] .done)))) .done))
  | array (x lo hi value tgt ref n item) :
    Parses ctx x (.temp c!"item" n) ⟨[], [.temp c!"target_item" n]⟩ (ref ++ [b c!"str", t c!"i" n]) (n + 1) item →
    Parses ctx (.array x lo hi) value tgt ref n (arrayCode lo hi value tgt ref n item)
  | map (x value tgt ref n item) :
    Parses ctx x (.temp c!"value" n) ⟨[], [.temp c!"target_item" n]⟩ (ref ++ [b c!"repr", t c!"key" n]) (n + 1) item →
    Parses ctx (.map x) value tgt ref n (mapCode value tgt ref n item)
  | cls (c value tgt ref n registry) : ctx.registry c = .ok registry →
    Parses ctx (.cls c) value tgt ref n (expect (.var value) [b c!"str"] ref (.use (registry ++ [.var value])
      (.bind [.temp c!"target" n] (.use [t c!"target" n]
        (.branch (report ref [.var value]) (store tgt [t c!"target" n]) .done)))))
  | embed (name value tgt ref n refs registries f) : referencesOf ctx.graph (.embed name) = .ok refs →
    refs.mapM ctx.registry = .ok registries → asVariable name = .ok f →
    Parses ctx (.embed name) value tgt ref n
      (.call (.member (parsePath ctx.py) (c!"placeholder_" ++ f)) [] [] (.bind [.temp c!"target" n]
      (.use (.var value :: registries.flatten ++ ref ++ [t c!"target" n, errors])
        (.call (.glob (c!"_" ++ f ++ c!"_from"))
          (.value :: refs.map .registry ++ [.ref, .target name, .errors]) [] (store tgt [t c!"target" n])))))

theorem pathNames_ok {py : Py} {names} (h : pathNames py = .ok names) :
    (py.pathAs = c!"str" ∧ names = [b c!"str"]) ∨ (py.pathAs = c!"pathlib.Path" ∧ names = [pathlib]) := by
  unfold pathNames at h
  split at h
  · simp only [Except.ok.injEq] at h; exact .inl ⟨by assumption, h.symm⟩
  · split at h
    · simp only [Except.ok.injEq] at h; exact .inr ⟨by assumption, h.symm⟩
    · cases h

theorem zoneNames_ok {py : Py} {names} (h : zoneNames py = .ok names) :
    (py.timezoneAs = c!"str" ∧ names = [b c!"str"]) ∨ (py.timezoneAs = c!"pytz.timezone" ∧ names = [datetime]) := by
  unfold zoneNames at h
  split at h
  · simp only [Except.ok.injEq] at h; exact .inl ⟨by assumption, h.symm⟩
  · split at h
    · simp only [Except.ok.injEq] at h; exact .inr ⟨by assumption, h.symm⟩
    · cases h

theorem parses_of_ok (ctx : Ctx) (ty : Ty) : ∀ value tgt ref n c m,
    parseValue ctx ty value tgt ref n = .ok (c, m) → Parses ctx ty value tgt ref n c := by
  induction ty with
  | boolean =>
    intro value tgt ref n c m h
    simp only [parseValue, Except.ok.injEq, Prod.mk.injEq] at h
    exact h.1 ▸ .boolean value tgt ref n
  | integer bd =>
    intro value tgt ref n c m h
    simp only [parseValue, Except.ok.injEq, Prod.mk.injEq] at h
    exact h.1 ▸ .integer bd value tgt ref n
  | float bd =>
    intro value tgt ref n c m h
    simp only [parseValue, Except.ok.injEq, Prod.mk.injEq] at h
    exact h.1 ▸ .float bd value tgt ref n
  | string p =>
    intro value tgt ref n c m h
    simp only [parseValue, Except.ok.injEq, Prod.mk.injEq] at h
    exact h.1 ▸ .string p value tgt ref n
  | path p =>
    intro value tgt ref n c m h
    cases hp : pathNames ctx.py with
    | error e => simp [parseValue, hp, bind, Except.bind] at h
    | ok names =>
      simp only [parseValue, hp, bind, Except.bind, pure, Except.pure, Except.ok.injEq, Prod.mk.injEq] at h
      rcases pathNames_ok hp with ⟨hs, rfl⟩ | ⟨hs, rfl⟩
      · rw [if_neg (by decide)] at h
        exact h.1 ▸ .pathStr p value tgt ref n hs
      · rw [if_pos rfl] at h
        exact h.1 ▸ .pathLib p value tgt ref n hs
  | date f =>
    intro value tgt ref n c m h
    simp only [parseValue, Except.ok.injEq, Prod.mk.injEq] at h
    exact h.1 ▸ .date f value tgt ref n
  | time f =>
    intro value tgt ref n c m h
    simp only [parseValue, Except.ok.injEq, Prod.mk.injEq] at h
    exact h.1 ▸ .time f value tgt ref n
  | datetime f =>
    intro value tgt ref n c m h
    simp only [parseValue, Except.ok.injEq, Prod.mk.injEq] at h
    exact h.1 ▸ .datetime f value tgt ref n
  | timeZone =>
    intro value tgt ref n c m h
    cases hp : zoneNames ctx.py with
    | error e => simp [parseValue, hp, bind, Except.bind] at h
    | ok names =>
      simp only [parseValue, hp, bind, Except.bind, pure, Except.pure, Except.ok.injEq, Prod.mk.injEq] at h
      rcases zoneNames_ok hp with ⟨hs, rfl⟩ | ⟨hs, rfl⟩
      · rw [if_neg (by decide)] at h
        exact h.1 ▸ .zoneStr value tgt ref n hs
      · rw [if_pos rfl] at h
        exact h.1 ▸ .zonePytz value tgt ref n hs
  | duration =>
    intro value tgt ref n c m h
    simp only [parseValue, Except.ok.injEq, Prod.mk.injEq] at h
    exact h.1 ▸ .duration value tgt ref n
  | array x lo hi ih =>
    intro value tgt ref n c m h
    simp only [parseValue] at h
    cases hi' : parseValue ctx x (.temp c!"item" n) ⟨[], [.temp c!"target_item" n]⟩ (ref ++ [b c!"str", t c!"i" n]) (n + 1) with
    | error e => simp [hi', bind, Except.bind] at h
    | ok r =>
      obtain ⟨item, m'⟩ := r
      cases ht : typeRepr ctx.py x with
      | error e => simp [hi', ht, bind, Except.bind] at h
      | ok u =>
        simp only [hi', ht, bind, Except.bind, pure, Except.pure, Except.ok.injEq, Prod.mk.injEq] at h
        exact h.1 ▸ .array x lo hi value tgt ref n item (ih _ _ _ _ _ _ hi')
  | map x ih =>
    intro value tgt ref n c m h
    simp only [parseValue] at h
    cases hi' : parseValue ctx x (.temp c!"value" n) ⟨[], [.temp c!"target_item" n]⟩ (ref ++ [b c!"repr", t c!"key" n])
        (n + 1) with
    | error e => simp [hi', bind, Except.bind] at h
    | ok r =>
      obtain ⟨item, m'⟩ := r
      cases ht : typeRepr ctx.py x with
      | error e => simp [hi', ht, bind, Except.bind] at h
      | ok u =>
        simp only [hi', ht, bind, Except.bind, pure, Except.pure, Except.ok.injEq, Prod.mk.injEq] at h
        exact h.1 ▸ .map x value tgt ref n item (ih _ _ _ _ _ _ hi')
  | cls name =>
    intro value tgt ref n c m h
    simp only [parseValue] at h
    cases hr : ctx.registry name with
    | error e => simp [hr, bind, Except.bind] at h
    | ok registry =>
      simp only [hr, bind, Except.bind, pure, Except.pure, Except.ok.injEq, Prod.mk.injEq] at h
      exact h.1 ▸ .cls name value tgt ref n registry hr
  | embed name =>
    intro value tgt ref n c m h
    simp only [parseValue] at h
    cases h1 : referencesOf ctx.graph (.embed name) with
    | error e => simp [h1, bind, Except.bind] at h
    | ok refs =>
      cases h2 : refs.mapM ctx.registry with
      | error e => simp [h1, h2, bind, Except.bind] at h
      | ok registries =>
        cases h3 : asVariable name with
        | error e => simp [h1, h2, h3, bind, Except.bind] at h
        | ok f =>
          simp only [h1, h2, h3, bind, Except.bind, pure, Except.pure, Except.ok.injEq, Prod.mk.injEq] at h
          exact h.1 ▸ .embed name value tgt ref n refs registries f h1 h2 h3

theorem dateTime_within {n} (value tgt ref) : Within tgt.sets n (parseDateTime value tgt ref) := by
  refine expect_within (attempt_within (store_within tgt) ?_ ?_) <;>
    constructor <;> simp [report, Code.sets, Code.drops]

theorem parses_within {ctx : Ctx} {ty value tgt ref n c} (h : Parses ctx ty value tgt ref n c) : Within tgt.sets n c := by
  induction h with
  | boolean value tgt ref n => exact expect_within (store_within tgt)
  | integer bd value tgt ref n => exact expect_within (bounds_within (store_within tgt))
  | float bd value tgt ref n => exact expect_within (bounds_within (store_within tgt))
  | string p value tgt ref n => exact expect_within (pattern_within (store_within tgt))
  | pathStr p value tgt ref n => exact expect_within (pattern_within (store_within tgt))
  | pathLib p value tgt ref n => exact expect_within (pattern_within (store_within tgt))
  | date f value tgt ref n => exact dateTime_within value tgt ref
  | time f value tgt ref n => exact dateTime_within value tgt ref
  | datetime f value tgt ref n => exact dateTime_within value tgt ref
  | zoneStr value tgt ref n => exact expect_within (store_within tgt)
  | zonePytz value tgt ref n =>
    refine expect_within (attempt_within (store_within tgt) ?_ ?_) <;> constructor <;> simp [report, Code.sets, Code.drops]
  | duration value tgt ref n =>
    refine expect_within (attempt_within ?_ ?_ ?_) <;>
      constructor <;> simp +contextual [store, Code.sets, Code.drops]
  | array x lo hi value tgt ref n item _ ih =>
    have hw := ih.mono (s' := tgt.sets) (n' := n) (by omega)
      (by intro y hy; exact .inr ⟨_, n, by simpa using hy, by omega⟩)
    refine expect_within (size_within (size_within ⟨fun y hy => ?_, fun y hy => ?_⟩))
    · simp only [Code.sets, store, List.mem_append, List.append_nil, List.mem_cons, List.not_mem_nil, or_false] at hy
      rcases hy with rfl | ((rfl | rfl) | rfl | hy) | hy
      · exact .inr (.inr ⟨_, _, rfl, by omega⟩)
      · exact .inr (.inr ⟨_, _, rfl, by omega⟩)
      · exact .inr (.inr ⟨_, _, rfl, by omega⟩)
      · exact .inr (.inr ⟨_, _, rfl, by omega⟩)
      · rcases sets_append hy with hy | hy
        · exact hw.sets y hy
        · simp [Code.sets] at hy
      · exact .inl hy
    · simp only [Code.drops, store, List.append_nil] at hy
      rcases drops_append hy with hy | hy
      · exact hw.drops y hy
      · simp [Code.drops] at hy
  | map x value tgt ref n item _ ih =>
    have hw := ih.mono (s' := tgt.sets) (n' := n) (by omega)
      (by intro y hy; exact .inr ⟨_, n, by simpa using hy, by omega⟩)
    refine expect_within ⟨fun y hy => ?_, fun y hy => ?_⟩
    · simp only [Code.sets, store, report, use_append, done_append, List.mem_append, List.append_nil, List.nil_append,
        List.mem_cons, List.not_mem_nil, or_false] at hy
      rcases hy with (rfl | rfl) | ((rfl | rfl) | rfl | hy) | hy
      · exact .inr (.inr ⟨_, _, rfl, by omega⟩)
      · exact .inr (.inr ⟨_, _, rfl, by omega⟩)
      · exact .inr (.inr ⟨_, _, rfl, by omega⟩)
      · exact .inr (.inr ⟨_, _, rfl, by omega⟩)
      · exact .inr (.inr ⟨_, _, rfl, by omega⟩)
      · rcases sets_append hy with hy | hy
        · exact hw.sets y hy
        · simp [Code.sets] at hy
      · exact .inl hy
    · simp only [Code.drops, store, report, use_append, done_append, List.append_nil, List.nil_append] at hy
      rcases drops_append hy with hy | hy
      · exact hw.drops y hy
      · simp [Code.drops] at hy
  | cls c value tgt ref n registry _ =>
    refine expect_within ⟨fun y hy => ?_, fun y hy => ?_⟩
    · simp only [Code.sets, store, report, List.mem_append, List.append_nil, List.nil_append, List.mem_cons,
        List.not_mem_nil, or_false] at hy
      rcases hy with rfl | hy
      · exact .inr (.inr ⟨_, _, rfl, by omega⟩)
      · exact .inl hy
    · simp [Code.drops, store, report] at hy
  | embed name value tgt ref n refs registries f _ _ _ =>
    refine ⟨fun y hy => ?_, fun y hy => ?_⟩
    · simp only [Code.sets, store, List.mem_append, List.append_nil, List.mem_cons, List.not_mem_nil, or_false] at hy
      rcases hy with rfl | hy
      · exact .inr (.inr ⟨_, _, rfl, by omega⟩)
      · exact .inl hy
    · simp [Code.drops, store] at hy

/-! ## Executions -/

/-- What is there when a value is parsed. -/
structure Ready (ok : Name → Prop) (ctx : Ctx) (value : Var) (tgt : Target) (ref : List Name) (n : Nat) (A : List Var) :
    Prop where
  old : ∀ y ∈ A, Old n y
  value : value ∈ A
  uses : ∀ x ∈ tgt.uses, Good ok A x
  sets : ∀ x ∈ tgt.sets, x ∈ A ∧ ∃ b k, x = .temp b k
  ref : ∀ x ∈ ref, Good ok A x
  errors : Good ok A errors
  registry : ∀ c l, ctx.registry c = .ok l → ∀ x ∈ l, Good ok A x

theorem Ready.kept {ctx value tgt ref n A} (h : Ready ok ctx value tgt ref n A) {c} (hc : Within tgt.sets n c) :
    ∀ y ∈ A, Kept c y := fun y hy => hc.kept (fun x hx => (h.sets x hx).2) (h.old y hy)

theorem Ready.store {ctx value tgt ref n A} (h : Ready ok ctx value tgt ref n A) {xs : List Name}
    (hx : ∀ x ∈ xs, Good ok A x) {C} (hC : ∀ y ∈ A, y ∈ C) (hs : ∀ y ∈ C, Stays tgt.sets y) :
    Safe ok (store tgt xs) C C := by
  refine .use (fun x hm => ?_) (.bind (fun x hm => ?_) hs (Safe.done.weaken (fun _ h => h) (by simp +contextual)))
  · rcases List.mem_append.1 hm with hm | hm
    · exact (hx x hm).mono hC
    · exact (h.uses x hm).mono hC
  · exact hs x (hC x (h.sets x hm).1)

theorem safe_report {A ref args} (h1 : Good ok A errors) (h2 : ∀ x ∈ ref, Good ok A x) (h3 : ∀ x ∈ args, Good ok A x) :
    Safe ok (report ref args) A A := by
  refine .use (fun x hx => ?_) .done
  simp only [List.cons_append, List.mem_cons, List.mem_append] at hx
  rcases hx with rfl | hx | hx
  · exact h1
  · exact h2 x hx
  · exact h3 x hx

section
variable {A : List Var} {ref : List Name} (h1 : Good ok A errors) (h2 : ∀ x ∈ ref, Good ok A x)
include h1 h2

theorem safe_expect {value types body} (h3 : Good ok A value) (h4 : ∀ x ∈ types, Good ok A x)
    (h5 : ok (b c!"isinstance")) (h6 : ok (b c!"type")) (h : Safe ok body A A) :
    Safe ok (expect value types ref body) A A := by
  refine .use (fun x hx => ?_) (.branch (safe_report h1 h2 fun x hx => ?_) h .done)
  · simp only [List.mem_cons] at hx
    rcases hx with rfl | rfl | hx
    · exact h5
    · exact h3
    · exact h4 x hx
  · simp only [List.mem_cons, List.not_mem_nil, or_false] at hx
    rcases hx with rfl | rfl
    · exact h6
    · exact h3

theorem safe_bounds {bd value body} (h3 : Good ok A value) (h : Safe ok body A A) :
    Safe ok (checkBounds ref bd value body) A A := by
  have hu : ∀ x ∈ [value], Good ok A x := by simpa using h3
  unfold checkBounds
  split
  · exact h
  · exact .use hu (.branch (safe_report h1 h2 hu) h .done)
  · exact .use hu (.branch (safe_report h1 h2 hu) h .done)
  · exact .use hu (.branch (safe_report h1 h2 hu) .done (.use hu (.branch (safe_report h1 h2 hu) h .done)))

theorem safe_pattern {p value body} (h3 : Good ok A value) (h4 : p ≠ none → ok re) (h : Safe ok body A A) :
    Safe ok (checkPattern ref p value body) A A := by
  have hu : ∀ x ∈ [value], Good ok A x := by simpa using h3
  unfold checkPattern
  split
  · exact h
  · refine .use ?_ (.branch (safe_report h1 h2 hu) h .done)
    simpa using ⟨h4 (by simp), h3⟩

theorem safe_size {p value body} (h3 : Good ok A value) (h4 : p ≠ none → ok (b c!"len")) (h : Safe ok body A A) :
    Safe ok (checkSize ref p value body) A A := by
  unfold checkSize
  split
  · exact h
  · have hu : ∀ x ∈ [b c!"len", value], Good ok A x := by simpa using ⟨h4 (by simp), h3⟩
    exact .use hu (.branch (safe_report h1 h2 hu) h .done)

end

/-- The names in the code of the parts. -/
theorem expect_names {value types ref body} {P : Name → Prop} (h : ∀ x ∈ (expect value types ref body).names, P x) :
    P (b c!"isinstance") ∧ P (b c!"type") ∧ P value ∧ (∀ x ∈ types, P x) ∧ P errors ∧ (∀ x ∈ ref, P x) ∧
      ∀ x ∈ body.names, P x := by
  simp only [expect, report, Code.names, List.mem_append, List.mem_cons, List.not_mem_nil, or_false, List.append_nil] at h
  refine ⟨h _ ?_, h _ ?_, h _ ?_, fun x hx => h x ?_, h _ ?_, fun x hx => h x ?_, fun x hx => h x ?_⟩ <;> simp [*]

theorem pattern_names {ref p value body} {P : Name → Prop} (h : ∀ x ∈ (checkPattern ref p value body).names, P x) :
    (p ≠ none → P re) ∧ ∀ x ∈ body.names, P x := by
  cases p with
  | none => exact ⟨by simp, h⟩
  | some p =>
    simp only [checkPattern, report, Code.names, List.mem_append, List.mem_cons] at h
    exact ⟨fun _ => h _ (by simp), fun x hx => h x (by simp [hx])⟩

theorem size_names {ref p value body} {P : Name → Prop} (h : ∀ x ∈ (checkSize ref p value body).names, P x) :
    (p ≠ none → P (b c!"len")) ∧ ∀ x ∈ body.names, P x := by
  cases p with
  | none => exact ⟨by simp, h⟩
  | some p =>
    simp only [checkSize, report, Code.names, List.mem_append, List.mem_cons] at h
    exact ⟨fun _ => h _ (by simp), fun x hx => h x (by simp [hx])⟩

theorem bounds_names {ref bd value body} {P : Name → Prop} (h : ∀ x ∈ (checkBounds ref bd value body).names, P x) :
    ∀ x ∈ body.names, P x := by
  intro x hx
  unfold checkBounds at h
  split at h <;> exact h x (by simp [Code.names, hx])

theorem store_names {tgt xs} {P : Name → Prop} (h : ∀ x ∈ (store tgt xs).names, P x) : ∀ x ∈ xs, P x := by
  intro x hx
  exact h x (by simp [store, Code.names, hx])

theorem safe_branch_same {y n A} (hy : Safe ok y A A) (hn : Safe ok n A A) : Safe ok (.branch y n .done) A A :=
  .branch hy hn .done

theorem Ready.stays {ctx value tgt ref n A} (h : Ready ok ctx value tgt ref n A) : ∀ y ∈ A, Stays tgt.sets y := by
  intro y hy x hx e
  obtain ⟨_, b, k, rfl⟩ := h.sets x hx
  exact (h.old y hy).stays_temp b k e

theorem Ready.keep {ctx value tgt ref n A} (h : Ready ok ctx value tgt ref n A) {c} (hs : Safe ok c A [])
    (hc : Within tgt.sets n c) : Safe ok c A A := by
  have := hs.keep (C := A) fun y hy => ⟨hy, h.kept hc y hy⟩
  simpa using this

theorem safe_dateTime {ctx value tgt ref n A} (h : Ready ok ctx value tgt ref n A)
    (hn : ∀ x ∈ (parseDateTime value tgt ref).names, Static ok x) : Safe ok (parseDateTime value tgt ref) A A := by
  obtain ⟨e1, e2, _, e3, _, _, hb⟩ := expect_names hn
  have d := hb datetime (by simp [Code.names, store])
  have w := hb (b c!"ValueError") (by simp [Code.names])
  refine safe_expect h.errors h.ref h.value (by simpa using e3) e1 e2 ?_
  refine .attempt (D := A) (h.store (C := A) (by simpa using ⟨d, h.value⟩) (fun _ h => h) h.stays) ?_
    (.use (by simpa using w) (safe_report h.errors h.ref (by simpa using h.value))) .done
  exact fun y hy => ⟨hy, h.kept (store_within tgt) y hy⟩

theorem distinct_one (x : Var) : Distinct [x] := by
  intro y hy z hz _
  simp_all

theorem Ready.bind {ctx value tgt ref n A} (h : Ready ok ctx value tgt ref n A) (b : Str) {C : List Var}
    (hC : ∀ y ∈ C, y ∈ A ∨ ∃ b', y = .temp b' n) : ∀ y ∈ C, Stays [.temp b n] y := by
  intro y hy x hx e
  obtain rfl := List.mem_singleton.1 hx
  rcases hC y hy with hy | ⟨b', rfl⟩
  · exact absurd e ((h.old y hy).ne_temp b (Nat.le_refl _))
  · rw [(temp_inj e).1]

theorem Ready.storeTemp {ctx value tgt ref n A} (h : Ready ok ctx value tgt ref n A) (b : Str) {C : List Var}
    (hC : ∀ y ∈ A, y ∈ C) (hb : .temp b n ∈ C) : Safe ok (PyCode.store tgt [t b n]) C A := by
  have hs : Safe ok (PyCode.store tgt [t b n]) (.temp b n :: A) A := by
    refine .use (fun x hm => ?_) (.bind (fun x hm => h.stays x (h.sets x hm).1) (fun y hy => ?_)
      (Safe.done.weaken (fun _ h => h) (by simp +contextual)))
    · rcases List.mem_append.1 hm with hm | hm
      · obtain rfl := List.mem_singleton.1 hm
        simp
      · exact (h.uses x hm).mono (by simp +contextual)
    · rcases List.mem_cons.1 hy with rfl | hy
      · intro x hx e
        obtain ⟨_, b', k, rfl⟩ := h.sets x hx
        obtain ⟨h1, h2⟩ := temp_inj e
        rw [h1, h2]
      · exact h.stays y hy
  exact hs.weaken (by simpa using ⟨hb, hC⟩) (fun _ h => h)

theorem distinct_temps {xs : List Var} (h : ∀ x ∈ xs, ∃ b k, x = .temp b k) : Distinct xs := by
  intro x hx y hy e
  obtain ⟨b, k, rfl⟩ := h x hx
  obtain ⟨b', k', rfl⟩ := h y hy
  obtain ⟨h1, h2⟩ := temp_inj e
  rw [h1, h2]

theorem Within.kept_temp {s n c} (h : Within s n c) (hs : ∀ x ∈ s, ∃ b k, x = .temp b k) (b k) : Kept c (.temp b k) := by
  refine ⟨fun x hx e => ?_, fun x hx => ?_⟩
  · rcases h.sets x hx with h | rfl | ⟨b', k', rfl, hk⟩
    · obtain ⟨b', k', rfl⟩ := hs x h
      obtain ⟨h1, h2⟩ := temp_inj e
      rw [h1, h2]
    · exact absurd (e ▸ err_noDigit) (temp_digit b k)
    · obtain ⟨h1, h2⟩ := temp_inj e
      rw [h1, h2]
  · rw [h.drops x hx]
    intro e
    exact absurd (e ▸ err_noDigit) (temp_digit b k)

theorem Ready.binds {ctx value tgt ref n A} (h : Ready ok ctx value tgt ref n A) {xs C : List Var}
    (hx : ∀ x ∈ xs, ∃ b, x = .temp b n) (hC : ∀ y ∈ C, y ∈ A ∨ ∃ b, y = .temp b n) : ∀ y ∈ C, Stays xs y := by
  intro y hy x hm e
  obtain ⟨b, rfl⟩ := hx x hm
  rcases hC y hy with hy | ⟨b', rfl⟩
  · exact absurd e ((h.old y hy).ne_temp b (Nat.le_refl _))
  · rw [(temp_inj e).1]

/-- What is there when an item is parsed. -/
theorem Ready.item {ctx value tgt ref n A} (h : Ready ok ctx value tgt ref n A) {value' : Str} {ref' : List Name}
    {C : List Var} (hC : ∀ y ∈ C, y ∈ A ∨ ∃ b, y = .temp b n) (hA : ∀ y ∈ A, y ∈ C) (hv : .temp value' n ∈ C)
    (ht : .temp c!"target_item" n ∈ C) (hr : ∀ x ∈ ref', Good ok C x) :
    Ready ok ctx (.temp value' n) ⟨[], [.temp c!"target_item" n]⟩ (ref ++ ref') (n + 1) C where
  old := by
    intro y hy
    rcases hC y hy with hy | ⟨b, rfl⟩
    · exact (h.old y hy).mono (by omega)
    · exact .temp b n (by omega)
  value := hv
  uses := by simp
  sets := by
    intro x hx
    obtain rfl := List.mem_singleton.1 hx
    exact ⟨ht, _, _, rfl⟩
  ref := by
    intro x hx
    rcases List.mem_append.1 hx with hx | hx
    · exact (h.ref x hx).mono hA
    · exact hr x hx
  errors := h.errors.mono hA
  registry := fun c l hc x hx => (h.registry c l hc x hx).mono hA

/-- The body of a loop over the items keeps what was there. -/
theorem Ready.body {ctx value tgt ref n A} (h : Ready ok ctx value tgt ref n A) {c} (hc : Within [] n c) {C : List Var}
    (hC : ∀ y ∈ C, y ∈ A ∨ ∃ b, y = .temp b n) : ∀ y ∈ C, Kept c y := by
  intro y hy
  rcases hC y hy with hy | ⟨b, rfl⟩
  · exact hc.kept (by simp) (h.old y hy)
  · exact hc.kept_temp (by simp) b n

theorem append_within {s n c d} (hc : Within s n c) (hd : Within s n d) : Within s n (c ++ d) := by
  refine ⟨fun x hx => ?_, fun x hx => ?_⟩
  · rcases sets_append hx with hx | hx
    · exact hc.sets x hx
    · exact hd.sets x hx
  · rcases drops_append hx with hx | hx
    · exact hc.drops x hx
    · exact hd.drops x hx

theorem bind_within {s n xs c} (hx : ∀ x ∈ xs, ∃ b, x = .temp b n) (hc : Within s n c) : Within s n (.bind xs c) := by
  refine ⟨fun x hm => ?_, hc.drops⟩
  rcases List.mem_append.1 hm with hm | hm
  · obtain ⟨b, rfl⟩ := hx x hm
    exact .inr (.inr ⟨b, n, rfl, Nat.le_refl _⟩)
  · exact hc.sets x hm

/-- The code of an item. -/
theorem item_within {ctx x value ref n item} {last : Code}
    (hp : Parses ctx x value ⟨[], [.temp c!"target_item" n]⟩ ref (n + 1) item) (h : Within [] n last) :
    Within [] n (.bind [.temp c!"target_item" n] (item ++ last)) := by
  refine bind_within (by simp) (append_within ((parses_within hp).mono (by omega) ?_) h)
  intro y hy
  exact .inr ⟨_, n, by simpa using hy, by omega⟩

/-- The names of the reference path are looked up. -/
theorem parses_ref {ctx : Ctx} {ty value tgt ref n c} (h : Parses ctx ty value tgt ref n c) : ∀ x ∈ ref, x ∈ c.names := by
  cases h with
  | embed name value tgt ref n refs registries f h1 h2 h3 =>
    intro x hx
    simp [Code.names, hx]
  | _ => exact (expect_names (P := (· ∈ _)) fun _ h => h).2.2.2.2.2.1

theorem safe_parses {ctx : Ctx} {ty value tgt ref n c} (h : Parses ctx ty value tgt ref n c) : ∀ A,
    Ready ok ctx value tgt ref n A → (∀ x ∈ c.names, Static ok x) → Safe ok c A A := by
  induction h with
  | boolean value tgt ref n =>
    intro A h hn
    obtain ⟨e1, e2, _, e3, _, _, hb⟩ := expect_names hn
    exact safe_expect h.errors h.ref h.value (by simpa using e3) e1 e2
      (h.store (by simpa using h.value) (fun _ h => h) h.stays)
  | integer bd value tgt ref n =>
    intro A h hn
    obtain ⟨e1, e2, _, e3, _, _, hb⟩ := expect_names hn
    exact safe_expect h.errors h.ref h.value (by simpa using e3) e1 e2 (safe_bounds h.errors h.ref h.value
      (h.store (by simpa using h.value) (fun _ h => h) h.stays))
  | float bd value tgt ref n =>
    intro A h hn
    obtain ⟨e1, e2, _, e3, _, _, hb⟩ := expect_names hn
    have := store_names (bounds_names hb)
    exact safe_expect h.errors h.ref h.value (by simpa using e3) e1 e2 (safe_bounds h.errors h.ref h.value
      (h.store (by simpa using ⟨this _ (.head _), h.value⟩) (fun _ h => h) h.stays))
  | string p value tgt ref n =>
    intro A h hn
    obtain ⟨e1, e2, _, e3, _, _, hb⟩ := expect_names hn
    exact safe_expect h.errors h.ref h.value (by simpa using e3) e1 e2 (safe_pattern h.errors h.ref h.value
      (pattern_names hb).1 (h.store (by simpa using h.value) (fun _ h => h) h.stays))
  | pathStr p value tgt ref n =>
    intro A h hn
    obtain ⟨e1, e2, _, e3, _, _, hb⟩ := expect_names hn
    exact safe_expect h.errors h.ref h.value (by simpa using e3) e1 e2 (safe_pattern h.errors h.ref h.value
      (pattern_names hb).1 (h.store (by simpa using h.value) (fun _ h => h) h.stays))
  | pathLib p value tgt ref n =>
    intro A h hn
    obtain ⟨e1, e2, _, e3, _, _, hb⟩ := expect_names hn
    have := store_names (pattern_names hb).2
    exact safe_expect h.errors h.ref h.value (by simpa using e3) e1 e2 (safe_pattern h.errors h.ref h.value
      (pattern_names hb).1 (h.store (by simpa using ⟨this _ (.head _), h.value⟩) (fun _ h => h) h.stays))
  | date f value tgt ref n => exact fun A h hn => safe_dateTime h hn
  | time f value tgt ref n => exact fun A h hn => safe_dateTime h hn
  | datetime f value tgt ref n => exact fun A h hn => safe_dateTime h hn
  | zoneStr value tgt ref n =>
    intro A h hn
    obtain ⟨e1, e2, _, e3, _, _, hb⟩ := expect_names hn
    exact safe_expect h.errors h.ref h.value (by simpa using e3) e1 e2
      (h.store (by simpa using h.value) (fun _ h => h) h.stays)
  | zonePytz value tgt ref n =>
    intro A h hn
    obtain ⟨e1, e2, _, e3, _, _, hb⟩ := expect_names hn
    have d := hb (lib c!"pytz") (by simp [Code.names, store])
    have w := hb (lib c!"pytz.exceptions") (by simp [Code.names])
    refine safe_expect h.errors h.ref h.value (by simpa using e3) e1 e2 ?_
    refine .attempt (D := A) (h.store (C := A) (by simpa using ⟨d, h.value⟩) (fun _ h => h) h.stays) ?_
      (.use (by simpa using w) (safe_report h.errors h.ref (by simpa using h.value))) .done
    exact fun y hy => ⟨hy, h.kept (store_within tgt) y hy⟩
  | duration value tgt ref n =>
    intro A h hn
    obtain ⟨e1, e2, _, e3, _, _, hb⟩ := expect_names hn
    have d := hb (.glob c!"_duration_from_string") (by simp [Code.names])
    have w1 := hb (b c!"ValueError") (by simp [Code.names])
    have w2 := hb (b c!"OverflowError") (by simp [Code.names])
    have w3 := hb (b c!"str") (by simp [Code.names])
    refine safe_expect h.errors h.ref h.value (by simpa using e3) e1 e2 ?_
    refine .attempt (D := A) (.use (by simpa using h.value) (.call d (h.store (by simp) (fun _ h => h) h.stays))) ?_
      (.use (by simpa using ⟨w1, w2⟩) (.bind (distinct_one _) ?_ (.use ?_
        ((Safe.forget (A := A) (B := A) ?_ .done).weaken (by simp +contextual) (fun _ h => h))))) .done
    · refine fun y hy => ⟨hy, h.kept ⟨?_, ?_⟩ y hy⟩ <;> simp +contextual [Code.sets, Code.drops, PyCode.store]
    · intro y hy x hx e
      obtain rfl := List.mem_singleton.1 hx
      exact absurd e (h.old y hy).ne_err
    · intro x hx
      simp only [List.cons_append, List.mem_cons, List.mem_append, List.not_mem_nil, or_false] at hx
      rcases hx with rfl | hx | rfl | rfl
      · exact h.errors.mono (by simp +contextual)
      · exact (h.ref x hx).mono (by simp +contextual)
      · exact w3
      · simp
    · intro y hy x hx
      obtain rfl := List.mem_singleton.1 hx
      exact (h.old y hy).ne_err
  | array x lo hi value tgt ref n item hp ih =>
    intro A h hn
    obtain ⟨e1, e2, _, e3, _, _, hb⟩ := expect_names hn
    obtain ⟨s1, hb⟩ := size_names hb
    obtain ⟨s2, hb⟩ := size_names hb
    have hen := hb (b c!"enumerate") (by simp [Code.names])
    have hitem : ∀ x ∈ item.names, Static ok x := fun x hx => hb x (by
      simp only [Code.names, List.mem_append]; exact .inr (.inl (names_left hx)))
    refine safe_expect h.errors h.ref h.value (by simpa using e3) e1 e2 (safe_size h.errors h.ref h.value s1
      (safe_size h.errors h.ref h.value s2 (.bind (distinct_one _) (h.bind _ fun y hy => .inl hy) (.use
        (by simpa using ⟨hen, .inr h.value⟩) (.loop (C := []) ?_ (fun y hy => ⟨?_, ?_⟩) (.bind (distinct_one _) ?_
          (.append (B := [.temp c!"target_item" n, .temp c!"i" n, .temp c!"item" n, .temp c!"target" n] ++ A) ?_
            (.use (by simp) (.branch (C := A) (.use (by simp) (Safe.done.weaken (A := A) ?_ fun _ h => h))
              (Safe.done.weaken (A := A) ?_ fun _ h => h)
              (.use (by simpa using h.errors) (.branch (C := []) .stop (Safe.done.weaken (A := []) (by simp) fun _ h => h)
                .done))))))
          (h.storeTemp _ (by simp +contextual) (by simp)))))))
    · exact distinct_temps (by simp)
    · exact h.binds (by simp) (C := .temp c!"target" n :: A) (by simp +contextual) y hy
    · refine h.body (item_within hp ?_) (C := .temp c!"target" n :: A) (by simp +contextual) y hy
      constructor <;> simp [Code.sets, Code.drops]
    · exact h.binds (by simp) (by simp +contextual)
    · refine (ih _ (h.item (C := [.temp c!"target_item" n, .temp c!"i" n, .temp c!"item" n, .temp c!"target" n] ++ A)
        (by simp +contextual) (by simp +contextual) (by simp) (by simp) ?_) hitem).weaken
        (by simp +contextual) fun _ h => h
      have := hitem (b c!"str") (parses_ref hp _ (by simp))
      simpa using this
    · simp +contextual
    · simp +contextual
  | map x value tgt ref n item hp ih =>
    intro A h hn
    obtain ⟨e1, e2, _, e3, _, _, hb⟩ := expect_names hn
    have hcol := hb collections (by simp [Code.names])
    have hdict := hb (b c!"dict") (by simp [Code.names])
    have hstr := hb (b c!"str") (by simp [Code.names])
    have hitem : ∀ x ∈ item.names, Static ok x := fun x hx => hb x (by
      simp only [Code.names, List.mem_append]; exact .inr (.inr (.inr (.inl (.inr (.inr (names_left hx)))))))
    have hrepr := hitem (b c!"repr") (parses_ref hp _ (by simp))
    simp only [static_b, static_collections] at hcol hdict hstr hrepr e1 e2
    refine safe_expect h.errors h.ref h.value (by simpa using e3) e1 e2 (.use (by simpa using ⟨e1, h.value, hcol⟩)
      (.branch (C := .temp c!"target" n :: A)
        (.use (by simpa using hcol) (.bind (distinct_one _) (h.bind _ fun y hy => .inl hy) .done))
        (.use (by simpa using hdict) (.bind (distinct_one _) (h.bind _ fun y hy => .inl hy) .done))
        (.use (by simpa using .inr h.value) (.loop (C := []) (distinct_temps (by simp)) (fun y hy => ⟨?_, ?_⟩)
          (.use (by simpa using ⟨e1, hstr⟩) (.branch
            (C := [.temp c!"key" n, .temp c!"value" n, .temp c!"target" n] ++ A)
            (.append (B := .temp c!"key" n :: A) (.weaken (A := .temp c!"key" n :: A)
                (safe_report (h.errors.mono (by simp +contextual)) (fun x hx => (h.ref x hx).mono (by simp +contextual))
                (by simpa using e2)) (by simp +contextual) fun _ h => h)
              (.use (by simpa using h.errors) (.branch .stop .stop .done)))
            (Safe.done.weaken (fun _ h => h) (by simp +contextual))
            (.bind (distinct_one _) ?_
          (.append (B := [.temp c!"target_item" n, .temp c!"key" n, .temp c!"value" n, .temp c!"target" n] ++ A) ?_
            (.use (by simp) (.branch (C := A) (.use (by simp) (Safe.done.weaken (A := A) ?_ fun _ h => h))
              (Safe.done.weaken (A := A) ?_ fun _ h => h)
              (.use (by simpa using h.errors) (.branch (C := []) .stop (Safe.done.weaken (A := []) (by simp) fun _ h => h)
                .done))))))))
          (.use (by simp) (.branch (C := A) (h.storeTemp _ (by simp +contextual) (by simp))
            (Safe.done.weaken (by simp +contextual) fun _ h => h) .done))))))
    · exact h.binds (by simp) (C := .temp c!"target" n :: A) (by simp +contextual) y hy
    · refine h.body ?_ (C := .temp c!"target" n :: A) (by simp +contextual) y hy
      have hw : Within [] n _ := item_within hp (last := .use [t c!"target_item" n]
        (.branch (.use [t c!"target" n, t c!"key" n, t c!"target_item" n] .done) .done
              (.use [errors] (.branch .stop .done .done)))) (by constructor <;> simp [Code.sets, Code.drops])
      refine ⟨fun y hy => hw.sets y ?_, fun y hy => hw.drops y ?_⟩
      · simpa [Code.sets, report] using hy
      · simpa [Code.drops, report] using hy
    · exact h.binds (by simp) (by simp +contextual)
    · refine (ih _ (h.item (C := [.temp c!"target_item" n, .temp c!"key" n, .temp c!"value" n, .temp c!"target" n] ++ A)
        (by simp +contextual) (by simp +contextual) (by simp) (by simp) ?_) hitem).weaken
        (by simp +contextual) fun _ h => h
      simpa using hrepr
    · simp +contextual
    · simp +contextual
  | cls c value tgt ref n registry hr =>
    intro A h hn
    obtain ⟨e1, e2, _, e3, _, _, hb⟩ := expect_names hn
    refine safe_expect h.errors h.ref h.value (by simpa using e3) e1 e2 (.use ?_ (.bind (distinct_one _)
      (h.bind _ fun y hy => .inl hy) (.use (by simp) (.branch (C := A) ?_ (h.storeTemp _ (by simp +contextual) (by simp)) .done))))
    · intro x hx
      rcases List.mem_append.1 hx with hx | hx
      · exact h.registry c registry hr x hx
      · obtain rfl := List.mem_singleton.1 hx
        exact h.value
    · exact (safe_report h.errors h.ref (by simpa using h.value)).weaken (by simp +contextual) (fun _ h => h)
  | embed name value tgt ref n refs registries f h1 h2 h3 =>
    intro A h hn
    have p1 := hn (.member (parsePath ctx.py) (c!"placeholder_" ++ f)) (by simp [Code.names])
    have p2 := hn (.glob (c!"_" ++ f ++ c!"_from")) (by simp [Code.names])
    refine .call p1 (.bind (distinct_one _) (h.bind _ fun y hy => .inl hy) (.use ?_ (.call p2
      (h.storeTemp _ (by simp +contextual) (by simp)))))
    intro x hx
    simp only [List.cons_append, List.mem_append, List.mem_cons, List.not_mem_nil, or_false] at hx
    rcases hx with rfl | (hx | hx) | rfl | rfl
    · simp [h.value]
    · obtain ⟨l, hl, hx⟩ := List.mem_flatten.1 hx
      obtain ⟨r, _, hr⟩ := GoCode.mapM_mem h2 hl
      exact (h.registry r l hr x hx).mono (by simp +contextual)
    · exact (h.ref x hx).mono (by simp +contextual)
    · simp
    · exact h.errors.mono (by simp +contextual)

end Mapry.PyCode
