import Verif.CppParseGraph

/-! # The generated C++ functions which serialize -/

namespace Mapry.CppCode

open Mapry.TypeGraph Mapry.Naming Mapry.ParseSchema
open Mapry.GoCode (referencesOf ok_bind mapM_cons mapM_mem mapM_mem')
open Mapry.PyCode (Facts allNames defNames idOf idOf_eq attrs)

variable {W : World} {R : CTy} {g : Graph} {cpp : Cpp} {Γ : Env} {n : Nat} {date : Bool}

/-! ## Variables -/

/-- The bases of the variables with an identifier -/
def serNames : List Str := [c!"target", c!"vector", c!"i", c!"map", c!"kv"]

/-- A variable which the code of a value may declare if the identifiers begin with `n` -/
def SerTemp (n : Nat) : Var → Prop
  | .temp b k a => b ∈ serNames ∧ n ≤ k ∧ a = []
  | _ => False

theorem SerTemp.fresh : ∀ {x : Var}, SerTemp n x → Fresh n x
  | .temp b k a, ⟨hb, hk, ha⟩ => ⟨(by decide : ∀ b ∈ serNames, b ∈ tempNames) b hb, hk, .inl ha⟩

theorem SerTemp.mono {m : Nat} (h : n ≤ m) : ∀ {x : Var}, SerTemp m x → SerTemp n x
  | .temp _ _ _, ⟨a, b, c⟩ => ⟨a, Nat.le_trans h b, c⟩

theorem serTemp {b : Str} (h : b ∈ serNames) : SerTemp n (.temp b n []) := ⟨h, Nat.le_refl n, rfl⟩

theorem SerTemp.head : ∀ {x : Var}, SerTemp n x → x.text.head? ≠ some 's'
  | .temp b k a, ⟨hb, _, _⟩ => by
    have : ∀ b ∈ serNames, b ≠ [] ∧ b.head? ≠ some 's' := by decide
    obtain ⟨h1, h2⟩ := this b hb
    cases b with
    | nil => exact absurd rfl h1
    | cons c cs => simpa [Var.text] using h2

/-- No variable of the block has the text of a new one. -/
def SerClear (n : Nat) (Γ : Env) : Prop := ∀ e ∈ Γ.block, ∀ y, SerTemp n y → y.text ≠ e.1.text

/-- The functions which are called in the code of a value -/
def uses (date : Bool) : Ty → List Str
  | .date f | .time f | .datetime f => if date || f = [] then [] else [c!"tm_to_string"]
  | .duration => [c!"duration_to_string"]
  | .array y _ _ => uses date y
  | .map y => uses date y
  | .embed m => [c!"serialize_" ++ lower m]
  | _ => []

/-- The functions are declared and the referenced structures have identifiers. -/
def Writes (W : World) (date : Bool) : Ty → Prop
  | .date f | .time f | .datetime f => date = false → f ≠ [] → Knows W tmSig
  | .duration => Knows W durationToSig
  | .array y _ _ => Writes W date y
  | .map y => Writes W date y
  | .cls m => (∃ s ∈ W.structs, s.1 = idOf m) ∧ member W (.struct (idOf m)) c!"id" = some .string
  | .embed m => (∃ s ∈ W.structs, s.1 = idOf m) ∧ ∃ s, serializeDecl m = .ok s ∧ Knows W s
  | _ => True

theorem uses_shape (date : Bool) : ∀ (ty : Ty) (f : Str), f ∈ uses date ty →
    f = c!"tm_to_string" ∨ f = c!"duration_to_string" ∨ ∃ m, f = c!"serialize_" ++ lower m := by
  intro ty
  induction ty with
  | array y lo hi ih => exact ih
  | map y ih => exact ih
  | embed m => intro f hf; simp only [uses, List.mem_singleton] at hf; exact .inr (.inr ⟨m, hf⟩)
  | duration => intro f hf; simp only [uses, List.mem_singleton] at hf; exact .inr (.inl hf)
  | date s => intro f hf; simp only [uses] at hf; split at hf <;> simp at hf; exact .inl hf
  | time s => intro f hf; simp only [uses] at hf; split at hf <;> simp at hf; exact .inl hf
  | datetime s => intro f hf; simp only [uses] at hf; split at hf <;> simp at hf; exact .inl hf
  | _ => intro f hf; simp [uses] at hf

theorem temp_uses {ty : Ty} {f : Str} (hf : f ∈ uses date ty) {x : Var} (hx : SerTemp n x) : x.text ≠ f := by
  rcases uses_shape date ty f hf with rfl | rfl | ⟨m, rfl⟩
  · exact hx.fresh.ne_fixed (by decide +kernel) (by decide)
  · exact hx.fresh.ne_fixed (by decide +kernel) (by decide)
  · intro e
    exact hx.head (by rw [e]; rfl)

/-- Some function which is called is hidden. -/
def hidden (Γ : Env) (fs : List Str) : Bool := fs.any Γ.hides

theorem hidden_extends {ty : Ty} {Δ : Env} (h : Extends (SerTemp n) Γ Δ) : hidden Δ (uses date ty) = hidden Γ (uses date ty) := by
  rw [Bool.eq_iff_iff]
  simp only [hidden, List.any_eq_true]
  constructor
  · rintro ⟨f, hf, e⟩
    exact ⟨f, hf, by rw [← e, h.hides fun y hy => temp_uses hf hy]⟩
  · rintro ⟨f, hf, e⟩
    exact ⟨f, hf, by rw [← e, h.hides fun y hy => temp_uses hf hy]⟩

/-- The structures of the type of a value are declared. -/
theorem written_names {cpp : Cpp} {date : Bool} : ∀ {ty : Ty} {t : CTy}, typeRepr cpp ty = .ok t → Writes W date ty →
    ∀ n ∈ t.names, ∃ s ∈ W.structs, s.1 = n := by
  intro ty
  induction ty with
  | cls c =>
    intro t h hs n hn
    simp only [typeRepr] at h
    obtain ⟨i, hi, h⟩ := ok_bind h
    cases h
    simp only [CTy.names, List.mem_singleton] at hn
    subst hn
    obtain ⟨⟨s, h1, h2⟩, _⟩ := hs
    exact ⟨s, h1, by rw [h2, PyCode.idOf_eq hi]⟩
  | embed c =>
    intro t h hs n hn
    simp only [typeRepr] at h
    obtain ⟨i, hi, h⟩ := ok_bind h
    cases h
    simp only [CTy.names, List.mem_singleton] at hn
    subst hn
    obtain ⟨⟨s, h1, h2⟩, _⟩ := hs
    exact ⟨s, h1, by rw [h2, PyCode.idOf_eq hi]⟩
  | array y lo hi ih =>
    intro t h hs n hn
    simp only [typeRepr] at h
    obtain ⟨t', ht, h⟩ := ok_bind h
    cases h
    exact ih ht hs n hn
  | map y ih =>
    intro t h hs n hn
    simp only [typeRepr] at h
    obtain ⟨t', ht, h⟩ := ok_bind h
    cases h
    exact ih ht hs n hn
  | boolean => intro t h hs n hn; cases h; cases hn
  | integer _ => intro t h hs n hn; cases h; cases hn
  | float _ => intro t h hs n hn; cases h; cases hn
  | string _ => intro t h hs n hn; cases h; cases hn
  | duration => intro t h hs n hn; cases h; cases hn
  | path _ => intro t h hs n hn; simp only [typeRepr] at h; obtain ⟨b, _, h⟩ := ok_bind h; cases h; cases hn
  | date _ => intro t h hs n hn; simp only [typeRepr] at h; obtain ⟨b, _, h⟩ := ok_bind h; cases h; cases b <;> cases hn
  | time _ => intro t h hs n hn; simp only [typeRepr] at h; obtain ⟨b, _, h⟩ := ok_bind h; cases h; cases b <;> cases hn
  | datetime _ => intro t h hs n hn; simp only [typeRepr] at h; obtain ⟨b, _, h⟩ := ok_bind h; cases h; cases b <;> cases hn
  | timeZone => intro t h hs n hn; simp only [typeRepr] at h; obtain ⟨b, _, h⟩ := ok_bind h; cases h; cases b <;> cases hn

/-! ## Values -/

/-- The code is rejected if a function is hidden and otherwise accepted with some more variables. -/
def SerRun (W : World) (R : CTy) (Γ : Env) (code : Code) (hid : Bool) (n m : Nat) : Prop :=
  n ≤ m ∧ (hid = true → run W R Γ code = none) ∧
    (hid = false → ∃ Δ, run W R Γ code = some Δ ∧ Extends (SerTemp n) Γ Δ ∧ SerClear m Δ)

theorem serRun_assign {tgt x : Expr} {s : CTy} (ht : typeOf W Γ tgt = some .json) (hx : typeOf W Γ x = some s)
    (hs : converts .json s = true) (hc : SerClear n Γ) : SerRun W R Γ (.assign tgt x .done) false n n := by
  refine ⟨Nat.le_refl n, by simp, fun _ => ⟨Γ, ?_, .refl Γ, hc⟩⟩
  simp only [run, ht, hx, Option.bind_some, hs, if_true]

theorem serRun_call {tgt : Expr} {f : Str} {args : List Expr} {ts : List CTy} (ht : typeOf W Γ tgt = some .json)
    (ha : types W Γ args = some ts) (hp : pick W.funcs f ts = some .string ∨ pick W.funcs f ts = some .json)
    (hc : SerClear n Γ) : SerRun W R Γ (.assign tgt (fnCall f args) .done) (hidden Γ [f]) n n := by
  have hh : hidden Γ [f] = Γ.hides f := by simp [hidden]
  rw [hh]
  refine ⟨Nat.le_refl n, fun h => ?_, fun h => ⟨Γ, ?_, .refl Γ, hc⟩⟩
  · simp only [run, ht, typeOf_fn, h, if_true, Option.bind_some, Option.bind_none]
  · simp only [run, ht, typeOf_fn, h, ha, Bool.false_eq_true, if_false, Option.bind_some]
    rcases hp with hp | hp <;> rw [hp] <;> simp [converts]

theorem Extends.serLookup {P Δ} {b : Str} (h : Extends P Γ Δ) (hP : ∀ y, P y → SerTemp (n + 1) y) (hb : b ∈ serNames) :
    typeOf W Δ (t b n) = typeOf W Γ (t b n) := by
  rw [t, typeOf_var, typeOf_var]
  exact h.lookup fun y hy => (hP y hy).fresh.ne_temp (Nat.lt_succ_self n) ((by decide : ∀ b ∈ serNames, b ∈ tempNames) b hb)

/-- The code of a value -/
theorem run_serializeValue (hd : dateH cpp = .ok date) : ∀ (ty : Ty) {tgt x : Expr} {n : Nat} {code : Code} {m : Nat} {t : CTy}
    {Γ : Env}, serializeValue cpp ty tgt x n = .ok (code, m) → typeRepr cpp ty = .ok t → Writes W date ty →
    (Always (SerTemp n) Γ fun Δ => typeOf W Δ tgt = some .json) → (Always (SerTemp n) Γ fun Δ => typeOf W Δ x = some t) →
    (Always (SerTemp n) Γ fun Δ => ∀ s ∈ W.structs, Δ.hides s.1 = false) → SerClear n Γ → SerRun W R Γ code (hidden Γ (uses date ty)) n m := by
  intro ty
  induction ty with
  | boolean => intro tgt x n code m t Γ h ht _ hg hx hs hc; cases h; cases ht; exact serRun_assign hg.now hx.now rfl hc
  | integer _ => intro tgt x n code m t Γ h ht _ hg hx hs hc; cases h; cases ht; exact serRun_assign hg.now hx.now rfl hc
  | float _ => intro tgt x n code m t Γ h ht _ hg hx hs hc; cases h; cases ht; exact serRun_assign hg.now hx.now rfl hc
  | string _ => intro tgt x n code m t Γ h ht _ hg hx hs hc; cases h; cases ht; exact serRun_assign hg.now hx.now rfl hc
  | path _ =>
    intro tgt x n code m t Γ h ht _ hg hx hs hc
    simp only [typeRepr] at ht
    obtain ⟨b, _, ht⟩ := ok_bind ht
    cases h; cases ht
    exact serRun_assign hg.now (s := .string) (by rw [typeOf_call₀, hx.now]; exact path_string b) rfl hc
  | date f =>
    intro tgt x n code m t Γ h ht hw hg hx hs hc
    simp only [serializeValue, hd] at h
    simp only [typeRepr, hd] at ht
    cases h; cases ht
    rw [formatted, uses]
    by_cases hf : f = []
    · rw [if_pos hf, if_pos (by simp [hf])]
      exact serRun_assign hg.now typeOf_text rfl hc
    · cases date with
      | true =>
        rw [if_neg hf, if_pos (by simp)]
        have hx' : typeOf W Γ x = some .localDays := hx.now
        exact serRun_assign hg.now (s := .string) (by rw [typeOf_lib]; simp [types, typeOf_text, hx', lib_format_days]) rfl hc
      | false =>
        rw [if_neg hf, if_neg (show ¬ (false || decide (f = [])) = true by simpa using hf)]
        have hx' : typeOf W Γ x = some .tm := hx.now
        exact serRun_call hg.now (args := [x, .text]) (ts := [.tm, .text]) (by simp [types, hx', typeOf_text]) (.inl (hw rfl hf).pick) hc
  | time f =>
    intro tgt x n code m t Γ h ht hw hg hx hs hc
    simp only [serializeValue, hd] at h
    simp only [typeRepr, hd] at ht
    cases h; cases ht
    rw [formatted, uses]
    by_cases hf : f = []
    · rw [if_pos hf, if_pos (by simp [hf])]
      exact serRun_assign hg.now typeOf_text rfl hc
    · cases date with
      | true =>
        rw [if_neg hf, if_pos (by simp)]
        have hx' : typeOf W Γ x = some .timeOfDay := hx.now
        exact serRun_assign hg.now (s := .string) (by
          rw [typeOf_lib]; simp [types, typeOf_text, typeOf_call₀, hx', time_duration, lib_format_seconds]) rfl hc
      | false =>
        rw [if_neg hf, if_neg (show ¬ (false || decide (f = [])) = true by simpa using hf)]
        have hx' : typeOf W Γ x = some .tm := hx.now
        exact serRun_call hg.now (args := [x, .text]) (ts := [.tm, .text]) (by simp [types, hx', typeOf_text]) (.inl (hw rfl hf).pick) hc
  | datetime f =>
    intro tgt x n code m t Γ h ht hw hg hx hs hc
    simp only [serializeValue, hd] at h
    simp only [typeRepr, hd] at ht
    cases h; cases ht
    rw [formatted, uses]
    by_cases hf : f = []
    · rw [if_pos hf, if_pos (by simp [hf])]
      exact serRun_assign hg.now typeOf_text rfl hc
    · cases date with
      | true =>
        rw [if_neg hf, if_pos (by simp)]
        have hx' : typeOf W Γ x = some .localSeconds := hx.now
        exact serRun_assign hg.now (s := .string) (by rw [typeOf_lib]; simp [types, typeOf_text, hx', lib_format_local]) rfl hc
      | false =>
        rw [if_neg hf, if_neg (show ¬ (false || decide (f = [])) = true by simpa using hf)]
        have hx' : typeOf W Γ x = some .tm := hx.now
        exact serRun_call hg.now (args := [x, .text]) (ts := [.tm, .text]) (by simp [types, hx', typeOf_text]) (.inl (hw rfl hf).pick) hc
  | timeZone =>
    intro tgt x n code m t Γ h ht hw hg hx hs hc
    simp only [serializeValue, hd] at h
    simp only [typeRepr, hd] at ht
    cases h; cases ht
    cases date with
    | true => exact serRun_assign hg.now (s := .string) (by rw [if_pos rfl, typeOf_via₀, hx.now]; exact zone_name) rfl hc
    | false => exact serRun_assign hg.now hx.now rfl hc
  | duration =>
    intro tgt x n code m t Γ h ht hw hg hx hs hc
    cases h; cases ht
    exact serRun_call hg.now (ts := [.nanoseconds]) (by simp [types, hx.now]) (.inl hw.pick) hc
  | cls c =>
    intro tgt x n code m t Γ h ht hw hg hx hs hc
    simp only [typeRepr] at ht
    obtain ⟨i, hi, ht⟩ := ok_bind ht
    cases h; cases ht
    obtain rfl := idOf_eq hi
    exact serRun_assign hg.now (s := .string) (by rw [type_member hx.now]; exact hw.2) rfl hc
  | embed c =>
    intro tgt x n code m t Γ h ht hw hg hx hs hc
    simp only [typeRepr] at ht
    obtain ⟨i, hi, ht⟩ := ok_bind ht
    simp only [serializeValue] at h
    obtain ⟨f, hf, h⟩ := ok_bind h
    cases h; cases ht
    obtain ⟨_, s, hsig, hk⟩ := hw
    simp only [serializeDecl, hf, hi] at hsig
    cases hsig
    obtain ⟨rfl, _⟩ := PyCode.asVariable_eq hf
    exact serRun_call hg.now (ts := [.struct i]) (by simp [types, hx.now]) (.inr hk.pick) hc
  | array y lo hi ih =>
    intro tgt x n code m t' Γ h ht hw hg hx hs hc
    simp only [serializeValue] at h
    obtain ⟨⟨item, k⟩, hitem, h⟩ := ok_bind h
    simp only [typeRepr] at ht
    obtain ⟨ty, hty, ht⟩ := ok_bind ht
    cases h; cases ht
    have e1 : Extends (SerTemp n) Γ (Γ.push (.temp c!"target" n []) .json) := (Extends.refl Γ).push (serTemp (by decide))
    have hvec : ∀ s, Extends (SerTemp n) Γ ((Γ.push (.temp c!"target" n []) .json).push (.temp c!"vector" n []) s) := fun s =>
      e1.push (serTemp (by decide))
    rw [SerRun]
    rw [run_decl temp_keyword (fun a ha => (hc a ha _ (serTemp (by decide))).symm) (typeOk_plain rfl) typeOf_kind (by decide)]
    rw [run_auto temp_keyword ?_ (hx _ (hvec .void)) (by simp)]
    · generalize hΘ : (Γ.push (.temp c!"target" n []) .json).push (.temp c!"vector" n []) (.vector ty) = Θ
      have eΘ : Extends (SerTemp n) Γ Θ := hΘ ▸ hvec _
      generalize hΦ : Θ.enter.push (.temp c!"i" n []) .int = Φ
      have eΦ : Extends (SerTemp n) Γ Φ := hΦ ▸ eΘ.enter.push (serTemp (by decide))
      have htgt : typeOf W Φ (t c!"target" n) = some .json := by rw [← hΦ, ← hΘ]; found
      have hv : typeOf W Φ (t c!"vector" n) = some (.vector ty) := by rw [← hΦ, ← hΘ]; found
      have hiv : typeOf W Φ (t c!"i" n) = some .int := by rw [← hΦ, ← hΘ]; found
      have hrec := ih (Γ := Φ) hitem hty hw ?_ ?_ (hs.of (fun _ h => h.mono (Nat.le_succ n)) eΦ) ?_
      · have hhid : hidden Φ (uses date y) = hidden Γ (uses date (.array y lo hi)) := hidden_extends eΦ
        obtain ⟨h1, h2, h3⟩ := hrec
        rw [hhid] at h2 h3
        refine ⟨by omega, fun hh => ?_, fun hh => ?_⟩
        · simp only [run]
          rw [declare_eq temp_keyword (by simp) (typeOk_plain rfl), Option.bind_some, hΦ]
          simp only [type_num (by decide : (0 : Int).natAbs < 2 ^ 63), Option.bind_some, converts_refl, if_true, typeOf_cmp, hiv,
            typeOf_call₀, hv, vector_size, comparable, CTy.number, testable, h2 hh, Bool.and_self, Option.bind_none]
        · obtain ⟨Ψ, hΨ, eΨ, _⟩ := h3 hh
          refine ⟨Θ, ?_, eΘ, ?_⟩
          · simp only [run]
            rw [declare_eq temp_keyword (by simp) (typeOk_plain rfl), Option.bind_some, hΦ]
            have hb : typeOf W Θ tgt = some .json := hg _ eΘ
            have hb' : typeOf W Θ (t c!"target" n) = some .json := by rw [← hΘ]; found
            simp only [type_num (by decide : (0 : Int).natAbs < 2 ^ 63), Option.bind_some, converts_refl, if_true, typeOf_cmp, hiv,
              typeOf_call₀, hv, vector_size, comparable, CTy.number, testable, hΨ, Bool.and_self, hb, typeOf_move, hb']
          · intro e he y hy
            rw [← hΘ] at he
            simp only [push_block, List.mem_cons] at he
            rcases he with rfl | rfl | he
            · exact (hy.mono (m := k) (n := n + 1) h1).fresh.ne_temp (Nat.lt_succ_self n) (by decide)
            · exact (hy.mono (m := k) (n := n + 1) h1).fresh.ne_temp (Nat.lt_succ_self n) (by decide)
            · exact hc e he y (hy.mono (by omega))
      · intro Δ hΔ
        show typeOf W Δ _ = _
        rw [typeOf_index, hΔ.serLookup (fun _ h => h) (by decide), hΔ.serLookup (fun _ h => h) (by decide), htgt, hiv]
        rfl
      · intro Δ hΔ
        show typeOf W Δ _ = _
        rw [typeOf_index, hΔ.serLookup (fun _ h => h) (by decide), hΔ.serLookup (fun _ h => h) (by decide), hv, hiv]
        rfl
      · intro e he y hy
        rw [← hΦ] at he
        simp only [push_block, enter_block, List.mem_singleton] at he
        subst he
        exact hy.fresh.ne_temp (Nat.lt_succ_self n) (by decide)
    · intro a ha
      rw [push_block, List.mem_cons] at ha
      rcases ha with rfl | ha
      · simp [Var.text]
      · exact (hc a ha _ (serTemp (by decide))).symm
  | map y ih =>
    intro tgt x n code m t' Γ h ht hw hg hx hs hc
    simp only [serializeValue] at h
    obtain ⟨⟨item, k⟩, hitem, h⟩ := ok_bind h
    simp only [typeRepr] at ht
    obtain ⟨ty, hty, ht⟩ := ok_bind ht
    cases h; cases ht
    have e1 : Extends (SerTemp n) Γ (Γ.push (.temp c!"target" n []) .json) := (Extends.refl Γ).push (serTemp (by decide))
    have hmap : ∀ s, Extends (SerTemp n) Γ ((Γ.push (.temp c!"target" n []) .json).push (.temp c!"map" n []) s) := fun s =>
      e1.push (serTemp (by decide))
    rw [SerRun]
    rw [run_decl temp_keyword (fun a ha => (hc a ha _ (serTemp (by decide))).symm) (typeOk_plain rfl) typeOf_kind (by decide)]
    rw [run_auto temp_keyword ?_ (hx _ (hmap .void)) (by simp)]
    · generalize hΘ : (Γ.push (.temp c!"target" n []) .json).push (.temp c!"map" n []) (.map ty) = Θ
      have eΘ : Extends (SerTemp n) Γ Θ := hΘ ▸ hmap _
      generalize hΦ : Θ.enter.push (.temp c!"kv" n []) (.pair ty) = Φ
      have eΦ : Extends (SerTemp n) Γ Φ := hΦ ▸ eΘ.enter.push (serTemp (by decide))
      have htgt : typeOf W Φ (t c!"target" n) = some .json := by rw [← hΦ, ← hΘ]; found
      have hv : typeOf W Θ (t c!"map" n) = some (.map ty) := by rw [← hΘ]; found
      have hkv : typeOf W Φ (t c!"kv" n) = some (.pair ty) := by rw [← hΦ, ← hΘ]; found
      have hok : typeOk W Θ.enter (.pair ty) = true := typeOk_of (written_names hty hw) (hs _ eΘ.enter)
      have hrec := ih (Γ := Φ) hitem hty hw ?_ ?_ (hs.of (fun _ h => h.mono (Nat.le_succ n)) eΦ) ?_
      · have hhid : hidden Φ (uses date y) = hidden Γ (uses date (.map y)) := hidden_extends eΦ
        obtain ⟨h1, h2, h3⟩ := hrec
        rw [hhid] at h2 h3
        refine ⟨by omega, fun hh => ?_, fun hh => ?_⟩
        · simp only [run]
          rw [hv]
          simp only [Option.bind_some, CppCode.item, loopOk, if_true, Option.getD_none]
          rw [declare_eq temp_keyword (by simp) hok, Option.bind_some, hΦ, h2 hh]
          rfl
        · obtain ⟨Ψ, hΨ, eΨ, _⟩ := h3 hh
          refine ⟨Θ, ?_, eΘ, ?_⟩
          · simp only [run]
            rw [hv]
            simp only [Option.bind_some, CppCode.item, loopOk, if_true, Option.getD_none]
            rw [declare_eq temp_keyword (by simp) hok, Option.bind_some, hΦ, hΨ]
            have hb : typeOf W Θ tgt = some .json := hg _ eΘ
            have hb' : typeOf W Θ (t c!"target" n) = some .json := by rw [← hΘ]; found
            simp only [Option.bind_some, converts_refl, if_true, hb, typeOf_move, hb']
          · intro e he y hy
            rw [← hΘ] at he
            simp only [push_block, List.mem_cons] at he
            rcases he with rfl | rfl | he
            · exact (hy.mono (m := k) (n := n + 1) h1).fresh.ne_temp (Nat.lt_succ_self n) (by decide)
            · exact (hy.mono (m := k) (n := n + 1) h1).fresh.ne_temp (Nat.lt_succ_self n) (by decide)
            · exact hc e he y (hy.mono (by omega))
      · intro Δ hΔ
        show typeOf W Δ _ = _
        rw [typeOf_index, typeOf_dot, hΔ.serLookup (fun _ h => h) (by decide), hΔ.serLookup (fun _ h => h) (by decide), htgt, hkv]
        rfl
      · intro Δ hΔ
        show typeOf W Δ _ = _
        rw [typeOf_dot, hΔ.serLookup (fun _ h => h) (by decide), hkv]
        rfl
      · intro e he y hy
        rw [← hΦ] at he
        simp only [push_block, enter_block, List.mem_singleton] at he
        subst he
        exact hy.fresh.ne_temp (Nat.lt_succ_self n) (by decide)
    · intro a ha
      rw [push_block, List.mem_cons] at ha
      rcases ha with rfl | ha
      · simp [Var.text]
      · exact (hc a ha _ (serTemp (by decide))).symm

/-! ## Properties -/

theorem SerClear.mono {m : Nat} (h : n ≤ m) (hc : SerClear n Γ) : SerClear m Γ := fun e he y hy => hc e he y (hy.mono h)

theorem serClear_enter : SerClear n Γ.enter := by intro e he; cases he

/-- What the code of a property refers to -/
structure InSer (W : World) (f X : Str) (Γ : Env) : Prop where
  obj : typeOf W Γ (.var (objVar f)) = some (.struct X)
  result : typeOf W Γ (.var (asValue f)) = some .json
  types : ∀ s ∈ W.structs, Γ.hides s.1 = false

/-- The functions which are called in the code of the properties -/
def usesAll (date : Bool) (ps : List Property) : List Str := ps.flatMap fun p => uses date p.ty

/-- The code of the properties of the composite and the members for them -/
def SerMembers (W : World) (date : Bool) (cpp : Cpp) (X : Str) (ps : List Property) : Prop :=
  ∀ p ∈ ps, Writes W date p.ty ∧ ∃ t, typeRepr cpp p.ty = .ok t ∧ member W (.struct X) p.name = some (memberType p t)

theorem run_serializeProperty (hd : dateH cpp = .ok date) {f X : Str} {p : Property} {code : Code} {m : Nat} {ty : CTy}
    (h : serializeProperty cpp f p n = .ok (code, m)) (hty : typeRepr cpp p.ty = .ok ty) (hw : Writes W date p.ty)
    (hm : member W (.struct X) p.name = some (memberType p ty)) (hin : Always (SerTemp n) Γ (InSer W f X)) (hc : SerClear n Γ) :
    SerRun W R Γ code (hidden Γ (uses date p.ty)) n m := by
  have htgt : ∀ Δ, Extends (SerTemp n) Γ Δ → typeOf W Δ (.index (.var (asValue f)) .text) = some .json := by
    intro Δ hΔ
    rw [typeOf_index, (hin Δ hΔ).result]
    rfl
  have hx : ∀ Δ, Extends (SerTemp n) Γ Δ → typeOf W Δ (.dot (.var (objVar f)) p.name) = some (memberType p ty) := by
    intro Δ hΔ
    rw [typeOf_dot, (hin Δ hΔ).obj]
    exact hm
  unfold serializeProperty at h
  cases hopt : p.optional with
  | false =>
    rw [memberType, hopt] at hx
    simp only [hopt, Bool.false_eq_true, if_false] at h hx
    exact run_serializeValue hd p.ty h hty hw htgt hx (fun Δ hΔ => (hin Δ hΔ).types) hc
  | true =>
    rw [memberType, hopt] at hx
    simp only [hopt, if_true] at h hx
    obtain ⟨⟨c, k⟩, hcode, h⟩ := ok_bind h
    cases h
    obtain ⟨h1, h2, h3⟩ := run_serializeValue (R := R) (Γ := Γ.enter) hd p.ty hcode hty hw (fun Δ hΔ => htgt Δ hΔ.of_enter)
      (fun Δ hΔ => by show typeOf W Δ _ = _; rw [typeOf_star, hx Δ hΔ.of_enter]; rfl) (fun Δ hΔ => (hin Δ hΔ.of_enter).types) serClear_enter
    rw [hidden_extends (n := n) (Extends.refl Γ).enter] at h2 h3
    refine ⟨h1, fun hh => ?_, fun hh => ⟨Γ, ?_, .refl Γ, hc.mono h1⟩⟩
    · rw [run_ifThen, hx _ (.refl Γ), h2 hh]
      simp [testable]
    · obtain ⟨Δ, hΔ, _⟩ := h3 hh
      rw [run_ifThen, hx _ (.refl Γ), hΔ]
      simp [testable]

theorem hidden_append (fs gs : List Str) : hidden Γ (fs ++ gs) = (hidden Γ fs || hidden Γ gs) := List.any_append

theorem run_serializeProps (hd : dateH cpp = .ok date) {f X : Str} : ∀ {ps : List Property} {n : Nat} {code : Code} {Γ : Env},
    serializeProps cpp f ps n = .ok code → SerMembers W date cpp X ps → Always (SerTemp n) Γ (InSer W f X) → SerClear n Γ →
    ∃ m, SerRun W R Γ code (hidden Γ (usesAll date ps)) n m
  | [], n, _, Γ, h, _, _, hc => by
    cases h
    exact ⟨n, Nat.le_refl n, fun hh => by simp [hidden, usesAll] at hh, fun _ => ⟨Γ, rfl, .refl Γ, hc⟩⟩
  | p :: ps, n, code, Γ, h, hm, hin, hc => by
    simp only [serializeProps] at h
    obtain ⟨⟨c, m⟩, hcode, h⟩ := ok_bind h
    obtain ⟨rest, hrest, h⟩ := ok_bind h
    cases h
    obtain ⟨hw, ty, hty, hmem⟩ := hm p (by simp)
    obtain ⟨h1, h2, h3⟩ := run_serializeProperty (R := R) hd hcode hty hw hmem hin hc
    have hcons : hidden Γ (usesAll date (p :: ps)) = (hidden Γ (uses date p.ty) || hidden Γ (usesAll date ps)) := by
      rw [usesAll, List.flatMap_cons, hidden_append]
      rfl
    rw [hcons]
    cases hh : hidden Γ (uses date p.ty) with
    | true =>
      refine ⟨m, h1, fun _ => ?_, fun e => by simp at e⟩
      rw [run_append, h2 hh]
      rfl
    | false =>
      obtain ⟨Δ, hΔ, eΔ, cΔ⟩ := h3 hh
      have hle := h1
      obtain ⟨k, i1, i2, i3⟩ := run_serializeProps (Γ := Δ) hd hrest (fun q hq => hm q (by simp [hq]))
        (hin.of (fun _ hx => hx.mono hle) eΔ) cΔ
      have hall : hidden Δ (usesAll date ps) = hidden Γ (usesAll date ps) := by
        rw [Bool.eq_iff_iff]
        simp only [hidden, usesAll, List.any_eq_true, List.mem_flatMap]
        constructor
        · rintro ⟨u, ⟨q, hq, hu⟩, e⟩
          exact ⟨u, ⟨q, hq, hu⟩, by rw [← e, eΔ.hides fun y hy => temp_uses hu hy]⟩
        · rintro ⟨u, ⟨q, hq, hu⟩, e⟩
          exact ⟨u, ⟨q, hq, hu⟩, by rw [← e, eΔ.hides fun y hy => temp_uses hu hy]⟩
      rw [hall] at i2 i3
      refine ⟨k, Nat.le_trans h1 i1, fun e => ?_, fun e => ?_⟩
      · rw [run_append, hΔ]
        exact i2 (by simpa using e)
      · obtain ⟨Θ, hΘ, eΘ, cΘ⟩ := i3 (by simpa using e)
        refine ⟨Θ, ?_, eΔ.trans (eΘ.mono fun _ hx => hx.mono hle), cΘ⟩
        rw [run_append, hΔ]
        exact hΘ

/-! ## Classes and embeds -/

/-- The name is not the one of a variable with an identifier. -/
def TempFree (f : Str) : Prop := ∀ b ∈ serNames, ∀ k, f ≠ b ++ '_' :: Text.natStr k

theorem TempFree.ne {f : Str} (h : TempFree f) : ∀ {x : Var}, SerTemp n x → x.text ≠ f
  | .temp b k a, ⟨hb, _, ha⟩ => by
    subst ha
    intro e
    exact h b hb k (by rw [← e]; simp [Var.text])

theorem asValue_keyword (f : Str) : f ++ c!"_as_value" ∉ keywords := by
  intro h
  have : ∀ w ∈ keywords, w.drop (w.length - 9) ≠ c!"_as_value" := by decide +kernel
  exact this _ h (List.drop_left' (by simp))

theorem asValue_ne (f : Str) : f ++ c!"_as_value" ≠ f := by
  intro h
  have := congrArg List.length h
  simp at this

theorem serTemp_asValue {x : Var} (h : SerTemp n x) (f : Str) : x.text ≠ f ++ c!"_as_value" :=
  h.fresh.ne_end (by decide) (by decide) (by decide) (by decide +kernel)

/-- The variables of a serializer after the declaration of its result -/
def serEnv (f X : Str) : Env := ⟨[(asValue f, .json), (objVar f, .struct X)], []⟩

/-- None of the functions is hidden by the parameter or the result. -/
def unhidden (f : Str) (fs : List Str) : Bool := fs.all fun u => u != f && u != f ++ c!"_as_value"

theorem hides_serEnv (f X u : Str) : (serEnv f X).hides u = (u == f || u == f ++ c!"_as_value") := by
  rw [Bool.eq_iff_iff]
  simp only [Env.hides, serEnv, Env.all, List.append_nil, List.any_cons, List.any_nil, Bool.or_false, Bool.or_eq_true, beq_iff_eq,
    asValue, objVar, Var.text]
  constructor
  · rintro (h | h)
    · exact .inr h.symm
    · exact .inl h.symm
  · rintro (h | h)
    · exact .inr h.symm
    · exact .inl h.symm

theorem hidden_serEnv (f X : Str) (fs : List Str) : hidden (serEnv f X) fs = !unhidden f fs := by
  rw [Bool.eq_iff_iff]
  simp only [hidden, unhidden, List.any_eq_true, hides_serEnv, Bool.not_eq_true', List.all_eq_false, Bool.or_eq_true, beq_iff_eq,
    Bool.and_eq_true, bne_iff_ne, Decidable.not_and_iff_not_or_not, Decidable.not_not, ne_eq]

theorem clear_serEnv {f X : Str} (hfree : TempFree f) : SerClear 0 (serEnv f X) := by
  intro e he y hy
  simp only [serEnv, List.mem_cons, List.not_mem_nil, or_false] at he
  rcases he with rfl | rfl
  · exact serTemp_asValue hy f
  · have := hfree.ne hy
    simpa [objVar, Var.text] using this

theorem inSer_serEnv (hf : Facts g) (hW : Declares W g) {f X : Str} (hfirst : ∃ c cs, f = c :: cs ∧ isUpper c = false)
    (hfree : TempFree f) : Always (SerTemp 0) (serEnv f X) (InSer W f X) := by
  intro Δ hΔ
  refine ⟨?_, ?_, ?_⟩
  · rw [typeOf_var, hΔ.lookup (x := objVar f) (fun y hy => by have := hfree.ne hy; simpa [objVar, Var.text] using this)]
    simp [Env.lookup, serEnv, Env.all, asValue, objVar, Var.text]
  · rw [typeOf_var, hΔ.lookup (x := asValue f) (fun y hy => serTemp_asValue hy f)]
    simp [Env.lookup, serEnv, Env.all, asValue, Var.text]
  · intro s hs
    have hup := hW.upper hf hs
    rw [hΔ.hides fun y hy => upper_ne hy.fresh.first hup, hides_serEnv, Bool.or_eq_false_iff]
    obtain ⟨c, cs, rfl, hc⟩ := hfirst
    exact ⟨by simpa using (upper_ne ⟨c, cs, rfl, hc⟩ hup).symm, by simpa using (upper_ne ⟨c, _, rfl, hc⟩ hup).symm⟩

/-- The parameter is declared. -/
theorem declare_obj (hW : Declares W g) {name f : Str} (hname : name ∈ allNames g) :
    declareAll W ⟨[], []⟩ [(objVar f, .struct (idOf name))] =
      if f ∈ keywords then none else some ⟨[(objVar f, .struct (idOf name))], []⟩ := by
  have ht : typeOk W ⟨[], []⟩ (.struct (idOf name)) = true := by
    refine typeOk_of ?_ fun s _ => rfl
    intro m hm
    simp only [CTy.names, List.mem_singleton] at hm
    exact (hW m).2 ⟨name, hname, hm⟩
  simp only [declareAll, Env.declare, ht, List.any_nil, Bool.or_false, Bool.not_true, objVar, Var.text, List.append_nil]
  by_cases hk : f ∈ keywords <;> simp [hk]

/-- The result is declared. -/
theorem run_result {f X : Str} {rest : Code} :
    run W R ⟨[(objVar f, .struct X)], []⟩ (.decl (asValue f) .json none rest) = run W R (serEnv f X) rest := by
  rw [run_decl₀ (x := asValue f) (asValue_keyword f) (by simp [objVar, asValue, Var.text]) (typeOk_plain rfl)]
  rfl

theorem serializeComposite_ok (hf : Facts g) (hW : Declares W g) (hd : dateH cpp = .ok date) {name : Str} {ps : List Property} {f : Func}
    (hname : name ∈ allNames g) (hm : SerMembers W date cpp (idOf name) ps) (hfree : TempFree (lower name))
    (h : serializeComposite cpp name ps = .ok f) :
    f.ok W = (!decide (lower name ∈ keywords) && unhidden (lower name) (usesAll date ps)) := by
  unfold serializeComposite at h
  obtain ⟨f', hf', h⟩ := ok_bind h
  obtain ⟨X, hX, h⟩ := ok_bind h
  obtain ⟨props, hprops, h⟩ := ok_bind h
  cases h
  obtain rfl := idOf_eq hX
  obtain ⟨rfl, d, ds, hu, _⟩ := PyCode.asVariable_eq hf'
  rw [Func.ok]
  simp only
  rw [declare_obj hW hname]
  by_cases hk : lower name ∈ keywords
  · simp [hk]
  rw [if_neg hk, Option.bind_some]
  simp only [hk, decide_false, Bool.not_false, Bool.true_and]
  split
  · rename_i h0
    rw [List.length_eq_zero_iff] at h0
    subst h0
    simp [run, typeOf_kind, converts, unhidden, usesAll]
  · rw [run_result, run_append]
    have hfirst := lower_first hu []
    rw [List.append_nil] at hfirst
    obtain ⟨m, _, h2, h3⟩ := run_serializeProps (R := .json) hd hprops hm (inSer_serEnv hf hW (X := idOf name) hfirst hfree)
      (clear_serEnv hfree)
    rw [hidden_serEnv] at h2 h3
    cases hun : unhidden (lower name) (usesAll date ps) with
    | false => rw [h2 (by simp [hun])]; rfl
    | true =>
      obtain ⟨Δ, hΔ, eΔ, _⟩ := h3 (by simp [hun])
      rw [hΔ, Option.bind_some]
      simp only [run, (inSer_serEnv hf hW hfirst hfree Δ eΔ).result, Option.bind_some, converts_refl, if_true, Option.isSome_some]

end Mapry.CppCode
