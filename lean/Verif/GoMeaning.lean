import Verif.GoValidated

/-!
# The texts of the names in the generated Go code

The names of a function are recovered from their texts.
-/

namespace Mapry.GoCode

open Mapry.TypeGraph Mapry.Naming

/-! ## Codes all of whose names satisfy a predicate -/

/-- All the names in the code satisfy the predicate. -/
def Code.All (P : Name → Prop) : Code → Prop
  | .done => True
  | .use xs c => (∀ x ∈ xs, P x) ∧ c.All P
  | .assign xs c => (∀ x ∈ xs, P x) ∧ c.All P
  | .decl xs c => (∀ x ∈ xs, P x) ∧ c.All P
  | .block b c => b.All P ∧ c.All P

theorem all_append {P : Name → Prop} {c d : Code} : (c ++ d).All P ↔ c.All P ∧ d.All P := by
  induction c with
  | done => simp [Code.All]
  | use xs c ih => simp [Code.All, ih, and_assoc]
  | assign xs c ih => simp [Code.All, ih, and_assoc]
  | decl xs c ih => simp [Code.All, ih, and_assoc]
  | block b c _ ih => simp [Code.All, ih, and_assoc]

theorem all_concat {P : Name → Prop} {cs : List Code} (h : ∀ c ∈ cs, c.All P) : (concat cs).All P := by
  induction cs with
  | nil => trivial
  | cons c cs ih =>
    exact all_append.2 ⟨h c (List.mem_cons_self ..), ih fun d hd => h d (List.mem_cons_of_mem _ hd)⟩

theorem all_free {P : Name → Prop} {c : Code} (h : c.All P) : ∀ x ∈ c.free, P x := by
  induction c with
  | done => simp [Code.free]
  | use xs c ih => simp only [Code.free, List.mem_append]; exact fun x hx => hx.elim (h.1 x) (ih h.2 x)
  | assign xs c ih => simp only [Code.free, List.mem_append]; exact fun x hx => hx.elim (h.1 x) (ih h.2 x)
  | decl xs c ih => intro x hx; exact ih h.2 x (List.mem_filter.1 hx).1
  | block b c ihb ih => simp only [Code.free, List.mem_append]; exact fun x hx => hx.elim (ihb h.1 x) (ih h.2 x)

theorem all_decls {P : Name → Prop} {c : Code} (h : c.All P) : ∀ x ∈ c.decls, P x := by
  induction c with
  | done => simp [Code.decls]
  | use xs c ih => exact ih h.2
  | assign xs c ih => exact ih h.2
  | decl xs c ih => simp only [Code.decls, List.mem_append]; exact fun x hx => hx.elim (h.1 x) (ih h.2 x)
  | block b c _ ih => exact ih h.2

/-- Different names which satisfy the predicate have different texts. -/
def Apart (P : Name → Prop) : Prop := ∀ x y, P x → P y → x.text = y.text → x = y

theorem nodup_texts {P : Name → Prop} (hP : Apart P) {l : List Name} (hl : ∀ x ∈ l, P x) (h : l.Nodup) :
    (l.map Name.text).Nodup := by
  induction l with
  | nil => exact List.nodup_nil
  | cons x l ih =>
    rw [List.nodup_cons] at h
    rw [List.map_cons, List.nodup_cons]
    refine ⟨fun hm => ?_, ih (fun y hy => hl y (List.mem_cons_of_mem _ hy)) h.2⟩
    obtain ⟨y, hy, e⟩ := List.mem_map.1 hm
    exact h.1 (hP y x (hl y (List.mem_cons_of_mem _ hy)) (hl x (List.mem_cons_self ..)) e ▸ hy)

theorem faithful_of {P : Name → Prop} (hP : Apart P) {c : Code} (h : c.All P) (hc : c.Clean) : c.Faithful := by
  induction c with
  | done => trivial
  | use xs c ih => exact ih h.2 hc
  | assign xs c ih => exact ih h.2 hc
  | decl xs c ih => exact ⟨fun x hx y hy e => hP y x (all_free h.2 y hy) (h.1 x hx) e, ih h.2 hc.2⟩
  | block b c ihb ih => exact ⟨nodup_texts hP (all_decls h.1) hc.1, ihb h.1 hc.2.1, ih h.2 hc.2.2⟩

theorem func_faithful {P : Name → Prop} (hP : Apart P) {f : Func} {O : List Name} (hp : ∀ x ∈ f.params, P x)
    (h : f.body.All P) (hs : f.Scoped O) : f.Faithful where
  nodup := nodup_texts hP (fun x hx => (List.mem_append.1 hx).elim (hp x) (all_decls h x)) hs.nodup
  params := fun x hx y hy e => hP y x (all_free h y hy) (hp x hx) e
  body := faithful_of hP h hs.clean

/-! ## The names of the generated functions -/

/-- The variables and parameters without a number. -/
def plains : List Str :=
  [c!"value", c!"id", c!"ref", c!"target", c!"errors", c!"cast", c!"ok", c!"instance", c!"err"]

/-- The variables with a number. -/
def bases : List Str :=
  [c!"cast", c!"ok", c!"fcast", c!"err", c!"target", c!"i", c!"k", c!"item", c!"value", c!"count", c!"slice", c!"v",
   c!"map"]

def packages : List Str := [c!"strings", c!"fmt", c!"math", c!"time", c!"regexp", c!"strconv"]

def helpers : List Str := [c!"addDuration", c!"durationFromString", c!"durationRe", c!"durationToString"]

/-- The first character is a lower-case letter. -/
def lowFirst : Str → Bool
  | [] => false
  | c :: _ => c.isLower

/-- A name in a generated function; `sufs` are the endings of the variables named after classes. -/
inductive Std (sufs : List Str) : Name → Prop where
  | plain (b : Str) (h : b ∈ plains) : Std sufs (v b)
  | num (b : Str) (n : Nat) (h : b ∈ bases) : Std sufs (vi b n)
  | pkg (p : Str) (h : p ∈ packages) : Std sufs (.pkg p)
  | pattern (n : Nat) : Std sufs (.pattern n)
  | unknown : Std sufs (.glob c!"pattern")
  | helper (d : Str) (h : d ∈ helpers) : Std sufs (.glob d)
  | glob (w : Str) (h : lowFirst w = false) : Std sufs (.glob w)
  | own (p s : Str) (hs : s ∈ sufs) (hp : lowFirst p = true) : Std sufs (own [] p s)

/-- The endings in the parser. -/
def parserEndings : List Str := [c!"Registry", c!"Ref", c!"Ok", c!"Value", c!"Map"]

/-- The name which is meant by a text. -/
def readName (sufs : List Str) (t : Str) : Name :=
  if lowFirst t = false then .glob t
  else if t ∈ helpers then .glob t
  else if t.any Char.isUpper then
    match sufs.find? (·.isSuffixOf t) with
    | some s => .own [] (t.take (t.length - s.length)) s
    | none => .glob []
  else if (t.getLast?.map Char.isDigit).getD false then
    let b := t.takeWhile (fun c => !c.isDigit)
    let n := Duration.digitsVal (t.dropWhile (fun c => !c.isDigit))
    if b = c!"pattern" then .pattern n else vi b n
  else if t ∈ packages then .pkg t
  else if t = c!"pattern" then .glob t
  else v t

/-- Texts of lower-case letters. -/
def lowWords : List Str := plains ++ bases ++ packages ++ [c!"pattern"]

theorem lowWords_low : ∀ b ∈ lowWords, b ≠ [] ∧ lowFirst b = true ∧ b ∉ helpers ∧ b.any Char.isUpper = false ∧
    (b.all fun c => !c.isDigit) = true ∧ (b.getLast?.map Char.isDigit).getD false = false := by decide

theorem digit_not_upper {c : Char} (h : c.isDigit = true) : c.isUpper = false := by
  rw [Bool.eq_false_iff]
  intro hu
  simp only [Char.isDigit, Char.isUpper, Bool.and_eq_true, decide_eq_true_eq, ge_iff_le] at h hu
  exact absurd (UInt32.le_trans hu.1 h.2) (by decide)

theorem readName_numbered (sufs : List Str) {b : Str} (hb : b ∈ lowWords) (n : Nat) :
    readName sufs (b ++ Text.natStr n) = if b = c!"pattern" then .pattern n else vi b n := by
  obtain ⟨hne, hlow, _, hup, hdig, _⟩ := lowWords_low b hb
  have hd := Duration.natStr_digits n
  have hn := Duration.natStr_ne_nil n
  have hnu : (b ++ Text.natStr n).any Char.isUpper = false := by
    rw [List.any_append, hup, Bool.false_or, List.any_eq_false]
    intro c hc
    rw [digit_not_upper (hd c hc)]
    simp
  have h1 : lowFirst (b ++ Text.natStr n) = true := by
    cases b with
    | nil => exact absurd rfl hne
    | cons c b => exact hlow
  have h2 : b ++ Text.natStr n ∉ helpers := by
    intro h
    have : ∀ d ∈ helpers, d.any Char.isUpper = true := by decide
    rw [this _ h] at hnu
    cases hnu
  have hl : ((b ++ Text.natStr n).getLast?.map Char.isDigit).getD false = true := by
    obtain ⟨a, d, e⟩ : ∃ a d, Text.natStr n = a ++ [d] := ⟨_, _, (List.dropLast_concat_getLast hn).symm⟩
    have := hd d (by rw [e]; simp)
    rw [e, ← List.append_assoc, List.getLast?_concat]
    exact this
  have hall : ∀ c ∈ b, (!c.isDigit) = true := List.all_eq_true.1 hdig
  obtain ⟨d, ds, e⟩ : ∃ d ds, Text.natStr n = d :: ds := List.exists_cons_of_ne_nil hn
  have hd0 : (!d.isDigit) = false := by
    have := hd d (by rw [e]; simp)
    unfold Duration.isDig at this
    rw [this]
    rfl
  have h3 : (b ++ Text.natStr n).takeWhile (fun c => !c.isDigit) = b := by
    rw [List.takeWhile_append_of_pos hall, e, List.takeWhile_cons, hd0]
    simp
  have h4 : (b ++ Text.natStr n).dropWhile (fun c => !c.isDigit) = Text.natStr n := by
    rw [List.dropWhile_append_of_pos hall, e, List.dropWhile_cons, hd0]
    simp
  unfold readName
  rw [if_neg (by simp [h1]), if_neg h2, if_neg (by simp [hnu]), if_pos hl]
  simp only [h3, h4, Duration.digitsVal_natStr]

theorem readName_word (sufs : List Str) {b : Str} (hb : b ∈ lowWords) :
    readName sufs b = if b ∈ packages then .pkg b else if b = c!"pattern" then .glob b else v b := by
  obtain ⟨_, hlow, hh, hup, _, hl⟩ := lowWords_low b hb
  unfold readName
  rw [if_neg (by simp [hlow]), if_neg hh, if_neg (by simp [hup]), if_neg (by simp [hl])]

/-- The endings which are used. -/
def Endings (sufs : List Str) : Prop := sufs = parserEndings ∨ sufs = [c!"Instance"]

theorem find_ending {sufs : List Str} (h : Endings sufs) {s : Str} (hs : s ∈ sufs) (p : Str) :
    sufs.find? (·.isSuffixOf (p ++ s)) = some s := by
  rcases h with rfl | rfl
  · simp only [parserEndings, List.mem_cons, List.not_mem_nil, or_false] at hs
    rcases hs with rfl | rfl | rfl | rfl | rfl <;>
      simp [parserEndings, List.find?, List.isSuffixOf, List.isPrefixOf]
  · rw [List.mem_singleton] at hs
    subst hs
    simp [List.find?, List.isSuffixOf, List.isPrefixOf]

/-- The text of a name tells the name. -/
theorem readName_text {sufs : List Str} (hs : Endings sufs) {x : Name} (h : Std sufs x) :
    readName sufs x.text = x := by
  cases h with
  | plain b h =>
    have hw : b ∈ lowWords := by unfold lowWords; simp [h]
    rw [v, Name.text, readName_word _ hw]
    have : ∀ b ∈ plains, b ∉ packages ∧ b ≠ c!"pattern" := by decide
    rw [if_neg (this b h).1, if_neg (this b h).2]
    rfl
  | num b n h =>
    have hw : b ∈ lowWords := by unfold lowWords; simp [h]
    rw [vi, Name.text, readName_numbered _ hw]
    have : ∀ b ∈ bases, b ≠ c!"pattern" := by decide
    rw [if_neg (this b h)]
    rfl
  | pkg p h =>
    have hw : p ∈ lowWords := by unfold lowWords; simp [h]
    rw [Name.text, readName_word _ hw, if_pos h]
  | pattern n =>
    rw [Name.text, readName_numbered _ (by decide), if_pos rfl]
  | unknown =>
    rw [Name.text, readName_word _ (by decide)]
    decide
  | helper d h =>
    have : ∀ d ∈ helpers, lowFirst d = true := by decide
    rw [Name.text, readName, if_neg (by simp [this d h]), if_pos h]
  | glob w h => rw [Name.text, readName, if_pos h]
  | own p s hs' hp =>
    have e : (own [] p s).text = p ++ s := by simp [own, Name.text]
    have hl : lowFirst (p ++ s) = true := by
      cases p with
      | nil => cases hp
      | cons c p => exact hp
    have hup : s.any Char.isUpper = true := by
      have : ∀ s ∈ parserEndings ++ [c!"Instance"], s.any Char.isUpper = true := by decide
      refine this s ?_
      rcases hs with rfl | rfl <;> simp [hs']
    have hh : p ++ s ∉ helpers := by
      intro hm
      have key : ∀ d ∈ helpers, ∀ s ∈ parserEndings ++ [c!"Instance"], ¬ s <:+ d := by decide
      refine key _ hm s ?_ ⟨p, rfl⟩
      rcases hs with rfl | rfl <;> simp [hs']
    rw [e, readName, if_neg (by simp [hl]), if_neg hh, if_pos (by simp [hup]), find_ending hs hs']
    simp [own]

theorem apart_std {sufs : List Str} (hs : Endings sufs) : Apart (Std sufs) := by
  intro x y hx hy e
  rw [← readName_text hs hx, ← readName_text hs hy, e]

/-! ## The parser -/

theorem isLower_iff (c : Char) : c.isLower = true ↔ 97 ≤ c.toNat ∧ c.toNat ≤ 122 := by
  unfold Char.isLower
  simp only [UInt32.le_iff_toNat_le, ge_iff_le, Bool.and_eq_true, decide_eq_true_eq]
  exact Iff.rfl

theorem low_ucamel {s u : Str} (h : ucamelCase s = .ok u) (t : Str) : lowFirst (u ++ t) = false := by
  obtain ⟨_, c, cs, rfl, hc⟩ := camel_of h
  show c.isLower = false
  rw [Bool.eq_false_iff]
  intro hl
  rw [isLower_iff] at hl
  have := congrArg Char.toNat hc
  rw [toNat_toUpper, if_pos hl] at this
  omega

theorem std_ucamel {sufs : List Str} {s u : Str} (h : ucamelCase s = .ok u) (t : Str) : Std sufs (.glob (u ++ t)) :=
  .glob _ (low_ucamel h t)

theorem std_ucamel' {sufs : List Str} {s u : Str} (h : ucamelCase s = .ok u) : Std sufs (.glob u) := by
  have := std_ucamel (sufs := sufs) h []
  rwa [List.append_nil] at this

theorem std_pattern {sufs : List Str} (uids : List (Str × Nat)) (p : Str) : Std sufs (patternName uids p) := by
  unfold patternName
  split
  · exact .pattern _
  · exact .unknown

theorem std_typeNames {sufs : List Str} {t : Ty} {ns : List Name} (h : typeNames t = .ok ns) : ∀ x ∈ ns, Std sufs x := by
  have ht : Std sufs time := .pkg _ (by decide)
  induction t generalizing ns with
  | array t lo hi ih => exact ih h
  | map t ih => exact ih h
  | cls n =>
    obtain ⟨u, hu, h⟩ := ok_bind h
    cases h
    intro x hx
    cases List.mem_singleton.1 hx
    exact std_ucamel' hu
  | embed n =>
    obtain ⟨u, hu, h⟩ := ok_bind h
    cases h
    intro x hx
    cases List.mem_singleton.1 hx
    exact std_ucamel' hu
  | _ => cases h; intro x hx; first | (cases List.mem_singleton.1 hx; exact ht) | cases hx

/-- All the names of a target. -/
def Target.All (P : Name → Prop) (t : Target) : Prop := ∀ x ∈ t.uses ++ t.sets ++ t.addr, P x

theorem std_vi {sufs : List Str} {b : Str} (h : b ∈ bases) (n : Nat) : Std sufs (vi b n) := .num b n h

theorem all_store {P : Name → Prop} {tgt : Target} {x : Name} (ht : tgt.All P) (hx : P x) : (store tgt x).All P := by
  unfold Target.All at ht
  simp only [List.mem_append] at ht
  simp only [store, Code.All, List.mem_append, List.mem_singleton, and_true]
  exact ⟨fun y hy => hy.elim (fun hy => ht y (.inl (.inl hy))) fun e => e ▸ hx, fun y hy => ht y (.inl (.inr hy))⟩

section
variable {sufs : List Str}

theorem std_errors : Std sufs errors := .plain _ (by decide)
theorem std_strings : Std sufs strings := .pkg _ (by decide)
theorem std_fmt : Std sufs fmt := .pkg _ (by decide)
theorem std_strconv : Std sufs strconv := .pkg _ (by decide)
theorem std_math : Std sufs math := .pkg _ (by decide)
theorem std_time : Std sufs time := .pkg _ (by decide)

theorem all_report {ref args : List Name} {rest : Code} (hr : ∀ x ∈ ref, Std sufs x) (ha : ∀ x ∈ args, Std sufs x)
    (h : rest.All (Std sufs)) : (report ref args rest).All (Std sufs) := by
  refine ⟨⟨?_, trivial⟩, h⟩
  intro x hx
  simp only [List.cons_append, List.mem_cons, List.mem_append] at hx
  rcases hx with rfl | rfl | hx | rfl | hx
  · exact std_errors
  · exact std_strings
  · exact hr x hx
  · exact std_fmt
  · exact ha x hx

theorem all_use {P : Name → Prop} {xs : List Name} {c : Code} (hx : ∀ x ∈ xs, P x) (h : c.All P) :
    (Code.use xs c).All P := ⟨hx, h⟩

theorem all_use1 {P : Name → Prop} {a : Name} {c : Code} (ha : P a) (h : c.All P) : (Code.use [a] c).All P :=
  ⟨fun x hx => by cases List.mem_singleton.1 hx; exact ha, h⟩

theorem all_use3 {P : Name → Prop} {a b d : Name} {c : Code} (ha : P a) (hb : P b) (hd : P d) (h : c.All P) :
    (Code.use [a, b, d] c).All P :=
  ⟨fun x hx => by
    simp only [List.mem_cons, List.not_mem_nil, or_false] at hx
    rcases hx with rfl | rfl | rfl <;> assumption, h⟩

theorem all_use2 {P : Name → Prop} {a b : Name} {c : Code} (ha : P a) (hb : P b) (h : c.All P) :
    (Code.use [a, b] c).All P :=
  ⟨fun x hx => by
    simp only [List.mem_cons, List.not_mem_nil, or_false] at hx
    rcases hx with rfl | rfl <;> assumption, h⟩

theorem all_decl1 {P : Name → Prop} {a : Name} {c : Code} (ha : P a) (h : c.All P) : (Code.decl [a] c).All P :=
  ⟨fun x hx => by cases List.mem_singleton.1 hx; exact ha, h⟩

theorem all_decl2 {P : Name → Prop} {a b : Name} {c : Code} (ha : P a) (hb : P b) (h : c.All P) :
    (Code.decl [a, b] c).All P :=
  ⟨fun x hx => by
    simp only [List.mem_cons, List.not_mem_nil, or_false] at hx
    rcases hx with rfl | rfl <;> assumption, h⟩

theorem all_otherwise {P : Name → Prop} {c : Code} (h : c.All P) : (otherwise c).All P := ⟨h, trivial⟩

theorem all_castTo {cast : Name} {n : Nat} {value ref : List Name} {rest : Code} (hc : Std sufs cast)
    (hv : ∀ x ∈ value, Std sufs x) (hr : ∀ x ∈ ref, Std sufs x) (h : rest.All (Std sufs)) :
    (castTo cast n value ref rest).All (Std sufs) :=
  ⟨hv, all_decl2 hc (std_vi (by decide) n) (all_use1 (std_vi (by decide) n) (all_report hr hv h))⟩

theorem one {P : Name → Prop} {a : Name} (h : P a) : ∀ x ∈ [a], P x :=
  fun x hx => by cases List.mem_singleton.1 hx; exact h

theorem both {P : Name → Prop} {a b : List Name} (ha : ∀ x ∈ a, P x) (hb : ∀ x ∈ b, P x) : ∀ x ∈ a ++ b, P x :=
  fun x hx => (List.mem_append.1 hx).elim (ha x) (hb x)

theorem all_checkBound {ref : List Name} {b : Option Int} {cast : Name} {rest : Code} (hr : ∀ x ∈ ref, Std sufs x)
    (hc : Std sufs cast) (h : rest.All (Std sufs)) : (checkBound ref b cast rest).All (Std sufs) := by
  unfold checkBound
  split
  · exact all_use1 hc (all_report hr (one hc) h)
  · exact h

theorem all_checkBounds {ref : List Name} {b : Bounds} {cast : Name} {tgt : Target} (hr : ∀ x ∈ ref, Std sufs x)
    (hc : Std sufs cast) (ht : tgt.All (Std sufs)) : (checkBounds ref b cast tgt).All (Std sufs) :=
  all_checkBound hr hc (all_checkBound hr hc (all_otherwise (all_store ht hc)))

theorem all_parseText {ctx : Ctx} {p : Option Str} {value ref : List Name} {tgt : Target} {n : Nat}
    (hv : ∀ x ∈ value, Std sufs x) (ht : tgt.All (Std sufs)) (hr : ∀ x ∈ ref, Std sufs x) :
    (parseText ctx p value tgt ref n).All (Std sufs) := by
  have hc : Std sufs (vi c!"cast" n) := std_vi (by decide) n
  unfold parseText
  refine all_castTo hc hv hr (all_otherwise ?_)
  split
  · exact all_store ht hc
  · exact all_use2 (std_pattern _ _) hc (all_report hr (one hc) (all_otherwise (all_store ht hc)))

theorem all_convertWith {f : Name} {args value ref : List Name} {tgt : Target} {n : Nat} (hf : Std sufs f)
    (ha : ∀ x ∈ args, Std sufs x) (hv : ∀ x ∈ value, Std sufs x) (ht : tgt.All (Std sufs))
    (hr : ∀ x ∈ ref, Std sufs x) : (convertWith f args value tgt ref n).All (Std sufs) := by
  have hc : Std sufs (vi c!"cast" n) := std_vi (by decide) n
  have htt : Std sufs (vi c!"target" n) := std_vi (by decide) n
  have he : Std sufs (vi c!"err" n) := std_vi (by decide) n
  exact all_castTo hc hv hr (all_otherwise (all_use2 hf hc (all_decl2 htt he (all_use1 he
    (all_report hr (both (one hc) ha) (all_otherwise (all_store ht htt)))))))

theorem all_parseDateTime {f : Str} {value ref : List Name} {tgt : Target} {n : Nat} {r : Code × Nat}
    (hv : ∀ x ∈ value, Std sufs x) (ht : tgt.All (Std sufs)) (hr : ∀ x ∈ ref, Std sufs x)
    (h : parseDateTime f value tgt ref n = .ok r) : r.1.All (Std sufs) := by
  obtain ⟨_, _, h⟩ := ok_bind h
  cases h
  exact all_convertWith std_time (fun x hx => by cases hx) hv ht hr

theorem all_parseItems {names : List Name} {x i : Name} {item : Code} {tgt : Target} {n : Nat}
    (hn : ∀ x ∈ names, Std sufs x) (hx : Std sufs x) (hi : Std sufs i) (h : item.All (Std sufs))
    (ht : tgt.All (Std sufs)) : (parseItems names x i item tgt n).All (Std sufs) := by
  have htt : Std sufs (vi c!"target" n) := std_vi (by decide) n
  refine all_use hn (all_decl1 htt (all_use1 hx ⟨all_decl1 hi ⟨all_append.2 ⟨h, ?_⟩, trivial⟩, all_store ht htt⟩))
  exact all_use1 std_errors ⟨trivial, trivial⟩

theorem all_parseValue {ctx : Ctx} (hreg : ∀ c r, ctx.registry c = .ok r → ∀ x ∈ r, Std sufs x) {t : Ty}
    {value ref : List Name} {tgt : Target} {n : Nat} {r : Code × Nat} (hv : ∀ x ∈ value, Std sufs x)
    (ht : tgt.All (Std sufs)) (hr : ∀ x ∈ ref, Std sufs x) (h : parseValue ctx t value tgt ref n = .ok r) :
    r.1.All (Std sufs) := by
  have embed : ∀ {e : Str} {value ref : List Name} {tgt : Target} {n : Nat} {r : Code × Nat},
      (∀ x ∈ value, Std sufs x) → tgt.All (Std sufs) → (∀ x ∈ ref, Std sufs x) →
      parseValue ctx (.embed e) value tgt ref n = .ok r → r.1.All (Std sufs) := by
    intro e value ref tgt n r hv ht hr h
    obtain ⟨regs, hregs, h⟩ := ok_bind h
    obtain ⟨f, hf, h⟩ := ok_bind h
    cases h
    refine ⟨?_, trivial⟩
    have h1 : ∀ x ∈ regs, Std sufs x := by
      unfold embedRegistries at hregs
      split at hregs
      · obtain ⟨l, hl, hregs⟩ := ok_bind hregs
        cases hregs
        intro x hx
        obtain ⟨y, hy, hx⟩ := List.mem_flatten.1 hx
        obtain ⟨c, _, hc⟩ := mapM_mem hl hy
        exact hreg c y hc x hx
      · cases hregs
    have h2 : ∀ x ∈ tgt.addr, Std sufs x := fun x hx => ht x (by simp [hx])
    intro x hx
    simp only [List.cons_append, List.append_assoc, List.mem_cons, List.mem_append, List.not_mem_nil, or_false] at hx
    rcases hx with rfl | hx | hx | rfl | hx | hx | rfl
    · exact std_ucamel hf _
    · exact hv x hx
    · exact h1 x hx
    · exact std_strings
    · exact hr x hx
    · exact h2 x hx
    · exact std_errors
  induction t generalizing value ref tgt n r with
  | boolean =>
    cases h
    exact all_castTo (std_vi (by decide) n) hv hr (all_otherwise (all_store ht (std_vi (by decide) n)))
  | integer b =>
    cases h
    have hf : Std sufs (vi c!"fcast" n) := std_vi (by decide) n
    have hc : Std sufs (vi c!"cast" n) := std_vi (by decide) n
    refine all_castTo hf hv hr (all_use3 hf std_math hf (all_report hr (one hf) (all_use2 hf hf (all_report hr (one hf)
      (all_otherwise ?_)))))
    split
    · exact all_store ht hf
    · exact all_use1 hf (all_decl1 hc (all_checkBounds hr hc ht))
  | float b =>
    obtain ⟨_, _, h⟩ := ok_bind h
    obtain ⟨_, _, h⟩ := ok_bind h
    cases h
    have hc : Std sufs (vi c!"cast" n) := std_vi (by decide) n
    refine all_castTo hc hv hr (all_otherwise ?_)
    split
    · exact all_store ht hc
    · exact all_checkBounds hr hc ht
  | string p => cases h; exact all_parseText hv ht hr
  | path p => cases h; exact all_parseText hv ht hr
  | date f => exact all_parseDateTime hv ht hr h
  | time f => exact all_parseDateTime hv ht hr h
  | datetime f => exact all_parseDateTime hv ht hr h
  | timeZone =>
    cases h
    exact all_convertWith std_time (one (std_vi (by decide) n)) hv ht hr
  | duration =>
    cases h
    exact all_convertWith (.helper _ (by decide)) (one (std_vi (by decide) n)) hv ht hr
  | array t lo hi ih =>
    obtain ⟨⟨item, m⟩, hi', h⟩ := ok_bind h
    obtain ⟨names, hn, h⟩ := ok_bind h
    cases h
    have hc : Std sufs (vi c!"cast" n) := std_vi (by decide) n
    have hi : Std sufs (vi c!"i" n) := std_vi (by decide) n
    have htt : Std sufs (vi c!"target" n) := std_vi (by decide) n
    have hitem := ih (both (one hc) (one hi)) (both (both (both (one htt) (one hi)) (fun x hx => by cases hx))
      (both (one htt) (one hi))) (both hr (both (one std_strconv) (one hi))) hi'
    exact all_castTo hc hv hr (all_checkBound hr hc (all_checkBound hr hc (all_otherwise
      (all_parseItems (both (std_typeNames hn) (one hc)) hc hi hitem ht))))
  | map t ih =>
    have hc : Std sufs (vi c!"cast" n) := std_vi (by decide) n
    have hk : Std sufs (vi c!"k" n) := std_vi (by decide) n
    have htt : Std sufs (vi c!"target" n) := std_vi (by decide) n
    have hit : Std sufs (vi c!"item" n) := std_vi (by decide) n
    by_cases he : ∃ e, t = .embed e
    · obtain ⟨e, rfl⟩ := he
      obtain ⟨⟨item, m⟩, hi', h⟩ := ok_bind h
      obtain ⟨names, hn, h⟩ := ok_bind h
      cases h
      have hitem := embed (both (one hc) (one hk)) (both (both (fun x hx => by cases hx) (one hit)) (one hit))
        (both hr (one hk)) hi'
      refine all_castTo hc hv hr (all_otherwise (all_parseItems (std_typeNames hn) hc hk ?_ ht))
      exact all_use (std_typeNames hn) (all_decl1 hit (all_append.2 ⟨hitem,
        all_use (both (one htt) (both (one hk) (one hit))) trivial⟩))
    · have heq : parseValue ctx (.map t) value tgt ref n = (do
          let (item, m) ← parseValue ctx t [vi c!"cast" n, vi c!"k" n]
            ⟨[vi c!"target" n, vi c!"k" n], [], [vi c!"target" n, vi c!"k" n]⟩ (ref ++ [vi c!"k" n]) (n + 1)
          let names ← typeNames t
          pure (castTo (vi c!"cast" n) n value ref
            (otherwise (parseItems names (vi c!"cast" n) (vi c!"k" n) item tgt n)), m)) := by
        cases t <;> first | rfl | exact absurd ⟨_, rfl⟩ he
      rw [heq] at h
      obtain ⟨⟨item, m⟩, hi', h⟩ := ok_bind h
      obtain ⟨names, hn, h⟩ := ok_bind h
      cases h
      have hitem := ih (both (one hc) (one hk)) (both (both (both (one htt) (one hk)) (fun x hx => by cases hx))
        (both (one htt) (one hk))) (both hr (one hk)) hi'
      exact all_castTo hc hv hr (all_otherwise (all_parseItems (std_typeNames hn) hc hk hitem ht))
  | cls c =>
    obtain ⟨reg, hreg', h⟩ := ok_bind h
    obtain ⟨_, _, h⟩ := ok_bind h
    cases h
    have hc : Std sufs (vi c!"cast" n) := std_vi (by decide) n
    have htt : Std sufs (vi c!"target" n) := std_vi (by decide) n
    have hok : Std sufs (vi c!"ok" n) := std_vi (by decide) n
    exact all_castTo hc hv hr (all_otherwise (all_use (both (hreg c reg hreg') (one hc)) (all_decl2 htt hok
      (all_use1 hok (all_report hr hv (all_otherwise (all_store ht htt)))))))
  | embed e => exact embed hv ht hr h

theorem all_parseProps {ctx : Ctx} (hreg : ∀ c r, ctx.registry c = .ok r → ∀ x ∈ r, Std sufs x) {ps : List Property}
    {n : Nat} {c : Code} (h : parseProps ctx ps n = .ok c) : c.All (Std sufs) := by
  have hcast : Std sufs (v c!"cast") := .plain _ (by decide)
  have href : Std sufs (v c!"ref") := .plain _ (by decide)
  have htt : Std sufs (v c!"target") := .plain _ (by decide)
  have nil : ∀ x ∈ ([] : List Name), Std sufs x := fun x hx => by cases hx
  induction ps generalizing n c with
  | nil => cases h; trivial
  | cons p ps ih =>
    obtain ⟨⟨code, m⟩, h1, h⟩ := ok_bind h
    obtain ⟨rest, hrest, h⟩ := ok_bind h
    cases h
    refine all_append.2 ⟨?_, all_use1 std_errors ⟨trivial, ih hrest⟩⟩
    have hvn : Std sufs (vi c!"value" n) := std_vi (by decide) n
    have hok : Std sufs (vi c!"ok" n) := std_vi (by decide) n
    have htn : Std sufs (vi c!"target" n) := std_vi (by decide) n
    unfold parseProperty at h1
    obtain ⟨_, _, h1⟩ := ok_bind h1
    obtain ⟨⟨parsing, m'⟩, hp, h1⟩ := ok_bind h1
    obtain ⟨names, hn, h1⟩ := ok_bind h1
    have hparse := all_parseValue hreg (one hvn) (by
      split
      · exact both (both (one htt) nil) (one htt)
      · exact both (both nil (one htn)) (one htn)) (one href) hp
    have hhead : ∀ {rest : Code}, rest.All (Std sufs) →
        (Code.use [v c!"cast"] (.decl [vi c!"value" n, vi c!"ok" n] (.use [vi c!"ok" n] rest))).All (Std sufs) :=
      fun h => all_use1 hcast (all_decl2 hvn hok (all_use1 hok h))
    split at h1
    · cases h1
      exact hhead ⟨all_use2 std_errors href trivial, hparse, trivial⟩
    · split at h1
      · cases h1
        exact hhead ⟨hparse, trivial⟩
      · cases h1
        exact hhead ⟨all_use (std_typeNames hn) (all_decl1 htn (all_append.2 ⟨hparse, all_use2 htt htn trivial⟩)), trivial⟩

theorem all_preamble {c : Code} (h : c.All (Std sufs)) : (preamble c).All (Std sufs) :=
  all_use1 (.plain _ (by decide)) ⟨trivial, all_use1 std_errors ⟨trivial, all_use1 std_errors ⟨trivial, h⟩⟩⟩

/-- Every name of the function is of the kind. -/
def Func.All (P : Name → Prop) (f : Func) : Prop := (∀ x ∈ f.params, P x) ∧ f.body.All P

end

theorem low_camel {s u : Str} (hs : Capital s) (h : camelCase s = .ok u) : lowFirst u = true := by
  obtain ⟨_, _, _, _, rfl⟩ := (Props.C01_camel_case_ok_iff s u).1 h
  obtain ⟨x, xs, rfl, h1, h2⟩ := hs
  have h1 : 65 ≤ x.toNat := h1
  have h2 : x.toNat ≤ 90 := h2
  have hx : x ≠ '_' := by
    rintro rfl
    exact absurd h2 (by decide)
  rw [List.takeWhile_cons, if_pos (by simpa using hx)]
  show x.toLower.isLower = true
  rw [isLower_iff, toNat_toLower, if_pos ⟨h1, h2⟩]
  omega

/-- The names and plurals of the classes start with a capital. -/
def Capitals (g : Graph) : Prop := ∀ c ∈ g.classes, Capital c.name ∧ Capital c.plural

theorem std_registryParam {g : Graph} (hg : Capitals g) {n : Str} {x : Name} (h : registryParam g n = .ok x) :
    Std parserEndings x := by
  obtain ⟨c, hc, _, p, hp, rfl⟩ := registryParam_eq h
  exact .own _ _ (by decide) (low_camel (hg c hc).2 hp)

theorem all_parseComposite {g : Graph} (hg : Capitals g) {uids : List (Str × Nat)} {o : Owner} {name : Str}
    {isClass : Bool} {f : Func} (h : parseComposite g uids o name isClass = .ok f) : f.All (Std parserEndings) := by
  unfold parseComposite at h
  obtain ⟨refs, hrefs, h⟩ := ok_bind h
  obtain ⟨params, hparams, h⟩ := ok_bind h
  obtain ⟨types, htypes, h⟩ := ok_bind h
  obtain ⟨props, hprops, h⟩ := ok_bind h
  obtain ⟨n, hname, h⟩ := ok_bind h
  cases h
  have hvalue : Std parserEndings (v c!"value") := .plain _ (by decide)
  have hid : Std parserEndings (v c!"id") := .plain _ (by decide)
  have href : Std parserEndings (v c!"ref") := .plain _ (by decide)
  have htt : Std parserEndings (v c!"target") := .plain _ (by decide)
  have hcast : Std parserEndings (v c!"cast") := .plain _ (by decide)
  have hok : Std parserEndings (v c!"ok") := .plain _ (by decide)
  have hp : ∀ x ∈ params, Std parserEndings x := by
    intro x hx
    obtain ⟨a, _, ha⟩ := mapM_mem hparams hx
    exact std_registryParam hg ha
  have hpr := all_parseProps (sufs := parserEndings) (by
    intro c r hr x hx
    simp only at hr
    split at hr
    · obtain ⟨y, hy, hr⟩ := ok_bind hr
      cases hr
      cases List.mem_singleton.1 hx
      exact std_registryParam hg hy
    · cases hr) hprops
  constructor
  · refine both (both (both (one hvalue) ?_) hp) (both (one href) (both (one htt) (one std_errors)))
    cases isClass
    · exact fun x hx => by cases hx
    · exact one hid
  · refine all_preamble (all_use1 hvalue ⟨?_, all_use1 hok ⟨⟨both (one std_errors) (both (one href) (both (one std_fmt)
      (one hvalue))), trivial⟩, ?_⟩⟩)
    · split
      · exact one hok
      · exact both (one hcast) (one hok)
    · cases isClass
      · exact hpr
      · exact all_use2 htt hid hpr

theorem all_preallocate {uids : List (Str × Nat)} {c : Class} (hp : Capital c.plural) {code : Code}
    (h : preallocate uids c = .ok code) : code.All (Std parserEndings) := by
  unfold preallocate at h
  obtain ⟨p, hp', h⟩ := ok_bind h
  obtain ⟨_, _, h⟩ := ok_bind h
  obtain ⟨name, hname, h⟩ := ok_bind h
  obtain ⟨_, _, h⟩ := ok_bind h
  cases h
  have hl := low_camel hp hp'
  have hid : Std parserEndings (v c!"id") := .plain _ (by decide)
  have href : Std parserEndings (v c!"ref") := .plain _ (by decide)
  have htt : Std parserEndings (v c!"target") := .plain _ (by decide)
  have hcast : Std parserEndings (v c!"cast") := .plain _ (by decide)
  have hok : Std parserEndings (v c!"ok") := .plain _ (by decide)
  have o1 : Std parserEndings (own [] p c!"Ref") := .own _ _ (by decide) hl
  have o2 : Std parserEndings (own [] p c!"Ok") := .own _ _ (by decide) hl
  have o3 : Std parserEndings (own [] p c!"Value") := .own _ _ (by decide) hl
  have o4 : Std parserEndings (own [] p c!"Map") := .own _ _ (by decide) hl
  have hgl : Std parserEndings (.glob name) := std_ucamel' hname
  have hpat := std_pattern (sufs := parserEndings) uids
  have hf : Std parserEndings fmt := std_fmt
  have he : Std parserEndings errors := std_errors
  cases c.idPattern <;> simp [Code.All, hid, href, htt, hcast, hok, o1, o2, o3, o4, hgl, hpat, hf, he]

theorem all_parseInstances {g : Graph} {c : Class} (hp : Capital c.plural) {code : Code}
    (h : parseInstances g c = .ok code) : code.All (Std parserEndings) := by
  unfold parseInstances at h
  obtain ⟨p, hp', h⟩ := ok_bind h
  obtain ⟨_, _, h⟩ := ok_bind h
  obtain ⟨name, hname, h⟩ := ok_bind h
  obtain ⟨refs, _, h⟩ := ok_bind h
  obtain ⟨_, _, h⟩ := ok_bind h
  cases h
  have hl := low_camel hp hp'
  have hid : Std parserEndings (v c!"id") := .plain _ (by decide)
  have hvalue : Std parserEndings (v c!"value") := .plain _ (by decide)
  have htt : Std parserEndings (v c!"target") := .plain _ (by decide)
  have o1 : Std parserEndings (own [] p c!"Ref") := .own _ _ (by decide) hl
  have o2 : Std parserEndings (own [] p c!"Ok") := .own _ _ (by decide) hl
  have o4 : Std parserEndings (own [] p c!"Map") := .own _ _ (by decide) hl
  have hgl : Std parserEndings (.glob (name ++ c!"FromJSONable")) := std_ucamel hname _
  have hs : Std parserEndings strings := std_strings
  have he : Std parserEndings errors := std_errors
  have href : ∀ x ∈ refs.map (fun _ => v c!"target"), Std parserEndings x := by
    intro x hx
    obtain ⟨_, _, rfl⟩ := List.mem_map.1 hx
    exact htt
  refine all_use1 o2 ⟨all_use1 o4 ⟨all_decl2 hid hvalue ⟨all_use ?_ (all_use1 he ⟨trivial, trivial⟩), trivial⟩, trivial⟩,
    all_use1 he ⟨trivial, trivial⟩⟩
  exact both (both (one hgl) (both (one hvalue) (both (one hid) href)))
    (both (one hs) (both (one o1) (both (one hid) (both (one htt) (both (one hid) (one he))))))

theorem all_parseGraph {g : Graph} (hg : Capitals g) {uids : List (Str × Nat)} {f : Func}
    (h : parseGraph g uids = .ok f) : f.All (Std parserEndings) := by
  unfold parseGraph at h
  obtain ⟨alloc, halloc, h⟩ := ok_bind h
  obtain ⟨insts, hinsts, h⟩ := ok_bind h
  obtain ⟨props, hprops, h⟩ := ok_bind h
  obtain ⟨n, hname, h⟩ := ok_bind h
  cases h
  have hvalue : Std parserEndings (v c!"value") := .plain _ (by decide)
  have href : Std parserEndings (v c!"ref") := .plain _ (by decide)
  have htt : Std parserEndings (v c!"target") := .plain _ (by decide)
  have hcast : Std parserEndings (v c!"cast") := .plain _ (by decide)
  have hok : Std parserEndings (v c!"ok") := .plain _ (by decide)
  have ha : (concat alloc).All (Std parserEndings) := all_concat fun c hc => by
    obtain ⟨d, hd, h⟩ := mapM_mem halloc hc
    exact all_preallocate (hg d hd).2 h
  have hi : (concat insts).All (Std parserEndings) := all_concat fun c hc => by
    obtain ⟨d, hd, h⟩ := mapM_mem hinsts hc
    exact all_parseInstances (hg d hd).2 h
  have hpr := all_parseProps (sufs := parserEndings) (by
    intro c r hr x hx
    obtain ⟨_, _, hr⟩ := ok_bind hr
    cases hr
    cases List.mem_singleton.1 hx
    exact htt) hprops
  constructor
  · exact both (one hvalue) (both (one href) (both (one htt) (one std_errors)))
  · refine all_preamble (all_use1 hvalue (all_decl2 hcast hok (all_use1 hok ⟨⟨both (one std_errors) (both (one href)
      (both (one std_fmt) (one hvalue))), trivial⟩, all_append.2 ⟨all_append.2 ⟨all_append.2 ⟨ha, ?_⟩, hi⟩, hpr⟩⟩)))
    split
    · trivial
    · exact all_use1 std_errors ⟨trivial, trivial⟩

/-! ## The serializer -/

section
variable {sufs : List Str}

theorem all_serializeDateTime {f : Str} {target value : List Name} {n : Nat} {r : Code × Nat}
    (ht : ∀ x ∈ target, Std sufs x) (hv : ∀ x ∈ value, Std sufs x) (h : serializeDateTime f target value n = .ok r) :
    r.1.All (Std sufs) := by
  obtain ⟨l, _, h⟩ := ok_bind h
  cases h
  cases l.isEmpty
  · exact ⟨both ht hv, trivial⟩
  · exact ⟨ht, trivial⟩

theorem all_serializeValue {t : Ty} {target value : List Name} {n : Nat} {r : Code × Nat}
    (ht : ∀ x ∈ target, Std sufs x) (hv : ∀ x ∈ value, Std sufs x) (h : serializeValue t target value n = .ok r) :
    r.1.All (Std sufs) := by
  induction t generalizing target value n r with
  | array t lo hi ih =>
    obtain ⟨⟨item, m⟩, hi', h⟩ := ok_bind h
    cases h
    have hc : Std sufs (vi c!"count" n) := std_vi (by decide) n
    have hs : Std sufs (vi c!"slice" n) := std_vi (by decide) n
    have hi : Std sufs (vi c!"i" n) := std_vi (by decide) n
    have htt : Std sufs (vi c!"target" n) := std_vi (by decide) n
    exact ⟨hv, all_decl1 hc ⟨hv, all_decl1 hs (all_use1 hc (all_decl1 htt
      ⟨all_decl1 hi (all_use2 hi hc ⟨ih (both (one htt) (one hi)) (both (one hs) (one hi)) hi', trivial⟩),
        both ht (one htt), trivial⟩))⟩⟩
  | map t ih =>
    obtain ⟨⟨item, m⟩, hi', h⟩ := ok_bind h
    cases h
    have hk : Std sufs (vi c!"k" n) := std_vi (by decide) n
    have hvv : Std sufs (vi c!"v" n) := std_vi (by decide) n
    have hm : Std sufs (vi c!"map" n) := std_vi (by decide) n
    have htt : Std sufs (vi c!"target" n) := std_vi (by decide) n
    exact all_decl1 htt ⟨hv, all_decl1 hm (all_use1 hm ⟨all_decl2 hk hvv
      ⟨ih (both (one htt) (one hk)) (one hvv) hi', trivial⟩, both ht (one htt), trivial⟩)⟩
  | date f => exact all_serializeDateTime ht hv h
  | time f => exact all_serializeDateTime ht hv h
  | datetime f => exact all_serializeDateTime ht hv h
  | duration => cases h; exact ⟨both ht (both (one (.helper _ (by decide))) hv), trivial⟩
  | embed e =>
    obtain ⟨f, hf, h⟩ := ok_bind h
    cases h
    exact ⟨both ht (both (one (std_ucamel hf _)) hv), trivial⟩
  | _ => cases h; exact ⟨both ht hv, trivial⟩

theorem all_serializeProps {ps : List Property} {n : Nat} {c : Code} (h : serializeProps ps n = .ok c) :
    c.All (Std sufs) := by
  have htt : Std sufs (v c!"target") := .plain _ (by decide)
  have hi : Std sufs (v c!"instance") := .plain _ (by decide)
  induction ps generalizing n c with
  | nil => cases h; trivial
  | cons p ps ih =>
    obtain ⟨⟨code, m⟩, h1, h⟩ := ok_bind h
    obtain ⟨rest, hrest, h⟩ := ok_bind h
    cases h
    refine all_append.2 ⟨?_, ih hrest⟩
    unfold serializeProperty at h1
    obtain ⟨_, _, h1⟩ := ok_bind h1
    obtain ⟨⟨c', m'⟩, hc, h1⟩ := ok_bind h1
    have := all_serializeValue (one htt) (one hi) hc
    cases h1
    split
    · exact all_use1 hi ⟨this, trivial⟩
    · exact this

theorem all_serializeComposite {name : Str} {ps : List Property} {f : Func}
    (h : serializeComposite name ps = .ok f) : f.All (Std sufs) := by
  obtain ⟨props, hprops, h⟩ := ok_bind h
  obtain ⟨n, _, h⟩ := ok_bind h
  cases h
  have htt : Std sufs (v c!"target") := .plain _ (by decide)
  have hi : Std sufs (v c!"instance") := .plain _ (by decide)
  exact ⟨both (one hi) (one htt), all_use1 hi ⟨trivial, one htt, all_serializeProps hprops⟩⟩

end

theorem faithful_append {c d : Code} (h : ∀ x ∈ c.decls, ∀ y ∈ d.free, y.text = x.text → y = x) :
    (c ++ d).Faithful ↔ c.Faithful ∧ d.Faithful := by
  induction c with
  | done => simp [Code.Faithful]
  | use xs c ih => exact ih h
  | assign xs c ih => exact ih h
  | decl xs c ih =>
    have ih := ih fun x hx => h x (List.mem_append.2 (.inr hx))
    simp only [append_decl, Code.Faithful, ih, and_assoc]
    refine and_congr_left fun _ => ⟨fun hu x hx y hy => ?_, fun hu x hx y hy => ?_⟩
    · exact hu x hx y (free_append.2 (.inl hy))
    · rcases free_append.1 hy with hy | ⟨hy, _⟩
      · exact hu x hx y hy
      · exact h x (List.mem_append.2 (.inl hx)) y hy
  | block b c _ ih => simp only [append_block, Code.Faithful, ih h, and_assoc]

/-- The text of the variable for the serialized registry is none of the others. -/
theorem target_text {p : Str} (hp : ∃ x xs, p = x :: xs ∧ x.isUpper = true) {x : Name} (hx : Std [c!"Instance"] x)
    (h1 : ∀ a b c, x ≠ .own a b c) (h2 : x ≠ .glob []) : x.text ≠ c!"target" ++ p := by
  intro e
  obtain ⟨y, ys, rfl, hy⟩ := hp
  have hr := readName_text (.inr rfl) hx
  rw [e, readName, if_neg (by simp [lowFirst]), if_neg (by simp [helpers]), if_pos (by simp [hy])] at hr
  split at hr
  · exact h1 _ _ _ hr.symm
  · exact h2 hr.symm

theorem upper_ucamel {s u : Str} (hs : Capital s) (h : ucamelCase s = .ok u) :
    ∃ x xs, u = x :: xs ∧ x.isUpper = true := by
  obtain ⟨hn, rfl⟩ := (Props.C01_ucamel_case_ok_iff s u).1 h
  obtain ⟨c, cs, rfl, hc⟩ := camelSpec_head s hn.1 hn.2.1
  obtain ⟨x, xs, e, h1, h2⟩ := hs
  cases e
  have h1 : 65 ≤ c.toNat := h1
  have h2 : c.toNat ≤ 90 := h2
  refine ⟨_, _, hc, ?_⟩
  show isUpper c.toUpper = true
  rw [isUpper_iff, toNat_toUpper, if_neg (by omega)]
  exact ⟨h1, h2⟩

theorem serializeRegistry_faithful {c : Class} (hn : Capital c.name) (hp : Capital c.plural) {code : Code}
    (h : serializeRegistry c = .ok code) : code.Faithful ↔
      ∀ p i, ucamelCase c.plural = .ok p → camelCase c.name = .ok i → c!"target" ++ p ≠ i ++ c!"Instance" := by
  have hcl := (serializeRegistry_fine h).choose_spec.2.2.1
  unfold serializeRegistry at h
  obtain ⟨p, hp', h⟩ := ok_bind h
  obtain ⟨i, hi, h⟩ := ok_bind h
  obtain ⟨name, hname, h⟩ := ok_bind h
  obtain ⟨_, _, h⟩ := ok_bind h
  cases h
  constructor
  · intro hf p' i' h1 h2 e
    rw [hp'] at h1
    rw [hi] at h2
    cases h1
    cases h2
    obtain ⟨_, ⟨_, ⟨_, ⟨_, ⟨_, ⟨hx, _⟩, _⟩⟩, _⟩⟩, _⟩ := hf
    have := hx (own [] i c!"Instance") (by simp) (own c!"target" p []) (by simp [Code.free])
      (by simpa [own, Name.text] using e)
    simp [own] at this
  · intro hne
    have hne := hne p i hp' hi
    let P : Name → Prop := fun x => x = own c!"target" p [] ∨ (Std [c!"Instance"] x ∧ x.text ≠ c!"target" ++ p)
    have ha : Apart P := by
      have ht : (own c!"target" p []).text = c!"target" ++ p := by simp [own, Name.text]
      rintro x y (rfl | ⟨hx, hx'⟩) (rfl | ⟨hy, hy'⟩) e
      · rfl
      · exact absurd (e.symm.trans ht) hy'
      · exact absurd (e.trans ht) hx'
      · exact apart_std (.inr rfl) x y hx hy e
    have hup := upper_ucamel hp hp'
    have pl : ∀ b ∈ plains, P (v b) := fun b hb =>
      .inr ⟨.plain b hb, target_text hup (.plain b hb) (by simp [v]) (by simp [v])⟩
    have hid := pl c!"id" (by decide)
    have hin := pl c!"instance" (by decide)
    have htt := pl c!"target" (by decide)
    have herr := pl c!"err" (by decide)
    have hf : P fmt := .inr ⟨std_fmt, target_text hup std_fmt (by simp [fmt]) (by simp [fmt])⟩
    have hg : P (.glob (name ++ c!"ToJSONable")) :=
      .inr ⟨std_ucamel hname _, target_text hup (std_ucamel hname _) (by simp) (by simp)⟩
    have ht : P (own c!"target" p []) := .inl rfl
    have hins : P (own [] i c!"Instance") :=
      .inr ⟨.own _ _ (by decide) (low_camel hn hi), by simpa [own, Name.text] using hne.symm⟩
    refine faithful_of ha ?_ hcl
    simp [Code.All, hid, hin, htt, herr, hf, hg, ht, hins]

theorem registries_faithful {cs : List Class} (hc : ∀ c ∈ cs, Capital c.name ∧ Capital c.plural) {l : List Code}
    (h : cs.mapM serializeRegistry = .ok l) : (concat l).Faithful ↔ ∀ c ∈ cs, ∀ p i, ucamelCase c.plural = .ok p →
      camelCase c.name = .ok i → c!"target" ++ p ≠ i ++ c!"Instance" := by
  induction cs generalizing l with
  | nil => cases h; simp [concat, Code.Faithful]
  | cons c cs ih =>
    obtain ⟨code, rest, hcode, hr, rfl⟩ := mapM_cons h
    obtain ⟨name, hname, h1, h2, h4⟩ := serializeRegistry_fine hcode
    have e : concat (code :: rest) = code ++ concat rest := rfl
    rw [e, faithful_append (by simp [h1]), ih (fun c hc' => hc c (List.mem_cons_of_mem _ hc')) hr,
      serializeRegistry_faithful (hc c (List.mem_cons_self ..)).1 (hc c (List.mem_cons_self ..)).2 hcode]
    simp only [List.mem_cons, forall_eq_or_imp]

/-- No class has the same variable for its serialized registry and for an instance of it. -/
def InstancesApart (g : Graph) : Prop :=
  ∀ c ∈ g.classes, ∀ p i, ucamelCase c.plural = .ok p → camelCase c.name = .ok i →
    c!"target" ++ p ≠ i ++ c!"Instance"

theorem serializeGraph_faithful {g : Graph} (hg : Capitals g) {f : Func} {O : List Name} (hs : f.Scoped O)
    (h : serializeGraph g = .ok f) : f.Faithful ↔ InstancesApart g := by
  unfold serializeGraph at h
  obtain ⟨props, hprops, h⟩ := ok_bind h
  obtain ⟨regs, hregs, h⟩ := ok_bind h
  obtain ⟨n, hname, h⟩ := ok_bind h
  cases h
  obtain ⟨r1, r2, r3⟩ := registries_fine hregs
  have hpr := all_serializeProps (sufs := [c!"Instance"]) hprops
  have htt : Std [c!"Instance"] (v c!"target") := .plain _ (by decide)
  have hi : Std [c!"Instance"] (v c!"instance") := .plain _ (by decide)
  have he : Std [c!"Instance"] (v c!"err") := .plain _ (by decide)
  have hap := apart_std (sufs := [c!"Instance"]) (.inr rfl)
  have hrf : ∀ x ∈ (concat regs).free, Std [c!"Instance"] x := by
    intro x hx
    rcases r3 x hx with hx | ⟨rfl, _⟩ | ⟨c, _, name, hn, rfl⟩
    · simp only [List.mem_cons, List.not_mem_nil, or_false] at hx
      rcases hx with rfl | rfl | rfl <;> assumption
    · exact std_fmt
    · exact std_ucamel hn _
  have happ := faithful_append (c := props) (d := concat regs)
    (fun x hx y hy e => hap y x (hrf y hy) (all_decls hpr x hx) e)
  have hpf : ∀ x ∈ (props ++ concat regs).free, Std [c!"Instance"] x := by
    intro x hx
    rcases free_append.1 hx with hx | ⟨hx, _⟩
    · exact all_free hpr x hx
    · exact hrf x hx
  have hbody : ∀ x ∈ (Code.use [v c!"instance"] (.block .done (.assign [v c!"target"]
      (.block (.use [v c!"err"] (.block (.assign [v c!"target"] .done) .done)) (props ++ concat regs))))).free,
      Std [c!"Instance"] x := by
    intro x hx
    simp only [Code.free, List.mem_append, List.mem_cons, List.not_mem_nil, or_false, false_or] at hx
    rcases hx with rfl | rfl | (rfl | rfl) | hx
    · exact hi
    · exact htt
    · exact he
    · exact htt
    · exact hpf x hx
  have hparams : ∀ x ∈ [v c!"instance", v c!"target", v c!"err"], Std [c!"Instance"] x :=
    both (one hi) (both (one htt) (one he))
  have hclean : props.Clean := by
    have := hs.clean.2.2.2.2
    refine (clean_append_iff ?_).1 this |>.1
    intro x hx hm
    obtain ⟨b, k, e, _⟩ := (serializeProps_fine (B := fun x => ∃ w, x = .glob w)
      (fun p _ u _ => by cases u <;> first | trivial | exact ⟨_, rfl⟩ | exact fun f _ => ⟨_, rfl⟩)
      (by simp [vi]) hprops).1 x hm
    have hxf := used_sub_free hx
    rcases r3 x hxf with h | ⟨h, _⟩ | ⟨_, _, _, _, h⟩
    · simp only [List.mem_cons, List.not_mem_nil, or_false] at h
      rcases h with rfl | rfl | rfl <;> cases e
    · rw [h] at e; cases e
    · rw [h] at e; cases e
  have hregsiff := registries_faithful hg hregs
  constructor
  · intro hf
    have : (props ++ concat regs).Faithful := hf.body.2.2.2.2
    exact hregsiff.1 (happ.1 this).2
  · intro hia
    refine ⟨?_, fun x hx y hy e => hap y x (hbody y hy) (hparams x hx) e, ?_⟩
    · refine nodup_texts hap ?_ hs.nodup
      intro x hx
      rcases List.mem_append.1 hx with hx | hx
      · exact hparams x hx
      · have : x ∈ (props ++ concat regs).decls := hx
        rw [decls_append, r1, List.append_nil] at this
        exact all_decls hpr x this
    · exact ⟨List.nodup_nil, trivial, ⟨List.nodup_nil, ⟨List.nodup_nil, trivial, trivial⟩,
        happ.2 ⟨faithful_of hap hpr hclean, hregsiff.2 hia⟩⟩⟩

/-! ## The package -/

theorem constant_faithful (name : Str) (sig uses : List Name) : (Func.mk name [] sig (.use uses .done)).Faithful :=
  ⟨by simp [Code.decls], by simp, trivial⟩

theorem std_declared {g : Graph} {fs : List File} (h : package g = .ok fs) :
    ∀ x ∈ declared fs, Std parserEndings x ∧ ∀ p, x ≠ .pkg p := by
  obtain ⟨us, hus, hperm⟩ := declared_eq h
  have camel : ∀ u ∈ us, ∃ s, ucamelCase s = .ok u := by
    intro u hu
    obtain ⟨s, _, hs⟩ := mapM_mem hus.eq hu
    exact ⟨s, hs⟩
  intro x hx
  have hx := hperm.mem_iff.1 hx
  rcases List.mem_append.1 hx with hx | hx
  · obtain ⟨w, hw, rfl⟩ := List.mem_map.1 hx
    refine ⟨?_, by simp⟩
    simp only [List.mem_append, List.mem_map] at hw
    rcases hw with (((hw | ⟨u, hu, rfl⟩) | ⟨u, hu, rfl⟩) | hw) | hw
    · obtain ⟨s, hs⟩ := camel w hw
      exact std_ucamel' hs
    · obtain ⟨s, hs⟩ := camel u hu
      exact std_ucamel hs _
    · obtain ⟨s, hs⟩ := camel u hu
      exact std_ucamel hs _
    · have key : ∀ w ∈ fixedNames, lowFirst w = false := by decide
      exact .glob _ (key w hw)
    · split at hw
      · have key : ∀ w ∈ durationNames, w ∈ helpers ∨ lowFirst w = false := by decide
        rcases key w hw with h | h
        · exact .helper _ h
        · exact .glob _ h
      · cases hw
  · obtain ⟨e, _, rfl⟩ := List.mem_map.1 hx
    exact ⟨.pattern _, by simp⟩

theorem file_imports {g : Graph} {fs : List File} (h : package g = .ok fs) :
    ∀ F ∈ fs, ∀ p ∈ F.imports, p ∈ packages := by
  obtain ⟨T, P, S, hT, hP, hS, rfl⟩ := package_parts h
  obtain ⟨_, _, _, _, _, _, hPi, _⟩ := parseFile_parts hP
  obtain ⟨_, _, _, _, _, _, hSi, _⟩ := serializeFile_parts hS
  unfold typesFile at hT
  obtain ⟨te, hte, hT⟩ := ok_bind hT
  obtain ⟨tc, htc, hT⟩ := ok_bind hT
  obtain ⟨_, _, hT⟩ := ok_bind hT
  obtain ⟨n, hn, hT⟩ := ok_bind hT
  cases hT
  intro F hF p hp
  simp only [List.mem_cons, List.not_mem_nil, or_false] at hF
  have cond : ∀ {b : Bool} {l : List Str}, (∀ p ∈ l, p ∈ packages) → p ∈ (if b then l else []) → p ∈ packages := by
    intro b l hl hp
    cases b
    · cases hp
    · exact hl p hp
  rcases hF with rfl | rfl | rfl | rfl | rfl | rfl
  · simp only [typesImports] at hp
    exact cond (by decide) hp
  · cases hp
  · rw [hPi] at hp
    unfold parseImports at hp
    simp only [List.mem_append] at hp
    rcases hp with ((((hp | hp) | hp) | hp) | hp) | hp
    · have key : ∀ p ∈ [c!"strings", c!"fmt"], p ∈ packages := by decide
      exact key p hp
    all_goals exact cond (by decide) hp
  · exact cond (by decide) hp
  · rw [hSi] at hp
    unfold serializeImports at hp
    simp only [List.mem_append] at hp
    rcases hp with hp | hp
    · split at hp
      · cases hp
      · have key : ∀ p ∈ [c!"fmt"], p ∈ packages := by decide
        exact key p hp
    · exact cond (by decide) hp
  · exact cond (by decide) hp

theorem package_faithful {g : Graph} {fs : List File} (h : package g = .ok fs) (hg : Capitals g)
    (hs : ∀ F ∈ fs, F.Scoped (declared fs)) : (∀ F ∈ fs, F.Faithful (declared fs)) ↔ InstancesApart g := by
  have himp : ∀ F ∈ fs, ∀ p ∈ F.imports, ∀ x ∈ declared fs, x.text ≠ p := by
    intro F hF p hp x hx e
    obtain ⟨h1, h2⟩ := std_declared h x hx
    exact h2 p (apart_std (.inl rfl) x (.pkg p) h1 (.pkg p (file_imports h F hF p hp)) e)
  have h' := h
  obtain ⟨T, P, S, hT, hP, hS, rfl⟩ := package_parts h'
  obtain ⟨pc, pe, pg, hpc, hpe, hpg, _, hPf, hPd, _⟩ := parseFile_parts hP
  obtain ⟨sc, se, sg, hsc, hse, hsg, _, hSf, hSd, _⟩ := serializeFile_parts hS
  have hsgs := (hs S (by simp)).funcs sg (by simp [hSf])
  have hiff := serializeGraph_faithful hg hsgs hsg
  constructor
  · intro hf
    exact hiff.1 ((hf S (by simp)).funcs sg (by simp [hSf]))
  · intro hia F hF
    refine ⟨?_, himp F hF⟩
    have hscoped := (hs F hF).funcs
    have hstd : ∀ f ∈ F.funcs, f.All (Std parserEndings) → f.Faithful := fun f hf ha =>
      func_faithful (apart_std (.inl rfl)) ha.1 ha.2 (hscoped f hf)
    have hstd' : ∀ f ∈ F.funcs, f.All (Std [c!"Instance"]) → f.Faithful := fun f hf ha =>
      func_faithful (apart_std (.inr rfl)) ha.1 ha.2 (hscoped f hf)
    intro f hf
    have hff := hf
    simp only [List.mem_cons, List.not_mem_nil, or_false] at hF
    rcases hF with rfl | rfl | rfl | rfl | rfl | rfl
    · unfold typesFile at hT
      obtain ⟨te, hte, hT⟩ := ok_bind hT
      obtain ⟨tc, htc, hT⟩ := ok_bind hT
      obtain ⟨_, _, hT⟩ := ok_bind hT
      obtain ⟨n, hn, hT⟩ := ok_bind hT
      cases hT
      cases hf
    · cases List.mem_singleton.1 hf
      exact constant_faithful ..
    · rw [hPf] at hf
      simp only [List.mem_append, List.mem_singleton] at hf
      rcases hf with ((hf | hf) | hf) | rfl
      · split at hf
        · simp only [durationFromString, List.mem_cons, List.not_mem_nil, or_false] at hf
          rcases hf with rfl | rfl <;> exact constant_faithful ..
        · cases hf
      · obtain ⟨c, _, hc⟩ := mapM_mem hpc hf
        exact hstd f hff (all_parseComposite hg hc)
      · obtain ⟨c, _, hc⟩ := mapM_mem hpe hf
        exact hstd f hff (all_parseComposite hg hc)
      · exact hstd _ hff (all_parseGraph hg hpg)
    · simp only [parseTestFile] at hf
      split at hf
      · obtain ⟨s, _, rfl⟩ := List.mem_map.1 hf
        exact constant_faithful ..
      · cases hf
    · rw [hSf] at hf
      simp only [List.mem_append, List.mem_singleton] at hf
      rcases hf with ((hf | hf) | hf) | rfl
      · split at hf
        · simp only [durationToString, List.mem_cons, List.not_mem_nil, or_false] at hf
          subst hf
          exact constant_faithful ..
        · cases hf
      · obtain ⟨c, _, hc⟩ := mapM_mem hsc hf
        exact hstd' f hff (all_serializeComposite hc)
      · obtain ⟨c, _, hc⟩ := mapM_mem hse hf
        exact hstd' f hff (all_serializeComposite hc)
      · exact hiff.2 hia
    · simp only [serializeTestFile] at hf
      split at hf
      · obtain ⟨s, _, rfl⟩ := List.mem_map.1 hf
        exact constant_faithful ..
      · cases hf

end Mapry.GoCode
