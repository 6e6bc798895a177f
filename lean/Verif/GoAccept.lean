import Verif.GoErase
import Verif.Props.GoTypes

/-!
# When the types in the generated Go code are accepted: the pieces
-/

namespace Mapry.GoTyped

open Mapry.TypeGraph Mapry.Naming
open Mapry.GoTypes (GTy typeRepr camel pureRepr)
open Mapry.GoCheck
open Mapry.GoCode (Name isPointer patternName referencesOf pluralField registryParam v vi own)

/-- Two names are the same. -/
def sameName (a b : Name) : Bool := a == b

/-- The types of the variables by their names -/
abbrev look (Γ : Env) : Name → Option GTy := Γ.find sameName

theorem look_nil (y : Name) : look [] y = none := rfl

theorem look_cons (y : Name) (t : GTy) (Γ : Env) (z : Name) : look ((y, t) :: Γ) z = if y = z then some t else look Γ z := by
  unfold look Env.find sameName
  by_cases h : y = z <;> simp [h]

theorem look_append_of {Δ Γ : Env} {y : Name} (h : ∀ e ∈ Δ, e.1 ≠ y) : look (Δ ++ Γ) y = look Γ y := by
  induction Δ with
  | nil => rfl
  | cons e Δ ih =>
    rw [List.cons_append, show e = (e.1, e.2) from rfl, look_cons, if_neg (h e (by simp))]
    exact ih fun e he => h e (by simp [he])

/-! ## Fresh names -/

/-- The name has no number or a smaller one. -/
def Older (n : Nat) : Name → Prop
  | .var _ (some m) => m < n
  | _ => True

/-- The name has the number or a larger one. -/
def Fresh (n : Nat) : Name → Prop
  | .var _ (some m) => n ≤ m
  | _ => False

theorem Older.mono {n m : Nat} (h : n ≤ m) {y : Name} (hy : Older n y) : Older m y := by
  cases y <;> try trivial
  rename_i b k
  cases k
  · trivial
  · exact Nat.lt_of_lt_of_le hy h

theorem Fresh.mono {n m : Nat} (h : n ≤ m) {y : Name} (hy : Fresh m y) : Fresh n y := by
  cases y <;> try trivial
  rename_i b k
  cases k
  · trivial
  · exact Nat.le_trans h hy

theorem fresh_older {n : Nat} {y z : Name} (hy : Fresh n y) (hz : Older n z) : y ≠ z := by
  rintro rfl
  unfold Fresh at hy
  unfold Older at hz
  split at hy
  · simp at hz; omega
  · exact hy

/-- The variables of `Γ` and fresh ones -/
def Ext (n : Nat) (Γ Γ' : Env) : Prop := ∃ Δ, Γ' = Δ ++ Γ ∧ ∀ e ∈ Δ, Fresh n e.1

theorem Ext.refl (n : Nat) (Γ : Env) : Ext n Γ Γ := ⟨[], rfl, by simp⟩

theorem Ext.trans {n : Nat} {Γ Γ' Γ'' : Env} (h : Ext n Γ Γ') (h' : Ext n Γ' Γ'') : Ext n Γ Γ'' := by
  obtain ⟨Δ, rfl, hd⟩ := h
  obtain ⟨Δ', rfl, hd'⟩ := h'
  exact ⟨Δ' ++ Δ, by simp, fun e he => (List.mem_append.1 he).elim (hd' e) (hd e)⟩

theorem Ext.mono {n m : Nat} (hn : n ≤ m) {Γ Γ' : Env} (h : Ext m Γ Γ') : Ext n Γ Γ' := by
  obtain ⟨Δ, rfl, hd⟩ := h
  exact ⟨Δ, rfl, fun e he => (hd e he).mono hn⟩

theorem Ext.cons {n : Nat} {Γ Γ' : Env} (h : Ext n Γ Γ') {y : Name} (hy : Fresh n y) (t : GTy) : Ext n Γ ((y, t) :: Γ') := by
  obtain ⟨Δ, rfl, hd⟩ := h
  exact ⟨(y, t) :: Δ, rfl, by simpa using ⟨hy, fun a b he => hd (a, b) he⟩⟩

theorem fresh_vi (b : Str) (n : Nat) : Fresh n (vi b n) := Nat.le_refl n

theorem Ext.look {n : Nat} {Γ Γ' : Env} (h : Ext n Γ Γ') {y : Name} (hy : Older n y) : look Γ' y = look Γ y := by
  obtain ⟨Δ, rfl, hd⟩ := h
  exact look_append_of fun e he => fresh_older (hd e he) hy

/-! ## The meaning of an expression depends on its names -/

theorem typeOk_congr (W : World) {ρ ρ' : Name → Option GTy} {t : GTy} (h : ∀ y ∈ mentions t, ρ y = ρ' y) :
    typeOk W ρ t = typeOk W ρ' t := by
  have : ∀ l : List Name, (∀ y ∈ l, ρ y = ρ' y) → l.all (fun x => (ρ x).isNone) = l.all fun x => (ρ' x).isNone := by
    intro l hl
    induction l with
    | nil => rfl
    | cons a l ih => rw [List.all_cons, List.all_cons, hl a (by simp), ih fun y hy => hl y (by simp [hy])]
  unfold typeOk
  rw [this _ h]

theorem infer_congr' (W : World) {ρ ρ' : Name → Option GTy} {e : Expr} (h : ∀ y ∈ e.names, ρ y = ρ' y) :
    infer W ρ e = infer W ρ' e ∧ infer.addressable W ρ e = infer.addressable W ρ' e := by
  induction e with
  | var y => exact ⟨by rw [infer, infer, h y (by simp [Expr.names])], rfl⟩
  | text | num | nil | strs => exact ⟨rfl, rfl⟩
  | field e f ih | star e ih | addr e ih | len e ih | int64 e ih | method e m ih | call e ih | not e ih =>
    obtain ⟨h1, h2⟩ := ih h
    simp only [infer, infer.addressable, h1, h2, and_self]
  | assert e t ih =>
    obtain ⟨h1, h2⟩ := ih fun y hy => h y (List.mem_append_left _ hy)
    simp only [infer, infer.addressable, h1, typeOk_congr W fun y hy => h y (List.mem_append_right _ hy), and_self]
  | make t => simp only [infer, infer.addressable, typeOk_congr W h, and_self]
  | makeN t e ih =>
    obtain ⟨h1, h2⟩ := ih fun y hy => h y (List.mem_append_right _ hy)
    simp only [infer, infer.addressable, h1, typeOk_congr W fun y hy => h y (List.mem_append_left _ hy), and_self]
  | new n => simp only [infer, infer.addressable, typeOk_congr W (t := .named n) h, and_self]
  | fn f => simp only [infer, infer.addressable, h (.glob f) (by simp [Expr.names]), and_self]
  | lib p f => simp only [infer, infer.addressable, h (.pkg p) (by simp [Expr.names]), and_self]
  | index a b ih ih' | item a b ih ih' | arg a b ih ih' | eq a b ih ih' | less a b ih ih' | or a b ih ih' | plus a b ih ih' =>
    obtain ⟨h1, h2⟩ := ih fun y hy => h y (List.mem_append_left _ hy)
    obtain ⟨h3, h4⟩ := ih' fun y hy => h y (List.mem_append_right _ hy)
    simp only [infer, infer.addressable, h1, h3, and_self]

theorem infer_congr (W : World) {ρ ρ' : Name → Option GTy} {e : Expr} (h : ∀ y ∈ e.names, ρ y = ρ' y) :
    infer W ρ e = infer W ρ' e := (infer_congr' W h).1

theorem addressable_congr (W : World) {ρ ρ' : Name → Option GTy} {e : Expr} (h : ∀ y ∈ e.names, ρ y = ρ' y) :
    infer.addressable W ρ e = infer.addressable W ρ' e := (infer_congr' W h).2

theorem assignable_congr (W : World) {ρ ρ' : Name → Option GTy} {e : Expr} (h : ∀ y ∈ e.names, ρ y = ρ' y) :
    assignable W ρ e = assignable W ρ' e := by
  cases e with
  | index a b =>
    simp only [assignable, addressable_congr W h, infer_congr W (e := a) fun y hy => h y (List.mem_append_left _ hy)]
  | _ => exact addressable_congr W h

theorem stores_congr (W : World) {ρ ρ' : Name → Option GTy} {e : Expr} (h : ∀ y ∈ e.names, ρ y = ρ' y) (r : Res) :
    stores W ρ e r = stores W ρ' e r := by
  unfold stores
  rw [assignable_congr W h, infer_congr W h]

theorem infer₂_congr (W : World) {ρ ρ' : Name → Option GTy} {e : Expr} (h : ∀ y ∈ e.names, ρ y = ρ' y) :
    infer₂ W ρ e = infer₂ W ρ' e := by
  cases e with
  | assert a t => simp only [infer₂, infer_congr W h]
  | index a b =>
    simp only [infer₂, infer_congr W h, infer_congr W (e := a) fun y hy => h y (List.mem_append_left _ hy)]
  | call a => simp only [infer₂, infer_congr W h]
  | _ => rfl

/-! ## From texts to names -/

/-- The texts lead to the same variables as the names. -/
def Agree (Γ : Env) (F : List Name) : Prop := ∀ y ∈ F, Γ.find sameText y = look Γ y

theorem Agree.sub {Γ : Env} {F F' : List Name} (h : Agree Γ F) (hs : ∀ y ∈ F', y ∈ F) : Agree Γ F' :=
  fun y hy => h y (hs y hy)

theorem Agree.cons {Γ : Env} {F : List Name} {z : Name} (t : GTy) (h : ∀ y ∈ F, y ≠ z → Γ.find sameText y = look Γ y)
    (hz : ∀ y ∈ F, y.text = z.text → y = z) : Agree ((z, t) :: Γ) F := by
  intro y hy
  rw [look_cons]
  by_cases e : y = z
  · subst e
    simp [Env.find, sameText]
  · rw [if_neg (fun h => e h.symm), ← h y hy e]
    have : (sameText z y) = false := by
      unfold sameText
      simpa using fun h => e (hz y hy h.symm)
    simp [Env.find, this]

theorem Agree.cons₂ {Γ : Env} {F : List Name} {x y : Name} (t u : GTy) (h : Agree Γ (F.filter (· ∉ [x, y])))
    (hz : ∀ z ∈ [x, y], ∀ y ∈ F, y.text = z.text → y = z) : Agree ((y, u) :: (x, t) :: Γ) F := by
  have h1 : Agree ((x, t) :: Γ) (F.filter (· ≠ y)) := by
    refine Agree.cons t (fun z hz e => h z ?_) fun z hz' e => hz x (by simp) z (List.mem_filter.1 hz').1 e
    simp only [List.mem_filter, decide_eq_true_eq] at hz ⊢
    simp [hz.1, e, hz.2]
  exact Agree.cons u (fun z hz e => h1 z (by simp [hz, e])) fun z hz' e => hz y (by simp) z hz' e

theorem Agree.one {Γ : Env} {F : List Name} {x : Name} (t : GTy) (h : Agree Γ (F.filter (· ∉ [x])))
    (hz : ∀ z ∈ [x], ∀ y ∈ F, y.text = z.text → y = z) : Agree ((x, t) :: Γ) F :=
  Agree.cons t (fun z hz e => h z (by simp [hz, e])) (hz x (by simp))

theorem names_uses {l : Expr} {y : Name} (h : y ∈ l.names) : y ∈ uses l ∨ y ∈ sets l := by
  cases l <;> simp_all [uses, sets, Expr.names]

/-- If every text refers to the name which is meant then the compiler judges as if it saw the names. -/
theorem run_text (W : World) (c : Code) : ∀ Γ : Env, (erase c).Faithful → Agree Γ (erase c).free →
    run W sameText Γ c = run W sameName Γ c := by
  induction c with
  | done => intros; rfl
  | eval e c ih =>
    intro Γ hf ha
    rw [run, run, ih Γ hf (ha.sub fun y hy => List.mem_append_right _ hy), infer_congr W fun y hy => ha y (List.mem_append_left _ hy)]
  | test e c ih =>
    intro Γ hf ha
    rw [run, run, ih Γ hf (ha.sub fun y hy => List.mem_append_right _ hy), infer_congr W fun y hy => ha y (List.mem_append_left _ hy)]
  | assign l r c ih =>
    intro Γ hf ha
    simp only [erase, GoCode.Code.free] at ha
    have hl : ∀ y ∈ l.names, Γ.find sameText y = look Γ y := fun y hy => ha y (by
      rcases names_uses hy with h | h <;> simp [h])
    rw [run, run, ih Γ hf (ha.sub fun y hy => by simp [hy]), infer_congr W (e := r) fun y hy => ha y (by simp [hy])]
    simp only [stores_congr W hl]
  | assign₂ l k r c ih =>
    intro Γ hf ha
    simp only [erase, GoCode.Code.free] at ha
    have hl : ∀ y ∈ l.names, Γ.find sameText y = look Γ y := fun y hy => ha y (by
      rcases names_uses hy with h | h <;> simp [h])
    have hk : ∀ y ∈ k.names, Γ.find sameText y = look Γ y := fun y hy => ha y (by
      rcases names_uses hy with h | h <;> simp [h])
    rw [run, run, ih Γ hf (ha.sub fun y hy => by simp [hy]), infer₂_congr W (e := r) fun y hy => ha y (by simp [hy])]
    simp only [stores_congr W hl, stores_congr W hk]
  | define z e c ih =>
    intro Γ hf ha
    have ha' : Agree Γ ((erase c).free.filter (· ∉ [z])) := ha.sub fun y hy => List.mem_append_right _ hy
    rw [run, run, infer_congr W fun y hy => ha y (List.mem_append_left _ hy)]
    congr 1
    funext t
    exact ih _ hf.2 (ha'.one t hf.1)
  | define₂ z y e c ih =>
    intro Γ hf ha
    have ha' : Agree Γ ((erase c).free.filter (· ∉ z.toList ++ [y])) := ha.sub fun y hy => List.mem_append_right _ hy
    rw [run, run, infer₂_congr W fun y hy => ha y (List.mem_append_left _ hy)]
    congr 1
    funext ⟨t, u⟩
    cases z with
    | none => exact ih _ hf.2 (ha'.one u hf.1)
    | some z => exact ih _ hf.2 (ha'.cons₂ t u hf.1)
  | var z t c ih =>
    intro Γ hf ha
    have ha' : Agree Γ ((erase c).free.filter (· ∉ [z])) := ha.sub fun y hy => List.mem_append_right _ hy
    rw [run, run, typeOk_congr W fun y hy => ha y (List.mem_append_left _ hy), ih _ hf.2 (ha'.one t hf.1)]
  | range k z e b c ihb ihc =>
    intro Γ hf ha
    obtain ⟨_, ⟨hd, _, hb, _⟩, hc⟩ := hf
    have ha1 : Agree Γ (((erase b).free ++ []).filter (· ∉ k :: z.toList)) :=
      ha.sub fun y hy => List.mem_append_right _ (List.mem_append_left _ hy)
    have ha2 : Agree Γ (erase c).free := ha.sub fun y hy => List.mem_append_right _ (List.mem_append_right _ hy)
    rw [List.append_nil] at ha1
    simp only [GoCode.Code.free, List.append_nil] at hd
    rw [run, run, infer_congr W fun y hy => ha y (List.mem_append_left _ hy)]
    congr 1
    funext ⟨t, u⟩
    rw [ihc Γ hc ha2]
    dsimp only
    congr 1
    cases z with
    | none => exact ihb _ hb (ha1.one t hd)
    | some z => exact ihb _ hb (ha1.cons₂ t u hd)
  | loop i n b c ihb ihc =>
    intro Γ hf ha
    obtain ⟨_, ⟨hd, _, hb, _⟩, hc⟩ := hf
    have ha1 : Agree Γ (((i :: n.names) ++ ((erase b).free ++ [])).filter (· ∉ [i])) :=
      ha.sub fun y hy => List.mem_append_left _ hy
    have ha2 : Agree Γ (erase c).free := ha.sub fun y hy => List.mem_append_right _ hy
    have ha3 := ha1.one .int hd
    rw [run, run, infer_congr W fun y hy => ha3 y (by simp [hy]), ihc Γ hc ha2,
      ihb _ hb (ha3.sub fun y hy => by simp [hy])]
  | block b c ihb ihc =>
    intro Γ hf ha
    rw [run, run, ihb Γ hf.2.1 (ha.sub fun y hy => List.mem_append_left _ hy),
      ihc Γ hf.2.2 (ha.sub fun y hy => List.mem_append_right _ hy)]

theorem agree_of {Γ : Env} {F : List Name} (h : ∀ e ∈ Γ, ∀ y ∈ F, y.text = e.1.text → y = e.1) : Agree Γ F := by
  induction Γ with
  | nil => exact fun _ _ => rfl
  | cons e Γ ih =>
    exact Agree.cons e.2 (fun y hy _ => ih (fun e he => h e (by simp [he])) y hy) (h e (by simp))

theorem func_text (W : World) {f : Func} {f' : GoCode.Func} (hs : SameFunc f f') (hf : f'.Faithful) :
    f.ok W sameText = f.ok W sameName := by
  have hb : (erase f.body).Faithful := (norm_faithful _).1 (hs.body ▸ (norm_faithful _).2 hf.body)
  have hfree : (erase f.body).free = f'.body.free := by rw [← norm_free, hs.body, norm_free]
  unfold Func.ok
  rw [run_text W f.body _ hb]
  refine agree_of fun e he y hy => hf.params e.1 ?_ y (hfree ▸ hy)
  rw [← hs.params]
  exact List.mem_map.2 ⟨e, List.mem_reverse.1 he, rfl⟩

end Mapry.GoTyped
