import Verif.GoCodeLemmas

/-!
# The names in the functions of the generated Go parser

Every function is `Scoped` in an environment which provides what the types of the graph need.
-/

namespace Mapry.GoCode

open Mapry.TypeGraph Mapry.Naming

/-! ## Lists of results -/

theorem mapM_nil {α β : Type} {f : α → Except Exc β} : ([] : List α).mapM f = .ok [] := rfl

theorem mapM_cons {α β : Type} {f : α → Except Exc β} {a : α} {l : List α} {ys : List β}
    (h : (a :: l).mapM f = .ok ys) : ∃ y ys', f a = .ok y ∧ l.mapM f = .ok ys' ∧ ys = y :: ys' := by
  rw [List.mapM_cons] at h
  obtain ⟨y, hy, h⟩ := ok_bind h
  obtain ⟨ys', hys, h⟩ := ok_bind h
  cases h
  exact ⟨y, ys', hy, hys, rfl⟩

theorem mapM_mem {α β : Type} {f : α → Except Exc β} {l : List α} {ys : List β} (h : l.mapM f = .ok ys) {y : β}
    (hy : y ∈ ys) : ∃ a ∈ l, f a = .ok y := by
  induction l generalizing ys with
  | nil => cases h; cases hy
  | cons a l ih =>
    obtain ⟨z, zs, hz, hzs, rfl⟩ := mapM_cons h
    rcases List.mem_cons.1 hy with rfl | hy
    · exact ⟨a, by simp, hz⟩
    · obtain ⟨b, hb, hb'⟩ := ih hzs hy
      exact ⟨b, by simp [hb], hb'⟩

theorem mapM_mem' {α β : Type} {f : α → Except Exc β} {l : List α} {ys : List β} (h : l.mapM f = .ok ys) {a : α}
    (ha : a ∈ l) : ∃ y ∈ ys, f a = .ok y := by
  induction l generalizing ys with
  | nil => cases ha
  | cons b l ih =>
    obtain ⟨z, zs, hz, hzs, rfl⟩ := mapM_cons h
    rcases List.mem_cons.1 ha with rfl | ha
    · exact ⟨z, by simp, hz⟩
    · obtain ⟨y, hy, hy'⟩ := ih hzs ha
      exact ⟨y, by simp [hy], hy'⟩

theorem mapM_nodup {α β : Type} {f : α → Except Exc β} {l : List α} {ys : List β} (h : l.mapM f = .ok ys)
    (hl : l.Nodup) (hf : ∀ a ∈ l, ∀ b ∈ l, ∀ y, f a = .ok y → f b = .ok y → a = b) : ys.Nodup := by
  induction l generalizing ys with
  | nil => cases h; exact List.nodup_nil
  | cons a l ih =>
    obtain ⟨z, zs, hz, hzs, rfl⟩ := mapM_cons h
    rw [List.nodup_cons] at hl ⊢
    refine ⟨fun hm => ?_, ih hzs hl.2 fun a ha b hb => hf a (by simp [ha]) b (by simp [hb])⟩
    obtain ⟨b, hb, hb'⟩ := mapM_mem hzs hm
    exact hl.1 (hf a (by simp) b (by simp [hb]) z hz hb' ▸ hb)

theorem mapM_ok {α β : Type} {f : α → Except Exc β} {l : List α} (h : ∀ a ∈ l, ∃ y, f a = .ok y) :
    ∃ ys, l.mapM f = .ok ys := by
  induction l with
  | nil => exact ⟨[], rfl⟩
  | cons a l ih =>
    obtain ⟨y, hy⟩ := h a (by simp)
    obtain ⟨ys, hys⟩ := ih fun b hb => h b (by simp [hb])
    refine ⟨y :: ys, ?_⟩
    rw [List.mapM_cons, hy, hys]
    rfl

/-! ## The environment -/

/-- The names declared outside of the functions cover what a type of the graph needs. -/
def Provides₁ (uids : List (Str × Nat)) (O : List Name) : Ty → Prop
  | .integer _ => math ∈ O
  | .string (some p) => patternName uids p ∈ O
  | .path (some p) => patternName uids p ∈ O
  | .date _ => time ∈ O
  | .time _ => time ∈ O
  | .datetime _ => time ∈ O
  | .timeZone => time ∈ O
  | .duration => time ∈ O ∧ .glob c!"durationFromString" ∈ O
  | .array .. => strconv ∈ O
  | .cls c => ∀ f, ucamelCase c = .ok f → .glob f ∈ O
  | .embed e => ∀ f, ucamelCase e = .ok f → .glob f ∈ O ∧ .glob (f ++ c!"FromJSONable") ∈ O
  | _ => True

/-- The names declared outside of the functions cover what the graph needs. -/
structure Provides (g : Graph) (uids : List (Str × Nat)) (O : List Name) : Prop where
  strings : strings ∈ O
  fmt : fmt ∈ O
  errors : .glob c!"Errors" ∈ O
  types : ∀ t, Occurs g t → Provides₁ uids O t
  ids : ∀ c ∈ g.classes, ∀ p, c.idPattern = some p → patternName uids p ∈ O
  classes : ∀ c ∈ g.classes, ∀ f, ucamelCase c.name = .ok f → .glob f ∈ O ∧ .glob (f ++ c!"FromJSONable") ∈ O
  embeds : ∀ e ∈ g.embeds, ∀ f, ucamelCase e.name = .ok f → .glob f ∈ O
  graph : ∀ f, ucamelCase g.name = .ok f → .glob f ∈ O

theorem admits_of {ctx : Ctx} {A : Name → Prop} {O : List Name} {t : Ty} (hg : Provides ctx.graph ctx.uids O)
    (ho : ∀ x ∈ O, A x) (he : A errors) (hr : ∀ c r, ctx.registry c = .ok r → ∀ x ∈ r, A x)
    (ht : ∀ u ∈ parts t, Occurs ctx.graph u) : Admits ctx A t where
  errors := he
  strings := ho _ hg.strings
  fmt := ho _ hg.fmt
  parts := by
    intro u hu
    have := hg.types u (ht u hu)
    have hreg : ∀ e r, embedRegistries ctx e = .ok r → ∀ x ∈ r, A x := by
      intro e r h x hx
      unfold embedRegistries at h
      split at h
      · obtain ⟨rs, hrs, h⟩ := ok_bind h
        cases h
        obtain ⟨l, hl, hx⟩ := List.mem_flatten.1 hx
        obtain ⟨c, _, hc⟩ := mapM_mem hrs hl
        exact hr c l hc x hx
      · cases h
    cases u with
    | integer => exact ho _ this
    | string p => cases p with
      | none => trivial
      | some p => exact ho _ this
    | path p => cases p with
      | none => trivial
      | some p => exact ho _ this
    | date => exact ho _ this
    | time => exact ho _ this
    | datetime => exact ho _ this
    | timeZone => exact ho _ this
    | duration => exact ⟨ho _ this.1, ho _ this.2⟩
    | array => exact ho _ this
    | cls c => exact ⟨hr c, fun f hf => ho _ (this f hf)⟩
    | embed e => exact ⟨hreg e, fun f hf => ⟨ho _ (this f hf).1, ho _ (this f hf).2⟩⟩
    | boolean => trivial
    | float => trivial
    | map => trivial

/-! ## The function of a class or an embed -/

/-- The variables which the generated code derives from the plurals of two classes differ. -/
def PluralsDistinct (g : Graph) : Prop :=
  ∀ c ∈ g.classes, ∀ d ∈ g.classes, ∀ p, camelCase c.plural = .ok p → camelCase d.plural = .ok p → c.name = d.name

theorem suffix_ne {p s t : Str} (h : ¬ s <:+ t) : p ++ s ≠ t := fun e => h ⟨p, e⟩

theorem registryParam_eq {g : Graph} {n : Str} {x : Name} (h : registryParam g n = .ok x) :
    ∃ c ∈ g.classes, c.name = n ∧ ∃ p, camelCase c.plural = .ok p ∧ x = own [] p c!"Registry" := by
  unfold registryParam at h
  split at h
  · rename_i c hc
    obtain ⟨p, hp, h⟩ := ok_bind h
    cases h
    have := find_mem hc
    exact ⟨c, this.1, by simpa using this.2, p, hp, rfl⟩
  · cases h

theorem registryParam_inj {g : Graph} (hd : PluralsDistinct g) {a b : Str} {x : Name}
    (ha : registryParam g a = .ok x) (hb : registryParam g b = .ok x) : a = b := by
  obtain ⟨c, hc, rfl, p, hp, rfl⟩ := registryParam_eq ha
  obtain ⟨d, hd', rfl, q, hq, h⟩ := registryParam_eq hb
  simp only [own, Name.own.injEq, and_true, true_and] at h
  subst h
  exact hd c hc d hd' _ hp hq

theorem preamble_decls (c : Code) : (preamble c).decls = c.decls := rfl

theorem preamble_clean {c : Code} (h : c.Clean) : (preamble c).Clean :=
  ⟨List.nodup_nil, trivial, List.nodup_nil, trivial, List.nodup_nil, trivial, h⟩

theorem preamble_free {c : Code} {x : Name} (h : x ∈ (preamble c).free) :
    x = v c!"target" ∨ x = errors ∨ x ∈ c.free := by
  simp only [preamble, Code.free, List.nil_append, List.mem_append, List.mem_cons, List.not_mem_nil, or_false] at h
  rcases h with h | h | h | h
  · exact .inl h
  · exact .inr (.inl h)
  · exact .inr (.inl h)
  · exact .inr (.inr h)

/-- The function needs no more than its parameters and what is outside. -/
structure Func.Needs (f : Func) (outside : List Name) : Prop where
  params : ∀ p, Name.pkg p ∉ f.params
  free : ∀ x ∈ f.body.free, x ∈ f.params ∨ x ∈ outside
  sig : ∀ x ∈ f.sig, x ∈ outside

theorem Func.Needs.scoped {f : Func} {O : List Name} (h : f.Needs O) (h1 : (f.params ++ f.body.decls).Nodup)
    (h2 : f.body.Clean) : f.Scoped O := ⟨h1, h2, h.free, h.sig⟩

theorem Func.needs_and {f : Func} {O : List Name} {P : Prop} (h : f.Needs O)
    (hs : P → (f.params ++ f.body.decls).Nodup ∧ f.body.Clean) : (P → f.Scoped O) ∧ f.Needs O :=
  ⟨fun hp => h.scoped (hs hp).1 (hs hp).2, h⟩

theorem Func.needs_iff {f : Func} {O : List Name} {P : Prop} (h : f.Needs O)
    (h1 : (f.params ++ f.body.decls).Nodup) (h2 : f.body.Clean ↔ P) : (f.Scoped O ↔ P) ∧ f.Needs O :=
  ⟨⟨fun hs => h2.1 hs.clean, fun hp => h.scoped h1 (h2.2 hp)⟩, h⟩

theorem nodup_pieces {α : Type} {a b c d e X : List α} (h : (a ++ c ++ d).Nodup) (hX : a ++ c ++ d ⊆ X) (hb : b.Nodup)
    (he : e.Nodup) (h1 : ∀ x ∈ X, x ∉ b) (h2 : ∀ x ∈ e, x ∉ b) (h3 : ∀ x ∈ X, x ∉ e) :
    (a ++ b ++ c ++ (d ++ e)).Nodup := by
  have hX' : ∀ x, x ∈ a ∨ x ∈ c ∨ x ∈ d → x ∈ X := fun x hx => hX (by simpa [or_assoc] using hx)
  simp only [List.nodup_append, List.mem_append] at h ⊢
  grind

theorem parseComposite_fine {g : Graph} {uids : List (Str × Nat)} {O : List Name} {o : Owner} {name : Str}
    {isClass : Bool} {f : Func} (hg : Provides g uids O)
    (hn : ∀ n, ucamelCase name = .ok n → .glob n ∈ O) (h : parseComposite g uids o name isClass = .ok f) :
    (PluralsDistinct g → f.Scoped O) ∧ f.Needs O := by
  unfold parseComposite at h
  obtain ⟨refs, hrefs, h⟩ := ok_bind h
  have hrefs : references? g o = some refs := by
    unfold referencesOf at hrefs
    split at hrefs
    · cases hrefs; assumption
    · cases hrefs
  obtain ⟨params, hparams, h⟩ := ok_bind h
  obtain ⟨types, htypes, h⟩ := ok_bind h
  obtain ⟨props, hprops, h⟩ := ok_bind h
  obtain ⟨n, hname, h⟩ := ok_bind h
  cases h
  have hpv : ∀ x ∈ params, ∃ p, x = own [] p c!"Registry" := by
    intro x hx
    obtain ⟨a, _, ha⟩ := mapM_mem hparams hx
    obtain ⟨_, _, _, p, _, h⟩ := registryParam_eq ha
    exact ⟨p, h⟩
  have hpne : ∀ t : Str, v t ∉ params := by
    intro t hm
    obtain ⟨p, hp⟩ := hpv _ hm
    cases hp
  let A : Name → Prop := fun x =>
    x ∈ [v c!"value"] ++ (if isClass then [v c!"id"] else []) ++ params ++ [v c!"ref", v c!"target", errors] ∨ x ∈ O
  have hfine := parseProps_fine (A := A) (fun p hp => admits_of hg (fun x hx => .inr hx) (.inl (by simp [errors]))
    (by
      intro c r hr x hx
      simp only at hr
      split at hr
      · rename_i hc
        obtain ⟨y, hy, hr⟩ := ok_bind hr
        cases hr
        rw [List.mem_singleton] at hx
        subst hx
        obtain ⟨z, hz, hz'⟩ := mapM_mem' hparams hc
        rw [hy] at hz'
        cases hz'
        exact .inl (by simp [hz])
      · cases hr)
    (fun u hu => (occurs_owner hp).part hu)) hprops
  obtain ⟨hfresh, hnodup, hclean, hcast, hfree⟩ := hfine
  have hdecls : ∀ c : Code, c.decls = props.decls →
      (preamble (.use [v c!"value"]
        (.decl (if (ownerProps g o).isEmpty then [v c!"ok"] else [v c!"cast", v c!"ok"])
        (.use [v c!"ok"] (.block (.use [errors, v c!"ref", fmt, v c!"value"] .done) c))))).decls =
      (if (ownerProps g o).isEmpty then [v c!"ok"] else [v c!"cast", v c!"ok"]) ++ props.decls := by
    intro c hc
    rw [preamble_decls]
    simp [Code.decls, hc]
  have hvi : ∀ t, v t ∉ props.decls := by
    intro t hm
    obtain ⟨b, k, h, _⟩ := hfresh _ hm
    simp [v, vi] at h
  refine Func.needs_and ⟨?_, ?_, ?_⟩ fun hd => ⟨?_, ?_⟩
  rotate_left 3
  · have hpn : params.Nodup := mapM_nodup hparams (nodup_references hrefs)
      fun a _ b _ y ha hb => registryParam_inj hd ha hb
    rw [hdecls _ (by split <;> rfl)]
    refine nodup_pieces (X := [v c!"value", v c!"id", v c!"ref", v c!"target", errors, v c!"ok", v c!"cast"])
      (by cases isClass <;> cases (ownerProps g o).isEmpty <;> decide) ?_ hpn hnodup ?_ ?_ ?_
    · cases isClass <;> cases (ownerProps g o).isEmpty <;> decide
    · intro x hx
      simp only [List.mem_cons, List.not_mem_nil, or_false] at hx
      rcases hx with rfl | rfl | rfl | rfl | rfl | rfl | rfl <;> exact hpne _
    · intro x hx hm
      obtain ⟨p, rfl⟩ := hpv x hm
      obtain ⟨b, k, h, _⟩ := hfresh _ hx
      cases h
    · intro x hx
      simp only [List.mem_cons, List.not_mem_nil, or_false] at hx
      rcases hx with rfl | rfl | rfl | rfl | rfl | rfl | rfl <;> exact hvi _
  · refine preamble_clean ⟨?_, ?_⟩
    · intro x hx
      have : x = v c!"ok" ∨ (x = v c!"cast" ∧ ownerProps g o ≠ []) := by
        split at hx
        · exact .inl (by simpa using hx)
        · rename_i hne
          simp only [List.mem_cons, List.not_mem_nil, or_false] at hx
          refine hx.elim (fun h => .inr ⟨h, by simpa using hne⟩) .inl
      rcases this with rfl | ⟨rfl, hne⟩
      · simp [Code.used]
      · have := hcast hne
        cases isClass <;> simp [Code.used, this]
    · refine ⟨List.nodup_nil, trivial, ?_⟩
      cases isClass
      · exact hclean
      · exact hclean
  · intro x hx
    simp only [List.mem_append, List.mem_cons, List.not_mem_nil, or_false] at hx
    rcases hx with ((hx | hx) | hx) | hx | hx | hx
    · cases hx
    · split at hx
      · cases List.mem_singleton.1 hx
      · cases hx
    · obtain ⟨p, hp⟩ := hpv _ hx
      cases hp
    · cases hx
    · cases hx
    · cases hx
  · intro x hx
    have key : x = v c!"value" ∨ x = v c!"target" ∨ x = errors ∨ x = v c!"ref" ∨ x = fmt ∨
        (isClass = true ∧ x = v c!"id") ∨ (x ∈ props.free ∧ x ∉ (if (ownerProps g o).isEmpty then [v c!"ok"]
          else [v c!"cast", v c!"ok"])) := by
      rcases preamble_free hx with h | h | h
      · exact .inr (.inl h)
      · exact .inr (.inr (.inl h))
      · have h' : x ∈ [v c!"value"] ∨ (x ∈ [v c!"ok"] ∨ x ∈ [errors, v c!"ref", fmt, v c!"value"] ∨
            x ∈ (if isClass = true then Code.use [v c!"target", v c!"id"] props else props).free) ∧
            x ∉ (if (ownerProps g o).isEmpty then [v c!"ok"] else [v c!"cast", v c!"ok"]) := by
          simpa only [Code.free, List.append_nil, List.mem_append, List.mem_filter, decide_eq_true_eq] using h
        rcases h' with h | ⟨h | h | h, hne⟩
        · exact .inl (by simpa using h)
        · exfalso
          apply hne
          have : x = v c!"ok" := by simpa using h
          split <;> simp [this]
        · simp only [List.mem_cons, List.not_mem_nil, or_false] at h
          grind
        · cases isClass
          · simp only [Bool.false_eq_true, if_false] at h
            grind
          · simp only [if_true, Code.free, List.mem_append, List.mem_cons, List.not_mem_nil, or_false] at h
            grind
    rcases key with h | h | h | h | h | h | ⟨h, hne⟩
    · exact .inl (by simp [h])
    · exact .inl (by simp [h])
    · exact .inl (by simp [h])
    · exact .inl (by simp [h])
    · exact .inr (h ▸ hg.fmt)
    · exact .inl (by simp [h.1, h.2])
    · rcases hfree x h with (h' | h' | h') | h'
      · by_cases hp : ownerProps g o = []
        · exfalso
          rw [hp] at hprops
          cases hprops
          cases h
        · exfalso
          apply hne
          simp [hp, h']
      · exact .inl (by simp [h'])
      · exact .inl (by simp [h'])
      · exact h'
  · intro x hx
    simp only [List.mem_append, List.mem_cons, List.not_mem_nil, or_false] at hx
    rcases hx with h | rfl | rfl
    · obtain ⟨c, hc, h'⟩ := mapM_mem htypes h
      obtain ⟨y, hy, h'⟩ := ok_bind h'
      cases h'
      obtain ⟨z, _, hz⟩ := mapM_mem' hparams hc
      obtain ⟨d, hd', rfl, _⟩ := registryParam_eq hz
      exact (hg.classes d hd' y hy).1
    · exact hn n hname
    · exact hg.errors

/-! ## The function of the graph -/

/-- The variables which the parser derives from the plural of a class. -/
def group (p : Str) : List Name := [own [] p c!"Ref", own [] p c!"Ok", own [] p c!"Value", own [] p c!"Map"]

theorem last_ne {p q s t : Str} (a b : Char) (hs : s.getLast? = some a) (ht : t.getLast? = some b) (hab : a ≠ b) :
    p ++ s ≠ q ++ t := by
  intro h
  have := congrArg List.getLast? h
  rw [List.getLast?_append, List.getLast?_append, hs, ht] at this
  simp at this
  exact hab this

/-- What the generated names of the group are different from. -/
theorem group_ne {p t : Str} : v t ∉ group p := by
  simp [group, v, own]

theorem group_nodup (p : Str) : (group p).Nodup := by
  simp [group, own]

theorem group_inj {p q : Str} {x : Name} (hp : x ∈ group p) (hq : x ∈ group q) : p = q := by
  simp only [group, List.mem_cons, List.not_mem_nil, or_false] at hp hq
  rcases hp with rfl | rfl | rfl | rfl <;> simpa [own] using hq

theorem preallocate_fine {uids : List (Str × Nat)} {c : Class} {code : Code} (h : preallocate uids c = .ok code) :
    ∃ p name, camelCase c.plural = .ok p ∧ ucamelCase c.name = .ok name ∧ code.decls = group p ∧ code.Clean ∧
      v c!"cast" ∈ code.used ∧ ∀ x ∈ code.free, x ∈ [v c!"ref", v c!"cast", v c!"ok", errors, fmt, v c!"target",
        .glob name] ∨ ∃ pat, c.idPattern = some pat ∧ x = patternName uids pat := by
  unfold preallocate at h
  obtain ⟨p, hp, h⟩ := ok_bind h
  obtain ⟨_, _, h⟩ := ok_bind h
  obtain ⟨name, hname, h⟩ := ok_bind h
  obtain ⟨_, _, h⟩ := ok_bind h
  cases h
  refine ⟨p, name, hp, hname, rfl, ?_⟩
  have hnd := group_nodup p
  have hc := group_ne (p := p) (t := c!"cast")
  have hid := group_ne (p := p) (t := c!"id")
  simp only [group, List.nodup_cons, List.mem_cons, List.not_mem_nil, or_false, not_or] at hnd hc hid
  have hids : v c!"id" ≠ .glob name := by simp [v]
  have hidf : v c!"id" ≠ fmt := by simp [v, fmt]
  have hide : v c!"id" ≠ errors := by decide
  have hidt : v c!"id" ≠ v c!"target" := by decide
  refine ⟨?_, ?_, ?_⟩
  · obtain ⟨⟨a1, a2, a3⟩, ⟨a4, a5⟩, a6, _⟩ := hnd
    obtain ⟨i1, i2, i3, i4⟩ := hid
    generalize own [] p c!"Ref" = r at *
    generalize own [] p c!"Ok" = o at *
    generalize own [] p c!"Value" = w at *
    generalize own [] p c!"Map" = q at *
    refine ⟨?_, ?_, ?_, ?_, ?_⟩
    · intro x hx
      rw [List.mem_singleton] at hx
      subst hx
      simp [Code.used, a1, a2, a3]
    · intro x hx
      rw [List.mem_singleton] at hx
      subst hx
      simp [Code.used, a4, a5]
    · intro x hx
      rw [List.mem_singleton] at hx
      subst hx
      simp [Code.used, a6]
    · intro x hx
      rw [List.mem_singleton] at hx
      subst hx
      simp [Code.used]
    · cases c.idPattern <;> simp [Code.Clean, Code.decls, Code.used]
  · simp [Code.used, hc]
  · intro x hx
    cases hpat : c.idPattern with
    | none =>
      simp only [hpat, Code.free] at hx
      simp only [List.mem_append, List.mem_filter, List.mem_cons, List.not_mem_nil, or_false,
        decide_eq_true_eq] at hx ⊢
      grind
    | some pat =>
      simp only [hpat, Code.free] at hx
      simp only [List.mem_append, List.mem_filter, List.mem_cons, List.not_mem_nil, or_false,
        decide_eq_true_eq, Option.some.injEq, exists_eq_left'] at hx ⊢
      grind

theorem parseInstances_fine {g : Graph} {c : Class} {code : Code} (h : parseInstances g c = .ok code) :
    ∃ p name, camelCase c.plural = .ok p ∧ ucamelCase c.name = .ok name ∧ code.decls = [] ∧ code.Clean ∧
      ∀ x ∈ code.free, x ∈ [strings, errors, v c!"target", .glob (name ++ c!"FromJSONable")] ++ group p := by
  unfold parseInstances at h
  obtain ⟨p, hp, h⟩ := ok_bind h
  obtain ⟨_, _, h⟩ := ok_bind h
  obtain ⟨name, hname, h⟩ := ok_bind h
  obtain ⟨refs, _, h⟩ := ok_bind h
  obtain ⟨_, _, h⟩ := ok_bind h
  cases h
  refine ⟨p, name, hp, hname, rfl, ?_, ?_⟩
  · simp [Code.Clean, Code.decls, Code.used]
    decide
  · intro x hx
    simp only [Code.free, List.mem_append, List.mem_filter, List.mem_cons, List.not_mem_nil, or_false,
      decide_eq_true_eq, List.mem_map, group] at hx ⊢
    grind

theorem allocs_fine {uids : List (Str × Nat)} {cs : List Class} {l : List Code} (h : cs.mapM (preallocate uids) = .ok l) :
    ((cs.Pairwise fun c d => ∀ p, camelCase c.plural = .ok p → camelCase d.plural ≠ .ok p) →
      (concat l).decls.Nodup) ∧
    (∀ x ∈ (concat l).decls, ∃ c ∈ cs, ∃ p, camelCase c.plural = .ok p ∧ x ∈ group p) ∧
    (∀ c ∈ cs, ∀ p, camelCase c.plural = .ok p → ∀ x ∈ group p, x ∈ (concat l).decls) ∧
    (concat l).Clean ∧ (cs ≠ [] → v c!"cast" ∈ (concat l).used) ∧
    ∀ x ∈ (concat l).free, x ∈ [v c!"ref", v c!"cast", v c!"ok", errors, fmt, v c!"target"] ∨
      ∃ c ∈ cs, (∃ name, ucamelCase c.name = .ok name ∧ x = .glob name) ∨
        ∃ pat, c.idPattern = some pat ∧ x = patternName uids pat := by
  induction cs generalizing l with
  | nil => cases h; simp [concat, Code.decls, Code.Clean, Code.free]
  | cons c cs ih =>
    obtain ⟨code, rest, hc, hr, rfl⟩ := mapM_cons h
    obtain ⟨p, name, hp, hname, h1, h2, h3, h4⟩ := preallocate_fine hc
    obtain ⟨i1, i2, i3, i4, _, i6⟩ := ih hr
    have hdecls : (concat (code :: rest)).decls = group p ++ (concat rest).decls := by
      show (code ++ concat rest).decls = _
      rw [decls_append, h1]
    refine ⟨?_, ?_, ?_, clean_append h2 i4, fun _ => used_append.2 (.inl h3), ?_⟩
    · intro hd
      rw [List.pairwise_cons] at hd
      rw [hdecls, List.nodup_append]
      refine ⟨group_nodup p, i1 hd.2, ?_⟩
      rintro x hx y hy rfl
      obtain ⟨d, hd', q, hq, hxq⟩ := i2 x hy
      have := group_inj hx hxq
      subst this
      exact hd.1 d hd' p hp hq
    · intro x hx
      rw [hdecls, List.mem_append] at hx
      rcases hx with hx | hx
      · exact ⟨c, by simp, p, hp, hx⟩
      · obtain ⟨d, hd', q⟩ := i2 x hx
        exact ⟨d, by simp [hd'], q⟩
    · intro d hd' q hq x hx
      rw [hdecls, List.mem_append]
      rcases List.mem_cons.1 hd' with rfl | hd'
      · rw [hp] at hq
        cases hq
        exact .inl hx
      · exact .inr (i3 d hd' q hq x hx)
    · intro x hx
      rcases (free_append (c := code) (d := concat rest)).1 hx with hx | ⟨hx, _⟩
      · rcases h4 x hx with hx | hx
        · simp only [List.mem_cons, List.not_mem_nil, or_false] at hx ⊢
          have : (x = v c!"ref" ∨ x = v c!"cast" ∨ x = v c!"ok" ∨ x = errors ∨ x = fmt ∨ x = v c!"target") ∨
            x = .glob name := by grind
          exact this.imp id fun h => ⟨c, .inl rfl, .inl ⟨name, hname, h⟩⟩
        · exact .inr ⟨c, by simp, .inr hx⟩
      · rcases i6 x hx with hx | ⟨d, hd', hx⟩
        · exact .inl hx
        · exact .inr ⟨d, by simp [hd'], hx⟩

theorem insts_fine {g : Graph} {cs : List Class} {l : List Code} (h : cs.mapM (parseInstances g) = .ok l) :
    (concat l).decls = [] ∧ (concat l).Clean ∧
    ∀ x ∈ (concat l).free, x ∈ [strings, errors, v c!"target"] ∨
      ∃ c ∈ cs, (∃ name, ucamelCase c.name = .ok name ∧ x = .glob (name ++ c!"FromJSONable")) ∨
        ∃ p, camelCase c.plural = .ok p ∧ x ∈ group p := by
  induction cs generalizing l with
  | nil => cases h; simp [concat, Code.decls, Code.Clean, Code.free]
  | cons c cs ih =>
    obtain ⟨code, rest, hc, hr, rfl⟩ := mapM_cons h
    obtain ⟨p, name, hp, hname, h1, h2, h4⟩ := parseInstances_fine hc
    obtain ⟨i1, i2, i4⟩ := ih hr
    refine ⟨?_, clean_append h2 i2, ?_⟩
    · show (code ++ concat rest).decls = _
      rw [decls_append, h1, i1]
      rfl
    · intro x hx
      rcases (free_append (c := code) (d := concat rest)).1 hx with hx | ⟨hx, _⟩
      · have := h4 x hx
        rw [List.mem_append] at this
        rcases this with hx | hx
        · simp only [List.mem_cons, List.not_mem_nil, or_false] at hx ⊢
          have : (x = strings ∨ x = errors ∨ x = v c!"target") ∨ x = .glob (name ++ c!"FromJSONable") := by grind
          exact this.imp id fun h => ⟨c, .inl rfl, .inl ⟨name, hname, h⟩⟩
        · exact .inr ⟨c, by simp, .inr ⟨p, hp, hx⟩⟩
      · rcases i4 x hx with hx | ⟨d, hd', hx⟩
        · exact .inl hx
        · exact .inr ⟨d, by simp [hd'], hx⟩

theorem parseGraph_fine {g : Graph} {uids : List (Str × Nat)} {O : List Name} {f : Func} (hn : Named g)
    (hg : Provides g uids O) (h : parseGraph g uids = .ok f) :
    (PluralsDistinct g ∧ (g.classes ≠ [] ∨ g.properties ≠ []) → f.Scoped O) ∧ f.Needs O := by
  unfold parseGraph at h
  obtain ⟨alloc, halloc, h⟩ := ok_bind h
  obtain ⟨insts, hinsts, h⟩ := ok_bind h
  obtain ⟨props, hprops, h⟩ := ok_bind h
  obtain ⟨n, hname, h⟩ := ok_bind h
  cases h
  have hpair : PluralsDistinct g →
      g.classes.Pairwise fun c d => ∀ p, camelCase c.plural = .ok p → camelCase d.plural ≠ .ok p := by
    intro hd
    have := hn.classes
    rw [List.Nodup, List.pairwise_map] at this
    refine this.imp_of_mem ?_
    intro c d hc hd' hcd p hp hq
    exact hcd (hd c hc d hd' p hp hq)
  obtain ⟨a1, a2, a3, a4, a5, a6⟩ := allocs_fine halloc
  obtain ⟨b1, b2, b3⟩ := insts_fine hinsts
  let A : Name → Prop := fun x => x ∈ [v c!"value", v c!"ref", v c!"target", errors] ∨ x ∈ O
  obtain ⟨p1, p2, p3, p4, p5⟩ := parseProps_fine (A := A) (fun p hp => admits_of hg (fun x hx => .inr hx)
    (.inl (by simp [errors]))
    (by
      intro c r hr x hx
      obtain ⟨_, _, hr⟩ := ok_bind hr
      cases hr
      rw [List.mem_singleton] at hx
      exact .inl (by simp [hx]))
    (fun u hu => (Occurs.graph p hp (self_mem_parts _)).part hu)) hprops
  generalize hmid : (if g.classes.isEmpty = true then Code.done else .use [errors] (.block .done .done)) = mid
  have m1 : mid.decls = [] ∧ mid.Clean ∧ ∀ x ∈ mid.free, x = errors := by
    subst hmid
    split
    · simp [Code.decls, Code.Clean, Code.free]
    · simp [Code.decls, Code.Clean, Code.free]
  have hdecls : (concat alloc ++ mid ++ concat insts ++ props).decls = (concat alloc).decls ++ props.decls := by
    simp only [decls_append, m1.1, b1, List.append_nil]
  have hclean : (concat alloc ++ mid ++ concat insts ++ props).Clean :=
    clean_append (clean_append (clean_append a4 m1.2.1) b2) p3
  have hX : ∀ x ∈ [v c!"value", v c!"ref", v c!"target", errors, v c!"cast", v c!"ok"], x ∉ (concat alloc).decls := by
    intro x hx hm
    obtain ⟨_, _, p, _, hxp⟩ := a2 x hm
    revert hxp
    simp only [List.mem_cons, List.not_mem_nil, or_false] at hx
    rcases hx with rfl | rfl | rfl | rfl | rfl | rfl <;>
      exact group_ne
  have hvi : ∀ t, v t ∉ props.decls := by
    intro t hm
    obtain ⟨b, k, h, _⟩ := p1 _ hm
    simp [v, vi] at h
  have hgv : ∀ x ∈ (concat alloc).decls, ∃ a b c, x = own a b c := by
    intro x hx
    obtain ⟨_, _, p, _, hxp⟩ := a2 x hx
    simp only [group, List.mem_cons, List.not_mem_nil, or_false] at hxp
    rcases hxp with h | h | h | h <;> exact ⟨_, _, _, h⟩
  have hcastused : g.classes ≠ [] ∨ g.properties ≠ [] →
      v c!"cast" ∈ (concat alloc ++ mid ++ concat insts ++ props).used := by
    intro hne
    by_cases hc : g.classes = []
    · refine used_append.2 (.inr ⟨p4 (hne.resolve_left fun h => h hc), ?_⟩)
      rw [decls_append, decls_append, m1.1, b1, List.append_nil, List.append_nil]
      exact hX _ (by simp)
    · exact used_append.2 (.inl (used_append.2 (.inl (used_append.2 (.inl (a5 hc))))))
  refine Func.needs_and ⟨?_, ?_, ?_⟩ fun hd => ⟨?_, ?_⟩
  rotate_left 3
  · show ([v c!"value", v c!"ref", v c!"target", errors] ++ ([v c!"cast", v c!"ok"] ++ (concat alloc ++ mid ++
      concat insts ++ props).decls)).Nodup
    rw [hdecls]
    rw [← List.append_assoc, ← List.append_assoc, List.nodup_append, List.nodup_append]
    refine ⟨⟨by decide, a1 (hpair hd.1), ?_⟩, p2, ?_⟩
    · rintro x hx y hy rfl
      exact hX x hx hy
    · rintro x hx y hy rfl
      rw [List.mem_append] at hx
      rcases hx with hx | hx
      · revert hy
        simp only [List.cons_append, List.nil_append, List.mem_cons, List.not_mem_nil, or_false] at hx
        rcases hx with rfl | rfl | rfl | rfl | rfl | rfl <;> exact hvi _
      · obtain ⟨_, _, _, rfl⟩ := hgv x hx
        obtain ⟨b, k, h, _⟩ := p1 _ hy
        cases h
  · refine preamble_clean ⟨?_, List.nodup_nil, trivial, hclean⟩
    intro x hx
    simp only [List.mem_cons, List.not_mem_nil, or_false] at hx
    rcases hx with rfl | rfl
    · exact List.mem_append.2 (.inr (List.mem_append.2 (.inr (hcastused hd.2))))
    · exact List.mem_append.2 (.inl (by simp))
  · intro x hx
    simp only [List.mem_cons, List.not_mem_nil, or_false] at hx
    rcases hx with hx | hx | hx | hx <;> cases hx
  · intro x hx
    have hbody : ∀ x ∈ (concat alloc ++ mid ++ concat insts ++ props).free,
        x = v c!"cast" ∨ x = v c!"ok" ∨ A x := by
      intro x hx
      rw [free_append, free_append, free_append] at hx
      rcases hx with ((hx | hx) | hx) | hx
      · rcases a6 x hx with hx | ⟨c, hc, ⟨name, hname, rfl⟩ | ⟨pat, hpat, rfl⟩⟩
        · simp only [List.mem_cons, List.not_mem_nil, or_false] at hx
          rcases hx with rfl | rfl | rfl | rfl | rfl | rfl
          · exact .inr (.inr (.inl (by simp)))
          · exact .inl rfl
          · exact .inr (.inl rfl)
          · exact .inr (.inr (.inl (by simp)))
          · exact .inr (.inr (.inr hg.fmt))
          · exact .inr (.inr (.inl (by simp)))
        · exact .inr (.inr (.inr (hg.classes c hc name hname).1))
        · exact .inr (.inr (.inr (hg.ids c hc pat hpat)))
      · exact .inr (.inr (.inl (by simp [m1.2.2 x hx.1])))
      · rcases b3 x hx.1 with h | ⟨c, hc, ⟨name, hname, rfl⟩ | ⟨p, hp, hxp⟩⟩
        · simp only [List.mem_cons, List.not_mem_nil, or_false] at h
          rcases h with rfl | rfl | rfl
          · exact .inr (.inr (.inr hg.strings))
          · exact .inr (.inr (.inl (by simp)))
          · exact .inr (.inr (.inl (by simp)))
        · exact .inr (.inr (.inr (hg.classes c hc name hname).2))
        · exfalso
          apply hx.2
          rw [decls_append, m1.1, List.append_nil]
          exact a3 c hc p hp x hxp
      · rcases p5 x hx.1 with (h | h | h) | h
        · exact .inl h
        · exact .inr (.inr (.inl (by simp [h])))
        · exact .inr (.inr (.inl (by simp [h])))
        · exact .inr (.inr h)
    rcases preamble_free hx with h | h | h
    · exact .inl (by simp [h])
    · exact .inl (by simp [h])
    · have h' : x = v c!"value" ∨ (x = v c!"ok" ∨ x ∈ [errors, v c!"ref", fmt, v c!"value"] ∨
          x ∈ (concat alloc ++ mid ++ concat insts ++ props).free) ∧ x ∉ [v c!"cast", v c!"ok"] := by
        simpa only [Code.free, List.append_nil, List.mem_append, List.mem_filter, List.mem_singleton,
          decide_eq_true_eq] using h
      rcases h' with h | ⟨h | h | h, hno⟩
      · exact .inl (by simp [h])
      · exact absurd (by simp [h]) hno
      · simp only [List.mem_cons, List.not_mem_nil, or_false] at h
        rcases h with rfl | rfl | rfl | rfl
        · exact .inl (by simp)
        · exact .inl (by simp)
        · exact .inr hg.fmt
        · exact .inl (by simp)
      · rcases hbody x h with h | h | h
        · exact absurd (by simp [h]) hno
        · exact absurd (by simp [h]) hno
        · exact h
  · intro x hx
    simp only [List.mem_cons, List.not_mem_nil, or_false] at hx
    rcases hx with rfl | rfl
    · exact hg.graph n hname
    · exact hg.errors

/-! ## What a scoped function of the graph implies -/

theorem mapM_inj {α β : Type} {f : α → Except Exc β} {l : List α} {ys : List β} (h : l.mapM f = .ok ys)
    (hy : ys.Nodup) {a b : α} (ha : a ∈ l) (hb : b ∈ l) {y : β} (hfa : f a = .ok y) (hfb : f b = .ok y) : a = b := by
  induction l generalizing ys with
  | nil => cases ha
  | cons c l ih =>
    obtain ⟨z, zs, hz, hzs, rfl⟩ := mapM_cons h
    rw [List.nodup_cons] at hy
    have key : ∀ d ∈ l, f d = .ok y → y ∈ zs := by
      intro d hd hfd
      obtain ⟨w, hw, hw'⟩ := mapM_mem' hzs hd
      rw [hfd] at hw'
      cases hw'
      exact hw
    rcases List.mem_cons.1 ha with rfl | ha' <;> rcases List.mem_cons.1 hb with rfl | hb'
    · rfl
    · rw [hfa] at hz
      cases hz
      exact absurd (key b hb' hfb) hy.1
    · rw [hfb] at hz
      cases hz
      exact absurd (key a ha' hfa) hy.1
    · exact ih hzs hy.2 ha' hb'

theorem allocs_decls {uids : List (Str × Nat)} {cs : List Class} {l : List Code}
    (h : cs.mapM (preallocate uids) = .ok l) :
    ∃ ps, cs.mapM (fun c => camelCase c.plural) = .ok ps ∧ (concat l).decls = ps.flatMap group := by
  induction cs generalizing l with
  | nil => cases h; exact ⟨[], rfl, rfl⟩
  | cons c cs ih =>
    obtain ⟨code, rest, hc, hr, rfl⟩ := mapM_cons h
    obtain ⟨p, name, hp, hname, h1, _⟩ := preallocate_fine hc
    obtain ⟨ps, hps, hd⟩ := ih hr
    refine ⟨p :: ps, ?_, ?_⟩
    · rw [List.mapM_cons, hp, hps]
      rfl
    · show (code ++ concat rest).decls = _
      rw [decls_append, h1, hd, List.flatMap_cons]

theorem nodup_of_groups {ps : List Str} (h : (ps.flatMap group).Nodup) : ps.Nodup := by
  induction ps with
  | nil => exact List.nodup_nil
  | cons p ps ih =>
    rw [List.flatMap_cons, List.nodup_append] at h
    rw [List.nodup_cons]
    refine ⟨fun hm => ?_, ih h.2.1⟩
    exact h.2.2 (own [] p c!"Ref") (by simp [group]) _ (List.mem_flatMap.2 ⟨p, hm, by simp [group]⟩) rfl

theorem parseGraph_needs {g : Graph} {uids : List (Str × Nat)} {O : List Name} {f : Func}
    (h : parseGraph g uids = .ok f) (hs : f.Scoped O) :
    (g.classes ≠ [] ∨ g.properties ≠ []) ∧ PluralsDistinct g := by
  unfold parseGraph at h
  obtain ⟨alloc, halloc, h⟩ := ok_bind h
  obtain ⟨insts, hinsts, h⟩ := ok_bind h
  obtain ⟨props, hprops, h⟩ := ok_bind h
  obtain ⟨n, hname, h⟩ := ok_bind h
  cases h
  constructor
  · by_cases hc : g.classes = []
    · refine .inr fun hp => ?_
      rw [hc] at halloc hinsts
      rw [hp] at hprops
      cases halloc
      cases hinsts
      cases hprops
      have := hs.clean.2.2.2.2.2.2.1 (v c!"cast") (by simp)
      rw [hc] at this
      revert this
      decide
    · exact .inl hc
  · obtain ⟨ps, hps, hd⟩ := allocs_decls halloc
    have hnd : (concat alloc).decls.Nodup := by
      have := hs.nodup
      rw [preamble_decls] at this
      simp only [Code.decls, decls_append, List.nodup_append] at this
      exact this.2.1.2.1.1.1.1
    rw [hd] at hnd
    intro c hc d hd' p hp hq
    rw [mapM_inj hps (nodup_of_groups hnd) hc hd' hp hq]

end Mapry.GoCode
