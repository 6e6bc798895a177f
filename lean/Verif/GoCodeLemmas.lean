import Verif.GoCode
import Verif.TypeGraphLemmas

/-!
# Names in the generated Go code

Lemmas about the code of values: which names it declares, assigns and uses.
-/

namespace Mapry.GoCode

open Mapry.TypeGraph Mapry.Naming

/-! ## Sequences -/

@[simp] theorem append_done (d : Code) : Code.done ++ d = d := rfl
@[simp] theorem append_use (xs : List Name) (c d : Code) : Code.use xs c ++ d = .use xs (c ++ d) := rfl
@[simp] theorem append_assign (xs : List Name) (c d : Code) : Code.assign xs c ++ d = .assign xs (c ++ d) := rfl
@[simp] theorem append_decl (xs : List Name) (c d : Code) : Code.decl xs c ++ d = .decl xs (c ++ d) := rfl
@[simp] theorem append_block (b c d : Code) : Code.block b c ++ d = .block b (c ++ d) := rfl

theorem decls_append (c d : Code) : (c ++ d).decls = c.decls ++ d.decls := by
  induction c with
  | done => simp [Code.decls]
  | use xs c ih => simpa [Code.decls] using ih
  | assign xs c ih => simpa [Code.decls] using ih
  | decl xs c ih => simp [Code.decls, ih]
  | block b c _ ih => simpa [Code.decls] using ih

theorem used_append {c d : Code} {x : Name} :
    x ∈ (c ++ d).used ↔ x ∈ c.used ∨ (x ∈ d.used ∧ x ∉ c.decls) := by
  induction c with
  | done => simp [Code.used, Code.decls]
  | use xs c ih => simp [Code.used, Code.decls, ih, or_assoc]
  | assign xs c ih => simp [Code.used, Code.decls, ih]
  | decl xs c ih =>
    simp only [append_decl, Code.used, List.mem_filter, ih, Code.decls, List.mem_append, decide_eq_true_eq, not_or]
    constructor
    · rintro ⟨h | h, h'⟩
      · exact .inl ⟨h, h'⟩
      · exact .inr ⟨h.1, h', h.2⟩
    · rintro (h | h)
      · exact ⟨.inl h.1, h.2⟩
      · exact ⟨.inr ⟨h.1, h.2.2⟩, h.2.1⟩
  | block b c _ ih => simp [Code.used, Code.decls, ih, or_assoc]

theorem free_append {c d : Code} {x : Name} :
    x ∈ (c ++ d).free ↔ x ∈ c.free ∨ (x ∈ d.free ∧ x ∉ c.decls) := by
  induction c with
  | done => simp [Code.free, Code.decls]
  | use xs c ih => simp [Code.free, Code.decls, ih, or_assoc]
  | assign xs c ih => simp [Code.free, Code.decls, ih, or_assoc]
  | decl xs c ih =>
    simp only [append_decl, Code.free, List.mem_filter, ih, Code.decls, List.mem_append, decide_eq_true_eq, not_or]
    constructor
    · rintro ⟨h | h, h'⟩
      · exact .inl ⟨h, h'⟩
      · exact .inr ⟨h.1, h', h.2⟩
    · rintro (h | h)
      · exact ⟨.inl h.1, h.2⟩
      · exact ⟨.inr ⟨h.1, h.2.2⟩, h.2.1⟩
  | block b c _ ih => simp [Code.free, Code.decls, ih, or_assoc]

theorem clean_append {c d : Code} (hc : c.Clean) (hd : d.Clean) : (c ++ d).Clean := by
  induction c with
  | done => exact hd
  | use xs c ih => exact ih hc
  | assign xs c ih => exact ih hc
  | decl xs c ih => exact ⟨fun x hx => used_append.2 (.inl (hc.1 x hx)), ih hc.2⟩
  | block b c _ ih => exact ⟨hc.1, hc.2.1, ih hc.2.2⟩

theorem used_sub_free {c : Code} {x : Name} (h : x ∈ c.used) : x ∈ c.free := by
  induction c with
  | done => exact h
  | use xs c ih =>
    simp only [Code.used, Code.free, List.mem_append] at h ⊢
    exact h.imp id ih
  | assign xs c ih => exact List.mem_append.2 (.inr (ih h))
  | decl xs c ih =>
    simp only [Code.used, Code.free, List.mem_filter] at h ⊢
    exact ⟨ih h.1, h.2⟩
  | block b c ihb ih =>
    simp only [Code.used, Code.free, List.mem_append] at h ⊢
    exact h.imp ihb ih

/-! ## Parsing a value -/

/-- The names which the code of a single type needs from outside, apart from the ones in its arguments. -/
def Admits₁ (ctx : Ctx) (A : Name → Prop) : Ty → Prop
  | .integer _ => A math
  | .string (some p) => A (patternName ctx.uids p)
  | .path (some p) => A (patternName ctx.uids p)
  | .date _ => A time
  | .time _ => A time
  | .datetime _ => A time
  | .timeZone => A time
  | .duration => A time ∧ A (.glob c!"durationFromString")
  | .array .. => A strconv
  | .cls c => (∀ r, ctx.registry c = .ok r → ∀ x ∈ r, A x) ∧ ∀ f, ucamelCase c = .ok f → A (.glob f)
  | .embed e => (∀ r, embedRegistries ctx e = .ok r → ∀ x ∈ r, A x) ∧
      ∀ f, ucamelCase e = .ok f → A (.glob f) ∧ A (.glob (f ++ c!"FromJSONable"))
  | _ => True

/-- The names which the code of a type needs from outside. -/
structure Admits (ctx : Ctx) (A : Name → Prop) (t : Ty) : Prop where
  errors : A errors
  strings : A strings
  fmt : A fmt
  parts : ∀ u ∈ parts t, Admits₁ ctx A u

theorem typeNames_admits {ctx : Ctx} {A : Name → Prop} {t : Ty} (h : ∀ u ∈ parts t, Admits₁ ctx A u)
    {names : List Name} (hn : typeNames t = .ok names) : ∀ x ∈ names, A x := by
  induction t generalizing names with
  | array t lo hi ih => exact ih (fun u hu => h u (by simp [parts, hu])) hn
  | map t ih => exact ih (fun u hu => h u (by simp [parts, hu])) hn
  | cls c =>
    have := h _ (self_mem_parts _)
    simp only [typeNames, bind, Except.bind, pure, Except.pure] at hn
    split at hn
    · cases hn
    · cases hn
      simpa using this.2 _ (by assumption)
  | embed c =>
    have := h _ (self_mem_parts _)
    simp only [typeNames, bind, Except.bind, pure, Except.pure] at hn
    split at hn
    · cases hn
    · cases hn
      simpa using (this.2 _ (by assumption)).1
  | boolean => cases hn; simp
  | integer => cases hn; simp
  | float => cases hn; simp
  | string => cases hn; simp
  | path => cases hn; simp
  | date => cases hn; simpa [Admits₁] using h _ (self_mem_parts _)
  | time => cases hn; simpa [Admits₁] using h _ (self_mem_parts _)
  | datetime => cases hn; simpa [Admits₁] using h _ (self_mem_parts _)
  | timeZone => cases hn; simpa [Admits₁] using h _ (self_mem_parts _)
  | duration => cases hn; simpa [Admits₁] using (h _ (self_mem_parts _)).1

/-- The names which the code of a value may mention. -/
def Allowed (A : Name → Prop) (value : List Name) (tgt : Target) (ref : List Name) (x : Name) : Prop :=
  x ∈ value ∨ x ∈ tgt.uses ∨ x ∈ tgt.sets ∨ x ∈ tgt.addr ∨ x ∈ ref ∨ A x

/-- What the code to parse a value has to fulfil, where `n` is the first identifier it may use. -/
structure Fine (A : Name → Prop) (value : List Name) (tgt : Target) (ref : List Name) (n : Nat) (c : Code) (m : Nat) :
    Prop where
  lt : n < m
  fresh : ∀ x ∈ c.decls, ∃ b k, x = vi b k ∧ n ≤ k
  nodup : c.decls.Nodup
  clean : c.Clean
  uses : ∀ x ∈ value, x ∈ c.used
  free : ∀ x ∈ c.free, Allowed A value tgt ref x

section
variable {ctx : Ctx} {A : Name → Prop} {value : List Name} {tgt : Target} {ref : List Name} {n m : Nat}

theorem store_used (x : Name) : x ∈ (store tgt x).used := by simp [store, Code.used]

theorem store_decls (x : Name) : (store tgt x).decls = [] := rfl

theorem store_clean (x : Name) : (store tgt x).Clean := trivial

theorem store_free {x y : Name} (h : y ∈ (store tgt x).free) : y = x ∨ y ∈ tgt.uses ∨ y ∈ tgt.sets := by
  simp only [store, Code.free, List.append_nil, List.mem_append, List.mem_singleton] at h
  rcases h with (h | h) | h
  · exact .inr (.inl h)
  · exact .inl h
  · exact .inr (.inr h)

theorem report_free {args : List Name} {rest : Code} {y : Name} (hA : A errors ∧ A strings ∧ A fmt)
    (h : y ∈ (report ref args rest).free) : A y ∨ y ∈ ref ∨ y ∈ args ∨ y ∈ rest.free := by
  simp only [report, Code.free, List.append_nil, List.mem_append, List.mem_cons] at h
  obtain ⟨h1, h2, h3⟩ := hA
  rcases h with ((rfl | rfl | h) | rfl | h) | h
  · exact .inl h1
  · exact .inl h2
  · exact .inr (.inl h)
  · exact .inl h3
  · exact .inr (.inr (.inl h))
  · exact .inr (.inr (.inr h))

theorem report_used {args : List Name} {rest : Code} {y : Name} (h : y ∈ rest.used) :
    y ∈ (report ref args rest).used := by
  simp [report, Code.used, h]

theorem report_decls {args : List Name} {rest : Code} : (report ref args rest).decls = rest.decls := rfl

theorem report_clean {args : List Name} {rest : Code} (h : rest.Clean) : (report ref args rest).Clean :=
  ⟨List.nodup_nil, trivial, h⟩

theorem otherwise_used {b : Code} {x : Name} : x ∈ (otherwise b).used ↔ x ∈ b.used := by
  simp [otherwise, Code.used]

theorem otherwise_free {b : Code} {x : Name} : x ∈ (otherwise b).free ↔ x ∈ b.free := by
  simp [otherwise, Code.free]

theorem otherwise_clean {b : Code} (hn : b.decls.Nodup) (h : b.Clean) : (otherwise b).Clean := ⟨hn, h, trivial⟩

theorem fine_cast {b : Str} {rest : Code} (hA : A errors ∧ A strings ∧ A fmt) (hb : b ≠ c!"ok") (hm : n < m)
    (hd : rest.decls = []) (hc : rest.Clean) (hu : vi b n ∈ rest.used)
    (hf : ∀ x ∈ rest.free, x = vi b n ∨ x = vi c!"ok" n ∨ Allowed A value tgt ref x) :
    Fine A value tgt ref n (castTo (vi b n) n value ref rest) m where
  lt := hm
  fresh := by
    intro x hx
    simp only [castTo, Code.decls, report_decls, hd, List.append_nil, List.mem_cons, List.not_mem_nil, or_false] at hx
    rcases hx with rfl | rfl
    · exact ⟨_, _, rfl, Nat.le_refl _⟩
    · exact ⟨_, _, rfl, Nat.le_refl _⟩
  nodup := by
    simp [castTo, Code.decls, report_decls, hd, vi, hb]
  clean := by
    refine ⟨?_, report_clean hc⟩
    intro x hx
    simp only [List.mem_cons, List.not_mem_nil, or_false] at hx
    rcases hx with rfl | rfl
    · exact List.mem_append.2 (.inr (report_used hu))
    · exact List.mem_append.2 (.inl (by simp))
  uses := fun x hx => List.mem_append.2 (.inl hx)
  free := by
    intro x hx
    simp only [castTo, Code.free, List.mem_append, List.mem_filter, List.mem_cons, List.not_mem_nil, or_false,
      decide_eq_true_eq, not_or] at hx
    rcases hx with hx | ⟨h, hne⟩
    · exact .inl hx
    · rcases h with rfl | h
      · exact absurd rfl hne.2
      · rcases report_free hA h with h | h | h | h
        · exact .inr (.inr (.inr (.inr (.inr h))))
        · exact .inr (.inr (.inr (.inr (.inl h))))
        · exact .inl h
        · exact (hf x h).elim (fun e => absurd e hne.1) (Or.elim · (fun e => absurd e hne.2) id)

theorem checkBound_used {bound : Option Int} {x : Name} {rest : Code} {y : Name} (h : y ∈ rest.used) :
    y ∈ (checkBound ref bound x rest).used := by
  cases bound with
  | none => exact h
  | some b => exact List.mem_append.2 (.inr (report_used h))

theorem checkBound_decls {bound : Option Int} {x : Name} {rest : Code} :
    (checkBound ref bound x rest).decls = rest.decls := by
  cases bound <;> rfl

theorem checkBound_clean {bound : Option Int} {x : Name} {rest : Code} (h : rest.Clean) :
    (checkBound ref bound x rest).Clean := by
  cases bound with
  | none => exact h
  | some b => exact report_clean h

theorem checkBound_free {bound : Option Int} {x y : Name} {rest : Code} (hA : A errors ∧ A strings ∧ A fmt)
    (h : y ∈ (checkBound ref bound x rest).free) : y = x ∨ A y ∨ y ∈ ref ∨ y ∈ rest.free := by
  cases bound with
  | none => exact .inr (.inr (.inr h))
  | some b =>
    rcases List.mem_append.1 h with h | h
    · exact .inl (by simpa using h)
    · rcases report_free hA h with h | h | h | h
      · exact .inr (.inl h)
      · exact .inr (.inr (.inl h))
      · exact .inl (by simpa using h)
      · exact .inr (.inr (.inr h))

theorem store_allowed {x y : Name} (h : y ∈ (store tgt x).free) : y = x ∨ Allowed A value tgt ref y := by
  rcases store_free h with h | h | h
  · exact .inl h
  · exact .inr (.inr (.inl h))
  · exact .inr (.inr (.inr (.inl h)))

theorem Allowed.amb {x : Name} (h : A x) : Allowed A value tgt ref x := .inr (.inr (.inr (.inr (.inr h))))

theorem Allowed.path {x : Name} (h : x ∈ ref) : Allowed A value tgt ref x := .inr (.inr (.inr (.inr (.inl h))))

theorem checkBounds_allowed {b : Bounds} {x y : Name} (hA : A errors ∧ A strings ∧ A fmt)
    (h : y ∈ (checkBounds ref b x tgt).free) : y = x ∨ Allowed A value tgt ref y := by
  rcases checkBound_free hA h with h | h | h | h
  · exact .inl h
  · exact .inr (.amb h)
  · exact .inr (.path h)
  · rcases checkBound_free hA h with h | h | h | h
    · exact .inl h
    · exact .inr (.amb h)
    · exact .inr (.path h)
    · exact store_allowed (otherwise_free.1 h)

theorem checkBounds_used {b : Bounds} {x : Name} : x ∈ (checkBounds ref b x tgt).used :=
  checkBound_used (checkBound_used (otherwise_used.2 (store_used x)))

theorem checkBounds_decls {b : Bounds} {x : Name} : (checkBounds ref b x tgt).decls = [] := by
  simp only [checkBounds, checkBound_decls]
  rfl

theorem checkBounds_clean {b : Bounds} {x : Name} : (checkBounds ref b x tgt).Clean :=
  checkBound_clean (checkBound_clean (otherwise_clean List.nodup_nil trivial))

theorem fine_text {p : Option Str} (hA : A errors ∧ A strings ∧ A fmt) (hp : ∀ q, p = some q → A (patternName ctx.uids q))
    (hm : n < m) : Fine A value tgt ref n (parseText ctx p value tgt ref n) m := by
  cases p with
  | none =>
    refine fine_cast hA (by decide) hm rfl (otherwise_clean List.nodup_nil trivial)
      (otherwise_used.2 (store_used _)) ?_
    intro x hx
    exact (store_allowed (otherwise_free.1 hx)).imp id .inr
  | some q =>
    refine fine_cast hA (by decide) hm rfl (otherwise_clean List.nodup_nil
      (report_clean (otherwise_clean List.nodup_nil trivial)))
      (otherwise_used.2 (by simp [Code.used])) ?_
    intro x hx
    rcases List.mem_append.1 (otherwise_free.1 hx) with h | h
    · simp only [List.mem_cons, List.not_mem_nil, or_false] at h
      rcases h with rfl | rfl
      · exact .inr (.inr (.amb (hp q rfl)))
      · exact .inl rfl
    · rcases report_free hA h with h | h | h | h
      · exact .inr (.inr (.amb h))
      · exact .inr (.inr (.path h))
      · exact .inl (by simpa using h)
      · exact (store_allowed (otherwise_free.1 h)).imp id .inr

theorem fine_convert {f : Name} {args : List Name} (hA : A errors ∧ A strings ∧ A fmt) (hf : A f)
    (ha : ∀ x ∈ args, x = vi c!"err" n) (hm : n < m) :
    Fine A value tgt ref n (convertWith f args value tgt ref n) m := by
  refine fine_cast hA (by decide) hm rfl (otherwise_clean (by simp [Code.decls, report_decls, otherwise, vi])
    ⟨?_, report_clean (otherwise_clean List.nodup_nil trivial)⟩)
    (otherwise_used.2 (by simp [Code.used])) ?_
  · intro x hx
    simp only [List.mem_cons, List.not_mem_nil, or_false] at hx
    rcases hx with rfl | rfl
    · exact List.mem_append.2 (.inr (report_used (otherwise_used.2 (store_used _))))
    · exact List.mem_append.2 (.inl (by simp))
  · intro x hx
    have hx := otherwise_free.1 hx
    simp only [Code.free, List.mem_append, List.mem_filter, List.mem_cons, List.not_mem_nil, or_false,
      decide_eq_true_eq, not_or] at hx
    rcases hx with (rfl | rfl) | ⟨h, hne⟩
    · exact .inr (.inr (.amb hf))
    · exact .inl rfl
    · rcases h with rfl | h
      · exact absurd rfl hne.2
      · rcases report_free hA h with h | h | h | h
        · exact .inr (.inr (.amb h))
        · exact .inr (.inr (.path h))
        · rcases List.mem_cons.1 h with h | h
          · exact .inl h
          · exact absurd (ha x h) hne.2
        · exact (store_allowed (otherwise_free.1 h)).elim (fun e => absurd e hne.1) (fun h => .inr (.inr h))

/-- The code of an item in a loop, in terms of the target `target{n}` and the loop variable. -/
theorem fine_items {names : List Name} {x i : Name} {item : Code} (hA : A errors)
    (hn : ∀ y ∈ names, y = x ∨ A y) (hi : i ∈ item.used)
    (hd : item.decls.Nodup) (hc : item.Clean)
    (hf : ∀ y ∈ item.free, y = x ∨ y = i ∨ y = vi c!"target" n ∨ y ∈ ref ∨ A y) :
    (parseItems names x i item tgt n).Clean ∧ (parseItems names x i item tgt n).decls = [vi c!"target" n] ∧
    ∀ y ∈ (parseItems names x i item tgt n).free, y = x ∨ Allowed A value tgt ref y := by
  refine ⟨⟨?_, ?_, ⟨?_, ?_⟩, trivial⟩, ?_, ?_⟩
  · intro y hy
    rw [List.mem_singleton] at hy
    subst hy
    exact List.mem_append.2 (.inr (List.mem_append.2 (.inr (store_used _))))
  · simp [Code.decls]
  · intro y hy
    rw [List.mem_singleton] at hy
    subst hy
    exact List.mem_append.2 (.inl (used_append.2 (.inl hi)))
  · refine ⟨?_, clean_append hc ⟨List.nodup_nil, trivial, trivial⟩, trivial⟩
    rw [decls_append]
    simpa [Code.decls] using hd
  · rfl
  · intro y hy
    simp only [parseItems, Code.free, List.mem_append, List.mem_filter, List.mem_cons, List.not_mem_nil, or_false,
      decide_eq_true_eq, List.append_nil, List.filter_append] at hy
    rcases hy with hy | ⟨h, _⟩ | ⟨⟨h, hne'⟩, hne⟩ | ⟨h, hne⟩
    · exact (hn y hy).imp id .amb
    · exact .inl h
    · rcases free_append.1 h with h | ⟨h, _⟩
      · rcases hf y h with h | h | h | h | h
        · exact .inl h
        · exact absurd h hne'
        · exact absurd h hne
        · exact .inr (.path h)
        · exact .inr (.amb h)
      · simp only [Code.free, List.append_nil, List.mem_singleton] at h
        subst h
        exact .inr (.amb hA)
    · exact (store_allowed h).elim (fun e => absurd e hne) .inr

theorem items_used {names : List Name} {x i : Name} {item : Code} (hx : x ≠ vi c!"target" n) :
    x ∈ (parseItems names x i item tgt n).used := by
  simp [parseItems, Code.used, hx]

theorem fine_reference {registry : List Name} (hA : A errors ∧ A strings ∧ A fmt) (hr : ∀ x ∈ registry, A x)
    (hm : n < m) :
    Fine A value tgt ref n (castTo (vi c!"cast" n) n value ref (otherwise (.use (registry ++ [vi c!"cast" n])
      (.decl [vi c!"target" n, vi c!"ok" n] (.use [vi c!"ok" n] (report ref value
        (otherwise (store tgt (vi c!"target" n))))))))) m := by
  refine fine_cast hA (by decide) hm rfl (otherwise_clean (by simp [Code.decls, report_decls, otherwise, vi])
    ⟨?_, report_clean (otherwise_clean List.nodup_nil trivial)⟩)
    (otherwise_used.2 (by simp [Code.used])) ?_
  · intro x hx
    simp only [List.mem_cons, List.not_mem_nil, or_false] at hx
    rcases hx with rfl | rfl
    · exact List.mem_append.2 (.inr (report_used (otherwise_used.2 (store_used _))))
    · exact List.mem_append.2 (.inl (by simp))
  · intro x hx
    have hx := otherwise_free.1 hx
    simp only [Code.free, List.mem_append, List.mem_filter, List.mem_cons, List.not_mem_nil, or_false,
      decide_eq_true_eq, not_or] at hx
    rcases hx with (h | rfl) | ⟨h, hne⟩
    · exact .inr (.inr (.amb (hr _ h)))
    · exact .inl rfl
    · rcases h with rfl | h
      · exact absurd rfl hne.2
      · rcases report_free hA h with h | h | h | h
        · exact .inr (.inr (.amb h))
        · exact .inr (.inr (.path h))
        · exact .inr (.inr (.inl h))
        · exact (store_allowed (otherwise_free.1 h)).elim (fun e => absurd e hne.1) (fun h => .inr (.inr h))

theorem fine_embed {f : Str} {registries : List Name} (hA : A errors ∧ A strings ∧ A fmt)
    (hf : A (.glob (f ++ c!"FromJSONable"))) (hr : ∀ x ∈ registries, A x) (hm : n < m) :
    Fine A value tgt ref n (.use (.glob (f ++ c!"FromJSONable") :: value ++ registries ++ strings :: ref ++
      tgt.addr ++ [errors]) .done) m where
  lt := hm
  fresh := by simp [Code.decls]
  nodup := List.nodup_nil
  clean := trivial
  uses := by intro x hx; simp [Code.used, hx]
  free := by
    intro x hx
    simp only [Code.free, List.append_nil, List.mem_append, List.mem_cons, List.not_mem_nil, or_false] at hx
    rcases hx with ((((rfl | h) | h) | rfl | h) | h) | rfl
    · exact .amb hf
    · exact .inl h
    · exact .amb (hr x h)
    · exact .amb hA.2.1
    · exact .path h
    · exact .inr (.inr (.inr (.inl h)))
    · exact .amb hA.1

end

theorem ok_bind {α β : Type} {x : Except Exc α} {f : α → Except Exc β} {b : β} (h : (x >>= f) = .ok b) :
    ∃ a, x = .ok a ∧ f a = .ok b := by
  cases x with
  | error e => cases h
  | ok a => exact ⟨a, rfl, h⟩

theorem fine_loop {ctx : Ctx} {A : Name → Prop} {t : Ty} {value : List Name} {tgt : Target} {ref : List Name}
    {n m : Nat} {i : Str} {extra names' : List Name} {item : Code} {lo hi' : Option Int} {tgt' : Target}
    (hA : A errors ∧ A strings ∧ A fmt) (hp : ∀ u ∈ parts t, Admits₁ ctx A u) 
    (hx : ∀ x ∈ extra, A x) (ht : ∀ x, x ∈ tgt'.uses ∨ x ∈ tgt'.sets ∨ x ∈ tgt'.addr → x = vi c!"target" n ∨ x = vi i n)
    (hm : n < m) (hu : vi i n ∈ item.used) (hd : item.decls.Nodup) (hc : item.Clean)
    (hf : ∀ x ∈ item.free, Allowed A [vi c!"cast" n, vi i n] tgt' (ref ++ extra ++ [vi i n]) x)
    {names : List Name} (hn : typeNames t = .ok names)
    (hn' : ∀ x ∈ names', x ∈ names ∨ x = vi c!"cast" n) :
    Fine A value tgt ref n (castTo (vi c!"cast" n) n value ref
      (checkBound ref lo (vi c!"cast" n) (checkBound ref hi' (vi c!"cast" n)
      (otherwise (parseItems names' (vi c!"cast" n) (vi i n) item tgt n))))) m := by
  obtain ⟨h1, h2, h3⟩ := fine_items (tgt := tgt) (value := value) (ref := ref) (n := n) (names := names')
    (x := vi c!"cast" n) (i := vi i n) (item := item) hA.1
    (fun y hy => (hn' y hy).elim (fun h => .inr (typeNames_admits hp hn y h)) .inl)
    hu hd hc (by
      intro y hy
      rcases hf y hy with h | h | h | h | h | h
      · simp only [List.mem_cons, List.not_mem_nil, or_false] at h
        exact h.imp id .inl
      · exact (ht y (.inl h)).elim (fun h => .inr (.inr (.inl h))) (fun h => .inr (.inl h))
      · exact (ht y (.inr (.inl h))).elim (fun h => .inr (.inr (.inl h))) (fun h => .inr (.inl h))
      · exact (ht y (.inr (.inr h))).elim (fun h => .inr (.inr (.inl h))) (fun h => .inr (.inl h))
      · rcases List.mem_append.1 h with h | h
        · rcases List.mem_append.1 h with h | h
          · exact .inr (.inr (.inr (.inl h)))
          · exact .inr (.inr (.inr (.inr (hx y h))))
        · exact .inr (.inl (by simpa using h))
      · exact .inr (.inr (.inr (.inr h))))
  refine fine_cast hA (by decide) hm (by simp only [checkBound_decls]; rfl)
    (checkBound_clean (checkBound_clean (otherwise_clean (by rw [h2]; simp) h1)))
    (checkBound_used (checkBound_used (otherwise_used.2 (items_used (by simp [vi]))))) ?_
  intro x hx
  rcases checkBound_free hA hx with h | h | h | h
  · exact .inl h
  · exact .inr (.inr (.amb h))
  · exact .inr (.inr (.path h))
  · rcases checkBound_free hA h with h | h | h | h
    · exact .inl h
    · exact .inr (.inr (.amb h))
    · exact .inr (.inr (.path h))
    · exact (h3 x (otherwise_free.1 h)).imp id .inr

/-- The code to parse a value declares fresh variables only, uses all of them and mentions nothing else but its
arguments and the names which its type needs. -/
theorem fine_parse {ctx : Ctx} {A : Name → Prop} {t : Ty} (hA : Admits ctx A t) {value : List Name} {tgt : Target}
    {ref : List Name} {n m : Nat} {c : Code} (h : parseValue ctx t value tgt ref n = .ok (c, m)) :
    Fine A value tgt ref n c m := by
  obtain ⟨h1, h2, h3, hp⟩ := hA
  have hA : A errors ∧ A strings ∧ A fmt := ⟨h1, h2, h3⟩
  clear h1 h2 h3
  induction t generalizing value tgt ref n m c with
  | boolean =>
    cases h
    refine fine_cast hA (by decide) (Nat.lt_succ_self n) rfl (otherwise_clean List.nodup_nil trivial)
      (otherwise_used.2 (store_used _)) ?_
    intro x hx
    exact (store_allowed (otherwise_free.1 hx)).imp id .inr
  | integer b =>
    cases h
    have hm : A math := hp _ (self_mem_parts _)
    refine fine_cast hA (by decide) (Nat.lt_succ_self n) rfl ?_ (by simp [Code.used]) ?_
    · refine report_clean (report_clean (otherwise_clean ?_ ?_))
      · split
        · exact List.nodup_nil
        · simp [Code.decls, checkBounds_decls]
      · split
        · trivial
        · exact ⟨by simpa using checkBounds_used, checkBounds_clean⟩
    · intro x hx
      rcases List.mem_append.1 hx with h | h
      · simp only [List.mem_cons, List.not_mem_nil, or_false] at h
        rcases h with rfl | rfl | rfl
        · exact .inl rfl
        · exact .inr (.inr (.amb hm))
        · exact .inl rfl
      rcases report_free hA h with h | h | h | h
      · exact .inr (.inr (.amb h))
      · exact .inr (.inr (.path h))
      · exact .inl (by simpa using h)
      rcases List.mem_append.1 h with h | h
      · exact .inl (by simpa using h)
      rcases report_free hA h with h | h | h | h
      · exact .inr (.inr (.amb h))
      · exact .inr (.inr (.path h))
      · exact .inl (by simpa using h)
      have h := otherwise_free.1 h
      split at h
      · exact (store_allowed h).imp id .inr
      · rcases List.mem_append.1 h with h | h
        · exact .inl (by simpa using h)
        · have := List.mem_filter.1 h
          refine (checkBounds_allowed hA this.1).elim (fun e => absurd e ?_) (fun h => .inr (.inr h))
          simpa using this.2
  | float b =>
    obtain ⟨_, _, h⟩ := ok_bind h
    obtain ⟨_, _, h⟩ := ok_bind h
    cases h
    refine fine_cast hA (by decide) (Nat.lt_succ_self n) rfl (otherwise_clean ?_ ?_) (otherwise_used.2 ?_) ?_
    · split
      · exact List.nodup_nil
      · simp [checkBounds_decls]
    · split
      · trivial
      · exact checkBounds_clean
    · split
      · exact store_used _
      · exact checkBounds_used
    · intro x hx
      have h := otherwise_free.1 hx
      split at h
      · exact (store_allowed h).imp id .inr
      · exact (checkBounds_allowed hA h).imp id .inr
  | string p =>
    cases h
    refine fine_text hA ?_ (Nat.lt_succ_self n)
    rintro q rfl
    exact hp _ (self_mem_parts _)
  | path p =>
    cases h
    refine fine_text hA ?_ (Nat.lt_succ_self n)
    rintro q rfl
    exact hp _ (self_mem_parts _)
  | date f =>
    obtain ⟨_, _, h⟩ := ok_bind h
    cases h
    exact fine_convert hA (hp _ (self_mem_parts _)) (by simp) (Nat.lt_succ_self n)
  | time f =>
    obtain ⟨_, _, h⟩ := ok_bind h
    cases h
    exact fine_convert hA (hp _ (self_mem_parts _)) (by simp) (Nat.lt_succ_self n)
  | datetime f =>
    obtain ⟨_, _, h⟩ := ok_bind h
    cases h
    exact fine_convert hA (hp _ (self_mem_parts _)) (by simp) (Nat.lt_succ_self n)
  | timeZone =>
    cases h
    exact fine_convert hA (hp _ (self_mem_parts _)) (by simp) (Nat.lt_succ_self n)
  | duration =>
    cases h
    exact fine_convert hA (hp _ (self_mem_parts _)).2 (by simp) (Nat.lt_succ_self n)
  | array t lo hi ih =>
    obtain ⟨⟨item, k⟩, hi', h⟩ := ok_bind h
    obtain ⟨names, hn, h⟩ := ok_bind h
    cases h
    have hp' : ∀ u ∈ parts t, Admits₁ ctx A u := fun u hu => hp u (by simp [parts, hu])
    have hs : A strconv := hp _ (self_mem_parts _)
    have hf := ih hi' hp'
    refine fine_loop (i := c!"i") (extra := [strconv]) hA hp' (by simpa using hs) ?_
      (Nat.lt_of_succ_lt hf.lt) (hf.uses _ (by simp)) hf.nodup hf.clean (by simpa using hf.free) hn (by simp)
    rintro x (h | h | h) <;> simp_all
  | map t ih =>
    have hp' : ∀ u ∈ parts t, Admits₁ ctx A u := fun u hu => hp u (by simp [parts, hu])
    by_cases he : ∃ e, t = .embed e
    · obtain ⟨e, rfl⟩ := he
      obtain ⟨⟨item, k⟩, hi', h⟩ := ok_bind h
      obtain ⟨names, hn, h⟩ := ok_bind h
      cases h
      have hf := ih hi' hp'
      have hnames := typeNames_admits hp' hn
      have hk : item.decls = [] := by
        obtain ⟨_, _, h⟩ := ok_bind hi'
        obtain ⟨_, _, h⟩ := ok_bind h
        cases h
        rfl
      refine fine_loop (i := c!"k") (extra := []) (lo := none) (hi' := none)
        (tgt' := ⟨[vi c!"target" n, vi c!"k" n], [], []⟩) hA hp' (by simp) ?_
        (Nat.lt_of_succ_lt hf.lt) ?_ ?_ ?_ ?_ hn (by simp +contextual)
      · rintro x (h | h | h) <;> simp_all
      · refine List.mem_append.2 (.inr (List.mem_filter.2 ⟨used_append.2 (.inl (hf.uses _ (by simp))), ?_⟩))
        simp [vi]
      · simp [Code.decls, decls_append, hk]
      · refine ⟨?_, clean_append hf.clean trivial⟩
        intro x hx
        rw [List.mem_singleton] at hx
        subst hx
        exact used_append.2 (.inr ⟨by simp [Code.used], by simp [hk]⟩)
      · intro x hx
        rcases List.mem_append.1 hx with h | h
        · exact .amb (hnames x h)
        · obtain ⟨h, hne⟩ := List.mem_filter.1 h
          have hne : x ≠ vi c!"item" n := by simpa using hne
          rcases free_append.1 h with h | ⟨h, _⟩
          · rcases hf.free x h with h | h | h | h | h | h
            · exact .inl h
            · cases h
            · exact absurd (by simpa using h) hne
            · exact absurd (by simpa using h) hne
            · exact .path (by simpa using h)
            · exact .amb h
          · simp only [Code.free, List.append_nil, List.mem_cons, List.not_mem_nil, or_false] at h
            rcases h with h | h | h
            · exact .inr (.inl (by simp [h]))
            · exact .inr (.inl (by simp [h]))
            · exact absurd h hne
    · have h' : (do
        let (item, m) ← parseValue ctx t [vi c!"cast" n, vi c!"k" n]
          ⟨[vi c!"target" n, vi c!"k" n], [], [vi c!"target" n, vi c!"k" n]⟩ (ref ++ [vi c!"k" n]) (n + 1)
        let names ← typeNames t
        pure (castTo (vi c!"cast" n) n value ref
          (otherwise (parseItems names (vi c!"cast" n) (vi c!"k" n) item tgt n)), m)) = Except.ok (c, m) := by
        rw [← h]
        cases t <;> first | rfl | exact absurd ⟨_, rfl⟩ he
      obtain ⟨⟨item, k⟩, hi', h⟩ := ok_bind h'
      obtain ⟨names, hn, h⟩ := ok_bind h
      cases h
      have hf := ih hi' hp'
      refine fine_loop (i := c!"k") (extra := []) (lo := none) (hi' := none) hA hp' (by simp) ?_
        (Nat.lt_of_succ_lt hf.lt) (hf.uses _ (by simp)) hf.nodup hf.clean (by simpa using hf.free) hn
        (by simp +contextual)
      rintro x (h | h | h) <;> simp_all
  | cls c' =>
    obtain ⟨r, hr, h⟩ := ok_bind h
    obtain ⟨_, _, h⟩ := ok_bind h
    cases h
    exact fine_reference hA ((hp _ (self_mem_parts _)).1 r hr) (Nat.lt_succ_self n)
  | embed e =>
    obtain ⟨r, hr, h⟩ := ok_bind h
    obtain ⟨f, hf, h⟩ := ok_bind h
    cases h
    have := hp _ (self_mem_parts _)
    exact fine_embed hA (this.2 f hf).2 (this.1 r hr) (Nat.lt_succ_self n)

/-! ## Parsing the properties -/

/-- The names which a function which parses properties provides. -/
def Locals (x : Name) : Prop := x = v c!"cast" ∨ x = v c!"target" ∨ x = v c!"ref"

theorem parseProperty_fine {ctx : Ctx} {A : Name → Prop} {p : Property} {n m : Nat} {c : Code}
    (hA : Admits ctx A p.ty) (h : parseProperty ctx p n = .ok (c, m)) :
    n < m ∧ c.decls = [vi c!"value" n, vi c!"ok" n] ∧ c.Clean ∧ v c!"cast" ∈ c.used ∧
    ∀ x ∈ c.free, Locals x ∨ A x := by
  obtain ⟨_, _, h⟩ := ok_bind h
  obtain ⟨⟨parsing, k⟩, hp, h⟩ := ok_bind h
  obtain ⟨names, hn, h⟩ := ok_bind h
  have hf := fine_parse hA hp
  have hnames := typeNames_admits hA.parts hn
  have hhead : ∀ rest : Code, rest.decls = [] → rest.Clean → vi c!"value" n ∈ rest.used →
      (∀ x ∈ rest.free, x = vi c!"value" n ∨ Locals x ∨ A x) →
      (Code.use [v c!"cast"] (.decl [vi c!"value" n, vi c!"ok" n] (.use [vi c!"ok" n] rest))).decls =
        [vi c!"value" n, vi c!"ok" n] ∧
      (Code.use [v c!"cast"] (.decl [vi c!"value" n, vi c!"ok" n] (.use [vi c!"ok" n] rest))).Clean ∧
      v c!"cast" ∈ (Code.use [v c!"cast"] (.decl [vi c!"value" n, vi c!"ok" n] (.use [vi c!"ok" n] rest))).used ∧
      ∀ x ∈ (Code.use [v c!"cast"] (.decl [vi c!"value" n, vi c!"ok" n] (.use [vi c!"ok" n] rest))).free,
        Locals x ∨ A x := by
    intro rest hd hc hu hfr
    refine ⟨by simp [Code.decls, hd], ⟨?_, hc⟩, by simp [Code.used], ?_⟩
    · intro x hx
      simp only [List.mem_cons, List.not_mem_nil, or_false] at hx
      rcases hx with rfl | rfl
      · exact List.mem_append.2 (.inr hu)
      · exact List.mem_append.2 (.inl (by simp))
    · intro x hx
      simp only [Code.free, List.mem_append, List.mem_filter, List.mem_cons, List.not_mem_nil, or_false,
        decide_eq_true_eq, not_or] at hx
      rcases hx with h | ⟨h | h, hne⟩
      · exact .inl (.inl h)
      · exact absurd h hne.2
      · exact (hfr x h).elim (fun e => absurd e hne.1) id
  simp only [pure, Except.pure] at h
  by_cases ho : p.optional = true
  · by_cases hd : isPointer p.ty = true
    · simp only [ho, hd, Bool.not_true, Bool.false_or, Bool.false_eq_true, if_true, if_false] at h hf
      cases h
      refine ⟨Nat.lt_of_succ_lt hf.lt, hhead _ rfl ⟨hf.nodup, hf.clean, trivial⟩ ?_ ?_⟩
      · exact List.mem_append.2 (.inl (hf.uses _ (by simp)))
      · intro x hx
        rcases hf.free x (by simpa [Code.free] using hx) with h | h | h | h | h | h
        · exact .inl (by simpa using h)
        · exact .inr (.inl (.inr (.inl (by simpa using h))))
        · cases h
        · exact .inr (.inl (.inr (.inl (by simpa using h))))
        · exact .inr (.inl (.inr (.inr (by simpa using h))))
        · exact .inr (.inr h)
    · simp only [ho, hd, Bool.not_true, Bool.false_or, Bool.false_eq_true, if_false] at h hf
      cases h
      have hnd : ∀ x, x = v c!"target" ∨ x = vi c!"target" n → x ∉ parsing.decls := by
        rintro x hx hmem
        obtain ⟨b, k, rfl, hk⟩ := hf.fresh x hmem
        rcases hx with h | h
        · simp [v, vi] at h
        · simp only [vi, Name.var.injEq, Option.some.injEq] at h
          omega
      refine ⟨Nat.lt_of_succ_lt hf.lt, hhead _ rfl ⟨?_, ⟨?_, clean_append hf.clean trivial⟩, trivial⟩ ?_ ?_⟩
      · have : vi c!"target" n ∉ parsing.decls := hnd _ (.inr rfl)
        simpa [Code.decls, decls_append, this] using hf.nodup
      · intro x hx
        rw [List.mem_singleton] at hx
        subst hx
        exact used_append.2 (.inr ⟨by simp [Code.used], hnd _ (.inr rfl)⟩)
      · refine List.mem_append.2 (.inl (List.mem_append.2 (.inr (List.mem_filter.2
          ⟨used_append.2 (.inl (hf.uses _ (by simp))), ?_⟩))))
        simp [vi]
      · intro x hx
        simp only [Code.free, List.append_nil, List.mem_append, List.mem_filter, decide_eq_true_eq,
          List.mem_singleton] at hx
        rcases hx with h | ⟨h, hne⟩
        · exact .inr (.inr (hnames x h))
        · rcases free_append.1 h with h | ⟨h, _⟩
          · rcases hf.free x h with h | h | h | h | h | h
            · exact .inl (by simpa using h)
            · cases h
            · exact absurd (by simpa using h) hne
            · exact absurd (by simpa using h) hne
            · exact .inr (.inl (.inr (.inr (by simpa using h))))
            · exact .inr (.inr h)
          · simp only [Code.free, List.append_nil, List.mem_cons, List.not_mem_nil, or_false] at h
            exact h.elim (fun h => .inr (.inl (.inr (.inl h)))) (fun h => absurd h hne)
  · simp only [ho, Bool.not_false, Bool.true_or, if_true] at h hf
    cases h
    refine ⟨Nat.lt_of_succ_lt hf.lt, hhead _ rfl ⟨List.nodup_nil, trivial, hf.nodup, hf.clean, trivial⟩ ?_ ?_⟩
    · exact List.mem_append.2 (.inr (List.mem_append.2 (.inl (hf.uses _ (by simp)))))
    · intro x hx
      simp only [Code.free, List.append_nil, List.mem_append, List.mem_cons, List.not_mem_nil, or_false] at hx
      rcases hx with (h | h) | h
      · exact .inr (.inr (h ▸ hA.errors))
      · exact .inr (.inl (.inr (.inr h)))
      · rcases hf.free x h with h | h | h | h | h | h
        · exact .inl (by simpa using h)
        · exact .inr (.inl (.inr (.inl (by simpa using h))))
        · cases h
        · exact .inr (.inl (.inr (.inl (by simpa using h))))
        · exact .inr (.inl (.inr (.inr (by simpa using h))))
        · exact .inr (.inr h)

theorem parseProps_fine {ctx : Ctx} {A : Name → Prop} {ps : List Property} {n : Nat} {c : Code}
    (hA : ∀ p ∈ ps, Admits ctx A p.ty) (h : parseProps ctx ps n = .ok c) :
    (∀ x ∈ c.decls, ∃ b k, x = vi b k ∧ n ≤ k) ∧ c.decls.Nodup ∧ c.Clean ∧ (ps ≠ [] → v c!"cast" ∈ c.used) ∧
    ∀ x ∈ c.free, Locals x ∨ A x := by
  induction ps generalizing n c with
  | nil => cases h; simp [Code.decls, Code.Clean, Code.free]
  | cons p ps ih =>
    obtain ⟨⟨d, m⟩, hd, h⟩ := ok_bind h
    obtain ⟨rest, hr, h⟩ := ok_bind h
    cases h
    obtain ⟨h1, h2, h3, h4, h5⟩ := parseProperty_fine (hA p (by simp)) hd
    obtain ⟨i1, i2, i3, _, i5⟩ := ih (fun q hq => hA q (by simp [hq])) hr
    have hdecls : (d ++ Code.use [errors] (.block .done rest)).decls =
        [vi c!"value" n, vi c!"ok" n] ++ rest.decls := by rw [decls_append, h2]; rfl
    refine ⟨?_, ?_, clean_append h3 ⟨List.nodup_nil, trivial, i3⟩, fun _ => used_append.2 (.inl h4), ?_⟩
    · intro x hx
      rw [hdecls] at hx
      simp only [List.cons_append, List.nil_append, List.mem_cons] at hx
      rcases hx with rfl | rfl | hx
      · exact ⟨_, _, rfl, Nat.le_refl _⟩
      · exact ⟨_, _, rfl, Nat.le_refl _⟩
      · obtain ⟨b, k, rfl, hk⟩ := i1 x hx
        exact ⟨b, k, rfl, by omega⟩
    · have hno : ∀ b, vi b n ∉ rest.decls := by
        intro b hb
        obtain ⟨b', k, hk, hk'⟩ := i1 _ hb
        simp only [vi, Name.var.injEq, Option.some.injEq] at hk
        omega
      rw [hdecls]
      simp [i2, vi]
      exact ⟨hno _, hno _⟩
    · intro x hx
      rcases free_append.1 hx with h | ⟨h, _⟩
      · exact h5 x h
      · simp only [Code.free, List.nil_append, List.mem_append, List.mem_singleton] at h
        rcases h with rfl | h
        · exact .inr (hA p (by simp)).errors
        · exact i5 x h

end Mapry.GoCode
