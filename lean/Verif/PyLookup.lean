import Verif.PyLocals

/-!
# The names of a module which are found
-/

namespace Mapry.PyCode

set_option linter.unusedSimpArgs false

open Mapry.TypeGraph Mapry.Naming Mapry.ParseSchema
open Mapry.GoCode (referencesOf hasPattern mapM_mem mapM_mem' mapM_cons)

/-- The texts are apart from the builtins, the libraries and the root of the package. -/
structure Free (r : Str) (xs : List Str) : Prop where
  root : r ∉ xs
  builtin : ∀ x ∈ xs, x ∉ builtins
  library : ∀ x ∈ xs, x ∉ libRoots

theorem Free.nil {r} : Free r [] := ⟨by simp, by simp, by simp⟩

theorem Free.mono {r xs ys} (h : Free r ys) (hs : ∀ x ∈ xs, x ∈ ys) : Free r xs :=
  ⟨fun hx => h.root (hs _ hx), fun x hx => h.builtin x (hs x hx), fun x hx => h.library x (hs x hx)⟩

theorem free_of {r : Str} {xs : List Str} (h : ∀ x ∈ xs, x ≠ r ∧ x ∉ builtins ∧ x ∉ libRoots) : Free r xs :=
  ⟨fun hx => (h r hx).1 rfl, fun x hx => (h x hx).2.1, fun x hx => (h x hx).2.2⟩

theorem free_fixed {g : Graph} {r : Str} (hr : RootFree g r) {x : Str} (hx : x ∈ fixedTexts) :
    x ≠ r ∧ x ∉ builtins ∧ x ∉ libRoots :=
  ⟨fun e => hr.fixed (e ▸ hx), fixed_not_builtin x hx⟩

theorem under_free {x : Str} (h : '_' ∈ x) : x ∉ builtins ∧ x ∉ libRoots :=
  ⟨fun hb => builtin_plain x hb h, fun hl => lib_plain x hl h⟩

theorem free_temp {g : Graph} {r : Str} (hr : RootFree g r) {base : Str} (hb : base ∈ tempBases) (n : Nat) :
    (Var.temp base n).text ≠ r ∧ (Var.temp base n).text ∉ builtins ∧ (Var.temp base n).text ∉ libRoots :=
  ⟨fun e => hr.temp base hb n e.symm, under_free (by simp [Var.text])⟩

theorem free_composite {g : Graph} {r : Str} (hr : RootFree g r) {n x : Str} (hn : n ∈ allNames g)
    (hx : x ∈ compositeTexts n) : x ≠ r ∧ x ∉ builtins ∧ x ∉ libRoots := by
  refine ⟨fun e => hr.composite n hn (e ▸ hx), under_free ?_⟩
  simp only [compositeTexts, List.mem_cons, List.not_mem_nil, or_false] at hx
  rcases hx with rfl | rfl | rfl | rfl <;> simp

theorem free_class {g : Graph} {r : Str} (hr : RootFree g r) {c : Class} {x : Str} (hc : c ∈ g.classes)
    (hx : x ∈ classTexts c) : x ≠ r ∧ x ∉ builtins ∧ x ∉ libRoots := by
  refine ⟨fun e => hr.cls c hc (e ▸ hx), under_free ?_⟩
  simp only [classTexts, List.mem_cons, List.not_mem_nil, or_false] at hx
  rcases hx with rfl | rfl | rfl | rfl <;> simp

/-- The names which a module may look up: what is meant by them is there. -/
inductive Known (pkg : List Module) (imports : List (Origin × Str)) (defs : List Str) : Name → Prop where
  | var (x) : Known pkg imports defs (.var x)
  | builtin (x) : x ∈ builtins → Known pkg imports defs (b x)
  | lib (p) : p ∈ libPaths → (.library, p) ∈ imports → Known pkg imports defs (lib p)
  | member (p y) : (.package, p) ∈ imports → (∃ M ∈ pkg, M.path = p ∧ ∃ i ∈ M.items, i.name = y) →
      Known pkg imports defs (.member p y)
  | glob (x) : x ∈ defs → Known pkg imports defs (.glob x)

section
variable {pkg : List Module} {imports : List (Origin × Str)} {defs : List Str}

theorem Known.mono {defs' : List Str} {n : Name} (h : Known pkg imports defs n) (hd : ∀ x ∈ defs, x ∈ defs') :
    Known pkg imports defs' n := by
  cases h with
  | var x => exact .var x
  | builtin x hx => exact .builtin x hx
  | lib p h1 h2 => exact .lib p h1 h2
  | member p y h1 h2 => exact .member p y h1 h2
  | glob x hx => exact .glob x (hd x hx)

theorem Known.plain {n : Name} (h : Plain n) : Known pkg imports defs n := by
  cases h with
  | var x => exact .var x
  | builtin x hx => exact .builtin x hx

/-- The imports which the name needs are there. -/
theorem Known.imported {n : Name} (h : Known pkg imports defs n) : n.Imported imports := by
  intro q hq
  cases h with
  | var x => cases hq
  | builtin x hx => cases hq
  | lib p h1 h2 =>
    obtain rfl := List.mem_singleton.1 hq
    exact ⟨_, h2, rfl, .inl rfl⟩
  | member p y h1 h2 =>
    obtain rfl := List.mem_singleton.1 hq
    exact ⟨_, h1, rfl, .inl rfl⟩
  | glob x hx => cases hq

/-- The name is found if neither the variables nor the definitions hide it. -/
theorem Known.found {r : Str} {n : Name} {locals : List Str} (h : Known pkg imports defs n) (hi : ImportsOf r imports)
    (hb : r ∉ builtins) (hl : r ∉ libRoots) (h1 : Free r locals) (h2 : Free r defs)
    (hg : ∀ x, n = .glob x → x ∉ locals) : Static (Found pkg imports locals defs) n := by
  have ha := hi.apart hb hl
  cases h with
  | var x => trivial
  | builtin x hx => exact found_builtin ha hx (fun h => h1.builtin x h hx) (fun h => h2.builtin x h hx)
  | lib p hp hm =>
    exact found_lib ha hm (fun h => h1.library _ h (root_lib p hp)) (fun h => h2.library _ h (root_lib p hp))
  | member p y hm he =>
    have e := hi.pkgs p hm
    exact found_member ha hm (e ▸ h1.root) (e ▸ h2.root) he
  | glob x hx => exact found_glob (hg x rfl) hx

end

/-- A name which is no variable. -/
def Name.Constant : Name → Prop
  | .var _ => False
  | _ => True

theorem static_constant {ok : Name → Prop} {n : Name} (h : n.Constant) (hs : Static ok n) : ok n := by
  cases n with
  | var x => cases h
  | _ => exact hs

/-- A module whose definitions can be executed. -/
theorem loads_known {pkg : List Module} {imports : List (Origin × Str)} {r : Str} {items : List Item} {before : List Str}
    (hi : ImportsOf r imports) (hb : r ∉ builtins) (hl : r ∉ libRoots) (hf : Free r (before ++ items.map Item.name))
    (hk : ∀ l₁ i l₂, items = l₁ ++ i :: l₂ → ∀ n ∈ i.uses, n.Constant ∧ Known pkg imports (before ++ l₁.map Item.name) n) :
    Loads pkg imports before items := by
  apply loads_of
  intro l₁ i l₂ e n hn
  obtain ⟨hc, hn⟩ := hk l₁ i l₂ e n hn
  refine static_constant hc (hn.found hi hb hl .nil (hf.mono ?_) (by simp))
  intro x hx
  rw [e, List.map_append]
  rcases List.mem_append.1 hx with hx | hx
  · exact List.mem_append_left _ hx
  · exact List.mem_append_right _ (List.mem_append_left _ hx)

/-! ## The definition which a text refers to -/

theorem find_unique {α : Type} {k : α → Str} {l : List α} (hn : (l.map k).Nodup) {a : α} (ha : a ∈ l) :
    l.find? (fun x => k x == k a) = some a := by
  induction l with
  | nil => cases ha
  | cons x l ih =>
    rw [List.map_cons, List.nodup_cons] at hn
    rcases List.mem_cons.1 ha with rfl | ha
    · simp
    · rw [List.find?_cons_of_neg]
      · exact ih hn.2 ha
      · simp only [beq_iff_eq]
        intro e
        exact hn.1 (e ▸ List.mem_map.2 ⟨a, ha, rfl⟩)

theorem definition_of {M : Module} (hn : (M.items.map Item.name).Nodup) {i : Item} (hi : i ∈ M.items) :
    M.definition? i.name = some i := by
  unfold Module.definition?
  refine find_unique (k := Item.name) ?_ (List.mem_reverse.2 hi)
  rw [List.map_reverse]
  exact (List.reverse_perm _).nodup_iff.2 hn

end Mapry.PyCode
