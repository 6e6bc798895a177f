import Verif.Traverse

/-! Helper lemmas about the traversals. -/

namespace Mapry.Traverse

section Generic

variable {α : Type} [DecidableEq α]

/-- Specification: `b` can be reached from `a` by following the children. -/
inductive Reach (children : α → List α) : α → α → Prop where
  | refl (a : α) : Reach children a a
  | step {a c b : α} : c ∈ children a → Reach children c b → Reach children a b

omit [DecidableEq α] in
theorem Reach.trans {children : α → List α} {a b c : α} (h : Reach children a b)
    (h' : Reach children b c) : Reach children a c := by
  induction h with
  | refl => exact h'
  | step hm _ ih => exact .step hm (ih h')

omit [DecidableEq α] in
theorem Reach.closed {children : α → List α} {a b : α} (h : Reach children a b) (S : α → Prop)
    (ha : S a) (hS : ∀ x, S x → ∀ c ∈ children x, S c) : S b := by
  induction h with
  | refl => exact ha
  | step hm _ ih => exact ih (hS _ ha _ hm)

theorem mem_insertNew (a x : α) (s : List α) : x ∈ insertNew a s ↔ x = a ∨ x ∈ s := by
  unfold insertNew
  split
  · rename_i h
    constructor
    · exact Or.inr
    · rintro (rfl | h')
      · exact h
      · exact h'
  · simp

/-! ### `_needs_type` -/

/-- A positive answer is witnessed by a reachable object. -/
theorem needsAux_true (children : α → List α) (query : α → Bool) (fuel : Nat) (a : α)
    (vis vis' : List α) (h : needsAux children query fuel a vis = some (true, vis')) :
    ∃ x, Reach children a x ∧ query x = true := by
  induction fuel generalizing a vis vis' with
  | zero => simp [needsAux] at h
  | succ fuel ih =>
    simp only [needsAux] at h
    split at h
    · rename_i hq; exact ⟨a, .refl a, hq⟩
    · have key : ∀ cs vis, (∀ c ∈ cs, c ∈ children a) →
          needsLoop (needsAux children query fuel) a cs vis = some (true, vis') →
          ∃ x, Reach children a x ∧ query x = true := by
        intro cs
        induction cs with
        | nil => intro vis _ h; simp [needsLoop] at h
        | cons c cs ihc =>
          intro vis hsub h
          simp only [needsLoop] at h
          split at h
          · exact ihc vis (fun c' hc' => hsub c' (by simp [hc'])) h
          · split at h
            · simp at h
            · rename_i v hv
              obtain ⟨x, hx, hqx⟩ := ih c _ _ hv
              exact ⟨x, .step (hsub c (by simp)) hx, hqx⟩
            · exact ihc _ (fun c' hc' => hsub c' (by simp [hc'])) h
      exact key _ _ (fun _ h => h) h

/-- The explored set `E'` of a negative answer: it extends the set explored before, contains the
start and whatever has been marked, and every newly explored object is negative with all its
children explored. -/
theorem needsAux_false (children : α → List α) (query : α → Bool) (fuel : Nat) (a : α)
    (vis vis' : List α) (h : needsAux children query fuel a vis = some (false, vis'))
    (E : α → Prop) (hE : ∀ x ∈ vis, E x) :
    ∃ E' : α → Prop, (∀ x, E x → E' x) ∧ E' a ∧ (∀ x ∈ vis', E' x) ∧
      ∀ x, E' x → E x ∨ (query x = false ∧ ∀ c ∈ children x, E' c) := by
  induction fuel generalizing a vis vis' E with
  | zero => simp [needsAux] at h
  | succ fuel ih =>
    simp only [needsAux] at h
    split at h
    · simp at h
    · rename_i hq
      have key : ∀ cs vis (E : α → Prop), (∀ x ∈ vis, E x) → E a →
          needsLoop (needsAux children query fuel) a cs vis = some (false, vis') →
          ∃ E' : α → Prop, (∀ x, E x → E' x) ∧ (∀ x ∈ vis', E' x) ∧ (∀ c ∈ cs, E' c) ∧
            ∀ x, E' x → E x ∨ (query x = false ∧ ∀ c ∈ children x, E' c) := by
        intro cs
        induction cs with
        | nil =>
          intro vis E hE _ h
          simp [needsLoop] at h
          subst h
          exact ⟨E, fun _ h => h, hE, by simp, fun x h => Or.inl h⟩
        | cons c cs ihc =>
          intro vis E hE hEa h
          simp only [needsLoop] at h
          split at h
          · rename_i hc
            obtain ⟨E', h1, h2, h3, h4⟩ := ihc vis E hE hEa h
            refine ⟨E', h1, h2, ?_, h4⟩
            intro c' hc'
            rcases List.mem_cons.1 hc' with rfl | hc'
            · exact h1 _ (hE _ hc)
            · exact h3 _ hc'
          · split at h
            · simp at h
            · simp at h
            · rename_i v hv
              have hE' : ∀ x ∈ insertNew a vis, E x := by
                intro x hx
                rcases (mem_insertNew a x vis).1 hx with rfl | hx
                · exact hEa
                · exact hE x hx
              obtain ⟨E1, g1, g2, g3, g4⟩ := ih c _ _ hv E hE'
              obtain ⟨E2, h1, h2, h3, h4⟩ := ihc v E1 g3 (g1 _ hEa) h
              refine ⟨E2, fun x hx => h1 x (g1 x hx), h2, ?_, ?_⟩
              · intro c' hc'
                rcases List.mem_cons.1 hc' with rfl | hc'
                · exact h1 _ g2
                · exact h3 _ hc'
              · intro x hx
                rcases h4 x hx with h | h
                · rcases g4 x h with h' | ⟨h', h''⟩
                  · exact Or.inl h'
                  · exact Or.inr ⟨h', fun c hc => h1 c (h'' c hc)⟩
                · exact Or.inr h
      obtain ⟨E', h1, h2, h3, h4⟩ := key _ _ (fun x => E x ∨ x = a) (fun x hx => Or.inl (hE x hx))
        (Or.inr rfl) h
      refine ⟨E', fun x hx => h1 x (Or.inl hx), h1 a (Or.inr rfl), h2, ?_⟩
      intro x hx
      rcases h4 x hx with (h | rfl) | h
      · exact Or.inl h
      · exact Or.inr ⟨by simpa using hq, h3⟩
      · exact Or.inr h

/-- The answer, if there is one, is exact. -/
theorem needsAux_correct (children : α → List α) (query : α → Bool) (fuel : Nat) (a : α)
    (r : Bool) (vis' : List α) (h : needsAux children query fuel a [] = some (r, vis')) :
    r = true ↔ ∃ x, Reach children a x ∧ query x = true := by
  cases r with
  | true => simpa using needsAux_true _ _ _ _ _ _ h
  | false =>
    simp only [Bool.false_eq_true, false_iff]
    rintro ⟨x, hx, hq⟩
    obtain ⟨E', _, h2, _, h4⟩ := needsAux_false _ _ _ _ _ _ h (fun _ => False) (by simp)
    have hclosed : E' x := hx.closed E' h2 (fun y hy c hc => by
      rcases h4 y hy with h | h
      · exact absurd h id
      · exact h.2 c hc)
    rcases h4 x hclosed with h | h
    · exact h
    · rw [h.1] at hq; simp at hq

theorem needsAux_vis_mono (children : α → List α) (query : α → Bool) (fuel : Nat) (a : α)
    (vis : List α) (r : Bool) (vis' : List α)
    (h : needsAux children query fuel a vis = some (r, vis')) : ∀ x ∈ vis, x ∈ vis' := by
  induction fuel generalizing a vis r vis' with
  | zero => simp [needsAux] at h
  | succ fuel ih =>
    simp only [needsAux] at h
    split at h
    · simp at h; obtain ⟨_, rfl⟩ := h; exact fun _ h => h
    · have key : ∀ cs vis, needsLoop (needsAux children query fuel) a cs vis = some (r, vis') →
          ∀ x ∈ vis, x ∈ vis' := by
        intro cs
        induction cs with
        | nil =>
          intro vis h
          simp [needsLoop] at h
          obtain ⟨_, rfl⟩ := h
          exact fun _ h => h
        | cons c cs ihc =>
          intro vis h x hx
          simp only [needsLoop] at h
          split at h
          · exact ihc vis h x hx
          · split at h
            · simp at h
            · rename_i v hv
              simp at h
              obtain ⟨_, rfl⟩ := h
              exact ih c _ _ _ hv x ((mem_insertNew a x vis).2 (Or.inr hx))
            · rename_i v hv
              exact ihc v h x (ih c _ _ _ hv x ((mem_insertNew a x vis).2 (Or.inr hx)))
      exact key _ _ h

/-- Number of the objects of the universe which have not been visited. -/
def unvisited (univ vis : List α) : Nat := (univ.filter (fun x => decide (x ∉ vis))).length

theorem unvisited_mono (univ vis vis' : List α) (h : ∀ x ∈ vis, x ∈ vis') :
    unvisited univ vis' ≤ unvisited univ vis := by
  unfold unvisited
  induction univ with
  | nil => simp
  | cons u us ih =>
    by_cases h1 : u ∈ vis
    · have := h u h1
      simpa [h1, this] using ih
    · by_cases h2 : u ∈ vis'
      · simp [h1, h2]; simp at ih; omega
      · simp [h1, h2]; simp at ih; omega

theorem unvisited_lt (univ vis vis' : List α) (h : ∀ x ∈ vis, x ∈ vis') (a : α) (ha : a ∈ univ)
    (h1 : a ∉ vis) (h2 : a ∈ vis') : unvisited univ vis' < unvisited univ vis := by
  unfold unvisited
  induction univ with
  | nil => simp at ha
  | cons u us ih =>
    by_cases hu : u = a
    · subst hu
      have := unvisited_mono us vis vis' h
      unfold unvisited at this
      simp [h1, h2]; simp at this; omega
    · have ih' := ih (by simpa [Ne.symm hu] using ha)
      by_cases h3 : u ∈ vis
      · have := h u h3
        simpa [h3, this] using ih'
      · by_cases h4 : u ∈ vis'
        · simp [h3, h4]; simp at ih'; omega
        · simp [h3, h4]; simp at ih'; omega

/-- Enough fuel: the search always ends within a depth of twice the number of objects. -/
theorem needsAux_terminates (children : α → List α) (query : α → Bool) (univ : List α)
    (hclosed : ∀ x ∈ univ, ∀ c ∈ children x, c ∈ univ) (fuel : Nat) (a : α) (vis : List α)
    (ha : a ∈ univ)
    (hf : 2 * unvisited univ vis + (if a ∈ vis then 1 else 0) < fuel) :
    ∃ r, needsAux children query fuel a vis = some r := by
  induction fuel generalizing a vis with
  | zero => omega
  | succ fuel ih =>
    simp only [needsAux]
    split
    · exact ⟨_, rfl⟩
    · have key : ∀ cs vis', (∀ c ∈ cs, c ∈ children a) → (∀ x ∈ vis, x ∈ vis') →
          (a ∈ vis' ∨ vis' = vis) →
          ∃ r, needsLoop (needsAux children query fuel) a cs vis' = some r := by
        intro cs
        induction cs with
        | nil => intro vis' _ _ _; exact ⟨_, rfl⟩
        | cons c cs ihc =>
          intro vis' hsub hvis hav
          simp only [needsLoop]
          have hc := hsub c (by simp)
          split
          · exact ihc vis' (fun c' hc' => hsub c' (by simp [hc'])) hvis hav
          · rename_i hcv
            have hvis2 : ∀ x ∈ vis, x ∈ insertNew a vis' :=
              fun x hx => (mem_insertNew a x vis').2 (Or.inr (hvis x hx))
            have hain : a ∈ insertNew a vis' := (mem_insertNew a a vis').2 (Or.inl rfl)
            have hfuel : 2 * unvisited univ (insertNew a vis') +
                (if c ∈ insertNew a vis' then 1 else 0) < fuel := by
              by_cases hav0 : a ∈ vis
              · rw [if_pos hav0] at hf
                have hle := unvisited_mono univ vis _ hvis2
                have hcn : c ∉ insertNew a vis' := by
                  intro hm
                  rcases (mem_insertNew a c vis').1 hm with rfl | hm
                  · exact hcv (hvis _ hav0)
                  · exact hcv hm
                rw [if_neg hcn]; omega
              · rw [if_neg hav0] at hf
                have hlt := unvisited_lt univ vis _ hvis2 a ha hav0 hain
                split <;> omega
            obtain ⟨⟨b, v⟩, hr⟩ := ih c (insertNew a vis') (hclosed a ha c hc) hfuel
            rw [hr]
            cases b with
            | true => exact ⟨_, rfl⟩
            | false =>
              have hm := needsAux_vis_mono _ _ _ _ _ _ _ hr
              exact ihc v (fun c' hc' => hsub c' (by simp [hc']))
                (fun x hx => hm x (hvis2 x hx)) (Or.inl (hm a hain))
      exact key _ vis (fun _ h => h) (fun _ h => h) (Or.inr rfl)

/-! ### `_references` -/

/-- What a search for references finds: the visited set grows by objects reachable from the start,
is closed under the children apart from what was visited before, and the result lists the classes
among the newly visited objects. -/
theorem refsAux_spec (children : α → List α) (isClass : α → Bool) (fuel : Nat) (a : α)
    (vis : List α) (found vis' : List α)
    (h : refsAux children isClass fuel a vis = some (found, vis')) :
    (∀ x ∈ vis, x ∈ vis') ∧ a ∈ vis' ∧
    (∀ x ∈ vis', x ∈ vis ∨ (Reach children a x ∧ ∀ c ∈ children x, c ∈ vis')) ∧
    (∀ x, x ∈ found → isClass x = true ∧ Reach children a x) ∧
    (∀ x ∈ vis', x ∈ vis ∨ (isClass x = true → x ∈ found)) := by
  induction fuel generalizing a vis found vis' with
  | zero => simp [refsAux] at h
  | succ fuel ih =>
    simp only [refsAux] at h
    split at h
    · rename_i hav
      simp at h
      obtain ⟨rfl, rfl⟩ := h
      exact ⟨fun _ h => h, hav, fun x hx => Or.inl hx, by simp, fun x hx => Or.inl hx⟩
    · rename_i hav
      have key : ∀ cs vis0 found vis', (∀ c ∈ cs, c ∈ children a) →
          refsLoop (refsAux children isClass fuel) cs vis0 = some (found, vis') →
          (∀ x ∈ vis0, x ∈ vis') ∧ (∀ c ∈ cs, c ∈ vis') ∧
          (∀ x ∈ vis', x ∈ vis0 ∨ (Reach children a x ∧ ∀ c ∈ children x, c ∈ vis')) ∧
          (∀ x, x ∈ found → isClass x = true ∧ Reach children a x) ∧
          (∀ x ∈ vis', x ∈ vis0 ∨ (isClass x = true → x ∈ found)) := by
        intro cs
        induction cs with
        | nil =>
          intro vis0 found vis' _ h
          simp [refsLoop] at h
          obtain ⟨rfl, rfl⟩ := h
          exact ⟨fun _ h => h, by simp, fun x hx => Or.inl hx, by simp, fun x hx => Or.inl hx⟩
        | cons c cs ihc =>
          intro vis0 found vis' hsub h
          simp only [refsLoop] at h
          split at h
          · simp at h
          · rename_i f1 v1 h1
            split at h
            · simp at h
            · rename_i f2 v2 h2
              simp at h
              obtain ⟨rfl, rfl⟩ := h
              obtain ⟨a1, a2, a3, a4, a5⟩ := ih c vis0 f1 v1 h1
              obtain ⟨b1, b2, b3, b4, b5⟩ := ihc v1 f2 v2 (fun c' hc' => hsub c' (by simp [hc'])) h2
              have hca := hsub c (by simp)
              refine ⟨fun x hx => b1 x (a1 x hx), ?_, ?_, ?_, ?_⟩
              · intro c' hc'
                rcases List.mem_cons.1 hc' with rfl | hc'
                · exact b1 _ a2
                · exact b2 _ hc'
              · intro x hx
                rcases b3 x hx with h | h
                · rcases a3 x h with h' | ⟨h', h''⟩
                  · exact Or.inl h'
                  · exact Or.inr ⟨.step hca h', fun d hd => b1 d (h'' d hd)⟩
                · exact Or.inr h
              · intro x hx
                rcases List.mem_append.1 hx with hx | hx
                · exact ⟨(a4 x hx).1, .step hca (a4 x hx).2⟩
                · exact b4 x hx
              · intro x hx
                rcases b5 x hx with h | h
                · rcases a5 x h with h' | h'
                  · exact Or.inl h'
                  · exact Or.inr (fun hc => List.mem_append_left _ (h' hc))
                · exact Or.inr (fun hc => List.mem_append_right _ (h hc))
      split at h
      · simp at h
      · rename_i f v hl
        simp at h
        obtain ⟨rfl, rfl⟩ := h
        obtain ⟨k1, k2, k3, k4, k5⟩ := key _ _ _ _ (fun _ h => h) hl
        refine ⟨fun x hx => k1 x (by simp [hx]), k1 a (by simp), ?_, ?_, ?_⟩
        · intro x hx
          rcases k3 x hx with h | h
          · rcases List.mem_cons.1 h with rfl | h
            · exact Or.inr ⟨.refl _, k2⟩
            · exact Or.inl h
          · exact Or.inr h
        · intro x hx
          rcases List.mem_append.1 hx with hx | hx
          · by_cases hc : isClass a = true
            · rw [if_pos hc] at hx
              simp at hx
              subst hx
              exact ⟨hc, .refl _⟩
            · simp [hc] at hx
          · exact k4 x hx
        · intro x hx
          rcases k5 x hx with h | h
          · rcases List.mem_cons.1 h with rfl | h
            · exact Or.inr (fun hc => by simp [hc])
            · exact Or.inl h
          · exact Or.inr (fun hc => List.mem_append_right _ (h hc))

/-- From a fresh visited set, exactly the reachable classes are found. -/
theorem refsAux_correct (children : α → List α) (isClass : α → Bool) (fuel : Nat) (a : α)
    (found vis' : List α) (h : refsAux children isClass fuel a [] = some (found, vis')) (x : α) :
    x ∈ found ↔ isClass x = true ∧ Reach children a x := by
  obtain ⟨_, h2, h3, h4, h5⟩ := refsAux_spec _ _ _ _ _ _ _ h
  constructor
  · exact h4 x
  · rintro ⟨hc, hr⟩
    have : x ∈ vis' := hr.closed (· ∈ vis') h2 (fun y hy c hc => by
      rcases h3 y hy with h | h
      · simp at h
      · exact h.2 c hc)
    rcases h5 x this with h | h
    · simp at h
    · exact h hc

theorem refsOfAll_correct (children : α → List α) (isClass : α → Bool) (fuel : Nat) (cs : List α)
    (found : List α) (h : refsOfAll children isClass fuel cs = some found) (x : α) :
    x ∈ found ↔ isClass x = true ∧ ∃ c ∈ cs, Reach children c x := by
  induction cs generalizing found with
  | nil => simp [refsOfAll] at h; subst h; simp
  | cons c cs ih =>
    simp only [refsOfAll] at h
    split at h
    · simp at h
    · rename_i f v h1
      split at h
      · simp at h
      · rename_i f' h2
        simp at h
        subst h
        rw [List.mem_append, refsAux_correct _ _ _ _ _ _ h1, ih _ h2]
        simp only [List.mem_cons, exists_eq_or_imp]
        grind

/-- Enough fuel: the search for references ends within a depth of the number of objects. -/
theorem refsAux_terminates (children : α → List α) (isClass : α → Bool) (univ : List α)
    (hclosed : ∀ x ∈ univ, ∀ c ∈ children x, c ∈ univ) (fuel : Nat) (a : α) (vis : List α)
    (ha : a ∈ univ) (hf : unvisited univ vis < fuel) :
    ∃ r, refsAux children isClass fuel a vis = some r := by
  induction fuel generalizing a vis with
  | zero => omega
  | succ fuel ih =>
    simp only [refsAux]
    split
    · exact ⟨_, rfl⟩
    · rename_i hav
      have key : ∀ cs vis', (∀ c ∈ cs, c ∈ children a) → (∀ x ∈ a :: vis, x ∈ vis') →
          ∃ r, refsLoop (refsAux children isClass fuel) cs vis' = some r := by
        intro cs
        induction cs with
        | nil => intro vis' _ _; exact ⟨_, rfl⟩
        | cons c cs ihc =>
          intro vis' hsub hvis
          simp only [refsLoop]
          have hlt : unvisited univ vis' < unvisited univ vis :=
            unvisited_lt univ vis vis' (fun x hx => hvis x (by simp [hx])) a ha hav (hvis a (by simp))
          obtain ⟨⟨f1, v1⟩, h1⟩ := ih c vis' (hclosed a ha c (hsub c (by simp))) (by omega)
          rw [h1]
          have hm := (refsAux_spec _ _ _ _ _ _ _ h1).1
          obtain ⟨⟨f2, v2⟩, h2⟩ := ihc v1 (fun c' hc' => hsub c' (by simp [hc']))
            (fun x hx => hm x (hvis x hx))
          simp only [h2]
          exact ⟨_, rfl⟩
      obtain ⟨⟨f, v⟩, h⟩ := key (children a) (a :: vis) (fun _ h => h) (fun _ h => h)
      rw [h]
      exact ⟨_, rfl⟩

end Generic

/-! ### Strings -/

theorem strLe_total (a b : Str) : strLe a b = true ∨ strLe b a = true := by
  induction a generalizing b with
  | nil => simp [strLe]
  | cons x xs ih =>
    cases b with
    | nil => simp [strLe]
    | cons y ys =>
      simp only [strLe, Bool.or_eq_true, Bool.and_eq_true, decide_eq_true_eq]
      have := ih ys
      grind

theorem strLe_trans (a b c : Str) (h1 : strLe a b = true) (h2 : strLe b c = true) :
    strLe a c = true := by
  induction a generalizing b c with
  | nil => simp [strLe]
  | cons x xs ih =>
    cases b with
    | nil => simp [strLe] at h1
    | cons y ys =>
      cases c with
      | nil => simp [strLe] at h2
      | cons z zs =>
        simp only [strLe, Bool.or_eq_true, Bool.and_eq_true, decide_eq_true_eq] at h1 h2 ⊢
        have := ih ys zs
        grind

theorem strLe_antisymm (a b : Str) (h1 : strLe a b = true) (h2 : strLe b a = true) : a = b := by
  induction a generalizing b with
  | nil => cases b with
    | nil => rfl
    | cons y ys => simp [strLe] at h2
  | cons x xs ih =>
    cases b with
    | nil => simp [strLe] at h1
    | cons y ys =>
      simp only [strLe, Bool.or_eq_true, Bool.and_eq_true, decide_eq_true_eq] at h1 h2
      have hxy : x = y := (char_eq_iff_toNat x y).2 (by omega)
      have := ih ys (by grind) (by grind)
      rw [hxy, this]

/-! ### Sorting and sets -/

theorem insertSorted_perm {α : Type} (le : α → α → Bool) (a : α) (l : List α) :
    (insertSorted le a l).Perm (a :: l) := by
  induction l with
  | nil => exact .refl _
  | cons b bs ih =>
    simp only [insertSorted]
    split
    · exact .refl _
    · exact (ih.cons b).trans (.swap a b bs)

theorem sortBy_perm {α : Type} (le : α → α → Bool) (l : List α) : (sortBy le l).Perm l := by
  induction l with
  | nil => exact .refl _
  | cons a l ih => exact (insertSorted_perm le a _).trans (ih.cons a)

theorem insertSorted_sorted {α : Type} (le : α → α → Bool)
    (htotal : ∀ a b, le a b = true ∨ le b a = true)
    (htrans : ∀ a b c, le a b = true → le b c = true → le a c = true) (a : α) (l : List α)
    (h : l.Pairwise (fun x y => le x y = true)) :
    (insertSorted le a l).Pairwise (fun x y => le x y = true) := by
  induction l with
  | nil => simp [insertSorted]
  | cons b bs ih =>
    simp only [insertSorted]
    rw [List.pairwise_cons] at h
    split
    · rename_i hab
      refine List.pairwise_cons.2 ⟨?_, List.pairwise_cons.2 h⟩
      intro x hx
      rcases List.mem_cons.1 hx with rfl | hx
      · exact hab
      · exact htrans _ _ _ hab (h.1 x hx)
    · rename_i hab
      refine List.pairwise_cons.2 ⟨?_, ih h.2⟩
      intro x hx
      rcases List.mem_cons.1 ((insertSorted_perm le a bs).mem_iff.1 hx) with rfl | hx
      · rcases htotal x b with h' | h'
        · exact absurd h' hab
        · exact h'
      · exact h.1 x hx

theorem sortBy_sorted {α : Type} (le : α → α → Bool)
    (htotal : ∀ a b, le a b = true ∨ le b a = true)
    (htrans : ∀ a b c, le a b = true → le b c = true → le a c = true) (l : List α) :
    (sortBy le l).Pairwise (fun x y => le x y = true) := by
  induction l with
  | nil => exact .nil
  | cons a l ih => exact insertSorted_sorted le htotal htrans a _ ih

theorem mem_toSet {α : Type} [DecidableEq α] (l : List α) (x : α) : x ∈ toSet l ↔ x ∈ l := by
  induction l with
  | nil => simp [toSet]
  | cons a l ih =>
    show x ∈ insertNew a (toSet l) ↔ _
    rw [mem_insertNew, ih, List.mem_cons]

theorem nodup_toSet {α : Type} [DecidableEq α] (l : List α) : (toSet l).Nodup := by
  induction l with
  | nil => exact .nil
  | cons a l ih =>
    show (insertNew a (toSet l)).Nodup
    unfold insertNew
    split
    · exact ih
    · rename_i h; exact List.nodup_cons.2 ⟨h, ih⟩

end Mapry.Traverse
