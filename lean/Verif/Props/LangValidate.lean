import Verif.LangValidateLemmas
import Verif.Props.Naming
import Verif.Props.GoLayout

/-! # C23, C24, C25, C26: the language validations -/

namespace Mapry.Props

open Mapry.LangValidate Mapry.Naming

/-! ## Which errors are reported -/

/-- All the definitions which are translated to types, in their order: the classes, then the
embeds. -/
def definitions (g : Graph) : List Comp :=
  g.classes.map (fun c => ⟨.cls, c.name, c.ref, c.properties⟩) ++
  g.embeds.map (fun e => ⟨.embed, e.name, e.ref, e.properties⟩)

/-- The loops run over all the definitions. -/
theorem composites_eq (g : Graph) : composites g = definitions g := rfl

/-- The graph takes part in the comparison of the identifiers only if its identifier is a
keyword. -/
def graphIfKeyword (L : Lang) (g : Graph) : List Comp :=
  match L.composite g.name with
  | .ok n => if n ∈ L.keywords then [⟨.graph, g.name, g.ref, g.properties⟩] else []
  | .error _ => []

/-- The errors to be reported for a graph. -/
inductive Reported (L : Lang) (g : Graph) (e : SErr) : Prop where
  /-- the identifier of the graph is a keyword -/
  | graph (n : Str) : L.composite g.name = .ok n → n ∈ L.keywords →
      e = ⟨g.ref, .compositeKeyword .graph n g.name⟩ → Reported L g e
  /-- a class or an embed, after the ones defined before it -/
  | composite (a : List Comp) (c : Comp) (b : List Comp) : definitions g = a ++ c :: b →
      CompReport L (graphIfKeyword L g ++ a) c e → Reported L g e
  /-- the properties of the graph -/
  | property : FieldReport L .graph g.properties e → Reported L g e
  /-- the registry of a class, after the ones defined before it -/
  | registry (a : List Class) (c : Class) (b : List Class) : g.classes = a ++ c :: b →
      RegistryReport L g.properties a c e → Reported L g e

theorem validateGraph_mem (L : Lang) (g : Graph) (errs : List SErr)
    (h : validateGraph L g = .ok errs) (e : SErr) :
    e ∈ errs ↔ FieldReport L .graph g.properties e ∨
      ∃ a c b, g.classes = a ++ c :: b ∧ RegistryReport L g.properties a c e := by
  unfold validateGraph at h
  cases hf : toFields L g.properties with
  | error x => rw [hf] at h; cases h
  | ok fs =>
    rw [hf] at h
    simp only [bind, Except.bind] at h
    cases hr : registryErrors L fs [] g.classes with
    | error x => rw [hr] at h; cases h
    | ok rs =>
      rw [hr] at h
      cases h
      rw [List.mem_append, validateFields_mem L _ _ hf,
        registryErrors_mem L g.properties fs ((toFields_ok L _ _).1 hf) [] g.classes [] rs hr
          (seenOk_nil _ _)]
      unfold FieldReport
      simp

/-- An error is reported iff it is one of `Reported`. -/
theorem errors_exact (L : Lang) (g : Graph) (errs : List SErr)
    (h : validateSchema L g = .ok errs) (e : SErr) : e ∈ errs ↔ Reported L g e := by
  unfold validateSchema at h
  rw [composites_eq] at h
  cases hn : L.composite g.name with
  | error x => rw [hn] at h; cases h
  | ok n =>
    rw [hn] at h
    simp only [bind, Except.bind] at h
    split at h
    · rename_i hk
      have hg : graphIfKeyword L g = [⟨.graph, g.name, g.ref, g.properties⟩] := by
        unfold graphIfKeyword; rw [hn]; simp [hk]
      cases hc : compositeErrors L [(n, g.name, g.ref)] (definitions g) with
      | error x => rw [hc] at h; cases h
      | ok cs =>
        rw [hc] at h
        simp only at h
        cases hv : validateGraph L g with
        | error x => rw [hv] at h; cases h
        | ok gs =>
          rw [hv] at h
          cases h
          have hseen : SeenOk (CompId L) (fun c : Comp => (c.name, c.ref))
              [(n, g.name, g.ref)] [⟨.graph, g.name, g.ref, g.properties⟩] := by
            have := seenOk_step_none (key := CompId L) (val := fun c : Comp => (c.name, c.ref))
              (seenOk_nil (CompId L) (fun c : Comp => (c.name, c.ref))) (k := n) rfl
              (a := ⟨.graph, g.name, g.ref, g.properties⟩)
              (by intro k'; unfold CompId; simp only; rw [hn]; simp [eq_comm])
            simpa using this
          rw [List.mem_cons, List.mem_append, validateGraph_mem L g gs hv,
            compositeErrors_mem L _ _ _ _ hc hseen]
          constructor
          · rintro (rfl | ⟨a, c, b, h1, h2⟩ | h | ⟨a, c, b, h1, h2⟩)
            · exact .graph n hn hk rfl
            · exact .composite a c b h1 (by rw [hg]; exact h2)
            · exact .property h
            · exact .registry a c b h1 h2
          · rintro (⟨m, hm, hk', rfl⟩ | ⟨a, c, b, h1, h2⟩ | h | ⟨a, c, b, h1, h2⟩)
            · rw [hn] at hm; cases hm; exact Or.inl rfl
            · rw [hg] at h2; exact Or.inr (Or.inl ⟨a, c, b, h1, h2⟩)
            · exact Or.inr (Or.inr (Or.inl h))
            · exact Or.inr (Or.inr (Or.inr ⟨a, c, b, h1, h2⟩))
    · rename_i hk
      have hg : graphIfKeyword L g = [] := by
        unfold graphIfKeyword; rw [hn]; simp [hk]
      cases hc : compositeErrors L [] (definitions g) with
      | error x => rw [hc] at h; cases h
      | ok cs =>
        rw [hc] at h
        simp only at h
        cases hv : validateGraph L g with
        | error x => rw [hv] at h; cases h
        | ok gs =>
          rw [hv] at h
          cases h
          rw [List.mem_append, validateGraph_mem L g gs hv,
            compositeErrors_mem L [] _ _ _ hc (seenOk_nil _ _)]
          constructor
          · rintro (⟨a, c, b, h1, h2⟩ | h | ⟨a, c, b, h1, h2⟩)
            · exact .composite a c b h1 (by rw [hg]; exact h2)
            · exact .property h
            · exact .registry a c b h1 h2
          · rintro (⟨m, hm, hk', rfl⟩ | ⟨a, c, b, h1, h2⟩ | h | ⟨a, c, b, h1, h2⟩)
            · rw [hn] at hm; cases hm; exact absurd hk' hk
            · rw [hg] at h2; exact Or.inl ⟨a, c, b, h1, h2⟩
            · exact Or.inr (Or.inl h)
            · exact Or.inr (Or.inr ⟨a, c, b, h1, h2⟩)

/-! ## When the validation raises -/

/-- All the names can be translated. -/
structure Translatable (L : Lang) (g : Graph) : Prop where
  graph : ∃ n, L.composite g.name = .ok n
  composite : ∀ c ∈ definitions g, ∃ n, CompId L c n
  field : ∀ c ∈ definitions g, ∀ p ∈ c.properties, ∃ n, FieldName L p n
  property : ∀ p ∈ g.properties, ∃ n, FieldName L p n
  registry : ∀ c ∈ g.classes, ∃ n, RegistryName L c n

theorem forall₂_exists {α β : Type} (R : α → β → Prop) (l : List α) :
    (∃ l', Forall₂ R l l') ↔ ∀ x ∈ l, ∃ y, R x y := by
  induction l with
  | nil => simp; exact ⟨[], .nil⟩
  | cons a as ih =>
    rw [List.forall_mem_cons, ← ih]
    constructor
    · rintro ⟨l', h⟩
      cases h with
      | cons h1 h2 => exact ⟨⟨_, h1⟩, ⟨_, h2⟩⟩
    · rintro ⟨⟨y, hy⟩, ⟨l', hl⟩⟩
      exact ⟨y :: l', .cons hy hl⟩

theorem toFields_total (L : Lang) (ps : List Property) :
    (∃ fs, toFields L ps = .ok fs) ↔ ∀ p ∈ ps, ∃ n, FieldName L p n := by
  simp only [toFields_ok, forall₂_exists]
  constructor
  · intro h p hp
    obtain ⟨f, h1, _⟩ := h p hp
    exact ⟨_, h1⟩
  · intro h p hp
    obtain ⟨n, hn⟩ := h p hp
    exact ⟨(n, p.ref), hn, rfl⟩

theorem registryErrors_total (L : Lang) (fs : List Field) (seen : List (Str × Str × Str))
    (cs : List Class) :
    (∃ errs, registryErrors L fs seen cs = .ok errs) ↔ ∀ c ∈ cs, ∃ n, RegistryName L c n := by
  induction cs generalizing seen with
  | nil => simp [registryErrors]
  | cons c cs ih =>
    rw [List.forall_mem_cons]
    simp only [registryErrors]
    cases hn : L.field c.plural with
    | error x =>
      simp only [bind, Except.bind, reduceCtorEq, exists_false, false_iff, not_and]
      rintro ⟨n, h⟩
      unfold RegistryName at h
      rw [hn] at h; cases h
    | ok n =>
      have h1 : ∃ n, RegistryName L c n := ⟨n, hn⟩
      simp only [h1, true_and, bind, Except.bind]
      cases hl : seen.lookup n with
      | some o =>
        obtain ⟨on, or⟩ := o
        rw [← ih seen]
        simp only
        cases hr : registryErrors L fs seen cs <;> simp [pure, Except.pure]
      | none =>
        rw [← ih ((n, c.name, c.ref) :: seen)]
        simp only
        cases hr : registryErrors L fs ((n, c.name, c.ref) :: seen) cs <;> simp [pure, Except.pure]

theorem own_total (L : Lang) (c : Comp) :
    (∃ errs, (if c.kind = .cls then validateClass L c.properties
      else validateEmbed L c.properties) = .ok errs) ↔ ∀ p ∈ c.properties, ∃ n, FieldName L p n := by
  rw [← toFields_total]
  unfold validateClass validateEmbed
  cases hf : toFields L c.properties <;> simp [bind, Except.bind, pure, Except.pure]
  split <;> exact ⟨_, rfl⟩

theorem compositeErrors_total (L : Lang) (seen : Seen) (cs : List Comp) :
    (∃ errs, compositeErrors L seen cs = .ok errs) ↔
      (∀ c ∈ cs, ∃ n, CompId L c n) ∧ ∀ c ∈ cs, ∀ p ∈ c.properties, ∃ n, FieldName L p n := by
  induction cs generalizing seen with
  | nil => simp [compositeErrors]
  | cons c cs ih =>
    rw [List.forall_mem_cons, List.forall_mem_cons, ← own_total L c]
    simp only [compositeErrors]
    cases hn : L.composite c.name with
    | error x =>
      simp only [bind, Except.bind, reduceCtorEq, exists_false, false_iff, not_and]
      rintro ⟨⟨n, h⟩, _⟩
      unfold CompId at h
      rw [hn] at h; cases h
    | ok n =>
      have h1 : ∃ n, CompId L c n := ⟨n, hn⟩
      simp only [h1, true_and, bind, Except.bind]
      cases ho : (if c.kind = .cls then validateClass L c.properties
            else validateEmbed L c.properties) with
      | error x => cases hl : seen.lookup n <;> simp
      | ok own =>
        simp only [Except.ok.injEq, exists_eq', true_and]
        cases hl : seen.lookup n with
        | some o =>
          obtain ⟨on, or⟩ := o
          rw [← ih seen]
          simp only
          cases hr : compositeErrors L seen cs <;> simp [pure, Except.pure]
        | none =>
          rw [← ih ((n, c.name, c.ref) :: seen)]
          simp only
          cases hr : compositeErrors L ((n, c.name, c.ref) :: seen) cs <;> simp [pure, Except.pure]

theorem validateGraph_total (L : Lang) (g : Graph) :
    (∃ errs, validateGraph L g = .ok errs) ↔
      (∀ p ∈ g.properties, ∃ n, FieldName L p n) ∧ ∀ c ∈ g.classes, ∃ n, RegistryName L c n := by
  rw [← toFields_total]
  unfold validateGraph
  cases hf : toFields L g.properties with
  | error x => simp [bind, Except.bind]
  | ok fs =>
    simp only [bind, Except.bind, Except.ok.injEq, exists_eq', true_and]
    rw [← registryErrors_total L fs [] g.classes]
    cases hr : registryErrors L fs [] g.classes <;> simp [pure, Except.pure]

/-- The validation returns iff every name can be translated. -/
theorem validation_returns_iff (L : Lang) (g : Graph) :
    (∃ errs, validateSchema L g = .ok errs) ↔ Translatable L g := by
  have hgr := validateGraph_total L g
  have key : Translatable L g ↔ (∃ n, L.composite g.name = .ok n) ∧
      ((∀ c ∈ definitions g, ∃ n, CompId L c n) ∧
        ∀ c ∈ definitions g, ∀ p ∈ c.properties, ∃ n, FieldName L p n) ∧
      ((∀ p ∈ g.properties, ∃ n, FieldName L p n) ∧ ∀ c ∈ g.classes, ∃ n, RegistryName L c n) :=
    ⟨fun h => ⟨h.graph, ⟨h.composite, h.field⟩, h.property, h.registry⟩,
     fun h => ⟨h.1, h.2.1.1, h.2.1.2, h.2.2.1, h.2.2.2⟩⟩
  rw [key, ← hgr]
  unfold validateSchema
  rw [composites_eq]
  cases hn : L.composite g.name with
  | error x => simp [bind, Except.bind]
  | ok n =>
    simp only [bind, Except.bind, Except.ok.injEq, exists_eq', true_and]
    split
    · rw [← compositeErrors_total L [(n, g.name, g.ref)]]
      cases hc : compositeErrors L [(n, g.name, g.ref)] (definitions g) with
      | error x => simp
      | ok cs =>
        simp only [Except.ok.injEq, exists_eq', true_and]
        cases hv : validateGraph L g <;> simp [pure, Except.pure]
    · rw [← compositeErrors_total L []]
      cases hc : compositeErrors L [] (definitions g) with
      | error x => simp
      | ok cs =>
        simp only [Except.ok.injEq, exists_eq', true_and]
        cases hv : validateGraph L g <;> simp [pure, Except.pure]

/-! ## When nothing is reported -/

/-- The schema can be translated to the language without clashes, except that the identifier of the
graph is not compared with the others. -/
structure SchemaOk (L : Lang) (g : Graph) : Prop where
  /-- the identifier of the graph is no keyword -/
  graph : ∃ n, L.composite g.name = .ok n ∧ n ∉ L.keywords
  /-- the identifiers of the classes and embeds are distinct and no keywords -/
  ids : ∃ ids, Forall₂ (CompId L) (definitions g) ids ∧ ids.Nodup ∧ ∀ n ∈ ids, n ∉ L.keywords
  /-- the fields of every class and embed are distinct, no keywords and not reserved -/
  fields : ∀ c ∈ definitions g, ∃ ns, Forall₂ (FieldName L) c.properties ns ∧ ns.Nodup ∧
    (∀ n ∈ ns, n ∉ L.keywords) ∧ (c.kind = .cls → L.reserved ∉ ns)
  /-- the fields of the properties and the registries of the graph are distinct and no keywords -/
  graphFields : ∃ ns rs, Forall₂ (FieldName L) g.properties ns ∧
    Forall₂ (RegistryName L) g.classes rs ∧ (ns ++ rs).Nodup ∧ ∀ n ∈ ns ++ rs, n ∉ L.keywords

theorem forall₂_mem_right {α β : Type} {R : α → β → Prop} {l : List α} {l' : List β}
    (h : Forall₂ R l l') {y : β} (hy : y ∈ l') : ∃ x ∈ l, R x y := by
  induction h with
  | nil => simp at hy
  | cons h1 h2 ih =>
    rcases List.mem_cons.1 hy with rfl | hy
    · exact ⟨_, by simp, h1⟩
    · obtain ⟨x, hx, hr⟩ := ih hy
      exact ⟨x, by simp [hx], hr⟩

theorem forall₂_mem_left {α β : Type} {R : α → β → Prop} {l : List α} {l' : List β}
    (h : Forall₂ R l l') {x : α} (hx : x ∈ l) : ∃ y ∈ l', R x y := by
  induction h with
  | nil => simp at hx
  | cons h1 h2 ih =>
    rcases List.mem_cons.1 hx with rfl | hx
    · exact ⟨_, by simp, h1⟩
    · obtain ⟨y, hy, hr⟩ := ih hx
      exact ⟨y, by simp [hy], hr⟩

/-- The keys are distinct iff no element has the key of an earlier one. -/
theorem nodup_iff {α : Type} {key : α → Str → Prop}
    (hfun : ∀ x k k', key x k → key x k' → k = k') {l : List α} {ns : List Str}
    (h : Forall₂ key l ns) :
    ns.Nodup ↔ ∀ a x b n, l = a ++ x :: b → key x n → ∀ y ∈ a, ¬ key y n := by
  induction h with
  | nil => simp
  | @cons x n l ns h1 h2 ih =>
    rw [List.nodup_cons, ih]
    have hn : n ∉ ns ↔ ∀ z ∈ l, ¬ key z n := by
      constructor
      · intro hn z hz hk
        obtain ⟨m, hm, hk'⟩ := forall₂_mem_left h2 hz
        rw [hfun z n m hk hk'] at hn
        exact hn hm
      · intro hn hm
        obtain ⟨z, hz, hk⟩ := forall₂_mem_right h2 hm
        exact hn z hz hk
    rw [hn]
    constructor
    · rintro ⟨hz, hall⟩ a y b m he hk
      cases a with
      | nil => simp
      | cons a' a =>
        simp at he
        obtain ⟨rfl, rfl⟩ := he
        intro w hw
        rcases List.mem_cons.1 hw with rfl | hw
        · intro hk'
          obtain rfl := hfun _ _ _ h1 hk'
          exact hz y (by simp) hk
        · exact hall a y b m rfl hk w hw
    · intro hall
      refine ⟨?_, ?_⟩
      · intro z hz hk
        obtain ⟨a, b, rfl⟩ := List.append_of_mem hz
        exact hall (x :: a) z b n rfl hk x (by simp) h1
      · intro a y b m he hk w hw
        subst he
        exact hall (x :: a) y b m rfl hk w (by simp [hw])

theorem fieldName_fun (L : Lang) (x : Property) (k k' : Str) (h : FieldName L x k)
    (h' : FieldName L x k') : k = k' := by
  unfold FieldName at *; rw [h] at h'; cases h'; rfl

theorem compId_fun (L : Lang) (x : Comp) (k k' : Str) (h : CompId L x k)
    (h' : CompId L x k') : k = k' := by
  unfold CompId at *; rw [h] at h'; cases h'; rfl

theorem registryName_fun (L : Lang) (x : Class) (k k' : Str) (h : RegistryName L x k)
    (h' : RegistryName L x k') : k = k' := by
  unfold RegistryName at *; rw [h] at h'; cases h'; rfl

/-- No report about the fields iff the fields are fine. -/
theorem fields_ok_iff (L : Lang) (kind : Kind) (ps : List Property) (ns : List Str)
    (h : Forall₂ (FieldName L) ps ns) :
    (∀ e, ¬ FieldReport L kind ps e) ↔
      ns.Nodup ∧ (∀ n ∈ ns, n ∉ L.keywords) ∧ (kind = .cls → L.reserved ∉ ns) := by
  rw [nodup_iff (fieldName_fun L) h]
  constructor
  · intro hno
    refine ⟨?_, ?_, ?_⟩
    · intro a x b n he hk y hy hky
      obtain ⟨q, hq⟩ := exists_firstWith (FieldName L) a n ⟨y, hy, hky⟩
      exact hno _ (Or.inl ⟨a, x, b, n, he, hk, Or.inr ⟨q, hq, rfl⟩⟩)
    · intro n hn hkw
      obtain ⟨p, hp, hk⟩ := forall₂_mem_right h hn
      obtain ⟨a, b, rfl⟩ := List.append_of_mem hp
      exact hno _ (Or.inl ⟨a, p, b, n, rfl, hk, Or.inl ⟨hkw, rfl⟩⟩)
    · intro hc hn
      obtain ⟨p, hp, hk⟩ := forall₂_mem_right h hn
      exact hno _ (Or.inr ⟨hc, p, hp, hk, rfl⟩)
  · rintro ⟨h1, h2, h3⟩ e (⟨a, p, b, n, he, hk, (⟨hkw, _⟩ | ⟨q, hq, _⟩)⟩ | ⟨hc, p, hp, hk, _⟩)
    · obtain ⟨m, hm, hk'⟩ := forall₂_mem_left h (x := p) (by rw [he]; simp)
      obtain rfl := fieldName_fun L _ _ _ hk hk'
      exact h2 n hm hkw
    · exact h1 a p b n he hk q hq.mem.1 hq.mem.2
    · obtain ⟨m, hm, hk'⟩ := forall₂_mem_left h hp
      obtain rfl := fieldName_fun L _ _ _ hk hk'
      exact h3 hc hm

theorem exists_lastWith {α : Type} (key : α → Str → Prop) (l : List α) (k : Str)
    (h : ∃ x ∈ l, key x k) : ∃ x, LastWith key l k x := by
  obtain ⟨x, hx⟩ := exists_firstWith key l.reverse k (by
    obtain ⟨y, hy, hk⟩ := h
    exact ⟨y, by simpa using hy, hk⟩)
  obtain ⟨l₁, l₂, he, hk, hn⟩ := hx
  refine ⟨x, l₂.reverse, l₁.reverse, ?_, hk, ?_⟩
  · have := congrArg List.reverse he; simpa using this
  · intro y hy; exact hn y (by simpa using hy)

/-- The validation reports nothing iff the schema is fine. -/
theorem valid_iff (L : Lang) (g : Graph) : validateSchema L g = .ok [] ↔ SchemaOk L g := by
  constructor
  · intro h
    have hex := errors_exact L g [] h
    have hno : ∀ e, ¬ Reported L g e := fun e he => by simpa using (hex e).2 he
    have tr := (validation_returns_iff L g).1 ⟨[], h⟩
    have hgk : graphIfKeyword L g = [] := by
      obtain ⟨n, hn⟩ := tr.graph
      unfold graphIfKeyword
      rw [hn]
      simp only
      rw [if_neg]
      intro hk
      exact hno _ (.graph n hn hk rfl)
    obtain ⟨ids, hids⟩ := (forall₂_exists _ _).2 tr.composite
    obtain ⟨ns, hns⟩ := (forall₂_exists _ _).2 tr.property
    obtain ⟨rs, hrs⟩ := (forall₂_exists _ _).2 tr.registry
    refine ⟨?_, ⟨ids, hids, ?_, ?_⟩, ?_, ⟨ns, rs, hns, hrs, ?_, ?_⟩⟩
    · obtain ⟨n, hn⟩ := tr.graph
      exact ⟨n, hn, fun hk => hno _ (.graph n hn hk rfl)⟩
    · rw [nodup_iff (compId_fun L) hids]
      intro a x b n he hk y hy hky
      obtain ⟨q, hq⟩ := exists_firstWith (CompId L) a n ⟨y, hy, hky⟩
      exact hno _ (.composite a x b he (Or.inl ⟨n, hk, Or.inr ⟨q, by rw [hgk]; exact hq, rfl⟩⟩))
    · intro n hn hkw
      obtain ⟨c, hc, hk⟩ := forall₂_mem_right hids hn
      obtain ⟨a, b, he⟩ := List.append_of_mem hc
      exact hno _ (.composite a c b he (Or.inl ⟨n, hk, Or.inl ⟨hkw, rfl⟩⟩))
    · intro c hc
      obtain ⟨ms, hms⟩ := (forall₂_exists _ _).2 (tr.field c hc)
      refine ⟨ms, hms, (fields_ok_iff L c.kind _ ms hms).1 ?_⟩
      intro e he
      obtain ⟨a, b, hab⟩ := List.append_of_mem hc
      exact hno e (.composite a c b hab (Or.inr he))
    · have hf := (fields_ok_iff L .graph _ ns hns).1 (fun e he => hno e (.property he))
      rw [List.nodup_append]
      refine ⟨hf.1, ?_, ?_⟩
      · rw [nodup_iff (registryName_fun L) hrs]
        intro a x b n he hk y hy hky
        obtain ⟨q, hq⟩ := exists_firstWith (RegistryName L) a n ⟨y, hy, hky⟩
        exact hno _ (.registry a x b he ⟨n, hk, Or.inr (Or.inr ⟨q, hq, rfl⟩)⟩)
      · intro n hn m hm hnm
        subst hnm
        obtain ⟨p, hp, hkp⟩ := forall₂_mem_right hns hn
        obtain ⟨c, hc, hkc⟩ := forall₂_mem_right hrs hm
        obtain ⟨a, b, hab⟩ := List.append_of_mem hc
        obtain ⟨q, hq⟩ := exists_lastWith (FieldName L) g.properties n ⟨p, hp, hkp⟩
        exact hno _ (.registry a c b hab ⟨n, hkc, Or.inr (Or.inl ⟨q, hq, rfl⟩)⟩)
    · have hf := (fields_ok_iff L .graph _ ns hns).1 (fun e he => hno e (.property he))
      intro n hn hkw
      rcases List.mem_append.1 hn with hn | hn
      · exact hf.2.1 n hn hkw
      · obtain ⟨c, hc, hkc⟩ := forall₂_mem_right hrs hn
        obtain ⟨a, b, hab⟩ := List.append_of_mem hc
        exact hno _ (.registry a c b hab ⟨n, hkc, Or.inl ⟨hkw, rfl⟩⟩)
  · intro ok
    obtain ⟨⟨gn, hgn, hgk⟩, ⟨ids, hids, hidn, hidk⟩, hfields, ns, rs, hns, hrs, hnr, hnk⟩ := ok
    have tr : Translatable L g := by
      refine ⟨⟨gn, hgn⟩, (forall₂_exists _ _).1 ⟨ids, hids⟩, ?_, (forall₂_exists _ _).1 ⟨ns, hns⟩,
        (forall₂_exists _ _).1 ⟨rs, hrs⟩⟩
      intro c hc
      obtain ⟨ms, hms, _⟩ := hfields c hc
      exact (forall₂_exists _ _).1 ⟨ms, hms⟩
    obtain ⟨errs, h⟩ := (validation_returns_iff L g).2 tr
    have hgk' : graphIfKeyword L g = [] := by
      unfold graphIfKeyword; rw [hgn]; simp [hgk]
    rw [List.nodup_append] at hnr
    have hno : ∀ e, ¬ Reported L g e := by
      rintro e (⟨m, hm, hk, _⟩ | ⟨a, c, b, he, hc⟩ | hf | ⟨a, c, b, he, n, hn, hr⟩)
      · rw [hgn] at hm; cases hm; exact hgk hk
      · rw [hgk', List.nil_append] at hc
        have hcm : c ∈ definitions g := by rw [he]; simp
        rcases hc with ⟨n, hn, (⟨hk, _⟩ | ⟨q, hq, _⟩)⟩ | hf
        · obtain ⟨m, hm, hm'⟩ := forall₂_mem_left hids hcm
          obtain rfl := compId_fun L _ _ _ hn hm'
          exact hidk n hm hk
        · exact (nodup_iff (compId_fun L) hids).1 hidn a c b n he hn q hq.mem.1 hq.mem.2
        · obtain ⟨ms, hms, hok⟩ := hfields c hcm
          exact (fields_ok_iff L c.kind _ ms hms).2 hok e hf
      · exact (fields_ok_iff L .graph _ ns hns).2
          ⟨hnr.1, fun n hn => hnk n (by simp [hn]), by simp⟩ e hf
      · have hcm : c ∈ g.classes := by rw [he]; simp
        obtain ⟨m, hm, hm'⟩ := forall₂_mem_left hrs hcm
        obtain rfl := registryName_fun L _ _ _ hn hm'
        rcases hr with ⟨hk, _⟩ | ⟨p, ⟨l₁, l₂, hp, hk, _⟩, _⟩ | ⟨q, hq, _⟩
        · exact hnk n (by simp [hm]) hk
        · obtain ⟨m', hm1, hm2⟩ := forall₂_mem_left hns (x := p) (by rw [hp]; simp)
          obtain rfl := fieldName_fun L _ _ _ hk hm2
          exact hnr.2.2 n hm1 n hm rfl
        · exact (nodup_iff (registryName_fun L) hrs).1 hnr.2.1 a c b n he hn q hq.mem.1 hq.mem.2
    cases errs with
    | nil => exact h
    | cons e es => exact absurd ((errors_exact L g _ h e).1 (by simp)) (hno e)

/-! ## C23: Python -/

/-- The keywords of Python 3.6 (the reference manual, section 2.3.1, by columns). -/
def python36 : List Str :=
  [c!"False", c!"class", c!"finally", c!"is", c!"return",
   c!"None", c!"continue", c!"for", c!"lambda", c!"try",
   c!"True", c!"def", c!"from", c!"nonlocal", c!"while",
   c!"and", c!"del", c!"global", c!"not", c!"with",
   c!"as", c!"elif", c!"if", c!"or", c!"yield",
   c!"assert", c!"else", c!"import", c!"pass",
   c!"break", c!"except", c!"in", c!"raise"]

/-- The keywords of Python 3.7 and 3.8. -/
def python37 : List Str := c!"async" :: c!"await" :: python36

/-- What the generated Python module needs: `lower` names of attributes, camel-cased names of classes,
no keywords and no attribute `id` in a class. -/
abbrev PyNeeds (keywords : List Str) (g : Graph) : Prop :=
  SchemaOk ⟨keywords, asAttribute, asComposite, c!"id"⟩ g

theorem schemaOk_congr (k k' : List Str) (f c : Str → Except Exc Str) (r : Str) (g : Graph)
    (h : ∀ n, n ∈ k ↔ n ∈ k') : SchemaOk ⟨k, f, c, r⟩ g ↔ SchemaOk ⟨k', f, c, r⟩ g := by
  have main : ∀ k k' : List Str, (∀ n, n ∈ k ↔ n ∈ k') → SchemaOk ⟨k, f, c, r⟩ g →
      SchemaOk ⟨k', f, c, r⟩ g := by
    intro k k' h ⟨⟨n, h1, h2⟩, ⟨ids, h3, h4, h5⟩, h6, ⟨ns, rs, h7, h8, h9, h10⟩⟩
    refine ⟨⟨n, h1, fun hm => h2 ((h n).2 hm)⟩, ⟨ids, h3, h4, fun n hn hm => h5 n hn ((h n).2 hm)⟩,
      ?_, ⟨ns, rs, h7, h8, h9, fun n hn hm => h10 n hn ((h n).2 hm)⟩⟩
    intro c hc
    obtain ⟨ms, g1, g2, g3, g4⟩ := h6 c hc
    exact ⟨ms, g1, g2, fun n hn hm => g3 n hn ((h n).2 hm), g4⟩
  exact ⟨main k k' h, main k' k (fun n => (h n).symm)⟩

theorem subset_of_all (k k' : List Str) (h : k.all (fun n => decide (n ∈ k')) = true) :
    ∀ n ∈ k, n ∈ k' := by
  intro n hn
  simpa using List.all_eq_true.1 h n hn

/-- The Python validation reports nothing iff the schema suits Python 3.6. -/
theorem C23_valid_iff_partial (g : Graph) :
    validateSchema py g = .ok [] ↔ PyNeeds python36 g := by
  rw [valid_iff]
  exact schemaOk_congr _ _ _ _ _ g fun n =>
    ⟨subset_of_all pyKeywords python36 (by decide) n,
     subset_of_all python36 pyKeywords (by decide) n⟩

/-- The claim for every supported version of Python (3.6, 3.7 and 3.8). -/
def C23Full : Prop := ∀ g, validateSchema py g = .ok [] → PyNeeds python37 g

/-- It is violated: a property named `async` is accepted. -/
theorem C23_violated : ¬ C23Full := by
  intro h
  have ok := h ⟨[], c!"Graph", [], [], [], [{ name := c!"async", ty := .boolean, json := c!"async" }]⟩
    (by decide)
  obtain ⟨ns, rs, h1, h2, h3, h4⟩ := ok.graphFields
  cases h1 with
  | cons hn _ =>
    have : asAttribute c!"async" = .ok c!"async" := by decide
    unfold FieldName at hn
    rw [show (Property.mk [] c!"async" .boolean [] c!"async" false).name = c!"async" from rfl] at hn
    simp only [this, Except.ok.injEq] at hn
    subst hn
    exact h4 c!"async" (by simp) (by decide)

/-- Exactly the two keywords are missing: a schema which suits Python 3.6 but not 3.7 has an
identifier or an attribute `async` or `await`. -/
theorem C23_missing_keywords (n : Str) :
    n ∈ python37 ↔ n ∈ py.keywords ∨ n = c!"async" ∨ n = c!"await" := by
  have h : ∀ n, n ∈ pyKeywords ↔ n ∈ python36 := fun n =>
    ⟨subset_of_all pyKeywords python36 (by decide) n, subset_of_all python36 pyKeywords (by decide) n⟩
  show n ∈ c!"async" :: c!"await" :: python36 ↔ n ∈ pyKeywords ∨ _
  rw [h]
  simp only [List.mem_cons]
  constructor
  · rintro (h | h | h) <;> simp [h]
  · rintro (h | h | h) <;> simp [h]

/-- Every violation is reported with the reference of the offending definition, and nothing else is
reported. -/
theorem C23_errors (g : Graph) (errs : List SErr) (h : validateSchema py g = .ok errs) (e : SErr) :
    e ∈ errs ↔ Reported ⟨pyKeywords, asAttribute, asComposite, c!"id"⟩ g e :=
  errors_exact py g errs h e

/-- A schema which suits Python. -/
def okGraph : Graph :=
  { name := c!"Some_graph", ref := c!"SomeGraph#"
    classes := [{ name := c!"Person", plural := c!"Persons", ref := c!"p"
                  properties := [{ name := c!"full_name", ty := .string none, json := c!"n" }] }]
    embeds := [{ name := c!"Address", ref := c!"a"
                 properties := [{ name := c!"id", ty := .string none, json := c!"id" }] }]
    properties := [{ name := c!"URL", ty := .boolean, json := c!"u" }] }

example : validateSchema py okGraph = .ok [] := by decide
example : PyNeeds python36 okGraph := (C23_valid_iff_partial okGraph).1 (by decide)

/-- A schema with all kinds of violations. -/
def badGraph : Graph :=
  { name := c!"None", ref := c!"g"
    classes := [{ name := c!"Person", plural := c!"Persons", ref := c!"p"
                  properties := [{ name := c!"ID", ref := c!"p/ID", ty := .boolean, json := c!"i" },
                                 { name := c!"Id", ref := c!"p/Id", ty := .boolean, json := c!"j" },
                                 { name := c!"is", ref := c!"p/is", ty := .boolean, json := c!"k" }] },
                { name := c!"Per_son", plural := c!"PERSONS", ref := c!"q" }]
    properties := [{ name := c!"persons", ref := c!"g/persons", ty := .boolean, json := c!"u" }] }

example : validateSchema py badGraph = .ok
    [⟨c!"g", .compositeKeyword .graph c!"None" c!"None"⟩,
     ⟨c!"p/Id", .fieldDuplicate c!"id" c!"p/ID"⟩,
     ⟨c!"p/is", .fieldKeyword c!"is"⟩,
     ⟨c!"p/ID", .fieldReserved c!"id"⟩,
     ⟨c!"p/Id", .fieldReserved c!"id"⟩,
     ⟨c!"p", .registryProperty c!"persons" c!"Person" c!"g/persons"⟩,
     ⟨c!"q", .registryProperty c!"persons" c!"Per_son" c!"g/persons"⟩,
     ⟨c!"q", .registryRegistry c!"persons" c!"Per_son" c!"Person" c!"p"⟩] := by decide

/-! ## C24: C++ -/

/-- The keywords and alternative tokens of C++11, C++14 and C++17 (the standard, tables 5 and 6). -/
def cpp17 : List Str :=
  [c!"alignas", c!"continue", c!"friend", c!"register", c!"true",
   c!"alignof", c!"decltype", c!"goto", c!"reinterpret_cast", c!"try",
   c!"asm", c!"default", c!"if", c!"return", c!"typedef",
   c!"auto", c!"delete", c!"inline", c!"short", c!"typeid",
   c!"bool", c!"do", c!"int", c!"signed", c!"typename",
   c!"break", c!"double", c!"long", c!"sizeof", c!"union",
   c!"case", c!"dynamic_cast", c!"mutable", c!"static", c!"unsigned",
   c!"catch", c!"else", c!"namespace", c!"static_assert", c!"using",
   c!"char", c!"enum", c!"new", c!"static_cast", c!"virtual",
   c!"char16_t", c!"explicit", c!"noexcept", c!"struct", c!"void",
   c!"char32_t", c!"export", c!"nullptr", c!"switch", c!"volatile",
   c!"class", c!"extern", c!"operator", c!"template", c!"wchar_t",
   c!"const", c!"false", c!"private", c!"this", c!"while",
   c!"constexpr", c!"float", c!"protected", c!"thread_local",
   c!"const_cast", c!"for", c!"public", c!"throw",
   c!"and", c!"and_eq", c!"bitand", c!"bitor", c!"compl", c!"not", c!"not_eq", c!"or", c!"or_eq",
   c!"xor", c!"xor_eq"]

/-- Further words reported: from technical specifications and C++20. -/
def cppExtra : List Str :=
  [c!"atomic_cancel", c!"atomic_commit", c!"atomic_noexcept", c!"concept", c!"co_await",
   c!"co_return", c!"co_yield", c!"import", c!"module", c!"requires", c!"synchronized"]

/-- The C++ validation reports nothing iff the schema suits C++ (and avoids the further words). -/
theorem C24_valid_iff (g : Graph) :
    validateSchema cpp g = .ok [] ↔
      SchemaOk ⟨cpp17 ++ cppExtra, asAttribute, asComposite, c!"id"⟩ g := by
  rw [valid_iff]
  exact schemaOk_congr _ _ _ _ _ g fun n =>
    ⟨subset_of_all cppKeywords (cpp17 ++ cppExtra) (by decide +kernel) n,
     subset_of_all (cpp17 ++ cppExtra) cppKeywords (by decide +kernel) n⟩

/-- Every violation is reported with the reference of the offending definition, and nothing else is
reported. -/
theorem C24_errors (g : Graph) (errs : List SErr) (h : validateSchema cpp g = .ok errs) (e : SErr) :
    e ∈ errs ↔ Reported ⟨cppKeywords, asAttribute, asComposite, c!"id"⟩ g e :=
  errors_exact cpp g errs h e

example : SchemaOk ⟨cpp17 ++ cppExtra, asAttribute, asComposite, c!"id"⟩ okGraph :=
  (C24_valid_iff okGraph).1 (by decide)

/-! ## C25: Go -/

/-- The keywords of Go (the language specification, by columns). -/
def goSpecKeywords : List Str :=
  [c!"break", c!"default", c!"func", c!"interface", c!"select",
   c!"case", c!"defer", c!"go", c!"map", c!"struct",
   c!"chan", c!"else", c!"goto", c!"package", c!"switch",
   c!"const", c!"fallthrough", c!"if", c!"range", c!"type",
   c!"continue", c!"for", c!"import", c!"return", c!"var"]

/-- What the generated Go package needs of the fields. -/
abbrev GoNeeds (g : Graph) : Prop := SchemaOk ⟨goSpecKeywords, ucamelCase, ucamelCase, c!"ID"⟩ g

/-- The types of the schema which carry a format: dates, times and datetimes. -/
inductive HasFormat (g : Graph) (f ref : Str) : Prop where
  | date : (Ty.date f, ref) ∈ iterateOverTypes g → HasFormat g f ref
  | time : (Ty.time f, ref) ∈ iterateOverTypes g → HasFormat g f ref
  | datetime : (Ty.datetime f, ref) ∈ iterateOverTypes g → HasFormat g f ref

theorem format?_iff (t : Ty) (f : Str) :
    LangValidate.Ty.format? t = some f ↔ t = .date f ∨ t = .time f ∨ t = .datetime f := by
  cases t <;> simp [LangValidate.Ty.format?, eq_comm]

theorem formatErrors_nil (ts : List (Ty × Str)) :
    formatErrors ts = .ok [] ↔
      ∀ t ref f, (t, ref) ∈ ts → LangValidate.Ty.format? t = some f →
        Strftime.goFormatOk f = true := by
  induction ts with
  | nil => simp [formatErrors]
  | cons x ts ih =>
    obtain ⟨t, ref⟩ := x
    have split : (∀ t' ref' f, (t', ref') ∈ (t, ref) :: ts → LangValidate.Ty.format? t' = some f →
        Strftime.goFormatOk f = true) ↔
        (∀ f, LangValidate.Ty.format? t = some f → Strftime.goFormatOk f = true) ∧
        ∀ t' ref' f, (t', ref') ∈ ts → LangValidate.Ty.format? t' = some f →
          Strftime.goFormatOk f = true := by
      constructor
      · intro h
        exact ⟨fun f hf => h t ref f (by simp) hf, fun t' r f hm => h t' r f (by simp [hm])⟩
      · rintro ⟨h1, h2⟩ t' r f hm hf
        rcases List.mem_cons.1 hm with he | hm
        · cases he; exact h1 f hf
        · exact h2 t' r f hm hf
    rw [split, ← ih]
    simp only [formatErrors]
    cases hf : LangValidate.Ty.format? t with
    | none => simp
    | some f =>
      simp only [Option.some.injEq, forall_eq']
      unfold Strftime.goFormatOk
      cases ht : Strftime.tokenize f with
      | error e => simp [bind, Except.bind]
      | ok tss =>
        simp only [bind, Except.bind]
        cases hr : formatErrors ts with
        | error e => simp
        | ok rest => simp [pure, Except.pure]

theorem goReservedTypes_total (g : Graph) (h : Translatable go g) :
    ∃ r, goReservedTypes g = .ok r := by
  have hall : ∀ n ∈ g.name :: (g.classes.map (·.name) ++ g.embeds.map (·.name)),
      ∃ r, ucamelCase n = .ok r := by
    intro n hn
    simp only [List.mem_cons, List.mem_append, List.mem_map] at hn
    rcases hn with rfl | ⟨c, hc, rfl⟩ | ⟨c, hc, rfl⟩
    · exact h.graph
    · exact h.composite ⟨.cls, c.name, c.ref, c.properties⟩
        (by unfold definitions; simp only [List.mem_append, List.mem_map]; exact Or.inl ⟨c, hc, rfl⟩)
    · exact h.composite ⟨.embed, c.name, c.ref, c.properties⟩
        (by unfold definitions; simp only [List.mem_append, List.mem_map]; exact Or.inr ⟨c, hc, rfl⟩)
  have hm : ∀ l : List Str, (∀ n ∈ l, ∃ r, ucamelCase n = .ok r) →
      ∃ r, l.mapM ucamelCase = .ok r := by
    intro l
    induction l with
    | nil => intro _; exact ⟨[], rfl⟩
    | cons a l ih =>
      intro h
      obtain ⟨r, hr⟩ := h a (by simp)
      obtain ⟨rs, hrs⟩ := ih (fun n hn => h n (by simp [hn]))
      exact ⟨r :: rs, by simp [List.mapM_cons, hr, hrs, bind, Except.bind, pure, Except.pure]⟩
  obtain ⟨r, hr⟩ := hm _ hall
  unfold goReservedTypes
  rw [hr]
  exact ⟨_, rfl⟩

/-- The Go validation reports nothing iff the fields and identifiers suit Go and no format of a date,
time or datetime has a text which Go would interpret. Missing: the reserved type names. -/
theorem C25_valid_iff_partial (g : Graph) :
    goValidateSchema g = .ok [] ↔
      GoNeeds g ∧ ∀ f ref, HasFormat g f ref → Strftime.goFormatOk f = true := by
  have hgo : validateSchema go g = .ok [] ↔ GoNeeds g := by
    rw [valid_iff]
    exact schemaOk_congr _ _ _ _ _ g fun n =>
      ⟨subset_of_all goKeywords goSpecKeywords (by decide) n,
       subset_of_all goSpecKeywords goKeywords (by decide) n⟩
  have hfo : formatErrors (iterateOverTypes g) = .ok [] ↔
      ∀ f ref, HasFormat g f ref → Strftime.goFormatOk f = true := by
    rw [formatErrors_nil]
    constructor
    · rintro h f ref (hm | hm | hm)
      · exact h _ ref f hm rfl
      · exact h _ ref f hm rfl
      · exact h _ ref f hm rfl
    · intro h t ref f hm hf
      rcases (format?_iff t f).1 hf with rfl | rfl | rfl
      · exact h f ref (.date hm)
      · exact h f ref (.time hm)
      · exact h f ref (.datetime hm)
  rw [← hgo, ← hfo]
  unfold goValidateSchema
  cases hv : validateSchema go g with
  | error x => simp [bind, Except.bind]
  | ok errs =>
    obtain ⟨r, hr⟩ := goReservedTypes_total g ((validation_returns_iff go g).1 ⟨errs, hv⟩)
    rw [hr]
    simp only [bind, Except.bind]
    cases hf : formatErrors (iterateOverTypes g) with
    | error x => simp
    | ok fs => simp [pure, Except.pure]

/-- Every violation about fields and identifiers is reported with the reference of the offending
definition; the other errors are about formats. -/
theorem C25_errors (g : Graph) (errs : List SErr) (h : goValidateSchema g = .ok errs) (e : SErr) :
    e ∈ errs ↔ Reported ⟨goKeywords, ucamelCase, ucamelCase, c!"ID"⟩ g e ∨
      ∃ f tss s d, HasFormat g f e.ref ∧ Strftime.tokenize f = .ok tss ∧
        Strftime.Tok.text s ∈ tss.flatten ∧ Strftime.tokConflict (.text s) = some d ∧
        e.msg = .formatConflict d f := by
  unfold goValidateSchema at h
  cases hv : validateSchema go g with
  | error x => rw [hv] at h; cases h
  | ok es =>
    obtain ⟨r, hr⟩ := goReservedTypes_total g ((validation_returns_iff go g).1 ⟨es, hv⟩)
    rw [hv, hr] at h
    simp only [bind, Except.bind] at h
    cases hf : formatErrors (iterateOverTypes g) with
    | error x => rw [hf] at h; cases h
    | ok fs =>
      rw [hf] at h
      cases h
      have hmem : ∀ (ts : List (Ty × Str)) (fs : List SErr), formatErrors ts = .ok fs →
          (e ∈ fs ↔ ∃ t f tss tok d, (t, e.ref) ∈ ts ∧ LangValidate.Ty.format? t = some f ∧
            Strftime.tokenize f = .ok tss ∧ tok ∈ tss.flatten ∧ Strftime.tokConflict tok = some d ∧
            e.msg = .formatConflict d f) := by
        intro ts
        induction ts with
        | nil => intro fs h; simp only [formatErrors] at h; cases h; simp
        | cons x ts ih =>
          obtain ⟨t, ref⟩ := x
          intro fs h
          simp only [formatErrors] at h
          cases hft : LangValidate.Ty.format? t with
          | none =>
            rw [hft] at h
            rw [ih fs h]
            constructor
            · rintro ⟨t', f, tss, tok, d, hm, rest⟩
              exact ⟨t', f, tss, tok, d, by simp [hm], rest⟩
            · rintro ⟨t', f, tss, tok, d, hm, h1, rest⟩
              rcases List.mem_cons.1 hm with he | hm
              · cases he; rw [hft] at h1; cases h1
              · exact ⟨t', f, tss, tok, d, hm, h1, rest⟩
          | some f =>
            rw [hft] at h
            simp only at h
            cases ht : Strftime.tokenize f with
            | error e => rw [ht] at h; cases h
            | ok tss =>
              rw [ht] at h
              simp only [bind, Except.bind] at h
              cases hr : formatErrors ts with
              | error e => rw [hr] at h; cases h
              | ok rest =>
                rw [hr] at h
                cases h
                rw [List.mem_append, ih rest hr]
                simp only [List.mem_map, Strftime.goFormatConflicts, List.mem_filterMap]
                constructor
                · rintro (⟨d, ⟨tok, hm, hd⟩, rfl⟩ | ⟨t', f', tss', tok, d, hm, rest⟩)
                  · exact ⟨t, f, tss, tok, d, by simp, hft, ht, hm, hd, rfl⟩
                  · exact ⟨t', f', tss', tok, d, by simp [hm], rest⟩
                · rintro ⟨t', f', tss', tok, d, hm, h1, h2, h3, h4, h5⟩
                  rcases List.mem_cons.1 hm with he | hm
                  · left
                    cases he
                    rw [hft] at h1; cases h1
                    rw [ht] at h2; cases h2
                    refine ⟨d, ⟨tok, h3, h4⟩, ?_⟩
                    rw [← h5]
                  · exact Or.inr ⟨t', f', tss', tok, d, hm, h1, h2, h3, h4, h5⟩
      rw [List.mem_append, errors_exact go g es hv, hmem _ _ hf]
      refine or_congr Iff.rfl ⟨?_, ?_⟩
      · rintro ⟨t, f, tss, tok, d, hm, h1, h2, h3, h4, h5⟩
        cases tok with
        | directive c => simp [Strftime.tokConflict] at h4
        | text s =>
          refine ⟨f, tss, s, d, ?_, h2, h3, h4, h5⟩
          rcases (format?_iff t f).1 h1 with rfl | rfl | rfl
          · exact .date hm
          · exact .time hm
          · exact .datetime hm
      · rintro ⟨f, tss, s, d, (hm | hm | hm), h2, h3, h4, h5⟩
        · exact ⟨_, f, tss, _, d, hm, rfl, h2, h3, h4, h5⟩
        · exact ⟨_, f, tss, _, d, hm, rfl, h2, h3, h4, h5⟩
        · exact ⟨_, f, tss, _, d, hm, rfl, h2, h3, h4, h5⟩

example : goValidateSchema okGraph = .ok [] := by decide
example : goValidateSchema
    { okGraph with properties :=
        [{ name := c!"date", ty := .date c!"Jan %Y", json := c!"d" }] } =
    .ok [⟨c!"SomeGraph#/date", .formatConflict c!"Jan" c!"Jan %Y"⟩] := by decide

/-- The identifier is used by the generated Go package for something else. -/
def GoReserved (g : Graph) (n : Str) : Prop :=
  n = c!"Errors" ∨ ∃ m r, (m = g.name ∨ m ∈ (definitions g).map (·.name)) ∧ ucamelCase m = .ok r ∧
    (n = r ++ c!"FromJSONable" ∨ n = r ++ c!"ToJSONable")

/-- The claim about the reserved type names. -/
def C25Reserved : Prop :=
  ∀ g errs, goValidateSchema g = .ok errs → ∀ c ∈ definitions g, ∀ n, ucamelCase c.name = .ok n →
    GoReserved g n → ∃ e ∈ errs, e.ref = c.ref

/-- It is violated: a class `Errors` is accepted. -/
theorem C25_violated_reserved : ¬ C25Reserved := by
  intro h
  obtain ⟨e, he, _⟩ := h
    { name := c!"Graph", classes := [{ name := c!"Errors", plural := c!"Errorss", ref := c!"e" }] } []
    (by decide) ⟨.cls, c!"Errors", c!"e", []⟩ (by simp [definitions]) c!"Errors" (by decide) (Or.inl rfl)
  simp at he

/-- Even a function of the package may be redefined: the class `A_from_JSONable` beside `A`. -/
theorem C25_violated_function :
    goValidateSchema
      { name := c!"Graph",
        classes := [{ name := c!"A", plural := c!"As" },
                    { name := c!"A_from_JSONable", plural := c!"Bs" }] } = .ok [] ∧
    ucamelCase c!"A_from_JSONable" = .ok (c!"A" ++ c!"FromJSONable") := by decide

/-! ## C26: identifiers of composites -/

/-- The identifiers of the graph, the classes and the embeds are distinct. -/
def IdentifiersDistinct (L : Lang) (g : Graph) : Prop :=
  ∃ n ids, L.composite g.name = .ok n ∧ Forall₂ (CompId L) (definitions g) ids ∧ (n :: ids).Nodup

/-- The full claim for a language. -/
def C26Full (L : Lang) : Prop :=
  ∀ g, validateSchema L g = .ok [] → IdentifiersDistinct L g

/-- A graph and a class with the same identifier but distinct names. -/
def clash : Graph :=
  { name := c!"SomeGraph", classes := [{ name := c!"Some_graph", plural := c!"Some_graphs" }] }

theorem clash_not_distinct (L : Lang) (n : Str) (h1 : L.composite c!"SomeGraph" = .ok n)
    (h2 : L.composite c!"Some_graph" = .ok n) : ¬ IdentifiersDistinct L clash := by
  rintro ⟨m, ids, hm, hids, hnd⟩
  have hm' : L.composite c!"SomeGraph" = .ok m := hm
  rw [h1] at hm'
  cases hm'
  obtain ⟨k, hk, hk'⟩ := forall₂_mem_left hids (x := ⟨.cls, c!"Some_graph", [], []⟩)
    (by simp [definitions, clash])
  have hk'' : L.composite c!"Some_graph" = .ok k := hk'
  rw [h2] at hk''
  cases hk''
  exact (List.nodup_cons.1 hnd).1 hk

/-- The claim is violated in every language: the graph is not compared with the other composites. -/
theorem C26_violated : ¬ C26Full py ∧ ¬ C26Full cpp ∧ ¬ C26Full go :=
  ⟨fun h => clash_not_distinct py c!"SomeGraph" (by decide) (by decide) (h clash (by decide)),
   fun h => clash_not_distinct cpp c!"SomeGraph" (by decide) (by decide) (h clash (by decide)),
   fun h => clash_not_distinct go c!"SomeGraph" (by decide) (by decide) (h clash (by decide))⟩

/-- The names of composites which the conversion leaves as they are. -/
def Plain (s : Str) : Prop := '_' ∉ s ∧ ∃ c cs, s = c :: cs ∧ isUpper c = true

theorem plain_ucamel (s : Str) (h : Plain s) : ucamelCase s = .ok s := by
  obtain ⟨h1, c, cs, rfl, hc⟩ := h
  have hsplit : ∀ s : Str, '_' ∉ s → splitChar '_' s = [s] := by
    intro s
    induction s with
    | nil => intro _; simp [splitChar]
    | cons x xs ih =>
      intro h
      simp only [List.mem_cons, not_or] at h
      simp only [splitChar, ih h.2]
      rw [if_neg (fun e => h.1 e.symm)]
  have hu : c.toUpper = c := by
    rw [isUpper_iff] at hc
    apply Char.toNat_inj.1
    rw [toNat_toUpper]
    split <;> omega
  unfold ucamelCase splitIdentifier
  rw [hsplit _ h1]
  simp [capitalizeAll, capitalize, bind, Except.bind, pure, Except.pure, hu]

theorem plain_asComposite (s : Str) (h : Plain s) : asComposite s = .ok s := by
  have := plain_ucamel s h
  obtain ⟨_, c, cs, rfl, hc⟩ := h
  unfold asComposite
  simp only [hc, if_true]
  exact this

/-- If a language validation reports no error, the identifiers of the classes and embeds are
distinct; so is the identifier of the graph if no name of a composite has an underscore and the names
are distinct. Missing: a name with underscores which is converted to the identifier of the graph. -/
theorem C26_distinct_partial (L : Lang) (hL : ∀ s, Plain s → L.composite s = .ok s) (g : Graph)
    (h : validateSchema L g = .ok []) :
    (∃ ids, Forall₂ (CompId L) (definitions g) ids ∧ ids.Nodup) ∧
    ((∀ c ∈ definitions g, Plain c.name ∧ c.name ≠ g.name) → Plain g.name →
      IdentifiersDistinct L g) := by
  obtain ⟨⟨n, hn, _⟩, ⟨ids, h1, h2, _⟩, _, _⟩ := (valid_iff L g).1 h
  refine ⟨⟨ids, h1, h2⟩, fun hp hg => ⟨n, ids, hn, h1, ?_⟩⟩
  rw [List.nodup_cons]
  refine ⟨fun hm => ?_, h2⟩
  obtain ⟨c, hc, hk⟩ := forall₂_mem_right h1 hm
  rw [hL _ hg] at hn
  cases hn
  unfold CompId at hk
  rw [hL _ (hp c hc).1] at hk
  exact (hp c hc).2 (by injection hk)

/-- The three languages leave plain names as they are. -/
theorem C26_languages : (∀ s, Plain s → py.composite s = .ok s) ∧
    (∀ s, Plain s → cpp.composite s = .ok s) ∧ ∀ s, Plain s → go.composite s = .ok s :=
  ⟨plain_asComposite, plain_asComposite, plain_ucamel⟩

example : IdentifiersDistinct go
    { name := c!"Zoo", classes := [{ name := c!"Lion", plural := c!"Lions" }],
      embeds := [{ name := c!"Cage" }] } :=
  (C26_distinct_partial go C26_languages.2.2 _ (by decide)).2
    (by
      intro c hc
      simp only [definitions, List.map_cons, List.map_nil, List.cons_append, List.nil_append,
        List.mem_cons, List.not_mem_nil, or_false] at hc
      rcases hc with rfl | rfl
      · exact ⟨⟨by decide, 'L', c!"ion", rfl, by decide⟩, by decide⟩
      · exact ⟨⟨by decide, 'C', c!"age", rfl, by decide⟩, by decide⟩)
    ⟨by decide, 'Z', c!"oo", rfl, by decide⟩

end Mapry.Props
