import Verif.Props.PyParse

/-! # C34: unknown keys and the order of the keys -/

namespace Mapry.Props

open Mapry.PyRuntime Mapry.PyRuntime.Spec Mapry.LangValidate

/-! ## Inputs which say the same

Two inputs say the same if they differ only in the objects of the graph, of instances and of
embeddable structures, in keys which the schema does not mention or in the order of the keys. The order
of the items of arrays, of the entries of maps and of the instances matters. -/

/-- Both are missing, or both are there and say the same. -/
def SameOpt (same : Json → Json → Prop) (a b : Option Json) : Prop :=
  (a = none ∧ b = none) ∨ ∃ v w, a = some v ∧ b = some w ∧ same v w

/-- Values of a type which say the same -/
def SameTy (embed : Str → Json → Json → Prop) : Ty → Json → Json → Prop
  | .array t _ _, v, w => v = w ∨ ∃ xs ys, v = .arr xs ∧ w = .arr ys ∧ Forall₂ (SameTy embed t) xs ys
  | .map t, v, w => v = w ∨ ∃ o kvs kvs', v = .obj o kvs ∧ w = .obj o kvs' ∧
    Forall₂ (fun a b => a.1 = b.1 ∧ SameTy embed t a.2 b.2) kvs kvs'
  | .embed name, v, w => v = w ∨ embed name v w
  | _, v, w => v = w

/-- Objects of which the keys of the properties say the same -/
def SameComposite (same : Ty → Json → Json → Prop) (ps : List Property) (v w : Json) : Prop :=
  v = w ∨ ∃ o o' kvs kvs', v = .obj o kvs ∧ w = .obj o' kvs' ∧
    ∀ p ∈ ps, SameOpt (same p.ty) (kvs.lookup p.json) (kvs'.lookup p.json)

/-- Embeddable structures, `n` levels deep -/
def SameEmbed (g : Graph) : Nat → Str → Json → Json → Prop
  | 0, _, v, w => v = w
  | n + 1, name, v, w => ∃ e, g.embed? name = some e ∧
    SameComposite (SameTy (SameEmbed g n)) e.properties v w

/-- Registries with the same identifiers in the same order -/
def SameRegistry (g : Graph) (n : Nat) (c : Class) (v w : Json) : Prop :=
  v = w ∨ ∃ o es es', v = .obj o es ∧ w = .obj o es' ∧
    Forall₂ (fun a b => a.1 = b.1 ∧ SameComposite (SameTy (SameEmbed g n)) c.properties a.2 b.2) es es'

/-- Inputs of the graph -/
def SameGraph (g : Graph) (n : Nat) (v w : Json) : Prop :=
  v = w ∨ ∃ o o' kvs kvs', v = .obj o kvs ∧ w = .obj o' kvs' ∧
    (∀ c ∈ g.classes, SameOpt (SameRegistry g n c) (kvs.lookup (Mapry.lower c.plural))
      (kvs'.lookup (Mapry.lower c.plural))) ∧
    ∀ p ∈ g.properties, SameOpt (SameTy (SameEmbed g n) p.ty) (kvs.lookup p.json) (kvs'.lookup p.json)

/-! ## The parser does not distinguish them -/

theorem same_refl (embed : Str → Json → Json → Prop) (t : Ty) (v : Json) : SameTy embed t v v := by
  cases t <;> first | exact rfl | exact .inl rfl

theorem sameOpt_refl {same : Json → Json → Prop} (h : ∀ v, same v v) (a : Option Json) : SameOpt same a a := by
  cases a with
  | none => exact .inl ⟨rfl, rfl⟩
  | some v => exact .inr ⟨v, v, rfl, rfl, h v⟩

theorem parseItems_same {f : ParseFn} {same : Json → Json → Prop}
    (h : ∀ v w ref es, same v w → f v ref es = f w ref es) (ref : Str) (i : Nat) (acc : List Val)
    (xs ys : List Json) (hs : Forall₂ same xs ys) (es : Errors) :
    parseItems f ref i acc xs es = parseItems f ref i acc ys es := by
  induction hs generalizing i acc es with
  | nil => rfl
  | cons h1 _ ih =>
    simp only [parseItems, h _ _ _ _ h1, ih]

theorem parseEntries_same (L : Lib) {f : ParseFn} {same : Json → Json → Prop}
    (h : ∀ v w ref es, same v w → f v ref es = f w ref es) (ref : Str) (acc : List (Str × Val))
    (xs ys : List (Str × Json)) (hs : Forall₂ (fun a b => a.1 = b.1 ∧ same a.2 b.2) xs ys) (es : Errors) :
    parseEntries L f ref acc xs es = parseEntries L f ref acc ys es := by
  induction hs generalizing acc es with
  | nil => rfl
  | @cons a b _ _ h1 _ ih =>
    obtain ⟨k, x⟩ := a
    obtain ⟨k', y⟩ := b
    obtain ⟨hk, hv⟩ := h1
    simp only at hk hv
    subst hk
    simp only [parseEntries, h _ _ _ _ hv, ih]

theorem parseTy_same (E : Env) {embed : Str → Json → Str → Errors → Except Exc (Val × Errors)}
    {same : Str → Json → Json → Prop}
    (h : ∀ name v w ref es, same name v w → embed name v ref es = embed name w ref es)
    (t : Ty) : ∀ v w ref es, SameTy same t v w →
      parseTy E embed t v ref es = parseTy E embed t w ref es := by
  induction t with
  | array t lo hi ih =>
    rintro v w ref es (rfl | ⟨xs, ys, rfl, rfl, hf⟩)
    · rfl
    · simp only [parseTy, parseArray, forall₂_length hf, parseItems_same ih _ _ _ _ _ hf]
  | map t ih =>
    rintro v w ref es (rfl | ⟨o, xs, ys, rfl, rfl, hf⟩)
    · rfl
    · simp only [parseTy, parseMap, parseEntries_same E.lib ih _ _ _ _ hf]
  | embed name =>
    rintro v w ref es (rfl | hs)
    · rfl
    · simp only [parseTy, h _ _ _ _ _ hs]
  | _ => rintro v w ref es rfl; rfl

theorem same_null (embed : Str → Json → Json → Prop) (he : ∀ name v w, embed name v w → (v = .null ↔ w = .null))
    (t : Ty) (v w : Json) (h : SameTy embed t v w) : v = .null ↔ w = .null := by
  cases t with
  | array t lo hi =>
    rcases h with rfl | ⟨xs, ys, rfl, rfl, _⟩ <;> simp
  | map t =>
    rcases h with rfl | ⟨o, xs, ys, rfl, rfl, _⟩ <;> simp
  | embed name =>
    rcases h with rfl | h
    · exact Iff.rfl
    · exact he _ _ _ h
  | _ => cases h; exact Iff.rfl

theorem composite_null {same : Ty → Json → Json → Prop} {ps : List Property} {v w : Json}
    (h : SameComposite same ps v w) : v = .null ↔ w = .null := by
  rcases h with rfl | ⟨o, o', kvs, kvs', rfl, rfl, _⟩ <;> simp

theorem embed_null (g : Graph) (n : Nat) (name : Str) (v w : Json) (h : SameEmbed g n name v w) :
    v = .null ↔ w = .null := by
  cases n with
  | zero => cases h; exact Iff.rfl
  | succ n => obtain ⟨_, _, h⟩ := h; exact composite_null h

theorem parseProperty_present {parse : Ty → ParseFn} {kvs : List (Str × Json)} (ref : Str) (p : Property)
    (attrs : Attrs) (es : Errors) {v : Json} (hv : kvs.lookup p.json = some v) (hn : v ≠ .null) :
    parseProperty parse kvs ref p attrs es = (do
      let (x, es) ← parse p.ty v (sub ref p.json) es
      return (match x with
        | some x => setAttr (attr p) x attrs
        | none => attrs, es)) := by
  unfold parseProperty
  rw [hv]
  cases v <;> first | rfl | exact absurd rfl hn

theorem parseProps_same {parse : Ty → ParseFn} {same : Ty → Json → Json → Prop}
    (h : ∀ t v w ref es, same t v w → parse t v ref es = parse t w ref es)
    (hnull : ∀ t v w, same t v w → (v = .null ↔ w = .null)) (kvs kvs' : List (Str × Json)) (ref : Str)
    (ps : List Property) (hs : ∀ p ∈ ps, SameOpt (same p.ty) (kvs.lookup p.json) (kvs'.lookup p.json))
    (attrs : Attrs) (es : Errors) :
    parseProps parse kvs ref ps attrs es = parseProps parse kvs' ref ps attrs es := by
  induction ps generalizing attrs es with
  | nil => rfl
  | cons p ps ih =>
    have h1 : ∀ attrs es, parseProperty parse kvs ref p attrs es = parseProperty parse kvs' ref p attrs es := by
      intro attrs es
      rcases hs p (List.mem_cons_self ..) with ⟨ha, hb⟩ | ⟨v, w, ha, hb, hvw⟩
      · unfold parseProperty; rw [ha, hb]
      · by_cases hn : v = .null
        · have hw := (hnull _ _ _ hvw).1 hn
          subst hn; subst hw
          unfold parseProperty; rw [ha, hb]
        · rw [parseProperty_present ref p attrs es ha hn,
            parseProperty_present ref p attrs es hb (fun e => hn ((hnull _ _ _ hvw).2 e)),
            h _ _ _ _ _ hvw]
    simp only [parseProps, h1, ih fun q hq => hs q (List.mem_cons_of_mem _ hq)]

theorem parseComposite_same {parse : Ty → ParseFn} {same : Ty → Json → Json → Prop}
    (h : ∀ t v w ref es, same t v w → parse t v ref es = parse t w ref es)
    (hnull : ∀ t v w, same t v w → (v = .null ↔ w = .null)) (ps : List Property) (v w : Json)
    (hs : SameComposite same ps v w) (ref : Str) (es : Errors) :
    parseComposite parse ps v ref es = parseComposite parse ps w ref es := by
  rcases hs with rfl | ⟨o, o', kvs, kvs', rfl, rfl, hs⟩
  · rfl
  · exact parseProps_same h hnull kvs kvs' ref ps hs _ _

theorem parseEmbed_same (E : Env) (n : Nat) : ∀ name v w ref es, SameEmbed E.graph n name v w →
    parseEmbed E n name v ref es = parseEmbed E n name w ref es := by
  induction n with
  | zero => rintro name v w ref es rfl; rfl
  | succ n ih =>
    rintro name v w ref es ⟨e, he, hs⟩
    simp only [parseEmbed, he]
    rw [parseComposite_same (parseTy_same E ih) (same_null _ (embed_null _ n)) _ _ _ hs]

theorem parseInstances_same (L : Lib) {parse : Ty → ParseFn} {same : Ty → Json → Json → Prop}
    (h : ∀ t v w ref es, same t v w → parse t v ref es = parse t w ref es)
    (hnull : ∀ t v w, same t v w → (v = .null ↔ w = .null)) (c : Class) (ref : Str) (ids : List Str)
    (xs ys : List (Str × Json))
    (hs : Forall₂ (fun a b => a.1 = b.1 ∧ SameComposite same c.properties a.2 b.2) xs ys)
    (acc : List (Str × Instance)) (es : Errors) :
    parseInstances L parse c ref ids xs acc es = parseInstances L parse c ref ids ys acc es := by
  induction hs generalizing acc es with
  | nil => rfl
  | @cons a b _ _ h1 _ ih =>
    obtain ⟨k, x⟩ := a
    obtain ⟨k', y⟩ := b
    obtain ⟨hk, hv⟩ := h1
    simp only at hk hv
    subst hk
    simp only [parseInstances, parseComposite_same h hnull _ _ _ hv, ih]

theorem ids_same {same : Json → Json → Prop} {xs ys : List (Str × Json)}
    (hs : Forall₂ (fun a b => a.1 = b.1 ∧ same a.2 b.2) xs ys) : xs.map (·.1) = ys.map (·.1) := by
  induction hs with
  | nil => rfl
  | cons h1 _ ih => simp only [List.map_cons, h1.1, ih]

section

variable (L : Lib) (S : Settings) (g : Graph) (n : Nat) (ref : Str)

theorem prealloc_same (c : Class) (kvs kvs' : List (Str × Json)) (es : Errors)
    (hs : SameOpt (SameRegistry g n c) (kvs.lookup (Mapry.lower c.plural))
      (kvs'.lookup (Mapry.lower c.plural))) : prealloc L kvs ref c es = prealloc L kvs' ref c es := by
  unfold prealloc registryKey
  rcases hs with ⟨ha, hb⟩ | ⟨v, w, ha, hb, rfl | ⟨o, xs, ys, rfl, rfl, hf⟩⟩
  · rw [ha, hb]
  · rw [ha, hb]
  · rw [ha, hb]; simp only [ids_same hf]

theorem preallocAll_same (kvs kvs' : List (Str × Json)) (cs : List Class)
    (hs : ∀ c ∈ cs, SameOpt (SameRegistry g n c) (kvs.lookup (Mapry.lower c.plural))
      (kvs'.lookup (Mapry.lower c.plural))) (acc : List (Str × Bool × List Str)) (es : Errors) :
    preallocAll L kvs ref cs acc es = preallocAll L kvs' ref cs acc es := by
  induction cs generalizing acc es with
  | nil => rfl
  | cons c cs ih =>
    simp only [preallocAll, prealloc_same L g n ref c kvs kvs' es (hs c (List.mem_cons_self ..)),
      ih fun d hd => hs d (List.mem_cons_of_mem _ hd)]

theorem parseRegistries_same (E : Env) (hE : E.graph = g) (kvs kvs' : List (Str × Json))
    (pre : List (Str × Bool × List Str)) (cs : List Class)
    (hs : ∀ c ∈ cs, SameOpt (SameRegistry g n c) (kvs.lookup (Mapry.lower c.plural))
      (kvs'.lookup (Mapry.lower c.plural))) (acc : List (Str × Registry)) (es : Errors) :
    parseRegistries L (parseTy E (parseEmbed E n)) kvs ref pre cs acc es =
      parseRegistries L (parseTy E (parseEmbed E n)) kvs' ref pre cs acc es := by
  subst hE
  induction cs generalizing acc es with
  | nil => rfl
  | cons c cs ih =>
    have h1 : ∀ pre es, parseRegistry L (parseTy E (parseEmbed E n)) kvs ref c pre es =
        parseRegistry L (parseTy E (parseEmbed E n)) kvs' ref c pre es := by
      intro pre es
      unfold parseRegistry registryKey
      rcases hs c (List.mem_cons_self ..) with ⟨ha, hb⟩ | ⟨v, w, ha, hb, rfl | ⟨o, xs, ys, rfl, rfl, hf⟩⟩
      · rw [ha, hb]
      · rw [ha, hb]
      · rw [ha, hb]
        simp only [parseInstances_same L (parseTy_same E (parseEmbed_same E n))
          (same_null _ (embed_null _ n)) c ref pre.2 xs ys hf]
    have ih := fun acc es => ih acc es (fun d hd => hs d (List.mem_cons_of_mem _ hd))
    simp only [parseRegistries, h1, ih]

/-- **C34.** Inputs which say the same have the same outcome: the same graph, the same errors, or the
same exception. -/
theorem C34_same_outcome (v w : Json) (h : SameGraph g n v w) (es : Errors) :
    parseGraph L S g n v ref es = parseGraph L S g n w ref es := by
  rcases h with rfl | ⟨o, o', kvs, kvs', rfl, rfl, hc, hp⟩
  · rfl
  · unfold parseGraph
    simp only [preallocAll_same L g n ref kvs kvs' g.classes hc]
    have hprops : ∀ pre attrs es,
        parseProps (parseTy (envOf L S g pre) (parseEmbed (envOf L S g pre) n)) kvs ref g.properties attrs es =
        parseProps (parseTy (envOf L S g pre) (parseEmbed (envOf L S g pre) n)) kvs' ref g.properties attrs es :=
      fun pre attrs es => parseProps_same (parseTy_same (envOf L S g pre) (parseEmbed_same (envOf L S g pre) n))
        (same_null _ (embed_null _ n)) kvs kvs' ref g.properties hp attrs es
    simp only [parseRegistries_same L g n ref (envOf L S g _) rfl kvs kvs' _ g.classes hc, hprops]

end

/-! ## Permutations and unknown keys -/

theorem lookup_perm {kvs kvs' : List (Str × Json)} (hp : kvs.Perm kvs') (hn : (kvs.map (·.1)).Nodup) (k : Str) :
    kvs.lookup k = kvs'.lookup k := by
  induction hp with
  | nil => rfl
  | cons a _ ih =>
    obtain ⟨a, x⟩ := a
    rw [List.map_cons, List.nodup_cons] at hn
    simp only [List.lookup, ih hn.2]
  | swap a b l =>
    obtain ⟨a, x⟩ := a
    obtain ⟨b, y⟩ := b
    simp only [List.map_cons, List.nodup_cons, List.mem_cons, not_or] at hn
    have hab : b ≠ a := hn.1.1
    by_cases h1 : k = a
    · subst h1
      have : (k == b) = false := beq_false_of_ne hab.symm
      simp [List.lookup, this]
    · have h1' : (k == a) = false := beq_false_of_ne h1
      simp only [List.lookup, h1']
  | trans h1 _ ih1 ih2 =>
    rw [ih1 hn, ih2 ((h1.map _).nodup_iff.1 hn)]

theorem lookup_insert (a b : List (Str × Json)) (k k' : Str) (x : Json) (h : k' ≠ k) :
    (a ++ (k, x) :: b).lookup k' = (a ++ b).lookup k' := by
  induction a with
  | nil =>
    have : (k' == k) = false := beq_false_of_ne h
    simp [List.lookup, this]
  | cons c a ih =>
    obtain ⟨c, y⟩ := c
    simp only [List.cons_append, List.lookup, ih]

section

variable (L : Lib) (S : Settings) (g : Graph) (n : Nat) (ref : Str) (es : Errors)

theorem sameTy_refl (t : Ty) (v : Json) : SameTy (SameEmbed g n) t v v := same_refl _ t v

/-- A composite with permuted keys says the same. -/
theorem C34_composite_permuted (ps : List Property) (o o' : Bool) (kvs kvs' : List (Str × Json))
    (hp : kvs.Perm kvs') (hn : (kvs.map (·.1)).Nodup) :
    SameComposite (SameTy (SameEmbed g n)) ps (.obj o kvs) (.obj o' kvs') :=
  .inr ⟨o, o', kvs, kvs', rfl, rfl, fun p _ => by
    rw [lookup_perm hp hn]
    exact sameOpt_refl (sameTy_refl g n p.ty) _⟩

/-- A composite with an additional unknown key says the same. -/
theorem C34_composite_extended (ps : List Property) (o : Bool) (a b : List (Str × Json)) (k : Str) (x : Json)
    (hk : ∀ p ∈ ps, p.json ≠ k) :
    SameComposite (SameTy (SameEmbed g n)) ps (.obj o (a ++ b)) (.obj o (a ++ (k, x) :: b)) :=
  .inr ⟨o, o, _, _, rfl, rfl, fun p hp => by
    rw [lookup_insert a b k p.json x (hk p hp)]
    exact sameOpt_refl (sameTy_refl g n p.ty) _⟩

/-- The order of the keys of the graph is irrelevant. -/
theorem C34_graph_permuted (o o' : Bool) (kvs kvs' : List (Str × Json))
    (hp : kvs.Perm kvs') (hn : (kvs.map (·.1)).Nodup) :
    parseGraph L S g n (.obj o kvs) ref es = parseGraph L S g n (.obj o' kvs') ref es :=
  C34_same_outcome L S g n ref _ _ (.inr ⟨o, o', kvs, kvs', rfl, rfl, fun c _ => by
    rw [lookup_perm hp hn]; exact sameOpt_refl (fun _ => .inl rfl) _, fun p _ => by
    rw [lookup_perm hp hn]; exact sameOpt_refl (sameTy_refl g n p.ty) _⟩) es

/-- An unknown key of the graph is ignored. -/
theorem C34_graph_extended (o : Bool) (a b : List (Str × Json)) (k : Str) (x : Json)
    (hk : ∀ p ∈ g.properties, p.json ≠ k) (hc : ∀ c ∈ g.classes, Mapry.lower c.plural ≠ k) :
    parseGraph L S g n (.obj o (a ++ (k, x) :: b)) ref es = parseGraph L S g n (.obj o (a ++ b)) ref es :=
  C34_same_outcome L S g n ref _ _ (.inr ⟨o, o, _, _, rfl, rfl, fun c hc' => by
    rw [lookup_insert a b k _ x (hc c hc')]; exact sameOpt_refl (fun _ => .inl rfl) _, fun p hp => by
    rw [lookup_insert a b k _ x (hk p hp)]; exact sameOpt_refl (sameTy_refl g n p.ty) _⟩) es

end

/-- The demonstration with unknown keys in the graph and in an instance, and with permuted keys in
another instance -/
example : SameGraph Demo.schema 5 Demo.input (.obj true [
    (c!"weights", .obj false [(c!"x", .float (.fin 2)), (c!"y", .float (.inf false))]),
    (c!"unknown", .null),
    (c!"persons", .obj true [
      (c!"p1", .obj false [(c!"age", .int 33), (c!"name", .str c!"Al"), (c!"friend", .str c!"p2")]),
      (c!"p2", .obj false [(c!"other", .int 5), (c!"age", .int 1), (c!"name", .str c!"Ada"),
        (c!"born", .str c!"2020-01-02")])]),
    (c!"homes", .arr [.obj false [(c!"street", .str c!"Main"), (c!"no", .int (-3))],
      .obj false [(c!"street", .str c!"Side"), (c!"no", .null)]])]) := by
  refine .inr ⟨_, _, _, _, rfl, rfl, ?_, ?_⟩
  · intro c hc
    simp only [Demo.schema, List.mem_singleton] at hc
    subst hc
    refine .inr ⟨_, _, rfl, rfl, .inr ⟨_, _, _, rfl, rfl, .cons ⟨rfl, ?_⟩ (.cons ⟨rfl, ?_⟩ .nil)⟩⟩
    · exact C34_composite_permuted _ _ _ _ _ _ _ (.swap ..) (by decide)
    · exact C34_composite_extended _ _ _ _ [] _ _ _ (by simp)
  · intro p hp
    simp only [Demo.schema, List.mem_cons, List.not_mem_nil, or_false] at hp
    rcases hp with rfl | rfl | rfl
    · exact .inr ⟨_, _, rfl, rfl, .inl rfl⟩
    · exact .inr ⟨_, _, rfl, rfl, .inl rfl⟩
    · exact .inl ⟨rfl, rfl⟩

end Mapry.Props
