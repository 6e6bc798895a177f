import Verif.GoAcceptSerialize

/-!
# When the types in the generated Go code are accepted: the package
-/

namespace Mapry.GoTyped

open Mapry.TypeGraph Mapry.Naming
open Mapry.GoTypes (GTy typeRepr camel pureRepr pureField pureDefs pureClass pureEmbed pureGraph pureRegistry GoFacts)
open Mapry.GoCheck
open Mapry.GoCode (Name isPointer patternName referencesOf pluralField registryParam v vi own)
open Mapry.PyCode (allNames defNames class_name_mem embed_name_mem graph_name_mem)

theorem lookup_of {α β : Type} [BEq α] [LawfulBEq α] {l : List (α × β)} (hn : (l.map (·.1)).Nodup) {k : α} {y : β} (h : (k, y) ∈ l) :
    l.lookup k = some y := by
  induction l with
  | nil => cases h
  | cons e l ih =>
    obtain ⟨a, z⟩ := e
    rw [List.map_cons, List.nodup_cons] at hn
    rw [List.lookup_cons]
    rcases List.mem_cons.1 h with h | h
    · cases h
      simp
    · have : k ≠ a := by
        intro e
        rw [← e] at hn
        exact hn.1 (List.mem_map.2 ⟨_, h, rfl⟩)
      rw [beq_eq_false_iff_ne.2 this]
      exact ih hn.2 h

/-! ## The signatures -/

theorem forall₂_map {α β γ : Type} {R : α → β → Prop} {as : List α} {bs : List β} {f : α → γ} {k : β → γ} (h : Forall₂ R as bs)
    (hR : ∀ a y, R a y → k y = f a) : as.map f = bs.map k := by
  induction h with
  | nil => rfl
  | cons h _ ih => rw [List.map_cons, List.map_cons, ih, hR _ _ h]

theorem sig_parseComposite {g : Graph} {o : Owner} {name : Str} {isClass : Bool} {f : Func}
    (h : parseComposite g (GoCode.enumeratePatterns g) o name isClass = .ok f) : ∃ refs, referencesOf g o = .ok refs ∧
      f.sig = (camel name ++ c!"FromJSONable", ⟨.any :: ((if isClass then [.string] else []) ++ (refs.map registryTy ++
        [.string, .ptr (.named (camel name)), errorsTy])), false, []⟩) := by
  unfold parseComposite at h
  obtain ⟨refs, hrefs, h⟩ := GoCode.ok_bind h
  obtain ⟨params, hparams, h⟩ := GoCode.ok_bind h
  obtain ⟨props, _, h⟩ := GoCode.ok_bind h
  obtain ⟨k, hk, h⟩ := GoCode.ok_bind h
  cases GoTypes.camel_eq hk
  cases h
  refine ⟨refs, hrefs, ?_⟩
  have key : params.map (·.2) = refs.map registryTy := by
    have := registries_types hparams
    clear hparams hrefs
    exact (forall₂_map this fun _ _ h => h.2).symm
  unfold Func.sig
  simp only [List.map_append, key, List.map_nil]
  cases isClass <;> simp [restParams]

theorem sig_parseGraph {g : Graph} {f : Func} (h : parseGraph g (GoCode.enumeratePatterns g) = .ok f) :
    f.name = camel g.name ++ c!"FromJSONable" := by
  unfold parseGraph at h
  obtain ⟨_, _, h⟩ := GoCode.ok_bind h
  obtain ⟨_, _, h⟩ := GoCode.ok_bind h
  obtain ⟨_, _, h⟩ := GoCode.ok_bind h
  obtain ⟨k, hk, h⟩ := GoCode.ok_bind h
  cases GoTypes.camel_eq hk
  cases h
  rfl

theorem sig_serializeComposite {name : Str} {ps : List Property} {f : Func} (h : serializeComposite name ps = .ok f) :
    f.sig = (camel name ++ c!"ToJSONable", ⟨[.ptr (.named (camel name))], false, [.map .any]⟩) := by
  unfold serializeComposite at h
  obtain ⟨_, _, h⟩ := GoCode.ok_bind h
  obtain ⟨k, hk, h⟩ := GoCode.ok_bind h
  cases GoTypes.camel_eq hk
  cases h
  rfl

theorem sig_serializeGraph {g : Graph} {f : Func} (h : serializeGraph g = .ok f) : f.name = camel g.name ++ c!"ToJSONable" := by
  unfold serializeGraph at h
  obtain ⟨_, _, h⟩ := GoCode.ok_bind h
  obtain ⟨_, _, h⟩ := GoCode.ok_bind h
  obtain ⟨k, hk, h⟩ := GoCode.ok_bind h
  cases GoTypes.camel_eq hk
  cases h
  rfl

theorem mapM_names {α : Type} {F : α → Except Exc Func} {k : α → Str} {l : List α} (hk : ∀ a f, F a = .ok f → f.name = k a) :
    ∀ {fs : List Func}, l.mapM F = .ok fs → fs.map (·.name) = l.map k := by
  induction l with
  | nil =>
    intro fs h
    cases h
    rfl
  | cons a l ih =>
    intro fs h
    obtain ⟨f, fs', hf, hfs, rfl⟩ := GoCode.mapM_cons h
    rw [List.map_cons, List.map_cons, ih hfs, hk a f hf]

/-- The identifiers of the composites -/
def idents (g : Graph) : List Str :=
  g.classes.map (fun c => camel c.name) ++ g.embeds.map (fun e => camel e.name) ++ [camel g.name]

theorem name_of_sig {f : Func} {n : Str} {s : Sig} (h : f.sig = (n, s)) : f.name = n := congrArg Prod.fst h

theorem parse_names {g : Graph} {P : List Func} (h : parseFuncs g = .ok P) :
    P.map (·.name) = (idents g).map (· ++ c!"FromJSONable") := by
  unfold parseFuncs at h
  obtain ⟨cs, hcs, h⟩ := GoCode.ok_bind h
  obtain ⟨es, hes, h⟩ := GoCode.ok_bind h
  obtain ⟨gr, hgr, h⟩ := GoCode.ok_bind h
  cases h
  rw [List.map_append, List.map_append, mapM_names (k := fun c : Class => camel c.name ++ c!"FromJSONable") (fun a f hf => by
      obtain ⟨_, _, h⟩ := sig_parseComposite hf
      exact name_of_sig h) hcs,
    mapM_names (k := fun c : Embed => camel c.name ++ c!"FromJSONable") (fun a f hf => by
      obtain ⟨_, _, h⟩ := sig_parseComposite hf
      exact name_of_sig h) hes, List.map_singleton, sig_parseGraph hgr]
  simp [idents, Function.comp_def]

theorem serialize_names {g : Graph} {S : List Func} (h : serializeFuncs g = .ok S) :
    S.map (·.name) = (idents g).map (· ++ c!"ToJSONable") := by
  unfold serializeFuncs at h
  obtain ⟨cs, hcs, h⟩ := GoCode.ok_bind h
  obtain ⟨es, hes, h⟩ := GoCode.ok_bind h
  obtain ⟨gr, hgr, h⟩ := GoCode.ok_bind h
  cases h
  rw [List.map_append, List.map_append, mapM_names (k := fun c : Class => camel c.name ++ c!"ToJSONable")
      (fun a f hf => name_of_sig (sig_serializeComposite hf)) hcs,
    mapM_names (k := fun c : Embed => camel c.name ++ c!"ToJSONable") (fun a f hf => name_of_sig (sig_serializeComposite hf)) hes,
    List.map_singleton, sig_serializeGraph hgr]
  simp [idents, Function.comp_def]

theorem mapM_mem {α β : Type} {F : α → Except Exc β} {l : List α} {a : α} (ha : a ∈ l) : ∀ {bs : List β}, l.mapM F = .ok bs →
    ∃ y ∈ bs, F a = .ok y := by
  induction l with
  | nil => cases ha
  | cons c l ih =>
    intro bs h
    obtain ⟨y, ys, hy, hys, rfl⟩ := GoCode.mapM_cons h
    rcases List.mem_cons.1 ha with rfl | ha
    · exact ⟨y, by simp, hy⟩
    · obtain ⟨z, hz, h⟩ := ih ha hys
      exact ⟨z, by simp [hz], h⟩

theorem mapM_mem' {α β : Type} {F : α → Except Exc β} {l : List α} : ∀ {bs : List β}, l.mapM F = .ok bs → ∀ y ∈ bs,
    ∃ a ∈ l, F a = .ok y := by
  induction l with
  | nil =>
    intro bs h
    cases h
    simp
  | cons c l ih =>
    intro bs h z hz
    obtain ⟨y, ys, hy, hys, rfl⟩ := GoCode.mapM_cons h
    rcases List.mem_cons.1 hz with rfl | hz
    · exact ⟨c, by simp, hy⟩
    · obtain ⟨a, ha, h⟩ := ih hys z hz
      exact ⟨a, by simp [ha], h⟩

theorem parse_class {g : Graph} {P : List Func} (h : parseFuncs g = .ok P) {c : Class} (hc : c ∈ g.classes) :
    ∃ f ∈ P, parseComposite g (GoCode.enumeratePatterns g) (.cls c.name) c.name true = .ok f := by
  unfold parseFuncs at h
  obtain ⟨cs, hcs, h⟩ := GoCode.ok_bind h
  obtain ⟨es, hes, h⟩ := GoCode.ok_bind h
  obtain ⟨gr, hgr, h⟩ := GoCode.ok_bind h
  cases h
  obtain ⟨f, hf, h⟩ := mapM_mem hc hcs
  exact ⟨f, by simp [hf], h⟩

theorem parse_embed {g : Graph} {P : List Func} (h : parseFuncs g = .ok P) {e : Embed} (he : e ∈ g.embeds) :
    ∃ f ∈ P, parseComposite g (GoCode.enumeratePatterns g) (.embed e.name) e.name false = .ok f := by
  unfold parseFuncs at h
  obtain ⟨cs, hcs, h⟩ := GoCode.ok_bind h
  obtain ⟨es, hes, h⟩ := GoCode.ok_bind h
  obtain ⟨gr, hgr, h⟩ := GoCode.ok_bind h
  cases h
  obtain ⟨f, hf, h⟩ := mapM_mem he hes
  exact ⟨f, by simp [hf], h⟩

theorem parse_graph {g : Graph} {P : List Func} (h : parseFuncs g = .ok P) :
    ∃ f ∈ P, parseGraph g (GoCode.enumeratePatterns g) = .ok f := by
  unfold parseFuncs at h
  obtain ⟨cs, hcs, h⟩ := GoCode.ok_bind h
  obtain ⟨es, hes, h⟩ := GoCode.ok_bind h
  obtain ⟨gr, hgr, h⟩ := GoCode.ok_bind h
  cases h
  exact ⟨gr, by simp, hgr⟩

theorem parse_cases {g : Graph} {P : List Func} (h : parseFuncs g = .ok P) {f : Func} (hf : f ∈ P) :
    (∃ c ∈ g.classes, parseComposite g (GoCode.enumeratePatterns g) (.cls c.name) c.name true = .ok f) ∨
    (∃ e ∈ g.embeds, parseComposite g (GoCode.enumeratePatterns g) (.embed e.name) e.name false = .ok f) ∨
    parseGraph g (GoCode.enumeratePatterns g) = .ok f := by
  unfold parseFuncs at h
  obtain ⟨cs, hcs, h⟩ := GoCode.ok_bind h
  obtain ⟨es, hes, h⟩ := GoCode.ok_bind h
  obtain ⟨gr, hgr, h⟩ := GoCode.ok_bind h
  cases h
  rcases List.mem_append.1 hf with hf | hf
  · rcases List.mem_append.1 hf with hf | hf
    · exact .inl (mapM_mem' hcs f hf)
    · exact .inr (.inl (mapM_mem' hes f hf))
  · cases List.mem_singleton.1 hf
    exact .inr (.inr hgr)

theorem serialize_class {g : Graph} {S : List Func} (h : serializeFuncs g = .ok S) {c : Class} (hc : c ∈ g.classes) :
    ∃ f ∈ S, serializeComposite c.name c.properties = .ok f := by
  unfold serializeFuncs at h
  obtain ⟨cs, hcs, h⟩ := GoCode.ok_bind h
  obtain ⟨es, hes, h⟩ := GoCode.ok_bind h
  obtain ⟨gr, hgr, h⟩ := GoCode.ok_bind h
  cases h
  obtain ⟨f, hf, h⟩ := mapM_mem hc hcs
  exact ⟨f, by simp [hf], h⟩

theorem serialize_embed {g : Graph} {S : List Func} (h : serializeFuncs g = .ok S) {e : Embed} (he : e ∈ g.embeds) :
    ∃ f ∈ S, serializeComposite e.name e.properties = .ok f := by
  unfold serializeFuncs at h
  obtain ⟨cs, hcs, h⟩ := GoCode.ok_bind h
  obtain ⟨es, hes, h⟩ := GoCode.ok_bind h
  obtain ⟨gr, hgr, h⟩ := GoCode.ok_bind h
  cases h
  obtain ⟨f, hf, h⟩ := mapM_mem he hes
  exact ⟨f, by simp [hf], h⟩

theorem serialize_cases {g : Graph} {S : List Func} (h : serializeFuncs g = .ok S) {f : Func} (hf : f ∈ S) :
    (∃ c ∈ g.classes, serializeComposite c.name c.properties = .ok f) ∨
    (∃ e ∈ g.embeds, serializeComposite e.name e.properties = .ok f) ∨ serializeGraph g = .ok f := by
  unfold serializeFuncs at h
  obtain ⟨cs, hcs, h⟩ := GoCode.ok_bind h
  obtain ⟨es, hes, h⟩ := GoCode.ok_bind h
  obtain ⟨gr, hgr, h⟩ := GoCode.ok_bind h
  cases h
  rcases List.mem_append.1 hf with hf | hf
  · rcases List.mem_append.1 hf with hf | hf
    · exact .inl (mapM_mem' hcs f hf)
    · exact .inr (.inl (mapM_mem' hes f hf))
  · cases List.mem_singleton.1 hf
    exact .inr (.inr hgr)

/-! ## What is declared -/

theorem fields_nodup {g : Graph} (hf : GoFacts g) : ∀ d ∈ pureDefs g, (d.fields.map (·.1)).Nodup := by
  intro d hd
  simp only [pureDefs, List.mem_append, List.mem_map, List.mem_singleton] at hd
  have hn : ∀ ps : List Property, (ps.map pureField).map (·.1) = ps.map fun p => camel p.name := by
    intro ps; simp [pureField, Function.comp_def]
  rcases hd with (⟨e, he, rfl⟩ | ⟨c, hc, rfl⟩) | rfl
  · simp only [pureEmbed, hn]
    exact hf.embed e he
  · simp only [pureClass, List.map_cons, hn]
    exact List.nodup_cons.2 ⟨(hf.cls c hc).2, (hf.cls c hc).1⟩
  · simp only [pureGraph, List.map_append, hn]
    have : (g.classes.map pureRegistry).map (·.1) = g.classes.map fun c => camel c.plural := by simp [pureRegistry, Function.comp_def]
    rw [this]
    exact (List.perm_append_comm.nodup_iff).1 hf.graph

/-- The declarations of the package, which are distinct -/
structure Declared (g : Graph) (P S : List Func) : Prop where
  facts : GoFacts g
  nodup : ((pureDefs g).map (·.name)).Nodup
  errors : ∀ d ∈ pureDefs g, d.name ∉ [c!"Error", c!"Errors"]
  parse : parseFuncs g = .ok P
  serialize : serializeFuncs g = .ok S

section
variable {g : Graph} {P S : List Func} (D : Declared g P S)
include D

theorem Declared.struct {d : GoTypes.TypeDef} (hd : d ∈ pureDefs g) : (world g (pureDefs g) (P ++ S)).structs.lookup d.name = some d.fields := by
  refine lookup_of ?_ (List.mem_append_left _ (List.mem_map.2 ⟨d, hd, rfl⟩))
  simp only [world, List.map_append, List.map_map]
  rw [List.nodup_append]
  refine ⟨D.nodup, by simp, ?_⟩
  intro a ha b hb e
  subst e
  obtain ⟨d, hd, rfl⟩ := List.mem_map.1 ha
  exact D.errors d hd hb

theorem Declared.errorsStruct : ((world g (pureDefs g) (P ++ S)).structs.lookup c!"Errors").isSome = true := by
  have key : (world g (pureDefs g) (P ++ S)).structs.lookup c!"Errors" = some [] := by
    refine lookup_of ?_ (List.mem_append_right _ (by simp))
    simp only [world, List.map_append, List.map_map]
    rw [List.nodup_append]
    refine ⟨D.nodup, by simp, ?_⟩
    intro a ha b hb e
    subst e
    obtain ⟨d, hd, rfl⟩ := List.mem_map.1 ha
    exact D.errors d hd hb
  rw [key]
  rfl

theorem Declared.member {d : GoTypes.TypeDef} (hd : d ∈ pureDefs g) {f : Str} {t : GTy} (h : (f, t) ∈ d.fields) :
    member (world g (pureDefs g) (P ++ S)) (.ptr (.named d.name)) f = some t := by
  rw [GoCheck.member, D.struct hd, Option.bind_some]
  exact lookup_of (fields_nodup D.facts d hd) h

omit D in
theorem class_def {c : Class} (hc : c ∈ g.classes) : pureClass c ∈ pureDefs g := by
  simp only [pureDefs, List.mem_append, List.mem_map]
  exact .inl (.inr ⟨c, hc, rfl⟩)

omit D in
theorem embed_def {e : Embed} (he : e ∈ g.embeds) : pureEmbed e ∈ pureDefs g := by
  simp only [pureDefs, List.mem_append, List.mem_map]
  exact .inl (.inl ⟨e, he, rfl⟩)

omit D in
theorem graph_def : pureGraph g ∈ pureDefs g := by simp [pureDefs]

theorem Declared.idents : (idents g).Nodup := by
  have := D.nodup
  rw [GoTypes.names_pure] at this
  refine ((List.perm_append_comm).append (List.Perm.refl _)).nodup_iff.1 this

theorem Declared.camel {u : Str} (hu : u ∈ GoTyped.idents g) : GoCode.Camel u := by
  simp only [GoTyped.idents, List.mem_append, List.mem_map, List.mem_singleton] at hu
  rcases hu with (⟨c, hc, rfl⟩ | ⟨e, he, rfl⟩) | rfl
  · exact GoCode.camel_of (D.facts.names _ (class_name_mem hc))
  · exact GoCode.camel_of (D.facts.names _ (embed_name_mem he))
  · exact GoCode.camel_of (D.facts.names _ graph_name_mem)

theorem Declared.funcs_nodup : ((world g (pureDefs g) (P ++ S)).funcs.map (·.1)).Nodup := by
  have h1 : (world g (pureDefs g) (P ++ S)).funcs.map (·.1) = (GoTyped.idents g).map (· ++ c!"FromJSONable") ++
      (GoTyped.idents g).map (· ++ c!"ToJSONable") ++ (if needs g .duration then durationFuncs else []).map (·.1) := by
    rw [← parse_names D.parse, ← serialize_names D.serialize]
    simp [world, Func.sig, Function.comp_def]
  have hfor : ∀ d ∈ (if needs g .duration = true then durationFuncs else []).map (·.1), GoCode.Foreign d := by
    intro d hd
    refine GoCode.durationNames_foreign d ?_
    split at hd
    · simp only [durationFuncs, List.map_cons, List.map_nil, List.mem_cons, List.not_mem_nil, or_false] at hd
      rcases hd with rfl | rfl <;> decide
    · cases hd
  rw [h1, List.nodup_append, List.nodup_append]
  refine ⟨⟨GoCode.nodup_suffix D.idents, GoCode.nodup_suffix D.idents, ?_⟩, ?_, ?_⟩
  · intro a ha b hb
    obtain ⟨u, _, rfl⟩ := List.mem_map.1 ha
    obtain ⟨w, _, rfl⟩ := List.mem_map.1 hb
    exact GoCode.from_ne_to
  · split <;> decide
  · intro a ha b hb
    rcases List.mem_append.1 ha with ha | ha
    · obtain ⟨u, hu, rfl⟩ := List.mem_map.1 ha
      exact (D.camel hu).ne (by decide) (hfor b hb)
    · obtain ⟨u, hu, rfl⟩ := List.mem_map.1 ha
      exact (D.camel hu).ne (by decide) (hfor b hb)

theorem Declared.func {f : Func} (h : f ∈ P ++ S) {n : Str} {s : Sig} (hs : f.sig = (n, s)) :
    (world g (pureDefs g) (P ++ S)).funcs.lookup n = some s := by
  refine lookup_of D.funcs_nodup (List.mem_append_left _ (List.mem_map.2 ⟨f, h, hs⟩))

theorem Declared.duration (ho : Occurs g .duration) {n : Str} {s : Sig} (h : (n, s) ∈ durationFuncs) :
    (world g (pureDefs g) (P ++ S)).funcs.lookup n = some s := by
  refine lookup_of D.funcs_nodup (List.mem_append_right _ ?_)
  rw [(GoCode.needs_ty D.facts.named (q := .duration) (by decide) (by decide) (by decide)).2 ⟨_, ho, rfl⟩]
  exact h

theorem Declared.known : Known (world g (pureDefs g) (P ++ S)) g where
  add := rfl
  full := rfl
  empty := rfl
  regexp := rfl
  error := rfl
  pattern := by
    intro p hp
    obtain ⟨n, h1, h2⟩ := GoCode.lookup_mem (((GoCode.patterns_enumerated g).2.2 p).2 hp)
    refine ⟨n, by rw [patternName, h1], lookup_of ?_ (List.mem_map.2 ⟨_, h2, rfl⟩)⟩
    simp only [world, List.map_map]
    have := (GoCode.patterns_enumerated g).2.1
    rw [List.Nodup, List.pairwise_map] at this ⊢
    exact this.imp fun h e => h (by simpa using e)
  duration := fun h => D.duration h (by decide)
  names := fun n hn => D.facts.names n (List.mem_append_left _ (D.facts.occurs hn))
  structs := by
    rintro n (hn | hn)
    · obtain ⟨c, hc, rfl⟩ := D.facts.resolves.1 n hn
      rw [show GoTypes.camel c.name = (pureClass c).name from rfl, D.struct (class_def hc)]
      rfl
    · obtain ⟨c, hc, rfl⟩ := D.facts.resolves.2 n hn
      rw [show GoTypes.camel c.name = (pureEmbed c).name from rfl, D.struct (embed_def hc)]
      rfl
  embeds := by
    intro n refs hn hrefs
    obtain ⟨e, he, rfl⟩ := D.facts.resolves.2 n hn
    obtain ⟨f, hf, h⟩ := parse_embed D.parse he
    obtain ⟨refs', h1, h2⟩ := sig_parseComposite h
    rw [referencesOf, hrefs] at h1
    cases h1
    exact D.func (List.mem_append_left _ hf) h2

theorem Declared.graphKnown : GraphKnown (world g (pureDefs g) (P ++ S)) g where
  known := D.known
  errors := D.errorsStruct
  graph := by
    rw [show GoTypes.camel g.name = (pureGraph g).name from rfl, D.struct graph_def]
    rfl
  classes := by
    intro c hc
    rw [show GoTypes.camel c.name = (pureClass c).name from rfl, D.struct (class_def hc)]
    rfl
  fields := fun c hc => D.member graph_def (List.mem_append_left _ (List.mem_map.2 ⟨c, hc, rfl⟩))
  parses := by
    intro c hc refs hrefs
    obtain ⟨f, hf, h⟩ := parse_class D.parse hc
    obtain ⟨refs', h1, h2⟩ := sig_parseComposite h
    rw [hrefs] at h1
    cases h1
    exact D.func (List.mem_append_left _ hf) h2

theorem Declared.serKnown : SerKnown (world g (pureDefs g) (P ++ S)) g where
  format := rfl
  zone := rfl
  duration := fun h => D.duration h (by decide)
  ids := by
    intro n hn
    obtain ⟨c, hc, rfl⟩ := D.facts.resolves.1 n hn
    exact D.member (class_def hc) (by simp [pureClass])
  embeds := by
    intro n hn
    obtain ⟨e, he, rfl⟩ := D.facts.resolves.2 n hn
    obtain ⟨f, hf, h⟩ := serialize_embed D.serialize he
    exact D.func (List.mem_append_right _ hf) (sig_serializeComposite h)
  graph := D.graphKnown.graph
  classIds := fun c hc => D.member (class_def hc) (by simp [pureClass])
  fields := D.graphKnown.fields
  writes := by
    intro c hc
    obtain ⟨f, hf, h⟩ := serialize_class D.serialize hc
    exact D.func (List.mem_append_right _ hf) (sig_serializeComposite h)

/-! ## The functions -/

omit D in
theorem props_class (hn : Named g) {c : Class} (hc : c ∈ g.classes) : ownerProps g (.cls c.name) = c.properties := by
  rw [ownerProps, Graph.cls?, find_unique Class.name hn.classes hc]
  rfl

omit D in
theorem props_embed (hn : Named g) {e : Embed} (he : e ∈ g.embeds) : ownerProps g (.embed e.name) = e.properties := by
  rw [ownerProps, Graph.embed?, find_unique Embed.name hn.embeds he]
  rfl

/-- The functions are accepted if and only if the constants are representable. -/
theorem accepted_iff (hd : GoCode.PluralsDistinct g) :
    (∀ f ∈ P ++ S, f.ok (world g (pureDefs g) (P ++ S)) sameName = true) ↔
      (∀ c ∈ g.classes, ∀ p ∈ c.properties, boundsOk p.ty = true) ∧ (∀ e ∈ g.embeds, ∀ p ∈ e.properties, boundsOk p.ty = true) ∧
      ∀ p ∈ g.properties, boundsOk p.ty = true := by
  have K := D.graphKnown
  have K' := D.serKnown
  have hcls : ∀ c ∈ g.classes, ∀ f, parseComposite g (GoCode.enumeratePatterns g) (.cls c.name) c.name true = .ok f →
      f.ok (world g (pureDefs g) (P ++ S)) sameName = c.properties.all fun p => boundsOk p.ty := by
    intro c hc f h
    have hp := props_class D.facts.named hc
    have := ok_parseComposite K.known hd (K.classes c hc) K.errors K.classes (fun _ => K'.classIds c hc)
      (by rw [hp]; exact D.facts.fields.1 c hc)
      (by rw [hp]; exact fun p hp => D.member (class_def hc) (List.mem_cons_of_mem _ (List.mem_map.2 ⟨p, hp, rfl⟩)))
      (by rw [hp]; exact fun p hp u hu => .cls c p hc hp hu) h
    rw [hp] at this
    exact this
  have hemb : ∀ c ∈ g.embeds, ∀ f, parseComposite g (GoCode.enumeratePatterns g) (.embed c.name) c.name false = .ok f →
      f.ok (world g (pureDefs g) (P ++ S)) sameName = c.properties.all fun p => boundsOk p.ty := by
    intro c hc f h
    have hp := props_embed D.facts.named hc
    have hst : ((world g (pureDefs g) (P ++ S)).structs.lookup (GoTypes.camel c.name)).isSome = true := by
      rw [show GoTypes.camel c.name = (pureEmbed c).name from rfl, D.struct (embed_def hc)]
      rfl
    have := ok_parseComposite K.known hd hst K.errors K.classes (by simp)
      (by rw [hp]; exact D.facts.fields.2.1 c hc)
      (by rw [hp]; exact fun p hp => D.member (embed_def hc) (List.mem_map.2 ⟨p, hp, rfl⟩))
      (by rw [hp]; exact fun p hp u hu => .embed c p hc hp hu) h
    rw [hp] at this
    exact this
  have hgm : ∀ p ∈ g.properties, GoCheck.member (world g (pureDefs g) (P ++ S)) (.ptr (.named (GoTypes.camel g.name))) (GoTypes.camel p.name) =
      some (pureField p).2 := fun p hp => D.member graph_def (List.mem_append_right _ (List.mem_map.2 ⟨p, hp, rfl⟩))
  have hgr : ∀ f, parseGraph g (GoCode.enumeratePatterns g) = .ok f →
      f.ok (world g (pureDefs g) (P ++ S)) sameName = g.properties.all fun p => boundsOk p.ty := fun f h =>
    ok_parseGraph K D.facts.fields.2.2 hgm (fun p hp u hu => .graph p hp hu) h
  constructor
  · intro h
    refine ⟨fun c hc => ?_, fun c hc => ?_, ?_⟩
    · obtain ⟨f, hf, hp⟩ := parse_class D.parse hc
      exact List.all_eq_true.1 ((hcls c hc f hp).symm.trans (h f (List.mem_append_left _ hf)))
    · obtain ⟨f, hf, hp⟩ := parse_embed D.parse hc
      exact List.all_eq_true.1 ((hemb c hc f hp).symm.trans (h f (List.mem_append_left _ hf)))
    · obtain ⟨f, hf, hp⟩ := parse_graph D.parse
      exact List.all_eq_true.1 ((hgr f hp).symm.trans (h f (List.mem_append_left _ hf)))
  · rintro ⟨h1, h2, h3⟩ f hf
    rcases List.mem_append.1 hf with hf | hf
    · rcases parse_cases D.parse hf with ⟨c, hc, h⟩ | ⟨c, hc, h⟩ | h
      · rw [hcls c hc f h]
        exact List.all_eq_true.2 (h1 c hc)
      · rw [hemb c hc f h]
        exact List.all_eq_true.2 (h2 c hc)
      · rw [hgr f h]
        exact List.all_eq_true.2 h3
    · rcases serialize_cases D.serialize hf with ⟨c, hc, h⟩ | ⟨c, hc, h⟩ | h
      · exact ok_serializeComposite K' (K.classes c hc) (fun p hp u hu => .cls c p hc hp hu)
          (fun p hp => D.member (class_def hc) (List.mem_cons_of_mem _ (List.mem_map.2 ⟨p, hp, rfl⟩))) h
      · have hst : ((world g (pureDefs g) (P ++ S)).structs.lookup (GoTypes.camel c.name)).isSome = true := by
          rw [show GoTypes.camel c.name = (pureEmbed c).name from rfl, D.struct (embed_def hc)]
          rfl
        exact ok_serializeComposite K' hst (fun p hp u hu => .embed c p hc hp hu)
          (fun p hp => D.member (embed_def hc) (List.mem_map.2 ⟨p, hp, rfl⟩)) h
      · exact ok_serializeGraph K' (fun p hp u hu => .graph p hp hu) hgm h

end

/-! ## The constants -/

/-- The bounds of a type itself are representable. -/
def boundsHold : Ty → Prop
  | .integer b => ∀ i, b.min = some i ∨ b.max = some i → represents .int64 i = true
  | .float b => ∀ i, b.min = some i ∨ b.max = some i → represents .float64 i = true
  | .array _ lo hi => ∀ i, lo = some i ∨ hi = some i → represents .int i = true
  | _ => True

theorem bounds_iff (t : GTy) (a b : Option Int) : (boundOk t a && boundOk t b) = true ↔
    ∀ i, a = some i ∨ b = some i → represents t i = true := by
  have h : ∀ a, boundOk t a = true ↔ ∀ i, a = some i → represents t i = true := by
    intro a
    cases a <;> simp [boundOk]
  rw [Bool.and_eq_true, h, h]
  exact ⟨fun h i hi => hi.elim (h.1 i) (h.2 i), fun h => ⟨fun i hi => h i (.inl hi), fun i hi => h i (.inr hi)⟩⟩

/-- The bounds which occur in a type are representable. -/
theorem boundsOk_iff : (t : Ty) → (boundsOk t = true ↔ ∀ u ∈ parts t, boundsHold u)
  | .integer b => by simpa [boundsOk, parts, boundsHold] using bounds_iff .int64 b.min b.max
  | .float b => by simpa [boundsOk, parts, boundsHold] using bounds_iff .float64 b.min b.max
  | .array t lo hi => by
    have ih := boundsOk_iff t
    have := bounds_iff .int lo hi
    rw [boundsOk, ← Bool.and_assoc, Bool.and_eq_true, this, ih]
    simp [parts, boundsHold]
  | .map t => by
    have ih := boundsOk_iff t
    rw [boundsOk, ih]
    simp [parts, boundsHold]
  | .boolean => by simp [boundsOk, parts, boundsHold]
  | .string _ => by simp [boundsOk, parts, boundsHold]
  | .path _ => by simp [boundsOk, parts, boundsHold]
  | .date _ => by simp [boundsOk, parts, boundsHold]
  | .time _ => by simp [boundsOk, parts, boundsHold]
  | .datetime _ => by simp [boundsOk, parts, boundsHold]
  | .duration => by simp [boundsOk, parts, boundsHold]
  | .timeZone => by simp [boundsOk, parts, boundsHold]
  | .cls _ => by simp [boundsOk, parts, boundsHold]
  | .embed _ => by simp [boundsOk, parts, boundsHold]

end Mapry.GoTyped
