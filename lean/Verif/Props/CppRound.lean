import Verif.Props.CppParse
import Verif.Props.Duration

/-! # C54, C55, C56: the round trip of the generated C++ code, the target of the parser and the names of the fields -/

namespace Mapry.Props.Cpp

open Mapry.Duration Mapry.CppRuntime Mapry.CppRuntime.Spec Mapry.LangValidate

/-! ## C54 -/

/-- The libraries read back the times and the time zones which they write. -/
structure Reliable (L : Lib) : Prop where
  ctime : ∀ f s t, L.strptime f s = some (t, []) → L.strptime f (if f = [] then [] else L.strftime f t) = some (t, [])
  nul : ∀ f t, Char.ofNat 0 ∉ L.strftime f t
  date : ∀ k f s t rest, L.dateParse k f s = some (t, rest) →
    L.dateParse k f (if f = [] then [] else L.dateFormat k f t) = some (t, [])
  zone : ∀ s z, L.locateZone s = some z → L.locateZone z = some z

/-- The full property: a graph which satisfies the schema is serialized, and read back without an error. -/
def C54Full : Prop := ∀ (D : DateLib) (L : Lib) (g : Graph) (n : Nat) (gv : GraphVal) (ref : Str) (cap : Nat),
  Reliable L → validateSchema cpp g = .ok [] → ValidGraph g D L n gv → 0 < cap →
  ∃ v, serGraph D L g n gv = .ok v ∧ Accepts D L g n v ref (newGraph g) cap gv

section

variable (D : DateLib) (L : Lib) (g : Graph) (n : Nat) (gv : GraphVal)

/-- **C54 (partial).** The graph is read back if: no names of JSON members clash; in every structure something is
set, the texts of the times fit into the buffer and are read back, and no duration is the least one
(`FaithfulGraph`); the uninitialised variable happens to be false; the bounds of floats are exact; no names have
capital letters. -/
theorem C54_round_trip_partial (ref : Str) (cap : Nat) (hg : validateSchema cpp g = .ok []) (hl : LowerNames g)
    (hs : SoundGraph g) (hG : NoGarbage L) (hJ : JsonKeys g) (hv : ValidGraph g D L n gv)
    (hf : FaithfulGraph g D L n gv) (hcap : 0 < cap) :
    ∃ v, serGraph D L g n gv = .ok v ∧ Canon v ∧ Accepts D L g n v ref (newGraph g) cap gv := by
  obtain ⟨v, h1, h2, h3⟩ := ser_graph (D := D) (L := L) (compiles_of_valid hg hl) hJ n gv hv hf
  exact ⟨v, h1, h2, (C52_accepts_partial D L g n ref cap v hg hl hs hG hcap h2 gv).2 h3⟩

/-- What has been read and is faithful is written and read back again. -/
theorem C54_stable_partial (ref : Str) (cap : Nat) (v : JVal) (hg : validateSchema cpp g = .ok []) (hl : LowerNames g)
    (hs : SoundGraph g) (hG : NoGarbage L) (hJ : JsonKeys g) (hv : Canon v)
    (h : Accepts D L g n v ref (newGraph g) cap gv) (hf : FaithfulGraph g D L n gv) (hcap : 0 < cap) :
    ∃ w, serGraph D L g n gv = .ok w ∧ Accepts D L g n w ref (newGraph g) cap gv := by
  obtain ⟨w, h1, _, h2⟩ := C54_round_trip_partial D L g n gv ref cap hg hl hs hG hJ
    (C52_valid_partial D L g n ref cap v hg hl hs hG hcap hv gv h) hf hcap
  exact ⟨w, h1, h2⟩

/-- A reliable library reads back a time if its text fits into the buffer. -/
theorem C54_readsBack (h : Reliable L) (k : TimeKind) (f s : Str) (t : Time) (hl : Loose D L k f s t)
    (hc : D = .ctime → f = [] ∨ (L.strftime f t ≠ [] ∧ bytes (L.strftime f t) < 4 * bytes f)) : ReadsBack D L k f t := by
  cases D with
  | ctime =>
    obtain ⟨s', rest, _, _, _, h1⟩ := hl
    have h2 := h.ctime f s' t h1
    rcases hc rfl with rfl | ⟨h3, h4⟩
    · exact ⟨[], .inl ⟨rfl, rfl⟩, [], [], rfl, by simp, .inl rfl, h2⟩
    · have hf : f ≠ [] := by
        rintro rfl
        simp [bytes] at h4
      rw [if_neg hf] at h2
      exact ⟨L.strftime f t, .inr ⟨hf, rfl, h3, h4⟩, L.strftime f t, [], by simp, h.nul f t, .inl rfl, h2⟩
  | dateH =>
    obtain ⟨rest, h1⟩ := hl
    have h2 := h.date k f s t rest h1
    by_cases hf : f = []
    · subst hf
      exact ⟨[], .inl ⟨rfl, rfl⟩, [], h2⟩
    · rw [if_neg hf] at h2
      exact ⟨_, .inr ⟨hf, rfl⟩, [], h2⟩

end

/-! ### The example -/

theorem demo_reliable : Reliable Demo.lib where
  ctime f s t h := by
    simp only [Demo.lib, Option.ite_none_right_eq_some] at h ⊢
    obtain ⟨⟨rfl, rfl⟩, h⟩ := h
    exact ⟨by decide, h⟩
  nul f t := by
    simp only [Demo.lib]
    split <;> decide
  date k f s t rest h := by
    simp only [Demo.lib, Option.ite_none_right_eq_some] at h ⊢
    obtain ⟨⟨rfl, h1⟩, h⟩ := h
    simp only [Option.some.injEq, Prod.mk.injEq] at h
    exact ⟨by decide, by rw [← h.1]; decide⟩
  zone s z h := by
    simp only [Demo.lib, Option.ite_none_right_eq_some] at h ⊢
    obtain ⟨rfl, h⟩ := h
    cases h
    simp

namespace Example

theorem schema_keys : JsonKeys Demo.schema := by constructor <;> decide +kernel

theorem date_back : ReadsBack .ctime Demo.lib .date c!"%Y-%m-%d" { year := 2020, month := 1, day := 2 } :=
  C54_readsBack .ctime Demo.lib demo_reliable .date _ c!"2020-01-02" _
    ⟨c!"2020-01-02", [], rfl, by decide, .inl rfl, by decide⟩ (fun _ => .inr (by decide))

theorem demo_faithful : FaithfulGraph Demo.schema .ctime Demo.lib 3 Demo.value where
  registries := by
    simp only [PyRuntime.Demo.schema, List.forall_mem_cons, List.not_mem_nil, false_imp_iff, implies_true, and_true]
    intro r hr
    cases hr
    simp only [List.forall_mem_cons, List.not_mem_nil, false_imp_iff, implies_true, and_true]
    refine ⟨⟨?_, .inr ⟨_, List.mem_cons_self, _, rfl, by decide⟩⟩, ?_, .inr ⟨_, List.mem_cons_self, _, rfl, by decide⟩⟩
    all_goals
      simp only [FaithfulProps, List.forall_mem_cons, List.not_mem_nil, false_imp_iff, implies_true, and_true]
      refine ⟨fun x _ => trivial, fun x _ => trivial, fun x hx => ?_, fun x _ => trivial⟩
      cases hx
      intro t ht
      cases ht
    exact date_back
  fields := by
    simp only [PyRuntime.Demo.schema, FaithfulProps, List.forall_mem_cons, List.not_mem_nil, false_imp_iff, implies_true,
      and_true]
    refine ⟨fun x hx => ?_, fun x hx => ?_, fun x hx => ?_⟩
    · cases hx
      intro vs hvs
      cases hvs
      simp only [List.forall_mem_cons, List.not_mem_nil, false_imp_iff, implies_true, and_true]
      constructor
      all_goals
        intro e fields he hx
        cases he
        cases hx
        refine ⟨?_, .inr ⟨_, List.mem_cons_self, _, rfl, by decide⟩⟩
        simp only [FaithfulProps, List.forall_mem_cons, List.not_mem_nil, false_imp_iff, implies_true, and_true]
        exact ⟨fun x _ => trivial, fun x _ => trivial⟩
    · cases hx
      intro kvs hk kv hkv
      trivial
    · cases hx
      intro d hd
      cases hd
      decide
  shown := .inr (.inl ⟨_, List.mem_cons_self, _, rfl, by decide⟩)

example : ∃ v, serGraph .ctime Demo.lib Demo.schema 3 Demo.value = .ok v ∧ Canon v ∧
    Accepts .ctime Demo.lib Demo.schema 3 v c!"#" (newGraph Demo.schema) 5 Demo.value :=
  C54_round_trip_partial .ctime Demo.lib Demo.schema 3 Demo.value c!"#" 5 schema_valid schema_lower schema_sound
    Demo.lib_garbage schema_keys demo_valid demo_faithful (by decide)

end Example

/-! ### Violations -/

theorem single_valid {ty : Ty} {optional : Bool} {D : DateLib} {L : Lib} {n : Nat} {x : Val}
    (h : Fits (Demo.single ty optional) D L (Registered ⟨[(c!"it", x)], []⟩) n ty x) :
    ValidGraph (Demo.single ty optional) D L n ⟨[(c!"it", x)], []⟩ :=
  ⟨.nil, .cons ⟨rfl, .inr h⟩ .nil⟩

/-- A structure of which nothing is set becomes null, which is no object to the parser. -/
theorem C54_violated_unset : ¬ C54Full := by
  intro h
  obtain ⟨v, h1, e, h2, h3⟩ := h .ctime Demo.lib Demo.nested 1 ⟨[(c!"inner", .obj c!"Inner" [(c!"it", .nil)])], []⟩ [] 5
    demo_reliable (by decide +kernel)
    ⟨.nil, .cons ⟨rfl, .inr ⟨_, _, rfl, rfl, .cons ⟨rfl, .inl ⟨rfl, rfl⟩⟩ .nil⟩⟩ .nil⟩ (by decide)
  have hs : serGraph .ctime Demo.lib Demo.nested 1 ⟨[(c!"inner", .obj c!"Inner" [(c!"it", .nil)])], []⟩ =
    .ok (.obj [(c!"inner", .null)]) := rfl
  rw [hs] at h1
  cases h1
  have h4 : (parseGraph .ctime Demo.lib Demo.nested 1 (.obj [(c!"inner", .null)]) [] (newGraph Demo.nested) (.new 5)).map
      (fun r => r.2.values) = .ok [] := by
    rw [h2, ← h3]; rfl
  exact absurd h4 (by decide +kernel)

/-- So does a graph without properties and instances. -/
theorem C54_violated_empty : ¬ C54Full := by
  intro h
  obtain ⟨v, h1, e, h2, h3⟩ := h .ctime Demo.lib (Demo.registry none) 1 ⟨[], [(c!"Some", [])]⟩ [] 5 demo_reliable
    (by decide +kernel) ⟨.cons ⟨rfl, by simp [GoMap.Ascending], (fun _ h => by cases h)⟩ .nil, .nil⟩ (by decide)
  have hs : serGraph .ctime Demo.lib (Demo.registry none) 1 ⟨[], [(c!"Some", [])]⟩ = .ok .null := rfl
  rw [hs] at h1
  cases h1
  have h4 : (parseGraph .ctime Demo.lib (Demo.registry none) 1 .null [] (newGraph (Demo.registry none)) (.new 5)).map
      (fun r => r.2.values) = .ok [] := by
    rw [h2, ← h3]; rfl
  exact absurd h4 (by decide +kernel)

/-- The least duration can not be serialized. -/
theorem C54_violated_least : ¬ C54Full := by
  intro h
  obtain ⟨v, h1, _⟩ := h .ctime Demo.lib (Demo.single .duration) 1 ⟨[(c!"it", .duration minInt64)], []⟩ [] 5 demo_reliable
    (by decide +kernel) (single_valid ⟨_, rfl, by decide⟩) (by decide)
  have h4 : (serGraph .ctime Demo.lib (Demo.single .duration) 1 ⟨[(c!"it", .duration minInt64)], []⟩).map (fun _ => ()) =
      .ok () := by
    rw [h1]; rfl
  exact absurd h4 (by decide +kernel)

/-- A library with `%c`, of which the text is much longer than the format -/
def longLib : Lib := { Demo.lib with
  strptime := fun f s => if f = c!"%c" ∧ s = c!"Thu Jan  2 00:00:00 2020" then
    some ({ year := 2020, month := 1, day := 2 }, []) else none
  strftime := fun f _ => if f = c!"%c" then c!"Thu Jan  2 00:00:00 2020" else [] }

theorem long_reliable : Reliable longLib where
  ctime f s t h := by
    simp only [longLib, Option.ite_none_right_eq_some] at h ⊢
    obtain ⟨⟨rfl, rfl⟩, h⟩ := h
    exact ⟨by decide, h⟩
  nul f t := by
    simp only [longLib]
    split <;> decide
  date := demo_reliable.date
  zone := demo_reliable.zone

/-- A text which does not fit into four times the length of the format can not be serialized. -/
theorem C54_violated_buffer : ¬ C54Full := by
  intro h
  obtain ⟨v, h1, _⟩ := h .ctime longLib (Demo.single (.date c!"%c")) 1
    ⟨[(c!"it", .time { year := 2020, month := 1, day := 2 })], []⟩ [] 5 long_reliable (by decide +kernel)
    (single_valid ⟨_, _, ⟨c!"Thu Jan  2 00:00:00 2020", [], rfl, by decide, .inl rfl, by decide⟩, rfl⟩) (by decide)
  have h4 : (serGraph .ctime longLib (Demo.single (.date c!"%c")) 1
      ⟨[(c!"it", .time { year := 2020, month := 1, day := 2 })], []⟩).map (fun _ => ()) = .ok () := by
    rw [h1]; rfl
  exact absurd h4 (by decide +kernel)

/-- If the uninitialised variable happens to be true, no duration is read back. -/
theorem C54_violated_uninitialised : ¬ C54Full := by
  intro h
  obtain ⟨v, h1, e, h2, h3⟩ := h .ctime { Demo.lib with garbage := fun _ => true } (Demo.single .duration) 1
    ⟨[(c!"it", .duration 1000000000)], []⟩ [] 5 ⟨demo_reliable.ctime, demo_reliable.nul, demo_reliable.date,
    demo_reliable.zone⟩ (by decide +kernel) (single_valid ⟨_, rfl, by decide⟩) (by decide)
  have hs : serGraph .ctime { Demo.lib with garbage := fun _ => true } (Demo.single .duration) 1
    ⟨[(c!"it", .duration 1000000000)], []⟩ = .ok (.obj [(c!"it", .str c!"PT1S")]) := by
    have : cppToString 1000000000 = some c!"PT1S" := by decide +kernel
    simp [serGraph, serProps, Demo.single, serTy, this, bind, Except.bind, putMember, serRegistries, List.lookup]
  rw [hs] at h1
  cases h1
  have h4 : (parseGraph .ctime { Demo.lib with garbage := fun _ => true } (Demo.single .duration) 1
    (.obj [(c!"it", .str c!"PT1S")]) [] (newGraph (Demo.single .duration)) (.new 5)).map (fun r => r.2.values) = .ok [] := by
    rw [h2, ← h3]; rfl
  exact absurd h4 (by decide +kernel)

/-- Two properties with the same name in JSON -/
def clashing : Graph where
  ref := []
  name := c!"Single"
  classes := []
  embeds := []
  properties := [{ name := c!"a", ty := .boolean, json := c!"x" }, { name := c!"b", ty := .boolean, json := c!"x" }]

/-- The second of them overwrites the first one. -/
theorem C54_violated_clash : ¬ C54Full := by
  intro h
  obtain ⟨v, h1, e, h2, h3⟩ := h .ctime Demo.lib clashing 1 ⟨[(c!"a", .bool true), (c!"b", .bool false)], []⟩ [] 5
    demo_reliable (by decide +kernel) ⟨.nil, .cons ⟨rfl, .inr ⟨_, rfl⟩⟩ (.cons ⟨rfl, .inr ⟨_, rfl⟩⟩ .nil)⟩ (by decide)
  have hs : serGraph .ctime Demo.lib clashing 1 ⟨[(c!"a", .bool true), (c!"b", .bool false)], []⟩ =
    .ok (.obj [(c!"x", .bool false)]) := rfl
  rw [hs] at h1
  cases h1
  have h4 : (parseGraph .ctime Demo.lib clashing 1 (.obj [(c!"x", .bool false)]) [] (newGraph clashing) (.new 5)).map
      (fun r => r.1.fields) = .ok [(c!"a", .bool true), (c!"b", .bool false)] := by
    rw [h2]; rfl
  exact absurd h4 (by decide +kernel)

/-! ## C55 -/

/-- The full property: the old contents of the target do not matter. -/
def C55Full : Prop := ∀ (D : DateLib) (L : Lib) (g : Graph) (n : Nat) (v : JVal) (ref : Str) (cap : Nat)
  (target gv : GraphVal), validateSchema cpp g = .ok [] → DefinedGraph g → Canon v → 0 < cap →
  ValidGraph g D L n target → Accepts D L g n v ref (newGraph g) cap gv → Accepts D L g n v ref target cap gv

section

variable (D : DateLib) (L : Lib) (g : Graph) (n : Nat) (v : JVal) (ref : Str) (cap : Nat) (target gv : GraphVal)

/-- **C55 (partial).** The old contents do not matter if the registries of the target, its maps and its optional
properties are empty. -/
theorem C55_clean_partial (hg : validateSchema cpp g = .ok []) (hl : LowerNames g) (hs : SoundGraph g)
    (hG : NoGarbage L) (hv : Canon v) (hcap : 0 < cap) (ht : CleanGraph g n target) :
    Accepts D L g n v ref target cap gv ↔ Accepts D L g n v ref (newGraph g) cap gv :=
  (accepts_of_outcome (outcome_graph D L g n hG hs (compiles_of_valid hg hl) v hv ref _ ht cap hcap) gv).trans
    (accepts_of_outcome (outcome_graph D L g n hG hs (compiles_of_valid hg hl) v hv ref _ (clean_newGraph g n) cap
      hcap) gv).symm

/-- There are no maps. -/
def PlainTy : Ty → Prop
  | .array t _ _ => PlainTy t
  | .map _ => False
  | _ => True

/-- There are no classes, no optional properties and no maps. -/
structure Plain (g : Graph) : Prop where
  classes : g.classes = []
  graph : ∀ p ∈ g.properties, p.optional = false ∧ PlainTy p.ty
  embed : ∀ e ∈ g.embeds, ∀ p ∈ e.properties, p.optional = false ∧ PlainTy p.ty

variable {D L g n} in
theorem clean_of_fits {registered : Str → Str → Prop} {fits : Str → Val → Prop} {clean : Str → Val → Prop}
    (h : ∀ name x, fits name x → clean name x) (t : Ty) (x : Val) (hp : PlainTy t)
    (hx : FitsTy D L registered fits t x) : CleanTy clean t x := by
  induction t generalizing x with
  | array t lo hi ih =>
    obtain ⟨vs, rfl, _, h2⟩ := hx
    intro ws hw v hv
    cases hw
    exact ih v hp (h2 v hv)
  | map t ih => exact absurd hp id
  | embed name => exact h name x hx
  | _ => trivial

variable {D L g n} in
theorem cleanProps_of_fits {fits clean : Ty → Val → Prop} {ps : List Property} {fields : CppRuntime.Fields}
    (hp : ∀ p ∈ ps, p.optional = false ∧ PlainTy p.ty) (h : ∀ t x, PlainTy t → fits t x → clean t x)
    (hf : FitsProps fits ps fields) : CleanProps clean ps fields := by
  unfold FitsProps at hf
  unfold CleanProps
  refine GoRuntime.forall₂_imp_mem (fun p f hm _ hpf => ⟨hpf.1, ?_, fun _ => ?_⟩) hf
  · intro ho
    rw [(hp p hm).1] at ho
    cases ho
  · rcases hpf.2 with ⟨ho, _⟩ | h1
    · rw [(hp p hm).1] at ho
      cases ho
    · exact h _ _ (hp p hm).2 h1

variable {D L g n} in
theorem cleanEmbed_of_fits {registered : Str → Str → Prop} (hp : Plain g) :
    ∀ n name x, FitsEmbed g D L registered n name x → CleanEmbed g n name x := by
  intro n
  induction n with
  | zero => intro name x h; exact absurd h id
  | succ n ih =>
    rintro name x ⟨e, fields, h1, rfl, h3⟩ e' he' k fields' hx
    cases hx
    rw [h1] at he'
    cases he'
    exact cleanProps_of_fits (hp.embed e (embed_mem h1)) (clean_of_fits ih) h3

/-- Without classes, optional properties and maps, every graph may be reused as a target. -/
theorem C55_plain_partial (hg : validateSchema cpp g = .ok []) (hl : LowerNames g) (hs : SoundGraph g)
    (hp : Plain g) (hG : NoGarbage L) (hv : Canon v) (hcap : 0 < cap) (ht : ValidGraph g D L n target) :
    Accepts D L g n v ref target cap gv ↔ Accepts D L g n v ref (newGraph g) cap gv := by
  refine C55_clean_partial D L g n v ref cap target gv hg hl hs hG hv hcap ⟨?_, ?_⟩
  · have h1 := ht.registries
    rw [hp.classes] at h1 ⊢
    generalize target.registries = rs at h1 ⊢
    cases h1
    rfl
  · exact cleanProps_of_fits hp.graph (clean_of_fits (cleanEmbed_of_fits hp n)) ht.fields

end

/-! ### Violations and examples -/

section

variable {D : DateLib} {L : Lib} {g : Graph} {n : Nat} {v : JVal} {ref : Str} {target : GraphVal} {cap : Nat}

/-- The result, if there is one, is the only one. -/
theorem accepts_result {gv gv' : GraphVal} (h : Accepts D L g n v ref target cap gv)
    (h' : (parseGraph D L g n v ref target (.new cap)).map (·.1) = .ok gv') : gv = gv' := by
  obtain ⟨e, h1, _⟩ := h
  rw [h1] at h'
  exact Except.ok.inj h'

end

/-- An optional property which is not in the input keeps its value. -/
theorem C55_violated_optional : ¬ C55Full := by
  intro h
  have h1 := h .ctime Demo.lib (Demo.single .boolean true) 1 (.obj []) [] 5 ⟨[(c!"it", .bool true)], []⟩
    ⟨[(c!"it", .nil)], []⟩ (by decide +kernel) (single_defined trivial) (.obj _ .nil (fun _ h => by cases h)) (by decide)
    (single_valid ⟨_, rfl⟩) ⟨.new 5, by decide +kernel, rfl⟩
  exact absurd (accepts_result h1 (gv' := ⟨[(c!"it", .bool true)], []⟩) (by decide +kernel)) (by decide)

/-- The entries of a map stay. -/
theorem C55_violated_map : ¬ C55Full := by
  intro h
  have h1 := h .ctime Demo.lib (Demo.single (.map .boolean)) 1 (.obj [(c!"it", .obj [(c!"a", .bool true)])]) [] 5
    ⟨[(c!"it", .map [(c!"b", .bool false)])], []⟩ ⟨[(c!"it", .map [(c!"a", .bool true)])], []⟩ (by decide +kernel)
    (single_defined trivial) (by simp [canon_obj, canon_bool, GoMap.Ascending]) (by decide)
    (single_valid ⟨_, rfl, by simp [GoMap.Ascending], by simp; exact ⟨_, rfl⟩⟩) ⟨.new 5, by decide +kernel, rfl⟩
  exact absurd (accepts_result h1 (gv' := ⟨[(c!"it", .map [(c!"a", .bool true), (c!"b", .bool false)])], []⟩)
    (by decide +kernel)) (by decide)

/-- So do the instances. -/
theorem C55_violated_registry : ¬ C55Full := by
  intro h
  have h1 := h .ctime Demo.lib (Demo.registry none) 3 (.obj [(c!"somes", .obj [(c!"x", .obj [])])]) [] 5
    ⟨[], [(c!"Some", [(c!"y", ⟨c!"y", []⟩)])]⟩ ⟨[], [(c!"Some", [(c!"x", ⟨c!"x", []⟩)])]⟩ (by decide +kernel)
    ⟨by simp [Demo.registry], by simp [Demo.registry], by simp [Demo.registry]⟩
    (by simp [canon_obj, GoMap.Ascending]) (by decide)
    ⟨.cons ⟨rfl, by simp [GoMap.Ascending], by
      simp only [List.forall_mem_cons, List.not_mem_nil, false_imp_iff, implies_true, and_true]
      exact ⟨trivial, (fun p hp => by cases hp), .nil⟩⟩ .nil, .nil⟩ ⟨.new 5, by decide +kernel, rfl⟩
  exact absurd (accepts_result h1
    (gv' := ⟨[], [(c!"Some", [(c!"x", ⟨c!"x", []⟩), (c!"y", ⟨c!"y", []⟩)])]⟩) (by decide +kernel)) (by decide)

namespace Example

/-- A graph with a list of structures -/
def plain : Graph where
  ref := []
  name := c!"Single"
  classes := []
  embeds := [{ name := c!"Inner", ref := [], properties := [{ name := c!"it", ty := .boolean, json := c!"it" }] }]
  properties := [{ name := c!"inners", ty := .array (.embed c!"Inner") none none, json := c!"inners" }]

/-- Two structures in the target, one in the input -/
example : Accepts .dateH Demo.lib plain 2 (.obj [(c!"inners", .arr [.obj [(c!"it", .bool true)]])]) []
    ⟨[(c!"inners", .list [.obj c!"Inner" [(c!"it", .bool false)], .obj c!"Inner" [(c!"it", .bool false)]])], []⟩ 1
    ⟨[(c!"inners", .list [.obj c!"Inner" [(c!"it", .bool true)]])], []⟩ := by
  refine (C55_plain_partial .dateH Demo.lib plain 2 _ [] 1 _ _ (by decide +kernel) ?_ ?_ ?_ Demo.lib_garbage ?_
    (by decide) ?_).2 ⟨.new 1, by decide +kernel, rfl⟩
  · constructor <;> decide
  · constructor
    · simp only [plain, List.forall_mem_cons, List.not_mem_nil, false_imp_iff, implies_true, and_true]
      exact ⟨_, rfl⟩
    · simp [plain]
    · simp [plain, SoundTy]
  · constructor
    · rfl
    · simp [plain, PlainTy]
    · simp [plain, PlainTy]
  · simp [canon_obj, canon_arr, canon_bool, GoMap.Ascending]
  · refine ⟨.nil, .cons ⟨rfl, .inr ⟨_, rfl, ⟨(fun m hm => by cases hm), (fun m hm => by cases hm)⟩, ?_⟩⟩ .nil⟩
    simp only [List.forall_mem_cons, List.not_mem_nil, false_imp_iff, implies_true, and_true]
    exact ⟨⟨_, _, rfl, rfl, .cons ⟨rfl, .inr ⟨_, rfl⟩⟩ .nil⟩, ⟨_, _, rfl, rfl, .cons ⟨rfl, .inr ⟨_, rfl⟩⟩ .nil⟩⟩

end Example

/-! ## C56 -/

/-- The fields declared in the generated structure -/
def declared (ps : List Property) : List Str := (zeroFields ps).map (·.1)

/-- The composites of the schema by their properties -/
def composites (g : Graph) : List (List Property) :=
  g.properties :: (g.classes.map (·.properties) ++ g.embeds.map (·.properties))

/-- The full property: in every composite the fields which the parser and the serializer name are declared. -/
def C56Full : Prop := ∀ g : Graph, validateSchema cpp g = .ok [] → ∀ ps ∈ composites g, ∀ p ∈ ps,
  asField p.name ∈ declared ps ∧ p.name ∈ declared ps

theorem declared_eq (ps : List Property) : declared ps = ps.map (·.name) := by
  unfold declared zeroFields
  rw [List.map_map]
  rfl

/-- The parser names a field which the header does not declare if the name has a capital letter. -/
theorem C56_violated : ¬ C56Full := by
  intro h
  have := (h { Demo.single .boolean with properties := [{ name := c!"It", ty := .boolean, json := c!"it" }] }
    (by decide +kernel) _ List.mem_cons_self _ List.mem_cons_self).1
  exact absurd this (by decide +kernel)

theorem lowerNames_iff (g : Graph) : LowerNames g ↔ ∀ ps ∈ composites g, ∀ p ∈ ps, Mapry.lower p.name = p.name := by
  unfold composites
  simp only [List.forall_mem_cons, List.forall_mem_append, List.forall_mem_map]
  exact ⟨fun h => ⟨h.graph, h.cls, h.embed⟩, fun h => ⟨h.1, h.2.1, h.2.2⟩⟩

theorem distinct_fields {g : Graph} (h : validateSchema cpp g = .ok []) :
    ∀ ps ∈ composites g, (ps.map fun p => Mapry.lower p.name).Nodup := by
  have hs := (C24_valid_iff g).1 h
  have key : ∀ ps ns, Forall₂ (FieldName ⟨cpp17 ++ cppExtra, Naming.asAttribute, Naming.asComposite, c!"id"⟩) ps ns →
      ns.Nodup → (ps.map fun p : Property => Mapry.lower p.name).Nodup := by
    intro ps ns h hn
    rwa [nodup_of_forall₂ (fun p n hp => attribute_eq hp) h] at hn
  obtain ⟨ns, rs, hns, _, hgn, _⟩ := hs.graphFields
  unfold composites
  simp only [List.forall_mem_cons, List.forall_mem_append, List.forall_mem_map]
  refine ⟨key _ _ hns (List.nodup_append.1 hgn).1, fun c hc => ?_, fun e he => ?_⟩
  · obtain ⟨ns, h1, h2, _⟩ := hs.fields ⟨.cls, c.name, c.ref, c.properties⟩ (by
      unfold definitions
      exact List.mem_append_left _ (List.mem_map.2 ⟨c, hc, rfl⟩))
    exact key _ _ h1 h2
  · obtain ⟨ns, h1, h2, _⟩ := hs.fields ⟨.embed, e.name, e.ref, e.properties⟩ (by
      unfold definitions
      exact List.mem_append_right _ (List.mem_map.2 ⟨e, he, rfl⟩))
    exact key _ _ h1 h2

theorem nodup_map_inj {α : Type} {f : α → Str} {l : List α} (h : (l.map f).Nodup) {a b : α} (ha : a ∈ l) (hb : b ∈ l)
    (hab : f a = f b) : a = b := by
  induction l with
  | nil => cases ha
  | cons c l ih =>
    rw [List.map_cons, List.nodup_cons] at h
    rcases List.mem_cons.1 ha with rfl | ha'
    · rcases List.mem_cons.1 hb with rfl | hb'
      · rfl
      · exact absurd (List.mem_map.2 ⟨b, hb', hab.symm⟩) h.1
    · rcases List.mem_cons.1 hb with rfl | hb'
      · exact absurd (List.mem_map.2 ⟨a, ha', hab⟩) h.1
      · exact ih h.2 ha' hb'

/-- **C56 (partial).** For a schema which passes the validation, all the fields are declared exactly if no name has a
capital letter. -/
theorem C56_declared_iff_partial (g : Graph) (hg : validateSchema cpp g = .ok []) :
    (∀ ps ∈ composites g, ∀ p ∈ ps, asField p.name ∈ declared ps ∧ p.name ∈ declared ps) ↔ LowerNames g := by
  rw [lowerNames_iff]
  constructor
  · intro h ps hps p hp
    have h1 := (h ps hps p hp).1
    rw [declared_eq] at h1
    obtain ⟨q, hq, hqp⟩ := List.mem_map.1 h1
    have : q = p := nodup_map_inj (distinct_fields hg ps hps) hq hp (by
      rw [hqp]
      exact lower_lower p.name)
    subst this
    exact hqp.symm
  · intro h ps hps p hp
    rw [declared_eq]
    unfold asField
    rw [h ps hps p hp]
    exact ⟨List.mem_map_of_mem hp, List.mem_map_of_mem hp⟩

/-- An assignment to a declared field keeps the fields. -/
theorem setField_names (f : Str) (x : Val) (fields : CppRuntime.Fields) (h : f ∈ fields.map (·.1)) :
    (setField f x fields).map (·.1) = fields.map (·.1) := by
  induction fields with
  | nil => cases h
  | cons a fields ih =>
    obtain ⟨k, y⟩ := a
    unfold setField
    split
    · next hk => rw [hk]; rfl
    · next hk =>
      rw [List.map_cons, List.map_cons, ih]
      rcases List.mem_cons.1 h with h | h
      · exact absurd h.symm hk
      · exact h

/-- ... so that parsing whatever input changes only the values of the declared fields, -/
theorem C56_parse_keeps_partial (g : Graph) (hl : LowerNames g) (ps : List Property)
    (hps : ps ∈ composites g) (parse : Ty → ParseFn) (v : JVal) (ref : Str) (target fields : CppRuntime.Fields)
    (e e' : CppErrors) (ht : target.map (·.1) = declared ps)
    (h : parseComposite parse ps v ref target e = .ok (fields, e')) : fields.map (·.1) = declared ps := by
  have hlow := (lowerNames_iff g).1 hl ps hps
  have key : ∀ qs, (∀ p ∈ qs, p ∈ ps) → ∀ kvs (target : CppRuntime.Fields) e fields e',
      target.map (·.1) = declared ps → parseProps parse kvs ref qs target e = .ok (fields, e') →
      fields.map (·.1) = declared ps := by
    intro qs
    induction qs with
    | nil =>
      intro _ kvs target e fields e' ht h
      cases h
      exact ht
    | cons p qs ih =>
      intro hqs kvs target e fields e' ht h
      unfold parseProps at h
      cases hp : parseProperty parse kvs ref p target e with
      | error x => rw [hp] at h; cases h
      | ok r =>
        obtain ⟨fs, e₁⟩ := r
        rw [hp] at h
        have hfs : fs.map (·.1) = declared ps := by
          unfold parseProperty at hp
          split at hp
          · split at hp <;> (cases hp; exact ht)
          · next v hl =>
            simp only at hp
            generalize parse p.ty v (sub ref p.json)
              (if (p.optional && needsEmplace p.ty) = true then Val.zero
                else (List.lookup (asField p.name) target).getD Val.zero) e = r at hp
            cases r with
            | error x => cases hp
            | ok r =>
              cases hp
              rw [setField_names, ht]
              rw [ht, declared_eq]
              unfold asField
              rw [hlow p (hqs p List.mem_cons_self)]
              exact List.mem_map_of_mem (hqs p List.mem_cons_self)
        replace h : (if e₁.full then Except.ok (fs, e₁) else parseProps parse kvs ref qs fs e₁) = .ok (fields, e') := h
        split at h
        · cases h
          exact hfs
        · exact ih (fun q hq => hqs q (List.mem_cons_of_mem _ hq)) kvs fs e₁ fields e' hfs h
  unfold parseComposite at h
  split at h
  · exact key ps (fun p hp => hp) _ target e fields e' ht h
  · cases h
    exact ht

/-- ... and the serializer finds all of them. -/
theorem C56_serialize_finds (ps : List Property) (ser : Ty → Val → Except Exc JVal)
    (hser : ∀ t x, ser t x ≠ .error .attributeError) (fields : CppRuntime.Fields)
    (hf : fields.map (·.1) = declared ps) : serComposite ser ps fields ≠ .error .attributeError := by
  have key : ∀ qs, (∀ p ∈ qs, p ∈ ps) → ∀ target, serProps ser fields qs target ≠ .error .attributeError := by
    intro qs
    induction qs with
    | nil => intro _ target h; cases h
    | cons p qs ih =>
      intro hqs target h
      have ih' := ih (fun q hq => hqs q (List.mem_cons_of_mem _ hq))
      unfold serProps at h
      have hm : p.name ∈ fields.map (·.1) := by
        rw [hf, declared_eq]
        exact List.mem_map_of_mem (hqs p List.mem_cons_self)
      split at h
      · next hl =>
        rw [List.lookup_eq_none_iff] at hl
        obtain ⟨a, ha, hap⟩ := List.mem_map.1 hm
        have := hl a ha
        simp [hap] at this
      · split at h
        · exact ih' _ h
        · next v _ _ _ _ =>
          cases hx : ser p.ty v with
          | error x =>
            rw [hx] at h
            cases h
            exact hser _ _ hx
          | ok x =>
            rw [hx] at h
            exact ih' _ h
  unfold serComposite
  split
  · intro h; cases h
  · exact key ps (fun p hp => hp) _

example : ∀ ps ∈ composites Demo.schema, ∀ p ∈ ps, asField p.name ∈ declared ps ∧ p.name ∈ declared ps :=
  (C56_declared_iff_partial Demo.schema Example.schema_valid).2 Example.schema_lower

end Mapry.Props.Cpp
