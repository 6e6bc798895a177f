import Verif.Props.Interop

/-! # An example for C63 -/

namespace Mapry.Props.InteropExample

open Mapry.Duration Mapry.Interop Mapry.LangValidate

/-- A document for the schema of the examples -/
def doc : Doc := .obj [
  (c!"persons", .obj [
    (c!"p2", .obj [(c!"age", .int 1), (c!"name", .str c!"Ada")]),
    (c!"p1", .obj [(c!"name", .str c!"Al"), (c!"age", .int 33), (c!"friend", .str c!"p2")])]),
  (c!"homes", .arr [.obj [(c!"street", .str c!"Main"), (c!"no", .int (-3))], .obj [(c!"street", .str c!"Side")]]),
  (c!"weights", .obj [(c!"y", .int 2), (c!"x", .real (1 / 2))]),
  (c!"wait", .str c!"P1DT0.5S")]

abbrev schema : Graph := PyRuntime.Demo.schema

theorem portable : Portable schema :=
  ⟨by decide +kernel, GoExample.schema_valid, Cpp.Example.schema_valid, Cpp.Example.schema_lower, Cpp.Example.schema_sound,
    GoExample.schema_exact⟩

theorem distinct : doc.Distinct := by
  unfold doc
  repeat' first
    | exact .str _
    | exact .int _
    | exact .real _
    | (refine .obj _ (by simp) ?_)
    | (refine .arr _ ?_)
    | (intro kv hkv; simp only [List.mem_cons, List.not_mem_nil, or_false] at hkv; rcases hkv with rfl | rfl | rfl | rfl)
    | (intro kv hkv; simp only [List.mem_cons, List.not_mem_nil, or_false] at hkv; rcases hkv with rfl | rfl | rfl)
    | (intro kv hkv; simp only [List.mem_cons, List.not_mem_nil, or_false] at hkv; rcases hkv with rfl | rfl)
    | (intro kv hkv; simp only [List.mem_cons, List.not_mem_nil, or_false] at hkv; subst hkv)

/-- The duration in the document -/
def wait : Fields where
  sign := none
  years := none
  months := none
  weeks := none
  days := some ⟨c!"1", none⟩
  time := some (none, none, some ⟨c!"0", some c!"5"⟩)

theorem wait_valid : wait.Valid := by
  refine ⟨.inl rfl, ?_, ?_, ?_, ?_, ?_⟩
  · simp [wait, OptValid]
  · simp [wait, OptValid]
  · simp [wait, OptValid]
  · intro x hx
    cases hx
    simp [Num.Valid, IsInt, isDig]
  · intro h m s e
    cases e
    refine ⟨by simp [OptValid], by simp [OptValid], ?_⟩
    intro x hx
    cases hx
    simp [Num.Valid, IsInt, isDig]

theorem wait_plain : PlainDuration c!"P1DT0.5S" :=
  ⟨wait, wait_valid, ⟨rfl, rfl, by simp [wait, NoFraction], by simp [wait, NoFraction],
    by simp [wait, NoFraction, Fields.hours], by simp [wait, NoFraction, Fields.minutes]⟩, by decide, by decide +kernel,
    by decide⟩

theorem plain : Mapry.Interop.Plain PyRuntime.Demo.lib {} GoRuntime.Demo.lib .ctime CppRuntime.Demo.lib schema 3 doc := by
  intro kvs e
  cases e
  refine ⟨?_, ?_⟩
  · intro p hp d hd
    simp only [schema, PyRuntime.Demo.schema, List.mem_cons, List.not_mem_nil, or_false] at hp
    rcases hp with rfl | rfl | rfl
    · cases hd
      refine ⟨by simp, ?_⟩
      intro ds e x hx e' kvs h' hk
      cases e
      cases h'
      simp only [List.mem_cons, List.not_mem_nil, or_false] at hx
      intro q hq v hv
      simp only [List.mem_cons, List.not_mem_nil, or_false] at hq
      rcases hx with rfl | rfl <;> cases hk <;> rcases hq with rfl | rfl <;> cases hv <;>
        refine ⟨by simp, ?_⟩ <;> simp [EveryTy, PlainLeaf]
    · cases hd
      refine ⟨by simp, ?_⟩
      intro ds e x hx
      cases e
      simp only [List.mem_cons, List.not_mem_nil, or_false] at hx
      rcases hx with rfl | rfl <;> simp [EveryTy, PlainLeaf]
    · cases hd
      refine ⟨by simp, ?_⟩
      intro s e
      cases e
      exact wait_plain
  · intro c hc entries he e hm
    simp only [schema, PyRuntime.Demo.schema, List.mem_cons, List.not_mem_nil, or_false] at hc
    subst hc
    cases he
    simp only [List.mem_cons, List.not_mem_nil, or_false] at hm
    refine ⟨?_, ?_⟩
    · intro p h
      cases h
      rcases hm with rfl | rfl <;> exact ⟨rfl, rfl⟩
    · intro kvs hk p hp d hd
      simp only [List.mem_cons, List.not_mem_nil, or_false] at hp
      rcases hm with rfl | rfl <;> cases hk <;> rcases hp with rfl | rfl | rfl | rfl <;> cases hd <;>
        refine ⟨by simp, ?_⟩ <;> simp [EveryTy, PlainLeaf, SameMatch] <;> decide

/-- The document is accepted by the parsers of the three languages, which read the same graph. -/
example : ∃ x y z, PyReads schema 3 doc c!"#" 5 false PyRuntime.Demo.lib {} x ∧
    GoReads schema 3 doc c!"#" 5 GoRuntime.Demo.order GoRuntime.Demo.lib y ∧
    CppReads schema 3 doc c!"#" 5 .ctime CppRuntime.Demo.lib z ∧ Corresponding {} schema 3 x y z := by
  have h := (C63_plain_partial portable 3 distinct c!"#" 5 (by decide) false PyRuntime.Demo.lib {}
    GoRuntime.Demo.order_proper GoRuntime.Demo.lib .ctime CppRuntime.Demo.lib_garbage (by decide +kernel) plain).1
  have hx : ∃ x, PyReads schema 3 doc c!"#" 5 false PyRuntime.Demo.lib {} x := by
    have : (match PyRuntime.parseGraph PyRuntime.Demo.lib {} schema 3 (pyOf false doc) c!"#" (Errors.new 5) with
      | .ok (some _, _) => true | _ => false) = true := by decide +kernel
    unfold PyReads
    split at this
    · rename_i x es e
      exact ⟨x, es, e⟩
    · cases this
  obtain ⟨x, hx⟩ := hx
  obtain ⟨y, z, hy, hz, hs⟩ := h x hx
  exact ⟨x, y, z, hx, hy, hz, hs⟩

/-- The text occurs somewhere. -/
def anywhere (p : Str) : Str → Bool
  | [] => p.isEmpty
  | c :: s => p.isPrefixOf (c :: s) || anywhere p s

/-- Libraries whose regular expressions differ in the way of the three languages: at the start, anywhere, all of the
text -/
example := C63_violated_patterns 3 c!"#" 5 (by decide) false PyRuntime.Demo.lib {} GoRuntime.Demo.order_proper
  { GoRuntime.Demo.lib with matchString := anywhere } .ctime
  (C := { CppRuntime.Demo.lib with regexMatch := fun p s => p == s }) (fun _ => rfl)
  (by decide) (by decide) (by decide) (by decide) (by decide)

end Mapry.Props.InteropExample
