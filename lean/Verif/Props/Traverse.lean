import Verif.TraverseLemmas
import Verif.Schema

/-!
# C07 - C10: traversals over the types
-/

namespace Mapry.Props

open Mapry.Traverse

/-! ## C07 -/

/-- `b` is a type reachable from `a`: `a` itself, or reachable from a class, an embed or a property
type of a graph, from a property type of a class or embed, or from the values of an array or map. -/
inductive Reachable (h : Heap) : Nat → Nat → Prop where
  | self (a : Nat) : Reachable h a a
  | arrayValues {a v b : Nat} : h[a]? = some (.array v) → Reachable h v b → Reachable h a b
  | mapValues {a v b : Nat} : h[a]? = some (.map v) → Reachable h v b → Reachable h a b
  | embedProperty {a p b : Nat} {name : Str} {ps : List Nat} :
      h[a]? = some (.embed name ps) → p ∈ ps → Reachable h p b → Reachable h a b
  | classProperty {a p b : Nat} {name : Str} {ps : List Nat} :
      h[a]? = some (.cls name ps) → p ∈ ps → Reachable h p b → Reachable h a b
  | graphMember {a p b : Nat} {cs es ps : List Nat} :
      h[a]? = some (.graph cs es ps) → (p ∈ cs ∨ p ∈ es ∨ p ∈ ps) → Reachable h p b →
      Reachable h a b

theorem reachable_iff (h : Heap) (a b : Nat) : Reachable h a b ↔ Reach h.children a b := by
  constructor
  · intro hr
    induction hr with
    | self => exact .refl _
    | arrayValues hn _ ih => exact .step (by simp [Heap.children, hn, Node.needsChildren]) ih
    | mapValues hn _ ih => exact .step (by simp [Heap.children, hn, Node.needsChildren]) ih
    | embedProperty hn hm _ ih => exact .step (by simp [Heap.children, hn, Node.needsChildren, hm]) ih
    | classProperty hn hm _ ih => exact .step (by simp [Heap.children, hn, Node.needsChildren, hm]) ih
    | graphMember hn hm _ ih =>
      exact .step (by simp [Heap.children, hn, Node.needsChildren, hm]) ih
  · intro hr
    induction hr with
    | refl => exact .self _
    | step hm _ ih =>
      unfold Heap.children at hm
      split at hm
      · rename_i n hn
        cases n with
        | prim t => simp [Node.needsChildren] at hm
        | array v => simp [Node.needsChildren] at hm; subst hm; exact .arrayValues hn ih
        | map v => simp [Node.needsChildren] at hm; subst hm; exact .mapValues hn ih
        | embed nm ps => exact .embedProperty hn hm ih
        | cls nm ps => exact .classProperty hn hm ih
        | graph cs es ps =>
          simp [Node.needsChildren] at hm
          exact .graphMember hn (by simpa [or_assoc] using hm) ih
      · simp at hm

/-- The answer of `needs_type` is exact, whatever the cycles and the sharing, for every query. -/
theorem C07_needs_type_exact (h : Heap) (query : Tag → Bool) (fuel : Nat) (a : Nat) (r : Bool)
    (hr : needsType h query fuel a = some r) :
    r = true ↔ ∃ b n, Reachable h a b ∧ h[b]? = some n ∧ query n.tag = true := by
  unfold needsType at hr
  rw [Option.map_eq_some_iff] at hr
  obtain ⟨⟨r', v⟩, h1, h2⟩ := hr
  simp only at h2
  subst h2
  rw [needsAux_correct _ _ _ _ _ _ h1]
  constructor
  · rintro ⟨x, hx, hq⟩
    unfold Heap.isInstance at hq
    split at hq
    · rename_i n hn
      exact ⟨x, n, (reachable_iff h a x).2 hx, hn, hq⟩
    · simp at hq
  · rintro ⟨b, n, hb, hn, hq⟩
    exact ⟨b, (reachable_iff h a b).1 hb, by simp [Heap.isInstance, hn, hq]⟩

theorem unvisited_range (n : Nat) : unvisited (List.range n) [] = n := by
  have : (List.range n).filter (fun x => decide (x ∉ ([] : List Nat))) = List.range n :=
    List.filter_eq_self.2 (by simp)
  rw [unvisited, this, List.length_range]

theorem closed_children (h : Heap) (hc : h.Closed) :
    ∀ x ∈ List.range h.length, ∀ c ∈ h.children x, c ∈ List.range h.length := by
  intro x _ c hcx
  unfold Heap.children at hcx
  split at hcx
  · rename_i n hn
    have := hc n (List.mem_of_getElem? hn) c hcx
    simpa using this
  · simp at hcx

/-- `needs_type` terminates: a recursion depth of twice the number of types is always sufficient. -/
theorem C07_needs_type_terminates (h : Heap) (hc : h.Closed) (query : Tag → Bool) (fuel : Nat)
    (a : Nat) (ha : a < h.length) (hf : 2 * h.length < fuel) :
    ∃ r, needsType h query fuel a = some r := by
  obtain ⟨r, hr⟩ := needsAux_terminates h.children (h.isInstance query) (List.range h.length)
    (closed_children h hc) fuel a [] (by simpa using ha) (by simpa [unvisited_range] using hf)
  exact ⟨r.1, by simp [needsType, hr]⟩

/-- A cyclic heap used in the examples: a graph with two classes referring to each other, an embed
and an array shared by both classes. -/
def sampleHeap : Heap :=
  [.graph [1, 2] [3] [4], .cls c!"B" [2, 5], .cls c!"A" [1, 5, 3], .embed c!"E" [6, 1],
   .prim .integer, .array 3, .prim .duration]

example : sampleHeap.Closed := by decide
example : needsType sampleHeap (· == .duration) 20 0 = some true := by decide
example : needsType sampleHeap (· == .duration) 20 1 = some true := by decide
example : needsType sampleHeap (· == .timeZone) 20 0 = some false := by decide

/-! ## C08 -/

/-- Reachability as `_references` sees it: from a class, embed, array or map, but not into a graph
(a graph never occurs as a value type). -/
inductive ValueReachable (h : Heap) : Nat → Nat → Prop where
  | self (a : Nat) : ValueReachable h a a
  | arrayValues {a v b : Nat} : h[a]? = some (.array v) → ValueReachable h v b →
      ValueReachable h a b
  | mapValues {a v b : Nat} : h[a]? = some (.map v) → ValueReachable h v b → ValueReachable h a b
  | embedProperty {a p b : Nat} {name : Str} {ps : List Nat} :
      h[a]? = some (.embed name ps) → p ∈ ps → ValueReachable h p b → ValueReachable h a b
  | classProperty {a p b : Nat} {name : Str} {ps : List Nat} :
      h[a]? = some (.cls name ps) → p ∈ ps → ValueReachable h p b → ValueReachable h a b

theorem valueReachable_iff (h : Heap) (a b : Nat) :
    ValueReachable h a b ↔ Reach h.refChildren a b := by
  constructor
  · intro hr
    induction hr with
    | self => exact .refl _
    | arrayValues hn _ ih => exact .step (by simp [Heap.refChildren, hn, Node.refsChildren]) ih
    | mapValues hn _ ih => exact .step (by simp [Heap.refChildren, hn, Node.refsChildren]) ih
    | embedProperty hn hm _ ih =>
      exact .step (by simp [Heap.refChildren, hn, Node.refsChildren, hm]) ih
    | classProperty hn hm _ ih =>
      exact .step (by simp [Heap.refChildren, hn, Node.refsChildren, hm]) ih
  · intro hr
    induction hr with
    | refl => exact .self _
    | step hm _ ih =>
      unfold Heap.refChildren at hm
      split at hm
      · rename_i n hn
        cases n with
        | prim t => simp [Node.refsChildren] at hm
        | array v => simp [Node.refsChildren] at hm; subst hm; exact .arrayValues hn ih
        | map v => simp [Node.refsChildren] at hm; subst hm; exact .mapValues hn ih
        | embed nm ps => exact .embedProperty hn hm ih
        | cls nm ps => exact .classProperty hn hm ih
        | graph cs es ps => simp [Node.refsChildren] at hm
      · simp at hm

/-- `a` is a class or an embed with the property types `ps`. -/
def HasProperties (h : Heap) (a : Nat) (ps : List Nat) : Prop :=
  (∃ name, h[a]? = some (.cls name ps)) ∨ (∃ name, h[a]? = some (.embed name ps))

/-- `b` is a class of the given name. -/
def IsClassNamed (h : Heap) (b : Nat) (name : Str) : Prop := ∃ ps, h[b]? = some (.cls name ps)

theorem isClass_iff (h : Heap) (b : Nat) : h.isClass b = true ↔ ∃ name, IsClassNamed h b name := by
  unfold Heap.isClass IsClassNamed
  split
  · rename_i name ps hn
    exact ⟨fun _ => ⟨name, ps, hn⟩, fun _ => rfl⟩
  · rename_i hn
    constructor
    · simp
    · rintro ⟨name, ps, h'⟩
      exact absurd h' (hn name ps)

theorem references_eq (h : Heap) (fuel a : Nat) (ps : List Nat) (hp : HasProperties h a ps) :
    references h fuel a = (refsOfAll h.refChildren h.isClass fuel ps).map fun found =>
      sortBy (fun x y => strLe (h.className x) (h.className y)) (toSet found) := by
  unfold references
  rcases hp with ⟨name, hn⟩ | ⟨name, hn⟩ <;> rw [hn]

/-- `references` lists exactly the reachable classes, without duplicates, in ascending order of
their names. -/
theorem C08_references_exact (h : Heap) (fuel a : Nat) (ps : List Nat) (hp : HasProperties h a ps)
    (result : List Nat) (hr : references h fuel a = some result) :
    (∀ b, b ∈ result ↔ (∃ name, IsClassNamed h b name) ∧ ∃ p ∈ ps, ValueReachable h p b) ∧
    result.Nodup ∧
    result.Pairwise (fun b c => ∀ m n, IsClassNamed h b m → IsClassNamed h c n →
      strLe m n = true) := by
  rw [references_eq h fuel a ps hp, Option.map_eq_some_iff] at hr
  obtain ⟨found, hf, rfl⟩ := hr
  refine ⟨?_, ?_, ?_⟩
  · intro b
    rw [(sortBy_perm _ _).mem_iff, mem_toSet, refsOfAll_correct _ _ _ _ _ hf, isClass_iff]
    simp only [valueReachable_iff]
  · exact (sortBy_perm _ _).nodup_iff.2 (nodup_toSet found)
  · have := sortBy_sorted (fun x y => strLe (h.className x) (h.className y))
      (fun a b => strLe_total _ _) (fun a b c h1 h2 => strLe_trans _ _ _ h1 h2) (toSet found)
    refine this.imp ?_
    intro b c hbc m n ⟨ps, hm⟩ ⟨qs, hn⟩
    simpa [Heap.className, hm, hn] using hbc

/-- If the names of the classes are distinct, the order is completely determined. -/
theorem C08_references_strictly_ascending (h : Heap) (fuel a : Nat) (ps : List Nat)
    (hp : HasProperties h a ps) (result : List Nat) (hr : references h fuel a = some result)
    (hnames : ∀ b c n, IsClassNamed h b n → IsClassNamed h c n → b = c) :
    result.Pairwise (fun b c => ∀ m n, IsClassNamed h b m → IsClassNamed h c n →
      strLe m n = true ∧ m ≠ n) := by
  obtain ⟨_, hnd, hs⟩ := C08_references_exact h fuel a ps hp result hr
  have := List.Pairwise.and hnd hs
  refine this.imp ?_
  rintro b c ⟨hne, hle⟩ m n hm hn
  refine ⟨hle m n hm hn, ?_⟩
  rintro rfl
  exact hne (hnames b c m hm hn)

theorem closed_refChildren (h : Heap) (hc : h.Closed) :
    ∀ x ∈ List.range h.length, ∀ c ∈ h.refChildren x, c ∈ List.range h.length := by
  intro x _ c hcx
  unfold Heap.refChildren at hcx
  split at hcx
  · rename_i n hn
    have : c ∈ n.needsChildren := by
      cases n <;> simp_all [Node.needsChildren, Node.refsChildren]
    have := hc n (List.mem_of_getElem? hn) c this
    simpa using this
  · simp at hcx

theorem refsOfAll_terminates (h : Heap) (hc : h.Closed) (fuel : Nat) (ps : List Nat)
    (hps : ∀ p ∈ ps, p < h.length) (hf : h.length < fuel) :
    ∃ r, refsOfAll h.refChildren h.isClass fuel ps = some r := by
  induction ps with
  | nil => exact ⟨_, rfl⟩
  | cons p ps ih =>
    obtain ⟨r, hr⟩ := refsAux_terminates h.refChildren h.isClass (List.range h.length)
      (closed_refChildren h hc) fuel p [] (by simpa using hps p (by simp))
      (by simpa [unvisited_range] using hf)
    obtain ⟨r', hr'⟩ := ih (fun q hq => hps q (by simp [hq]))
    simp only [refsOfAll, hr, hr']
    exact ⟨_, rfl⟩

/-- `references` terminates for every class and embed: a recursion depth of one more than the number
of types is always sufficient. -/
theorem C08_references_terminates (h : Heap) (hc : h.Closed) (fuel a : Nat) (ps : List Nat)
    (hp : HasProperties h a ps) (hf : h.length < fuel) : ∃ r, references h fuel a = some r := by
  have hps : ∀ p ∈ ps, p < h.length := by
    intro p hpp
    rcases hp with ⟨name, hn⟩ | ⟨name, hn⟩
    · exact hc _ (List.mem_of_getElem? hn) p hpp
    · exact hc _ (List.mem_of_getElem? hn) p hpp
  obtain ⟨r, hr⟩ := refsOfAll_terminates h hc fuel ps hps hf
  rw [references_eq h fuel a ps hp, hr]
  exact ⟨_, rfl⟩

example : HasProperties sampleHeap 1 [2, 5] := Or.inl ⟨c!"B", by decide⟩
example : references sampleHeap 8 1 = some [2, 1] := by decide +kernel
example : references sampleHeap 8 3 = some [2, 1] := by decide +kernel

/-! ## C09 -/

/-- If a structure `b` occurs as a value type in the composite `a` (directly as a property type or
nested in arrays and maps, or even through other structures), all the classes referenced by `b` are
referenced by `a`; if `b` is a class, it is itself referenced by `a`. -/
theorem C09_registries_available (h : Heap) (fuel fuel' a b : Nat) (ps qs : List Nat)
    (ha : HasProperties h a ps) (hb : HasProperties h b qs)
    (hocc : ∃ p ∈ ps, ValueReachable h p b)
    (ra rb : List Nat) (hra : references h fuel a = some ra)
    (hrb : references h fuel' b = some rb) :
    (∀ c ∈ rb, c ∈ ra) ∧ ((∃ name, IsClassNamed h b name) → b ∈ ra) := by
  obtain ⟨ea, _, _⟩ := C08_references_exact h fuel a ps ha ra hra
  obtain ⟨eb, _, _⟩ := C08_references_exact h fuel' b qs hb rb hrb
  obtain ⟨p, hp, hpb⟩ := hocc
  constructor
  · intro c hc
    obtain ⟨hcls, q, hq, hqc⟩ := (eb c).1 hc
    refine (ea c).2 ⟨hcls, p, hp, ?_⟩
    rw [valueReachable_iff] at hpb hqc ⊢
    refine hpb.trans ?_
    have : Reach h.refChildren b c := by
      refine .step ?_ hqc
      rcases hb with ⟨name, hn⟩ | ⟨name, hn⟩ <;>
        simp [Heap.refChildren, hn, Node.refsChildren, hq]
    exact this
  · intro hbc
    exact (ea b).2 ⟨hbc, p, hp, hpb⟩

/-- `b` is one of the classes of the graph `g`. -/
def RegisteredClass (h : Heap) (g b : Nat) : Prop :=
  ∃ cs es ps, h[g]? = some (.graph cs es ps) ∧ b ∈ cs

/-- If every class reachable from the graph is registered in it (the parsed schemas satisfy this
since every class object is created from its definition), the referenced classes are classes of the
graph. -/
theorem C09_references_registered (h : Heap) (fuel g a : Nat) (ps : List Nat)
    (ha : HasProperties h a ps)
    (hreg : ∀ b name, IsClassNamed h b name → Reachable h g b → RegisteredClass h g b)
    (hag : Reachable h g a) (ra : List Nat) (hra : references h fuel a = some ra) :
    ∀ c ∈ ra, RegisteredClass h g c := by
  obtain ⟨ea, _, _⟩ := C08_references_exact h fuel a ps ha ra hra
  intro c hc
  obtain ⟨⟨name, hn⟩, p, hp, hpc⟩ := (ea c).1 hc
  refine hreg c name hn ?_
  rw [reachable_iff] at hag ⊢
  refine hag.trans ?_
  have hstep : p ∈ h.children a := by
    rcases ha with ⟨name, hn⟩ | ⟨name, hn⟩ <;> simp [Heap.children, hn, Node.needsChildren, hp]
  refine .step hstep ?_
  rw [← reachable_iff]
  clear hreg hag hra ea hc hn hstep hp
  induction hpc with
  | self => exact .self _
  | arrayValues hn _ ih => exact .arrayValues hn ih
  | mapValues hn _ ih => exact .mapValues hn ih
  | embedProperty hn hm _ ih => exact .embedProperty hn hm ih
  | classProperty hn hm _ ih => exact .classProperty hn hm ih

example : sampleHeap[0]? = some (.graph [1, 2] [3] [4]) ∧ HasProperties sampleHeap 3 [6, 1] :=
  ⟨by decide, Or.inr ⟨c!"E", by decide⟩⟩
example : ∀ b name, IsClassNamed sampleHeap b name → RegisteredClass sampleHeap 0 b := by
  rintro b name ⟨ps, h⟩
  refine ⟨[1, 2], [3], [4], by decide, ?_⟩
  match b with
  | 0 => simp [sampleHeap] at h
  | 1 => simp
  | 2 => simp
  | 3 => simp [sampleHeap] at h
  | 4 => simp [sampleHeap] at h
  | 5 => simp [sampleHeap] at h
  | 6 => simp [sampleHeap] at h
  | n + 7 => simp [sampleHeap] at h
example : (∃ p ∈ [2, 5], ValueReachable sampleHeap p 3) :=
  ⟨5, by decide, .arrayValues (v := 3) (by decide) (.self 3)⟩

/-! ## C10 -/

/-- The `k`-th nested value type (`0` is the type itself), if the nesting is that deep. -/
def nestedType : Nat → Ty → Option Ty
  | 0, t => some t
  | k + 1, .array values _ _ => nestedType k values
  | k + 1, .map values => nestedType k values
  | _ + 1, _ => none

/-- The reference path of the `k`-th nested value type of a property. -/
def nestedRef (compositeRef name : Str) (k : Nat) : Str :=
  compositeRef ++ c!"/" ++ name ++ (List.replicate k c!"/values").flatten

/-- How deep the arrays and maps of a type are nested. -/
def nesting : Ty → Nat
  | .array values _ _ => nesting values + 1
  | .map values => nesting values + 1
  | _ => 0

theorem nestedType_isSome (t : Ty) (k : Nat) : (nestedType k t).isSome ↔ k ≤ nesting t := by
  induction t generalizing k with
  | array v lo hi ih => cases k with
    | zero => simp [nestedType]
    | succ k => simp [nestedType, nesting, ih]
  | map v ih => cases k with
    | zero => simp [nestedType]
    | succ k => simp [nestedType, nesting, ih]
  | _ => cases k <;> simp [nestedType, nesting]

theorem iterateTy_length (t : Ty) (ref : Str) : (iterateTy t ref).length = nesting t + 1 := by
  induction t generalizing ref with
  | array v lo hi ih => simp [iterateTy, nesting, ih]
  | map v ih => simp [iterateTy, nesting, ih]
  | _ => simp [iterateTy, nesting]

theorem iterateTy_getElem (t : Ty) (ref : Str) (k : Nat) :
    (iterateTy t ref)[k]? =
      (nestedType k t).map (·, ref ++ (List.replicate k c!"/values").flatten) := by
  induction t generalizing ref k with
  | array v lo hi ih => cases k with
    | zero => simp [iterateTy, nestedType]
    | succ k => simp [iterateTy, nestedType, ih, List.replicate_succ]
  | map v ih => cases k with
    | zero => simp [iterateTy, nestedType]
    | succ k => simp [iterateTy, nestedType, ih, List.replicate_succ]
  | _ => cases k <;> simp [iterateTy, nestedType]

/-- The yield for one property: the types nested in it from outside inwards, each exactly once with
its path. -/
theorem C10_property (composite : Composite) (p : Property) :
    (iterateTy p.ty (composite.ref ++ c!"/" ++ p.name)).length = nesting p.ty + 1 ∧
    ∀ k, (iterateTy p.ty (composite.ref ++ c!"/" ++ p.name))[k]? =
      (nestedType k p.ty).map (·, nestedRef composite.ref p.name k) :=
  ⟨iterateTy_length _ _, fun k => by rw [iterateTy_getElem]; rfl⟩

/-- The yield for the graph: the properties of the classes, of the embeds and of the graph one after
another, each with its nested types. -/
theorem C10_iterate_over_types (g : Graph) :
    ∃ blocks : List (List (Ty × Str)),
      iterateOverTypes g = blocks.flatten ∧
      Forall₂ (fun (cp : Composite × Property) block =>
          block.length = nesting cp.2.ty + 1 ∧
          ∀ k, block[k]? = (nestedType k cp.2.ty).map (·, nestedRef cp.1.ref cp.2.name k))
        ((g.classes.map Class.composite ++ g.embeds.map Embed.composite ++ [g.composite]).flatMap
          fun c => c.properties.map (c, ·)) blocks := by
  let cs := g.classes.map Class.composite ++ g.embeds.map Embed.composite ++ [g.composite]
  have h1 : iterateOverTypes g = cs.flatMap iterateComposite := by
    simp [iterateOverTypes, cs, List.flatMap_append, List.flatMap_map, Class.composite,
      Embed.composite]
  refine ⟨(cs.flatMap fun c => c.properties.map (c, ·)).map
    (fun cp => iterateTy cp.2.ty (cp.1.ref ++ c!"/" ++ cp.2.name)), ?_, ?_⟩
  · rw [h1]
    generalize cs = cs
    induction cs with
    | nil => rfl
    | cons c cs ih =>
      simp only [List.flatMap_cons, List.map_append, List.flatten_append, ih]
      congr 1
      simp [iterateComposite, List.flatMap_def, Function.comp_def]
  · generalize (cs.flatMap fun c => c.properties.map (c, ·)) = l
    induction l with
    | nil => exact .nil
    | cons cp l ih => exact .cons (C10_property cp.1 cp.2) ih

example : iterateOverTypes
    { name := c!"G", ref := c!"#", properties :=
      [{ name := c!"x", json := c!"x", ty := .array (.map .boolean) none none }] } =
    [(.array (.map .boolean) none none, c!"#/x"), (.map .boolean, c!"#/x/values"),
     (.boolean, c!"#/x/values/values")] := by decide

end Mapry.Props
