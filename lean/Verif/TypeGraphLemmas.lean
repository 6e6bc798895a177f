import Verif.TypeGraph
import Verif.TraverseLemmas

/-!
# What `needs_type` and `references` answer on the definitions of a graph
-/

namespace Mapry.TypeGraph

open Mapry.Traverse

/-- A type and the types nested in it: the values of arrays and maps. -/
def parts : Ty → List Ty
  | .array t lo hi => .array t lo hi :: parts t
  | .map t => .map t :: parts t
  | t => [t]

/-- A type occurs in a property of the graph, of a class or of an embed. -/
inductive Occurs (g : Graph) (t : Ty) : Prop where
  | graph (p : Property) : p ∈ g.properties → t ∈ parts p.ty → Occurs g t
  | cls (c : Class) (p : Property) : c ∈ g.classes → p ∈ c.properties → t ∈ parts p.ty → Occurs g t
  | embed (e : Embed) (p : Property) : e ∈ g.embeds → p ∈ e.properties → t ∈ parts p.ty → Occurs g t

/-- The dictionaries of a graph have one entry for a name. -/
structure Named (g : Graph) : Prop where
  classes : (g.classes.map (·.name)).Nodup
  embeds : (g.embeds.map (·.name)).Nodup

theorem self_mem_parts (t : Ty) : t ∈ parts t := by
  cases t <;> simp [parts]

theorem parts_trans {t u v : Ty} (h : t ∈ parts u) (h' : u ∈ parts v) : t ∈ parts v := by
  induction v with
  | array v lo hi ih =>
    simp only [parts, List.mem_cons] at h' ⊢
    rcases h' with rfl | h'
    · simpa [parts] using h
    · exact .inr (ih h')
  | map v ih =>
    simp only [parts, List.mem_cons] at h' ⊢
    rcases h' with rfl | h'
    · simpa [parts] using h
    · exact .inr (ih h')
  | _ => simp only [parts, List.mem_singleton] at h'; subst h'; exact h

theorem Occurs.part {g : Graph} {t u : Ty} (h : Occurs g u) (ht : t ∈ parts u) : Occurs g t := by
  cases h with
  | graph p h1 h2 => exact .graph p h1 (parts_trans ht h2)
  | cls c p h0 h1 h2 => exact .cls c p h0 h1 (parts_trans ht h2)
  | embed e p h0 h1 h2 => exact .embed e p h0 h1 (parts_trans ht h2)

theorem find_mem {α : Type} {p : α → Bool} {l : List α} {a : α} (h : l.find? p = some a) : a ∈ l ∧ p a = true :=
  ⟨List.mem_of_find?_eq_some h, List.find?_some h⟩

theorem find_unique {α : Type} (name : α → Str) {l : List α} (hn : (l.map name).Nodup) {a : α} (ha : a ∈ l) :
    l.find? (fun x => name x == name a) = some a := by
  induction l with
  | nil => cases ha
  | cons b l ih =>
    rw [List.map_cons, List.nodup_cons] at hn
    rcases List.mem_cons.1 ha with rfl | ha
    · simp
    · have : name b ≠ name a := fun h => hn.1 (h ▸ List.mem_map.2 ⟨a, ha, rfl⟩)
      rw [List.find?_cons_of_neg (by simpa using this)]
      exact ih hn.2 ha

theorem Named.cls? {g : Graph} (h : Named g) {c : Class} (hc : c ∈ g.classes) : g.cls? c.name = some c :=
  find_unique _ h.classes hc

theorem Named.embed? {g : Graph} (h : Named g) {e : Embed} (he : e ∈ g.embeds) : g.embed? e.name = some e :=
  find_unique _ h.embeds he

theorem mem_propObjs {o : Owner} {ps : List Property} {x : Obj} :
    x ∈ propObjs o ps ↔ ∃ k p, ps[k]? = some p ∧ x = resolve o k 0 p.ty := by
  unfold propObjs
  simp only [List.mem_map, Prod.exists, List.mem_zipIdx_iff_getElem?]
  constructor
  · rintro ⟨p, k, h, rfl⟩; exact ⟨k, p, h, rfl⟩
  · rintro ⟨k, p, h, rfl⟩; exact ⟨p, k, h, rfl⟩

theorem mem_objsOf {o : Owner} {ps : List Property} {x : Obj} :
    x ∈ objsOf o ps ↔ ∃ k p, ps[k]? = some p ∧ x ∈ objsTy o k 0 p.ty := by
  unfold objsOf
  simp only [List.mem_flatMap, Prod.exists, List.mem_zipIdx_iff_getElem?]
  constructor
  · rintro ⟨p, k, h, h'⟩; exact ⟨k, p, h, h'⟩
  · rintro ⟨k, p, h, h'⟩; exact ⟨p, k, h, h'⟩

theorem resolve_mem_objsTy (o : Owner) (k d : Nat) (t : Ty) : resolve o k d t ∈ objsTy o k d t := by
  cases t <;> simp [objsTy, resolve]

theorem propObjs_sub_objsOf {o : Owner} {ps : List Property} {x : Obj} (h : x ∈ propObjs o ps) : x ∈ objsOf o ps := by
  obtain ⟨k, p, hp, rfl⟩ := mem_propObjs.1 h
  exact mem_objsOf.2 ⟨k, p, hp, resolve_mem_objsTy ..⟩

theorem mem_univ {g : Graph} {x : Obj} : x ∈ univ g ↔ x = .graph ∨ (∃ c ∈ g.classes, x = .cls c.name) ∨
    (∃ e ∈ g.embeds, x = .embed e.name) ∨ (∃ c ∈ g.classes, x ∈ objsOf (.cls c.name) c.properties) ∨
    (∃ e ∈ g.embeds, x ∈ objsOf (.embed e.name) e.properties) ∨ x ∈ objsOf .graph g.properties := by
  unfold univ
  simp only [List.mem_append, List.mem_cons, List.mem_map, List.mem_flatMap]
  constructor
  · rintro (((((rfl | ⟨c, hc, rfl⟩) | ⟨e, he, rfl⟩) | ⟨c, hc, h⟩) | ⟨e, he, h⟩) | h)
    · exact .inl rfl
    · exact .inr (.inl ⟨c, hc, rfl⟩)
    · exact .inr (.inr (.inl ⟨e, he, rfl⟩))
    · exact .inr (.inr (.inr (.inl ⟨c, hc, h⟩)))
    · exact .inr (.inr (.inr (.inr (.inl ⟨e, he, h⟩))))
    · exact .inr (.inr (.inr (.inr (.inr h))))
  · rintro (rfl | ⟨c, hc, rfl⟩ | ⟨e, he, rfl⟩ | ⟨c, hc, h⟩ | ⟨e, he, h⟩ | h)
    · exact .inl (.inl (.inl (.inl (.inl rfl))))
    · exact .inl (.inl (.inl (.inl (.inr ⟨c, hc, rfl⟩))))
    · exact .inl (.inl (.inl (.inr ⟨e, he, rfl⟩)))
    · exact .inl (.inl (.inr ⟨c, hc, h⟩))
    · exact .inl (.inr ⟨e, he, h⟩)
    · exact .inr h

/-- The children of the objects at a place are at this place. -/
theorem objsTy_closed {g : Graph} {o : Owner} {k d : Nat} {t : Ty} {o' : Owner} {k' d' : Nat} {u : Ty} {y : Obj}
    (h : Obj.val o' k' d' u ∈ objsTy o k d t) (hy : y ∈ children g (.val o' k' d' u)) : y ∈ objsTy o k d t := by
  induction t generalizing d with
  | array t lo hi ih =>
    simp only [objsTy, List.mem_cons] at h ⊢
    rcases h with h | h
    · cases h
      simp only [children, List.mem_singleton] at hy
      subst hy
      exact .inr (resolve_mem_objsTy ..)
    · exact .inr (ih h)
  | map t ih =>
    simp only [objsTy, List.mem_cons] at h ⊢
    rcases h with h | h
    · cases h
      simp only [children, List.mem_singleton] at hy
      subst hy
      exact .inr (resolve_mem_objsTy ..)
    · exact .inr (ih h)
  | _ =>
    simp only [objsTy, resolve, List.mem_singleton, reduceCtorEq] at h
    try (cases h; simp [children] at hy)

theorem owner_objs {g : Graph} {x : Obj} {o : Owner} (h : x ∈ propObjs o (ownerProps g o)) : x ∈ univ g := by
  rw [mem_univ]
  have h := propObjs_sub_objsOf h
  cases o with
  | graph => exact .inr (.inr (.inr (.inr (.inr h))))
  | cls n =>
    simp only [ownerProps] at h
    cases hf : g.cls? n with
    | none => rw [hf] at h; simp [objsOf] at h
    | some c =>
      obtain ⟨hc, hn⟩ := find_mem hf
      rw [hf] at h
      have hn : c.name = n := by simpa using hn
      subst hn
      exact .inr (.inr (.inr (.inl ⟨c, hc, h⟩)))
  | embed n =>
    simp only [ownerProps] at h
    cases hf : g.embed? n with
    | none => rw [hf] at h; simp [objsOf] at h
    | some c =>
      obtain ⟨hc, hn⟩ := find_mem hf
      rw [hf] at h
      have hn : c.name = n := by simpa using hn
      subst hn
      exact .inr (.inr (.inr (.inr (.inl ⟨c, hc, h⟩))))

theorem univ_closed (g : Graph) : ∀ x ∈ univ g, ∀ y ∈ children g x, y ∈ univ g := by
  intro x hx y hy
  cases x with
  | graph =>
    simp only [children, List.mem_append, List.mem_map] at hy
    rcases hy with (⟨c, hc, rfl⟩ | ⟨e, he, rfl⟩) | hy
    · exact mem_univ.2 (.inr (.inl ⟨c, hc, rfl⟩))
    · exact mem_univ.2 (.inr (.inr (.inl ⟨e, he, rfl⟩)))
    · exact owner_objs (o := .graph) hy
  | cls n => exact owner_objs (o := .cls n) hy
  | embed n => exact owner_objs (o := .embed n) hy
  | val o k d t =>
    rw [mem_univ] at hx ⊢
    simp only [reduceCtorEq, and_false, exists_false, false_or] at hx
    rcases hx with ⟨c, hc, h⟩ | ⟨e, he, h⟩ | h
    · obtain ⟨k, p, hp, h⟩ := mem_objsOf.1 h
      exact .inr (.inr (.inr (.inl ⟨c, hc, mem_objsOf.2 ⟨k, p, hp, objsTy_closed h hy⟩⟩)))
    · obtain ⟨k, p, hp, h⟩ := mem_objsOf.1 h
      exact .inr (.inr (.inr (.inr (.inl ⟨e, he, mem_objsOf.2 ⟨k, p, hp, objsTy_closed h hy⟩⟩))))
    · obtain ⟨k, p, hp, h⟩ := mem_objsOf.1 h
      exact .inr (.inr (.inr (.inr (.inr (mem_objsOf.2 ⟨k, p, hp, objsTy_closed h hy⟩)))))

theorem unvisited_nil {α : Type} [DecidableEq α] (l : List α) : unvisited l [] = l.length := by
  unfold unvisited
  rw [List.filter_eq_self.2 (by simp)]

/-- The search ends. -/
theorem needs_total (g : Graph) (q : Tag) : ∃ b, needs? g q = some b := by
  obtain ⟨r, hr⟩ := needsAux_terminates (children g) (fun o => o.tag == q) (univ g) (univ_closed g)
    (2 * (univ g).length + 1) .graph [] (mem_univ.2 (.inl rfl)) (by rw [unvisited_nil]; simp)
  exact ⟨r.1, by unfold needs?; rw [hr]; rfl⟩

/-- What `_needs_type` can reach. -/
def Known (g : Graph) : Obj → Prop
  | .graph => True
  | .cls n => (∃ c ∈ g.classes, c.name = n) ∨ Occurs g (.cls n)
  | .embed n => (∃ e ∈ g.embeds, e.name = n) ∨ Occurs g (.embed n)
  | .val _ _ _ t => Occurs g t

theorem known_resolve {g : Graph} {o : Owner} {k d : Nat} {t : Ty} (h : Occurs g t) : Known g (resolve o k d t) := by
  cases t <;> first | exact h | exact .inr h

theorem occurs_owner {g : Graph} {o : Owner} {p : Property} (hp : p ∈ ownerProps g o) : Occurs g p.ty := by
  cases o with
  | graph => exact .graph p hp (self_mem_parts _)
  | cls n =>
    simp only [ownerProps] at hp
    cases hf : g.cls? n with
    | none => rw [hf] at hp; cases hp
    | some c => rw [hf] at hp; exact .cls c p (find_mem hf).1 hp (self_mem_parts _)
  | embed n =>
    simp only [ownerProps] at hp
    cases hf : g.embed? n with
    | none => rw [hf] at hp; cases hp
    | some c => rw [hf] at hp; exact .embed c p (find_mem hf).1 hp (self_mem_parts _)

theorem known_children {g : Graph} {x y : Obj} (hx : Known g x) (hy : y ∈ children g x) : Known g y := by
  have own : ∀ o, y ∈ propObjs o (ownerProps g o) → Known g y := by
    intro o h
    obtain ⟨k, p, hp, rfl⟩ := mem_propObjs.1 h
    exact known_resolve (occurs_owner (List.mem_of_getElem? hp))
  cases x with
  | graph =>
    simp only [children, List.mem_append, List.mem_map] at hy
    rcases hy with (⟨c, hc, rfl⟩ | ⟨e, he, rfl⟩) | hy
    · exact .inl ⟨c, hc, rfl⟩
    · exact .inl ⟨e, he, rfl⟩
    · exact own .graph hy
  | cls n => exact own _ hy
  | embed n => exact own _ hy
  | val o k d t =>
    cases t with
    | array t lo hi =>
      simp only [children, List.mem_singleton] at hy
      subst hy
      exact known_resolve (Occurs.part hx (by simp [parts, self_mem_parts]))
    | map t =>
      simp only [children, List.mem_singleton] at hy
      subst hy
      exact known_resolve (Occurs.part hx (by simp [parts, self_mem_parts]))
    | _ => simp [children] at hy

theorem reach_known {g : Graph} {x : Obj} (h : Reach (children g) .graph x) : Known g x :=
  h.closed (Known g) trivial fun _ hy _ hc => known_children hy hc

theorem tag_resolve (o : Owner) (k d : Nat) (t : Ty) : (resolve o k d t).tag = tyTag t := by
  cases t <;> rfl

/-- From the object of a type, all its parts are reached. -/
theorem reach_part {children : Obj → List Obj}
    (hc : ∀ o k d t lo hi, children (.val o k d (.array t lo hi)) = [resolve o k (d + 1) t])
    (hm : ∀ o k d t, children (.val o k d (.map t)) = [resolve o k (d + 1) t]) {o : Owner} {k d : Nat} {t u : Ty}
    (h : u ∈ parts t) : ∃ d', Reach children (resolve o k d t) (resolve o k d' u) := by
  induction t generalizing d with
  | array t lo hi ih =>
    simp only [parts, List.mem_cons] at h
    rcases h with rfl | h
    · exact ⟨d, .refl _⟩
    · obtain ⟨d', h'⟩ := ih (d := d + 1) h
      exact ⟨d', .step (by simp [resolve, hc]) h'⟩
  | map t ih =>
    simp only [parts, List.mem_cons] at h
    rcases h with rfl | h
    · exact ⟨d, .refl _⟩
    · obtain ⟨d', h'⟩ := ih (d := d + 1) h
      exact ⟨d', .step (by simp [resolve, hm]) h'⟩
  | _ => simp only [parts, List.mem_singleton] at h; subst h; exact ⟨d, .refl _⟩

theorem reach_occurs {g : Graph} (hn : Named g) {t : Ty} (h : Occurs g t) :
    ∃ x, Reach (children g) .graph x ∧ x.tag = tyTag t := by
  have main : ∀ o p, p ∈ ownerProps g o → t ∈ parts p.ty →
      (∀ y ∈ propObjs o (ownerProps g o), Reach (children g) .graph y) →
      ∃ x, Reach (children g) .graph x ∧ x.tag = tyTag t := by
    intro o p hp ht hr
    obtain ⟨k, hk⟩ := List.getElem?_of_mem hp
    obtain ⟨d', hd⟩ := reach_part (children := children g) (fun _ _ _ _ _ _ => rfl) (fun _ _ _ _ => rfl)
      (o := o) (k := k) (d := 0) ht
    exact ⟨_, (hr _ (mem_propObjs.2 ⟨k, p, hk, rfl⟩)).trans hd, tag_resolve ..⟩
  cases h with
  | graph p hp ht =>
    refine main .graph p hp ht fun y hy => .step ?_ (.refl _)
    simp only [children, List.mem_append]
    exact .inr hy
  | cls c p hc hp ht =>
    have hf : ownerProps g (.cls c.name) = c.properties := by simp [ownerProps, hn.cls? hc]
    refine main (.cls c.name) p (hf ▸ hp) ht fun y hy => ?_
    refine .step (c := .cls c.name) ?_ (.step hy (.refl _))
    simp only [children, List.mem_append, List.mem_map]
    exact .inl (.inl ⟨c, hc, rfl⟩)
  | embed c p hc hp ht =>
    have hf : ownerProps g (.embed c.name) = c.properties := by simp [ownerProps, hn.embed? hc]
    refine main (.embed c.name) p (hf ▸ hp) ht fun y hy => ?_
    refine .step (c := .embed c.name) ?_ (.step hy (.refl _))
    simp only [children, List.mem_append, List.mem_map]
    exact .inl (.inr ⟨c, hc, rfl⟩)

/-- `needs_type` on a graph: the graph itself, a class or an embed defined, or a type which occurs in a property. -/
theorem needs_iff {g : Graph} (hn : Named g) (q : Tag) : needs g q = true ↔
    q = .graph ∨ (q = .cls ∧ g.classes ≠ []) ∨ (q = .embed ∧ g.embeds ≠ []) ∨ ∃ t, Occurs g t ∧ tyTag t = q := by
  obtain ⟨b, hb⟩ := needs_total g q
  have hbe : needs g q = b := by unfold needs; rw [hb]; cases b <;> rfl
  rw [hbe]
  unfold needs? at hb
  rw [Option.map_eq_some_iff] at hb
  obtain ⟨⟨r, v⟩, h1, rfl⟩ := hb
  rw [needsAux_correct _ _ _ _ _ _ h1]
  simp only [beq_iff_eq]
  constructor
  · rintro ⟨x, hx, rfl⟩
    have hk := reach_known hx
    cases x with
    | graph => exact .inl rfl
    | cls n =>
      rcases hk with ⟨c, hc, _⟩ | hk
      · exact .inr (.inl ⟨rfl, List.ne_nil_of_mem hc⟩)
      · exact .inr (.inr (.inr ⟨_, hk, rfl⟩))
    | embed n =>
      rcases hk with ⟨c, hc, _⟩ | hk
      · exact .inr (.inr (.inl ⟨rfl, List.ne_nil_of_mem hc⟩))
      · exact .inr (.inr (.inr ⟨_, hk, rfl⟩))
    | val o k d t => exact .inr (.inr (.inr ⟨t, hk, rfl⟩))
  · rintro (rfl | ⟨rfl, h⟩ | ⟨rfl, h⟩ | ⟨t, ht, rfl⟩)
    · exact ⟨.graph, .refl _, rfl⟩
    · obtain ⟨c, cs, hc⟩ := List.exists_cons_of_ne_nil h
      exact ⟨.cls c.name, .step (by simp [children, hc]) (.refl _), rfl⟩
    · obtain ⟨c, cs, hc⟩ := List.exists_cons_of_ne_nil h
      exact ⟨.embed c.name, .step (by simp [children, hc]) (.refl _), rfl⟩
    · exact reach_occurs hn ht

/-! ## `references` -/

theorem refChildren_sub {g : Graph} {x y : Obj} (h : y ∈ refChildren g x) : y ∈ children g x := by
  cases x <;> first | exact h | cases h

theorem mem_insertSorted {α : Type} (le : α → α → Bool) (a x : α) (l : List α) :
    x ∈ insertSorted le a l ↔ x = a ∨ x ∈ l := by
  induction l with
  | nil => simp [insertSorted]
  | cons b l ih =>
    unfold insertSorted
    split
    · simp
    · simp only [List.mem_cons, ih]
      constructor <;> rintro (h | h | h) <;> simp [h]

theorem mem_sortBy {α : Type} (le : α → α → Bool) (x : α) (l : List α) : x ∈ sortBy le l ↔ x ∈ l := by
  unfold sortBy
  induction l with
  | nil => simp
  | cons a l ih => rw [List.foldr_cons, mem_insertSorted, ih, List.mem_cons]

theorem mem_toSet {α : Type} [DecidableEq α] (x : α) (l : List α) : x ∈ toSet l ↔ x ∈ l := by
  unfold toSet
  induction l with
  | nil => simp
  | cons a l ih => rw [List.foldr_cons, mem_insertNew, ih, List.mem_cons]

theorem nodup_insertSorted {α : Type} (le : α → α → Bool) (a : α) {l : List α} (h : l.Nodup) (ha : a ∉ l) :
    (insertSorted le a l).Nodup := by
  induction l with
  | nil => simp [insertSorted]
  | cons b l ih =>
    unfold insertSorted
    rw [List.nodup_cons] at h
    rw [List.mem_cons, not_or] at ha
    split
    · rw [List.nodup_cons, List.nodup_cons, List.mem_cons, not_or]
      exact ⟨ha, h⟩
    · rw [List.nodup_cons, mem_insertSorted, not_or]
      exact ⟨⟨Ne.symm ha.1, h.1⟩, ih h.2 ha.2⟩

theorem nodup_sortBy {α : Type} (le : α → α → Bool) {l : List α} (h : l.Nodup) : (sortBy le l).Nodup := by
  unfold sortBy
  induction l with
  | nil => simp
  | cons a l ih =>
    rw [List.nodup_cons] at h
    rw [List.foldr_cons]
    exact nodup_insertSorted le a (ih h.2) (fun hm => h.1 ((mem_sortBy le a l).1 hm))

theorem nodup_toSet {α : Type} [DecidableEq α] (l : List α) : (toSet l).Nodup := by
  unfold toSet
  induction l with
  | nil => simp
  | cons a l ih =>
    rw [List.foldr_cons, insertNew]
    split
    · exact ih
    · rename_i h; exact List.nodup_cons.2 ⟨h, ih⟩

theorem references_total (g : Graph) (o : Owner) : ∃ l, references? g o = some l := by
  unfold references?
  have : ∀ cs, (∀ c ∈ cs, c ∈ univ g) →
      ∃ f, refsOfAll (refChildren g) (fun x => x.tag == .cls) ((univ g).length + 1) cs = some f := by
    intro cs hcs
    induction cs with
    | nil => exact ⟨[], rfl⟩
    | cons c cs ih =>
      obtain ⟨f, hf⟩ := ih fun c hc => hcs c (List.mem_cons_of_mem _ hc)
      obtain ⟨r, hr⟩ := refsAux_terminates (refChildren g) (fun x => x.tag == .cls) (univ g)
        (fun x hx y hy => univ_closed g x hx y (refChildren_sub hy)) ((univ g).length + 1) c []
        (hcs c (List.mem_cons_self ..)) (by rw [unvisited_nil]; omega)
      obtain ⟨found, vis⟩ := r
      simp [refsOfAll, hr, hf]
  obtain ⟨f, hf⟩ := this (propObjs o (ownerProps g o)) fun c hc => owner_objs hc
  exact ⟨_, by rw [hf]; rfl⟩

/-- A class is referenced from a composite. -/
def Refers (g : Graph) (o : Owner) (n : Str) : Prop :=
  ∃ x ∈ propObjs o (ownerProps g o), Reach (refChildren g) x (.cls n)

/-- No `val` object holds a class or an embed. -/
def Resolved : Obj → Prop
  | .val _ _ _ (.cls _) => False
  | .val _ _ _ (.embed _) => False
  | _ => True

theorem resolved_resolve (o : Owner) (k d : Nat) (t : Ty) : Resolved (resolve o k d t) := by
  cases t <;> trivial

theorem resolved_children {g : Graph} {x y : Obj} (hy : y ∈ refChildren g x) : Resolved y := by
  have own : ∀ o ps, y ∈ propObjs o ps → Resolved y := by
    intro o ps h
    obtain ⟨k, p, _, rfl⟩ := mem_propObjs.1 h
    exact resolved_resolve ..
  cases x with
  | graph => cases hy
  | cls n => exact own _ _ hy
  | embed n => exact own _ _ hy
  | val o k d t =>
    cases t <;> simp [refChildren, children] at hy <;> (subst hy; exact resolved_resolve ..)

theorem resolved_reach {g : Graph} {x y : Obj} (hx : Resolved x) (h : Reach (refChildren g) x y) : Resolved y :=
  h.closed Resolved hx fun _ _ _ hc => resolved_children hc

theorem mem_references {g : Graph} {o : Owner} {l : List Str} (h : references? g o = some l) (n : Str) :
    n ∈ l ↔ Refers g o n := by
  unfold references? at h
  rw [Option.map_eq_some_iff] at h
  obtain ⟨found, hf, rfl⟩ := h
  simp only [List.mem_map, mem_sortBy, mem_toSet]
  constructor
  · rintro ⟨x, hx, rfl⟩
    rw [refsOfAll_correct _ _ _ _ _ hf] at hx
    obtain ⟨ht, y, hy, hr⟩ := hx
    obtain ⟨k, p, hp, rfl⟩ := mem_propObjs.1 hy
    have hres := resolved_reach (resolved_resolve ..) hr
    refine ⟨_, hy, ?_⟩
    cases x with
    | cls n => exact hr
    | graph => cases ht
    | embed n => cases ht
    | val o k d t => cases t <;> first | exact absurd hres id | cases ht
  · rintro ⟨x, hx, hr⟩
    exact ⟨.cls n, (refsOfAll_correct _ _ _ _ _ hf _).2 ⟨rfl, x, hx, hr⟩, rfl⟩

theorem className_inj {x y : Obj} (hx : x.tag = .cls) (rx : Resolved x) (hy : y.tag = .cls) (ry : Resolved y)
    (h : x.className = y.className) : x = y := by
  have key : ∀ z : Obj, z.tag = .cls → Resolved z → z = .cls z.className := by
    intro z hz rz
    cases z with
    | cls n => rfl
    | graph => cases hz
    | embed n => cases hz
    | val o k d t => cases t <;> first | exact absurd rz id | cases hz
  rw [key x hx rx, key y hy ry, h]

theorem nodup_references {g : Graph} {o : Owner} {l : List Str} (h : references? g o = some l) : l.Nodup := by
  unfold references? at h
  rw [Option.map_eq_some_iff] at h
  obtain ⟨found, hf, rfl⟩ := h
  have hall : ∀ x ∈ sortBy (fun x y : Obj => strLe x.className y.className) (toSet found),
      x.tag = .cls ∧ Resolved x := by
    intro x hx
    rw [mem_sortBy, mem_toSet, refsOfAll_correct _ _ _ _ _ hf] at hx
    obtain ⟨ht, y, hy, hr⟩ := hx
    obtain ⟨k, p, hp, rfl⟩ := mem_propObjs.1 hy
    exact ⟨by simpa using ht, resolved_reach (resolved_resolve ..) hr⟩
  refine List.pairwise_map.2 (List.Pairwise.imp_of_mem ?_ (nodup_sortBy _ (nodup_toSet found)))
  intro x y hx hy hne he
  exact hne (className_inj (hall x hx).1 (hall x hx).2 (hall y hy).1 (hall y hy).2 he)

/-- The classes in the type of a property are referenced. -/
theorem refers_class {g : Graph} {o : Owner} {p : Property} {n : Str} (hp : p ∈ ownerProps g o)
    (h : Ty.cls n ∈ parts p.ty) : Refers g o n := by
  obtain ⟨k, hk⟩ := List.getElem?_of_mem hp
  obtain ⟨d', hd⟩ := reach_part (children := refChildren g) (fun _ _ _ _ _ _ => rfl) (fun _ _ _ _ => rfl)
    (o := o) (k := k) (d := 0) h
  exact ⟨_, mem_propObjs.2 ⟨k, p, hk, rfl⟩, hd⟩

/-- What an embed in the type of a property references is referenced. -/
theorem refers_embed {g : Graph} {o : Owner} {p : Property} {n m : Str} (hp : p ∈ ownerProps g o)
    (h : Ty.embed n ∈ parts p.ty) (hm : Refers g (.embed n) m) : Refers g o m := by
  obtain ⟨k, hk⟩ := List.getElem?_of_mem hp
  obtain ⟨d', hd⟩ := reach_part (children := refChildren g) (fun _ _ _ _ _ _ => rfl) (fun _ _ _ _ => rfl)
    (o := o) (k := k) (d := 0) h
  obtain ⟨x, hx, hr⟩ := hm
  exact ⟨_, mem_propObjs.2 ⟨k, p, hk, rfl⟩, hd.trans (.step hx hr)⟩

end Mapry.TypeGraph
