import Verif.PyExecGraph
import Verif.PySpec

/-! # What can be reached from a parsed graph -/

namespace Mapry.PyExec

open Mapry.PyLang
open Mapry.PyRuntime (Json Val Attrs GraphVal Registry Lib)
open Mapry.PyRuntime.Spec
open Mapry.PyCode (idOf)

/-- The value `q` can be reached from `p` by attributes, items of lists and entries of dictionaries. -/
inductive Reach (h : List Obj) : PV → PV → Prop where
  | here (p : PV) : Reach h p p
  | item {a : Addr} {ps : List PV} {p q : PV} : h[a]? = some (.list ps) → p ∈ ps → Reach h p q → Reach h (.addr a) q
  | entry {a : Addr} {o : Bool} {kvs : List (Str × PV)} {k : Str} {p q : PV} : h[a]? = some (.dict o kvs) → (k, p) ∈ kvs →
      Reach h p q → Reach h (.addr a) q
  | attr {a : Addr} {c x : Str} {attrs : List (Str × PV)} {p q : PV} : h[a]? = some (.inst c attrs) →
      attrs.lookup x = some p → Reach h p q → Reach h (.addr a) q

/-- All the references in a value are to instances in `ids`, and all the structures in it are embeds of the schema. -/
inductive Closed (g : Graph) (ids : Str → Str → Prop) : Val → Prop where
  | none : Closed g ids .none
  | bool (b) : Closed g ids (.bool b)
  | int (i) : Closed g ids (.int i)
  | float (f) : Closed g ids (.float f)
  | str (s) : Closed g ids (.str s)
  | path (s) : Closed g ids (.path s)
  | date (d) : Closed g ids (.date d)
  | time (t) : Closed g ids (.time t)
  | datetime (d) : Closed g ids (.datetime d)
  | zone (s) : Closed g ids (.zone s)
  | duration (d) : Closed g ids (.duration d)
  | list {vs : List Val} : (∀ v ∈ vs, Closed g ids v) → Closed g ids (.list vs)
  | map {o : Bool} {kvs : List (Str × Val)} : (∀ kv ∈ kvs, Closed g ids kv.2) → Closed g ids (.map o kvs)
  | ref {c id : Str} : ids c id → Closed g ids (.ref c id)
  | obj {n : Str} {attrs : Attrs} : (∃ e ∈ g.embeds, e.name = n) → (∀ kv ∈ attrs, Closed g ids kv.2) → Closed g ids (.obj n attrs)

section

variable {lax : Bool} {L : Lib} {S : PyRuntime.Settings} {g : Graph} {ids : Str → Str → Prop}

theorem forall₂_right {α β : Type} {R : α → β → Prop} {P : β → Prop} (h : ∀ a b, R a b → P b) {xs : List α} {ys : List β}
    (hr : Forall₂ R xs ys) : ∀ y ∈ ys, P y := by
  induction hr with
  | nil => nofun
  | cons h1 _ ih =>
    intro y hy
    rcases List.mem_cons.1 hy with rfl | hy
    · exact h _ _ h1
    · exact ih y hy

theorem readsTy_closed {embed : Str → Json → Val → Prop} (he : ∀ n v x, embed n v x → Closed g ids x) (ty : Ty) :
    ∀ v x, ReadsTy lax L S ids embed ty v x → Closed g ids x := by
  induction ty with
  | boolean => rintro v x ⟨c, _, rfl⟩; exact .bool _
  | integer b =>
    rintro v x ⟨i, hi, _⟩
    cases hi with
    | int i => exact .int _
    | bool c _ => exact .bool _
  | float b =>
    rintro v x (⟨f, _, rfl, _⟩ | ⟨w, i, q, _, rfl, _⟩)
    · exact .float _
    · exact .float _
  | string p => rintro v x ⟨s, _, rfl, _⟩; exact .str _
  | path p =>
    rintro v x ⟨s, _, rfl, _⟩
    unfold pathVal
    split
    · exact .path _
    · exact .str _
  | date f => rintro v x ⟨s, d, _, _, rfl⟩; exact .date _
  | time f => rintro v x ⟨s, d, _, _, rfl⟩; exact .time _
  | datetime f => rintro v x ⟨s, d, _, _, rfl⟩; exact .datetime _
  | timeZone =>
    rintro v x ⟨s, _, h⟩
    split at h
    · obtain ⟨z, _, rfl⟩ := h
      exact .zone _
    · subst h
      exact .str _
  | duration => rintro v x ⟨s, d, _, _, rfl⟩; exact .duration _
  | array t lo hi ih =>
    rintro v x ⟨xs, vs, _, rfl, _, hf⟩
    exact .list (forall₂_right ih hf)
  | map t ih =>
    rintro v x ⟨o, kvs, ws, _, rfl, hf⟩
    exact .map (forall₂_right (fun a b h => ih _ _ h.2) hf)
  | cls c => rintro v x ⟨id, _, rfl, h⟩; exact .ref h
  | embed n => exact he n

theorem readsProps_closed {reads : Ty → Json → Val → Prop} (h : ∀ ty v x, reads ty v x → Closed g ids x)
    {kvs : List (Str × Json)} {ps : List Property} {attrs : Attrs} (hr : ReadsProps reads kvs ps attrs) :
    ∀ kv ∈ attrs, Closed g ids kv.2 := by
  refine forall₂_right (fun p a ha => ?_) hr
  have ha := ha.2
  unfold ReadsProperty at ha
  split at ha
  · rw [ha.2]
    exact .none
  · exact h _ _ _ ha

theorem readsEmbed_closed : ∀ n name v x, ReadsEmbed lax L S g ids n name v x → Closed g ids x := by
  intro n
  induction n with
  | zero => exact fun _ _ _ h => h.elim
  | succ n ih =>
    rintro name v x ⟨e, o, kvs, attrs, he, _, rfl, hp⟩
    obtain ⟨h1, h2⟩ := TypeGraph.find_mem he
    exact .obj ⟨e, h1, by simpa using h2⟩ (readsProps_closed (readsTy_closed ih) hp)

/-- The instance is in the registry of its class. -/
def Held (g : Graph) (gv : GraphVal) (c id : Str) : Prop :=
  ∃ d ∈ g.classes, d.name = c ∧ ∃ r, (c, r) ∈ gv.registries ∧ ∃ i ∈ r.instances, i.1 = id

theorem forall₂_left {α β : Type} {R : α → β → Prop} {xs : List α} {ys : List β} (hr : Forall₂ R xs ys) :
    ∀ x ∈ xs, ∃ y ∈ ys, R x y := by
  induction hr with
  | nil => nofun
  | cons h1 _ ih =>
    intro x hx
    rcases List.mem_cons.1 hx with rfl | hx
    · exact ⟨_, List.mem_cons_self, h1⟩
    · obtain ⟨y, hy, h⟩ := ih x hx
      exact ⟨y, List.mem_cons_of_mem _ hy, h⟩

theorem forall₂_mem_right {α β : Type} {R : α → β → Prop} {xs : List α} {ys : List β} (hr : Forall₂ R xs ys) :
    ∀ y ∈ ys, ∃ x ∈ xs, R x y := by
  induction hr with
  | nil => nofun
  | cons h1 _ ih =>
    intro x hx
    rcases List.mem_cons.1 hx with rfl | hx
    · exact ⟨_, List.mem_cons_self, h1⟩
    · obtain ⟨y, hy, h⟩ := ih x hx
      exact ⟨y, List.mem_cons_of_mem _ hy, h⟩

theorem described_held {n : Nat} {kvs : List (Str × Json)} {gv : GraphVal}
    (hr : Forall₂ (fun (c : Class) (r : Str × Registry) => r.1 = c.name ∧ ReadsRegistry lax L S g n kvs c r.2) g.classes gv.registries)
    {c id : Str} (h : Described g kvs c id) : Held g gv c id := by
  obtain ⟨d, hd, rfl, o, entries, he, hid⟩ := h
  obtain ⟨⟨_, r⟩, hm, rfl, hreg⟩ := forall₂_left hr d hd
  refine ⟨d, hd, rfl, r, hm, ?_⟩
  rcases hreg with ⟨hn, _⟩ | ⟨o', es', he', _, hf⟩
  · rw [he] at hn
    cases hn
  · rw [he] at he'
    cases he'
    obtain ⟨e, hem, rfl⟩ := List.mem_map.1 hid
    obtain ⟨i, hi, h1, _⟩ := forall₂_left hf e hem
    exact ⟨i, hi, h1⟩

/-- The references in a graph which is described are to instances in its registries. -/
theorem graph_closed {n : Nat} {v : Json} {gv : GraphVal} (h : ReadsGraph lax L S g n v gv) :
    (∀ kv ∈ gv.attrs, Closed g (Held g gv) kv.2) ∧ ∀ c ∈ g.classes, ∀ r, (c.name, r) ∈ gv.registries → ∀ i ∈ r.instances,
      ∀ kv ∈ i.2.attrs, Closed g (Held g gv) kv.2 := by
  obtain ⟨o, kvs, rfl, hregs, hattrs⟩ := h
  have hD : ∀ ty v x, Reads lax L S g (Described g kvs) n ty v x → Closed g (Held g gv) x := by
    intro ty v x hx
    have := readsTy_closed (g := g) (readsEmbed_closed n) ty v x hx
    clear hx
    induction this with
    | none => exact .none
    | bool => exact .bool _
    | int => exact .int _
    | float => exact .float _
    | str => exact .str _
    | path => exact .path _
    | date => exact .date _
    | time => exact .time _
    | datetime => exact .datetime _
    | zone => exact .zone _
    | duration => exact .duration _
    | list _ ih => exact .list ih
    | map _ ih => exact .map ih
    | ref h => exact .ref (described_held hregs h)
    | obj h _ ih => exact .obj h ih
  refine ⟨readsProps_closed hD hattrs, ?_⟩
  intro c hc r hr i hi
  obtain ⟨d, hd, he, hreg⟩ := forall₂_mem_right hregs _ hr
  rcases hreg with ⟨_, hreg⟩ | ⟨o', es', _, _, hf⟩
  · simp only at hreg
    subst hreg
    cases hi
  · obtain ⟨e, _, _, _, _, o'', kvs', _, hp⟩ := forall₂_mem_right hf i hi
    exact readsProps_closed hD hp

/-- What can be reached from the graph -/
inductive Known (g : Graph) (h : List Obj) (place : Str → Str → Addr) (lo : Nat) (a : Addr) (gv : GraphVal) : PV → Prop where
  | graph : Known g h place lo a gv (.addr a)
  | registry {c : Class} {r : Registry} {d : Addr} : c ∈ g.classes → (c.name, r) ∈ gv.registries → lo ≤ d →
      h[d]? = some (.dict r.ordered (r.instances.map fun i => (i.1, .addr (place c.name i.1)))) → Known g h place lo a gv (.addr d)
  | inst {c id : Str} : Held g gv c id → Known g h place lo a gv (.addr (place c id))
  | value {v : Val} {p : PV} : Closed g (Held g gv) v → Rep place h lo v p → (∀ c id, v ≠ .ref c id) → Known g h place lo a gv p

theorem known_value {h : List Obj} {place : Str → Str → Addr} {lo : Nat} {a : Addr} {gv : GraphVal} {v : Val} {p : PV}
    (hc : Closed g (Held g gv) v) (hr : Rep place h lo v p) : Known g h place lo a gv p := by
  by_cases hv : ∃ c id, v = .ref c id
  · obtain ⟨c, id, rfl⟩ := hv
    cases hr
    cases hc with
    | ref hc => exact .inst hc
  · exact .value hc hr fun c id e => hv ⟨c, id, e⟩

section

variable {h : List Obj} {place : Str → Str → Addr} {lo : Nat} {a : Addr} {gv : GraphVal}

theorem GraphRep.registry (hG : GraphRep g h place lo a gv) {c : Class} (hc : c ∈ g.classes) : ∃ r, (c.name, r) ∈ gv.registries := by
  have : c.name ∈ gv.registries.map (·.1) := by
    rw [hG.names]
    exact List.mem_map_of_mem hc
  obtain ⟨⟨_, r⟩, hr, rfl⟩ := List.mem_map.1 this
  exact ⟨r, hr⟩

theorem held_inst (hG : GraphRep g h place lo a gv) {c id : Str} (hh : Held g gv c id) :
    ∃ d ∈ g.classes, d.name = c ∧ ∃ r, (c, r) ∈ gv.registries ∧ ∃ i ∈ r.instances, i.1 = id ∧ lo ≤ place c id ∧ ∃ p,
      h[place c id]? = some (.inst (idOf c) p) ∧ p.lookup c!"id" = some (.str id) ∧ AttrsRep place h lo [c!"id"] i.2.attrs p := by
  obtain ⟨d, hd, rfl, r, hr, i, hi, rfl⟩ := hh
  obtain ⟨_, h1, h2⟩ := hG.insts d hd r hr i hi
  exact ⟨d, hd, rfl, r, hr, i, hi, rfl, h1, h2⟩

theorem reach_known (hG : GraphRep g h place lo a gv) (hA : ∀ kv ∈ gv.attrs, Closed g (Held g gv) kv.2)
    (hI : ∀ c ∈ g.classes, ∀ r, (c.name, r) ∈ gv.registries → ∀ i ∈ r.instances, ∀ kv ∈ i.2.attrs, Closed g (Held g gv) kv.2)
    {p q : PV} (hr : Reach h p q) : Known g h place lo a gv p → Known g h place lo a gv q := by
  induction hr with
  | here => exact id
  | @item b ps p q hb hp _ ih =>
    intro hk
    apply ih
    cases hk with
    | graph =>
      obtain ⟨_, h1, _⟩ := hG.graph
      rw [h1] at hb
      cases hb
    | registry _ _ _ h1 =>
      rw [h1] at hb
      cases hb
    | inst hh =>
      obtain ⟨_, _, _, _, _, _, _, _, _, _, h1, _⟩ := held_inst hG hh
      rw [h1] at hb
      cases hb
    | value hc hr hn =>
      cases hr with
      | list _ h1 hl hs =>
        rw [h1] at hb
        cases hb
        obtain ⟨i, hi, rfl⟩ := List.mem_iff_getElem.1 hp
        cases hc with
        | list hc => exact known_value (hc _ (List.getElem_mem (by omega : i < _))) (hs i _ _ (List.getElem?_eq_getElem (by omega)) (List.getElem?_eq_getElem hi))
      | map _ h1 =>
        rw [h1] at hb
        cases hb
      | ref c id => exact absurd rfl (hn c id)
      | obj _ h1 =>
        rw [h1] at hb
        cases hb
  | @entry b o kvs k p q hb hp _ ih =>
    intro hk
    apply ih
    cases hk with
    | graph =>
      obtain ⟨_, h1, _⟩ := hG.graph
      rw [h1] at hb
      cases hb
    | registry hc hr _ h1 =>
      rw [h1] at hb
      cases hb
      obtain ⟨i, hi, e⟩ := List.mem_map.1 hp
      cases e
      exact .inst ⟨_, hc, rfl, _, hr, i, hi, rfl⟩
    | inst hh =>
      obtain ⟨_, _, _, _, _, _, _, _, _, _, h1, _⟩ := held_inst hG hh
      rw [h1] at hb
      cases hb
    | value hc hr hn =>
      cases hr with
      | list _ h1 =>
        rw [h1] at hb
        cases hb
      | @map _ _ ws _ _ h1 hl hs =>
        rw [h1] at hb
        cases hb
        obtain ⟨i, hi, e⟩ := List.mem_iff_getElem.1 hp
        have hlen : ws.length = kvs.length := by simpa using congrArg List.length hl
        cases hc with
        | map hc =>
          have := hs i _ _ (List.getElem?_eq_getElem (by omega)) (List.getElem?_eq_getElem hi)
          rw [e] at this
          exact known_value (hc _ (List.getElem_mem (by omega : i < _))) this
      | ref c id => exact absurd rfl (hn c id)
      | obj _ h1 =>
        rw [h1] at hb
        cases hb
  | @attr b c x attrs p q hb hp _ ih =>
    intro hk
    apply ih
    cases hk with
    | graph =>
      obtain ⟨q, h1, h2, h3⟩ := hG.graph
      rw [h1] at hb
      cases hb
      by_cases hx : x ∈ plurals g
      · obtain ⟨d, hd, rfl⟩ := List.mem_map.1 hx
        obtain ⟨r, hr⟩ := hG.registry hd
        obtain ⟨e, he, hlo, h4⟩ := h3 d hd r hr
        rw [he] at hp
        cases hp
        exact .registry hd hr hlo h4
      · cases hv : gv.attrs.lookup x with
        | none =>
          rw [(h2.1 x hx).1 hv] at hp
          cases hp
        | some v => exact known_value (hA _ (mem_of_lookup hv)) (h2.2 x v p hx hv hp)
    | registry hc hr _ h1 =>
      rw [h1] at hb
      cases hb
    | inst hh =>
      obtain ⟨d, hd, rfl, r, hr, i, hi, rfl, _, ps, h1, h2, h3⟩ := held_inst hG hh
      rw [h1] at hb
      cases hb
      by_cases hx : x = c!"id"
      · subst hx
        rw [h2] at hp
        cases hp
        exact known_value (.str _) (.str _)
      · cases hv : i.2.attrs.lookup x with
        | none =>
          rw [(h3.1 x (by simpa using hx)).1 hv] at hp
          cases hp
        | some v => exact known_value (hI d hd r hr i hi _ (mem_of_lookup hv)) (h3.2 x v p (by simpa using hx) hv hp)
    | value hc hr hn =>
      cases hr with
      | list _ h1 =>
        rw [h1] at hb
        cases hb
      | map _ h1 =>
        rw [h1] at hb
        cases hb
      | ref c id => exact absurd rfl (hn c id)
      | @obj _ _ _ as _ _ h1 _ h2 h3 =>
        rw [h1] at hb
        cases hb
        cases hv : as.lookup x with
        | none =>
          rw [(h2 x).1 hv] at hp
          cases hp
        | some v =>
          cases hc with
          | obj _ hc => exact known_value (hc _ (mem_of_lookup hv)) (h3 x v p hv hp)

theorem lookup_entries {f : Str → PV} {id : Str} : ∀ {l : List (Str × PyRuntime.Instance)}, (∃ i ∈ l, i.1 = id) →
    (l.map fun i => (i.1, f i.1)).lookup id = some (f id)
  | [], h => by simp at h
  | i :: l, h => by
    simp only [List.map_cons, List.lookup_cons]
    by_cases e : id = i.1
    · subst e
      simp
    · rw [beq_false_of_ne e]
      refine lookup_entries ?_
      obtain ⟨j, hj, hid⟩ := h
      rcases List.mem_cons.1 hj with rfl | hj
      · exact absurd hid.symm e
      · exact ⟨j, hj, hid⟩

theorem entries_lookup {f : Str → PV} {id : Str} {p : PV} : ∀ {l : List (Str × PyRuntime.Instance)},
    (l.map fun i => (i.1, f i.1)).lookup id = some p → (∃ i ∈ l, i.1 = id) ∧ p = f id
  | [], h => by simp at h
  | i :: l, h => by
    simp only [List.map_cons, List.lookup_cons] at h
    by_cases e : id = i.1
    · subst e
      simp at h
      exact ⟨⟨i, List.mem_cons_self, rfl⟩, h.symm⟩
    · rw [beq_false_of_ne e] at h
      obtain ⟨⟨j, hj, hid⟩, hp⟩ := entries_lookup h
      exact ⟨⟨j, List.mem_cons_of_mem _ hj, hid⟩, hp⟩

/-- Every object which is reached is a new one, and nothing of the input is reached. -/
theorem known_fresh (hG : GraphRep g h place lo a gv) {p : PV} (hk : Known g h place lo a gv p) :
    (∀ b, p = .addr b → b = a ∨ lo ≤ b) ∧ (∀ xs, p ≠ .arr xs) ∧ ∀ o kvs, p ≠ .obj o kvs := by
  cases hk with
  | graph => exact ⟨fun b e => by cases e; exact .inl rfl, nofun, nofun⟩
  | registry _ _ hlo _ => exact ⟨fun b e => by cases e; exact .inr hlo, nofun, nofun⟩
  | inst hh =>
    obtain ⟨_, _, _, _, _, _, _, _, hlo, _⟩ := held_inst hG hh
    exact ⟨fun b e => by cases e; exact .inr hlo, nofun, nofun⟩
  | value hc hr hn =>
    cases hr with
    | list hlo => exact ⟨fun b e => by cases e; exact .inr hlo, nofun, nofun⟩
    | map hlo => exact ⟨fun b e => by cases e; exact .inr hlo, nofun, nofun⟩
    | obj hlo => exact ⟨fun b e => by cases e; exact .inr hlo, nofun, nofun⟩
    | ref c id => exact absurd rfl (hn c id)
    | _ => exact ⟨nofun, nofun, nofun⟩

/-- An instance of a class which is reached is in the registry. -/
theorem known_inst (hG : GraphRep g h place lo a gv) (hids : ((PyCode.allNames g).map idOf).Nodup) {b : Addr}
    (hk : Known g h place lo a gv (.addr b)) {c : Class} (hc : c ∈ g.classes) {p : List (Str × PV)}
    (hb : h[b]? = some (.inst (idOf c.name) p)) : ∃ id, Held g gv c.name id ∧ b = place c.name id := by
  have hinj : ∀ n ∈ PyCode.allNames g, idOf n = idOf c.name → n = c.name := fun n hn e =>
    nodup_inj hids hn (class_name hc) e
  simp only [PyCode.allNames, PyCode.defNames, List.map_append, List.nodup_append] at hids
  obtain ⟨⟨_, _, hce⟩, _, hg⟩ := hids
  cases hk with
  | graph =>
    obtain ⟨_, h1, _⟩ := hG.graph
    rw [h1] at hb
    injection hb with hb
    injection hb with hb
    exact absurd hb.symm (hg _ (List.mem_append_left _ (List.mem_map_of_mem (List.mem_map_of_mem hc))) _ (by simp))
  | registry _ _ _ h1 =>
    rw [h1] at hb
    cases hb
  | @inst c' id hh =>
    obtain ⟨d, hd, rfl, _, _, _, _, _, _, _, h1, _⟩ := held_inst hG hh
    rw [h1] at hb
    injection hb with hb
    injection hb with hb
    have := hinj _ (class_name hd) hb
    rw [← this]
    exact ⟨id, hh, rfl⟩
  | value hk hr hn =>
    cases hr with
    | list _ h1 =>
      rw [h1] at hb
      cases hb
    | map _ h1 =>
      rw [h1] at hb
      cases hb
    | ref c id => exact absurd rfl (hn c id)
    | obj _ h1 h2 =>
      rw [h1] at hb
      injection hb with hb
      injection hb with hb
      cases hk with
      | obj he _ =>
        obtain ⟨e, he, rfl⟩ := he
        have h3 := PyCode.idOf_eq h2
        exact absurd (hb.symm.trans h3.symm) (hce _ (List.mem_map_of_mem (List.mem_map_of_mem hc)) _
          (List.mem_map_of_mem (List.mem_map_of_mem he)))

end

end

end Mapry.PyExec
