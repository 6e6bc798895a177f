import Verif.PyIdentity
import Verif.PyWriteGraph

/-! # The objects of a parsed graph are the ones which the serializer expects -/

namespace Mapry.PyExec

open Mapry.PyLang
open Mapry.PyRuntime (Json Val Attrs GraphVal Registry Lib)
open Mapry.PyRuntime.Spec
open Mapry.PyCode (idOf)

section

variable {lax : Bool} {L : Lib} {S : PyRuntime.Settings} {g : Graph} {ids : Str → Str → Prop} {place : Str → Str → Addr}
  {h : List Obj} {lo : Nat}

/-- The instances which may be referred to are at their places. -/
def RefsIn (h : List Obj) (place : Str → Str → Addr) (ids : Str → Str → Prop) : Prop :=
  ∀ c id, ids c id → ∃ cn q, h[place c id]? = some (.inst cn q) ∧ q.lookup c!"id" = some (.str id)

theorem forall₂_at {α β : Type} {R : α → β → Prop} {xs : List α} {ys : List β} (hr : Forall₂ R xs ys) :
    xs.length = ys.length ∧ ∀ (i : Nat) y, ys[i]? = some y → ∃ x, xs[i]? = some x ∧ x ∈ xs ∧ R x y := by
  induction hr with
  | nil => exact ⟨rfl, nofun⟩
  | cons h1 _ ih =>
    refine ⟨by simp [ih.1], fun i y hy => ?_⟩
    cases i with
    | zero =>
      cases hy
      exact ⟨_, rfl, by simp, h1⟩
    | succ i =>
      obtain ⟨x, e, hm, hx⟩ := ih.2 i y (by simpa using hy)
      exact ⟨x, by simpa using e, by simp [hm], hx⟩

theorem lookup_mem' {α : Type} {k : Str} {v : α} : ∀ {l : List (Str × α)}, l.lookup k = some v → (k, v) ∈ l
  | (k', w) :: l, e => by
    rw [List.lookup_cons] at e
    split at e
    · rename_i hk
      cases e
      simp only [beq_iff_eq] at hk
      subst hk
      exact List.mem_cons_self
    · exact List.mem_cons_of_mem _ (lookup_mem' e)

theorem readsTy_shown (hM : RefsIn h place ids) {embed : Str → Json → Val → Prop}
    (he : ∀ n v x p, Keyed v → embed n v x → Rep place h lo x p → Shows h x p) (ty : Ty) :
    ∀ v x p, Keyed v → ReadsTy lax L S ids embed ty v x → Rep place h lo x p → Shows h x p := by
  induction ty with
  | boolean => rintro v x p _ ⟨c, _, rfl⟩ hp; cases hp; exact .bool _
  | integer b =>
    rintro v x p _ ⟨i, hi, _⟩ hp
    cases hi with
    | int i => cases hp; exact .int _
    | bool c _ => cases hp; exact .bool _
  | float b =>
    rintro v x p _ (⟨f, _, rfl, _⟩ | ⟨w, i, q, _, rfl, _⟩) hp
    · cases hp; exact .float _
    · cases hp; exact .float _
  | string p => rintro v x p _ ⟨s, _, rfl, _⟩ hp; cases hp; exact .str _
  | path p =>
    rintro v x p _ ⟨s, _, rfl, _⟩ hp
    unfold pathVal at hp ⊢
    split at hp
    · rename_i e
      rw [if_pos e]
      cases hp
      exact .path _
    · rename_i e
      rw [if_neg e]
      cases hp
      exact .str _
  | date f => rintro v x p _ ⟨s, d, _, _, rfl⟩ hp; cases hp; exact .date _
  | time f => rintro v x p _ ⟨s, d, _, _, rfl⟩ hp; cases hp; exact .time _
  | datetime f => rintro v x p _ ⟨s, d, _, _, rfl⟩ hp; cases hp; exact .datetime _
  | timeZone =>
    rintro v x p _ ⟨s, _, h⟩ hp
    split at h
    · obtain ⟨z, _, rfl⟩ := h
      cases hp
      exact .zone _
    · subst h
      cases hp
      exact .str _
  | duration => rintro v x p _ ⟨s, d, _, _, rfl⟩ hp; cases hp; exact .duration _
  | array t lo' hi ih =>
    rintro v x p hk ⟨xs, vs, rfl, rfl, _, hf⟩ hp
    cases hk with
    | arr hk =>
      cases hp with
      | list hl ha hn hi =>
        refine .list ha hn fun i w q h1 h2 => ?_
        obtain ⟨y, _, hm, hy⟩ := (forall₂_at hf).2 i w h1
        exact ih y w q (hk y hm) hy (hi i w q h1 h2)
  | map t ih =>
    rintro v x p hk ⟨o, kvs, ws, rfl, rfl, hf⟩ hp
    cases hk with
    | obj hnd hk =>
      cases hp with
      | map hl ha hn hi =>
        refine .map ha hn ?_ fun i w q h1 h2 => ?_
        · rw [← hn]
          have : kvs.map (·.1) = ws.map (·.1) := by
            clear hn hi ha hk hnd
            induction hf with
            | nil => rfl
            | cons h1 _ ih => simp [h1.1, ih]
          rw [← this]
          exact hnd
        · obtain ⟨y, _, hm, hy⟩ := (forall₂_at hf).2 i w h1
          exact ih y.2 w.2 q.2 (hk y hm) hy.2 (hi i w q h1 h2)
  | cls c =>
    rintro v x p _ ⟨id, _, rfl, hid⟩ hp
    cases hp with
    | ref =>
      obtain ⟨cn, q, h1, h2⟩ := hM _ _ hid
      exact .ref h1 h2
  | embed n => exact he n

theorem readsProps_shown {reads : Ty → Json → Val → Prop} {o : Bool} {kvs : List (Str × Json)} (hk : Keyed (.obj o kvs))
    (hr : ∀ ty v x p, Keyed v → reads ty v x → Rep place h lo x p → Shows h x p) {ps : List Property} {attrs : Attrs}
    (hp : ReadsProps reads kvs ps attrs) : ∀ kv ∈ attrs, ∀ p, Rep place h lo kv.2 p → Shows h kv.2 p := by
  refine forall₂_right (fun p a ha q hq => ?_) hp
  have ha := ha.2
  unfold ReadsProperty at ha
  split at ha
  · rw [ha.2] at hq ⊢
    cases hq
    exact .none
  · rename_i v e
    refine hr _ v _ _ ?_ ha hq
    cases hk with
    | obj _ hk =>
      refine hk (p.json, v) (lookup_mem' ?_)
      unfold present at e
      split at e
      · cases e
      · exact e

theorem readsEmbed_shown (hM : RefsIn h place ids) : ∀ n name v x p, Keyed v → ReadsEmbed lax L S g ids n name v x →
    Rep place h lo x p → Shows h x p := by
  intro n
  induction n with
  | zero => exact fun _ _ _ _ _ h => h.elim
  | succ n ih =>
    rintro name v x p hk ⟨e, o, kvs, attrs, he, rfl, rfl, hp⟩ hr
    cases hr with
    | obj hl ha _ hn hv =>
      refine .obj ha hn fun x w q h1 h2 => ?_
      exact readsProps_shown hk (readsTy_shown hM ih) hp (x, w) (lookup_mem' h1) q (hv x w q h1 h2)

theorem reads_shown (hM : RefsIn h place ids) (n : Nat) : ∀ ty v x p, Keyed v → PyRuntime.Spec.Reads lax L S g ids n ty v x →
    Rep place h lo x p → Shows h x p := readsTy_shown hM (readsEmbed_shown hM n)

/-- A graph which is parsed can be serialized. -/
theorem graph_shown {a : Addr} {n : Nat} {v : Json} {gv : GraphVal} (hnd : (g.classes.map (·.name)).Nodup) (hk : Keyed v)
    (hr : ReadsGraph lax L S g n v gv) (hg : GraphRep g h place lo a gv) : ShowsGraph h g gv a := by
  obtain ⟨o, kvs, rfl, hregs, hattrs⟩ := hr
  have hM : RefsIn h place (Described g kvs) := by
    intro c id hid
    obtain ⟨d, hd, rfl, r, hr, i, hi, rfl⟩ := described_held hregs hid
    obtain ⟨_, _, p, h1, h2, _⟩ := hg.insts d hd r hr i hi
    exact ⟨_, p, h1, h2⟩
  have hsh := reads_shown (lax := lax) (L := L) (S := S) (g := g) (lo := lo) hM n
  have hentries : ∀ k w, kvs.lookup k = some w → Keyed w := fun k w e => by
    cases hk with
    | obj _ hk => exact hk _ (lookup_mem' e)
  have hnames : (gv.registries.map (·.1)).Nodup := by rw [hg.names]; exact hnd
  obtain ⟨q, h1, h2, h3⟩ := hg.graph
  refine ⟨_, q, h1, fun x hx => ⟨h2.1 x hx, fun w p e1 e2 => ?_⟩, fun c hc => ?_⟩
  · exact readsProps_shown hk hsh hattrs (x, w) (lookup_mem' e1) p (h2.2 x w p hx e1 e2)
  · obtain ⟨⟨_, r⟩, hm, rfl, hreg⟩ := forall₂_left hregs c hc
    have hl : gv.registries.lookup c.name = some r := lookup_mem hnames hm
    obtain ⟨d, e1, _, e2⟩ := h3 c hc r hm
    rw [hl, e1]
    refine ⟨by simp, ?_⟩
    rintro _ _ ⟨⟩ ⟨⟩
    refine ⟨d, _, rfl, e2, ?_, ?_⟩
    · rw [List.map_map]
      rcases hreg with ⟨_, hreg⟩ | ⟨o', es', hes, _, hf⟩
      · simp only at hreg
        subst hreg
        exact List.nodup_nil
      · have hk' := hentries _ _ hes
        have : r.instances.map (·.1) = es'.map (·.1) := by
          clear hes hk'
          generalize r.instances = is at hf
          induction hf with
          | nil => rfl
          | cons h1 _ ih => simp [h1.1, ih]
        change (r.instances.map (·.1)).Nodup
        rw [this]
        cases hk' with
        | obj hn _ => exact hn
    · have hall : ∀ i ∈ r.instances, ShowsInst h i.2 (.addr (place c.name i.1)) := by
        intro i hi
        obtain ⟨f1, _, p, f2, f3, f4⟩ := hg.insts c hc r hm i hi
        rcases hreg with ⟨_, hreg⟩ | ⟨o', es', hes, _, hf⟩
        · simp only at hreg
          subst hreg
          cases hi
        · have hk' := hentries _ _ hes
          obtain ⟨e, hem, _, _, _, o'', kvs', he2, hp⟩ := forall₂_mem_right hf i hi
          refine ⟨_, _, p, rfl, f2, by rw [f3, f1], fun x hx => ⟨f4.1 x (by simpa using hx), fun w pv e1 e2 => ?_⟩⟩
          have hke : Keyed e.2 := by
            cases hk' with
            | obj _ hk' => exact hk' e hem
          rw [he2] at hke
          exact readsProps_shown hke hsh hp (x, w) (lookup_mem' e1) pv (f4.2 x w pv (by simpa using hx) e1 e2)
      generalize r.instances = is at hall
      induction is with
      | nil => exact .nil
      | cons i is ih => exact .cons ⟨rfl, hall i (by simp)⟩ (ih fun i hi => hall i (by simp [hi]))

/-! ## The keys of a serialized graph -/

/-- Every key occurs once, also in the values. -/
def KeyedAll (js : List (Str × Json)) : Prop := (js.map (·.1)).Nodup ∧ ∀ kv ∈ js, Keyed kv.2

theorem putKey_mem {k : Str} {j : Json} {y : Str × Json} : ∀ {js : List (Str × Json)}, y ∈ PyRuntime.putKey k j js → y = (k, j) ∨ y ∈ js
  | [], hy => by simpa [PyRuntime.putKey] using hy
  | (k', j') :: js, hy => by
    rw [PyRuntime.putKey] at hy
    split at hy
    · rcases List.mem_cons.1 hy with hy | hy
      · exact .inl hy
      · exact .inr (List.mem_cons_of_mem _ hy)
    · rcases List.mem_cons.1 hy with hy | hy
      · exact .inr (by rw [hy]; exact List.mem_cons_self)
      · rcases putKey_mem hy with hy | hy
        · exact .inl hy
        · exact .inr (List.mem_cons_of_mem _ hy)

theorem putKey_nodup {k : Str} {j : Json} : ∀ {js : List (Str × Json)}, (js.map (·.1)).Nodup →
    ((PyRuntime.putKey k j js).map (·.1)).Nodup
  | [], _ => by simp [PyRuntime.putKey]
  | (k', j') :: js, hn => by
    rw [PyRuntime.putKey]
    simp only [List.map_cons, List.nodup_cons] at hn
    split
    · rename_i e
      subst e
      simpa using hn
    · rename_i e
      simp only [List.map_cons, List.nodup_cons]
      refine ⟨fun hm => ?_, putKey_nodup hn.2⟩
      obtain ⟨y, hy, hk⟩ := List.mem_map.1 hm
      rcases putKey_mem hy with rfl | hy
      · exact e hk.symm
      · exact hn.1 (List.mem_map.2 ⟨y, hy, hk⟩)

theorem KeyedAll.put {js : List (Str × Json)} (hj : KeyedAll js) {j : Json} (h : Keyed j) (k : Str) :
    KeyedAll (PyRuntime.putKey k j js) :=
  ⟨putKey_nodup hj.1, fun _ hkv => by
    rcases putKey_mem hkv with rfl | hkv
    · exact h
    · exact hj.2 _ hkv⟩

theorem serDirect_keyed {x : Val} {j : Json} (h : PyRuntime.serDirect x = .ok j) : Keyed j := by
  cases x <;> cases h
  · exact .null
  · exact .bool _
  · exact .int _
  · exact .float _
  · exact .str _

theorem serItems_keyed {f : Val → Except Exc Json} : ∀ {vs : List Val} {js : List Json},
    (∀ x ∈ vs, ∀ j, f x = .ok j → Keyed j) → PyRuntime.serItems f vs = .ok js → ∀ j ∈ js, Keyed j
  | [], js, _, h => by cases h; nofun
  | x :: vs, js, hf, h => by
    rw [PyRuntime.serItems] at h
    obtain ⟨j, h1, h⟩ := PyCode.ok_bind h
    obtain ⟨js', h2, h⟩ := PyCode.ok_bind h
    cases h
    intro y hy
    rcases List.mem_cons.1 hy with rfl | hy
    · exact hf x (by simp) _ h1
    · exact serItems_keyed (fun x hx => hf x (by simp [hx])) h2 y hy

theorem serEntries_keyed {f : Val → Except Exc Json} : ∀ {vs : List (Str × Val)} {js : List (Str × Json)},
    (∀ x ∈ vs, ∀ j, f x.2 = .ok j → Keyed j) → PyRuntime.serEntries f vs = .ok js →
    js.map (·.1) = vs.map (·.1) ∧ ∀ kv ∈ js, Keyed kv.2
  | [], js, _, h => by cases h; exact ⟨rfl, nofun⟩
  | (k, x) :: vs, js, hf, h => by
    rw [PyRuntime.serEntries] at h
    obtain ⟨j, h1, h⟩ := PyCode.ok_bind h
    obtain ⟨js', h2, h⟩ := PyCode.ok_bind h
    cases h
    obtain ⟨e, ha⟩ := serEntries_keyed (fun x hx => hf x (by simp [hx])) h2
    refine ⟨by simp [e], fun y hy => ?_⟩
    rcases List.mem_cons.1 hy with rfl | hy
    · exact hf (k, x) (by simp) _ h1
    · exact ha y hy

theorem at_of_mem {α β : Type} {xs : List α} {ps : List β} (hl : xs.length = ps.length) {x : α} (hx : x ∈ xs) :
    ∃ (i : Nat) (p : β), xs[i]? = some x ∧ ps[i]? = some p := by
  obtain ⟨i, hi, e⟩ := List.getElem_of_mem hx
  exact ⟨i, ps[i]'(hl ▸ hi), by rw [List.getElem?_eq_getElem hi, e], List.getElem?_eq_getElem (hl ▸ hi)⟩

theorem serTy_keyed {embed : Str → Val → Except Exc Json}
    (he : ∀ n x p j, Shows h x p → embed n x = .ok j → Keyed j) (ty : Ty) :
    ∀ x p j, Shows h x p → PyRuntime.serTy L S embed ty x = .ok j → Keyed j := by
  induction ty with
  | boolean => exact fun x p j _ h => serDirect_keyed h
  | integer => exact fun x p j _ h => serDirect_keyed h
  | float => exact fun x p j _ h => serDirect_keyed h
  | string => exact fun x p j _ h => serDirect_keyed h
  | path =>
    intro x p j _ h
    cases x <;> simp only [PyRuntime.serTy] at h <;> split at h <;>
      first | exact serDirect_keyed h | (cases h; done) | (cases h; exact .str _)
  | timeZone =>
    intro x p j _ h
    cases x <;> simp only [PyRuntime.serTy] at h <;> split at h <;>
      first | exact serDirect_keyed h | (cases h; done) | (cases h; exact .str _)
  | date f => intro x p j _ h; cases x <;> cases h; exact .str _
  | time f => intro x p j _ h; cases x <;> cases h; exact .str _
  | datetime f => intro x p j _ h; cases x <;> cases h; exact .str _
  | duration => intro x p j _ h; cases x <;> cases h; exact .str _
  | cls c => intro x p j _ h; cases x <;> cases h; exact .str _
  | embed n => exact he n
  | array t lo' hi ih =>
    intro x p j hs h
    cases hs with
    | list ha hl hv =>
      rw [PyRuntime.serTy] at h
      obtain ⟨xs, h1, h⟩ := PyCode.ok_bind h
      cases h
      refine .arr (serItems_keyed (fun x hx j hj => ?_) h1)
      obtain ⟨i, p, hi, hp⟩ := at_of_mem hl hx
      exact ih x p j (hv i x p hi hp) hj
    | _ => cases h
  | map t ih =>
    intro x p j hs h
    cases hs with
    | map ha hl hn hv =>
      rw [PyRuntime.serTy] at h
      obtain ⟨xs, h1, h⟩ := PyCode.ok_bind h
      cases h
      obtain ⟨e, hk⟩ := serEntries_keyed (fun x hx j hj => by
        have hlen : _ = _ := congrArg List.length hl
        rw [List.length_map, List.length_map] at hlen
        obtain ⟨i, p, hi, hp⟩ := at_of_mem hlen hx
        exact ih x.2 p.2 j (hv i x p hi hp) hj) h1
      exact .obj (by rw [e, hl]; exact hn) hk
    | _ => cases h

theorem serProps_keyed {ser : Ty → Val → Except Exc Json} (hs : ∀ ty x p j, Shows h x p → ser ty x = .ok j → Keyed j)
    {field : Property → Str} {attrs : Attrs} {q : List (Str × PV)} : ∀ (ps : List Property) (js js' : List (Str × Json)),
    (∀ p ∈ ps, AttrShows h attrs q (field p)) → KeyedAll js → PyRuntime.serProps ser field attrs ps js = .ok js' → KeyedAll js'
  | [], js, js', _, hk, e => by cases e; exact hk
  | p :: ps, js, js', ha, hk, e => by
    have ih := serProps_keyed hs (field := field) (attrs := attrs) (q := q) ps
    cases hl : attrs.lookup (field p) with
    | none => rw [serProps_missing hl] at e; cases e
    | some val =>
      by_cases hskip : val = .none ∧ p.optional = true
      · obtain ⟨rfl, ho⟩ := hskip
        rw [serProps_skip hl ho] at e
        exact ih js js' (fun p hp => ha p (by simp [hp])) hk e
      · rw [serProps_cons hl (by
          cases ho : p.optional with
          | false => exact .inr rfl
          | true => exact .inl fun e => hskip ⟨e, ho⟩)] at e
        obtain ⟨x, h1, e⟩ := PyCode.ok_bind e
        obtain ⟨hn, hsh⟩ := ha p (by simp)
        cases hq : q.lookup (field p) with
        | none => rw [hn.2 hq] at hl; cases hl
        | some pv => exact ih _ _ (fun p hp => ha p (by simp [hp])) (hk.put (hs _ _ _ _ (hsh val pv hl hq) h1) _) e

theorem serEmbed_keyed : ∀ n name x p j, Shows h x p → PyRuntime.serEmbed L S g n name x = .ok j → Keyed j
  | 0, _, _, _, _, _, e => by cases e
  | n + 1, name, x, p, j, hs, e => by
    rw [PyRuntime.serEmbed] at e
    split at e
    · cases e
    · cases hs with
      | obj ha hn hv =>
        obtain ⟨js, h1, e⟩ := PyCode.ok_bind e
        cases e
        have := serProps_keyed (serTy_keyed (serEmbed_keyed n)) _ [] js (fun p _ => ⟨hn _, hv _⟩) ⟨List.nodup_nil, nofun⟩ h1
        exact .obj this.1 this.2
      | _ => cases e

theorem serComposite_keyed {ser : Ty → Val → Except Exc Json} (hs : ∀ ty x p j, Shows h x p → ser ty x = .ok j → Keyed j)
    {c : Class} (hid : c!"id" ∉ PyCode.attrs c.properties) {o : Bool} {inst : PyRuntime.Instance} {p : PV}
    (hi : ShowsInst h inst p) {j : Json} (e : PyRuntime.serComposite ser o c.properties inst.attrs = .ok j) : Keyed j := by
  obtain ⟨a, cn, q, _, _, _, ha⟩ := hi
  obtain ⟨js, h1, e⟩ := PyCode.ok_bind e
  cases e
  have := serProps_keyed hs _ [] js (fun p hp => ha p.name fun e => hid (List.mem_map.2 ⟨p, hp, by rw [e]; decide⟩))
    ⟨List.nodup_nil, nofun⟩ h1
  exact .obj this.1 this.2

theorem serInstances_keyed {ser : Ty → Val → Except Exc Json} (hs : ∀ ty x p j, Shows h x p → ser ty x = .ok j → Keyed j)
    {c : Class} (hid : c!"id" ∉ PyCode.attrs c.properties) {o : Bool} : ∀ {is : List (Str × PyRuntime.Instance)}
    {ps : List (Str × PV)}, Forall₂ (fun x p => x.1 = p.1 ∧ ShowsInst h x.2 p.2) is ps → ∀ {js : List (Str × Json)},
    PyRuntime.serInstances L ser o c is = .ok js → js.map (·.1) = ps.map (·.1) ∧ ∀ kv ∈ js, Keyed kv.2
  | _, _, .nil, js, e => by cases e; exact ⟨rfl, nofun⟩
  | (k, inst) :: is, (k', p) :: ps, .cons hh ht, js, e => by
    rw [PyRuntime.serInstances] at e
    split at e
    · cases e
    · obtain ⟨x, h1, e⟩ := PyCode.ok_bind e
      obtain ⟨xs, h2, e⟩ := PyCode.ok_bind e
      cases e
      obtain ⟨e1, e2⟩ := serInstances_keyed hs hid ht h2
      have : k = k' := hh.1
      refine ⟨by simp [e1, this], fun y hy => ?_⟩
      rcases List.mem_cons.1 hy with rfl | hy
      · exact serComposite_keyed hs hid hh.2 h1
      · exact e2 y hy

theorem serRegistries_keyed {ser : Ty → Val → Except Exc Json} (hs : ∀ ty x p j, Shows h x p → ser ty x = .ok j → Keyed j)
    {o : Bool} {gv : GraphVal} {q : List (Str × PV)} : ∀ (cs : List Class) (js js' : List (Str × Json)),
    (∀ c ∈ cs, c!"id" ∉ PyCode.attrs c.properties) →
    (∀ c ∈ cs, ShowsReg h (gv.registries.lookup c.name) (q.lookup (lower c.plural))) → KeyedAll js →
    PyRuntime.serRegistries L ser o gv cs js = .ok js' → KeyedAll js'
  | [], js, js', _, _, hk, e => by cases e; exact hk
  | c :: cs, js, js', hid, hr, hk, e => by
    rw [serRegistries_cons] at e
    obtain ⟨js1, h1, e⟩ := PyCode.ok_bind e
    refine serRegistries_keyed hs cs js1 js' (fun c hc => hid c (by simp [hc])) (fun c hc => hr c (by simp [hc])) ?_ e
    have hrc := hr c (by simp)
    cases hl : gv.registries.lookup c.name with
    | none => rw [hl] at h1; cases h1
    | some r =>
      rw [hl] at h1 hrc
      cases hq : q.lookup (lower c.plural) with
      | none => cases hrc.1.2 hq
      | some p =>
        obtain ⟨d, ps, _, _, hn, hf⟩ := hrc.2 r p rfl hq
        simp only [serRegistry] at h1
        split at h1
        · cases h1; exact hk
        · obtain ⟨xs, h2, h1⟩ := PyCode.ok_bind h1
          cases h1
          obtain ⟨e1, e2⟩ := serInstances_keyed hs (hid c (by simp)) hf h2
          exact hk.put (.obj (by rw [e1]; exact hn) e2) _

/-- Every key occurs once in the dictionaries of a serialized graph. -/
theorem serGraph_keyed (hf : PyCode.Facts g) {gv : GraphVal} {i : Addr} (hs : ShowsGraph h g gv i) {k : Nat} {o : Bool} {j : Json}
    (e : PyRuntime.serGraph L S g k o gv = .ok j) : Keyed j := by
  obtain ⟨cn, q, _, ha, hr⟩ := hs
  obtain ⟨js, h1, e⟩ := PyCode.ok_bind e
  obtain ⟨js', h2, e⟩ := PyCode.ok_bind e
  cases e
  have hk := serTy_keyed (L := L) (S := S) (h := h) (serEmbed_keyed (L := L) (S := S) (g := g) k)
  have hp := serProps_keyed (q := q) hk g.properties [] js (fun p hp => ha _ fun hm =>
    (List.nodup_append.1 hf.graph).2.2 _ (List.mem_map.2 ⟨p, hp, rfl⟩) _ hm rfl) ⟨List.nodup_nil, nofun⟩ h1
  have := serRegistries_keyed hk g.classes js js' (fun c hc => (hf.cls c hc).2) hr hp h2
  exact .obj this.1 this.2

end

end Mapry.PyExec
