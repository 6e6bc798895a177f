import Verif.PyWriteCall
import Verif.PyFuel

/-!
# The generated Python function which serializes the graph
-/

namespace Mapry.PyExec

open Mapry.PyLang Mapry.PyGen Mapry.PyRuntime Mapry.Text Mapry.Duration
open Mapry.TypeGraph hiding Obj
open Mapry.PyRuntime (Json Lib Val)
open PyCode (ok_bind idOf)

/-- The object at the address is the graph: its attributes are the values of its properties and the registries. -/
def ShowsGraph (h : List Obj) (g : Graph) (gv : GraphVal) (i : Addr) : Prop :=
  ∃ cn q, h[i]? = some (.inst cn q) ∧ (∀ x, x ∉ plurals g → AttrShows h gv.attrs q x) ∧
    ∀ c ∈ g.classes, ShowsReg h (gv.registries.lookup c.name) (q.lookup (lower c.plural))

/-- `PyRuntime.serGraph`, with a stack of `m` frames for the properties of the graph and of `k` frames for the ones of the
instances -/
def serGraphAt (L : Lib) (S : Settings) (g : Graph) (m k : Nat) (ordered : Bool) (gv : GraphVal) : Except Exc Json := do
  let kvs ← serProps (serTy L S (serEmbed L S g m)) attr gv.attrs g.properties []
  let kvs ← serRegistries L (serTy L S (serEmbed L S g k)) ordered gv g.classes kvs
  return .obj ordered kvs

section

variable {g : Graph} {py : ParseSchema.Py} {P : Program} {L : Lib} {S : PyRuntime.Settings} {call : Fn → Actual → M PV}
  {ser : Ty → Val → Except Exc Json} {s : St} {h0 : List Obj} {i a : Addr} {o : Bool} {cn : Str} {q : List (Str × PV)}

theorem registries_put (hi : h0[i]? = some (.inst cn q)) {gv : GraphVal} : ∀ (cs : List Class) (codes : List Stmt),
    cs.mapM serializeRegistry = .ok codes → (∀ c ∈ cs, Braceless (idOf c.name)) → (∀ c ∈ cs, regVar c ≠ instVar c) →
    (∀ c ∈ cs, ClassMakes call ser o c) → (∀ c ∈ cs, ShowsReg h0 (gv.registries.lookup c.name) (q.lookup (lower c.plural))) →
    ∀ (js : List (Str × Json)) (s : St), FnInv h0 i a o js s →
    PropsPut h0 i a o (exec L call (block codes) s) (serRegistries L ser o gv cs js)
  | [], codes, h, _, _, _, _, js, s, hI => by
    cases h
    exact ⟨s, exec_pass, hI⟩
  | c :: cs, codes, h, hb, ht, hm, hr, js, s, hI => by
    rw [List.mapM_cons] at h
    obtain ⟨code, h1, h⟩ := ok_bind h
    obtain ⟨rest, h2, h⟩ := ok_bind h
    cases h
    rw [block, serRegistries_cons]
    have hp := registry_put (L := L) h1 (hb c (by simp)) (ht c (by simp)) (hm c (by simp)) hi (hr c (by simp)) hI
    generalize serRegistry L ser o c (gv.registries.lookup c.name) js = r at hp ⊢
    cases r with
    | error x => exact Raises.seq hp
    | ok js' =>
      obtain ⟨s', e, hI'⟩ := hp
      rw [exec_seq e]
      exact registries_put hi cs rest h2 (fun c hc => hb c (by simp [hc])) (fun c hc => ht c (by simp [hc]))
        (fun c hc => hm c (by simp [hc])) (fun c hc => hr c (by simp [hc])) js' s' hI'

/-- The function of the graph serializes it. -/
theorem serGraph_run (G : Writer g py P) (hS : SettingsOk S py) {gv : GraphVal} (hs : ShowsGraph s.heap g gv i) (k : Nat) (o : Bool) :
    Made s (callOwn L P (k + 2) (.own (c!"serialize_" ++ lower g.name)) [(none, .addr i), (some c!"ordered", .bool o)] s)
      (serGraphAt L S g (k + 1) k o gv) := by
  obtain ⟨cn, q, hi, ha, hr⟩ := hs
  obtain ⟨cs, es, fg, h1, h2, h3, h4⟩ := G.own
  obtain ⟨props, regs, hp, hg, rfl⟩ := serializeGraph_eq h3
  have := G.find (f := serializer (lower g.name) (.seq props (block regs))) (by rw [h4]; simp)
  have hprops := props_write (L := L) (call := callOwn L P (k + 1)) (ser := serTy L S (serEmbed L S g (k + 1))) (field := attr)
    (a := s.heap.length) (o := o) (attrs := gv.attrs) (fun p x h => (PyCode.asAttribute_eq h).1) hi g.properties 0 props hp
    (fun p hp' => writes_ty hS (embeds_make (L := L) G hS (k + 1)) p.ty fun n hn => G.facts.resolves.2 n (.graph p hp' hn))
    (fun p hp' => ha _ fun hm => ?_) [] _ (start_inv s i o)
  · have hbody : PropsPut s.heap i s.heap.length o (exec L (callOwn L P (k + 1)) (.seq props (block regs))
        (((serFrame s i o).push (.dict o [])).set c!"target" (.addr s.heap.length))) (do
          let kvs ← serProps (serTy L S (serEmbed L S g (k + 1))) attr gv.attrs g.properties []
          serRegistries L (serTy L S (serEmbed L S g k)) o gv g.classes kvs) := by
      generalize serProps (serTy L S (serEmbed L S g (k + 1))) attr gv.attrs g.properties [] = r at hprops ⊢
      cases r with
      | error x => exact Raises.seq hprops
      | ok js =>
        obtain ⟨s', e, hI⟩ := hprops
        rw [exec_seq e]
        exact registries_put hi g.classes regs hg G.brace G.targets (fun c hc => class_makes G hS hc k o) hr js s' hI
    have hm := serializer_made hbody
    rw [callOwn]
    simp only [show findLast (·.name) P.own (c!"serialize_" ++ lower g.name) = _ from this]
    have e : serGraphAt L S g (k + 1) k o gv = (do
        let kvs ← (do
          let kvs ← serProps (serTy L S (serEmbed L S g (k + 1))) attr gv.attrs g.properties []
          serRegistries L (serTy L S (serEmbed L S g k)) o gv g.classes kvs)
        return .obj o kvs) := by
      rw [serGraphAt]
      cases serProps (serTy L S (serEmbed L S g (k + 1))) attr gv.attrs g.properties [] <;> rfl
    rw [e]
    exact hm
  · have := (List.nodup_append.1 G.facts.graph).2.2 _ (List.mem_map.2 ⟨p, hp', rfl⟩) _ hm
    exact this rfl

/-! ## A deeper stack does not change the result -/

def BelowSer (f f' : Ty → Val → Except Exc Json) : Prop := ∀ ty v, Below (f ty v) (f' ty v)

theorem serItems_below {f f' : Val → Except Exc Json} (h : ∀ v, Below (f v) (f' v)) : ∀ vs : List Val,
    Below (serItems f vs) (serItems f' vs)
  | [] => .rfl
  | v :: vs => by
    rw [serItems, serItems]
    exact (h v).bind fun _ => (serItems_below h vs).bind fun _ => .rfl

theorem serEntries_below {f f' : Val → Except Exc Json} (h : ∀ v, Below (f v) (f' v)) : ∀ vs : List (Str × Val),
    Below (serEntries f vs) (serEntries f' vs)
  | [] => .rfl
  | (k, v) :: vs => by
    rw [serEntries, serEntries]
    exact (h v).bind fun _ => (serEntries_below h vs).bind fun _ => .rfl

theorem serTy_below {e e' : Str → Val → Except Exc Json} (h : ∀ n v, Below (e n v) (e' n v)) (ty : Ty) : ∀ v,
    Below (serTy L S e ty v) (serTy L S e' ty v) := by
  induction ty with
  | array ty lo hi ih =>
    intro v
    cases v with
    | list vs =>
      rw [serTy, serTy]
      exact (serItems_below ih vs).bind fun _ => .rfl
    | _ => exact .rfl
  | map ty ih =>
    intro v
    cases v with
    | map o vs =>
      rw [serTy, serTy]
      exact (serEntries_below ih vs).bind fun _ => .rfl
    | _ => exact .rfl
  | embed n => intro v; rw [serTy, serTy]; exact h n v
  | _ => intro v; exact .inr rfl

theorem serProps_below {f f' : Ty → Val → Except Exc Json} (h : BelowSer f f') (field : Property → Str) (attrs : Attrs) :
    ∀ (ps : List Property) (js : List (Str × Json)), Below (serProps f field attrs ps js) (serProps f' field attrs ps js)
  | [], _ => .rfl
  | p :: ps, js => by
    cases hl : attrs.lookup (field p) with
    | none => rw [serProps_missing hl, serProps_missing hl]; exact .rfl
    | some val =>
      by_cases hskip : val = .none ∧ p.optional = true
      · obtain ⟨rfl, ho⟩ := hskip
        rw [serProps_skip hl ho, serProps_skip hl ho]
        exact serProps_below h field attrs ps js
      · have hc : val ≠ .none ∨ p.optional = false := by
          cases ho : p.optional with
          | false => exact .inr rfl
          | true => exact .inl fun e => hskip ⟨e, ho⟩
        rw [serProps_cons hl hc, serProps_cons hl hc]
        exact (h _ _).bind fun _ => serProps_below h field attrs ps _

theorem serComposite_below {f f' : Ty → Val → Except Exc Json} (h : BelowSer f f') (ps : List Property) (attrs : Attrs) :
    Below (serComposite f o ps attrs) (serComposite f' o ps attrs) :=
  (serProps_below h _ attrs ps []).bind fun _ => .rfl

theorem serEmbed_below : ∀ k n v, Below (serEmbed L S g k n v) (serEmbed L S g (k + 1) n v)
  | 0, _, _ => .inl rfl
  | k + 1, n, v => by
    rw [serEmbed, serEmbed]
    split
    · exact .rfl
    · split
      · exact serComposite_below (serTy_below (serEmbed_below k)) _ _
      · exact .rfl

theorem serInstances_below {f f' : Ty → Val → Except Exc Json} (h : BelowSer f f') (c : Class) : ∀ is : List (Str × Instance),
    Below (serInstances L f o c is) (serInstances L f' o c is)
  | [] => .rfl
  | (k, inst) :: is => by
    rw [serInstances, serInstances]
    split
    · exact .rfl
    · exact (serComposite_below h _ _).bind fun _ => (serInstances_below h c is).bind fun _ => .rfl

theorem serRegistries_below {f f' : Ty → Val → Except Exc Json} (h : BelowSer f f') (gv : GraphVal) : ∀ (cs : List Class)
    (js : List (Str × Json)), Below (serRegistries L f o gv cs js) (serRegistries L f' o gv cs js)
  | [], _ => .rfl
  | c :: cs, js => by
    rw [serRegistries, serRegistries]
    split
    · exact .rfl
    · split
      · exact serRegistries_below h gv cs js
      · exact (serInstances_below h c _).bind fun _ => serRegistries_below h gv cs _

theorem serGraph_below (k : Nat) (gv : GraphVal) : Below (serGraph L S g k o gv) (serGraphAt L S g (k + 1) k o gv) ∧
    Below (serGraphAt L S g (k + 1) k o gv) (serGraph L S g (k + 1) o gv) :=
  ⟨(serProps_below (serTy_below (serEmbed_below k)) _ _ _ _).bind fun _ => .rfl,
    Below.rfl.bind fun _ => (serRegistries_below (serTy_below (serEmbed_below k)) _ _ _).bind fun _ => .rfl⟩

end

end Mapry.PyExec
