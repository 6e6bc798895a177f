import Verif.PyTrace

/-!
# The generated Python parser follows its trace
-/

namespace Mapry.PyRuntime

open Mapry.Text Mapry.Duration

/-- A parser which records the errors of its trace. -/
def Exact (f : ParseFn) : Prop := ∀ v ref es, f v ref es = follow (leaf f v ref) es

theorem exact_boolean : Exact parseBoolean := by
  intro v ref es
  cases v <;> rfl

theorem checkBounds_exact (L : Lib) (b : Bounds) (n : Num) (v : Json) (ref : Str) (es : Errors) :
    checkBounds L b n v ref es =
      ((checkBounds L b n v ref ⟨2, []⟩).1, addAll es (checkBounds L b n v ref ⟨2, []⟩).2.values) := by
  unfold checkBounds
  cases minOk b n <;> cases b.max <;> simp [Errors.add, addAll] <;>
    (cases maxOk b n <;> simp [Errors.add])

theorem exact_integer (L : Lib) (b : Bounds) : Exact (parseInteger L b) := by
  intro v ref es
  unfold follow leaf parseInteger
  cases hi : v.int? with
  | none => simp [Errors.add, addAll]
  | some n => simp only []; rw [checkBounds_exact]

theorem exact_float (L : Lib) (b : Bounds) : Exact (parseFloat L b) := by
  intro v ref es
  unfold follow leaf parseFloat
  cases hi : v.num? with
  | none => simp [Errors.add, addAll]
  | some n =>
    simp only []
    rw [checkBounds_exact L b n v ref es]
    simp only []
    cases (checkBounds L b n v ref ⟨2, []⟩).1 with
    | false => simp
    | true =>
      simp only [if_true]
      cases n.toFloat <;> rfl

theorem exact_matched (L : Lib) (set : Str → Val) (p : Option Str) : Exact (parseMatched L set p) := by
  intro v ref es
  unfold follow leaf parseMatched
  cases v <;> try (simp [Errors.add, addAll]; done)
  next s =>
  cases p with
  | none => simp
  | some p =>
    simp only []
    split
    · simp
    · cases gotMessage (c!"Expected to match " ++ p) s <;> rfl

theorem exact_dateTime (L : Lib) (set : DateTime → Val) (f : Str) : Exact (parseDateTime L set f) := by
  intro v ref es
  unfold follow leaf parseDateTime
  cases v <;> try (simp [Errors.add, addAll]; done)
  next s =>
  simp only []
  cases L.strptime s f with
  | ok d => simp
  | error x =>
    cases x <;> try rfl
    simp only []
    cases gotMessage (c!"Expected to strptime " ++ f) s <;> rfl

theorem exact_timeZone (L : Lib) (S : Settings) : Exact (parseTimeZone L S) := by
  intro v ref es
  unfold follow leaf parseTimeZone
  cases v <;> try (simp [Errors.add, addAll]; done)
  next s =>
  simp only []
  split
  · cases L.timezone s <;> simp [Errors.add, addAll]
  · simp

theorem exact_duration (L : Lib) : Exact (parseDuration L) := by
  intro v ref es
  unfold follow leaf parseDuration
  cases v <;> try (simp [Errors.add, addAll]; done)
  next s =>
  simp only []
  cases pyFromString s with
  | ok d => simp
  | error x => cases x <;> rfl

theorem exact_reference (c : Str) (ids : List Str) : Exact (parseReference c ids) := by
  intro v ref es
  unfold follow leaf parseReference
  cases v <;> try (simp [Errors.add, addAll]; done)
  next s =>
  simp only []
  split <;> simp [Errors.add, addAll]

theorem Exact.sim {f : ParseFn} (h : Exact f) (v : Json) (ref : Str) :
    Sim (leaf f v ref) (f v ref) id Any := by
  refine Sim.exact (h v ref) ?_
  intro x log hx
  unfold leaf at hx
  split at hx
  · simp at hx
  · cases hx; rfl

/-- A parser of a value follows a trace for every input. -/
def Follows (t : TraceFn) (f : ParseFn) : Prop := ∀ v ref, Sim (t v ref) (f v ref) id Any

theorem sim_items {t : TraceFn} {f : ParseFn} (h : Follows t f) (ref : Str) (i : Nat) (acc : List Val)
    (xs : List Json) : Sim (tItems t ref i acc xs) (parseItems f ref i acc xs) id Any := by
  induction xs generalizing i acc with
  | nil => exact Sim.pure acc id Any
  | cons x xs ih =>
    unfold tItems
    refine Sim.andThen (Q := fun v => parseItems f ref (i + 1) (acc ++ v.toList) xs)
      (h x (sub ref (natStr i))) (fun v => ih (i + 1) (acc ++ v.toList)) ?_ ?_ ?_
    · intro es b es' hb hf
      cases b <;> simp [parseItems, hb, hf, bind, Except.bind]
    · intro es b es' hb hf _
      refine ⟨acc ++ b.toList, ?_, trivial⟩
      cases b <;> simp [parseItems, hb, hf, bind, Except.bind, pure, Except.pure]
    · intro es x' hx
      simp [parseItems, hx, bind, Except.bind]

theorem sim_fail {α β : Type} (a : α) (j : α → β) (bad : β → Prop) (hb : bad (j a)) (e : Err) :
    Sim (.ok (a, [e])) (fun es => .ok (j a, es.add e)) j bad := by
  intro es _ hf
  refine ⟨?_, by simp⟩
  intro a' log h
  simp only [Except.ok.injEq, Prod.mk.injEq] at h
  obtain ⟨rfl, rfl⟩ := h
  exact ⟨_, rfl, fun _ => hb, fun _ => rfl⟩

theorem sim_array {t : TraceFn} {f : ParseFn} (h : Follows t f) (lo hi : Option Int) :
    Follows (tArray t lo hi) (parseArray f lo hi) := by
  intro v ref
  unfold tArray parseArray
  cases v <;> try exact sim_fail none id Any trivial _
  next xs =>
  simp only []
  split
  · exact sim_fail none id Any trivial _
  · split
    · exact sim_fail none id Any trivial _
    · refine Sim.thenPure (f' := fun vs => some (.list vs)) (sim_items h ref 0 [] xs)
        (fun _ => rfl) (fun _ _ => trivial) ?_ ?_
      · intro es b es' hb
        simp [hb, bind, Except.bind, pure, Except.pure]
      · intro es x hx
        simp [hx, bind, Except.bind]

theorem sim_entries (L : Lib) {t : TraceFn} {f : ParseFn} (h : Follows t f) (ref : Str)
    (acc : List (Str × Val)) (kvs : List (Str × Json)) :
    Sim (tEntries L t ref acc kvs) (parseEntries L f ref acc kvs) id Any := by
  induction kvs generalizing acc with
  | nil => exact Sim.pure acc id Any
  | cons kv kvs ih =>
    obtain ⟨k, x⟩ := kv
    unfold tEntries
    refine Sim.andThen
      (Q := fun v => parseEntries L f ref (acc ++ (v.map fun v => (k, v)).toList) kvs)
      (h x (sub ref (L.repr k))) (fun v => ih (acc ++ (v.map fun v => (k, v)).toList)) ?_ ?_ ?_
    · intro es b es' hb hf
      cases b <;> simp [parseEntries, hb, hf, bind, Except.bind]
    · intro es b es' hb hf _
      refine ⟨acc ++ (b.map fun v => (k, v)).toList, ?_, trivial⟩
      cases b <;> simp [parseEntries, hb, hf, bind, Except.bind, pure, Except.pure]
    · intro es x' hx
      simp [parseEntries, hx, bind, Except.bind]

theorem sim_map (L : Lib) {t : TraceFn} {f : ParseFn} (h : Follows t f) :
    Follows (tMap L t) (parseMap L f) := by
  intro v ref
  unfold tMap parseMap
  cases v <;> try exact sim_fail none id Any trivial _
  next ordered kvs =>
  refine Sim.thenPure (f' := fun vs => some (.map ordered vs)) (sim_entries L h ref [] kvs)
    (fun _ => rfl) (fun _ _ => trivial) ?_ ?_
  · intro es b es' hb
    simp [hb, bind, Except.bind, pure, Except.pure]
  · intro es x hx
    simp [hx, bind, Except.bind]

/-- The parser of the embeddable structures follows a trace. -/
def FollowsEmbed (t : Str → Json → Str → Except (Exc × Log) (Val × Log))
    (f : Str → Json → Str → Errors → Except Exc (Val × Errors)) : Prop :=
  ∀ name v ref, Sim (t name v ref) (f name v ref) id Any

theorem sim_ty (E : Env) {t : Str → Json → Str → Except (Exc × Log) (Val × Log)}
    {f : Str → Json → Str → Errors → Except Exc (Val × Errors)} (h : FollowsEmbed t f) (ty : Ty) :
    Follows (tTy E t ty) (parseTy E f ty) := by
  induction ty with
  | array ty lo hi ih => exact sim_array ih lo hi
  | map ty ih => exact sim_map E.lib ih
  | embed name =>
    intro v ref
    refine Sim.thenPure (f' := some) (h name v ref) (fun _ => rfl) (fun _ _ => trivial) ?_ ?_
    · intro es b es' hb
      simp [parseTy, hb, bind, Except.bind, pure, Except.pure]
    · intro es x hx
      simp [parseTy, hx, bind, Except.bind]
  | boolean => exact exact_boolean.sim
  | integer b => exact (exact_integer E.lib b).sim
  | float b => exact (exact_float E.lib b).sim
  | string p => exact (exact_matched E.lib _ p).sim
  | path p => exact (exact_matched E.lib _ p).sim
  | date f => exact (exact_dateTime E.lib _ f).sim
  | time f => exact (exact_dateTime E.lib _ f).sim
  | datetime f => exact (exact_dateTime E.lib _ f).sim
  | timeZone => exact (exact_timeZone E.lib E.settings).sim
  | duration => exact (exact_duration E.lib).sim
  | cls c => exact (exact_reference c (E.ids c)).sim

theorem sim_property {t : Ty → TraceFn} {f : Ty → ParseFn} (h : ∀ ty, Follows (t ty) (f ty))
    (kvs : List (Str × Json)) (ref : Str) (p : Property) (attrs : Attrs) :
    Sim (tProperty t kvs ref p attrs) (parseProperty f kvs ref p attrs) id Any := by
  unfold tProperty parseProperty
  cases hl : kvs.lookup p.json with
  | none =>
    simp only []
    split
    · exact Sim.pure attrs id Any
    · exact sim_fail attrs id Any trivial _
  | some v =>
    cases v with
    | null =>
      simp only []
      split
      · exact Sim.pure attrs id Any
      · exact sim_fail attrs id Any trivial _
    | _ =>
      refine Sim.thenPure (f' := fun x => match x with
        | some x => setAttr (attr p) x attrs
        | none => attrs) (h p.ty _ (sub ref p.json)) (fun _ => rfl) (fun _ _ => trivial) ?_ ?_
      · intro es b es' hb
        simp only [hb, bind, Except.bind, pure, Except.pure]
        cases b <;> rfl
      · intro es x hx
        simp only [hx, bind, Except.bind]

theorem sim_props {t : Ty → TraceFn} {f : Ty → ParseFn} (h : ∀ ty, Follows (t ty) (f ty))
    (kvs : List (Str × Json)) (ref : Str) (ps : List Property) (attrs : Attrs) :
    Sim (tProps t kvs ref ps attrs) (parseProps f kvs ref ps attrs) id Any := by
  induction ps generalizing attrs with
  | nil => exact Sim.pure attrs id Any
  | cons p ps ih =>
    unfold tProps
    refine Sim.andThen (Q := fun attrs => parseProps f kvs ref ps attrs)
      (sim_property h kvs ref p attrs) (fun a => ih a) ?_ ?_ ?_
    · intro es b es' hb hf
      simp [parseProps, hb, hf, bind, Except.bind]
    · intro es b es' hb hf _
      exact ⟨b, by simp [parseProps, hb, hf, bind, Except.bind, pure, Except.pure], trivial⟩
    · intro es x hx
      simp [parseProps, hx, bind, Except.bind]

theorem sim_composite {t : Ty → TraceFn} {f : Ty → ParseFn} (h : ∀ ty, Follows (t ty) (f ty))
    (ps : List Property) (v : Json) (ref : Str) :
    Sim (tComposite t ps v ref) (parseComposite f ps v ref) id Any := by
  unfold tComposite parseComposite
  cases v <;> try exact sim_fail _ id Any trivial _
  exact sim_props h _ ref ps _

theorem sim_embed (E : Env) (fuel : Nat) : FollowsEmbed (tEmbed E fuel) (parseEmbed E fuel) := by
  induction fuel with
  | zero => intro name v ref; exact Sim.error _ id Any
  | succ fuel ih =>
    intro name v ref
    have hP : parseEmbed E (fuel + 1) name v ref = fun es =>
        match E.graph.embed? name with
        | none => .error .keyError
        | some e => do
          let (attrs, es) ← parseComposite (parseTy E (parseEmbed E fuel)) e.properties v ref es
          return (.obj name attrs, es) := rfl
    rw [hP]
    unfold tEmbed
    cases E.graph.embed? name with
    | none => exact Sim.error _ id Any
    | some e =>
      refine Sim.thenPure (f' := fun attrs => .obj name attrs)
        (sim_composite (fun ty => sim_ty E ih ty) e.properties v ref)
        (fun _ => rfl) (fun _ _ => trivial) ?_ ?_
      · intro es b es' hb
        simp [hb, bind, Except.bind, pure, Except.pure]
      · intro es x hx
        simp [hx, bind, Except.bind]

/-- The value is missing. -/
def IsNone {α : Type} : Option α → Prop := fun x => x = none

theorem sim_instances (L : Lib) {t : Ty → TraceFn} {f : Ty → ParseFn}
    (h : ∀ ty, Follows (t ty) (f ty)) (c : Class) (ref : Str) (ids : List Str)
    (entries : List (Str × Json)) (acc : List (Str × Instance)) :
    Sim (tInstances L t c ref ids entries acc) (parseInstances L f c ref ids entries acc) some
      IsNone := by
  induction entries generalizing acc with
  | nil => exact Sim.pure acc some _
  | cons kv rest ih =>
    obtain ⟨id, v⟩ := kv
    by_cases hid : id ∈ ids
    · unfold tInstances
      rw [if_pos hid]
      refine Sim.andThen
        (Q := fun attrs => parseInstances L f c ref ids rest (acc ++ [(id, ⟨id, attrs⟩)]))
        (sim_composite h c.properties v _) (fun a => ih _) ?_ ?_ ?_
      · intro es b es' hb hf
        simp [parseInstances, hid, hb, hf, bind, Except.bind]
      · intro es b es' hb hf _
        exact ⟨none, by
          simp [parseInstances, hid, hb, hf, bind, Except.bind, pure, Except.pure], rfl⟩
      · intro es x hx
        simp [parseInstances, hid, hx, bind, Except.bind]
    · have : parseInstances L f c ref ids ((id, v) :: rest) acc = fun _ => .error .keyError := by
        funext es; simp [parseInstances, hid]
      unfold tInstances
      rw [if_neg hid, this]
      exact Sim.error _ _ _

theorem sim_registry (L : Lib) {t : Ty → TraceFn} {f : Ty → ParseFn}
    (h : ∀ ty, Follows (t ty) (f ty)) (kvs : List (Str × Json)) (ref : Str) (c : Class)
    (pre : Bool × List Str) :
    Sim (tRegistry L t kvs ref c pre) (parseRegistry L f kvs ref c pre) some IsNone := by
  unfold tRegistry parseRegistry
  cases kvs.lookup (registryKey c) with
  | none => exact Sim.pure _ some _
  | some v =>
    cases v with
    | obj o entries =>
      refine Sim.thenPure (f' := fun r => r.map fun instances => ⟨pre.1, instances⟩)
        (sim_instances L h c ref pre.2 entries []) (fun _ => rfl)
        (fun b hb => by rw [IsNone] at hb; subst hb; rfl) ?_ ?_
      · intro es b es' hb
        simp [hb, bind, Except.bind, pure, Except.pure]
      · intro es x hx
        simp [hx, bind, Except.bind]
    | _ => exact Sim.error _ _ _

theorem sim_registries (L : Lib) {t : Ty → TraceFn} {f : Ty → ParseFn}
    (h : ∀ ty, Follows (t ty) (f ty)) (kvs : List (Str × Json)) (ref : Str)
    (pre : List (Str × Bool × List Str)) (cs : List Class) (acc : List (Str × Registry)) :
    Sim (tRegistries L t kvs ref pre cs acc) (parseRegistries L f kvs ref pre cs acc) some
      IsNone := by
  induction cs generalizing acc with
  | nil => exact Sim.pure acc some _
  | cons c cs ih =>
    unfold tRegistries
    refine Sim.andThen
      (Q := fun r es => match r with
        | none => .ok (none, es)
        | some r => parseRegistries L f kvs ref pre cs (acc ++ [(c.name, r)]) es)
      (sim_registry L h kvs ref c _) (fun r => ih _) ?_ ?_ ?_
    · intro es b es' hb hf
      cases b <;> simp [parseRegistries, hb, bind, Except.bind, pure, Except.pure]
    · intro es b es' hb hf hn
      rw [IsNone] at hn; subst hn
      exact ⟨none, by simp [parseRegistries, hb, bind, Except.bind, pure, Except.pure], rfl⟩
    · intro es x hx
      simp [parseRegistries, hx, bind, Except.bind]

theorem preallocIds_spec (L : Lib) (c : Class) (ref : Str) (acc ids : List Str) (es : Errors)
    (hu : Usable es) (hf : es.full = false) :
    (preallocIds L c ref acc ids es).2 = addAll es (idErrors L c ref ids) ∧
    ((addAll es (idErrors L c ref ids)).full = false →
      (preallocIds L c ref acc ids es).1 = acc ++ ids) := by
  induction ids generalizing acc es with
  | nil => unfold idErrors; cases c.idPattern <;> simp [preallocIds]
  | cons id ids ih =>
    cases hp : c.idPattern with
    | none =>
      have := ih (acc ++ [id]) es hu hf
      have h0 : ∀ l, idErrors L c ref l = [] := fun l => by unfold idErrors; rw [hp]
      rw [h0] at this ⊢
      simpa [preallocIds, hp] using this
    | some p =>
      cases hm : L.reMatch p id with
      | true =>
        have h0 : idErrors L c ref (id :: ids) = idErrors L c ref ids := by
          unfold idErrors; simp [hp, hm]
        rw [h0]
        simpa [preallocIds, hp, hm] using ih (acc ++ [id]) es hu hf
      | false =>
        have h0 : idErrors L c ref (id :: ids) =
            ⟨sub ref (registryKey c), c!"Expected ID to match " ++ p ++ c!", but got: " ++ id⟩ ::
              idErrors L c ref ids := by
          unfold idErrors; simp [hp, hm]
        rw [h0]
        generalize he : (⟨sub ref (registryKey c),
          c!"Expected ID to match " ++ p ++ c!", but got: " ++ id⟩ : Err) = e
        have hcons : ∀ l, addAll es (e :: l) = addAll (es.add e) l := fun _ => rfl
        rw [hcons]
        unfold preallocIds
        simp only [hp, hm, he]
        cases hfa : (es.add e).full with
        | true => simp [full_addAll hfa, hfa]
        | false => simpa using ih (acc ++ [id]) (es.add e) (add_usable hu e) hfa

theorem prealloc_spec (L : Lib) (kvs : List (Str × Json)) (ref : Str) (c : Class) (es : Errors)
    (hu : Usable es) (hf : es.full = false) :
    (prealloc L kvs ref c es).2 = addAll es (tPrealloc L kvs ref c).2 ∧
    ((addAll es (tPrealloc L kvs ref c).2).full = false →
      (prealloc L kvs ref c es).1 = (tPrealloc L kvs ref c).1) := by
  unfold prealloc tPrealloc
  cases kvs.lookup (registryKey c) with
  | none => simp
  | some v =>
    cases v <;> try (simp [addAll]; done)
    next o ids =>
    have h := preallocIds_spec L c ref [] (ids.map (·.1)) es hu hf
    exact ⟨h.1, fun hh => by simpa using h.2 hh⟩

theorem preallocAll_spec (L : Lib) (kvs : List (Str × Json)) (ref : Str) (cs : List Class)
    (acc : List (Str × Bool × List Str)) (es : Errors) (hu : Usable es) (hf : es.full = false) :
    preallocAll L kvs ref cs acc es =
      (if (addAll es (preErrors L kvs ref cs)).full then none else some (acc ++ allocated L kvs ref cs),
        addAll es (preErrors L kvs ref cs)) := by
  induction cs generalizing acc es with
  | nil => simp [preallocAll, preErrors, allocated, hf]
  | cons c cs ih =>
    obtain ⟨h1, h2⟩ := prealloc_spec L kvs ref c es hu hf
    have hp : preErrors L kvs ref (c :: cs) = (tPrealloc L kvs ref c).2 ++ preErrors L kvs ref cs := by
      simp [preErrors]
    rw [hp, addAll_append]
    simp only [preallocAll]
    rw [h1]
    cases hfa : (addAll es (tPrealloc L kvs ref c).2).full with
    | true => simp [full_addAll hfa, hfa]
    | false =>
      rw [h2 hfa]
      simp only [Bool.false_eq_true, if_false]
      rw [ih _ _ (addAll_usable hu _) hfa]
      simp [allocated]

theorem addAll_empty_iff {es : Errors} (hu : Usable es) (he : es.values = []) (log : Log) :
    (addAll es log).empty = true ↔ log = [] := by
  simp only [Errors.empty, addAll_values hu, he, List.nil_append, decide_eq_true_eq,
    List.length_eq_zero_iff, List.take_eq_nil_iff]
  have := hu.pos
  constructor
  · rintro (h | h)
    · omega
    · exact h
  · exact .inr

/-- The function of the graph with an empty container follows its trace. -/
theorem sim_graph (L : Lib) (S : Settings) (g : Graph) (fuel : Nat) (v : Json) (ref : Str) (cap : Int)
    (hcap : 0 < cap) :
    (∀ o log, tGraph L S g fuel v ref = .ok (o, log) →
      parseGraph L S g fuel v ref (Errors.new cap) = .ok (o, addAll (Errors.new cap) log)) ∧
    (∀ x log, tGraph L S g fuel v ref = .error (x, log) →
      ((addAll (Errors.new cap) log).full = false →
        parseGraph L S g fuel v ref (Errors.new cap) = .error x) ∧
      ((addAll (Errors.new cap) log).full = true →
        parseGraph L S g fuel v ref (Errors.new cap) = .ok (none, addAll (Errors.new cap) log))) := by
  have hu : Usable (Errors.new cap) := ⟨hcap, Int.le_of_lt hcap⟩
  have hf : (Errors.new cap).full = false := decide_eq_false (Int.ne_of_lt hcap)
  have hv : (Errors.new cap).values = [] := rfl
  generalize hes : Errors.new cap = es at *
  unfold tGraph parseGraph
  rw [hf]
  simp only [Bool.false_eq_true, if_false]
  cases v <;> try
    (refine ⟨?_, by simp⟩
     intro o log h
     simp only [Except.ok.injEq, Prod.mk.injEq] at h
     obtain ⟨rfl, rfl⟩ := h
     rfl)
  next ordered kvs =>
  simp only []
  rw [preallocAll_spec L kvs ref g.classes [] es hu hf]
  by_cases hpre : preErrors L kvs ref g.classes = []
  · simp only [hpre, addAll_nil, hf, Bool.false_eq_true, if_false, ne_eq, not_true_eq_false,
      List.nil_append]
    have hemp : es.empty = true := by simp [Errors.empty, hv]
    simp only [hemp, Bool.not_true, Bool.and_false, Bool.false_eq_true, if_false]
    unfold tBody
    generalize allocated L kvs ref g.classes = pre
    have hfol : ∀ ty, Follows (tTy (envOf L S g pre) (tEmbed (envOf L S g pre) fuel) ty)
        (parseTy (envOf L S g pre) (parseEmbed (envOf L S g pre) fuel) ty) :=
      fun ty => sim_ty _ (sim_embed _ fuel) ty
    simp only []
    generalize tTy (envOf L S g pre) (tEmbed (envOf L S g pre) fuel) = t at *
    generalize parseTy (envOf L S g pre) (parseEmbed (envOf L S g pre) fuel) = f at *
    have hsim : Sim
        (andThen (tRegistries L t kvs ref pre g.classes []) fun regs =>
          thenPure (tProps t kvs ref g.properties (placeholder g.properties)) fun attrs =>
            (⟨attrs, regs⟩ : GraphVal))
        (fun es => do
          let (regs, es) ← parseRegistries L f kvs ref pre g.classes [] es
          match regs with
          | none => return (none, es)
          | some regs =>
            let (attrs, es) ← parseProps f kvs ref g.properties (placeholder g.properties) es
            return (some (⟨attrs, regs⟩ : GraphVal), es)) some Any := by
      refine Sim.andThen (Q := fun regs es => match regs with
          | none => .ok (none, es)
          | some regs => do
            let (attrs, es) ← parseProps f kvs ref g.properties (placeholder g.properties) es
            return (some (⟨attrs, regs⟩ : GraphVal), es))
        (sim_registries L hfol kvs ref pre g.classes []) (fun regs => ?_) ?_ ?_ ?_
      · refine Sim.thenPure (f' := fun attrs => some (⟨attrs, regs⟩ : GraphVal))
          (sim_props hfol kvs ref g.properties (placeholder g.properties)) (fun _ => rfl)
          (fun _ _ => trivial) ?_ ?_
        · intro es b es' hb
          simp [hb, bind, Except.bind, pure, Except.pure]
        · intro es x hx
          simp [hx, bind, Except.bind]
      · intro es b es' hb hf
        cases b <;> simp [hb, bind, Except.bind, pure, Except.pure]
      · intro es b es' hb hf hn
        rw [IsNone] at hn; subst hn
        exact ⟨none, by simp [hb, bind, Except.bind, pure, Except.pure], trivial⟩
      · intro es x hx
        simp [hx, bind, Except.bind]
    obtain ⟨ha, hb⟩ := hsim es hu hf
    generalize (andThen (tRegistries L t kvs ref pre g.classes []) fun regs =>
          thenPure (tProps t kvs ref g.properties (placeholder g.properties)) fun attrs =>
            (⟨attrs, regs⟩ : GraphVal)) = T at *
    -- the real function adds the final checks
    have hreal : ∀ b es', (do
          let (regs, es) ← parseRegistries L f kvs ref pre g.classes [] es
          match regs with
          | none => return (none, es)
          | some regs =>
            let (attrs, es) ← parseProps f kvs ref g.properties (placeholder g.properties) es
            return (some (⟨attrs, regs⟩ : GraphVal), es) : Except Exc (Option GraphVal × Errors)) =
          .ok (b, es') →
        (do
          let (regs, es) ← parseRegistries L f kvs ref pre g.classes [] es
          match regs with
          | none => return (none, es)
          | some regs =>
            let (attrs, es) ← parseProps f kvs ref g.properties (placeholder g.properties) es
            if es.full then return (none, es)
            else if !es.empty then return (none, es)
            else return (some (⟨attrs, regs⟩ : GraphVal), es) :
            Except Exc (Option GraphVal × Errors)) =
          .ok (if es'.full || !es'.empty then none else b, es') := by
      intro b es' h
      simp only [bind, Except.bind, pure, Except.pure] at h ⊢
      split at h
      · simp at h
      · next r hr =>
        obtain ⟨regs, es1⟩ := r
        simp only [] at h ⊢
        cases regs with
        | none =>
          simp only [Except.ok.injEq, Prod.mk.injEq] at h ⊢
          obtain ⟨rfl, rfl⟩ := h
          simp
        | some regs =>
          simp only [] at h ⊢
          split at h
          · simp at h
          · next r hr =>
            obtain ⟨attrs, es2⟩ := r
            simp only [Except.ok.injEq, Prod.mk.injEq] at h
            obtain ⟨rfl, rfl⟩ := h
            simp only []
            cases es2.full <;> cases es2.empty <;> simp
    have hrealE : ∀ x, (do
          let (regs, es) ← parseRegistries L f kvs ref pre g.classes [] es
          match regs with
          | none => return (none, es)
          | some regs =>
            let (attrs, es) ← parseProps f kvs ref g.properties (placeholder g.properties) es
            return (some (⟨attrs, regs⟩ : GraphVal), es) : Except Exc (Option GraphVal × Errors)) =
          .error x →
        (do
          let (regs, es) ← parseRegistries L f kvs ref pre g.classes [] es
          match regs with
          | none => return (none, es)
          | some regs =>
            let (attrs, es) ← parseProps f kvs ref g.properties (placeholder g.properties) es
            if es.full then return (none, es)
            else if !es.empty then return (none, es)
            else return (some (⟨attrs, regs⟩ : GraphVal), es) :
            Except Exc (Option GraphVal × Errors)) = .error x := by
      intro x h
      simp only [bind, Except.bind, pure, Except.pure] at h ⊢
      split at h
      · exact congrArg _ (Except.error.inj h)
      · next r hr =>
        obtain ⟨regs, es1⟩ := r
        simp only [] at h ⊢
        cases regs with
        | none => simp at h
        | some regs =>
          simp only [] at h ⊢
          split at h
          · exact congrArg _ (Except.error.inj h)
          · simp at h
    cases T with
    | error y =>
      refine ⟨by simp, ?_⟩
      intro x log h
      cases h
      obtain ⟨h1, h2⟩ := hb _ _ rfl
      refine ⟨fun hfl => hrealE _ (h1 hfl), fun hfl => ?_⟩
      obtain ⟨b, h, _⟩ := h2 hfl
      refine (hreal b _ h).trans ?_
      simp [hfl]
    | ok r =>
      obtain ⟨gv, log'⟩ := r
      refine ⟨?_, by simp⟩
      intro o log h
      simp only [Except.ok.injEq, Prod.mk.injEq] at h
      obtain ⟨rfl, rfl⟩ := h
      obtain ⟨b, h1, h2, h3⟩ := ha gv log' rfl
      refine (hreal b _ h1).trans ?_
      by_cases hl : log' = []
      · subst hl
        simp only [addAll_nil, hf] at h3 ⊢
        simp [hemp, h3]
      · have : (addAll es log').empty = false := by
          cases hh : (addAll es log').empty with
          | false => rfl
          | true => exact absurd ((addAll_empty_iff hu hv log').1 hh) hl
        simp [this, hl]
  · simp only [ne_eq, hpre, not_false_eq_true, if_true]
    refine ⟨?_, by simp⟩
    intro o log h
    simp only [Except.ok.injEq, Prod.mk.injEq] at h
    obtain ⟨rfl, rfl⟩ := h
    have hne : (addAll es (preErrors L kvs ref g.classes)).empty = false := by
      cases hh : (addAll es (preErrors L kvs ref g.classes)).empty with
      | false => rfl
      | true => exact absurd ((addAll_empty_iff hu hv _).1 hh) hpre
    have hcl : g.classes.isEmpty = false := by
      cases hc : g.classes with
      | nil => rw [hc] at hpre; simp [preErrors] at hpre
      | cons _ _ => rfl
    split
    · next h => simp only [Prod.mk.injEq] at h; rw [h.2]
    · next h =>
      simp only [Prod.mk.injEq] at h
      rw [← h.2, hne, hcl]
      simp

end Mapry.PyRuntime
