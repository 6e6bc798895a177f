import Verif.PyRuntime

/-!
# The generated Python parser without a cap on the errors

The trace of a parser is the value and the list of all errors it would record if the container were
never full. The trace of a parser which raises is the exception and the errors recorded by the steps
before it. `Sim` relates it to the real parser with its early exits: the container holds the first
errors of the trace, and the value is the one of the trace unless the container is full.
-/

namespace Mapry.PyRuntime

open Mapry.Text Mapry.Duration

abbrev Log := List Err

/-! ## Traces -/

/-- The trace of a parser of a primitive value: none of them records more than two errors. -/
def leaf (f : ParseFn) (v : Json) (ref : Str) : Except (Exc × Log) (Option Val × Log) :=
  match f v ref ⟨2, []⟩ with
  | .ok (x, es) => .ok (x, es.values)
  | .error x => .error (x, [])

abbrev TraceFn := Json → Str → Except (Exc × Log) (Option Val × Log)

/-- Sequence of two steps. -/
def andThen {α β : Type} (t : Except (Exc × Log) (α × Log)) (f : α → Except (Exc × Log) (β × Log)) :
    Except (Exc × Log) (β × Log) :=
  match t with
  | .error x => .error x
  | .ok (a, l) =>
    match f a with
    | .error (x, l') => .error (x, l ++ l')
    | .ok (b, l') => .ok (b, l ++ l')

/-- Change of the value. -/
def thenPure {α β : Type} (t : Except (Exc × Log) (α × Log)) (f : α → β) : Except (Exc × Log) (β × Log) :=
  match t with
  | .error x => .error x
  | .ok (a, l) => .ok (f a, l)

def tItems (f : TraceFn) (ref : Str) (i : Nat) (acc : List Val) : List Json → Except (Exc × Log) (List Val × Log)
  | [] => .ok (acc, [])
  | x :: xs => andThen (f x (sub ref (natStr i)))
      fun v => tItems f ref (i + 1) (acc ++ v.toList) xs

def tArray (f : TraceFn) (lo hi : Option Int) (v : Json) (ref : Str) :
    Except (Exc × Log) (Option Val × Log) :=
  match v with
  | .arr xs =>
    let n : Int := xs.length
    if lo.any (fun m => n < m) then
      .ok (none, [⟨ref, c!"Expected a list of minimum size " ++ intStr (lo.getD 0) ++
        c!", but got size: " ++ intStr n⟩])
    else if hi.any (fun m => m < n) then
      .ok (none, [⟨ref, c!"Expected a list of maximum size " ++ intStr (hi.getD 0) ++
        c!", but got size: " ++ intStr n⟩])
    else thenPure (tItems f ref 0 [] xs) fun vs => some (.list vs)
  | _ => .ok (none, [⟨ref, expected c!"a list" v⟩])

def tEntries (L : Lib) (f : TraceFn) (ref : Str) (acc : List (Str × Val)) :
    List (Str × Json) → Except (Exc × Log) (List (Str × Val) × Log)
  | [] => .ok (acc, [])
  | (k, x) :: kvs => andThen (f x (sub ref (L.repr k)))
      fun v => tEntries L f ref (acc ++ (v.map fun v => (k, v)).toList) kvs

def tMap (L : Lib) (f : TraceFn) (v : Json) (ref : Str) : Except (Exc × Log) (Option Val × Log) :=
  match v with
  | .obj ordered kvs => thenPure (tEntries L f ref [] kvs) fun vs => some (.map ordered vs)
  | _ => .ok (none, [⟨ref, expected c!"a dict" v⟩])

def tTy (E : Env) (embed : Str → Json → Str → Except (Exc × Log) (Val × Log)) : Ty → TraceFn
  | .array t lo hi => tArray (tTy E embed t) lo hi
  | .map t => tMap E.lib (tTy E embed t)
  | .embed name => fun v ref => thenPure (embed name v ref) some
  | .boolean => leaf parseBoolean
  | .integer b => leaf (parseInteger E.lib b)
  | .float b => leaf (parseFloat E.lib b)
  | .string p => leaf (parseMatched E.lib .str p)
  | .path p => leaf
    (parseMatched E.lib (fun s => if E.settings.pathlib then .path (E.lib.normPath s) else .str s) p)
  | .date f => leaf (parseDateTime E.lib (fun d => .date d.date) f)
  | .time f => leaf (parseDateTime E.lib (fun d => .time d.time) f)
  | .datetime f => leaf (parseDateTime E.lib .datetime f)
  | .timeZone => leaf (parseTimeZone E.lib E.settings)
  | .duration => leaf (parseDuration E.lib)
  | .cls c => leaf (parseReference c (E.ids c))

def tProperty (trace : Ty → TraceFn) (kvs : List (Str × Json)) (ref : Str) (p : Property)
    (attrs : Attrs) : Except (Exc × Log) (Attrs × Log) :=
  match kvs.lookup p.json with
  | none | some .null =>
    if p.optional then .ok (attrs, [])
    else .ok (attrs, [⟨ref, c!"Property is missing: " ++ p.json⟩])
  | some v => thenPure (trace p.ty v (sub ref p.json)) fun x =>
      match x with
      | some x => setAttr (attr p) x attrs
      | none => attrs

def tProps (trace : Ty → TraceFn) (kvs : List (Str × Json)) (ref : Str) :
    List Property → Attrs → Except (Exc × Log) (Attrs × Log)
  | [], attrs => .ok (attrs, [])
  | p :: ps, attrs => andThen (tProperty trace kvs ref p attrs) fun attrs => tProps trace kvs ref ps attrs

def tComposite (trace : Ty → TraceFn) (ps : List Property) (v : Json) (ref : Str) :
    Except (Exc × Log) (Attrs × Log) :=
  match v with
  | .obj _ kvs => tProps trace kvs ref ps (placeholder ps)
  | _ => .ok (placeholder ps, [⟨ref, expected c!"a dictionary" v⟩])

def tEmbed (E : Env) : Nat → Str → Json → Str → Except (Exc × Log) (Val × Log)
  | 0, _, _, _ => .error (.recursionError, [])
  | fuel + 1, name, v, ref =>
    match E.graph.embed? name with
    | none => .error (.keyError, [])
    | some e => thenPure (tComposite (tTy E (tEmbed E fuel)) e.properties v ref)
        fun attrs => .obj name attrs

/-- The errors about the identifiers of a registry. -/
def idErrors (L : Lib) (c : Class) (ref : Str) (ids : List Str) : Log :=
  match c.idPattern with
  | none => []
  | some p => (ids.filter fun id => !L.reMatch p id).map fun id =>
      ⟨sub ref (registryKey c), c!"Expected ID to match " ++ p ++ c!", but got: " ++ id⟩

def tPrealloc (L : Lib) (kvs : List (Str × Json)) (ref : Str) (c : Class) : (Bool × List Str) × Log :=
  match kvs.lookup (registryKey c) with
  | none | some .null => ((true, []), [])
  | some (.obj ordered ids) => ((ordered, ids.map (·.1)), idErrors L c ref (ids.map (·.1)))
  | some v => ((true, []), [⟨sub ref (registryKey c), expected c!"a dictionary" v⟩])

/-- The allocated identifiers of every class -/
def allocated (L : Lib) (kvs : List (Str × Json)) (ref : Str) (cs : List Class) :
    List (Str × Bool × List Str) :=
  cs.map fun c => (c.name, (tPrealloc L kvs ref c).1)

/-- The errors of the pre-allocation -/
def preErrors (L : Lib) (kvs : List (Str × Json)) (ref : Str) (cs : List Class) : Log :=
  cs.flatMap fun c => (tPrealloc L kvs ref c).2

def tInstances (L : Lib) (trace : Ty → TraceFn) (c : Class) (ref : Str) (ids : List Str) :
    List (Str × Json) → List (Str × Instance) → Except (Exc × Log) (List (Str × Instance) × Log)
  | [], acc => .ok (acc, [])
  | (id, v) :: rest, acc =>
    if id ∈ ids then
      andThen (tComposite trace c.properties v (sub (sub ref (registryKey c)) (L.repr id)))
        fun attrs => tInstances L trace c ref ids rest (acc ++ [(id, ⟨id, attrs⟩)])
    else .error (.keyError, [])

def tRegistry (L : Lib) (trace : Ty → TraceFn) (kvs : List (Str × Json)) (ref : Str) (c : Class)
    (pre : Bool × List Str) : Except (Exc × Log) (Registry × Log) :=
  match kvs.lookup (registryKey c) with
  | none => .ok (⟨pre.1, []⟩, [])
  | some (.obj _ entries) =>
    thenPure (tInstances L trace c ref pre.2 entries []) fun instances => ⟨pre.1, instances⟩
  | some _ => .error (.attributeError, [])

def tRegistries (L : Lib) (trace : Ty → TraceFn) (kvs : List (Str × Json)) (ref : Str)
    (pre : List (Str × Bool × List Str)) :
    List Class → List (Str × Registry) → Except (Exc × Log) (List (Str × Registry) × Log)
  | [], acc => .ok (acc, [])
  | c :: cs, acc => andThen
      (tRegistry L trace kvs ref c ((pre.lookup c.name).getD (true, [])))
      fun r => tRegistries L trace kvs ref pre cs (acc ++ [(c.name, r)])

/-- The second phase: the instances and the properties of the graph -/
def tBody (L : Lib) (S : Settings) (g : Graph) (fuel : Nat) (kvs : List (Str × Json)) (ref : Str) :
    Except (Exc × Log) (GraphVal × Log) :=
  let pre := allocated L kvs ref g.classes
  let E := envOf L S g pre
  let trace := tTy E (tEmbed E fuel)
  andThen (tRegistries L trace kvs ref pre g.classes []) fun regs =>
    thenPure (tProps trace kvs ref g.properties (placeholder g.properties)) fun attrs => ⟨attrs, regs⟩

/-- The errors recorded without a cap and the graph if there is none. -/
def tGraph (L : Lib) (S : Settings) (g : Graph) (fuel : Nat) (v : Json) (ref : Str) :
    Except (Exc × Log) (Option GraphVal × Log) :=
  match v with
  | .obj _ kvs =>
    let log := preErrors L kvs ref g.classes
    if log ≠ [] then .ok (none, log)
    else
      match tBody L S g fuel kvs ref with
      | .error x => .error x
      | .ok (gv, log) => .ok (if log = [] then some gv else none, log)
  | _ => .ok (none, [⟨ref, expected c!"a dictionary" v⟩])

/-! ## Containers -/

/-- `add` for every error of the list -/
def addAll (es : Errors) (log : Log) : Errors := log.foldl Errors.add es

/-- The container is usable and within its cap. -/
structure Usable (es : Errors) : Prop where
  pos : 0 < es.cap
  le : (es.values.length : Int) ≤ es.cap

@[simp] theorem addAll_nil (es : Errors) : addAll es [] = es := rfl

theorem addAll_append (es : Errors) (a b : Log) : addAll es (a ++ b) = addAll (addAll es a) b := by
  simp [addAll]

theorem addAll_singleton (es : Errors) (e : Err) : addAll es [e] = es.add e := rfl

theorem add_cap (es : Errors) (e : Err) : (es.add e).cap = es.cap := by
  unfold Errors.add; split <;> rfl

theorem add_usable {es : Errors} (h : Usable es) (e : Err) : Usable (es.add e) := by
  constructor
  · rw [add_cap]; exact h.pos
  · unfold Errors.add
    split
    · simp; omega
    · exact h.le

theorem addAll_cap (es : Errors) (log : Log) : (addAll es log).cap = es.cap := by
  induction log generalizing es with
  | nil => rfl
  | cons e log ih => simp only [addAll, List.foldl_cons] at *; rw [ih, add_cap]

theorem addAll_usable {es : Errors} (h : Usable es) (log : Log) : Usable (addAll es log) := by
  induction log generalizing es with
  | nil => exact h
  | cons e log ih => exact ih (add_usable h e)

theorem full_add {es : Errors} (h : es.full = true) (e : Err) : es.add e = es := by
  simp only [Errors.full, decide_eq_true_eq] at h
  unfold Errors.add; rw [if_neg (by omega)]

theorem full_addAll {es : Errors} (h : es.full = true) (log : Log) : addAll es log = es := by
  induction log generalizing es with
  | nil => rfl
  | cons e log ih => simp only [addAll, List.foldl_cons] at *; rw [full_add h, ih h]

/-- The container holds the first errors. -/
theorem addAll_values {es : Errors} (h : Usable es) (log : Log) :
    (addAll es log).values = (es.values ++ log).take es.cap.toNat := by
  induction log generalizing es with
  | nil =>
    have := h.le
    rw [addAll_nil, List.append_nil, List.take_of_length_le (by omega)]
  | cons e log ih =>
    have hl := h.le
    have : addAll es (e :: log) = addAll (es.add e) log := rfl
    rw [this, ih (add_usable h e), add_cap]
    unfold Errors.add
    split
    · simp
    · next hlt =>
      have hc : es.values.length = es.cap.toNat := by omega
      simp [hc]

/-! ## Simulation -/

/-- The parser `P` follows the trace `t`: `j` embeds the values of the trace, `bad` holds of the value
returned after the container became full. -/
def Sim {α β : Type} (t : Except (Exc × Log) (α × Log)) (P : Errors → Except Exc (β × Errors)) (j : α → β)
    (bad : β → Prop) : Prop :=
  ∀ es, Usable es → es.full = false →
    (∀ a log, t = .ok (a, log) → ∃ b, P es = .ok (b, addAll es log) ∧
      ((addAll es log).full = true → bad b) ∧ ((addAll es log).full = false → b = j a)) ∧
    (∀ x log, t = .error (x, log) → ((addAll es log).full = false → P es = .error x) ∧
      ((addAll es log).full = true → ∃ b, P es = .ok (b, addAll es log) ∧ bad b))

/-- Any value is fine after the container became full. -/
def Any {β : Type} : β → Prop := fun _ => True

theorem Sim.pure {α β : Type} (a : α) (j : α → β) (bad : β → Prop) :
    Sim (.ok (a, [])) (fun es => .ok (j a, es)) j bad := by
  intro es _ hf
  refine ⟨?_, by simp⟩
  intro a' log h
  simp only [Except.ok.injEq, Prod.mk.injEq] at h
  obtain ⟨rfl, rfl⟩ := h
  exact ⟨_, rfl, by simp [hf], fun _ => rfl⟩

theorem Sim.error {α β : Type} (x : Exc) (j : α → β) (bad : β → Prop) :
    Sim (.error (x, [])) (fun _ => .error x) j bad := by
  intro es _ hf
  refine ⟨by simp, ?_⟩
  intro y log h
  cases h
  exact ⟨fun _ => rfl, fun h => by rw [addAll_nil, hf] at h; simp at h⟩

/-- The errors of the trace are added to the container. -/
def follow {α : Type} (t : Except (Exc × Log) (α × Log)) (es : Errors) : Except Exc (α × Errors) :=
  match t with
  | .ok (a, log) => .ok (a, addAll es log)
  | .error (x, _) => .error x

/-- Exact following makes a simulation. -/
theorem Sim.exact {α : Type} {t : Except (Exc × Log) (α × Log)} {P : Errors → Except Exc (α × Errors)}
    (h : ∀ es, P es = follow t es) (h0 : ∀ x log, t = .error (x, log) → log = []) :
    Sim t P id Any := by
  intro es _ hf
  rw [h es]
  constructor
  · rintro a log rfl
    exact ⟨a, rfl, fun _ => trivial, fun _ => rfl⟩
  · rintro x log rfl
    rw [h0 x log rfl, addAll_nil, hf]
    exact ⟨fun _ => rfl, fun h => by simp at h⟩

/-- Sequence with a check of the container in between. -/
theorem Sim.andThen {α β γ δ : Type} {t : Except (Exc × Log) (α × Log)}
    {P : Errors → Except Exc (β × Errors)} {j : α → β} {bad : β → Prop}
    {t' : α → Except (Exc × Log) (γ × Log)} {Q : β → Errors → Except Exc (δ × Errors)} {k : γ → δ}
    {bad' : δ → Prop} {R : Errors → Except Exc (δ × Errors)}
    (h1 : Sim t P j bad) (h2 : ∀ a, Sim (t' a) (Q (j a)) k bad')
    (hR : ∀ es b es', P es = .ok (b, es') → es'.full = false → R es = Q b es')
    (hR' : ∀ es b es', P es = .ok (b, es') → es'.full = true → bad b →
      ∃ d, R es = .ok (d, es') ∧ bad' d)
    (hE : ∀ es x, P es = .error x → R es = .error x) :
    Sim (andThen t t') R k bad' := by
  intro es hu hf
  obtain ⟨h1a, h1b⟩ := h1 es hu hf
  cases ht : t with
  | error x =>
    simp only [Mapry.PyRuntime.andThen]
    refine ⟨by simp, ?_⟩
    intro y log hy
    cases hy
    obtain ⟨he1, he2⟩ := h1b _ _ ht
    refine ⟨fun hfull => hE _ _ (he1 hfull), fun hfull => ?_⟩
    obtain ⟨b, h, hb⟩ := he2 hfull
    obtain ⟨d, hd, hbad⟩ := hR' _ _ _ h hfull hb
    exact ⟨d, hd, hbad⟩
  | ok r =>
    obtain ⟨a, log⟩ := r
    obtain ⟨b, hP, hbad, hgood⟩ := h1a a log ht
    simp only [Mapry.PyRuntime.andThen]
    cases hfull : (addAll es log).full with
    | true =>
      obtain ⟨d, hd, hbd⟩ := hR' _ _ _ hP hfull (hbad hfull)
      constructor
      · intro c l h
        split at h
        · simp at h
        · next c' l' _ =>
          simp only [Except.ok.injEq, Prod.mk.injEq] at h
          obtain ⟨rfl, rfl⟩ := h
          refine ⟨d, ?_, fun _ => hbd, ?_⟩
          · rw [hd, addAll_append, full_addAll hfull]
          · rw [addAll_append, full_addAll hfull, hfull]; simp
      · intro x l h
        split at h
        · next x' l' _ =>
          simp only [Except.error.injEq, Prod.mk.injEq] at h
          obtain ⟨rfl, rfl⟩ := h
          rw [addAll_append, full_addAll hfull, hfull]
          exact ⟨fun h => by simp at h, fun _ => ⟨d, hd, hbd⟩⟩
        · simp at h
    | false =>
      have hb := hgood hfull
      subst hb
      obtain ⟨h2a, h2b⟩ := h2 a (addAll es log) (addAll_usable hu log) hfull
      rw [hR _ _ _ hP hfull]
      constructor
      · intro c l h
        split at h
        · simp at h
        · next c' l' hc =>
          simp only [Except.ok.injEq, Prod.mk.injEq] at h
          obtain ⟨rfl, rfl⟩ := h
          obtain ⟨d, hQ, h3, h4⟩ := h2a c' l' hc
          rw [addAll_append]
          exact ⟨d, hQ, h3, h4⟩
      · intro x l h
        split at h
        · next y l' hy =>
          simp only [Except.error.injEq, Prod.mk.injEq] at h
          obtain ⟨rfl, rfl⟩ := h
          rw [addAll_append]
          exact h2b _ _ hy
        · simp at h

/-- A change of the value afterwards. -/
theorem Sim.thenPure {α β γ δ : Type} {t : Except (Exc × Log) (α × Log)}
    {P : Errors → Except Exc (β × Errors)} {j : α → β} {bad : β → Prop} {f : α → γ} {f' : β → δ}
    {k : γ → δ} {bad' : δ → Prop} {R : Errors → Except Exc (δ × Errors)}
    (h : Sim t P j bad) (hf' : ∀ a, f' (j a) = k (f a)) (hbad : ∀ b, bad b → bad' (f' b))
    (hR : ∀ es b es', P es = .ok (b, es') → R es = .ok (f' b, es'))
    (hE : ∀ es x, P es = .error x → R es = .error x) :
    Sim (thenPure t f) R k bad' := by
  intro es hu hf
  obtain ⟨ha, hb⟩ := h es hu hf
  cases ht : t with
  | error x =>
    simp only [Mapry.PyRuntime.thenPure]
    refine ⟨by simp, ?_⟩
    intro y log hy
    cases hy
    obtain ⟨he1, he2⟩ := hb _ _ ht
    refine ⟨fun hfull => hE _ _ (he1 hfull), fun hfull => ?_⟩
    obtain ⟨b, h, hb⟩ := he2 hfull
    exact ⟨_, hR _ _ _ h, hbad _ hb⟩
  | ok r =>
    obtain ⟨a, log⟩ := r
    obtain ⟨b, hP, h3, h4⟩ := ha a log ht
    simp only [Mapry.PyRuntime.thenPure]
    refine ⟨?_, by simp⟩
    intro c l h
    simp only [Except.ok.injEq, Prod.mk.injEq] at h
    obtain ⟨rfl, rfl⟩ := h
    refine ⟨_, hR _ _ _ hP, fun hfl => hbad _ (h3 hfl), fun hfl => ?_⟩
    rw [h4 hfl, hf']

end Mapry.PyRuntime
