import Verif.PyExecGraph

/-!
# A deeper stack does not change the result of the parser
-/

namespace Mapry.PyExec

open Mapry.PyRuntime Mapry.Text Mapry.Duration Mapry.Naming
open Mapry.TypeGraph hiding Obj
open Mapry.PyRuntime (Json Lib Val)

/-- The second result is the first one unless the stack is exhausted. -/
def Below {α : Type} (a b : Except Exc α) : Prop := a = .error .recursionError ∨ a = b

theorem Below.rfl {α : Type} {a : Except Exc α} : Below a a := .inr (Eq.refl _)

theorem Below.trans {α : Type} {a b c : Except Exc α} (h : Below a b) (h' : Below b c) : Below a c := by
  rcases h with h | h
  · exact .inl h
  · subst h
    exact h'

theorem Below.bind {α β : Type} {x x' : Except Exc α} {f f' : α → Except Exc β} (h : Below x x') (hf : ∀ a, Below (f a) (f' a)) :
    Below (x >>= f) (x' >>= f') := by
  rcases h with h | h
  · subst h
    exact .inl (Eq.refl _)
  · subst h
    cases x with
    | error e => exact .rfl
    | ok a => exact hf a

def BelowFn (f f' : ParseFn) : Prop := ∀ v ref es, Below (f v ref es) (f' v ref es)

theorem items_below {f f' : ParseFn} (h : BelowFn f f') (ref : Str) : ∀ (l : List Json) i acc es,
    Below (parseItems f ref i acc l es) (parseItems f' ref i acc l es) := by
  intro l
  induction l with
  | nil => intro i acc es; exact .rfl
  | cons j l ih =>
    intro i acc es
    rw [parseItems, parseItems]
    refine (h _ _ _).bind fun a => ?_
    dsimp only
    split
    · exact .rfl
    · exact ih _ _ _

theorem entries_below {L : Lib} {f f' : ParseFn} (h : BelowFn f f') (ref : Str) : ∀ (l : List (Str × Json)) acc es,
    Below (parseEntries L f ref acc l es) (parseEntries L f' ref acc l es) := by
  intro l
  induction l with
  | nil => intro acc es; exact .rfl
  | cons kv l ih =>
    obtain ⟨k, j⟩ := kv
    intro acc es
    rw [parseEntries, parseEntries]
    refine (h _ _ _).bind fun a => ?_
    dsimp only
    split
    · exact .rfl
    · exact ih _ _

def BelowEmbed (e e' : Str → Json → Str → Errors → Except Exc (Val × Errors)) : Prop :=
  ∀ n v ref es, Below (e n v ref es) (e' n v ref es)

theorem ty_below {E : Env} {e e' : Str → Json → Str → Errors → Except Exc (Val × Errors)} (h : BelowEmbed e e') (ty : Ty) :
    BelowFn (parseTy E e ty) (parseTy E e' ty) := by
  induction ty with
  | array ty lo hi ih =>
    intro v ref es
    rw [parseTy, parseTy]
    cases v with
    | arr xs =>
      rw [parseArray, parseArray]
      dsimp only
      split
      · exact .rfl
      · split
        · exact .rfl
        · exact (items_below ih _ _ _ _ _).bind fun _ => .rfl
    | _ => exact .rfl
  | map ty ih =>
    intro v ref es
    rw [parseTy, parseTy]
    cases v with
    | obj o kvs => exact (entries_below ih _ _ _ _).bind fun _ => .rfl
    | _ => exact .rfl
  | embed n =>
    intro v ref es
    rw [parseTy, parseTy]
    exact (h n v ref es).bind fun _ => .rfl
  | _ => intro v ref es; exact .rfl

theorem property_below {parse parse' : Ty → ParseFn} (h : ∀ ty, BelowFn (parse ty) (parse' ty)) (kvs : List (Str × Json))
    (ref : Str) (p : Property) (attrs : Attrs) (es : Errors) :
    Below (parseProperty parse kvs ref p attrs es) (parseProperty parse' kvs ref p attrs es) := by
  unfold parseProperty
  split
  · exact .rfl
  · exact .rfl
  · exact (h _ _ _ _).bind fun _ => .rfl

theorem props_below {parse parse' : Ty → ParseFn} (h : ∀ ty, BelowFn (parse ty) (parse' ty)) (kvs : List (Str × Json))
    (ref : Str) : ∀ (ps : List Property) (attrs : Attrs) (es : Errors),
    Below (parseProps parse kvs ref ps attrs es) (parseProps parse' kvs ref ps attrs es) := by
  intro ps
  induction ps with
  | nil => intro attrs es; exact .rfl
  | cons p ps ih =>
    intro attrs es
    rw [parseProps, parseProps]
    refine (property_below h _ _ _ _ _).bind fun a => ?_
    dsimp only
    split
    · exact .rfl
    · exact ih _ _

theorem composite_below {parse parse' : Ty → ParseFn} (h : ∀ ty, BelowFn (parse ty) (parse' ty)) (ps : List Property) (v : Json)
    (ref : Str) (es : Errors) : Below (parseComposite parse ps v ref es) (parseComposite parse' ps v ref es) := by
  cases v with
  | obj o kvs => exact props_below h _ _ _ _ _
  | _ => exact .rfl

theorem embed_below {E : Env} : ∀ k, BelowEmbed (parseEmbed E k) (parseEmbed E (k + 1)) := by
  intro k
  induction k with
  | zero => intro n v ref es; exact .inl rfl
  | succ k ih =>
    intro n v ref es
    rw [parseEmbed, parseEmbed]
    split
    · exact .rfl
    · exact (composite_below (ty_below ih) _ _ _ _).bind fun _ => .rfl

theorem instances_below {L : Lib} {parse parse' : Ty → ParseFn} (h : ∀ ty, BelowFn (parse ty) (parse' ty)) {c : Class} {ref : Str}
    {ids : List Str} : ∀ (l : List (Str × Json)) acc es,
    Below (parseInstances L parse c ref ids l acc es) (parseInstances L parse' c ref ids l acc es) := by
  intro l
  induction l with
  | nil => intro acc es; exact .rfl
  | cons kv l ih =>
    obtain ⟨k, j⟩ := kv
    intro acc es
    rw [parseInstances, parseInstances]
    split
    · refine (composite_below h _ _ _ _).bind fun a => ?_
      dsimp only
      split
      · exact .rfl
      · exact ih _ _
    · exact .rfl

theorem registry_below {L : Lib} {parse parse' : Ty → ParseFn} (h : ∀ ty, BelowFn (parse ty) (parse' ty)) {kvs : List (Str × Json)}
    {ref : Str} {c : Class} {pre : Bool × List Str} {es : Errors} :
    Below (parseRegistry L parse kvs ref c pre es) (parseRegistry L parse' kvs ref c pre es) := by
  unfold parseRegistry
  split
  · exact .rfl
  · exact (instances_below h _ _ _).bind fun _ => .rfl
  · exact .rfl

theorem registries_below {L : Lib} {parse parse' : Ty → ParseFn} (h : ∀ ty, BelowFn (parse ty) (parse' ty)) {kvs : List (Str × Json)}
    {ref : Str} {pre : List (Str × Bool × List Str)} : ∀ (cs : List Class) acc es,
    Below (parseRegistries L parse kvs ref pre cs acc es) (parseRegistries L parse' kvs ref pre cs acc es) := by
  intro cs
  induction cs with
  | nil => intro acc es; exact .rfl
  | cons c cs ih =>
    intro acc es
    rw [parseRegistries, parseRegistries]
    refine (registry_below h).bind fun a => ?_
    obtain ⟨r, es'⟩ := a
    cases r with
    | none => exact .rfl
    | some r => exact ih _ _

theorem graph_below {L : Lib} {S : Settings} {g : Graph} {a a' b b' : Nat}
    (ha : ∀ E : Env, BelowEmbed (parseEmbed E a) (parseEmbed E a')) (hb : ∀ E : Env, BelowEmbed (parseEmbed E b) (parseEmbed E b'))
    (v : Json) (ref : Str) (es : Errors) : Below (parseGraphAt L S g a b v ref es) (parseGraphAt L S g a' b' v ref es) := by
  unfold parseGraphAt
  split
  · exact .rfl
  · split
    · split
      · exact .rfl
      · split
        · exact .rfl
        · refine (registries_below (ty_below (ha _)) _ _ _).bind fun r => ?_
          obtain ⟨r, es'⟩ := r
          cases r with
          | none => exact .rfl
          | some r => exact (props_below (ty_below (hb _)) _ _ _ _ _).bind fun _ => .rfl
    · exact .rfl

theorem embed_refl {E : Env} {k : Nat} : BelowEmbed (parseEmbed E k) (parseEmbed E k) := fun _ _ _ _ => .rfl

/-- A deeper stack does not change the result. -/
theorem parseGraph_below {L : Lib} {S : Settings} {g : Graph} (k : Nat) (v : Json) (ref : Str) (es : Errors) :
    Below (parseGraph L S g k v ref es) (parseGraphAt L S g k (k + 1) v ref es) ∧
      Below (parseGraphAt L S g k (k + 1) v ref es) (parseGraph L S g (k + 1) v ref es) :=
  ⟨graph_below (a := k) (b := k) (fun _ => embed_refl) (fun _ => embed_below k) v ref es,
    graph_below (a' := k + 1) (b' := k + 1) (fun _ => embed_below k) (fun _ => embed_refl) v ref es⟩

end Mapry.PyExec
