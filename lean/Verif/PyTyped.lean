import Verif.PyValid
import Verif.PySer

/-!
# A graph which satisfies the schema can be serialized
-/

namespace Mapry.PyRuntime.Spec

open Mapry.PyRuntime

section

variable {lax rounded : Bool} {L : Lib} {S : Settings} {g : Graph} {registered : Str → Str → Prop}

theorem typed_ty {e e' : Str → Val → Prop} (he : ∀ n x, e n x → e' n x) : ∀ ty x,
    FitsTy lax L S rounded registered e ty x → TypedTy S e' ty x
  | .boolean, _, h => h
  | .integer _, _, h => by
    rcases h with ⟨i, h, _⟩ | ⟨_, c, h, _⟩
    · exact .inl ⟨i, h⟩
    · exact .inr ⟨c, h⟩
  | .float _, _, ⟨f, h, _⟩ => .inl ⟨f, h⟩
  | .string _, _, ⟨s, h, _⟩ => ⟨s, h⟩
  | .path _, _, ⟨s, h, _⟩ => by
    subst h
    unfold TypedTy pathVal
    cases S.pathlib
    · exact ⟨s, rfl⟩
    · exact ⟨_, rfl⟩
  | .date _, _, ⟨_, _, _, h⟩ => ⟨_, h⟩
  | .time _, _, ⟨_, _, _, h⟩ => ⟨_, h⟩
  | .datetime _, _, ⟨_, _, _, h⟩ => ⟨_, h⟩
  | .timeZone, _, h => by
    unfold FitsTy at h
    unfold TypedTy
    cases hp : S.pytz
    · rw [hp] at h
      exact h
    · rw [hp] at h
      obtain ⟨_, z, _, h⟩ := h
      exact ⟨z, h⟩
  | .duration, _, ⟨d, h, _⟩ => ⟨d, h⟩
  | .array t _ _, _, ⟨vs, h, _, ha⟩ => ⟨vs, h, fun v hv => typed_ty he t v (ha v hv)⟩
  | .map t, _, ⟨o, kvs, h, ha⟩ => ⟨o, kvs, h, fun v hv => typed_ty he t v.2 (ha v hv)⟩
  | .cls _, _, ⟨id, h, _⟩ => ⟨id, h⟩
  | .embed n, x, h => he n x h

theorem typed_props {f t : Ty → Val → Prop} (ht : ∀ ty x, f ty x → t ty x) : ∀ {ps : List Property} {attrs : Attrs},
    (ps.map fun p => Mapry.lower p.name).Nodup → FitsProps f ps attrs → TypedProps t ps attrs
  | _, _, _, .nil => nofun
  | p :: ps, (k, x) :: attrs, hn, .cons ⟨h1, h2⟩ h => by
    rw [List.map_cons, List.nodup_cons] at hn
    simp only at h1 h2
    subst h1
    intro q hq
    rcases List.mem_cons.1 hq with rfl | hq
    · exact ⟨x, by simp [List.lookup], h2.imp id (ht _ _)⟩
    · obtain ⟨y, hy, h3⟩ := typed_props ht hn.2 h q hq
      have : (Mapry.lower q.name == Mapry.lower p.name) = false :=
        beq_false_of_ne fun e => hn.1 (e ▸ List.mem_map.2 ⟨q, hq, rfl⟩)
      exact ⟨y, by rw [List.lookup, this]; exact hy, h3⟩

theorem typed_embed (hD : Distinct g) : ∀ n name x, FitsEmbed lax L S g rounded registered n name x → TypedEmbed S g n name x
  | 0, _, _, h => h
  | n + 1, _, _, ⟨e, attrs, h1, h2, h3⟩ =>
    ⟨e, attrs, h1, h2, typed_props (typed_ty (typed_embed hD n)) (hD.embed e (List.mem_of_find?_eq_some h1)) h3⟩

theorem typed_graph (hD : Distinct g) {n : Nat} {gv : GraphVal} (hv : ValidGraph lax L S g rounded n gv) :
    TypedGraph S g n gv ∧ ¬ Misregistered g gv := by
  have hr := lookup_registries hD.names hv.registries
  refine ⟨⟨fun c hc => ?_, typed_props (typed_ty (typed_embed hD n)) hD.graph hv.attrs⟩, ?_⟩
  · obtain ⟨r, _, h1, _, h2⟩ := forall₂_left hr c hc
    exact ⟨_, h1, fun i hi => typed_props (typed_ty (typed_embed hD n)) (hD.cls c hc) (h2 i hi).2.2⟩
  · rintro ⟨c, hc, r, h1, i, hi, hne⟩
    obtain ⟨r', _, h2, _, h3⟩ := forall₂_left hr c hc
    rw [h1] at h2
    cases h2
    exact hne (h3 i hi).1.symm

end

end Mapry.PyRuntime.Spec
