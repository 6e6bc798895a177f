import Verif.PyShown
import Verif.Transfer
import Verif.InteropPy
import Verif.PyValid

/-! # Graphs in the heap of Python and documents which Python reads -/

namespace Mapry.Interop

open Mapry.PyLang Mapry.PyExec
open Mapry.PyRuntime (Val Attrs GraphVal Json)
open Mapry.PyRuntime.Spec (FaithfulProps)

section

variable {h : List Obj} {g : Graph}

theorem dicts_ty {embed : Str → Val → Prop} (he : ∀ name x p, Shows h x p → embed name x) :
    ∀ (t : Ty) (x : Val) (p : PV), Shows h x p → PyDictsTy embed t x := by
  intro t
  induction t with
  | array t lo hi ih =>
    intro x p hs vs e v hv
    subst e
    cases hs with
    | list _ hl hi =>
      obtain ⟨i, hi', hv'⟩ := List.mem_iff_getElem.1 hv
      exact ih v _ (hi i v _ (by rw [List.getElem?_eq_getElem hi', hv']) (List.getElem?_eq_getElem (hl ▸ hi')))
  | map t ih =>
    intro x p hs o kvs e
    subst e
    cases hs with
    | map _ hk hn hi =>
      refine ⟨hk ▸ hn, fun kv hkv => ?_⟩
      obtain ⟨i, hi', hv'⟩ := List.mem_iff_getElem.1 hkv
      have hl := congrArg List.length hk
      simp only [List.length_map] at hl
      exact ih kv.2 _ (hi i kv _ (by rw [List.getElem?_eq_getElem hi', hv']) (List.getElem?_eq_getElem (hl ▸ hi')))
  | embed name =>
    intro x p hs
    exact he name x p hs
  | _ =>
    intro x p hs
    trivial

theorem dicts_embed : ∀ (n : Nat) (name : Str) (x : Val) (p : PV), Shows h x p → PyDictsEmbed g n name x
  | 0, _, _, _, _ => trivial
  | n + 1, name, x, p, hs => by
    intro e attrs _ ex q hq v hv _
    subst ex
    cases hs with
    | obj _ h1 h2 =>
      cases hl : List.lookup (lower q.name) _ with
      | none =>
        rw [(h1 _).2 hl] at hv
        cases hv
      | some w => exact dicts_ty (fun name x p hs => dicts_embed n name x p hs) _ _ _ (h2 _ _ _ hv hl)

theorem dicts_props {n : Nat} {attrs : Attrs} {q : List (Str × PV)} {ps : List Property}
    (ha : ∀ p ∈ ps, AttrShows h attrs q (lower p.name)) : FaithfulProps (PyDictsTy (PyDictsEmbed g n)) ps attrs := by
  intro p hp x hx _
  obtain ⟨h1, h2⟩ := ha p hp
  cases hl : List.lookup (lower p.name) q with
  | none =>
    rw [h1.2 hl] at hx
    cases hx
  | some w => exact dicts_ty (fun name x p hs => dicts_embed n name x p hs) _ _ _ (h2 _ _ hx hl)

/-- Every key occurs once in the dictionaries of a graph in the heap. -/
theorem dicts_shown (hf : PyCode.Facts g) {gv : GraphVal} {i : Nat} (hs : ShowsGraph h g gv i) (n : Nat) : PyDicts g n gv := by
  obtain ⟨cn, q, _, ha, hr⟩ := hs
  refine ⟨fun c hc r hrc => ?_, ?_⟩
  · obtain ⟨h1, h2⟩ := hr c hc
    cases hl : List.lookup (lower c.plural) q with
    | none =>
      rw [h1.2 hl] at hrc
      cases hrc
    | some w =>
      obtain ⟨d, ps, -, -, hn, hF⟩ := h2 r w hrc hl
      refine ⟨?_, fun i hi => ?_⟩
      · have : r.instances.map (·.1) = ps.map (·.1) := by
          clear hn
          generalize r.instances = xs at hF
          induction hF with
          | nil => rfl
          | cons h _ ih => simp [h.1, ih]
        rw [this]
        exact hn
      · obtain ⟨w, _, _, a, cn, q', _, _, _, h4⟩ := PyRuntime.forall₂_left hF i hi
        refine dicts_props (q := q') fun p hp => h4 _ fun e => ?_
        exact (hf.cls c hc).2 (List.mem_map.2 ⟨p, hp, e⟩)
  · exact dicts_props fun p hp => ha _ fun hm =>
      (List.nodup_append.1 hf.graph).2.2 _ (List.mem_map.2 ⟨p, hp, rfl⟩) _ hm rfl

end

/-- Every key occurs once in what `json.loads` returns. -/
theorem keyed_pyOf (o : Bool) {d : Doc} (hd : d.Distinct) : Keyed (pyOf o d) := by
  induction hd with
  | null => exact .null
  | bool b => exact .bool b
  | int i => exact .int i
  | real q => exact .float _
  | str s => exact .str s
  | arr xs _ ih =>
    rw [pyOf, pyItems_eq]
    exact .arr fun x hx => by
      obtain ⟨y, hy, rfl⟩ := List.mem_map.1 hx
      exact ih y hy
  | obj kvs hn _ ih =>
    rw [pyOf, pyEntries_eq]
    refine .obj ?_ fun x hx => ?_
    · rw [List.map_map]
      exact hn
    · obtain ⟨y, hy, rfl⟩ := List.mem_map.1 hx
      exact ih y hy

end Mapry.Interop
