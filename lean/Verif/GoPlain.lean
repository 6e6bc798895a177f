import Verif.GoSer

/-! # A graph of plain values survives the way through JSON text if the library is reliable -/

namespace Mapry.GoRuntime

open Mapry.Duration Mapry.GoRuntime.Spec

theorem Spec.PlainVal.inside {x y : Val} (h : PlainVal x) (hi : ∀ w, Inside w y → Inside w x) : PlainVal y :=
  ⟨fun i hw => h.ints i (hi _ hw), fun f hw => h.floats f (hi _ hw), fun d hw => h.durations d (hi _ hw)⟩

variable {L : Lib} {g : Graph} {registered : Str → Str → Prop}

theorem faithful_ty (hL : Reliable L) {fits : Str → Val → Prop} {faithful : Str → Val → Prop}
    (he : ∀ name x, fits name x → PlainVal x → faithful name x) (t : Ty) (x : Val)
    (hf : FitsTy L registered fits t x) (hp : PlainVal x) : FaithfulTy L faithful t x := by
  induction t generalizing x with
  | integer b => intro i hi; exact hp.ints i (hi ▸ .here)
  | float b => intro f hi; exact hp.floats f (hi ▸ .here)
  | date f | time f | datetime f =>
    obtain ⟨s, t, h1, rfl⟩ := hf
    intro t' ht'
    cases ht'
    exact hL.time _ _ _ h1
  | timeZone =>
    obtain ⟨s, z, h1, rfl⟩ := hf
    intro z' hz'
    cases hz'
    exact hL.location _ _ h1
  | duration => intro d hd; exact hp.durations d (hd ▸ .here)
  | array t lo hi ih =>
    obtain ⟨vs, rfl, _, h⟩ := hf
    intro vs' hv' v hm
    cases hv'
    exact ih v (h v hm) (hp.inside fun w hw => .item hm hw)
  | map t ih =>
    obtain ⟨kvs, rfl, _, h⟩ := hf
    intro vs' hv' kv hm
    cases hv'
    exact ih kv.2 (h kv hm) (hp.inside fun w hw => .entry (k := kv.1) hm hw)
  | embed name => exact he name x hf hp
  | _ => trivial

theorem faithful_nil {faithful : Str → Val → Prop} (he : ∀ name, faithful name .nil) (t : Ty) :
    FaithfulTy L faithful t .nil := by
  cases t with
  | embed name => exact he name
  | integer | float | date | time | datetime | timeZone | duration | array | map => intro _ h; cases h
  | _ => trivial

theorem faithfulEmbed_nil (n : Nat) (name : Str) : FaithfulEmbed L g n name .nil := by
  cases n with
  | zero => trivial
  | succ n => intro e fields _ h; cases h

theorem faithful_props {fits faithful : Ty → Val → Prop} (hn : ∀ t, faithful t .nil)
    (h : ∀ t x, fits t x → PlainVal x → faithful t x) {ps : List Property} (hd : (ps.map field).Nodup) {fields : Fields}
    (hf : FitsProps fits ps fields) (hp : ∀ f ∈ fields, PlainVal f.2) : FaithfulProps faithful ps fields := by
  intro p hpp x hl
  obtain ⟨y, hl', hr⟩ := fields_lookup (fun _ _ h => h.1) hf hd p hpp
  have hx : fields.lookup (field p) = some x := hl
  rw [hl'] at hx
  cases hx
  rcases hr.2 with ⟨_, h0⟩ | hr
  · simp only at h0
    rw [h0]
    exact hn _
  · exact h _ _ hr (hp _ (GoMap.lookup_mem hl'))

theorem faithful_embed (hL : Reliable L) (hD : Distinct g) (n : Nat) :
    ∀ name x, FitsEmbed L g registered n name x → PlainVal x → FaithfulEmbed L g n name x := by
  induction n with
  | zero => intro name x h _; exact h.elim
  | succ n ih =>
    rintro name x ⟨e, fields, he, rfl, hx⟩ hp e' fields' he' hf'
    rw [he] at he'
    cases he'
    cases hf'
    exact faithful_props (faithful_nil (faithfulEmbed_nil n)) (faithful_ty hL ih) (hD.embed e (embed_mem he)) hx
      fun f hf => hp.inside fun w hw => .field (k := f.1) hf hw

theorem faithful_graph (hL : Reliable L) (hD : Distinct g) {n : Nat} {gv : GraphVal} (hv : ValidGraph L g n gv)
    (hp : PlainGraph gv) : FaithfulGraph L g n gv := by
  have hty := faithful_ty (registered := Registered gv) hL (faithful_embed (g := g) (registered := Registered gv) hL hD n)
  refine ⟨?_, faithful_props (faithful_nil (faithfulEmbed_nil n)) hty hD.graph hv.fields hp.fields⟩
  intro c hc r hr i hi
  have hm := GoMap.lookup_mem hr
  obtain ⟨d, hd, hdn, _, hall⟩ := forall₂_right hv.registries hm
  simp only at hdn hall
  have : c = d := by
    have hn := hD.names
    generalize g.classes = cs at hc hd hn
    induction cs with
    | nil => cases hc
    | cons a cs ih =>
      rw [List.map_cons, List.nodup_cons] at hn
      rcases List.mem_cons.1 hc with rfl | hc' <;> rcases List.mem_cons.1 hd with rfl | hd'
      · rfl
      · exact absurd (List.mem_map.2 ⟨d, hd', hdn.symm⟩) hn.1
      · exact absurd (List.mem_map.2 ⟨c, hc', hdn⟩) hn.1
      · exact ih hc' hd' hn.2
  subst this
  exact faithful_props (faithful_nil (faithfulEmbed_nil n)) hty (hD.cls c hc) (hall i hi).2.2
    (hp.registries _ hm i hi)

end Mapry.GoRuntime
