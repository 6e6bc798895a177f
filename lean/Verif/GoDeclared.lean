import Verif.GoImports
import Verif.DurationLemmas
import Verif.Props.Naming

/-!
# The declarations of the generated Go package
-/

namespace Mapry.GoCode

open Mapry.TypeGraph Mapry.Naming

/-- The declarations which do not depend on the names in the schema. -/
def fixedNames : List Str := [c!"Error", c!"Errors", c!"NewErrors"]

def durationNames : List Str :=
  [c!"addDuration", c!"durationFromString", c!"durationRe", c!"durationToString"] ++
  (examplesFromString ++ examplesToString).map (·.name)

/-- The Go names of all the composites. -/
structure GoNames (g : Graph) (us : List Str) : Prop where
  eq : (g.embeds.map (·.name) ++ g.classes.map (·.name) ++ [g.name]).mapM ucamelCase = .ok us

theorem mapM_append_ok {α β : Type} {f : α → Except Exc β} {a b : List α} {x y : List β} (ha : a.mapM f = .ok x)
    (hb : b.mapM f = .ok y) : (a ++ b).mapM f = .ok (x ++ y) := by
  rw [List.mapM_append, ha, hb]
  rfl

theorem mapM_map_ok {α β γ : Type} {f : β → Except Exc γ} {k : α → β} {a : List α} :
    (a.map k).mapM f = a.mapM fun x => f (k x) := by
  rw [List.mapM_map]
  rfl

theorem mapM_then {α β γ : Type} {f : α → Except Exc β} {k : α → Except Exc γ} {p : β → γ} {a : List α} {x : List β}
    (h : a.mapM f = .ok x) (hk : ∀ b y, f b = .ok y → k b = .ok (p y)) : a.mapM k = .ok (x.map p) := by
  induction a generalizing x with
  | nil => cases h; rfl
  | cons b a ih =>
    obtain ⟨y, ys, hy, hys, rfl⟩ := mapM_cons h
    rw [List.mapM_cons, hk b y hy, ih hys]
    rfl

theorem mapM_func {α β γ : Type} {f : α → Except Exc β} {k : α → Except Exc γ} {p : β → γ} {a : List α} {x : List β}
    {z : List γ} (h : a.mapM f = .ok x) (hz : a.mapM k = .ok z)
    (hk : ∀ b y w, f b = .ok y → k b = .ok w → p y = w) : x.map p = z := by
  induction a generalizing x z with
  | nil => cases h; cases hz; rfl
  | cons b a ih =>
    obtain ⟨y, ys, hy, hys, rfl⟩ := mapM_cons h
    obtain ⟨w, ws, hw, hws, rfl⟩ := mapM_cons hz
    rw [List.map_cons, hk b y w hy hw, ih hys hws]

/-- What the files declare, up to the order. -/
theorem declared_eq {g : Graph} {fs : List File} (h : package g = .ok fs) : ∃ us, GoNames g us ∧
    (declared fs).Perm ((us ++ us.map (· ++ c!"FromJSONable") ++ us.map (· ++ c!"ToJSONable") ++ fixedNames ++
      (if needs g .duration then durationNames else [])).map Name.glob ++
      (enumeratePatterns g).map fun e => Name.pattern e.2) := by
  obtain ⟨T, P, S, hT, hP, hS, rfl⟩ := package_parts h
  unfold typesFile at hT
  obtain ⟨te, hte, hT⟩ := ok_bind hT
  obtain ⟨tc, htc, hT⟩ := ok_bind hT
  obtain ⟨_, _, hT⟩ := ok_bind hT
  obtain ⟨n, hn, hT⟩ := ok_bind hT
  cases hT
  obtain ⟨pc, pe, pg, hpc, hpe, hpg, _, hPf, hPd, _⟩ := parseFile_parts hP
  obtain ⟨sc, se, sg, hsc, hse, hsg, _, hSf, hSd, _⟩ := serializeFile_parts hS
  have he : (g.embeds.map (·.name)).mapM ucamelCase = .ok (te.map (·.1)) := by
    rw [mapM_map_ok]
    refine mapM_then hte fun b y hy => ?_
    obtain ⟨f, hf, hy⟩ := ok_bind hy
    obtain ⟨_, _, hy⟩ := ok_bind hy
    cases hy
    exact hf
  have hc : (g.classes.map (·.name)).mapM ucamelCase = .ok (tc.map (·.1)) := by
    rw [mapM_map_ok]
    refine mapM_then htc fun b y hy => ?_
    obtain ⟨f, hf, hy⟩ := ok_bind hy
    obtain ⟨_, _, hy⟩ := ok_bind hy
    cases hy
    exact hf
  have hg : [g.name].mapM ucamelCase = .ok [n] := by
    rw [List.mapM_cons, hn]
    rfl
  refine ⟨te.map (·.1) ++ tc.map (·.1) ++ [n], ⟨mapM_append_ok (mapM_append_ok he hc) hg⟩, ?_⟩
  rw [mapM_map_ok] at he hc
  have names : ∀ {f : Func} {m s : Str}, (∃ k, ucamelCase m = .ok k ∧ f.name = k ++ s) →
      ∀ w, ucamelCase m = .ok w → f.name = w ++ s := by
    rintro f m s ⟨k, h1, h2⟩ w hw
    rw [h1] at hw
    cases hw
    exact h2
  have e1 : pc.map (·.name) = (tc.map (·.1)).map (· ++ c!"FromJSONable") :=
    mapM_func hpc (mapM_then hc (p := (· ++ c!"FromJSONable")) (k := fun c => (ucamelCase c.name).map (· ++ c!"FromJSONable"))
      (fun b y hy => by rw [hy]; rfl)) (fun b y w h1 h2 => by
        obtain ⟨k, h3, h4⟩ := parseComposite_name h1
        rw [h3] at h2
        cases h2
        exact h4)
  have e2 : pe.map (·.name) = (te.map (·.1)).map (· ++ c!"FromJSONable") :=
    mapM_func hpe (mapM_then he (p := (· ++ c!"FromJSONable")) (k := fun c => (ucamelCase c.name).map (· ++ c!"FromJSONable"))
      (fun b y hy => by rw [hy]; rfl)) (fun b y w h1 h2 => by
        obtain ⟨k, h3, h4⟩ := parseComposite_name h1
        rw [h3] at h2
        cases h2
        exact h4)
  have e3 : sc.map (·.name) = (tc.map (·.1)).map (· ++ c!"ToJSONable") :=
    mapM_func hsc (mapM_then hc (p := (· ++ c!"ToJSONable")) (k := fun c => (ucamelCase c.name).map (· ++ c!"ToJSONable"))
      (fun b y hy => by rw [hy]; rfl)) (fun b y w h1 h2 => by
        obtain ⟨k, h3, h4⟩ := serializeComposite_name h1
        rw [h3] at h2
        cases h2
        exact h4)
  have e4 : se.map (·.name) = (te.map (·.1)).map (· ++ c!"ToJSONable") :=
    mapM_func hse (mapM_then he (p := (· ++ c!"ToJSONable")) (k := fun c => (ucamelCase c.name).map (· ++ c!"ToJSONable"))
      (fun b y hy => by rw [hy]; rfl)) (fun b y w h1 h2 => by
        obtain ⟨k, h3, h4⟩ := serializeComposite_name h1
        rw [h3] at h2
        cases h2
        exact h4)
  have e5 := names (parseGraph_name hpg) n hn
  have e6 := names (serializeGraph_name hsg) n hn
  have gl : ∀ l : List Func, l.map (fun f => Name.glob f.name) = (l.map (·.name)).map Name.glob := by
    intro l
    rw [List.map_map]
    rfl
  rw [List.perm_iff_count]
  intro x
  unfold declared
  simp only [List.flatMap_cons, List.flatMap_nil, hPd, hSd, hPf, hSf, gl, List.map_append, e1, e2, e3, e4,
    parseTestFile, serializeTestFile, errorsFile, fixedNames, List.map_cons, List.map_nil, e5, e6,
    List.append_nil]
  cases hd : needs g .duration
  · simp only [Bool.false_eq_true, if_false, List.map_nil, List.map_map, List.append_nil, List.count_append,
      List.count_cons, List.count_nil, Function.comp_def]
    omega
  · simp only [if_true, List.map_map, List.map_append, List.count_append, List.count_cons,
      List.count_nil, Function.comp_def, durationNames, durationFromString, durationToString, List.map_cons,
      List.map_nil]
    omega

/-- A name as `ucamel_case` returns it. -/
def Camel (u : Str) : Prop := '_' ∉ u ∧ ∃ c cs, u = c :: cs ∧ c.toUpper = c

theorem camel_of {s u : Str} (h : ucamelCase s = .ok u) : Camel u := by
  obtain ⟨h1, _, h3⟩ := Props.C01_ucamel_case_shape s u h
  obtain ⟨hp, rfl⟩ := (Props.C01_ucamel_case_ok_iff s u).1 h
  obtain ⟨c, cs, rfl, hc⟩ := camelSpec_head s hp.1 hp.2.1
  refine ⟨h1, c.toUpper, _, hc, ?_⟩
  exact toUpper_toUpper c

theorem GoNames.camel {g : Graph} {us : List Str} (h : GoNames g us) : ∀ u ∈ us, Camel u := by
  intro u hu
  obtain ⟨s, _, hs⟩ := mapM_mem h.eq hu
  exact camel_of hs

/-- Neither a name of a composite nor the one of its functions. -/
def Foreign (d : Str) : Prop := '_' ∈ d ∨ ∃ c cs, d = c :: cs ∧ c.toUpper ≠ c

theorem Camel.ne {u s d : Str} (h : Camel u) (hs : '_' ∉ s) (hd : Foreign d) : u ++ s ≠ d := by
  rintro rfl
  rcases hd with hd | ⟨c, cs, e, hd⟩
  · rw [List.mem_append] at hd
    exact hd.elim h.1 hs
  · obtain ⟨_, c', cs', rfl, hc⟩ := h
    cases e
    exact hd hc

theorem durationNames_foreign : ∀ d ∈ durationNames, Foreign d := by
  intro d hd
  have : d ∈ [c!"addDuration", c!"durationFromString", c!"durationRe", c!"durationToString"] ∨
      d ∈ (examplesFromString ++ examplesToString).map (·.name) := List.mem_append.1 hd
  rcases this with h | h
  · simp only [List.mem_cons, List.not_mem_nil, or_false] at h
    rcases h with rfl | rfl | rfl | rfl <;> exact .inr ⟨_, _, rfl, by decide⟩
  · left
    rw [List.map_append, List.mem_append] at h
    rcases h with h | h
    · obtain ⟨f, hf, rfl⟩ := List.mem_map.1 h
      obtain ⟨t, _, rfl⟩ := List.mem_map.1 hf
      simp [exampleFunc]
    · obtain ⟨f, hf, rfl⟩ := List.mem_map.1 h
      obtain ⟨t, _, rfl⟩ := List.mem_map.1 hf
      simp [exampleFunc]

theorem pattern_foreign (n : Nat) : Foreign (Name.pattern n).text := .inr ⟨'p', _, rfl, by decide⟩

theorem natStr_inj {m n : Nat} (h : Text.natStr m = Text.natStr n) : m = n := by
  rw [← Duration.digitsVal_natStr m, h, Duration.digitsVal_natStr]

theorem from_ne_to {u w : Str} : u ++ c!"FromJSONable" ≠ w ++ c!"ToJSONable" := by
  intro h
  have h' : (u ++ c!"Fr" ++ c!"om") ++ c!"JSONable" = (w ++ c!"T" ++ c!"o") ++ c!"JSONable" := by simpa using h
  have := List.append_cancel_right h'
  exact last_ne 'm' 'o' (by decide) (by decide) (by decide) this

theorem patternTexts_nodup (g : Graph) :
    (((enumeratePatterns g).map fun e => Name.pattern e.2).map Name.text).Nodup := by
  have := (patterns_enumerated g).2.1
  rw [List.map_map]
  generalize enumeratePatterns g = l at *
  induction l with
  | nil => exact List.nodup_nil
  | cons e l ih =>
    rw [List.map_cons, List.nodup_cons] at this ⊢
    refine ⟨fun hm => this.1 ?_, ih this.2⟩
    obtain ⟨a, ha, he⟩ := List.mem_map.1 hm
    simp only [Function.comp_apply, Name.text] at he
    exact List.mem_map.2 ⟨a, ha, natStr_inj (List.append_cancel_left he)⟩

theorem nodup_suffix {us : List Str} {s : Str} (h : us.Nodup) : (us.map (· ++ s)).Nodup := by
  rw [List.Nodup, List.pairwise_map]
  exact h.imp fun hne e => hne (List.append_cancel_right e)

/-- The names of the composites do not clash with each other, with the error container and with the functions of
other composites. -/
structure NamesApart (us : List Str) : Prop where
  nodup : us.Nodup
  fixed : ∀ u ∈ us, u ∉ fixedNames
  funcs : ∀ u ∈ us, ∀ w ∈ us, u ≠ w ++ c!"FromJSONable" ∧ u ≠ w ++ c!"ToJSONable"

theorem declared_nodup {g : Graph} {fs : List File} (h : package g = .ok fs) : ∃ us, GoNames g us ∧
    (((declared fs).map Name.text).Nodup ↔ NamesApart us) := by
  obtain ⟨us, hus, hp⟩ := declared_eq h
  refine ⟨us, hus, ?_⟩
  rw [(hp.map Name.text).nodup_iff]
  have hcamel := hus.camel
  have ht : ∀ l : List Str, (l.map Name.glob).map Name.text = l := by
    intro l
    rw [List.map_map]
    exact (List.map_congr_left (fun _ _ => rfl)).trans (List.map_id _)
  rw [List.map_append, ht]
  have hdur : ∀ d ∈ (if needs g .duration then durationNames else []), Foreign d ∧ d ∉ fixedNames := by
    intro d hd
    split at hd
    · refine ⟨durationNames_foreign d hd, ?_⟩
      have hx : ∀ d ∈ durationNames, d ∉ fixedNames := by decide
      exact hx d hd
    · cases hd
  have hdn : (if needs g .duration then durationNames else []).Nodup := by
    split
    · decide
    · exact List.nodup_nil
  have hdp : ∀ d ∈ (if needs g .duration then durationNames else []), ∀ n, d ≠ (Name.pattern n).text := by
    intro d hd n
    have hx : ∀ d ∈ durationNames, d.head? ≠ some 'p' := by decide
    split at hd
    · intro e
      apply hx d hd
      rw [e]
      rfl
    · cases hd
  generalize (if needs g .duration then durationNames else []) = dur at *
  have hpn := patternTexts_nodup g
  have hpt : ∀ x ∈ ((enumeratePatterns g).map fun e => Name.pattern e.2).map Name.text, ∃ n, x = (Name.pattern n).text := by
    intro x hx
    obtain ⟨y, hy, rfl⟩ := List.mem_map.1 hx
    obtain ⟨e, _, rfl⟩ := List.mem_map.1 hy
    exact ⟨_, rfl⟩
  generalize ((enumeratePatterns g).map fun e => Name.pattern e.2).map Name.text = pats at *
  have hfixed : ∀ (u s : Str), c!"able" <:+ s → u ++ s ∉ fixedNames := by
    intro u s hs hm
    have : c!"able" <:+ u ++ s := hs.trans (List.suffix_append _ _)
    have hx : ∀ x ∈ fixedNames, ¬ c!"able" <:+ x := by decide
    exact hx _ hm this
  constructor
  · intro hnd
    simp only [List.nodup_append, List.mem_append, List.mem_map] at hnd
    obtain ⟨⟨⟨⟨⟨h1, _, h2⟩, _, h3⟩, _, h4⟩, _⟩, _⟩ := hnd
    refine ⟨h1, fun u hu hm => h4 u (.inl (.inl hu)) u hm rfl, fun u hu w hw => ⟨?_, ?_⟩⟩
    · exact h2 u hu _ ⟨w, hw, rfl⟩
    · exact h3 u (.inl hu) _ ⟨w, hw, rfl⟩
  · rintro ⟨h1, h2, h3⟩
    simp only [List.nodup_append, List.mem_append, List.mem_map]
    refine ⟨⟨⟨⟨⟨h1, nodup_suffix h1, ?_⟩, nodup_suffix h1, ?_⟩, by decide, ?_⟩, hdn, ?_⟩, hpn, ?_⟩
    · rintro a ha _ ⟨w, hw, rfl⟩
      exact (h3 a ha w hw).1
    · rintro a (ha | ⟨u, hu, rfl⟩) _ ⟨w, hw, rfl⟩
      · exact (h3 a ha w hw).2
      · exact from_ne_to
    · rintro a ((ha | ⟨u, hu, rfl⟩) | ⟨u, hu, rfl⟩) b hb rfl
      · exact h2 a ha hb
      · exact hfixed _ _ (by decide) hb
      · exact hfixed _ _ (by decide) hb
    · rintro a (((ha | ⟨u, hu, rfl⟩) | ⟨u, hu, rfl⟩) | ha) b hb rfl
      · exact (hcamel a ha).ne (s := []) (by simp) (hdur _ hb).1 (by simp)
      · exact (hcamel u hu).ne (by decide) (hdur _ hb).1 rfl
      · exact (hcamel u hu).ne (by decide) (hdur _ hb).1 rfl
      · exact (hdur _ hb).2 ha
    · rintro a ((((ha | ⟨u, hu, rfl⟩) | ⟨u, hu, rfl⟩) | ha) | ha) b hb rfl
      · obtain ⟨n, rfl⟩ := hpt _ hb
        exact (hcamel _ ha).ne (s := []) (by simp) (pattern_foreign n) (by simp)
      · obtain ⟨n, e⟩ := hpt _ hb
        exact (hcamel u hu).ne (by decide) (pattern_foreign n) e
      · obtain ⟨n, e⟩ := hpt _ hb
        exact (hcamel u hu).ne (by decide) (pattern_foreign n) e
      · obtain ⟨n, rfl⟩ := hpt _ hb
        have hx : ∀ x ∈ fixedNames, x.head? ≠ some 'p' := by decide
        exact hx _ ha rfl
      · obtain ⟨n, e⟩ := hpt _ hb
        exact hdp a ha n e

end Mapry.GoCode
