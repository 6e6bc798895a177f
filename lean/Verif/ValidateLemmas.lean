import Verif.ParseSchema
import Verif.SchemaSpec

/-!
# Lemmas about the validation of schemas
-/

namespace Mapry.Validation

open Mapry.PyRuntime (Json sub)
open Mapry.SchemaSpec

theorem lookup_mem {α : Type} {k : Str} {v : α} {kvs : List (Str × α)} (h : kvs.lookup k = some v) : (k, v) ∈ kvs := by
  induction kvs with
  | nil => cases h
  | cons p rest ih =>
    obtain ⟨k', v'⟩ := p
    rw [List.lookup_cons] at h
    by_cases hk : k = k'
    · subst hk; simp at h; subst h; exact List.mem_cons_self ..
    · have : (k == k') = false := by simpa using hk
      rw [this] at h
      exact List.mem_cons_of_mem _ (ih h)

theorem objectOf_obj {ps : List (Str × Check)} {req : List Str} {add : Check} {j : Json}
    (h : objectOf ps req add j = true) : ∃ o kvs, j = .obj o kvs ∧
      (∀ k ∈ req, ∃ v, kvs.lookup k = some v) ∧ (∀ kv ∈ kvs, ((ps.lookup kv.1).getD add) kv.2 = true) := by
  cases j with
  | obj o kvs =>
    refine ⟨o, kvs, rfl, ?_⟩
    simp only [objectOf, Bool.and_eq_true, List.all_eq_true] at h
    refine ⟨fun k hk => ?_, h.2⟩
    exact Option.isSome_iff_exists.1 (h.1 k hk)
  | _ => simp [objectOf] at h

/-- What a field of a checked object satisfies -/
theorem objectOf_field {ps : List (Str × Check)} {req : List Str} {add : Check} {o : Bool} {kvs : Fields}
    (h : objectOf ps req add (.obj o kvs) = true) {k : Str} {v : Json} (hk : kvs.lookup k = some v) :
    ((ps.lookup k).getD add) v = true := by
  obtain ⟨o', kvs', e, _, h2⟩ := objectOf_obj h
  cases e
  exact h2 _ (lookup_mem hk)

theorem objectOf_required {ps : List (Str × Check)} {req : List Str} {add : Check} {o : Bool} {kvs : Fields}
    (h : objectOf ps req add (.obj o kvs) = true) {k : Str} (hk : k ∈ req) : ∃ v, kvs.lookup k = some v := by
  obtain ⟨o', kvs', e, h1, _⟩ := objectOf_obj h
  cases e
  exact h1 k hk

theorem isStr_str {p : Str → Bool} {j : Json} (h : isStr p j = true) : ∃ s, j = .str s ∧ p s = true := by
  cases j <;> simp [isStr] at h
  exact ⟨_, rfl, h⟩

theorem isArray_arr {c : Check} {j : Json} (h : isArray c j = true) : ∃ xs, j = .arr xs ∧ ∀ x ∈ xs, c x = true := by
  cases j <;> simp [isArray] at h
  exact ⟨_, rfl, h⟩

theorem isObject_obj {j : Json} (h : isObject j = true) : ∃ o kvs, j = .obj o kvs := by
  cases j <;> simp [isObject] at h
  exact ⟨_, _, rfl⟩

theorem isBool_bool {j : Json} (h : isBool j = true) : ∃ b, j = .bool b := by
  cases j <;> simp [isBool] at h
  exact ⟨_, rfl⟩

theorem isInteger_int {j : Json} (h : isInteger j = true) : ∃ i, j = .int i := by
  cases j <;> simp [isInteger] at h
  exact ⟨_, rfl⟩

theorem isSize_int {j : Json} (h : isSize j = true) : ∃ i : Int, j = .int i ∧ 0 ≤ i := by
  cases j <;> simp [isSize] at h
  exact ⟨_, rfl, h⟩

theorem isNumber_num {j : Json} (h : isNumber j = true) : (∃ i, j = .int i) ∨ ∃ f, j = .float f := by
  cases j <;> simp [isNumber] at h
  · exact .inl ⟨_, rfl⟩
  · exact .inr ⟨_, rfl⟩

/-- The validation of the nested definition -/
theorem validateValues_eq (L : Lib) (types : List Str) (kvs : Fields) (ref : Str) :
    validateValues L types kvs ref =
      match kvs.lookup c!"values" with
      | none => .error .keyError
      | some v => validateType L types false v ref := by
  induction kvs with
  | nil => simp [validateValues]
  | cons p rest ih =>
    obtain ⟨k, v⟩ := p
    rw [validateValues, List.lookup_cons]
    by_cases hk : k = c!"values"
    · rw [if_pos hk]; subst hk; simp
    · rw [if_neg hk, ih]
      have : (c!"values" == k) = false := by
        rw [beq_eq_false_iff_ne]; exact fun h => hk h.symm
      rw [this]

/-- What is known about an accepted definition -/
structure Accepted (L : Lib) (types : List Str) (top : Bool) (kvs : Fields) (ref : Str) (t : Str) : Prop where
  type : kvs.lookup c!"type" = some (.str t)
  known : t ∈ types
  schema : ∀ s, typeToSchema.lookup t = some s → s.check kvs = true
  keys : ∀ kv ∈ kvs, kv.1 ∈ expectedKeys top t
  logic : validateLogic L t kvs ref (validateValues L types kvs (sub ref c!"values")) = .ok none

theorem accepted_of {L : Lib} {types : List Str} {top : Bool} {j : Json} {ref : Str}
    (h : validateType L types top j ref = .ok none) :
    ∃ o kvs t, j = .obj o kvs ∧ Accepted L types top kvs ref t := by
  cases j with
  | obj o kvs =>
    rw [validateType, validateTypeBody] at h
    generalize (if (top && o) = true then keyOrder kvs ref else Except.ok none) = order at h
    cases order with
    | error e => cases h
    | ok order =>
      cases order with
      | some err => cases h
      | none =>
        change validateDefinition L types top kvs ref _ = _ at h
        rw [validateDefinition, item] at h
        cases hl : kvs.lookup c!"type" with
        | none => rw [hl] at h; cases h
        | some v =>
          rw [hl] at h
          cases v with
          | str t =>
            refine ⟨o, kvs, t, rfl, ?_⟩
            change (if t ∉ types then _ else _) = _ at h
            by_cases hk : t ∈ types
            · rw [if_neg (by simpa using hk)] at h
              cases hs : schemaOk t kvs with
              | false => simp only [hs] at h; cases h
              | true =>
                simp only [hs, Bool.not_true, Bool.false_eq_true, if_false] at h
                cases hf : kvs.find? (fun kv => decide (kv.1 ∉ expectedKeys top t)) with
                | some kv => simp only [hf] at h; cases h
                | none =>
                  simp only [hf] at h
                  refine ⟨hl, hk, ?_, ?_, h⟩
                  · intro s hs'; rw [schemaOk, hs'] at hs; exact hs
                  · intro kv hkv
                    have := List.find?_eq_none.1 hf kv hkv
                    simpa using this
            · rw [if_pos hk] at h; cases h
          | null => cases h
          | bool b => cases h
          | int i => cases h
          | float f => cases h
          | arr xs => cases h
          | obj o' kvs' => cases h
  | _ => rw [validateType] at h; cases h; try (intro _ _ e; cases e)

/-- A definition nested in an accepted one is accepted. -/
theorem accepted_values {L : Lib} {types : List Str} {top : Bool} {kvs : Fields} {ref t : Str}
    (h : Accepted L types top kvs ref t) (ht : t = c!"array" ∨ t = c!"map") :
    ∃ v, kvs.lookup c!"values" = some v ∧ validateType L types false v (sub ref c!"values") = .ok none := by
  have hv : validateValues L types kvs (sub ref c!"values") = .ok none := by
    have := h.logic
    rw [validateLogic] at this
    rcases ht with rfl | rfl
    · simp only [List.cons.injEq, Char.reduceEq, false_and, and_false, if_false, if_true] at this
      cases hs : validateSizes kvs ref with
      | error e => rw [hs] at this; cases this
      | ok o =>
        rw [hs] at this
        cases o with
        | some e => cases this
        | none => exact this
    · simpa using this
  rw [validateValues_eq] at hv
  cases hl : kvs.lookup c!"values" with
  | none => rw [hl] at hv; cases hv
  | some v => rw [hl] at hv; exact ⟨v, rfl, hv⟩

theorem accepted_nested {L : Lib} {types : List Str} {j w : Json} (hn : Nested j w) {top : Bool} {ref : Str}
    (h : validateType L types top j ref = .ok none) : ∃ top ref, validateType L types top w ref = .ok none := by
  induction hn generalizing top ref with
  | self j => exact ⟨top, ref, h⟩
  | values ht hv _ ih =>
    obtain ⟨o, kvs, t, rfl, ha⟩ := accepted_of h
    have htt : t = c!"array" ∨ t = c!"map" := by
      have := ha.type
      rcases ht with ht | ht <;> (simp only [HasType, field] at ht; rw [this] at ht; cases ht; simp)
    obtain ⟨v', hl, hv'⟩ := accepted_values ha htt
    simp only [field] at hv
    rw [hl] at hv
    cases hv
    exact ih hv'

/-! ## From the whole mapping to the definitions -/

theorem bind_ok {α β : Type} {x : Except Exc α} {f : α → Except Exc β} {b : β} :
    (x >>= f) = .ok b ↔ ∃ a, x = .ok a ∧ f a = .ok b := by
  cases x with
  | error e => exact ⟨fun h => (by cases h), fun ⟨_, h, _⟩ => (by cases h)⟩
  | ok a => exact ⟨fun h => ⟨a, rfl, h⟩, fun ⟨_, h, h'⟩ => by cases h; exact h'⟩

theorem pure_ok {α : Type} {a b : α} : (pure a : Except Exc α) = .ok b ↔ a = b :=
  ⟨fun h => by cases h; rfl, fun h => by subst h; rfl⟩

theorem collect_nil {α : Type} {f : Nat → α → Except Exc (List Err)} {i : Nat} {xs : List α}
    (h : collect f i xs = .ok []) : ∀ x ∈ xs, ∃ k, f k x = .ok [] := by
  induction xs generalizing i with
  | nil => simp
  | cons y ys ih =>
    rw [collect] at h
    simp only [bind_ok, pure_ok, List.append_eq_nil_iff] at h
    obtain ⟨_, h1, _, h2, rfl, rfl⟩ := h
    intro x hx
    rcases List.mem_cons.1 hx with rfl | hx
    · exact ⟨i, h1⟩
    · exact ih h2 x hx

theorem asFields_ok {j : Json} {kvs : Fields} (h : asFields j = .ok kvs) : ∃ o, j = .obj o kvs := by
  cases j <;> simp [asFields] at h
  subst h; exact ⟨_, rfl⟩

theorem item_ok {k : Str} {kvs : Fields} {v : Json} : item k kvs = .ok v ↔ kvs.lookup k = some v := by
  rw [item]
  cases kvs.lookup k <;> simp

theorem asStr_ok {j : Json} {s : Str} : asStr j = .ok s ↔ j = .str s := by
  cases j <;> simp [asStr]

theorem strItem_ok {k s : Str} {kvs : Fields} : strItem k kvs = .ok s ↔ kvs.lookup k = some (.str s) := by
  rw [strItem]
  simp only [bind_ok, item_ok, asStr_ok]
  constructor
  · rintro ⟨v, h, rfl⟩; exact h
  · intro h; exact ⟨_, h, rfl⟩

/-- The elements of the mapping are the members of the specification. -/
theorem elements_ok {key : Str} {o : Bool} {kvs : Fields} {xs : List Json} (h : elements key kvs = .ok xs) :
    members (.obj o kvs) key = xs := by
  rw [elements] at h
  rw [members, field]
  cases hl : kvs.lookup key with
  | none => rw [hl] at h; cases h; rfl
  | some v => rw [hl] at h; cases v <;> cases h; rfl

theorem duplicateNames_nil {key ref : Str} {i : Nat} {xs : List Json} {names names' : List Str}
    (h : duplicateNames key ref i xs names = .ok (names', [])) :
    ∃ ns, Forall₂ IsName xs ns ∧ names' = ns.reverse ++ names ∧ (names.Nodup → (ns.reverse ++ names).Nodup) := by
  induction xs generalizing i names with
  | nil => rw [duplicateNames] at h; cases h; exact ⟨[], .nil, rfl, fun h => h⟩
  | cons x xs ih =>
    rw [duplicateNames] at h
    simp only [bind_ok] at h
    obtain ⟨kvs, hx, n, hn, ⟨names'', errs⟩, hr, h⟩ := h
    dsimp only at h
    by_cases hin : n ∈ names
    · rw [if_pos hin] at h; cases h
    · rw [if_neg hin] at h
      cases h
      obtain ⟨ns, h1, h2, h3⟩ := ih hr
      obtain ⟨o, rfl⟩ := asFields_ok hx
      refine ⟨n :: ns, .cons (strItem_ok.1 hn) h1, by simp [h2], fun hnd => ?_⟩
      have := h3 (List.nodup_cons.2 ⟨hin, hnd⟩)
      simpa using this

/-- Everything that is known once the validation reports no error -/
structure Clean (L : Lib) (mapping : Json) (types : List Str) : Prop where
  check : graphCheck mapping = true
  names : ∃ g cs es, IsName mapping g ∧ Forall₂ IsName (members mapping c!"classes") cs ∧
    Forall₂ IsName (members mapping c!"embeds") es ∧ (es.reverse ++ (cs.reverse ++ [g])).Nodup ∧
    types = noncompositeTypes ++ (es.reverse ++ (cs.reverse ++ [g]))
  classes : ∀ x ∈ members mapping c!"classes", ∃ ref, validateClass L x ref = .ok []
  properties : ∀ c, IsComposite mapping c → ∀ name p, IsProperty c name p →
    propertyRe name = true ∧ ∃ ref, validateType L types true p ref = .ok none
  plurals : ∃ ref o kvs, mapping = .obj o kvs ∧ validatePlurals kvs ref = .ok []

theorem validateProperty_nil {L : Lib} {types : List Str} {ref : Str} {kv : Str × Json}
    (h : validateProperty L types ref kv = .ok []) :
    propertyRe kv.1 = true ∧ ∃ ref, validateType L types true kv.2 ref = .ok none := by
  rw [validateProperty] at h
  simp only [bind_ok, pure_ok, List.append_eq_nil_iff] at h
  obtain ⟨err, h1, h2, h3⟩ := h
  constructor
  · by_cases hp : propertyRe kv.1 = true
    · exact hp
    · rw [if_neg hp] at h2; cases h2
  · cases err with
    | none => exact ⟨_, h1⟩
    | some e => cases h3

theorem validateProperties_nil {L : Lib} {types : List Str} {ref : Str} {o : Bool} {kvs : Fields}
    (h : validateProperties L types kvs ref = .ok []) {name : Str} {p : Json} (hp : IsProperty (.obj o kvs) name p) :
    propertyRe name = true ∧ ∃ ref, validateType L types true p ref = .ok none := by
  obtain ⟨o', ps, hl, hm⟩ := hp
  simp only [field] at hl
  rw [validateProperties, hl] at h
  simp only [bind_ok, asFields, Except.ok.injEq] at h
  obtain ⟨_, rfl, h⟩ := h
  obtain ⟨_, h⟩ := collect_nil h _ hm
  exact validateProperty_nil h

theorem clean_of {L : Lib} {mapping : Json} {ref : Str} (h : validate L mapping ref = .ok []) :
    ∃ types, Clean L mapping types := by
  rw [validate.eq_def] at h
  cases hc : graphCheck mapping with
  | false => rw [hc] at h; cases h
  | true =>
    rw [hc] at h
    cases mapping with
    | obj o kvs =>
      simp only [Bool.not_true, Bool.false_eq_true, if_false, bind_ok, pure_ok, List.append_eq_nil_iff] at h
      obtain ⟨_, _, _, h, rfl, rfl⟩ := h
      rw [validateGraph] at h
      simp only [bind_ok, pure_ok, List.append_eq_nil_iff] at h
      obtain ⟨⟨names, nameErrs⟩, hn, classes, hcl, embeds, hem, classErrs, hcls, graphProps, hg, classProps, hcp,
        embedProps, hep, plurals, hpl, ⟨⟨⟨⟨rfl, rfl⟩, rfl⟩, rfl⟩, rfl⟩, rfl⟩ := h
      dsimp only at hg hcp hep
      refine ⟨noncompositeTypes ++ names, hc, ?_, ?_, ?_, ref, o, kvs, rfl, hpl⟩
      · rw [validateNames] at hn
        simp only [bind_ok, pure_ok] at hn
        obtain ⟨g, hgn, cs, hcl', ⟨names1, errs1⟩, hd1, es, hem', ⟨names2, errs2⟩, hd2, hn⟩ := hn
        dsimp only at hn hd2
        rw [Prod.mk.injEq] at hn
        obtain ⟨rfl, hn⟩ := hn
        obtain ⟨rfl, rfl⟩ := List.append_eq_nil_iff.1 hn
        obtain ⟨ns1, a1, a2, a3⟩ := duplicateNames_nil hd1
        obtain ⟨ns2, b1, b2, b3⟩ := duplicateNames_nil hd2
        subst a2
        rw [elements_ok (o := o) hcl', elements_ok (o := o) hem']
        exact ⟨g, ns1, ns2, strItem_ok.1 hgn, a1, b1, b3 (a3 (by simp)), by rw [b2]⟩
      · intro x hx
        rw [elements_ok (o := o) hcl] at hx
        obtain ⟨_, h⟩ := collect_nil hcls x hx
        exact ⟨_, h⟩
      · intro c hcomp name p hp
        rcases hcomp with rfl | hx | hx
        · exact validateProperties_nil hg hp
        · rw [elements_ok (o := o) hcl] at hx
          obtain ⟨_, h⟩ := collect_nil hcp c hx
          simp only [bind_ok] at h
          obtain ⟨fs, hfs, h⟩ := h
          obtain ⟨o', rfl⟩ := asFields_ok hfs
          exact validateProperties_nil h hp
        · rw [elements_ok (o := o) hem] at hx
          obtain ⟨_, h⟩ := collect_nil hep c hx
          simp only [bind_ok] at h
          obtain ⟨fs, hfs, h⟩ := h
          obtain ⟨o', rfl⟩ := asFields_ok hfs
          exact validateProperties_nil h hp
    | _ => simp at h

theorem clean_within {L : Lib} {mapping : Json} {types : List Str} (h : Clean L mapping types) {w : Json}
    (hw : Within mapping w) : ∃ top ref, validateType L types top w ref = .ok none := by
  obtain ⟨c, name, p, hc, hp, hn⟩ := hw
  obtain ⟨_, ref, hv⟩ := h.properties c hc name p hp
  exact accepted_nested hn hv

end Mapry.Validation
