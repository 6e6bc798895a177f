import Verif.SchemaFacts

/-!
# What the validation of numbers establishes, and when the validation raises
-/

namespace Mapry.Validation

open Mapry.PyRuntime (Json sub)
open Mapry.SchemaSpec Mapry.ParseSchema

/-! ## Ranges -/

theorem number_spec {v : Json} {a : F64} (h : Number v a) : number? v = some a := by
  cases h <;> rfl

theorem number_of_check {v : Json} (h : isNumber v = true) : ∃ a, Number v a := by
  rcases isNumber_num h with ⟨i, rfl⟩ | ⟨f, rfl⟩
  · exact ⟨_, .int i⟩
  · exact ⟨_, .float f⟩

theorem integer_is_number {v : Json} (h : isInteger v = true) : isNumber v = true := by
  obtain ⟨i, rfl⟩ := isInteger_int h; rfl

theorem numItem_eq {kvs : Fields} {key : Str} {v : Json} {a : F64} (h : kvs.lookup key = some v) (ha : Number v a) :
    numItem key kvs = .ok a := by
  rw [numItem, h]
  simp only [number_spec ha]

theorem integer_range {kvs : Fields} {ref : Str} (h : validateInteger kvs ref = .ok none) {v w : Json} {a b : F64}
    (hmin : kvs.lookup c!"minimum" = some v) (hmax : kvs.lookup c!"maximum" = some w) (ha : Number v a)
    (hb : Number w b) : f64Gt a b = false ∧
      ((flag c!"exclusive_minimum" kvs || flag c!"exclusive_maximum" kvs) = true → f64Eq a b = false) := by
  rw [validateInteger, if_pos (by simp [hmin, hmax])] at h
  rw [numItem_eq hmin ha, numItem_eq hmax hb] at h
  simp only [bind, Except.bind, pure, Except.pure] at h
  revert h
  generalize flag c!"exclusive_minimum" kvs = x
  generalize flag c!"exclusive_maximum" kvs = y
  cases f64Gt a b <;> cases f64Eq a b <;> cases x <;> cases y <;> simp

theorem float_range {kvs : Fields} {ref : Str} (h : validateFloat kvs ref = .ok none) {v w : Json} {a b : F64}
    (hmin : kvs.lookup c!"minimum" = some v) (hmax : kvs.lookup c!"maximum" = some w) (ha : Number v a)
    (hb : Number w b) : f64Gt a b = false ∧
      ((flag c!"exclusive_minimum" kvs || flag c!"exclusive_maximum" kvs) = true → f64Eq a b = false) := by
  rw [validateFloat, if_pos (by simp [hmin, hmax])] at h
  rw [numItem_eq hmin ha, numItem_eq hmax hb] at h
  simp only [bind, Except.bind, pure, Except.pure] at h
  revert h
  generalize flag c!"exclusive_minimum" kvs = x
  generalize flag c!"exclusive_maximum" kvs = y
  cases f64Gt a b <;> cases f64Eq a b <;> cases x <;> cases y <;> simp

theorem accepted_integer {L : Lib} {types : List Str} {top : Bool} {kvs : Fields} {ref : Str}
    (h : Accepted L types top kvs ref c!"integer") : validateInteger kvs ref = .ok none := by
  have := h.logic
  rw [validateLogic] at this
  exact this

theorem accepted_float {L : Lib} {types : List Str} {top : Bool} {kvs : Fields} {ref : Str}
    (h : Accepted L types top kvs ref c!"float") : validateFloat kvs ref = .ok none := by
  have := h.logic
  rw [validateLogic] at this
  exact this

theorem accepted_sizes {L : Lib} {types : List Str} {top : Bool} {kvs : Fields} {ref : Str}
    (h : Accepted L types top kvs ref c!"array") : validateSizes kvs ref = .ok none := by
  have := h.logic
  rw [validateLogic] at this
  simp only [List.cons.injEq, Char.reduceEq, false_and, and_false, if_false, if_true, bind_ok, reduceCtorEq] at this
  obtain ⟨r, hr, h⟩ := this
  cases r with
  | none => exact hr
  | some e => cases h

/-! ## The validation does not raise -/

theorem integer_total {kvs : Fields} {ref : Str}
    (h : ∀ k ∈ [c!"minimum", c!"maximum"], ∀ v, kvs.lookup k = some v → isNumber v = true) :
    ∃ r, validateInteger kvs ref = .ok r := by
  rw [validateInteger]
  split
  · rename_i hs
    obtain ⟨v, hv⟩ := Option.isSome_iff_exists.1 hs.1
    obtain ⟨w, hw⟩ := Option.isSome_iff_exists.1 hs.2
    obtain ⟨a, ha⟩ := number_of_check (h _ (by simp) v hv)
    obtain ⟨b, hb⟩ := number_of_check (h _ (by simp) w hw)
    rw [numItem_eq hv ha, numItem_eq hw hb]
    simp only [bind, Except.bind, pure, Except.pure]
    split
    · exact ⟨_, rfl⟩
    · split
      · exact ⟨_, rfl⟩
      · split
        · exact ⟨_, rfl⟩
        · split <;> exact ⟨_, rfl⟩
  · exact ⟨_, rfl⟩

theorem float_total {kvs : Fields} {ref : Str}
    (h : ∀ k ∈ [c!"minimum", c!"maximum"], ∀ v, kvs.lookup k = some v → isNumber v = true) :
    ∃ r, validateFloat kvs ref = .ok r := by
  have : validateFloat kvs ref = validateInteger kvs ref := rfl
  rw [this]
  exact integer_total h

theorem format_ok {tokensOk : List (List Strftime.Tok) → Bool} {kvs : Fields} {ref : Str}
    (h : ∀ v, kvs.lookup c!"format" = some v → anyStr v = true) : ∃ r, validateFormat tokensOk kvs ref = .ok r := by
  rw [validateFormat]
  cases hl : kvs.lookup c!"format" with
  | none => exact ⟨_, rfl⟩
  | some v =>
    obtain ⟨s, rfl, _⟩ := isStr_str (h v hl)
    simp only [asStr, bind, Except.bind]
    cases Strftime.tokenize s <;> exact ⟨_, rfl⟩

theorem sizes_total {kvs : Fields} {ref : Str}
    (h : ∀ k ∈ [c!"minimum_size", c!"maximum_size"], ∀ v, kvs.lookup k = some v → isSize v = true) :
    ∃ r, validateSizes kvs ref = .ok r := by
  rw [validateSizes.eq_def]
  cases hl : kvs.lookup c!"minimum_size" with
  | none => exact ⟨_, rfl⟩
  | some v =>
    cases hr : kvs.lookup c!"maximum_size" with
    | none => exact ⟨_, rfl⟩
    | some w =>
      obtain ⟨a, rfl, _⟩ := isSize_int (h _ (by simp) v hl)
      obtain ⟨b, rfl, _⟩ := isSize_int (h _ (by simp) w hr)
      exact ⟨_, rfl⟩

/-- The type of a definition can be looked up among the types. -/
def Hashable (w : Json) : Prop := ∃ t, field w c!"type" = some t ∧ (∀ xs, t ≠ .arr xs) ∧ ∀ o kvs, t ≠ .obj o kvs

theorem keyOrder_total {kvs : Fields} {ref : Str} (h : ∃ t, kvs.lookup c!"type" = some t) :
    ∃ r, keyOrder kvs ref = .ok r := by
  cases kvs with
  | nil => obtain ⟨t, h⟩ := h; cases h
  | cons p rest =>
    obtain ⟨k, v⟩ := p
    rw [keyOrder.eq_def]
    simp only []
    split
    · exact ⟨_, rfl⟩
    · rename_i hk
      have hk : k = c!"type" := Decidable.not_not.1 hk
      subst hk
      split
      · rename_i hd
        cases rest with
        | nil => simp [List.lookup] at hd
        | cons q rest => exact ⟨_, rfl⟩
      · exact ⟨_, rfl⟩

theorem logic_total {L : Lib} {t : Str} {kvs : Fields} {ref : Str} {values : Except Exc (Option Err)}
    (hs : schemaOk t kvs = true) (hv : t = c!"array" ∨ t = c!"map" → ∃ r, values = .ok r) :
    ∃ r, validateLogic L t kvs ref values = .ok r := by
  have check : ∀ s, typeToSchema.lookup t = some s → ∀ k v, kvs.lookup k = some v →
      ((s.properties.lookup k).getD allowed) v = true := by
    intro s hl k v hk
    rw [schemaOk, hl] at hs
    exact objectOf_field hs hk
  rw [validateLogic]
  by_cases e : t = c!"boolean"
  · rw [if_pos e]; exact ⟨_, rfl⟩
  rw [if_neg e]; clear e
  by_cases e : t = c!"integer"
  · rw [if_pos e]
    subst e
    refine integer_total fun k hk v hl => ?_
    have := check _ rfl k v hl
    simp only [List.mem_cons, List.not_mem_nil, or_false] at hk
    rcases hk with rfl | rfl <;> exact integer_is_number this
  rw [if_neg e]; clear e
  by_cases e : t = c!"float"
  · rw [if_pos e]
    subst e
    refine float_total fun k hk v hl => ?_
    have := check _ rfl k v hl
    simp only [List.mem_cons, List.not_mem_nil, or_false] at hk
    rcases hk with rfl | rfl <;> exact this
  rw [if_neg e]; clear e
  by_cases e : t = c!"string"
  · rw [if_pos e]; exact ⟨_, rfl⟩
  rw [if_neg e]; clear e
  by_cases e : t = c!"path"
  · rw [if_pos e]; exact ⟨_, rfl⟩
  rw [if_neg e]; clear e
  by_cases e : t = c!"date"
  · rw [if_pos e]
    subst e
    exact format_ok fun v hl => check _ rfl _ v hl
  rw [if_neg e]; clear e
  by_cases e : t = c!"time"
  · rw [if_pos e]
    subst e
    exact format_ok fun v hl => check _ rfl _ v hl
  rw [if_neg e]; clear e
  by_cases e : t = c!"datetime"
  · rw [if_pos e]
    subst e
    exact format_ok fun v hl => check _ rfl _ v hl
  rw [if_neg e]; clear e
  by_cases e : t = c!"duration"
  · rw [if_pos e]; exact ⟨_, rfl⟩
  rw [if_neg e]; clear e
  by_cases e : t = c!"time_zone"
  · rw [if_pos e]; exact ⟨_, rfl⟩
  rw [if_neg e]; clear e
  by_cases e : t = c!"array"
  · rw [if_pos e]
    subst e
    obtain ⟨r, hr⟩ := sizes_total (kvs := kvs) (ref := ref) fun k hk v hl => by
      have := check _ rfl k v hl
      simp only [List.mem_cons, List.not_mem_nil, or_false] at hk
      rcases hk with rfl | rfl <;> exact this
    rw [hr]
    cases r with
    | none => exact hv (.inl rfl)
    | some e => exact ⟨_, rfl⟩
  rw [if_neg e]; clear e
  by_cases e : t = c!"map"
  · rw [if_pos e]; exact hv (.inr e)
  rw [if_neg e]; exact ⟨_, rfl⟩

theorem type_total {L : Lib} {types : List Str} (j : Json) (top : Bool) (ref : Str) (ho : isObject j = true)
    (h : ∀ w, Nested j w → Hashable w) : ∃ r, validateType L types top j ref = .ok r := by
  obtain ⟨o, kvs, rfl⟩ := isObject_obj ho
  obtain ⟨t, ht, ha, hobj⟩ := h _ (.self _)
  simp only [field] at ht
  rw [validateType, validateTypeBody]
  have horder : ∃ r, (if (top && o) = true then keyOrder kvs ref else Except.ok none) = .ok r := by
    split
    · exact keyOrder_total ⟨t, ht⟩
    · exact ⟨_, rfl⟩
  obtain ⟨order, horder⟩ := horder
  rw [horder]
  cases order with
  | some e => exact ⟨_, rfl⟩
  | none =>
    simp only [bind, Except.bind]
    rw [validateDefinition, item_ok.2 ht]
    simp only [bind, Except.bind]
    cases t with
    | arr xs => exact absurd rfl (ha xs)
    | obj o' kvs' => exact absurd rfl (hobj o' kvs')
    | str t =>
      simp only []
      split
      · exact ⟨_, rfl⟩
      · split
        · exact ⟨_, rfl⟩
        · rename_i hs
          have hs : schemaOk t kvs = true := by simpa using hs
          split
          · exact ⟨_, rfl⟩
          · refine logic_total hs fun htt => ?_
            rw [validateValues_eq]
            have hreq : ∃ v, kvs.lookup c!"values" = some v ∧ isObject v = true := by
              rw [schemaOk] at hs
              rcases htt with rfl | rfl
              · obtain ⟨v, hv⟩ := objectOf_required (o := false) hs (k := c!"values") (by simp [TypeSchema.of])
                exact ⟨v, hv, objectOf_field hs hv⟩
              · obtain ⟨v, hv⟩ := objectOf_required (o := false) hs (k := c!"values") (by simp [TypeSchema.of])
                exact ⟨v, hv, objectOf_field hs hv⟩
            obtain ⟨v, hv, hvo⟩ := hreq
            rw [hv]
            have hlt := lookup_lt (o := o) hv
            refine type_total v false _ hvo fun w hn => h w (.values ?_ hv hn)
            rcases htt with rfl | rfl
            · exact .inl ht
            · exact .inr ht
    | null => exact ⟨_, rfl⟩
    | bool _ => exact ⟨_, rfl⟩
    | int _ => exact ⟨_, rfl⟩
    | float _ => exact ⟨_, rfl⟩
termination_by sizeOf j

theorem collect_total {α : Type} {f : Nat → α → Except Exc (List Err)} {i : Nat} {xs : List α}
    (h : ∀ x ∈ xs, ∀ k, ∃ r, f k x = .ok r) : ∃ r, collect f i xs = .ok r := by
  induction xs generalizing i with
  | nil => exact ⟨_, rfl⟩
  | cons x xs ih =>
    obtain ⟨r, hr⟩ := h x (by simp) i
    obtain ⟨r', hr'⟩ := ih (i := i + 1) fun y hy => h y (by simp [hy])
    rw [collect, hr, hr']
    exact ⟨_, rfl⟩

theorem duplicateNames_total {key ref : Str} {i : Nat} {xs : List Json} {names : List Str}
    (h : ∀ x ∈ xs, ∃ o kvs n, x = .obj o kvs ∧ kvs.lookup c!"name" = some (.str n)) :
    ∃ r, duplicateNames key ref i xs names = .ok r := by
  induction xs generalizing i names with
  | nil => exact ⟨_, rfl⟩
  | cons x xs ih =>
    obtain ⟨o, kvs, n, rfl, hn⟩ := h _ (List.mem_cons_self ..)
    obtain ⟨r, hr⟩ := ih (i := i + 1) (names := n :: names) fun y hy => h y (by simp [hy])
    rw [duplicateNames]
    simp only [asFields, bind, Except.bind, strItem_ok.2 hn, hr]
    split <;> exact ⟨_, rfl⟩

theorem class_ok {L : Lib} {x : Json} (h : classCheck x = true) (ref : Str) : ∃ r, validateClass L x ref = .ok r := by
  obtain ⟨o, kvs, rfl, _⟩ := objectOf_obj h
  rw [validateClass]
  simp only [asFields, bind, Except.bind]
  cases hl : kvs.lookup c!"properties" with
  | none => exact ⟨_, rfl⟩
  | some v =>
    obtain ⟨o', ps, rfl, _⟩ := propertiesCheck_obj (objectOf_field h hl)
    exact ⟨_, rfl⟩

theorem properties_ok {L : Lib} {types : List Str} {o : Bool} {kvs : Fields} {ref : Str}
    (hp : ∀ v, kvs.lookup c!"properties" = some v → propertiesCheck v = true)
    (h : ∀ name p w, IsProperty (.obj o kvs) name p → Nested p w → Hashable w) :
    ∃ r, validateProperties L types kvs ref = .ok r := by
  rw [validateProperties]
  cases hl : kvs.lookup c!"properties" with
  | none => exact ⟨_, rfl⟩
  | some v =>
    obtain ⟨o', ps, rfl, hps⟩ := propertiesCheck_obj (hp v hl)
    simp only [asFields, bind, Except.bind]
    refine collect_total fun kv hkv k => ?_
    have hobj : isObject kv.2 = true := by
      obtain ⟨_, _, hh, _⟩ := objectOf_obj (hps kv hkv)
      rw [hh]; rfl
    obtain ⟨r, hr⟩ := type_total (L := L) (types := types) kv.2 true (sub (sub ref c!"properties") kv.1) hobj
      fun w hn => h kv.1 kv.2 w ⟨o', ps, hl, hkv⟩ hn
    rw [validateProperty, hr]
    exact ⟨_, rfl⟩

theorem registry_total {xs : List Json} {acc : List (Str × Str)} (hc : ∀ x ∈ xs, classCheck x = true)
    (h : ∀ x ∈ xs, ∀ n p, IsName x n → TextOr x c!"plural" (Naming.plural n) p → ∃ c cs, p = c :: cs ∧ isUpper c = true) :
    ∃ r, registryNames xs acc = .ok r := by
  induction xs generalizing acc with
  | nil => exact ⟨_, rfl⟩
  | cons x xs ih =>
    have hx := hc x (by simp)
    obtain ⟨o, kvs, rfl, _⟩ := objectOf_obj hx
    obtain ⟨n, hn⟩ := objectOf_required hx (k := c!"name") (by simp)
    obtain ⟨n, rfl, _⟩ := isStr_str (objectOf_field hx hn)
    have hpl : ∃ p, pluralOf kvs = .ok p ∧ TextOr (.obj o kvs) c!"plural" (Naming.plural n) p := by
      rw [pluralOf]
      cases hl : kvs.lookup c!"plural" with
      | none => exact ⟨Naming.plural n, by simp only [strItem_ok.2 hn]; rfl, none, .absent hl, rfl⟩
      | some v =>
        obtain ⟨s, rfl, _⟩ := isStr_str (objectOf_field hx hl)
        exact ⟨s, rfl, _, .present hl, rfl⟩
    obtain ⟨p, hp, hp'⟩ := hpl
    obtain ⟨c, cs, rfl, hu⟩ := h _ (List.mem_cons_self ..) n p hn hp'
    rw [registryNames]
    simp only [asFields, bind, Except.bind, hp, strItem_ok.2 hn, Naming.jsonPlural, hu, if_true]
    exact ih (fun y hy => hc y (by simp [hy])) fun y hy => h y (by simp [hy])

theorem plurals_total {o : Bool} {kvs : Fields} {ref : Str} (hc : graphCheck (.obj o kvs) = true)
    (h : ∀ x ∈ members (.obj o kvs) c!"classes", ∀ n p, IsName x n → TextOr x c!"plural" (Naming.plural n) p →
      ∃ c cs, p = c :: cs ∧ isUpper c = true) : ∃ r, validatePlurals kvs ref = .ok r := by
  rw [validatePlurals.eq_def]
  cases hl : kvs.lookup c!"classes" with
  | none => exact ⟨_, rfl⟩
  | some cs =>
    cases hp : kvs.lookup c!"properties" with
    | none => exact ⟨_, rfl⟩
    | some v =>
      obtain ⟨o', ps, rfl, _⟩ := propertiesCheck_obj (objectOf_field hc hp)
      obtain ⟨r, hr⟩ := registry_total (acc := []) (members_check hc).1 h
      simp only [(elements_total hc).1, hr, bind, Except.bind]
      exact ⟨_, rfl⟩

theorem order_total {o : Bool} {kvs : Fields} {ref : Str} (hc : graphCheck (.obj o kvs) = true) :
    ∃ r, schemaOrder kvs ref = .ok r := by
  obtain ⟨n, hn⟩ := objectOf_required hc (k := c!"name") (by simp)
  obtain ⟨d, hd⟩ := objectOf_required hc (k := c!"description") (by simp)
  cases kvs with
  | nil => cases hn
  | cons p rest =>
    cases rest with
    | cons q rest => exact ⟨_, rfl⟩
    | nil =>
      have h1 := lookup_mem hn
      have h2 := lookup_mem hd
      simp only [List.mem_cons, List.not_mem_nil, or_false] at h1 h2
      rw [← h1] at h2
      cases h2

theorem validate_total {L : Lib} {mapping : Json} {ref : Str} (h : ∀ w, Within mapping w → Hashable w)
    (hp : ∀ x ∈ members mapping c!"classes", ∀ n p, IsName x n → TextOr x c!"plural" (Naming.plural n) p →
      ∃ c cs, p = c :: cs ∧ isUpper c = true) : ∃ errs, validate L mapping ref = .ok errs := by
  rw [validate.eq_def]
  cases hc : graphCheck mapping with
  | false => exact ⟨_, rfl⟩
  | true =>
    obtain ⟨o, kvs, rfl, _⟩ := objectOf_obj hc
    simp only [Bool.not_true, Bool.false_eq_true, if_false]
    have h0 : ∃ r, (if o = true then schemaOrder kvs ref else Except.ok []) = .ok r := by
      split
      · exact order_total hc
      · exact ⟨_, rfl⟩
    obtain ⟨oe, hoe⟩ := h0
    obtain ⟨n, hn⟩ := objectOf_required hc (k := c!"name") (by simp)
    obtain ⟨n, rfl, _⟩ := isStr_str (objectOf_field hc hn)
    obtain ⟨e1, e2⟩ := elements_total hc
    obtain ⟨m1, m2⟩ := members_check hc
    have hname : ∀ {ps : List (Str × Check)} {nameOk : Str → Bool} (x : Json),
        objectOf ps [c!"name", c!"description"] forbidden x = true → ps.lookup c!"name" = some (isStr nameOk) →
        ∃ o kvs n, x = .obj o kvs ∧ kvs.lookup c!"name" = some (.str n) := by
      intro ps nameOk x hx hl
      obtain ⟨o', kvs', rfl, _⟩ := objectOf_obj hx
      obtain ⟨n, hn⟩ := objectOf_required hx (k := c!"name") (by simp)
      have := objectOf_field hx hn
      rw [hl] at this
      obtain ⟨n, rfl, _⟩ := isStr_str this
      exact ⟨o', kvs', n, rfl, hn⟩
    obtain ⟨⟨names, er1⟩, hd1⟩ := duplicateNames_total (key := c!"classes") (ref := ref) (i := 0) (names := [n])
      (xs := members (.obj o kvs) c!"classes") fun x hx => hname x (m1 x hx) rfl
    obtain ⟨⟨names', er2⟩, hd2⟩ := duplicateNames_total (key := c!"embeds") (ref := ref) (i := 0) (names := names)
      (xs := members (.obj o kvs) c!"embeds") fun x hx => hname x (m2 x hx) rfl
    have hnames : ∃ r, validateNames kvs ref = .ok r := by
      rw [validateNames]
      simp only [strItem_ok.2 hn, bind, Except.bind, e1, e2, hd1, hd2]
      exact ⟨_, rfl⟩
    obtain ⟨⟨ns, er⟩, hnames⟩ := hnames
    obtain ⟨ce, hce⟩ := collect_total (i := 0) (f := fun i x => validateClass L x (refAt ref c!"classes" i))
      (xs := members (.obj o kvs) c!"classes") fun x hx k => class_ok (m1 x hx) _
    obtain ⟨gp, hgp⟩ := properties_ok (L := L) (types := noncompositeTypes ++ ns) (o := o) (ref := ref)
      (kvs := kvs) (fun v hv => objectOf_field hc hv) fun name p w hp hn => h w ⟨_, name, p, .inl rfl, hp, hn⟩
    obtain ⟨cp, hcp⟩ := collect_total (i := 0) (f := fun i x => do
      let fs ← asFields x
      validateProperties L (noncompositeTypes ++ ns) fs (refAt ref c!"classes" i))
      (xs := members (.obj o kvs) c!"classes") fun x hx k => by
        have hx' := m1 x hx
        obtain ⟨o', kvs', rfl, _⟩ := objectOf_obj hx'
        exact properties_ok (o := o') (fun v hv => objectOf_field hx' hv) fun name p w hp hn =>
          h w ⟨_, name, p, .inr (.inl hx), hp, hn⟩
    obtain ⟨ep, hep⟩ := collect_total (i := 0) (f := fun i x => do
      let fs ← asFields x
      validateProperties L (noncompositeTypes ++ ns) fs (refAt ref c!"embeds" i))
      (xs := members (.obj o kvs) c!"embeds") fun x hx k => by
        have hx' := m2 x hx
        obtain ⟨o', kvs', rfl, _⟩ := objectOf_obj hx'
        exact properties_ok (o := o') (fun v hv => objectOf_field hx' hv) fun name p w hp hn =>
          h w ⟨_, name, p, .inr (.inr hx), hp, hn⟩
    obtain ⟨pe, hpe⟩ := plurals_total (ref := ref) hc hp
    have hgraph : ∃ r, validateGraph L kvs ref = .ok r := by
      unfold validateGraph
      refine ⟨er ++ ce ++ gp ++ cp ++ ep ++ pe, ?_⟩
      · simp only [bind_ok]
        exact ⟨_, hnames, _, e1, _, e2, _, hce, _, hgp, _, hcp, _, hep, _, hpe, rfl⟩
    obtain ⟨r, hr⟩ := hgraph
    simp only [hoe, hr, bind, Except.bind]
    exact ⟨_, rfl⟩

end Mapry.Validation
