import Verif.CppBodies

/-!
# The structures and the definitions of the generated C++ files
-/

namespace Mapry.CppCode

set_option linter.unusedSimpArgs false

open Mapry.TypeGraph Mapry.Naming Mapry.ParseSchema
open Mapry.PyCode (Facts idOf idOf_eq allNames defNames attrs map_inj)
open Mapry.GoCode (ok_bind mapM_mem mapM_mem' mapM_cons Resolves needs_ty referencesOf)

variable {g : Graph} {cpp : Cpp} {date : Bool}

/-! ## Types -/

/-- The embeds which are stored by value in a member of the type -/
def byValue : Ty → List Str
  | .map y => byValue y
  | .embed n => [n]
  | _ => []

/-- The unqualified names by which the type is written -/
def written : Ty → List Str
  | .integer _ => [c!"int64_t"]
  | .array y _ _ => written y
  | .map y => written y
  | .cls n => [idOf n]
  | .embed n => [idOf n]
  | _ => []

theorem typeRepr_names {ty : Ty} {t : CTy} (h : typeRepr cpp ty = .ok t) :
    t.stored = (byValue ty).map idOf ∧ t.unqualified = written ty ∧
      ∀ n ∈ t.names, ∃ m, (Ty.cls m ∈ parts ty ∨ Ty.embed m ∈ parts ty) ∧ n = idOf m := by
  induction ty generalizing t with
  | array y lo hi ih =>
    obtain ⟨u, hu, h⟩ := ok_bind h
    cases h
    obtain ⟨h1, h2, h3⟩ := ih hu
    refine ⟨rfl, h2, ?_⟩
    intro n hn
    obtain ⟨m, hm, e⟩ := h3 n hn
    exact ⟨m, hm.imp (List.mem_cons_of_mem _) (List.mem_cons_of_mem _), e⟩
  | map y ih =>
    obtain ⟨u, hu, h⟩ := ok_bind h
    cases h
    obtain ⟨h1, h2, h3⟩ := ih hu
    refine ⟨h1, h2, ?_⟩
    intro n hn
    obtain ⟨m, hm, e⟩ := h3 n hn
    exact ⟨m, hm.imp (List.mem_cons_of_mem _) (List.mem_cons_of_mem _), e⟩
  | cls m =>
    obtain ⟨u, hu, h⟩ := ok_bind h
    cases h
    obtain rfl := idOf_eq hu
    exact ⟨rfl, rfl, fun n hn => ⟨m, .inl (self_mem_parts _), List.mem_singleton.1 hn⟩⟩
  | embed m =>
    obtain ⟨u, hu, h⟩ := ok_bind h
    cases h
    obtain rfl := idOf_eq hu
    exact ⟨rfl, rfl, fun n hn => ⟨m, .inr (self_mem_parts _), List.mem_singleton.1 hn⟩⟩
  | boolean | integer | float | string | duration => cases h; simp [CTy.stored, byValue, CTy.unqualified, written, CTy.names]
  | path =>
    obtain ⟨u, hu, h⟩ := ok_bind h
    cases h
    simp [CTy.stored, byValue, CTy.unqualified, written, CTy.names]
  | date | time | datetime | timeZone =>
    obtain ⟨u, hu, h⟩ := ok_bind h
    cases h
    cases u <;> simp [CTy.stored, byValue, CTy.unqualified, written, CTy.names]

theorem memberType_names (p : Property) (t : CTy) : (memberType p t).stored = t.stored ∧ (memberType p t).unqualified = t.unqualified ∧
    (memberType p t).names = t.names := by
  unfold memberType
  split <;> exact ⟨rfl, rfl, rfl⟩

/-- A value of `struct tm` -/
def clock : Ty → Bool
  | .date _ | .time _ | .datetime _ => true
  | _ => false

/-- The member has a default value which is written `tm{0}`. -/
def zeroed (date : Bool) (p : Property) : Bool := !date && clock p.ty && !p.optional

/-- The default value of a member fits. -/
theorem init_ok (hd : dateH cpp = .ok date) {p : Property} {f : Field} (h : propertyField cpp p = .ok f) (Γ : Env) :
    (∀ e ∈ f.init, ∃ t, typeOf ⟨[], [], []⟩ Γ e = some t ∧ converts f.ty t) ↔ (zeroed date p = true → Γ.hides c!"tm" = false) := by
  obtain ⟨t, ht, _, hty, ho, hr⟩ := propertyField_inv h
  cases hopt : p.optional with
  | true =>
    rw [ho hopt]
    simp [zeroed, hopt]
  | false =>
    have hr := hr hopt
    have hty : f.ty = t := by rw [hty]; simp [memberType, hopt]
    rw [hty]
    generalize f.init = i at hr
    have hz : zeroed date p = (!date && clock p.ty) := by simp [zeroed, hopt]
    rw [hz]
    generalize p.ty = ty at *
    cases ty with
    | boolean | integer | float => cases hr; cases ht; simp [typeOf, infer, Res.type?, converts, CTy.number, clock]
    | string | duration | path | array | map | embed =>
      cases hr
      simp [clock]
    | cls n =>
      cases hr
      obtain ⟨u, hu, ht⟩ := ok_bind ht
      cases ht
      simp [typeOf, infer, Res.type?, converts, clock]
    | date f | time f | datetime f =>
      simp only [defaultValue, hd] at hr
      simp only [typeRepr, hd] at ht
      cases hr
      cases ht
      cases date
      · simp only [clock, Bool.not_false, Bool.and_true, Bool.false_eq_true, if_false]
        cases hh : Γ.hides c!"tm" <;> simp [typeOf, infer, Res.type?, hh, converts]
      · simp [clock]
    | timeZone =>
      simp only [defaultValue, hd] at hr
      simp only [typeRepr, hd] at ht
      cases hr
      cases ht
      cases date <;> simp [typeOf, infer, Res.type?, converts, clock]

/-! ## One structure -/

/-- The names of the members do not stand in the way of the types. -/
structure Unhidden (date : Bool) (ps : List Property) (extra : List Field) (names : List Str) : Prop where
  types : ∀ p ∈ ps, ∀ x ∈ names, x ∉ written p.ty
  more : ∀ f ∈ extra, ∀ x ∈ names, x ∉ f.ty.unqualified
  tm : ∀ p ∈ ps, zeroed date p = true → c!"tm" ∉ names

theorem struct_ok_iff (hd : dateH cpp = .ok date) {declared complete : List Str} {s : Struct} {ps : List Property} {fs extra : List Field}
    (hs : s.fields = fs ++ extra ∨ s.fields = extra ++ fs) (hfs : ps.mapM (propertyField cpp) = .ok fs)
    (hn : (s.fields.map (·.name)).Nodup) (hk : ∀ x ∈ s.fields.map (·.name), x ∉ keywords)
    (hdecl : ∀ p ∈ ps, ∀ m, Ty.cls m ∈ parts p.ty ∨ Ty.embed m ∈ parts p.ty → idOf m ∈ declared)
    (hextra : ∀ f ∈ extra, (∀ n ∈ f.ty.names, n ∈ declared) ∧ f.ty.stored = [] ∧ f.init = none) :
    s.ok declared complete ↔ (∀ p ∈ ps, ∀ n ∈ byValue p.ty, idOf n ∈ complete) ∧ Unhidden date ps extra (s.fields.map (·.name)) := by
  have hmem : ∀ f, f ∈ s.fields ↔ f ∈ fs ∨ f ∈ extra := by
    intro f
    rcases hs with e | e <;> rw [e, List.mem_append]
    exact or_comm
  have hhide : Env.hides ⟨s.fields.map fun g => (.fixed g.name, g.ty), []⟩ c!"tm" = false ↔ c!"tm" ∉ s.fields.map (·.name) := by
    rw [Env.hides, Env.all, List.append_nil, List.any_eq_false]
    simp [Var.text]
  constructor
  · rintro ⟨_, h⟩
    refine ⟨?_, ?_, ?_, ?_⟩
    · intro p hp n hn
      obtain ⟨f, hf, hpf⟩ := mapM_mem' hfs hp
      obtain ⟨t, ht, _, hty, _⟩ := propertyField_inv hpf
      refine (h f ((hmem f).2 (.inl hf))).2.2.1 _ ?_
      rw [hty, (memberType_names p t).1, (typeRepr_names ht).1]
      exact List.mem_map.2 ⟨n, hn, rfl⟩
    · intro p hp x hx
      obtain ⟨f, hf, hpf⟩ := mapM_mem' hfs hp
      obtain ⟨t, ht, _, hty, _⟩ := propertyField_inv hpf
      obtain ⟨f', hf', rfl⟩ := List.mem_map.1 hx
      have := (h f ((hmem f).2 (.inl hf))).2.2.2.1 f' hf'
      rwa [hty, (memberType_names p t).2.1, (typeRepr_names ht).2.1] at this
    · intro f hf x hx
      obtain ⟨f', hf', rfl⟩ := List.mem_map.1 hx
      exact (h f ((hmem f).2 (.inr hf))).2.2.2.1 f' hf'
    · intro p hp hz
      obtain ⟨f, hf, hpf⟩ := mapM_mem' hfs hp
      exact hhide.1 ((init_ok hd hpf _).1 (h f ((hmem f).2 (.inl hf))).2.2.2.2 hz)
  · rintro ⟨h1, h2⟩
    refine ⟨hn, ?_⟩
    intro f hf
    refine ⟨hk _ (List.mem_map.2 ⟨f, hf, rfl⟩), ?_⟩
    rcases (hmem f).1 hf with hf' | hf'
    · obtain ⟨p, hp, hpf⟩ := mapM_mem hfs hf'
      obtain ⟨t, ht, _, hty, _⟩ := propertyField_inv hpf
      obtain ⟨e1, e2, e3⟩ := memberType_names p t
      obtain ⟨e4, e5, e6⟩ := typeRepr_names ht
      refine ⟨?_, ?_, ?_, ?_⟩
      · intro n hn
        rw [hty, e3] at hn
        obtain ⟨m, hm, rfl⟩ := e6 n hn
        exact hdecl p hp m hm
      · intro n hn
        rw [hty, e1, e4] at hn
        obtain ⟨m, hm, rfl⟩ := List.mem_map.1 hn
        exact h1 p hp m hm
      · intro f' hf''
        rw [hty, e2, e5]
        exact h2.types p hp _ (List.mem_map.2 ⟨f', hf'', rfl⟩)
      · exact (init_ok hd hpf _).2 fun hz => hhide.2 (h2.tm p hp hz)
    · obtain ⟨h3, h4, h5⟩ := hextra f hf'
      refine ⟨h3, by rw [h4]; simp, ?_, by rw [h5]; simp⟩
      intro f' hf''
      exact h2.more f hf' _ (List.mem_map.2 ⟨f', hf'', rfl⟩)

/-! ## All the structures -/

/-- The members of the structures are accepted one after the other. -/
def membersOk (declared : List Str) : (complete : List Str) → List Struct → Prop
  | _, [] => True
  | complete, s :: rest => s.ok declared complete ∧ membersOk declared (s.name :: complete) rest

theorem structsOk_split {declared : List Str} {l : List Struct} {complete : List Str} : structsOk declared complete l ↔
    ((l.map (·.name)).Nodup ∧ ∀ x ∈ l.map (·.name), x ∉ complete) ∧ (∀ x ∈ l.map (·.name), x ∉ keywords) ∧ membersOk declared complete l := by
  induction l generalizing complete with
  | nil => simp [structsOk, membersOk]
  | cons s l ih =>
    simp only [structsOk, membersOk, ih, List.map_cons, List.nodup_cons, List.forall_mem_cons, List.mem_cons, not_or]
    constructor
    · rintro ⟨h1, h2, h3, ⟨h4, h5⟩, h6, h7⟩
      refine ⟨⟨⟨fun h => (h5 _ h).1 rfl, h4⟩, ?_⟩, ?_, h3, h7⟩
      · rintro x (rfl | hx)
        · exact h1
        · exact (h5 x hx).2
      · rintro x (rfl | hx)
        · exact h2
        · exact h6 x hx
    · rintro ⟨⟨⟨h1, h2⟩, h3'⟩, h5', h7, h8⟩
      have h3 := h3' _ (.inl rfl)
      have h4 := fun x hx => h3' x (.inr hx)
      have h5 := h5' _ (.inl rfl)
      have h6 := fun x hx => h5' x (.inr hx)
      exact ⟨h3, h5, h7, ⟨h2, fun x hx => ⟨fun e => h1 (e ▸ hx), h4 x hx⟩⟩, h6, h8⟩

theorem membersOk_append {declared : List Str} {a b : List Struct} {complete : List Str} : membersOk declared complete (a ++ b) ↔
    membersOk declared complete a ∧ membersOk declared ((a.map (·.name)).reverse ++ complete) b := by
  induction a generalizing complete with
  | nil => simp [membersOk]
  | cons s a ih => simp [membersOk, ih, and_assoc]

/-- The embeds which are stored by value are defined before. -/
def orderedFrom : (complete : List Str) → List Embed → Prop
  | _, [] => True
  | complete, e :: es => (∀ p ∈ e.properties, ∀ n ∈ byValue p.ty, idOf n ∈ complete) ∧ orderedFrom (idOf e.name :: complete) es

theorem orderedFrom_iff {complete : List Str} {es : List Embed} : orderedFrom complete es ↔
    ∀ a e b, es = a ++ e :: b → ∀ p ∈ e.properties, ∀ n ∈ byValue p.ty, idOf n ∈ a.map (fun e => idOf e.name) ∨ idOf n ∈ complete := by
  induction es generalizing complete with
  | nil => simp [orderedFrom]
  | cons e es ih =>
    rw [orderedFrom, ih]
    constructor
    · rintro ⟨h1, h2⟩ a e' b h p hp n hn
      cases a with
      | nil => cases h; exact .inr (h1 p hp n hn)
      | cons x a =>
        cases h
        rcases h2 a e' b rfl p hp n hn with h | h
        · exact .inl (by rw [List.map_cons]; exact List.mem_cons_of_mem _ h)
        · rcases List.mem_cons.1 h with h | h
          · exact .inl (by rw [h]; simp)
          · exact .inr h
    · intro h
      refine ⟨fun p hp n hn => ?_, fun a e' b h1 p hp n hn => ?_⟩
      · rcases h [] e es rfl p hp n hn with h | h
        · cases h
        · exact h
      · rcases h (e :: a) e' b (by rw [h1]; rfl) p hp n hn with h | h
        · rw [List.map_cons] at h
          rcases List.mem_cons.1 h with h | h
          · exact .inr (by rw [h]; simp)
          · exact .inl h
        · exact .inr (List.mem_cons_of_mem _ h)

theorem membersOk_all {declared : List Str} {α : Type} {F : α → Except Exc Struct} {l : List α} {ss : List Struct} {C : α → Prop}
    {base : List Str} (h : l.mapM F = .ok ss)
    (hC : ∀ a ∈ l, ∀ s, F a = .ok s → ∀ complete, (∀ x ∈ base, x ∈ complete) → (s.ok declared complete ↔ C a)) {complete : List Str}
    (hb : ∀ x ∈ base, x ∈ complete) : membersOk declared complete ss ↔ ∀ a ∈ l, C a := by
  induction l generalizing ss complete with
  | nil => cases h; simp [membersOk]
  | cons a l ih =>
    obtain ⟨s, ss', h1, h2, rfl⟩ := mapM_cons h
    rw [membersOk, hC a (by simp) s h1 complete hb, List.forall_mem_cons, ih h2 (fun a ha => hC a (by simp [ha]))
      fun x hx => List.mem_cons_of_mem _ (hb x hx)]

theorem membersOk_embeds {declared : List Str} {l : List Embed} {ss : List Struct} {C : Embed → Prop}
    (h : l.mapM (embedStruct cpp) = .ok ss)
    (hC : ∀ e ∈ l, ∀ s, embedStruct cpp e = .ok s → ∀ complete,
      (s.ok declared complete ↔ (∀ p ∈ e.properties, ∀ n ∈ byValue p.ty, idOf n ∈ complete) ∧ C e)) {complete : List Str} :
    membersOk declared complete ss ↔ orderedFrom complete l ∧ ∀ e ∈ l, C e := by
  induction l generalizing ss complete with
  | nil => cases h; simp [membersOk, orderedFrom]
  | cons a l ih =>
    obtain ⟨s, ss', h1, h2, rfl⟩ := mapM_cons h
    rw [membersOk, orderedFrom, hC a (by simp) s h1 complete, List.forall_mem_cons, ih h2 (fun a ha => hC a (by simp [ha])),
      (embedStruct_inv h1).1]
    constructor
    · rintro ⟨⟨h1, h2⟩, h3, h4⟩
      exact ⟨⟨h1, h3⟩, h2, h4⟩
    · rintro ⟨⟨h1, h3⟩, h2, h4⟩
      exact ⟨⟨h1, h2⟩, h3, h4⟩

theorem keywords_cpp : ∀ x ∈ keywords, x ∈ LangValidate.cppKeywords := by decide +kernel

theorem keywords_lower : ∀ x ∈ keywords, lower x = x := by decide +kernel

/-- A member with the name of a property is no keyword. -/
theorem name_keyword {p : Property} (h : lower p.name ∉ LangValidate.cppKeywords) : p.name ∉ keywords := by
  intro hk
  refine h ?_
  rw [keywords_lower _ hk]
  exact keywords_cpp _ hk

theorem fields_names {ps : List Property} {fs : List Field} (h : ps.mapM (propertyField cpp) = .ok fs) :
    fs.map (·.name) = ps.map (·.name) := by
  rw [← cells_keys h, cells, List.map_map]
  rfl

theorem forward_inv {w : List Str} (h : forward g = .ok w) : ∀ n ∈ allNames g, idOf n ∈ w := by
  unfold forward at h
  obtain ⟨x, hx, h⟩ := ok_bind h
  obtain ⟨cs, hcs, h⟩ := ok_bind h
  obtain ⟨es, hes, h⟩ := ok_bind h
  cases h
  obtain rfl := idOf_eq hx
  intro n hn
  simp only [allNames, defNames, List.mem_append, List.mem_map, List.mem_singleton] at hn
  rcases hn with (⟨c, hc, rfl⟩ | ⟨e, he, rfl⟩) | rfl
  · obtain ⟨y, hy, h1⟩ := mapM_mem' hcs hc
    obtain rfl := idOf_eq h1
    simp [hy]
  · obtain ⟨y, hy, h1⟩ := mapM_mem' hes he
    obtain rfl := idOf_eq h1
    simp [hy]
  · simp

/-- The header with the types is accepted. -/
structure HeaderOk (g : Graph) (date : Bool) : Prop where
  ids : (structNames g).Nodup
  order : orderedFrom [] g.embeds
  embeds : ∀ e ∈ g.embeds, Unhidden date e.properties [] (e.properties.map (·.name))
  classes : ∀ c ∈ g.classes, Unhidden date c.properties [] (c!"id" :: c.properties.map (·.name))
  graph : Unhidden date g.properties (g.classes.map registryCell) (g.properties.map (·.name) ++ g.classes.map fun c => lower c.plural)

theorem Unhidden.id {ps : List Property} {names : List Str} :
    Unhidden date ps [⟨c!"id", .string, none⟩] names ↔ Unhidden date ps [] names := by
  constructor
  · rintro ⟨h1, h2, h3⟩
    exact ⟨h1, by simp, h3⟩
  · rintro ⟨h1, h2, h3⟩
    exact ⟨h1, by simp [CTy.unqualified], h3⟩

theorem structs_iff (hf : CppFacts g) {H : TypesHeader} (h : typesHeader g cpp = .ok H) (hd : dateH cpp = .ok date) :
    structsOk H.forward [] H.structs ↔ HeaderOk g date := by
  obtain ⟨es, cs, gs, _, hfwd, hes, hcs, hgs, e⟩ := typesHeader_inv h
  have hdecl : ∀ (t : Ty) (m : Str), Occurs g t → t = .cls m ∨ t = .embed m → idOf m ∈ H.forward := by
    rintro t m ht (rfl | rfl)
    · obtain ⟨c, hc, rfl⟩ := hf.resolves.1 m ht
      exact forward_inv hfwd _ (by simp [allNames, defNames]; exact .inl ⟨c, hc, rfl⟩)
    · obtain ⟨c, hc, rfl⟩ := hf.resolves.2 m ht
      exact forward_inv hfwd _ (by simp [allNames, defNames]; exact .inr (.inl ⟨c, hc, rfl⟩))
  have hval : ∀ {ty : Ty} {n : Str}, n ∈ byValue ty → Ty.embed n ∈ parts ty := by
    intro ty n hn
    induction ty with
    | map y ih => exact List.mem_cons_of_mem _ (ih hn)
    | embed m => rw [List.mem_singleton.1 hn]; exact self_mem_parts _
    | _ => cases hn
  have hkey : ∀ x ∈ H.structs.map (·.name), x ∉ keywords := by
    intro x hx hk
    rw [header_names h, mem_structNames] at hx
    obtain ⟨n, hn, rfl⟩ := hx
    rcases List.mem_append.1 hn with hn | hn
    · exact hf.idKeyword n hn (keywords_cpp _ hk)
    · rw [List.mem_singleton.1 hn] at hk
      exact hf.graphKeyword (keywords_cpp _ hk)
  -- the embeds
  have h1 := membersOk_embeds (declared := H.forward) (complete := []) (C := fun e => Unhidden date e.properties [] (e.properties.map (·.name))) hes <| by
    intro e he s hs complete
    obtain ⟨_, hfs⟩ := embedStruct_inv hs
    rw [← fields_names hfs]
    refine struct_ok_iff hd (.inl (List.append_nil _).symm) hfs ?_ ?_ ?_ (by simp)
    · rw [fields_names hfs]
      simpa using nodup_names (ks := []) (by simpa using hf.embed e he) (by simp)
    · intro x hx
      rw [fields_names hfs] at hx
      obtain ⟨p, hp, rfl⟩ := List.mem_map.1 hx
      exact name_keyword (hf.embedKeyword e he p hp)
    · intro p hp m hm
      rcases hm with hm | hm
      · exact hdecl _ m (.embed e p he hp hm) (.inl rfl)
      · exact hdecl _ m (.embed e p he hp hm) (.inr rfl)
  have hbase : ∀ {t : Ty} {n : Str}, Occurs g t → t = .embed n → idOf n ∈ es.map (·.name) := by
    rintro t n ht rfl
    obtain ⟨e', he', rfl⟩ := hf.resolves.2 n ht
    rw [names_of hes fun _ _ hs => (embedStruct_inv hs).1]
    exact List.mem_map.2 ⟨e', he', rfl⟩
  -- the classes
  have h2 := membersOk_all (declared := H.forward) (complete := (es.map (·.name)).reverse ++ []) (base := es.map (·.name))
    (C := fun c => Unhidden date c.properties [] (c!"id" :: c.properties.map (·.name))) hcs (by
      intro c hc s hs complete hb
      obtain ⟨_, fs, hfs, e1⟩ := classStruct_inv hs
      have e2 : s.fields.map (·.name) = c!"id" :: c.properties.map (·.name) := by rw [e1, List.map_cons, fields_names hfs]
      obtain ⟨hn1, hn2⟩ := hf.cls c hc
      rw [← e2, ← Unhidden.id]
      refine (struct_ok_iff (extra := [⟨c!"id", .string, none⟩]) hd (.inr (by rw [e1]; rfl)) hfs ?_ ?_ ?_ (by simp [CTy.names, CTy.stored])).trans ?_
      · have hn' : (attrs c.properties ++ [c!"id"]).Nodup := by
          refine List.nodup_append.2 ⟨hn1, by simp, ?_⟩
          intro a ha b hb e
          rw [List.mem_singleton.1 hb] at e
          exact hn2 (e ▸ ha)
        have := nodup_names (ks := [c!"id"]) hn' (by decide)
        obtain ⟨h3, h4, h5⟩ := List.nodup_append.1 this
        rw [e2, List.nodup_cons]
        exact ⟨fun hm => h5 _ hm c!"id" (by simp) rfl, h3⟩
      · intro x hx
        rw [e2] at hx
        rcases List.mem_cons.1 hx with rfl | hx
        · decide +kernel
        · obtain ⟨p, hp, rfl⟩ := List.mem_map.1 hx
          exact name_keyword (hf.clsKeyword c hc p hp)
      · intro p hp m hm
        rcases hm with hm | hm
        · exact hdecl _ m (.cls c p hc hp hm) (.inl rfl)
        · exact hdecl _ m (.cls c p hc hp hm) (.inr rfl)
      · exact and_iff_right fun p hp n hn => hb _ (hbase (.cls c p hc hp (hval hn)) rfl)) (by simp)
  -- the graph
  have h3 : ∀ complete, (∀ x ∈ es.map (·.name), x ∈ complete) → (gs.ok H.forward complete ↔
      Unhidden date g.properties (g.classes.map registryCell) (g.properties.map (·.name) ++ g.classes.map fun c => lower c.plural)) := by
    intro complete hb
    obtain ⟨_, fs, hfs, e1⟩ := graphStruct_inv hgs
    have e2 : gs.fields.map (·.name) = g.properties.map (·.name) ++ g.classes.map fun c => lower c.plural := by
      rw [e1, List.map_append, fields_names hfs, List.map_map]
      rfl
    rw [← e2]
    refine (struct_ok_iff (extra := g.classes.map registryCell) hd (.inl e1) hfs ?_ ?_ ?_ ?_).trans ?_
    · rw [e2]
      refine nodup_names hf.graph ?_
      intro k hk
      obtain ⟨c, _, rfl⟩ := List.mem_map.1 hk
      exact lower_twice _
    · intro x hx
      rw [e2] at hx
      rcases List.mem_append.1 hx with hx | hx
      · obtain ⟨p, hp, rfl⟩ := List.mem_map.1 hx
        exact name_keyword (hf.propKeyword p hp)
      · obtain ⟨c, hc, rfl⟩ := List.mem_map.1 hx
        exact fun hk => hf.pluralKeyword c hc (keywords_cpp _ hk)
    · intro p hp m hm
      rcases hm with hm | hm
      · exact hdecl _ m (.graph p hp hm) (.inl rfl)
      · exact hdecl _ m (.graph p hp hm) (.inr rfl)
    · intro f hf'
      obtain ⟨c, hc, rfl⟩ := List.mem_map.1 hf'
      refine ⟨?_, rfl, rfl⟩
      intro n hn
      rw [List.mem_singleton.1 hn]
      exact forward_inv hfwd _ (by simp [allNames, defNames]; exact .inl ⟨c, hc, rfl⟩)
    · exact and_iff_right fun p hp n hn => hb _ (hbase (.graph p hp (hval hn)) rfl)
  rw [structsOk_split, header_names h]
  have hk' := hkey
  rw [header_names h] at hk'
  rw [and_iff_right (show ∀ x ∈ structNames g, x ∉ keywords from hk'), e, membersOk_append, membersOk_append, h1, h2]
  simp only [membersOk, and_true]
  rw [h3 _ (by intro x hx; simp only [List.mem_append, List.mem_reverse, List.map_append]; exact .inl (.inl hx))]
  constructor
  · rintro ⟨⟨h1, _⟩, ⟨⟨h2, h3⟩, h4⟩, h5⟩
    exact ⟨h1, h2, h3, h4, h5⟩
  · rintro ⟨h1, h2, h3, h4, h5⟩
    exact ⟨⟨h1, by simp⟩, ⟨⟨h2, h3⟩, h4⟩, h5⟩

end Mapry.CppCode
